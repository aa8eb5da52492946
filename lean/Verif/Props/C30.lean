import Verif.Proofs.Fixings

/-! # C30 — Historical term fixings are looked up as of the fixing date, in request order -/

namespace Frm.Props
open Spec

set_option autoImplicit false

/-- For a table in date order, every requested date — in the order requested, with repetitions — gets the last fixing
dated on or before it, and `nan` if there is none; however the sort orders equal dates. -/
theorem C30_as_of {α : Type} (sort : List (Int × Nat) → List (Int × Nat)) (hsort : SortsByDate sort)
    (table : List (Int × α)) (ht : (table.map (·.1)).Pairwise (· ≤ ·)) (dates : List Int) :
    ∃ r, indexHistoricalFixings sort table dates = .ok r ∧ r.length = dates.length ∧
      ∀ (i : Nat) (d : Int) (x : Option α), dates[i]? = some d → r[i]? = some x → AsOf table d x := by
  obtain ⟨hperm, hsorted⟩ := hsort dates.zipIdx
  have h1 : isSorted ((sort dates.zipIdx).map (·.1)) = true := by
    rw [isSorted_iff]; exact List.pairwise_map.mpr hsorted
  have h2 : isSorted (table.map (·.1)) = true := by rw [isSorted_iff]; exact ht
  have hz : (((sort dates.zipIdx).map (·.2)).zip
      (((sort dates.zipIdx).map (·.1)).map (fun d => (asofAdvance d table none).2))) =
      (sort dates.zipIdx).map (fun p => (p.2, (asofAdvance p.1 table none).2)) := by
    rw [List.map_map, List.zip_map']
    rfl
  have heval : indexHistoricalFixings sort table dates = .ok (dates.map (fun d => (asofAdvance d table none).2)) := by
    unfold indexHistoricalFixings mergeAsof
    simp only [h1, h2, Bool.and_self, if_true, bind, Except.bind, pure, Except.pure, Except.ok.injEq]
    rw [asofLoop_eq _ _ _ (List.pairwise_map.mpr hsorted), hz]
    exact sort_back dates _ hperm (fun d => (asofAdvance d table none).2)
  refine ⟨_, heval, by simp, ?_⟩
  intro i d x hd hx
  simp only [List.getElem?_map, hd, Option.map_some, Option.some.injEq] at hx
  subst hx
  exact asof_none ht d

/-- The entry in force on a day is unique, so the previous theorem determines the result. -/
theorem C30_unique {α : Type} (table : List (Int × α)) (d : Int) (a b : Option α) (ha : AsOf table d a)
    (hb : AsOf table d b) : a = b := AsOf_unique ha hb

/-- A table that is not in date order is rejected. -/
theorem C30_unsorted {α : Type} (sort : List (Int × Nat) → List (Int × Nat)) (table : List (Int × α))
    (ht : ¬ (table.map (·.1)).Pairwise (· ≤ ·)) (dates : List Int) :
    indexHistoricalFixings sort table dates = .error .value := by
  have h2 : isSorted (table.map (·.1)) = false := by
    rw [Bool.eq_false_iff]; intro h; exact ht ((isSorted_iff _).mp h)
  unfold indexHistoricalFixings mergeAsof
  simp only [h2, Bool.and_false]
  rfl

/-- A sort as assumed exists. -/
example : SortsByDate (sortBy (·.1)) := fun l => ⟨sortBy_perm _ l, sortBy_sorted _ l⟩

/-- Requests out of order, repeated, between fixings and before the first. -/
example : indexHistoricalFixings (sortBy (·.1))
    [(10, 1), (20, 2), (30, 3)] [25, 10, 5, 25, 40] = .ok [some 2, some 1, none, some 2, some 3] := by decide +kernel

end Frm.Props
