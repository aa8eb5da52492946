import Mathlib.Tactic.Ring
import Mathlib.Tactic.Linarith
import Mathlib.Tactic.FieldSimp
import Verif.Spec.Fixings
import Verif.Proofs.Sort

namespace Frm
open Spec

set_option autoImplicit false

theorem isSorted_iff (l : List Int) : isSorted l = true ↔ l.Pairwise (· ≤ ·) := by
  induction l with
  | nil => simp [isSorted]
  | cons a l ih =>
    cases l with
    | nil => simp [isSorted]
    | cons b l =>
      simp only [isSorted, Bool.and_eq_true, decide_eq_true_eq, ih, List.pairwise_cons, List.mem_cons, forall_eq_or_imp]
      constructor
      · rintro ⟨h, h2, h3⟩
        exact ⟨⟨h, fun x hx => Int.le_trans h (h2 x hx)⟩, h2, h3⟩
      · rintro ⟨⟨h, -⟩, h2, h3⟩
        exact ⟨h, h2, h3⟩

variable {α : Type}

/-- Advancing to an earlier date first makes no difference. -/
theorem asofAdvance_advance {d1 d2 : Int} (h : d1 ≤ d2) (right : List (Int × α)) :
    ∀ cur, asofAdvance d2 (asofAdvance d1 right cur).1 (asofAdvance d1 right cur).2 = asofAdvance d2 right cur := by
  induction right with
  | nil => intro cur; rfl
  | cons p right ih =>
    obtain ⟨t, x⟩ := p
    intro cur
    by_cases ht : t ≤ d1
    · have ht2 : t ≤ d2 := by omega
      simp only [asofAdvance, if_pos ht, if_pos ht2]
      exact ih (some x)
    · simp only [asofAdvance, if_neg ht]

theorem asofLoop_eq (right : List (Int × α)) (ds : List Int) : ∀ cur, ds.Pairwise (· ≤ ·) →
    asofLoop right cur ds = ds.map (fun d => (asofAdvance d right cur).2) := by
  induction ds generalizing right with
  | nil => intro cur _; rfl
  | cons d ds ih =>
    intro cur hp
    rw [List.pairwise_cons] at hp
    simp only [asofLoop, List.map_cons, List.cons.injEq, true_and]
    rw [ih _ _ hp.2]
    apply List.map_congr_left
    intro d' hd'
    rw [asofAdvance_advance (hp.1 d' hd')]

theorem asofAdvance_snd_of_later {d : Int} {right : List (Int × α)} (h : ∀ p ∈ right, d < p.1) (cur : Option α) :
    (asofAdvance d right cur).2 = cur := by
  cases right with
  | nil => rfl
  | cons p right =>
    obtain ⟨t, x⟩ := p
    have := h (t, x) (by simp)
    simp only [asofAdvance]
    rw [if_neg (by simpa using this)]

/-- In a sorted table the loop finds the entry in force. -/
theorem asofAdvance_spec {right : List (Int × α)} (hs : (right.map (·.1)).Pairwise (· ≤ ·)) (d : Int) :
    ∀ cur, (∃ x, (asofAdvance d right cur).2 = some x ∧ AsOf right d (some x)) ∨
      ((asofAdvance d right cur).2 = cur ∧ AsOf right d none) := by
  induction right with
  | nil => intro cur; exact .inr ⟨rfl, by simp [AsOf]⟩
  | cons p right ih =>
    obtain ⟨t, x⟩ := p
    intro cur
    simp only [List.map_cons, List.pairwise_cons] at hs
    by_cases ht : t ≤ d
    · left
      simp only [asofAdvance, if_pos ht]
      rcases ih hs.2 (some x) with ⟨y, hy, pre, t', post, he, h1, h2⟩ | ⟨h1, h2⟩
      · exact ⟨y, hy, (t, x) :: pre, t', post, by simp [he], h1, h2⟩
      · exact ⟨x, h1, [], t, right, rfl, ht, h2⟩
    · right
      simp only [asofAdvance, if_neg ht]
      refine ⟨trivial, ?_⟩
      intro p hp
      rcases List.mem_cons.mp hp with rfl | hp
      · simpa using ht
      · have := hs.1 p.1 (List.mem_map_of_mem hp)
        omega

theorem asof_none {right : List (Int × α)} (hs : (right.map (·.1)).Pairwise (· ≤ ·)) (d : Int) :
    AsOf right d (asofAdvance d right none).2 := by
  rcases asofAdvance_spec hs d none with ⟨x, hx, h⟩ | ⟨h1, h2⟩
  · rw [hx]; exact h
  · rw [h1]; exact h2

/-- The entry in force is unique in a sorted table. -/
theorem AsOf_unique {right : List (Int × α)} {d : Int} {a b : Option α} (ha : AsOf right d a) (hb : AsOf right d b) :
    a = b := by
  cases a with
  | none => cases b with
    | none => rfl
    | some y =>
      obtain ⟨pre, t, post, he, h1, -⟩ := hb
      have := ha (t, y) (by rw [he]; simp)
      exact absurd h1 (by simpa using this)
  | some x => cases b with
    | none =>
      obtain ⟨pre, t, post, he, h1, -⟩ := ha
      have := hb (t, x) (by rw [he]; simp)
      exact absurd h1 (by simpa using this)
    | some y =>
      obtain ⟨pre, t, post, he, h1, h2⟩ := ha
      obtain ⟨pre', t', post', he', h1', h2'⟩ := hb
      rw [he] at he'
      rcases List.append_eq_append_iff.mp he' with ⟨c, hc1, hc2⟩ | ⟨c, hc1, hc2⟩
      · cases c with
        | nil => simp at hc2; rw [hc2.1.2]
        | cons q c =>
          simp only [List.cons_append, List.cons.injEq] at hc2
          have := h2 (t', y) (by rw [hc2.2]; simp)
          exact absurd h1' (by simpa using this)
      · cases c with
        | nil => simp at hc2; rw [hc2.1.2]
        | cons q c =>
          simp only [List.cons_append, List.cons.injEq] at hc2
          have := h2' (t, x) (by rw [hc2.2]; simp)
          exact absurd h1 (by simpa using this)

theorem map_zipIdx_sorted {β : Type} (l : List Int) (g : Int → β) (k : Nat) :
    ((l.zipIdx k).map (fun p => (p.2, g p.1))).Pairwise (fun a b => a.1 < b.1) := by
  induction l generalizing k with
  | nil => simp
  | cons a l ih =>
    simp only [List.zipIdx_cons, List.map_cons, List.pairwise_cons]
    refine ⟨?_, ih (k + 1)⟩
    intro q hq
    simp only [List.mem_map] at hq
    obtain ⟨p, hp, rfl⟩ := hq
    have := List.le_snd_of_mem_zipIdx hp
    simp only
    omega

/-- Sorting positions back restores the request order. -/
theorem sort_back {β : Type} (dates : List Int) (sorted : List (Int × Nat)) (hp : sorted.Perm dates.zipIdx) (g : Int → β) :
    (sortBy (fun x : Nat × β => (x.1 : Int)) (sorted.map (fun p => (p.2, g p.1)))).map (·.2) = dates.map g := by
  have hperm : (sorted.map (fun p => (p.2, g p.1))).Perm (dates.zipIdx.map (fun p => (p.2, g p.1))) := hp.map _
  have hst := map_zipIdx_sorted dates g 0
  have heq : sortBy (fun x : Nat × β => (x.1 : Int)) (sorted.map (fun p => (p.2, g p.1))) =
      dates.zipIdx.map (fun p => (p.2, g p.1)) := by
    refine List.Perm.eq_of_pairwise (le := fun a b => a.1 ≤ b.1) ?_ ?_ (hst.imp (fun h => Nat.le_of_lt h))
      ((sortBy_perm _ _).trans hperm)
    · intro a b ha hb h1 h2
      have ha' : a ∈ dates.zipIdx.map (fun p => (p.2, g p.1)) := ((sortBy_perm _ _).trans hperm).subset ha
      have hab : a.1 = b.1 := Nat.le_antisymm h1 h2
      obtain ⟨i, hi, rfl⟩ := List.getElem_of_mem ha'
      obtain ⟨j, hj, rfl⟩ := List.getElem_of_mem hb
      have hpw := List.pairwise_iff_getElem.mp hst
      rcases Nat.lt_trichotomy i j with h | h | h
      · have := hpw i j hi hj h; omega
      · subst h; rfl
      · have := hpw j i hj hi h; omega
    · exact (sortBy_sorted _ _).imp (fun h => by omega)
  rw [heq, List.map_map]
  have : (Prod.snd ∘ fun p : Int × Nat => (p.2, g p.1)) = g ∘ Prod.fst := rfl
  rw [this, ← List.map_map, List.zipIdx_map_fst]

end Frm
