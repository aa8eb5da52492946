import Verif.Props.C33
import Verif.Props.C30

/-! # C34 — Term swap-curve fixings

The two masks of `TermSwapCurve.get_fixings` are the same, so the property is false of the code: the theorems below say
what it does instead. -/

namespace Frm.Props
open Spec

set_option autoImplicit false

/-- What the code does: periods starting before the curve date get `nan`; periods starting on or after it get the
historical fixing in force on their start date, the forward rates being overwritten. -/
theorem C34_actual (sort : List (Int × Nat) → List (Int × Nat)) (hsort : SortsByDate sort) (curveDate : Int)
    (forward : List Int → List Int → Except Err (List NRat)) (F : Int → Int → NRat) (hF : PeriodByPeriod forward F)
    (fixings : List (Int × Rat)) (hfix : (fixings.map (·.1)).Pairwise (· ≤ ·)) (starts ends : List Int)
    (hlen : ends.length = starts.length) (r : List NRat)
    (h : termGetFixings sort curveDate forward fixings starts ends = .ok r) :
    r.length = starts.length ∧ ∀ (i : Nat) (s : Int), starts[i]? = some s → ∃ x, r[i]? = some x ∧
      (s < curveDate → x = none) ∧ (curveDate ≤ s → AsOf fixings s x) := by
  unfold termGetFixings at h
  simp only [bind, Except.bind] at h
  set m := starts.map (fun s => decide (curveDate ≤ s)) with hm
  have l1 : m.length = starts.length := by simp [hm]
  cases h1 : forward (gather m starts) (gather m ends) with
  | error _ => rw [h1] at h; cases h
  | ok fwd =>
  rw [h1] at h
  simp only at h
  obtain ⟨hist, hh, hhl, hhist⟩ := C30_as_of sort hsort fixings hfix (gather m starts)
  rw [hh] at h
  simp only [pure, Except.pure, Except.ok.injEq] at h
  have hlen' : (maskedSet m (List.replicate starts.length (none : NRat)) fwd).length = starts.length := by
    rw [maskedSet_length, List.length_replicate]
  refine ⟨by rw [← h, maskedSet_length, hlen'], ?_⟩
  intro i s hs
  have hi : i < ends.length := by rw [hlen]; exact (List.getElem?_eq_some_iff.mp hs).1
  have he : ends[i]? = some ends[i] := List.getElem?_eq_getElem hi
  have v : m[i]? = some (decide (curveDate ≤ s)) := by simp only [hm, List.getElem?_map, hs, Option.map_some]
  have g2 := maskedSet_get (fun s _ x => AsOf fixings s x) m starts ends
    (maskedSet m (List.replicate starts.length none) fwd) hist l1 hlen hlen' (by
      intro k s e hks hke
      have hk : k < hist.length := by rw [hhl]; exact (List.getElem?_eq_some_iff.mp hks).1
      exact ⟨hist[k], List.getElem?_eq_getElem hk, hhist k s hist[k] hks (List.getElem?_eq_getElem hk)⟩) i s ends[i] hs he
  by_cases hc : curveDate ≤ s
  · obtain ⟨x, hx, hP⟩ := g2.1 (by rw [v]; simp [hc])
    exact ⟨x, by rw [← h, hx], fun h => by omega, fun _ => hP⟩
  · have n1 : m[i]? = some false := by rw [v]; simp; omega
    have g1 := maskedSet_get (fun s e x => x = F s e) m starts ends (List.replicate starts.length none) fwd l1 hlen
      (by simp) (fun k s e hks hke => ⟨F s e, hF _ _ fwd h1 k s e hks hke, rfl⟩) i s ends[i] hs he
    refine ⟨none, ?_, fun _ => rfl, fun h => absurd h hc⟩
    rw [← h, g2.2 n1, g1.2 n1, List.getElem?_replicate, if_pos (by rw [← hlen]; exact hi)]

/-- Both halves of the property fail: with a forward rate of 5 everywhere and a fixing of 2 on day 1, the past period
starting on day 3 gets `nan` instead of 2, the future one starting on day 12 gets 2 instead of 5. -/
theorem C34_fails :
    termGetFixings (sortBy (·.1)) 10 (fun s _ => .ok (s.map (fun _ => some 5))) [(1, 2)] [3, 12] [6, 15] =
      .ok [none, some 2] := by decide +kernel

/-- Hypotheses of `C34_actual`. -/
example : SortsByDate (sortBy (·.1)) ∧ PeriodByPeriod (fun s _ => .ok (s.map (fun _ => some (5 : Rat)))) (fun _ _ => some 5) ∧
    ([((1 : Int), (2 : Rat))].map (·.1)).Pairwise (· ≤ ·) := by
  refine ⟨fun l => ⟨sortBy_perm _ l, sortBy_sorted _ l⟩, ?_, by simp⟩
  intro S E v hv k s e hs he
  simp only [Except.ok.injEq] at hv
  subst hv
  simp only [List.getElem?_map, hs, Option.map_some]

end Frm.Props
