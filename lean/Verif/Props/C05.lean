import Verif.Props.C04

/-! # C05 — `workday` steps exactly n business days -/

namespace Frm.Props
open Spec

/-- For `n ≥ 0`, `workday d n` is *the* business day `w` such that exactly `n` business days lie in `(r, w]`, `r` being
the first business day on or after `d`. -/
theorem C05_forward {cal : BusCal} (h : cal.Ok) (d : Int) (n : Nat) (w : Int) :
    workday cal d n = w ↔
      ∃ r, FirstOnOrAfter cal d r ∧ r ≤ w ∧ isBusDay cal w = true ∧ busDaysBetween cal r w = n := by
  have hb := following_bus h d
  obtain ⟨i1, i2, i3⟩ := iter_next_spec h n hb
  have e : workday cal d n = iter (nextBusDay cal) n (following cal d) := by
    unfold workday stepBusDays; rw [if_pos (by omega)]; simp
  rw [e]
  constructor
  · rintro rfl
    exact ⟨_, following_spec h d, i2, i1, i3⟩
  · rintro ⟨r, h1, h2, h3, h4⟩
    have := (following_eq_iff h).mpr h1
    subst this
    exact busDay_unique_fwd i1 h3 i2 h2 (by omega)

/-- For a negative offset, the `n`-th business day before the rolled date. -/
theorem C05_backward {cal : BusCal} (h : cal.Ok) (d : Int) (n : Nat) (w : Int) :
    workday cal d (-n) = w ↔
      ∃ r, FirstOnOrAfter cal d r ∧ w ≤ r ∧ isBusDay cal w = true ∧ busDaysBetween cal w r = n := by
  have hb := following_bus h d
  obtain ⟨i1, i2, i3⟩ := iter_prev_spec h n hb
  have e : workday cal d (-n) = iter (prevBusDay cal) n (following cal d) := by
    unfold workday stepBusDays
    by_cases h0 : (0 : Int) ≤ -n
    · have : n = 0 := by omega
      subst this; rfl
    · rw [if_neg h0, Int.neg_neg]; simp
  rw [e]
  constructor
  · rintro rfl
    exact ⟨_, following_spec h d, i2, i1, i3⟩
  · rintro ⟨r, h1, h2, h3, h4⟩
    have := (following_eq_iff h).mpr h1
    subst this
    exact busDay_unique_bwd i1 h3 i2 h2 (by omega)

/-- Steps compose, for offsets of any sign. -/
theorem C05_compose {cal : BusCal} (h : cal.Ok) (d m n : Int) :
    workday cal (workday cal d m) n = workday cal d (m + n) := by
  unfold workday
  have hb := following_bus h d
  rw [following_of_bus h (stepBusDays_bus h hb m), stepBusDays_add h hb]

/-- Forward then back returns the rolled date. -/
theorem C05_round_trip {cal : BusCal} (h : cal.Ok) (d n : Int) :
    FirstOnOrAfter cal d (workday cal (workday cal d n) (-n)) := by
  rw [C05_compose h, Int.add_right_neg]
  exact following_spec h d

/-- Weakly monotone in the date and strictly monotone in the offset. -/
theorem C05_strict_in_offset {cal : BusCal} (h : cal.Ok) (d m : Int) (k : Nat) :
    workday cal d m < workday cal d (m + (k + 1)) := by
  rw [← C05_compose h]
  have hb : isBusDay cal (workday cal d m) = true := stepBusDays_bus h (following_bus h d) m
  have := (C05_forward h (workday cal d m) (k + 1) _).mp rfl
  obtain ⟨r, hr, h2, h3, h4⟩ := this
  have e : r = workday cal d m := by
    have := (following_eq_iff h).mpr hr
    rw [following_of_bus h hb] at this; exact this.symm
  subst e
  push_cast at *
  rcases Int.lt_or_eq_of_le h2 with hlt | heq
  · exact hlt
  · rw [← heq, busDaysBetween_self] at h4; omega

example : workday weekdaysXmas (mkDate 2024 12 24) 2 = mkDate 2024 12 30 := by decide +kernel
example : workday weekdaysXmas (mkDate 2024 12 28) (-1) = mkDate 2024 12 27 := by decide +kernel
example : weekdaysXmas.Ok := weekdaysXmas_ok

end Frm.Props
