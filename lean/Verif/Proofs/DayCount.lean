import Mathlib.Tactic.Ring
import Mathlib.Tactic.FieldSimp
import Mathlib.Tactic.Linarith
import Mathlib.Data.Rat.Cast.Order
import Verif.Model.DayCount
import Verif.Spec.DayCount
import Verif.Proofs.Months

namespace Frm
open Spec

theorem isLeap_iff (y : Int) : isLeap y = true ↔ Spec.Leap y := by
  unfold isLeap Spec.Leap
  rw [decide_eq_true_eq]; omega

theorem daysOfYear_eq (y : Int) : Spec.daysOfYear y = yearLength y := by
  unfold Spec.daysOfYear yearLength
  simp only [isLeap_iff]

theorem daysOfYear_pos (y : Int) : 0 < Spec.daysOfYear y := by
  unfold Spec.daysOfYear; split <;> omega

theorem jan1_eq (y : Int) : mkDate y 1 1 = daysBeforeYear y + 1 := by
  unfold mkDate ofCivil; rw [daysBeforeMonth_one]; simp

/-- Antiderivative of the ACT/ACT day weight. -/
def actActPos (x : Int) : Rat :=
  ((toCivil x).year : Rat) + ((x - mkDate (toCivil x).year 1 1 : Int) : Rat) / (yearLength (toCivil x).year : Rat)

theorem yearLength_rat_pos (y : Int) : (0 : Rat) < (yearLength y : Rat) := by
  have : 0 < yearLength y := by have := yearLength_pos y; omega
  exact_mod_cast this

theorem yearFracActAct_eq (s e : Int) : yearFracActAct s e = actActPos e - actActPos s := by
  unfold yearFracActAct actActPos
  simp only
  have h1 := (yearLength_rat_pos (toCivil s).year).ne'
  have hn : mkDate ((toCivil s).year + 1) 1 1 - s = yearLength (toCivil s).year - (s - mkDate (toCivil s).year 1 1) := by
    rw [jan1_eq, jan1_eq, daysBeforeYear_succ]; ring
  rw [hn]
  push_cast
  rw [sub_div, div_self h1]
  ring

theorem civil_year_bounds (x : Int) :
    mkDate (toCivil x).year 1 1 ≤ x ∧ x < mkDate ((toCivil x).year + 1) 1 1 := by
  have h := yearOf_spec x
  have e : (toCivil x).year = yearOf x := rfl
  rw [jan1_eq, jan1_eq, e]
  constructor
  · omega
  · have := h.2
    omega

theorem civil_year_unique {x y : Int} (h1 : mkDate y 1 1 ≤ x) (h2 : x < mkDate (y + 1) 1 1) : (toCivil x).year = y := by
  rw [jan1_eq] at h1 h2
  have e : (toCivil x).year = yearOf x := rfl
  rw [e]
  apply yearOf_unique <;> omega

theorem actActPos_succ (x : Int) : actActPos (x + 1) - actActPos x = 1 / (yearLength (toCivil x).year : Rat) := by
  obtain ⟨b1, b2⟩ := civil_year_bounds x
  have h1 := (yearLength_rat_pos (toCivil x).year).ne'
  by_cases h : x + 1 < mkDate ((toCivil x).year + 1) 1 1
  · have hy : (toCivil (x + 1)).year = (toCivil x).year := civil_year_unique (by omega) h
    unfold actActPos
    rw [hy]
    push_cast
    field_simp
    ring
  · have hx : x + 1 = mkDate ((toCivil x).year + 1) 1 1 := by omega
    have hy : (toCivil (x + 1)).year = (toCivil x).year + 1 := by
      apply civil_year_unique
      · omega
      · rw [hx, jan1_eq, jan1_eq, daysBeforeYear_succ ((toCivil x).year + 1)]
        have := yearLength_pos ((toCivil x).year + 1)
        omega
    unfold actActPos
    rw [hy, ← hx]
    have hlen : x - mkDate (toCivil x).year 1 1 = yearLength (toCivil x).year - 1 := by
      have : x = daysBeforeYear ((toCivil x).year + 1) + 1 - 1 := by rw [← jan1_eq, ← hx]; omega
      rw [daysBeforeYear_succ] at this
      rw [jan1_eq]; omega
    rw [hlen]
    push_cast
    field_simp
    ring

theorem daySum_eq (s : Int) (n : Nat) : daySum s n = actActPos (s + n) - actActPos s := by
  induction n with
  | zero => simp [daySum]
  | succ n ih =>
    simp only [daySum]
    rw [ih, daysOfYear_eq, ← actActPos_succ]
    push_cast
    rw [← add_assoc]
    ring

theorem daySum_pos (s : Int) (n : Nat) : 0 < daySum s (n + 1) := by
  have h : ∀ k : Int, (0 : Rat) < 1 / (daysOfYear (toCivil k).year : Rat) := by
    intro k
    have : (0 : Rat) < (daysOfYear (toCivil k).year : Rat) := by exact_mod_cast daysOfYear_pos _
    exact one_div_pos.mpr this
  induction n with
  | zero => simp only [daySum]; rw [zero_add]; exact h _
  | succ n ih => rw [daySum]; exact add_pos ih (h _)

theorem isLastDayOfFeb_iff (d : Int) : isLastDayOfFeb d = true ↔ LastOfFeb (toCivil d) := by
  unfold isLastDayOfFeb LastOfFeb
  simp only [Bool.and_eq_true, decide_eq_true_eq]
  constructor
  · rintro ⟨h1, h2⟩
    refine ⟨h1, ?_⟩
    rw [h1, ← monthLength_eq _ 2 (by omega) (by omega)] at h2
    exact h2
  · rintro ⟨h1, h2⟩
    refine ⟨h1, ?_⟩
    rw [h1, ← monthLength_eq _ 2 (by omega) (by omega)]
    exact h2

/-- Ordered dates: the later one is in a later month, or in the same month with a larger day. -/
theorem civil_order {s e : Int} (h : s ≤ e) :
    ((toCivil s).year = (toCivil e).year ∧ (toCivil s).month = (toCivil e).month ∧ (toCivil s).day ≤ (toCivil e).day) ∨
    (12 * (toCivil s).year + (toCivil s).month + 1 ≤ 12 * (toCivil e).year + (toCivil e).month) := by
  have hm := monthIndex_mono h
  rcases Int.lt_or_eq_of_le hm with hlt | heq
  · right; unfold monthIndex at hlt; omega
  · left
    have hs := (sameMonth_iff _ _).mpr heq
    exact ⟨hs.1, hs.2, day_le_of_sameMonth_le heq h⟩

theorem sameShape_single (s e : Int) : sameShape [s] [e] = ([s], [e]) := rfl

theorem checkOrder_single (s e : Int) : checkOrder [s] [e] = if s ≤ e then .ok () else .error .assertion := by
  unfold checkOrder pyAssert
  by_cases h : s ≤ e
  · simp [h]
  · simp [h]

end Frm
