import Verif.Proofs.BusDay
import Verif.Spec.Date

namespace Frm
open Spec

theorem monthLength_eq (y m : Int) (h1 : 1 ≤ m) (h2 : m ≤ 12) : Spec.monthLength y m = daysInMonth y m := by
  have : m = 1 ∨ m = 2 ∨ m = 3 ∨ m = 4 ∨ m = 5 ∨ m = 6 ∨ m = 7 ∨ m = 8 ∨ m = 9 ∨ m = 10 ∨ m = 11 ∨ m = 12 := by
    omega
  rcases this with h | h | h | h | h | h | h | h | h | h | h | h <;> subst h <;>
    simp [Spec.monthLength, daysInMonth]
  unfold Spec.Leap isLeap
  by_cases hl : (y % 4 = 0 ∧ y % 100 ≠ 0) ∨ y % 400 = 0
  · have : y % 4 = 0 ∧ (y % 100 ≠ 0 ∨ y % 400 = 0) := by omega
    simp [this]
  · have : ¬ (y % 4 = 0 ∧ (y % 100 ≠ 0 ∨ y % 400 = 0)) := by omega
    simp only [hl, if_false, decide_eq_false this]; rfl

theorem toCivil_eq_of {n : Int} {c : Civil} (hv : c.Valid) (h : ofCivil c = n) : toCivil n = c := by
  subst h; exact toCivil_ofCivil hv

theorem toCivil_succ (n : Int) : toCivil (n + 1) = Spec.nextDay (toCivil n) := by
  have hv := toCivil_valid n
  have e := ofCivil_toCivil n
  generalize toCivil n = c at *
  obtain ⟨h1, h2, h3, h4⟩ := hv
  have hml := monthLength_eq c.year c.month h1 h2
  unfold Spec.nextDay
  rw [hml]
  split
  · apply toCivil_eq_of
    · exact ⟨h1, h2, by simp only; omega, by simp only; omega⟩
    · unfold ofCivil at *; simp only; omega
  · split
    · apply toCivil_eq_of
      · have := daysInMonth_bounds c.year (c.month + 1)
        exact ⟨by simp only; omega, by simp only; omega, by simp only; omega, by simp only; omega⟩
      · unfold ofCivil at *; simp only
        rw [daysBeforeMonth_succ _ _ h1 (by omega)]; omega
    · apply toCivil_eq_of
      · have := daysInMonth_bounds (c.year + 1) 1
        exact ⟨by simp only; omega, by simp only; omega, by simp only; omega, by simp only; omega⟩
      · have hm : c.month = 12 := by omega
        have ht := daysBeforeMonth_twelve c.year
        unfold ofCivil at *; simp only
        rw [daysBeforeYear_succ, daysBeforeMonth_one]
        rw [hm] at hml e h4
        rename_i hnd _
        rw [hm] at hnd
        omega

theorem mkDate_valid_civil (y m d : Int) (h1 : 1 ≤ m) (h2 : m ≤ 12) (h3 : 1 ≤ d) (h4 : d ≤ daysInMonth y m) :
    toCivil (mkDate y m d) = ⟨y, m, d⟩ :=
  toCivil_ofCivil ⟨h1, h2, h3, h4⟩

theorem toCivil_addMonths (n k : Int) :
    toCivil (addMonths n k) =
      ⟨(12 * (toCivil n).year + ((toCivil n).month - 1) + k) / 12,
       (12 * (toCivil n).year + ((toCivil n).month - 1) + k) % 12 + 1,
       min (toCivil n).day (daysInMonth ((12 * (toCivil n).year + ((toCivil n).month - 1) + k) / 12)
         ((12 * (toCivil n).year + ((toCivil n).month - 1) + k) % 12 + 1))⟩ := by
  unfold addMonths
  simp only
  obtain ⟨h1, h2, h3, h4⟩ := toCivil_valid n
  have hb := daysInMonth_bounds ((12 * (toCivil n).year + ((toCivil n).month - 1) + k) / 12)
         ((12 * (toCivil n).year + ((toCivil n).month - 1) + k) % 12 + 1)
  apply mkDate_valid_civil <;> omega

theorem monthIndex_addMonths (n k : Int) : monthIndex (addMonths n k) = monthIndex n + k := by
  unfold monthIndex; rw [toCivil_addMonths]; simp only; omega

theorem day_addMonths (n k : Int) :
    (toCivil (addMonths n k)).day =
      min (toCivil n).day (daysInMonth (toCivil (addMonths n k)).year (toCivil (addMonths n k)).month) := by
  rw [toCivil_addMonths]

theorem addMonths_strict {n a b : Int} (h : a < b) : addMonths n a < addMonths n b := by
  apply lt_of_monthIndex_lt
  rw [monthIndex_addMonths, monthIndex_addMonths]; omega

theorem le_of_sameMonth_day_le {a b : Int} (hm : monthIndex a = monthIndex b)
    (hd : (toCivil a).day ≤ (toCivil b).day) : a ≤ b := by
  rw [← sameMonth_iff] at hm
  have ea := ofCivil_toCivil a
  have eb := ofCivil_toCivil b
  unfold ofCivil at ea eb
  rw [hm.1, hm.2] at ea
  omega

theorem day_le_of_sameMonth_le {a b : Int} (hm : monthIndex a = monthIndex b) (h : a ≤ b) :
    (toCivil a).day ≤ (toCivil b).day := by
  rw [← sameMonth_iff] at hm
  have ea := ofCivil_toCivil a
  have eb := ofCivil_toCivil b
  unfold ofCivil at ea eb
  rw [hm.1, hm.2] at ea
  omega

theorem addMonths_mono {a b : Int} (k : Int) (h : a ≤ b) : addMonths a k ≤ addMonths b k := by
  have hm := monthIndex_mono h
  rcases Int.lt_or_eq_of_le hm with hlt | heq
  · have : addMonths a k < addMonths b k := by
      apply lt_of_monthIndex_lt; rw [monthIndex_addMonths, monthIndex_addMonths]; omega
    omega
  · have hm' : monthIndex (addMonths a k) = monthIndex (addMonths b k) := by
      rw [monthIndex_addMonths, monthIndex_addMonths]; omega
    apply le_of_sameMonth_day_le hm'
    rw [day_addMonths, day_addMonths]
    have hs := (sameMonth_iff _ _).mpr hm'
    rw [hs.1, hs.2]
    have := day_le_of_sameMonth_le heq h
    omega

theorem eq_of_monthIndex_day {a b : Int} (hm : monthIndex a = monthIndex b)
    (hd : (toCivil a).day = (toCivil b).day) : a = b := by
  have := le_of_sameMonth_day_le hm (by omega)
  have := le_of_sameMonth_day_le hm.symm (by omega)
  omega

theorem addMonths_zero (n : Int) : addMonths n 0 = n := by
  have hm : monthIndex (addMonths n 0) = monthIndex n := by rw [monthIndex_addMonths]; omega
  apply eq_of_monthIndex_day hm
  rw [day_addMonths]
  have hs := (sameMonth_iff _ _).mpr hm
  rw [hs.1, hs.2]
  have := (toCivil_valid n).2.2.2
  omega

theorem addMonths_addMonths {n : Int} (h : (toCivil n).day ≤ 28) (a b : Int) :
    addMonths (addMonths n a) b = addMonths n (a + b) := by
  apply eq_of_monthIndex_day
  · rw [monthIndex_addMonths, monthIndex_addMonths, monthIndex_addMonths]; omega
  · have h1 := daysInMonth_bounds (toCivil (addMonths n a)).year (toCivil (addMonths n a)).month
    have h2 := daysInMonth_bounds (toCivil (addMonths (addMonths n a) b)).year
      (toCivil (addMonths (addMonths n a) b)).month
    have h3 := daysInMonth_bounds (toCivil (addMonths n (a + b))).year (toCivil (addMonths n (a + b))).month
    rw [day_addMonths, day_addMonths n a, day_addMonths n (a + b)]
    omega

/-- The month of a date starts and ends inside bounds: any date of the month is at most its month end. -/
theorem monthEnd_spec (n : Int) :
    n ≤ monthEnd n ∧ monthIndex (monthEnd n) = monthIndex n ∧
    (toCivil (monthEnd n)).day = daysInMonth (toCivil n).year (toCivil n).month := by
  obtain ⟨h1, h2, h3, h4⟩ := toCivil_valid n
  have hc : toCivil (monthEnd n) = ⟨(toCivil n).year, (toCivil n).month, daysInMonth (toCivil n).year (toCivil n).month⟩ := by
    unfold monthEnd; simp only
    exact mkDate_valid_civil _ _ _ h1 h2 (by omega) (by omega)
  have hm : monthIndex (monthEnd n) = monthIndex n := by unfold monthIndex; rw [hc]
  refine ⟨le_of_sameMonth_day_le hm.symm (by rw [hc]; exact h4), hm, by rw [hc]⟩

end Frm
