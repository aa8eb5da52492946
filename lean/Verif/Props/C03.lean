import Verif.Proofs.Months

/-! # C03 — Month arithmetic -/

namespace Frm.Props
open Spec

/-- The model's calendar is the Gregorian calendar: ordinal 1 is 1 January of year 1 and consecutive ordinals are
consecutive days (this determines `toCivil` on every ordinal, in both directions, because no two days have the same
successor). -/
theorem C03_calendar : toCivil 1 = ⟨1, 1, 1⟩ ∧ ∀ n, toCivil (n + 1) = nextDay (toCivil n) :=
  ⟨by decide +kernel, toCivil_succ⟩

/-- Date ↔ (year, month, day) is one to one, onto the existing days. -/
theorem C03_civil_bijection :
    (∀ n, (toCivil n).Valid ∧ ofCivil (toCivil n) = n) ∧ (∀ c : Civil, c.Valid → toCivil (ofCivil c) = c) :=
  ⟨fun n => ⟨toCivil_valid n, ofCivil_toCivil n⟩, fun _ h => toCivil_ofCivil h⟩

/-- Adding `k` months lands in the `k`-th following month, on the same day of month or on the month's last day. -/
theorem C03_add_months (n k : Int) :
    months (toCivil (addMonths n k)) = months (toCivil n) + k ∧
    1 ≤ (toCivil (addMonths n k)).month ∧ (toCivil (addMonths n k)).month ≤ 12 ∧
    (toCivil (addMonths n k)).day =
      min (toCivil n).day (monthLength (toCivil (addMonths n k)).year (toCivil (addMonths n k)).month) := by
  obtain ⟨h1, h2, _, _⟩ := toCivil_valid (addMonths n k)
  refine ⟨?_, h1, h2, ?_⟩
  · have := monthIndex_addMonths n k
    unfold monthIndex at this; unfold months; omega
  · rw [monthLength_eq _ _ h1 h2]; exact day_addMonths n k

/-- The four kinds of `pd.DateOffset` the library builds. -/
theorem C03_date_offset (d n : Int) :
    (DateOffset.days n).addTo d = d + n ∧ (DateOffset.weeks n).addTo d = d + 7 * n ∧
    (DateOffset.months n).addTo d = addMonths d n ∧ (DateOffset.years n).addTo d = addMonths d (12 * n) :=
  ⟨rfl, rfl, rfl, rfl⟩

/-- Strictly increasing in the number of months. -/
theorem C03_strict_in_months {n a b : Int} (h : a < b) : addMonths n a < addMonths n b := addMonths_strict h

/-- Weakly increasing in the date. -/
theorem C03_mono_in_date {a b : Int} (k : Int) (h : a ≤ b) : addMonths a k ≤ addMonths b k := addMonths_mono k h

/-- Nothing added, nothing changed. -/
theorem C03_zero (n : Int) : addMonths n 0 = n := addMonths_zero n

/-- Stepping composes as long as the day exists in every month. -/
theorem C03_compose {n : Int} (h : (toCivil n).day ≤ 28) (a b : Int) :
    addMonths (addMonths n a) b = addMonths n (a + b) := addMonths_addMonths h a b

/-- Adding in one step keeps the day of month whenever the target month has it, no matter how many shorter months
lie in between. -/
theorem C03_no_drift (n k : Int)
    (h : (toCivil n).day ≤ monthLength (toCivil (addMonths n k)).year (toCivil (addMonths n k)).month) :
    (toCivil (addMonths n k)).day = (toCivil n).day := by
  have := (C03_add_months n k).2.2.2; omega

/-- Iterating one month at a time does drift: 31 January + 1 month + 1 month is 28 March in a common year. -/
theorem C03_iterating_drifts :
    ∃ n, addMonths (addMonths n 1) 1 < addMonths n 2 :=
  ⟨mkDate 2023 1 31, by decide +kernel⟩

example : addMonths (mkDate 2024 1 31) 1 = mkDate 2024 2 29 := by decide +kernel
example : addMonths (mkDate 2024 3 31) (-1) = mkDate 2024 2 29 := by decide +kernel
example : (toCivil (mkDate 2024 1 15)).day ≤ 28 := by decide +kernel
example : (toCivil (mkDate 2023 1 31)).day ≤
    monthLength (toCivil (addMonths (mkDate 2023 1 31) 2)).year (toCivil (addMonths (mkDate 2023 1 31) 2)).month := by
  decide +kernel

end Frm.Props
