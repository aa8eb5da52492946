import Verif.Proofs.Schedule
import Verif.Props.C03
import Verif.Props.C04

/-! # C23 — Frequency steps -/

namespace Frm.Spec

/-- Days in a period of a day-based frequency. -/
def dayStep : PeriodFreq → Option Int
  | .daily => some 1
  | .weekly => some 7
  | .days28 => some 28
  | _ => none

/-- Months in a period of a month-based frequency. -/
def monthStep : PeriodFreq → Option Int
  | .monthly => some 1
  | .quarterly => some 3
  | .semiannual => some 6
  | .annual => some 12
  | _ => none

end Frm.Spec

namespace Frm.Props
open Spec

/-- Day-based frequencies: `k` periods are `k` times the number of days. -/
theorem C23_days (f : PeriodFreq) (s : Int) (hf : dayStep f = some s) (k d : Int) :
    ∃ o, f.multiplyDateOffset k = some o ∧ o.addTo d = d + s * k ∧ o.subFrom d = d - s * k := by
  cases f <;> simp only [dayStep, Option.some.injEq, reduceCtorEq] at hf <;> subst hf <;>
    refine ⟨_, rfl, ?_, ?_⟩ <;>
    simp only [DateOffset.scale, DateOffset.addTo, DateOffset.subFrom] <;> omega

/-- Month-based frequencies: `k` periods land in the `s·k`-th following month (preceding, when subtracted), on the same
day of month or on the month's last day — whatever lies in between. -/
theorem C23_months (f : PeriodFreq) (s : Int) (hf : monthStep f = some s) (k d : Int) :
    ∃ o, f.multiplyDateOffset k = some o ∧
      (months (toCivil (o.addTo d)) = months (toCivil d) + s * k ∧
       (toCivil (o.addTo d)).day =
         min (toCivil d).day (monthLength (toCivil (o.addTo d)).year (toCivil (o.addTo d)).month)) ∧
      (months (toCivil (o.subFrom d)) = months (toCivil d) - s * k ∧
       (toCivil (o.subFrom d)).day =
         min (toCivil d).day (monthLength (toCivil (o.subFrom d)).year (toCivil (o.subFrom d)).month)) := by
  have key : ∃ o, f.multiplyDateOffset k = some o ∧ o.addTo d = addMonths d (s * k) ∧
      o.subFrom d = addMonths d (-(s * k)) := by
    cases f <;> simp only [monthStep, Option.some.injEq, reduceCtorEq] at hf <;> subst hf <;>
      refine ⟨_, rfl, ?_, ?_⟩ <;>
      simp only [DateOffset.scale, DateOffset.addTo, DateOffset.subFrom] <;> congr 1 <;> omega
  obtain ⟨o, h1, h2, h3⟩ := key
  refine ⟨o, h1, ?_, ?_⟩
  · rw [h2]
    obtain ⟨g1, _, _, g2⟩ := C03_add_months d (s * k)
    exact ⟨g1, g2⟩
  · rw [h3]
    obtain ⟨g1, _, _, g2⟩ := C03_add_months d (-(s * k))
    exact ⟨by omega, g2⟩

/-- Every frequency but the zero coupon has an offset; one period is `date_offset` itself. -/
theorem C23_total (f : PeriodFreq) :
    (f.multiplyDateOffset 1 = f.dateOffset) ∧
    (f = .zeroCoupon ↔ f.dateOffset = none) ∧ (∀ k, f = .zeroCoupon ↔ f.multiplyDateOffset k = none) ∧
    (f ≠ .zeroCoupon ↔ (dayStep f).isSome ∨ (monthStep f).isSome) := by
  refine ⟨?_, ?_, ?_, ?_⟩
  · cases f <;> rfl
  · cases f <;> simp [PeriodFreq.dateOffset]
  · intro k; cases f <;> simp [PeriodFreq.multiplyDateOffset, PeriodFreq.dateOffset]
  · cases f <;> simp [dayStep, monthStep]

/-- Multiples compose additively: for day-based frequencies always, for month-based ones from a day of month that
every month has. -/
theorem C23_compose (f : PeriodFreq) (j k d : Int) (h : (dayStep f).isSome ∨ (toCivil d).day ≤ 28)
    {oj ok ojk : DateOffset} (hj : f.multiplyDateOffset j = some oj) (hk : f.multiplyDateOffset k = some ok)
    (hjk : f.multiplyDateOffset (j + k) = some ojk) : ok.addTo (oj.addTo d) = ojk.addTo d := by
  have hh := h
  cases f <;> simp only [PeriodFreq.multiplyDateOffset, PeriodFreq.dateOffset, Option.map_some, Option.map_none,
    Option.some.injEq, reduceCtorEq, DateOffset.scale] at hj hk hjk <;> subst hj hk hjk <;>
    simp only [DateOffset.addTo, dayStep, Option.isSome_some, Option.isSome_none, Bool.false_eq_true, false_or] at hh ⊢
  · omega
  · omega
  · omega
  all_goals
    rw [C03_compose hh]
    congr 1
    omega

/-- Increasing in the number of periods. -/
theorem C23_strict (f : PeriodFreq) {j k : Int} (hjk : j < k) (d : Int) {oj ok : DateOffset}
    (hj : f.multiplyDateOffset j = some oj) (hk : f.multiplyDateOffset k = some ok) : oj.addTo d < ok.addTo d := by
  have h1 := scale_addTo f d j
  have h2 := scale_addTo f d k
  rw [hj] at h1; rw [hk] at h2
  simp only at h1 h2
  rw [h1, h2]
  refine moved_lt ?_ d hjk
  rintro rfl
  simp [PeriodFreq.multiplyDateOffset, PeriodFreq.dateOffset] at hj

/-- The example of the source comment: three quarters from 31 August in one step and in three. -/
example : (PeriodFreq.quarterly.multiplyDateOffset 3).map (·.addTo (mkDate 2023 8 31)) = some (mkDate 2024 5 31) ∧
    addMonths (addMonths (addMonths (mkDate 2023 8 31) 3) 3) 3 = mkDate 2024 5 29 := by decide +kernel

end Frm.Props
