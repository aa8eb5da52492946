import Verif.Props.C25
import Verif.Props.C11

/-! # C26 — Accrued interest -/

namespace Frm
open Spec

set_option autoImplicit false

theorem mem_currentRows (S : Settings) (leg : Leg) (r : LegRow) :
    r ∈ currentRows S leg ↔ r ∈ leg.rows ∧ Current S r := by
  unfold currentRows Current
  rw [List.mem_filter]
  constructor
  · rintro ⟨h, hc⟩
    refine ⟨h, ?_⟩
    cases hs : r.periodStart <;> cases he : r.periodEnd <;> simp [hs, he] at hc ⊢
    exact hc
  · rintro ⟨h, s, e, hs, he, h1, h2⟩
    refine ⟨h, ?_⟩
    simp [hs, he, h1, h2]

theorem current_lt {S : Settings} {a b : LegRow} (ha : Current S a) (hb : Current S b)
    (h : ∀ e s, a.periodEnd = some e → b.periodStart = some s → e ≤ s) : False := by
  obtain ⟨s, e, h1, h2, h3, h4⟩ := ha
  obtain ⟨s', e', h1', h2', h3', h4'⟩ := hb
  have := h e s' h2 h1'
  omega

theorem currentRows_of_ordered (S : Settings) {leg : Leg}
    (ho : leg.rows.Pairwise (fun a b => ∀ e s, a.periodEnd = some e → b.periodStart = some s → e ≤ s)) {r : LegRow}
    (hr : r ∈ leg.rows) (hc : Current S r) : currentRows S leg = [r] := by
  have hp : (currentRows S leg).Pairwise
      (fun a b => ∀ e s, a.periodEnd = some e → b.periodStart = some s → e ≤ s) := ho.filter _
  have hm := (mem_currentRows S leg r).mpr ⟨hr, hc⟩
  have hall := fun x hx => ((mem_currentRows S leg x).mp hx).2
  match hcr : currentRows S leg with
  | [] => rw [hcr] at hm; cases hm
  | [x] => rw [hcr] at hm; simp only [List.mem_singleton] at hm; rw [hm]
  | x :: y :: rest =>
    rw [hcr] at hp hall
    simp only [List.pairwise_cons] at hp
    exact absurd (hp.1 y (by simp)) (fun h => current_lt (hall x (by simp)) (hall y (by simp)) h)

end Frm

namespace Frm.Props
open Spec

set_option autoImplicit false

/-- In a schedule whose periods follow one another, when a period is current the leg-specific accrued interest of a
fixed leg is that period's notional times its rate times the year fraction elapsed since its start. -/
theorem C26_current_period_partial (S : Settings) (leg : Leg) (hk : leg.kind = .fixed)
    (ho : leg.rows.Pairwise (fun a b => ∀ e s, a.periodEnd = some e → b.periodStart = some s → e ≤ s))
    (r : LegRow) (hr : r ∈ leg.rows) (s e : Int) (hs : r.periodStart = some s) (he : r.periodEnd = some e)
    (h1 : s ≤ S.valueDate) (h2 : S.valueDate < e) (rate y : Rat) (hrate : r.rate = some rate)
    (hy : yearFrac [s] [S.valueDate] leg.basis none = .ok [y]) :
    accruedCore S leg = .ok (r.notional * rate * y) := by
  unfold accruedCore
  rw [currentRows_of_ordered S ho hr ⟨s, e, hs, he, h1, h2⟩]
  simp only [hs, hy, hk, bind, Except.bind, pure, Except.pure, List.head?_cons, List.map_cons, List.map_nil, hrate,
    nmul_some, nsum_some, nsum_nil, add_zero]

/-- For the actual/365 basis: elapsed days over 365. -/
theorem C26_act365 (S : Settings) (leg : Leg) (hk : leg.kind = .fixed) (hb : leg.basis = .act_365)
    (ho : leg.rows.Pairwise (fun a b => ∀ e s, a.periodEnd = some e → b.periodStart = some s → e ≤ s))
    (r : LegRow) (hr : r ∈ leg.rows) (s e : Int) (hs : r.periodStart = some s) (he : r.periodEnd = some e)
    (h1 : s ≤ S.valueDate) (h2 : S.valueDate < e) (rate : Rat) (hrate : r.rate = some rate) :
    accruedCore S leg = .ok (r.notional * rate * (((S.valueDate - s : Int) : Rat) / 365)) := by
  refine C26_current_period_partial S leg hk ho r hr s e hs he h1 h2 rate _ hrate ?_
  rw [hb]
  have hd : dayCount [s] [S.valueDate] .act_365 none = .ok [S.valueDate - s] := by
    unfold dayCount
    simp only [sameShape_single, checkOrder_single, if_pos h1]
    rfl
  have := (C11_fixed_denominator .act_365 365 (by simp) none hd).1
  rw [this]
  norm_num

/-- Accrual grows with elapsed time from zero at the start of the period. -/
theorem C26_zero_at_start (S : Settings) (leg : Leg) (hk : leg.kind = .fixed) (hb : leg.basis = .act_365)
    (ho : leg.rows.Pairwise (fun a b => ∀ e s, a.periodEnd = some e → b.periodStart = some s → e ≤ s))
    (r : LegRow) (hr : r ∈ leg.rows) (s e : Int) (hs : r.periodStart = some s) (he : r.periodEnd = some e)
    (h1 : s = S.valueDate) (h2 : S.valueDate < e) (rate : Rat) (hrate : r.rate = some rate) :
    accruedCore S leg = .ok 0 := by
  rw [C26_act365 S leg hk hb ho r hr s e hs he (by omega) h2 rate hrate, h1]
  simp

/-- Defect: when no period is current the query raises `IndexError` instead of returning zero. -/
theorem C26_none_current (S : Settings) (leg : Leg) (h : ∀ r ∈ leg.rows, ¬ Current S r) :
    calcAccruedInterest S leg = .error .index := by
  have : currentRows S leg = [] := by
    rw [List.eq_nil_iff_forall_not_mem]
    intro r hr
    obtain ⟨h1, h2⟩ := (mem_currentRows S leg r).mp hr
    exact h r h1 h2
  unfold calcAccruedInterest accruedCore
  rw [this]
  rfl

/-- Defect: what is added to the accrual is the sum of *all* coupons of the leg, past and future, not of those earned
but unpaid; with the limiting option it replaces the accrual whenever it is positive. -/
theorem C26_adds_all_coupons (S : Settings) (leg : Leg) (hc : leg.computed = true) (a : Rat)
    (ha : accruedCore S leg = .ok a) :
    calcAccruedInterest S leg = .ok (
      if S.limitAccrued = true then
        (if 0 < ((leg.rows.map (·.couponPayment)).map val).sum then ((leg.rows.map (·.couponPayment)).map val).sum else a)
      else a + ((leg.rows.map (·.couponPayment)).map val).sum) := by
  have e : ∀ l : List NRat, nsum l = (l.map val).sum := by
    intro l
    induction l with
    | nil => rfl
    | cons x l ih => cases x <;> simp [nsum_none, nsum_some, ih, val]
  unfold calcAccruedInterest
  rw [ha]
  simp only [bind, Except.bind, hc, if_true, e, pure, Except.pure]
  by_cases hl : S.limitAccrued = true <;> simp [hl]

/-- How far off it is: the excess over the accrual plus the coupons earned but unpaid is the sum of the other
coupons. -/
theorem C26_excess (S : Settings) (leg : Leg) (hc : leg.computed = true) (hl : S.limitAccrued = false) (a x : Rat)
    (ha : accruedCore S leg = .ok a) (hx : calcAccruedInterest S leg = .ok x) (unpaid : LegRow → Bool) :
    x - (a + ((leg.rows.filter unpaid).map (fun r => val r.couponPayment)).sum) =
      ((leg.rows.filter (fun r => !unpaid r)).map (fun r => val r.couponPayment)).sum := by
  rw [C26_adds_all_coupons S leg hc a ha, hl] at hx
  simp only [Bool.false_eq_true, if_false, Except.ok.injEq, List.map_map] at hx
  have : ∀ l : List LegRow, (l.map (val ∘ (·.couponPayment))).sum =
      ((l.filter unpaid).map (fun r => val r.couponPayment)).sum +
      ((l.filter (fun r => !unpaid r)).map (fun r => val r.couponPayment)).sum := by
    intro l
    induction l with
    | nil => simp
    | cons r l ih =>
      cases h : unpaid r <;> simp only [List.map_cons, List.sum_cons, ih, List.filter_cons, h, Bool.not_true,
        Bool.not_false, if_true, Bool.false_eq_true, if_false, Function.comp] <;> ring
  rw [← hx, this]
  ring

/-- The sample leg's periods follow one another and its first period is current at day 10. -/
example : (sampleLeg .fixed).rows.Pairwise (fun a b => ∀ e s, a.periodEnd = some e → b.periodStart = some s → e ≤ s) ∧
    ∃ r ∈ (sampleLeg .fixed).rows, Current sampleSettings r := by
  constructor
  · simp [sampleLeg, sampleRows]
  · refine ⟨sampleRows[1], by simp [sampleLeg, sampleRows], 0, 365, rfl, rfl, ?_, ?_⟩ <;> decide

/-- The property fails: ten days into the first of two 5 % years on 100, the accrued interest reported is the ten days'
accrual plus both full coupons, although nothing is earned but unpaid. -/
theorem C26_fails :
    calcAccruedInterest sampleSettings (calcDirtyPv sampleSettings (sampleLeg .fixed) none).1 =
      .ok (100 * (1 / 20) * (10 / 365) + 10) ∧
    ∀ r ∈ (sampleLeg .fixed).rows, r.couponPaymentDate ≠ none →
      ∀ e, r.periodEnd = some e → sampleSettings.valueDate < e := by
  constructor
  · decide +kernel
  · simp [sampleLeg, sampleRows, sampleSettings]

/-- And outside the schedule it raises. -/
theorem C26_fails_after_end :
    calcAccruedInterest { sampleSettings with valueDate := 800 }
      (calcDirtyPv { sampleSettings with valueDate := 800 } (sampleLeg .fixed) none).1 = .error .index := by
  decide +kernel

end Frm.Props
