import Verif.Proofs.Leg

/-! # C24 — Present value counts exactly the cash flows to come -/

namespace Frm

set_option autoImplicit false
open Spec

theorem nmul_some (x y : Rat) : nmul (some x) (some y) = some (x * y) := rfl
theorem nadd_some (x y : Rat) : nadd (some x) (some y) = some (x + y) := rfl

/-- The contribution of a row to the sum. -/
theorem row_pv {leg : Leg} (S : Settings) (c : Int → Rat) (o : Option Rat) (r : LegRow) {x : Rat}
    (h : couponOf leg { r with rate := o.or r.rate } = some x) :
    nadd (rowAfterPv S leg c o r).notionalPv (rowAfterPv S leg c o r).couponPv =
      some (r.notionalPayment * discountOf S c r.notionalPaymentDate + x * discountOf S c r.couponPaymentDate) := by
  unfold rowAfterPv rowAfterCoupon
  simp only [h]
  rfl

theorem row_pv_none {leg : Leg} (S : Settings) (c : Int → Rat) (o : Option Rat) (r : LegRow)
    (h : couponOf leg { r with rate := o.or r.rate } = none) :
    nadd (rowAfterPv S leg c o r).notionalPv (rowAfterPv S leg c o r).couponPv = none := by
  unfold rowAfterPv rowAfterCoupon
  simp only [h]
  rfl

/-- Whatever the kind: when every paid coupon is known, the dirty PV is the PV of all flows. -/
theorem dirtyPv_eq {leg : Leg} (hr : Ready leg) {D : Int → Rat} (hD : leg.curve = some D) (S : Settings)
    (o : Option Rat) (amount : LegRow → Rat)
    (h : ∀ r ∈ leg.rows, ∃ x, couponOf leg { r with rate := o.or r.rate } = some x ∧
      (r.couponPaymentDate ≠ none → x = amount r)) :
    (calcDirtyPv S leg o).2 = .ok (presentValue S D (notionalFlows leg.rows) +
      presentValue S D (couponFlows amount leg.rows)) := by
  rw [calcDirtyPv_ready hr hD]
  simp only [Except.ok.injEq]
  generalize leg.rows = rows at h
  induction rows with
  | nil => simp [notionalFlows, couponFlows, presentValue, nsum]
  | cons r rows ih =>
    obtain ⟨x, hx, ha⟩ := h r (by simp)
    have ih := ih (fun r hr => h r (by simp [hr]))
    simp only [notionalFlows, couponFlows] at ih ⊢
    simp only [List.map_cons, row_pv S D o r hx, nsum_some, presentValue_cons, ih]
    cases hd : r.couponPaymentDate with
    | none => simp only [discountOf_none]; ring
    | some d => rw [← ha (by simp [hd])]; ring

theorem couponOf_fixed {leg : Leg} (hk : leg.kind = .fixed) (r : LegRow)
    (h : r.couponPaymentDate ≠ none → r.rate ≠ none ∧ r.yearFrac ≠ none) :
    ∃ x, couponOf leg r = some x ∧ (r.couponPaymentDate ≠ none →
      x = leg.payRcv.multiplier * r.notional * val r.rate * val r.yearFrac) := by
  unfold couponOf
  cases hd : r.couponPaymentDate with
  | none => exact ⟨0, rfl, fun hc => absurd rfl hc⟩
  | some d =>
    obtain ⟨h1, h2⟩ := h (by simp [hd])
    obtain ⟨a, ha⟩ := Option.ne_none_iff_exists'.mp h1
    obtain ⟨b, hb⟩ := Option.ne_none_iff_exists'.mp h2
    simp only [hk, ha, hb]
    exact ⟨_, rfl, fun _ => rfl⟩

theorem couponOf_zero {leg : Leg} (hk : leg.kind = .zeroCoupon) (r : LegRow)
    (h : r.couponPaymentDate ≠ none → r.rate ≠ none ∧ r.yearFrac ≠ none) :
    ∃ x, couponOf leg r = some x ∧ (r.couponPaymentDate ≠ none →
      x = leg.payRcv.multiplier * r.notional * (1 / leg.zeroDf (val r.yearFrac) (val r.rate) - 1)) := by
  unfold couponOf
  cases hd : r.couponPaymentDate with
  | none => exact ⟨0, rfl, fun hc => absurd rfl hc⟩
  | some d =>
    obtain ⟨h1, h2⟩ := h (by simp [hd])
    obtain ⟨a, ha⟩ := Option.ne_none_iff_exists'.mp h1
    obtain ⟨b, hb⟩ := Option.ne_none_iff_exists'.mp h2
    simp only [hk, ha, hb]
    exact ⟨_, rfl, fun _ => rfl⟩

theorem ready_of_fixed {leg : Leg} (hk : leg.kind = .fixed) : Ready leg := by
  unfold Ready; simp [hk]

theorem ready_of_zero {leg : Leg} (hk : leg.kind = .zeroCoupon) : Ready leg := by
  unfold Ready; simp [hk]

/-- A row none of whose flows is still to come contributes nothing, even when its coupon is unknown. -/
theorem row_settled {leg : Leg} (S : Settings) (c : Int → Rat) (o : Option Rat) (r : LegRow)
    (h1 : ∀ d, r.notionalPaymentDate = some d → ¬ ToCome S d) (h2 : ∀ d, r.couponPaymentDate = some d → ¬ ToCome S d)
    (rest : List NRat) :
    nsum (nadd (rowAfterPv S leg c o r).notionalPv (rowAfterPv S leg c o r).couponPv :: rest) = nsum rest := by
  have e1 : discountOf S c r.notionalPaymentDate = 0 := by
    cases hd : r.notionalPaymentDate with
    | none => rfl
    | some d => rw [discountOf_some, if_neg (h1 d hd)]
  have e2 : discountOf S c r.couponPaymentDate = 0 := by
    cases hd : r.couponPaymentDate with
    | none => rfl
    | some d => rw [discountOf_some, if_neg (h2 d hd)]
  cases hx : couponOf leg { r with rate := o.or r.rate } with
  | none => rw [row_pv_none S c o r hx, nsum_none]
  | some x => rw [row_pv S c o r hx, nsum_some, e1, e2]; ring

end Frm

namespace Frm.Props
open Spec

set_option autoImplicit false

/-- Fixed legs: the dirty PV is the present value of the notional and coupon flows still to come. -/
theorem C24_fixed (S : Settings) (leg : Leg) (hk : leg.kind = .fixed) (D : Int → Rat) (hD : leg.curve = some D)
    (hr : ∀ r ∈ leg.rows, r.couponPaymentDate ≠ none → r.rate ≠ none ∧ r.yearFrac ≠ none) :
    (calcDirtyPv S leg none).2 = .ok (presentValue S D (notionalFlows leg.rows) +
      presentValue S D (couponFlows
        (fun r => leg.payRcv.multiplier * r.notional * val r.rate * val r.yearFrac) leg.rows)) :=
  dirtyPv_eq (ready_of_fixed hk) hD S none _ (fun r h => couponOf_fixed hk _ (hr r h))

/-- Fixed legs with an overriding rate. -/
theorem C24_fixed_override (S : Settings) (leg : Leg) (hk : leg.kind = .fixed) (D : Int → Rat)
    (hD : leg.curve = some D) (x : Rat)
    (hr : ∀ r ∈ leg.rows, r.couponPaymentDate ≠ none → r.yearFrac ≠ none) :
    (calcDirtyPv S leg (some x)).2 = .ok (presentValue S D (notionalFlows leg.rows) +
      presentValue S D (couponFlows (fun r => leg.payRcv.multiplier * r.notional * x * val r.yearFrac) leg.rows)) :=
  dirtyPv_eq (ready_of_fixed hk) hD S (some x) _
    (fun r h => couponOf_fixed hk { r with rate := some x } (fun hc => ⟨by simp, hr r h hc⟩))

/-- Zero-coupon legs: the single coupon is the growth at the zero rate. -/
theorem C24_zero_coupon (S : Settings) (leg : Leg) (hk : leg.kind = .zeroCoupon) (D : Int → Rat)
    (hD : leg.curve = some D)
    (hr : ∀ r ∈ leg.rows, r.couponPaymentDate ≠ none → r.rate ≠ none ∧ r.yearFrac ≠ none) :
    (calcDirtyPv S leg none).2 = .ok (presentValue S D (notionalFlows leg.rows) +
      presentValue S D (couponFlows
        (fun r => leg.payRcv.multiplier * r.notional * (1 / leg.zeroDf (val r.yearFrac) (val r.rate) - 1)) leg.rows)) :=
  dirtyPv_eq (ready_of_zero hk) hD S none _ (fun r h => couponOf_zero hk _ (hr r h))

/-- Additive over concatenated schedules, whatever the kind of leg. -/
theorem C24_additive (S : Settings) (leg : Leg) (o : Option Rat) (a b : List LegRow) {x y : Rat}
    (ha : (calcDirtyPv S { leg with rows := a } o).2 = .ok x)
    (hb : (calcDirtyPv S { leg with rows := b } o).2 = .ok y) :
    (calcDirtyPv S { leg with rows := a ++ b } o).2 = .ok (x + y) := by
  by_cases hr : Ready leg
  · rcases Option.eq_none_or_eq_some leg.curve with hc | ⟨D, hc⟩
    · rw [calcDirtyPv_noCurve (leg := { leg with rows := a }) hr hc] at ha
      cases ha
    · rw [calcDirtyPv_ready (leg := { leg with rows := a }) hr hc] at ha
      rw [calcDirtyPv_ready (leg := { leg with rows := b }) hr hc] at hb
      rw [calcDirtyPv_ready (leg := { leg with rows := a ++ b }) hr hc]
      simp only [Except.ok.injEq] at ha hb ⊢
      simp only [List.map_append, nsum_append]
      rw [← ha, ← hb]
      rfl
  · rw [calcDirtyPv_notReady (leg := { leg with rows := a }) hr] at ha
    cases ha

/-- Rows none of whose flows is still to come change nothing, whatever the kind of leg. -/
theorem C24_settled_rows (S : Settings) (leg : Leg) (o : Option Rat) (a : LegRow) (pre post : List LegRow)
    (h1 : ∀ d, a.notionalPaymentDate = some d → ¬ ToCome S d) (h2 : ∀ d, a.couponPaymentDate = some d → ¬ ToCome S d) :
    (calcDirtyPv S { leg with rows := pre ++ a :: post } o).2 = (calcDirtyPv S { leg with rows := pre ++ post } o).2 := by
  by_cases hr : Ready leg
  · rcases Option.eq_none_or_eq_some leg.curve with hc | ⟨D, hc⟩
    · rw [calcDirtyPv_noCurve (leg := { leg with rows := pre ++ a :: post }) hr hc,
        calcDirtyPv_noCurve (leg := { leg with rows := pre ++ post }) hr hc]
    · rw [calcDirtyPv_ready (leg := { leg with rows := pre ++ a :: post }) hr hc,
        calcDirtyPv_ready (leg := { leg with rows := pre ++ post }) hr hc]
      simp only [List.map_append, List.map_cons, nsum_append, Except.ok.injEq]
      congr 1
      exact row_settled S D o a h1 h2 _
  · rw [calcDirtyPv_notReady (leg := { leg with rows := pre ++ a :: post }) hr,
      calcDirtyPv_notReady (leg := { leg with rows := pre ++ post }) hr]

/-- Without a discount curve the call raises. -/
theorem C24_no_curve (S : Settings) (leg : Leg) (o : Option Rat) (h : leg.curve = none) :
    (calcDirtyPv S leg o).2 = .error .marketData := by
  by_cases hr : Ready leg
  · rw [calcDirtyPv_noCurve hr h]
  · rw [calcDirtyPv_notReady hr]

/-- Defect: in a floating leg the unknown fixing makes every coupon `nan` and the row sum drops the notional flow of
the same row as well, so only the notional flows of rows without a coupon are valued. -/
theorem C24_float_partial (S : Settings) (leg : Leg) (hk : leg.kind = .floatTerm ∨ leg.kind = .floatRFR)
    (hf : leg.fixingCurve = true) (D : Int → Rat) (hD : leg.curve = some D) (o : Option Rat) :
    (calcDirtyPv S leg o).2 =
      .ok (presentValue S D (notionalFlows (leg.rows.filter (fun r => r.couponPaymentDate.isNone)))) := by
  have hr : Ready leg := by unfold Ready; simp [hf]
  rw [calcDirtyPv_ready hr hD]
  simp only [Except.ok.injEq]
  generalize leg.rows = rows
  induction rows with
  | nil => rfl
  | cons r rows ih =>
    cases hd : r.couponPaymentDate with
    | none =>
      have hx : couponOf leg { r with rate := o.or r.rate } = some 0 := by unfold couponOf; simp [hd]
      simp only [List.map_cons, row_pv S D o r hx, nsum_some, ih]
      rw [List.filter_cons_of_pos (by simp [hd])]
      simp only [notionalFlows, List.map_cons, presentValue_cons]
      ring
    | some d =>
      have hx : couponOf leg { r with rate := o.or r.rate } = none := by
        unfold couponOf
        rcases hk with hk | hk <;> simp [hd, hk]
      simp only [List.map_cons, row_pv_none S D o r hx, nsum_none, ih]
      rw [List.filter_cons_of_neg (by simp [hd])]

/-! ## A concrete leg -/

/-- A two-year fixed leg of 100 at 5 %, with the notional exchanged at both ends; value date day 10. -/
def sampleRows : List LegRow :=
  [{ periodStart := none, periodEnd := some 0, notional := 0, notionalPayment := -100, notionalPaymentDate := some 0,
     couponPaymentDate := none, yearFrac := none, rate := none, couponRate := none, couponPayment := none,
     notionalPv := none, couponPv := none },
   { periodStart := some 0, periodEnd := some 365, notional := 100, notionalPayment := 0,
     notionalPaymentDate := some 365, couponPaymentDate := some 365, yearFrac := some 1, rate := some (1 / 20),
     couponRate := none, couponPayment := none, notionalPv := none, couponPv := none },
   { periodStart := some 365, periodEnd := some 730, notional := 100, notionalPayment := 100,
     notionalPaymentDate := some 730, couponPaymentDate := some 730, yearFrac := some 1, rate := some (1 / 20),
     couponRate := none, couponPayment := none, notionalPv := none, couponPv := none }]

/-- The sample leg of the given kind, under a curve falling by a tenth per period. -/
def sampleLeg (kind : LegKind) : Leg :=
  { kind, payRcv := .rcv, basis := .act_365, rows := sampleRows,
    curve := some (fun d => if d ≤ 365 then 9 / 10 else 81 / 100), fixingCurve := true,
    zeroDf := fun y z => 1 / (1 + z * y), computed := false }

/-- Settings with value date 10. -/
def sampleSettings : Settings := { valueDate := 10, includeOnValueDate := false, limitAccrued := false }

example : (sampleLeg .fixed).kind = .fixed ∧ (∃ D, (sampleLeg .fixed).curve = some D) ∧
    ∀ r ∈ (sampleLeg .fixed).rows, r.couponPaymentDate ≠ none → r.rate ≠ none ∧ r.yearFrac ≠ none := by
  refine ⟨rfl, ⟨_, rfl⟩, ?_⟩
  decide +kernel

example : (calcDirtyPv sampleSettings (sampleLeg .fixed) none).2 = .ok (5 * (9 / 10) + 105 * (81 / 100)) := by
  decide +kernel

/-- The property fails for floating legs: the final exchange of 100 is not counted. -/
theorem C24_fails_for_float :
    (calcDirtyPv sampleSettings (sampleLeg .floatRFR) none).2 = .ok 0 ∧
    presentValue sampleSettings (fun d => if d ≤ 365 then 9 / 10 else 81 / 100) (notionalFlows sampleRows) = 81 := by
  decide +kernel

end Frm.Props
