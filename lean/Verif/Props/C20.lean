import Verif.Props.C24

/-! # C20 — Pay/receive and buy/sell signs -/

namespace Frm
open Spec

set_option autoImplicit false

theorem multiplier_opposite (p : PayRcv) : ((opposite p).multiplier : Rat) = -(p.multiplier : Rat) := by
  cases p
  · have h : (opposite .pay).multiplier = 1 ∧ PayRcv.pay.multiplier = -1 := by decide
    rw [h.1, h.2]; norm_num
  · have h : (opposite .rcv).multiplier = -1 ∧ PayRcv.rcv.multiplier = 1 := by decide
    rw [h.1, h.2]; norm_num

theorem multiplier_sq (p : PayRcv) : (p.multiplier : Rat) * p.multiplier = 1 := by
  cases p
  · have h : PayRcv.pay.multiplier = -1 := by decide
    rw [h]; norm_num
  · have h : PayRcv.rcv.multiplier = 1 := by decide
    rw [h]; norm_num

/-- The row seen from the other side, computed columns aside. -/
def mirrorRow (r : LegRow) : LegRow := { r with notional := -r.notional, notionalPayment := -r.notionalPayment }

/-- The leg seen from the other side. -/
def mirrorLeg (leg : Leg) : Leg := { leg with payRcv := opposite leg.payRcv, rows := leg.rows.map mirrorRow }

theorem couponOf_mirror (leg : Leg) (r : LegRow) : couponOf (mirrorLeg leg) (mirrorRow r) = couponOf leg r := by
  unfold couponOf
  change (match r.couponPaymentDate with
    | none => _
    | some _ => _) = _
  cases r.couponPaymentDate with
  | none => rfl
  | some d =>
    have h : ((opposite leg.payRcv).multiplier : Rat) * (-r.notional) = leg.payRcv.multiplier * r.notional := by
      rw [multiplier_opposite]; ring
    change (match leg.kind with
      | .fixed => nmul (nmul (some (((opposite leg.payRcv).multiplier : Rat) * (-r.notional))) r.rate) r.yearFrac
      | .floatTerm | .floatRFR => none
      | .zeroCoupon =>
        match r.yearFrac, r.rate with
        | some y, some z =>
          some (((opposite leg.payRcv).multiplier : Rat) * (-r.notional) * (1 / leg.zeroDf y z - 1))
        | _, _ => none) = _
    rw [h]
    rfl

theorem makeLeg_mirror (kind : LegKind) (p : PayRcv) (basis : DayCountBasis) (curve : Option (Int → Rat)) (fc : Bool)
    (zdf : Rat → Rat → Rat) (exch : ExchangeNotionals) (param : List NRat) (sch : List (NotionalRow × Option Int)) :
    makeLeg kind (opposite p) basis curve fc zdf exch param sch =
      (makeLeg kind p basis curve fc zdf exch param sch).map mirrorLeg := by
  unfold makeLeg
  cases addPeriodYearfrac basis (sch.map (fun x => (x.1.periodStart, x.1.periodEnd))) with
  | error e => rfl
  | ok yf =>
    cases contractualParam exch sch.length param with
    | error e => rfl
    | ok rates =>
      simp only [bind, Except.bind, pure, Except.pure, Except.map]
      unfold mirrorLeg
      simp only [List.map_map, Except.ok.injEq, Leg.mk.injEq, true_and, and_true]
      apply List.map_congr_left
      intro x _
      simp only [Function.comp, mirrorRow, multiplier_opposite, LegRow.mk.injEq, true_and, and_true]
      constructor <;> ring

end Frm

namespace Frm.Props
open Spec

set_option autoImplicit false

/-- The signs. -/
theorem C20_multipliers :
    PayRcv.pay.multiplier = -1 ∧ PayRcv.rcv.multiplier = 1 ∧ BuySell.sell.multiplier = -1 ∧ BuySell.buy.multiplier = 1 := by
  decide

/-- Building the same contract from the other side fails in the same way, or gives a leg whose notionals and notional
payments are the negatives and whose every other term is the same. -/
theorem C20_notionals_partial (kind : LegKind) (p : PayRcv) (basis : DayCountBasis) (curve : Option (Int → Rat))
    (fc : Bool) (zdf : Rat → Rat → Rat) (exch : ExchangeNotionals) (param : List NRat)
    (sch : List (NotionalRow × Option Int)) :
    (∀ e, makeLeg kind p basis curve fc zdf exch param sch = .error e →
      makeLeg kind (opposite p) basis curve fc zdf exch param sch = .error e) ∧
    (∀ leg, makeLeg kind p basis curve fc zdf exch param sch = .ok leg →
      ∃ leg', makeLeg kind (opposite p) basis curve fc zdf exch param sch = .ok leg' ∧
        leg'.rows.map termsOf = leg.rows.map (fun r =>
          { termsOf r with notional := -r.notional, notionalPayment := -r.notionalPayment })) := by
  rw [makeLeg_mirror]
  constructor
  · intro e h; rw [h]; rfl
  · intro leg h
    refine ⟨mirrorLeg leg, by rw [h]; rfl, ?_⟩
    simp only [mirrorLeg, List.map_map]
    rfl

/-- The receiver's notionals are the schedule's, the payer's their negatives. -/
theorem C20_signed_notionals (kind : LegKind) (p : PayRcv) (basis : DayCountBasis) (curve : Option (Int → Rat))
    (fc : Bool) (zdf : Rat → Rat → Rat) (exch : ExchangeNotionals) (param : List NRat)
    (sch : List (NotionalRow × Option Int)) (leg : Leg)
    (h : makeLeg kind p basis curve fc zdf exch param sch = .ok leg) (i : Nat) (hi : i < leg.rows.length)
    (hs : i < sch.length) :
    leg.rows[i].notional = (if p = .pay then -sch[i].1.notional else sch[i].1.notional) ∧
    leg.rows[i].notionalPayment = (if p = .pay then -sch[i].1.notionalPayment else sch[i].1.notionalPayment) ∧
    leg.rows[i].notionalPaymentDate = sch[i].1.notionalPaymentDate ∧ leg.rows[i].couponPaymentDate = sch[i].2 ∧
    leg.rows[i].periodStart = sch[i].1.periodStart ∧ leg.rows[i].periodEnd = sch[i].1.periodEnd := by
  unfold makeLeg at h
  cases hy : addPeriodYearfrac basis (sch.map (fun x => (x.1.periodStart, x.1.periodEnd))) with
  | error e => rw [hy] at h; cases h
  | ok yf =>
    cases hp : contractualParam exch sch.length param with
    | error e => rw [hy, hp] at h; cases h
    | ok rates =>
      rw [hy, hp] at h
      simp only [bind, Except.bind, pure, Except.pure, Except.ok.injEq] at h
      subst h
      simp only [List.getElem_map, List.getElem_zip]
      refine ⟨?_, ?_, trivial, trivial, trivial, trivial⟩ <;> cases p <;> simp [PayRcv.multiplier]

/-- Defect: the coupons do not change sign with the side, because the multiplier is applied to notionals that already
carry it; the coupon payments and their present values of the two sides are the same. -/
theorem C20_coupons_do_not_flip (kind : LegKind) (p : PayRcv) (basis : DayCountBasis) (D : Int → Rat)
    (zdf : Rat → Rat → Rat) (exch : ExchangeNotionals) (param : List NRat) (sch : List (NotionalRow × Option Int))
    (leg leg' : Leg) (S : Settings)
    (h : makeLeg kind p basis (some D) true zdf exch param sch = .ok leg)
    (h' : makeLeg kind (opposite p) basis (some D) true zdf exch param sch = .ok leg') :
    (calcDirtyPv S leg' none).1.rows.map (·.couponPayment) = (calcDirtyPv S leg none).1.rows.map (·.couponPayment) ∧
    (calcDirtyPv S leg' none).1.rows.map (·.couponPv) = (calcDirtyPv S leg none).1.rows.map (·.couponPv) := by
  rw [makeLeg_mirror, h] at h'
  cases h'
  have hc : leg.curve = some D := by
    unfold makeLeg at h
    simp only [bind, Except.bind] at h
    split at h
    · cases h
    · split at h
      · cases h
      · cases h; rfl
  have hf : leg.fixingCurve = true := by
    unfold makeLeg at h
    simp only [bind, Except.bind] at h
    split at h
    · cases h
    · split at h
      · cases h
      · cases h; rfl
  have hr : Ready leg := by unfold Ready; simp [hf]
  rw [calcDirtyPv_ready hr hc, calcDirtyPv_ready (leg := mirrorLeg leg) hr hc]
  have e : ∀ r, (rowAfterPv S (mirrorLeg leg) D none (mirrorRow r)).couponPayment =
      (rowAfterPv S leg D none r).couponPayment := fun r => couponOf_mirror leg r
  constructor
  · simp only [mirrorLeg, List.map_map]
    apply List.map_congr_left
    intro r _
    exact e r
  · simp only [mirrorLeg, List.map_map]
    apply List.map_congr_left
    intro r _
    exact congrArg (fun x => nmul x (some (discountOf S D r.couponPaymentDate))) (e r)

/-- A swap is accepted exactly when its legs have opposite directions, and it keeps both legs as given. -/
theorem C20_swap_opposite (leg1 leg2 : Leg) (sw : Swap) :
    makeSwap leg1 leg2 = .ok sw ↔ leg1.payRcv ≠ leg2.payRcv ∧ sw.leg1 = leg1 ∧ sw.leg2 = leg2 := by
  unfold makeSwap pyAssert
  by_cases h : leg1.payRcv = leg2.payRcv
  · simp [h, bind, Except.bind]
  · simp only [ne_eq, h, not_false_eq_true, decide_true, if_true, bind, Except.bind, pure, Except.pure, Except.ok.injEq,
      true_and]
    constructor
    · rintro rfl; exact ⟨rfl, rfl⟩
    · rintro ⟨rfl, rfl⟩; rfl

/-- Consequently a swap of a fixed leg against its mirror image is worth twice the present value of the coupons, and
is worth zero exactly when the coupons are. -/
theorem C20_swap_of_opposites (p : PayRcv) (basis : DayCountBasis) (D : Int → Rat) (zdf : Rat → Rat → Rat)
    (exch : ExchangeNotionals) (param : List NRat) (sch : List (NotionalRow × Option Int)) (leg leg' : Leg)
    (S : Settings) (h : makeLeg .fixed p basis (some D) true zdf exch param sch = .ok leg)
    (h' : makeLeg .fixed (opposite p) basis (some D) true zdf exch param sch = .ok leg')
    (hr : ∀ r ∈ leg.rows, r.couponPaymentDate ≠ none → r.rate ≠ none ∧ r.yearFrac ≠ none) :
    ∃ sw, makeSwap leg leg' = .ok sw ∧
      (sw.calcDirtyPv S).2 = .ok (2 * presentValue S D (couponFlows
        (fun r => leg.payRcv.multiplier * r.notional * val r.rate * val r.yearFrac) leg.rows)) := by
  have hkc : leg.kind = .fixed ∧ leg.curve = some D ∧ leg.payRcv = p := by
    unfold makeLeg at h
    simp only [bind, Except.bind] at h
    split at h
    · cases h
    · split at h
      · cases h
      · cases h; exact ⟨rfl, rfl, rfl⟩
  rw [makeLeg_mirror, h] at h'
  cases h'
  refine ⟨⟨leg, mirrorLeg leg⟩, ?_, ?_⟩
  · unfold makeSwap pyAssert mirrorLeg
    have : leg.payRcv ≠ opposite leg.payRcv := by cases leg.payRcv <;> decide
    simp [this, bind, Except.bind, pure, Except.pure]
  · have h1 := C24_fixed S leg hkc.1 D hkc.2.1 hr
    have h2 := C24_fixed S (mirrorLeg leg) hkc.1 D hkc.2.1 (by
      intro r' hr' hd
      simp only [mirrorLeg, List.mem_map] at hr'
      obtain ⟨r, hm, rfl⟩ := hr'
      exact hr r hm hd)
    unfold Swap.calcDirtyPv
    revert h1 h2
    generalize Frm.calcDirtyPv S leg none = a
    generalize Frm.calcDirtyPv S (mirrorLeg leg) none = b
    obtain ⟨a1, a2⟩ := a
    obtain ⟨b1, b2⟩ := b
    rintro h1 h2
    simp only at h1 h2
    subst h1; subst h2
    simp only [Except.ok.injEq]
    have e1 : presentValue S D (notionalFlows (mirrorLeg leg).rows) = -presentValue S D (notionalFlows leg.rows) := by
      simp only [mirrorLeg, notionalFlows, List.map_map]
      generalize leg.rows = rows
      induction rows with
      | nil => simp [presentValue]
      | cons r rows ih =>
        simp only [List.map_cons, Function.comp, presentValue_cons] at ih ⊢
        rw [ih]
        simp only [mirrorRow]
        ring
    have e2 : presentValue S D (couponFlows
        (fun r => (mirrorLeg leg).payRcv.multiplier * r.notional * val r.rate * val r.yearFrac) (mirrorLeg leg).rows) =
        presentValue S D (couponFlows
          (fun r => leg.payRcv.multiplier * r.notional * val r.rate * val r.yearFrac) leg.rows) := by
      simp only [mirrorLeg, couponFlows, List.map_map]
      congr 1
      apply List.map_congr_left
      intro r _
      simp only [Function.comp, mirrorRow, multiplier_opposite, Prod.mk.injEq, true_and]
      ring
    rw [e1, e2]
    ring

/-! ## A concrete contract -/

/-- One year of 100 exchanged at the end, coupon 5 %. -/
def sampleSchedule : List (NotionalRow × Option Int) :=
  [({ periodStart := some 0, periodEnd := some 365, notional := 100, notionalPayment := 100,
      notionalPaymentDate := some 365 }, some 365)]

/-- The property fails: the swap of the contract against its mirror image is worth 10 (twice the coupon), not 0. -/
theorem C20_fails :
    ∃ a b sw, makeLeg .fixed .pay .act_365 (some fun _ => 1) true (fun _ _ => 1) .end_ [some (1 / 20)] sampleSchedule
        = .ok a ∧
      makeLeg .fixed .rcv .act_365 (some fun _ => 1) true (fun _ _ => 1) .end_ [some (1 / 20)] sampleSchedule = .ok b ∧
      makeSwap a b = .ok sw ∧ (sw.calcDirtyPv sampleSettings).2 = .ok 10 := by
  refine ⟨_, _, _, rfl, rfl, rfl, ?_⟩
  decide +kernel

end Frm.Props
