import Mathlib.Tactic.Ring
import Mathlib.Tactic.Linarith
import Verif.Spec.Leg
import Verif.Proofs.Months

namespace Frm
open Spec

set_option autoImplicit false

theorem nsum_nil : nsum [] = 0 := rfl
theorem nsum_some (x : Rat) (l : List NRat) : nsum (some x :: l) = x + nsum l := by simp [nsum]
theorem nsum_none (l : List NRat) : nsum (none :: l) = nsum l := by simp [nsum]
theorem nsum_append (a b : List NRat) : nsum (a ++ b) = nsum a + nsum b := by simp [nsum]

theorem discountOf_none (S : Settings) (c : Int → Rat) : discountOf S c none = 0 := rfl

theorem discountOf_some (S : Settings) (c : Int → Rat) (d : Int) :
    discountOf S c (some d) = if ToCome S d then c d else 0 := by
  unfold discountOf
  by_cases h : S.includeOnValueDate = true
  · by_cases h1 : d < S.valueDate
    · have h2 : ¬ ToCome S d := by unfold ToCome; omega
      simp only [h, if_true, if_pos h1, if_neg h2]
    · have h2 : ToCome S d := by unfold ToCome; rcases Int.lt_or_eq_of_le (Int.not_lt.mp h1) with h3 | h3
                                 · exact .inl h3
                                 · exact .inr ⟨h, h3.symm⟩
      simp only [h, if_true, if_neg h1, if_pos h2]
  · by_cases h1 : d ≤ S.valueDate
    · have h2 : ¬ ToCome S d := by
        unfold ToCome
        rintro (h3 | h3)
        · omega
        · exact h h3.1
      simp only [h, if_pos h1, if_neg h2, Bool.false_eq_true, if_false]
    · have h2 : ToCome S d := .inl (by omega)
      simp only [h, if_neg h1, if_pos h2, Bool.false_eq_true, if_false]

theorem presentValue_cons (S : Settings) (c : Int → Rat) (d : Option Int) (x : Rat) (fs : List Flow) :
    presentValue S c ((d, x) :: fs) = x * discountOf S c d + presentValue S c fs := by
  cases d with
  | none => simp [presentValue, discountOf_none]
  | some d =>
    rw [presentValue, discountOf_some]
    split <;> simp

theorem presentValue_append (S : Settings) (c : Int → Rat) (a b : List Flow) :
    presentValue S c (a ++ b) = presentValue S c a + presentValue S c b := by
  induction a with
  | nil => simp [presentValue]
  | cons f a ih => obtain ⟨d, x⟩ := f; rw [List.cons_append, presentValue_cons, presentValue_cons, ih]; ring

/-- The row after `calc_coupon_payment`. -/
def rowAfterCoupon (leg : Leg) (override : Option Rat) (r : LegRow) : LegRow :=
  let r1 : LegRow := { r with rate := override.or r.rate }
  { r1 with
    couponRate := if leg.kind = .floatTerm ∨ leg.kind = .floatRFR then none else r1.couponRate,
    couponPayment := couponOf leg r1 }

/-- The row after `calc_dirty_pv`. -/
def rowAfterPv (S : Settings) (leg : Leg) (c : Int → Rat) (override : Option Rat) (r : LegRow) : LegRow :=
  let r2 := rowAfterCoupon leg override r
  { r2 with
    notionalPv := nmul (some r2.notionalPayment) (some (discountOf S c r2.notionalPaymentDate)),
    couponPv := nmul r2.couponPayment (some (discountOf S c r2.couponPaymentDate)) }

/-- The leg has the fixing data its kind needs. -/
def Ready (leg : Leg) : Prop := ¬((leg.kind = .floatTerm ∨ leg.kind = .floatRFR) ∧ leg.fixingCurve = false)

theorem calcCouponPayment_ready {leg : Leg} (h : Ready leg) (o : Option Rat) :
    calcCouponPayment leg o = ({ leg with rows := leg.rows.map (rowAfterCoupon leg o), computed := true }, .ok ()) := by
  unfold calcCouponPayment
  rw [if_neg h]
  rfl

theorem calcDirtyPv_ready {leg : Leg} (h : Ready leg) {c : Int → Rat} (hc : leg.curve = some c) (S : Settings)
    (o : Option Rat) :
    calcDirtyPv S leg o = ({ leg with rows := leg.rows.map (rowAfterPv S leg c o), computed := true },
      .ok (nsum (leg.rows.map (fun r => nadd (rowAfterPv S leg c o r).notionalPv (rowAfterPv S leg c o r).couponPv)))) := by
  unfold calcDirtyPv
  rw [calcCouponPayment_ready h]
  simp only [hc, List.map_map]
  rfl

theorem calcDirtyPv_noCurve {leg : Leg} (h : Ready leg) (hc : leg.curve = none) (S : Settings) (o : Option Rat) :
    calcDirtyPv S leg o =
      ({ leg with rows := leg.rows.map (rowAfterCoupon leg o), computed := true }, .error .marketData) := by
  unfold calcDirtyPv
  rw [calcCouponPayment_ready h]
  simp only [hc]

theorem calcDirtyPv_notReady {leg : Leg} (h : ¬ Ready leg) (S : Settings) (o : Option Rat) :
    calcDirtyPv S leg o = (leg, .error .marketData) := by
  unfold calcDirtyPv calcCouponPayment
  unfold Ready at h
  rw [if_pos (Classical.not_not.mp h)]

theorem termsOf_rowAfterCoupon (leg : Leg) (o : Option Rat) (r : LegRow) :
    termsOf (rowAfterCoupon leg o r) = { termsOf r with rate := o.or r.rate } := rfl

theorem termsOf_rowAfterPv (S : Settings) (leg : Leg) (c : Int → Rat) (o : Option Rat) (r : LegRow) :
    termsOf (rowAfterPv S leg c o r) = { termsOf r with rate := o.or r.rate } := rfl

/-- The coupon depends on the leg only through its kind, side and zero-coupon function, and on the agreed terms. -/
theorem couponOf_congr {l1 l2 : Leg} (hk : l1.kind = l2.kind) (hp : l1.payRcv = l2.payRcv) (hz : l1.zeroDf = l2.zeroDf)
    {r1 r2 : LegRow} (h : termsOf r1 = termsOf r2) : couponOf l1 r1 = couponOf l2 r2 := by
  simp only [termsOf, Terms.mk.injEq] at h
  obtain ⟨-, -, h3, -, -, h6, h7, h8⟩ := h
  unfold couponOf
  rw [hk, hp, hz, h3, h6, h7, h8]

end Frm
