import Verif.Props.C24

/-! # C28 — Current / non-current split -/

namespace Frm
open Spec

set_option autoImplicit false

theorem nsum_filter_pv (S : Settings) (D : Int → Rat) (rows : List LegRow) (p : LegRow → Bool) (pv : LegRow → NRat)
    (date : LegRow → Option Int) (amount : LegRow → Rat)
    (h : ∀ r ∈ rows, ∃ x, pv r = some (x * discountOf S D (date r)) ∧ (date r ≠ none → x = amount r)) :
    nsum ((rows.filter p).map pv) = presentValue S D ((rows.filter p).map (fun r => (date r, amount r))) := by
  induction rows with
  | nil => rfl
  | cons r rows ih =>
    have ih := ih (fun r hr => h r (by simp [hr]))
    obtain ⟨x, hx, ha⟩ := h r (by simp)
    by_cases hp : p r = true
    · rw [List.filter_cons_of_pos hp, List.map_cons, List.map_cons, hx, nsum_some, presentValue_cons, ih]
      cases hd : date r with
      | none => simp [discountOf_none]
      | some d => rw [← ha (by simp [hd])]
    · rw [List.filter_cons_of_neg hp]; exact ih

end Frm

namespace Frm.Props
open Spec

set_option autoImplicit false

/-- Payable within one year of the value date (inclusive when payments on the boundary count). -/
def WithinYear (S : Settings) (d : Option Int) : Bool :=
  match d with
  | none => false
  | some x => if S.includeOnValueDate then decide (x ≤ addMonths S.valueDate 12) else decide (x < addMonths S.valueDate 12)

/-- The contractual coupon of a fixed leg. -/
def fixedCoupon (leg : Leg) (r : LegRow) : Rat := leg.payRcv.multiplier * r.notional * val r.rate * val r.yearFrac

/-- The split of a fixed leg after valuation: the current amount is the value of the flows within the year; the
non-current amount is (defect) the value of the later notional flows plus, a second time, of the notional flows of the
rows whose coupon is later or undated. -/
theorem C28_split_partial (S : Settings) (leg : Leg) (hk : leg.kind = .fixed) (D : Int → Rat) (hD : leg.curve = some D)
    (hr : ∀ r ∈ leg.rows, r.couponPaymentDate ≠ none → r.rate ≠ none ∧ r.yearFrac ≠ none) :
    currentSplit S (calcDirtyPv S leg none).1 =
      (presentValue S D (notionalFlows (leg.rows.filter (fun r => WithinYear S r.notionalPaymentDate))) +
        presentValue S D (couponFlows (fixedCoupon leg) (leg.rows.filter (fun r => WithinYear S r.couponPaymentDate))),
       presentValue S D (notionalFlows (leg.rows.filter (fun r => !WithinYear S r.notionalPaymentDate))) +
        presentValue S D (notionalFlows (leg.rows.filter (fun r => !WithinYear S r.couponPaymentDate)))) := by
  rw [calcDirtyPv_ready (ready_of_fixed hk) hD]
  have hw : (fun d : Option Int => d.any (fun x => if S.includeOnValueDate then decide (x ≤ addMonths S.valueDate 12) else
      decide (x < addMonths S.valueDate 12))) = WithinYear S := by
    funext d; cases d <;> rfl
  unfold currentSplit
  simp only [hw, List.filter_map, List.map_map]
  have e1 : ∀ p : LegRow → Bool, nsum ((leg.rows.filter p).map ((·.notionalPv) ∘ rowAfterPv S leg D none)) =
      presentValue S D (notionalFlows (leg.rows.filter p)) := by
    intro p
    exact nsum_filter_pv S D leg.rows p _ (·.notionalPaymentDate) (·.notionalPayment)
      (fun r _ => ⟨r.notionalPayment, rfl, fun _ => rfl⟩)
  have e2 : ∀ p : LegRow → Bool, nsum ((leg.rows.filter p).map ((·.couponPv) ∘ rowAfterPv S leg D none)) =
      presentValue S D (couponFlows (fixedCoupon leg) (leg.rows.filter p)) := by
    intro p
    refine nsum_filter_pv S D leg.rows p _ (·.couponPaymentDate) (fixedCoupon leg) (fun r hm => ?_)
    obtain ⟨x, hx, ha⟩ := couponOf_fixed hk r (hr r hm)
    refine ⟨x, ?_, ha⟩
    change nmul (couponOf leg { r with rate := Option.or none r.rate }) _ = _
    have : ({ r with rate := Option.or none r.rate } : LegRow) = r := by cases r; rfl
    rw [this, hx]
    rfl
  have f1 : ∀ r, (rowAfterPv S leg D none r).notionalPaymentDate = r.notionalPaymentDate := fun _ => rfl
  have f2 : ∀ r, (rowAfterPv S leg D none r).couponPaymentDate = r.couponPaymentDate := fun _ => rfl
  simp only [Function.comp_def, f1, f2] at e1 e2 ⊢
  simp only [e1, e2]

/-- The two parts add up to the dirty PV exactly when the later coupons happen to be worth as much as the notional flows
of their rows. -/
theorem C28_adds_up_iff (S : Settings) (leg : Leg) (hk : leg.kind = .fixed) (D : Int → Rat) (hD : leg.curve = some D)
    (hr : ∀ r ∈ leg.rows, r.couponPaymentDate ≠ none → r.rate ≠ none ∧ r.yearFrac ≠ none) :
    (calcDirtyPv S leg none).2 =
      .ok ((currentSplit S (calcDirtyPv S leg none).1).1 + (currentSplit S (calcDirtyPv S leg none).1).2) ↔
    presentValue S D (couponFlows (fixedCoupon leg) (leg.rows.filter (fun r => !WithinYear S r.couponPaymentDate))) =
      presentValue S D (notionalFlows (leg.rows.filter (fun r => !WithinYear S r.couponPaymentDate))) := by
  rw [C28_split_partial S leg hk D hD hr, C24_fixed S leg hk D hD hr]
  have split : ∀ (f : LegRow → Flow) (p : LegRow → Bool) (rows : List LegRow),
      presentValue S D (rows.map f) = presentValue S D ((rows.filter p).map f) +
        presentValue S D ((rows.filter (fun r => !p r)).map f) := by
    intro f p rows
    induction rows with
    | nil => simp [presentValue]
    | cons r rows ih =>
      rcases hf : f r with ⟨d, x⟩
      cases hp : p r <;> simp only [List.filter_cons, hp, Bool.not_true, Bool.not_false, if_true, Bool.false_eq_true,
        if_false, List.map_cons, hf, presentValue_cons, ih] <;> ring
  change Except.ok (presentValue S D (notionalFlows leg.rows) + presentValue S D (couponFlows (fixedCoupon leg) leg.rows))
    = _ ↔ _
  simp only [Except.ok.injEq, notionalFlows, couponFlows]
  rw [split _ (fun r => WithinYear S r.notionalPaymentDate) leg.rows,
    split _ (fun r => WithinYear S r.couponPaymentDate) leg.rows]
  constructor <;> intro h <;> linarith

/-- The property fails: for a two-year 5 % leg on 100 valued at par conditions the split counts the final notional
twice and loses the second coupon. -/
theorem C28_fails :
    currentSplit sampleSettings (calcDirtyPv sampleSettings (sampleLeg .fixed) none).1 = (9 / 2, 162) ∧
    (calcDirtyPv sampleSettings (sampleLeg .fixed) none).2 = .ok (9 / 2 + 81 + 81 / 20) := by decide +kernel

end Frm.Props
