import Verif.Spec.LegCurve
import Verif.Props.C29
import Verif.Props.C36
import Verif.Props.C86

/-! # C108 — Valuing a leg on a zero curve -/

namespace Frm
open Spec

set_option autoImplicit false

section
variable {cd : Int} {basis : DayCountBasis} {cal : BusCal} {z : ZeroCurve}

open Classical in
theorem paymentFactors_eq (h : IsCurve cd basis cal z) (dates : List (Option Int)) :
    z.paymentFactors dates = (dates.filter (fun d => decide (∀ x, d = some x → InRange z x))).map
      (fun d => d.map (fun x => dfOf z x)) := by
  obtain ⟨-, -, -, last, hle, hdates, hrow⟩ := curve_ok h
  unfold ZeroCurve.paymentFactors
  rw [hdates, dateRange_min hle, dateRange_max hle]
  have hf : dates.filter (fun d => match d with
      | none => true
      | some _ => !natGt (some cd) d && !natGt d (some last)) =
      dates.filter (fun d => decide (∀ x, d = some x → InRange z x)) := by
    apply List.filter_congr
    intro d _
    cases d with
    | none => simp
    | some d =>
      rw [Bool.eq_iff_iff]
      simp only [natGt, Option.some.injEq, forall_eq', curve_inRange h hle hdates, decide_eq_true_eq]
      simp
  refine Eq.trans (congrArg (List.map _) hf) ?_
  apply List.map_congr_left
  intro d hd
  cases d with
  | none => rfl
  | some d =>
    have hd := (curve_inRange h hle hdates d).mp (of_decide_eq_true (List.mem_filter.mp hd).2 d rfl)
    obtain ⟨y, r, -, -, hf, -⟩ := hrow d hd.1 hd.2
    simp only [hf, Option.map_some, dfOf, Option.getD_some]

/-- The factor a covered payment date gets. -/
noncomputable def factorOf (S : Settings) (z : ZeroCurve) (d : Option Int) : ℝ :=
  match d with
  | none => 0
  | some x => if ToCome S x then dfOf z x else 0

theorem past_iff (S : Settings) (x : Int) :
    (if S.includeOnValueDate then x < S.valueDate else x ≤ S.valueDate) ↔ ¬ ToCome S x := by
  unfold ToCome
  cases S.includeOnValueDate <;> simp
  omega

theorem discountColumn_covered (h : IsCurve cd basis cal z) (S : Settings) (dates : List (Option Int))
    (hd : ∀ d ∈ dates, ∀ x, d = some x → InRange z x) :
    discountColumn S z dates = .ok (dates.map (fun d => some (factorOf S z d))) := by
  classical
  have hp : z.paymentFactors dates = dates.map (fun d => d.map (fun x => dfOf z x)) := by
    rw [paymentFactors_eq h]
    congr 1
    rw [List.filter_eq_self]
    intro d hdm
    simpa using hd d hdm
  unfold discountColumn
  simp only [hp, List.length_map, ne_eq, not_true_eq_false, if_false, Except.ok.injEq]
  clear hp hd
  induction dates with
  | nil => rfl
  | cons d dates ih =>
    simp only [List.map_cons, List.zip_cons_cons, ih]
    congr 1
    cases d with
    | none => rfl
    | some x =>
      simp only [factorOf, Option.map_some]
      by_cases hx : ToCome S x
      · rw [if_neg (by rw [past_iff]; simpa using hx), if_pos hx]
      · rw [if_pos (by rw [past_iff]; exact hx), if_neg hx]

theorem discountColumn_uncovered (h : IsCurve cd basis cal z) (S : Settings) (dates : List (Option Int))
    {x : Int} (hx : some x ∈ dates) (hn : ¬ InRange z x) : discountColumn S z dates = .error .value := by
  classical
  unfold discountColumn
  have : (z.paymentFactors dates).length ≠ dates.length := by
    rw [paymentFactors_eq h, List.length_map]
    intro hc
    rw [List.length_filter_eq_length_iff] at hc
    exact hn (of_decide_eq_true (hc _ hx) x rfl)
  simp only [if_pos this]

theorem rowAfterCoupon_dates (leg : Leg) (o : Option Rat) :
    (leg.rows.map (rowAfterCoupon leg o)).map (·.notionalPaymentDate) = leg.rows.map (·.notionalPaymentDate) ∧
    (leg.rows.map (rowAfterCoupon leg o)).map (·.couponPaymentDate) = leg.rows.map (·.couponPaymentDate) := by
  simp only [List.map_map]
  exact ⟨rfl, rfl⟩

theorem dirtyPvOn_covered (h : IsCurve cd basis cal z) (S : Settings) (leg : Leg) (hr : Ready leg)
    (o : Option Rat) (hd : ∀ d, PaysOn leg d → InRange z d) :
    dirtyPvOn S (some z) leg o = ({ leg with rows := leg.rows.map (rowAfterCoupon leg o), computed := true },
      .ok ((leg.rows.filterMap (fun r => (couponOf leg { r with rate := o.or r.rate }).map (fun x : Rat =>
        (r.notionalPayment : ℝ) * factorOf S z r.notionalPaymentDate + (x : ℝ) * factorOf S z r.couponPaymentDate))).sum)) := by
  unfold dirtyPvOn
  rw [calcCouponPayment_ready hr]
  simp only [(rowAfterCoupon_dates leg o).1, (rowAfterCoupon_dates leg o).2]
  have h1 := discountColumn_covered h S (leg.rows.map (·.notionalPaymentDate)) (by
    intro d hdm x hx
    obtain ⟨r, hrm, rfl⟩ := List.mem_map.mp hdm
    exact hd x ⟨r, hrm, .inl hx⟩)
  have h2 := discountColumn_covered h S (leg.rows.map (·.couponPaymentDate)) (by
    intro d hdm x hx
    obtain ⟨r, hrm, rfl⟩ := List.mem_map.mp hdm
    exact hd x ⟨r, hrm, .inr hx⟩)
  simp only [h1, h2]
  congr 3
  generalize leg.rows = rows
  induction rows with
  | nil => rfl
  | cons r rows ih =>
    simp only [List.map_cons, List.zip_cons_cons, List.filterMap_cons, ih]
    have : rowPv (rowAfterCoupon leg o r) (some (factorOf S z r.notionalPaymentDate))
        (some (factorOf S z r.couponPaymentDate)) = (couponOf leg { r with rate := o.or r.rate }).map (fun x : Rat =>
        (r.notionalPayment : ℝ) * factorOf S z r.notionalPaymentDate + (x : ℝ) * factorOf S z r.couponPaymentDate) := by
      unfold rowPv rowAfterCoupon
      simp only
      cases couponOf leg { r with rate := o.or r.rate } <;> rfl
    rw [this]

theorem dirtyPvOn_uncovered (h : IsCurve cd basis cal z) (S : Settings) (leg : Leg) (hr : Ready leg)
    (o : Option Rat) {d : Int} (hd : PaysOn leg d) (hn : ¬ InRange z d) :
    dirtyPvOn S (some z) leg o =
      ({ leg with rows := leg.rows.map (rowAfterCoupon leg o), computed := true }, .error .value) := by
  unfold dirtyPvOn
  rw [calcCouponPayment_ready hr]
  simp only [(rowAfterCoupon_dates leg o).1, (rowAfterCoupon_dates leg o).2]
  by_cases hN : ∀ e ∈ leg.rows.map (·.notionalPaymentDate), ∀ x, e = some x → InRange z x
  · rw [discountColumn_covered h S _ hN]
    have hc : some d ∈ leg.rows.map (·.couponPaymentDate) := by
      obtain ⟨r, hrm, hrd | hrd⟩ := hd
      · exact absurd (hN _ (List.mem_map_of_mem hrm) d hrd) hn
      · exact List.mem_map.mpr ⟨r, hrm, hrd⟩
    simp only [discountColumn_uncovered h S _ hc hn]
  · push Not at hN
    obtain ⟨e, he, x, rfl, hx⟩ := hN
    simp only [discountColumn_uncovered h S _ he hx]

theorem presentValueR_cons (S : Settings) (z : ZeroCurve) (D : Int → ℝ) (d : Option Int) (x : Rat) (fs : List Flow)
    (hD : ∀ e, d = some e → ToCome S e → D e = dfOf z e) :
    presentValueR S D ((d, x) :: fs) = (x : ℝ) * factorOf S z d + presentValueR S D fs := by
  cases d with
  | none => simp [presentValueR, factorOf]
  | some d =>
    simp only [presentValueR, factorOf]
    split
    · rename_i ht; rw [hD d rfl ht]
    · simp

theorem discountFactor_dfOf (h : IsCurve cd basis cal z) {d : Int} (hd : InRange z d) :
    z.discountFactor d = .ok (some (dfOf z d)) := by
  unfold ZeroCurve.discountFactor
  rw [discountFactors_all h (by simpa using hd)]
  rfl

theorem sameLeg_dirtyPvOn (S : Settings) (curve : Option ZeroCurve) (leg : Leg) (o : Option Rat) :
    SameLeg leg (dirtyPvOn S curve leg o).1 := by
  by_cases hr : Ready leg
  · have h1 : SameLeg leg { leg with rows := leg.rows.map (rowAfterCoupon leg o), computed := true } := by
      refine ⟨rfl, rfl, rfl, rfl, rfl, rfl, ?_⟩
      simp only [List.map_map]; rfl
    unfold dirtyPvOn
    rw [calcCouponPayment_ready hr]
    simp only
    split
    · exact h1
    · split
      · exact h1
      · split <;> exact h1
  · unfold dirtyPvOn calcCouponPayment
    rw [if_pos (Classical.not_not.mp hr)]
    exact SameLeg.refl leg

theorem sameLeg_runOn (S : Settings) (curve : Option ZeroCurve) (target : Rat) (run : RealRun) :
    ∀ leg, SameLeg leg (runSolverOn S curve target run leg).1 := by
  induction run with
  | done c x => intro leg; exact SameLeg.refl leg
  | fail => intro leg; exact SameLeg.refl leg
  | eval x next ih =>
    intro leg
    have h1 := sameLeg_dirtyPvOn S curve leg (some x)
    unfold runSolverOn
    revert h1
    generalize dirtyPvOn S curve leg (some x) = q
    obtain ⟨l1, res⟩ := q
    intro h1
    cases res with
    | error e => exact h1
    | ok pv => exact h1.trans (ih (pv - target) l1)

theorem par_sum (S : Settings) (rows : List LegRow) : ((rows.filter (fun r => r.notionalPaymentDate.any (fun x =>
      if S.includeOnValueDate then decide (S.valueDate ≤ x) else decide (S.valueDate < x)))).map (·.notionalPayment)).sum =
      total (ToCome S) (rows.map (fun r => (r.notionalPaymentDate, some r.notionalPayment))) := by
  induction rows with
  | nil => rfl
  | cons r rows ih =>
    cases hd : r.notionalPaymentDate with
    | none => rw [List.filter_cons_of_neg (by simp [hd]), ih]; simp [hd, total]
    | some d =>
      have hl : (if S.includeOnValueDate then decide (S.valueDate ≤ d) else decide (S.valueDate < d)) =
          decide (ToCome S d) := by
        rw [Bool.eq_iff_iff]
        by_cases hi : S.includeOnValueDate = true
        · simp only [hi, if_true, decide_eq_true_eq, ToCome, true_and]; omega
        · simp [hi, ToCome]
      by_cases ht : ToCome S d
      · rw [List.filter_cons_of_pos (by simp only [hd, Option.any_some, hl]; simp [ht])]
        simp [hd, ht, ih, total]
      · rw [List.filter_cons_of_neg (by simp only [hd, Option.any_some, hl]; simp [ht]), ih]
        simp [hd, ht, total]

/-- Whatever the kind: on a covered leg whose paid coupons are known, the dirty PV is the present value of all flows. -/
theorem dirtyPvOn_amount (h : IsCurve cd basis cal z) (S : Settings) (leg : Leg) (hr : Ready leg)
    (D : Int → ℝ) (hD : ∀ d, PaysOn leg d → z.discountFactor d = .ok (some (D d)))
    (hd : ∀ d, PaysOn leg d → InRange z d) (o : Option Rat) (amount : LegRow → Rat)
    (ha : ∀ r ∈ leg.rows, ∃ x, couponOf leg { r with rate := o.or r.rate } = some x ∧
      (r.couponPaymentDate ≠ none → x = amount r)) :
    (dirtyPvOn S (some z) leg o).2 = .ok (presentValueR S D (notionalFlows leg.rows) +
      presentValueR S D (couponFlows amount leg.rows)) := by
  rw [dirtyPvOn_covered h S leg hr o hd]
  simp only [Except.ok.injEq]
  have hD' : ∀ d, PaysOn leg d → D d = dfOf z d := by
    intro d hp
    have h1 := hD d hp
    rw [discountFactor_dfOf h (hd d hp)] at h1
    simpa using h1.symm
  have key : ∀ rows : List LegRow, (∀ r ∈ rows, r ∈ leg.rows) →
      (rows.filterMap (fun r => (couponOf leg { r with rate := o.or r.rate }).map (fun x : Rat =>
        (r.notionalPayment : ℝ) * factorOf S z r.notionalPaymentDate +
          (x : ℝ) * factorOf S z r.couponPaymentDate))).sum =
      presentValueR S D (notionalFlows rows) + presentValueR S D (couponFlows amount rows) := by
    intro rows
    induction rows with
    | nil => intro _; simp [notionalFlows, couponFlows, presentValueR]
    | cons r rows ih =>
      intro hm
      have hrm := hm r (by simp)
      obtain ⟨x, hx, hxa⟩ := ha r hrm
      have ih := ih (fun r h => hm r (by simp [h]))
      simp only [notionalFlows, couponFlows] at ih ⊢
      simp only [List.filterMap_cons, hx, Option.map_some, List.sum_cons, List.map_cons, ih]
      rw [presentValueR_cons S z D r.notionalPaymentDate _ _ (fun e he _ => hD' e ⟨r, hrm, .inl he⟩),
        presentValueR_cons S z D r.couponPaymentDate _ _ (fun e he _ => hD' e ⟨r, hrm, .inr he⟩)]
      cases hdt : r.couponPaymentDate with
      | none => simp only [factorOf]; ring
      | some d => rw [← hxa (by simp [hdt])]; ring
  exact key leg.rows (fun _ h => h)

/-- The leg after a valuation with an overriding rate. -/
def afterOverride (leg : Leg) (x : Rat) : Leg :=
  { leg with rows := leg.rows.map (rowAfterCoupon leg (some x)), computed := true }

theorem rowAfterCoupon_twice (leg : Leg) (x y : Rat) (r : LegRow) :
    rowAfterCoupon (afterOverride leg y) (some x) (rowAfterCoupon leg (some y) r) = rowAfterCoupon leg (some x) r := by
  unfold rowAfterCoupon afterOverride
  simp only [Option.some_or, LegRow.mk.injEq, true_and, and_true]
  refine ⟨?_, couponOf_congr rfl rfl rfl rfl⟩
  split <;> rfl

theorem dirtyPvOn_afterOverride (S : Settings) (z : ZeroCurve) (leg : Leg) (hr : Ready leg) (x y : Rat) :
    dirtyPvOn S (some z) (afterOverride leg y) (some x) = dirtyPvOn S (some z) leg (some x) := by
  have hr' : Ready (afterOverride leg y) := hr
  have hc : calcCouponPayment (afterOverride leg y) (some x) = calcCouponPayment leg (some x) := by
    rw [calcCouponPayment_ready hr', calcCouponPayment_ready hr]
    simp only [afterOverride, List.map_map]
    congr 2
    apply List.map_congr_left
    intro r _
    exact rowAfterCoupon_twice leg x y r
  unfold dirtyPvOn
  rw [hc]

theorem presentValueR_scale (S : Settings) (D : Int → ℝ) (x : Rat) (f : LegRow → Rat) (rows : List LegRow) :
    presentValueR S D (couponFlows (fun r => x * f r) rows) = (x : ℝ) * presentValueR S D (couponFlows f rows) := by
  induction rows with
  | nil => simp [couponFlows, presentValueR]
  | cons r rows ih =>
    simp only [couponFlows, List.map_cons] at ih ⊢
    cases r.couponPaymentDate with
    | none => simp only [presentValueR, ih]
    | some d =>
      simp only [presentValueR, ih]
      split <;> push_cast <;> ring

end
end Frm

namespace Frm.Props
open Spec

set_option autoImplicit false

section
variable {cd : Int} {basis : DayCountBasis} {cal : BusCal} {z : ZeroCurve}

/-- Fixed legs: when every payment date of the leg, past ones included, lies in the curve's table, the dirty PV is the
present value of the flows still to come, each at the factor `get_discount_factors` gives for its date. -/
theorem C108_fixed_partial (h : IsCurve cd basis cal z) (S : Settings) (leg : Leg)
    (hk : leg.kind = .fixed) (D : Int → ℝ) (hD : ∀ d, PaysOn leg d → z.discountFactor d = .ok (some (D d)))
    (hd : ∀ d, PaysOn leg d → InRange z d)
    (hr : ∀ r ∈ leg.rows, r.couponPaymentDate ≠ none → r.rate ≠ none ∧ r.yearFrac ≠ none) :
    (dirtyPvOn S (some z) leg none).2 = .ok (presentValueR S D (notionalFlows leg.rows) +
      presentValueR S D (couponFlows
        (fun r => leg.payRcv.multiplier * r.notional * val r.rate * val r.yearFrac) leg.rows)) := by
  exact dirtyPvOn_amount h S leg (ready_of_fixed hk) D hD hd none _ (fun r hrm => couponOf_fixed hk r (hr r hrm))

/-- Zero-coupon legs likewise. -/
theorem C108_zero_coupon_partial (h : IsCurve cd basis cal z) (S : Settings) (leg : Leg)
    (hk : leg.kind = .zeroCoupon) (D : Int → ℝ) (hD : ∀ d, PaysOn leg d → z.discountFactor d = .ok (some (D d)))
    (hd : ∀ d, PaysOn leg d → InRange z d)
    (hr : ∀ r ∈ leg.rows, r.couponPaymentDate ≠ none → r.rate ≠ none ∧ r.yearFrac ≠ none) :
    (dirtyPvOn S (some z) leg none).2 = .ok (presentValueR S D (notionalFlows leg.rows) +
      presentValueR S D (couponFlows
        (fun r => leg.payRcv.multiplier * r.notional * (1 / leg.zeroDf (val r.yearFrac) (val r.rate) - 1)) leg.rows)) := by
  exact dirtyPvOn_amount h S leg (ready_of_zero hk) D hD hd none _ (fun r hrm => couponOf_zero hk r (hr r hrm))

/-- The value of a covered fixed leg is affine in an overriding rate: the notional flows plus the rate times the annuity. -/
theorem C108_affine_partial (h : IsCurve cd basis cal z) (S : Settings) (leg : Leg)
    (hk : leg.kind = .fixed) (D : Int → ℝ) (hD : ∀ d, PaysOn leg d → z.discountFactor d = .ok (some (D d)))
    (hd : ∀ d, PaysOn leg d → InRange z d) (hr : ∀ r ∈ leg.rows, r.couponPaymentDate ≠ none → r.yearFrac ≠ none) (x : Rat) :
    (dirtyPvOn S (some z) leg (some x)).2 = .ok (presentValueR S D (notionalFlows leg.rows) + x *
      presentValueR S D (couponFlows (fun r => leg.payRcv.multiplier * r.notional * val r.yearFrac) leg.rows)) := by
  rw [dirtyPvOn_amount h S leg (ready_of_fixed hk) D hD hd (some x)
    (fun r => x * (leg.payRcv.multiplier * r.notional * val r.yearFrac)) (fun r hrm => ?_), presentValueR_scale]
  obtain ⟨y, hy, hya⟩ := couponOf_fixed hk { r with rate := some x } (fun hc => ⟨by simp, hr r hrm hc⟩)
  refine ⟨y, hy, fun hc => ?_⟩
  rw [hya hc]
  simp only [val, Option.getD_some]
  ring

/-- `target_solve` on a covered fixed leg is the root search on that affine function, though the leg is changed at each step:
a converged root that is exact is `(target - notionals) / annuity`. -/
theorem C108_search_partial (h : IsCurve cd basis cal z) (S : Settings) (leg : Leg)
    (hk : leg.kind = .fixed) (D : Int → ℝ) (hD : ∀ d, PaysOn leg d → z.discountFactor d = .ok (some (D d)))
    (hd : ∀ d, PaysOn leg d → InRange z d) (hr : ∀ r ∈ leg.rows, r.couponPaymentDate ≠ none → r.yearFrac ≠ none)
    (solver : Rat × Rat → RealRun) (target : Rat) :
    (targetSolveOn S (some z) solver leg target).2 = accepted (searchOnR (fun x =>
      presentValueR S D (notionalFlows leg.rows) + x * presentValueR S D (couponFlows
        (fun r => leg.payRcv.multiplier * r.notional * val r.yearFrac) leg.rows) - target) (solver (-1 / 10, 3))) := by
  unfold targetSolveOn
  simp only
  have key : ∀ (run : RealRun) (l : Leg), (l = leg ∨ ∃ x, l = afterOverride leg x) →
      (runSolverOn S (some z) target run l).2 = searchOnR (fun x =>
        presentValueR S D (notionalFlows leg.rows) + x * presentValueR S D (couponFlows
        (fun r => leg.payRcv.multiplier * r.notional * val r.yearFrac) leg.rows) - target) run := by
    intro run
    induction run with
    | done conv root => intro l _; rfl
    | fail => intro l _; rfl
    | eval x next ih =>
      intro l hl
      have hpv : dirtyPvOn S (some z) l (some x) = (afterOverride leg x, .ok (presentValueR S D (notionalFlows leg.rows) + x *
          presentValueR S D (couponFlows (fun r => leg.payRcv.multiplier * r.notional * val r.yearFrac) leg.rows))) := by
        have h0 := C108_affine_partial h S leg hk D hD hd hr x
        have h1 : dirtyPvOn S (some z) leg (some x) = (afterOverride leg x, (dirtyPvOn S (some z) leg (some x)).2) := by
          rw [dirtyPvOn_covered h S leg (ready_of_fixed hk) (some x) hd]
          rfl
        have h2 : dirtyPvOn S (some z) l (some x) = dirtyPvOn S (some z) leg (some x) := by
          rcases hl with rfl | ⟨y, rfl⟩
          · rfl
          · exact dirtyPvOn_afterOverride S z leg (ready_of_fixed hk) x y
        rw [h2, h1, h0]
      rw [runSolverOn, hpv, searchOnR]
      exact ih _ _ (.inr ⟨x, rfl⟩)
  have := key (solver (-1 / 10, 3)) leg (.inl rfl)
  rw [← this]
  rfl

/-- Defect: in a floating leg only the notional flows of the rows without a coupon are valued (compare
`C24_float_partial`). -/
theorem C108_float (h : IsCurve cd basis cal z) (S : Settings) (leg : Leg)
    (hk : leg.kind = .floatTerm ∨ leg.kind = .floatRFR) (hf : leg.fixingCurve = true) (D : Int → ℝ)
    (hD : ∀ d, PaysOn leg d → z.discountFactor d = .ok (some (D d))) (hd : ∀ d, PaysOn leg d → InRange z d)
    (o : Option Rat) : (dirtyPvOn S (some z) leg o).2 =
      .ok (presentValueR S D (notionalFlows (leg.rows.filter (fun r => r.couponPaymentDate.isNone)))) := by
  have hr : Ready leg := by unfold Ready; simp [hf]
  rw [dirtyPvOn_covered h S leg hr o hd]
  simp only [Except.ok.injEq]
  have hD' : ∀ d, PaysOn leg d → D d = dfOf z d := by
    intro d hp
    have h1 := hD d hp
    rw [discountFactor_dfOf h (hd d hp)] at h1
    simpa using h1.symm
  have key : ∀ rows : List LegRow, (∀ r ∈ rows, r ∈ leg.rows) →
      (rows.filterMap (fun r => (couponOf leg { r with rate := o.or r.rate }).map (fun x : Rat =>
        (r.notionalPayment : ℝ) * factorOf S z r.notionalPaymentDate +
          (x : ℝ) * factorOf S z r.couponPaymentDate))).sum =
      presentValueR S D (notionalFlows (rows.filter (fun r => r.couponPaymentDate.isNone))) := by
    intro rows
    induction rows with
    | nil => intro _; simp [notionalFlows, presentValueR]
    | cons r rows ih =>
      intro hm
      have hrm := hm r (by simp)
      have ih := ih (fun r h => hm r (by simp [h]))
      cases hdt : r.couponPaymentDate with
      | none =>
        have hx : couponOf leg { r with rate := o.or r.rate } = some 0 := by unfold couponOf; simp [hdt]
        rw [List.filter_cons_of_pos (by simp [hdt])]
        simp only [List.filterMap_cons, hx, Option.map_some, List.sum_cons, ih]
        simp only [notionalFlows, List.map_cons]
        rw [presentValueR_cons S z D r.notionalPaymentDate _ _ (fun e he _ => hD' e ⟨r, hrm, .inl he⟩)]
        simp
      | some d =>
        have hx : couponOf leg { r with rate := o.or r.rate } = none := by
          unfold couponOf
          rcases hk with hk | hk <;> simp [hdt, hk]
        rw [List.filter_cons_of_neg (by simp [hdt])]
        simp only [List.filterMap_cons, hx, Option.map_none, ih]
  exact key leg.rows (fun _ h => h)

/-- A swap of two covered fixed or zero-coupon legs is worth the sum of their values; if the first leg has begun before its
curve date the swap cannot be valued, whatever the other leg. -/
theorem C108_swap (h : IsCurve cd basis cal z) (S : Settings) (sw : Swap) (curve2 : Option ZeroCurve) :
    (∀ a b, (dirtyPvOn S (some z) sw.leg1 none).2 = .ok a → (dirtyPvOn S curve2 sw.leg2 none).2 = .ok b →
      (sw.dirtyPvOn S (some z) curve2).2 = .ok (a + b)) ∧
    ((sw.leg1.kind = .fixed ∨ sw.leg1.kind = .zeroCoupon ∨ sw.leg1.fixingCurve = true) → (∃ d, PaysOn sw.leg1 d ∧ d < cd) →
      (sw.dirtyPvOn S (some z) curve2).2 = .error .value) := by
  constructor
  · intro a b ha hb
    unfold Swap.dirtyPvOn
    rcases h1 : dirtyPvOn S (some z) sw.leg1 none with ⟨l1, r1⟩
    rcases h2 : dirtyPvOn S curve2 sw.leg2 none with ⟨l2, r2⟩
    rw [h1] at ha
    rw [h2] at hb
    simp only at ha hb
    subst ha hb
    rfl
  · rintro hk ⟨d, hd, hlt⟩
    have hr : Ready sw.leg1 := by
      unfold Ready
      rcases hk with hk | hk | hk <;> simp [hk]
    have hn : ¬ InRange z d := by
      rintro ⟨h1, -⟩
      have := (curve_ok h).1
      omega
    unfold Swap.dirtyPvOn
    rw [dirtyPvOn_uncovered h S sw.leg1 hr none hd hn]

/-- Exactly when the valuation raises: when some date on which the leg pays, or has paid, is not in the curve's table.
The value date does not matter. -/
theorem C108_raises_iff (h : IsCurve cd basis cal z) (S : Settings) (leg : Leg)
    (hk : leg.kind = .fixed ∨ leg.kind = .zeroCoupon ∨ leg.fixingCurve = true) (o : Option Rat) :
    ((∃ d, PaysOn leg d ∧ (d < z.curveDate ∨ ∀ r ∈ z.daily, r.date < d)) →
      (dirtyPvOn S (some z) leg o).2 = .error .value) ∧
    ((∀ d, PaysOn leg d → z.curveDate ≤ d ∧ ∃ r ∈ z.daily, d ≤ r.date) →
      ∃ v, (dirtyPvOn S (some z) leg o).2 = .ok v) := by
  have hr : Ready leg := by
    unfold Ready
    rcases hk with hk | hk | hk <;> simp [hk]
  refine ⟨?_, fun hd => ?_⟩
  · rintro ⟨d, hp, hout⟩
    have hn : ¬ InRange z d := by
      rintro ⟨h1, r, hrm, hrd⟩
      rcases hout with h2 | h2
      · omega
      · have := h2 r hrm; omega
    rw [dirtyPvOn_uncovered h S leg hr o hp hn]
  · rw [dirtyPvOn_covered h S leg hr o hd]
    exact ⟨_, rfl⟩

/-- Defect: a leg that has made a payment before the curve date cannot be valued on the curve, though only the payments to
come matter. -/
theorem C108_begun (h : IsCurve cd basis cal z) (S : Settings) (leg : Leg)
    (hk : leg.kind = .fixed ∨ leg.kind = .zeroCoupon ∨ leg.fixingCurve = true) (o : Option Rat) {d : Int}
    (hd : PaysOn leg d) (hlt : d < cd) : (dirtyPvOn S (some z) leg o).2 = .error .value := by
  have hcd := (curve_ok h).1
  exact (C108_raises_iff h S leg hk o).1 ⟨d, hd, .inl (by omega)⟩

/-- Defect: on such a leg `target_solve` and `par_solve` give `nan` and do not raise, whatever the root search. -/
theorem C108_solve (h : IsCurve cd basis cal z) (S : Settings) (leg : Leg)
    (hk : leg.kind = .fixed ∨ leg.kind = .zeroCoupon ∨ leg.fixingCurve = true) {d : Int} (hd : PaysOn leg d)
    (hn : d < z.curveDate ∨ ∀ r ∈ z.daily, r.date < d) (solver : Rat × Rat → RealRun) (hs : Looks solver) (target : Rat) :
    (targetSolveOn S (some z) solver leg target).2 = none ∧ (parSolveOn S (some z) solver leg).2 = none := by
  have hr : Ready leg := by
    unfold Ready
    rcases hk with hk | hk | hk <;> simp [hk]
  have hn' : ¬ InRange z d := by
    rintro ⟨h1, r, hrm, hrd⟩
    rcases hn with h2 | h2
    · omega
    · have := h2 r hrm; omega
  obtain ⟨x, next, hx⟩ := hs (-1 / 10, 3)
  have hrun : ∀ t, runSolverOn S (some z) t (solver (-1 / 10, 3)) leg =
      ({ leg with rows := leg.rows.map (rowAfterCoupon leg (some x)), computed := true }, none) := by
    intro t
    rw [hx, runSolverOn, dirtyPvOn_uncovered h S leg hr (some x) hd hn']
  have ht : ∀ t, targetSolveOn S (some z) solver leg t =
      (setRates { leg with rows := leg.rows.map (rowAfterCoupon leg (some x)), computed := true }
        (leg.rows.map (·.rate)), none) := by
    intro t
    unfold targetSolveOn
    simp only [hrun]
  refine ⟨by rw [ht], ?_⟩
  unfold parSolveOn
  simp only [ht]

/-- Whatever the curve and the root search: valuing a leg, solving for a target and solving for par leave the agreed terms of
the leg as they were. -/
theorem C108_restored (S : Settings) (curve : Option ZeroCurve) (leg : Leg) (solver : Rat × Rat → RealRun) (target : Rat) :
    (dirtyPvOn S curve leg none).1.rows.map termsOf = leg.rows.map termsOf ∧
    (targetSolveOn S curve solver leg target).1.rows.map termsOf = leg.rows.map termsOf ∧
    (parSolveOn S curve solver leg).1.rows.map termsOf = leg.rows.map termsOf := by
  have ht : ∀ t, (targetSolveOn S curve solver leg t).1.rows.map termsOf = leg.rows.map termsOf := by
    intro t
    exact setRates_terms (sameLeg_runOn S curve t (solver (-1 / 10, 3)) leg)
  refine ⟨?_, ht target, ht _⟩
  by_cases hr : Ready leg
  · have h1 : (leg.rows.map (rowAfterCoupon leg none)).map termsOf = leg.rows.map termsOf := by
      simp only [List.map_map]; rfl
    unfold dirtyPvOn
    rw [calcCouponPayment_ready hr]
    simp only
    split
    · exact h1
    · split
      · exact h1
      · split <;> exact h1
  · unfold dirtyPvOn calcCouponPayment
    rw [if_pos (Classical.not_not.mp hr)]

/-- `par_solve` is `target_solve` for the total of the notional payments still to come. -/
theorem C108_par (S : Settings) (curve : Option ZeroCurve) (leg : Leg) (solver : Rat × Rat → RealRun) :
    parSolveOn S curve solver leg = targetSolveOn S curve solver leg
      (total (ToCome S) (leg.rows.map (fun r => (r.notionalPaymentDate, some r.notionalPayment)))) := by
  unfold parSolveOn
  simp only [par_sum]

/-- Without a discount curve, or without the fixing data a floating leg needs, the valuation raises. -/
theorem C108_no_data (S : Settings) (leg : Leg) (o : Option Rat) (curve : Option ZeroCurve)
    (h : curve = none ∨ ((leg.kind = .floatTerm ∨ leg.kind = .floatRFR) ∧ leg.fixingCurve = false)) :
    (dirtyPvOn S curve leg o).2 = .error .marketData := by
  by_cases hr : Ready leg
  · rcases h with rfl | h
    · unfold dirtyPvOn
      rw [calcCouponPayment_ready hr]
    · exact absurd h hr
  · unfold dirtyPvOn calcCouponPayment
    rw [if_pos (Classical.not_not.mp hr)]

/-- Dropping the payments made before the curve date from a leg leaves its present value as it is, so the value the code
refuses to give for a fixed leg that has begun is the one it gives for the rest of the leg. -/
theorem C108_rest (h : IsCurve cd basis cal z) (S : Settings) (leg : Leg) (hk : leg.kind = .fixed)
    (D : Int → ℝ) (hD : ∀ d, PaysOn leg d → InRange z d → z.discountFactor d = .ok (some (D d))) (past rest : List LegRow)
    (hrows : leg.rows = past ++ rest) (hv : cd ≤ S.valueDate)
    (hp : ∀ r ∈ past, ∀ d, r.notionalPaymentDate = some d ∨ r.couponPaymentDate = some d → d < cd)
    (hc : ∀ d, PaysOn { leg with rows := rest } d → InRange z d)
    (hr : ∀ r ∈ rest, r.couponPaymentDate ≠ none → r.rate ≠ none ∧ r.yearFrac ≠ none) :
    (dirtyPvOn S (some z) { leg with rows := rest } none).2 = .ok (presentValueR S D (notionalFlows leg.rows) +
      presentValueR S D (couponFlows
        (fun r => leg.payRcv.multiplier * r.notional * val r.rate * val r.yearFrac) leg.rows)) := by
  have hsub : ∀ d, PaysOn { leg with rows := rest } d → PaysOn leg d := by
    rintro d ⟨r, hrm, hrd⟩
    exact ⟨r, by rw [hrows]; exact List.mem_append_right _ hrm, hrd⟩
  rw [C108_fixed_partial h S { leg with rows := rest } hk D (fun d hd => hD d (hsub d hd) (hc d hd)) hc hr, hrows]
  have key : ∀ (f : LegRow → Flow) (l : List LegRow), (∀ r ∈ l, ∀ d, (f r).1 = some d → d < cd) →
      presentValueR S D ((l ++ rest).map f) = presentValueR S D (rest.map f) := by
    intro f l
    induction l with
    | nil => intro _; rfl
    | cons r l ih =>
      intro hl
      have ih := ih (fun r h => hl r (by simp [h]))
      rw [List.cons_append, List.map_cons]
      rcases hf : f r with ⟨d, x⟩
      cases d with
      | none => rw [presentValueR, ih]
      | some d =>
        have hd := hl r (by simp) d (by rw [hf])
        rw [presentValueR, if_neg (by unfold ToCome; omega), ih, zero_add]
  simp only [notionalFlows, couponFlows]
  rw [key _ past (fun r hrm d hd => hp r hrm d (.inl hd)), key _ past (fun r hrm d hd => hp r hrm d (.inr hd))]

end

/-! ## Concrete legs -/

/-- The sample leg of C24, paying on days 0, 365 and 730, on the sample curve of day 0. -/
example (cal : BusCal) : ∃ (z : ZeroCurve) (D : Int → ℝ), makeZeroCurve 0 { date := some [365, 730], discountFactor := some [0.98, 0.95] } none .act_365
    cal = .ok z ∧ (sampleLeg .fixed).kind = .fixed ∧ (∀ d, PaysOn (sampleLeg .fixed) d → InRange z d) ∧
    (∀ d, PaysOn (sampleLeg .fixed) d → z.discountFactor d = .ok (some (D d))) ∧
    ∀ r ∈ (sampleLeg .fixed).rows, r.couponPaymentDate ≠ none → r.rate ≠ none ∧ r.yearFrac ≠ none := by
  obtain ⟨z, hz⟩ := sampleCurve cal
  obtain ⟨-, hr, -⟩ := sampleCurve_facts hz
  have hin : ∀ d, PaysOn (sampleLeg .fixed) d → InRange z d := by
    rintro d ⟨r, hrm, hrd⟩
    simp only [sampleLeg, sampleRows, List.mem_cons, List.not_mem_nil, or_false] at hrm
    rcases hrm with rfl | rfl | rfl <;> simp at hrd <;> subst hrd <;> exact (hr _).mpr (by omega)
  exact ⟨z, dfOf z, hz, rfl, hin, fun d hd => discountFactor_dfOf (.linear hz) (hin d hd), by decide +kernel⟩

/-- The sample leg with its initial exchange ten days before the curve date. -/
def begunLeg : Leg :=
  { sampleLeg .fixed with rows := sampleRows.map (fun r =>
      if r.notionalPaymentDate = some 0 then { r with notionalPaymentDate := some (-10) } else r) }

/-- The property fails: a leg begun ten days before the curve date, all of whose payments to come are on the curve, cannot be
valued on the value date, and its par rate is `nan`. -/
theorem C108_fails (cal : BusCal) : ∃ z, makeZeroCurve 0 { date := some [365, 730], discountFactor := some [0.98, 0.95] } none
    .act_365 cal = .ok z ∧
    (∀ d, PaysOn begunLeg d → ToCome sampleSettings d → InRange z d) ∧
    (dirtyPvOn sampleSettings (some z) begunLeg none).2 = .error .value ∧
    ∀ solver, Looks solver → (parSolveOn sampleSettings (some z) solver begunLeg).2 = none := by
  obtain ⟨z, hz⟩ := sampleCurve cal
  obtain ⟨-, hr, -⟩ := sampleCurve_facts hz
  have hp : PaysOn begunLeg (-10) := by
    refine ⟨_, List.mem_cons_self, .inl rfl⟩
  refine ⟨z, hz, ?_, C108_begun (.linear hz) _ _ (.inl rfl) none hp (by omega), fun solver hs => ?_⟩
  · rintro d ⟨r, hrm, hrd⟩ ht
    simp only [begunLeg, sampleRows, List.map_cons, List.map_nil, List.mem_cons, List.not_mem_nil, or_false] at hrm
    rcases hrm with rfl | rfl | rfl <;> simp at hrd <;> subst hrd
    · simp [ToCome, sampleSettings] at ht
    · exact (hr _).mpr (by omega)
    · exact (hr _).mpr (by omega)
  · have hcd := (makeZeroCurve_ok hz).2.1
    exact (C108_solve (.linear hz) _ _ (.inl rfl) hp (.inl (by omega)) solver hs 0).2

/-- The hypotheses are met by a curve of four dates made by either of the spline methods too. -/
example (m : SplineMethod) : ∃ (spl : List (ℝ × ℝ) → ℝ → ℝ) (z : SplineCurve), Interpolates spl ∧ IsCurve 0 .act_365 defaultBusCal z.base ∧
    makeSplineCurve spl 0 { date := some [365, 1095, 730, 1460], discountFactor := some [0.98, 0.93, 0.95, 0.9] } none .act_365
      defaultBusCal m = .ok z ∧ ∀ d, PaysOn (sampleLeg .fixed) d → InRange z.base d := by
  obtain ⟨spl, hs⟩ := C86_interpolates
  obtain ⟨z, hz, -⟩ := C86_accepted spl 0 [365, 1095, 730, 1460] [0.98, 0.93, 0.95, 0.9] none .act_365 (.inr (.inl rfl)) defaultBusCal m
    rfl (by decide) (by decide) (by decide)
  refine ⟨spl, z, hs, .spline hz, hz, ?_⟩
  have h1 : InRange z.base 1095 := by
    by_contra hc
    have := C86_dates hs _ _ hz 1 1095 0.93 (by decide) rfl rfl (by norm_num)
    rw [discountFactors_eq (.spline hz)] at this
    simp [hc] at this
  obtain ⟨-, r, hr, hrd⟩ := h1
  have hcd := (curve_ok (.spline hz)).1
  rintro d ⟨q, hq, hqd⟩
  simp only [sampleLeg, sampleRows, List.mem_cons, List.not_mem_nil, or_false] at hq
  rcases hq with rfl | rfl | rfl <;> simp at hqd <;> subst hqd <;> refine ⟨by omega, r, hr, ?_⟩ <;> omega

end Frm.Props
