import Verif.Model.Leg
import Verif.Model.ZeroCurve

/-!
# Legs discounted with a `ZeroCurve` (`frm/instruments/leg.py:101-188`)

`Model/Leg.lean` takes the discount curve as a function of the date.  Here it is the curve object of
`Model/ZeroCurve.lean`, whose lookups drop the dates outside its table.  Amounts are rationals, discount factors real
numbers.  Simplification: the columns of present values the valuation leaves in the data frame are not kept, only the
coupon columns and the total.
-/

namespace Frm

set_option autoImplicit false

/-- `get_discount_factors` on a column of dates with missing entries (`frm/term_structures/zero_curve.py:351-394`): the
comparisons with a missing date are false, so it stays in the range, and the merge finds no row for it. -/
def ZeroCurve.paymentFactors (z : ZeroCurve) (dates : List (Option Int)) : List (Option ℝ) :=
  let lo := (z.daily.map (·.date)).min?
  let hi := (z.daily.map (·.date)).max?
  (dates.filter (fun d => match d with
    | none => true
    | some _ => !natGt lo d && !natGt d hi)).map
    (fun d => match d with
      | none => none
      | some d => (z.daily.find? (fun r => r.date == d)).map (·.discountFactor))

/-- `Leg._discount_payments` (`frm/instruments/leg.py:159-175`): the new column.  A column of another length than the data
frame is refused with `ValueError` (line 168); then missing and past dates get 0. -/
noncomputable def discountColumn (S : Settings) (z : ZeroCurve) (dates : List (Option Int)) : Except Err (List (Option ℝ)) :=
  let found := z.paymentFactors dates
  if found.length ≠ dates.length then .error .value
  else .ok ((dates.zip found).map (fun p =>
    match p.1 with
    | none => some 0
    | some x => if (if S.includeOnValueDate then x < S.valueDate else x ≤ S.valueDate) then some 0 else p.2))

/-- The present value of a row: `nan` when any of its four numbers is (`frm/instruments/leg.py:182-187`). -/
noncomputable def rowPv (r : LegRow) (nd cd : Option ℝ) : Option ℝ :=
  match r.couponPayment, nd, cd with
  | some c, some a, some b => some ((r.notionalPayment : ℝ) * a + (c : ℝ) * b)
  | _, _, _ => none

/-- `Leg.calc_dirty_pv(coupon_override)` (`frm/instruments/leg.py:177-188`) with a `ZeroCurve`: the leg afterwards and the
value. -/
noncomputable def dirtyPvOn (S : Settings) (curve : Option ZeroCurve) (leg : Leg) (override : Option Rat) :
    Leg × Except Err ℝ :=
  match calcCouponPayment leg override with
  | (leg1, .error e) => (leg1, .error e)
  | (leg1, .ok ()) =>
    match curve with
    | none => (leg1, .error .marketData)
    | some z =>
      match discountColumn S z (leg1.rows.map (·.notionalPaymentDate)) with
      | .error e => (leg1, .error e)
      | .ok nd =>
        match discountColumn S z (leg1.rows.map (·.couponPaymentDate)) with
        | .error e => (leg1, .error e)
        | .ok cd =>
          (leg1, .ok (((leg1.rows.zip (nd.zip cd)).filterMap (fun p => rowPv p.1 p.2.1 p.2.2)).sum))

/-- Any behaviour of `root_scalar` on a real function; compare `SolverRun`.  For `frm/instruments/leg.py:120-136`. -/
inductive RealRun where
  | done (converged : Bool) (root : Rat)
  | fail
  | eval (x : Rat) (next : ℝ → RealRun)

/-- Run a solver on `calc_dirty_pv(coupon_override=x) - target`.  For `frm/instruments/leg.py:123-131`. -/
noncomputable def runSolverOn (S : Settings) (curve : Option ZeroCurve) (target : Rat) :
    RealRun → Leg → Leg × Option (Bool × Rat)
  | .done conv root, leg => (leg, some (conv, root))
  | .fail, leg => (leg, none)
  | .eval x next, leg =>
    match dirtyPvOn S curve leg (some x) with
    | (leg1, .ok pv) => runSolverOn S curve target (next (pv - target)) leg1
    | (leg1, .error _) => (leg1, none)

/-- `Leg._solver_helper` and `Leg.target_solve` (`frm/instruments/leg.py:101-103, 120-136`) with a `ZeroCurve`. -/
noncomputable def targetSolveOn (S : Settings) (curve : Option ZeroCurve) (solver : Rat × Rat → RealRun) (leg : Leg)
    (target : Rat) : Leg × NRat :=
  let original := leg.rows.map (·.rate)
  match runSolverOn S curve target (solver (-1 / 10, 3)) leg with
  | (leg1, res) =>
    (setRates leg1 original, match res with
      | some (true, root) => some root
      | _ => none)

/-- `Leg.par_solve` (`frm/instruments/leg.py:106-118`) with a `ZeroCurve`. -/
noncomputable def parSolveOn (S : Settings) (curve : Option ZeroCurve) (solver : Rat × Rat → RealRun) (leg : Leg) :
    Leg × NRat :=
  let par := ((leg.rows.filter (fun r => r.notionalPaymentDate.any (fun x =>
    if S.includeOnValueDate then decide (S.valueDate ≤ x) else decide (S.valueDate < x)))).map (·.notionalPayment)).sum
  targetSolveOn S curve solver leg par

/-- `Swap.calc_dirty_pv` (`frm/instruments/swap.py:79-82`) with a `ZeroCurve` for each leg. -/
noncomputable def Swap.dirtyPvOn (S : Settings) (curve1 curve2 : Option ZeroCurve) (sw : Swap) : Swap × Except Err ℝ :=
  match Frm.dirtyPvOn S curve1 sw.leg1 none with
  | (l1, .error e) => ({ sw with leg1 := l1 }, .error e)
  | (l1, .ok a) =>
    match Frm.dirtyPvOn S curve2 sw.leg2 none with
    | (l2, .error e) => ({ leg1 := l1, leg2 := l2 }, .error e)
    | (l2, .ok b) => ({ leg1 := l1, leg2 := l2 }, .ok (a + b))

end Frm
