import Verif.Model.Enums

/-!
# Legs and swaps (`frm/instruments/leg.py`, `frm/instruments/swap.py`)

Simplifications.  At the pinned commit `leg.py:15` imports a function that does not exist
(`discount_factor_from_zero_rate`), so the module cannot be imported at all; the model describes the classes as written,
with that function as a parameter (`Leg.zeroDf`).  Floats are rationals; `nan` is `none`.  The discount curve is a
function from dates to discount factors (`ZeroCurve.get_discount_factors` on covered dates).  Warnings are not modelled.
-/

namespace Frm

set_option autoImplicit false

/-- A float that may be `nan`.  For `frm/instruments/leg.py:159-188`. -/
abbrev NRat := Option Rat

/-- `a * b` with `nan` propagation.  For `frm/instruments/leg.py:159-188`. -/
def nmul (a b : NRat) : NRat :=
  match a, b with
  | some x, some y => some (x * y)
  | _, _ => none

/-- `a + b` with `nan` propagation.  For `frm/instruments/leg.py:159-188`. -/
def nadd (a b : NRat) : NRat :=
  match a, b with
  | some x, some y => some (x + y)
  | _, _ => none

/-- `Series.sum()`: skips `nan`.  For `frm/instruments/leg.py:187`. -/
def nsum (l : List NRat) : Rat := (l.filterMap id).sum

/-- The global settings (`frm/utils/settings.py`) used here. -/
structure Settings where
  valueDate : Int
  includeOnValueDate : Bool
  limitAccrued : Bool

/-- The four leg classes.  For `frm/instruments/leg.py:253-256`. -/
inductive LegKind where
  | fixed | floatTerm | floatRFR | zeroCoupon
deriving DecidableEq, Repr

/-- A row of the leg's data frame.  `rate` is the contractual parameter (`fixed_rate`, `spread`, `zero_rate`).
For `frm/instruments/leg.py:70-88`. -/
structure LegRow where
  periodStart : Option Int
  periodEnd : Option Int
  notional : Rat
  notionalPayment : Rat
  notionalPaymentDate : Option Int
  couponPaymentDate : Option Int
  yearFrac : NRat
  rate : NRat
  couponRate : NRat
  couponPayment : NRat
  notionalPv : NRat
  couponPv : NRat
deriving DecidableEq

/-- A leg.  `computed` records whether the columns created by `calc_coupon_payment` exist.
For `frm/instruments/leg.py:34-53`. -/
structure Leg where
  kind : LegKind
  payRcv : PayRcv
  basis : DayCountBasis
  rows : List LegRow
  curve : Option (Int → Rat)
  fixingCurve : Bool
  zeroDf : Rat → Rat → Rat
  computed : Bool

/-- `years[mask] = year_frac(...)`: values written in order to the rows that have both boundaries.
For `frm/instruments/leg.py:306-316`. -/
def scatterYears : List (Option Int × Option Int) → List Rat → List NRat
  | [], _ => []
  | (some _, some _) :: rows, v :: vs => some v :: scatterYears rows vs
  | _ :: rows, vs => none :: scatterYears rows vs

/-- `BaseSchedule.add_period_yearfrac` (`frm/utils/schedule.py:112-126`): the new column. -/
def addPeriodYearfrac (basis : DayCountBasis) (rows : List (Option Int × Option Int)) : Except Err (List NRat) := do
  let both := rows.filterMap (fun r => match r with | (some s, some e) => some (s, e) | _ => none)
  let years ← yearFrac (both.map (·.1)) (both.map (·.2)) basis none
  pure (scatterYears rows years)

/-- `Leg._add_contractual_coupon_param` (`frm/instruments/leg.py:70-87`): the parameter of each row; rows outside
`index` get `nan`. -/
def contractualParam (exch : ExchangeNotionals) (rowCount : Nat) (param : List NRat) :
    Except Err (List NRat) :=
  let shapes := validCouponShapes exch rowCount
  if shapes.2.contains (param.length : Int) then
    .ok ((List.range rowCount).map (fun i =>
      if shapes.1.contains i then
        (match param with
          | [x] => x
          | _ => (param[i - (rowCount - shapes.1.length)]?).join)
      else none))
  else .error .value

/-- `Leg.__post_init__` and the leg-specific `__post_init__` (`frm/instruments/leg.py:49-52, 255-257, 302-304, 345-347,
386-388`), applied to a coupon schedule. -/
def makeLeg (kind : LegKind) (payRcv : PayRcv) (basis : DayCountBasis) (curve : Option (Int → Rat)) (fixingCurve : Bool)
    (zeroDf : Rat → Rat → Rat) (exch : ExchangeNotionals) (param : List NRat)
    (schedule : List (NotionalRow × Option Int)) : Except Err Leg := do
  let yf ← addPeriodYearfrac basis (schedule.map (fun x => (x.1.periodStart, x.1.periodEnd)))
  let rates ← contractualParam exch schedule.length param
  let m : Rat := payRcv.multiplier
  let rows := ((schedule.zip yf).zip rates).map (fun x =>
    { periodStart := x.1.1.1.periodStart, periodEnd := x.1.1.1.periodEnd,
      notional := x.1.1.1.notional * m, notionalPayment := x.1.1.1.notionalPayment * m,
      notionalPaymentDate := x.1.1.1.notionalPaymentDate, couponPaymentDate := x.1.1.2,
      yearFrac := x.1.2, rate := x.2, couponRate := none, couponPayment := none, notionalPv := none,
      couponPv := none : LegRow })
  pure { kind, payRcv, basis, rows, curve, fixingCurve, zeroDf, computed := false }

/-- The coupon of one row (`frm/instruments/leg.py:265-270, 311-322, 354-364, 395-405`).  Float legs set their fixing to
`nan`. -/
def couponOf (leg : Leg) (r : LegRow) : NRat :=
  match r.couponPaymentDate with
  | none => some 0
  | some _ =>
    match leg.kind with
    | .fixed => nmul (nmul (some (leg.payRcv.multiplier * r.notional)) r.rate) r.yearFrac
    | .floatTerm | .floatRFR => none
    | .zeroCoupon =>
      match r.yearFrac, r.rate with
      | some y, some z => some (leg.payRcv.multiplier * r.notional * (1 / leg.zeroDf y z - 1))
      | _, _ => none

/-- `calc_coupon_payment(coupon_override)`: the leg afterwards and whether it raised.
For `frm/instruments/leg.py:265-270`. -/
def calcCouponPayment (leg : Leg) (override : Option Rat) : Leg × Except Err Unit :=
  if (leg.kind = .floatTerm ∨ leg.kind = .floatRFR) ∧ leg.fixingCurve = false then (leg, .error .marketData)
  else
    ({ leg with
        rows := leg.rows.map (fun r : LegRow =>
          let r1 : LegRow := { r with rate := override.or r.rate }
          ({ r1 with
            couponRate := if leg.kind = .floatTerm ∨ leg.kind = .floatRFR then none else r1.couponRate,
            couponPayment := couponOf leg r1 } : LegRow)),
        computed := true }, .ok ())

/-- The discount factor a payment date gets in `_discount_payments` (`frm/instruments/leg.py:159-175`): 0 for a missing
or past date. -/
def discountOf (S : Settings) (curve : Int → Rat) (d : Option Int) : Rat :=
  match d with
  | none => 0
  | some x => if (if S.includeOnValueDate then x < S.valueDate else x ≤ S.valueDate) then 0 else curve x

/-- `calc_dirty_pv(coupon_override)` (`frm/instruments/leg.py:177-188`): the leg afterwards (also when it raised) and
the value. -/
def calcDirtyPv (S : Settings) (leg : Leg) (override : Option Rat) : Leg × Except Err Rat :=
  match calcCouponPayment leg override with
  | (leg1, .error e) => (leg1, .error e)
  | (leg1, .ok ()) =>
    match leg1.curve with
    | none => (leg1, .error .marketData)
    | some c =>
      let rows := leg1.rows.map (fun r =>
        { r with
          notionalPv := nmul (some r.notionalPayment) (some (discountOf S c r.notionalPaymentDate)),
          couponPv := nmul r.couponPayment (some (discountOf S c r.couponPaymentDate)) })
      ({ leg1 with rows }, .ok (nsum (rows.map (fun r => nadd r.notionalPv r.couponPv))))

/-- The rows of the current period.  For `frm/instruments/leg.py:138-157`. -/
def currentRows (S : Settings) (leg : Leg) : List LegRow :=
  leg.rows.filter (fun r => r.periodStart.any (fun s => decide (s ≤ S.valueDate)) &&
    r.periodEnd.any (fun e => decide (S.valueDate < e)))

/-- `_calc_accrued_interest` (`frm/instruments/leg.py:272-282, 324-332, 366-374`).  Simplification: the zero-coupon
version (407-418) returns a `Series`, not a number; here it counts as an error (see `zeroAccruedSeries`). -/
def accruedCore (S : Settings) (leg : Leg) : Except Err Rat :=
  match currentRows S leg with
  | [] => .error .index
  | r :: rest =>
    match r.periodStart with
    | none => .error .index
    | some s => do
      let yf ← yearFrac [s] [S.valueDate] leg.basis none
      let y : NRat := yf.head?
      match leg.kind with
      | .fixed => pure (nsum ((r :: rest).map (fun r => nmul (nmul (some r.notional) r.rate) y)))
      | .floatTerm => pure (nsum ((r :: rest).map (fun r => nmul (nmul (some r.notional) r.rate) y)))
      | .floatRFR =>
        if leg.computed then
          pure (nsum ((r :: rest).map (fun r => nmul (nmul (some (leg.payRcv.multiplier * r.notional)) r.couponRate) y)))
        else .error .key
      | .zeroCoupon => .error .type

/-- `Leg.calc_accrued_interest` (`frm/instruments/leg.py:138-157`).  The mask of unsettled rows is computed but not
applied: line 149 sums the whole column. -/
def calcAccruedInterest (S : Settings) (leg : Leg) : Except Err Rat := do
  let accrued ← accruedCore S leg
  if leg.computed then
    let unsettled := nsum (leg.rows.map (·.couponPayment))
    if S.limitAccrued then pure (if unsettled > 0 then unsettled else accrued)
    else pure (accrued + unsettled)
  else .error .key

/-- `Leg.calc_clean_pv` (`frm/instruments/leg.py:190-191`). -/
def calcCleanPv (S : Settings) (leg : Leg) : Leg × Except Err Rat :=
  match calcDirtyPv S leg none with
  | (leg1, .error e) => (leg1, .error e)
  | (leg1, .ok d) => (leg1, (calcAccruedInterest S leg1).map (fun a => d - a))

/-- `get_current_non_current_split(calc_npv=False)` (`frm/instruments/leg.py:193-214`), on the columns as they are.
Line 212 adds the notional column where the coupon column is meant. -/
def currentSplit (S : Settings) (leg : Leg) : Rat × Rat :=
  let horizon := addMonths S.valueDate 12
  let isCurrent (d : Option Int) : Bool :=
    d.any (fun x => if S.includeOnValueDate then decide (x ≤ horizon) else decide (x < horizon))
  let n1 := nsum ((leg.rows.filter (fun r => isCurrent r.notionalPaymentDate)).map (·.notionalPv))
  let n2 := nsum ((leg.rows.filter (fun r => !isCurrent r.notionalPaymentDate)).map (·.notionalPv))
  let c1 := nsum ((leg.rows.filter (fun r => isCurrent r.couponPaymentDate)).map (·.couponPv))
  let c2 := nsum ((leg.rows.filter (fun r => !isCurrent r.couponPaymentDate)).map (·.notionalPv))
  (n1 + c1, n2 + c2)

/-- The loop of `_bucket_payments_helper` (`frm/instruments/leg.py:225-229`): one sum per bucket, between the running
lower mask and the bucket's pillar. -/
def bucketLoop (S : Settings) (flows : List (Option Int × NRat)) : (Option Int → Bool) → List Int → List Rat
  | _, [] => []
  | lower, v :: vs =>
    let pillar := addMonths S.valueDate (12 * v)
    nsum ((flows.filter (fun f => lower f.1 && f.1.any (fun d => decide (d < pillar)))).map (·.2)) ::
      bucketLoop S flows (fun d => d.any (fun x => decide (pillar ≤ x))) vs

/-- `_bucket_payments_helper` (`frm/instruments/leg.py:216-236`) on one payment column; an empty tuple of buckets leaves
`upper_pillar` unbound. -/
def bucketPayments (S : Settings) (flows : List (Option Int × NRat)) (buckets : List Int) : Except Err (List Rat) :=
  match buckets.getLast? with
  | none => .error .name
  | some v =>
    let lower : Option Int → Bool := fun d =>
      d.any (fun x => if S.includeOnValueDate then decide (S.valueDate ≤ x) else decide (S.valueDate < x))
    let pillar := addMonths S.valueDate (12 * v)
    .ok (bucketLoop S flows lower buckets ++
      [nsum ((flows.filter (fun f => f.1.any (fun d => decide (pillar ≤ d)))).map (·.2))])

/-- Any behaviour of `root_scalar`: it may evaluate the objective any number of times, at points depending on the
values seen, and then raise or return a result.  An exception of the objective ends it.
For `frm/instruments/leg.py:120-136`. -/
inductive SolverRun where
  | done (converged : Bool) (root : Rat)
  | fail
  | eval (x : Rat) (next : Rat → SolverRun)

/-- Run a solver on the objective `calc_dirty_pv(coupon_override=x) - target`, threading the leg it mutates.
For `frm/instruments/leg.py:120-136`. -/
def runSolver (S : Settings) (target : Rat) : SolverRun → Leg → Leg × Option (Bool × Rat)
  | .done conv root, leg => (leg, some (conv, root))
  | .fail, leg => (leg, none)
  | .eval x next, leg =>
    match calcDirtyPv S leg (some x) with
    | (leg1, .ok pv) => runSolver S target (next (pv - target)) leg1
    | (leg1, .error _) => (leg1, none)

/-- Write a rate column.  For `frm/instruments/leg.py:106-118`. -/
def setRates (leg : Leg) (rates : List NRat) : Leg :=
  { leg with rows := (leg.rows.zip rates).map (fun x => { x.1 with rate := x.2 }) }

/-- `Leg._solver_helper` and `Leg.target_solve`, which only calls it (`frm/instruments/leg.py:101-103, 120-136`):
`nan` unless the solver converged; the `return` in `finally` swallows exceptions.  The solver is given the bracket
`[-0.1, 3]` of line 128. -/
def solverHelper (S : Settings) (solver : Rat × Rat → SolverRun) (leg : Leg) (target : Rat) : Leg × NRat :=
  let original := leg.rows.map (·.rate)
  match runSolver S target (solver (-1 / 10, 3)) leg with
  | (leg1, res) =>
    (setRates leg1 original, match res with
      | some (true, root) => some root
      | _ => none)

/-- `Leg.par_solve` (`frm/instruments/leg.py:106-118`): the target is the sum of the outstanding notional payments. -/
def parSolve (S : Settings) (solver : Rat × Rat → SolverRun) (leg : Leg) : Leg × NRat :=
  let par := ((leg.rows.filter (fun r => r.notionalPaymentDate.any (fun x =>
    if S.includeOnValueDate then decide (S.valueDate ≤ x) else decide (S.valueDate < x)))).map (·.notionalPayment)).sum
  solverHelper S solver leg par

/-! ## Swaps -/

/-- `Swap` (`frm/instruments/swap.py:63-106`). -/
structure Swap where
  leg1 : Leg
  leg2 : Leg

/-- `Swap.__post_init__` (`frm/instruments/swap.py:105-106`). -/
def makeSwap (leg1 leg2 : Leg) : Except Err Swap := do
  pyAssert (decide (leg1.payRcv ≠ leg2.payRcv))
  pure { leg1, leg2 }

/-- `Swap.calc_dirty_pv` (`frm/instruments/swap.py:79-82`). -/
def Swap.calcDirtyPv (S : Settings) (sw : Swap) : Swap × Except Err Rat :=
  match Frm.calcDirtyPv S sw.leg1 none with
  | (l1, .error e) => ({ sw with leg1 := l1 }, .error e)
  | (l1, .ok a) =>
    match Frm.calcDirtyPv S sw.leg2 none with
    | (l2, .error e) => ({ leg1 := l1, leg2 := l2 }, .error e)
    | (l2, .ok b) => ({ leg1 := l1, leg2 := l2 }, .ok (a + b))

/-- `Swap.calc_accrued_interest` (`frm/instruments/swap.py:84-87`). -/
def Swap.calcAccruedInterest (S : Settings) (sw : Swap) : Except Err Rat := do
  let a ← Frm.calcAccruedInterest S sw.leg1
  let b ← Frm.calcAccruedInterest S sw.leg2
  pure (a + b)

/-- `Swap.calc_clean_pv` (`frm/instruments/swap.py:89-90`). -/
def Swap.calcCleanPv (S : Settings) (sw : Swap) : Swap × Except Err Rat :=
  match sw.calcDirtyPv S with
  | (sw1, .error e) => (sw1, .error e)
  | (sw1, .ok d) => (sw1, (sw1.calcAccruedInterest S).map (fun a => d - a))

/-- `Swap.par_solve_each_leg` (`frm/instruments/swap.py:92-95`). -/
def Swap.parSolveEach (S : Settings) (solver : Rat × Rat → SolverRun) (sw : Swap) : Swap × NRat × NRat :=
  let r1 := parSolve S solver sw.leg1
  let r2 := parSolve S solver sw.leg2
  ({ leg1 := r1.1, leg2 := r2.1 }, r1.2, r2.2)

/-- `Swap.target_solve_swap` (`frm/instruments/swap.py:97-103`): solves the leg on its own for the target. -/
def Swap.targetSolve (S : Settings) (solver : Rat × Rat → SolverRun) (sw : Swap) (target : Rat) (leg : Int) :
    Swap × Except Err NRat :=
  if leg = 1 then
    let r := solverHelper S solver sw.leg1 target
    ({ sw with leg1 := r.1 }, .ok r.2)
  else if leg = 2 then
    let r := solverHelper S solver sw.leg2 target
    ({ sw with leg2 := r.1 }, .ok r.2)
  else (sw, .error .value)

end Frm
