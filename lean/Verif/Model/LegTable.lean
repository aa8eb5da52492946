import Verif.Model.Leg

/-!
# The schedule object a leg is built on (`frm/utils/schedule.py:18-195`, `frm/instruments/leg.py`)

`Model/Leg.lean` describes a leg as a value of its own.  In the code a leg keeps a reference to the caller's schedule
object and changes its data frame in place; this file models that data frame, its columns in order, and what is left of
it when a construction raises.  Simplifications: the columns of the schedule are kept as rows (`SchedTable.rows`), the
columns of floats added later by name (`SchedTable.numbers`); a column exists when its name is in `SchedTable.columns`.
-/

namespace Frm

set_option autoImplicit false

/-- The data frame of a `CouponSchedule`.  For `frm/utils/schedule.py:31, 141-171`. -/
structure SchedTable where
  columns : List String
  rows : List (NotionalRow × Option Int)
  numbers : String → List NRat

/-- The period boundaries of the rows.  For `frm/utils/schedule.py:97-126`. -/
def SchedTable.periods (t : SchedTable) : List (Option Int × Option Int) :=
  t.rows.map (fun x => (x.1.periodStart, x.1.periodEnd))

/-- A method changing the data frame: the data frame afterwards, also when it raised, and whether it raised.
For `frm/instruments/leg.py:49-52`. -/
abbrev TableStep := SchedTable → SchedTable × Except Err Unit

/-- One statement after another.  For `frm/instruments/leg.py:49-52`. -/
def TableStep.andThen (f g : TableStep) : TableStep := fun t =>
  match f t with
  | (t1, .ok ()) => g t1
  | (t1, .error e) => (t1, .error e)

/-- `if name in df.columns: df.pop(name)` (`frm/utils/schedule.py:101-102, 116-117`). -/
def SchedTable.pop (name : String) (t : SchedTable) : SchedTable :=
  { t with columns := t.columns.filter (fun c => c ≠ name) }

/-- `DataFrame.insert(loc, name, values)`: refuses a name that is there (`ValueError`) and a position beyond the last
column (`IndexError` of `np.insert`).  For `frm/utils/schedule.py:111, 127`, `frm/instruments/leg.py:83`. -/
def insertColumn (loc : Nat) (name : String) (values : List NRat) : TableStep := fun t =>
  if name ∈ t.columns then (t, .error .value)
  else if t.columns.length < loc then (t, .error .index)
  else
    ({ t with
        columns := t.columns.take loc ++ name :: t.columns.drop loc,
        numbers := fun c => if c = name then values else t.numbers c }, .ok ())

/-- `df.columns.get_loc(name)` followed by an insertion at that position plus `k`.
For `frm/utils/schedule.py:105-111, 120-127`, `frm/instruments/leg.py:82-83`. -/
def insertAfter (anchor : String) (k : Nat) (name : String) (values : Except Err (List NRat)) : TableStep := fun t =>
  if anchor ∈ t.columns then
    match values with
    | .error e => (t, .error e)
    | .ok v => insertColumn (t.columns.idxOf anchor + k) name v t
  else (t, .error .key)

/-- `BaseSchedule.add_period_daycount` (`frm/utils/schedule.py:97-111`): the new column. -/
def periodDaycount (basis : DayCountBasis) (rows : List (Option Int × Option Int)) : Except Err (List NRat) := do
  let both := rows.filterMap (fun r => match r with | (some s, some e) => some (s, e) | _ => none)
  let days ← dayCount (both.map (·.1)) (both.map (·.2)) basis none
  pure (scatterYears rows (days.map (fun (n : Int) => (n : Rat))))

/-- `BaseSchedule.add_period_daycount` (`frm/utils/schedule.py:97-111`). -/
def addPeriodDaycountStep (basis : DayCountBasis) : TableStep := fun t =>
  insertAfter "period_end" 1 "period_daycount" (periodDaycount basis t.periods) (t.pop "period_daycount")

/-- `BaseSchedule.add_period_yearfrac` (`frm/utils/schedule.py:113-127`): always two places after `period_end`. -/
def addPeriodYearfracStep (basis : DayCountBasis) : TableStep := fun t =>
  insertAfter "period_end" 2 "period_yearfrac" (addPeriodYearfrac basis t.periods) (t.pop "period_yearfrac")

/-! ## Schedule objects -/

/-- The arguments of `CouponSchedule(...)` (`frm/utils/schedule.py:18-31, 131-135, 175-177`). -/
structure CouponArgs where
  base : ScheduleArgs
  notional : List Rat
  exch : ExchangeNotionals
  notionalDelay : Int
  notionalTiming : Timing
  initialDate : Option Int
  couponDelay : Int
  couponTiming : Timing

/-- A `CouponSchedule` object (`frm/utils/schedule.py:17-31`). -/
structure SchedObj where
  startDate : Int
  endDate : Int
  exch : ExchangeNotionals
  table : SchedTable

/-- The columns of a new coupon schedule, in order (`frm/utils/schedule.py:141-182`). -/
def couponColumns : List String :=
  ["period_start", "period_end", "notional", "notional_payment", "notional_payment_date", "coupon_payment_date"]

/-- `BaseSchedule.__post_init__` and `make_schedule` (`frm/utils/schedule.py:33-59`): the start and end dates the object
keeps, and its periods. -/
def baseSchedule (a : ScheduleArgs) : Except Err ((Int × Int) × List (Int × Int)) := do
  let periods ← makeSchedule a
  if a.rollUser then
    match periods.head?, periods.getLast? with
    | some f, some l => pure ((f.1, l.2), periods)
    | _, _ => .error .index
  else pure ((a.startDate, a.endDate), periods)

/-- `CouponSchedule(...)`: the three `__post_init__` in turn (`frm/utils/schedule.py:33-59, 137-171, 179-182`). -/
def makeCouponSchedule (a : CouponArgs) : Except Err SchedObj := do
  let b ← baseSchedule a.base
  let rows ← couponSchedule a.base.cal a.base.rollConv a.notional a.exch a.notionalDelay a.notionalTiming a.initialDate
    a.couponDelay a.couponTiming b.2
  pure { startDate := b.1.1, endDate := b.1.2, exch := a.exch,
         table := { columns := couponColumns, rows, numbers := fun _ => [] } }

/-! ## Leg classes -/

/-- The six classes of `frm/instruments/leg.py:255, 292, 336, 381, 426, 445`. -/
inductive LegClass where
  | of (k : LegKind)
  | inflationZC
  | inflationYoY
deriving DecidableEq, Repr

/-- The abstract methods of `Leg` (`frm/instruments/leg.py:54-68`). -/
def abstractLegMethods : List String :=
  ["calc_coupon_payment", "_calc_accrued_interest", "_get_solved_field_name", "_get_legtype_specific_schedule_cols"]

/-- The methods each class defines (`frm/instruments/leg.py:255-290, 292-334, 336-378, 381-423, 426-443, 445-460`). -/
def legMethods : LegClass → List String
  | .of _ => ["__post_init__", "calc_coupon_payment", "_calc_accrued_interest", "_get_solved_field_name",
      "_get_legtype_specific_schedule_cols"]
  | .inflationZC => ["__post_init__", "calc_coupon_cashflow", "_calc_accrued_interest", "_get_solved_field_name"]
  | .inflationYoY => ["__post_init__", "calc_coupon_cashflow", "_calc_accrued_interest", "_get_solved_field_name"]

/-- Instantiating a class with an abstract method left is a `TypeError`, before `__init__` runs.
For `frm/instruments/leg.py:39, 54-68`. -/
def instantiable (c : LegClass) : Bool := abstractLegMethods.all (fun m => (legMethods c).contains m)

/-- `_get_solved_field_name` (`frm/instruments/leg.py:286-287, 330-331, 374-375, 418-419`). -/
def solvedField : LegKind → String
  | .fixed => "fixed_rate"
  | .floatTerm => "spread"
  | .floatRFR => "spread"
  | .zeroCoupon => "zero_rate"

/-- `_get_legtype_specific_schedule_cols` (`frm/instruments/leg.py:289-290, 333-334, 377-378, 421-422`). -/
def legTypeColumns : LegKind → List String
  | .fixed => ["fixed_rate"]
  | .floatTerm => ["fixing_date", "fixing", "spread", "coupon_rate"]
  | .floatRFR => ["fixing", "spread", "coupon_rate"]
  | .zeroCoupon => ["zero_rate"]

/-- `_get_contractual_schedule_cols` (`frm/instruments/leg.py:90-99`). -/
def contractualColumns (k : LegKind) (t : SchedTable) : List String :=
  t.columns.filter (fun c =>
    ["period_start", "period_end", "notional_payment_date", "coupon_payment_date"].contains c ||
      (legTypeColumns k).contains c)

/-- The first statement of `Leg.__post_init__` (`frm/instruments/leg.py:50`). -/
def scaleNotionals (m : Rat) (t : SchedTable) : SchedTable :=
  { t with rows := t.rows.map (fun x =>
      ({ x.1 with notional := x.1.notional * m, notionalPayment := x.1.notionalPayment * m }, x.2)) }

/-- `_add_contractual_coupon_param` (`frm/instruments/leg.py:70-88`). -/
def addCouponParamStep (exch : ExchangeNotionals) (k : LegKind) (param : List NRat) : TableStep := fun t =>
  match contractualParam exch t.rows.length param with
  | .error e => (t, .error e)
  | .ok v => insertAfter "coupon_payment_date" 0 (solvedField k) (.ok v) t

/-- Building a leg on a schedule object (`frm/instruments/leg.py:49-52, 258-260, 297-299, 342-344, 385-387`): the data
frame of the schedule afterwards and whether it raised. -/
def buildLeg (c : LegClass) (p : PayRcv) (basis : DayCountBasis) (exch : ExchangeNotionals) (param : List NRat) :
    TableStep := fun t =>
  if instantiable c then
    match c with
    | .of k =>
      ((addPeriodDaycountStep basis).andThen ((addPeriodYearfracStep basis).andThen (addCouponParamStep exch k param)))
        (scaleNotionals p.multiplier t)
    | _ => ((addPeriodDaycountStep basis).andThen (addPeriodYearfracStep basis)) (scaleNotionals p.multiplier t)
  else (t, .error .type)

/-- The rows a leg of the given kind reads in the data frame.  For `frm/instruments/leg.py:265-270`. -/
def legRowsOf (k : LegKind) (t : SchedTable) : List LegRow :=
  ((t.rows.zip (t.numbers "period_yearfrac")).zip (t.numbers (solvedField k))).map (fun x =>
    { periodStart := x.1.1.1.periodStart, periodEnd := x.1.1.1.periodEnd,
      notional := x.1.1.1.notional, notionalPayment := x.1.1.1.notionalPayment,
      notionalPaymentDate := x.1.1.1.notionalPaymentDate, couponPaymentDate := x.1.1.2,
      yearFrac := x.1.2, rate := x.2, couponRate := none, couponPayment := none, notionalPv := none,
      couponPv := none : LegRow })

/-! ## Methods of `Leg` returning tables -/

/-- `Leg.bucket_payments` (`frm/instruments/leg.py:238-245`): for each bucket the coupons, the notional payments and
their sum.  Without `calc_npv` the column of coupons must exist already. -/
def bucketTable (S : Settings) (leg : Leg) (calcNpv : Bool) (buckets : List Int) :
    Leg × Except Err (List (Rat × Rat × Rat)) :=
  let table (leg : Leg) : Except Err (List (Rat × Rat × Rat)) := do
    if leg.computed then
      let c ← bucketPayments S (leg.rows.map (fun r => (r.couponPaymentDate, r.couponPayment))) buckets
      let n ← bucketPayments S (leg.rows.map (fun r => (r.notionalPaymentDate, some r.notionalPayment))) buckets
      pure ((c.zip n).map (fun x => (x.1, x.2, x.1 + x.2)))
    else .error .key
  if calcNpv then
    match calcDirtyPv S leg none with
    | (leg1, .error e) => (leg1, .error e)
    | (leg1, .ok _) => (leg1, table leg1)
  else (leg, table leg)

/-- `Leg.calc_dv01` (`frm/instruments/leg.py:248-250`) is `pass`: `None`, for every leg. -/
def calcDv01 (_leg : Leg) : Option Rat := none

/-- `ZerocouponLeg._calc_accrued_interest` (`frm/instruments/leg.py:404-416`): a `Series` over all rows of the leg. -/
def zeroAccruedSeries (S : Settings) (leg : Leg) : Except Err (List NRat) :=
  match currentRows S leg with
  | [] => .error .index
  | r :: _ =>
    match r.periodStart with
    | none => .error .index
    | some s => do
      let yf ← yearFrac [s] [S.valueDate] leg.basis none
      let y : NRat := yf.head?
      pure (leg.rows.map (fun r =>
        match y, r.rate with
        | some y, some z => some (leg.payRcv.multiplier * r.notional * (1 / leg.zeroDf y z - 1))
        | _, _ => none))

/-- What `calc_accrued_interest` returns for a zero-coupon leg.  For `frm/instruments/leg.py:138-157`. -/
inductive AccruedValue where
  | number (x : Rat)
  | series (l : List NRat)
deriving DecidableEq

/-- `Leg.calc_accrued_interest` of a zero-coupon leg (`frm/instruments/leg.py:138-157, 404-416`). -/
def zeroCalcAccrued (S : Settings) (leg : Leg) : Except Err AccruedValue := do
  let accrued ← zeroAccruedSeries S leg
  if leg.computed then
    let unsettled := nsum (leg.rows.map (·.couponPayment))
    if S.limitAccrued then pure (if unsettled > 0 then .number unsettled else .series accrued)
    else pure (.series (accrued.map (fun a => nadd a (some unsettled))))
  else .error .key

/-- `Leg.calc_clean_pv` of a zero-coupon leg (`frm/instruments/leg.py:190-191`). -/
def zeroCleanPv (S : Settings) (leg : Leg) : Leg × Except Err AccruedValue :=
  match calcDirtyPv S leg none with
  | (leg1, .error e) => (leg1, .error e)
  | (leg1, .ok d) => (leg1, (zeroCalcAccrued S leg1).map (fun a =>
      match a with
      | .number x => .number (d - x)
      | .series l => .series (l.map (fun a => nadd (some d) (a.map (fun x => -x))))))

end Frm
