import Verif.Model.BusDay

/-!
# Schedules (`frm/utils/schedule.py`)
-/

namespace Frm

/-- `PeriodFreq` (`frm/enums/utils.py:315-326`). -/
inductive PeriodFreq where
  | daily | weekly | days28 | monthly | quarterly | semiannual | annual | zeroCoupon
deriving DecidableEq, Repr

/-- `PeriodFreq.date_offset` (`frm/enums/utils.py:328-341`); `None` for a zero coupon. -/
def PeriodFreq.dateOffset : PeriodFreq → Option DateOffset
  | .daily => some (.days 1)
  | .weekly => some (.weeks 1)
  | .days28 => some (.days 28)
  | .monthly => some (.months 1)
  | .quarterly => some (.months 3)
  | .semiannual => some (.months 6)
  | .annual => some (.years 1)
  | .zeroCoupon => none

/-- Scaling of the one unit that is set (the other units stay zero).  For `frm/utils/schedule.py:499-532`. -/
def DateOffset.scale (o : DateOffset) (k : Int) : DateOffset :=
  match o with
  | .days n => .days (n * k)
  | .weeks n => .weeks (n * k)
  | .months n => .months (n * k)
  | .years n => .years (n * k)

/-- `PeriodFreq.multiply_date_offset` (`frm/enums/utils.py:343-359`). -/
def PeriodFreq.multiplyDateOffset (f : PeriodFreq) (k : Int) : Option DateOffset :=
  f.dateOffset.map (fun o => o.scale k)

/-- `date - offset`.  For `frm/utils/schedule.py:499-532`. -/
def DateOffset.subFrom (o : DateOffset) (d : Int) : Int := (o.scale (-1)).addTo d

/-- `DayRoll` (`frm/enums/utils.py:395-445`): unadjusted, a day number 1..31 (index 0..30 here), end of month. -/
inductive DayRoll where
  | unadjusted
  | day (k : Fin 31)
  | eom
deriving DecidableEq, Repr

/-- `apply_specific_day_roll` (`frm/utils/schedule.py:467-475`): replace the day of the month; if that day does not
exist (or for `'eom'`, where `Timestamp.replace` raises `ValueError` too) go to the end of the month. -/
def applyDayRoll (r : DayRoll) (d : Int) : Int :=
  match r with
  | .unadjusted => d
  | .day k =>
      let c := toCivil d
      if (k.val : Int) + 1 ≤ daysInMonth c.year c.month then mkDate c.year c.month (k.val + 1) else monthEnd d
  | .eom => monthEnd d

/-- `Stub` (`frm/enums/utils.py:496-522`). -/
inductive Stub where
  | default | none | short | long | definedPerFirstPeriodEnd | definedPerLastPeriodStart
deriving DecidableEq, Repr

/-- `Stub.market_convention()` (`frm/enums/utils.py:516-518`). -/
def Stub.marketConvention : Stub := .short

/-- Everything a date generation depends on besides its two dates.  For `frm/utils/schedule.py:417-426`. -/
structure GenParams where
  freq : PeriodFreq
  rollConv : RollConv
  dayRoll : DayRoll
  rollUser : Bool
  cal : BusCal

/-- Day roll, then business-day roll with offset 0 (`frm/utils/schedule.py:500-501, 507-508`). -/
def GenParams.adjust (p : GenParams) (d : Int) : Except Err Int := rollDate p.cal p.rollConv (applyDayRoll p.dayRoll d)

/-- `adjust(start_date + freq.multiply_date_offset(i))` (`frm/utils/schedule.py:506-508`). -/
def GenParams.fwd (p : GenParams) (start : Int) (i : Nat) : Except Err Int :=
  match p.freq.multiplyDateOffset i with
  | some o => p.adjust (o.addTo start)
  | none => .error .type

/-- `adjust(end_date - freq.multiply_date_offset(i))` (`frm/utils/schedule.py:521-523`). -/
def GenParams.bwd (p : GenParams) (endDate : Int) (i : Nat) : Except Err Int :=
  match p.freq.multiplyDateOffset i with
  | some o => p.adjust (o.subFrom endDate)
  | none => .error .type

/-- The `while` loops of `generate_date_schedule` (`frm/utils/schedule.py:503-509, 518-524`): collect `current_date`
while `go current_date`, the next one being `step (i+1)`.  The fuel replaces the unbounded loop;
`Proofs/Schedule.lean` shows the bound used below is never reached. -/
def genLoop (step : Nat → Except Err Int) (go : Int → Bool) : Nat → Nat → Int → Except Err (List Int)
  | 0, _, _ => .ok []
  | fuel + 1, i, current =>
    if go current then do
      let next ← step (i + 1)
      let rest ← genLoop step go fuel (i + 1) next
      pure (current :: rest)
    else .ok []

/-- Loop bound: the days to cover, plus what a day roll (31) and a business-day roll can take back.
For `frm/utils/schedule.py:499-532`. -/
def genFuel (p : GenParams) (startDate endDate : Int) : Nat :=
  (endDate - startDate).toNat + rollFuel p.cal + 40

/-- `generate_date_schedule(..., direction='forward', ...)` (`frm/utils/schedule.py:477-512`).  The pair is
(start_dates, end_dates). -/
def generateForward (p : GenParams) (startDate endDate : Int) : Except Err (List Int × List Int) := do
  if startDate ≥ endDate then throw .value
  let s ← if p.rollUser then rollDate p.cal p.rollConv startDate else pure startDate
  let e ← if p.rollUser then rollDate p.cal p.rollConv endDate else pure endDate
  match p.freq.dateOffset with
  | none => .error .type
  | some o => do
    let first ← p.adjust (o.addTo startDate)
    let mid ← genLoop (p.fwd startDate) (fun c => decide (c < endDate)) (genFuel p startDate endDate) 1 first
    pure ([s] ++ mid, mid ++ [e])

/-- `generate_date_schedule(..., direction='backward', ...)` (`frm/utils/schedule.py:477-532`): the lists are built
from the end and reversed. -/
def generateBackward (p : GenParams) (startDate endDate : Int) : Except Err (List Int × List Int) := do
  if startDate ≥ endDate then throw .value
  let s ← if p.rollUser then rollDate p.cal p.rollConv startDate else pure startDate
  let e ← if p.rollUser then rollDate p.cal p.rollConv endDate else pure endDate
  match p.freq.dateOffset with
  | none => .error .type
  | some o => do
    let first ← p.adjust (o.subFrom endDate)
    let mid ← genLoop (p.bwd endDate) (fun c => decide (c > startDate)) (genFuel p startDate endDate) 1 first
    pure ((mid ++ [s]).reverse, ([e] ++ mid).reverse)

/-- `d[0]` etc. with a Python `IndexError` when absent.  For `frm/utils/schedule.py:300-410`. -/
def pyGet (l : List Int) (i : Nat) : Except Err Int :=
  match l[i]? with
  | some x => .ok x
  | none => .error .index

/-- `d[-k]` (`k ≥ 1`).  For `frm/utils/schedule.py:300-410`. -/
def pyGetNeg (l : List Int) (k : Nat) : Except Err Int :=
  if k ≤ l.length then pyGet l (l.length - k) else .error .index

/-- `d[:-k]` (`k ≥ 1`).  For `frm/utils/schedule.py:300-410`. -/
def pyDropEnd (l : List Int) (k : Nat) : List Int := l.take (l.length - k)

/-- Merge the first two periods: `d1 = [d1[0]] + d1[2:]`, `d2 = d2[1:]`
(`frm/utils/schedule.py:295-297, 391-393, 407-409`). -/
def mergeFirst (d : List Int × List Int) : Except Err (List Int × List Int) := do
  let h ← pyGet d.1 0
  pure ([h] ++ d.1.drop 2, d.2.drop 1)

/-- Merge the last two periods: `d1 = d1[:-1]`, `d2 = d2[:-2] + [d2[-1]]`
(`frm/utils/schedule.py:300-302, 383-385, 401-403`). -/
def mergeLast (d : List Int × List Int) : Except Err (List Int × List Int) := do
  let l ← pyGetNeg d.2 1
  pure (pyDropEnd d.1 1, pyDropEnd d.2 2 ++ [l])

/-- Arguments of `make_schedule` (`frm/utils/schedule.py:199-211`). -/
structure ScheduleArgs extends GenParams where
  startDate : Int
  endDate : Int
  firstPeriodEnd : Option Int
  lastPeriodStart : Option Int
  firstStub : Stub
  lastStub : Stub

/-- Defaulting of the stubs when no stub dates are given (`frm/utils/schedule.py:279-291`). -/
def resolveStubs (firstStub lastStub : Stub) : Except Err (Stub × Stub) :=
  if firstStub = .definedPerFirstPeriodEnd then .error .assertion
  else if lastStub = .definedPerLastPeriodStart then .error .assertion
  else if firstStub = .default ∧ lastStub = .default then .ok (Stub.marketConvention, .none)
  else if firstStub = .default then .ok (.none, lastStub)
  else if lastStub = .default then .ok (firstStub, .none)
  else .error .value

/-- The branch without explicit stub dates (`frm/utils/schedule.py:278-306`). -/
def scheduleNoDates (a : ScheduleArgs) : Except Err (List Int × List Int) := do
  let st ← resolveStubs a.firstStub a.lastStub
  if st.2 = .none then do
    let d ← generateBackward a.toGenParams a.startDate a.endDate
    if st.1 = .long then mergeFirst d else pure d
  else if st.1 = .none then do
    let d ← generateForward a.toGenParams a.startDate a.endDate
    if st.2 = .long then mergeLast d else pure d
  else throw .value

/-- Step 2a (`frm/utils/schedule.py:326-339`): compare `first_period_end` with the generated grids; returns the new
`first_stub` and the direction(s) recorded (`true` = forward). -/
def matchFirst (fpe : Int) (bwd fwd : List Int × List Int) : Except Err (Stub × List Bool) := do
  let f0 ← pyGet fwd.2 0
  if fpe = f0 then pure (.none, [true])
  else do
    let b0 ← pyGet bwd.2 0
    if fpe = b0 then pure (.short, [false])
    else do
      let b1 ← pyGet bwd.2 1
      if fpe = b1 then pure (.long, [false])
      else pure (.definedPerFirstPeriodEnd, [])

/-- Step 2b (`frm/utils/schedule.py:341-354`): compare `last_period_start` with the generated grids. -/
def matchLast (lps : Int) (bwd fwd : List Int × List Int) : Except Err (Stub × List Bool) := do
  let b1 ← pyGetNeg bwd.1 1
  if lps = b1 then pure (.none, [false])
  else do
    let f1 ← pyGetNeg fwd.1 1
    if lps = f1 then pure (.short, [true])
    else do
      let f2 ← pyGetNeg fwd.1 2
      if lps = f2 then pure (.long, [true])
      else pure (.definedPerLastPeriodStart, [])

/-- Step 2c, first stub (`frm/utils/schedule.py:356-364`): default the first stub, given the last one. -/
def defaultFirst (firstStub lastStub : Stub) : Except Err Stub :=
  if firstStub = .default ∧ lastStub ≠ .definedPerLastPeriodStart then
    if lastStub = .default then .error .assertion
    else .ok (if lastStub = .none then Stub.marketConvention else .none)
  else .ok firstStub

/-- Step 2c, last stub (`frm/utils/schedule.py:365-370`). -/
def defaultLast (firstStub lastStub : Stub) : Except Err Stub :=
  if lastStub = .default ∧ firstStub ≠ .definedPerFirstPeriodEnd then
    if firstStub = .default then .error .assertion
    else .ok (if firstStub = .none then Stub.marketConvention else .none)
  else .ok lastStub

/-- `generate_date_schedule` called with a date that may be `None`: the `isinstance` check raises `TypeError`.
For `frm/utils/schedule.py:480-481`. -/
def needDate (d : Option Int) : Except Err Int :=
  match d with
  | some x => .ok x
  | none => .error .type

/-- Step 3 (`frm/utils/schedule.py:372-411`). -/
def scheduleStep3 (a : ScheduleArgs) (firstStub lastStub : Stub) (directions : List Bool)
    (bwd fwd : List Int × List Int) : Except Err (List Int × List Int) := do
  if firstStub = .definedPerFirstPeriodEnd ∧ lastStub = .definedPerLastPeriodStart then do
    let fpe ← needDate a.firstPeriodEnd
    let lps ← needDate a.lastPeriodStart
    let d ← generateBackward a.toGenParams fpe lps
    pure ([a.startDate] ++ d.1 ++ [lps], [fpe] ++ d.2 ++ [a.endDate])
  else if firstStub = .definedPerFirstPeriodEnd then do
    let fpe ← needDate a.firstPeriodEnd
    let d ← generateForward a.toGenParams fpe a.endDate
    let d := ([a.startDate] ++ d.1, [fpe] ++ d.2)
    if lastStub = .long then mergeLast d else pure d
  else if lastStub = .definedPerLastPeriodStart then do
    let lps ← needDate a.lastPeriodStart
    let d ← generateBackward a.toGenParams a.startDate lps
    let d := (d.1 ++ [lps], d.2 ++ [a.endDate])
    if firstStub = .long then mergeFirst d else pure d
  else do
    pyAssert (directions.eraseDups.length = 1)
    if firstStub = .none then
      if lastStub = .long then mergeLast fwd else pure fwd
    else if lastStub = .none then
      if firstStub = .long then mergeFirst bwd else pure bwd
    else throw .value

/-- The first stub and the directions after step 2a (`frm/utils/schedule.py:325-339`). -/
def stubOfFirst (fpe : Option Int) (stub : Stub) (bwd fwd : List Int × List Int) : Except Err (Stub × List Bool) :=
  match fpe with
  | some x => matchFirst x bwd fwd
  | none => .ok (stub, [])

/-- The last stub and the directions after step 2b (`frm/utils/schedule.py:341-354`). -/
def stubOfLast (lps : Option Int) (stub : Stub) (bwd fwd : List Int × List Int) : Except Err (Stub × List Bool) :=
  match lps with
  | some x => matchLast x bwd fwd
  | none => .ok (stub, [])

/-- The branch with `first_period_end` and/or `last_period_start` (`frm/utils/schedule.py:308-411`). -/
def scheduleWithDates (a : ScheduleArgs) : Except Err (List Int × List Int) := do
  let bwd ← generateBackward a.toGenParams a.startDate a.endDate
  let fwd ← generateForward a.toGenParams a.startDate a.endDate
  let first ← stubOfFirst a.firstPeriodEnd a.firstStub bwd fwd
  let last ← stubOfLast a.lastPeriodStart a.lastStub bwd fwd
  let firstStub ← defaultFirst first.1 last.1
  let lastStub ← defaultLast firstStub last.1
  scheduleStep3 a firstStub lastStub (first.2 ++ last.2) bwd fwd

/-- `pd.DataFrame({'period_start': d1, 'period_end': d2})` (`frm/utils/schedule.py:413`): `ValueError` unless the
columns have the same length. -/
def periodFrame (d : List Int × List Int) : Except Err (List (Int × Int)) :=
  if d.1.length = d.2.length then .ok (d.1.zip d.2) else .error .value

/-- Input validation (`frm/utils/schedule.py:256-264`). -/
def validateSchedule (a : ScheduleArgs) : Except Err Unit :=
  if a.startDate ≥ a.endDate then .error .value
  else if a.firstPeriodEnd.any (fun fpe => !(a.startDate < fpe && fpe ≤ a.endDate)) then .error .assertion
  else if a.lastPeriodStart.any (fun lps => !(a.startDate ≤ lps && lps < a.endDate)) then .error .assertion
  else .ok ()

/-- The columns `d1`, `d2` (`frm/utils/schedule.py:271-411`). -/
def scheduleColumns (a : ScheduleArgs) : Except Err (List Int × List Int) :=
  if a.freq = .zeroCoupon ∨ a.firstPeriodEnd = some a.endDate ∨ a.lastPeriodStart = some a.startDate then
    .ok ([a.startDate], [a.endDate])
  else
    match a.firstPeriodEnd, a.lastPeriodStart with
    | none, none => scheduleNoDates a
    | some fpe, some lps =>
      if fpe = lps then .ok ([a.startDate, fpe], [lps, a.endDate]) else scheduleWithDates a
    | _, _ => scheduleWithDates a

/-- `make_schedule` (`frm/utils/schedule.py:199-414`): the rows (period_start, period_end).
Simplification: dates are midnight timestamps already (the `isinstance` conversions are the identity). -/
def makeSchedule (a : ScheduleArgs) : Except Err (List (Int × Int)) := do
  validateSchedule a
  let d ← scheduleColumns a
  periodFrame d

/-! ## Columns added to a schedule -/

/-- `TimingConvention` (`frm/enums/utils.py:472-494`). -/
inductive Timing where
  | inArrears | inAdvance
deriving DecidableEq, Repr

/-- `np.busday_offset` on an array: the roll name is checked first (so `'unadjusted'` raises on any array), then
elementwise.  For `frm/utils/schedule.py:91`. -/
def npBusdayOffset (cal : BusCal) (r : RollConv) (ds : List Int) (n : Int) : Except Err (List Int) :=
  if r = .unadjusted then .error .value else ds.mapM (fun d => busdayOffset cal r d n)

/-- `dst[mask] = vals` where the mask selects the non-missing entries: values are written in order; missing entries
stay `NaT` (`frm/utils/schedule.py:87-92`). -/
def scatter : List (Option Int) → List Int → List (Option Int)
  | [], _ => []
  | none :: ds, vs => none :: scatter ds vs
  | some _ :: ds, v :: vs => some v :: scatter ds vs
  | some _ :: ds, [] => none :: scatter ds []

/-- `BaseSchedule.add_payment_dates` (`frm/utils/schedule.py:61-95`): the new column, from the columns
`period_start` and `period_end`. -/
def addPaymentDates (cal : BusCal) (r : RollConv) (delay : Int) (timing : Timing)
    (rows : List (Option Int × Option Int)) : Except Err (List (Option Int)) := do
  let dates := match timing with
    | .inArrears => rows.map (·.2)
    | .inAdvance => rows.map (·.1)
  let adjusted ← npBusdayOffset cal r (dates.filterMap id) delay
  pure (scatter dates adjusted)

/-- `ExchangeNotionals` (`frm/enums/utils.py:525-`). -/
inductive ExchangeNotionals where
  | neither | start | end_ | both
deriving DecidableEq, Repr

/-- A row of a notional schedule.  For `frm/utils/schedule.py:141-171`. -/
structure NotionalRow where
  periodStart : Option Int
  periodEnd : Option Int
  notional : Rat
  notionalPayment : Rat
  notionalPaymentDate : Option Int
deriving DecidableEq

/-- Write the last row's `notional_payment`.  For `frm/utils/schedule.py:141-171`. -/
def setLastPayment (v : Rat) : List NotionalRow → List NotionalRow
  | [] => []
  | [r] => [{ r with notionalPayment := v }]
  | r :: rs => r :: setLastPayment v rs

/-- The date of the initial exchange: as given, else the first period start (`frm/utils/schedule.py:158-159`). -/
def initialExchangeDate (initialDate : Option Int) (rows : List (Option Int × Option Int)) :
    Except Err (Option Int) :=
  match initialDate, rows with
  | some d, _ => .ok (some d)
  | none, row :: _ => .ok row.1
  | none, [] => .error .index

/-- `NotionalSchedule.add_notional_schedule` (`frm/utils/schedule.py:141-171`).  `notional` is
`np.atleast_1d(notional_amount)`.  `notional_amount.shape == self.df.shape[0]` compares a tuple with an integer and
is never true, so the array branch (151-153) is dead and arrays of length ≠ 1 raise. -/
def addNotionalSchedule (cal : BusCal) (r : RollConv) (notional : List Rat) (exch : ExchangeNotionals) (delay : Int)
    (timing : Timing) (initialDate : Option Int) (periods : List (Int × Int)) :
    Except Err (List NotionalRow) := do
  match notional with
  | [n] => do
    let rows := periods.map (fun p => (some p.1, some p.2))
    let dates ← addPaymentDates cal r delay timing rows
    let body := (rows.zip dates).map (fun x => NotionalRow.mk x.1.1 x.1.2 n 0 x.2)
    let withStart ←
      if exch = .start ∨ exch = .both then
        (initialExchangeDate initialDate rows).map (fun d0 => NotionalRow.mk none none 0 (-1 * n) d0 :: body)
      else .ok body
    pure (if exch = .end_ ∨ exch = .both then setLastPayment n withStart else withStart)
  | _ => .error .value

/-- `CouponSchedule.__post_init__` (`frm/utils/schedule.py:174-180`): the notional schedule, then coupon payment dates
over all its rows (the initial-exchange row has no boundaries, hence no coupon date). -/
def couponSchedule (cal : BusCal) (r : RollConv) (notional : List Rat) (exch : ExchangeNotionals)
    (ndelay : Int) (ntiming : Timing) (initialDate : Option Int) (cdelay : Int) (ctiming : Timing)
    (periods : List (Int × Int)) : Except Err (List (NotionalRow × Option Int)) := do
  let rows ← addNotionalSchedule cal r notional exch ndelay ntiming initialDate periods
  let dates ← addPaymentDates cal r cdelay ctiming (rows.map (fun x => (x.periodStart, x.periodEnd)))
  pure (rows.zip dates)

/-- `CouponSchedule.determine_valid_shapes_for_coupon_param` (`frm/utils/schedule.py:182-192`): the row indices that
carry a coupon parameter, and the lengths an array of parameters may have. -/
def validCouponShapes (exch : ExchangeNotionals) (rowCount : Nat) : List Nat × List Int :=
  if exch = .start ∨ exch = .both then ((List.range rowCount).drop 1, [1, (rowCount : Int) - 1])
  else (List.range rowCount, [1, (rowCount : Int)])

end Frm
