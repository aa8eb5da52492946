import Verif.Model.ZeroCurve
import Verif.Model.Calendar

/-!
# `frm/term_structures/bootstrap_helpers.py`

Floats are real numbers; `none` stands for `nan` and the infinities.
-/

namespace Frm

set_option autoImplicit false

/-! ## Interpolation (scipy) -/

/-- `np.interp` on sorted points whose values may be `nan`; at a point its own value is returned.
For `frm/term_structures/bootstrap_helpers.py:62-63`. -/
noncomputable def npInterpNan (x : ℝ) : List (ℝ × Option ℝ) → Option ℝ
  | [] => none
  | [p] => p.2
  | p :: q :: rest =>
    if x < p.1 then p.2
    else if x < q.1 then
      (if x = p.1 then p.2
       else p.2.bind (fun a => q.2.map (fun b => (b - a) / (q.1 - p.1) * (x - p.1) + a)))
    else npInterpNan x (q :: rest)

/-- Points ordered by abscissa: `interp1d` sorts with a stable sort.
For `frm/term_structures/bootstrap_helpers.py:62`. -/
noncomputable def sortPoints (pts : List (ℝ × Option ℝ)) : List (ℝ × Option ℝ) := pts.insertionSort (fun a b => a.1 ≤ b.1)

/-- `interp1d(X, Y, kind='linear')(x)` (scipy): `ValueError` without points or outside the range of the points.
For `frm/term_structures/bootstrap_helpers.py:62-63`. -/
noncomputable def interp1dBounded (pts : List (ℝ × Option ℝ)) (x : ℝ) : Except Err (Option ℝ) :=
  let s := sortPoints pts
  match s.head?, s.getLast? with
  | some lo, some hi => if x < lo.1 ∨ hi.1 < x then .error .value else .ok (npInterpNan x s)
  | _, _ => .error .value

/-- `interp1d(X, Y, kind='linear', fill_value='extrapolate')(x)` (scipy `_call_linear`): the segment that ends at the
first point not below `x`, or the first or last segment.  A segment of two points at the same abscissa gives no number (numpy: `nan`, or an
infinity whose exponential is 0 or infinite).  For `frm/term_structures/bootstrap_helpers.py:99-100`. -/
noncomputable def interp1dExtrapolate (pts : List (ℝ × Option ℝ)) (x : ℝ) : Option ℝ :=
  let s := sortPoints pts
  let hi := min (max (s.countP (fun p => decide (p.1 < x))) 1) (s.length - 1)
  match s[hi - 1]?, s[hi]? with
  | some p, some q =>
    if q.1 = p.1 then none
    else p.2.bind (fun a => q.2.map (fun b => (b - a) / (q.1 - p.1) * (x - p.1) + a))
  | _, _ => none

/-- `np.log`.  For `frm/term_structures/bootstrap_helpers.py:61`. -/
noncomputable def npLog (x : Option ℝ) : Option ℝ := x.bind (fun v => if 0 < v then some (Real.log v) else none)

/-- `np.exp`.  For `frm/term_structures/bootstrap_helpers.py:63`. -/
noncomputable def npExp (x : Option ℝ) : Option ℝ := x.map Real.exp

/-- Division of floats.  For `frm/term_structures/bootstrap_helpers.py:66-70`. -/
noncomputable def npDiv (a : Option ℝ) (b : ℝ) : Option ℝ := if b = 0 then none else a.map (· / b)

/-! ## Cash rates -/

/-- A row of the cash quotes as handed to `bootstrap_cash_rates`.
For `frm/term_structures/bootstrap_helpers.py:41-46`. -/
structure CashQuote where
  effective : Int
  maturity : Int
  rate : ℝ
  periodYears : ℝ
  hasSettlementDelay : Bool

/-- A row with the columns added by `bootstrap_cash_rates`.  For `frm/term_structures/bootstrap_helpers.py:47-72`. -/
structure CashRow where
  quote : CashQuote
  effectiveYears : ℝ
  maturityYears : ℝ
  effectiveDf : Option ℝ := none
  maturityDf : Option ℝ := none

/-- The discount factors of one row (`bootstrap_helpers.py:54-67`): `done` are the rows already filled in, `todo` the rows
after it, whose maturity factors are still `nan`.  The rate and the year fraction of a row are Python floats (`iterrows` of a table with
columns of several types), so line 56 raises `ZeroDivisionError`; line 66 divides a numpy float. -/
noncomputable def bootstrapCashRow (done : List CashRow) (r : CashRow) (todo : List CashRow) : Except Err CashRow :=
  let growth := 1 + r.quote.rate * r.quote.periodYears
  if r.quote.hasSettlementDelay = false then
    if growth = 0 then .error .zeroDiv
    else .ok { r with effectiveDf := some 1, maturityDf := npDiv (some 1) growth }
  else do
    let known := (done ++ r :: todo).filter (fun k => decide (k.quote.maturity ≤ r.quote.effective))
    let y ← interp1dBounded (known.map (fun k => (k.maturityYears, npLog k.maturityDf))) r.effectiveYears
    pure { r with effectiveDf := npExp y, maturityDf := npDiv (npExp y) growth }

/-- The loop over the rows in order of maturity (`bootstrap_helpers.py:53-67`). -/
noncomputable def bootstrapCashLoop (done : List CashRow) : List CashRow → Except Err (List CashRow)
  | [] => .ok done
  | r :: todo => do
    let r' ← bootstrapCashRow done r todo
    bootstrapCashLoop (done ++ [r']) todo

/-- `bootstrap_cash_rates` (`bootstrap_helpers.py:41-70`).  `sort` is `DataFrame.sort_values('maturity_date')`, which is
not stable. -/
noncomputable def bootstrapCashRates (sort : List CashRow → List CashRow) (df : List CashQuote) (curveDate : Int)
    (basisYears : DayCountBasis) : Except Err (List CashRow) := do
  let effYears ← yearFrac [curveDate] (df.map (·.effective)) basisYears none
  let matYears ← yearFrac [curveDate] (df.map (·.maturity)) basisYears none
  let rows := (df.zip (effYears.zip matYears)).map (fun p =>
    ({ quote := p.1, effectiveYears := p.2.1, maturityYears := p.2.2 } : CashRow))
  bootstrapCashLoop [] (sort rows)

/-- A row of the user's table for `cash_rates_quote_helper`: its tenor and rate.
For `frm/term_structures/bootstrap_helpers.py:19-22`. -/
structure CashInput where
  tenor : Str
  rate : ℝ

/-- The dates of one row (`bootstrap_helpers.py:22-35`). -/
def cashDates (cal : BusCal) (curveDate settlementDate : Int) (tenor : Str) : Except Err (Bool × Int × Int) :=
  let t := cleanTenor tenor
  let delayed := decide (t ≠ "on".toList)
  let eff := if delayed then settlementDate else curveDate
  (tenorToDateOffset t).map (fun o => (delayed, eff, workday cal (o.addTo eff) 0))

/-- The settlement date (`bootstrap_helpers.py:24-26`). -/
def cashSettlement (cal : BusCal) (curveDate : Int) (settlementDelay settlementDate : Option Int) : Except Err Int :=
  match settlementDate, settlementDelay with
  | some d, _ => .ok d
  | none, some n => .ok (workday cal curveDate n)
  | none, none => .error .assertion

/-- `cash_rates_quote_helper` (`bootstrap_helpers.py:11-39`) for a table with the columns `tenor` and `rate`.
Other tables are in `Verif/Model/CashTable.lean`. -/
noncomputable def cashRatesQuoteHelper (df : List CashInput) (curveDate : Int) (basis : DayCountBasis)
    (settlementDelay : Option Int) (settlementDate : Option Int) (cal : BusCal) : Except Err (List CashQuote) := do
  let sd ← cashSettlement cal curveDate settlementDelay settlementDate
  let dates ← df.mapM (fun r => cashDates cal curveDate sd r.tenor)
  let years ← yearFrac (dates.map (·.2.1)) (dates.map (·.2.2)) basis none
  pure ((df.zip (dates.zip years)).map (fun p =>
    { effective := p.2.1.2.1, maturity := p.2.1.2.2, rate := p.1.rate, periodYears := p.2.2,
      hasSettlementDelay := p.2.1.1 }))

/-! ## Futures -/

/-- The columns of the user's table of futures.  For `frm/term_structures/bootstrap_helpers.py:74-93`. -/
structure FuturesColumns where
  effective : List Int
  maturity : List Int
  price : Option (List ℝ) := none
  futuresRate : Option (List ℝ) := none
  convexityBps : Option (List ℝ) := none
  forwardRate : Option (List ℝ) := none

/-- A row of the table of futures after `bootstrap_futures`.  For `frm/term_structures/bootstrap_helpers.py:94-108`. -/
structure FuturesRow where
  effective : Int
  maturity : Int
  forwardRate : ℝ
  periodYears : ℝ
  effectiveYears : ℝ
  maturityYears : ℝ
  effectiveDf : Option ℝ := none
  maturityDf : Option ℝ := none

/-- The column `futures_rate` (`bootstrap_helpers.py:81-82`). -/
noncomputable def futuresRates (c : FuturesColumns) : Except Err (List ℝ) :=
  match c.futuresRate, c.price with
  | some l, _ => .ok l
  | none, some l => .ok (l.map (fun p => (100 - p) / 100))
  | none, none => .error .key

/-- The column `convexity_bps` (`bootstrap_helpers.py:83-84`). -/
noncomputable def convexities (c : FuturesColumns) : Except Err (List ℝ) :=
  match c.convexityBps, c.price with
  | some l, _ => .ok l
  | none, some _ => .ok (c.effective.map (fun _ => 0))
  | none, none => .error .key

/-- The column `forward_rate` (`bootstrap_helpers.py:81-86`). -/
noncomputable def forwardColumn (c : FuturesColumns) : Except Err (List ℝ) := do
  let fut ← futuresRates c
  let conv ← convexities c
  match c.forwardRate with
  | some l => .ok l
  | none => .ok ((fut.zip conv).map (fun p => p.1 - p.2 / 10000))

/-- The loop (`bootstrap_helpers.py:97-106`): `knots` are the points `(X, Y)` known so far. -/
noncomputable def bootstrapFuturesLoop (knots : List (ℝ × Option ℝ)) : List FuturesRow → List FuturesRow
  | [] => []
  | r :: rest =>
    let eff := npExp (interp1dExtrapolate knots r.effectiveYears)
    let mat := npDiv eff (1 + r.forwardRate * r.periodYears)
    { r with effectiveDf := eff, maturityDf := mat } ::
      bootstrapFuturesLoop (knots ++ [(r.maturityYears, npLog mat)]) rest

/-- `bootstrap_futures` (`bootstrap_helpers.py:74-108`).  `cash` are the columns `maturity_date_years` and
`maturity_date_discount_factor` of the bootstrapped cash rates, `sort` is `sort_values('effective_date')`.  `interp1d` refuses to interpolate
without points: `ValueError`. -/
noncomputable def bootstrapFutures (sort : List FuturesRow → List FuturesRow) (c : FuturesColumns) (curveDate : Int)
    (cash : List (ℝ × Option ℝ)) (basis basisYears : DayCountBasis) : Except Err (List FuturesRow) := do
  let fwd ← forwardColumn c
  let period ← yearFrac c.effective c.maturity basis none
  let effYears ← yearFrac [curveDate] c.effective basisYears none
  let matYears ← yearFrac [curveDate] c.maturity basisYears none
  let rows := ((c.effective.zip c.maturity).zip (fwd.zip (period.zip (effYears.zip matYears)))).map (fun p =>
    ({ effective := p.1.1, maturity := p.1.2, forwardRate := p.2.1, periodYears := p.2.2.1, effectiveYears := p.2.2.2.1,
       maturityYears := p.2.2.2.2 } : FuturesRow))
  if cash.isEmpty && !rows.isEmpty then .error .value
  else pure (bootstrapFuturesLoop (cash.map (fun p => (p.1, npLog p.2))) (sort rows))

/-! ## ASX 90-day bank bill futures -/

/-- The Fridays of the month that begins on `monthStart` (`bootstrap_helpers.py:160-161`). -/
def fridaysOf (monthStart : Int) : List Int :=
  (dateRange monthStart (monthEnd monthStart)).filter (fun d => weekday d == 4)

/-- Settlement and expiry date of a contract (`bootstrap_helpers.py:157-166`); `- BDay(1)` is the previous weekday. -/
def contractDates (year month : Int) : Except Err (Int × Int) :=
  match (fridaysOf (mkDate year month 1))[1]? with
  | some d => .ok (d, prevBusDay defaultBusCal d)
  | none => .error .index

/-- The contracts in the order of the two loops (`bootstrap_helpers.py:154-156`): every year from the first to the last
one, every quarter month, if some row has it. -/
def contractsInOrder (rows : List (Int × Int)) : Except Err (List (Int × Int)) :=
  match (rows.map (·.1)).min?, (rows.map (·.1)).max? with
  | some lo, some hi =>
    .ok (((dateRange lo hi).flatMap (fun y => [3, 6, 9, 12].map (fun (m : Int) => (y, m)))).filter
      (fun c => rows.contains c))
  | _, _ => .error .type

/-- A row with the dates added by `futures_helper_asx_90day`.
For `frm/term_structures/bootstrap_helpers.py:111-185`. -/
structure AsxRow where
  contract : Int × Int
  expiry : Int
  settlement : Int
  maturity : Int
deriving DecidableEq, Repr

/-- `futures_helper_asx_90day` (`bootstrap_helpers.py:152-178`) on the columns `years` and `months`: the lists of dates
are assigned to the rows by position. -/
def futuresHelperAsx (cal : BusCal) (rows : List (Int × Int)) : Except Err (List AsxRow) := do
  let contracts ← contractsInOrder rows
  let dates ← contracts.mapM (fun c => contractDates c.1 c.2)
  if dates.length ≠ rows.length then .error .value
  else pure ((rows.zip dates).map (fun p =>
    { contract := p.1, expiry := p.2.2, settlement := p.2.1, maturity := workday cal (addMonths p.2.1 3) 0 }))

/-- `{'H': 3, 'M': 6, 'U': 9, 'Z': 12}` (`bootstrap_helpers.py:129`). -/
def monthCode (c : Char) : Option Int :=
  if c = 'H' then some 3 else if c = 'M' then some 6 else if c = 'U' then some 9 else if c = 'Z' then some 12 else none

/-- The year and month of a ticker (`bootstrap_helpers.py:121-148`).  The assertion on the length of the whole ticker
leaves only one-digit years, which `resolve_year` maps to 2020–2029.  Upper-casing is modelled on ASCII. -/
def parseTicker (s : Str) : Except Err (Int × Int) :=
  let t := strip (s.map Char.toUpper)
  match t with
  | [a, b, c, d] =>
    if a = 'I' ∧ b = 'R' then
      match monthCode c with
      | some m => if d.isDigit then .ok (2020 + (digitVal d : Int), m) else .error .value
      | none => .error .assertion
    else .error .assertion
  | _ => .error .assertion

end Frm
