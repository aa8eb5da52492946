import Verif.Model.FxHelpers
import Verif.Model.FxSurface
import Verif.Model.ZeroCurve

/-!
# The constructor of `FXVolatilitySurface` (`frm/term_structures/fx_volatility_surface.py:68-195`)

Puts together the helpers modelled elsewhere.  The tables given by the caller are changed in place, so what they look like afterwards is
part of the result.  Quotes and forwards may be `nan` (`none`); zero rates that are `nan` are not modelled.
-/

namespace Frm
open Classical

set_option autoImplicit false

/-- The table of forwards given by the caller (`fx_volatility_surface.py:42`): whether it has a column `fx_forward_rate` and a column `tenor`, and its
rows, whose value is the forward (`none`: `nan`). -/
structure FxTable where
  hasRate : Bool
  hasTenor : Bool
  rows : List FxRow

/-- The table of volatility quotes given by the caller (`fx_volatility_surface.py:45`): its dates (the values of these rows are not used), its column
`delta_convention` (`none`: absent), and the columns of quotes, by name.  All columns have one entry per row. -/
structure VolTable where
  hasTenor : Bool
  rows : List FxRow
  conventions : Option (List Str)
  quotes : QuoteTable

/-- The arguments of the constructor (`fx_volatility_surface.py:38-55`), with the calendar resolved. -/
structure FxInputs where
  domestic : Str
  foreign : Str
  forward : FxTable
  domesticCurve : ZeroCurve
  foreignCurve : ZeroCurve
  quotes : VolTable
  curveDate : Option Int
  spotOffset : Option Int
  spotDate : Option Int
  cal : BusCal
  basis : DayCountBasis

/-- A row of the table of quotes on its way through the helpers: dates, convention, warnings and the quotes in the order of the smile.
For `fx_volatility_surface.py:115-131`. -/
structure VolRow where
  row : FxRow
  conv : ConventionRow
  vols : List (Option Rat)
deriving DecidableEq

/-- The calls of `sort_values` in the constructor: forwards by delivery date and quotes by delivery date (`fx_helpers.py:61`), and columns by order
of strike (`fx_helpers.py:196`). -/
structure FxSorts where
  forward : List FxRow → List FxRow
  pillars : List VolRow → List VolRow
  smile : List SmileQuote → List SmileQuote

/-- `fx_term_structure_helper` up to its line 55 (`fx_helpers.py:24-55`): what it leaves in the caller's table. -/
def fxTableDates (cal : BusCal) (curveDate spotOffset : Int) (hasTenor : Bool) (rows : List FxRow) : Except Err (List FxRow) :=
  if hasTenor = false then .error .key
  else do
    let tenors ← rows.mapM fxRowTenor
    (rows.zip tenors).mapM (fun p => fxRowDates cal curveDate spotOffset { p.1 with tenor := some p.2 } p.2)

/-- `fx_forward_curve_helper` (`fx_helpers.py:66-82`) before sorting.  `convert_column_to_consistent_data_type` (`utils/utilities.py:9-13`) turns columns of floats into columns of
floats. -/
def fxForwardTable (cal : BusCal) (curveDate spotOffset : Int) (t : FxTable) : Except Err (List FxRow) :=
  if t.hasRate = false then .error .assertion else fxTableDates cal curveDate spotOffset t.hasTenor t.rows

/-- `fx_spot_rate` (`fx_volatility_surface.py:87-88`): `.values[0]` raises `IndexError` when no row is called `sp`; `none` is `nan`. -/
def fxSpotRate (rows : List FxRow) : Except Err (Option Rat) :=
  match rows.find? (fun r => r.tenor = some "sp".toList) with
  | some r => .ok r.value
  | none => .error .index

/-- `interp_fx_forward_curve_df` on fixing dates (`fx_volatility_surface.py:105-107`).  A fixing date that is missing makes pandas raise
`NotImplementedError` (a `RuntimeError`), unless two are, which `reindex` refuses. -/
def fxForwardsAt (rows : List FxRow) (dates : List Int) : Except Err (List (Option Rat)) :=
  if ¬ (rows.map (·.rateSet)).Nodup then .error .value
  else
    match rows.mapM (fun r => r.rateSet.map (fun d => (d, r.value))) with
    | none => .error .runtime
    | some pillars => interpFxForwards pillars dates true

/-- The zero rates of a column of dates (`fx_volatility_surface.py:108-111`).  The lookup drops dates outside the curve, and pandas then refuses the shorter column
(`ValueError`).  A rate that is `nan` is not modelled. -/
noncomputable def fxRatesAt (z : ZeroCurve) (dates : List Int) : Except Err (List ℝ) :=
  if (z.zeroRates .continuous dates).length ≠ dates.length then .error .value
  else
    match (z.zeroRates .continuous dates).mapM id with
    | none => .error .value
    | some rates => .ok rates

/-- A row of `vol_smile_pillar_df` (`fx_volatility_surface.py:126-131`).  The forward is `nan` only when all forwards of the table are; it is 0 here, which is refused by the same assertion (`garman_kohlhagen.py:263`). -/
structure FxPillar where
  row : FxRow
  expiry : Int
  years : ℝ
  fwd : ℝ
  rd : ℝ
  rf : ℝ
  conv : ConventionRow
  vols : List (Option Rat)

/-- The quotes of one row, in the order of the smile (`fx_volatility_surface.py:130-131`). -/
def quotesOfRow (t : QuoteTable) (names : List Str) (i : Nat) : Except Err (List (Option Rat)) :=
  names.mapM (fun n =>
    match (t.lookup n).bind (fun c => c[i]?) with
    | some v => .ok v
    | none => .error .key)

/-- The rows that are sorted by `fx_term_structure_helper` (`fx_volatility_surface.py:116-123`), with the warnings of `check_delta_convention`.  Without a column `delta_convention`, `KeyError`. -/
def volRows (pair : Str) (cal : BusCal) (curveDate spotOffset : Int) (t : VolTable) (quotes : QuoteTable) (names : List Str) :
    Except Err (List FxRow × List VolRow) := do
  match t.conventions with
  | none => .error .key
  | some conventions =>
    let rows ← fxTableDates cal curveDate spotOffset t.hasTenor t.rows
    let vols ← (List.range rows.length).mapM (quotesOfRow quotes names)
    pure (rows, (rows.zip (conventions.zip vols)).map (fun p => ⟨p.1, checkDeltaConvention pair ⟨p.2.1, []⟩, p.2.2⟩))

/-- `_add_fx_ir_to_df` and the year fractions of the pillars (`fx_volatility_surface.py:104-112`, 124-131).  An expiry that is missing is refused, at the latest by `merge_asof` (line 150); which exception it is is not modelled. -/
noncomputable def fxPillars (forward : List FxRow) (zd zf : ZeroCurve) (basis : DayCountBasis) (curveDate : Int) (rows : List VolRow) :
    Except Err (List FxPillar) :=
  match rows.mapM (fun r => r.row.rateSet) with
  | none => .error .value
  | some expiries => do
    let years ← yearFrac [curveDate] expiries basis none
    let fwds ← fxForwardsAt forward expiries
    let rds ← fxRatesAt zd expiries
    let rfs ← fxRatesAt zf expiries
    pure ((rows.zip (expiries.zip (years.zip (fwds.zip (rds.zip rfs))))).map (fun p =>
      ⟨p.1.row, p.2.1, (p.2.2.1 : ℝ), ((p.2.2.2.1.getD 0 : Rat) : ℝ), p.2.2.2.2.1, p.2.2.2.2.2, p.1.conv, p.1.vols⟩))

/-- `delta_convention in {…}` (`garman_kohlhagen.py:251-254`). -/
def parseConvention (s : Str) : Option DeltaConvention :=
  if s = "regular_spot".toList then some .regularSpot
  else if s = "regular_forward".toList then some .regularForward
  else if s = "premium_adjusted_spot".toList then some .adjustedSpot
  else if s = "premium_adjusted_forward".toList then some .adjustedForward
  else none

/-- What the daily table reads of a pillar (`fx_volatility_surface.py:145-164`).  The convention is only copied there. -/
noncomputable def FxPillar.smile (p : FxPillar) : SmilePillar :=
  ⟨p.expiry, p.years, (parseConvention p.conv.convention).getD .regularSpot, p.vols.map (fun v => v.map (fun (v : Rat) => (v : ℝ)))⟩

/-- The year fraction, forward and zero rates of one day (`fx_volatility_surface.py:140`, 174).  The code computes whole columns; of these only the year
fraction depends on the other days asked for (`year_frac` takes the last day of the column, `max_expiry` of line 136, for the termination date).  Days
outside the curves do not occur, because the first and last expiry have been looked up before. -/
noncomputable def fxCurvesOf (forward : List FxRow) (zd zf : ZeroCurve) (basis : DayCountBasis) (curveDate last : Int) : FxCurves where
  years d := match yearFrac [curveDate] [d] basis (some [decide (d = last)]) with
    | .ok [y] => (y : ℝ)
    | _ => 0
  fwd d := match fxForwardsAt forward [d] with
    | .ok [some v] => (v : ℝ)
    | _ => 0
  rd d := match fxRatesAt zd [d] with
    | .ok [r] => r
    | _ => 0
  rf d := match fxRatesAt zf [d] with
    | .ok [r] => r
    | _ => 0

/-- A number that may be `nan`, for a function that asserts it to be positive: 0 fails the assertion as `nan` does (`garman_kohlhagen.py:245-247`). -/
noncomputable def nanReal (v : Option Rat) : ℝ := ((v.getD 0 : Rat) : ℝ)

/-- The strikes of one pillar (`fx_volatility_surface.py:184-194`).  A spot rate, volatility or signed delta that is `nan`, or another convention, fails an assertion. -/
noncomputable def pillarStrikes (solve : (ℝ → ℝ) → DeltaQuote → Except Err ℝ) (spot : Option Rat) (smile : List SmileQuote) (p : FxPillar) :
    Except Err (List (Option ℝ)) :=
  match parseConvention p.conv.convention, smile.mapM (fun q => q.signedDelta) with
  | some conv, some deltas =>
    gkStrikeFromDelta solve ⟨nanReal spot, p.years, p.rd, p.rf, some p.fwd⟩ conv .forward
      ((p.vols.zip deltas).map (fun q => ⟨nanReal q.1, (q.2 : ℝ)⟩))
  | _, _ => .error .assertion

/-- The attributes set by the constructor (`fx_volatility_surface.py:57-65`, 101), and the caller's two tables as it leaves them. -/
structure FxBuilt where
  pair : Str
  curveDate : Int
  spotOffset : Int
  spotDate : Int
  spot : Option Rat
  smile : List SmileQuote
  forward : List FxRow
  pillars : List FxPillar
  daily : List SmileDay
  strikes : List (List (Option ℝ))
  callerForward : FxTable
  callerQuotes : VolTable

/-- `FXVolatilitySurface(...)` (`fx_volatility_surface.py:68-101`). -/
noncomputable def makeFxSurface (sorts : FxSorts) (solve : (ℝ → ℝ) → DeltaQuote → Except Err ℝ) (x : FxInputs) : Except Err FxBuilt := do
  let names ← validateCcyPair (x.foreign ++ x.domestic)
  let dates ← resolveFxCurveDates names.1 x.cal x.curveDate x.spotOffset x.spotDate
  pyAssert (decide (dates.1 = x.domesticCurve.curveDate))
  pyAssert (decide (dates.1 = x.foreignCurve.curveDate))
  let forwardRows ← fxForwardTable x.cal dates.1 dates.2.1 x.forward
  let forward := sorts.forward forwardRows
  let spot ← fxSpotRate forward
  let quotes ← solveCallPut (cleanVolQuotesColumnNames x.quotes.quotes)
  let smile ← getDeltaSmileQuoteDetails sorts.smile (quotes.map (·.1))
  let rows ← volRows names.1 x.cal dates.1 dates.2.1 x.quotes quotes (smile.map (·.name))
  let pillars ← fxPillars forward x.domesticCurve x.foreignCurve x.basis dates.1 (sorts.pillars rows.2)
  let daily ← smileDaily (fxCurvesOf forward x.domesticCurve x.foreignCurve x.basis dates.1 ((pillars.map (·.expiry)).max?.getD dates.1))
    (pillars.map (·.smile))
  let strikes ← pillars.mapM (pillarStrikes solve spot smile)
  pure ⟨names.1, dates.1, dates.2.1, dates.2.2, spot, smile, forward, pillars, daily, strikes,
    ⟨x.forward.hasRate, x.forward.hasTenor, forwardRows⟩, ⟨x.quotes.hasTenor, rows.1, x.quotes.conventions, quotes⟩⟩

/-- The attributes that queries read (`fx_volatility_surface.py:198-373`).  A delta or flag that is `nan` would be 0 here; without a delta the
constructor fails (lines 184-194). -/
noncomputable def FxBuilt.surface (b : FxBuilt) (m : SmileMethod) : FxSurface where
  spot := nanReal b.spot
  deltas := b.smile.map (fun q => ((q.signedDelta.getD 0 : Rat) : ℝ))
  flags := b.smile.map (fun q => ((q.flag.getD 0 : Int) : ℝ))
  daily := b.daily
  method := m

end Frm
