import Verif.Model.Bootstrap

/-!
# Tables of cash quotes as `cash_rates_quote_helper` finds and leaves them

`frm/term_structures/bootstrap_helpers.py:11-72`.  The helper works on the caller's table, so the table is a state that is
kept when a statement raises.  Dates in a column are never missing.
-/

namespace Frm

set_option autoImplicit false

/-- The columns the two functions use; `none` is a column that is not there, and in `tenor` a cell that is not a text.
For `frm/term_structures/bootstrap_helpers.py:19-37`. -/
structure CashTable where
  tenor : Option (List (Option Str)) := none
  rate : Option (List ℝ) := none
  effective : Option (List Int) := none
  maturity : Option (List Int) := none
  delayed : Option (List Bool) := none
  period : Option (List ℝ) := none

/-- `df[name]`: `KeyError` for a column that is not there.  For `frm/term_structures/bootstrap_helpers.py:22`. -/
def cashColumn {α : Type} : Option (List α) → Except Err (List α)
  | some l => .ok l
  | none => .error .key

/-- `clean_tenor` on one cell (`bootstrap_helpers.py:22`): `TypeError` unless it is a text. -/
def cashTenor : Option Str → Except Err Str
  | some t => .ok (cleanTenor t)
  | none => .error .type

/-- The assertions and the cleaned tenors (`bootstrap_helpers.py:19-22`). -/
def cashTenors (t : CashTable) : Except Err (List Str) :=
  if t.rate.isNone then .error .assertion
  else if t.tenor.isNone && !(t.effective.isSome && t.maturity.isSome) then .error .assertion
  else do (← cashColumn t.tenor).mapM cashTenor

/-- The settlement date (`bootstrap_helpers.py:24-26`).  `cal = none` is the default, the class `np.busdaycalendar` itself,
which `np.busday_offset` refuses with `TypeError`. -/
def cashTableSettlement (cal : Option BusCal) (curveDate : Int) (settlementDelay settlementDate : Option Int) : Except Err Int :=
  match settlementDate, settlementDelay, cal with
  | some d, _, _ => .ok d
  | none, none, _ => .error .assertion
  | none, some _, none => .error .type
  | none, some n, some c => .ok (workday c curveDate n)

/-- The column `maturity_date` (`bootstrap_helpers.py:33-35`). -/
def cashMaturities (cal : Option BusCal) (own : Option (List Int)) (effective : List Int) (tenors : List Str) :
    Except Err (List Int) :=
  match own with
  | some m => .ok m
  | none => do
    let offsets ← tenors.mapM tenorToDateOffset
    match cal with
    | none => .error .type
    | some c => .ok (List.zipWith (fun e (o : DateOffset) => workday c (o.addTo e) 0) effective offsets)

/-- `cash_rates_quote_helper` (`bootstrap_helpers.py:11-39`) on the caller's table: the table afterwards, and whether the call
returned it. -/
noncomputable def cashTableHelper (t : CashTable) (curveDate : Int) (basis : DayCountBasis)
    (settlementDelay settlementDate : Option Int) (cal : Option BusCal) : CashTable × Except Err Unit :=
  match cashTenors t with
  | .error e => (t, .error e)
  | .ok tenors =>
    let t1 := { t with tenor := some (tenors.map some) }
    match cashTableSettlement cal curveDate settlementDelay settlementDate with
    | .error e => (t1, .error e)
    | .ok sd =>
      let delayed := tenors.map (fun s => decide (s ≠ "on".toList))
      let effective := t.effective.getD (delayed.map (fun d => if d then sd else curveDate))
      let t2 := { t1 with
        delayed := if t.effective.isSome then t.delayed else some delayed
        effective := some effective }
      match cashMaturities cal t.maturity effective tenors with
      | .error e => (t2, .error e)
      | .ok maturity =>
        let t3 := { t2 with maturity := some maturity }
        match yearFrac effective maturity basis none with
        | .error e => (t3, .error e)
        | .ok years => ({ t3 with period := some (years.map (fun (y : Rat) => (y : ℝ))) }, .ok ())

/-- `bootstrap_cash_rates` (`bootstrap_helpers.py:41-70`) on the caller's table.  Simplification: the columns that the loop reads
(lines 55-67) are looked up even when there are no rows. -/
noncomputable def cashTableBootstrap (sort : List CashRow → List CashRow) (t : CashTable) (curveDate : Int)
    (basisYears : DayCountBasis) : Except Err (List CashRow) := do
  let effective ← cashColumn t.effective
  let effYears ← yearFrac [curveDate] effective basisYears none
  let maturity ← cashColumn t.maturity
  let matYears ← yearFrac [curveDate] maturity basisYears none
  let delayed ← cashColumn t.delayed
  let rate ← cashColumn t.rate
  let period ← cashColumn t.period
  let quotes := ((effective.zip maturity).zip (rate.zip (period.zip delayed))).map (fun p =>
    ({ effective := p.1.1, maturity := p.1.2, rate := p.2.1, periodYears := p.2.2.1, hasSettlementDelay := p.2.2.2 } : CashQuote))
  bootstrapCashLoop [] (sort ((quotes.zip (effYears.zip matYears)).map (fun p =>
    ({ quote := p.1, effectiveYears := p.2.1, maturityYears := p.2.2 } : CashRow))))

/-- The columns of rates that `bootstrap_futures` leaves in the caller's table of futures (`bootstrap_helpers.py:81-86`), here in the
order of the rows before the table is sorted. -/
noncomputable def futuresLeft (c : FuturesColumns) : Except Err FuturesColumns := do
  let fut ← futuresRates c
  let conv ← convexities c
  let fwd ← forwardColumn c
  pure { c with futuresRate := some fut, convexityBps := some conv, forwardRate := some fwd }

end Frm
