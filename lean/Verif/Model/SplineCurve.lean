import Mathlib.Analysis.Calculus.Deriv.Basic
import Mathlib.MeasureTheory.Integral.IntervalIntegral.Basic
import Verif.Model.ZeroCurve

/-!
# `frm/term_structures/zero_curve.py`: the two cubic-spline methods

FITPACK (`scipy.interpolate.splrep`, `splev`) is a parameter: `spl points` is the interpolating spline through the points.  Floats
are real numbers.
-/

namespace Frm
open Classical

set_option autoImplicit false

/-- `ZeroCurveInterpMethod.CUBIC_SPLINE_ON_LN_DISCOUNT` and `CUBIC_SPLINE_ON_CCZR` (`frm/enums/utils.py:12-15`). -/
inductive SplineMethod where
  | lnDiscount | cczr
deriving DecidableEq, Repr

/-- A row of `pillar_df` (`zero_curve.py:86-97`); `cczr` is `none` where the code divides by zero years. -/
structure SplineRow where
  date : Option Int
  years : ℝ
  cczr : Option ℝ
  discountFactor : ℝ

/-- One row, from its time and its quote (`zero_curve.py:89-97`). -/
noncomputable def splineRow (freq : Option CompoundingFreq) (t : Option Int × ℝ) (zeroRate : Bool) (v : ℝ) : Except Err SplineRow :=
  match zeroRate, freq with
  | true, some f => .ok ⟨t.1, t.2, some (f.convertRateTo v .continuous), f.discountFactor t.2 v⟩
  | true, none => .error .value
  | false, _ => .ok ⟨t.1, t.2, if t.2 = 0 then none else some (-1 * Real.log v / t.2), v⟩

/-- The column of quotes, and whether they are zero rates.  For `frm/term_structures/zero_curve.py:89-97`. -/
def PillarY.column : PillarY → Bool × List ℝ
  | .zeroRate l => (true, l)
  | .discountFactor l => (false, l)

/-- The rows in order of time (`zero_curve.py:44-97`). -/
noncomputable def splineRows (cal : BusCal) (basis : DayCountBasis) (curveDate : Int) (freq : Option CompoundingFreq)
    (c : PillarColumns) : Except Err (List SplineRow) := do
  let xy ← chooseColumns c
  let times ← pillarTimes cal basis curveDate xy.1
  let rows ← (times.zip xy.2.column.2).mapM (fun p => splineRow freq p.1 xy.2.column.1 p.2)
  pure (rows.insertionSort (fun a b => a.years ≤ b.years))

/-- `splrep(x, y, k=3)`: `TypeError` for fewer than four points, `ValueError` unless the times increase.
For `frm/term_structures/zero_curve.py:118`. -/
noncomputable def splrep (spl : List (ℝ × ℝ) → ℝ → ℝ) (points : List (ℝ × ℝ)) : Except Err (ℝ → ℝ) :=
  if points.length ≤ 3 then .error .type
  else if points.Pairwise (fun p q => p.1 < q.1) then .ok (spl points)
  else .error .value

/-- The points the spline goes through (`zero_curve.py:114-124`, 134-142).  `none`: one of them is `nan`. -/
noncomputable def splinePoints (m : SplineMethod) (rows : List SplineRow) : Option (List (ℝ × ℝ)) :=
  match m with
  | .lnDiscount =>
    let quoted := rows.map (fun r => (r.years, Real.log r.discountFactor))
    match rows with
    | first :: _ => if first.years ≠ 0 then some ((0, 0) :: quoted) else some quoted
    | [] => some quoted
  | .cczr => rows.mapM (fun r => r.cczr.map (fun y => (r.years, y)))

/-- The pillars left by `_process_pillar_df` (`zero_curve.py:104-150`): preceded by one at time 0 unless there is one. -/
noncomputable def splinePillars (curveDate : Int) (rows : List SplineRow) : Except Err (List PillarRow) :=
  let quoted := rows.map (fun r => ({ date := r.date, years := r.years, discountFactor := r.discountFactor } : PillarRow))
  match rows with
  | [] => .error .index
  | first :: _ =>
    if first.years ≠ 0 then .ok ({ date := first.date.map (fun _ => curveDate), years := 0, discountFactor := 1 } :: quoted)
    else .ok quoted

/-- The column `cczr` of the pillars (`zero_curve.py:89-131`): the quoted ones, preceded by the rate at the added pillar, which for
`CUBIC_SPLINE_ON_LN_DISCOUNT` is the zero rate at a millionth of a year.  `none` is `nan`. -/
noncomputable def splineRates (m : SplineMethod) (spline : ℝ → ℝ) (rows : List SplineRow) : List (Option ℝ) :=
  match rows with
  | [] => []
  | first :: _ =>
    if first.years ≠ 0 then
      (match m with
        | .lnDiscount => some (-1 * spline 1e-6 / 1e-6)
        | .cczr => some (spline 0)) :: rows.map (·.cczr)
    else rows.map (·.cczr)

/-- A constructed curve (`zero_curve.py:20-42`): `base` holds the tables, `spline` is `cubic_spline_definition` and `rates` the column
`cczr` of the pillars. -/
structure SplineCurve where
  base : ZeroCurve
  method : SplineMethod
  spline : ℝ → ℝ
  rates : List (Option ℝ)

/-- Continuously compounded zero rate (`none`: `nan`) and discount factor at a time (`zero_curve.py:176-191`, 336-342). -/
noncomputable def splineAt (m : SplineMethod) (spline : ℝ → ℝ) (t : ℝ) : Option ℝ × ℝ :=
  match m with
  | .lnDiscount => (if t = 0 then none else some (-1 * spline t / t), Real.exp (spline t))
  | .cczr => (some (spline t), Real.exp (-1 * spline t * t))

/-- `_setup_daily_df` (`zero_curve.py:153-191`). -/
noncomputable def splineDaily (basis : DayCountBasis) (curveDate : Int) (pillars : List PillarRow) (m : SplineMethod)
    (spline : ℝ → ℝ) : Except Err (List DailyRow) := do
  let last ← lastDay basis curveDate pillars
  let dates := dateRange curveDate last
  let years ← yearFrac [curveDate] dates basis none
  pure ((dates.zip years).map (fun p =>
    { date := p.1, years := p.2, cczr := (splineAt m spline p.2).1, discountFactor := (splineAt m spline p.2).2 }))

/-- `ZeroCurve(..., interp_method=...)` (`zero_curve.py:33-191`).  A table for which the zero rates are not numbers
(a discount factor quoted at time 0, with `CUBIC_SPLINE_ON_CCZR`) gives a curve of `nan`s in the code and an error here: see
`makeSplineOrNan`. -/
noncomputable def makeSplineCurve (spl : List (ℝ × ℝ) → ℝ → ℝ) (curveDate : Int) (c : PillarColumns)
    (freq : Option CompoundingFreq) (basis : DayCountBasis) (cal : BusCal) (m : SplineMethod) : Except Err SplineCurve := do
  let rows ← splineRows cal basis curveDate freq c
  let pillars ← splinePillars curveDate rows
  match splinePoints m rows with
  | none => .error .runtime
  | some points => do
    let spline ← splrep spl points
    let daily ← splineDaily basis curveDate pillars m spline
    pure ⟨{ curveDate, basis, cal, pillars, daily }, m, spline, splineRates m spline rows⟩

/-- `get_discount_factors(years=t)` (`zero_curve.py:295-302`, 331-347). -/
noncomputable def SplineCurve.discountFactorAt (z : SplineCurve) (t : ℝ) : ℝ := (splineAt z.method z.spline t).2

/-- `get_zero_rates(f, years=t)` (`zero_curve.py:305-318`, 331-347). -/
noncomputable def SplineCurve.zeroRateAt (z : SplineCurve) (f : CompoundingFreq) (t : ℝ) : Option ℝ :=
  if f = .continuous then (splineAt z.method z.spline t).1
  else if t = 0 then none else some (f.zeroRate t (z.discountFactorAt t))

/-- `get_instantaneous_forward_rate(t)` (`zero_curve.py:285-292`); `splev(..., der=1)` is the derivative. -/
noncomputable def SplineCurve.instantaneousForward (z : SplineCurve) (t : ℝ) : Option ℝ :=
  match z.method with
  | .cczr => (z.zeroRateAt .continuous t).map (· + t * deriv z.spline t)
  | .lnDiscount => some (-deriv z.spline t)

/-- `get_instantaneous_forward_rate(t)` of a curve with linear interpolation (`zero_curve.py:285-292`): neither branch is taken and
`None` is returned. -/
def ZeroCurve.instantaneousForward (_ : ZeroCurve) (_ : ℝ) : Option ℝ := none

/-- `get_forward_rate_by_integration(t, T)` (`hw1f.py:148-150`, `hw1f2.py:318-320`, `hw1f3.py:365-367`): the integral of the instantaneous
forward rates; the quadrature of SciPy is taken to be exact. -/
noncomputable def SplineCurve.integratedForward (z : SplineCurve) (t T : ℝ) : ℝ := ∫ s in t..T, (z.instantaneousForward s).getD 0

end Frm
