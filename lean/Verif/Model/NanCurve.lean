import Verif.Model.SplineCurve

/-!
# `frm/term_structures/zero_curve.py`: spline curves through a missing zero rate

A discount factor quoted at time 0 has the zero rate `-log(v) / 0`, which is not a number.  With `CUBIC_SPLINE_ON_CCZR` it is one of the
points of the spline; FITPACK does not look whether its values are numbers, and one that is not spreads to all the coefficients.
-/

namespace Frm

set_option autoImplicit false

/-- A curve whose daily zero rates and discount factors are all `nan`: only its dates are left (`zero_curve.py:153-191`). -/
structure NanCurve where
  curveDate : Int
  pillars : List PillarRow
  dates : List Int

/-- `ZeroCurve(..., interp_method=CUBIC_SPLINE_...)` (`zero_curve.py:33-191`), the tables `makeSplineCurve` leaves out included.  `splrep` has the
same demands on the times: `TypeError` for fewer than four, `ValueError` unless they increase. -/
noncomputable def makeSplineOrNan (spl : List (ℝ × ℝ) → ℝ → ℝ) (curveDate : Int) (c : PillarColumns) (freq : Option CompoundingFreq)
    (basis : DayCountBasis) (cal : BusCal) (m : SplineMethod) : Except Err (SplineCurve ⊕ NanCurve) := do
  let rows ← splineRows cal basis curveDate freq c
  let pillars ← splinePillars curveDate rows
  match splinePoints m rows with
  | some _ => (makeSplineCurve spl curveDate c freq basis cal m).map .inl
  | none => do
    let _ ← splrep spl (rows.map (fun r => (r.years, 0)))
    let last ← lastDay basis curveDate pillars
    let _ ← yearFrac [curveDate] (dateRange curveDate last) basis none
    pure (.inr ⟨curveDate, pillars, dateRange curveDate last⟩)

/-- `get_discount_factors(dates)` and `get_zero_rates(f, dates)` of such a curve (`zero_curve.py:295-318`, 351-394): `nan` for every date of
the table. -/
def NanCurve.lookup (n : NanCurve) (dates : List Int) : List (Option ℝ) :=
  (dates.filter (fun d => !natGt n.dates.min? (some d) && !natGt (some d) n.dates.max?)).map (fun _ => none)

end Frm
