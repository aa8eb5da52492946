import Verif.Model.SplineCurve

/-!
# Specification: the curve objects the library makes
-/

namespace Frm.Spec

set_option autoImplicit false

/-- The curve `ZeroCurve(...)` makes for a curve date, a day count basis and a calendar, by any of the three interpolation methods:
what lookups by date, forward rates, legs and swap curves use of it. -/
inductive IsCurve (cd : Int) (basis : DayCountBasis) (cal : BusCal) : ZeroCurve → Prop where
  | linear {c : PillarColumns} {freq : Option CompoundingFreq} {z : ZeroCurve}
      (h : makeZeroCurve cd c freq basis cal = .ok z) : IsCurve cd basis cal z
  | spline {spl : List (ℝ × ℝ) → ℝ → ℝ} {c : PillarColumns} {freq : Option CompoundingFreq} {m : SplineMethod} {z : SplineCurve}
      (h : makeSplineCurve spl cd c freq basis cal m = .ok z) : IsCurve cd basis cal z.base

end Frm.Spec
