import Mathlib.MeasureTheory.Integral.Bochner.Set
import Mathlib.MeasureTheory.Measure.Lebesgue.Basic
import Mathlib.Analysis.SpecialFunctions.Exp
import Mathlib.Analysis.Real.Pi.Bounds

/-!
# `scipy.stats.norm`

The density and the distribution function of the standard normal distribution, exactly.
-/

namespace Frm

set_option autoImplicit false

/-- `norm.pdf(x)`.  For `frm/pricing_engine/garman_kohlhagen.py:120`. -/
noncomputable def normPdf (x : ℝ) : ℝ := Real.exp (-x ^ 2 / 2) / Real.sqrt (2 * Real.pi)

/-- `norm.cdf(x)`.  For `frm/pricing_engine/garman_kohlhagen.py:98`. -/
noncomputable def normCdf (x : ℝ) : ℝ := ∫ t in Set.Iic x, normPdf t

end Frm
