import Verif.Model.Err
import Verif.Model.Normal
import Mathlib.Data.Finset.Sort
import Mathlib.Analysis.SpecialFunctions.Trigonometric.Basic

/-!
# Densities and distribution functions from a characteristic function

`frm/pricing_engine/cosine_method_generic.py:9-73`.  Real numbers in place of floats, so `np.arange` has exactly
`⌈(b + dt - a) / dt⌉` points.  The characteristic function is a function of one real argument, applied to each frequency in turn.
-/

namespace Frm
open Classical

set_option autoImplicit false

/-- `np.arange(a, b + dt, dt)`.  For `frm/pricing_engine/cosine_method_generic.py:53`. -/
noncomputable def cosGrid (a b dt : ℝ) : List ℝ := (List.range ⌈(b + dt - a) / dt⌉₊).map fun i : ℕ => a + (i : ℝ) * dt

/-- `pts`: the grid and `p`, sorted, without repetitions.  `frm/pricing_engine/cosine_method_generic.py:53`. -/
noncomputable def cosPoints (p a b dt : ℝ) : List ℝ := (p :: cosGrid a b dt).toFinset.sort (· ≤ ·)

/-- `np.diff`.  For `frm/pricing_engine/cosine_method_generic.py:54`. -/
def npDiff : List ℝ → List ℝ
  | x :: y :: l => (y - x) :: npDiff (y :: l)
  | _ => []

/-- `np.cumsum`.  For `frm/pricing_engine/cosine_method_generic.py:70`. -/
def npCumsum : List ℝ → List ℝ
  | [] => []
  | x :: l => x :: (npCumsum l).map (x + ·)

/-- `Fk`, at one index.  `frm/pricing_engine/cosine_method_generic.py:59`. -/
noncomputable def cosCoefficient (cf : ℝ → ℂ) (a b : ℝ) (k : ℕ) : ℝ :=
  2 / (b - a) * (cf (k * Real.pi / (b - a)) * Complex.exp (-1 * Complex.I * k * Real.pi * a / (b - a))).re

/-- `w`, at one index.  `frm/pricing_engine/cosine_method_generic.py:57`. -/
noncomputable def cosWeight (k : ℕ) : ℝ := if k = 0 then 0.5 else 1

/-- `PDF_pts`, at one point.  `frm/pricing_engine/cosine_method_generic.py:55-64`. -/
noncomputable def cosDensity (cf : ℝ → ℂ) (a b : ℝ) (N : ℕ) (x : ℝ) : ℝ :=
  ((List.range (N + 1)).map fun k => cosWeight k * (cosCoefficient cf a b k * Real.cos (k * Real.pi * (x - a) / (b - a)))).sum

/-- What `cos_method` returns.  `frm/pricing_engine/cosine_method_generic.py:73`. -/
structure CosResult where
  cdfAtP : ℝ
  cdf : List ℝ
  pdf : List ℝ
  integral : ℝ
  pts : List ℝ

/-- `cos_method(p, cf, dt, a, b, N)`.  `np.ones(N)` refuses a negative `N`.  `frm/pricing_engine/cosine_method_generic.py:9-73`. -/
noncomputable def cosMethod (p : ℝ) (cf : ℝ → ℂ) (dt a b : ℝ) (N : ℤ) : Except Err CosResult :=
  if ¬ (0 < dt ∧ a + dt ≤ b ∧ a ≤ p ∧ p ≤ b) then .error .assertion else
  if N < 0 then .error .value else
  let pts := cosPoints p a b dt
  let dtPts := npDiff pts ++ [dt]
  let pdf := pts.map (cosDensity cf a b N.toNat)
  let cells := List.zipWith (· * ·) pdf dtPts
  if cells.sum < normCdf 5 then .error .value else
  let cdf := npCumsum cells
  match cdf[pts.idxOf p]? with
  | none => .error .index
  | some c => .ok { cdfAtP := c, cdf := cdf, pdf := pdf, integral := cells.sum, pts := pts }

end Frm
