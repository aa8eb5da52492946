import Verif.Model.Hw1f

/-!
# `frm/pricing_engine/hw1f2.py` and `hw1f3.py`: the working copies of the Hull–White model

Both modules simulate the state `x(t) = r(t) - f(0,t)` and price one bond option when imported; their functions are below.  Their class
`HullWhite1Factor2` (lines 197 and 244) has, but for its name, the text of `HullWhite1Factor` in `hw1f.py`, so that it has the model of
`Verif/Model/Hw1f.lean` and `Verif/Model/HwSetup.lean`.  Arguments are numpy values, so that a division of zero by zero is `nan`, here `none`.
The global settings of the script are arguments here; there is one path, one option expiry and one bond maturity.
-/

namespace Frm
open Classical

set_option autoImplicit false

/-- `y_integral` (`hw1f2.py:65-68`, `hw1f3.py:70-79`).  A mean reversion of zero gives `nan`: the difference of the exponentials is zero. -/
noncomputable def scriptYIntegral (t0 t vol k : ℝ) : Option ℝ :=
  if k = 0 then none else some ((vol * vol) / (2 * k) * (Real.exp (2 * k * t) - Real.exp (2 * k * t0)))

/-- `y_t` (`hw1f2.py:76`, `hw1f3.py:83`), at one time. -/
noncomputable def scriptY (t vol k : ℝ) : Option ℝ := (scriptYIntegral 0 t vol k).map (fun y => Real.exp (-2 * k * t) * y)

/-- `ex_integral` (`hw1f2.py:79-85`, `hw1f3.py:86-120`). -/
noncomputable def scriptExIntegral (t0 t vol k y0 : ℝ) : Option ℝ :=
  if k = 0 then none
  else
    let value := Real.exp (k * t) - Real.exp (k * t0) + Real.exp (2 * k * t0) * (Real.exp (-k * t) - Real.exp (-k * t0))
    some (value * vol ^ 2 / (2 * k * k) + y0 * (Real.exp (-k * t0) - Real.exp (-k * t)) / k)

/-- `variance_int` (`hw1f2.py:94-96`, `hw1f3.py:129-131`). -/
noncomputable def scriptVarianceInt (t0 t vol k : ℝ) : Option ℝ :=
  if k = 0 then none else some (vol * vol / (2 * k) * (Real.exp (2 * k * t) - Real.exp (2 * k * t0)))

/-- `(a[1:] - a[:-1]) * w[1:]` (`hw1f2.py:91`, 102), for `a` and `w` with `n` entries. -/
noncomputable def scriptDifferences (n : Nat) (a : Nat → Option ℝ) (w : Nat → ℝ) : List (Option ℝ) :=
  (List.range (n - 1)).map (fun i => do
    let y ← a (i + 1)
    let x ← a i
    pure ((y - x) * w (i + 1)))

/-- Shapes that numpy broadcasts against the times (`hw1f2.py:90-91`, 101-102).  Simplification: with one time and more volatilities numpy
may return an empty array; here this is refused. -/
def scriptShapes (t mr sigma : List ℝ) : Prop :=
  (mr.length = t.length ∨ mr.length = 1) ∧ (sigma.length = t.length ∨ sigma.length = 1)

/-- `conditional_mean_x_scalar` (`hw1f2.py:87-92`, `hw1f3.py:122-127`). -/
noncomputable def conditionalMeanX (t mr sigma : List ℝ) : Except Err (List (Option ℝ)) :=
  if ¬ scriptShapes t mr sigma then .error .value
  else .ok (scriptDifferences t.length
    (fun i => scriptExIntegral 0 (t.getD i 0) (bcastAt sigma i) (bcastAt mr i) 0)
    (fun i => Real.exp (-bcastAt mr i * t.getD i 0)))

/-- `conditional_variance_x_scalar` (`hw1f2.py:98-103`, `hw1f3.py:133-138`). -/
noncomputable def conditionalVarianceX (t mr sigma : List ℝ) : Except Err (List (Option ℝ)) :=
  if ¬ scriptShapes t mr sigma then .error .value
  else .ok (scriptDifferences t.length
    (fun i => scriptVarianceInt 0 (t.getD i 0) (bcastAt sigma i) (bcastAt mr i))
    (fun i => Real.exp (-2 * bcastAt mr i * t.getD i 0)))

/-- One step of the state (`hw1f2.py:141-147`): line 143 changes nothing. -/
noncomputable def scriptStep (k dt x mean var z : ℝ) : ℝ := Real.exp (-k * dt) * x + mean + Real.sqrt (max var 0) * z

/-- The state along one path (`hw1f2.py:122`, 138-151), from zero: `mean` and `var` are the conditional moments, `z` the draws. -/
noncomputable def scriptPath (grid : Nat → ℝ) (k : Nat → ℝ) (mean var z : Nat → ℝ) : Nat → ℝ
  | 0 => 0
  | i + 1 => scriptStep (k (i + 1)) (grid (i + 1) - grid i) (scriptPath grid k mean var z i) (mean i) (var i) (z i)

/-- The state along one path, with the conditional moments of `conditional_mean_x_scalar` and `conditional_variance_x_scalar`
(`hw1f2.py:107-151`): the path at the times of the grid; a `nan` moment is zero here. -/
noncomputable def scriptSimulate (grid mr sigma : List ℝ) (z : Nat → ℝ) : Except Err (List ℝ) := do
  let mean ← conditionalMeanX grid mr sigma
  let var ← conditionalVarianceX grid mr sigma
  pure ((List.range grid.length).map
    (scriptPath (fun i => grid.getD i 0) (bcastAt mr) (fun i => (mean.getD i none).getD 0) (fun i => (var.getD i none).getD 0) z))

/-- `p_t_tau` (`hw1f2.py:171-178`): the bond maturing `tau` after `t`, for the state `x`; `none` is `nan`. -/
noncomputable def scriptBond (discount : ℝ → ℝ) (t tau x vol k : ℝ) : Option ℝ := do
  let y ← scriptY t vol k
  let g := (1 - Real.exp (-k * tau)) / k
  pure (discount (t + tau) / discount t * Real.exp (-(x * g) - 0.5 * (y * g ^ 2)))

/-- `cumulative_discount_factors[-1]` (`hw1f2.py:185-187`), for the rates at the ends of the periods; `dt_` has a zero for its first period. -/
noncomputable def scriptDiscount (rates dt : List ℝ) : ℝ :=
  ((List.zipWith (fun r d => Real.exp (-r * d)) rates (0 :: dt.tail))).prod

/-- `bond_option_prices` (`hw1f2.py:189`), on one path. -/
noncomputable def scriptPayoff (cp bond strike df : ℝ) : ℝ := cp * max (cp * (bond - strike)) 0 * df

end Frm
