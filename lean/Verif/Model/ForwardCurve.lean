import Verif.Model.MonteCarlo
import Verif.Model.ZeroCurve

/-!
# The forward curve of the Clewlow–Strickland simulation (`frm/pricing_engine/clewlow_strickland_1_factor.py:52-67`)

`csSimulate` takes the forward prices at the steps; here they are interpolated from the caller's table, as in the code.  Times and
prices are real numbers; the logarithm of a price that is not positive (`nan` in the code) means nothing.
-/

namespace Frm

set_option autoImplicit false

/-- The rows of the forward curve in order of time: `interp1d` sorts them (`clewlow_strickland_1_factor.py:64`). -/
noncomputable def csPoints (curve : List (ℝ × ℝ)) : List (ℝ × ℝ) := curve.insertionSort (fun a b => a.1 ≤ b.1)

/-- `tau` (`clewlow_strickland_1_factor.py:59-62`). -/
noncomputable def csTimes (segments steps : Nat) : List ℝ := (List.range (steps + 1)).map (fun i : Nat => (i : ℝ) * (1 / (segments : ℝ)))

/-- `interp1d(...)(tau)` (`clewlow_strickland_1_factor.py:64-65`): `ValueError` without rows, or when a time lies outside the table. -/
noncomputable def csForwards (curve : List (ℝ × ℝ)) (times : List ℝ) : Except Err (List ℝ) :=
  match (csPoints curve).head?, (csPoints curve).getLast? with
  | some lo, some hi =>
    if ∀ t ∈ times, lo.1 ≤ t ∧ t ≤ hi.1 then .ok (times.map (fun t => npInterp t (csPoints curve))) else .error .value
  | _, _ => .error .value

/-- `clewlow_strickland_1_factor_simulate(forward_curve, ...)` (`clewlow_strickland_1_factor.py:52-102`): the division by
`segments_per_day` comes first, then the interpolation. -/
noncomputable def csSimulateCurve (gen : Generator) (curve : List (ℝ × ℝ)) (sims segments horizon : Nat) (a sigma : ℝ) : Except Err Grid :=
  if segments = 0 then .error .zeroDiv
  else
    match csForwards curve (csTimes segments (horizon * segments)) with
    | .error e => .error e
    | .ok prices => csSimulate gen (fun i => prices.getD i 0) sims segments horizon a sigma

end Frm
