import Verif.Model.NpReal
import Verif.Model.Err

/-!
# `frm/pricing_engine/volatility_generic.py`

Vectors of inputs are lists of rows, one row per element (numpy would raise on lengths that do not fit).
-/

namespace Frm
open Classical

set_option autoImplicit false

/-- One element of the arguments `t1`, `vol_t1`, `t2`, `vol_t2`.
For `frm/pricing_engine/volatility_generic.py:10-13`. -/
structure VolPair where
  t1 : ℝ
  vol1 : ℝ
  t2 : ℝ
  vol2 : ℝ

/-- `var_t1_t2` (`volatility_generic.py:45`). -/
noncomputable def forwardVariance (r : VolPair) : Npf :=
  Npf.divide (r.vol2 ^ 2 * r.t2 - r.vol1 ^ 2 * r.t1) (r.t2 - r.t1)

/-- `forward_volatility` on arrays (`volatility_generic.py:10-49`).  The second check is an `elif`: it is skipped when some
`tau` is zero.  The warning is not modelled. -/
noncomputable def forwardVolatility (rows : List VolPair) : Except Err (List Npf) :=
  if (¬ ∃ r ∈ rows, r.t2 - r.t1 = 0) ∧ ∃ r ∈ rows, r.t2 - r.t1 < 0 then .error .value
  else if ∃ r ∈ rows, (forwardVariance r).isNeg then .error .value
  else .ok (rows.map (fun r => (forwardVariance r).sqrt))

/-- `forward_volatility` on floats: `t1[mask]` in the text of the warning (line 41) raises `TypeError`.
For `frm/pricing_engine/volatility_generic.py:38-49`. -/
noncomputable def forwardVolatilityScalar (r : VolPair) : Except Err Npf :=
  if r.t2 - r.t1 = 0 then .error .type
  else if r.t2 - r.t1 < 0 then .error .value
  else if (forwardVariance r).isNeg then .error .value
  else .ok (forwardVariance r).sqrt

/-- One element of the arguments of `flat_forward_interp`.  For `frm/pricing_engine/volatility_generic.py:52-56`. -/
structure InterpRow extends VolPair where
  t : ℝ

/-- `vol_t12[mask] = values`: the values in order at the places of the mask, zeros elsewhere
(`volatility_generic.py:74-76`). -/
noncomputable def scatterVols : List InterpRow → List Npf → List Npf
  | [], _ => []
  | r :: rows, vs =>
    if r.t1 ≠ r.t2 then
      match vs with
      | v :: rest => v :: scatterVols rows rest
      | [] => []
    else .fin 0 :: scatterVols rows vs

/-- The last line of `flat_forward_interp` (`volatility_generic.py:77`) for one element.  `vol_t12` is finite wherever it
comes from `forward_volatility`, because `t1 ≠ t2` there. -/
noncomputable def flatForwardValue (r : InterpRow) (v12 : Npf) : Npf :=
  match v12 with
  | .fin v => (Npf.divide (r.vol1 ^ 2 * r.t1 + v ^ 2 * (r.t - r.t1)) r.t).sqrt
  | _ => .nan

/-- `flat_forward_interp` (`volatility_generic.py:52-77`), on arrays. -/
noncomputable def flatForwardInterp (rows : List InterpRow) : Except Err (List Npf) := do
  let v12 ← forwardVolatility ((rows.filter (fun r => r.t1 ≠ r.t2)).map (·.toVolPair))
  pure (List.zipWith flatForwardValue rows (scatterVols rows v12))

end Frm
