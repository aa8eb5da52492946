import Verif.Model.Err
import Verif.Model.NpReal
import Mathlib.Analysis.SpecialFunctions.Log.Basic

/-!
# The closed-form normal volatility

`frm/pricing_engine/black76_bachelier.py:333-376`, for Python floats.  `F / K` with `K = 0.0` raises `ZeroDivisionError`; the logarithm of a negative
number is `nan`, and with `F = 0` the product `0 * inf` is `nan`.
-/

namespace Frm

set_option autoImplicit false

/-- `black76_sln_to_normal_vol_analytical(F, tau, K, vol_sln, ln_shift)`.  `frm/pricing_engine/black76_bachelier.py:333-376`. -/
noncomputable def slnToNormalAnalytical (F tau K vol shift : ℝ) : Except Err Npf :=
  let F' := F + shift
  let K' := K + shift
  if K' = 0 then .error .zeroDiv
  else if F' / K' ≤ 0 then .ok .nan
  else
    let L := Real.log (F' / K')
    .ok (Npf.divide (vol * Real.sqrt (F' * K') * (1 + (1 / 24) * L ^ 2 + 1 / 1920 * L ^ 4))
      (1 + (1 / 24) * (1 - (1 / 120) * L ^ 2) * vol ^ 2 * tau + (1 / 5760) * vol ^ 4 * tau ^ 2))

end Frm
