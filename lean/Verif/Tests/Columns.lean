import Verif.Model.FxHelpers

/-!
# The column names in the project's tests

The cases of `tests/term_structures/test_fx_volatility_surface_regex.py`, which tries the two patterns of
`frm/term_structures/fx_helpers.py` on names to accept and names to refuse: the model gives what the tests expect.
-/

namespace Frm.Tests

set_option autoImplicit false

example : (matchCallPut "5_delta_call".toList).isSome = true := by decide +kernel

example : (matchCallPut "05_delta_call".toList).isSome = true := by decide +kernel

example : (matchCallPut "5 delta call".toList).isSome = true := by decide +kernel

example : (matchCallPut "5deltacall".toList).isSome = true := by decide +kernel

example : (matchCallPut "5_Δ_call".toList).isSome = true := by decide +kernel

example : (matchCallPut "5 Δ call".toList).isSome = true := by decide +kernel

example : (matchCallPut "5Δcall".toList).isSome = true := by decide +kernel

example : (matchCallPut "5Δc".toList).isSome = true := by decide +kernel

example : (matchCallPut "1_delta_call".toList).isSome = true := by decide +kernel

example : (matchCallPut "09_delta_put".toList).isSome = true := by decide +kernel

example : (matchCallPut "10_delta_call".toList).isSome = true := by decide +kernel

example : (matchCallPut "25_delta_put".toList).isSome = true := by decide +kernel

example : (matchCallPut "49_delta_call".toList).isSome = true := by decide +kernel

example : (matchCallPut "0_delta_call".toList).isSome = false := by decide +kernel

example : (matchCallPut "50_delta_put".toList).isSome = false := by decide +kernel

example : (matchCallPut "99_delta_put".toList).isSome = false := by decide +kernel

example : (matchCallPut "100_delta_call".toList).isSome = false := by decide +kernel

example : (matchCallPut "01_delta_put_extra".toList).isSome = false := by decide +kernel

example : (matchCallPut "delta_call".toList).isSome = false := by decide +kernel

example : (matchCallPut "delta_25_call".toList).isSome = false := by decide +kernel

example : matchAtmDeltaNeutral "atm_delta_neutral".toList = true := by decide +kernel

example : matchAtmDeltaNeutral "atm_Δ_neutral".toList = true := by decide +kernel

example : matchAtmDeltaNeutral "atmΔneutral".toList = true := by decide +kernel

example : matchAtmDeltaNeutral "atm_Δneutral".toList = true := by decide +kernel

example : matchAtmDeltaNeutral "at the money delta neutral".toList = true := by decide +kernel

example : matchAtmDeltaNeutral "atmneutral".toList = false := by decide +kernel

example : matchAtmDeltaNeutral "atm delta neutral".toList = true := by decide +kernel

example : matchAtmDeltaNeutral "atm delta xneutral".toList = false := by decide +kernel

example : matchAtmDeltaNeutral "atm_neutral".toList = false := by decide +kernel

example : matchAtmDeltaNeutral "atm_Δ_neut".toList = false := by decide +kernel

example : matchAtmDeltaNeutral "delta_neutral".toList = false := by decide +kernel

end Frm.Tests
