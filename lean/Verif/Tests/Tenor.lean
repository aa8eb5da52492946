import Verif.Model.Tenor

/-!
# The tenors in the project's tests

The cases of `tests/utils/test_tenor.py`: the model gives what the tests expect.
-/

namespace Frm.Tests

set_option autoImplicit false

example : tenorToDateOffset "sp".toList = .ok (.days (0)) := by decide +kernel

example : tenorToDateOffset "1d".toList = .ok (.days (1)) := by decide +kernel

example : tenorToDateOffset "30d".toList = .ok (.days (30)) := by decide +kernel

example : tenorToDateOffset "360d".toList = .ok (.days (360)) := by decide +kernel

example : tenorToDateOffset "1w".toList = .ok (.weeks (1)) := by decide +kernel

example : tenorToDateOffset "52w".toList = .ok (.weeks (52)) := by decide +kernel

example : tenorToDateOffset "104w".toList = .ok (.weeks (104)) := by decide +kernel

example : tenorToDateOffset "1m".toList = .ok (.months (1)) := by decide +kernel

example : tenorToDateOffset "12m".toList = .ok (.months (12)) := by decide +kernel

example : tenorToDateOffset "120m".toList = .ok (.months (120)) := by decide +kernel

example : tenorToDateOffset "1y".toList = .ok (.years (1)) := by decide +kernel

example : tenorToDateOffset "10y".toList = .ok (.years (10)) := by decide +kernel

example : tenorToDateOffset "100y".toList = .ok (.years (100)) := by decide +kernel

example : tenorToDateOffset "1y3m".toList = .ok (.months (1 * 12 + 3)) := by decide +kernel

example : tenorToDateOffset "10y6m".toList = .ok (.months (10 * 12 + 6)) := by decide +kernel

example : tenorToDateOffset "100y1m".toList = .ok (.months (100 * 12 + 1)) := by decide +kernel

end Frm.Tests
