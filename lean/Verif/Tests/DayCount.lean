import Verif.Model.DayCount

/-!
# The day counts in the project's tests

The cases of `tests/utils/test_daycount.py`, most of them ISDA's own worked examples: the model gives what the tests expect.
-/

namespace Frm.Tests

set_option autoImplicit false

/-- `test_30360_Bond_Basis`. -/
example : dayCount [mkDate 2006 8 20, mkDate 2007 2 20, mkDate 2007 8 20, mkDate 2008 2 20, mkDate 2008 8 20, mkDate 2009 2 20]
    [mkDate 2007 2 20, mkDate 2007 8 20, mkDate 2008 2 20, mkDate 2008 8 20, mkDate 2009 2 20, mkDate 2009 8 20] .b30_360 none
    = .ok [180, 180, 180, 180, 180, 180] := by decide +kernel

/-- `test_30360_Bond_Basis`. -/
example : dayCount [mkDate 2006 8 31, mkDate 2007 2 28, mkDate 2007 8 31, mkDate 2008 2 29, mkDate 2008 8 31, mkDate 2009 2 28]
    [mkDate 2007 2 28, mkDate 2007 8 31, mkDate 2008 2 29, mkDate 2008 8 31, mkDate 2009 2 28, mkDate 2009 8 31] .b30_360 none
    = .ok [178, 183, 179, 182, 178, 183] := by decide +kernel

/-- `test_30360_Bond_Basis`. -/
example : dayCount [mkDate 2006 1 31, mkDate 2006 1 30, mkDate 2006 2 28, mkDate 2006 2 14, mkDate 2006 9 30, mkDate 2006 10 31, mkDate 2007 8 31, mkDate 2008 2 28, mkDate 2008 2 28, mkDate 2008 2 28, mkDate 2007 2 26, mkDate 2007 2 26, mkDate 2008 2 29, mkDate 2008 2 28, mkDate 2008 2 28]
    [mkDate 2006 2 28, mkDate 2006 2 28, mkDate 2006 3 3, mkDate 2006 2 28, mkDate 2006 10 31, mkDate 2006 11 28, mkDate 2008 2 28, mkDate 2008 8 28, mkDate 2008 8 30, mkDate 2008 8 31, mkDate 2008 2 28, mkDate 2008 2 29, mkDate 2009 2 28, mkDate 2008 3 30, mkDate 2008 3 31] .b30_360 none
    = .ok [28, 28, 5, 14, 30, 28, 178, 180, 182, 183, 362, 363, 359, 32, 33] := by decide +kernel

/-- `test_30360_Bond_Basis`. -/
example : dayCount [mkDate 2010 1 13] [mkDate 2010 1 13] .b30_360 none = .ok [0] := by decide +kernel

/-- `test_30360_Bond_Basis`. -/
example : dayCount [mkDate 2010 1 13] [mkDate 2012 1 13] .b30_360 none = .ok [720] := by decide +kernel

/-- `test_30360_Bond_Basis`. -/
example : yearFrac [mkDate 2010 1 13] [mkDate 2010 1 13] .b30_360 none = .ok [0] := by decide +kernel

/-- `test_30360_Bond_Basis`. -/
example : yearFrac [mkDate 2010 1 13] [mkDate 2012 1 13] .b30_360 none = .ok [2] := by decide +kernel

/-- `test_30360E_Euro_Bond_Basis`. -/
example : dayCount [mkDate 2006 8 20, mkDate 2007 2 20, mkDate 2007 8 20, mkDate 2008 2 20, mkDate 2008 8 20, mkDate 2009 2 20]
    [mkDate 2007 2 20, mkDate 2007 8 20, mkDate 2008 2 20, mkDate 2008 8 20, mkDate 2009 2 20, mkDate 2009 8 20] .b30E_360 none
    = .ok [180, 180, 180, 180, 180, 180] := by decide +kernel

/-- `test_30360E_Euro_Bond_Basis`. -/
example : dayCount [mkDate 2006 2 28, mkDate 2006 8 31, mkDate 2007 2 28, mkDate 2007 8 31, mkDate 2008 2 29, mkDate 2008 8 31, mkDate 2009 2 28, mkDate 2009 8 31, mkDate 2010 2 28, mkDate 2010 8 31, mkDate 2011 2 28, mkDate 2011 8 31]
    [mkDate 2006 8 31, mkDate 2007 2 28, mkDate 2007 8 31, mkDate 2008 2 29, mkDate 2008 8 31, mkDate 2009 2 28, mkDate 2009 8 31, mkDate 2010 2 28, mkDate 2010 8 31, mkDate 2011 2 28, mkDate 2011 8 31, mkDate 2012 2 29] .b30E_360 none
    = .ok [182, 178, 182, 179, 181, 178, 182, 178, 182, 178, 182, 179] := by decide +kernel

/-- `test_30360E_Euro_Bond_Basis`. -/
example : dayCount [mkDate 2006 1 31, mkDate 2006 1 30, mkDate 2006 2 28, mkDate 2006 2 14, mkDate 2006 9 30, mkDate 2006 10 31, mkDate 2007 8 31, mkDate 2008 2 28, mkDate 2008 2 28, mkDate 2008 2 28, mkDate 2007 2 26, mkDate 2007 2 26, mkDate 2008 2 29, mkDate 2008 2 28, mkDate 2008 2 28]
    [mkDate 2006 2 28, mkDate 2006 2 28, mkDate 2006 3 3, mkDate 2006 2 28, mkDate 2006 10 31, mkDate 2006 11 28, mkDate 2008 2 28, mkDate 2008 8 28, mkDate 2008 8 30, mkDate 2008 8 31, mkDate 2008 2 28, mkDate 2008 2 29, mkDate 2009 2 28, mkDate 2008 3 30, mkDate 2008 3 31] .b30E_360 none
    = .ok [28, 28, 5, 14, 30, 28, 178, 180, 182, 182, 362, 363, 359, 32, 32] := by decide +kernel

/-- `test_30360E_Euro_Bond_Basis`. -/
example : dayCount [mkDate 2010 8 31] [mkDate 2010 8 31] .b30E_360 none = .ok [0] := by decide +kernel

/-- `test_30360E_Euro_Bond_Basis`. -/
example : dayCount [mkDate 2010 8 31] [mkDate 2011 2 28] .b30E_360 none = .ok [178] := by decide +kernel

/-- `test_30360E_Euro_Bond_Basis`. -/
example : yearFrac [mkDate 2010 8 31] [mkDate 2010 8 31] .b30E_360 none = .ok [0] := by decide +kernel

/-- `test_30360E_Euro_Bond_Basis`. -/
example : yearFrac [mkDate 2010 8 31] [mkDate 2011 2 28] .b30E_360 none = .ok [178/360] := by decide +kernel

/-- `test_30360E_ISDA`. -/
example : dayCount [mkDate 2006 8 20, mkDate 2007 2 20, mkDate 2007 8 20, mkDate 2008 2 20, mkDate 2008 8 20, mkDate 2009 2 20]
    [mkDate 2007 2 20, mkDate 2007 8 20, mkDate 2008 2 20, mkDate 2008 8 20, mkDate 2009 2 20, mkDate 2009 8 20] .b30E_360_ISDA none
    = .ok [180, 180, 180, 180, 180, 180] := by decide +kernel

/-- `test_30360E_ISDA`. -/
example : dayCount [mkDate 2006 2 28, mkDate 2006 8 31, mkDate 2007 2 28, mkDate 2007 8 31, mkDate 2008 2 29, mkDate 2008 8 31, mkDate 2009 2 28, mkDate 2009 8 31, mkDate 2010 2 28, mkDate 2010 8 31, mkDate 2011 2 28, mkDate 2011 8 31]
    [mkDate 2006 8 31, mkDate 2007 2 28, mkDate 2007 8 31, mkDate 2008 2 29, mkDate 2008 8 31, mkDate 2009 2 28, mkDate 2009 8 31, mkDate 2010 2 28, mkDate 2010 8 31, mkDate 2011 2 28, mkDate 2011 8 31, mkDate 2012 2 29] .b30E_360_ISDA none
    = .ok [180, 180, 180, 180, 180, 180, 180, 180, 180, 180, 180, 179] := by decide +kernel

/-- `test_30360E_ISDA`. -/
example : dayCount [mkDate 2006 1 31, mkDate 2006 1 30, mkDate 2006 2 28, mkDate 2006 2 14, mkDate 2006 9 30, mkDate 2006 10 31, mkDate 2007 8 31, mkDate 2008 2 28, mkDate 2008 2 28, mkDate 2008 2 28, mkDate 2007 2 28, mkDate 2007 2 28, mkDate 2008 2 29, mkDate 2008 2 29, mkDate 2008 2 29]
    [mkDate 2006 2 28, mkDate 2006 2 28, mkDate 2006 3 3, mkDate 2006 2 28, mkDate 2006 10 31, mkDate 2006 11 28, mkDate 2008 2 28, mkDate 2008 8 28, mkDate 2008 8 30, mkDate 2008 8 31, mkDate 2008 2 28, mkDate 2008 2 29, mkDate 2009 2 28, mkDate 2008 3 30, mkDate 2008 3 31] .b30E_360_ISDA none
    = .ok [30, 30, 3, 16, 30, 28, 178, 180, 182, 182, 358, 360, 360, 30, 30] := by decide +kernel

/-- `test_30360E_ISDA`. -/
example : dayCount [mkDate 2011 8 31] [mkDate 2011 8 31] .b30E_360_ISDA none = .ok [0] := by decide +kernel

/-- `test_30360E_ISDA`. -/
example : dayCount [mkDate 2011 8 31] [mkDate 2012 2 29] .b30E_360_ISDA (some [false]) = .ok [180] := by decide +kernel

/-- `test_30360E_ISDA`. -/
example : dayCount [mkDate 2011 8 31] [mkDate 2012 2 29] .b30E_360_ISDA none = .ok [179] := by decide +kernel

/-- `test_30360E_ISDA`. -/
example : yearFrac [mkDate 2011 8 31] [mkDate 2011 8 31] .b30E_360_ISDA none = .ok [0] := by decide +kernel

/-- `test_30360E_ISDA`. -/
example : yearFrac [mkDate 2011 8 31] [mkDate 2012 2 29] .b30E_360_ISDA none = .ok [179/360] := by decide +kernel

/-- `test_act360`. -/
example : dayCount [mkDate 2010 1 13] [mkDate 2010 1 13] .act_360 none = .ok [0] := by decide +kernel

/-- `test_act360`. -/
example : dayCount [mkDate 2010 1 13] [mkDate 2012 1 3] .act_360 none = .ok [720] := by decide +kernel

/-- `test_act360`. -/
example : yearFrac [mkDate 2010 1 13] [mkDate 2010 1 13] .act_360 none = .ok [0] := by decide +kernel

/-- `test_act360`. -/
example : yearFrac [mkDate 2010 1 13] [mkDate 2012 1 3] .act_360 none = .ok [720 / 360] := by decide +kernel

/-- `test_act365`. -/
example : dayCount [mkDate 2010 1 13] [mkDate 2010 1 13] .act_365 none = .ok [0] := by decide +kernel

/-- `test_act365`. -/
example : dayCount [mkDate 2010 1 13] [mkDate 2012 1 13] .act_365 none = .ok [730] := by decide +kernel

/-- `test_act365`. -/
example : yearFrac [mkDate 2010 1 13] [mkDate 2010 1 13] .act_365 none = .ok [0] := by decide +kernel

/-- `test_act365`. -/
example : yearFrac [mkDate 2010 1 13] [mkDate 2012 1 13] .act_365 none = .ok [730 / 365] := by decide +kernel

/-- `test_actact`. -/
example : dayCount [mkDate 2010 1 13] [mkDate 2010 1 13] .act_act none = .ok [0] := by decide +kernel

/-- `test_actact`. -/
example : dayCount [mkDate 2010 1 13] [mkDate 2014 1 13] .act_act none = .ok [1461] := by decide +kernel

/-- `test_actact`. -/
example : yearFrac [mkDate 2010 1 13] [mkDate 2010 1 13] .act_act none = .ok [0] := by decide +kernel

/-- `test_actact`. -/
example : yearFrac [mkDate 2010 1 13] [mkDate 2014 1 13] .act_act none = .ok [1461 / ((365*3 + 366) / 4)] := by decide +kernel

end Frm.Tests
