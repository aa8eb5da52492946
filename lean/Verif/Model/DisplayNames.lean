import Verif.Model.Enums

/-!
# Names and display names of enumeration members (`frm/enums/utils.py`, `frm/enums/term_structures.py`)

Only ASCII letters occur in the names.
-/

namespace Frm

set_option autoImplicit false

/-- `str.title()`: a letter is a capital after a non-letter and small after a letter; `prev` tells whether the character before is a
letter.  For `frm/enums/utils.py:93`. -/
def titleGo : Bool → Str → Str
  | _, [] => []
  | prev, c :: cs => (if c.isAlpha then (if prev then c.toLower else c.toUpper) else c) :: titleGo c.isAlpha cs

/-- `s.title()`.  For `frm/enums/utils.py:93`. -/
def pyTitle (s : Str) : Str := titleGo false s

/-- `s.replace('_', ' ')`.  For `frm/enums/utils.py:277`. -/
def spaced (s : Str) : Str := s.map (fun c => if c = '_' then ' ' else c)

/-- The names of the members of `ZeroCurveInterpMethod` (`frm/enums/utils.py:13-15`). -/
def InterpMethod.pyName : InterpMethod → Str
  | .linearOnLnDiscount => "LINEAR_ON_LN_DISCOUNT".toList
  | .cubicSplineOnLnDiscount => "CUBIC_SPLINE_ON_LN_DISCOUNT".toList
  | .cubicSplineOnCczr => "CUBIC_SPLINE_ON_CCZR".toList

/-- `ZeroCurveInterpMethod.display_name` (`frm/enums/utils.py:47-54`). -/
def InterpMethod.displayName : InterpMethod → Str
  | .linearOnLnDiscount => "Linear on log of discount factors".toList
  | .cubicSplineOnLnDiscount => "Cubic spline on log of discount factors".toList
  | .cubicSplineOnCczr => "Cubic spline on continuously compounded zero rates".toList

/-- The names of the members of `ZeroCurveExtrapMethod` (`frm/enums/utils.py:58-59`). -/
def ExtrapMethod.pyName : ExtrapMethod → Str
  | .none => "NONE".toList
  | .flat => "FLAT".toList

/-- `ZeroCurveExtrapMethod.display_name` (`frm/enums/utils.py:91-93`). -/
def ExtrapMethod.displayName (m : ExtrapMethod) : Str := pyTitle m.pyName

/-- The names of the members of `PayRcv` (`frm/enums/utils.py:98-99`). -/
def PayRcv.pyName : PayRcv → Str
  | .pay => "PAY".toList
  | .rcv => "RCV".toList

/-- `PayRcv.display_name` (`frm/enums/utils.py:131-133`). -/
def PayRcv.displayName (m : PayRcv) : Str := pyTitle m.pyName

/-- The names of the members of `BuySell` (`frm/enums/utils.py:137-138`). -/
def BuySell.pyName : BuySell → Str
  | .buy => "BUY".toList
  | .sell => "SELL".toList

/-- `BuySell.display_name` (`frm/enums/utils.py:170-172`). -/
def BuySell.displayName (m : BuySell) : Str := pyTitle m.pyName

/-- The names of the members of `DayCountBasis` (`frm/enums/utils.py:177-183`). -/
def DayCountBasis.pyName : DayCountBasis → Str
  | .b30_360 => "_30_360".toList
  | .b30E_360 => "_30E_360".toList
  | .b30E_360_ISDA => "_30E_360_ISDA".toList
  | .act_360 => "ACT_360".toList
  | .act_365 => "ACT_365".toList
  | .act_act => "ACT_ACT".toList
  | .act_366 => "ACT_366".toList

/-- `DayCountBasis.value`.  For `frm/enums/utils.py:177-183, 231-232`. -/
def DayCountBasis.pyValue (m : DayCountBasis) : Str :=
  match dayCountBasisClass.members.find? (fun p => decide (p.1 = m)) with
  | some (_, .str s) => s
  | _ => []

/-- `DayCountBasis.display_name` (`frm/enums/utils.py:230-232`): made from the value, not from the name. -/
def DayCountBasis.displayName (m : DayCountBasis) : Str := strip (spaced (upper m.pyValue))

/-- The names of the members of `CompoundingFreq` (`frm/enums/utils.py:237-244`). -/
def CompoundingFreq.pyName : CompoundingFreq → Str
  | .simple => "SIMPLE".toList
  | .continuous => "CONTINUOUS".toList
  | .daily => "DAILY".toList
  | .weekly => "WEEKLY".toList
  | .monthly => "MONTHLY".toList
  | .quarterly => "QUARTERLY".toList
  | .semiannual => "SEMIANNUAL".toList
  | .annual => "ANNUAL".toList

/-- `CompoundingFreq.display_name` (`frm/enums/utils.py:275-277`). -/
def CompoundingFreq.displayName (m : CompoundingFreq) : Str := strip (spaced (pyTitle m.pyName))

/-- The names of the members of `PeriodFreq` (`frm/enums/utils.py:317-324`). -/
def PeriodFreq.pyName : PeriodFreq → Str
  | .daily => "DAILY".toList
  | .weekly => "WEEKLY".toList
  | .days28 => "_28_DAYS".toList
  | .monthly => "MONTHLY".toList
  | .quarterly => "QUARTERLY".toList
  | .semiannual => "SEMIANNUAL".toList
  | .annual => "ANNUAL".toList
  | .zeroCoupon => "ZERO_COUPON".toList

/-- `PeriodFreq.display_name` (`frm/enums/utils.py:390-392`). -/
def PeriodFreq.displayName (m : PeriodFreq) : Str := strip (spaced (pyTitle m.pyName))

/-- The names of the members of `DayRoll` (`frm/enums/utils.py:396-428`). -/
def DayRoll.pyName : DayRoll → Str
  | .unadjusted => "UNADJUSTED".toList
  | .eom => "EOM".toList
  | .day k => '_' :: (if k.val + 1 < 10 then [Char.ofNat (48 + (k.val + 1))]
      else [Char.ofNat (48 + (k.val + 1) / 10), Char.ofNat (48 + (k.val + 1) % 10)])

/-- `DayRoll.display_name` (`frm/enums/utils.py:442-444`). -/
def DayRoll.displayName (m : DayRoll) : Str := strip (spaced (pyTitle m.pyName))

/-- The names of the members of `RollConv` (`frm/enums/utils.py:449-453`). -/
def RollConv.pyName : RollConv → Str
  | .unadjusted => "UNADJUSTED".toList
  | .following => "FOLLOWING".toList
  | .preceding => "PRECEDING".toList
  | .modifiedFollowing => "MODIFIED_FOLLOWING".toList
  | .modifiedPreceding => "MODIFIED_PRECEDING".toList

/-- `RollConv.display_name` (`frm/enums/utils.py:467-469`). -/
def RollConv.displayName (m : RollConv) : Str := pyTitle (spaced m.pyName)

/-- The names of the members of `TimingConvention` (`frm/enums/utils.py:473-474`). -/
def Timing.pyName : Timing → Str
  | .inArrears => "IN_ARREARS".toList
  | .inAdvance => "IN_ADVANCE".toList

/-- `TimingConvention.display_name` (`frm/enums/utils.py:484-486`). -/
def Timing.displayName (m : Timing) : Str := spaced (pyTitle m.pyName)

/-- The names of the members of `Stub` (`frm/enums/utils.py:497-502`). -/
def Stub.pyName : Stub → Str
  | .none => "NONE".toList
  | .short => "SHORT".toList
  | .long => "LONG".toList
  | .default => "DEFAULT".toList
  | .definedPerFirstPeriodEnd => "DEFINED_PER_FIRST_PERIOD_END_DATE".toList
  | .definedPerLastPeriodStart => "DEFINED_PER_LAST_PERIOD_START_DATE".toList

/-- `Stub.display_name` (`frm/enums/utils.py:520-522`). -/
def Stub.displayName (m : Stub) : Str := spaced (pyTitle m.pyName)

/-- The names of the members of `ExchangeNotionals` (`frm/enums/utils.py:526-529`). -/
def ExchangeNotionals.pyName : ExchangeNotionals → Str
  | .start => "START".toList
  | .end_ => "END".toList
  | .both => "BOTH".toList
  | .neither => "NEITHER".toList

/-- `ExchangeNotionals.display_name` (`frm/enums/utils.py:540-541`). -/
def ExchangeNotionals.displayName (m : ExchangeNotionals) : Str := pyTitle m.pyName

/-! ## The enumerations without `from_value` (`frm/enums/term_structures.py`): name and value of each member -/

/-- `RFRFixingCalcMethod` (`frm/enums/term_structures.py:9-12`). -/
def rfrMethodMembers : List (Str × Str) :=
  [("DAILY_COMPOUNDED".toList, "daily_compounded".toList), ("WEIGHTED_AVERAGE".toList, "weighted_average".toList),
    ("SIMPLE_AVERAGE".toList, "simple_average".toList)]

/-- `RFRFixingCalcMethod.display_name` (`frm/enums/term_structures.py:14-16`). -/
def rfrMethodDisplay (name : Str) : Str := upper (strip (spaced name))

/-- `TermRate` (`frm/enums/term_structures.py:18-26`). -/
def termRateMembers : List (Str × Str) :=
  [("SIMPLE".toList, "simple".toList), ("CONTINUOUS".toList, "continuous".toList), ("ANNUAL".toList, "annual".toList)]

/-- `TermRate.display_name` (`frm/enums/term_structures.py:28-30`). -/
def termRateDisplay (name : Str) : Str := pyTitle name

/-- `FXSmileInterpolationMethod` (`frm/enums/term_structures.py:33-40`). -/
def smileMethodMembers : List (Str × Str) :=
  [("UNIVARIATE_SPLINE".toList, "univariate_spline".toList), ("CUBIC_SPLINE".toList, "cubic_spline".toList),
    ("HESTON_1993".toList, "heston_1993".toList),
    ("HESTON_CARR_MADAN_GAUSS_KRONROD_QUADRATURE".toList, "heston_carr_madan_gauss_kronrod_quadrature".toList),
    ("HESTON_CARR_MADAN_FFT_W_SIMPSONS".toList, "heston_carr_madan_fft_w_simpsons".toList),
    ("HESTON_LIPTON".toList, "heston_lipton".toList), ("HESTON_COSINE".toList, "heston_cosine".toList)]

/-- `DeltaConvention` (`frm/enums/term_structures.py:47-51`). -/
def deltaConventionMembers : List (Str × Str) :=
  [("REGULAR_SPOT".toList, "regular_spot".toList), ("REGULAR_FORWARD".toList, "regular_forward".toList),
    ("PREMIUM_ADJUSTED_SPOT".toList, "premium_adjusted_spot".toList),
    ("PREMIUM_ADJUSTED_FORWARD".toList, "premium_adjusted_forward".toList)]

/-- `FXSmileInterpolationMethod.display_name` and `DeltaConvention.display_name` (`frm/enums/term_structures.py:42-44, 53-55`). -/
def spacedTitleDisplay (name : Str) : Str := spaced (pyTitle name)

end Frm
