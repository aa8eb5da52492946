import Verif.Model.Text
import Verif.Model.Err
import Verif.Model.DayCount
import Verif.Model.Schedule

/-!
# Enumerations (`frm/enums/helper.py`, `frm/enums/utils.py`)
-/

namespace Frm

/-- The value of an enumeration member.  For `frm/enums/utils.py:12-16`. -/
inductive EnumVal where
  | str (s : Str)
  | int (n : Int)
deriving DecidableEq

/-- The argument of `from_value`: a missing value (`None`, `nan`), a string or an integer.  Other Python objects are
not modelled.  For `frm/enums/helper.py:25-32`. -/
inductive EnumInput where
  | missing
  | str (s : Str)
  | int (n : Int)
deriving DecidableEq

/-- `str.isdigit()`.  For `frm/enums/helper.py:13`. -/
def pyIsDigit (s : Str) : Bool := !s.isEmpty && s.all Char.isDigit

/-- `clean_enum_value` (`frm/enums/helper.py:8-17`); `transform` is the identity when no `transform_fn` is given. -/
def cleanEnumValue (transform : Str → Str) : EnumInput → Option EnumVal
  | .missing => none
  | .int n => some (.int n)
  | .str s =>
    let v := transform ((strip (lower s)).map (fun c => if c = ' ' then '_' else c))
    some (if pyIsDigit v then .int (v.foldl (fun a c => 10 * a + (digitVal c : Int)) 0) else .str v)

/-- An enumeration class: members in declaration order with their values, and what `cls.default()` returns, if the
class has that method.  For `frm/enums/utils.py:12-20`. -/
structure EnumClass (α : Type) where
  members : List (α × EnumVal)
  default : Option α

/-- `cls.default()`; `AttributeError` when the class has none.  For `frm/enums/utils.py:18-20`. -/
def EnumClass.getDefault {α : Type} (E : EnumClass α) : Except Err α :=
  match E.default with
  | some d => .ok d
  | none => .error .attribute

/-- `value in {enum_member.value for enum_member in cls}` (`frm/enums/helper.py:20-22`). -/
def EnumClass.hasValue {α : Type} (E : EnumClass α) (v : Option EnumVal) : Bool :=
  match v with
  | none => false
  | some x => E.members.any (fun p => p.2 == x)

/-- `is_valid_enum_value` (`frm/enums/helper.py:20-22`). -/
def isValidEnumValue {α : Type} (E : EnumClass α) (transform : Str → Str) (x : EnumInput) : Bool :=
  E.hasValue (cleanEnumValue transform x)

/-- `get_enum_member` (`frm/enums/helper.py:25-35`). -/
def getEnumMember {α : Type} (E : EnumClass α) (transform : Str → Str) (x : EnumInput) : Except Err α :=
  match cleanEnumValue transform x with
  | none => E.getDefault
  | some v =>
    match E.members.find? (fun p => p.2 == v) with
    | some p => .ok p.1
    | none => .error .value

/-- `str.replace(old, new)` for a non-empty `old`: scan left to right; `skip` counts the characters of the current
occurrence still to be passed over.  For `frm/enums/helper.py:8-17`. -/
def replaceGo (old new : Str) : Nat → Str → Str
  | _, [] => []
  | skip + 1, _ :: cs => replaceGo old new skip cs
  | 0, c :: cs =>
    if old.isPrefixOf (c :: cs) then new ++ replaceGo old new (old.length - 1) cs else c :: replaceGo old new 0 cs

/-- `s.replace(old, new)`.  For `frm/enums/helper.py:8-17`. -/
def replaceAll (old new s : Str) : Str := replaceGo old new 0 s

/-- `enum_member.value == cleaned or enum_member.value.replace('/', '') == cleaned`
(`frm/enums/utils.py:39-42` and the same lines of the other classes). -/
def slashMatch (v : EnumVal) (cleaned : EnumVal) : Bool :=
  v == cleaned || (match v with
    | .str s => EnumVal.str (replaceAll "/".toList [] s) == cleaned
    | .int _ => false)

/-- The `from_value` written out in `ZeroCurveInterpMethod`, `ZeroCurveExtrapMethod`, `PayRcv`, `BuySell` and
`DayCountBasis` (`frm/enums/utils.py:27-46, 71-90, 110-129, 149-168, 209-229`). -/
def fromValueInline {α : Type} (E : EnumClass α) (specific : Option EnumVal → Except Err (Option EnumVal))
    (x : EnumInput) : Except Err α := do
  let cleaned ← specific (cleanEnumValue id x)
  match cleaned with
  | none => E.getDefault
  | some v =>
    match E.members.find? (fun p => slashMatch p.2 v) with
    | some p => .ok p.1
    | none => .error .value

/-- `ZeroCurveInterpMethod` (`frm/enums/utils.py:12-54`). -/
inductive InterpMethod where
  | linearOnLnDiscount | cubicSplineOnLnDiscount | cubicSplineOnCczr
deriving DecidableEq, Repr

/-- The members of `ZeroCurveInterpMethod` in order, and its default (`frm/enums/utils.py:12-16`). -/
def interpMethodClass : EnumClass InterpMethod where
  members := [(.linearOnLnDiscount, .str "linear_on_ln_discount".toList),
    (.cubicSplineOnLnDiscount, .str "cubic_spline_on_ln_discount".toList),
    (.cubicSplineOnCczr, .str "cubic_spline_on_cczr".toList)]
  default := some .linearOnLnDiscount

/-- `ZeroCurveInterpMethod.from_value` (`frm/enums/utils.py:27-54`). -/
def InterpMethod.fromValue (x : EnumInput) : Except Err InterpMethod := fromValueInline interpMethodClass .ok x
/-- `ZeroCurveInterpMethod.is_valid` (`frm/enums/utils.py:22-24`). -/
def InterpMethod.isValid (x : EnumInput) : Bool := isValidEnumValue interpMethodClass id x

/-- `ZeroCurveExtrapMethod` (`frm/enums/utils.py:57-94`). -/
inductive ExtrapMethod where
  | none | flat
deriving DecidableEq, Repr

/-- The members of `ZeroCurveExtrapMethod` in order, and its default (`frm/enums/utils.py:57-63`). -/
def extrapMethodClass : EnumClass ExtrapMethod where
  members := [(.none, .str "none".toList), (.flat, .str "flat".toList)]
  default := some .none

/-- `ZeroCurveExtrapMethod.from_value` (`frm/enums/utils.py:71-94`). -/
def ExtrapMethod.fromValue (x : EnumInput) : Except Err ExtrapMethod := fromValueInline extrapMethodClass .ok x
/-- `ZeroCurveExtrapMethod.is_valid` (`frm/enums/utils.py:66-68`). -/
def ExtrapMethod.isValid (x : EnumInput) : Bool := isValidEnumValue extrapMethodClass id x

/-- `PayRcv` (`frm/enums/utils.py:97-133`). -/
inductive PayRcv where
  | pay | rcv
deriving DecidableEq, Repr

/-- The members of `PayRcv` in order, and its default (`frm/enums/utils.py:97-99`). -/
def payRcvClass : EnumClass PayRcv where
  members := [(.pay, .str "pay".toList), (.rcv, .str "rcv".toList)]
  default := none

/-- `PayRcv.from_value` (`frm/enums/utils.py:111-133`). -/
def PayRcv.fromValue (x : EnumInput) : Except Err PayRcv := fromValueInline payRcvClass .ok x
/-- `PayRcv.is_valid` (`frm/enums/utils.py:106-108`). -/
def PayRcv.isValid (x : EnumInput) : Bool := isValidEnumValue payRcvClass id x

/-- `PayRcv.multiplier` (`frm/enums/utils.py:101-103`). -/
def PayRcv.multiplier (p : PayRcv) : Int := if p = .pay then -1 else 1

/-- `BuySell` (`frm/enums/utils.py:136-172`). -/
inductive BuySell where
  | buy | sell
deriving DecidableEq, Repr

/-- The members of `BuySell` in order, and its default (`frm/enums/utils.py:136-138`). -/
def buySellClass : EnumClass BuySell where
  members := [(.buy, .str "buy".toList), (.sell, .str "sell".toList)]
  default := none

/-- `BuySell.from_value` (`frm/enums/utils.py:150-172`). -/
def BuySell.fromValue (x : EnumInput) : Except Err BuySell := fromValueInline buySellClass .ok x
/-- `BuySell.is_valid` (`frm/enums/utils.py:145-147`). -/
def BuySell.isValid (x : EnumInput) : Bool := isValidEnumValue buySellClass id x

/-- `BuySell.multiplier` (`frm/enums/utils.py:140-142`). -/
def BuySell.multiplier (p : BuySell) : Int := if p = .sell then -1 else 1

/-- `DayCountBasis` (`frm/enums/utils.py:175-203`). -/
def dayCountBasisClass : EnumClass DayCountBasis where
  members := [(.b30_360, .str "30/360".toList), (.b30E_360, .str "30e/360".toList),
    (.b30E_360_ISDA, .str "30e/360_isda".toList), (.act_360, .str "act/360".toList),
    (.act_365, .str "act/365".toList), (.act_act, .str "act/act".toList), (.act_366, .str "act/366".toList)]
  default := some .act_act

/-- `specific_cleaning` of `DayCountBasis.from_value` (`frm/enums/utils.py:213-217`): `value.replace` on `None` or on
an integer raises `AttributeError`. -/
def dayCountCleaning : Option EnumVal → Except Err (Option EnumVal)
  | some (.str s) =>
    let v := replaceAll "actual".toList "act".toList s
    .ok (some (.str (if v = "act/365fixed".toList then "act/365".toList else v)))
  | _ => .error .attribute

/-- `DayCountBasis.from_value` (`frm/enums/utils.py:207-229`). -/
def DayCountBasis.fromValue (x : EnumInput) : Except Err DayCountBasis :=
  fromValueInline dayCountBasisClass dayCountCleaning x
/-- `DayCountBasis.is_valid` (`frm/enums/utils.py:202-204`). -/
def DayCountBasis.isValid (x : EnumInput) : Bool := isValidEnumValue dayCountBasisClass id x

/-- `CompoundingFreq` (`frm/enums/utils.py:235-275`). -/
inductive CompoundingFreq where
  | simple | continuous | daily | weekly | monthly | quarterly | semiannual | annual
deriving DecidableEq, Repr

/-- The members of `CompoundingFreq` in order, and its default (`frm/enums/utils.py:235-257`). -/
def compoundingFreqClass : EnumClass CompoundingFreq where
  members := [(.simple, .str "simple".toList), (.continuous, .str "continuous".toList), (.daily, .str "daily".toList),
    (.weekly, .str "weekly".toList), (.monthly, .str "monthly".toList), (.quarterly, .str "quarterly".toList),
    (.semiannual, .str "semiannual".toList), (.annual, .str "annual".toList)]
  default := none

/-- `CompoundingFreq.from_value` (`frm/enums/utils.py:264-266`). -/
def CompoundingFreq.fromValue (x : EnumInput) : Except Err CompoundingFreq := getEnumMember compoundingFreqClass id x
/-- `CompoundingFreq.is_valid` (`frm/enums/utils.py:260-262`). -/
def CompoundingFreq.isValid (x : EnumInput) : Bool := isValidEnumValue compoundingFreqClass id x

/-- `period_frequency_aliases` (`frm/enums/utils.py:374-383`). -/
def periodAliases : List (Str × List Str) :=
  [("daily", ["d", "day", "days", "1d", "1day", "1days"]),
   ("weekly", ["w", "week", "weeks", "wk", "1w", "1wk", "1week", "1weeks"]),
   ("28days", ["28d", "28day", "28days"]),
   ("monthly", ["m", "month", "months", "mon", "1m", "1mo", "1month", "1months"]),
   ("quarterly", ["q", "quarter", "quarters", "quart", "3m", "3mo", "3month", "3months"]),
   ("semiannual", ["s", "sa", "semiannual", "semiannually", "semi", "6m", "6mo", "6month", "6months"]),
   ("annual", ["a", "year", "years", "yrs", "yr", "annually", "1y", "1yr", "1year", "1years"]),
   ("zerocoupon", ["z", "zc", "zerocoupon", "zero"])].map (fun p => (p.1.toList, p.2.map String.toList))

/-- `PeriodFreq._transform_value` (`frm/enums/utils.py:370-388`). -/
def periodTransform (value : Str) : Str :=
  let v := strip (lower (replaceAll "per".toList [] (replaceAll "_".toList [] (replaceAll "/".toList [] value))))
  match periodAliases.find? (fun p => v == p.1 || p.2.contains v) with
  | some p => p.1
  | none => v

/-- The members of `PeriodFreq` in order, and its default (`frm/enums/utils.py:315-325`). -/
def periodFreqClass : EnumClass PeriodFreq where
  members := [(.daily, .str "daily".toList), (.weekly, .str "weekly".toList), (.days28, .str "28days".toList),
    (.monthly, .str "monthly".toList), (.quarterly, .str "quarterly".toList),
    (.semiannual, .str "semiannual".toList), (.annual, .str "annual".toList),
    (.zeroCoupon, .str "zerocoupon".toList)]
  default := none

/-- `PeriodFreq.from_value` / `is_valid` (`frm/enums/utils.py:361-368`). -/
def PeriodFreq.fromValue (x : EnumInput) : Except Err PeriodFreq := getEnumMember periodFreqClass periodTransform x
/-- `PeriodFreq.is_valid` (`frm/enums/utils.py:362-364`). -/
def PeriodFreq.isValid (x : EnumInput) : Bool := isValidEnumValue periodFreqClass periodTransform x

/-- `DayRoll` (`frm/enums/utils.py:395-445`). -/
def dayRollClass : EnumClass DayRoll where
  members := [(.unadjusted, .str "unadjusted".toList)] ++
    (List.finRange 31).map (fun k => (.day k, .int (k.val + 1))) ++ [(.eom, .str "eom".toList)]
  default := some .unadjusted

/-- `DayRoll.from_value` (`frm/enums/utils.py:439-441`). -/
def DayRoll.fromValue (x : EnumInput) : Except Err DayRoll := getEnumMember dayRollClass id x
/-- `DayRoll.is_valid` (`frm/enums/utils.py:435-437`). -/
def DayRoll.isValid (x : EnumInput) : Bool := isValidEnumValue dayRollClass id x

/-- `RollConv` (`frm/enums/utils.py:448-470`). -/
def rollConvClass : EnumClass RollConv where
  members := [(.unadjusted, .str "unadjusted".toList), (.following, .str "following".toList),
    (.preceding, .str "preceding".toList), (.modifiedFollowing, .str "modifiedfollowing".toList),
    (.modifiedPreceding, .str "modifiedpreceding".toList)]
  default := some .modifiedFollowing

/-- `RollConv.from_value` (`frm/enums/utils.py:460-462`). -/
def RollConv.fromValue (x : EnumInput) : Except Err RollConv := getEnumMember rollConvClass id x
/-- `RollConv.is_valid` (`frm/enums/utils.py:456-458`). -/
def RollConv.isValid (x : EnumInput) : Bool := isValidEnumValue rollConvClass id x

/-- `TimingConvention` (`frm/enums/utils.py:472-494`); it has no `default`. -/
def timingClass : EnumClass Timing where
  members := [(.inArrears, .str "in_arrears".toList), (.inAdvance, .str "in_advance".toList)]
  default := none

/-- `TimingConvention.from_value` (`frm/enums/utils.py:481-483`). -/
def Timing.fromValue (x : EnumInput) : Except Err Timing := getEnumMember timingClass id x
/-- `TimingConvention.is_valid` (`frm/enums/utils.py:477-479`). -/
def Timing.isValid (x : EnumInput) : Bool := isValidEnumValue timingClass id x

/-- `Stub` (`frm/enums/utils.py:496-522`). -/
def stubClass : EnumClass Stub where
  members := [(.none, .str "none".toList), (.short, .str "short".toList), (.long, .str "long".toList),
    (.default, .str "default".toList),
    (.definedPerFirstPeriodEnd, .str "defined_per_first_period_end_date".toList),
    (.definedPerLastPeriodStart, .str "defined_per_last_period_start_date".toList)]
  default := some .default

/-- `Stub.from_value` (`frm/enums/utils.py:509-511`). -/
def Stub.fromValue (x : EnumInput) : Except Err Stub := getEnumMember stubClass id x
/-- `Stub.is_valid` (`frm/enums/utils.py:505-507`). -/
def Stub.isValid (x : EnumInput) : Bool := isValidEnumValue stubClass id x

/-- `ExchangeNotionals` (`frm/enums/utils.py:525-548`). -/
def exchangeNotionalsClass : EnumClass ExchangeNotionals where
  members := [(.start, .str "start".toList), (.end_, .str "end".toList), (.both, .str "both".toList),
    (.neither, .str "neither".toList)]
  default := some .neither

/-- `ExchangeNotionals.from_value` (`frm/enums/utils.py:536-538`). -/
def ExchangeNotionals.fromValue (x : EnumInput) : Except Err ExchangeNotionals :=
  getEnumMember exchangeNotionalsClass id x
/-- `ExchangeNotionals.is_valid` (`frm/enums/utils.py:532-534`). -/
def ExchangeNotionals.isValid (x : EnumInput) : Bool := isValidEnumValue exchangeNotionalsClass id x

end Frm
