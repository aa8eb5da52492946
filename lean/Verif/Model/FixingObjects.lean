import Verif.Model.Fixings

/-!
# The objects fixings and swap curves are built on

Construction of fixing tables and swap curves (`frm/term_structures/historical_swap_index_fixings.py`,
`frm/term_structures/swap_curve.py`) and the two archived fixing classes (`frm/term_structures/archive/ois_fixings.py`).
-/

namespace Frm

set_option autoImplicit false

/-- What is given for `day_count_basis`: a member of `DayCountBasis`, or anything else (a string, `None`, …).
For `frm/term_structures/historical_swap_index_fixings.py:18`. -/
inductive BasisArg where
  | basis (b : DayCountBasis)
  | other
deriving DecidableEq, Repr

/-- What is given for a calculation method: nothing (`None`), a member of `RFRFixingCalcMethod`, or another object, which is true or
false as a condition.  For `frm/term_structures/archive/ois_fixings.py:18, 36`. -/
inductive MethodArg where
  | absent
  | member (m : RFRFixingCalcMethod)
  | other (truthy : Bool)
deriving DecidableEq, Repr

/-- `set(columns) == {'date', 'fixing'}` (`historical_swap_index_fixings.py:21-22`, `archive/ois_fixings.py:22-23, 89-90`). -/
def fixingColumnsOk (columns : List String) : Bool :=
  columns.all (fun c => c == "date" || c == "fixing") && columns.contains "date" && columns.contains "fixing"

/-- The assertions of `HistoricalSwapIndexFixings.__post_init__` (`historical_swap_index_fixings.py:20-25`); the basis of the object. -/
def newFixings (columns : List String) (basis : BasisArg) : Except Err DayCountBasis :=
  if fixingColumnsOk columns then
    match basis with
    | .basis b => .ok b
    | .other => .error .assertion
  else .error .assertion

/-- An archived `OISFixings` (`frm/term_structures/archive/ois_fixings.py:14-19`): its basis and its method. -/
structure OisObj where
  basis : DayCountBasis
  method : Option RFRFixingCalcMethod
deriving DecidableEq, Repr

/-- `OISFixings.__post_init__` (`frm/term_structures/archive/ois_fixings.py:21-29`). -/
def newOis (columns : List String) (basis : BasisArg) (method : MethodArg) : Except Err OisObj :=
  match newFixings columns basis with
  | .error e => .error e
  | .ok b =>
    match method with
    | .absent => .ok { basis := b, method := none }
    | .member m => .ok { basis := b, method := some m }
    | .other _ => .error .assertion

/-- The archived `TermFixings.__post_init__` (`frm/term_structures/archive/ois_fixings.py:88-91`). -/
def newTermArchived (columns : List String) : Except Err Unit :=
  if fixingColumnsOk columns then .ok () else .error .assertion

/-- `[f(s, e) for s, e in …]`: stops at the first exception.  For `frm/term_structures/archive/ois_fixings.py:52-53, 113-114`. -/
def eachPeriod (f : Int → Int → Except Err NRat) : List (Int × Int) → Except Err (List NRat)
  | [] => .ok []
  | p :: l =>
    match f p.1 p.2 with
    | .error e => .error e
    | .ok v =>
      match eachPeriod f l with
      | .error e => .error e
      | .ok vs => .ok (v :: vs)

/-- The archived `_calculate_coupon_rate` (`frm/term_structures/archive/ois_fixings.py:57-79, 118-140`): `basis` is what
`self.day_count_basis` evaluates to; a method that is no member of `RFRFixingCalcMethod` is refused on lines 79 and 140. -/
def archivedCouponRate (basis : Except Err DayCountBasis) (fixings : List (Int × Rat)) (method : Option RFRFixingCalcMethod)
    (s e : Int) : Except Err NRat :=
  match method with
  | none => .error .value
  | some .simpleAverage => .ok (calculateCouponRate none s e fixings .simpleAverage)
  | some .weightedAverage => .ok (calculateCouponRate none s e fixings .weightedAverage)
  | some .dailyCompounded =>
    match basis with
    | .error e => .error e
    | .ok b => .ok (calculateCouponRate b.daysPerYear s e fixings .dailyCompounded)

/-- The body of the archived `get_coupon_rates` (`frm/term_structures/archive/ois_fixings.py:39-54, 100-115`). -/
def archivedCouponRates (basis : Except Err DayCountBasis) (fixings : List (Int × Rat)) (starts ends : List Int)
    (method : Option RFRFixingCalcMethod) : Except Err (List NRat) :=
  let obsEnd := ends.map (· - 1)
  let applicable := applicableFixings fixings starts ends
  if natGt obsEnd.max? (applicable.map (·.1)).max? || natGt (applicable.map (·.1)).min? obsEnd.min? then .error .value
  else eachPeriod (archivedCouponRate basis applicable method) (starts.zip obsEnd)

/-- `cpn_calc_method or self.cpn_calc_method` (`frm/term_structures/archive/ois_fixings.py:38, 99`): the method used, `none` for anything
that is no member.  `own` is what `self.cpn_calc_method` evaluates to. -/
def chosenMethod (arg : MethodArg) (own : Except Err (Option RFRFixingCalcMethod)) : Except Err (Option RFRFixingCalcMethod) :=
  match arg with
  | .member m => .ok (some m)
  | .other true => .ok none
  | .other false => own
  | .absent => own

/-- `OISFixings.get_coupon_rates` (`frm/term_structures/archive/ois_fixings.py:32-54`). -/
def oisCouponRates (o : OisObj) (fixings : List (Int × Rat)) (starts ends : List Int) (arg : MethodArg) : Except Err (List NRat) :=
  match chosenMethod arg (.ok o.method) with
  | .error e => .error e
  | .ok m => archivedCouponRates (.ok o.basis) fixings starts ends m

/-- The archived `TermFixings.get_coupon_rates` (`frm/term_structures/archive/ois_fixings.py:93-115`): the object has neither
`cpn_calc_method` nor `day_count_basis`. -/
def termArchivedCouponRates (fixings : List (Int × Rat)) (starts ends : List Int) (arg : MethodArg) : Except Err (List NRat) :=
  match chosenMethod arg (.error .attribute) with
  | .error e => .error e
  | .ok m => archivedCouponRates (.error .attribute) fixings starts ends m

/-- `RFRFixings.get_coupon_rates` (`historical_swap_index_fixings.py:31-75`) called with anything as method: what is no member of
`RFRFixingCalcMethod` is refused on line 75, in the first period. -/
def rfrCouponRatesWith (basis : DayCountBasis) (fixings : List (Int × Rat)) (starts ends : List Int) (arg : MethodArg) :
    Except Err (List NRat) :=
  archivedCouponRates (.ok basis) fixings starts ends (match arg with | .member m => some m | _ => none)

/-- The assertion of `TermSwapCurve.__post_init__` and `RFRSwapCurve.__post_init__` (`frm/term_structures/swap_curve.py:26-27, 61-62`). -/
def newSwapCurve (curveBasis fixingsBasis : DayCountBasis) : Except Err Unit :=
  if curveBasis = fixingsBasis then .ok () else .error .assertion

/-- `RFRSwapCurve.get_discount_factors` (`frm/term_structures/swap_curve.py:64-65`): the zero curve's method `curveDf`, unchanged. -/
def rfrDiscountFactors {α : Type} (curveDf : List Int → Except Err (List α)) (dates : List Int) : Except Err (List α) := curveDf dates

end Frm
