import Verif.Model.SwapCurveObject
import Verif.Spec.ZeroCurve

/-! # Specification of the fixings of an RFR swap curve -/

namespace Frm.Spec

set_option autoImplicit false

/-- `y` over the period from `s` to `e`, of year fraction `dt`, grows a deposit as the curve does: by the quotient of the
discount factors of the two dates. -/
def GrowsAs (z : ZeroCurve) (s e : Int) (dt : Rat) (y : ℝ) : Prop :=
  ∃ a b : ℝ, z.discountFactors [s] = [some a] ∧ z.discountFactors [e] = [some b] ∧ 0 < b ∧ 1 + y * dt = a / b

/-- `f` gives, for every day of the period, the overnight rate that grows a deposit as the curve does, with `n` days in a year. -/
def Overnight (z : ZeroCurve) (n : Int) (s e : Int) (f : Int → ℝ) : Prop :=
  ∀ d, s ≤ d → d < e → ∀ a b : ℝ, z.discountFactors [d] = [some a] → z.discountFactors [d + 1] = [some b] → 1 + f d / n = a / b

/-- The rate of the curve over a period: the daily compounded rate grows a deposit as the curve does; the averages are the
means of the overnight rates of the days, or of the business days, of the period (nothing under ACT/ACT, which has no number of
days in a year).  `last` says whether the period counts as
ending on a termination date. -/
def CurveRate (z : ZeroCurve) (method : RFRFixingCalcMethod) (last : Bool) (s e : Int) (x : Option ℝ) : Prop :=
  match method with
  | .dailyCompounded => ∃ dt : Rat, yearFrac [s] [e] z.basis (some [last]) = .ok [dt] ∧
      (dt ≠ 0 → ∃ y, x = some y ∧ GrowsAs z s e dt y)
  | .weightedAverage => match z.basis.daysPerYear with
      | none => x = none
      | some n => ∀ f, Overnight z n s e f → ∀ days, days = dateRange s (e - 1) →
          x = if days = [] then none else some ((days.map f).sum / days.length)
  | .simpleAverage => match z.basis.daysPerYear with
      | none => x = none
      | some n => ∀ f, Overnight z n s e f → ∀ days, days = (dateRange s (e - 1)).filter (isBusDay z.cal) →
          x = if days = [] then none else some ((days.map f).sum / days.length)

/-- The periods that ended by the curve date. -/
def pastPeriods (curveDate : Int) (l : List (Int × Int)) : List (Int × Int) := l.filter (fun p => p.2 ≤ curveDate)

/-- The periods that began before the curve date and end after it. -/
def straddlingPeriods (curveDate : Int) (l : List (Int × Int)) : List (Int × Int) :=
  l.filter (fun p => p.1 < curveDate ∧ curveDate < p.2)

/-- Period `i` is the last of those with `P`. -/
def FinalRequest (P : Int → Int → Prop) (starts ends : List Int) (i : Nat) : Prop :=
  ∀ (j : Nat) (s e : Int), i < j → starts[j]? = some s → ends[j]? = some e → ¬ P s e

end Frm.Spec
