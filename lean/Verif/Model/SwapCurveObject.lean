import Verif.Model.Fixings
import Verif.Model.ZeroCurve

/-!
# RFR swap curves holding a `ZeroCurve` (`frm/term_structures/swap_curve.py:56-125`)

`Model/Fixings.lean` takes the forward rates as a function of the periods.  Here they are those of the curve object of
`Model/ZeroCurve.lean`.  Fixings are rationals, rates of the curve real numbers, `nan` is `none`.  The fixings have the
basis of the curve, as the constructor asserts (lines 61-62).
-/

namespace Frm

set_option autoImplicit false

/-- The calculation method as a type of forward rate (`frm/term_structures/swap_curve.py:80, 119`). -/
def RFRFixingCalcMethod.forwardType : RFRFixingCalcMethod → ForwardRateType
  | .dailyCompounded => .dailyCompounded
  | .weightedAverage => .weightedAverage
  | .simpleAverage => .simpleAverage

/-- The crossover rate, `nan` when a component is (`frm/term_structures/swap_curve.py:121-123`). -/
noncomputable def crossoverOnRate (hy : Rat) (h : NRat) (fy : Rat) (f : Option ℝ) : Option ℝ :=
  match h, f with
  | some h, some f => some (((hy : ℝ) * h + (1 + (hy : ℝ) * h) * fy * f) / ((hy : ℝ) + fy))
  | _, _ => none

/-- `RFRSwapCurve._get_crossover_coupon_rate` (`frm/term_structures/swap_curve.py:103-125`). -/
noncomputable def crossoverOn (z : ZeroCurve) (fixings : List (Int × Rat)) (method : RFRFixingCalcMethod)
    (starts ends : List Int) : Except Err (List (Option ℝ)) := do
  let hy ← yearFrac starts [z.curveDate] z.basis none
  let fy ← yearFrac [z.curveDate] ends z.basis none
  let cds := List.replicate starts.length z.curveDate
  let h ← getCouponRates z.basis fixings starts cds method
  let f ← z.forwardRates cds ends method.forwardType
  pure (((hy.zip h).zip (fy.zip f)).map (fun x => crossoverOnRate x.1.1 x.1.2 x.2.1 x.2.2))

/-- `RFRSwapCurve.get_fixings` (`frm/term_structures/swap_curve.py:67-100`). -/
noncomputable def rfrGetFixingsOn (z : ZeroCurve) (fixings : List (Int × Rat)) (starts ends : List Int)
    (method : RFRFixingCalcMethod) : Except Err (List (Option ℝ)) := do
  let out0 : List (Option ℝ) := List.replicate starts.length none
  let out1 ← maskedBlock (starts.map (fun s => decide (z.curveDate ≤ s))) starts ends out0
    (fun s e => z.forwardRates s e method.forwardType)
  let out2 ← maskedBlock (ends.map (fun e => decide (e ≤ z.curveDate))) starts ends out1
    (fun s e => (getCouponRates z.basis fixings s e method).map (fun l => l.map (fun x => x.map (fun (y : Rat) => (y : ℝ)))))
  maskedBlock ((starts.zip ends).map (fun p => decide (p.1 < z.curveDate) && decide (z.curveDate < p.2))) starts ends out2
    (crossoverOn z fixings method)

end Frm
