import Verif.Spec.Leg
import Verif.Model.LegCurve
import Mathlib.Data.Real.Basic

/-!
# Specification of leg valuation with real discount factors
-/

namespace Frm.Spec

set_option autoImplicit false

/-- Present value of dated amounts under real discount factors. -/
noncomputable def presentValueR (S : Settings) (D : Int → ℝ) : List Flow → ℝ
  | [] => 0
  | (none, _) :: fs => presentValueR S D fs
  | (some d, x) :: fs => (if ToCome S d then (x : ℝ) * D d else 0) + presentValueR S D fs

/-- The dates on which a leg pays or paid. -/
def PaysOn (leg : Leg) (d : Int) : Prop :=
  ∃ r ∈ leg.rows, r.notionalPaymentDate = some d ∨ r.couponPaymentDate = some d

/-- A root search whose first step looks at the function. -/
def Looks (solver : Rat × Rat → RealRun) : Prop := ∀ b, ∃ x next, solver b = .eval x next

/-- A root search on a fixed function: the answers come from `f`. -/
def searchOnR (f : Rat → ℝ) : RealRun → Option (Bool × Rat)
  | .done c x => some (c, x)
  | .fail => none
  | .eval x next => searchOnR f (next (f x))

/-- The root of a search that converged. -/
def accepted : Option (Bool × Rat) → NRat
  | some (true, x) => some x
  | _ => none

end Frm.Spec
