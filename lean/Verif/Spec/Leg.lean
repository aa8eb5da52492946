import Verif.Model.Leg

/-!
# Specification of leg valuation

Cash flows are dated amounts; a present value is the sum of the flows still to come, each times the discount factor of
its date.
-/

namespace Frm.Spec

set_option autoImplicit false

/-- A dated amount; the date may be missing. -/
abbrev Flow := Option Int × Rat

/-- The flow is still to come: after the value date, or on it when so configured. -/
def ToCome (S : Settings) (d : Int) : Prop := S.valueDate < d ∨ (S.includeOnValueDate = true ∧ d = S.valueDate)

instance (S : Settings) (d : Int) : Decidable (ToCome S d) := by unfold ToCome; infer_instance

/-- Present value of dated amounts. -/
def presentValue (S : Settings) (D : Int → Rat) : List Flow → Rat
  | [] => 0
  | (none, _) :: fs => presentValue S D fs
  | (some d, x) :: fs => (if ToCome S d then x * D d else 0) + presentValue S D fs

/-- Total of the amounts dated in a set. -/
def total (P : Int → Prop) [DecidablePred P] : List (Option Int × NRat) → Rat
  | [] => 0
  | (some d, some x) :: fs => (if P d then x else 0) + total P fs
  | _ :: fs => total P fs

/-- The opposite perspective. -/
def opposite : PayRcv → PayRcv
  | .pay => .rcv
  | .rcv => .pay

/-- The notional flows of a leg. -/
def notionalFlows (rows : List LegRow) : List Flow := rows.map (fun r => (r.notionalPaymentDate, r.notionalPayment))

/-- The coupon flows of a leg, each with the given amount. -/
def couponFlows (amount : LegRow → Rat) (rows : List LegRow) : List Flow :=
  rows.map (fun r => (r.couponPaymentDate, amount r))

/-- The value of a float that must be a number. -/
def val (x : NRat) : Rat := x.getD 0

/-- What the parties agreed: everything in a row but the computed columns. -/
structure Terms where
  periodStart : Option Int
  periodEnd : Option Int
  notional : Rat
  notionalPayment : Rat
  notionalPaymentDate : Option Int
  couponPaymentDate : Option Int
  yearFrac : NRat
  rate : NRat
deriving DecidableEq

/-- The agreed part of a row. -/
def termsOf (r : LegRow) : Terms :=
  ⟨r.periodStart, r.periodEnd, r.notional, r.notionalPayment, r.notionalPaymentDate, r.couponPaymentDate, r.yearFrac,
    r.rate⟩

/-- A root search on a fixed function: the answers come from `f`. -/
def searchOn (f : Rat → Rat) : SolverRun → Option (Bool × Rat)
  | .done c x => some (c, x)
  | .fail => none
  | .eval x next => searchOn f (next (f x))

/-- A period `[s,e)` of the schedule contains the value date. -/
def Current (S : Settings) (r : LegRow) : Prop :=
  ∃ s e, r.periodStart = some s ∧ r.periodEnd = some e ∧ s ≤ S.valueDate ∧ S.valueDate < e

end Frm.Spec
