import Verif.Model.GarmanKohlhagen

/-!
# What a European FX option is worth: no-arbitrage quantities

None of this refers to the pricing formula.
-/

namespace Frm
namespace Spec

set_option autoImplicit false

/-- `r` is the domestic rate of the contract: the one supplied or, when a market forward is supplied, the one under which
covered interest parity gives that forward. -/
def DomesticRate (x : GkRow) (r : ℝ) : Prop :=
  match x.fwd with
  | none => r = x.rd
  | some F => x.S0 * Real.exp ((r - x.rf) * x.tau) = F

/-- The present value of one unit of the foreign currency at expiry. -/
noncomputable def assetPv (x : GkRow) : ℝ := x.S0 * Real.exp (-x.rf * x.tau)

/-- The present value of the strike. -/
noncomputable def strikePv (x : GkRow) (r : ℝ) : ℝ := x.K * Real.exp (-r * x.tau)

/-- What the function documents about its arguments: a positive spot, a time that is not negative, an option type, and a
positive forward, if any. -/
def FxAdmissible (x : GkRow) : Prop :=
  0 < x.S0 ∧ 0 ≤ x.tau ∧ (x.cp = 1 ∨ x.cp = -1) ∧ ∀ F, x.fwd = some F → 0 < F

end Spec
end Frm

namespace Frm
namespace Spec

set_option autoImplicit false

/-- `P` is the price of the contract as one of its terms `y` varies in `D`, the others being held fixed. -/
def PricesAs (f : ℝ → GkRow) (D : Set ℝ) (P : ℝ → ℝ) : Prop :=
  ∀ y ∈ D, ∃ v, garmanKohlhagenPrice [f y] = .ok [v] ∧ v.price = some (P y)

/-- A contract before expiry with positive spot, strike and volatility, priced off the two interest rates. -/
def RegularFx (x : GkRow) : Prop :=
  0 < x.S0 ∧ 0 < x.K ∧ 0 < x.tau ∧ 0 < x.vol ∧ (x.cp = 1 ∨ x.cp = -1) ∧ x.fwd = none

end Spec
end Frm
