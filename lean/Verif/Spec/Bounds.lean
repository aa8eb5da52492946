import Verif.Model.Black76
import Verif.Model.Sabr

/-!
# Numerical methods that respect their bounds

What scipy documents: a bounded minimisation and a bracketed root search evaluate and return points within the bounds, and `brentq` evaluates
the two ends first and raises `ValueError` when the values there have the same sign.
-/

namespace Frm
namespace Spec

set_option autoImplicit false

/-- Every point a method evaluates or returns is between `lo` and `hi`. -/
def SearchWithin (lo hi : ℝ) : Search → Prop
  | .ask x k => (lo ≤ x ∧ x ≤ hi) ∧ ∀ y, SearchWithin lo hi (k y)
  | .ret x _ => lo ≤ x ∧ x ≤ hi
  | .fail _ => True

/-- A method that evaluates and returns only points within its bounds. -/
def StaysInside (m : Method) : Prop := ∀ x0 lo hi, lo ≤ hi → SearchWithin lo hi (m x0 (.fin lo, .fin hi))

/-- A method that evaluates the two ends first and raises `ValueError` when the function has the same sign there. -/
def Bracketing (m : Method) : Prop :=
  ∀ x0 lo hi, lo ≤ hi → ∃ k : Npf → Npf → Search, m x0 (.fin lo, .fin hi) = .ask lo (fun a => .ask hi (k a)) ∧
    ∀ a b, 0 < a ∧ 0 < b ∨ a < 0 ∧ b < 0 → k (.fin a) (.fin b) = .fail .value

/-- A point within bounds: for each parameter a lower one and perhaps an upper one. -/
def InBox (x : List ℝ) (box : List (ℝ × Option ℝ)) : Prop := List.Forall₂ (fun y b => b.1 ≤ y ∧ ∀ u, b.2 = some u → y ≤ u) x box

/-- A minimiser that reports success only within its bounds. -/
def StaysInBox (m : BoxMinimiser) : Prop := ∀ x0 box f x, m x0 box f = .ok (true, x) → InBox x box

/-- A minimiser that reports success only at a smallest value within the bounds. -/
def FindsMinimum (m : BoxMinimiser) : Prop :=
  ∀ x0 box f x, m x0 box f = .ok (true, x) → ∃ e, f x = .ok (some e) ∧ ∀ y e', InBox y box → f y = .ok (some e') → e ≤ e'

end Spec
end Frm
