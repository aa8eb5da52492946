import Verif.Model.Rates

/-!
# Compounding, as a user understands it
-/

namespace Frm.Spec

/-- How often interest is credited per year, for the periodic frequencies. -/
def creditsPerYear : CompoundingFreq → Option ℕ
  | .daily => some 365
  | .weekly => some 52
  | .monthly => some 12
  | .quarterly => some 4
  | .semiannual => some 2
  | .annual => some 1
  | .simple => none
  | .continuous => none

/-- An account credited `k` times with the rate `r / n`. -/
noncomputable def account (r : ℝ) (n : ℕ) : ℕ → ℝ
  | 0 => 1
  | k + 1 => account r n k + account r n k * (r / n)

/-- The rates for which one unit invested over `t` years still has a positive value. -/
def Admissible (f : CompoundingFreq) (t r : ℝ) : Prop :=
  match f with
  | .continuous => True
  | .simple => 0 < 1 + r * t
  | _ => ∀ n, creditsPerYear f = some n → 0 < 1 + r / n

end Frm.Spec
