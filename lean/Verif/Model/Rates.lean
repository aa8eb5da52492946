import Mathlib.Analysis.SpecialFunctions.Pow.Real
import Verif.Model.Enums

/-!
# Compounding (`frm/enums/utils.py:235-312`)

Floats are modelled as real numbers.
-/

namespace Frm

/-- `CompoundingFreq.periods_per_year` (`frm/enums/utils.py:246-257`). -/
def CompoundingFreq.periodsPerYear : CompoundingFreq → Option ℕ
  | .simple => none
  | .continuous => none
  | .daily => some 365
  | .weekly => some 52
  | .monthly => some 12
  | .quarterly => some 4
  | .semiannual => some 2
  | .annual => some 1

/-- `CompoundingFreq.calc_zero_rate_from_discount_factor` (`frm/enums/utils.py:279-286`). -/
noncomputable def CompoundingFreq.zeroRate (f : CompoundingFreq) (years discountFactor : ℝ) : ℝ :=
  match f, f.periodsPerYear with
  | .continuous, _ => -Real.log discountFactor / years
  | .simple, _ => ((1 / discountFactor) - 1) / years
  | _, some n => n * ((1 / discountFactor) ^ (1 / (n * years)) - 1)
  | _, none => 0

/-- `CompoundingFreq.calc_discount_factor_from_zero_rate` (`frm/enums/utils.py:288-295`). -/
noncomputable def CompoundingFreq.discountFactor (f : CompoundingFreq) (years zeroRate : ℝ) : ℝ :=
  match f, f.periodsPerYear with
  | .continuous, _ => Real.exp (-zeroRate * years)
  | .simple, _ => 1 / (1 + zeroRate * years)
  | _, some n => 1 / (1 + zeroRate / n) ^ (n * years)
  | _, none => 0

/-- First half of `convert_rate_to` (`frm/enums/utils.py:298-304`); `np.log1p(x)` is `log (1 + x)`. -/
noncomputable def CompoundingFreq.toContinuous (f : CompoundingFreq) (zeroRate : ℝ) : ℝ :=
  match f, f.periodsPerYear with
  | .continuous, _ => zeroRate
  | .simple, _ => Real.log (1 + zeroRate)
  | _, some n => n * Real.log (1 + zeroRate / n)
  | _, none => 0

/-- Second half of `convert_rate_to` (`frm/enums/utils.py:306-312`); `np.expm1(x)` is `exp x - 1`. -/
noncomputable def CompoundingFreq.ofContinuous (f : CompoundingFreq) (continuousRate : ℝ) : ℝ :=
  match f, f.periodsPerYear with
  | .continuous, _ => continuousRate
  | .simple, _ => Real.exp continuousRate - 1
  | _, some n => n * (Real.exp (continuousRate / n) - 1)
  | _, none => 0

/-- `CompoundingFreq.convert_rate_to` (`frm/enums/utils.py:297-312`). -/
noncomputable def CompoundingFreq.convertRateTo (f : CompoundingFreq) (zeroRate : ℝ) (target : CompoundingFreq) : ℝ :=
  target.ofContinuous (f.toContinuous zeroRate)

end Frm
