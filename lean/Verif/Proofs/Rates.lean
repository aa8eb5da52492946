import Verif.Model.Rates

/-! # Lemmas about compounding: the periodic frequencies are one case -/

namespace Frm

/-- The three kinds of compounding. -/
theorem freq_cases (f : CompoundingFreq) :
    f = .continuous ∨ f = .simple ∨ ∃ n : ℕ, 0 < n ∧ f.periodsPerYear = some n ∧ f ≠ .continuous ∧ f ≠ .simple := by
  cases f <;> simp [CompoundingFreq.periodsPerYear]

section
variable {f : CompoundingFreq} {n : ℕ} (hn : f.periodsPerYear = some n) (hc : f ≠ .continuous) (hs : f ≠ .simple)
include hn hc hs

theorem zeroRate_periodic (t df : ℝ) : f.zeroRate t df = n * ((1 / df) ^ (1 / (n * t)) - 1) := by
  unfold CompoundingFreq.zeroRate
  rw [hn]
  cases f <;> first | exact absurd rfl hc | exact absurd rfl hs | rfl

theorem discountFactor_periodic (t r : ℝ) : f.discountFactor t r = 1 / (1 + r / n) ^ (n * t) := by
  unfold CompoundingFreq.discountFactor
  rw [hn]
  cases f <;> first | exact absurd rfl hc | exact absurd rfl hs | rfl

theorem toContinuous_periodic (r : ℝ) : f.toContinuous r = n * Real.log (1 + r / n) := by
  unfold CompoundingFreq.toContinuous
  rw [hn]
  cases f <;> first | exact absurd rfl hc | exact absurd rfl hs | rfl

theorem ofContinuous_periodic (r : ℝ) : f.ofContinuous r = n * (Real.exp (r / n) - 1) := by
  unfold CompoundingFreq.ofContinuous
  rw [hn]
  cases f <;> first | exact absurd rfl hc | exact absurd rfl hs | rfl

end

end Frm
