import Verif.Model.Heston
import Verif.Props.C72
import Mathlib.Analysis.SpecialFunctions.Integrals.Basic

/-!
# C62: COS payoff coefficients
-/

namespace Frm
namespace Spec

set_option autoImplicit false

/-- The cosine of index `k` on the interval from `a` to `b`. -/
noncomputable def cosine (a b : ℝ) (k : Nat) (y : ℝ) : ℝ := Real.cos (k * Real.pi * (y - a) / (b - a))

/-- The cosine-series coefficient of `g` on the interval from `a` to `b`. -/
noncomputable def cosineCoefficient (a b : ℝ) (k : Nat) (g : ℝ → ℝ) : ℝ := 2 / (b - a) * ∫ y in a..b, g y * cosine a b k y

end Spec
end Frm

namespace Frm.Props
open Classical

set_option autoImplicit false

open Frm Frm.Spec

theorem cosine_eq (a b y : ℝ) (k : Nat) : cosine a b k y = Real.cos (k * Real.pi / (b - a) * (y - a)) := by
  unfold cosine
  congr 1
  ring

theorem integral_exp_cos (a w c d : ℝ) : (∫ y in c..d, Real.exp y * Real.cos (w * (y - a))) =
    1 / (1 + w ^ 2) * (Real.cos (w * (d - a)) * Real.exp d - Real.cos (w * (c - a)) * Real.exp c +
      w * Real.sin (w * (d - a)) * Real.exp d - w * Real.sin (w * (c - a)) * Real.exp c) := by
  have hw : (1 + w ^ 2) ≠ 0 := by positivity
  have h : ∀ y ∈ Set.uIcc c d, HasDerivAt
      (fun y => (Real.cos (w * (y - a)) + w * Real.sin (w * (y - a))) * Real.exp y / (1 + w ^ 2)) (Real.exp y * Real.cos (w * (y - a))) y := by
    intro y _
    have h1 : HasDerivAt (fun y : ℝ => w * (y - a)) w y := by simpa using ((hasDerivAt_id y).sub_const a).const_mul w
    have h2 := ((h1.cos.add (h1.sin.const_mul w)).mul (Real.hasDerivAt_exp y)).div_const (1 + w ^ 2)
    refine h2.congr_deriv ?_
    simp only [Pi.add_apply]
    field_simp
    ring
  rw [intervalIntegral.integral_eq_sub_of_hasDerivAt h (by apply Continuous.intervalIntegrable; fun_prop)]
  field_simp
  ring

theorem integral_cos_line (a w c d : ℝ) (hw : w ≠ 0) : (∫ y in c..d, Real.cos (w * (y - a))) =
    (Real.sin (w * (d - a)) - Real.sin (w * (c - a))) / w := by
  have h : ∀ y ∈ Set.uIcc c d, HasDerivAt (fun y => Real.sin (w * (y - a)) / w) (Real.cos (w * (y - a))) y := by
    intro y _
    have h1 : HasDerivAt (fun y : ℝ => w * (y - a)) w y := by simpa using ((hasDerivAt_id y).sub_const a).const_mul w
    refine (h1.sin.div_const w).congr_deriv ?_
    field_simp
  rw [intervalIntegral.integral_eq_sub_of_hasDerivAt h (by apply Continuous.intervalIntegrable; fun_prop)]
  ring

theorem freq_ne {a b : ℝ} (hab : a < b) {k : Nat} (hk : k ≠ 0) : k * Real.pi / (b - a) ≠ 0 := by
  have h1 : (k : ℝ) ≠ 0 := by exact_mod_cast hk
  have h2 := Real.pi_ne_zero
  have h3 : b - a ≠ 0 := (sub_pos.2 hab).ne'
  positivity

/-- The second coefficient function is the integral of the cosine, for every index and every sub-interval. -/
theorem C62_psi (a b : ℝ) (hab : a < b) (k : Nat) (c d : ℝ) : cosPsi a b k c d = ∫ y in c..d, cosine a b k y := by
  unfold cosPsi
  by_cases hk : k = 0
  · subst hk
    rw [if_pos rfl]
    simp [cosine]
  · rw [if_neg hk]
    simp only [cosine_eq]
    rw [integral_cos_line a _ c d (freq_ne hab hk), show (k : ℝ) * Real.pi * (d - a) / (b - a) = k * Real.pi / (b - a) * (d - a) by ring,
      show (k : ℝ) * Real.pi * (c - a) / (b - a) = k * Real.pi / (b - a) * (c - a) by ring, div_div_eq_mul_div]

/-- The first coefficient function is the integral of the exponential times the cosine exactly when the factor `e^d`, which the code
leaves out of its fourth term, does not matter. -/
theorem C62_chi_iff (a b : ℝ) (hab : a < b) (k : Nat) (c d : ℝ) :
    cosChi a b k c d = (∫ y in c..d, Real.exp y * cosine a b k y) ↔ k = 0 ∨ d = 0 ∨ Real.sin (k * Real.pi * (d - a) / (b - a)) = 0 := by
  simp only [cosine_eq]
  rw [integral_exp_cos]
  unfold cosChi
  simp only
  rw [show (k : ℝ) * Real.pi * (d - a) / (b - a) = k * Real.pi / (b - a) * (d - a) by ring,
    show (k : ℝ) * Real.pi * (c - a) / (b - a) = k * Real.pi / (b - a) * (c - a) by ring]
  have hw : 1 + (k * Real.pi / (b - a)) ^ 2 ≠ 0 := by positivity
  have hw2 : (1 / (1 + (k * Real.pi / (b - a)) ^ 2)) ≠ 0 := one_div_ne_zero hw
  rw [mul_right_inj' hw2]
  constructor
  · intro h
    have : k * Real.pi / (b - a) * Real.sin (k * Real.pi / (b - a) * (d - a)) * (Real.exp d - 1) = 0 := by linarith
    rcases mul_eq_zero.1 this with h1 | h1
    · rcases mul_eq_zero.1 h1 with h2 | h2
      · left
        by_contra hk
        exact freq_ne hab hk h2
      · right; right; exact h2
    · right; left
      exact Real.exp_eq_one_iff d |>.1 (by linarith)
  · rintro (rfl | rfl | h)
    · simp
    · simp
    · rw [h]; ring

theorem chi_call {a b : ℝ} (hab : a < b) (k : Nat) (c : ℝ) : cosChi a b k c b = ∫ y in c..b, Real.exp y * cosine a b k y := by
  rw [C62_chi_iff a b hab]
  right; right
  rw [mul_div_assoc, div_self (sub_pos.2 hab).ne', mul_one, Real.sin_nat_mul_pi]

theorem chi_put {a b : ℝ} (hab : a < b) (k : Nat) (c : ℝ) : cosChi a b k c 0 = ∫ y in c..0, Real.exp y * cosine a b k y := by
  rw [C62_chi_iff a b hab]
  right; left; rfl

theorem cosine_continuous (a b : ℝ) (k : Nat) : Continuous (cosine a b k) := by unfold cosine; fun_prop

/-- The coefficients used by the COS pricer are the cosine coefficients of the payoffs: of the call `(e^y - 1)⁺` and of the put
`(1 - e^y)⁺`, for every index, whenever the truncation interval straddles zero. -/
theorem C62_payoff_coefficients (a b : ℝ) (ha : a < 0) (hb : 0 < b) (k : Nat) :
    cosUk true a b k = cosineCoefficient a b k (fun y => optionPayoff 1 1 (Real.exp y)) ∧
    cosUk false a b k = cosineCoefficient a b k (fun y => optionPayoff (-1) 1 (Real.exp y)) := by
  have hab : a < b := ha.trans hb
  have hcos := cosine_continuous a b k
  have hexp := Real.continuous_exp
  have i1 : ∀ c d, IntervalIntegrable (fun y => Real.exp y * cosine a b k y) MeasureTheory.volume c d :=
    fun c d => (hexp.mul hcos).intervalIntegrable c d
  have i2 : ∀ c d, IntervalIntegrable (cosine a b k) MeasureTheory.volume c d := fun c d => hcos.intervalIntegrable c d
  have hpay : ∀ cp c d, IntervalIntegrable (fun y => optionPayoff cp 1 (Real.exp y) * cosine a b k y) MeasureTheory.volume c d := by
    intro cp c d
    apply Continuous.intervalIntegrable
    unfold optionPayoff
    fun_prop
  unfold cosUk cosineCoefficient
  refine ⟨?_, ?_⟩
  · rw [if_pos rfl, chi_call hab, C62_psi a b hab, ← intervalIntegral.integral_sub (i1 _ _) (i2 _ _),
      ← intervalIntegral.integral_add_adjacent_intervals (hpay 1 a 0) (hpay 1 0 b)]
    have z : (∫ y in a..0, optionPayoff 1 1 (Real.exp y) * cosine a b k y) = 0 := by
      rw [intervalIntegral.integral_congr (g := fun _ => 0)]
      · simp
      · intro y hy
        rw [Set.uIcc_of_le ha.le] at hy
        have : Real.exp y ≤ 1 := Real.exp_le_one_iff.2 hy.2
        simp only [optionPayoff]
        rw [max_eq_left (by linarith), zero_mul]
    rw [z, zero_add]
    congr 1
    apply intervalIntegral.integral_congr
    intro y hy
    rw [Set.uIcc_of_le hb.le] at hy
    have : 1 ≤ Real.exp y := Real.one_le_exp hy.1
    simp only [optionPayoff]
    rw [max_eq_right (by linarith)]
    ring
  · rw [if_neg (by decide), chi_put hab, C62_psi a b hab, neg_add_eq_sub, ← intervalIntegral.integral_sub (i2 _ _) (i1 _ _),
      ← intervalIntegral.integral_add_adjacent_intervals (hpay (-1) a 0) (hpay (-1) 0 b)]
    have z : (∫ y in (0 : ℝ)..b, optionPayoff (-1) 1 (Real.exp y) * cosine a b k y) = 0 := by
      rw [intervalIntegral.integral_congr (g := fun _ => 0)]
      · simp
      · intro y hy
        rw [Set.uIcc_of_le hb.le] at hy
        have : 1 ≤ Real.exp y := Real.one_le_exp hy.1
        simp only [optionPayoff]
        rw [max_eq_left (by linarith), zero_mul]
    rw [z, add_zero]
    congr 1
    apply intervalIntegral.integral_congr
    intro y hy
    rw [Set.uIcc_of_le ha.le] at hy
    have : Real.exp y ≤ 1 := Real.exp_le_one_iff.2 hy.2
    simp only [optionPayoff]
    rw [max_eq_right (by linarith)]
    ring

/-- The condition matters: when the interval lies above zero the put never pays on it, yet its first coefficient is positive. -/
theorem C62_outside (a b : ℝ) (ha : 0 < a) (hab : a < b) :
    0 < cosUk false a b 0 ∧ cosineCoefficient a b 0 (fun y => optionPayoff (-1) 1 (Real.exp y)) = 0 := by
  constructor
  · unfold cosUk cosChi cosPsi
    have h1 : 0 < b - a := sub_pos.2 hab
    have h2 := Real.add_one_lt_exp ha.ne'
    simp
    apply mul_pos (by positivity)
    linarith
  · unfold cosineCoefficient
    rw [intervalIntegral.integral_congr (g := fun _ => 0)]
    · simp
    · intro y hy
      rw [Set.uIcc_of_le hab.le] at hy
      have : 1 ≤ Real.exp y := Real.one_le_exp (ha.le.trans hy.1)
      simp only [optionPayoff]
      rw [max_eq_left (by linarith), zero_mul]

/-- A value: the first put coefficient on the interval from -1 to 1. -/
example : cosUk false (-1) 1 0 = Real.exp (-1) := by
  unfold cosUk cosChi cosPsi
  norm_num

end Frm.Props
