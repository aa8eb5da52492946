import Verif.Props.C79Law
import Mathlib.Probability.Distributions.Gaussian.Real
import Mathlib.Analysis.SpecialFunctions.Gaussian.FourierTransform

/-!
A model whose law is known in closed form. With perfect correlation, `kappa = vv / 2` and `theta = vv / 2` the integral of the
variance drops out of the log spot and the variance at expiry is the square of a Gaussian, so the log spot is an affine function of
the square of a Gaussian. The characteristic function in `/repo/frm/pricing_engine/heston.py:420-467` is the transform of that law,
which shows that the hypotheses about laws in C77 and C79 are met by a model with variance.
-/

namespace Frm.Props
open Classical

set_option autoImplicit false

open Frm Frm.Spec MeasureTheory ProbabilityTheory

/-- The model: variance today `v0`, volatility of variance `eta`. -/
noncomputable def squareModel (v0 eta : ℝ) : Heston := ⟨v0, eta, eta / 2, eta / 2, 1⟩

/-- The log spot at expiry as a function of a standard Gaussian. -/
noncomputable def squareLog (v0 eta x tau r q z : ℝ) : ℝ :=
  x + (r - q) * tau - v0 / eta - eta * tau / 4 +
    (1 - Real.exp (-(eta / 2) * tau)) / 2 * (z + Real.sqrt (2 * Real.exp (-(eta / 2) * tau) * v0 / (eta * (1 - Real.exp (-(eta / 2) * tau))))) ^ 2

theorem csqrt_of_sq (x : ℝ) (hx : 0 < x) : csqrt ((x ^ 2 : ℝ) : ℂ) = x := by
  have h1 := csqrt_sq ((x ^ 2 : ℝ) : ℂ)
  have h2 := csqrt_re_pos ((x ^ 2 : ℝ) : ℂ) (Or.inl (by rw [Complex.ofReal_re]; positivity))
  rw [Complex.ofReal_pow] at h1
  rcases sq_eq_sq_iff_eq_or_eq_neg.mp h1 with h3 | h3
  · rw [Complex.ofReal_pow]
    exact h3
  · rw [Complex.ofReal_pow, h3] at h2
    simp at h2
    linarith

theorem square_root (v0 eta : ℝ) (he : 0 < eta) (u : ℂ) : chfRoot (squareModel v0 eta) u = ((eta / 2 : ℝ) : ℂ) := by
  unfold chfRoot squareModel
  simp only
  have e : (((1 : ℝ) : ℂ) * (eta : ℂ) * u * Complex.I - ((eta / 2 : ℝ) : ℂ)) ^ 2 + (eta : ℂ) ^ 2 * (Complex.I * u + u ^ 2) =
      (((eta / 2) ^ 2 : ℝ) : ℂ) := by
    push_cast
    linear_combination ((eta : ℂ) ^ 2 * u ^ 2) * Complex.I_sq
  rw [e]
  exact csqrt_of_sq _ (by positivity)

/-- The mean of a complex exponential of a shifted squared Gaussian. -/
theorem squared_gaussian (a : ℂ) (ha : 2 * a.re < 1) (m : ℝ) :
    ∫ z, Complex.exp (a * (z + m) ^ 2) ∂(gaussianReal 0 1) =
      Complex.exp (-(Complex.log (1 - 2 * a)) / 2 + a * m ^ 2 / (1 - 2 * a)) := by
  have hre : 0 < (1 - 2 * a).re := by simp; linarith
  have hne : (1 - 2 * a) ≠ 0 := by
    intro h0
    rw [h0] at hre
    simp at hre
  have harg : (1 - 2 * a).arg ≠ Real.pi := by
    intro h0
    have := (Complex.arg_eq_pi_iff.mp h0).1
    linarith
  rw [integral_gaussianReal_eq_integral_smul one_ne_zero]
  have e1 : ∀ z : ℝ, gaussianPDFReal 0 1 z • Complex.exp (a * (z + m) ^ 2) =
      ((Real.sqrt (2 * Real.pi))⁻¹ : ℝ) * Complex.exp (-((1 - 2 * a) / 2) * z ^ 2 + 2 * a * m * z + a * m ^ 2) := by
    intro z
    unfold gaussianPDFReal
    rw [Complex.real_smul]
    push_cast
    rw [mul_assoc, ← Complex.exp_add]
    simp only [mul_one]
    congr 2
    ring
  simp_rw [e1]
  rw [integral_const_mul, integral_cexp_quadratic (by simp at hre ⊢; linarith), neg_neg]
  have e2 : a * m ^ 2 - (2 * a * m) ^ 2 / (4 * -((1 - 2 * a) / 2)) = a * m ^ 2 / (1 - 2 * a) := by
    have h2 : a = (1 - (1 - 2 * a)) / 2 := by ring
    generalize 1 - 2 * a = P at *
    subst h2
    field_simp
    ring
  rw [e2, Complex.exp_add, ← mul_assoc]
  congr 1
  have hp : (0 : ℝ) < 2 * Real.pi := by positivity
  have e3 : (Real.pi : ℂ) / ((1 - 2 * a) / 2) = ((2 * Real.pi : ℝ) : ℂ) * (1 - 2 * a)⁻¹ := by
    push_cast
    field_simp
  have hpi : ((2 * Real.pi : ℝ) : ℂ) ≠ 0 := by exact_mod_cast hp.ne'
  rw [e3, Complex.cpow_def_of_ne_zero (mul_ne_zero hpi (inv_ne_zero hne)), Complex.log_ofReal_mul hp (inv_ne_zero hne), Complex.log_inv _ harg,
    add_mul, Complex.exp_add, ← mul_assoc]
  have e4 : Complex.exp ((Real.log (2 * Real.pi) : ℂ) * (1 / 2)) = ((Real.sqrt (2 * Real.pi) : ℝ) : ℂ) := by
    rw [Real.sqrt_eq_rpow, Real.rpow_def_of_pos hp]
    push_cast
    rfl
  rw [e4, ← Complex.ofReal_mul, inv_mul_cancel₀ (Real.sqrt_pos.mpr hp).ne', Complex.ofReal_one, one_mul]
  congr 1
  ring

/-- The characteristic function is the transform of the law of an affine function of the square of a Gaussian. -/
theorem C79_square_law (v0 eta S0 tau r q b : ℝ) (hv : 0 ≤ v0) (he : 0 < eta) (ht : 0 < tau) (hb : b ≠ 1)
    (hb' : b * (1 - Real.exp (-(eta / 2) * tau)) < 1) :
    IsTransform ((gaussianReal 0 1).map (squareLog v0 eta (Real.log S0) tau r q)) (chfAlbrecher (squareModel v0 eta) (Real.log S0) tau r q) b := by
  have hm : Measurable (squareLog v0 eta (Real.log S0) tau r q) := by unfold squareLog; fun_prop
  have hE1 : Real.exp (-(eta / 2) * tau) < 1 := by
    rw [Real.exp_lt_one_iff]
    nlinarith
  have hE0 := Real.exp_pos (-(eta / 2) * tau)
  generalize hE : Real.exp (-(eta / 2) * tau) = E at *
  -- the mean of the complex exponential, on the line
  have key : ∀ v : ℝ, chfAlbrecher (squareModel v0 eta) (Real.log S0) tau r q (v - b * Complex.I) =
      ∫ z, Complex.exp (Complex.I * (v - b * Complex.I) * (squareLog v0 eta (Real.log S0) tau r q z : ℝ)) ∂(gaussianReal 0 1) := by
    intro v
    set w : ℂ := Complex.I * (v - b * Complex.I) with hw
    have hwre : w.re = b := by simp [hw]
    have hw1 : (1 - w) ≠ 0 := by
      intro h0
      have := congrArg Complex.re h0
      simp only [Complex.sub_re, Complex.one_re, hwre, Complex.zero_re] at this
      exact hb (by linarith)
    have hre : 2 * (w * ((1 - E) / 2 : ℝ)).re < 1 := by
      rw [Complex.re_mul_ofReal, hwre]
      linarith
    have hpsi : (1 - w * (1 - E)) ≠ 0 := by
      intro h0
      have h1 := congrArg Complex.re h0
      rw [show (w * (1 - (E : ℂ))) = w * ((1 - E : ℝ) : ℂ) by push_cast; ring] at h1
      simp only [Complex.sub_re, Complex.one_re, Complex.re_mul_ofReal, hwre, Complex.zero_re] at h1
      linarith
    have e1 : ∀ z : ℝ, Complex.exp (w * (squareLog v0 eta (Real.log S0) tau r q z : ℝ)) =
        Complex.exp (w * (Real.log S0 + (r - q) * tau - v0 / eta - eta * tau / 4)) *
          Complex.exp (w * ((1 - E) / 2 : ℝ) * (z + Real.sqrt (2 * E * v0 / (eta * (1 - E)))) ^ 2) := by
      intro z
      rw [← Complex.exp_add]
      congr 1
      unfold squareLog
      rw [hE]
      push_cast
      ring
    simp_rw [e1]
    rw [integral_const_mul, squared_gaussian _ hre, ← Complex.exp_add]
    have hms : ((Real.sqrt (2 * E * v0 / (eta * (1 - E))) : ℝ) : ℂ) ^ 2 = 2 * E * v0 / (eta * (1 - E)) := by
      rw [← Complex.ofReal_pow, Real.sq_sqrt (by have : 0 < 1 - E := by linarith
                                                 positivity)]
      push_cast
      ring
    rw [hms]
    have h1 := chfAlbrecher_eq (squareModel v0 eta) v0 hv (Real.log S0) tau r q (v - b * Complex.I)
    have hs : ({ squareModel v0 eta with var0 := v0 } : Heston) = squareModel v0 eta := rfl
    rw [hs] at h1
    rw [h1]
    have heC : (eta : ℂ) ≠ 0 := by exact_mod_cast he.ne'
    have hEC : (1 - (E : ℂ)) ≠ 0 := by
      have : ((1 - E : ℝ) : ℂ) ≠ 0 := by exact_mod_cast (by linarith : (1 - E) ≠ 0)
      simpa using this
    have hR := square_root v0 eta he (v - b * Complex.I)
    have hW : chfW (squareModel v0 eta) (v - b * Complex.I) = eta / 2 - w * eta := by
      unfold chfW squareModel
      simp only [hw]
      push_cast
      ring
    have hG : chfRatio (squareModel v0 eta) (v - b * Complex.I) = -w / (1 - w) := by
      rw [chfRatio_eq, hR, hW]
      push_cast
      rw [show (eta : ℂ) / 2 - w * eta - eta / 2 = eta * -w by ring, show (eta : ℂ) / 2 - w * eta + eta / 2 = eta * (1 - w) by ring,
        mul_div_mul_left _ _ heC]
    have hX : Complex.exp (-chfRoot (squareModel v0 eta) (v - b * Complex.I) * tau) = E := by
      rw [hR, ← hE]
      push_cast
      rfl
    have hP : chfPsi (squareModel v0 eta) tau (v - b * Complex.I) = 1 - 2 * (w * ((1 - E) / 2 : ℝ)) := by
      unfold chfPsi
      rw [hX, hG]
      push_cast
      field_simp
      ring
    have hD : chfD (squareModel v0 eta) (v - b * Complex.I) tau = -(w / eta) * ((1 - E) * (1 - w) / (1 - w * (1 - E))) := by
      unfold chfD
      rw [hX, hG, hR, hW]
      have : (1 - -w / (1 - w) * E) = (1 - w * (1 - E)) / (1 - w) := by field_simp; ring
      rw [this]
      simp only [squareModel]
      push_cast
      field_simp
      ring
    have hB : chfB (squareModel v0 eta) (v - b * Complex.I) tau = -(w * eta * tau) / 4 - Complex.log (1 - 2 * (w * ((1 - E) / 2 : ℝ))) / 2 := by
      unfold chfB
      rw [hP, hR, hW]
      simp only [squareModel]
      push_cast
      field_simp
      ring
    rw [hB, hD]
    congr 1
    push_cast
    rw [show (1 : ℂ) - 2 * (w * ((1 - E) / 2)) = 1 - w * (1 - E) by ring]
    generalize Complex.log (1 - w * (1 - E)) = l
    field_simp
    ring
  refine ⟨?_, fun v => ?_⟩
  · rw [integrable_map_measure (by fun_prop) hm.aemeasurable]
    have h0 := key 0
    have e : ∀ z : ℝ, Complex.exp (Complex.I * ((0 : ℝ) - b * Complex.I) * (squareLog v0 eta (Real.log S0) tau r q z : ℝ)) =
        ((Real.exp (b * squareLog v0 eta (Real.log S0) tau r q z) : ℝ) : ℂ) := by
      intro z
      push_cast
      congr 1
      linear_combination (-(b : ℂ) * (squareLog v0 eta (Real.log S0) tau r q z : ℝ)) * Complex.I_sq
    simp_rw [e] at h0
    rw [integral_complex_ofReal] at h0
    refine Integrable.of_integral_ne_zero fun h1 => ?_
    simp only [Function.comp_def] at h1
    rw [h1] at h0
    unfold chfAlbrecher at h0
    exact Complex.exp_ne_zero _ (h0.trans (by simp))
  · rw [key v, integral_map hm.aemeasurable (by fun_prop)]

/-- A model with variance for which the Carr-Madan prices are discounted mean payoffs: both damped lines are met, since the variance
has halved its distance to its mean. -/
example (lambda S0 r q K : ℝ) (hK : 0 < K) :
    hestonPrice .carrMadanQuadrature ⟨1, 2, 1, 1, 1⟩ lambda S0 (Real.log 2) r q 1 K =
        .ok (some (meanPayoff ((gaussianReal 0 1).map (squareLog 1 2 (Real.log S0) (Real.log 2) r q)) (Real.exp (-r * Real.log 2)) 1 K)) ∧
    hestonPrice .carrMadanQuadrature ⟨1, 2, 1, 1, 1⟩ lambda S0 (Real.log 2) r q (-1) K =
        .ok (some (meanPayoff ((gaussianReal 0 1).map (squareLog 1 2 (Real.log S0) (Real.log 2) r q)) (Real.exp (-r * Real.log 2)) (-1) K)) := by
  have hm : Measurable (squareLog 1 2 (Real.log S0) (Real.log 2) r q) := by unfold squareLog; fun_prop
  have := Measure.isProbabilityMeasure_map (μ := gaussianReal 0 1) hm.aemeasurable
  have e : squareModel 1 2 = ⟨1, 2, 1, 1, 1⟩ := by unfold squareModel; norm_num
  have hE : Real.exp (-(2 / 2) * Real.log 2) = 1 / 2 := by
    rw [show -(2 / 2) * Real.log 2 = -Real.log 2 by ring, Real.exp_neg, Real.exp_log (by norm_num)]
    norm_num
  have hl := Real.log_pos (by norm_num : (1 : ℝ) < 2)
  obtain ⟨h1, h2⟩ := C79_carr_madan_law ((gaussianReal 0 1).map (squareLog 1 2 (Real.log S0) (Real.log 2) r q)) ⟨1, 2, 1, 1, 1⟩ lambda S0 (Real.log 2) r q K hK
  refine ⟨h1 ?_, h2 ?_⟩
  · rw [← e]
    exact C79_square_law 1 2 S0 _ r q _ (by norm_num) (by norm_num) hl (by norm_num) (by rw [hE]; norm_num)
  · rw [← e]
    exact C79_square_law 1 2 S0 _ r q _ (by norm_num) (by norm_num) hl (by norm_num) (by rw [hE]; norm_num)

end Frm.Props
