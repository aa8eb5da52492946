import Mathlib.Analysis.Fourier.Inversion
import Mathlib.MeasureTheory.Integral.Prod
import Mathlib.Analysis.SpecialFunctions.ImproperIntegrals

/-!
# Inverting the transform, in the log strike, of a mean payoff

For a payoff `G k s` whose transform in `k` is an exponential of `s` times a kernel `T`, the mean of `G k` under a law of `s` is the inverse
transform of the transform of the law, along a shifted line, times the kernel.
-/

open MeasureTheory FourierTransform

namespace Frm

set_option autoImplicit false

section
variable (μ : Measure ℝ) (b : ℝ)

/-- The transform of the law along the line shifted by `b`. -/
noncomputable def lineTransform (v : ℝ) : ℂ := ∫ s, Complex.exp ((b + Complex.I * v) * s) ∂μ

theorem lineTransform_conj (v : ℝ) : lineTransform μ b (-v) = (starRingEnd ℂ) (lineTransform μ b v) := by
  unfold lineTransform
  rw [← integral_conj]
  congr 1
  funext s
  rw [← Complex.exp_conj]
  congr 1
  simp

theorem lineTransform_bound (v : ℝ) : ‖lineTransform μ b v‖ ≤ ∫ s, Real.exp (b * s) ∂μ := by
  unfold lineTransform
  refine (norm_integral_le_integral_norm _).trans (le_of_eq ?_)
  congr 1
  funext s
  rw [Complex.norm_exp]
  congr 1
  simp

end

/-- A payoff with an exponential transform. -/
structure TransformedPayoff (G : ℝ → ℝ → ℝ) (T : ℝ → ℂ) (b m : ℝ) : Prop where
  nonneg : ∀ k s, 0 ≤ G k s
  cont : Continuous fun p : ℝ × ℝ => G p.2 p.1
  bound : ∀ k s, G k s ≤ Real.exp (b * s)
  trans : ∀ s v : ℝ, ∫ k : ℝ, Complex.exp (Complex.I * v * k) * (G k s : ℂ) = Complex.exp ((b + Complex.I * v) * s) * T v
  ne : T 0 ≠ 0
  pos : 0 < m
  decay : ∀ v, ‖T v‖ ≤ 1 / (m + v ^ 2)

namespace TransformedPayoff
variable {G : ℝ → ℝ → ℝ} {T : ℝ → ℂ} {b m : ℝ} (hG : TransformedPayoff G T b m) (μ : Measure ℝ) (hμ : Integrable (fun s => Real.exp (b * s)) μ)

include hG

theorem kernel (v : ℝ) : T v = ∫ k : ℝ, Complex.exp (Complex.I * v * k) * (G k 0 : ℂ) := by
  rw [hG.trans 0 v]
  simp

theorem kernel_conj (v : ℝ) : T (-v) = (starRingEnd ℂ) (T v) := by
  rw [hG.kernel, hG.kernel, ← integral_conj]
  congr 1
  funext k
  rw [map_mul, Complex.conj_ofReal, ← Complex.exp_conj]
  congr 2
  simp

theorem integrable_k (s : ℝ) : Integrable (fun k : ℝ => G k s) := by
  have h2 : ∫ k : ℝ, Complex.exp (Complex.I * ((0 : ℝ) : ℂ) * k) * (G k s : ℂ) ≠ 0 := by
    rw [hG.trans]
    exact mul_ne_zero (Complex.exp_ne_zero _) hG.ne
  have h4 := (Integrable.of_integral_ne_zero h2).re
  have e : (fun k : ℝ => RCLike.re (Complex.exp (Complex.I * ((0 : ℝ) : ℂ) * k) * (G k s : ℂ))) = fun k : ℝ => G k s := by
    funext k
    rw [Complex.ofReal_zero, mul_zero, zero_mul, Complex.exp_zero, one_mul]
    exact Complex.ofReal_re _
  rwa [e] at h4

include hμ

theorem mean_continuous : Continuous fun k => ∫ s, G k s ∂μ := by
  apply continuous_of_dominated (bound := fun s => Real.exp (b * s))
  · intro k
    exact (hG.cont.comp (by fun_prop : Continuous fun s : ℝ => (s, k))).aestronglyMeasurable
  · intro k
    refine Filter.Eventually.of_forall fun s => ?_
    rw [Real.norm_of_nonneg (hG.nonneg k s)]
    exact hG.bound k s
  · exact hμ
  · exact Filter.Eventually.of_forall fun s => hG.cont.comp (by fun_prop : Continuous fun k : ℝ => (s, k))

theorem integrable_prod : Integrable (fun p : ℝ × ℝ => G p.2 p.1) (μ.prod volume) := by
  rw [integrable_prod_iff hG.cont.aestronglyMeasurable]
  refine ⟨Filter.Eventually.of_forall fun s => hG.integrable_k s, ?_⟩
  have e : (fun s : ℝ => ∫ k : ℝ, ‖G k s‖) = fun s => Real.exp (b * s) * (T 0).re := by
    funext s
    have e1 : (∫ k : ℝ, ‖G k s‖) = (∫ k : ℝ, Complex.exp (Complex.I * ((0 : ℝ) : ℂ) * k) * (G k s : ℂ)).re := by
      rw [← Complex.ofReal_re (∫ k : ℝ, ‖G k s‖), ← integral_complex_ofReal]
      congr 2
      funext k
      rw [Real.norm_of_nonneg (hG.nonneg k s)]
      simp
    rw [e1, hG.trans]
    have e2 : Complex.exp (((b : ℂ) + Complex.I * ((0 : ℝ) : ℂ)) * s) = ((Real.exp (b * s) : ℝ) : ℂ) := by
      push_cast
      congr 1
      ring
    rw [e2, Complex.re_ofReal_mul]
  rw [e]
  exact hμ.mul_const _

variable [IsProbabilityMeasure μ]

theorem mean_integrable : Integrable fun k => ∫ s, G k s ∂μ := (hG.integrable_prod μ hμ).integral_prod_right

theorem mean_transform (v : ℝ) :
    ∫ k : ℝ, Complex.exp (Complex.I * v * k) * ((∫ s, G k s ∂μ : ℝ) : ℂ) = lineTransform μ b v * T v := by
  have hprod : Integrable (fun p : ℝ × ℝ => Complex.exp (Complex.I * v * p.2) * (G p.2 p.1 : ℂ)) (μ.prod volume) := by
    refine (hG.integrable_prod μ hμ).ofReal.bdd_mul (c := 1) ?_ ?_
    · exact (by fun_prop : Continuous fun p : ℝ × ℝ => Complex.exp (Complex.I * v * p.2)).aestronglyMeasurable
    · refine Filter.Eventually.of_forall fun p => ?_
      rw [Complex.norm_exp]
      simp
  have e1 : ∀ k : ℝ, Complex.exp (Complex.I * v * k) * ((∫ s, G k s ∂μ : ℝ) : ℂ) = ∫ s, Complex.exp (Complex.I * v * k) * (G k s : ℂ) ∂μ := by
    intro k
    rw [integral_const_mul, integral_complex_ofReal]
  simp only [e1]
  rw [← integral_integral_swap (f := fun (s k : ℝ) => Complex.exp (Complex.I * v * k) * (G k s : ℂ)) hprod]
  simp only [hG.trans]
  rw [integral_mul_const]
  rfl

theorem mean_fourier (w : ℝ) :
    𝓕 (fun k => ((∫ s, G k s ∂μ : ℝ) : ℂ)) w = lineTransform μ b (-2 * Real.pi * w) * T (-2 * Real.pi * w) := by
  rw [Real.fourier_real_eq_integral_exp_smul, ← hG.mean_transform μ hμ]
  congr 1
  funext k
  rw [smul_eq_mul]
  congr 2
  push_cast
  ring

theorem mean_fourier_integrable : Integrable (𝓕 (fun k => ((∫ s, G k s ∂μ : ℝ) : ℂ))) := by
  have hc : Continuous (𝓕 (fun k => ((∫ s, G k s ∂μ : ℝ) : ℂ))) :=
    VectorFourier.fourierIntegral_continuous Real.continuous_fourierChar (by fun_prop) (hG.mean_integrable μ hμ).ofReal
  have hM0 : 0 ≤ ∫ s, Real.exp (b * s) ∂μ := integral_nonneg fun s => (Real.exp_pos _).le
  refine Integrable.mono' ((integrable_inv_one_add_sq.const_mul ((∫ s, Real.exp (b * s) ∂μ) * (1 / min m 1)))) hc.aestronglyMeasurable
    (Filter.Eventually.of_forall fun w => ?_)
  rw [hG.mean_fourier μ hμ, norm_mul, mul_assoc (∫ s, Real.exp (b * s) ∂μ)]
  apply mul_le_mul (lineTransform_bound μ b _) _ (norm_nonneg _) hM0
  refine (hG.decay _).trans ?_
  rw [← one_div (1 + w ^ 2), one_div_mul_one_div]
  have h1 : 0 < min m 1 := lt_min hG.pos one_pos
  apply one_div_le_one_div_of_le (by positivity)
  have h2 : min m 1 ≤ m := min_le_left _ _
  have h3 : min m 1 ≤ 1 := min_le_right _ _
  have h4 : 1 ≤ (2 * Real.pi) ^ 2 := by have := Real.two_le_pi; nlinarith
  have h5 := sq_nonneg w
  calc min m 1 * (1 + w ^ 2) = min m 1 + min m 1 * w ^ 2 := by ring
    _ ≤ m + (2 * Real.pi) ^ 2 * w ^ 2 := add_le_add h2 (mul_le_mul_of_nonneg_right (h3.trans h4) h5)
    _ = _ := by ring

/-- The inverse transform returns the mean payoff. -/
theorem inversion (k : ℝ) :
    ∫ s, G k s ∂μ = 1 / Real.pi * ∫ v in Set.Ioi (0 : ℝ), (Complex.exp (-Complex.I * v * k) * (lineTransform μ b v * T v)).re := by
  have hcont : Continuous fun k => ((∫ s, G k s ∂μ : ℝ) : ℂ) := Complex.continuous_ofReal.comp (hG.mean_continuous μ hμ)
  have hint : Integrable fun k => ((∫ s, G k s ∂μ : ℝ) : ℂ) := (hG.mean_integrable μ hμ).ofReal
  have hF := hG.mean_fourier_integrable μ hμ
  have inv := congrFun (hcont.fourierInv_fourier_eq hint hF) k
  rw [Real.fourierInv_eq'] at inv
  let f : ℝ → ℂ := fun v => Complex.exp (-Complex.I * v * k) * (lineTransform μ b v * T v)
  have e1 : ∀ w : ℝ, Complex.exp ((2 * Real.pi * inner ℝ w k : ℝ) * Complex.I) • 𝓕 (fun k => ((∫ s, G k s ∂μ : ℝ) : ℂ)) w =
      f ((-2 * Real.pi) * w) := by
    intro w
    rw [hG.mean_fourier μ hμ, smul_eq_mul]
    simp only [f]
    congr 2
    simp only [RCLike.inner_apply, conj_trivial]
    push_cast
    ring
  have hfi : Integrable fun w : ℝ => f ((-2 * Real.pi) * w) := by
    simp only [← e1]
    refine (hF.bdd_mul (c := 1) ?_ ?_)
    · exact (by fun_prop : Continuous fun w : ℝ => Complex.exp ((2 * Real.pi * inner ℝ w k : ℝ) * Complex.I)).aestronglyMeasurable
    · refine Filter.Eventually.of_forall fun w => ?_
      rw [Complex.norm_exp_ofReal_mul_I]
  have hpi := Real.pi_pos
  have hneg : -2 * Real.pi < 0 := by linarith
  simp only [e1] at inv
  have hfi' : Integrable f := (integrable_comp_mul_left_iff f hneg.ne).1 hfi
  rw [Measure.integral_comp_mul_left f (-2 * Real.pi)] at inv
  have hre : ∫ s, G k s ∂μ = |(-2 * Real.pi)⁻¹| * ∫ v, (f v).re := by
    have := congrArg Complex.re inv
    rw [Complex.ofReal_re, Complex.smul_re] at this
    rw [← this, smul_eq_mul]
    congr 1
    exact (integral_re hfi').symm
  have heven : ∀ v, (f v).re = (f |v|).re := by
    intro v
    rcases abs_choice v with h | h <;> rw [h]
    have : f (-v) = (starRingEnd ℂ) (f v) := by
      simp only [f, map_mul]
      rw [hG.kernel_conj, lineTransform_conj, ← Complex.exp_conj]
      congr 2
      simp
    rw [this, Complex.conj_re]
  have hhalf : (∫ v, (f v).re) = 2 * ∫ v in Set.Ioi (0 : ℝ), (f v).re := by
    rw [← integral_comp_abs (f := fun v => (f v).re)]
    congr 1
    funext v
    exact heven v
  have habs : |(-2 * Real.pi)⁻¹| = 1 / (2 * Real.pi) := by
    rw [abs_inv, abs_of_neg hneg, one_div]
    congr 1
    ring
  rw [hre, hhalf, habs, ← mul_assoc, show 1 / (2 * Real.pi) * 2 = 1 / Real.pi by field_simp]

end TransformedPayoff

end Frm
