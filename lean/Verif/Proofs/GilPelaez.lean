import Mathlib.MeasureTheory.Integral.Prod
import Mathlib.Analysis.SpecialFunctions.ImproperIntegrals
import Mathlib.Analysis.SpecialFunctions.Trigonometric.ArctanDeriv
import Mathlib.Analysis.Calculus.ParametricIntegral
import Mathlib.Analysis.Calculus.MeanValue

/-!
# The inversion of Gil-Pelaez

The principal value is taken by Abel summation, so no conditionally convergent integral is needed: where the inversion integral converges
absolutely it is the limit of the damped ones, and those are arctangents.
-/

open MeasureTheory Filter Topology

namespace Frm

set_option autoImplicit false

theorem damped_cos_integral (e a : ℝ) (he : 0 < e) : ∫ u in Set.Ioi (0 : ℝ), Real.exp (-e * u) * Real.cos (u * a) = e / (e ^ 2 + a ^ 2) := by
  have hre : ((-e : ℂ) + a * Complex.I).re < 0 := by simpa using he
  have h := integral_exp_mul_complex_Ioi hre 0
  have h2 := congrArg Complex.re h
  have hint := integrableOn_exp_mul_complex_Ioi hre 0
  rw [show (∫ x in Set.Ioi (0 : ℝ), Complex.exp (((-e : ℂ) + a * Complex.I) * x)).re =
    ∫ x in Set.Ioi (0 : ℝ), (Complex.exp (((-e : ℂ) + a * Complex.I) * x)).re from (integral_re hint).symm] at h2
  have e1 : ∀ x : ℝ, (Complex.exp (((-e : ℂ) + a * Complex.I) * x)).re = Real.exp (-e * x) * Real.cos (x * a) := by
    intro x
    rw [Complex.exp_re]
    simp [mul_comm]
  simp only [e1] at h2
  rw [h2]
  simp only [Complex.ofReal_zero, mul_zero, Complex.exp_zero, Complex.div_re, Complex.neg_re, Complex.one_re, Complex.neg_im, Complex.one_im,
    Complex.add_re, Complex.ofReal_re, Complex.mul_re, Complex.I_re, Complex.ofReal_im, Complex.I_im, Complex.normSq_apply, Complex.add_im, Complex.mul_im]
  ring_nf

theorem exp_neg_integrable (e : ℝ) (he : 0 < e) : IntegrableOn (fun u : ℝ => Real.exp (-e * u)) (Set.Ioi 0) := by
  exact integrableOn_exp_mul_Ioi (by linarith) 0

theorem abs_sin_div_le (u a : ℝ) : |Real.sin (u * a) / u| ≤ |a| := by
  by_cases hu : u = 0
  · simp [hu]
  rw [abs_div, div_le_iff₀ (abs_pos.2 hu), ← abs_mul, mul_comm a]
  exact Real.abs_sin_le_abs

/-- The damped sine integral is an arctangent. -/
theorem integral_exp_sin_div (e a : ℝ) (he : 0 < e) : ∫ u in Set.Ioi (0 : ℝ), Real.exp (-e * u) * (Real.sin (u * a) / u) = Real.arctan (a / e) := by
  have hd : ∀ x, HasDerivAt (fun a => ∫ u in Set.Ioi (0 : ℝ), Real.exp (-e * u) * (Real.sin (u * a) / u)) (e / (e ^ 2 + x ^ 2)) x := by
    intro x
    rw [← damped_cos_integral e x he]
    refine (hasDerivAt_integral_of_dominated_loc_of_deriv_le (μ := volume.restrict (Set.Ioi (0 : ℝ))) (bound := fun u => Real.exp (-e * u))
      (F := fun a u => Real.exp (-e * u) * (Real.sin (u * a) / u)) (F' := fun a u => Real.exp (-e * u) * Real.cos (u * a)) (s := Set.univ)
      Filter.univ_mem ?_ ?_ ?_ ?_ ?_ ?_).2
    · refine Eventually.of_forall fun a => ?_
      exact (by fun_prop : Measurable fun u : ℝ => Real.exp (-e * u) * (Real.sin (u * a) / u)).aestronglyMeasurable
    · refine Integrable.mono' ((exp_neg_integrable e he).mul_const |x|)
        (by fun_prop : Measurable fun u : ℝ => Real.exp (-e * u) * (Real.sin (u * x) / u)).aestronglyMeasurable (Eventually.of_forall fun u => ?_)
      rw [Real.norm_eq_abs, abs_mul, abs_of_pos (Real.exp_pos _)]
      exact mul_le_mul_of_nonneg_left (abs_sin_div_le u x) (Real.exp_pos _).le
    · exact (by fun_prop : Measurable fun u : ℝ => Real.exp (-e * u) * Real.cos (u * x)).aestronglyMeasurable
    · refine Eventually.of_forall fun u y _ => ?_
      rw [Real.norm_eq_abs, abs_mul, abs_of_pos (Real.exp_pos _)]
      exact mul_le_of_le_one_right (Real.exp_pos _).le (Real.abs_cos_le_one _)
    · exact exp_neg_integrable e he
    · refine (ae_restrict_iff' measurableSet_Ioi).2 (Eventually.of_forall fun u hu y _ => ?_)
      have hu0 : u ≠ 0 := (Set.mem_Ioi.1 hu).ne'
      have h1 : HasDerivAt (fun a : ℝ => u * a) u y := by simpa using (hasDerivAt_id y).const_mul u
      have h2 := ((h1.sin).div_const u).const_mul (Real.exp (-e * u))
      have e3 : Real.exp (-e * u) * Real.cos (u * y) = Real.exp (-e * u) * (Real.cos (u * y) * u / u) := by rw [mul_div_cancel_right₀ _ hu0]
      rw [e3]
      exact h2
  have ha : ∀ x, HasDerivAt (fun a => Real.arctan (a / e)) (e / (e ^ 2 + x ^ 2)) x := by
    intro x
    have h1 : HasDerivAt (fun a : ℝ => Real.arctan (a / e)) (1 / (1 + (x / e) ^ 2) * (1 / e)) x := ((hasDerivAt_id x).div_const e).arctan
    have e3 : e / (e ^ 2 + x ^ 2) = 1 / (1 + (x / e) ^ 2) * (1 / e) := by
      have : e ^ 2 + x ^ 2 ≠ 0 := by positivity
      field_simp
    rw [e3]
    exact h1
  have hc := is_const_of_deriv_eq_zero (f := fun a => (∫ u in Set.Ioi (0 : ℝ), Real.exp (-e * u) * (Real.sin (u * a) / u)) - Real.arctan (a / e))
    (fun x => ((hd x).sub (ha x)).differentiableAt) (fun x => by have := ((hd x).sub (ha x)).deriv; rw [sub_self] at this; exact this) a 0
  simp only [mul_zero, Real.sin_zero, zero_div, integral_zero, Real.arctan_zero, sub_zero] at hc
  linarith

theorem arctan_scaled_tendsto (a : ℝ) : Tendsto (fun n : ℕ => Real.arctan (a / (1 / ((n : ℝ) + 1)))) atTop (𝓝 (Real.pi / 2 * SignType.sign a)) := by
  have h1 : Tendsto (fun n : ℕ => ((n : ℝ) + 1)) atTop atTop := tendsto_atTop_add_const_right _ _ tendsto_natCast_atTop_atTop
  have e : ∀ n : ℕ, a / (1 / ((n : ℝ) + 1)) = a * ((n : ℝ) + 1) := fun n => by rw [div_div_eq_mul_div, div_one]
  simp only [e]
  rcases lt_trichotomy a 0 with h | h | h
  · rw [sign_neg h]
    have := (Real.tendsto_arctan_atBot.mono_right nhdsWithin_le_nhds).comp (h1.const_mul_atTop_of_neg h)
    simpa [Function.comp_def] using this
  · simp [h]
  · rw [sign_pos h]
    have := (Real.tendsto_arctan_atTop.mono_right nhdsWithin_le_nhds).comp (h1.const_mul_atTop h)
    simpa [Function.comp_def] using this

/-- The inversion with a weight: where the integral converges absolutely it is the mean of the sign. -/
theorem gil_pelaez (μ : Measure ℝ) [IsProbabilityMeasure μ] (rho : ℝ → ℝ) (k : ℝ) (h0 : Integrable rho μ) (h1 : Integrable (fun s => s * rho s) μ)
    (q : ℝ → ℝ) (hq : ∀ w, 0 < w → q w = ∫ s, Real.sin (w * (s - k)) / w * rho s ∂μ) (hint : IntegrableOn q (Set.Ioi 0)) :
    ∫ w in Set.Ioi (0 : ℝ), q w = Real.pi / 2 * ∫ s, (SignType.sign (s - k) : ℝ) * rho s ∂μ := by
  have hab : Integrable (fun s => |s - k| * |rho s|) μ := by
    have := (h1.sub (h0.const_mul k)).abs
    refine this.congr (Eventually.of_forall fun s => ?_)
    simp only [Pi.sub_apply]
    rw [← abs_mul, sub_mul]
  -- damped integrals
  have hd : ∀ e : ℝ, 0 < e → ∫ w in Set.Ioi (0 : ℝ), Real.exp (-e * w) * q w = ∫ s, Real.arctan ((s - k) / e) * rho s ∂μ := by
    intro e he
    have e1 : ∫ w in Set.Ioi (0 : ℝ), Real.exp (-e * w) * q w =
        ∫ w in Set.Ioi (0 : ℝ), ∫ s, Real.exp (-e * w) * (Real.sin (w * (s - k)) / w) * rho s ∂μ := by
      apply setIntegral_congr_fun measurableSet_Ioi
      intro w hw
      simp only
      rw [hq w hw, ← integral_const_mul]
      congr 1
      funext s
      ring
    rw [e1, integral_integral_swap]
    · congr 1
      funext s
      rw [integral_mul_const, integral_exp_sin_div e _ he]
    · have hdom := Integrable.mul_prod (exp_neg_integrable e he) hab
      refine hdom.mono' ?_ (Eventually.of_forall fun p => ?_)
      · refine AEStronglyMeasurable.mul ?_ ?_
        · exact (by fun_prop : Measurable fun p : ℝ × ℝ => Real.exp (-e * p.1) * (Real.sin (p.1 * (p.2 - k)) / p.1)).aestronglyMeasurable
        · exact h0.aestronglyMeasurable.comp_snd
      · simp only [Function.uncurry]
        rw [Real.norm_eq_abs, abs_mul, abs_mul, abs_of_pos (Real.exp_pos _), mul_assoc]
        exact mul_le_mul_of_nonneg_left (mul_le_mul_of_nonneg_right (abs_sin_div_le _ _) (abs_nonneg _)) (Real.exp_pos _).le
  have hn : ∀ n : ℕ, 0 < 1 / ((n : ℝ) + 1) := fun n => by positivity
  -- the limit of the damped integrals
  have l1 : Tendsto (fun n : ℕ => ∫ w in Set.Ioi (0 : ℝ), Real.exp (-(1 / ((n : ℝ) + 1)) * w) * q w) atTop (𝓝 (∫ w in Set.Ioi (0 : ℝ), q w)) := by
    refine tendsto_integral_of_dominated_convergence (fun w => |q w|) ?_ hint.abs ?_ ?_
    · intro n
      exact (by fun_prop : Measurable fun w : ℝ => Real.exp (-(1 / ((n : ℝ) + 1)) * w)).aestronglyMeasurable.mul hint.aestronglyMeasurable
    · intro n
      refine (ae_restrict_iff' measurableSet_Ioi).2 (Eventually.of_forall fun w hw => ?_)
      rw [Real.norm_eq_abs, abs_mul, abs_of_pos (Real.exp_pos _)]
      refine mul_le_of_le_one_left (abs_nonneg _) (Real.exp_le_one_iff.2 ?_)
      have := mul_pos (hn n) (Set.mem_Ioi.1 hw)
      linarith
    · refine Eventually.of_forall fun w => ?_
      have : Tendsto (fun n : ℕ => Real.exp (-(1 / ((n : ℝ) + 1)) * w) * q w) atTop (𝓝 (Real.exp (-0 * w) * q w)) :=
        ((Real.continuous_exp.tendsto _).comp ((tendsto_one_div_add_atTop_nhds_zero_nat.neg).mul_const w)).mul_const _
      simpa using this
  have l2 : Tendsto (fun n : ℕ => ∫ s, Real.arctan ((s - k) / (1 / ((n : ℝ) + 1))) * rho s ∂μ) atTop
      (𝓝 (∫ s, Real.pi / 2 * (SignType.sign (s - k) : ℝ) * rho s ∂μ)) := by
    refine tendsto_integral_of_dominated_convergence (fun s => Real.pi / 2 * |rho s|) ?_ (h0.abs.const_mul _) ?_ ?_
    · intro n
      exact (by fun_prop : Measurable fun s : ℝ => Real.arctan ((s - k) / (1 / ((n : ℝ) + 1)))).aestronglyMeasurable.mul h0.aestronglyMeasurable
    · intro n
      refine Eventually.of_forall fun s => ?_
      rw [Real.norm_eq_abs, abs_mul]
      refine mul_le_mul_of_nonneg_right (abs_le.2 ⟨?_, ?_⟩) (abs_nonneg _)
      · exact (Real.neg_pi_div_two_lt_arctan _).le
      · exact (Real.arctan_lt_pi_div_two _).le
    · exact Eventually.of_forall fun s => (arctan_scaled_tendsto (s - k)).mul_const _
  have e2 : ∀ n : ℕ, ∫ w in Set.Ioi (0 : ℝ), Real.exp (-(1 / ((n : ℝ) + 1)) * w) * q w = ∫ s, Real.arctan ((s - k) / (1 / ((n : ℝ) + 1))) * rho s ∂μ :=
    fun n => hd _ (hn n)
  simp only [e2] at l1
  rw [tendsto_nhds_unique l1 l2, ← integral_const_mul]
  congr 1
  funext s
  ring

end Frm
