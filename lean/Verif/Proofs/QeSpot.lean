import Verif.Proofs.QuadraticExponential

/-!
# Exponential moments of the quadratic-exponential scheme
-/

namespace Frm
open MeasureTheory ProbabilityTheory Set Filter Topology

set_option autoImplicit false

theorem gaussian_integrable (f : ℝ → ℝ) : Integrable f (gaussianReal 0 1) ↔ Integrable (fun z => normPdf z * f z) := by
  rw [gaussianReal_of_var_ne_zero _ one_ne_zero,
    integrable_withDensity_iff_integrable_smul' (measurable_gaussianPDF _ _) (ae_of_all _ fun _ => gaussianPDF_lt_top)]
  simp only [toReal_gaussianPDF, smul_eq_mul, ← normPdf_eq]

theorem quadratic_exp_form (k b z : ℝ) (hk : 1 - 2 * k ≠ 0) : normPdf z * Real.exp (k * (b + z) ^ 2) =
    Real.exp (k * b ^ 2 / (1 - 2 * k)) / Real.sqrt (2 * Real.pi) * Real.exp (-((1 - 2 * k) / 2) * (z - 2 * k * b / (1 - 2 * k)) ^ 2) := by
  unfold normPdf
  rw [div_mul_eq_mul_div, div_mul_eq_mul_div, ← Real.exp_add, ← Real.exp_add]
  congr 2
  field_simp
  ring

/-- The mean of `exp (k (b + Z)²)` when `2 k < 1`. -/
theorem quadratic_exp {k : ℝ} (b : ℝ) (hk : 2 * k < 1) : Integrable (fun z => Real.exp (k * (b + z) ^ 2)) (gaussianReal 0 1) ∧
    ∫ z, Real.exp (k * (b + z) ^ 2) ∂(gaussianReal 0 1) = Real.exp (k * b ^ 2 / (1 - 2 * k)) / Real.sqrt (1 - 2 * k) := by
  have hq : 0 < 1 - 2 * k := sub_pos.2 hk
  rw [gaussian_integrable, gaussian_expect]
  simp only [fun z => quadratic_exp_form k b z hq.ne']
  constructor
  · exact ((integrable_exp_neg_mul_sq (half_pos hq)).comp_sub_right _).const_mul _
  · rw [integral_const_mul, integral_sub_right_eq_self (fun z => Real.exp (-((1 - 2 * k) / 2) * z ^ 2)), integral_gaussian,
      show Real.pi / ((1 - 2 * k) / 2) = 2 * Real.pi / (1 - 2 * k) by field_simp, Real.sqrt_div (by positivity)]
    have : Real.sqrt (2 * Real.pi) ≠ 0 := (Real.sqrt_pos.2 (by positivity)).ne'
    have : Real.sqrt (1 - 2 * k) ≠ 0 := (Real.sqrt_pos.2 hq).ne'
    field_simp

/-- Otherwise the mean is infinite. -/
theorem quadratic_exp_infinite {k : ℝ} (b : ℝ) (hk : 1 ≤ 2 * k) : ¬ Integrable (fun z => Real.exp (k * (b + z) ^ 2)) (gaussianReal 0 1) := by
  rw [gaussian_integrable]
  intro hi
  have key : ∀ z, 0 ≤ b * z → normPdf 0 ≤ normPdf z * Real.exp (k * (b + z) ^ 2) := by
    intro z hz
    unfold normPdf
    rw [div_mul_eq_mul_div, ← Real.exp_add]
    apply div_le_div_of_nonneg_right _ (Real.sqrt_nonneg _)
    apply Real.exp_le_exp.2
    nlinarith [sq_nonneg b, sq_nonneg (b + z), mul_nonneg (sub_nonneg.2 hk) (sq_nonneg (b + z))]
  have hc : ∀ s : Set ℝ, MeasurableSet s → volume s = ⊤ → (∀ z ∈ s, 0 ≤ b * z) → False := by
    intro s hs hinf hb
    have h1 : IntegrableOn (fun _ : ℝ => normPdf 0) s := by
      refine Integrable.mono' (hi.integrableOn (s := s)) (by fun_prop) ?_
      filter_upwards [ae_restrict_mem hs] with z hz
      rw [Real.norm_of_nonneg (normPdf_pos 0).le]
      exact key z (hb z hz)
    rw [integrableOn_const_iff] at h1
    rcases h1 with h1 | h1
    · exact (normPdf_pos 0).ne' (enorm_eq_zero.1 h1)
    · exact absurd hinf h1.ne
  rcases le_total 0 b with hb | hb
  · exact hc (Ioi 0) measurableSet_Ioi Real.volume_Ioi (fun z hz => mul_nonneg hb (le_of_lt hz))
  · exact hc (Iio 0) measurableSet_Iio Real.volume_Iio (fun z hz => mul_nonneg_of_nonpos_of_nonpos hb (le_of_lt hz))

theorem tail_exp_tendsto {p r : ℝ} (hp : p < 1) (hr : r < 1) : Tendsto (fun z => (1 - normCdf z) * Real.exp (r * qeLog p z)) atTop (𝓝 0) := by
  have e : ∀ z, (1 - normCdf z) * Real.exp (r * qeLog p z) = (1 - p) ^ r * (1 - normCdf z) ^ (1 - r) := by
    intro z
    have hw := tail_pos z
    have hp' := sub_pos.2 hp
    rw [show qeLog p z = Real.log (1 - p) - Real.log (1 - normCdf z) from Real.log_div hp'.ne' hw.ne', mul_sub, Real.exp_sub,
      Real.rpow_def_of_pos hp', Real.rpow_sub hw, Real.rpow_one, Real.rpow_def_of_pos hw, mul_comm r, mul_comm r]
    ring
  simp only [e]
  have hc : Continuous (fun w : ℝ => (1 - p) ^ r * w ^ (1 - r)) := continuous_const.mul (Real.continuous_rpow_const (sub_pos.2 hr).le)
  have := (hc.tendsto 0).comp tail_tendsto
  simpa [Function.comp_def, Real.zero_rpow (sub_pos.2 hr).ne'] using this

theorem qeLog_exp {p c r : ℝ} (hc : normCdf c = p) (hp : p < 1) (hr : r < 1) :
    IntegrableOn (fun z => normPdf z * Real.exp (r * qeLog p z)) (Ioi c) ∧ ∫ z in Ioi c, normPdf z * Real.exp (r * qeLog p z) = (1 - p) / (1 - r) := by
  have hr' : 0 < 1 - r := sub_pos.2 hr
  have hw : ∀ z, HasDerivAt (fun z => 1 - normCdf z) (-normPdf z) z := fun z => by simpa using (normCdf_hasDerivAt z).const_sub 1
  have hG : ∀ z, HasDerivAt (fun z => -((1 - normCdf z) * Real.exp (r * qeLog p z)) / (1 - r)) (normPdf z * Real.exp (r * qeLog p z)) z := by
    intro z
    have := ((hw z).mul ((qeLog_hasDerivAt hp z).const_mul r).exp).neg.div_const (1 - r)
    refine this.congr_deriv ?_
    have := (tail_pos z).ne'
    field_simp
    ring
  have hl : Tendsto (fun z => -((1 - normCdf z) * Real.exp (r * qeLog p z)) / (1 - r)) atTop (𝓝 0) := by
    have := (tail_exp_tendsto hp hr).neg.div_const (1 - r)
    simpa using this
  have hpos : ∀ z ∈ Ioi c, 0 ≤ normPdf z * Real.exp (r * qeLog p z) := fun z _ => mul_nonneg (normPdf_pos z).le (Real.exp_pos _).le
  refine ⟨integrableOn_Ioi_deriv_of_nonneg' (fun z _ => hG z) hpos hl, ?_⟩
  rw [integral_Ioi_of_hasDerivAt_of_nonneg' (fun z _ => hG z) hpos hl]
  unfold qeLog
  rw [hc, div_self (sub_pos.2 hp).ne', Real.log_one, mul_zero, Real.exp_zero]
  ring

theorem qeLog_exp_infinite {p c r : ℝ} (hc : normCdf c = p) (hp : p < 1) (hr : 1 ≤ r) :
    ¬ IntegrableOn (fun z => normPdf z * Real.exp (r * qeLog p z)) (Ioi c) := by
  intro hi
  have hd : ∀ z, HasDerivAt (fun z => (1 - p) * qeLog p z) (normPdf z * Real.exp (qeLog p z)) z := by
    intro z
    refine ((qeLog_hasDerivAt hp z).const_mul (1 - p)).congr_deriv ?_
    unfold qeLog
    rw [Real.exp_log (div_pos (sub_pos.2 hp) (tail_pos z))]
    ring
  have hcont : Continuous (fun z => normPdf z * Real.exp (qeLog p z)) := by
    have h1 : Continuous (qeLog p) := continuous_iff_continuousAt.2 (fun z => (qeLog_hasDerivAt hp z).continuousAt)
    have h2 : Continuous normPdf := by unfold normPdf; fun_prop
    exact h2.mul (Real.continuous_exp.comp h1)
  have h1 : IntegrableOn (fun z => normPdf z * Real.exp (qeLog p z)) (Ioi c) := by
    refine Integrable.mono' hi hcont.aestronglyMeasurable ?_
    filter_upwards [ae_restrict_mem measurableSet_Ioi] with z hz
    rw [Real.norm_of_nonneg (mul_nonneg (normPdf_pos z).le (Real.exp_pos _).le)]
    apply mul_le_mul_of_nonneg_left _ (normPdf_pos z).le
    apply Real.exp_le_exp.2
    nlinarith [qeLog_nonneg hc hz]
  have h2 := intervalIntegral_tendsto_integral_Ioi c h1 tendsto_id
  have h3 : (fun R => ∫ z in c..R, normPdf z * Real.exp (qeLog p z)) = fun R => (1 - p) * qeLog p R := by
    funext R
    rw [intervalIntegral.integral_eq_sub_of_hasDerivAt (fun z _ => hd z) (hcont.intervalIntegrable _ _)]
    have : qeLog p c = 0 := by unfold qeLog; rw [hc, div_self (sub_pos.2 hp).ne', Real.log_one]
    rw [this]; ring
  simp only [id] at h2
  rw [h3] at h2
  have h4 : Tendsto (fun R => (1 - p) * qeLog p R) atTop atTop := by
    apply Tendsto.const_mul_atTop (sub_pos.2 hp)
    apply Real.tendsto_log_atTop.comp
    have h5 : Tendsto (fun z => 1 - normCdf z) atTop (𝓝[>] 0) :=
      tendsto_nhdsWithin_iff.2 ⟨tail_tendsto, Eventually.of_forall tail_pos⟩
    have h6 := (tendsto_inv_nhdsGT_zero.comp h5).const_mul_atTop (sub_pos.2 hp)
    exact h6.congr (fun z => by simp [Function.comp, div_eq_mul_inv])
  exact not_tendsto_nhds_of_tendsto_atTop h4 _ h2

/-- The exponential moments of the exponential branch. -/
theorem exponential_exp {p b A : ℝ} (hp0 : 0 < p) (hp : p < 1) (f : ℝ → ℝ)
    (h0 : ∀ z, normCdf z ≤ p → f z = 0) (h1 : ∀ z, p < normCdf z → f z = b * qeLog p z) :
    (A * b < 1 → Integrable (fun z => Real.exp (A * f z)) (gaussianReal 0 1) ∧
      ∫ z, Real.exp (A * f z) ∂(gaussianReal 0 1) = p + (1 - p) / (1 - A * b)) ∧
    (1 ≤ A * b → ¬ Integrable (fun z => Real.exp (A * f z)) (gaussianReal 0 1)) := by
  obtain ⟨c, hc⟩ := normCdf_surj hp0 hp
  have hlt : ∀ z, p < normCdf z ↔ c < z := fun z => by rw [← hc]; exact normCdf_strictMono.lt_iff_lt
  have e1 : EqOn (fun z => normPdf z * Real.exp (A * f z)) (fun z => normPdf z * Real.exp (A * b * qeLog p z)) (Ioi c) := by
    intro z hz
    simp only
    rw [h1 z ((hlt z).2 hz), mul_assoc]
  have e2 : EqOn (fun z => normPdf z * Real.exp (A * f z)) normPdf (Iic c) := by
    intro z hz
    simp only
    rw [h0 z (not_lt.1 (fun h => absurd ((hlt z).1 h) (not_lt.2 hz))), mul_zero, Real.exp_zero, mul_one]
  rw [gaussian_integrable, gaussian_expect]
  constructor
  · intro hr
    obtain ⟨i1, s1⟩ := qeLog_exp hc hp hr
    have I1 : IntegrableOn (fun z => normPdf z * Real.exp (A * f z)) (Ioi c) := i1.congr_fun e1.symm measurableSet_Ioi
    have I2 : IntegrableOn (fun z => normPdf z * Real.exp (A * f z)) (Iic c) :=
      normPdf_integrable.integrableOn.congr_fun e2.symm measurableSet_Iic
    refine ⟨?_, ?_⟩
    · rw [← integrableOn_univ, ← Iic_union_Ioi (a := c)]
      exact I2.union I1
    · rw [← intervalIntegral.integral_Iic_add_Ioi I2 I1, setIntegral_congr_fun measurableSet_Iic e2, setIntegral_congr_fun measurableSet_Ioi e1, s1, ← hc]
      rfl
  · intro hr hi
    exact qeLog_exp_infinite hc hp hr (hi.integrableOn.congr_fun e1 measurableSet_Ioi)

end Frm
