import Verif.Model.Heston
import Verif.Proofs.Expectation
import Mathlib.Analysis.SpecialFunctions.Log.NegMulLog

/-!
# Moments of the quadratic-exponential scheme
-/

namespace Frm
open MeasureTheory ProbabilityTheory Set Filter Topology

set_option autoImplicit false

theorem gauss_pow_integrable (n : Nat) : Integrable (fun z : ℝ => z ^ n) (gaussianReal 0 1) := by
  have h := (memLp_id_gaussianReal (μ := 0) (v := 1) (n : NNReal)).integrable_norm_rpow'
  rw [← integrable_norm_iff (by fun_prop)]
  refine h.congr (Eventually.of_forall (fun z => ?_))
  simp

theorem gauss_moment (n : Nat) : ∫ z : ℝ, z ^ n ∂(gaussianReal 0 1) = iteratedDeriv n (fun t : ℝ => Real.exp (t ^ 2 / 2)) 0 := by
  have h := iteratedDeriv_mgf_zero (X := fun x : ℝ => x) (μ := gaussianReal 0 1) (by
    rw [integrableExpSet_fun_id_gaussianReal] <;> simp) n
  rw [mgf_fun_id_gaussianReal] at h
  simp only [NNReal.coe_one, one_mul, zero_mul, zero_add] at h
  rw [h]
  rfl

theorem gauss_one : ∫ z : ℝ, z ∂(gaussianReal 0 1) = 0 := integral_id_gaussianReal

theorem exp_half_deriv (f f' : ℝ → ℝ) (hf : ∀ t, HasDerivAt f (f' t) t) :
    deriv (fun t : ℝ => f t * Real.exp (t ^ 2 / 2)) = fun t => (f' t + t * f t) * Real.exp (t ^ 2 / 2) := by
  funext t
  have h2 : HasDerivAt (fun t : ℝ => t ^ 2 / 2) t t := by
    have := ((hasDerivAt_id' t).pow 2).div_const 2
    exact this.congr_deriv (by norm_num)
  have : HasDerivAt (fun t : ℝ => f t * Real.exp (t ^ 2 / 2)) (f' t * Real.exp (t ^ 2 / 2) + f t * (Real.exp (t ^ 2 / 2) * t)) t :=
    (hf t).mul h2.exp
  rw [this.deriv]
  ring

theorem gauss_two_three_four : (∫ z : ℝ, z ^ 2 ∂(gaussianReal 0 1) = 1) ∧ (∫ z : ℝ, z ^ 3 ∂(gaussianReal 0 1) = 0) ∧
    (∫ z : ℝ, z ^ 4 ∂(gaussianReal 0 1) = 3) := by
  have e1 : deriv (fun t : ℝ => Real.exp (t ^ 2 / 2)) = fun t => t * Real.exp (t ^ 2 / 2) := by
    have := exp_half_deriv (fun _ => 1) (fun _ => 0) (fun t => hasDerivAt_const t 1)
    simpa using this
  have e2 := exp_half_deriv (fun t => t) (fun _ => 1) (fun t => hasDerivAt_id t)
  have e3 := exp_half_deriv (fun t => 1 + t * t) (fun t => 2 * t) (fun t => by
    have := ((hasDerivAt_id' t).mul (hasDerivAt_id' t)).const_add 1
    exact this.congr_deriv (by ring))
  have e4 := exp_half_deriv (fun t => 2 * t + t * (1 + t * t)) (fun t => 3 + 3 * t ^ 2) (fun t => by
    have h1 := ((hasDerivAt_id' t).const_mul 2)
    have h2 := (hasDerivAt_id' t).mul (((hasDerivAt_id' t).mul (hasDerivAt_id' t)).const_add 1)
    exact (h1.add h2).congr_deriv (by simp only [Pi.mul_apply]; ring))
  refine ⟨?_, ?_, ?_⟩
  · rw [gauss_moment, iteratedDeriv_succ, iteratedDeriv_one, e1, e2]; simp
  · rw [gauss_moment, iteratedDeriv_succ, iteratedDeriv_succ, iteratedDeriv_one, e1, e2, e3]; simp
  · rw [gauss_moment, iteratedDeriv_succ, iteratedDeriv_succ, iteratedDeriv_succ, iteratedDeriv_one, e1, e2, e3, e4]; simp

theorem int_add {μ : Measure ℝ} {f g : ℝ → ℝ} {x y : ℝ} (hf : Integrable f μ ∧ ∫ z, f z ∂μ = x) (hg : Integrable g μ ∧ ∫ z, g z ∂μ = y) :
    Integrable (fun z => f z + g z) μ ∧ ∫ z, f z + g z ∂μ = x + y :=
  ⟨hf.1.add hg.1, by rw [integral_add hf.1 hg.1, hf.2, hg.2]⟩

theorem int_mul {μ : Measure ℝ} {f : ℝ → ℝ} {x : ℝ} (c : ℝ) (hf : Integrable f μ ∧ ∫ z, f z ∂μ = x) :
    Integrable (fun z => c * f z) μ ∧ ∫ z, c * f z ∂μ = c * x :=
  ⟨hf.1.const_mul c, by rw [integral_const_mul, hf.2]⟩

theorem gauss_quartic (c0 c1 c2 c3 c4 : ℝ) :
    ∫ z : ℝ, c0 + c1 * z + c2 * z ^ 2 + c3 * z ^ 3 + c4 * z ^ 4 ∂(gaussianReal 0 1) = c0 + c2 + 3 * c4 := by
  obtain ⟨h2, h3, h4⟩ := gauss_two_three_four
  have i1 := gauss_pow_integrable 1
  simp only [pow_one] at i1
  have h0 : Integrable (fun _ : ℝ => c0) (gaussianReal 0 1) ∧ ∫ _ : ℝ, c0 ∂(gaussianReal 0 1) = c0 := ⟨integrable_const _, by simp⟩
  rw [(int_add (int_add (int_add (int_add h0 (int_mul c1 ⟨i1, gauss_one⟩)) (int_mul c2 ⟨gauss_pow_integrable 2, h2⟩))
    (int_mul c3 ⟨gauss_pow_integrable 3, h3⟩)) (int_mul c4 ⟨gauss_pow_integrable 4, h4⟩)).2]
  ring

/-- The moments of a quadratic of a normal variable. -/
theorem quadratic_moments (a c : ℝ) :
    (∫ z : ℝ, a * (c + z) ^ 2 ∂(gaussianReal 0 1) = a * (c ^ 2 + 1)) ∧
    (∀ m, m = a * (c ^ 2 + 1) → ∫ z : ℝ, (a * (c + z) ^ 2 - m) ^ 2 ∂(gaussianReal 0 1) = 2 * a ^ 2 * (1 + 2 * c ^ 2)) := by
  constructor
  · have e : (fun z : ℝ => a * (c + z) ^ 2) = fun z => (a * c ^ 2) + (2 * a * c) * z + a * z ^ 2 + 0 * z ^ 3 + 0 * z ^ 4 := by
      funext z; ring
    rw [e, gauss_quartic]
    ring
  · rintro m rfl
    have e : (fun z : ℝ => (a * (c + z) ^ 2 - a * (c ^ 2 + 1)) ^ 2) =
        fun z => a ^ 2 + (-4 * a ^ 2 * c) * z + (4 * a ^ 2 * c ^ 2 - 2 * a ^ 2) * z ^ 2 + (4 * a ^ 2 * c) * z ^ 3 + a ^ 2 * z ^ 4 := by
      funext z; ring
    rw [e, gauss_quartic]
    ring

/-- The logarithm in the exponential branch. -/
noncomputable def qeLog (p z : ℝ) : ℝ := Real.log ((1 - p) / (1 - normCdf z))

theorem tail_pos (z : ℝ) : 0 < 1 - normCdf z := sub_pos.2 (normCdf_lt_one z)

theorem qeLog_hasDerivAt {p : ℝ} (hp : p < 1) (z : ℝ) : HasDerivAt (qeLog p) (normPdf z / (1 - normCdf z)) z := by
  have hw := tail_pos z
  have h1 : HasDerivAt (fun z => 1 - normCdf z) (-normPdf z) z := by simpa using (normCdf_hasDerivAt z).const_sub 1
  have e : qeLog p = fun z => Real.log (1 - p) - Real.log (1 - normCdf z) := by
    funext z
    exact Real.log_div (sub_pos.2 hp).ne' (tail_pos z).ne'
  rw [e]
  have := (h1.log hw.ne').const_sub (Real.log (1 - p))
  exact this.congr_deriv (by ring)

theorem tail_tendsto : Tendsto (fun z => 1 - normCdf z) atTop (𝓝 0) := by
  have := normCdf_atTop.const_sub 1
  simpa using this

theorem tail_log_tendsto {p : ℝ} (hp : p < 1) :
    Tendsto (fun z => (1 - normCdf z) * qeLog p z) atTop (𝓝 0) ∧ Tendsto (fun z => (1 - normCdf z) * qeLog p z ^ 2) atTop (𝓝 0) := by
  have e : ∀ z, qeLog p z = Real.log (1 - p) - Real.log (1 - normCdf z) := fun z => Real.log_div (sub_pos.2 hp).ne' (tail_pos z).ne'
  constructor
  · have hc : Continuous (fun w : ℝ => w * Real.log (1 - p) - w * Real.log w) :=
      (continuous_id.mul continuous_const).sub Real.continuous_mul_log
    have := (hc.tendsto 0).comp tail_tendsto
    simp only [zero_mul, sub_zero] at this
    refine this.congr (fun z => ?_)
    simp only [Function.comp, e]
    ring
  · have hc : Continuous (fun w : ℝ => (Real.sqrt w * Real.log (1 - p) - 2 * (Real.sqrt w * Real.log (Real.sqrt w))) ^ 2) := by
      have h1 : Continuous (fun w : ℝ => Real.sqrt w * Real.log (Real.sqrt w)) := Real.continuous_mul_log.comp Real.continuous_sqrt
      exact ((Real.continuous_sqrt.mul continuous_const).sub (continuous_const.mul h1)).pow 2
    have := (hc.tendsto 0).comp tail_tendsto
    simp only [Real.sqrt_zero, zero_mul, mul_zero, sub_zero, ne_eq, OfNat.ofNat_ne_zero, not_false_eq_true, zero_pow] at this
    refine this.congr (fun z => ?_)
    simp only [Function.comp, e]
    have hw := (tail_pos z).le
    rw [Real.log_sqrt hw]
    have hs := Real.sq_sqrt hw
    rw [show Real.sqrt (1 - normCdf z) * Real.log (1 - p) - 2 * (Real.sqrt (1 - normCdf z) * (Real.log (1 - normCdf z) / 2)) =
      Real.sqrt (1 - normCdf z) * (Real.log (1 - p) - Real.log (1 - normCdf z)) by ring, mul_pow, hs]

theorem qeLog_nonneg {p c z : ℝ} (hc : normCdf c = p) (hz : c < z) : 0 < qeLog p z := by
  apply Real.log_pos
  rw [one_lt_div (tail_pos z)]
  have := normCdf_strictMono hz
  linarith

theorem qeLog_first {p c : ℝ} (hc : normCdf c = p) (hp : p < 1) :
    IntegrableOn (fun z => normPdf z * qeLog p z) (Ioi c) ∧ ∫ z in Ioi c, normPdf z * qeLog p z = 1 - p := by
  have hw : ∀ z, HasDerivAt (fun z => 1 - normCdf z) (-normPdf z) z := fun z => by simpa using (normCdf_hasDerivAt z).const_sub 1
  have hG : ∀ z, HasDerivAt (fun z => -((1 - normCdf z) * qeLog p z) - (1 - normCdf z)) (normPdf z * qeLog p z) z := by
    intro z
    have := ((hw z).mul (qeLog_hasDerivAt hp z)).neg.sub (hw z)
    refine this.congr_deriv ?_
    have := (tail_pos z).ne'
    field_simp
    ring
  have hl : Tendsto (fun z => -((1 - normCdf z) * qeLog p z) - (1 - normCdf z)) atTop (𝓝 0) := by
    have := (tail_log_tendsto hp).1.neg.sub tail_tendsto
    simpa using this
  have hpos : ∀ z ∈ Ioi c, 0 ≤ normPdf z * qeLog p z := fun z hz => mul_nonneg (normPdf_pos z).le (qeLog_nonneg hc hz).le
  refine ⟨integrableOn_Ioi_deriv_of_nonneg' (fun z _ => hG z) hpos hl, ?_⟩
  rw [integral_Ioi_of_hasDerivAt_of_nonneg' (fun z _ => hG z) hpos hl]
  unfold qeLog
  rw [hc, div_self (sub_pos.2 hp).ne', Real.log_one]
  ring

theorem qeLog_second {p c : ℝ} (hc : normCdf c = p) (hp : p < 1) :
    IntegrableOn (fun z => normPdf z * qeLog p z ^ 2) (Ioi c) ∧ ∫ z in Ioi c, normPdf z * qeLog p z ^ 2 = 2 * (1 - p) := by
  have hw : ∀ z, HasDerivAt (fun z => 1 - normCdf z) (-normPdf z) z := fun z => by simpa using (normCdf_hasDerivAt z).const_sub 1
  have hG : ∀ z, HasDerivAt (fun z => -((1 - normCdf z) * qeLog p z ^ 2) - 2 * ((1 - normCdf z) * qeLog p z) - 2 * (1 - normCdf z))
      (normPdf z * qeLog p z ^ 2) z := by
    intro z
    have h1 := ((hw z).mul ((qeLog_hasDerivAt hp z).pow 2)).neg
    have h2 := ((hw z).mul (qeLog_hasDerivAt hp z)).const_mul 2
    have := (h1.sub h2).sub ((hw z).const_mul 2)
    refine this.congr_deriv ?_
    have := (tail_pos z).ne'
    simp only [Pi.pow_apply]
    field_simp
    ring
  have hl : Tendsto (fun z => -((1 - normCdf z) * qeLog p z ^ 2) - 2 * ((1 - normCdf z) * qeLog p z) - 2 * (1 - normCdf z)) atTop (𝓝 0) := by
    have := ((tail_log_tendsto hp).2.neg.sub ((tail_log_tendsto hp).1.const_mul 2)).sub (tail_tendsto.const_mul 2)
    simpa using this
  have hpos : ∀ z ∈ Ioi c, 0 ≤ normPdf z * qeLog p z ^ 2 := fun z hz => mul_nonneg (normPdf_pos z).le (sq_nonneg _)
  refine ⟨integrableOn_Ioi_deriv_of_nonneg' (fun z _ => hG z) hpos hl, ?_⟩
  rw [integral_Ioi_of_hasDerivAt_of_nonneg' (fun z _ => hG z) hpos hl]
  unfold qeLog
  rw [hc, div_self (sub_pos.2 hp).ne', Real.log_one]
  ring

/-- The moments of the exponential branch. -/
theorem exponential_moments {p b : ℝ} (hp0 : 0 < p) (hp : p < 1) (f : ℝ → ℝ)
    (h0 : ∀ z, normCdf z ≤ p → f z = 0) (h1 : ∀ z, p < normCdf z → f z = b * qeLog p z) :
    (∫ z, f z ∂(gaussianReal 0 1) = b * (1 - p)) ∧
    (∀ m, m = b * (1 - p) → ∫ z, (f z - m) ^ 2 ∂(gaussianReal 0 1) = b ^ 2 * (1 - p) * (1 + p)) := by
  obtain ⟨c, hc⟩ := normCdf_surj hp0 hp
  have hlt : ∀ z, p < normCdf z ↔ c < z := fun z => by rw [← hc]; exact normCdf_strictMono.lt_iff_lt
  have e1 : (fun z => normPdf z * f z) = (Ioi c).indicator (fun z => b * (normPdf z * qeLog p z)) := by
    funext z
    by_cases hz : c < z
    · rw [indicator_of_mem (mem_Ioi.2 hz), h1 z ((hlt z).2 hz)]; ring
    · rw [indicator_of_notMem (fun h => hz (mem_Ioi.1 h)), h0 z (not_lt.1 (fun h => hz ((hlt z).1 h))), mul_zero]
  have e2 : (fun z => normPdf z * f z ^ 2) = (Ioi c).indicator (fun z => b ^ 2 * (normPdf z * qeLog p z ^ 2)) := by
    funext z
    by_cases hz : c < z
    · rw [indicator_of_mem (mem_Ioi.2 hz), h1 z ((hlt z).2 hz)]; ring
    · rw [indicator_of_notMem (fun h => hz (mem_Ioi.1 h)), h0 z (not_lt.1 (fun h => hz ((hlt z).1 h)))]; simp
  obtain ⟨i1, s1⟩ := qeLog_first hc hp
  obtain ⟨i2, s2⟩ := qeLog_second hc hp
  have m1 : ∫ z, normPdf z * f z = b * (1 - p) := by
    rw [e1, integral_indicator measurableSet_Ioi, integral_const_mul, s1]
  have m2 : ∫ z, normPdf z * f z ^ 2 = b ^ 2 * (2 * (1 - p)) := by
    rw [e2, integral_indicator measurableSet_Ioi, integral_const_mul, s2]
  have I1 : Integrable (fun z => normPdf z * f z) := by
    rw [e1, integrable_indicator_iff measurableSet_Ioi]; exact i1.const_mul b
  have I2 : Integrable (fun z => normPdf z * f z ^ 2) := by
    rw [e2, integrable_indicator_iff measurableSet_Ioi]; exact i2.const_mul _
  constructor
  · rw [gaussian_expect, m1]
  · rintro m rfl
    rw [gaussian_expect]
    have e : (fun z => normPdf z * (f z - b * (1 - p)) ^ 2) =
        fun z => normPdf z * f z ^ 2 + -2 * (b * (1 - p)) * (normPdf z * f z) + (b * (1 - p)) ^ 2 * normPdf z := by
      funext z; ring
    rw [e, (int_add (int_add ⟨I2, m2⟩ (int_mul _ ⟨I1, m1⟩)) (int_mul _ ⟨normPdf_integrable, normPdf_integral⟩)).2]
    ring

end Frm
