import Verif.Proofs.Bachelier
import Mathlib.MeasureTheory.Integral.IntegralEqImproper

/-!
# Option formulas as expected payoffs

The Black and Bachelier formulas are the expectations of the payoff over a standard normal variable.
-/

namespace Frm
open MeasureTheory ProbabilityTheory Set Filter Topology

set_option autoImplicit false

theorem gaussian_expect (f : ℝ → ℝ) : ∫ z, f z ∂(gaussianReal 0 1) = ∫ z, normPdf z * f z := by
  rw [integral_gaussianReal_eq_integral_smul one_ne_zero, ← normPdf_eq]
  simp only [smul_eq_mul]

theorem pdf_tilt (z s : ℝ) : normPdf z * Real.exp (s * z - s ^ 2 / 2) = normPdf (z - s) := by
  rw [show z - s = z + -s by ring, pdf_shift]
  congr 2
  ring

theorem normPdf_tendsto : Tendsto normPdf atTop (𝓝 0) := by
  unfold normPdf
  rw [show (0 : ℝ) = 0 / Real.sqrt (2 * Real.pi) by simp]
  apply Tendsto.div_const
  apply Real.tendsto_exp_atBot.comp
  have : (fun x : ℝ => -x ^ 2 / 2) = fun x => -(x ^ 2 / 2) := by funext x; ring
  rw [this]
  apply tendsto_neg_atTop_atBot.comp
  exact (tendsto_pow_atTop two_ne_zero).atTop_div_const two_pos

/-- The expectation of the positive part of `g`, for `g` positive exactly above `c`. -/
theorem expect_positive_part {g G : ℝ → ℝ} {c l : ℝ} (hg : ∀ z, 0 < g z ↔ c < z) (hG : ∀ z, HasDerivAt G (normPdf z * g z) z)
    (hi : Integrable (fun z => normPdf z * g z)) (hl : Tendsto G atTop (𝓝 l)) :
    ∫ z, normPdf z * max 0 (g z) = l - G c := by
  have h1 : (fun z => normPdf z * max 0 (g z)) = (Ioi c).indicator (fun z => normPdf z * g z) := by
    funext z
    by_cases hz : c < z
    · rw [indicator_of_mem (mem_Ioi.2 hz), max_eq_right ((hg z).2 hz).le]
    · rw [indicator_of_notMem (by simpa using hz), max_eq_left (not_lt.1 (fun h => hz ((hg z).1 h))), mul_zero]
  rw [h1, integral_indicator measurableSet_Ioi]
  exact integral_Ioi_of_hasDerivAt_of_tendsto' (fun x _ => hG x) hi.integrableOn hl

theorem black_integrable (A B s : ℝ) : Integrable (fun z => normPdf z * (A * Real.exp (s * z - s ^ 2 / 2) - B)) := by
  have e : (fun z => normPdf z * (A * Real.exp (s * z - s ^ 2 / 2) - B)) = fun z => A * normPdf (z - s) - B * normPdf z := by
    funext z; rw [← pdf_tilt z s]; ring
  rw [e]
  exact ((normPdf_integrable.comp_sub_right s).const_mul A).sub (normPdf_integrable.const_mul B)

theorem black_mean (A B s : ℝ) : ∫ z, normPdf z * (A * Real.exp (s * z - s ^ 2 / 2) - B) = A - B := by
  have e : (fun z => normPdf z * (A * Real.exp (s * z - s ^ 2 / 2) - B)) = fun z => A * normPdf (z - s) - B * normPdf z := by
    funext z; rw [← pdf_tilt z s]; ring
  rw [e, integral_sub ((normPdf_integrable.comp_sub_right s).const_mul A) (normPdf_integrable.const_mul B),
    integral_const_mul, integral_const_mul, integral_sub_right_eq_self, normPdf_integral]
  ring

theorem black_call_expect {A B s : ℝ} (hA : 0 < A) (hB : 0 < B) (hs : 0 < s) :
    ∫ z, normPdf z * max 0 (A * Real.exp (s * z - s ^ 2 / 2) - B) = blackF 1 A B s := by
  have hg : ∀ z, 0 < A * Real.exp (s * z - s ^ 2 / 2) - B ↔ -bD2 A B s < z := by
    intro z
    rw [sub_pos, ← div_lt_iff₀' hA, ← Real.log_lt_iff_lt_exp (div_pos hB hA)]
    have hl : Real.log (B / A) = -Real.log (A / B) := by
      rw [Real.log_div hA.ne' hB.ne', Real.log_div hB.ne' hA.ne']; ring
    have e : s * z - s ^ 2 / 2 - Real.log (B / A) = s * (z + bD2 A B s) := by
      rw [hl]; unfold bD2 bD1; field_simp; ring
    constructor
    · intro h
      have : 0 < s * (z + bD2 A B s) := by rw [← e]; linarith
      have := (pos_iff_pos_of_mul_pos this).1 hs
      linarith
    · intro h
      have : 0 < s * (z + bD2 A B s) := mul_pos hs (by linarith)
      rw [← e] at this
      linarith
  have hG : ∀ z, HasDerivAt (fun z => A * normCdf (z - s) - B * normCdf z)
      (normPdf z * (A * Real.exp (s * z - s ^ 2 / 2) - B)) z := by
    intro z
    have h1 := ((normCdf_hasDerivAt (z - s)).comp_sub_const z s).const_mul A
    have h2 := (normCdf_hasDerivAt z).const_mul B
    refine (h1.sub h2).congr_deriv ?_
    rw [← pdf_tilt z s]; ring
  have hl : Tendsto (fun z => A * normCdf (z - s) - B * normCdf z) atTop (𝓝 (A * 1 - B * 1)) := by
    refine Tendsto.sub (Tendsto.const_mul A ?_) (normCdf_atTop.const_mul B)
    exact normCdf_atTop.comp (tendsto_atTop_add_const_right _ (-s) tendsto_id)
  rw [expect_positive_part hg hG (black_integrable A B s) hl]
  have e1 : -bD2 A B s - s = -bD1 A B s := by unfold bD2; ring
  simp only [e1, normCdf_neg]
  unfold blackF
  simp only [one_mul]
  ring

theorem black_expect {A B s cp : ℝ} (hA : 0 < A) (hB : 0 < B) (hs : 0 < s) (hcp : cp = 1 ∨ cp = -1) :
    ∫ z, max 0 (cp * (A * Real.exp (s * z - s ^ 2 / 2) - B)) ∂(gaussianReal 0 1) = blackF cp A B s := by
  rw [gaussian_expect]
  rcases hcp with rfl | rfl
  · simp only [one_mul]
    exact black_call_expect hA hB hs
  · have e : (fun z => normPdf z * max 0 (-1 * (A * Real.exp (s * z - s ^ 2 / 2) - B))) =
        fun z => normPdf z * max 0 (A * Real.exp (s * z - s ^ 2 / 2) - B) - normPdf z * (A * Real.exp (s * z - s ^ 2 / 2) - B) := by
      funext z
      rw [← mul_sub]
      congr 1
      rcases le_total 0 (A * Real.exp (s * z - s ^ 2 / 2) - B) with h | h
      · rw [max_eq_right h, max_eq_left (by linarith)]; ring
      · rw [max_eq_left h, max_eq_right (by linarith)]; ring
    have hi : Integrable (fun z => normPdf z * max 0 (A * Real.exp (s * z - s ^ 2 / 2) - B)) := by
      have := (black_integrable A B s).pos_part
      refine this.congr (Eventually.of_forall (fun z => ?_))
      simp only
      rw [max_comm, mul_max_of_nonneg _ _ (normPdf_pos z).le, mul_zero]
    rw [e, integral_sub hi (black_integrable A B s), black_call_expect hA hB hs, black_mean]
    have := black_parity A B s
    linarith

theorem bach_integrable (m s : ℝ) : Integrable (fun z => normPdf z * (m + s * z)) := by
  have h2 : Integrable (fun z : ℝ => z * normPdf z) := by
    have := (integrable_mul_exp_neg_mul_sq (b := 1 / 2) (by norm_num)).div_const (Real.sqrt (2 * Real.pi))
    refine this.congr (Eventually.of_forall (fun z => ?_))
    unfold normPdf
    simp only
    rw [mul_div_assoc]
    congr 3
    ring
  have e : (fun z => normPdf z * (m + s * z)) = fun z => m * normPdf z + s * (z * normPdf z) := by funext z; ring
  rw [e]
  exact (normPdf_integrable.const_mul m).add (h2.const_mul s)

theorem bach_call_expect {m s : ℝ} (hs : 0 < s) : ∫ z, normPdf z * max 0 (m + s * z) = bachF 1 m s := by
  have hg : ∀ z, 0 < m + s * z ↔ -(m / s) < z := by
    intro z
    rw [← neg_div, div_lt_iff₀ hs]
    constructor <;> intro h <;> linarith [mul_comm s z]
  have hG : ∀ z, HasDerivAt (fun z => m * normCdf z - s * normPdf z) (normPdf z * (m + s * z)) z := by
    intro z
    refine (((normCdf_hasDerivAt z).const_mul m).sub ((normPdf_hasDerivAt z).const_mul s)).congr_deriv ?_
    ring
  have hl : Tendsto (fun z => m * normCdf z - s * normPdf z) atTop (𝓝 (m * 1 - s * 0)) :=
    (normCdf_atTop.const_mul m).sub (normPdf_tendsto.const_mul s)
  rw [expect_positive_part hg hG (bach_integrable m s) hl]
  unfold bachF
  rw [normCdf_neg, normPdf_neg, one_mul, one_mul]
  ring

theorem normPdf_mul_neg_integral (f : ℝ → ℝ) : ∫ z, normPdf z * f (-z) = ∫ z, normPdf z * f z := by
  rw [← integral_neg_eq_self (fun z => normPdf z * f z)]
  simp only [normPdf_neg]

theorem bach_expect {m s cp : ℝ} (hs : 0 < s) (hcp : cp = 1 ∨ cp = -1) :
    ∫ z, max 0 (cp * (m + s * z)) ∂(gaussianReal 0 1) = bachF cp m s := by
  rw [gaussian_expect]
  rcases hcp with rfl | rfl
  · simp only [one_mul]
    exact bach_call_expect hs
  · rw [bach_put_call, ← bach_call_expect hs, ← normPdf_mul_neg_integral]
    congr 1
    funext z
    congr 2
    ring

end Frm
