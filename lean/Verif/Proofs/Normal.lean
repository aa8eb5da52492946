import Mathlib.Probability.Distributions.Gaussian.Real
import Mathlib.Probability.CDF
import Mathlib.MeasureTheory.Integral.IntervalIntegral.FundThmCalculus
import Mathlib.Analysis.Calculus.Deriv.MeanValue
import Verif.Model.Normal

/-! # The standard normal distribution -/

namespace Frm
open MeasureTheory ProbabilityTheory Set Filter Topology

set_option autoImplicit false

theorem normPdf_eq : normPdf = gaussianPDFReal 0 1 := by
  funext x
  rw [gaussianPDFReal_def]
  unfold normPdf
  simp [div_eq_mul_inv, mul_comm]

theorem normPdf_pos (x : ℝ) : 0 < normPdf x := by
  unfold normPdf
  exact div_pos (Real.exp_pos _) (Real.sqrt_pos.mpr (by positivity))

theorem normPdf_neg (x : ℝ) : normPdf (-x) = normPdf x := by unfold normPdf; rw [neg_sq]

theorem normPdf_continuous : Continuous normPdf := by unfold normPdf; fun_prop

theorem normPdf_integrable : Integrable normPdf := by rw [normPdf_eq]; exact integrable_gaussianPDFReal 0 1

theorem normPdf_integral : ∫ x, normPdf x = 1 := by rw [normPdf_eq]; exact integral_gaussianPDFReal_eq_one 0 one_ne_zero

theorem normCdf_eq_cdf (x : ℝ) : normCdf x = cdf (gaussianReal 0 1) x := by
  rw [cdf_eq_real, Measure.real, gaussianReal_apply_eq_integral 0 one_ne_zero, ENNReal.toReal_ofReal]
  · unfold normCdf; rw [normPdf_eq]
  · exact setIntegral_nonneg measurableSet_Iic (fun t _ => gaussianPDFReal_nonneg 0 1 t)

theorem normCdf_sub (a b : ℝ) : normCdf b - normCdf a = ∫ t in a..b, normPdf t := by
  unfold normCdf
  exact intervalIntegral.integral_Iic_sub_Iic normPdf_integrable.integrableOn normPdf_integrable.integrableOn

theorem normCdf_hasDerivAt (x : ℝ) : HasDerivAt normCdf (normPdf x) x := by
  have h : normCdf = fun y => normCdf 0 + ∫ t in (0 : ℝ)..y, normPdf t := by
    funext y; rw [← normCdf_sub]; ring
  rw [h]
  exact (intervalIntegral.integral_hasDerivAt_right (normPdf_continuous.intervalIntegrable _ _)
    (normPdf_continuous.stronglyMeasurableAtFilter _ _) normPdf_continuous.continuousAt).const_add _

theorem normCdf_strictMono : StrictMono normCdf :=
  strictMono_of_hasDerivAt_pos normCdf_hasDerivAt (fun x => normPdf_pos x)

theorem normCdf_continuous : Continuous normCdf :=
  continuous_iff_continuousAt.mpr (fun x => (normCdf_hasDerivAt x).continuousAt)

theorem normCdf_neg (x : ℝ) : normCdf (-x) = 1 - normCdf x := by
  have h1 : normCdf (-x) = ∫ t in Ioi x, normPdf t := by
    unfold normCdf
    rw [← integral_comp_neg_Ioi (c := x) (f := normPdf)]
    simp only [normPdf_neg]
  have h2 := intervalIntegral.integral_Iic_add_Ioi (b := x) (f := normPdf) (μ := volume) normPdf_integrable.integrableOn
    normPdf_integrable.integrableOn
  rw [normPdf_integral] at h2
  rw [h1]
  unfold normCdf
  linarith

theorem normCdf_atTop : Tendsto normCdf atTop (𝓝 1) := by
  have := tendsto_cdf_atTop (gaussianReal 0 1)
  refine this.congr (fun x => (normCdf_eq_cdf x).symm)

theorem normCdf_atBot : Tendsto normCdf atBot (𝓝 0) := by
  have := tendsto_cdf_atBot (gaussianReal 0 1)
  refine this.congr (fun x => (normCdf_eq_cdf x).symm)

theorem normCdf_pos (x : ℝ) : 0 < normCdf x := by
  have h1 : 0 ≤ normCdf (x - 1) := by rw [normCdf_eq_cdf]; exact cdf_nonneg _ _
  have h2 : normCdf (x - 1) < normCdf x := normCdf_strictMono (by linarith)
  linarith

theorem normCdf_lt_one (x : ℝ) : normCdf x < 1 := by
  have := normCdf_pos (-x)
  rw [normCdf_neg] at this
  linarith

theorem normCdf_zero : normCdf 0 = 1 / 2 := by
  have := normCdf_neg 0
  rw [neg_zero] at this
  linarith

/-- Every probability strictly between 0 and 1 has a quantile. -/
theorem normCdf_surj {p : ℝ} (h0 : 0 < p) (h1 : p < 1) : ∃ x, normCdf x = p := by
  obtain ⟨a, ha⟩ := (normCdf_atBot.eventually (gt_mem_nhds h0)).exists
  obtain ⟨b, hb⟩ := (normCdf_atTop.eventually (lt_mem_nhds h1)).exists
  exact mem_range_of_exists_le_of_exists_ge normCdf_continuous ⟨a, le_of_lt ha⟩ ⟨b, le_of_lt hb⟩

end Frm
