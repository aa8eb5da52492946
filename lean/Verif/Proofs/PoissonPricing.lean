import Verif.Proofs.ShiftedInversion
import Mathlib.Analysis.Fourier.PoissonSummation
import Mathlib.Analysis.SpecialFunctions.Exp
import Mathlib.Analysis.SpecificLimits.Normed
import Mathlib.Analysis.PSeries
import Mathlib.MeasureTheory.Integral.DominatedConvergence

/-!
# Sums over the frequencies of a transform are sums of mean payoffs

Replacing the inversion integral of `ShiftedInversion` by a sum over equally spaced frequencies adds the mean payoffs at the strikes
`2 pi / eta` away, in logarithms, and their multiples.
-/

open MeasureTheory FourierTransform Filter Asymptotics

namespace Frm

set_option autoImplicit false

theorem summable_int_inv_sq (m eta : ℝ) (hm : 0 < m) (he : 0 < eta) : Summable fun n : ℤ => 1 / (m + (eta * n) ^ 2) := by
  have hs : Summable fun n : ℤ => 1 / (eta ^ 2) * (1 / (n : ℝ) ^ 2) := (Real.summable_one_div_int_pow.2 (by norm_num)).mul_left _
  refine Summable.of_norm_bounded_eventually hs ?_
  have hz : ∀ᶠ n : ℤ in cofinite, n ≠ 0 := by
    rw [eventually_cofinite]
    refine (Set.finite_singleton (0 : ℤ)).subset fun n hn => ?_
    simpa using hn
  filter_upwards [hz] with n hn
  have hn' : (n : ℝ) ≠ 0 := by exact_mod_cast hn
  have h2 : 0 < (n : ℝ) ^ 2 := by positivity
  rw [Real.norm_of_nonneg (by positivity), one_div_mul_one_div]
  apply one_div_le_one_div_of_le (by positivity)
  nlinarith [sq_nonneg (eta * n)]

theorem summable_int_exp (c : ℝ) (hc : 0 < c) : Summable fun n : ℤ => Real.exp (-c * |(n : ℝ)|) := by
  have h : Summable fun n : ℕ => Real.exp (-c * |((n : ℤ) : ℝ)|) := by
    have hr : Real.exp (-c) < 1 := by rw [Real.exp_lt_one_iff]; linarith
    refine (summable_geometric_of_lt_one (Real.exp_pos _).le hr).congr fun n => ?_
    rw [← Real.exp_nat_mul]
    congr 1
    rw [abs_of_nonneg (by exact_mod_cast Int.natCast_nonneg n)]
    push_cast
    ring
  refine Summable.of_nat_of_neg h ?_
  refine h.congr fun n => ?_
  simp

namespace TransformedPayoff
variable {G : ℝ → ℝ → ℝ} {T : ℝ → ℂ} {b m : ℝ} (hG : TransformedPayoff G T b m)
  (hdec : ∀ s, ∃ C c : ℝ, 0 ≤ C ∧ 0 < c ∧ ∀ k, G k s ≤ C * Real.exp (-c * |k|))

include hG hdec

theorem summable_strikes (P : ℝ) (hP : 0 < P) (k s : ℝ) : Summable fun n : ℤ => G (k + P * n) s := by
  obtain ⟨C, c, hC, hc, hb⟩ := hdec s
  refine Summable.of_nonneg_of_le (fun n => hG.nonneg _ _) (fun n => ?_) ((summable_int_exp (c * P) (mul_pos hc hP)).mul_left (C * Real.exp (c * |k|)))
  refine (hb _).trans ?_
  rw [mul_assoc, ← Real.exp_add]
  refine mul_le_mul_of_nonneg_left (Real.exp_le_exp.2 ?_) hC
  have h1 : P * |(n : ℝ)| ≤ |k + P * n| + |k| := by
    have : P * |(n : ℝ)| = |(k + P * n) - k| := by rw [add_sub_cancel_left, abs_mul, abs_of_pos hP]
    rw [this]
    exact abs_sub _ _
  nlinarith

/-- Poisson's summation formula for the payoff at one log spot. -/
theorem poisson_point (eta : ℝ) (he : 0 < eta) (k s : ℝ) :
    ((∑' n : ℤ, G (k + 2 * Real.pi / eta * n) s : ℝ) : ℂ) =
      ((eta / (2 * Real.pi) : ℝ) : ℂ) * ∑' n : ℤ, Complex.exp (-Complex.I * ((eta * n : ℝ) : ℂ) * k) *
        (Complex.exp ((b + Complex.I * ((eta * n : ℝ) : ℂ)) * s) * T (eta * n)) := by
  have hpi := Real.pi_pos
  have hP : 0 < 2 * Real.pi / eta := by positivity
  obtain ⟨P, hPdef⟩ : ∃ P, P = 2 * Real.pi / eta := ⟨_, rfl⟩
  rw [← hPdef] at hP ⊢
  let f : ℝ → ℂ := fun t => (G (P * t) s : ℂ)
  have hcont : Continuous f := Complex.continuous_ofReal.comp (hG.cont.comp (by fun_prop : Continuous fun t : ℝ => (s, P * t)))
  have hO : f =O[cocompact ℝ] fun x : ℝ => |x| ^ (-2 : ℝ) := by
    obtain ⟨C, c, hC, hc, hb⟩ := hdec s
    refine IsBigO.of_bound (C * (2 / (c * P) ^ 2)) ?_
    filter_upwards [(isCompact_singleton (x := (0 : ℝ))).compl_mem_cocompact] with t ht'
    have ht : t ≠ 0 := by simpa using ht'
    have hcP : 0 < c * P := mul_pos hc hP
    have hat : 0 < |t| := abs_pos.2 ht
    rw [Complex.norm_real, Real.norm_of_nonneg (hG.nonneg _ _), Real.norm_of_nonneg (by positivity)]
    refine (hb _).trans ?_
    rw [mul_assoc]
    refine mul_le_mul_of_nonneg_left ?_ hC
    rw [Real.rpow_neg hat.le, Real.rpow_two, abs_mul, abs_of_pos hP, show -c * (P * |t|) = -(c * P * |t|) by ring, Real.exp_neg]
    have h1 := Real.quadratic_le_exp_of_nonneg (x := c * P * |t|) (by positivity)
    have h2 : (c * P * |t|) ^ 2 / 2 ≤ Real.exp (c * P * |t|) := by
      have : 0 ≤ c * P * |t| := by positivity
      linarith
    rw [show 2 / (c * P) ^ 2 * (|t| ^ 2)⁻¹ = ((c * P * |t|) ^ 2 / 2)⁻¹ by field_simp]
    exact inv_anti₀ (by positivity) h2
  have hF : ∀ n : ℤ, 𝓕 f n = ((eta / (2 * Real.pi) : ℝ) : ℂ) * (Complex.exp ((b + Complex.I * ((eta * (-n : ℤ) : ℝ) : ℂ)) * s) * T (eta * (-n : ℤ))) := by
    intro n
    rw [Real.fourier_real_eq_integral_exp_smul, ← hG.trans]
    have e1 : ∀ t : ℝ, Complex.exp (↑(-2 * Real.pi * t * n) * Complex.I) • f t =
        (fun k : ℝ => Complex.exp (Complex.I * ((eta * (-n : ℤ) : ℝ) : ℂ) * k) * (G k s : ℂ)) (P * t) := by
      intro t
      simp only [smul_eq_mul, f]
      congr 2
      have : (eta : ℂ) * P = 2 * Real.pi := by
        have : eta * P = 2 * Real.pi := by rw [hPdef]; field_simp
        exact_mod_cast this
      push_cast
      linear_combination (Complex.I * n * t) * this
    simp only [e1]
    rw [Measure.integral_comp_mul_left (fun k : ℝ => Complex.exp (Complex.I * ((eta * (-n : ℤ) : ℝ) : ℂ) * k) * (G k s : ℂ)) P]
    rw [abs_of_pos (inv_pos.2 hP), hPdef, inv_div, Complex.real_smul]
  have hsum : Summable fun n : ℤ => 𝓕 f n := by
    simp only [hF]
    apply Summable.mul_left
    have h1 := ((summable_int_inv_sq m eta hG.pos he).mul_left (Real.exp (b * s)))
    have h2 : Summable fun n : ℤ => Complex.exp ((b + Complex.I * ((eta * n : ℝ) : ℂ)) * s) * T (eta * n) := by
      refine Summable.of_norm_bounded h1 fun n => ?_
      rw [norm_mul, Complex.norm_exp]
      have : ((b + Complex.I * ((eta * n : ℝ) : ℂ)) * s).re = b * s := by simp
      rw [this]
      exact mul_le_mul_of_nonneg_left (hG.decay _) (Real.exp_pos _).le
    exact (Equiv.neg ℤ).summable_iff.2 h2
  have key := Real.tsum_eq_tsum_fourier_of_rpow_decay_of_summable hcont (by norm_num : (1 : ℝ) < 2) hO hsum (k / P)
  have hl : ∀ n : ℤ, f (k / P + n) = ((G (k + P * n) s : ℝ) : ℂ) := by
    intro n
    simp only [f]
    congr 2
    field_simp
  simp only [hl] at key
  rw [← Complex.ofReal_tsum] at key
  rw [key, ← tsum_mul_left, ← (Equiv.neg ℤ).tsum_eq]
  refine tsum_congr fun n => ?_
  rw [hF, fourier_coe_apply]
  simp only [Equiv.neg_apply, neg_neg]
  rw [mul_assoc, mul_comm (Complex.exp _ * T _)]
  congr 3
  have : (k : ℂ) / P * (2 * Real.pi) = eta * k := by
    have : k / P * (2 * Real.pi) = eta * k := by rw [hPdef]; field_simp
    exact_mod_cast this
  push_cast
  linear_combination (-Complex.I * n) * this

variable (μ : Measure ℝ) (hμ : Integrable (fun s => Real.exp (b * s)) μ)
include hμ

omit hdec hμ in
theorem summable_frequencies (eta : ℝ) (he : 0 < eta) (k : ℝ) :
    Summable fun n : ℤ => Complex.exp (-Complex.I * ((eta * n : ℝ) : ℂ) * k) * (lineTransform μ b (eta * n) * T (eta * n)) := by
  have h1 := ((summable_int_inv_sq m eta hG.pos he).mul_left (∫ s, Real.exp (b * s) ∂μ))
  refine Summable.of_norm_bounded h1 fun n => ?_
  rw [norm_mul, norm_mul, Complex.norm_exp]
  have : (-Complex.I * ((eta * n : ℝ) : ℂ) * k).re = 0 := by simp
  rw [this, Real.exp_zero, one_mul]
  exact mul_le_mul (lineTransform_bound μ b _) (hG.decay _) (norm_nonneg _) (integral_nonneg fun s => (Real.exp_pos _).le)

/-- The sum over equally spaced frequencies is the sum of the mean payoffs at equally spaced log strikes. -/
theorem poisson_mean (eta : ℝ) (he : 0 < eta) (k : ℝ) :
    HasSum (fun n : ℤ => ∫ s, G (k + 2 * Real.pi / eta * n) s ∂μ)
      (eta / (2 * Real.pi) * ∑' n : ℤ, (Complex.exp (-Complex.I * ((eta * n : ℝ) : ℂ) * k) * (lineTransform μ b (eta * n) * T (eta * n))).re) := by
  have hpi := Real.pi_pos
  have hP : 0 < 2 * Real.pi / eta := by positivity
  obtain ⟨P, hPdef⟩ : ∃ P, P = 2 * Real.pi / eta := ⟨_, rfl⟩
  have hpt := hG.poisson_point hdec eta he k
  rw [← hPdef] at hP hpt ⊢
  have hsk := summable_int_inv_sq m eta hG.pos he
  have hint : ∀ n : ℤ, Integrable (fun s => G (k + P * n) s) μ := by
    intro n
    refine hμ.mono' (hG.cont.comp (by fun_prop : Continuous fun s : ℝ => (s, k + P * n))).aestronglyMeasurable
      (Eventually.of_forall fun s => ?_)
    rw [Real.norm_of_nonneg (hG.nonneg _ _)]
    exact hG.bound _ _
  let F : ℤ → ℝ → ℂ := fun n s => Complex.exp (-Complex.I * ((eta * n : ℝ) : ℂ) * k) *
        (Complex.exp ((b + Complex.I * ((eta * n : ℝ) : ℂ)) * s) * T (eta * n))
  have hFn : ∀ n s, ‖F n s‖ ≤ Real.exp (b * s) * (1 / (m + (eta * n) ^ 2)) := by
    intro n s
    simp only [F]
    rw [norm_mul, norm_mul, Complex.norm_exp, Complex.norm_exp]
    have e1 : (-Complex.I * ((eta * n : ℝ) : ℂ) * k).re = 0 := by simp
    have e2 : ((b + Complex.I * ((eta * n : ℝ) : ℂ)) * s).re = b * s := by simp
    rw [e1, e2, Real.exp_zero, one_mul]
    exact mul_le_mul_of_nonneg_left (hG.decay _) (Real.exp_pos _).le
  have hFi : ∀ n, Integrable (F n) μ := by
    intro n
    refine (hμ.mul_const (1 / (m + (eta * n) ^ 2))).mono' ?_ (Eventually.of_forall fun s => hFn n s)
    exact (by simp only [F]; fun_prop : Continuous (F n)).aestronglyMeasurable
  have hFs : Summable fun n => ∫ s, ‖F n s‖ ∂μ := by
    refine Summable.of_nonneg_of_le (fun n => integral_nonneg fun s => norm_nonneg _) (fun n => ?_) (hsk.mul_left (∫ s, Real.exp (b * s) ∂μ))
    rw [← integral_mul_const]
    exact integral_mono (hFi n).norm (hμ.mul_const _) (fun s => hFn n s)
  have hF := hasSum_integral_of_summable_integral_norm hFi hFs
  -- the strikes' side is summable, as its partial sums are bounded
  have hls : ∀ s, Summable fun n : ℤ => G (k + P * n) s := fun s => hG.summable_strikes hdec P hP k s
  have htot : ∀ s, ∑' n : ℤ, G (k + P * n) s ≤ Real.exp (b * s) * (eta / (2 * Real.pi) * ∑' n : ℤ, 1 / (m + (eta * n) ^ 2)) := by
    intro s
    have h0 : 0 ≤ ∑' n : ℤ, G (k + P * n) s := tsum_nonneg fun n => hG.nonneg _ _
    have h1 : ∑' n : ℤ, G (k + P * n) s = ‖((∑' n : ℤ, G (k + P * n) s : ℝ) : ℂ)‖ := by
      rw [Complex.norm_real, Real.norm_of_nonneg h0]
    have h2 : ‖∑' n : ℤ, F n s‖ ≤ ∑' n : ℤ, Real.exp (b * s) * (1 / (m + (eta * n) ^ 2)) :=
      tsum_of_norm_bounded (hsk.mul_left _).hasSum fun n => hFn n s
    rw [tsum_mul_left] at h2
    rw [h1, hpt s, norm_mul, Complex.norm_real, Real.norm_of_nonneg (by positivity)]
    calc eta / (2 * Real.pi) * ‖∑' n : ℤ, F n s‖ ≤ eta / (2 * Real.pi) * (Real.exp (b * s) * ∑' n : ℤ, 1 / (m + (eta * n) ^ 2)) :=
          mul_le_mul_of_nonneg_left h2 (by positivity)
      _ = _ := by ring
  have hG0 : ∀ n : ℤ, (∫ s, ‖G (k + P * n) s‖ ∂μ) = ∫ s, G (k + P * n) s ∂μ := by
    intro n
    congr 1
    funext s
    exact Real.norm_of_nonneg (hG.nonneg _ _)
  have hGs : Summable fun n : ℤ => ∫ s, ‖G (k + P * n) s‖ ∂μ := by
    simp only [hG0]
    refine summable_of_sum_le (c := (∫ s, Real.exp (b * s) ∂μ) * (eta / (2 * Real.pi) * ∑' n : ℤ, 1 / (m + (eta * n) ^ 2)))
      (fun n => integral_nonneg fun s => hG.nonneg _ _) fun u => ?_
    rw [← integral_finsetSum _ fun n _ => hint n, ← integral_mul_const]
    refine integral_mono (integrable_finsetSum _ fun n _ => hint n) (hμ.mul_const _) fun s => ?_
    exact ((hls s).sum_le_tsum u fun n _ => hG.nonneg _ _).trans (htot s)
  have hL := hasSum_integral_of_summable_integral_norm hint hGs
  have hre : ∫ s, ∑' n : ℤ, G (k + P * n) s ∂μ = eta / (2 * Real.pi) * ∑' n : ℤ, (∫ s, F n s ∂μ).re := by
    have h1 : ((∫ s, ∑' n : ℤ, G (k + P * n) s ∂μ : ℝ) : ℂ) = ((eta / (2 * Real.pi) : ℝ) : ℂ) * ∑' n : ℤ, ∫ s, F n s ∂μ := by
      rw [← integral_complex_ofReal, hF.tsum_eq, ← integral_const_mul]
      congr 1
      funext s
      exact hpt s
    have h2 := congrArg Complex.re h1
    rw [Complex.ofReal_re, Complex.re_ofReal_mul, Complex.re_tsum hF.summable] at h2
    exact h2
  rw [hre] at hL
  convert hL using 4 with n
  congr 1
  simp only [F]
  rw [integral_const_mul, integral_mul_const]
  rfl

end TransformedPayoff

end Frm
