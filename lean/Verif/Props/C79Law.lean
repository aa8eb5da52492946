import Verif.Props.C79
import Verif.Proofs.ShiftedInversion
import Verif.Proofs.GilPelaez
import Mathlib.MeasureTheory.Measure.Dirac

/-!
# C79: closed-form Heston prices are discounted mean payoffs
-/

open MeasureTheory

namespace Frm
namespace Spec

set_option autoImplicit false

/-- The function is the transform of the law of the log spot along the line of imaginary part `-b`, where the law has the moment of order `b`. -/
def IsTransform (μ : Measure ℝ) (phi : ℂ → ℂ) (b : ℝ) : Prop :=
  Integrable (fun s => Real.exp (b * s)) μ ∧ ∀ v : ℝ, phi (v - b * Complex.I) = ∫ s, Complex.exp (Complex.I * (v - b * Complex.I) * s) ∂μ

/-- The discounted mean payoff under a law of the log spot. -/
noncomputable def meanPayoff (μ : Measure ℝ) (discount cp K : ℝ) : ℝ := discount * ∫ s, optionPayoff cp K (Real.exp s) ∂μ

end Spec
end Frm

namespace Frm.Props
open Classical

set_option autoImplicit false

open Frm Frm.Spec

theorem line_eq (μ : Measure ℝ) (phi : ℂ → ℂ) (b : ℝ) (h : IsTransform μ phi b) (v : ℝ) : phi (v - b * Complex.I) = lineTransform μ b v := by
  rw [h.2 v]
  unfold lineTransform
  congr 1
  funext s
  congr 1
  linear_combination (-(b : ℂ) * s) * Complex.I_sq

/-- The damped payoff never exceeds the exponential of the damping times the log spot. -/
theorem damped_bound (cp alpha k s : ℝ) (hcp : cp = 1 ∧ 0 < alpha ∨ cp = -1 ∧ 1 < alpha) :
    0 ≤ Real.exp (cp * alpha * k) * optionPayoff cp (Real.exp k) (Real.exp s) ∧
    Real.exp (cp * alpha * k) * optionPayoff cp (Real.exp k) (Real.exp s) ≤ Real.exp ((cp * alpha + 1) * s) := by
  have h0 : 0 ≤ optionPayoff cp (Real.exp k) (Real.exp s) := le_max_left _ _
  refine ⟨mul_nonneg (Real.exp_pos _).le h0, ?_⟩
  unfold optionPayoff
  rcases hcp with ⟨rfl, ha⟩ | ⟨rfl, ha⟩
  · by_cases hk : k ≤ s
    · have h1 : Real.exp k ≤ Real.exp s := Real.exp_le_exp.2 hk
      rw [max_eq_right (by linarith)]
      calc Real.exp (1 * alpha * k) * (1 * (Real.exp s - Real.exp k)) ≤ Real.exp (1 * alpha * s) * Real.exp s := by
            apply mul_le_mul
            · exact Real.exp_le_exp.2 (by nlinarith)
            · have := Real.exp_pos k; linarith
            · linarith
            · exact (Real.exp_pos _).le
        _ = Real.exp ((1 * alpha + 1) * s) := by rw [← Real.exp_add]; congr 1; ring
    · have h1 : Real.exp s ≤ Real.exp k := Real.exp_le_exp.2 (le_of_not_ge hk)
      rw [max_eq_left (by linarith), mul_zero]
      exact (Real.exp_pos _).le
  · by_cases hk : s ≤ k
    · have h1 : Real.exp s ≤ Real.exp k := Real.exp_le_exp.2 hk
      rw [max_eq_right (by linarith)]
      calc Real.exp (-1 * alpha * k) * (-1 * (Real.exp s - Real.exp k)) ≤ Real.exp (-1 * alpha * k) * Real.exp k := by
            apply mul_le_mul_of_nonneg_left _ (Real.exp_pos _).le
            have := Real.exp_pos s; linarith
        _ = Real.exp ((-1 * alpha + 1) * k) := by rw [← Real.exp_add]; congr 1; ring
        _ ≤ Real.exp ((-1 * alpha + 1) * s) := Real.exp_le_exp.2 (by nlinarith)
    · have h1 : Real.exp k ≤ Real.exp s := Real.exp_le_exp.2 (le_of_not_ge hk)
      rw [max_eq_left (by linarith), mul_zero]
      exact (Real.exp_pos _).le

/-- The damped payoff of Carr and Madan. -/
theorem damped_payoff (cp alpha : ℝ) (hcp : cp = 1 ∧ 0 < alpha ∨ cp = -1 ∧ 1 < alpha) :
    TransformedPayoff (fun k s => Real.exp (cp * alpha * k) * optionPayoff cp (Real.exp k) (Real.exp s)) (fun v => dampedTransform cp alpha 0 v)
      (cp * alpha + 1) (min ((cp * alpha) ^ 2) ((cp * alpha + 1) ^ 2)) := by
  have hm : 0 < min ((cp * alpha) ^ 2) ((cp * alpha + 1) ^ 2) := by
    apply lt_min <;> apply sq_pos_of_ne_zero <;> rcases hcp with ⟨rfl, ha⟩ | ⟨rfl, ha⟩ <;> intro h0 <;> linarith
  have hc2 : cp ^ 2 = 1 := by rcases hcp with ⟨rfl, _⟩ | ⟨rfl, _⟩ <;> norm_num
  refine ⟨fun k s => (damped_bound cp alpha k s hcp).1, ?_, fun k s => (damped_bound cp alpha k s hcp).2, ?_, ?_, hm, ?_⟩
  · unfold optionPayoff
    fun_prop
  · intro s v
    have h1 := kernel_shift cp alpha s v hcp
    rw [show ((((cp * alpha + 1 : ℝ) : ℂ)) + Complex.I * v) * s = Complex.I * (v - (cp * alpha + 1) * Complex.I) * s by
      push_cast
      linear_combination (((cp : ℂ) * alpha + 1) * s) * Complex.I_sq]
    exact h1
  · rw [C79_damped_kernel cp alpha 0 0 hcp]
    apply div_ne_zero (Complex.exp_ne_zero _)
    simp only [Complex.ofReal_zero, mul_zero, add_zero]
    rcases hcp with ⟨rfl, ha⟩ | ⟨rfl, ha⟩
    · have : alpha ^ 2 + 1 * alpha - 0 ^ 2 ≠ 0 := by nlinarith
      exact_mod_cast this
    · have : alpha ^ 2 + -1 * alpha - 0 ^ 2 ≠ 0 := by nlinarith
      exact_mod_cast this
  · intro v
    rw [C79_damped_kernel cp alpha 0 v hcp]
    have e3 : ((alpha ^ 2 + cp * alpha - v ^ 2 : ℝ) : ℂ) + Complex.I * (cp * 2 * alpha + 1) * v =
        (((cp * alpha : ℝ) : ℂ) + v * Complex.I) * (((cp * alpha + 1 : ℝ) : ℂ) + v * Complex.I) := by
      have hcc : (cp : ℂ) ^ 2 = 1 := by exact_mod_cast hc2
      push_cast
      linear_combination (-(v : ℂ) ^ 2) * Complex.I_sq - (alpha : ℂ) ^ 2 * hcc
    rw [e3]
    simp only [Complex.ofReal_zero, mul_zero, Complex.exp_zero, norm_div, norm_one, norm_mul]
    have n1 : ∀ x : ℝ, ‖(x : ℂ) + v * Complex.I‖ = Real.sqrt (x ^ 2 + v ^ 2) := fun x => by
      rw [Complex.norm_add_mul_I]
    rw [n1, n1]
    have hv := sq_nonneg v
    apply one_div_le_one_div_of_le (by linarith)
    calc min ((cp * alpha) ^ 2) ((cp * alpha + 1) ^ 2) + v ^ 2 =
        Real.sqrt (min ((cp * alpha) ^ 2) ((cp * alpha + 1) ^ 2) + v ^ 2) * Real.sqrt (min ((cp * alpha) ^ 2) ((cp * alpha + 1) ^ 2) + v ^ 2) :=
          (Real.mul_self_sqrt (by linarith)).symm
      _ ≤ _ := by
          apply mul_le_mul _ _ (Real.sqrt_nonneg _) (Real.sqrt_nonneg _)
          · exact Real.sqrt_le_sqrt (by have := min_le_left ((cp * alpha) ^ 2) ((cp * alpha + 1) ^ 2); linarith)
          · exact Real.sqrt_le_sqrt (by have := min_le_right ((cp * alpha) ^ 2) ((cp * alpha + 1) ^ 2); linarith)

theorem carr_madan_mean (μ : Measure ℝ) [IsProbabilityMeasure μ] (h : Heston) (S0 tau r q cp alpha K : ℝ) (hcp : cp = 1 ∧ 0 < alpha ∨ cp = -1 ∧ 1 < alpha)
    (hK : 0 < K) (hT : IsTransform μ (chfAlbrecher h (Real.log S0) tau r q) (cp * alpha + 1)) :
    Real.exp (-cp * alpha * Real.log K) / Real.pi *
      ∫ v in Set.Ioi (0 : ℝ), (Complex.exp (-Complex.I * v * Real.log K) * (Real.exp (-r * tau) *
          chfAlbrecher h (Real.log S0) tau r q (v - (cp * alpha + 1) * Complex.I) * dampedTransform cp alpha 0 v)).re =
      meanPayoff μ (Real.exp (-r * tau)) cp K := by
  have hinv := (damped_payoff cp alpha hcp).inversion μ hT.1 (Real.log K)
  have e1 : ∀ v : ℝ, (Complex.exp (-Complex.I * v * Real.log K) * (Real.exp (-r * tau) *
      chfAlbrecher h (Real.log S0) tau r q (v - (cp * alpha + 1) * Complex.I) * dampedTransform cp alpha 0 v)).re =
      Real.exp (-r * tau) * (Complex.exp (-Complex.I * v * Real.log K) * (lineTransform μ (cp * alpha + 1) v * dampedTransform cp alpha 0 v)).re := by
    intro v
    rw [← line_eq μ _ _ hT v, ← Complex.re_ofReal_mul]
    congr 1
    push_cast
    ring
  simp only [e1]
  rw [integral_const_mul]
  simp only [Real.exp_log hK] at hinv
  rw [integral_const_mul] at hinv
  unfold meanPayoff
  have hex : Real.exp (-cp * alpha * Real.log K) * Real.exp (cp * alpha * Real.log K) = 1 := by
    rw [← Real.exp_add, show -cp * alpha * Real.log K + cp * alpha * Real.log K = 0 by ring, Real.exp_zero]
  calc _ = Real.exp (-cp * alpha * Real.log K) * Real.exp (-r * tau) * (1 / Real.pi * ∫ v in Set.Ioi (0 : ℝ),
      (Complex.exp (-Complex.I * v * Real.log K) * (lineTransform μ (cp * alpha + 1) v * dampedTransform cp alpha 0 v)).re) := by ring
    _ = _ := by
      rw [← hinv]
      linear_combination (Real.exp (-r * tau) * ∫ s, optionPayoff cp K (Real.exp s) ∂μ) * hex

/-- Where the characteristic function is the transform of a law of the log spot on the line the method integrates along, the Carr-Madan price by
quadrature is the discounted mean payoff under that law: of calls with the moment of order 1.75, of puts with that of order -0.75. -/
theorem C79_carr_madan_law (μ : Measure ℝ) [IsProbabilityMeasure μ] (h : Heston) (lambda S0 tau r q K : ℝ) (hK : 0 < K) :
    (IsTransform μ (chfAlbrecher h (Real.log S0) tau r q) 1.75 →
      hestonPrice .carrMadanQuadrature h lambda S0 tau r q 1 K = .ok (some (meanPayoff μ (Real.exp (-r * tau)) 1 K))) ∧
    (IsTransform μ (chfAlbrecher h (Real.log S0) tau r q) (-0.75) →
      hestonPrice .carrMadanQuadrature h lambda S0 tau r q (-1) K = .ok (some (meanPayoff μ (Real.exp (-r * tau)) (-1) K))) := by
  constructor
  · intro hT
    have hc : (1 : ℝ) = 1 ∧ (0 : ℝ) < 0.75 ∨ (1 : ℝ) = -1 ∧ (1 : ℝ) < 0.75 := Or.inl ⟨rfl, by norm_num⟩
    have hm := carr_madan_mean μ h S0 tau r q 1 0.75 K hc hK (by rw [show (1 : ℝ) * 0.75 + 1 = 1.75 by norm_num]; exact hT)
    rw [← hm]
    unfold hestonPrice carrMadanPrice
    rw [if_neg (by simp)]
    simp only [if_true, Except.map]
    congr 2
    rw [show -(1 : ℝ) * Real.log K * 0.75 = -1 * 0.75 * Real.log K by ring, mul_div_right_comm]
    congr 2
    funext v
    unfold carrMadanIntegrand
    rw [C79_damped_kernel 1 0.75 0 v hc]
    simp only [Complex.ofReal_zero, mul_zero, Complex.exp_zero]
    congr 2
    ring
  · intro hT
    have hc : (-1 : ℝ) = 1 ∧ (0 : ℝ) < 1.75 ∨ (-1 : ℝ) = -1 ∧ (1 : ℝ) < 1.75 := Or.inr ⟨rfl, by norm_num⟩
    have hm := carr_madan_mean μ h S0 tau r q (-1) 1.75 K hc hK (by rw [show (-1 : ℝ) * 1.75 + 1 = -0.75 by norm_num]; exact hT)
    rw [← hm]
    unfold hestonPrice carrMadanPrice
    rw [if_neg (by simp)]
    simp only [if_neg (by norm_num : ¬ (-1 : ℝ) = 1), Except.map]
    congr 2
    rw [show -(-1 : ℝ) * Real.log K * 1.75 = -(-1) * 1.75 * Real.log K by ring, mul_div_right_comm]
    congr 2
    funext v
    unfold carrMadanIntegrand
    rw [C79_damped_kernel (-1) 1.75 0 v hc]
    simp only [Complex.ofReal_zero, mul_zero, Complex.exp_zero]
    congr 2
    ring

/-- The mean of the spot is the forward. -/
theorem law_forward (μ : Measure ℝ) (h : Heston) (S0 tau r q : ℝ) (hv : 0 ≤ h.var0) (hcorr : h.rho * h.vv < h.kappa) (hS : 0 < S0)
    (hT : IsTransform μ (chfAlbrecher h (Real.log S0) tau r q) 1) :
    Integrable Real.exp μ ∧ ∫ s, Real.exp s ∂μ = S0 * Real.exp ((r - q) * tau) := by
  refine ⟨by simpa using hT.1, ?_⟩
  have h1 := hT.2 0
  have h2 := C78_forward h hv hcorr S0 tau r q hS
  rw [show ((0 : ℝ) : ℂ) - ((1 : ℝ) : ℂ) * Complex.I = -Complex.I by push_cast; ring, h2] at h1
  have e : ∀ s : ℝ, Complex.exp (Complex.I * -Complex.I * s) = ((Real.exp s : ℝ) : ℂ) := by
    intro s
    push_cast
    congr 1
    linear_combination (-(s : ℂ)) * Complex.I_sq
  simp only [e] at h1
  rw [integral_complex_ofReal] at h1
  exact_mod_cast h1.symm

theorem payoff_difference (K S : ℝ) : optionPayoff 1 K S - optionPayoff (-1) K S = S - K := by
  unfold optionPayoff
  rcases le_total K S with h | h
  · rw [max_eq_right (by linarith), max_eq_left (by linarith)]; ring
  · rw [max_eq_left (by linarith), max_eq_right (by linarith)]; ring

theorem payoff_measurable (cp K : ℝ) : Measurable fun s : ℝ => optionPayoff cp K (Real.exp s) := by
  unfold optionPayoff
  fun_prop

theorem payoff_integrable (μ : Measure ℝ) [IsProbabilityMeasure μ] (cp K : ℝ) (hcp : cp = 1 ∨ cp = -1) (hi : Integrable Real.exp μ) :
    Integrable (fun s => optionPayoff cp K (Real.exp s)) μ := by
  refine Integrable.mono' (hi.add (integrable_const |K|)) (payoff_measurable cp K).aestronglyMeasurable (Filter.Eventually.of_forall fun s => ?_)
  have h1 := Real.exp_pos s
  have h2 := le_abs_self K
  have h3 := neg_abs_le K
  have h4 := abs_nonneg K
  simp only [Pi.add_apply]
  unfold optionPayoff
  rw [Real.norm_of_nonneg (le_max_left _ _)]
  apply max_le (by linarith)
  rcases hcp with rfl | rfl <;> linarith

theorem mean_parity (μ : Measure ℝ) [IsProbabilityMeasure μ] (S0 tau r q K : ℝ) (hi : Integrable Real.exp μ)
    (hf : ∫ s, Real.exp s ∂μ = S0 * Real.exp ((r - q) * tau)) :
    meanPayoff μ (Real.exp (-r * tau)) 1 K - meanPayoff μ (Real.exp (-r * tau)) (-1) K = S0 * Real.exp (-q * tau) - K * Real.exp (-r * tau) := by
  unfold meanPayoff
  rw [← mul_sub, ← integral_sub (payoff_integrable μ 1 K (Or.inl rfl) hi) (payoff_integrable μ (-1) K (Or.inr rfl) hi)]
  simp only [payoff_difference]
  rw [integral_sub hi (integrable_const _), hf]
  simp only [integral_const, probReal_univ, smul_eq_mul, one_mul]
  have : Real.exp (-q * tau) = Real.exp (-r * tau) * Real.exp ((r - q) * tau) := by rw [← Real.exp_add]; congr 1; ring
  rw [this]
  ring

/-- Put-call parity of the Carr-Madan prices by quadrature. -/
theorem C79_carr_madan_parity (μ : Measure ℝ) [IsProbabilityMeasure μ] (h : Heston) (lambda S0 tau r q K : ℝ) (hv : 0 ≤ h.var0)
    (hcorr : h.rho * h.vv < h.kappa) (hS : 0 < S0) (hK : 0 < K)
    (hT : ∀ b ∈ ({-0.75, 1, 1.75} : Set ℝ), IsTransform μ (chfAlbrecher h (Real.log S0) tau r q) b) :
    ∃ call put, hestonPrice .carrMadanQuadrature h lambda S0 tau r q 1 K = .ok (some call) ∧
      hestonPrice .carrMadanQuadrature h lambda S0 tau r q (-1) K = .ok (some put) ∧
      call - put = S0 * Real.exp (-q * tau) - K * Real.exp (-r * tau) := by
  obtain ⟨h1, h2⟩ := C79_carr_madan_law μ h lambda S0 tau r q K hK
  obtain ⟨hi, hf⟩ := law_forward μ h S0 tau r q hv hcorr hS (hT 1 (by simp))
  exact ⟨_, _, h1 (hT _ (by simp)), h2 (hT _ (by simp)), mean_parity μ S0 tau r q K hi hf⟩

/-! ## Lewis -/

/-- The lesser of spot and strike, damped by half a log strike. -/
theorem lewis_payoff : TransformedPayoff (fun k s => Real.exp (-(k / 2)) * min (Real.exp k) (Real.exp s)) (fun v => 1 / (((v ^ 2 + 1 / 4 : ℝ)) : ℂ)) (1 / 2) (1 / 4) := by
  refine ⟨fun k s => by positivity, by fun_prop, ?_, ?_, by norm_num, by norm_num, ?_⟩
  · intro k s
    rcases le_total k s with hk | hk
    · rw [min_eq_left (Real.exp_le_exp.2 hk), ← Real.exp_add]
      exact Real.exp_le_exp.2 (by linarith)
    · rw [min_eq_right (Real.exp_le_exp.2 hk), ← Real.exp_add]
      exact Real.exp_le_exp.2 (by linarith)
  · intro s v
    have a1 : 0 < ((1 / 2 : ℂ) + Complex.I * v).re := by norm_num
    have a2 : ((-(1 / 2) : ℂ) + Complex.I * v).re < 0 := by norm_num
    have n1 : (1 / 2 : ℂ) + Complex.I * v ≠ 0 := by intro h0; rw [h0] at a1; simp at a1
    have n2 : (-(1 / 2) : ℂ) + Complex.I * v ≠ 0 := by intro h0; rw [h0] at a2; simp at a2
    have i1 := integrableOn_exp_mul_complex_Iic a1 s
    have i2 := (integrableOn_exp_mul_complex_Ioi a2 s).const_mul (Complex.exp s)
    have f1 : ∀ k ∈ Set.Iic s, Complex.exp (Complex.I * v * k) * ((Real.exp (-(k / 2)) * min (Real.exp k) (Real.exp s) : ℝ) : ℂ) =
        Complex.exp (((1 / 2 : ℂ) + Complex.I * v) * k) := by
      intro k hk
      rw [min_eq_left (Real.exp_le_exp.2 (Set.mem_Iic.1 hk)), ← Real.exp_add]
      push_cast
      rw [← Complex.exp_add]
      congr 1
      ring
    have f2 : ∀ k ∈ Set.Ioi s, Complex.exp (Complex.I * v * k) * ((Real.exp (-(k / 2)) * min (Real.exp k) (Real.exp s) : ℝ) : ℂ) =
        Complex.exp s * Complex.exp (((-(1 / 2)) + Complex.I * v) * k) := by
      intro k hk
      rw [min_eq_right (Real.exp_le_exp.2 (Set.mem_Ioi.1 hk).le), ← Real.exp_add]
      push_cast
      rw [← Complex.exp_add, ← Complex.exp_add]
      congr 1
      ring
    have j1 := i1.congr_fun (fun k hk => (f1 k hk).symm) measurableSet_Iic
    have j2 : IntegrableOn _ (Set.Ioi s) := IntegrableOn.congr_fun i2 (fun k hk => (f2 k hk).symm) measurableSet_Ioi
    rw [← intervalIntegral.integral_Iic_add_Ioi j1 j2, setIntegral_congr_fun measurableSet_Iic f1, setIntegral_congr_fun measurableSet_Ioi f2,
      integral_const_mul, integral_exp_mul_complex_Iic a1, integral_exp_mul_complex_Ioi a2]
    have e1 : Complex.exp s * (-Complex.exp ((-(1 / 2) + Complex.I * v) * s) / (-(1 / 2) + Complex.I * v)) =
        -Complex.exp ((1 / 2 + Complex.I * v) * s) / (-(1 / 2) + Complex.I * v) := by
      rw [← mul_div_assoc, mul_neg, ← Complex.exp_add]
      congr 3
      ring
    rw [e1]
    have e3 : (((v ^ 2 + 1 / 4 : ℝ)) : ℂ) = -(((1 / 2 : ℂ) + Complex.I * v) * (-(1 / 2) + Complex.I * v)) := by
      push_cast
      linear_combination ((v : ℂ) ^ 2) * Complex.I_sq
    rw [e3]
    push_cast
    have e4 : (1 / 2 : ℂ) + Complex.I * v = (-(1 / 2) + Complex.I * v) + 1 := by ring
    generalize Complex.exp ((1 / 2 + Complex.I * v) * s) = E
    rw [e4] at n1 ⊢
    generalize (-(1 / 2) : ℂ) + Complex.I * v = B at n1 n2 ⊢
    field_simp
    ring
  · intro v
    rw [norm_div, norm_one, Complex.norm_real, Real.norm_of_nonneg (by positivity), add_comm]

theorem lewis_mean (μ : Measure ℝ) [IsProbabilityMeasure μ] (h : Heston) (S0 tau r q K : ℝ) (hv : 0 ≤ h.var0) (hS : 0 < S0) (hK : 0 < K)
    (hT : IsTransform μ (chfAlbrecher h (Real.log S0) tau r q) (1 / 2)) :
    K / Real.pi * ∫ v in Set.Ioi (0 : ℝ), lewisIntegrand (chfFang h tau r q) S0 K v = ∫ s, min K (Real.exp s) ∂μ := by
  have hinv := lewis_payoff.inversion μ hT.1 (Real.log K)
  rw [integral_const_mul] at hinv
  simp only [Real.exp_log hK] at hinv
  have e1 : ∀ v : ℝ, lewisIntegrand (chfFang h tau r q) S0 K v = Real.exp (-(Real.log K / 2)) *
      (Complex.exp (-Complex.I * v * Real.log K) * (lineTransform μ (1 / 2) v * (1 / (((v ^ 2 + 1 / 4 : ℝ)) : ℂ)))).re := by
    intro v
    have hl := line_eq μ _ _ hT (-v)
    rw [C78_implementations_agree h hv, lineTransform_conj] at hl
    unfold lewisIntegrand
    have e2 : (((-v : ℝ) : ℂ) - ((1 / 2 : ℝ) : ℂ) * Complex.I) = -v - Complex.I / 2 := by push_cast; ring
    rw [e2] at hl
    have e3 : Complex.exp (Complex.I * (-v - Complex.I / 2) * Real.log (S0 / K)) * chfFang h tau r q (-v - Complex.I / 2) =
        ((Real.exp (-(Real.log K / 2)) : ℝ) : ℂ) * (starRingEnd ℂ) (Complex.exp (-Complex.I * v * Real.log K) * lineTransform μ (1 / 2) v) := by
      rw [map_mul, ← hl, ← Complex.exp_conj, Real.log_div hS.ne' hK.ne', ← mul_assoc, ← mul_assoc]
      congr 1
      push_cast
      rw [← Complex.exp_add, ← Complex.exp_add]
      congr 1
      simp only [map_mul, map_neg, Complex.conj_I, Complex.conj_ofReal]
      linear_combination ((Real.log K : ℂ) / 2) * Complex.I_sq
    rw [e3, Complex.re_ofReal_mul, Complex.conj_re, mul_div_assoc]
    congr 1
    rw [← mul_assoc, mul_one_div, Complex.div_ofReal_re]
  simp only [e1]
  rw [integral_const_mul]
  have hex : Real.exp (-(Real.log K / 2)) * Real.exp (-(Real.log K / 2)) * K = 1 := by
    rw [← Real.exp_add, show -(Real.log K / 2) + -(Real.log K / 2) = -Real.log K by ring, Real.exp_neg, Real.exp_log hK]
    field_simp
  calc _ = Real.exp (-(Real.log K / 2)) * K * (1 / Real.pi * ∫ v in Set.Ioi (0 : ℝ),
      (Complex.exp (-Complex.I * v * Real.log K) * (lineTransform μ (1 / 2) v * (1 / (((v ^ 2 + 1 / 4 : ℝ)) : ℂ)))).re) := by ring
    _ = _ := by
      rw [← hinv]
      linear_combination (∫ s, min K (Real.exp s) ∂μ) * hex

theorem payoff_min (K S : ℝ) : optionPayoff 1 K S = S - min K S ∧ optionPayoff (-1) K S = K - min K S := by
  unfold optionPayoff
  rcases le_total K S with h | h
  · rw [max_eq_right (by linarith), max_eq_left (by linarith), min_eq_left h]; constructor <;> ring
  · rw [max_eq_left (by linarith), max_eq_right (by linarith), min_eq_right h]; constructor <;> ring

/-- Without correlation the Lipton price is the discounted mean payoff under the law of the log spot. -/
theorem C79_lipton_law_partial (μ : Measure ℝ) [IsProbabilityMeasure μ] (h : Heston) (lambda S0 tau r q K : ℝ) (hv : 0 ≤ h.var0) (hk : 0 < h.kappa)
    (hvv : 0 < h.vv) (hrho : h.rho = 0) (hS : 0 < S0) (hK : 0 < K)
    (hT : ∀ b ∈ ({1 / 2, 1} : Set ℝ), IsTransform μ (chfAlbrecher h (Real.log S0) tau r q) b) :
    hestonPrice .lipton h lambda S0 tau r q 1 K = .ok (some (meanPayoff μ (Real.exp (-r * tau)) 1 K)) ∧
    hestonPrice .lipton h lambda S0 tau r q (-1) K = .ok (some (meanPayoff μ (Real.exp (-r * tau)) (-1) K)) := by
  obtain ⟨hi, hf⟩ := law_forward μ h S0 tau r q hv (by rw [hrho, zero_mul]; exact hk) hS (hT 1 (by simp))
  have hl := lewis_mean μ h S0 tau r q K hv hS hK (hT _ (by simp))
  have hmi : Integrable (fun s => min K (Real.exp s)) μ := (integrable_const K).inf hi
  have hq : S0 * Real.exp (-q * tau) = Real.exp (-r * tau) * (S0 * Real.exp ((r - q) * tau)) := by
    have : Real.exp (-q * tau) = Real.exp (-r * tau) * Real.exp ((r - q) * tau) := by rw [← Real.exp_add]; congr 1; ring
    rw [this]; ring
  have hcall : hestonPrice .lipton h lambda S0 tau r q 1 K = .ok (some (meanPayoff μ (Real.exp (-r * tau)) 1 K)) := by
    rw [C79_lipton_partial h lambda S0 tau r q K hk.le hvv hrho]
    congr 2
    unfold meanPayoff
    simp only [(payoff_min K _).1]
    rw [integral_sub hi hmi, hf, ← hl, hq]
    ring
  refine ⟨hcall, ?_⟩
  obtain ⟨c, p, h1, h2, h3⟩ := C79_parity_partial .lipton (Or.inr (Or.inr rfl)) h lambda S0 tau r q K
  rw [h2]
  congr 2
  rw [hcall] at h1
  have h4 : meanPayoff μ (Real.exp (-r * tau)) 1 K = c := by simpa using h1
  have h5 := mean_parity μ S0 tau r q K hi hf
  linarith

/-! ## Heston 1993 -/

/-- Half the sign plus a half: one above, zero below, a half at the strike. -/
noncomputable def stepAt (k s : ℝ) : ℝ := (1 + (SignType.sign (s - k) : ℝ)) / 2

theorem stepAt_payoff (K : ℝ) (hK : 0 < K) (s : ℝ) :
    stepAt (Real.log K) s * (Real.exp s - K) = optionPayoff 1 K (Real.exp s) ∧
    (1 - stepAt (Real.log K) s) * (K - Real.exp s) = optionPayoff (-1) K (Real.exp s) := by
  unfold stepAt optionPayoff
  rcases lt_trichotomy s (Real.log K) with hs | hs | hs
  · have : Real.exp s < K := by rw [← Real.exp_log hK]; exact Real.exp_lt_exp.2 hs
    rw [sign_neg (by linarith), max_eq_left (by linarith), max_eq_right (by linarith)]
    simp
  · have : Real.exp s = K := by rw [hs, Real.exp_log hK]
    rw [this]
    simp
  · have : K < Real.exp s := by rw [← Real.exp_log hK]; exact Real.exp_lt_exp.2 hs
    rw [sign_pos (by linarith), max_eq_right (by linarith), max_eq_left (by linarith)]
    simp

theorem exceedance_mean (μ : Measure ℝ) [IsProbabilityMeasure μ] (rho : ℝ → ℝ) (phi : ℝ → ℂ) (K : ℝ) (h0 : Integrable rho μ)
    (h1 : Integrable (fun s => s * rho s) μ) (hone : ∫ s, rho s ∂μ = 1)
    (hphi : ∀ w, phi w = ∫ s, Complex.exp (Complex.I * w * s) * (rho s : ℂ) ∂μ)
    (hint : IntegrableOn (fun w : ℝ => (Complex.exp (-Complex.I * w * Real.log K) * phi w / (Complex.I * w)).re) (Set.Ioi 0)) :
    exceedance phi K = ∫ s, stepAt (Real.log K) s * rho s ∂μ := by
  have hq : ∀ w : ℝ, 0 < w → (Complex.exp (-Complex.I * w * Real.log K) * phi w / (Complex.I * w)).re =
      ∫ s, Real.sin (w * (s - Real.log K)) / w * rho s ∂μ := by
    intro w hw
    have e1 : Complex.exp (-Complex.I * w * Real.log K) * phi w = ∫ s, Complex.exp ((w * (s - Real.log K) : ℝ) * Complex.I) * (rho s : ℂ) ∂μ := by
      rw [hphi, ← integral_const_mul]
      congr 1
      funext s
      rw [← mul_assoc, ← Complex.exp_add]
      congr 2
      push_cast
      ring
    have hii : Integrable (fun s => Complex.exp ((w * (s - Real.log K) : ℝ) * Complex.I) * (rho s : ℂ)) μ := by
      refine h0.ofReal.bdd_mul (c := 1) ?_ ?_
      · exact (by fun_prop : Continuous fun s : ℝ => Complex.exp ((w * (s - Real.log K) : ℝ) * Complex.I)).aestronglyMeasurable
      · refine Filter.Eventually.of_forall fun s => ?_
        rw [Complex.norm_exp_ofReal_mul_I]
    have e2 : ∀ z : ℂ, (z / (Complex.I * w)).re = z.im / w := by
      intro z
      rw [show z / (Complex.I * w) = (-Complex.I * z) / ((w : ℝ) : ℂ) by
        have hwc : (w : ℂ) ≠ 0 := by exact_mod_cast hw.ne'
        have := Complex.I_ne_zero
        field_simp
        linear_combination z * Complex.I_sq, Complex.div_ofReal_re]
      simp
    rw [e2, e1, show (∫ s, Complex.exp ((w * (s - Real.log K) : ℝ) * Complex.I) * (rho s : ℂ) ∂μ).im =
      ∫ s, (Complex.exp ((w * (s - Real.log K) : ℝ) * Complex.I) * (rho s : ℂ)).im ∂μ from (integral_im hii).symm, ← integral_div]
    congr 1
    funext s
    rw [Complex.im_mul_ofReal, Complex.exp_ofReal_mul_I_im]
    ring
  have hg := gil_pelaez μ rho (Real.log K) h0 h1 _ hq hint
  unfold exceedance
  rw [hg]
  have hs : Integrable (fun s => (SignType.sign (s - Real.log K) : ℝ) * rho s) μ := by
    refine h0.bdd_mul (c := 1) ?_ ?_
    · have : Measurable fun x : ℝ => ((SignType.sign x : SignType) : ℝ) := by
        have e : (fun x : ℝ => ((SignType.sign x : SignType) : ℝ)) = fun x => if 0 < x then 1 else if x < 0 then -1 else 0 := by
          funext x
          rw [sign_apply]
          split_ifs <;> simp
        rw [e]
        exact Measurable.ite measurableSet_Ioi measurable_const (Measurable.ite measurableSet_Iio measurable_const measurable_const)
      exact (this.comp (by fun_prop : Measurable fun s : ℝ => s - Real.log K)).aestronglyMeasurable
    · refine Filter.Eventually.of_forall fun s => ?_
      rcases lt_trichotomy (s - Real.log K) 0 with h | h | h
      · rw [sign_neg h]; simp
      · rw [h]; simp
      · rw [sign_pos h]; simp
  have e : ∀ s, stepAt (Real.log K) s * rho s = 1 / 2 * rho s + 1 / 2 * ((SignType.sign (s - Real.log K) : ℝ) * rho s) := by
    intro s
    unfold stepAt
    ring
  simp only [e]
  rw [integral_add (h0.const_mul _) (hs.const_mul _), integral_const_mul, integral_const_mul, hone]
  have := Real.pi_ne_zero
  field_simp

theorem stepAt_integrable (μ : Measure ℝ) (k : ℝ) (rho : ℝ → ℝ) (h0 : Integrable rho μ) : Integrable (fun s => stepAt k s * rho s) μ := by
  have e : (fun s => stepAt k s) = fun s => if k < s then 1 else if s < k then 0 else 1 / 2 := by
    funext s
    unfold stepAt
    rcases lt_trichotomy s k with h | h | h
    · rw [sign_neg (by linarith), if_neg (by linarith), if_pos h]; simp
    · rw [h]; simp
    · rw [sign_pos (by linarith), if_pos h]; norm_num
  refine h0.bdd_mul (c := 1) ?_ ?_
  · have : Measurable fun s => stepAt k s := by
      rw [e]
      exact Measurable.ite measurableSet_Ioi measurable_const (Measurable.ite measurableSet_Iio measurable_const measurable_const)
    exact this.aestronglyMeasurable
  · refine Filter.Eventually.of_forall fun s => ?_
    rw [show stepAt k s = _ from congrFun e s]
    split_ifs <;> norm_num

/-- Heston's 1993 price is the discounted mean payoff under the law of the log spot, where its two inversion integrals converge absolutely. -/
theorem C79_heston1993_law (μ : Measure ℝ) [IsProbabilityMeasure μ] (h : Heston) (lambda S0 tau r q K : ℝ) (hv : 0 ≤ h.var0) (hS : 0 < S0) (hK : 0 < K)
    (hsum : h.kappa + lambda ≠ 0) (hcorr : h.rho * h.vv < h.kappa + lambda) :
    let h' : Heston := { h with kappa := h.kappa + lambda, theta := h.kappa * h.theta / (h.kappa + lambda) }
    let chf := chfAlbrecher h' (Real.log S0) tau r q
    let forward := S0 * Real.exp ((r - q) * tau)
    IsTransform μ chf 0 → IsTransform μ chf 1 → Integrable (fun s => s) μ → Integrable (fun s => s * Real.exp s) μ →
    IntegrableOn (fun w : ℝ => (Complex.exp (-Complex.I * w * Real.log K) * chf w / (Complex.I * w)).re) (Set.Ioi 0) →
    IntegrableOn (fun w : ℝ => (Complex.exp (-Complex.I * w * Real.log K) * (chf (w - Complex.I) / forward) / (Complex.I * w)).re) (Set.Ioi 0) →
    hestonPrice .heston1993 h lambda S0 tau r q 1 K = .ok (some (meanPayoff μ (Real.exp (-r * tau)) 1 K)) ∧
    hestonPrice .heston1993 h lambda S0 tau r q (-1) K = .ok (some (meanPayoff μ (Real.exp (-r * tau)) (-1) K)) := by
  intro h' chf forward hT0 hT1 hs hse hi0 hi1
  obtain ⟨hcall, hput⟩ := C79_heston1993 h lambda S0 tau r q K hv hS hsum
  obtain ⟨hei, hef⟩ := law_forward μ h' S0 tau r q hv hcorr hS hT1
  have hfp : 0 < forward := mul_pos hS (Real.exp_pos _)
  have hN : exceedance (fun w => chf w) K = ∫ s, stepAt (Real.log K) s * 1 ∂μ := by
    refine exceedance_mean μ (fun _ => 1) _ K (integrable_const _) (by simpa using hs) (by simp) (fun w => ?_) hi0
    have := hT0.2 w
    simp only [Complex.ofReal_zero, zero_mul, sub_zero] at this
    simp only [Complex.ofReal_one, mul_one]
    exact this
  have hM : exceedance (fun w => chf (w - Complex.I) / forward) K = ∫ s, stepAt (Real.log K) s * (Real.exp s / forward) ∂μ := by
    refine exceedance_mean μ (fun s => Real.exp s / forward) _ K (hei.div_const _) ?_ ?_ (fun w => ?_) hi1
    · refine (hse.div_const forward).congr (Filter.Eventually.of_forall fun s => ?_)
      simp only
      ring
    · rw [integral_div, hef]
      exact div_self hfp.ne'
    · have := hT1.2 w
      simp only [Complex.ofReal_one, one_mul] at this
      rw [this, ← integral_div]
      congr 1
      funext s
      push_cast
      rw [mul_div_assoc', ← Complex.exp_add]
      congr 2
      linear_combination (-(s : ℂ)) * Complex.I_sq
  have hI1 := stepAt_integrable μ (Real.log K) (fun _ => 1) (integrable_const _)
  have hI2 := stepAt_integrable μ (Real.log K) (fun s => Real.exp s / forward) (hei.div_const _)
  have hq : S0 * Real.exp (-q * tau) = Real.exp (-r * tau) * forward := by
    have : Real.exp (-q * tau) = Real.exp (-r * tau) * Real.exp ((r - q) * tau) := by rw [← Real.exp_add]; congr 1; ring
    simp only [forward]
    rw [this]; ring
  have hC : hestonPrice .heston1993 h lambda S0 tau r q 1 K = .ok (some (meanPayoff μ (Real.exp (-r * tau)) 1 K)) := by
    rw [hcall]
    congr 2
    rw [show exceedance (fun w => chfAlbrecher { h with kappa := h.kappa + lambda, theta := h.kappa * h.theta / (h.kappa + lambda) } (Real.log S0) tau r q w) K = _ from hN]
    rw [show exceedance (fun w => chfAlbrecher { h with kappa := h.kappa + lambda, theta := h.kappa * h.theta / (h.kappa + lambda) } (Real.log S0) tau r q
      (w - Complex.I) / ((S0 * Real.exp ((r - q) * tau) : ℝ) : ℂ)) K = _ from hM]
    rw [hq]
    unfold meanPayoff
    simp only [← (stepAt_payoff K hK _).1]
    rw [show (fun s => stepAt (Real.log K) s * (Real.exp s - K)) =
      fun s => forward * (stepAt (Real.log K) s * (Real.exp s / forward)) - K * (stepAt (Real.log K) s * 1) by
        funext s; field_simp]
    rw [integral_sub (hI2.const_mul _) (hI1.const_mul _), integral_const_mul, integral_const_mul]
    ring
  refine ⟨hC, ?_⟩
  obtain ⟨c, p, h1, h2, h3⟩ := C79_parity_partial .heston1993 (Or.inr (Or.inl rfl)) h lambda S0 tau r q K
  rw [h2]
  congr 2
  rw [hC] at h1
  have h4 : meanPayoff μ (Real.exp (-r * tau)) 1 K = c := by simpa using h1
  have h5 := mean_parity μ S0 tau r q K hei hef
  linarith

/-- Without variance the law is a point mass at the forward: the characteristic function is its transform along every line. -/
theorem point_law (vv kappa rho S0 tau r q b : ℝ) :
    IsTransform (Measure.dirac (Real.log S0 + (r - q) * tau)) (chfAlbrecher ⟨0, vv, kappa, 0, rho⟩ (Real.log S0) tau r q) b := by
  refine ⟨integrable_dirac (by simp), fun v => ?_⟩
  rw [integral_dirac]
  have h1 := chfAlbrecher_eq ⟨0, vv, kappa, 0, rho⟩ 0 le_rfl (Real.log S0) tau r q (v - b * Complex.I)
  rw [h1]
  unfold chfB
  simp

/-- The hypotheses are met by a model without variance, at every strike; those of the 1993 method at the forward. -/
example (lambda S0 tau r q K : ℝ) (hS : 0 < S0) (hK : 0 < K) :
    ∃ call put, hestonPrice .carrMadanQuadrature ⟨0, 0.5, 1.5, 0, -0.7⟩ lambda S0 tau r q 1 K = .ok (some call) ∧
      hestonPrice .carrMadanQuadrature ⟨0, 0.5, 1.5, 0, -0.7⟩ lambda S0 tau r q (-1) K = .ok (some put) ∧
      call - put = S0 * Real.exp (-q * tau) - K * Real.exp (-r * tau) :=
  C79_carr_madan_parity (Measure.dirac (Real.log S0 + (r - q) * tau)) ⟨0, 0.5, 1.5, 0, -0.7⟩ lambda S0 tau r q K le_rfl (by norm_num) hS hK
    (fun _ _ => point_law _ _ _ _ _ _ _ _)

example (lambda S0 tau r q K : ℝ) (hS : 0 < S0) (hK : 0 < K) :
    hestonPrice .lipton ⟨0, 0.5, 1.5, 0, 0⟩ lambda S0 tau r q 1 K =
      .ok (some (Real.exp (-r * tau) * optionPayoff 1 K (S0 * Real.exp ((r - q) * tau)))) := by
  have := (C79_lipton_law_partial (Measure.dirac (Real.log S0 + (r - q) * tau)) ⟨0, 0.5, 1.5, 0, 0⟩ lambda S0 tau r q K le_rfl (by norm_num) (by norm_num) rfl hS hK
    (fun _ _ => point_law _ _ _ _ _ _ _ _)).1
  rw [this]
  unfold meanPayoff
  rw [integral_dirac, Real.exp_add, Real.exp_log hS]

example (S0 tau r q : ℝ) (hS : 0 < S0) :
    hestonPrice .heston1993 ⟨0, 0.5, 1.5, 0, -0.7⟩ 0 S0 tau r q 1 (S0 * Real.exp ((r - q) * tau)) = .ok (some 0) := by
  have hK : 0 < S0 * Real.exp ((r - q) * tau) := mul_pos hS (Real.exp_pos _)
  have hl : Real.log (S0 * Real.exp ((r - q) * tau)) = Real.log S0 + (r - q) * tau := by
    rw [Real.log_mul hS.ne' (Real.exp_ne_zero _), Real.log_exp]
  have ht : ({ (⟨0, 0.5, 1.5, 0, -0.7⟩ : Heston) with kappa := 1.5 + 0, theta := 1.5 * 0 / (1.5 + 0) } : Heston) = ⟨0, 0.5, 1.5 + 0, 0, -0.7⟩ := by
    simp
  have h2 := C79_heston1993_law (Measure.dirac (Real.log S0 + (r - q) * tau)) ⟨0, 0.5, 1.5, 0, -0.7⟩ 0 S0 tau r q _ le_rfl hS hK (by norm_num) (by norm_num)
  simp only at h2
  rw [ht] at h2
  have p0 := fun b => point_law 0.5 (1.5 + 0) (-0.7) S0 tau r q b
  have c0 : ∀ w : ℝ, chfAlbrecher ⟨0, 0.5, 1.5 + 0, 0, -0.7⟩ (Real.log S0) tau r q w =
      Complex.exp (Complex.I * w * (Real.log S0 + (r - q) * tau : ℝ)) := by
    intro w
    have := (p0 0).2 w
    rw [integral_dirac] at this
    simpa using this
  have c1 : ∀ w : ℝ, chfAlbrecher ⟨0, 0.5, 1.5 + 0, 0, -0.7⟩ (Real.log S0) tau r q (w - Complex.I) / ((S0 * Real.exp ((r - q) * tau) : ℝ) : ℂ) =
      Complex.exp (Complex.I * w * (Real.log S0 + (r - q) * tau : ℝ)) := by
    intro w
    have h3 := (p0 1).2 w
    rw [integral_dirac] at h3
    simp only [Complex.ofReal_one, one_mul] at h3
    rw [h3, div_eq_iff (by exact_mod_cast hK.ne'), ← Real.exp_log hK, hl, Complex.ofReal_exp, ← Complex.exp_add]
    congr 1
    linear_combination (-((Real.log S0 + (r - q) * tau : ℝ) : ℂ)) * Complex.I_sq
  have hz : (fun w : ℝ => (Complex.exp (-Complex.I * w * (Real.log S0 + (r - q) * tau : ℝ)) * Complex.exp (Complex.I * w * (Real.log S0 + (r - q) * tau : ℝ)) /
      (Complex.I * w)).re) = fun _ => 0 := by
    funext w
    rw [← Complex.exp_add, show -Complex.I * w * ((Real.log S0 + (r - q) * tau : ℝ) : ℂ) + Complex.I * w * ((Real.log S0 + (r - q) * tau : ℝ) : ℂ) = 0 by ring,
      Complex.exp_zero]
    simp
  rw [hl] at h2
  simp only [c0, c1] at h2
  rw [hz] at h2
  have h4 := (h2 (p0 0) (p0 1) (integrable_dirac enorm_lt_top) (integrable_dirac enorm_lt_top) integrableOn_zero integrableOn_zero).1
  rw [h4]
  unfold meanPayoff
  rw [integral_dirac, Real.exp_add, Real.exp_log hS]
  simp [optionPayoff]

end Frm.Props
