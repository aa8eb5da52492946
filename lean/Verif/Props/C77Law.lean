import Verif.Props.C77
import Verif.Props.C79Instance
import Mathlib.Analysis.Complex.ExponentialBounds
import Verif.Proofs.CosineSeries

/-!
# C77: how far a COS price is from the discounted mean payoff
-/

open MeasureTheory

namespace Frm
namespace Spec

set_option autoImplicit false

/-- The first `N` terms of the cosine series of `f` on the interval from `a` to `b`. -/
noncomputable def cosinePartialSum (a b : ℝ) (N : Nat) (f : ℝ → ℝ) (y : ℝ) : ℝ :=
  ∑ k ∈ Finset.range N, (if k = 0 then 1 / 2 else 1) * cosineCoefficient a b k f * cosine a b k y

end Spec
end Frm

namespace Frm.Props
open Classical

set_option autoImplicit false

open Frm Frm.Spec ProbabilityTheory

theorem cosine_bound (a b : ℝ) (k : Nat) (y : ℝ) : |cosine a b k y| ≤ 1 := Real.abs_cos_le_one _

theorem cosFk_mean (μ : Measure ℝ) [IsProbabilityMeasure μ] (h : Heston) (S0 tau r q K a b : ℝ) (k : Nat) (hv : 0 ≤ h.var0) (hS : 0 < S0) (hK : 0 < K)
    (hT : IsTransform μ (chfAlbrecher h (Real.log S0) tau r q) 0) :
    cosFk h tau r q a b (Real.log (S0 / K)) k = (if k = 0 then 1 / 2 else 1) * ∫ s, cosine a b k (s - Real.log K) ∂μ := by
  unfold cosFk
  rw [show (0.5 : ℝ) = 1 / 2 by norm_num]
  congr 1
  have h1 := hT.2 (k * Real.pi / (b - a))
  simp only [Complex.ofReal_zero, zero_mul, sub_zero] at h1
  rw [C78_implementations_agree h hv] at h1
  have e1 : chfFang h tau r q ((k * Real.pi / (b - a) : ℝ) : ℂ) * Complex.exp (Complex.I * k * Real.pi * (Real.log (S0 / K) - a) / (b - a)) =
      ∫ s, Complex.exp ((k * Real.pi * (s - Real.log K - a) / (b - a) : ℝ) * Complex.I) ∂μ := by
    have e2 : Complex.exp (Complex.I * k * Real.pi * (Real.log (S0 / K) - a) / (b - a)) =
        Complex.exp (Complex.I * ((k * Real.pi / (b - a) : ℝ) : ℂ) * Real.log S0) * Complex.exp (-(Complex.I * ((k * Real.pi / (b - a) : ℝ) : ℂ) * (Real.log K + a))) := by
      rw [← Complex.exp_add, Real.log_div hS.ne' hK.ne']
      congr 1
      push_cast
      ring
    rw [e2, ← mul_assoc, mul_comm (chfFang _ _ _ _ _), h1, ← integral_mul_const]
    congr 1
    funext s
    rw [← Complex.exp_add]
    congr 1
    push_cast
    ring
  have hint : Integrable (fun s : ℝ => Complex.exp ((k * Real.pi * (s - Real.log K - a) / (b - a) : ℝ) * Complex.I)) μ := by
    refine (integrable_const (1 : ℝ)).mono' ?_ (Filter.Eventually.of_forall fun s => ?_)
    · exact (by fun_prop : Continuous fun s : ℝ => Complex.exp ((k * Real.pi * (s - Real.log K - a) / (b - a) : ℝ) * Complex.I)).aestronglyMeasurable
    · rw [Complex.norm_exp_ofReal_mul_I]
  rw [e1, show (∫ s, Complex.exp ((k * Real.pi * (s - Real.log K - a) / (b - a) : ℝ) * Complex.I) ∂μ).re =
    ∫ s, (Complex.exp ((k * Real.pi * (s - Real.log K - a) / (b - a) : ℝ) * Complex.I)).re ∂μ from (integral_re hint).symm]
  congr 1
  funext s
  rw [Complex.exp_ofReal_mul_I_re]
  rfl

theorem cosine_integrable (μ : Measure ℝ) [IsProbabilityMeasure μ] (a b c : ℝ) (k : Nat) : Integrable (fun s => cosine a b k (s - c)) μ := by
  refine (integrable_const (1 : ℝ)).mono' ?_ (Filter.Eventually.of_forall fun s => ?_)
  · exact ((cosine_continuous a b k).comp (by fun_prop : Continuous fun s : ℝ => s - c)).aestronglyMeasurable
  · rw [Real.norm_eq_abs]
    exact cosine_bound _ _ _ _

/-- Where the characteristic function is the transform of a law of the log spot, the cosine value of a payoff is the discounted mean of the first terms
of the cosine series of that payoff, whatever the truncation interval and the number of terms. -/
theorem C77_mean (μ : Measure ℝ) [IsProbabilityMeasure μ] (h : Heston) (S0 tau r q K a b D : ℝ) (N : Nat) (g : ℝ → ℝ) (hg : Continuous g)
    (hv : 0 ≤ h.var0) (hS : 0 < S0) (hK : 0 < K) (hT : IsTransform μ (chfAlbrecher h (Real.log S0) tau r q) 0) :
    cosineValue (hestonMoneyness h S0 tau r q K) a b N D K g =
      D * ∫ s, cosinePartialSum a b N (fun y => g (K * Real.exp y)) (s - Real.log K) ∂μ := by
  rw [value_series _ _ _ _ _ _ _ _ _ _ _ hg]
  congr 1
  unfold cosinePartialSum
  rw [integral_finsetSum]
  · apply Finset.sum_congr rfl
    intro k _
    rw [cosFk_mean μ h S0 tau r q K a b k hv hS hK hT, integral_const_mul]
    ring
  · intro k _
    exact (cosine_integrable μ a b _ k).const_mul _

theorem put_coefficient (a b K : ℝ) (ha : a < 0) (hb : 0 < b) (hK : 0 < K) (k : Nat) :
    cosineCoefficient a b k (fun y => optionPayoff (-1) K (K * Real.exp y)) = K * cosUk false a b k := by
  rw [coefficient_scale a b k (-1) K hK, (C62_payoff_coefficients a b ha hb k).2]

theorem inverse_squares_tail (N n : Nat) (hN : 0 < N) : ∑ k ∈ Finset.Ico N n, 1 / (k : ℝ) ^ 2 ≤ 2 / (N : ℝ) := by
  have h := sum_Ioo_inv_sq_le (α := ℝ) (N - 1) n
  have e : Finset.Ioo (N - 1) n = Finset.Ico N n := by
    ext k
    simp only [Finset.mem_Ioo, Finset.mem_Ico]
    omega
  rw [e] at h
  have e2 : ((N - 1 : ℕ) : ℝ) + 1 = N := by
    have : N - 1 + 1 = N := by omega
    exact_mod_cast this
  rw [e2] at h
  simpa only [one_div] using h

/-- The first `N` terms of the series of the put differ from the put at the reflected argument by a multiple of one over `N`. -/
theorem put_series_error (a b K : ℝ) (ha : a < 0) (hb : 0 < b) (hK : 0 < K) (N : Nat) (hN : 0 < N) (y : ℝ) :
    |cosinePartialSum a b N (fun y => optionPayoff (-1) K (K * Real.exp y)) y - optionPayoff (-1) K (K * Real.exp (reflect a b y))| ≤
      K * (4 * (b - a) / Real.pi ^ 2 * coefficientScale false a b / N) := by
  have hab : a < b := ha.trans hb
  have hc : Continuous fun y => optionPayoff (-1) K (K * Real.exp y) := by unfold optionPayoff; fun_prop
  have hs : Summable fun k => |cosineCoefficient a b k (fun y => optionPayoff (-1) K (K * Real.exp y))| := by
    simp only [put_coefficient a b K ha hb hK, abs_mul, abs_of_pos hK]
    exact (payoff_coefficients_summable a b ha hb false).mul_left K
  have hsum := (cosine_series a b hab _ hc hs y).tendsto_sum_nat
  have hdiff : Filter.Tendsto (fun n : ℕ => |cosinePartialSum a b N (fun y => optionPayoff (-1) K (K * Real.exp y)) y -
      cosinePartialSum a b n (fun y => optionPayoff (-1) K (K * Real.exp y)) y|) Filter.atTop
      (nhds |cosinePartialSum a b N (fun y => optionPayoff (-1) K (K * Real.exp y)) y - optionPayoff (-1) K (K * Real.exp (reflect a b y))|) :=
    (hsum.const_sub _).abs
  refine le_of_tendsto hdiff (Filter.eventually_atTop.2 ⟨N, fun n hn => ?_⟩)
  have hC : 0 ≤ 2 * (b - a) / Real.pi ^ 2 * coefficientScale false a b := by
    have : 0 < coefficientScale false a b := by
      unfold coefficientScale
      have := sub_pos.2 hab
      have := Real.pi_pos
      positivity
    have := sub_pos.2 hab
    positivity
  have e : cosinePartialSum a b n (fun y => optionPayoff (-1) K (K * Real.exp y)) y - cosinePartialSum a b N (fun y => optionPayoff (-1) K (K * Real.exp y)) y =
      ∑ k ∈ Finset.Ico N n, (if k = 0 then 1 / 2 else 1) * cosineCoefficient a b k (fun y => optionPayoff (-1) K (K * Real.exp y)) * cosine a b k y := by
    unfold cosinePartialSum
    rw [Finset.sum_Ico_eq_sub _ hn]
  rw [abs_sub_comm, e]
  calc |∑ k ∈ Finset.Ico N n, (if k = 0 then 1 / 2 else 1) * cosineCoefficient a b k (fun y => optionPayoff (-1) K (K * Real.exp y)) * cosine a b k y|
      ≤ ∑ k ∈ Finset.Ico N n, |(if k = 0 then 1 / 2 else 1) * cosineCoefficient a b k (fun y => optionPayoff (-1) K (K * Real.exp y)) * cosine a b k y| :=
        Finset.abs_sum_le_sum_abs _ _
    _ ≤ ∑ k ∈ Finset.Ico N n, K * (2 * (b - a) / Real.pi ^ 2 * coefficientScale false a b) * (1 / (k : ℝ) ^ 2) := by
        apply Finset.sum_le_sum
        intro k hk
        have hk0 : k ≠ 0 := by have := (Finset.mem_Ico.1 hk).1; omega
        rw [if_neg hk0, one_mul, put_coefficient a b K ha hb hK, abs_mul, abs_mul, abs_of_pos hK, mul_assoc K, mul_assoc K]
        apply mul_le_mul_of_nonneg_left _ hK.le
        calc |cosUk false a b k| * |cosine a b k y| ≤ |cosUk false a b k| := mul_le_of_le_one_right (abs_nonneg _) (cosine_bound _ _ _ _)
          _ ≤ _ := payoff_coefficient_bound a b ha hb false k hk0
    _ ≤ _ := by
        rw [← Finset.mul_sum]
        have h2 := inverse_squares_tail N n hN
        calc K * (2 * (b - a) / Real.pi ^ 2 * coefficientScale false a b) * ∑ k ∈ Finset.Ico N n, 1 / (k : ℝ) ^ 2 ≤
            K * (2 * (b - a) / Real.pi ^ 2 * coefficientScale false a b) * (2 / N) := mul_le_mul_of_nonneg_left h2 (mul_nonneg hK.le hC)
          _ = _ := by ring

theorem put_range (K S : ℝ) (hK : 0 < K) (hS : 0 < S) : 0 ≤ optionPayoff (-1) K S ∧ optionPayoff (-1) K S ≤ K := by
  unfold optionPayoff
  exact ⟨le_max_left _ _, max_le hK.le (by linarith)⟩

/-- The price of a put by the COS method, with any number of terms, is within an explicit distance of the discounted mean payoff under the law of the
log spot: a term that falls with the number of terms, and the probability that the log-moneyness leaves the truncation interval. -/
theorem C77_error (μ : Measure ℝ) [IsProbabilityMeasure μ] (h : Heston) (S0 tau r q L K a b : ℝ) (N : Nat) (hN : 0 < N)
    (hab : cosRange (.heston h (r - q) tau) L = .ok (a, b)) (ha : a < 0) (hb : 0 < b)
    (hv : 0 ≤ h.var0) (hS : 0 < S0) (hK : 0 < K) (hT : IsTransform μ (chfAlbrecher h (Real.log S0) tau r q) 0) :
    ∃ put, cosPrice h S0 tau r q [-1] [K] N L true = .ok [some put] ∧
      |put - meanPayoff μ (Real.exp (-r * tau)) (-1) K| ≤ Real.exp (-r * tau) * K *
        (4 * (b - a) / Real.pi ^ 2 * (1 + Real.exp a + (b - a) / Real.pi) / N + μ.real {s | s - Real.log K < a ∨ b < s - Real.log K}) := by
  obtain ⟨ps, h1, h2, h3⟩ := C77_price h S0 tau r q L a b [-1] [K] N rfl hab ha hb (by simpa using hK)
  obtain ⟨h4, -, -⟩ := h3 0 (by simp) _ rfl
  simp only [List.getElem?_cons_zero, List.getElem_cons_zero] at h4
  match ps, h2 with
  | [x], _ =>
    simp only [List.getElem?_cons_zero, Option.some.injEq, forall_const] at h4
    refine ⟨_, by rw [h1, h4], ?_⟩
    rw [C77_mean μ h S0 tau r q K a b _ N _ (optionPayoff_continuous _ _) hv hS hK hT]
    unfold meanPayoff
    have hset : MeasurableSet {s : ℝ | s - Real.log K < a ∨ b < s - Real.log K} :=
      MeasurableSet.union (s₁ := {s : ℝ | s - Real.log K < a}) (s₂ := {s : ℝ | b < s - Real.log K})
        (measurableSet_lt (by fun_prop) measurable_const) (measurableSet_lt measurable_const (by fun_prop))
    have hpart : Integrable (fun s => cosinePartialSum a b N (fun y => optionPayoff (-1) K (K * Real.exp y)) (s - Real.log K)) μ := by
      unfold cosinePartialSum
      exact integrable_finsetSum _ fun k _ => (cosine_integrable μ a b _ k).const_mul _
    have hput : Integrable (fun s => optionPayoff (-1) K (Real.exp s)) μ := by
      refine (integrable_const K).mono' (payoff_measurable _ _).aestronglyMeasurable (Filter.Eventually.of_forall fun s => ?_)
      obtain ⟨p1, p2⟩ := put_range K (Real.exp s) hK (Real.exp_pos s)
      rwa [Real.norm_of_nonneg p1]
    rw [← mul_sub, abs_mul, abs_of_pos (Real.exp_pos _), mul_assoc, ← integral_sub hpart hput]
    apply mul_le_mul_of_nonneg_left _ (Real.exp_pos _).le
    set C := K * (4 * (b - a) / Real.pi ^ 2 * coefficientScale false a b / N) with hC
    have hbound : ∀ s, ‖cosinePartialSum a b N (fun y => optionPayoff (-1) K (K * Real.exp y)) (s - Real.log K) - optionPayoff (-1) K (Real.exp s)‖ ≤
        C + Set.indicator {s : ℝ | s - Real.log K < a ∨ b < s - Real.log K} (fun _ => K) s := by
      intro s
      have e1 := put_series_error a b K ha hb hK N hN (s - Real.log K)
      have e2 : |optionPayoff (-1) K (K * Real.exp (reflect a b (s - Real.log K))) - optionPayoff (-1) K (Real.exp s)| ≤
          Set.indicator {s : ℝ | s - Real.log K < a ∨ b < s - Real.log K} (fun _ => K) s := by
        by_cases hs : s ∈ {s : ℝ | s - Real.log K < a ∨ b < s - Real.log K}
        · rw [Set.indicator_of_mem hs]
          obtain ⟨p1, p2⟩ := put_range K (Real.exp s) hK (Real.exp_pos s)
          obtain ⟨p3, p4⟩ := put_range K (K * Real.exp (reflect a b (s - Real.log K))) hK (by positivity)
          rw [abs_le]
          constructor <;> linarith
        · rw [Set.indicator_of_notMem hs]
          have hs' : ¬(s - Real.log K < a ∨ b < s - Real.log K) := hs
          rw [not_or, not_lt, not_lt] at hs'
          rw [reflect_inside a b _ (ha.trans hb) hs'.1 hs'.2, Real.exp_sub, Real.exp_log hK, mul_div_cancel₀ _ hK.ne', sub_self, abs_zero]
      rw [Real.norm_eq_abs]
      calc _ = |(cosinePartialSum a b N (fun y => optionPayoff (-1) K (K * Real.exp y)) (s - Real.log K) -
              optionPayoff (-1) K (K * Real.exp (reflect a b (s - Real.log K)))) +
            (optionPayoff (-1) K (K * Real.exp (reflect a b (s - Real.log K))) - optionPayoff (-1) K (Real.exp s))| := by congr 1; ring
        _ ≤ _ := (abs_add_le _ _).trans (add_le_add e1 e2)
    have hI := norm_integral_le_of_norm_le (((integrable_const (μ := μ) C).add ((integrable_const (μ := μ) K).indicator hset))) (Filter.Eventually.of_forall hbound)
    rw [Real.norm_eq_abs] at hI
    refine hI.trans (le_of_eq ?_)
    have hadd := integral_add (μ := μ) (integrable_const C) ((integrable_const K).indicator hset)
    simp only [Pi.add_apply]
    rw [hadd, integral_indicator hset]
    simp only [integral_const, probReal_univ, smul_eq_mul, one_mul, measureReal_restrict_apply_univ]
    rw [hC]
    unfold coefficientScale
    simp only [Bool.false_eq_true, if_false]
    ring

/-- Calls, which follow from parity, are as near to their own discounted mean payoff as the put of the same strike. -/
theorem C77_call_error (μ : Measure ℝ) [IsProbabilityMeasure μ] (h : Heston) (S0 tau r q L K a b : ℝ) (N : Nat) (hN : 0 < N)
    (hab : cosRange (.heston h (r - q) tau) L = .ok (a, b)) (ha : a < 0) (hb : 0 < b)
    (hv : 0 ≤ h.var0) (hcorr : h.rho * h.vv < h.kappa) (hS : 0 < S0) (hK : 0 < K)
    (hT : ∀ c ∈ ({0, 1} : Set ℝ), IsTransform μ (chfAlbrecher h (Real.log S0) tau r q) c) :
    ∃ call, cosPrice h S0 tau r q [1] [K] N L true = .ok [some call] ∧
      |call - meanPayoff μ (Real.exp (-r * tau)) 1 K| ≤ Real.exp (-r * tau) * K *
        (4 * (b - a) / Real.pi ^ 2 * (1 + Real.exp a + (b - a) / Real.pi) / N + μ.real {s | s - Real.log K < a ∨ b < s - Real.log K}) := by
  obtain ⟨put, h1, h2⟩ := C77_error μ h S0 tau r q L K a b N hN hab ha hb hv hS hK (hT 0 (by simp))
  obtain ⟨hi, hf⟩ := law_forward μ h S0 tau r q hv hcorr hS (hT 1 (by simp))
  have hp := mean_parity μ S0 tau r q K hi hf
  have hput : put = cosSum h S0 tau r q K a b N false := by
    unfold cosPrice at h1
    rw [if_neg (by simp), hab] at h1
    simp only [if_true, List.zip_cons_cons, List.zip_nil_right, List.map_cons, List.map_nil] at h1
    rw [if_neg (by norm_num : ¬ (-1 : ℝ) = 1)] at h1
    have := Except.ok.inj h1
    simpa using this.symm
  refine ⟨put + S0 * Real.exp (-q * tau) - K * Real.exp (-r * tau), ?_, ?_⟩
  · unfold cosPrice
    rw [if_neg (by simp), hab]
    simp [hput]
  · have : put + S0 * Real.exp (-q * tau) - K * Real.exp (-r * tau) - meanPayoff μ (Real.exp (-r * tau)) 1 K =
        put - meanPayoff μ (Real.exp (-r * tau)) (-1) K := by linarith
    rw [this]
    exact h2

/-- A model with variance that meets the hypotheses: the law of the log spot is that of an affine function of a squared Gaussian. -/
example (S0 K : ℝ) (hS : 0 < S0) (hK : 0 < K) (N : Nat) (hN : 0 < N) :
    ∃ a b put, a < 0 ∧ 0 < b ∧ cosPrice ⟨1, 2, 1, 1, 1⟩ S0 (Real.log 2) 0 0 [-1] [K] N 10 true = .ok [some put] ∧
      |put - meanPayoff ((gaussianReal 0 1).map (squareLog 1 2 (Real.log S0) (Real.log 2) 0 0)) (Real.exp (-0 * Real.log 2)) (-1) K| ≤
        Real.exp (-0 * Real.log 2) * K * (4 * (b - a) / Real.pi ^ 2 * (1 + Real.exp a + (b - a) / Real.pi) / N +
          ((gaussianReal 0 1).map (squareLog 1 2 (Real.log S0) (Real.log 2) 0 0)).real {s | s - Real.log K < a ∨ b < s - Real.log K}) := by
  have hm : Measurable (squareLog 1 2 (Real.log S0) (Real.log 2) 0 0) := by unfold squareLog; fun_prop
  have := Measure.isProbabilityMeasure_map (μ := gaussianReal 0 1) hm.aemeasurable
  have e : squareModel 1 2 = ⟨1, 2, 1, 1, 1⟩ := by unfold squareModel; norm_num
  have hl := Real.log_pos (by norm_num : (1 : ℝ) < 2)
  have hl2 := Real.log_two_lt_d9
  have hE : Real.exp (-Real.log 2) = 1 / 2 := by
    rw [Real.exp_neg, Real.exp_log (by norm_num)]
    norm_num
  have hE2 : Real.exp (-2 * Real.log 2) = 1 / 4 := by
    rw [show -2 * Real.log 2 = -Real.log 2 + -Real.log 2 by ring, Real.exp_add, hE]
    norm_num
  have c1 : (hestonCumulants ⟨1, 2, 1, 1, 1⟩ (0 - 0) (Real.log 2)).1 = -(Real.log 2 / 2) := by unfold hestonCumulants; norm_num; ring
  have c2 : (hestonCumulants ⟨1, 2, 1, 1, 1⟩ (0 - 0) (Real.log 2)).2 = -(1 / 8) := by
    unfold hestonCumulants
    simp only
    rw [show -2 * (1 : ℝ) * Real.log 2 = -2 * Real.log 2 by ring, show -(1 : ℝ) * Real.log 2 = -Real.log 2 by ring, hE, hE2]
    norm_num
  have hq : (0.35 : ℝ) < Real.sqrt (|(-(1 / 8) : ℝ)| + Real.sqrt |(0 : ℝ)|) := by
    apply Real.lt_sqrt_of_sq_lt
    norm_num
  obtain ⟨a, b, hab, ha, hb⟩ : ∃ a b, cosRange (.heston ⟨1, 2, 1, 1, 1⟩ (0 - 0) (Real.log 2)) 10 = .ok (a, b) ∧ a < 0 ∧ 0 < b := by
    refine ⟨_, _, rfl, ?_, ?_⟩
    · rw [c1, c2]
      linarith
    · rw [c1, c2]
      linarith
  obtain ⟨put, h1, h2⟩ := C77_error ((gaussianReal 0 1).map (squareLog 1 2 (Real.log S0) (Real.log 2) 0 0)) ⟨1, 2, 1, 1, 1⟩ S0 (Real.log 2) 0 0 10 K
    a b N hN hab ha hb (by norm_num) hS hK
    (by rw [← e]; exact C79_square_law 1 2 S0 _ 0 0 0 (by norm_num) (by norm_num) hl (by norm_num) (by norm_num))
  exact ⟨a, b, put, ha, hb, h1, h2⟩

end Frm.Props
