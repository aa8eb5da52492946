import Verif.Props.C79Existence
import Verif.Proofs.PoissonPricing

/-!
# C79: the error of the transform price

The price by fast Fourier transform replaces the Carr-Madan integral by a sum over 1024 frequencies, a quarter apart.
-/

open MeasureTheory

namespace Frm
namespace Spec

set_option autoImplicit false

/-- The mean payoff at the strike and those at the strikes whose logarithms are multiples of `P` away, damped. -/
noncomputable def aliasedPayoff (μ : Measure ℝ) (discount cp alpha K P : ℝ) : ℝ :=
  ∑' n : ℤ, Real.exp (cp * alpha * P * n) * meanPayoff μ discount cp (K * Real.exp (P * n))

/-- A bound of the mean payoffs so added on one side: `b` is a power of the spot, beyond that of the damping. -/
noncomputable def aliasTail (μ : Measure ℝ) (discount cp alpha K P b : ℝ) : ℝ :=
  discount * K ^ (1 - b) * (∫ s, Real.exp (b * s) ∂μ) * (Real.exp (-(|b - (cp * alpha + 1)| * P)) / (1 - Real.exp (-(|b - (cp * alpha + 1)| * P))))

/-- The bound of the error of the transform price at a strike of its grid: what is left out beyond the last frequency, and the added strikes. -/
noncomputable def fftBound (μ : Measure ℝ) (discount cp alpha K b1 b2 : ℝ) : ℝ :=
  K ^ (-(cp * alpha)) * discount * (∫ s, Real.exp ((cp * alpha + 1) * s) ∂μ) / (191 * Real.pi) +
    (4 * (aliasTail μ discount cp alpha K (8 * Real.pi) b1 + aliasTail μ discount cp alpha K (8 * Real.pi) b2) +
      (aliasTail μ discount cp alpha K (4 * Real.pi) b1 + aliasTail μ discount cp alpha K (4 * Real.pi) b2)) / 3

end Spec
end Frm

namespace Frm.Props
open Classical

set_option autoImplicit false

open Frm Frm.Spec

/-! ## The weights -/

/-- The weights of the code, without an end. -/
noncomputable def endlessWeight (m : ℕ) : ℝ := if m = 0 then 1 / 3 else if m % 2 = 0 then 2 / 3 else 4 / 3

theorem flatten_get (n : ℕ) (m : ℕ) (hm : m < 2 * n) : ((List.replicate n [(4 : ℝ), 2]).flatten ++ [1]).getD m 0 = if m % 2 = 0 then 4 else 2 := by
  induction n generalizing m with
  | zero => omega
  | succ n ih =>
    rw [List.replicate_succ, List.flatten_cons]
    match m with
    | 0 => rfl
    | 1 => rfl
    | m + 2 =>
      have := ih m (by omega)
      simp only [List.cons_append, List.nil_append, List.getD_cons_succ]
      rw [this, Nat.add_mod_right]

theorem flatten_last (n : ℕ) : ((List.replicate n [(4 : ℝ), 2]).flatten ++ [1]).getD (2 * n) 0 = 1 := by
  induction n with
  | zero => rfl
  | succ n ih =>
    rw [List.replicate_succ, List.flatten_cons, show 2 * (n + 1) = 2 * n + 2 by ring]
    simp only [List.cons_append, List.nil_append, List.getD_cons_succ]
    exact ih

theorem simpsonWeights_get (m : ℕ) (hm : m < 1023) : (simpsonWeights 1024).getD m 0 = endlessWeight m := by
  unfold simpsonWeights endlessWeight
  rw [show (0 : ℝ) = (fun w : ℝ => w / 3) 0 by norm_num, List.getD_map]
  match m with
  | 0 => norm_num
  | m + 1 =>
    have hm' : m < 2 * ((1024 - 2) / 2) := by norm_num; omega
    rw [List.append_assoc, List.singleton_append, List.getD_cons_succ, flatten_get _ m hm', if_neg (Nat.succ_ne_zero m)]
    rcases Nat.mod_two_eq_zero_or_one m with h | h
    · simp only [h, if_true, show (m + 1) % 2 = 1 by omega, one_ne_zero, if_false]
    · simp only [h, one_ne_zero, if_false, show (m + 1) % 2 = 0 by omega, if_true]

theorem simpsonWeights_last : (simpsonWeights 1024).getD 1023 0 = 1 / 3 := by
  unfold simpsonWeights
  rw [show (0 : ℝ) = (fun w : ℝ => w / 3) 0 by norm_num, List.getD_map, List.append_assoc, List.singleton_append, List.getD_cons_succ]
  rw [show 1022 = 2 * ((1024 - 2) / 2) by norm_num, flatten_last]

theorem endlessWeight_bound (m : ℕ) : 0 ≤ endlessWeight m ∧ endlessWeight m ≤ 4 / 3 := by
  unfold endlessWeight
  split_ifs <;> norm_num

theorem endless_sum (F : ℕ → ℝ) (hF : Summable F) :
    HasSum (fun m => endlessWeight m * F m) (4 / 3 * (∑' m, F m - F 0 / 2) - 2 / 3 * (∑' m, F (2 * m) - F 0 / 2)) := by
  have h2 : Function.Injective fun m : ℕ => 2 * m := fun a b h => by simpa using h
  have h3 : Function.Injective fun m : ℕ => 2 * m + 1 := fun a b h => by simpa using h
  have he : Summable fun m => F (2 * m) := hF.comp_injective h2
  have ho : Summable fun m => F (2 * m + 1) := hF.comp_injective h3
  have hs := tsum_even_add_odd he ho
  have hE : HasSum (fun m => endlessWeight (2 * m) * F (2 * m)) (2 / 3 * ∑' m, F (2 * m) - 1 / 3 * F 0) := by
    have h1 := (he.hasSum.mul_left (2 / 3)).sub (hasSum_ite_eq (0 : ℕ) (1 / 3 * F 0))
    have e : (fun m => endlessWeight (2 * m) * F (2 * m)) = fun m => 2 / 3 * F (2 * m) - (if m = 0 then 1 / 3 * F 0 else 0) := by
      funext m
      unfold endlessWeight
      by_cases h0 : m = 0
      · subst h0
        simp only [mul_zero, if_true]
        ring
      · rw [if_neg (by omega), if_pos (by omega), if_neg h0, sub_zero]
    rw [e]
    exact h1
  have hO : HasSum (fun m => endlessWeight (2 * m + 1) * F (2 * m + 1)) (4 / 3 * ∑' m, F (2 * m + 1)) := by
    have h1 := ho.hasSum.mul_left (4 / 3)
    have e : (fun m => endlessWeight (2 * m + 1) * F (2 * m + 1)) = fun m => 4 / 3 * F (2 * m + 1) := by
      funext m
      unfold endlessWeight
      rw [if_neg (by omega), if_neg (by omega)]
    rw [e]
    exact h1
  have h := HasSum.even_add_odd (f := fun m => endlessWeight m * F m) hE hO
  have e : 4 / 3 * (∑' m, F m - F 0 / 2) - 2 / 3 * (∑' m, F (2 * m) - F 0 / 2) =
      2 / 3 * ∑' m, F (2 * m) - 1 / 3 * F 0 + 4 / 3 * ∑' m, F (2 * m + 1) := by
    rw [← hs]
    ring
  rw [e]
  exact h

theorem tail_inv_sq (a : ℕ) (ha : 0 < a) :
    Summable (fun m : ℕ => 1 / ((m + a + 1 : ℕ) : ℝ) ^ 2) ∧ (∑' m : ℕ, 1 / ((m + a + 1 : ℕ) : ℝ) ^ 2) ≤ 1 / (a : ℝ) := by
  have hs : Summable (fun m : ℕ => 1 / ((m + a + 1 : ℕ) : ℝ) ^ 2) :=
    (Real.summable_one_div_nat_pow.2 (by norm_num : 1 < 2)).comp_injective (i := fun m : ℕ => m + a + 1) fun x y h => by
      simp only [Nat.add_right_cancel_iff] at h
      exact h
  refine ⟨hs, ?_⟩
  refine hs.tsum_le_of_sum_range_le fun n => ?_
  have h : ∀ n : ℕ, ∑ m ∈ Finset.range n, 1 / ((m + a + 1 : ℕ) : ℝ) ^ 2 ≤ 1 / (a : ℝ) - 1 / ((n + a : ℕ) : ℝ) := by
    intro n
    induction n with
    | zero => simp
    | succ n ih =>
      rw [Finset.sum_range_succ]
      have hp : (0 : ℝ) < ((n + a : ℕ) : ℝ) := by exact_mod_cast (by omega : 0 < n + a)
      have e : ((n + 1 + a : ℕ) : ℝ) = ((n + a : ℕ) : ℝ) + 1 := by push_cast; ring
      have e' : ((n + a + 1 : ℕ) : ℝ) = ((n + a : ℕ) : ℝ) + 1 := by push_cast; ring
      rw [e, e']
      generalize ((n + a : ℕ) : ℝ) = x at *
      have : 1 / (x + 1) ^ 2 ≤ 1 / x - 1 / (x + 1) := by
        rw [div_sub_div _ _ hp.ne' (by linarith), div_le_div_iff₀ (by positivity) (by positivity)]
        nlinarith
      linarith
  have h1 := h n
  have h2 : 0 ≤ 1 / ((n + a : ℕ) : ℝ) := by positivity
  linarith

/-- Ending the sum where the code does leaves an error of the order of the last frequency. -/
theorem truncated_sum (F : ℕ → ℝ) (B : ℝ) (hF : ∀ m, 0 < m → |F m| ≤ B / ((m : ℝ) / 4) ^ 2) :
    |∑ m ∈ Finset.range 1024, (simpsonWeights 1024).getD m 0 * F m - (4 / 3 * (∑' m, F m - F 0 / 2) - 2 / 3 * (∑' m, F (2 * m) - F 0 / 2))| ≤
      4 / 3 * (16 * B / 1022) := by
  have hB : ∀ m : ℕ, 0 < m → |F m| ≤ 16 * B * (1 / (m : ℝ) ^ 2) := by
    intro m hm
    have hm' : (0 : ℝ) < m := by exact_mod_cast hm
    refine (hF m hm).trans (le_of_eq ?_)
    field_simp
    try norm_num
  obtain ⟨hts, htl⟩ := tail_inv_sq 1022 (by norm_num)
  have hsum : Summable F := by
    rw [← summable_nat_add_iff 1]
    refine Summable.of_norm_bounded (((summable_nat_add_iff 1).2 (Real.summable_one_div_nat_pow.2 (by norm_num : 1 < 2))).mul_left (16 * B)) fun m => ?_
    exact hB (m + 1) (by omega)
  have hE := endless_sum F hsum
  rw [← hE.tsum_eq, ← hE.summable.sum_add_tsum_nat_add 1023, Finset.sum_range_succ]
  have e1 : ∑ m ∈ Finset.range 1023, (simpsonWeights 1024).getD m 0 * F m = ∑ m ∈ Finset.range 1023, endlessWeight m * F m := by
    refine Finset.sum_congr rfl fun m hm => ?_
    rw [simpsonWeights_get m (Finset.mem_range.1 hm)]
  rw [e1, add_sub_add_left_eq_sub, simpsonWeights_last]
  have hs' : Summable fun m => endlessWeight (m + 1023) * F (m + 1023) := (summable_nat_add_iff 1023).2 hE.summable
  have e2 : 1 / 3 * F 1023 - ∑' m, endlessWeight (m + 1023) * F (m + 1023) =
      ∑' m, ((if m = 0 then 1 / 3 * F 1023 else 0) - endlessWeight (m + 1023) * F (m + 1023)) := by
    rw [Summable.tsum_sub (hasSum_ite_eq 0 _).summable hs', tsum_ite_eq]
  rw [e2, ← Real.norm_eq_abs]
  have hb : ∀ m : ℕ, ‖(if m = 0 then 1 / 3 * F 1023 else 0) - endlessWeight (m + 1023) * F (m + 1023)‖ ≤ 4 / 3 * (16 * B) * (1 / ((m + 1022 + 1 : ℕ) : ℝ) ^ 2) := by
    intro m
    have hm := hB (m + 1023) (by omega)
    rw [Real.norm_eq_abs]
    have hw := endlessWeight_bound (m + 1023)
    have hle : |(if m = 0 then 1 / 3 * F 1023 else 0) - endlessWeight (m + 1023) * F (m + 1023)| ≤ 4 / 3 * |F (m + 1023)| := by
      by_cases h0 : m = 0
      · subst h0
        rw [if_pos rfl]
        have : endlessWeight (0 + 1023) = 4 / 3 := by unfold endlessWeight; norm_num
        rw [this, ← sub_mul, abs_mul]
        norm_num
        have := abs_nonneg (F 1023)
        linarith
      · rw [if_neg h0, zero_sub, abs_neg, abs_mul, abs_of_nonneg hw.1]
        exact mul_le_mul_of_nonneg_right hw.2 (abs_nonneg _)
    calc _ ≤ 4 / 3 * |F (m + 1023)| := hle
      _ ≤ 4 / 3 * (16 * B * (1 / ((m + 1023 : ℕ) : ℝ) ^ 2)) := by linarith
      _ = _ := by ring_nf
  refine (tsum_of_norm_bounded (hts.mul_left (4 / 3 * (16 * B))).hasSum hb).trans ?_
  rw [tsum_mul_left]
  have hB0 : 0 ≤ B := by
    have := (abs_nonneg _).trans (hB 1 one_pos)
    norm_num at this
    linarith
  have hB1 : 0 ≤ 4 / 3 * (16 * B) := mul_nonneg (by norm_num) (mul_nonneg (by norm_num) hB0)
  have hc : ((1022 : ℕ) : ℝ) = 1022 := by norm_num
  rw [hc] at htl
  calc _ ≤ 4 / 3 * (16 * B) * (1 / 1022) := mul_le_mul_of_nonneg_left htl hB1
    _ = _ := by ring

/-! ## The strikes a sum over frequencies adds -/

theorem damped_decay (cp alpha : ℝ) (hcp : cp = 1 ∧ 0 < alpha ∨ cp = -1 ∧ 1 < alpha) (s : ℝ) :
    ∃ C c : ℝ, 0 ≤ C ∧ 0 < c ∧ ∀ k, Real.exp (cp * alpha * k) * optionPayoff cp (Real.exp k) (Real.exp s) ≤ C * Real.exp (-c * |k|) := by
  have hs := abs_nonneg s
  have hs1 := le_abs_self s
  have hs2 := neg_abs_le s
  unfold optionPayoff
  rcases hcp with ⟨rfl, ha⟩ | ⟨rfl, ha⟩
  · refine ⟨Real.exp (s + 2 * alpha * |s|), alpha, (Real.exp_pos _).le, ha, fun k => ?_⟩
    by_cases hk : k ≤ s
    · have h1 : Real.exp k ≤ Real.exp s := Real.exp_le_exp.2 hk
      rw [max_eq_right (by linarith)]
      calc Real.exp (1 * alpha * k) * (1 * (Real.exp s - Real.exp k)) ≤ Real.exp (1 * alpha * k) * Real.exp s := by
            refine mul_le_mul_of_nonneg_left ?_ (Real.exp_pos _).le
            have := Real.exp_pos k
            linarith
        _ = Real.exp (1 * alpha * k + s) := (Real.exp_add _ _).symm
        _ ≤ Real.exp (s + 2 * alpha * |s| + -alpha * |k|) := by
            apply Real.exp_le_exp.2
            rcases abs_cases k with ⟨h, _⟩ | ⟨h, _⟩ <;> rw [h] <;> nlinarith
        _ = _ := Real.exp_add _ _
    · have h1 : Real.exp s ≤ Real.exp k := Real.exp_le_exp.2 (le_of_not_ge hk)
      rw [max_eq_left (by linarith), mul_zero]
      exact mul_nonneg (Real.exp_pos _).le (Real.exp_pos _).le
  · refine ⟨Real.exp (2 * (alpha - 1) * |s|), alpha - 1, (Real.exp_pos _).le, by linarith, fun k => ?_⟩
    by_cases hk : s ≤ k
    · have h1 : Real.exp s ≤ Real.exp k := Real.exp_le_exp.2 hk
      rw [max_eq_right (by linarith)]
      calc Real.exp (-1 * alpha * k) * (-1 * (Real.exp s - Real.exp k)) ≤ Real.exp (-1 * alpha * k) * Real.exp k := by
            refine mul_le_mul_of_nonneg_left ?_ (Real.exp_pos _).le
            have := Real.exp_pos s
            linarith
        _ = Real.exp (-1 * alpha * k + k) := (Real.exp_add _ _).symm
        _ ≤ Real.exp (2 * (alpha - 1) * |s| + -(alpha - 1) * |k|) := by
            apply Real.exp_le_exp.2
            have hp : 0 < alpha - 1 := by linarith
            rcases abs_cases k with ⟨h, _⟩ | ⟨h, _⟩ <;> rw [h] <;> nlinarith
        _ = _ := Real.exp_add _ _
    · have h1 : Real.exp k ≤ Real.exp s := Real.exp_le_exp.2 (le_of_not_ge hk)
      rw [max_eq_left (by linarith), mul_zero]
      exact mul_nonneg (Real.exp_pos _).le (Real.exp_pos _).le

/-- What the code sums at a frequency, but for the discount and the weight. -/
noncomputable def frequencyTerm (μ : Measure ℝ) (cp alpha k v : ℝ) : ℝ :=
  (Complex.exp (-Complex.I * v * k) * (lineTransform μ (cp * alpha + 1) v * dampedTransform cp alpha 0 v)).re

section
variable (μ : Measure ℝ) (cp alpha : ℝ) (hcp : cp = 1 ∧ 0 < alpha ∨ cp = -1 ∧ 1 < alpha)
  (hi : Integrable (fun s => Real.exp ((cp * alpha + 1) * s)) μ)
include hcp

theorem frequencyTerm_even (k v : ℝ) : frequencyTerm μ cp alpha k (-v) = frequencyTerm μ cp alpha k v := by
  unfold frequencyTerm
  rw [← Complex.conj_re (Complex.exp (-Complex.I * v * k) * _)]
  congr 1
  rw [map_mul, map_mul, lineTransform_conj, (damped_payoff cp alpha hcp).kernel_conj, ← Complex.exp_conj]
  congr 2
  simp

theorem frequencyTerm_bound (k v : ℝ) (hv : v ≠ 0) : |frequencyTerm μ cp alpha k v| ≤ (∫ s, Real.exp ((cp * alpha + 1) * s) ∂μ) / v ^ 2 := by
  unfold frequencyTerm
  refine (Complex.abs_re_le_norm _).trans ?_
  rw [norm_mul, norm_mul, Complex.norm_exp]
  have : (-Complex.I * v * k).re = 0 := by simp
  rw [this, Real.exp_zero, one_mul, div_eq_mul_one_div]
  refine mul_le_mul (lineTransform_bound μ _ _) (((damped_payoff cp alpha hcp).decay v).trans ?_) (norm_nonneg _) (integral_nonneg fun s => (Real.exp_pos _).le)
  have h0 := (damped_payoff cp alpha hcp).pos
  have : 0 < v ^ 2 := by positivity
  exact one_div_le_one_div_of_le this (by linarith)

include hi

omit hi in
theorem frequency_sum (eta : ℝ) (he : 0 < eta) (k : ℝ) :
    ∑' n : ℤ, frequencyTerm μ cp alpha k (eta * n) = 2 * ∑' m : ℕ, frequencyTerm μ cp alpha k (eta * m) - frequencyTerm μ cp alpha k 0 ∧
    Summable fun m : ℕ => frequencyTerm μ cp alpha k (eta * m) := by
  have hs : Summable fun n : ℤ => frequencyTerm μ cp alpha k (eta * n) :=
    (Complex.hasSum_re ((damped_payoff cp alpha hcp).summable_frequencies μ eta he k).hasSum).summable
  have hN : Summable fun m : ℕ => frequencyTerm μ cp alpha k (eta * m) :=
    (hs.comp_injective Nat.cast_injective).congr fun m => by simp
  refine ⟨?_, hN⟩
  have hev : Function.Even fun n : ℤ => frequencyTerm μ cp alpha k (eta * n) := by
    intro n
    simp only
    rw [show eta * ((-n : ℤ) : ℝ) = -(eta * n) by push_cast; ring, frequencyTerm_even μ cp alpha hcp]
  rw [tsum_int_eq_zero_add_two_mul_tsum_pnat hev hs]
  have h1 := tsum_zero_pnat_eq_tsum_nat (f := fun m : ℕ => frequencyTerm μ cp alpha k (eta * m)) hN
  rw [← h1]
  simp only [Nat.cast_zero, Int.cast_zero, mul_zero, Int.cast_natCast]
  rw [two_nsmul]
  ring

theorem aliased_sum (discount K eta : ℝ) (hK : 0 < K) (he : 0 < eta) :
    HasSum (fun n : ℤ => Real.exp (cp * alpha * (2 * Real.pi / eta) * n) * meanPayoff μ discount cp (K * Real.exp (2 * Real.pi / eta * n)))
      (Real.exp (-cp * alpha * Real.log K) / Real.pi * discount *
        (eta * (∑' m : ℕ, frequencyTerm μ cp alpha (Real.log K) (eta * m) - frequencyTerm μ cp alpha (Real.log K) 0 / 2))) := by
  have hpi := Real.pi_pos
  have h := ((damped_payoff cp alpha hcp).poisson_mean (damped_decay cp alpha hcp) μ hi eta he (Real.log K)).mul_left
    (Real.exp (-cp * alpha * Real.log K) * discount)
  have hf := (frequency_sum μ cp alpha hcp eta he (Real.log K)).1
  unfold frequencyTerm at hf ⊢
  rw [hf] at h
  have e : (fun n : ℤ => Real.exp (cp * alpha * (2 * Real.pi / eta) * n) * meanPayoff μ discount cp (K * Real.exp (2 * Real.pi / eta * n))) =
      fun n : ℤ => Real.exp (-cp * alpha * Real.log K) * discount * ∫ s, Real.exp (cp * alpha * (Real.log K + 2 * Real.pi / eta * n)) *
        optionPayoff cp (Real.exp (Real.log K + 2 * Real.pi / eta * n)) (Real.exp s) ∂μ := by
    funext n
    unfold meanPayoff
    rw [integral_const_mul, Real.exp_add (Real.log K), Real.exp_log hK]
    have : Real.exp (cp * alpha * (2 * Real.pi / eta) * n) =
        Real.exp (-cp * alpha * Real.log K) * Real.exp (cp * alpha * (Real.log K + 2 * Real.pi / eta * n)) := by
      rw [← Real.exp_add]
      congr 1
      ring
    rw [this]
    ring
  rw [e]
  have e2 : ∀ X y : ℝ, Real.exp (-cp * alpha * Real.log K) / Real.pi * discount * (eta * (X - y / 2)) =
      Real.exp (-cp * alpha * Real.log K) * discount * (eta / (2 * Real.pi) * (2 * X - y)) := fun X y => by field_simp
  rw [e2]
  exact h

theorem aliased_eq (discount K eta : ℝ) (hK : 0 < K) (he : 0 < eta) (P : ℝ) (hP : P = 2 * Real.pi / eta) :
    aliasedPayoff μ discount cp alpha K P = Real.exp (-cp * alpha * Real.log K) / Real.pi * discount *
        (eta * (∑' m : ℕ, frequencyTerm μ cp alpha (Real.log K) (eta * m) - frequencyTerm μ cp alpha (Real.log K) 0 / 2)) := by
  rw [hP]
  exact (aliased_sum μ cp alpha hcp hi discount K eta hK he).tsum_eq

end

theorem integrand_term (μ : Measure ℝ) (h : Heston) (S0 tau r q cp alpha k v : ℝ) (hcp : cp = 1 ∧ 0 < alpha ∨ cp = -1 ∧ 1 < alpha)
    (hT : IsTransform μ (chfAlbrecher h (Real.log S0) tau r q) (cp * alpha + 1)) :
    carrMadanIntegrand h cp (Real.log S0) k tau r q alpha v = Real.exp (-r * tau) * frequencyTerm μ cp alpha k v := by
  unfold carrMadanIntegrand frequencyTerm
  rw [← line_eq μ _ _ hT v, ← Complex.re_ofReal_mul, C79_damped_kernel cp alpha 0 v hcp]
  simp only [Complex.ofReal_zero, mul_zero, Complex.exp_zero]
  congr 1
  push_cast
  ring

theorem exp_log_rpow (cp alpha K : ℝ) (hK : 0 < K) : Real.exp (-cp * alpha * Real.log K) = K ^ (-(cp * alpha)) := by
  rw [Real.rpow_def_of_pos hK]
  congr 1
  ring

theorem error_scale (x D A B1 B2 f M : ℝ) (hx : 0 ≤ x) (hD : 0 ≤ D) (hM : 0 ≤ M)
    (hF : |A - (4 / 3 * (B1 - f / 2) - 2 / 3 * (B2 - f / 2))| ≤ 4 / 3 * (16 * M / 1022)) :
    |x / Real.pi * (D / 4 * A) - (4 * (x / Real.pi * D * (1 / 4 * (B1 - f / 2))) - x / Real.pi * D * (1 / 2 * (B2 - f / 2))) / 3| ≤
      x * D * M / (191 * Real.pi) := by
  have hpi := Real.pi_pos
  rw [show x / Real.pi * (D / 4 * A) - (4 * (x / Real.pi * D * (1 / 4 * (B1 - f / 2))) - x / Real.pi * D * (1 / 2 * (B2 - f / 2))) / 3 =
      x / Real.pi * D / 4 * (A - (4 / 3 * (B1 - f / 2) - 2 / 3 * (B2 - f / 2))) by ring]
  rw [abs_mul, abs_of_nonneg (by positivity)]
  calc _ ≤ x / Real.pi * D / 4 * (4 / 3 * (16 * M / 1022)) := mul_le_mul_of_nonneg_left hF (by positivity)
    _ = x * D * M / Real.pi * (16 / 3066) := by ring
    _ ≤ x * D * M / Real.pi * (1 / 191) := mul_le_mul_of_nonneg_left (by norm_num) (by positivity)
    _ = _ := by ring

theorem fft_sum_error (μ : Measure ℝ) (h : Heston) (S0 tau r q cp alpha K : ℝ) (hcp : cp = 1 ∧ 0 < alpha ∨ cp = -1 ∧ 1 < alpha) (hK : 0 < K)
    (hT : IsTransform μ (chfAlbrecher h (Real.log S0) tau r q) (cp * alpha + 1)) :
    let D := Real.exp (-r * tau)
    |Real.exp (-cp * alpha * Real.log K) / Real.pi *
        ∑ m ∈ Finset.range 1024, (simpsonWeights 1024).getD m 0 / 4 * carrMadanIntegrand h cp (Real.log S0) (Real.log K) tau r q alpha (m / 4) -
      (4 * aliasedPayoff μ D cp alpha K (8 * Real.pi) - aliasedPayoff μ D cp alpha K (4 * Real.pi)) / 3| ≤
      K ^ (-(cp * alpha)) * D * (∫ s, Real.exp ((cp * alpha + 1) * s) ∂μ) / (191 * Real.pi) := by
  intro D
  have hD : 0 < D := Real.exp_pos _
  have hpi := Real.pi_pos
  rw [aliased_eq μ cp alpha hcp hT.1 D K (1 / 4) hK (by norm_num) (8 * Real.pi) (by ring),
    aliased_eq μ cp alpha hcp hT.1 D K (1 / 2) hK (by norm_num) (4 * Real.pi) (by ring)]
  simp only [integrand_term μ h S0 tau r q cp alpha (Real.log K) _ hcp hT]
  let F : ℕ → ℝ := fun m => frequencyTerm μ cp alpha (Real.log K) (m / 4)
  have hF := truncated_sum F (∫ s, Real.exp ((cp * alpha + 1) * s) ∂μ) fun m hm =>
    frequencyTerm_bound μ cp alpha hcp _ _ (by have : (0 : ℝ) < m := (by exact_mod_cast hm); positivity)
  have e0 : F 0 = frequencyTerm μ cp alpha (Real.log K) 0 := by simp [F]
  have e1 : ∀ m : ℕ, frequencyTerm μ cp alpha (Real.log K) (1 / 4 * m) = F m := fun m => by simp only [F]; congr 1; ring
  have e2 : ∀ m : ℕ, frequencyTerm μ cp alpha (Real.log K) (1 / 2 * m) = F (2 * m) := fun m => by simp only [F]; congr 1; push_cast; ring
  have e3 : ∑ m ∈ Finset.range 1024, (simpsonWeights 1024).getD m 0 / 4 * (Real.exp (-r * tau) * frequencyTerm μ cp alpha (Real.log K) (m / 4)) =
      D / 4 * ∑ m ∈ Finset.range 1024, (simpsonWeights 1024).getD m 0 * F m := by
    rw [Finset.mul_sum]
    refine Finset.sum_congr rfl fun m _ => ?_
    simp only [F, D]
    ring
  simp only [e1, e2, ← e0]
  rw [e3]
  generalize (∑ m ∈ Finset.range 1024, (simpsonWeights 1024).getD m 0 * F m) = A at *
  generalize (∑' m, F m) = B1 at *
  generalize (∑' m, F (2 * m)) = B2 at *
  rw [exp_log_rpow cp alpha K hK]
  have hp : 0 < K ^ (-(cp * alpha)) := Real.rpow_pos_of_pos hK _
  have hM : 0 ≤ ∫ s, Real.exp ((cp * alpha + 1) * s) ∂μ := integral_nonneg fun s => (Real.exp_pos _).le
  exact error_scale _ D A B1 B2 (F 0) _ hp.le hD.le hM hF

/-! ## The added strikes are negligible -/

theorem payoff_power (cp b x s : ℝ) (hb : cp = 1 ∧ 1 ≤ b ∨ cp = -1 ∧ b ≤ 0) :
    optionPayoff cp (Real.exp x) (Real.exp s) ≤ Real.exp ((1 - b) * x + b * s) := by
  unfold optionPayoff
  have h0 := Real.exp_pos ((1 - b) * x + b * s)
  have hx := Real.exp_pos x
  have hs := Real.exp_pos s
  rcases hb with ⟨rfl, hb⟩ | ⟨rfl, hb⟩
  · refine max_le h0.le ?_
    rcases le_total x s with h | h
    · have : Real.exp s ≤ Real.exp ((1 - b) * x + b * s) := Real.exp_le_exp.2 (by nlinarith)
      linarith
    · have : Real.exp s ≤ Real.exp x := Real.exp_le_exp.2 h
      linarith
  · refine max_le h0.le ?_
    rcases le_total s x with h | h
    · have : Real.exp x ≤ Real.exp ((1 - b) * x + b * s) := Real.exp_le_exp.2 (by nlinarith)
      linarith
    · have : Real.exp x ≤ Real.exp s := Real.exp_le_exp.2 h
      linarith

section
variable (μ : Measure ℝ) (discount cp alpha K : ℝ) (hD : 0 ≤ discount) (hK : 0 < K)

include hD in
theorem meanPayoff_nonneg (L : ℝ) : 0 ≤ meanPayoff μ discount cp L := mul_nonneg hD (integral_nonneg fun _ => le_max_left _ _)

include hD hK

theorem alias_term (b P : ℝ) (hb : cp = 1 ∧ 1 ≤ b ∨ cp = -1 ∧ b ≤ 0) (hi : Integrable (fun s => Real.exp (b * s)) μ) (n : ℤ) :
    Real.exp (cp * alpha * P * n) * meanPayoff μ discount cp (K * Real.exp (P * n)) ≤
      discount * K ^ (1 - b) * (∫ s, Real.exp (b * s) ∂μ) * Real.exp (-((b - (cp * alpha + 1)) * P * n)) := by
  unfold meanPayoff
  have h1 : ∫ s, optionPayoff cp (K * Real.exp (P * n)) (Real.exp s) ∂μ ≤ K ^ (1 - b) * Real.exp ((1 - b) * (P * n)) * ∫ s, Real.exp (b * s) ∂μ := by
    rw [← integral_const_mul]
    refine integral_mono_of_nonneg (Filter.Eventually.of_forall fun s => le_max_left _ _) (hi.const_mul _) (Filter.Eventually.of_forall fun s => ?_)
    have := payoff_power cp b (Real.log K + P * n) s hb
    rw [Real.exp_add, Real.exp_log hK] at this
    refine this.trans (le_of_eq ?_)
    simp only
    rw [Real.rpow_def_of_pos hK, ← Real.exp_add, ← Real.exp_add]
    congr 1
    ring
  have h2 : Real.exp (-((b - (cp * alpha + 1)) * P * n)) = Real.exp (cp * alpha * P * n) * Real.exp ((1 - b) * (P * n)) := by
    rw [← Real.exp_add]
    congr 1
    ring
  rw [h2]
  calc _ ≤ Real.exp (cp * alpha * P * n) * (discount * (K ^ (1 - b) * Real.exp ((1 - b) * (P * n)) * ∫ s, Real.exp (b * s) ∂μ)) :=
        mul_le_mul_of_nonneg_left (mul_le_mul_of_nonneg_left h1 hD) (Real.exp_pos _).le
    _ = _ := by ring

variable (hcp : cp = 1 ∧ 0 < alpha ∨ cp = -1 ∧ 1 < alpha) (hi : Integrable (fun s => Real.exp ((cp * alpha + 1) * s)) μ)
  (b1 b2 : ℝ) (hb1 : cp = 1 ∧ 1 ≤ b1 ∨ cp = -1 ∧ b1 ≤ 0) (hb2 : cp = 1 ∧ 1 ≤ b2 ∨ cp = -1 ∧ b2 ≤ 0)
  (h1 : b1 < cp * alpha + 1) (h2 : cp * alpha + 1 < b2)
  (hi1 : Integrable (fun s => Real.exp (b1 * s)) μ) (hi2 : Integrable (fun s => Real.exp (b2 * s)) μ)
include hcp hi hb1 hb2 h1 h2 hi1 hi2

theorem alias_bound (eta P : ℝ) (he : 0 < eta) (hP : P = 2 * Real.pi / eta) :
    0 ≤ aliasedPayoff μ discount cp alpha K P - meanPayoff μ discount cp K ∧
    aliasedPayoff μ discount cp alpha K P - meanPayoff μ discount cp K ≤ aliasTail μ discount cp alpha K P b1 + aliasTail μ discount cp alpha K P b2 := by
  have hpi := Real.pi_pos
  have hP0 : 0 < P := by rw [hP]; positivity
  have hs := (aliased_sum μ cp alpha hcp hi discount K eta hK he).summable
  rw [← hP] at hs
  obtain ⟨f, hf⟩ : ∃ f : ℤ → ℝ, f = fun n : ℤ => Real.exp (cp * alpha * P * n) * meanPayoff μ discount cp (K * Real.exp (P * n)) := ⟨_, rfl⟩
  have hA : aliasedPayoff μ discount cp alpha K P = ∑' n, f n := by rw [hf]; rfl
  rw [← hf] at hs
  have h0 : f 0 = meanPayoff μ discount cp K := by rw [hf]; simp
  have hf0 : ∀ n, 0 ≤ f n := fun n => by rw [hf]; exact mul_nonneg (Real.exp_pos _).le (meanPayoff_nonneg μ discount cp hD _)
  have hn1 : Summable fun n : ℕ => f n := hs.comp_injective Nat.cast_injective
  have hn2 : Summable fun n : ℕ => f (-(n + 1)) := hs.comp_injective (i := fun n : ℕ => -((n : ℤ) + 1)) fun a b h => by simpa using h
  have hn3 : Summable fun n : ℕ => f ((n + 1 : ℕ)) := (summable_nat_add_iff 1).2 hn1
  have e : ∑' n, f n - meanPayoff μ discount cp K = ∑' n : ℕ, f (-(n + 1)) + ∑' n : ℕ, f ((n + 1 : ℕ)) := by
    rw [tsum_of_nat_of_neg_add_one hn1 hn2, hn1.tsum_eq_zero_add, ← h0]
    simp only [Nat.cast_zero]
    ring
  rw [hA, e]
  refine ⟨add_nonneg (tsum_nonneg fun n => hf0 _) (tsum_nonneg fun n => hf0 _), ?_⟩
  have hgeo : ∀ (c d : ℝ), 0 < d → HasSum (fun n : ℕ => c * Real.exp (-(d * P * (n + 1)))) (c * (Real.exp (-(d * P)) / (1 - Real.exp (-(d * P))))) := by
    intro c d hd
    have hlt : Real.exp (-(d * P)) < 1 := by
      rw [Real.exp_lt_one_iff]
      have := mul_pos hd hP0
      linarith
    have hg := (hasSum_geometric_of_lt_one (Real.exp_pos (-(d * P))).le hlt).mul_left (c * Real.exp (-(d * P)))
    have e1 : (fun n : ℕ => c * Real.exp (-(d * P * (n + 1)))) = fun n : ℕ => c * Real.exp (-(d * P)) * Real.exp (-(d * P)) ^ n := by
      funext n
      rw [← Real.exp_nat_mul, mul_assoc c, ← Real.exp_add]
      congr 2
      ring
    rw [e1, show c * (Real.exp (-(d * P)) / (1 - Real.exp (-(d * P)))) = c * Real.exp (-(d * P)) * (1 - Real.exp (-(d * P)))⁻¹ by
      rw [div_eq_mul_inv]; ring]
    exact hg
  have g1 := hgeo (discount * K ^ (1 - b1) * ∫ s, Real.exp (b1 * s) ∂μ) |b1 - (cp * alpha + 1)| (abs_pos.2 (by linarith))
  have g2 := hgeo (discount * K ^ (1 - b2) * ∫ s, Real.exp (b2 * s) ∂μ) |b2 - (cp * alpha + 1)| (abs_pos.2 (by linarith))
  unfold aliasTail
  refine add_le_add (hasSum_le ?_ hn2.hasSum g1) (hasSum_le ?_ hn3.hasSum g2)
  · intro n
    have := alias_term μ discount cp alpha K hD hK b1 P hb1 hi1 (-(n + 1))
    rw [hf]
    refine this.trans (le_of_eq ?_)
    congr 2
    rw [abs_of_neg (by linarith)]
    push_cast
    ring
  · intro n
    have := alias_term μ discount cp alpha K hD hK b2 P hb2 hi2 ((n + 1 : ℕ))
    rw [hf]
    refine this.trans (le_of_eq ?_)
    congr 2
    rw [abs_of_pos (by linarith)]
    push_cast
    ring

end

theorem alias_mix (v A8 A4 V E t8 t4 : ℝ) (hE : |v - (4 * A8 - A4) / 3| ≤ E) (h8 : 0 ≤ A8 - V ∧ A8 - V ≤ t8) (h4 : 0 ≤ A4 - V ∧ A4 - V ≤ t4) :
    |v - V| ≤ E + (4 * t8 + t4) / 3 := by
  rw [abs_le] at hE ⊢
  constructor <;> linarith [hE.1, hE.2, h8.1, h8.2, h4.1, h4.2]

/-- At every strike of its grid the transform price is the discounted mean payoff up to an explicit error. -/
theorem C79_fft_price (μ : Measure ℝ) (h : Heston) (hk : 0 < h.kappa) (hvv : 0 < h.vv) (hr : |h.rho| ≤ 1) (hv : 0 ≤ h.var0) (hth : 0 ≤ h.theta)
    (lambda S0 tau r q K : ℝ) (ht : 0 ≤ tau) (hK : 0 < K) (hl : IsHestonLaw μ h (Real.log S0) tau r q) (j : Nat) (hj : j < 1024)
    (hgrid : Real.log K = -(4 * Real.pi) + Real.pi / 128 * j) :
    (∀ p, 1.75 < p → GoodPower h p → ∃ v, hestonPrice .carrMadanFft h lambda S0 tau r q 1 K = .ok (some v) ∧
      |v - meanPayoff μ (Real.exp (-r * tau)) 1 K| ≤ fftBound μ (Real.exp (-r * tau)) 1 0.75 K 1 p) ∧
    (∀ p, p < -0.75 → GoodPower h p → ∃ v, hestonPrice .carrMadanFft h lambda S0 tau r q (-1) K = .ok (some v) ∧
      |v - meanPayoff μ (Real.exp (-r * tau)) (-1) K| ≤ fftBound μ (Real.exp (-r * tau)) (-1) 1.75 K p 0) := by
  have hg : GoodHeston h := ⟨hk, hvv, hr⟩
  have hD := (Real.exp_pos (-r * tau)).le
  have hm : ∀ b, GoodPower h b → IsTransform μ (chfAlbrecher h (Real.log S0) tau r q) b := C79_law_moments μ h hk hvv hr hv hth _ tau r q ht hl
  have between : ∀ p b, GoodPower h p → b ∈ segment ℝ 0 p → GoodPower h b := fun p b hp hb =>
    (goodPower_convex h hg).segment_subset (goodPower_zero h hg) hp hb
  constructor
  · intro p hp hgp
    have hup : ∀ b, 0 ≤ b → b ≤ p → GoodPower h b := fun b h0 h1 => between p b hgp (by
      rw [segment_eq_Icc (by linarith)]
      exact ⟨h0, h1⟩)
    obtain ⟨alpha, ha, hprice⟩ := C79_fft h lambda S0 tau r q 1 K (Or.inl rfl) j hj hgrid
    have ha' : alpha = 0.75 := by
      rcases ha with ⟨_, h1⟩ | ⟨h1, _⟩
      · exact h1
      · norm_num at h1
    subst ha'
    have hcp : (1 : ℝ) = 1 ∧ (0 : ℝ) < 0.75 ∨ (1 : ℝ) = -1 ∧ (1 : ℝ) < 0.75 := Or.inl ⟨rfl, by norm_num⟩
    have hT := hm (1 * 0.75 + 1) (hup _ (by norm_num) (by norm_num at hp ⊢; linarith))
    refine ⟨_, hprice, ?_⟩
    have hab := alias_bound μ (Real.exp (-r * tau)) 1 0.75 K hD hK hcp hT.1 1 p (Or.inl ⟨rfl, le_refl _⟩) (Or.inl ⟨rfl, by linarith⟩) (by norm_num)
      (by norm_num at hp ⊢; linarith) (hm 1 (hup 1 (by norm_num) (by linarith))).1 (hm p hgp).1
    exact alias_mix _ _ _ _ _ _ _ (fft_sum_error μ h S0 tau r q 1 0.75 K hcp hK hT) (hab (1 / 4) _ (by norm_num) (by ring)) (hab (1 / 2) _ (by norm_num) (by ring))
  · intro p hp hgp
    have hup : ∀ b, p ≤ b → b ≤ 0 → GoodPower h b := fun b h0 h1 => between p b hgp (by
      rw [segment_symm, segment_eq_Icc (by linarith)]
      exact ⟨h0, h1⟩)
    obtain ⟨alpha, ha, hprice⟩ := C79_fft h lambda S0 tau r q (-1) K (Or.inr rfl) j hj hgrid
    have ha' : alpha = 1.75 := by
      rcases ha with ⟨h1, _⟩ | ⟨_, h1⟩
      · norm_num at h1
      · exact h1
    subst ha'
    have hcp : (-1 : ℝ) = 1 ∧ (0 : ℝ) < 1.75 ∨ (-1 : ℝ) = -1 ∧ (1 : ℝ) < 1.75 := Or.inr ⟨rfl, by norm_num⟩
    have hT := hm (-1 * 1.75 + 1) (hup _ (by norm_num at hp ⊢; linarith) (by norm_num))
    refine ⟨_, hprice, ?_⟩
    have hab := alias_bound μ (Real.exp (-r * tau)) (-1) 1.75 K hD hK hcp hT.1 p 0 (Or.inr ⟨rfl, by linarith⟩) (Or.inr ⟨rfl, le_refl _⟩)
      (by norm_num at hp ⊢; linarith) (by norm_num) (hm p hgp).1 (hm 0 (goodPower_zero h hg)).1
    exact alias_mix _ _ _ _ _ _ _ (fft_sum_error μ h S0 tau r q (-1) 1.75 K hcp hK hT) (hab (1 / 4) _ (by norm_num) (by ring)) (hab (1 / 2) _ (by norm_num) (by ring))

/-! ## Between the strikes of the grid -/

theorem payoff_lipschitz (cp K1 K2 S : ℝ) (hcp : cp = 1 ∨ cp = -1) : |optionPayoff cp K1 S - optionPayoff cp K2 S| ≤ |K1 - K2| := by
  unfold optionPayoff
  refine (abs_max_sub_max_le_max _ _ _ _).trans ?_
  refine max_le (by simp) (le_of_eq ?_)
  rcases hcp with rfl | rfl
  · rw [show 1 * (S - K1) - 1 * (S - K2) = -(K1 - K2) by ring, abs_neg]
  · rw [show -1 * (S - K1) - -1 * (S - K2) = K1 - K2 by ring]

theorem meanPayoff_lipschitz (μ : Measure ℝ) [IsProbabilityMeasure μ] (discount cp K1 K2 : ℝ) (hD : 0 ≤ discount)
    (hcp : cp = 1 ∧ Integrable Real.exp μ ∨ cp = -1) : |meanPayoff μ discount cp K1 - meanPayoff μ discount cp K2| ≤ discount * |K1 - K2| := by
  have hi : ∀ K, Integrable (fun s => optionPayoff cp K (Real.exp s)) μ := by
    intro K
    rcases hcp with ⟨rfl, hi⟩ | rfl
    · exact payoff_integrable μ 1 K (Or.inl rfl) hi
    · refine (integrable_const |K|).mono' (payoff_measurable (-1) K).aestronglyMeasurable (Filter.Eventually.of_forall fun s => ?_)
      unfold optionPayoff
      rw [Real.norm_of_nonneg (le_max_left _ _)]
      have h1 := Real.exp_pos s
      have h2 := le_abs_self K
      have h3 := abs_nonneg K
      exact max_le h3 (by linarith)
  unfold meanPayoff
  rw [← mul_sub, ← integral_sub (hi K1) (hi K2), abs_mul, abs_of_nonneg hD]
  refine mul_le_mul_of_nonneg_left ?_ hD
  rw [← Real.norm_eq_abs]
  refine (norm_integral_le_of_norm_le_const (C := |K1 - K2|) (Filter.Eventually.of_forall fun s => ?_)).trans (by simp)
  exact payoff_lipschitz cp K1 K2 _ (hcp.imp And.left id)

theorem interp_error (v1 v2 V1 V2 V E1 E2 L w : ℝ) (h1 : |v1 - V1| ≤ E1) (h2 : |v2 - V2| ≤ E2) (l1 : |V1 - V| ≤ L) (l2 : |V2 - V| ≤ L)
    (hw0 : 0 ≤ w) (hw1 : w ≤ 1) : |v1 + (v2 - v1) * w - V| ≤ max E1 E2 + L := by
  have a1 : |v1 - V| ≤ max E1 E2 + L := by
    rw [show v1 - V = (v1 - V1) + (V1 - V) by ring]
    exact (abs_add_le _ _).trans (add_le_add (h1.trans (le_max_left _ _)) l1)
  have a2 : |v2 - V| ≤ max E1 E2 + L := by
    rw [show v2 - V = (v2 - V2) + (V2 - V) by ring]
    exact (abs_add_le _ _).trans (add_le_add (h2.trans (le_max_right _ _)) l2)
  generalize max E1 E2 + L = M at *
  rw [abs_le] at *
  constructor <;> nlinarith

/-- Between neighbouring strikes of the grid the transform price is the discounted mean payoff up to the errors at the neighbours and their discounted
distance. -/
theorem C79_fft_price_between (μ : Measure ℝ) (h : Heston) (hk : 0 < h.kappa) (hvv : 0 < h.vv) (hr : |h.rho| ≤ 1) (hv : 0 ≤ h.var0) (hth : 0 ≤ h.theta)
    (lambda S0 tau r q K1 K K2 : ℝ) (ht : 0 ≤ tau) (hK1 : 0 < K1) (h1 : K1 ≤ K) (h2 : K ≤ K2) (hl : IsHestonLaw μ h (Real.log S0) tau r q)
    (j : Nat) (hj : j + 1 < 1024) (hg1 : Real.log K1 = -(4 * Real.pi) + Real.pi / 128 * j)
    (hg2 : Real.log K2 = -(4 * Real.pi) + Real.pi / 128 * (j + 1 : Nat)) :
    let D := Real.exp (-r * tau)
    (∀ p, 1.75 < p → GoodPower h p → ∃ v, hestonPrice .carrMadanFft h lambda S0 tau r q 1 K = .ok (some v) ∧
      |v - meanPayoff μ D 1 K| ≤ max (fftBound μ D 1 0.75 K1 1 p) (fftBound μ D 1 0.75 K2 1 p) + D * (K2 - K1)) ∧
    (∀ p, p < -0.75 → GoodPower h p → ∃ v, hestonPrice .carrMadanFft h lambda S0 tau r q (-1) K = .ok (some v) ∧
      |v - meanPayoff μ D (-1) K| ≤ max (fftBound μ D (-1) 1.75 K1 p 0) (fftBound μ D (-1) 1.75 K2 p 0) + D * (K2 - K1)) := by
  intro D
  have := hl.1
  have hD : 0 ≤ D := (Real.exp_pos _).le
  have hpi := Real.pi_pos
  have hK : 0 < K := by linarith
  have hK2 : 0 < K2 := by linarith
  have l1 : Real.log K1 ≤ Real.log K := Real.log_le_log hK1 h1
  have l2 : Real.log K ≤ Real.log K2 := Real.log_le_log hK h2
  have hd : 0 < Real.log K2 - Real.log K1 := by rw [hg1, hg2]; push_cast; linarith
  have w0 : 0 ≤ (Real.log K - Real.log K1) / (Real.log K2 - Real.log K1) := div_nonneg (by linarith) hd.le
  have w1 : (Real.log K - Real.log K1) / (Real.log K2 - Real.log K1) ≤ 1 := by rw [div_le_one hd]; linarith
  have p1 := C79_fft_price μ h hk hvv hr hv hth lambda S0 tau r q K1 ht hK1 hl j (by omega) hg1
  have p2 := C79_fft_price μ h hk hvv hr hv hth lambda S0 tau r q K2 ht hK2 hl (j + 1) hj hg2
  have d1 : D * |K1 - K| ≤ D * (K2 - K1) := mul_le_mul_of_nonneg_left (by rw [abs_le]; constructor <;> linarith) hD
  have d2 : D * |K2 - K| ≤ D * (K2 - K1) := mul_le_mul_of_nonneg_left (by rw [abs_le]; constructor <;> linarith) hD
  constructor
  · intro p hp hgp
    obtain ⟨v1, e1, b1⟩ := p1.1 p hp hgp
    obtain ⟨v2, e2, b2⟩ := p2.1 p hp hgp
    obtain ⟨v1', v2', e1', e2', e⟩ := (C79_fft_between h lambda S0 tau r q 1 (Or.inl rfl)).1 j K1 K K2 hj hg1 hg2 l1 l2
    rw [e1] at e1'
    rw [e2] at e2'
    cases e1'
    cases e2'
    have hone : GoodPower h 1 := (goodPower_convex h ⟨hk, hvv, hr⟩).segment_subset (goodPower_zero h ⟨hk, hvv, hr⟩) hgp (by
      rw [segment_eq_Icc (by linarith)]
      exact ⟨zero_le_one, by linarith⟩)
    have hie : Integrable Real.exp μ := by
      have := (C79_law_moments μ h hk hvv hr hv hth _ tau r q ht hl 1 hone).1
      simpa using this
    exact ⟨_, e, interp_error _ _ _ _ _ _ _ _ _ b1 b2 ((meanPayoff_lipschitz μ D 1 K1 K hD (Or.inl ⟨rfl, hie⟩)).trans d1)
      ((meanPayoff_lipschitz μ D 1 K2 K hD (Or.inl ⟨rfl, hie⟩)).trans d2) w0 w1⟩
  · intro p hp hgp
    obtain ⟨v1, e1, b1⟩ := p1.2 p hp hgp
    obtain ⟨v2, e2, b2⟩ := p2.2 p hp hgp
    obtain ⟨v1', v2', e1', e2', e⟩ := (C79_fft_between h lambda S0 tau r q (-1) (Or.inr rfl)).1 j K1 K K2 hj hg1 hg2 l1 l2
    rw [e1] at e1'
    rw [e2] at e2'
    cases e1'
    cases e2'
    exact ⟨_, e, interp_error _ _ _ _ _ _ _ _ _ b1 b2 ((meanPayoff_lipschitz μ D (-1) K1 K hD (Or.inr rfl)).trans d1)
      ((meanPayoff_lipschitz μ D (-1) K2 K hD (Or.inr rfl)).trans d2) w0 w1⟩

/-- The usual model at a strike of one, which is on the grid. -/
example (lambda S0 tau r q : ℝ) (ht : 0 ≤ tau) :
    ∃ μ : Measure ℝ, IsProbabilityMeasure μ ∧ ∃ v, hestonPrice .carrMadanFft usualModel lambda S0 tau r q 1 1 = .ok (some v) ∧
      |v - meanPayoff μ (Real.exp (-r * tau)) 1 1| ≤ fftBound μ (Real.exp (-r * tau)) 1 0.75 1 1 3 := by
  have hr : |usualModel.rho| ≤ 1 := by unfold usualModel; simp only; rw [abs_le]; norm_num
  have e1 : (0 : ℝ) < usualModel.kappa := by unfold usualModel; norm_num
  have e2 : (0 : ℝ) < usualModel.vv := by unfold usualModel; norm_num
  have e3 : (0 : ℝ) < usualModel.var0 := by unfold usualModel; norm_num
  have e4 : (0 : ℝ) ≤ usualModel.theta := by unfold usualModel; norm_num
  obtain ⟨μ, hl, -⟩ := C79_law_exists usualModel e1 e2 hr e3.le e4 (Real.log S0) tau r q ht
  refine ⟨μ, hl.1, ?_⟩
  refine (C79_fft_price μ usualModel e1 e2 hr e3.le e4 lambda S0 tau r q 1 ht one_pos hl 512 (by norm_num) ?_).1 3 (by norm_num) ?_
  · rw [Real.log_one]
    push_cast
    ring
  · unfold GoodPower usualModel
    norm_num

end Frm.Props
