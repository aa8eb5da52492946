import Verif.Props.C77

/-!
# C77: COS option prices when the truncation interval does not contain zero
-/

namespace Frm.Props
open Classical

set_option autoImplicit false

open Frm Frm.Spec

theorem cosine_reflect_left (a b : ℝ) (k : Nat) (y : ℝ) : cosine a b k (2 * a - y) = cosine a b k y := by
  unfold cosine
  rw [← Real.cos_neg]
  congr 1
  ring

theorem cosine_reflect_right {a b : ℝ} (hab : a < b) (k : Nat) (y : ℝ) : cosine a b k (2 * b - y) = cosine a b k y := by
  unfold cosine
  have h : b - a ≠ 0 := (sub_pos.2 hab).ne'
  rw [← Real.cos_neg, ← Real.cos_add_nat_mul_two_pi _ k]
  congr 1
  field_simp
  ring

theorem density_reflect_left (phi : ℝ → ℂ) (a b : ℝ) (N : Nat) (y : ℝ) : cosineDensity phi a b N (2 * a - y) = cosineDensity phi a b N y := by
  unfold cosineDensity
  simp only [cosine_reflect_left]

theorem density_reflect_right (phi : ℝ → ℂ) {a b : ℝ} (hab : a < b) (N : Nat) (y : ℝ) :
    cosineDensity phi a b N (2 * b - y) = cosineDensity phi a b N y := by
  unfold cosineDensity
  simp only [cosine_reflect_right hab]

theorem density_continuous (phi : ℝ → ℂ) (a b : ℝ) (N : Nat) : Continuous (cosineDensity phi a b N) := by
  unfold cosineDensity
  have := cosine_continuous a b
  fun_prop

/-- One sum of the pricer, whatever the interval: the integral of the put's payoff from the lower end to zero, or of the call's from zero
to the upper end, against the expansion, which is defined on the whole line. -/
theorem cosSum_any (h : Heston) (S0 tau r q K a b : ℝ) (N : Nat) (call : Bool) (hab : a < b) :
    cosSum h S0 tau r q K a b N call = Real.exp (-r * tau) *
      if call then ∫ y in (0 : ℝ)..b, (K * Real.exp y - K) * cosineDensity (hestonMoneyness h S0 tau r q K) a b N y
      else ∫ y in a..0, (K - K * Real.exp y) * cosineDensity (hestonMoneyness h S0 tau r q K) a b N y := by
  have hcos := cosine_continuous a b
  have i1 : ∀ k c d, IntervalIntegrable (fun y => Real.exp y * cosine a b k y) MeasureTheory.volume c d :=
    fun k c d => (Real.continuous_exp.mul (hcos k)).intervalIntegrable c d
  have i2 : ∀ k c d, IntervalIntegrable (cosine a b k) MeasureTheory.volume c d := fun k c d => (hcos k).intervalIntegrable c d
  unfold cosSum
  rw [mul_comm]
  congr 1
  cases call
  · simp only [Bool.false_eq_true, if_false, cosineDensity_eq, Finset.mul_sum]
    rw [intervalIntegral.integral_finsetSum]
    · apply Finset.sum_congr rfl
      intro k _
      unfold cosUk
      rw [if_neg (by decide), chi_put hab, C62_psi a b hab, neg_add_eq_sub, ← intervalIntegral.integral_sub (i2 _ _ _) (i1 _ _ _),
        ← intervalIntegral.integral_const_mul, ← intervalIntegral.integral_const_mul, ← intervalIntegral.integral_const_mul]
      apply intervalIntegral.integral_congr
      intro y _
      simp only
      ring
    · intro k _
      apply Continuous.intervalIntegrable
      have := hcos k
      fun_prop
  · simp only [if_true, cosineDensity_eq, Finset.mul_sum]
    rw [intervalIntegral.integral_finsetSum]
    · apply Finset.sum_congr rfl
      intro k _
      unfold cosUk
      rw [if_pos rfl, chi_call hab, C62_psi a b hab, ← intervalIntegral.integral_sub (i1 _ _ _) (i2 _ _ _),
        ← intervalIntegral.integral_const_mul, ← intervalIntegral.integral_const_mul, ← intervalIntegral.integral_const_mul]
      apply intervalIntegral.integral_congr
      intro y _
      simp only
      ring
    · intro k _
      apply Continuous.intervalIntegrable
      have := hcos k
      fun_prop

/-- Every put of the default method, whatever the truncation interval: the discounted integral of the payoff from the lower end of the
interval to zero, with the sign of the direction, against the truncated cosine expansion. -/
theorem C77_any_range (h : Heston) (S0 tau r q L a b K : ℝ) (N : Nat) (hab : cosRange (.heston h (r - q) tau) L = .ok (a, b)) (hlt : a < b) :
    ∃ call put, cosPrice h S0 tau r q [1, -1] [K, K] N L true = .ok [some call, some put] ∧
      put = Real.exp (-r * tau) * (∫ y in a..0, (K - K * Real.exp y) * cosineDensity (hestonMoneyness h S0 tau r q K) a b N y) ∧
      call = put + S0 * Real.exp (-q * tau) - K * Real.exp (-r * tau) := by
  unfold cosPrice
  rw [if_neg (by simp), hab]
  simp only [if_true, List.zip_cons_cons, List.zip_nil_right, List.map_cons, List.map_nil]
  rw [if_neg (by norm_num : ¬ (-1 : ℝ) = 1)]
  refine ⟨_, _, rfl, ?_, rfl⟩
  rw [cosSum_any _ _ _ _ _ _ _ _ _ _ hlt, if_neg (by decide)]

/-- Without parity both kinds are such integrals: from zero to the upper end for the call. -/
theorem C77_any_range_direct (h : Heston) (S0 tau r q L a b K : ℝ) (N : Nat) (hab : cosRange (.heston h (r - q) tau) L = .ok (a, b))
    (hlt : a < b) :
    ∃ call put, cosPrice h S0 tau r q [1, -1] [K, K] N L false = .ok [some call, some put] ∧
      put = Real.exp (-r * tau) * (∫ y in a..0, (K - K * Real.exp y) * cosineDensity (hestonMoneyness h S0 tau r q K) a b N y) ∧
      call = Real.exp (-r * tau) * (∫ y in (0 : ℝ)..b, (K * Real.exp y - K) * cosineDensity (hestonMoneyness h S0 tau r q K) a b N y) := by
  unfold cosPrice
  rw [if_neg (by simp), hab]
  simp only [Bool.false_eq_true, if_false, List.zip_cons_cons, List.zip_nil_right, List.map_cons, List.map_nil]
  rw [if_neg (by simp), if_neg (by norm_num : ¬ (-1 : ℝ) = 1)]
  refine ⟨_, _, rfl, ?_, ?_⟩
  · rw [cosSum_any _ _ _ _ _ _ _ _ _ _ hlt, if_neg (by decide)]
  · rw [cosSum_any _ _ _ _ _ _ _ _ _ _ hlt, if_pos rfl]

/-- An interval above zero: the put, which ought to be nearly worthless, is priced as a contract that pays `K² e^{2a} / S - K` when that is
positive. -/
theorem C77_above (h : Heston) (S0 tau r q L a b K : ℝ) (N : Nat) (hK : 0 < K)
    (hab : cosRange (.heston h (r - q) tau) L = .ok (a, b)) (ha : 0 < a) (hb : 2 * a ≤ b) :
    cosPrice h S0 tau r q [-1] [K] N L true = .ok [some (cosineValue (hestonMoneyness h S0 tau r q K) a b N (Real.exp (-r * tau)) K
      (fun S => max 0 (K ^ 2 * Real.exp (2 * a) / S - K)))] := by
  have hlt : a < b := by linarith
  unfold cosPrice
  rw [if_neg (by simp), hab]
  simp only [if_true, List.zip_cons_cons, List.zip_nil_right, List.map_cons, List.map_nil]
  rw [if_neg (by norm_num : ¬ (-1 : ℝ) = 1), cosSum_any _ _ _ _ _ _ _ _ _ _ hlt, if_neg (by decide)]
  unfold cosineValue
  set f := cosineDensity (hestonMoneyness h S0 tau r q K) a b N with hf
  have hfc : Continuous f := density_continuous _ _ _ _
  have hpay : ∀ y, K ^ 2 * Real.exp (2 * a) / (K * Real.exp y) - K = K * Real.exp (2 * a - y) - K := by
    intro y
    rw [Real.exp_sub]
    have := (Real.exp_pos y).ne'
    field_simp
  simp only [hpay]
  have hint : ∀ c d, IntervalIntegrable (fun y => max 0 (K * Real.exp (2 * a - y) - K) * f y) MeasureTheory.volume c d := by
    intro c d
    apply Continuous.intervalIntegrable
    fun_prop
  congr 4
  rw [← intervalIntegral.integral_add_adjacent_intervals (hint a (2 * a)) (hint (2 * a) b)]
  have z : (∫ y in (2 * a)..b, max 0 (K * Real.exp (2 * a - y) - K) * f y) = 0 := by
    rw [intervalIntegral.integral_congr (g := fun _ => 0)]
    · simp
    · intro y hy
      rw [Set.uIcc_of_le hb] at hy
      have : Real.exp (2 * a - y) ≤ 1 := Real.exp_le_one_iff.2 (by linarith [hy.1])
      simp only
      rw [max_eq_left (by nlinarith), zero_mul]
  rw [z, add_zero, intervalIntegral.integral_symm, ← intervalIntegral.integral_neg]
  have e := intervalIntegral.integral_comp_sub_left (a := a) (b := 2 * a) (fun y => -((K - K * Real.exp y) * f y)) (2 * a)
  rw [show 2 * a - 2 * a = 0 by ring, show 2 * a - a = a by ring] at e
  rw [← e]
  apply intervalIntegral.integral_congr
  intro y hy
  rw [Set.uIcc_of_le (by linarith)] at hy
  have : 1 ≤ Real.exp (2 * a - y) := Real.one_le_exp (by linarith [hy.2])
  simp only
  rw [max_eq_right (by nlinarith), hf, density_reflect_left]
  ring

/-- An interval below zero: on top of its payoff, the put is credited with `K - K² e^{2b} / S` when that is positive. -/
theorem C77_below (h : Heston) (S0 tau r q L a b K : ℝ) (N : Nat) (hK : 0 < K)
    (hab : cosRange (.heston h (r - q) tau) L = .ok (a, b)) (hb : b < 0) (ha : a ≤ 2 * b) :
    cosPrice h S0 tau r q [-1] [K] N L true = .ok [some (cosineValue (hestonMoneyness h S0 tau r q K) a b N (Real.exp (-r * tau)) K
      (fun S => optionPayoff (-1) K S + max 0 (K - K ^ 2 * Real.exp (2 * b) / S)))] := by
  have hlt : a < b := by linarith
  unfold cosPrice
  rw [if_neg (by simp), hab]
  simp only [if_true, List.zip_cons_cons, List.zip_nil_right, List.map_cons, List.map_nil]
  rw [if_neg (by norm_num : ¬ (-1 : ℝ) = 1), cosSum_any _ _ _ _ _ _ _ _ _ _ hlt, if_neg (by decide)]
  unfold cosineValue
  set f := cosineDensity (hestonMoneyness h S0 tau r q K) a b N with hf
  have hfc : Continuous f := density_continuous _ _ _ _
  have hpay : ∀ y, K - K ^ 2 * Real.exp (2 * b) / (K * Real.exp y) = K - K * Real.exp (2 * b - y) := by
    intro y
    rw [Real.exp_sub]
    have := (Real.exp_pos y).ne'
    field_simp
  simp only [hpay, add_mul]
  have hint : ∀ c d, IntervalIntegrable (fun y => max 0 (K - K * Real.exp (2 * b - y)) * f y) MeasureTheory.volume c d := by
    intro c d
    apply Continuous.intervalIntegrable
    fun_prop
  have hput : ∀ c d, IntervalIntegrable (fun y => (K - K * Real.exp y) * f y) MeasureTheory.volume c d := by
    intro c d
    apply Continuous.intervalIntegrable
    fun_prop
  have hopt : IntervalIntegrable (fun y => optionPayoff (-1) K (K * Real.exp y) * f y) MeasureTheory.volume a b := by
    apply Continuous.intervalIntegrable
    have := optionPayoff_continuous (-1) K
    fun_prop
  congr 4
  rw [intervalIntegral.integral_add hopt (hint _ _), ← intervalIntegral.integral_add_adjacent_intervals (hint a (2 * b)) (hint (2 * b) b),
    ← intervalIntegral.integral_add_adjacent_intervals (hput a b) (hput b 0)]
  have z : (∫ y in a..(2 * b), max 0 (K - K * Real.exp (2 * b - y)) * f y) = 0 := by
    rw [intervalIntegral.integral_congr (g := fun _ => 0)]
    · simp
    · intro y hy
      rw [Set.uIcc_of_le ha] at hy
      have : 1 ≤ Real.exp (2 * b - y) := Real.one_le_exp (by linarith [hy.2])
      simp only
      rw [max_eq_left (by nlinarith), zero_mul]
  rw [z, zero_add]
  congr 1
  · apply intervalIntegral.integral_congr
    intro y hy
    rw [Set.uIcc_of_le hlt.le] at hy
    have : Real.exp y ≤ 1 := Real.exp_le_one_iff.2 (by linarith [hy.2])
    simp only [optionPayoff]
    rw [max_eq_right (by nlinarith)]
    ring
  · have e := intervalIntegral.integral_comp_sub_left (a := 2 * b) (b := b) (fun y => (K - K * Real.exp y) * f y) (2 * b)
    rw [show 2 * b - 2 * b = 0 by ring, show 2 * b - b = b by ring] at e
    rw [← e]
    apply intervalIntegral.integral_congr
    intro y hy
    rw [Set.uIcc_of_le (by linarith)] at hy
    have : Real.exp (2 * b - y) ≤ 1 := Real.exp_le_one_iff.2 (by linarith [hy.1])
    simp only
    rw [max_eq_right (by nlinarith), hf, density_reflect_right _ hlt]

/-- Such intervals arise from volatilities of one percent and rates of twenty percent. -/
example : ∃ h : Heston, ∃ a b : ℝ, cosRange (.heston h (0.20005 - 0) 1) 10 = .ok (a, b) ∧ 0 < a ∧ 2 * a ≤ b := by
  refine ⟨⟨0.0001, 0, 1, 0.0001, 0⟩, _, _, rfl, ?_⟩
  have e : |(hestonCumulants ⟨0.0001, 0, 1, 0.0001, 0⟩ (0.20005 - 0) 1).2| + Real.sqrt |(0 : ℝ)| = 0.0001 := by
    unfold hestonCumulants; norm_num
  have e1 : (hestonCumulants ⟨0.0001, 0, 1, 0.0001, 0⟩ (0.20005 - 0) 1).1 = 0.2 := by
    unfold hestonCumulants; norm_num
  have e2 : Real.sqrt 0.0001 = 0.01 := by
    rw [show (0.0001 : ℝ) = 0.01 ^ 2 by norm_num]; exact Real.sqrt_sq (by norm_num)
  rw [e, e1, e2]
  norm_num

example : ∃ h : Heston, ∃ a b : ℝ, cosRange (.heston h (0 - 0.19995) 1) 10 = .ok (a, b) ∧ b < 0 ∧ a ≤ 2 * b := by
  refine ⟨⟨0.0001, 0, 1, 0.0001, 0⟩, _, _, rfl, ?_⟩
  have e : |(hestonCumulants ⟨0.0001, 0, 1, 0.0001, 0⟩ (0 - 0.19995) 1).2| + Real.sqrt |(0 : ℝ)| = 0.0001 := by
    unfold hestonCumulants; norm_num
  have e1 : (hestonCumulants ⟨0.0001, 0, 1, 0.0001, 0⟩ (0 - 0.19995) 1).1 = -0.2 := by
    unfold hestonCumulants; norm_num
  have e2 : Real.sqrt 0.0001 = 0.01 := by
    rw [show (0.0001 : ℝ) = 0.01 ^ 2 by norm_num]; exact Real.sqrt_sq (by norm_num)
  rw [e, e1, e2]
  norm_num

end Frm.Props
