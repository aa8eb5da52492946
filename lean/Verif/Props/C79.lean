import Verif.Props.C77
import Verif.Props.C78
import Mathlib.Analysis.SpecialFunctions.ImproperIntegrals

/-!
# C79: closed-form Heston prices
-/

namespace Frm
namespace Spec

set_option autoImplicit false

/-- The probability of exceeding `log K` by Gil-Pelaez inversion of a characteristic function. -/
noncomputable def exceedance (phi : ℝ → ℂ) (K : ℝ) : ℝ :=
  1 / 2 + 1 / Real.pi * ∫ w in Set.Ioi (0 : ℝ), (Complex.exp (-Complex.I * w * Real.log K) * phi w / (Complex.I * w)).re

/-- The Fourier transform, in the log strike, of the payoff at a log spot `s`, damped by `e^{cp alpha k}`. -/
noncomputable def dampedTransform (cp alpha s v : ℝ) : ℂ :=
  ∫ k : ℝ, Complex.exp (Complex.I * v * k) * ((Real.exp (cp * alpha * k) * optionPayoff cp (Real.exp k) (Real.exp s) : ℝ) : ℂ)

/-- Lewis's integrand: half the strike-free transform at the frequency `-v - i/2`, of the log of the spot over the strike. -/
noncomputable def lewisIntegrand (chf : ℂ → ℂ) (S0 K v : ℝ) : ℝ :=
  (Complex.exp (Complex.I * (-v - Complex.I / 2) * Real.log (S0 / K)) * chf (-v - Complex.I / 2)).re / (v ^ 2 + 1 / 4)

end Spec
end Frm

namespace Frm.Props
open Classical

set_option autoImplicit false

open Frm Frm.Spec

/-- Put-call parity, for every model, market and strike, of all methods but the Carr-Madan ones. -/
theorem C79_parity_partial (method : HestonPricing) (hm : method = .cosine ∨ method = .heston1993 ∨ method = .lipton)
    (h : Heston) (lambda S0 tau r q K : ℝ) :
    ∃ call put, hestonPrice method h lambda S0 tau r q 1 K = .ok (some call) ∧ hestonPrice method h lambda S0 tau r q (-1) K = .ok (some put) ∧
      call - put = S0 * Real.exp (-q * tau) - K * Real.exp (-r * tau) := by
  rcases hm with rfl | rfl | rfl
  · unfold hestonPrice cosPrice
    simp only [List.length_cons, List.length_nil, ne_eq, not_true, if_false, cosRange, if_true, Except.map, List.zip_cons_cons, List.zip_nil_right,
      List.map_cons, List.map_nil, List.getD_cons_zero]
    rw [if_neg (by norm_num : ¬ (-1 : ℝ) = 1)]
    exact ⟨_, _, rfl, rfl, by ring⟩
  · refine ⟨_, _, rfl, rfl, ?_⟩
    unfold heston1993Price
    ring
  · refine ⟨_, _, rfl, rfl, ?_⟩
    unfold liptonPrice
    rw [if_pos rfl, if_neg (by norm_num)]
    ring

/-- An unknown method is refused; the Carr-Madan methods refuse any flag but 1 and -1. -/
theorem C79_refused (h : Heston) (lambda S0 tau r q cp K : ℝ) :
    hestonPrice .unknown h lambda S0 tau r q cp K = .error .value ∧
    (cp ≠ 1 → cp ≠ -1 → hestonPrice .carrMadanQuadrature h lambda S0 tau r q cp K = .error .value ∧
      hestonPrice .carrMadanFft h lambda S0 tau r q cp K = .error .value) := by
  refine ⟨rfl, fun h1 h2 => ⟨?_, ?_⟩⟩
  · simp [hestonPrice, carrMadanPrice, h1, h2, Except.map]
  · simp [hestonPrice, carrMadanFftPrice, h1, h2, Except.map]

/-- Heston's 1993 price: the spot times its exceedance probability under the share measure less the strike times the risk-neutral one, with
the probabilities inverted from the characteristic function; the put has the complementary probabilities. -/
theorem C79_heston1993 (h : Heston) (lambda S0 tau r q K : ℝ) (hv : 0 ≤ h.var0) (hS : 0 < S0) (hsum : h.kappa + lambda ≠ 0) :
    let h' : Heston := { h with kappa := h.kappa + lambda, theta := h.kappa * h.theta / (h.kappa + lambda) }
    let chf := chfAlbrecher h' (Real.log S0) tau r q
    let forward := S0 * Real.exp ((r - q) * tau)
    let share := exceedance (fun w => chf (w - Complex.I) / forward) K
    let neutral := exceedance (fun w => chf w) K
    hestonPrice .heston1993 h lambda S0 tau r q 1 K = .ok (some (S0 * Real.exp (-q * tau) * share - K * Real.exp (-r * tau) * neutral)) ∧
    hestonPrice .heston1993 h lambda S0 tau r q (-1) K =
      .ok (some (K * Real.exp (-r * tau) * (1 - neutral) - S0 * Real.exp (-q * tau) * (1 - share))) := by
  intro h' chf forward share neutral
  have hf : (forward : ℂ) ≠ 0 := by
    have : 0 < forward := mul_pos hS (Real.exp_pos _)
    exact_mod_cast this.ne'
  have e1 : ∀ w : ℝ, chf (w - Complex.I) / forward = heston1993Chf h lambda S0 tau r q true w := by
    intro w
    have := (C78_heston1993 h lambda S0 tau r q w hv hS hsum).2
    rw [div_eq_iff hf, mul_comm]
    exact this.symm
  have e2 : ∀ w : ℝ, chf w = heston1993Chf h lambda S0 tau r q false w := fun w => (C78_heston1993 h lambda S0 tau r q w hv hS hsum).1.symm
  have s1 : share = 0.5 + 1 / Real.pi * ∫ phi in Set.Ioi (0 : ℝ), heston1993Integrand h lambda S0 K tau r q true phi := by
    simp only [share, exceedance, e1, heston1993Integrand]
    norm_num
  have s2 : neutral = 0.5 + 1 / Real.pi * ∫ phi in Set.Ioi (0 : ℝ), heston1993Integrand h lambda S0 K tau r q false phi := by
    simp only [neutral, exceedance, e2, heston1993Integrand]
    norm_num
  unfold hestonPrice heston1993Price
  simp only [← s1, ← s2]
  constructor
  · congr 2; ring
  · congr 2; ring

/-- The Carr-Madan kernel: the denominator turns the characteristic function into the transform of the damped payoff, for calls and puts. -/
theorem C79_damped_kernel (cp alpha s v : ℝ) (hcp : cp = 1 ∧ 0 < alpha ∨ cp = -1 ∧ 1 < alpha) :
    dampedTransform cp alpha s v = Complex.exp (Complex.I * (v - (cp * alpha + 1) * Complex.I) * s) /
      (((alpha ^ 2 + cp * alpha - v ^ 2 : ℝ) : ℂ) + Complex.I * (cp * 2 * alpha + 1) * v) := by
  unfold dampedTransform
  rcases hcp with ⟨rfl, ha⟩ | ⟨rfl, ha⟩
  · -- the payoff lives below s
    have a1 : 0 < ((alpha : ℂ) + Complex.I * v).re := by simpa using ha
    have a2 : 0 < ((alpha + 1 : ℂ) + Complex.I * v).re := by simp; linarith
    have n1 : (alpha : ℂ) + Complex.I * v ≠ 0 := by intro h0; rw [h0] at a1; simp at a1
    have n2 : (alpha : ℂ) + 1 + Complex.I * v ≠ 0 := by intro h0; rw [h0] at a2; simp at a2
    have hf : (fun k : ℝ => Complex.exp (Complex.I * v * k) * ((Real.exp (1 * alpha * k) * optionPayoff 1 (Real.exp k) (Real.exp s) : ℝ) : ℂ)) =
        (Set.Iic s).indicator (fun k : ℝ => Complex.exp s * Complex.exp ((alpha + Complex.I * v) * k) - Complex.exp ((alpha + 1 + Complex.I * v) * k)) := by
      funext k
      by_cases hk : k ≤ s
      · rw [Set.indicator_of_mem (Set.mem_Iic.2 hk)]
        have : Real.exp k ≤ Real.exp s := Real.exp_le_exp.2 hk
        unfold optionPayoff
        rw [max_eq_right (by linarith)]
        push_cast
        rw [show ((alpha : ℂ) + Complex.I * v) * k = Complex.I * v * k + 1 * alpha * k by ring,
          show ((alpha : ℂ) + 1 + Complex.I * v) * k = Complex.I * v * k + 1 * alpha * k + k by ring, Complex.exp_add, Complex.exp_add, Complex.exp_add]
        ring
      · rw [Set.indicator_of_notMem (fun hm => hk (Set.mem_Iic.1 hm))]
        have : Real.exp s ≤ Real.exp k := Real.exp_le_exp.2 (le_of_not_ge hk)
        unfold optionPayoff
        rw [max_eq_left (by linarith)]
        simp
    rw [hf, MeasureTheory.integral_indicator measurableSet_Iic,
      MeasureTheory.integral_sub ((integrableOn_exp_mul_complex_Iic a1 s).const_mul _) (integrableOn_exp_mul_complex_Iic a2 s),
      MeasureTheory.integral_const_mul, integral_exp_mul_complex_Iic a1, integral_exp_mul_complex_Iic a2]
    have e1 : Complex.exp s * (Complex.exp ((alpha + Complex.I * v) * s) / (alpha + Complex.I * v)) =
        Complex.exp ((alpha + 1 + Complex.I * v) * s) / (alpha + Complex.I * v) := by
      rw [← mul_div_assoc, ← Complex.exp_add]
      congr 2
      ring
    have e2 : Complex.I * ((v : ℂ) - (((1 : ℝ) : ℂ) * alpha + 1) * Complex.I) * s = (alpha + 1 + Complex.I * v) * s := by
      push_cast
      linear_combination (-((alpha : ℂ) + 1) * s) * Complex.I_sq
    have e3 : ((alpha ^ 2 + 1 * alpha - v ^ 2 : ℝ) : ℂ) + Complex.I * (((1 : ℝ) : ℂ) * 2 * alpha + 1) * v =
        (alpha + Complex.I * v) * (alpha + 1 + Complex.I * v) := by
      push_cast
      linear_combination (-(v : ℂ) ^ 2) * Complex.I_sq
    rw [e1, e2, e3]
    field_simp
    ring
  · -- the payoff lives above s
    have a1 : ((-alpha : ℂ) + Complex.I * v).re < 0 := by simp; linarith
    have a2 : ((-alpha + 1 : ℂ) + Complex.I * v).re < 0 := by simp; linarith
    have n1 : (-alpha : ℂ) + Complex.I * v ≠ 0 := by intro h0; rw [h0] at a1; simp at a1
    have n2 : (-alpha : ℂ) + 1 + Complex.I * v ≠ 0 := by intro h0; rw [h0] at a2; simp at a2
    have hf : (fun k : ℝ => Complex.exp (Complex.I * v * k) * ((Real.exp (-1 * alpha * k) * optionPayoff (-1) (Real.exp k) (Real.exp s) : ℝ) : ℂ)) =
        (Set.Ioi s).indicator (fun k : ℝ => Complex.exp ((-alpha + 1 + Complex.I * v) * k) - Complex.exp s * Complex.exp ((-alpha + Complex.I * v) * k)) := by
      funext k
      by_cases hk : s < k
      · rw [Set.indicator_of_mem (Set.mem_Ioi.2 hk)]
        have : Real.exp s ≤ Real.exp k := Real.exp_le_exp.2 hk.le
        unfold optionPayoff
        rw [max_eq_right (by linarith)]
        push_cast
        rw [show (-(alpha : ℂ) + Complex.I * v) * k = Complex.I * v * k + -1 * alpha * k by ring,
          show (-(alpha : ℂ) + 1 + Complex.I * v) * k = Complex.I * v * k + -1 * alpha * k + k by ring, Complex.exp_add, Complex.exp_add]
        ring
      · rw [Set.indicator_of_notMem (fun hm => hk (Set.mem_Ioi.1 hm))]
        have : Real.exp k ≤ Real.exp s := Real.exp_le_exp.2 (le_of_not_gt hk)
        unfold optionPayoff
        rw [max_eq_left (by linarith)]
        simp
    rw [hf, MeasureTheory.integral_indicator measurableSet_Ioi,
      MeasureTheory.integral_sub (integrableOn_exp_mul_complex_Ioi a2 s) ((integrableOn_exp_mul_complex_Ioi a1 s).const_mul _),
      MeasureTheory.integral_const_mul, integral_exp_mul_complex_Ioi a1, integral_exp_mul_complex_Ioi a2]
    have e1 : Complex.exp s * (-Complex.exp ((-alpha + Complex.I * v) * s) / (-alpha + Complex.I * v)) =
        -Complex.exp ((-alpha + 1 + Complex.I * v) * s) / (-alpha + Complex.I * v) := by
      rw [← mul_div_assoc, mul_neg, ← Complex.exp_add]
      congr 3
      ring
    have e2 : Complex.I * ((v : ℂ) - (((-1 : ℝ) : ℂ) * alpha + 1) * Complex.I) * s = (-alpha + 1 + Complex.I * v) * s := by
      push_cast
      linear_combination (((alpha : ℂ) - 1) * s) * Complex.I_sq
    have e3 : ((alpha ^ 2 + -1 * alpha - v ^ 2 : ℝ) : ℂ) + Complex.I * (((-1 : ℝ) : ℂ) * 2 * alpha + 1) * v =
        (-alpha + Complex.I * v) * (-alpha + 1 + Complex.I * v) := by
      push_cast
      linear_combination (-(v : ℂ) ^ 2) * Complex.I_sq
    rw [e1, e2, e3]
    field_simp
    ring

theorem kernel_shift (cp alpha s v : ℝ) (hcp : cp = 1 ∧ 0 < alpha ∨ cp = -1 ∧ 1 < alpha) :
    dampedTransform cp alpha s v = Complex.exp (Complex.I * (v - (cp * alpha + 1) * Complex.I) * s) * dampedTransform cp alpha 0 v := by
  rw [C79_damped_kernel cp alpha s v hcp, C79_damped_kernel cp alpha 0 v hcp]
  simp [div_eq_mul_inv]

/-- The Carr-Madan price by quadrature is the inverse transform, undamped, of the discounted characteristic function times the transform of the
payoff at a log spot of zero (which at a log spot `s` gains the factor `e^{i u s}`: `kernel_shift`). -/
theorem C79_carr_madan (h : Heston) (lambda S0 tau r q cp K : ℝ) (hcp : cp = 1 ∨ cp = -1) :
    ∃ alpha, (cp = 1 ∧ 0 < alpha ∨ cp = -1 ∧ 1 < alpha) ∧
      hestonPrice .carrMadanQuadrature h lambda S0 tau r q cp K = .ok (some (Real.exp (-cp * alpha * Real.log K) / Real.pi *
        ∫ v in Set.Ioi (0 : ℝ), (Complex.exp (-Complex.I * v * Real.log K) * (Real.exp (-r * tau) *
          chfAlbrecher h (Real.log S0) tau r q (v - (cp * alpha + 1) * Complex.I) * dampedTransform cp alpha 0 v)).re)) := by
  have key : ∀ alpha, (cp = 1 ∧ 0 < alpha ∨ cp = -1 ∧ 1 < alpha) → ∀ v : ℝ, carrMadanIntegrand h cp (Real.log S0) (Real.log K) tau r q alpha v =
      (Complex.exp (-Complex.I * v * Real.log K) * (Real.exp (-r * tau) *
          chfAlbrecher h (Real.log S0) tau r q (v - (cp * alpha + 1) * Complex.I) * dampedTransform cp alpha 0 v)).re := by
    intro alpha ha v
    unfold carrMadanIntegrand
    rw [C79_damped_kernel cp alpha 0 v ha]
    simp only [Complex.ofReal_zero, mul_zero, Complex.exp_zero]
    congr 2
    ring
  have hne : ¬(cp ≠ 1 ∧ cp ≠ -1) := by tauto
  unfold hestonPrice carrMadanPrice
  rcases hcp with rfl | rfl
  · refine ⟨0.75, Or.inl ⟨rfl, by norm_num⟩, ?_⟩
    rw [if_neg hne]
    simp only [if_true, Except.map]
    rw [show (∫ v in Set.Ioi (0 : ℝ), carrMadanIntegrand h 1 (Real.log S0) (Real.log K) tau r q 0.75 v) = _ from
      MeasureTheory.integral_congr_ae (Filter.Eventually.of_forall (key 0.75 (Or.inl ⟨rfl, by norm_num⟩)))]
    rw [show -(1 : ℝ) * Real.log K * 0.75 = -1 * 0.75 * Real.log K by ring, mul_div_right_comm]
  · refine ⟨1.75, Or.inr ⟨rfl, by norm_num⟩, ?_⟩
    rw [if_neg hne]
    simp only [if_neg (by norm_num : ¬ (-1 : ℝ) = 1), Except.map]
    rw [show (∫ v in Set.Ioi (0 : ℝ), carrMadanIntegrand h (-1) (Real.log S0) (Real.log K) tau r q 1.75 v) = _ from
      MeasureTheory.integral_congr_ae (Filter.Eventually.of_forall (key 1.75 (Or.inr ⟨rfl, by norm_num⟩)))]
    rw [show -(-1 : ℝ) * Real.log K * 1.75 = -(-1) * 1.75 * Real.log K by ring, mul_div_right_comm]

/-- The grid value of the fast Fourier transform is the same integral by a quadrature rule: nodes `0, 1/4, 1/2, …` and the rule's weights. -/
theorem C79_fft_grid (h : Heston) (S0 tau r q cp alpha : ℝ) (N : Nat) (hN : 0 < N) (j : Nat) :
    carrMadanGridValue h S0 tau r q cp alpha N j =
      let ku := -(4 * Real.pi) + 8 * Real.pi / N * j
      Real.exp (-cp * ku * alpha) / Real.pi *
        ∑ m ∈ Finset.range N, (simpsonWeights N).getD m 0 / 4 * carrMadanIntegrand h cp (Real.log S0) ku tau r q alpha (m / 4) := by
  have hN0 : (N : ℝ) ≠ 0 := by exact_mod_cast hN.ne'
  have hNc : (N : ℂ) ≠ 0 := by exact_mod_cast hN.ne'
  simp only
  unfold carrMadanGridValue
  simp only
  have hku : -((N : ℝ) * (2 * Real.pi / (N * 0.25)) / 2) + 2 * Real.pi / (N * 0.25) * j = -(4 * Real.pi) + 8 * Real.pi / N * j := by
    field_simp
    norm_num
    ring
  rw [hku, mul_div_right_comm]
  congr 1
  unfold dft
  rw [Complex.re_sum]
  apply Finset.sum_congr rfl
  intro m _
  unfold carrMadanIntegrand
  simp only
  rw [show (m : ℝ) * 0.25 = m / 4 by ring]
  generalize (chfAlbrecher h (Real.log S0) tau r q (((m / 4 : ℝ) : ℂ) - (cp * alpha + 1) * Complex.I) * ((Real.exp (-r * tau) : ℝ) : ℂ) /
        (((alpha ^ 2 + cp * alpha - (m / 4) ^ 2 : ℝ) : ℂ) + Complex.I * (cp * 2 * alpha + 1) * ((m / 4 : ℝ) : ℂ))) = F
  generalize (simpsonWeights N).getD m 0 = w
  have e : Complex.exp (Complex.I * ((N * (2 * Real.pi / (N * 0.25)) / 2 : ℝ) : ℂ) * ((m / 4 : ℝ) : ℂ)) * F * ((0.25 : ℝ) : ℂ) * (w : ℂ) *
      Complex.exp (-(2 * Real.pi * Complex.I * j * m / N)) =
      ((w / 4 : ℝ) : ℂ) * (Complex.exp (-Complex.I * ((m / 4 : ℝ) : ℂ) * ((-(4 * Real.pi) + 8 * Real.pi / N * j : ℝ) : ℂ)) * F) := by
    have e1 : Complex.exp (-Complex.I * ((m / 4 : ℝ) : ℂ) * ((-(4 * Real.pi) + 8 * Real.pi / N * j : ℝ) : ℂ)) =
        Complex.exp (Complex.I * ((N * (2 * Real.pi / (N * 0.25)) / 2 : ℝ) : ℂ) * ((m / 4 : ℝ) : ℂ)) * Complex.exp (-(2 * Real.pi * Complex.I * j * m / N)) := by
      rw [← Complex.exp_add]
      congr 1
      have e2 : (N : ℝ) * (2 * Real.pi / (N * 0.25)) / 2 = 4 * Real.pi := by field_simp; norm_num
      rw [e2]
      push_cast
      field_simp
      ring
    rw [e1]
    push_cast
    ring
  rw [e, Complex.re_ofReal_mul]

theorem uniformInterp_node (x0 step : ℝ) (n : Nat) (y : Nat → ℝ) (hs : 0 < step) (j : Nat) (hj : j < n) :
    uniformInterp x0 step n y (x0 + step * j) = y j := by
  unfold uniformInterp
  by_cases h0 : j = 0
  · subst h0
    simp
  · have hj0 : (0 : ℝ) < j := by exact_mod_cast Nat.pos_of_ne_zero h0
    rw [if_neg (by have := mul_pos hs hj0; linarith)]
    by_cases h1 : j = n - 1
    · rw [← h1]
      simp
    · have : j < n - 1 := by omega
      have hc : (j : ℝ) < (n - 1 : Nat) := by exact_mod_cast this
      rw [if_neg (by have := mul_lt_mul_of_pos_left hc hs; linarith)]
      have e : (x0 + step * j - x0) / step = j := by field_simp; ring
      simp only [e, Nat.floor_natCast]
      ring

/-- The price by fast Fourier transform at each strike of its grid is the Carr-Madan integral by that quadrature rule. -/
theorem C79_fft (h : Heston) (lambda S0 tau r q cp K : ℝ) (hcp : cp = 1 ∨ cp = -1) (j : Nat) (hj : j < 1024)
    (hK : Real.log K = -(4 * Real.pi) + Real.pi / 128 * j) :
    ∃ alpha, (cp = 1 ∧ alpha = 0.75 ∨ cp = -1 ∧ alpha = 1.75) ∧
      hestonPrice .carrMadanFft h lambda S0 tau r q cp K = .ok (some (Real.exp (-cp * alpha * Real.log K) / Real.pi *
        ∑ m ∈ Finset.range 1024, (simpsonWeights 1024).getD m 0 / 4 * carrMadanIntegrand h cp (Real.log S0) (Real.log K) tau r q alpha (m / 4))) := by
  have hne : ¬(cp ≠ 1 ∧ cp ≠ -1) := by tauto
  have hx : -(((2 ^ 10 : Nat) : ℝ) * (2 * Real.pi / (((2 ^ 10 : Nat) : ℝ) * 0.25)) / 2) + 2 * Real.pi / (((2 ^ 10 : Nat) : ℝ) * 0.25) * j = Real.log K := by
    rw [hK]
    norm_num
    ring
  have hstep : 0 < 2 * Real.pi / (((2 ^ 10 : Nat) : ℝ) * 0.25) := by
    have := Real.pi_pos
    positivity
  have hfin : ∀ alpha, uniformInterp (-(((2 ^ 10 : Nat) : ℝ) * (2 * Real.pi / (((2 ^ 10 : Nat) : ℝ) * 0.25)) / 2)) (2 * Real.pi / (((2 ^ 10 : Nat) : ℝ) * 0.25)) (2 ^ 10)
        (carrMadanGridValue h S0 tau r q cp alpha (2 ^ 10)) (Real.log K) =
      Real.exp (-cp * alpha * Real.log K) / Real.pi *
        ∑ m ∈ Finset.range 1024, (simpsonWeights 1024).getD m 0 / 4 * carrMadanIntegrand h cp (Real.log S0) (Real.log K) tau r q alpha (m / 4) := by
    intro alpha
    conv_lhs => rw [← hx]
    rw [uniformInterp_node _ _ _ _ hstep j (by simpa using hj), C79_fft_grid h S0 tau r q cp alpha (2 ^ 10) (by norm_num) j]
    simp only
    have e : -(4 * Real.pi) + 8 * Real.pi / ((2 ^ 10 : Nat) : ℝ) * j = Real.log K := by rw [hK]; push_cast; ring
    rw [e, show -cp * Real.log K * alpha = -cp * alpha * Real.log K by ring]
    norm_num
  unfold hestonPrice carrMadanFftPrice
  rw [if_neg hne]
  simp only [Except.map]
  rcases hcp with rfl | rfl
  · refine ⟨0.75, Or.inl ⟨rfl, rfl⟩, ?_⟩
    rw [if_pos rfl, hfin]
  · refine ⟨1.75, Or.inr ⟨rfl, rfl⟩, ?_⟩
    rw [if_neg (by norm_num), hfin]

/-- The interpolated strip: the value of the transform at a strike is the same function of the logarithm of the strike for every strike. -/
theorem fft_interp (h : Heston) (lambda S0 tau r q cp : ℝ) (hcp : cp = 1 ∨ cp = -1) :
    ∃ y : Nat → ℝ, ∀ K, hestonPrice .carrMadanFft h lambda S0 tau r q cp K =
      .ok (some (uniformInterp (-(4 * Real.pi)) (Real.pi / 128) 1024 y (Real.log K))) := by
  have hne : ¬(cp ≠ 1 ∧ cp ≠ -1) := by tauto
  refine ⟨carrMadanGridValue h S0 tau r q cp (if cp = 1 then 0.75 else 1.75) (2 ^ 10), fun K => ?_⟩
  unfold hestonPrice carrMadanFftPrice
  rw [if_neg hne]
  simp only [Except.map]
  rw [show -(((2 ^ 10 : Nat) : ℝ) * (2 * Real.pi / (((2 ^ 10 : Nat) : ℝ) * 0.25)) / 2) = -(4 * Real.pi) by norm_num; ring,
    show 2 * Real.pi / (((2 ^ 10 : Nat) : ℝ) * 0.25) = Real.pi / 128 by norm_num; ring]
  norm_num

/-- Between two neighbouring strikes of the grid the price by transform is linear in the logarithm of the strike; beyond the ends of the grid
it is the price at the end. -/
theorem C79_fft_between (h : Heston) (lambda S0 tau r q cp : ℝ) (hcp : cp = 1 ∨ cp = -1) :
    (∀ (j : Nat) (K1 K K2 : ℝ), j + 1 < 1024 → Real.log K1 = -(4 * Real.pi) + Real.pi / 128 * j →
      Real.log K2 = -(4 * Real.pi) + Real.pi / 128 * (j + 1 : Nat) → Real.log K1 ≤ Real.log K → Real.log K ≤ Real.log K2 →
      ∃ v1 v2, hestonPrice .carrMadanFft h lambda S0 tau r q cp K1 = .ok (some v1) ∧
        hestonPrice .carrMadanFft h lambda S0 tau r q cp K2 = .ok (some v2) ∧
        hestonPrice .carrMadanFft h lambda S0 tau r q cp K =
          .ok (some (v1 + (v2 - v1) * ((Real.log K - Real.log K1) / (Real.log K2 - Real.log K1))))) ∧
    (∀ K0 K : ℝ, Real.log K0 = -(4 * Real.pi) → Real.log K ≤ Real.log K0 →
      hestonPrice .carrMadanFft h lambda S0 tau r q cp K = hestonPrice .carrMadanFft h lambda S0 tau r q cp K0) ∧
    (∀ K0 K : ℝ, Real.log K0 = -(4 * Real.pi) + Real.pi / 128 * (1023 : Nat) → Real.log K0 ≤ Real.log K →
      hestonPrice .carrMadanFft h lambda S0 tau r q cp K = hestonPrice .carrMadanFft h lambda S0 tau r q cp K0) := by
  obtain ⟨y, hy⟩ := fft_interp h lambda S0 tau r q cp hcp
  have hstep : 0 < Real.pi / 128 := by have := Real.pi_pos; positivity
  refine ⟨?_, ?_, ?_⟩
  · intro j K1 K K2 hj h1 h2 l1 l2
    have v1 : uniformInterp (-(4 * Real.pi)) (Real.pi / 128) 1024 y (Real.log K1) = y j := by
      rw [h1]; exact uniformInterp_node _ _ _ _ hstep j (by omega)
    have v2 : uniformInterp (-(4 * Real.pi)) (Real.pi / 128) 1024 y (Real.log K2) = y (j + 1) := by
      rw [h2]; exact uniformInterp_node _ _ _ _ hstep (j + 1) (by omega)
    refine ⟨y j, y (j + 1), by rw [hy, v1], by rw [hy, v2], ?_⟩
    rw [hy]
    have hd : Real.log K2 - Real.log K1 = Real.pi / 128 := by rw [h1, h2]; push_cast; ring
    rcases eq_or_lt_of_le l2 with e2 | e2
    · rw [e2, v2, hd, div_self hstep.ne']
      congr 2
      ring
    rcases eq_or_lt_of_le l1 with e1 | e1
    · rw [← e1, v1]
      congr 2
      ring
    congr 2
    unfold uniformInterp
    have jn : (0 : ℝ) ≤ Real.pi / 128 * j := by positivity
    have hj' : ((j : ℝ) + 1) ≤ (1024 - 1 : Nat) := by
      have : j + 1 ≤ 1024 - 1 := by omega
      exact_mod_cast this
    have hm := mul_le_mul_of_nonneg_left hj' hstep.le
    push_cast at h2 hm
    rw [if_neg (by rw [h1] at e1; linarith), if_neg (by rw [h2] at e2; push_cast; linarith)]
    have hfl : ⌊(Real.log K - -(4 * Real.pi)) / (Real.pi / 128)⌋₊ = j := by
      rw [Nat.floor_eq_iff (div_nonneg (by rw [h1] at e1; linarith) hstep.le)]
      constructor
      · rw [le_div_iff₀ hstep]; rw [h1] at e1; linarith
      · rw [div_lt_iff₀ hstep]; rw [h2] at e2; linarith
    simp only
    rw [hfl, hd, h1]
    field_simp
  · intro K0 K h0 hK
    rw [hy, hy]
    congr 2
    unfold uniformInterp
    rw [if_pos (by rw [← h0]; exact hK), if_pos h0.le]
  · intro K0 K h0 hK
    rw [hy, hy]
    congr 2
    have p1 : 0 < Real.pi / 128 * ((1023 : Nat) : ℝ) := by push_cast; linarith [Real.pi_pos]
    unfold uniformInterp
    rw [if_neg (by linarith), if_pos (by rw [← h0]; exact hK), if_neg (by linarith), if_pos h0.ge]

theorem flatten_pairs (k : Nat) : ((List.replicate k ([4, 2] : List ℝ)).flatten).length = 2 * k ∧ ((List.replicate k ([4, 2] : List ℝ)).flatten).sum = 6 * k := by
  induction k with
  | zero => simp
  | succ k ih =>
    obtain ⟨h1, h2⟩ := ih
    rw [List.replicate_succ, List.flatten_cons, List.length_append, List.sum_append, h1, h2]
    constructor
    · simp; omega
    · push_cast
      norm_num
      ring

/-- The weights of the rule: for an even number of points (1024 is the only one used) one weight per point, but they add up to a third less
than the number of intervals, so a constant is not integrated exactly; an odd number of points gets one weight too few. -/
theorem C79_weights (n : Nat) (hn : 2 ≤ n) :
    (simpsonWeights n).length = 2 * (n / 2) ∧ (simpsonWeights n).sum = 2 * (n / 2 : Nat) - 1 - 1 / 3 := by
  obtain ⟨h1, h2⟩ := flatten_pairs ((n - 2) / 2)
  have hsum : ∀ l : List ℝ, (l.map (fun w => w / 3)).sum = l.sum / 3 := by
    intro l
    induction l with
    | nil => simp
    | cons a l ih => rw [List.map_cons, List.sum_cons, List.sum_cons, ih]; ring
  have h3 : (n - 2) / 2 + 1 = n / 2 := by omega
  unfold simpsonWeights
  constructor
  · simp only [List.length_map, List.length_append, h1, List.length_cons, List.length_nil]
    omega
  · rw [hsum, List.sum_append, List.sum_append, h2, ← h3]
    push_cast
    norm_num
    ring

/-- The characteristic function at Lewis's frequency, as its exponent in terms of a sum and a root that do not vanish. -/
theorem chfFang_closed (h : Heston) (tau r q : ℝ) (u : ℂ) (hv : h.vv ≠ 0) (hd : chfRoot h u ≠ 0) (hs : chfW h u + chfRoot h u ≠ 0)
    (hN : (chfW h u + chfRoot h u) + (chfRoot h u - chfW h u) * Complex.exp (-chfRoot h u * tau) ≠ 0) :
    chfFang h tau r q u = Complex.exp (Complex.I * u * ((r - q) * tau) +
      -(h.kappa * h.theta : ℝ) / (h.vv : ℂ) ^ 2 * ((chfRoot h u - chfW h u) * tau +
        2 * Complex.log (((chfW h u + chfRoot h u) + (chfRoot h u - chfW h u) * Complex.exp (-chfRoot h u * tau)) / (2 * chfRoot h u))) -
      (u ^ 2 + Complex.I * u) * ((1 - Complex.exp (-chfRoot h u * tau)) /
        ((chfW h u + chfRoot h u) + (chfRoot h u - chfW h u) * Complex.exp (-chfRoot h u * tau))) * h.var0) := by
  have hvc : (h.vv : ℂ) ≠ 0 := by exact_mod_cast hv
  have hsq := chfRoot_sq h u
  have hden : 1 - chfRatio h u * Complex.exp (-chfRoot h u * tau) =
      ((chfW h u + chfRoot h u) + (chfRoot h u - chfW h u) * Complex.exp (-chfRoot h u * tau)) / (chfW h u + chfRoot h u) := by
    rw [chfRatio_eq]
    field_simp
    ring
  have h1g : 1 - chfRatio h u = 2 * chfRoot h u / (chfW h u + chfRoot h u) := by
    rw [chfRatio_eq]
    field_simp
    ring
  have hpsi : chfPsi h tau u = ((chfW h u + chfRoot h u) + (chfRoot h u - chfW h u) * Complex.exp (-chfRoot h u * tau)) / (2 * chfRoot h u) := by
    unfold chfPsi
    rw [hden, h1g, div_div_div_cancel_right₀ hs]
  rw [chfFang_eq]
  congr 1
  have hD : chfD h u tau = -((u ^ 2 + Complex.I * u) * ((1 - Complex.exp (-chfRoot h u * tau)) /
        ((chfW h u + chfRoot h u) + (chfRoot h u - chfW h u) * Complex.exp (-chfRoot h u * tau)))) := by
    unfold chfD
    rw [hden]
    have hu : u ^ 2 + Complex.I * u = (chfRoot h u ^ 2 - chfW h u ^ 2) / (h.vv : ℂ) ^ 2 := by rw [hsq]; field_simp; ring
    rw [hu]
    generalize Complex.exp (-chfRoot h u * tau) = e at *
    field_simp
    ring
  rw [hD]
  unfold chfB
  rw [hpsi]
  push_cast
  ring

/-- Lewis's frequency. -/
noncomputable abbrev lewisU (v : ℝ) : ℂ := -v - Complex.I / 2

theorem lewis_facts (h : Heston) (v : ℝ) :
    chfW h (lewisU v) = ((h.kappa - h.rho * h.vv / 2 : ℝ) : ℂ) + Complex.I * (h.rho * h.vv * v : ℝ) ∧
    (lewisU v) ^ 2 + Complex.I * lewisU v = ((v ^ 2 + 1 / 4 : ℝ) : ℂ) ∧
    chfRoot h (lewisU v) = csqrt (((v ^ 2 * h.vv ^ 2 * (1 - h.rho ^ 2) + (h.kappa - h.rho * h.vv / 2) ^ 2 + h.vv ^ 2 / 4 : ℝ) : ℂ) +
      2 * Complex.I * v * h.vv * h.rho * (h.kappa - h.rho * h.vv / 2 : ℝ)) := by
  have hW : chfW h (lewisU v) = ((h.kappa - h.rho * h.vv / 2 : ℝ) : ℂ) + Complex.I * (h.rho * h.vv * v : ℝ) := by
    unfold chfW lewisU
    push_cast
    linear_combination ((h.rho * h.vv / 2 : ℂ)) * Complex.I_sq
  have hU : (lewisU v) ^ 2 + Complex.I * lewisU v = ((v ^ 2 + 1 / 4 : ℝ) : ℂ) := by
    unfold lewisU
    push_cast
    linear_combination (-(1 / 4 : ℂ)) * Complex.I_sq
  refine ⟨hW, hU, ?_⟩
  have e : chfRoot h (lewisU v) = csqrt (chfW h (lewisU v) ^ 2 + (h.vv : ℂ) ^ 2 * ((lewisU v) ^ 2 + Complex.I * lewisU v)) := by
    unfold chfRoot chfW
    congr 1
    ring
  rw [e, hW, hU]
  congr 1
  push_cast
  linear_combination ((h.rho * h.vv * v : ℂ) ^ 2) * Complex.I_sq

theorem csqrt_real (x : ℝ) (hx : 0 ≤ x) : csqrt (x : ℂ) = (Real.sqrt x : ℝ) := by
  unfold csqrt
  rw [Real.sqrt_eq_rpow, Complex.ofReal_cpow hx]
  norm_num

/-- Without correlation the Lipton price is the Lewis integral of the characteristic function. -/
theorem C79_lipton_partial (h : Heston) (lambda S0 tau r q K : ℝ) (hk : 0 ≤ h.kappa) (hvv : 0 < h.vv) (hrho : h.rho = 0) :
    hestonPrice .lipton h lambda S0 tau r q 1 K = .ok (some (S0 * Real.exp (-q * tau) -
      K * Real.exp (-r * tau) / Real.pi * ∫ v in Set.Ioi (0 : ℝ), lewisIntegrand (chfFang h tau r q) S0 K v)) := by
  have key : ∀ v : ℝ, liptonIntegrand h S0 tau r q K v = lewisIntegrand (chfFang h tau r q) S0 K v := by
    intro v
    obtain ⟨hW, hU, hd⟩ := lewis_facts h v
    have hx : 0 < v ^ 2 * h.vv ^ 2 * (1 - 0 ^ 2) + (h.kappa - 0 * h.vv / 2) ^ 2 + h.vv ^ 2 / 4 := by
      have h1 : 0 ≤ v ^ 2 * h.vv ^ 2 := by positivity
      have h2 := sq_nonneg (h.kappa - 0 * h.vv / 2)
      have h3 : 0 < h.vv ^ 2 / 4 := by positivity
      linarith
    rw [hrho] at hW hd
    simp only [mul_zero, zero_mul, Complex.ofReal_zero, add_zero] at hW hd
    have hz : chfRoot h (lewisU v) = ((Real.sqrt (v ^ 2 * h.vv ^ 2 * (1 - 0 ^ 2) + (h.kappa - 0 * h.vv / 2) ^ 2 + h.vv ^ 2 / 4) : ℝ) : ℂ) := by
      rw [hd, ← csqrt_real _ hx.le]
      congr 2
      ring
    set z := Real.sqrt (v ^ 2 * h.vv ^ 2 * (1 - 0 ^ 2) + (h.kappa - 0 * h.vv / 2) ^ 2 + h.vv ^ 2 / 4) with hzdef
    have hz0 : 0 < z := Real.sqrt_pos.2 hx
    have hWk : chfW h (lewisU v) = (h.kappa : ℂ) := by rw [hW]; simp
    have hkz : h.kappa ≤ z := by
      rw [hzdef]
      apply Real.le_sqrt_of_sq_le
      have h1 : 0 ≤ v ^ 2 * h.vv ^ 2 := by positivity
      have h3 : 0 < h.vv ^ 2 / 4 := by positivity
      nlinarith
    have hs : chfW h (lewisU v) + chfRoot h (lewisU v) ≠ 0 := by
      rw [hWk, hz, ← Complex.ofReal_add]
      exact_mod_cast (by linarith : h.kappa + z ≠ 0)
    have hd0 : chfRoot h (lewisU v) ≠ 0 := by rw [hz]; exact_mod_cast hz0.ne'
    have hN : (chfW h (lewisU v) + chfRoot h (lewisU v)) + (chfRoot h (lewisU v) - chfW h (lewisU v)) * Complex.exp (-chfRoot h (lewisU v) * tau) ≠ 0 := by
      rw [hWk, hz]
      have e : ((h.kappa : ℂ) + z) + ((z : ℂ) - h.kappa) * Complex.exp (-(z : ℂ) * tau) = ((h.kappa + z + (z - h.kappa) * Real.exp (-z * tau) : ℝ) : ℂ) := by
        push_cast; ring
      rw [e]
      have := mul_nonneg (sub_nonneg.2 hkz) (Real.exp_pos (-z * tau)).le
      have h5 : 0 < h.kappa + z + (z - h.kappa) * Real.exp (-z * tau) := by linarith
      exact_mod_cast h5.ne'
    unfold lewisIntegrand
    rw [show (-(v : ℂ) - Complex.I / 2) = lewisU v from rfl, chfFang_closed h tau r q (lewisU v) hvv.ne' hd0 hs hN, ← Complex.exp_add, hU]
    unfold liptonIntegrand
    simp only [hrho]
    have hzeta : csqrt (((v ^ 2 * h.vv ^ 2 * (1 - 0 ^ 2) + (h.kappa - 0 * h.vv / 2) ^ 2 + h.vv ^ 2 / 4 : ℝ) : ℂ) + 2 * Complex.I * v * h.vv * ((0 : ℝ) : ℂ) * ((h.kappa - 0 * h.vv / 2 : ℝ) : ℂ)) =
        chfRoot h (lewisU v) := by
      rw [hz, hzdef, ← csqrt_real _ hx.le]
      congr 1
      simp
    rw [hzeta, hWk, show (0.25 : ℝ) = 1 / 4 by norm_num]
    congr 3
    simp only [Complex.ofReal_zero, mul_zero, zero_mul, zero_add, zero_div, sub_zero]
    rw [show ((0.5 : ℂ)) = 1 / 2 by norm_num]
    unfold lewisU
    push_cast
    rw [show (-(h.kappa : ℂ) + chfRoot h (-↑v - Complex.I / 2)) = chfRoot h (-↑v - Complex.I / 2) - h.kappa by ring]
    linear_combination ((1 / 2 : ℂ) * ((Real.log (S0 / K) : ℂ) + (r - q) * tau)) * Complex.I_sq
  unfold hestonPrice liptonPrice
  rw [if_pos rfl]
  simp only [key]
  congr 2
  ring

theorem cos_hits (a k : ℝ) (hk : k ≠ 0) : ∃ t, 0 < t ∧ Real.cos (a + k * t) = -1 := by
  obtain ⟨n, hn⟩ := exists_nat_gt (|a|)
  have ha := abs_le.1 (le_refl |a|)
  have hpi := Real.pi_gt_three
  have hn0 : (0 : ℝ) ≤ n := Nat.cast_nonneg n
  have hbig : |a| < Real.pi + n * (2 * Real.pi) := by nlinarith
  rcases lt_or_gt_of_ne hk with h | h
  · refine ⟨(-(Real.pi + n * (2 * Real.pi)) - a) / k, ?_, ?_⟩
    · apply div_pos_of_neg_of_neg _ h
      linarith
    · rw [show a + k * ((-(Real.pi + n * (2 * Real.pi)) - a) / k) = -(Real.pi + n * (2 * Real.pi)) by field_simp; ring, Real.cos_neg,
        Real.cos_add_nat_mul_two_pi, Real.cos_pi]
  · refine ⟨(Real.pi + n * (2 * Real.pi) - a) / k, ?_, ?_⟩
    · apply div_pos _ h
      linarith
    · rw [show a + k * ((Real.pi + n * (2 * Real.pi) - a) / k) = Real.pi + n * (2 * Real.pi) by field_simp; ring,
        Real.cos_add_nat_mul_two_pi, Real.cos_pi]

/-- With correlation it is not: whatever the market and the other parameters, for some initial variance the integrand at zero is negative where
Lewis's is positive. -/
theorem C79_lipton_wrong (h : Heston) (S0 tau r q K : ℝ) (hk : 0 < h.kappa) (hvv : 0 < h.vv) (hrho : h.rho ≠ 0) (ht : 0 < tau) :
    ∃ var0, 0 < var0 ∧ liptonIntegrand { h with var0 := var0 } S0 tau r q K 0 < 0 ∧
      0 < lewisIntegrand (chfFang { h with var0 := var0 } tau r q) S0 K 0 := by
  set kh : ℝ := h.kappa - h.rho * h.vv / 2 with hkh
  have hx : 0 < kh ^ 2 + h.vv ^ 2 / 4 := by positivity
  set z : ℝ := Real.sqrt (kh ^ 2 + h.vv ^ 2 / 4) with hz
  have hz0 : 0 < z := Real.sqrt_pos.2 hx
  have hkz : |kh| < z := by
    rw [hz]
    apply Real.lt_sqrt_of_sq_lt
    rw [sq_abs]
    have : 0 < h.vv ^ 2 / 4 := by positivity
    linarith
  obtain ⟨hk1, hk2⟩ := abs_lt.1 hkz
  set e : ℝ := Real.exp (-z * tau) with he
  have he0 : 0 < e := Real.exp_pos _
  have he1 : e < 1 := by
    rw [he, Real.exp_lt_one_iff]
    have := mul_pos hz0 ht
    linarith
  set R : ℝ := z * (1 + e) + kh * (1 - e) with hR
  have hR0 : 0 < R := by
    have a1 := mul_pos (sub_pos.2 hk2) he0
    rw [hR]
    nlinarith
  set c : ℝ := h.kappa * h.rho * h.vv * (1 - e) with hc
  have hc0 : c ≠ 0 := mul_ne_zero (mul_ne_zero (mul_ne_zero hk.ne' hrho) hvv.ne') (by linarith)
  have hn : 0 < R ^ 2 + c ^ 2 := by positivity
  -- the integrand of the code
  let A : ℂ := (1 / 2 : ℂ) * ((Real.log (S0 / K) + (r - q) * tau : ℝ) : ℂ) + (-(h.kappa * h.theta : ℝ) / (h.vv : ℂ) ^ 2 *
    ((-(Complex.I * h.kappa * h.rho * h.vv + kh) + z) * tau + 2 * Complex.log (((Complex.I * h.kappa * h.rho * h.vv + kh) + z +
      (-(Complex.I * h.kappa * h.rho * h.vv + kh) + z) * e) / (2 * z))))
  have hlip : ∀ w : ℝ, liptonIntegrand { h with var0 := w } S0 tau r q K 0 =
      (Complex.exp (A - (1 / 4 : ℂ) * ((1 - e) / (R + Complex.I * c)) * w)).re / (1 / 4) := by
    intro w
    unfold liptonIntegrand
    simp only
    have hzeta : csqrt (((0 ^ 2 * h.vv ^ 2 * (1 - h.rho ^ 2) + (h.kappa - h.rho * h.vv / 2) ^ 2 + h.vv ^ 2 / 4 : ℝ) : ℂ) + 2 * Complex.I * ((0 : ℝ) : ℂ) * h.vv * h.rho * ((h.kappa - h.rho * h.vv / 2 : ℝ) : ℂ)) = (z : ℂ) := by
      rw [hz, ← csqrt_real _ hx.le]
      congr 1
      simp [hkh]
    rw [hzeta, ← hkh]
    have hexp : Complex.exp (-(z : ℂ) * tau) = (e : ℂ) := by rw [he]; push_cast; ring_nf
    rw [hexp]
    have hden : (Complex.I * h.kappa * h.rho * h.vv + kh) + z + (-(Complex.I * h.kappa * h.rho * h.vv + kh) + z) * e = (R : ℂ) + Complex.I * c := by
      rw [hR, hc]; push_cast; ring
    simp only [A]
    rw [hden]
    rw [show (0 : ℝ) ^ 2 + 0.25 = 1 / 4 by norm_num]
    congr 3
    rw [show (0.5 : ℂ) = 1 / 2 by norm_num]
    push_cast
    ring
  have hfrac : ((1 - e : ℂ) / (R + Complex.I * c)) = (((1 - e) * R / (R ^ 2 + c ^ 2) : ℝ) : ℂ) + Complex.I * ((-(1 - e) * c / (R ^ 2 + c ^ 2) : ℝ) : ℂ) := by
    have hne : (R : ℂ) + Complex.I * c ≠ 0 := by
      intro h0
      have := congrArg Complex.re h0
      simp at this
      linarith
    have hne2 : ((R : ℂ) ^ 2 + c ^ 2) ≠ 0 := by exact_mod_cast hn.ne'
    rw [div_eq_iff hne]
    push_cast
    field_simp
    linear_combination ((1 - e : ℂ) * (c : ℂ) ^ 2) * Complex.I_sq
  clear_value A
  set k : ℝ := (1 - e) * c / (4 * (R ^ 2 + c ^ 2)) with hkdef
  have hk0 : k ≠ 0 := div_ne_zero (mul_ne_zero (by linarith) hc0) (by positivity)
  obtain ⟨w, hw0, hw⟩ := cos_hits A.im k hk0
  refine ⟨w, hw0, ?_, ?_⟩
  · rw [hlip w]
    apply div_neg_of_neg_of_pos _ (by norm_num)
    rw [Complex.exp_re]
    have him : (A - (1 / 4 : ℂ) * ((1 - e) / (R + Complex.I * c)) * w).im = A.im + k * w := by
      rw [hfrac, show (1 / 4 : ℂ) * ((((1 - e) * R / (R ^ 2 + c ^ 2) : ℝ) : ℂ) + Complex.I * ((-(1 - e) * c / (R ^ 2 + c ^ 2) : ℝ) : ℂ)) * (w : ℂ) =
        (((1 - e) * R / (R ^ 2 + c ^ 2) * w / 4 : ℝ) : ℂ) + Complex.I * ((-(1 - e) * c / (R ^ 2 + c ^ 2) * w / 4 : ℝ) : ℂ) by push_cast; ring]
      rw [Complex.sub_im, Complex.add_im, Complex.ofReal_im, Complex.I_mul_im, Complex.ofReal_re, hkdef]
      field_simp
      ring
    rw [him, hw]
    have := Real.exp_pos (A - (1 / 4 : ℂ) * ((1 - e) / (R + Complex.I * c)) * w).re
    linarith
  · obtain ⟨hW, hU, hd⟩ := lewis_facts { h with var0 := w } 0
    have hrt : chfRoot { h with var0 := w } (lewisU 0) = (z : ℂ) := by
      rw [hd, hz, ← csqrt_real _ hx.le]
      congr 1
      simp [hkh]
    have hW0 : chfW { h with var0 := w } (lewisU 0) = (kh : ℂ) := by
      rw [hW, hkh]; simp
    have hexp : Complex.exp (-(z : ℂ) * tau) = (e : ℂ) := by rw [he]; push_cast; ring_nf
    have hs : (kh : ℂ) + z ≠ 0 := by
      rw [← Complex.ofReal_add]
      exact_mod_cast (by linarith : kh + z ≠ 0)
    have hz0c : (z : ℂ) ≠ 0 := by exact_mod_cast hz0.ne'
    have hNR : ((kh : ℂ) + z) + ((z : ℂ) - kh) * e = (R : ℂ) := by rw [hR]; push_cast; ring
    have hRc : (R : ℂ) ≠ 0 := by exact_mod_cast hR0.ne'
    have hcl := chfFang_closed { h with var0 := w } tau r q (lewisU 0) hvv.ne' (by rw [hrt]; exact hz0c) (by rw [hrt, hW0]; exact hs)
      (by rw [hrt, hW0, hexp, hNR]; exact hRc)
    rw [hrt, hW0, hexp, hNR, hU] at hcl
    have hlog : Complex.log ((R : ℂ) / (2 * z)) = ((Real.log (R / (2 * z)) : ℝ) : ℂ) := by
      rw [Complex.ofReal_log (by positivity)]
      push_cast
      rfl
    rw [hlog] at hcl
    unfold lewisIntegrand
    apply div_pos _ (by norm_num)
    rw [show (-((0 : ℝ) : ℂ) - Complex.I / 2) = lewisU 0 from rfl, hcl, ← Complex.exp_add]
    have hreal : ∃ y : ℝ, Complex.I * lewisU 0 * (Real.log (S0 / K) : ℂ) + (Complex.I * lewisU 0 * (((r : ℂ) - q) * tau) +
        -((({ h with var0 := w } : Heston).kappa * ({ h with var0 := w } : Heston).theta : ℝ) : ℂ) / ((({ h with var0 := w } : Heston).vv : ℝ) : ℂ) ^ 2 *
          (((z : ℂ) - kh) * tau + 2 * ((Real.log (R / (2 * z)) : ℝ) : ℂ)) -
        (((0 ^ 2 + 1 / 4 : ℝ)) : ℂ) * ((1 - e) / R) * ((({ h with var0 := w } : Heston).var0 : ℝ) : ℂ)) = (y : ℂ) := by
      refine ⟨1 / 2 * Real.log (S0 / K) + 1 / 2 * ((r - q) * tau) + -(h.kappa * h.theta) / h.vv ^ 2 * ((z - kh) * tau + 2 * Real.log (R / (2 * z))) -
        (0 ^ 2 + 1 / 4) * ((1 - e) / R) * w, ?_⟩
      unfold lewisU
      push_cast
      linear_combination (-(1 / 2 : ℂ) * ((Real.log (S0 / K) : ℂ) + (r - q) * tau)) * Complex.I_sq
    obtain ⟨y, hy⟩ := hreal
    rw [hy, ← Complex.ofReal_exp, Complex.ofReal_re]
    exact Real.exp_pos y

/-- Parameters that meet the hypotheses, without and with correlation; and a strike on the grid of the transform. -/
example : let h : Heston := ⟨0.04, 0.5, 1.5, 0.04, 0⟩; 0 ≤ h.var0 ∧ 0 ≤ h.kappa ∧ 0 < h.vv ∧ h.rho = 0 ∧ h.kappa + 0 ≠ 0 := by norm_num

example : let h : Heston := ⟨0.04, 0.5, 1.5, 0.04, -0.7⟩; 0 < h.kappa ∧ 0 < h.vv ∧ h.rho ≠ 0 := by norm_num

example : Real.log 1 = -(4 * Real.pi) + Real.pi / 128 * (512 : Nat) := by
  rw [Real.log_one]
  push_cast
  ring

/-- Two neighbouring strikes of the grid and one between them. -/
example : Real.log 1 = -(4 * Real.pi) + Real.pi / 128 * (512 : Nat) ∧
    Real.log (Real.exp (Real.pi / 128)) = -(4 * Real.pi) + Real.pi / 128 * (512 + 1 : Nat) ∧
    Real.log 1 ≤ Real.log (Real.exp (Real.pi / 256)) ∧ Real.log (Real.exp (Real.pi / 256)) ≤ Real.log (Real.exp (Real.pi / 128)) := by
  have := Real.pi_pos
  rw [Real.log_one, Real.log_exp, Real.log_exp]
  push_cast
  refine ⟨by ring, by ring, by linarith, by linarith⟩

end Frm.Props
