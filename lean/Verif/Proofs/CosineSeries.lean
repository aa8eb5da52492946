import Verif.Props.C62
import Mathlib.Analysis.Fourier.AddCircle
import Mathlib.Analysis.PSeries

/-!
# Cosine series

A continuous function on an interval whose cosine coefficients are summable is the sum of its cosine series; outside the interval the series is the
function of the reflected argument.
-/

open MeasureTheory

namespace Frm
namespace Spec

set_option autoImplicit false

/-- The argument reflected into the interval from `a` to `b` at its ends. -/
noncomputable def reflect (a b y : ℝ) : ℝ := a + |y - a - 2 * (b - a) * round ((y - a) / (2 * (b - a)))|

end Spec
end Frm

namespace Frm.Props

set_option autoImplicit false

open Frm Frm.Spec

theorem reflect_inside (a b y : ℝ) (hab : a < b) (h1 : a ≤ y) (h2 : y ≤ b) : reflect a b y = y := by
  have hp : 0 < 2 * (b - a) := by linarith
  have := (AddCircle.norm_coe_eq_abs_iff (p := 2 * (b - a)) (x := y - a) hp.ne').2 (by rw [abs_of_nonneg (by linarith), abs_of_pos hp]; linarith)
  rw [AddCircle.norm_eq, abs_of_nonneg (by linarith : 0 ≤ y - a)] at this
  unfold reflect
  rw [div_eq_inv_mul, mul_comm (2 * (b - a))]
  linarith [this]

theorem reflect_mem (a b y : ℝ) (hab : a < b) : a ≤ reflect a b y ∧ reflect a b y ≤ b := by
  have hp : 0 < 2 * (b - a) := by linarith
  have h := AddCircle.norm_le_half_period (2 * (b - a)) (x := ((y - a : ℝ) : AddCircle (2 * (b - a)))) hp.ne'
  rw [AddCircle.norm_eq, abs_of_pos hp] at h
  unfold reflect
  rw [div_eq_inv_mul, mul_comm (2 * (b - a))]
  exact ⟨by have := abs_nonneg (y - a - round ((2 * (b - a))⁻¹ * (y - a)) * (2 * (b - a))); linarith, by linarith⟩

theorem reflected_coefficient (a b : ℝ) (hab : a < b) (g : ℝ → ℝ) (hg : Continuous g) (n : ℤ) [Fact (0 < 2 * (b - a))] :
    fourierCoeff (fun x : AddCircle (2 * (b - a)) => (g (a + ‖x‖) : ℂ)) n = ((cosineCoefficient a b n.natAbs g / 2 : ℝ) : ℂ) := by
  have hp : 0 < 2 * (b - a) := by linarith
  have hL : 0 < b - a := by linarith
  rw [fourierCoeff_eq_intervalIntegral _ n (-(b - a)), show -(b - a) + 2 * (b - a) = b - a by ring]
  have e1 : ∀ x ∈ Set.uIcc (-(b - a)) (b - a), @fourier (2 * (b - a)) (-n) (x : AddCircle (2 * (b - a))) • ((g (a + ‖(x : AddCircle (2 * (b - a)))‖) : ℝ) : ℂ) =
      Complex.exp (-(Complex.I * (n * Real.pi / (b - a) : ℝ) * x)) * (g (a + |x|) : ℂ) := by
    intro x hx
    rw [Set.uIcc_of_le (by linarith)] at hx
    rw [(AddCircle.norm_coe_eq_abs_iff (p := 2 * (b - a)) (x := x) hp.ne').2 (by rw [abs_of_pos hp, abs_le]; constructor <;> linarith [hx.1, hx.2]),
      fourier_coe_apply, smul_eq_mul]
    congr 2
    have : ((b : ℂ) - a) ≠ 0 := by exact_mod_cast hL.ne'
    push_cast
    field_simp
  rw [intervalIntegral.integral_congr e1]
  have hc : Continuous fun x : ℝ => Complex.exp (-(Complex.I * (n * Real.pi / (b - a) : ℝ) * x)) * (g (a + |x|) : ℂ) := by fun_prop
  rw [← intervalIntegral.integral_add_adjacent_intervals (hc.intervalIntegrable (-(b - a)) 0) (hc.intervalIntegrable 0 (b - a))]
  have e2 : (∫ x in (-(b - a))..0, Complex.exp (-(Complex.I * (n * Real.pi / (b - a) : ℝ) * x)) * (g (a + |x|) : ℂ)) =
      ∫ x in (0 : ℝ)..(b - a), Complex.exp (Complex.I * (n * Real.pi / (b - a) : ℝ) * x) * (g (a + |x|) : ℂ) := by
    have := intervalIntegral.integral_comp_neg (a := 0) (b := b - a) (fun x : ℝ => Complex.exp (-(Complex.I * (n * Real.pi / (b - a) : ℝ) * x)) * (g (a + |x|) : ℂ))
    rw [neg_zero] at this
    rw [← this]
    apply intervalIntegral.integral_congr
    intro x _
    simp only [abs_neg]
    congr 2
    push_cast
    ring
  have hc2 : Continuous fun x : ℝ => Complex.exp (Complex.I * (n * Real.pi / (b - a) : ℝ) * x) * (g (a + |x|) : ℂ) := by fun_prop
  rw [e2, ← intervalIntegral.integral_add (hc2.intervalIntegrable _ _) (hc.intervalIntegrable _ _)]
  have e3 : ∀ x ∈ Set.uIcc 0 (b - a), Complex.exp (Complex.I * (n * Real.pi / (b - a) : ℝ) * x) * (g (a + |x|) : ℂ) +
      Complex.exp (-(Complex.I * (n * Real.pi / (b - a) : ℝ) * x)) * (g (a + |x|) : ℂ) =
      ((2 * (g (a + x) * cosine a b n.natAbs (a + x)) : ℝ) : ℂ) := by
    intro x hx
    rw [Set.uIcc_of_le hL.le] at hx
    rw [abs_of_nonneg hx.1, ← add_mul]
    have ec : cosine a b n.natAbs (a + x) = Real.cos (n * Real.pi / (b - a) * x) := by
      unfold cosine
      rcases Int.natAbs_eq n with h | h
      · rw [show ((n : ℤ) : ℝ) = (n.natAbs : ℝ) by rw [h]; simp]
        congr 1
        field_simp
        ring
      · rw [show ((n : ℤ) : ℝ) = -(n.natAbs : ℝ) by rw [h]; simp, ← Real.cos_neg]
        congr 1
        field_simp
        ring
    rw [ec]
    have := Complex.two_cos (((n * Real.pi / (b - a) * x : ℝ)) : ℂ)
    push_cast
    push_cast at this
    rw [show Complex.exp (Complex.I * (n * Real.pi / (b - a)) * x) + Complex.exp (-(Complex.I * (n * Real.pi / (b - a)) * x)) =
      2 * Complex.cos (n * Real.pi / (b - a) * x) by rw [this]; congr 2 <;> ring]
    ring
  rw [intervalIntegral.integral_congr e3, intervalIntegral.integral_ofReal, intervalIntegral.integral_const_mul]
  have e4 := intervalIntegral.integral_comp_add_left (a := 0) (b := b - a) (fun y => g y * cosine a b n.natAbs y) a
  rw [add_zero, add_sub_cancel] at e4
  rw [e4]
  unfold cosineCoefficient
  rw [Complex.real_smul, ← Complex.ofReal_mul]
  congr 1
  field_simp

/-- The cosine series. -/
theorem cosine_series (a b : ℝ) (hab : a < b) (g : ℝ → ℝ) (hg : Continuous g) (hs : Summable fun k => |cosineCoefficient a b k g|) (y : ℝ) :
    HasSum (fun k : ℕ => (if k = 0 then 1 / 2 else 1) * cosineCoefficient a b k g * cosine a b k y) (g (reflect a b y)) := by
  have hL : 0 < b - a := by linarith
  have : Fact (0 < 2 * (b - a)) := ⟨by linarith⟩
  let f : C(AddCircle (2 * (b - a)), ℂ) := ⟨fun x => (g (a + ‖x‖) : ℂ), by fun_prop⟩
  have hf : ∀ n : ℤ, fourierCoeff f n = ((cosineCoefficient a b n.natAbs g / 2 : ℝ) : ℂ) := fun n => reflected_coefficient a b hab g hg n
  have hsum : Summable (fourierCoeff f) := by
    apply Summable.of_norm
    simp only [hf, Complex.norm_real, Real.norm_eq_abs]
    have h1 : Summable fun k : ℕ => |cosineCoefficient a b k g / 2| := by
      simp only [abs_div, abs_two]
      exact hs.div_const 2
    apply Summable.of_nat_of_neg
    · simpa using h1
    · simpa using h1
  have h2 := (has_pointwise_sum_fourier_series_of_summable hsum ((y - a : ℝ) : AddCircle (2 * (b - a)))).nat_add_neg
  have hval : f ((y - a : ℝ) : AddCircle (2 * (b - a))) = ((g (reflect a b y) : ℝ) : ℂ) := by
    change ((g (a + ‖((y - a : ℝ) : AddCircle (2 * (b - a)))‖) : ℝ) : ℂ) = _
    rw [AddCircle.norm_eq]
    unfold reflect
    rw [div_eq_inv_mul, mul_comm (2 * (b - a)) (round _ : ℝ)]
  have e : ∀ n : ℕ, fourierCoeff f (n : ℤ) • fourier (n : ℤ) ((y - a : ℝ) : AddCircle (2 * (b - a))) +
      fourierCoeff f (-(n : ℤ)) • fourier (-(n : ℤ)) ((y - a : ℝ) : AddCircle (2 * (b - a))) = ((cosineCoefficient a b n g * cosine a b n y : ℝ) : ℂ) := by
    intro n
    rw [hf, hf, Int.natAbs_neg, Int.natAbs_natCast, ← smul_add, fourier_coe_apply, fourier_coe_apply]
    unfold cosine
    have := Complex.two_cos (((n * Real.pi * (y - a) / (b - a) : ℝ)) : ℂ)
    have hb : ((b : ℂ) - a) ≠ 0 := by exact_mod_cast hL.ne'
    rw [show Complex.exp (2 * Real.pi * Complex.I * ((n : ℤ) : ℂ) * ((y - a : ℝ) : ℂ) / ((2 * (b - a) : ℝ) : ℂ)) +
      Complex.exp (2 * Real.pi * Complex.I * ((-(n : ℤ) : ℤ) : ℂ) * ((y - a : ℝ) : ℂ) / ((2 * (b - a) : ℝ) : ℂ)) =
      2 * Complex.cos ((n * Real.pi * (y - a) / (b - a) : ℝ) : ℂ) by
        rw [this]
        congr 2
        · push_cast
          field_simp
        · push_cast
          field_simp]
    rw [smul_eq_mul]
    push_cast
    ring
  rw [hval] at h2
  simp only [e] at h2
  have h0 : fourierCoeff f 0 • fourier 0 ((y - a : ℝ) : AddCircle (2 * (b - a))) = ((cosineCoefficient a b 0 g / 2 : ℝ) : ℂ) := by
    rw [hf]
    simp
  rw [h0, ← Complex.ofReal_add] at h2
  have h3 : HasSum (fun n : ℕ => cosineCoefficient a b n g * cosine a b n y) (g (reflect a b y) + cosineCoefficient a b 0 g / 2) :=
    Complex.hasSum_ofReal.1 h2
  have h4 : HasSum (fun n : ℕ => if n = 0 then -(cosineCoefficient a b 0 g / 2) else 0) (-(cosineCoefficient a b 0 g / 2)) := by
    simpa using hasSum_ite_eq (0 : ℕ) (-(cosineCoefficient a b 0 g / 2))
  have h5 := h3.add h4
  rw [add_neg_cancel_right] at h5
  convert h5 using 1
  funext n
  by_cases hn : n = 0
  · subst hn
    simp [cosine]
    ring
  · simp [hn]

/-- What bounds the bracket of the payoff coefficients. -/
noncomputable def coefficientScale (call : Bool) (a b : ℝ) : ℝ := 1 + Real.exp (if call then b else a) + (b - a) / Real.pi

/-- The payoff coefficients fall with the square of the index. -/
theorem payoff_coefficient_bound (a b : ℝ) (ha : a < 0) (hb : 0 < b) (call : Bool) (k : ℕ) (hk : k ≠ 0) :
    |cosUk call a b k| ≤ 2 * (b - a) / Real.pi ^ 2 * coefficientScale call a b * (1 / (k : ℝ) ^ 2) := by
  have hL : 0 < b - a := by linarith
  have hpi := Real.pi_pos
  have hM0 : 0 < coefficientScale call a b := by unfold coefficientScale; positivity
  have hk1 : (1 : ℝ) ≤ k := by exact_mod_cast Nat.one_le_iff_ne_zero.2 hk
  have hk0 : (k : ℝ) ≠ 0 := by linarith
  set w : ℝ := k * Real.pi / (b - a) with hw
  have hw0 : 0 < w := by positivity
  have hwinv : 1 / w ≤ (b - a) / Real.pi := by
    rw [hw, one_div_div]
    apply div_le_div_of_nonneg_left hL.le hpi
    nlinarith
  have hthe : ∀ t : ℝ, (k : ℝ) * Real.pi * t / (b - a) = w * t := fun t => by rw [hw]; ring
  have hsb : Real.sin (w * (b - a)) = 0 := by
    rw [hw, div_mul_cancel₀ _ hL.ne', Real.sin_nat_mul_pi]
  have hform : ∃ x, |x| ≤ coefficientScale call a b ∧ cosUk call a b k = 2 / (b - a) * (1 / (1 + w ^ 2) * x) := by
    cases call
    · refine ⟨-Real.cos (w * (0 - a)) + Real.exp a + Real.sin (w * (0 - a)) / w, ?_, ?_⟩
      · have h1 := Real.abs_cos_le_one (w * (0 - a))
        have h2 := Real.abs_sin_le_one (w * (0 - a))
        have h3 : |Real.sin (w * (0 - a)) / w| ≤ 1 / w := by
          rw [abs_div, abs_of_pos hw0]
          exact div_le_div_of_nonneg_right h2 hw0.le
        have h4 := abs_add_le (-Real.cos (w * (0 - a)) + Real.exp a) (Real.sin (w * (0 - a)) / w)
        have h5 := abs_add_le (-Real.cos (w * (0 - a))) (Real.exp a)
        rw [abs_neg, abs_of_pos (Real.exp_pos a)] at h5
        unfold coefficientScale
        simp only [Bool.false_eq_true, if_false]
        linarith
      · unfold cosUk cosChi cosPsi
        simp only [Bool.false_eq_true, if_false, if_neg hk, ← hw, hthe, sub_self, mul_zero, zero_div, Real.sin_zero, Real.cos_zero, Real.exp_zero, zero_mul, sub_zero]
        congr 1
        have e : Real.sin (w * (0 - a)) * (b - a) / (k * Real.pi) = Real.sin (w * (0 - a)) / w := by rw [hw]; field_simp
        rw [e]
        have h1 : 1 + w ^ 2 ≠ 0 := by positivity
        field_simp
        ring
    · refine ⟨Real.cos (w * (b - a)) * Real.exp b - Real.cos (w * (0 - a)) + Real.sin (w * (0 - a)) / w, ?_, ?_⟩
      · have h1 := Real.abs_cos_le_one (w * (0 - a))
        have h1b := Real.abs_cos_le_one (w * (b - a))
        have h2 := Real.abs_sin_le_one (w * (0 - a))
        have h3 : |Real.sin (w * (0 - a)) / w| ≤ 1 / w := by
          rw [abs_div, abs_of_pos hw0]
          exact div_le_div_of_nonneg_right h2 hw0.le
        have h4 := abs_add_le (Real.cos (w * (b - a)) * Real.exp b - Real.cos (w * (0 - a))) (Real.sin (w * (0 - a)) / w)
        have h5 := abs_sub (Real.cos (w * (b - a)) * Real.exp b) (Real.cos (w * (0 - a)))
        have h6 : |Real.cos (w * (b - a)) * Real.exp b| ≤ Real.exp b := by
          rw [abs_mul, abs_of_pos (Real.exp_pos b)]
          exact mul_le_of_le_one_left (Real.exp_pos b).le h1b
        unfold coefficientScale
        simp only [if_true]
        linarith
      · unfold cosUk cosChi cosPsi
        simp only [if_true, if_neg hk, ← hw, hthe, hsb, Real.exp_zero, mul_zero, mul_one, add_zero]
        congr 1
        have e : (0 - Real.sin (w * (0 - a))) * (b - a) / (k * Real.pi) = -(Real.sin (w * (0 - a)) / w) := by rw [hw]; field_simp; ring
        rw [e]
        have h1 : 1 + w ^ 2 ≠ 0 := by positivity
        field_simp
        ring
  obtain ⟨x, hx, hU⟩ := hform
  rw [hU, abs_mul, abs_mul, abs_of_pos (by positivity : (0 : ℝ) < 2 / (b - a)), abs_of_pos (by positivity : (0 : ℝ) < 1 / (1 + w ^ 2))]
  have h7 : 1 / (1 + w ^ 2) ≤ ((b - a) / Real.pi) ^ 2 * (1 / (k : ℝ) ^ 2) := by
    have e : ((b - a) / Real.pi) ^ 2 * (1 / (k : ℝ) ^ 2) = 1 / w ^ 2 := by rw [hw]; field_simp
    rw [e]
    exact one_div_le_one_div_of_le (by positivity) (by linarith)
  calc 2 / (b - a) * (1 / (1 + w ^ 2) * |x|) ≤ 2 / (b - a) * (((b - a) / Real.pi) ^ 2 * (1 / (k : ℝ) ^ 2) * coefficientScale call a b) := by
        apply mul_le_mul_of_nonneg_left _ (by positivity)
        exact mul_le_mul h7 hx (abs_nonneg _) (by positivity)
    _ = _ := by field_simp

theorem payoff_coefficients_summable (a b : ℝ) (ha : a < 0) (hb : 0 < b) (call : Bool) : Summable fun k => |cosUk call a b k| := by
  rw [← summable_nat_add_iff 1]
  have h8 := ((summable_nat_add_iff 1).2 (Real.summable_one_div_nat_pow.2 (by norm_num : 1 < 2))).mul_left (2 * (b - a) / Real.pi ^ 2 * coefficientScale call a b)
  exact Summable.of_nonneg_of_le (fun k => abs_nonneg _) (fun k => payoff_coefficient_bound a b ha hb call (k + 1) (Nat.succ_ne_zero k)) h8

end Frm.Props
