import Mathlib.Analysis.SpecialFunctions.ExpDeriv
import Verif.Spec.Rates
import Verif.Proofs.Rates

/-! # C21 — Discount factors and zero rates -/

namespace Frm
open Spec

theorem creditsPerYear_eq (f : CompoundingFreq) : creditsPerYear f = f.periodsPerYear := by cases f <;> rfl

theorem admissible_periodic {f : CompoundingFreq} {n : ℕ} (hn : f.periodsPerYear = some n) (hc : f ≠ .continuous)
    (hs : f ≠ .simple) (t r : ℝ) : Admissible f t r ↔ 0 < 1 + r / n := by
  have : Admissible f t r ↔ ∀ m, creditsPerYear f = some m → 0 < 1 + r / m := by
    cases f <;> first | exact absurd rfl hc | exact absurd rfl hs | rfl
  rw [this, creditsPerYear_eq, hn]
  simp

theorem account_eq (r : ℝ) (n k : ℕ) : account r n k = (1 + r / n) ^ k := by
  induction k with
  | zero => simp [account]
  | succ k ih => rw [account, ih, pow_succ]; ring

end Frm

namespace Frm.Props
open Spec

/-- Periodic compounding: after `k` credits (at time `k/n`) the account times the discount factor is one. -/
theorem C21_periodic (f : CompoundingFreq) (n : ℕ) (hn : creditsPerYear f = some n) (r : ℝ) (k : ℕ)
    (hr : 0 < 1 + r / n) : account r n k * f.discountFactor ((k : ℝ) / n) r = 1 := by
  have hn' : f.periodsPerYear = some n := by rw [← creditsPerYear_eq]; exact hn
  have hc : f ≠ .continuous := by rintro rfl; cases hn
  have hs : f ≠ .simple := by rintro rfl; cases hn
  have hpos : 0 < n := by cases f <;> cases hn <;> norm_num
  have hn0 : (n : ℝ) ≠ 0 := by positivity
  rw [account_eq, discountFactor_periodic hn' hc hs, mul_div_cancel₀ _ hn0, Real.rpow_natCast, mul_one_div]
  exact div_self (pow_pos hr k).ne'

/-- Simple interest: the investment grows by `r·t`. -/
theorem C21_simple (t r : ℝ) (h : 0 < 1 + r * t) :
    (1 + r * t) * CompoundingFreq.simple.discountFactor t r = 1 := by
  change (1 + r * t) * (1 / (1 + r * t)) = 1
  field_simp

/-- Continuous compounding: the discount factor decays at the rate `r`. -/
theorem C21_continuous (r : ℝ) :
    CompoundingFreq.continuous.discountFactor 0 r = 1 ∧
    ∀ t, HasDerivAt (fun t => CompoundingFreq.continuous.discountFactor t r)
      (-r * CompoundingFreq.continuous.discountFactor t r) t := by
  have hdef : ∀ t, CompoundingFreq.continuous.discountFactor t r = Real.exp (-r * t) := fun _ => rfl
  simp only [hdef]
  refine ⟨by simp, ?_⟩
  intro t
  have h := (((hasDerivAt_id t).const_mul (-r))).exp
  simp only [id, mul_one] at h
  rwa [mul_comm] at h

/-- Positive on the admissible rates, one at rate zero. -/
theorem C21_positive (f : CompoundingFreq) (t r : ℝ) (h : Admissible f t r) :
    0 < f.discountFactor t r ∧ f.discountFactor t 0 = 1 := by
  rcases freq_cases f with rfl | rfl | ⟨n, hn, hp, hc, hs⟩
  · exact ⟨Real.exp_pos _, by simp [CompoundingFreq.discountFactor]⟩
  · have h' : 0 < 1 + r * t := h
    exact ⟨one_div_pos.mpr h', by simp [CompoundingFreq.discountFactor]⟩
  · rw [admissible_periodic hp hc hs] at h
    rw [discountFactor_periodic hp hc hs, discountFactor_periodic hp hc hs]
    exact ⟨one_div_pos.mpr (Real.rpow_pos_of_pos h _), by simp⟩

/-- Strictly decreasing in the rate. -/
theorem C21_decreasing (f : CompoundingFreq) {t : ℝ} (ht : 0 < t) {r r' : ℝ} (h : Admissible f t r) (hr : r < r') :
    f.discountFactor t r' < f.discountFactor t r := by
  rcases freq_cases f with rfl | rfl | ⟨n, hn, hp, hc, hs⟩
  · exact Real.exp_lt_exp.mpr (by nlinarith)
  · have h' : 0 < 1 + r * t := h
    exact one_div_lt_one_div_of_lt h' (by nlinarith)
  · rw [admissible_periodic hp hc hs] at h
    have hn' : (0 : ℝ) < n := by exact_mod_cast hn
    rw [discountFactor_periodic hp hc hs, discountFactor_periodic hp hc hs]
    refine one_div_lt_one_div_of_lt (Real.rpow_pos_of_pos h _) ?_
    exact Real.rpow_lt_rpow h.le (by have := div_lt_div_of_pos_right hr hn'; linarith) (by positivity)

/-- Rate → discount factor → rate. -/
theorem C21_rate_round_trip (f : CompoundingFreq) {t : ℝ} (ht : 0 < t) {r : ℝ} (h : Admissible f t r) :
    f.zeroRate t (f.discountFactor t r) = r := by
  have ht' := ht.ne'
  rcases freq_cases f with rfl | rfl | ⟨n, hn, hp, hc, hs⟩
  · change -Real.log (Real.exp (-r * t)) / t = r
    rw [Real.log_exp]; field_simp
  · have h' : 0 < 1 + r * t := h
    change ((1 / (1 / (1 + r * t))) - 1) / t = r
    rw [one_div_one_div]; field_simp; ring
  · rw [admissible_periodic hp hc hs] at h
    have hn' : (0 : ℝ) < n := by exact_mod_cast hn
    rw [discountFactor_periodic hp hc hs, zeroRate_periodic hp hc hs, one_div_one_div, ← Real.rpow_mul h.le]
    have : (n : ℝ) * t * (1 / (n * t)) = 1 := by field_simp
    rw [this, Real.rpow_one]; field_simp; ring

/-- Discount factor → rate → discount factor; the intermediate rate is admissible. -/
theorem C21_factor_round_trip (f : CompoundingFreq) {t : ℝ} (ht : 0 < t) {df : ℝ} (h : 0 < df) :
    f.discountFactor t (f.zeroRate t df) = df ∧ Admissible f t (f.zeroRate t df) := by
  have ht' := ht.ne'
  rcases freq_cases f with rfl | rfl | ⟨n, hn, hp, hc, hs⟩
  · refine ⟨?_, trivial⟩
    change Real.exp (-(-Real.log df / t) * t) = df
    have : -(-Real.log df / t) * t = Real.log df := by field_simp
    rw [this, Real.exp_log h]
  · have e : 1 + ((1 / df) - 1) / t * t = 1 / df := by field_simp; ring
    refine ⟨?_, ?_⟩
    · change 1 / (1 + ((1 / df) - 1) / t * t) = df
      rw [e, one_div_one_div]
    · change 0 < 1 + ((1 / df) - 1) / t * t
      rw [e]; positivity
  · have hn' : (0 : ℝ) < n := by exact_mod_cast hn
    rw [admissible_periodic hp hc hs, zeroRate_periodic hp hc hs, discountFactor_periodic hp hc hs]
    have e : 1 + (n : ℝ) * ((1 / df) ^ (1 / (n * t)) - 1) / n = (1 / df) ^ (1 / (n * t)) := by field_simp; ring
    rw [e]
    have hb : 0 < 1 / df := by positivity
    refine ⟨?_, Real.rpow_pos_of_pos hb _⟩
    rw [← Real.rpow_mul hb.le]
    have : 1 / ((n : ℝ) * t) * (n * t) = 1 := by field_simp
    rw [this, Real.rpow_one, one_div_one_div]

example : Admissible .quarterly 2 (5 / 100) ∧ Admissible .simple 2 (-(4 / 10)) ∧ creditsPerYear .quarterly = some 4 := by
  refine ⟨?_, ?_, rfl⟩
  · intro n hn; cases hn; norm_num
  · change (0 : ℝ) < 1 + -(4 / 10) * 2; norm_num

end Frm.Props
