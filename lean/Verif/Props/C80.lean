import Verif.Props.C76
import Mathlib.Analysis.Complex.ExponentialBounds

/-!
# C80: truncation range of the COS method
-/

namespace Frm
namespace Spec

set_option autoImplicit false

/-- The mean `X` and the variance `S` of the log spot of Heston's model over time, with the mean `M` and variance `V` of the variance process
and its covariance `C` with the log spot: from `dx = (mu - v/2) dt + √v dB`, `dv = κ (θ - v) dt + η √v dW` and `dB dW = ρ dt`. -/
structure LogSpotMoments (h : Heston) (mu : ℝ) (M V C X S : ℝ → ℝ) : Prop where
  variance : VarianceMoments h h.var0 M V
  start : C 0 = 0 ∧ X 0 = 0 ∧ S 0 = 0
  mean : ∀ t, HasDerivAt X (mu - M t / 2) t
  covariance : ∀ t, HasDerivAt C (h.rho * h.vv * M t - V t / 2 - h.kappa * C t) t
  logVariance : ∀ t, HasDerivAt S (M t - C t) t

end Spec
end Frm

namespace Frm.Props
open Classical

set_option autoImplicit false

open Frm Frm.Spec

/-- The covariance, explicitly. -/
noncomputable def logCov (h : Heston) (t : ℝ) : ℝ :=
  -(1 / (8 * h.kappa ^ 3)) * (h.vv * h.kappa * (h.var0 - h.theta) * (8 * h.kappa * h.rho - 4 * h.vv) * ((1 - h.kappa * t) * Real.exp (-h.kappa * t)) +
    h.kappa ^ 2 * h.rho * h.vv * (16 * h.theta - 8 * h.var0) * Real.exp (-h.kappa * t) + 2 * h.theta * h.kappa * (-4 * h.kappa * h.rho * h.vv + h.vv ^ 2) -
    2 * h.kappa * h.vv ^ 2 * ((h.theta - 2 * h.var0) * Real.exp (-h.kappa * t) ^ 2 + 2 * h.theta * Real.exp (-h.kappa * t)))

theorem exp_two (k t : ℝ) : Real.exp (-2 * k * t) = Real.exp (-k * t) ^ 2 := by
  rw [← Real.exp_nat_mul]
  congr 1
  push_cast
  ring

theorem cumulant_second (h : Heston) (mu t : ℝ) : (hestonCumulants h mu t).2 =
    1 / (8 * h.kappa ^ 3) * (h.vv * t * h.kappa * Real.exp (-h.kappa * t) * (h.var0 - h.theta) * (8 * h.kappa * h.rho - 4 * h.vv) +
      h.kappa * h.rho * h.vv * (1 - Real.exp (-h.kappa * t)) * (16 * h.theta - 8 * h.var0) +
      2 * h.theta * h.kappa * t * (-4 * h.kappa * h.rho * h.vv + h.vv ^ 2 + 4 * h.kappa ^ 2) +
      h.vv ^ 2 * ((h.theta - 2 * h.var0) * Real.exp (-h.kappa * t) ^ 2 + h.theta * (6 * Real.exp (-h.kappa * t) - 7) + 2 * h.var0) +
      8 * h.kappa ^ 2 * (h.var0 - h.theta) * (1 - Real.exp (-h.kappa * t))) := by
  unfold hestonCumulants
  simp only [exp_two]

/-- The moments, explicitly. -/
theorem logSpot_formula (h : Heston) (hk : h.kappa ≠ 0) (mu : ℝ) :
    LogSpotMoments h mu (fun t => qeMean h t h.var0) (fun t => qeVariance h t h.var0) (logCov h) (fun t => (hestonCumulants h mu t).1)
      (fun t => (hestonCumulants h mu t).2 + h.vv ^ 2 * h.theta * (1 - Real.exp (-h.kappa * t)) / (4 * h.kappa ^ 3)) := by
  refine ⟨moments_formula h hk h.var0, ⟨?_, ?_, ?_⟩, ?_, ?_, ?_⟩
  · unfold logCov
    simp
    right
    ring
  · unfold hestonCumulants
    simp
  · simp only [cumulant_second]
    simp
    right
    right
    ring
  · intro t
    have he := exp_decay_hasDerivAt h.kappa t
    have h1 := (((hasDerivAt_id' t).const_mul mu).add (((he.const_sub 1).mul_const (h.theta - h.var0)).div_const (2 * h.kappa))).sub
      ((hasDerivAt_id' t).const_mul (0.5 * h.theta))
    have e : (fun t => (hestonCumulants h mu t).1) = fun t => mu * t + (1 - Real.exp (-h.kappa * t)) * (h.theta - h.var0) / (2 * h.kappa) - 0.5 * h.theta * t := by
      funext t
      unfold hestonCumulants
      simp only
      rw [show -1 * h.kappa * t = -h.kappa * t by ring]
    rw [e]
    refine h1.congr_deriv ?_
    unfold qeMean
    rw [show (0.5 : ℝ) = 1 / 2 by norm_num]
    field_simp
    ring
  · intro t
    have he := exp_decay_hasDerivAt h.kappa t
    have hl : HasDerivAt (fun t => 1 - h.kappa * t) (-h.kappa) t := by simpa using ((hasDerivAt_id' t).const_mul h.kappa).const_sub 1
    have he2 := he.pow 2
    have h1 := (((((hl.mul he).const_mul (h.vv * h.kappa * (h.var0 - h.theta) * (8 * h.kappa * h.rho - 4 * h.vv))).add
      (he.const_mul (h.kappa ^ 2 * h.rho * h.vv * (16 * h.theta - 8 * h.var0)))).add_const (2 * h.theta * h.kappa * (-4 * h.kappa * h.rho * h.vv + h.vv ^ 2))).sub
      (((he2.const_mul (h.theta - 2 * h.var0)).add (he.const_mul (2 * h.theta))).const_mul (2 * h.kappa * h.vv ^ 2))).const_mul (-(1 / (8 * h.kappa ^ 3)))
    refine h1.congr_deriv ?_
    unfold logCov qeVariance qeMean
    simp only [Nat.cast_ofNat, Nat.add_one_sub_one, pow_one]
    field_simp
    ring
  · intro t
    have he := exp_decay_hasDerivAt h.kappa t
    have he2 := he.pow 2
    have hid := hasDerivAt_id' t
    have h1 := ((((((((hid.const_mul h.vv).mul_const h.kappa).mul he).mul_const (h.var0 - h.theta)).mul_const (8 * h.kappa * h.rho - 4 * h.vv)).add
      (((he.const_sub 1).const_mul (h.kappa * h.rho * h.vv)).mul_const (16 * h.theta - 8 * h.var0))).add
      ((hid.const_mul (2 * h.theta * h.kappa)).mul_const (-4 * h.kappa * h.rho * h.vv + h.vv ^ 2 + 4 * h.kappa ^ 2))).add
      ((((he2.const_mul (h.theta - 2 * h.var0)).add (((he.const_mul 6).sub_const 7).const_mul h.theta)).add_const (2 * h.var0)).const_mul (h.vv ^ 2))).add
      ((he.const_sub 1).const_mul (8 * h.kappa ^ 2 * (h.var0 - h.theta)))
    have h2 := (h1.const_mul (1 / (8 * h.kappa ^ 3))).add (((he.const_sub 1).const_mul (h.vv ^ 2 * h.theta)).div_const (4 * h.kappa ^ 3))
    simp only [cumulant_second]
    refine h2.congr_deriv ?_
    unfold logCov qeMean
    simp only [Nat.cast_ofNat, Nat.add_one_sub_one, pow_one]
    field_simp
    ring

theorem logSpot_unique {h : Heston} (hk : h.kappa ≠ 0) {mu : ℝ} {M V C X S : ℝ → ℝ} (hm : LogSpotMoments h mu M V C X S) (t : ℝ) :
    X t = (hestonCumulants h mu t).1 ∧
    S t = (hestonCumulants h mu t).2 + h.vv ^ 2 * h.theta * (1 - Real.exp (-h.kappa * t)) / (4 * h.kappa ^ 3) := by
  have hq := logSpot_formula h hk mu
  have hMV : ∀ t, M t = qeMean h t h.var0 ∧ V t = qeVariance h t h.var0 := fun t => moments_unique hk hm.variance t
  have hC : ∀ t, C t = logCov h t := by
    intro t
    have := linear_ode_unique (f := fun t => C t - logCov h t) (c := h.kappa)
      (fun t => ((hm.covariance t).sub (hq.covariance t)).congr_deriv (by rw [(hMV t).1, (hMV t).2]; ring)) (by rw [hm.start.1, hq.start.1]; ring) t
    linarith
  constructor
  · have := linear_ode_unique (f := fun t => X t - (hestonCumulants h mu t).1) (c := 0)
      (fun t => ((hm.mean t).sub (hq.mean t)).congr_deriv (by rw [(hMV t).1]; ring)) (by rw [hm.start.2.1, hq.start.2.1]; ring) t
    linarith
  · have := linear_ode_unique (f := fun t => S t - ((hestonCumulants h mu t).2 + h.vv ^ 2 * h.theta * (1 - Real.exp (-h.kappa * t)) / (4 * h.kappa ^ 3))) (c := 0)
      (fun t => ((hm.logVariance t).sub (hq.logVariance t)).congr_deriv (by rw [(hMV t).1, hC t]; ring))
      (by rw [hm.start.2.2, hq.start.2.2]; ring) t
    linarith

/-- The truncation range is centred on the mean of the log spot. -/
theorem C80_centre (h : Heston) (hk : h.kappa ≠ 0) (mu tau L a b : ℝ) (M V C X S : ℝ → ℝ) (hm : LogSpotMoments h mu M V C X S)
    (hab : cosRange (.heston h mu tau) L = .ok (a, b)) : (a + b) / 2 = X tau := by
  rw [(logSpot_unique hk hm tau).1]
  unfold cosRange at hab
  simp only [Except.ok.injEq, Prod.mk.injEq] at hab
  rw [← hab.1, ← hab.2]
  ring

/-- Its half width is `L` times the root of a second cumulant that falls short of the variance of the log spot, by exactly the amount shown. -/
theorem C80_width (h : Heston) (hk : h.kappa ≠ 0) (mu tau L a b : ℝ) (M V C X S : ℝ → ℝ) (hm : LogSpotMoments h mu M V C X S)
    (hab : cosRange (.heston h mu tau) L = .ok (a, b)) :
    (b - a) / 2 = L * Real.sqrt |S tau - h.vv ^ 2 * h.theta * (1 - Real.exp (-h.kappa * tau)) / (4 * h.kappa ^ 3)| := by
  rw [(logSpot_unique hk hm tau).2]
  unfold cosRange at hab
  simp only [Except.ok.injEq, Prod.mk.injEq] at hab
  rw [← hab.1, ← hab.2, abs_zero, Real.sqrt_zero, add_zero]
  ring_nf

/-- Hence the range is `L` standard deviations each way only without volatility of variance (or without a long-run level). -/
theorem C80_width_partial (h : Heston) (hk : h.kappa ≠ 0) (mu tau L a b : ℝ) (M V C X S : ℝ → ℝ) (hm : LogSpotMoments h mu M V C X S)
    (hab : cosRange (.heston h mu tau) L = .ok (a, b)) (hzero : h.vv = 0 ∨ h.theta = 0) (hS : 0 ≤ S tau) : (b - a) / 2 = L * Real.sqrt (S tau) := by
  rw [C80_width h hk mu tau L a b M V C X S hm hab]
  rcases hzero with h0 | h0 <;> simp [h0, abs_of_nonneg hS]

/-- The moments exist. -/
theorem C80_moments_exist (h : Heston) (hk : h.kappa ≠ 0) (mu : ℝ) : ∃ M V C X S, LogSpotMoments h mu M V C X S :=
  ⟨_, _, _, _, _, logSpot_formula h hk mu⟩

/-- The shortfall can be total: there are models, with every parameter positive, whose range is a single point although the log spot has a
positive variance. -/
theorem C80_collapses : ∃ h : Heston, 0 < h.var0 ∧ 0 < h.vv ∧ 0 < h.kappa ∧ 0 < h.theta ∧ h.rho = 0 ∧
    ∀ mu L, (∃ a, cosRange (.heston h mu 1) L = .ok (a, a)) ∧ ∀ M V C X S, LogSpotMoments h mu M V C X S → 0 < S 1 := by
  set E := Real.exp (-1) with hE
  have hE1 : 0.367 < E ∧ E < 0.368 := by
    have h1 := Real.exp_one_gt_d9
    have h2 := Real.exp_one_lt_d9
    have h3 : E * Real.exp 1 = 1 := by rw [hE, ← Real.exp_add]; simp
    constructor <;> nlinarith
  set B := 208 - 408 * E - 200 * E ^ 2 with hB
  set A := -500 + 1008 * E + 100 * E ^ 2 with hA
  have hB0 : 0 < B := by rw [hB]; nlinarith
  have hA0 : A < 0 := by rw [hA]; nlinarith
  have hc2 : ∀ mu, (hestonCumulants ⟨-A / B, 10, 1, 1, 0⟩ mu 1).2 = 0 := by
    intro mu
    rw [cumulant_second]
    simp only [mul_one, one_pow, mul_zero, zero_mul, add_zero, zero_add]
    rw [← hE]
    have e : (10 * E * (-A / B - 1) * (0 - 4 * 10) + 2 * (-0 + 10 ^ 2 + 4) +
        10 ^ 2 * ((1 - 2 * (-A / B)) * E ^ 2 + 1 * (6 * E - 7) + 2 * (-A / B)) + 8 * (-A / B - 1) * (1 - E)) = B * (-A / B) + A := by
      rw [hA, hB]
      ring
    have e2 : B * (-A / B) + A = 0 := by field_simp; ring
    rw [e2] at e
    linarith
  refine ⟨⟨-A / B, 10, 1, 1, 0⟩, div_pos (neg_pos.2 hA0) hB0, by norm_num, by norm_num, by norm_num, rfl, ?_⟩
  intro mu L
  constructor
  · refine ⟨(hestonCumulants ⟨-A / B, 10, 1, 1, 0⟩ mu 1).1, ?_⟩
    unfold cosRange
    simp only [hc2]
    simp
  · intro M V C X S hm
    rw [(logSpot_unique (by norm_num) hm 1).2, hc2]
    simp only [mul_one, zero_add]
    rw [← hE]
    have : 0 < 1 - E := by linarith [hE1.2]
    positivity

/-- For a Brownian motion with drift the range is the mean plus or minus `L` standard deviations; the models that are only named are
refused. -/
theorem C80_brownian (mu sigma tau L : ℝ) (ht : 0 ≤ tau) :
    (∃ a b, cosRange (.gbm mu sigma tau) L = .ok (a, b) ∧ (a + b) / 2 = mu * tau ∧ (b - a) / 2 = L * (|sigma| * Real.sqrt tau)) ∧
    cosRange .other L = .error .name := by
  refine ⟨⟨_, _, rfl, by ring, ?_⟩, rfl⟩
  have e : |sigma ^ 2 * tau| = |sigma| ^ 2 * tau := by rw [abs_mul, abs_of_nonneg ht, abs_pow]
  simp only [abs_zero, Real.sqrt_zero, add_zero, e]
  rw [Real.sqrt_mul (by positivity), Real.sqrt_sq (abs_nonneg _)]
  ring

end Frm.Props
