import Verif.Model.HwScript
import Verif.Proofs.Hw1f
import Verif.Proofs.GaussianSum
import Mathlib.MeasureTheory.Integral.IntervalIntegral.FundThmCalculus

/-!
# C95: the exact simulation of the short rate in the working copies of the Hull–White model
-/

namespace Frm
namespace Props
open Classical MeasureTheory ProbabilityTheory

set_option autoImplicit false

/-! ## The specification -/

/-- The variance at `s` of the state of a Gaussian short-rate model started at `t0`. -/
noncomputable def stateVariance (vol k t0 s : ℝ) : ℝ := ∫ u in t0..s, Real.exp (-2 * k * (s - u)) * vol ^ 2

/-- The mean at `b` of the state that is zero at `a`: its drift is the variance since time zero minus `k` times the state. -/
noncomputable def stateMean (vol k a b : ℝ) : ℝ := ∫ s in a..b, Real.exp (-k * (b - s)) * stateVariance vol k 0 s

/-! ## Integrals -/

theorem script_int_exp {c : ℝ} (hc : c ≠ 0) (a b : ℝ) : ∫ s in a..b, Real.exp (c * s) = (Real.exp (c * b) - Real.exp (c * a)) / c := by
  have h : ∀ s ∈ Set.uIcc a b, HasDerivAt (fun s => Real.exp (c * s) / c) (Real.exp (c * s)) s := by
    intro s _
    have h1 : HasDerivAt (fun s : ℝ => Real.exp (c * s)) (Real.exp (c * s) * c) s := by
      have := ((hasDerivAt_id s).const_mul c).exp
      simpa using this
    have h2 := h1.div_const c
    rwa [mul_div_cancel_right₀ _ hc] at h2
  rw [intervalIntegral.integral_eq_sub_of_hasDerivAt h (by apply Continuous.intervalIntegrable; fun_prop)]
  ring

theorem stateVariance_eq {vol k : ℝ} (hk : k ≠ 0) (t0 s : ℝ) :
    stateVariance vol k t0 s = vol ^ 2 / (2 * k) * (1 - Real.exp (-2 * k * (s - t0))) := by
  unfold stateVariance
  have h : ∀ u : ℝ, Real.exp (-2 * k * (s - u)) * vol ^ 2 = (Real.exp (-2 * k * s) * vol ^ 2) * Real.exp (2 * k * u) := by
    intro u
    rw [show -2 * k * (s - u) = -2 * k * s + 2 * k * u by ring, Real.exp_add]; ring
  simp only [h]
  rw [intervalIntegral.integral_const_mul, script_int_exp (by simpa using hk : 2 * k ≠ 0)]
  have h1 : Real.exp (-2 * k * s) * Real.exp (2 * k * s) = 1 := by rw [← Real.exp_add]; simp
  have h2 : Real.exp (-2 * k * (s - t0)) = Real.exp (-2 * k * s) * Real.exp (2 * k * t0) := by rw [← Real.exp_add]; ring_nf
  rw [h2]
  linear_combination (vol ^ 2 / (2 * k)) * h1

theorem stateVariance_continuous {vol k : ℝ} (hk : k ≠ 0) (t0 : ℝ) : Continuous (stateVariance vol k t0) := by
  rw [show stateVariance vol k t0 = fun s => vol ^ 2 / (2 * k) * (1 - Real.exp (-2 * k * (s - t0))) from funext (stateVariance_eq hk t0)]
  fun_prop

theorem stateVariance_nonneg (vol k : ℝ) {t0 s : ℝ} (h : t0 ≤ s) : 0 ≤ stateVariance vol k t0 s :=
  intervalIntegral.integral_nonneg h (fun _ _ => mul_nonneg (Real.exp_nonneg _) (sq_nonneg _))

/-- The integral of the drift, in closed form. -/
theorem script_drift {vol k : ℝ} (hk : k ≠ 0) (t0 t : ℝ) :
    ∫ s in t0..t, Real.exp (k * s) * stateVariance vol k t0 s =
      (Real.exp (k * t) - Real.exp (k * t0) + Real.exp (2 * k * t0) * (Real.exp (-k * t) - Real.exp (-k * t0))) * vol ^ 2 / (2 * k * k) := by
  have h : ∀ s : ℝ, Real.exp (k * s) * stateVariance vol k t0 s =
      vol ^ 2 / (2 * k) * Real.exp (k * s) - vol ^ 2 / (2 * k) * Real.exp (2 * k * t0) * Real.exp (-k * s) := by
    intro s
    rw [stateVariance_eq hk]
    have : Real.exp (k * s) * Real.exp (-2 * k * (s - t0)) = Real.exp (2 * k * t0) * Real.exp (-k * s) := by
      rw [← Real.exp_add, ← Real.exp_add]; ring_nf
    linear_combination (-(vol ^ 2 / (2 * k))) * this
  simp only [h]
  rw [intervalIntegral.integral_sub (by apply Continuous.intervalIntegrable; fun_prop) (by apply Continuous.intervalIntegrable; fun_prop),
    intervalIntegral.integral_const_mul, intervalIntegral.integral_const_mul, script_int_exp hk, script_int_exp (neg_ne_zero.mpr hk)]
  field_simp
  ring

/-! ## The closed forms -/

/-- `variance_int` and `y_integral` are the integral their docstring names: of the squared volatility times `exp(2 k u)`. -/
theorem C95_variance_integral (t0 t vol k : ℝ) (hk : k ≠ 0) :
    scriptVarianceInt t0 t vol k = some (∫ s in t0..t, Real.exp (2 * k * s) * vol ^ 2) ∧
    scriptYIntegral t0 t vol k = some (∫ s in t0..t, vol ^ 2 * Real.exp (2 * k * s)) := by
  have h2 : 2 * k ≠ 0 := by simpa using hk
  constructor
  · unfold scriptVarianceInt
    rw [if_neg hk, intervalIntegral.integral_mul_const, script_int_exp h2]
    congr 1; ring
  · unfold scriptYIntegral
    rw [if_neg hk, intervalIntegral.integral_const_mul, script_int_exp h2]
    congr 1; ring

example : scriptVarianceInt 0 1 2 1 = some (∫ s in (0:ℝ)..1, Real.exp (2 * 1 * s) * 2 ^ 2) := (C95_variance_integral 0 1 2 1 (by norm_num)).1

/-- Without mean reversion there is no number: each of the functions is `nan`. -/
theorem C95_no_mean_reversion (t0 t vol y0 : ℝ) :
    scriptVarianceInt t0 t vol 0 = none ∧ scriptYIntegral t0 t vol 0 = none ∧ scriptY t vol 0 = none ∧ scriptExIntegral t0 t vol 0 y0 = none := by
  simp [scriptVarianceInt, scriptYIntegral, scriptY, scriptExIntegral]

/-- `y_t` is the variance of the state since time zero. -/
theorem C95_variance (t vol k : ℝ) (hk : k ≠ 0) : scriptY t vol k = some (stateVariance vol k 0 t) := by
  unfold scriptY scriptYIntegral
  rw [if_neg hk, Option.map_some, stateVariance_eq hk]
  congr 1
  have h1 : Real.exp (-2 * k * t) * Real.exp (2 * k * t) = 1 := by rw [← Real.exp_add]; simp
  simp only [mul_zero, Real.exp_zero, sub_zero]
  linear_combination (vol ^ 2 / (2 * k)) * h1

/-- `ex_integral` is the integral of the drift when the variance starts from zero at `t0`. -/
theorem C95_drift_integral (t0 t vol k : ℝ) (hk : k ≠ 0) :
    scriptExIntegral t0 t vol k 0 = some (∫ s in t0..t, Real.exp (k * s) * stateVariance vol k t0 s) := by
  unfold scriptExIntegral
  rw [if_neg hk, script_drift hk]
  simp

/-- With a variance `y0` at `t0`, `ex_integral` is the integral of the drift exactly when `y0 = 0`, `t0 = 0` or the interval is empty: it
discounts `y0` from time zero and not from `t0`. -/
theorem C95_drift_start (t0 t vol k y0 : ℝ) (hk : k ≠ 0) :
    scriptExIntegral t0 t vol k y0 =
      some (∫ s in t0..t, Real.exp (k * s) * (y0 * Real.exp (-2 * k * (s - t0)) + stateVariance vol k t0 s)) ↔ y0 = 0 ∨ t0 = 0 ∨ t = t0 := by
  have h : ∀ s : ℝ, Real.exp (k * s) * (y0 * Real.exp (-2 * k * (s - t0)) + stateVariance vol k t0 s) =
      y0 * Real.exp (2 * k * t0) * Real.exp (-k * s) + Real.exp (k * s) * stateVariance vol k t0 s := by
    intro s
    have : Real.exp (k * s) * Real.exp (-2 * k * (s - t0)) = Real.exp (2 * k * t0) * Real.exp (-k * s) := by
      rw [← Real.exp_add, ← Real.exp_add]; ring_nf
    linear_combination y0 * this
  simp only [h]
  have hc := stateVariance_continuous (vol := vol) hk t0
  rw [intervalIntegral.integral_add (by apply Continuous.intervalIntegrable; fun_prop) (by apply Continuous.intervalIntegrable; fun_prop),
    intervalIntegral.integral_const_mul, script_int_exp (neg_ne_zero.mpr hk), script_drift hk]
  unfold scriptExIntegral
  rw [if_neg hk]
  simp only [Option.some.injEq]
  constructor
  · intro he
    have h1 : y0 * ((Real.exp (2 * k * t0) - 1) * (Real.exp (-k * t0) - Real.exp (-k * t))) = 0 := by
      have h3 : y0 * ((Real.exp (2 * k * t0) - 1) * (Real.exp (-k * t0) - Real.exp (-k * t))) / k = 0 := by
        rw [div_neg] at he
        linear_combination -he
      rcases div_eq_zero_iff.mp h3 with h4 | h4
      · exact h4
      · exact absurd h4 hk
    rcases mul_eq_zero.mp h1 with h1 | h1
    · exact Or.inl h1
    · rcases mul_eq_zero.mp h1 with h1 | h1
      · right; left
        have h2 : Real.exp (2 * k * t0) = Real.exp 0 := by rw [Real.exp_zero]; linarith
        have h3 := Real.exp_injective h2
        rcases mul_eq_zero.mp h3 with h4 | h4
        · exact absurd h4 (by simpa using hk)
        · exact h4
      · right; right
        have h2 : -k * t0 = -k * t := Real.exp_injective (by linarith)
        exact (mul_left_cancel₀ (neg_ne_zero.mpr hk) h2).symm
  · rintro (rfl | rfl | rfl)
    · simp
    · simp only [mul_zero, Real.exp_zero]
      field_simp
      ring
    · simp

example : scriptExIntegral 1 2 0.1 0.5 0.3 ≠
    some (∫ s in (1:ℝ)..2, Real.exp (0.5 * s) * (0.3 * Real.exp (-2 * 0.5 * (s - 1)) + stateVariance 0.1 0.5 1 s)) := by
  rw [Ne, C95_drift_start 1 2 0.1 0.5 0.3 (by norm_num)]
  norm_num

/-- The docstring of `ex_integral` says that the variance is `y0` plus the integral of `exp(-2 (s-u))` times the squared volatility, which
does not decay: for a mean reversion of one, from time zero, that is what is computed exactly when `y0 = 0`. -/
theorem C95_docstring (t vol y0 : ℝ) (ht : 0 < t) :
    scriptExIntegral 0 t vol 1 y0 = some (∫ s in (0:ℝ)..t, Real.exp (1 * s) * (y0 + ∫ u in (0:ℝ)..s, Real.exp (-2 * (s - u)) * vol ^ 2)) ↔ y0 = 0 := by
  have h : ∀ s : ℝ, Real.exp (1 * s) * (y0 + ∫ u in (0:ℝ)..s, Real.exp (-2 * (s - u)) * vol ^ 2) =
      y0 * Real.exp (1 * s) + Real.exp (1 * s) * stateVariance vol 1 0 s := by
    intro s
    have : stateVariance vol 1 0 s = ∫ u in (0:ℝ)..s, Real.exp (-2 * (s - u)) * vol ^ 2 := by simp only [stateVariance, mul_one]
    rw [this]; ring
  simp only [h]
  have hc := stateVariance_continuous (vol := vol) one_ne_zero 0
  rw [intervalIntegral.integral_add (by apply Continuous.intervalIntegrable; fun_prop) (by apply Continuous.intervalIntegrable; fun_prop),
    intervalIntegral.integral_const_mul, script_int_exp one_ne_zero, script_drift one_ne_zero]
  unfold scriptExIntegral
  rw [if_neg one_ne_zero]
  simp only [Option.some.injEq]
  constructor
  · intro he
    have h1 : y0 * (Real.exp (1 * t) - 1 - (1 - Real.exp (-1 * t))) = 0 := by
      simp only [mul_zero, Real.exp_zero] at he
      linear_combination -he
    rcases mul_eq_zero.mp h1 with h1 | h1
    · exact h1
    · exfalso
      have h2 : Real.exp (1 * t) * Real.exp (-1 * t) = 1 := by rw [← Real.exp_add]; simp
      have h3 : 1 < Real.exp (1 * t) := by rw [one_mul]; exact Real.one_lt_exp_iff.mpr ht
      have h4 : (Real.exp (1 * t) - 1) ^ 2 = 0 := by linear_combination Real.exp (1 * t) * h1 - h2
      have h5 := pow_eq_zero_iff (two_ne_zero) |>.mp h4
      linarith
  · rintro rfl; simp

/-! ## The conditional moments -/

/-- A constant setting: the list, of one entry or one per time, holds `c` only. -/
def ConstantSetting (l : List ℝ) (n : Nat) (c : ℝ) : Prop := l = [c] ∨ l = List.replicate n c

theorem ConstantSetting.at {l : List ℝ} {n : Nat} {c : ℝ} (h : ConstantSetting l n c) {i : Nat} (hi : i < n) : bcastAt l i = c := by
  unfold bcastAt
  rcases h with rfl | rfl
  · simp
  · by_cases h1 : n = 1
    · subst h1; simp
    · rw [if_neg (by simpa using h1)]
      simp [List.getD, hi]

theorem ConstantSetting.length {l : List ℝ} {n : Nat} {c : ℝ} (h : ConstantSetting l n c) : l.length = n ∨ l.length = 1 := by
  rcases h with rfl | rfl <;> simp

theorem scriptDifferences_get {n i : Nat} (a : Nat → Option ℝ) (w : Nat → ℝ) (hi : i + 1 < n) {x y : ℝ} (hx : a i = some x) (hy : a (i + 1) = some y) :
    (scriptDifferences n a w)[i]? = some (some ((y - x) * w (i + 1))) := by
  unfold scriptDifferences
  rw [List.getElem?_map, List.getElem?_range (by omega)]
  simp [hx, hy]

theorem script_mean_step {vol k : ℝ} (hk : k ≠ 0) (a b : ℝ) :
    ((∫ s in (0:ℝ)..b, Real.exp (k * s) * stateVariance vol k 0 s) - ∫ s in (0:ℝ)..a, Real.exp (k * s) * stateVariance vol k 0 s) * Real.exp (-k * b) =
      stateMean vol k a b := by
  have hc := stateVariance_continuous (vol := vol) hk 0
  rw [intervalIntegral.integral_interval_sub_left (by apply Continuous.intervalIntegrable; fun_prop) (by apply Continuous.intervalIntegrable; fun_prop),
    ← intervalIntegral.integral_mul_const]
  unfold stateMean
  congr 1
  funext s
  rw [show -k * (b - s) = k * s + -k * b by ring, Real.exp_add]; ring

theorem script_variance_step (vol k a b : ℝ) :
    ((∫ s in (0:ℝ)..b, Real.exp (2 * k * s) * vol ^ 2) - ∫ s in (0:ℝ)..a, Real.exp (2 * k * s) * vol ^ 2) * Real.exp (-2 * k * b) =
      stateVariance vol k a b := by
  rw [intervalIntegral.integral_interval_sub_left (by apply Continuous.intervalIntegrable; fun_prop) (by apply Continuous.intervalIntegrable; fun_prop),
    ← intervalIntegral.integral_mul_const]
  unfold stateVariance
  congr 1
  funext s
  rw [show -2 * k * (b - s) = 2 * k * s + -2 * k * b by ring, Real.exp_add]; ring

/-- The conditional means: one per period, the mean at its end of the state that is zero at its start. -/
theorem C95_conditional_mean (t mr sigma : List ℝ) (vol k : ℝ) (hk : k ≠ 0) (hm : ConstantSetting mr t.length k)
    (hs : ConstantSetting sigma t.length vol) :
    ∃ l, conditionalMeanX t mr sigma = .ok l ∧ l.length = t.length - 1 ∧
      ∀ i, i + 1 < t.length → l[i]? = some (some (stateMean vol k (t.getD i 0) (t.getD (i + 1) 0))) := by
  unfold conditionalMeanX
  rw [if_neg (by rw [not_not]; exact ⟨hm.length, hs.length⟩)]
  refine ⟨_, rfl, by simp [scriptDifferences], fun i hi => ?_⟩
  rw [scriptDifferences_get _ _ hi (x := ∫ s in (0:ℝ)..(t.getD i 0), Real.exp (k * s) * stateVariance vol k 0 s)
    (y := ∫ s in (0:ℝ)..(t.getD (i + 1) 0), Real.exp (k * s) * stateVariance vol k 0 s)]
  · rw [hm.at hi, script_mean_step hk]
  · rw [hm.at (by omega), hs.at (by omega), C95_drift_integral _ _ _ _ hk]
  · rw [hm.at hi, hs.at hi, C95_drift_integral _ _ _ _ hk]

/-- The conditional variances: one per period, the variance of the state over the period; it depends on the length of the period alone. -/
theorem C95_conditional_variance (t mr sigma : List ℝ) (vol k : ℝ) (hk : k ≠ 0) (hm : ConstantSetting mr t.length k)
    (hs : ConstantSetting sigma t.length vol) :
    ∃ l, conditionalVarianceX t mr sigma = .ok l ∧ l.length = t.length - 1 ∧
      ∀ i, i + 1 < t.length → l[i]? = some (some (stateVariance vol k (t.getD i 0) (t.getD (i + 1) 0))) ∧
        stateVariance vol k (t.getD i 0) (t.getD (i + 1) 0) = stateVariance vol k 0 (t.getD (i + 1) 0 - t.getD i 0) := by
  unfold conditionalVarianceX
  rw [if_neg (by rw [not_not]; exact ⟨hm.length, hs.length⟩)]
  refine ⟨_, rfl, by simp [scriptDifferences], fun i hi => ⟨?_, ?_⟩⟩
  · rw [scriptDifferences_get _ _ hi (x := ∫ s in (0:ℝ)..(t.getD i 0), Real.exp (2 * k * s) * vol ^ 2)
      (y := ∫ s in (0:ℝ)..(t.getD (i + 1) 0), Real.exp (2 * k * s) * vol ^ 2)]
    · rw [hm.at hi, script_variance_step]
    · rw [hm.at (by omega), hs.at (by omega), (C95_variance_integral _ _ _ _ hk).1]
    · rw [hm.at hi, hs.at hi, (C95_variance_integral _ _ _ _ hk).1]
  · rw [stateVariance_eq hk, stateVariance_eq hk, sub_zero]

/-- Other shapes are refused. -/
theorem C95_shapes (t mr sigma : List ℝ) (h : (mr.length ≠ t.length ∧ mr.length ≠ 1) ∨ (sigma.length ≠ t.length ∧ sigma.length ≠ 1)) :
    conditionalMeanX t mr sigma = .error .value ∧ conditionalVarianceX t mr sigma = .error .value := by
  have h1 : ¬ scriptShapes t mr sigma := by unfold scriptShapes; tauto
  simp [conditionalMeanX, conditionalVarianceX, h1]

/-- With a volatility per time the differences are not variances: between two times, a volatility that falls fast enough makes the
"variance" negative, and the step then adds no noise at all. -/
theorem C95_falling_volatility (a b va vb k : ℝ) (hk : 0 < k) (h : vb ^ 2 * (Real.exp (2 * k * b) - 1) < va ^ 2 * (Real.exp (2 * k * a) - 1)) :
    ∃ v, conditionalVarianceX [a, b] [k] [va, vb] = .ok [some v] ∧ v < 0 ∧ ∀ x mean z dt, scriptStep k dt x mean v z = Real.exp (-k * dt) * x + mean := by
  refine ⟨(vb * vb / (2 * k) * (Real.exp (2 * k * b) - 1) - va * va / (2 * k) * (Real.exp (2 * k * a) - 1)) * Real.exp (-2 * k * b), ?_, ?_, ?_⟩
  · unfold conditionalVarianceX
    rw [if_neg (by rw [not_not]; exact ⟨Or.inr rfl, Or.inl rfl⟩)]
    simp [scriptDifferences, scriptVarianceInt, hk.ne', bcastAt, List.range_succ]
  · apply mul_neg_of_neg_of_pos _ (Real.exp_pos _)
    have : (vb * vb / (2 * k) * (Real.exp (2 * k * b) - 1) - va * va / (2 * k) * (Real.exp (2 * k * a) - 1)) =
        (vb ^ 2 * (Real.exp (2 * k * b) - 1) - va ^ 2 * (Real.exp (2 * k * a) - 1)) / (2 * k) := by ring
    rw [this]
    exact div_neg_of_neg_of_pos (by linarith) (by linarith)
  · intro x mean z dt
    unfold scriptStep
    rw [max_eq_right]
    · simp
    · apply mul_nonpos_of_nonpos_of_nonneg _ (Real.exp_nonneg _)
      have : (vb * vb / (2 * k) * (Real.exp (2 * k * b) - 1) - va * va / (2 * k) * (Real.exp (2 * k * a) - 1)) =
          (vb ^ 2 * (Real.exp (2 * k * b) - 1) - va ^ 2 * (Real.exp (2 * k * a) - 1)) / (2 * k) := by ring
      rw [this]
      exact (div_neg_of_neg_of_pos (by linarith) (by linarith)).le

/-- For example a volatility that falls to zero. -/
example : ∃ v, conditionalVarianceX [1, 2] [1] [1, 0] = .ok [some v] ∧ v < 0 := by
  obtain ⟨v, h1, h2, _⟩ := C95_falling_volatility 1 2 1 0 1 one_pos (by
    have : (1:ℝ) < Real.exp (2 * 1 * 1) := Real.one_lt_exp_iff.mpr (by norm_num)
    norm_num)
  exact ⟨v, h1, h2⟩

/-! ## The simulation -/

theorem stateMean_split {vol k : ℝ} (hk : k ≠ 0) (a b : ℝ) :
    stateMean vol k 0 b = Real.exp (-k * (b - a)) * stateMean vol k 0 a + stateMean vol k a b := by
  rw [← script_mean_step hk 0 b, ← script_mean_step hk 0 a, ← script_mean_step hk a b]
  have : Real.exp (-k * (b - a)) * Real.exp (-k * a) = Real.exp (-k * b) := by rw [← Real.exp_add]; ring_nf
  rw [intervalIntegral.integral_same]
  linear_combination -(∫ s in (0:ℝ)..a, Real.exp (k * s) * stateVariance vol k 0 s) * this

theorem stateVariance_split {vol k : ℝ} (hk : k ≠ 0) (a b : ℝ) :
    stateVariance vol k 0 b = Real.exp (-2 * k * (b - a)) * stateVariance vol k 0 a + stateVariance vol k a b := by
  rw [stateVariance_eq hk, stateVariance_eq hk, stateVariance_eq hk]
  have : Real.exp (-2 * k * (b - a)) * Real.exp (-2 * k * (a - 0)) = Real.exp (-2 * k * (b - 0)) := by rw [← Real.exp_add]; ring_nf
  linear_combination (vol ^ 2 / (2 * k)) * this

/-- The weight of a draw in the state at a later time. -/
noncomputable def drawWeight (grid : Nat → ℝ) (vol k : ℝ) (n i : Nat) : ℝ :=
  Real.exp (-k * (grid n - grid (i + 1))) * Real.sqrt (stateVariance vol k (grid i) (grid (i + 1)))

theorem drawWeight_sum {grid : Nat → ℝ} {vol k : ℝ} (hk : k ≠ 0) (h0 : grid 0 = 0) :
    ∀ n, (∀ i < n, grid i ≤ grid (i + 1)) → ∑ i ∈ Finset.range n, drawWeight grid vol k n i ^ 2 = stateVariance vol k 0 (grid n) := by
  intro n
  induction n with
  | zero => intro _; simp [h0, stateVariance]
  | succ n ih =>
    intro hm
    rw [Finset.sum_range_succ, stateVariance_split hk (grid n), ← ih (fun i hi => hm i (by omega)), Finset.mul_sum]
    congr 1
    · refine Finset.sum_congr rfl (fun i hi => ?_)
      unfold drawWeight
      rw [show -k * (grid (n + 1) - grid (i + 1)) = -k * (grid (n + 1) - grid n) + -k * (grid n - grid (i + 1)) by ring, Real.exp_add,
        show -2 * k * (grid (n + 1) - grid n) = -k * (grid (n + 1) - grid n) + -k * (grid (n + 1) - grid n) by ring, Real.exp_add]
      ring
    · unfold drawWeight
      simp only [sub_self, mul_zero, Real.exp_zero, one_mul]
      exact Real.sq_sqrt (stateVariance_nonneg _ _ (hm n (by omega)))

theorem scriptPath_eq {grid kk mean var : Nat → ℝ} {vol k : ℝ} (hk : k ≠ 0) (h0 : grid 0 = 0) (z : Nat → ℝ) :
    ∀ n, (∀ i < n, grid i ≤ grid (i + 1) ∧ kk (i + 1) = k ∧ mean i = stateMean vol k (grid i) (grid (i + 1)) ∧
        var i = stateVariance vol k (grid i) (grid (i + 1))) →
      scriptPath grid kk mean var z n = stateMean vol k 0 (grid n) + ∑ i ∈ Finset.range n, drawWeight grid vol k n i * z i := by
  intro n
  induction n with
  | zero => intro _; simp [scriptPath, h0, stateMean]
  | succ n ih =>
    intro hm
    obtain ⟨h1, h2, h3, h4⟩ := hm n (by omega)
    rw [scriptPath, ih (fun i hi => hm i (by omega)), scriptStep, h2, h3, h4, max_eq_left (stateVariance_nonneg _ _ h1), Finset.sum_range_succ,
      stateMean_split hk (grid n) (grid (n + 1)), mul_add, Finset.mul_sum]
    have h5 : ∑ i ∈ Finset.range n, Real.exp (-k * (grid (n + 1) - grid n)) * (drawWeight grid vol k n i * z i) =
        ∑ i ∈ Finset.range n, drawWeight grid vol k (n + 1) i * z i := by
      refine Finset.sum_congr rfl (fun i hi => ?_)
      unfold drawWeight
      rw [show -k * (grid (n + 1) - grid (i + 1)) = -k * (grid (n + 1) - grid n) + -k * (grid n - grid (i + 1)) by ring, Real.exp_add]
      ring
    rw [h5]
    unfold drawWeight
    simp only [sub_self, mul_zero, Real.exp_zero, one_mul]
    ring

/-- A grid of times as the script makes it: it starts at zero and does not decrease. -/
def ScriptGrid (t : List ℝ) : Prop := t.head? = some 0 ∧ ∀ i, i + 1 < t.length → t.getD i 0 ≤ t.getD (i + 1) 0

theorem script_get {l : List (Option ℝ)} {i : Nat} {x : ℝ} (h : l[i]? = some (some x)) : (l.getD i none).getD 0 = x := by
  simp [List.getD, h]

/-- The simulated state at each time of the grid: its mean, plus the draws so far with weights whose squares add up to its variance. -/
theorem C95_path (t mr sigma : List ℝ) (vol k : ℝ) (hk : k ≠ 0) (hm : ConstantSetting mr t.length k) (hs : ConstantSetting sigma t.length vol)
    (ht : ScriptGrid t) :
    ∃ w : Nat → Nat → ℝ, (∀ n < t.length, ∑ i ∈ Finset.range n, w n i ^ 2 = stateVariance vol k 0 (t.getD n 0)) ∧
      ∀ z, ∃ p, scriptSimulate t mr sigma z = .ok p ∧ p.length = t.length ∧
        ∀ n < t.length, p[n]? = some (stateMean vol k 0 (t.getD n 0) + ∑ i ∈ Finset.range n, w n i * z i) := by
  obtain ⟨ml, h1, _, h2⟩ := C95_conditional_mean t mr sigma vol k hk hm hs
  obtain ⟨vl, h3, _, h4⟩ := C95_conditional_variance t mr sigma vol k hk hm hs
  have h0 : t.getD 0 0 = 0 := by
    have := ht.1
    cases t with
    | nil => rfl
    | cons a l => simpa using this
  refine ⟨drawWeight (fun i => t.getD i 0) vol k, fun n hn => ?_, fun z => ?_⟩
  · exact drawWeight_sum hk h0 n (fun i hi => ht.2 i (by omega))
  · unfold scriptSimulate
    rw [h1, h3]
    refine ⟨_, rfl, by simp, fun n hn => ?_⟩
    rw [List.getElem?_map, List.getElem?_range hn, Option.map_some]
    congr 1
    refine scriptPath_eq (grid := fun i => t.getD i 0) hk h0 z n (fun i hi => ⟨ht.2 i (by omega), hm.at (by omega), ?_, ?_⟩)
    · exact script_get (h2 i (by omega))
    · exact script_get (h4 i (by omega)).1

/-- With independent standard normal draws, the simulated state has at each time of the grid the normal distribution of the model's state,
whatever the steps of the grid are. -/
theorem C95_law (t mr sigma : List ℝ) (vol k : ℝ) (hk : k ≠ 0) (hm : ConstantSetting mr t.length k) (hs : ConstantSetting sigma t.length vol)
    (ht : ScriptGrid t) {Ω : Type} [MeasurableSpace Ω] (P : Measure Ω) (z : Nat → Ω → ℝ)
    (hz : StandardNormals P (fun (i : Fin (t.length - 1)) => z i)) :
    ∃ x : Nat → Ω → ℝ, (∀ ω, scriptSimulate t mr sigma (fun i => z i ω) = .ok ((List.range t.length).map (fun n => x n ω))) ∧
      ∀ n < t.length, P.map (x n) = gaussianReal (stateMean vol k 0 (t.getD n 0)) (stateVariance vol k 0 (t.getD n 0)).toNNReal := by
  obtain ⟨w, h1, h2⟩ := C95_path t mr sigma vol k hk hm hs ht
  refine ⟨fun n ω => stateMean vol k 0 (t.getD n 0) + ∑ i ∈ Finset.range n, w n i * z i ω, fun ω => ?_, fun n hn => ?_⟩
  · obtain ⟨p, h3, h4, h5⟩ := h2 (fun i => z i ω)
    rw [h3]
    congr 1
    apply List.ext_getElem?
    intro n
    by_cases hn : n < t.length
    · rw [h5 n hn, List.getElem?_map, List.getElem?_range hn, Option.map_some]
    · rw [List.getElem?_eq_none (by omega), List.getElem?_eq_none (by simpa using hn)]
  · rw [hz.sum _ _ n (by omega), h1 n hn]

example : ScriptGrid [0, 0.1, 0.25, 1] ∧ ConstantSetting [0.03] 4 0.03 ∧ ConstantSetting [0.02, 0.02, 0.02, 0.02] 4 0.02 := by
  refine ⟨⟨rfl, ?_⟩, Or.inl rfl, Or.inr rfl⟩
  intro i hi
  have : i = 0 ∨ i = 1 ∨ i = 2 := by simp at hi; omega
  rcases this with rfl | rfl | rfl <;> norm_num [List.getD]

/-! ## Bonds and the option -/

/-- The bond of the script is that of `calc_discount_factor_by_solving_ode_2`, at the rate `x + f(0,t)`. -/
theorem C95_bond (m : HullWhite) (t tau x : ℝ) (ht : t ≠ 0) (htau : 0 < tau) (ha : 1e-8 ≤ m.alpha) :
    ∃ p, scriptBond m.discount t tau x m.vol m.alpha = some p ∧ hwDiscount2 m t (t + tau) (some (x + m.forward t)) = .ok p := by
  have hk : m.alpha ≠ 0 := by intro h; rw [h] at ha; norm_num at ha
  unfold scriptBond hwDiscount2 hwShortRate
  rw [C95_variance _ _ _ hk, if_neg (by simpa using htau), if_neg ht]
  refine ⟨_, rfl, ?_⟩
  simp only [hk, if_false]
  congr 1
  rw [hwB_eq ha, mul_assoc, ← Real.exp_add, stateVariance_eq hk]
  congr 2
  rw [show t + tau - t = tau by ring, sub_zero]
  field_simp
  ring

example : ∃ p, scriptBond (fun t => Real.exp (-0.01 * t)) 1 4 0.002 0.02 0.03 = some p ∧
    hwDiscount2 ⟨fun t => Real.exp (-0.01 * t), fun _ => 0.01, 0.03, 0.02, 0.01⟩ 1 (1 + 4) (some (0.002 + 0.01)) = .ok p :=
  C95_bond ⟨fun t => Real.exp (-0.01 * t), fun _ => 0.01, 0.03, 0.02, 0.01⟩ 1 4 0.002 (by norm_num) (by norm_num) (by norm_num)

/-- The average of the bond prices, over normal states with the simulated mean and variance: the forward price of the curve, times a factor
for the mean of the state. -/
theorem C95_mean_bond (discount : ℝ → ℝ) (t tau vol k : ℝ) (hk : k ≠ 0) (ht : 0 ≤ t) :
    ∫ x, (scriptBond discount t tau x vol k).getD 0 ∂(gaussianReal (stateMean vol k 0 t) (stateVariance vol k 0 t).toNNReal) =
      discount (t + tau) / discount t * Real.exp (-(stateMean vol k 0 t) * ((1 - Real.exp (-k * tau)) / k)) := by
  have h1 : ∀ x, (scriptBond discount t tau x vol k).getD 0 =
      (discount (t + tau) / discount t * Real.exp (-(0.5 * (stateVariance vol k 0 t * ((1 - Real.exp (-k * tau)) / k) ^ 2)))) *
        Real.exp (-((1 - Real.exp (-k * tau)) / k) * x) := by
    intro x
    unfold scriptBond
    rw [C95_variance _ _ _ hk]
    simp only [Option.bind_eq_bind, Option.bind_some, Option.pure_def, Option.getD_some]
    rw [mul_assoc, ← Real.exp_add]
    congr 2; ring
  simp only [h1]
  rw [integral_const_mul]
  have h2 := congrFun (mgf_id_gaussianReal (μ := stateMean vol k 0 t) (v := (stateVariance vol k 0 t).toNNReal)) (-((1 - Real.exp (-k * tau)) / k))
  simp only [mgf, id] at h2
  rw [h2, mul_assoc, ← Real.exp_add, Real.coe_toNNReal _ (stateVariance_nonneg _ _ ht)]
  congr 2; ring

/-- The discount factor of the option leaves out the first period: it is that of all periods times the growth over the first. -/
theorem C95_first_period (r d : ℝ) (rates dt : List ℝ) :
    scriptDiscount (r :: rates) (d :: dt) = Real.exp (r * d) * Real.exp (-(List.zipWith (· * ·) (r :: rates) (d :: dt)).sum) := by
  have h1 : ∀ (a b : List ℝ), (List.zipWith (fun r d => Real.exp (-r * d)) a b).prod = Real.exp (-(List.zipWith (· * ·) a b).sum) := by
    intro a
    induction a with
    | nil => intro b; simp
    | cons x a ih =>
      intro b
      cases b with
      | nil => simp
      | cons y b =>
        simp only [List.zipWith_cons_cons, List.prod_cons, List.sum_cons]
        rw [ih, ← Real.exp_add]; congr 1; ring
  unfold scriptDiscount
  rw [List.tail_cons, h1, ← Real.exp_add]
  simp only [List.zipWith_cons_cons, List.sum_cons]
  congr 1; ring

/-- So on a flat curve without volatility it is the discount factor of the time after the first period. -/
theorem C95_first_period_flat (r d : ℝ) (dt : List ℝ) :
    scriptDiscount (List.replicate (dt.length + 1) r) (d :: dt) = Real.exp (-r * dt.sum) := by
  rw [List.replicate_succ, C95_first_period, ← Real.exp_add]
  congr 1
  have : ∀ l : List ℝ, (List.zipWith (· * ·) (List.replicate l.length r) l).sum = r * l.sum := by
    intro l
    induction l with
    | nil => simp
    | cons x l ih => simp only [List.length_cons, List.replicate_succ, List.zipWith_cons_cons, List.sum_cons, ih]; ring
  simp only [List.zipWith_cons_cons, List.sum_cons, this]
  ring

/-- The payoff of a call is right, that of a put has the wrong sign. -/
theorem C95_payoff (bond strike df : ℝ) :
    scriptPayoff 1 bond strike df = max (bond - strike) 0 * df ∧ scriptPayoff (-1) bond strike df = -(max (strike - bond) 0 * df) := by
  unfold scriptPayoff
  constructor
  · simp
  · rw [show (-1 : ℝ) * (bond - strike) = strike - bond by ring]; ring

end Props
end Frm
