import Mathlib.MeasureTheory.Measure.LevyConvergence
import Mathlib.MeasureTheory.Measure.Prokhorov
import Mathlib.MeasureTheory.Group.Convolution
import Mathlib.Probability.Distributions.Gaussian.Real
import Mathlib.Analysis.SpecialFunctions.Complex.LogBounds

/-!
# Laws on the line with a given characteristic function

Functions that are characteristic functions of laws with an exponential moment, and the operations that keep them so.
-/

open MeasureTheory Filter Topology

namespace Frm.Laws

set_option autoImplicit false

/-- `χ` is the characteristic function of a law whose moment of exponential order `b` is at most `M`. -/
def HasLaw (b : ℝ) (χ : ℝ → ℂ) (M : ℝ) : Prop :=
  ∃ μ : Measure ℝ, IsProbabilityMeasure μ ∧ (∀ u, charFun μ u = χ u) ∧
    ∫⁻ x, ENNReal.ofReal (Real.exp (b * x)) ∂μ ≤ ENNReal.ofReal M

theorem expMeas (b : ℝ) : Measurable fun x : ℝ => ENNReal.ofReal (Real.exp (b * x)) := by fun_prop

theorem HasLaw.pos {b : ℝ} {χ : ℝ → ℂ} {M : ℝ} (h : HasLaw b χ M) : 0 < M := by
  obtain ⟨μ, hμ, -, hM⟩ := h
  by_contra hc
  rw [ENNReal.ofReal_of_nonpos (not_lt.mp hc), nonpos_iff_eq_zero, lintegral_eq_zero_iff (expMeas b)] at hM
  have hae : ∀ᵐ x ∂μ, False := by
    filter_upwards [hM] with x hx
    have := ENNReal.ofReal_eq_zero.mp hx
    exact absurd (Real.exp_pos (b * x)) (not_lt.mpr this)
  rw [ae_iff] at hae
  simp at hae

theorem HasLaw.mono {b : ℝ} {χ : ℝ → ℂ} {M M' : ℝ} (h : HasLaw b χ M) (hM : M ≤ M') : HasLaw b χ M' := by
  obtain ⟨μ, hμ, hc, h1⟩ := h
  exact ⟨μ, hμ, hc, h1.trans (ENNReal.ofReal_le_ofReal hM)⟩

theorem HasLaw.congr {b : ℝ} {χ χ' : ℝ → ℂ} {M : ℝ} (h : HasLaw b χ M) (he : ∀ u, χ u = χ' u) : HasLaw b χ' M := by
  rwa [show χ' = χ from funext fun u => (he u).symm]

theorem hasLaw_dirac (b c : ℝ) : HasLaw b (fun u => Complex.exp (Complex.I * u * c)) (Real.exp (b * c)) := by
  refine ⟨Measure.dirac c, inferInstance, fun u => ?_, ?_⟩
  · rw [charFun_dirac]
    congr 1
    simp only [RCLike.inner_apply, conj_trivial]
    push_cast
    ring
  · rw [lintegral_dirac' _ (expMeas b)]

theorem HasLaw.mul {b : ℝ} {χ χ' : ℝ → ℂ} {M M' : ℝ} (h : HasLaw b χ M) (h' : HasLaw b χ' M') :
    HasLaw b (fun u => χ u * χ' u) (M * M') := by
  have hp := h.pos
  obtain ⟨μ, hμ, hc, h1⟩ := h
  obtain ⟨ν, hν, hc', h1'⟩ := h'
  refine ⟨μ ∗ ν, inferInstance, fun u => by rw [charFun_conv, hc, hc'], ?_⟩
  rw [Measure.lintegral_conv (expMeas b)]
  have : ∀ x y : ℝ, ENNReal.ofReal (Real.exp (b * (x + y))) = ENNReal.ofReal (Real.exp (b * x)) * ENNReal.ofReal (Real.exp (b * y)) := by
    intro x y
    rw [← ENNReal.ofReal_mul (Real.exp_pos _).le, ← Real.exp_add, mul_add]
  simp only [this]
  simp_rw [lintegral_const_mul _ (expMeas b)]
  rw [lintegral_mul_const _ (expMeas b), ENNReal.ofReal_mul hp.le]
  exact mul_le_mul' h1 h1'

theorem hasLaw_one (b : ℝ) : HasLaw b (fun _ => 1) 1 := by
  have := hasLaw_dirac b 0
  simpa using this

theorem HasLaw.pow {b : ℝ} {χ : ℝ → ℂ} {M : ℝ} (h : HasLaw b χ M) (n : Nat) : HasLaw b (fun u => χ u ^ n) (M ^ n) := by
  induction n with
  | zero => simpa using hasLaw_one b
  | succ n ih =>
    have := ih.mul h
    simpa only [pow_succ] using this

/-- The law that is `0` with probability `1 - p`. -/
theorem HasLaw.mix {b : ℝ} {χ : ℝ → ℂ} {M p : ℝ} (h : HasLaw b χ M) (h0 : 0 ≤ p) (h1 : p ≤ 1) :
    HasLaw b (fun u => 1 + p * (χ u - 1)) (1 + p * (M - 1)) := by
  have hM := h.pos
  obtain ⟨μ, hμ, hc, hb⟩ := h
  have hq : 0 ≤ 1 - p := by linarith
  have hpr : IsProbabilityMeasure (ENNReal.ofReal (1 - p) • Measure.dirac (0 : ℝ) + ENNReal.ofReal p • μ) := by
    constructor
    simp only [Measure.coe_add, Measure.coe_smul, Pi.add_apply, Pi.smul_apply, measure_univ, smul_eq_mul, mul_one]
    rw [← ENNReal.ofReal_add hq h0]
    simp
  refine ⟨ENNReal.ofReal (1 - p) • Measure.dirac (0 : ℝ) + ENNReal.ofReal p • μ, hpr, fun u => ?_, ?_⟩
  · have hi : ∀ ν : Measure ℝ, IsProbabilityMeasure ν → Integrable (fun x : ℝ => Complex.exp (inner ℝ x u * Complex.I)) ν := by
      intro ν hν
      refine Integrable.of_bound (C := 1) (by fun_prop) (Eventually.of_forall fun x => ?_)
      rw [Complex.norm_exp_ofReal_mul_I]
    rw [charFun_apply, integral_add_measure ((hi _ inferInstance).smul_measure ENNReal.ofReal_ne_top)
      ((hi μ hμ).smul_measure ENNReal.ofReal_ne_top), integral_smul_measure, integral_smul_measure, ← charFun_apply,
      ← charFun_apply, hc, charFun_dirac, ENNReal.toReal_ofReal hq, ENNReal.toReal_ofReal h0]
    simp only [inner_zero_left, Complex.ofReal_zero, zero_mul, Complex.exp_zero, Complex.real_smul]
    push_cast
    ring
  · rw [lintegral_add_measure, lintegral_smul_measure, lintegral_smul_measure, lintegral_dirac' _ (expMeas b)]
    simp only [mul_zero, Real.exp_zero, ENNReal.ofReal_one, smul_eq_mul, mul_one]
    calc ENNReal.ofReal (1 - p) + ENNReal.ofReal p * ∫⁻ x, ENNReal.ofReal (Real.exp (b * x)) ∂μ
        ≤ ENNReal.ofReal (1 - p) + ENNReal.ofReal p * ENNReal.ofReal M := by gcongr
      _ = ENNReal.ofReal (1 + p * (M - 1)) := by
        rw [← ENNReal.ofReal_mul h0, ← ENNReal.ofReal_add hq (mul_nonneg h0 hM.le)]
        congr 1
        ring

/-- Characteristic functions that converge to a function continuous at zero: the limit is a characteristic function, and moments do not grow. -/
theorem HasLaw.lim {b : ℝ} {χ : ℕ → ℝ → ℂ} {M : ℕ → ℝ} {f : ℝ → ℂ} {L : ℝ} (h : ∀ n, HasLaw b (χ n) (M n)) (hf : ContinuousAt f 0)
    (hc : ∀ u, Tendsto (fun n => χ n u) atTop (𝓝 (f u))) (hM : Tendsto M atTop (𝓝 L)) : HasLaw b f L := by
  choose μ hμ hch hb using h
  have hch' : ∀ u, Tendsto (fun n => charFun (μ n) u) atTop (𝓝 (f u)) := by
    intro u
    simp only [hch]
    exact hc u
  have ht := isTightMeasureSet_of_tendsto_charFun hf hch'
  let ν : ℕ → ProbabilityMeasure ℝ := fun n => ⟨μ n, hμ n⟩
  have hK : IsCompact (closure (Set.range ν)) := by
    apply isCompact_closure_of_isTightMeasureSet
    convert ht using 1
    ext m
    simp only [Set.mem_ofPred_eq, Set.mem_range, exists_exists_eq_and]
    rfl
  obtain ⟨U, hU⟩ : ∃ U : Ultrafilter ℕ, (U : Filter ℕ) ≤ atTop := Ultrafilter.exists_le _
  obtain ⟨ν₀, -, hν₀⟩ := isCompact_iff_ultrafilter_le_nhds.mp hK (U.map ν) (by
    rw [le_principal_iff, Ultrafilter.mem_coe, Ultrafilter.mem_map]
    exact Filter.univ_mem' fun n => subset_closure ⟨n, rfl⟩)
  have hlim : Tendsto ν U (𝓝 ν₀) := hν₀
  refine ⟨ν₀, inferInstance, fun u => ?_, ?_⟩
  · have h1 := (ProbabilityMeasure.tendsto_iff_forall_integral_rclike_tendsto ℂ).mp hlim (BoundedContinuousFunction.innerProbChar u)
    simp_rw [← charFun_eq_integral_innerProbChar] at h1
    exact tendsto_nhds_unique h1 ((hch' u).mono_left hU)
  · -- each truncation is bounded
    have htr : ∀ k : ℕ, ∫⁻ x, ENNReal.ofReal (min (Real.exp (b * x)) k) ∂(ν₀ : Measure ℝ) ≤ ENNReal.ofReal L := by
      intro k
      have hr : ∀ x : ℝ, ((min (Real.exp (b * x)) k).toNNReal : ℝ) = min (Real.exp (b * x)) k := fun x =>
        Real.coe_toNNReal _ (le_min (Real.exp_pos _).le (Nat.cast_nonneg k))
      let g : BoundedContinuousFunction ℝ NNReal := BoundedContinuousFunction.mkOfBound
        ⟨fun x => (min (Real.exp (b * x)) k).toNNReal, by fun_prop⟩ k (by
          intro x y
          rw [NNReal.dist_eq]
          simp only [ContinuousMap.coe_mk, hr]
          have h1 : 0 ≤ min (Real.exp (b * x)) (k : ℝ) := le_min (Real.exp_pos _).le (Nat.cast_nonneg k)
          have h2 : 0 ≤ min (Real.exp (b * y)) (k : ℝ) := le_min (Real.exp_pos _).le (Nat.cast_nonneg k)
          have h3 := min_le_right (Real.exp (b * x)) (k : ℝ)
          have h4 := min_le_right (Real.exp (b * y)) (k : ℝ)
          rw [abs_le]
          constructor <;> linarith)
      have h2 := (ProbabilityMeasure.tendsto_iff_forall_lintegral_tendsto.mp hlim) g
      have hM' : Tendsto (fun n => ENNReal.ofReal (M n)) U (𝓝 (ENNReal.ofReal L)) :=
        (ENNReal.continuous_ofReal.tendsto L).comp (hM.mono_left hU)
      refine le_of_tendsto_of_tendsto' h2 hM' fun n => ?_
      refine le_trans (lintegral_mono fun x => ?_) (hb n)
      exact ENNReal.ofReal_le_ofReal (min_le_left _ _)
    have hsup : ∀ x : ℝ, ENNReal.ofReal (Real.exp (b * x)) = ⨆ k : ℕ, ENNReal.ofReal (min (Real.exp (b * x)) k) := by
      intro x
      apply le_antisymm
      · obtain ⟨k, hk⟩ := exists_nat_ge (Real.exp (b * x))
        refine le_trans ?_ (le_iSup _ k)
        rw [min_eq_left hk]
      · exact iSup_le fun k => ENNReal.ofReal_le_ofReal (min_le_left _ _)
    simp only [hsup]
    rw [lintegral_iSup]
    · exact iSup_le htr
    · intro k; fun_prop
    · intro k l hkl x
      exact ENNReal.ofReal_le_ofReal (min_le_min_left _ (by exact_mod_cast hkl))

/-- Every non-negative multiple of `f` is the exponent of a characteristic function, of a law whose moment of exponential order `b` is at
most the exponential of the same multiple of `m`. -/
def Exponent (b : ℝ) (f : ℝ → ℂ) (m : ℝ) : Prop :=
  ContinuousAt f 0 ∧ ∀ s : ℝ, 0 ≤ s → HasLaw b (fun u => Complex.exp (s * f u)) (Real.exp (s * m))

namespace Exponent

variable {b : ℝ} {f g : ℝ → ℂ} {m k : ℝ}

theorem add (hf : Exponent b f m) (hg : Exponent b g k) : Exponent b (fun u => f u + g u) (m + k) := by
  refine ⟨hf.1.add hg.1, fun s hs => ?_⟩
  have := (hf.2 s hs).mul (hg.2 s hs)
  simpa only [← Complex.exp_add, ← Real.exp_add, ← mul_add] using this

theorem smul (hf : Exponent b f m) {c : ℝ} (hc : 0 ≤ c) : Exponent b (fun u => c * f u) (c * m) := by
  refine ⟨hf.1.const_mul _, fun s hs => ?_⟩
  have := hf.2 (s * c) (mul_nonneg hs hc)
  simpa only [Complex.ofReal_mul, mul_assoc] using this

theorem mono (hf : Exponent b f m) (h : m ≤ k) : Exponent b f k :=
  ⟨hf.1, fun s hs => (hf.2 s hs).mono (Real.exp_le_exp.mpr (mul_le_mul_of_nonneg_left h hs))⟩

theorem lim {F : ℕ → ℝ → ℂ} {K : ℕ → ℝ} (h : ∀ n, Exponent b (F n) (K n)) (hf : ContinuousAt f 0)
    (hc : ∀ u, Tendsto (fun n => F n u) atTop (𝓝 (f u))) (hK : Tendsto K atTop (𝓝 m)) : Exponent b f m := by
  refine ⟨hf, fun s hs => ?_⟩
  refine HasLaw.lim (fun n => (h n).2 s hs) ?_ (fun u => ?_) ?_
  · exact (hf.const_mul _).cexp
  · exact ((hc u).const_mul _).cexp
  · exact (Real.continuous_exp.tendsto _).comp (hK.const_mul s)

theorem drift (b c : ℝ) : Exponent b (fun u => Complex.I * u * c) (b * c) := by
  refine ⟨by fun_prop, fun s _ => ?_⟩
  have := hasLaw_dirac b (s * c)
  refine (this.congr fun u => ?_).mono (by rw [show b * (s * c) = s * (b * c) by ring])
  congr 1
  push_cast
  ring

theorem zero (b : ℝ) : Exponent b (fun _ => 0) 0 := by simpa using drift b 0

theorem gauss (b : ℝ) {a : ℝ} (ha : 0 ≤ a) : Exponent b (fun u => -(a / 2) * (u : ℂ) ^ 2) (a / 2 * b ^ 2) := by
  refine ⟨by fun_prop, fun s hs => ?_⟩
  have hsa : 0 ≤ s * a := mul_nonneg hs ha
  refine ⟨ProbabilityTheory.gaussianReal 0 (s * a).toNNReal, inferInstance, fun u => ?_, ?_⟩
  · rw [ProbabilityTheory.charFun_gaussianReal]
    congr 1
    rw [Real.coe_toNNReal _ hsa]
    push_cast
    ring
  · have hi := ProbabilityTheory.integrable_exp_mul_gaussianReal (μ := 0) (v := (s * a).toNNReal) b
    rw [← ofReal_integral_eq_lintegral_ofReal hi (Eventually.of_forall fun x => (Real.exp_pos _).le)]
    apply ENNReal.ofReal_le_ofReal
    have h1 := ProbabilityTheory.mgf_gaussianReal (p := ProbabilityTheory.gaussianReal 0 (s * a).toNNReal) (X := id) (μ := 0) (v := (s * a).toNNReal)
      (by simp) b
    unfold ProbabilityTheory.mgf at h1
    simp only [id] at h1
    rw [h1, Real.coe_toNNReal _ hsa]
    apply Real.exp_le_exp.mpr
    apply le_of_eq
    ring

/-- Compound Poisson laws. -/
theorem poisson (hf : Exponent b f m) {e : ℝ} (he : 0 < e) :
    Exponent b (fun u => (Complex.exp (e * f u) - 1) / e) ((Real.exp (e * m) - 1) / e) := by
  have hcont : ContinuousAt (fun u => (Complex.exp (e * f u) - 1) / e) 0 := ((hf.1.const_mul _).cexp.sub continuousAt_const).div_const _
  refine ⟨hcont, fun s hs => ?_⟩
  have hl := hf.2 e he.le
  obtain ⟨N, hN⟩ := exists_nat_ge (s / e)
  have hse : 0 ≤ s / e := div_nonneg hs he.le
  refine HasLaw.lim (χ := fun n u => (1 + ((s / e / ((n + N + 1 : ℕ) : ℝ) : ℝ) : ℂ) * (Complex.exp (e * f u) - 1)) ^ (n + N + 1))
    (M := fun n => (1 + s / e / ((n + N + 1 : ℕ) : ℝ) * (Real.exp (e * m) - 1)) ^ (n + N + 1)) (fun n => ?_) ?_ (fun u => ?_) ?_
  · have hn : (0 : ℝ) < ((n + N + 1 : ℕ) : ℝ) := by positivity
    apply HasLaw.pow
    apply hl.mix (div_nonneg hse hn.le)
    rw [div_le_one hn]
    push_cast
    have : (0 : ℝ) ≤ n := Nat.cast_nonneg n
    linarith
  · exact (hcont.const_mul _).cexp
  · have h1 := (Complex.tendsto_one_add_div_pow_exp ((s / e : ℝ) * (Complex.exp (e * f u) - 1))).comp (tendsto_add_atTop_nat (N + 1))
    have e1 : Complex.exp (s * ((Complex.exp (e * f u) - 1) / e)) = Complex.exp ((s / e : ℝ) * (Complex.exp (e * f u) - 1)) := by
      congr 1
      push_cast
      ring
    rw [e1]
    refine h1.congr fun n => ?_
    simp only [Function.comp]
    rw [← add_assoc]
    congr 2
    push_cast
    ring
  · have h1 := (Real.tendsto_one_add_div_pow_exp ((s / e) * (Real.exp (e * m) - 1))).comp (tendsto_add_atTop_nat (N + 1))
    have e1 : s * ((Real.exp (e * m) - 1) / e) = (s / e) * (Real.exp (e * m) - 1) := by ring
    rw [e1]
    refine h1.congr fun n => ?_
    simp only [Function.comp]
    rw [← add_assoc]
    congr 2
    push_cast
    ring

theorem re_nonpos (hf : Exponent b f m) (u : ℝ) : (f u).re ≤ 0 := by
  obtain ⟨μ, hμ, hc, -⟩ := hf.2 1 zero_le_one
  have h1 := norm_charFun_le_one (μ := μ) u
  simp only [hc, Complex.ofReal_one, one_mul] at h1
  rw [Complex.norm_exp, Real.exp_le_one_iff] at h1
  exact h1

end Exponent
end Frm.Laws
