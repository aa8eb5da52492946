import Verif.Proofs.GaussianSum
import Verif.Props.C59
import Verif.Props.C60
import Verif.Props.C72
import Verif.Props.C75
import Verif.Props.C95
import Mathlib.Analysis.Convex.Deriv

/-!
# C96: the distributions of simulated paths
-/

namespace Frm
namespace Spec
open MeasureTheory ProbabilityTheory

set_option autoImplicit false

/-- A random generator, `gen ω` being the generator of one run: for every seed and shape the numbers are independent standard normal. -/
def NormalGenerator {Ω : Type} [MeasurableSpace Ω] (P : Measure Ω) (gen : Ω → Generator) : Prop :=
  ∀ seed steps vars sims, StandardNormals P
    (fun (q : Fin steps × Fin vars × Fin sims) ω => gen ω seed steps vars sims q.1 q.2.1 q.2.2)

/-- The draws of one path of one variable are independent standard normal. -/
def NormalColumn {Ω : Type} [MeasurableSpace Ω] (P : Measure Ω) (z : Ω → Cube) (n v s : Nat) : Prop :=
  StandardNormals P (fun (i : Fin n) ω => (z ω).get i v s)

end Spec
end Frm

namespace Frm.Props
open Classical MeasureTheory ProbabilityTheory

set_option autoImplicit false

open Frm Frm.Spec

section
variable {Ω : Type} [MeasurableSpace Ω] {P : Measure Ω}

theorem normalGenerator_column {gen : Ω → Generator} (h : NormalGenerator P gen) {seed steps vars sims v s : Nat} (hv : v < vars) (hs : s < sims) :
    StandardNormals P (fun (i : Fin steps) ω => gen ω seed steps vars sims i v s) :=
  (h seed steps vars sims).precomp (g := fun i : Fin steps => (i, (⟨v, hv⟩ : Fin vars), (⟨s, hs⟩ : Fin sims)))
    (fun i j hij => by simpa using hij)

/-! ## The draws -/

/-- `generate_rand_nbs`: whether it succeeds does not depend on the draws, and each path of each variable is made of independent standard
normal numbers, also when the draws are antithetic (and their number odd). -/
theorem C96_draws (gen : Ω → Generator) (hg : NormalGenerator P gen) (steps vars sims : Nat) (anti : Bool) (seed : Nat) (h1 : 1 ≤ steps)
    (h2 : 1 ≤ vars) (h3 : 1 ≤ sims) (h4 : anti = true → 2 ≤ sims) (hmax : steps * sims ≤ 100000000) :
    ∃ z : Ω → Cube, (∀ ω, generateRandNbs (gen ω) steps vars sims anti seed = .ok (z ω) ∧ (z ω).steps = steps ∧ (z ω).vars = vars ∧
        (z ω).sims = if anti then 2 * (sims / 2) else sims) ∧
      ∀ v < vars, ∀ s < (if anti then 2 * (sims / 2) else sims), NormalColumn P z steps v s := by
  cases anti with
  | false =>
    refine ⟨fun ω => ⟨steps, vars, sims, gen ω seed steps vars sims⟩, fun ω => ⟨C57_plain (gen ω) steps vars sims seed h1 h2 h3 hmax, rfl, rfl, rfl⟩, ?_⟩
    intro v hv s hs
    exact normalGenerator_column hg hv (by simpa using hs)
  | true =>
    refine ⟨_, fun ω => ⟨anti_ok (gen ω) steps vars sims seed h1 h2 (h4 rfl) hmax, rfl, rfl, rfl⟩, ?_⟩
    intro v hv s hs
    simp only [if_true] at hs
    unfold NormalColumn
    simp only [concatSims]
    by_cases hc : pairIndex (sims / 2) s < sims - sims / 2
    · simp only [hc, if_true]
      exact normalGenerator_column hg hv hc
    · simp only [hc, if_false]
      refine (normalGenerator_column hg hv (s := pairIndex (sims / 2) s - (sims - sims / 2)) ?_).neg
      have : pairIndex (sims / 2) s < 2 * (sims / 2) := by unfold pairIndex; split_ifs <;> omega
      omega

/-! ## Geometric Brownian motion -/

theorem getD_nonneg {dt : List ℝ} (hpos : ∀ d ∈ dt, 0 ≤ d) (i : Nat) : 0 ≤ dt.getD i 0 := by
  unfold List.getD
  cases h : dt[i]? with
  | none => simp
  | some d => exact hpos d (List.mem_of_getElem? h)

/-- The logarithm of the price is normal: its mean is that of the initial price plus the drifts less half the variance, and its variance is
the sum of the variances of the steps. -/
theorem C96_gbm_law (initial drift vol : Grid) (dt : List ℝ) (z : Ω → Cube) (n : Nat) (hdt : dt.length = n)
    (hz : ∀ ω, (z ω).steps = n ∧ (z ω).vars = 1) (hi : initial.rows = 1 ∧ initial.cols = 1) (hd : drift.rows = 1 ∧ drift.cols = n)
    (hw : vol.rows = 1 ∧ vol.cols = n) (h0 : 0 < initial.get 0 0) (hpos : ∀ d ∈ dt, 0 ≤ d) (s : Nat) (hs : NormalColumn P z n 0 s) :
    ∃ (x : Ω → NanCube) (S : Nat → Ω → ℝ), (∀ ω, simulateGbm initial drift vol dt (z ω) = .ok (x ω)) ∧
      (∀ t ω, (x ω).get t 0 s = some (S t ω) ∧ 0 < S t ω) ∧ ∀ t ≤ n, P.map (fun ω => Real.log (S t ω)) =
        gaussianReal (Real.log (initial.get 0 0) + ∑ i ∈ Finset.range t, (drift.get 0 i - vol.get 0 i ^ 2 / 2) * dt.getD i 0)
          (∑ i ∈ Finset.range t, vol.get 0 i ^ 2 * dt.getD i 0).toNNReal := by
  choose x hx using fun ω => C59_one_partial initial drift vol dt (z ω) n hdt (hz ω).1 (hz ω).2 hi hd hw
  choose S hS using fun (t : Nat) (ω : Ω) => (hx ω).2.2.2.2.2.2 t s (fun i _ => getD_nonneg hpos i)
  refine ⟨x, S, fun ω => (hx ω).1, fun t ω => ⟨(hS t ω).1, ((hS t ω).2.2 h0).1⟩, fun t ht => ?_⟩
  have h1 := StandardNormals.sum (z := fun i ω => (z ω).get i 0 s) hs
    (Real.log (initial.get 0 0) + ∑ i ∈ Finset.range t, (drift.get 0 i - vol.get 0 i ^ 2 / 2) * dt.getD i 0)
    (fun i => vol.get 0 i * Real.sqrt (dt.getD i 0)) t ht
  have h2 : ∀ i, 0 ≤ dt.getD i 0 := by
    exact getD_nonneg hpos
  have h3 : ∑ i ∈ Finset.range t, (vol.get 0 i * Real.sqrt (dt.getD i 0)) ^ 2 = ∑ i ∈ Finset.range t, vol.get 0 i ^ 2 * dt.getD i 0 :=
    Finset.sum_congr rfl (fun i _ => by rw [mul_pow, Real.sq_sqrt (h2 i)])
  rw [h3] at h1
  rw [← h1]
  congr 1
  funext ω
  rw [((hS t ω).2.2 h0).2, add_assoc, ← Finset.sum_add_distrib]
  rfl

/-- The mean of an exponential of a normal variable. -/
theorem normal_exp_mean {X : Ω → ℝ} {m v : ℝ} (hv : 0 ≤ v) (hX : P.map X = gaussianReal m v.toNNReal) :
    ∫ ω, Real.exp (X ω) ∂P = Real.exp (m + v / 2) := by
  have hm : AEMeasurable X P := by
    apply AEMeasurable.of_map_ne_zero; rw [hX]; exact NeZero.ne _
  have h1 : ∫ ω, Real.exp (X ω) ∂P = ∫ x, Real.exp x ∂(P.map X) :=
    (integral_map hm (by fun_prop)).symm
  rw [h1, hX]
  have h2 := congrFun (mgf_id_gaussianReal (μ := m) (v := v.toNNReal)) 1
  simp only [mgf, id, one_mul, mul_one, one_pow] at h2
  rw [h2, Real.coe_toNNReal _ hv]

/-- So the mean of the price grows at the drift: with drift `r - rf` the simulated price is, on average, the forward. -/
theorem C96_gbm_mean (initial drift vol : Grid) (dt : List ℝ) (z : Ω → Cube) (n : Nat) (hdt : dt.length = n)
    (hz : ∀ ω, (z ω).steps = n ∧ (z ω).vars = 1) (hi : initial.rows = 1 ∧ initial.cols = 1) (hd : drift.rows = 1 ∧ drift.cols = n)
    (hw : vol.rows = 1 ∧ vol.cols = n) (h0 : 0 < initial.get 0 0) (hpos : ∀ d ∈ dt, 0 ≤ d) (s : Nat) (hs : NormalColumn P z n 0 s) :
    ∃ (x : Ω → NanCube) (S : Nat → Ω → ℝ), (∀ ω, simulateGbm initial drift vol dt (z ω) = .ok (x ω)) ∧
      (∀ t ω, (x ω).get t 0 s = some (S t ω)) ∧ ∀ t ≤ n, ∫ ω, S t ω ∂P = initial.get 0 0 * Real.exp (∑ i ∈ Finset.range t, drift.get 0 i * dt.getD i 0) := by
  obtain ⟨x, S, hx, hS, hl⟩ := C96_gbm_law initial drift vol dt z n hdt hz hi hd hw h0 hpos s hs
  refine ⟨x, S, hx, fun t ω => (hS t ω).1, fun t ht => ?_⟩
  have h2 : ∀ i, 0 ≤ dt.getD i 0 := by
    exact getD_nonneg hpos
  have h3 := normal_exp_mean (Finset.sum_nonneg (fun i _ => mul_nonneg (sq_nonneg (vol.get 0 i)) (h2 i))) (hl t ht)
  have h4 : ∀ ω, Real.exp (Real.log (S t ω)) = S t ω := fun ω => Real.exp_log (hS t ω).2
  simp only [h4] at h3
  rw [h3, add_assoc, Real.exp_add, Real.exp_log h0]
  congr 2
  rw [Finset.sum_div, ← Finset.sum_add_distrib]
  exact Finset.sum_congr rfl (fun i _ => by ring)

/-- The mean of a function of a normal variable, through the standard normal variable. -/
theorem normal_mean {X : Ω → ℝ} {m sd : ℝ} (hX : P.map X = gaussianReal m (sd ^ 2).toNNReal) (f : ℝ → ℝ) (hf : Measurable f) :
    ∫ ω, f (X ω) ∂P = normalMean (fun y => f (m + sd * y)) := by
  have hm : AEMeasurable X P := by
    apply AEMeasurable.of_map_ne_zero; rw [hX]; exact NeZero.ne _
  have h1 : ∫ ω, f (X ω) ∂P = ∫ x, f x ∂(P.map X) := (integral_map hm hf.aestronglyMeasurable).symm
  have h2 : gaussianReal m (sd ^ 2).toNNReal = (gaussianReal 0 1).map (fun y => m + sd * y) := by
    have := StandardNormals.sum_finset (exists_standardNormals Unit) m (fun _ => sd) Finset.univ
    simp only [Finset.univ_unique, Finset.sum_singleton] at this
    have h3 := (exists_standardNormals Unit).normal default
    rw [← this]
    conv_rhs => rw [← h3]
    rw [Measure.map_map (by fun_prop) ((exists_standardNormals Unit).measurable default)]
    rfl
  unfold normalMean
  rw [h1, hX, h2, integral_map (by fun_prop) hf.aestronglyMeasurable]

/-- The discounted mean of an option's payoff over simulated paths with constant drift `r - rf` and volatility is the Garman–Kohlhagen
price, whatever the steps of the simulation. -/
theorem C96_gbm_option (rows : List GkRow) (out : List GkValue) (hout : garmanKohlhagenPrice rows = .ok out) (j : Nat) (o : GkRow)
    (ho : rows[j]? = some o) (hK : 0 < o.K) (hv : 0 < o.vol) (htau : 0 < o.tau) (r : ℝ) (hr : DomesticRate o r)
    (initial drift vol : Grid) (dt : List ℝ) (z : Ω → Cube) (n : Nat) (hdt : dt.length = n)
    (hz : ∀ ω, (z ω).steps = n ∧ (z ω).vars = 1) (hi : initial.rows = 1 ∧ initial.cols = 1) (hd : drift.rows = 1 ∧ drift.cols = n)
    (hw : vol.rows = 1 ∧ vol.cols = n) (h0 : 0 < initial.get 0 0) (hpos : ∀ d ∈ dt, 0 ≤ d) (s : Nat) (hs : NormalColumn P z n 0 s)
    (hS : initial.get 0 0 = o.S0) (hmu : ∀ i < n, drift.get 0 i = r - o.rf) (hvol : ∀ i < n, vol.get 0 i = o.vol) (hsum : dt.sum = o.tau) :
    ∃ (v : GkValue) (x : Ω → NanCube) (S : Ω → ℝ), out[j]? = some v ∧ (∀ ω, simulateGbm initial drift vol dt (z ω) = .ok (x ω)) ∧
      (∀ ω, (x ω).get n 0 s = some (S ω)) ∧ v.price = some (Real.exp (-r * o.tau) * ∫ ω, optionPayoff o.cp o.K (S ω) ∂P) := by
  obtain ⟨v, hv1, hv2⟩ := C72_garman_kohlhagen rows out hout j o ho hK hv htau r hr
  obtain ⟨x, S, hx, hxS, hl⟩ := C96_gbm_law initial drift vol dt z n hdt hz hi hd hw h0 hpos s hs
  refine ⟨v, x, S n, hv1, hx, fun ω => (hxS n ω).1, ?_⟩
  rw [hv2]
  congr 2
  have hsum' : ∑ i ∈ Finset.range n, dt.getD i 0 = o.tau := by
    rw [← hsum, ← hdt]
    clear hx hl hz hs hd hw hmu hvol hsum hdt hpos
    induction dt with
    | nil => simp
    | cons a l ih =>
      rw [List.length_cons, Finset.sum_range_succ']
      simp only [List.getD_cons_succ, List.getD_cons_zero, ih, List.sum_cons]; ring
  have e1 : ∑ i ∈ Finset.range n, (drift.get 0 i - vol.get 0 i ^ 2 / 2) * dt.getD i 0 = (r - o.rf - o.vol ^ 2 / 2) * o.tau := by
    rw [← hsum', Finset.mul_sum]
    exact Finset.sum_congr rfl (fun i hi => by rw [hmu i (Finset.mem_range.mp hi), hvol i (Finset.mem_range.mp hi)])
  have e2 : ∑ i ∈ Finset.range n, vol.get 0 i ^ 2 * dt.getD i 0 = (o.vol * Real.sqrt o.tau) ^ 2 := by
    rw [mul_pow, Real.sq_sqrt htau.le, ← hsum', Finset.mul_sum]
    exact Finset.sum_congr rfl (fun i hi => by rw [hvol i (Finset.mem_range.mp hi)])
  have hl' := hl n (le_refl n)
  rw [e1, e2] at hl'
  have h4 : ∀ ω, S n ω = Real.exp (Real.log (S n ω)) := fun ω => (Real.exp_log (hxS n ω).2).symm
  have h5 : ∫ ω, optionPayoff o.cp o.K (S n ω) ∂P = ∫ ω, optionPayoff o.cp o.K (Real.exp (Real.log (S n ω))) ∂P := by
    congr 1; funext ω; rw [← h4 ω]
  rw [h5, normal_mean hl' (fun y => optionPayoff o.cp o.K (Real.exp y)) (by unfold optionPayoff; fun_prop)]
  congr 1
  funext y
  unfold lognormalSpot
  congr 1
  rw [← hS, Real.exp_add, Real.exp_add, Real.exp_add, Real.exp_log h0]
  ring

/-! ## Hull–White -/

/-- The Euler scheme: the rate is normal.  Its variance is that of a sum of shocks which decay by the factor `1 - alpha dt` a step. -/
theorem C96_euler_law (gen : Ω → Generator) (m : HullWhite) (tau : ℝ) (steps sims : Int) (anti : Bool) (seed : Nat)
    (x : Ω → HwSimulation) (hx : ∀ ω, hwSimulate (gen ω) m tau steps sims anti seed .euler = .ok (x ω))
    (ht : 0 ≤ tau) (z : Ω → Cube) (hz : ∀ ω, generateRandNbs (gen ω) steps 1 sims anti seed = .ok (z ω)) (s : Nat)
    (hs : NormalColumn P z steps.toNat 0 s) :
    ∃ mean : Nat → ℝ, mean 0 = m.r0 ∧
      (∀ k < steps.toNat, mean (k + 1) = mean k + (flatDrift m (k * (tau / steps)) - m.alpha * mean k) * (tau / steps)) ∧
      ∀ k ≤ steps.toNat, P.map (fun ω => (x ω).rate k s) =
        gaussianReal (mean k) (∑ j ∈ Finset.range k, m.vol ^ 2 * (tau / steps) * (1 - m.alpha * (tau / steps)) ^ (2 * j)).toNNReal := by
  refine ⟨affineMean (fun _ => 1 - m.alpha * (tau / steps)) (fun i => flatDrift m (i * (tau / steps)) * (tau / steps)) m.r0, rfl,
    fun k _ => by rw [affineMean]; ring, fun k hk => ?_⟩
  have hr : ∀ ω, ∀ k, (x ω).rate k s =
      hwPath .euler m.alpha m.vol m.r0 (tau / steps) (fun i => flatDrift m (i * (tau / steps))) (fun i => (z ω).get i 0 s) k ∧ 1 ≤ steps := by
    intro ω k
    obtain ⟨z', hz', -, h1, -, -, hxe⟩ := hwSimulate_ok (hx ω)
    rw [hz ω] at hz'
    cases hz'
    rw [hxe]
    exact ⟨rfl, h1⟩
  rw [affine_law (z := fun i ω => (z ω).get i 0 s) hs (fun _ => 1 - m.alpha * (tau / steps))
    (fun i => flatDrift m (i * (tau / steps)) * (tau / steps)) (fun _ => m.vol * Real.sqrt (tau / steps)) m.r0 (fun k ω => (x ω).rate k s)
    (fun ω => (hr ω 0).1) (fun i _ ω => by rw [(hr ω (i + 1)).1, (hr ω i).1, hwPath, hwStep]; ring) k hk]
  congr 2
  have hP : Nonempty Ω := by
    have : IsProbabilityMeasure P := hs.indep.isProbabilityMeasure
    exact P.nonempty_of_neZero
  have hs1 : (0:ℝ) ≤ tau / steps := by
    obtain ⟨ω⟩ := hP
    have : (1 : ℝ) ≤ steps := by exact_mod_cast (hr ω 0).2
    exact div_nonneg ht (by linarith)
  clear hk
  induction k with
  | zero => simp [affineVar]
  | succ k ih =>
    rw [affineVar, ih, Finset.sum_range_succ', Finset.mul_sum, mul_pow, Real.sq_sqrt hs1]
    simp only [mul_zero, pow_zero, mul_one]
    congr 1
    exact Finset.sum_congr rfl (fun i _ => by rw [show 2 * (i + 1) = 2 + 2 * i by ring, pow_add]; ring)

/-- The mean at `t` of the rate of the model with the drift of a flat curve. -/
noncomputable def flatMean (m : HullWhite) (t : ℝ) : ℝ := m.r0 + m.vol ^ 2 / (2 * m.alpha ^ 2) * (1 - Real.exp (-m.alpha * t)) ^ 2

theorem flatMean_hasDerivAt {m : HullWhite} (ha : m.alpha ≠ 0) (t : ℝ) : HasDerivAt (flatMean m) (flatDrift m t - m.alpha * flatMean m t) t := by
  have h1 : HasDerivAt (fun t : ℝ => Real.exp (-m.alpha * t)) (Real.exp (-m.alpha * t) * -m.alpha) t := by
    have := ((hasDerivAt_id t).const_mul (-m.alpha)).exp
    simpa using this
  have h2 := (((h1.const_sub 1).pow 2).const_mul (m.vol ^ 2 / (2 * m.alpha ^ 2))).const_add m.r0
  have e : Real.exp (-2 * m.alpha * t) = Real.exp (-m.alpha * t) ^ 2 := by rw [← Real.exp_nat_mul]; congr 1; push_cast; ring
  refine h2.congr_deriv ?_
  unfold flatDrift flatMean
  rw [e]
  generalize Real.exp (-m.alpha * t) = E
  field_simp
  push_cast
  ring

/-- The mean of the model over one period. -/
theorem flatMean_step {m : HullWhite} (ha : m.alpha ≠ 0) (a b : ℝ) :
    flatMean m b = flatMean m a * Real.exp (-m.alpha * (b - a)) + ∫ s in a..b, flatDrift m s * Real.exp (-m.alpha * (b - s)) := by
  have h1 : ∀ s ∈ Set.uIcc a b, HasDerivAt (fun s => flatMean m s * Real.exp (-m.alpha * (b - s)))
      (flatDrift m s * Real.exp (-m.alpha * (b - s))) s := by
    intro s _
    have h2 : HasDerivAt (fun s : ℝ => Real.exp (-m.alpha * (b - s))) (Real.exp (-m.alpha * (b - s)) * m.alpha) s := by
      have := (((hasDerivAt_id s).const_sub b).const_mul (-m.alpha)).exp
      simpa using this
    refine ((flatMean_hasDerivAt ha s).mul h2).congr_deriv ?_
    ring
  rw [intervalIntegral.integral_eq_sub_of_hasDerivAt h1 (by
    apply Continuous.intervalIntegrable; unfold flatDrift; fun_prop)]
  simp

/-- The drift is concave with bounded curvature: it lies above its chords, by at most `alpha vol² d² / 4`. -/
theorem flatDrift_chord {m : HullWhite} (ha : 0 < m.alpha) {a d s : ℝ} (h0 : 0 ≤ a) (hd : 0 < d) (hs : s ∈ Set.Icc a (a + d)) :
    0 ≤ flatDrift m s - (flatDrift m a + (flatDrift m (a + d) - flatDrift m a) * ((s - a) / d)) ∧
    flatDrift m s - (flatDrift m a + (flatDrift m (a + d) - flatDrift m a) * ((s - a) / d)) ≤ m.alpha * m.vol ^ 2 * d ^ 2 / 4 := by
  set l := (s - a) / d with hl
  have hl0 : 0 ≤ l := div_nonneg (by linarith [hs.1]) hd.le
  have hl1 : l ≤ 1 := (div_le_one hd).mpr (by linarith [hs.2])
  have hse : s = (1 - l) * a + l * (a + d) := by rw [hl]; field_simp; ring
  have hE : ∀ t, HasDerivAt (fun t : ℝ => Real.exp (-2 * m.alpha * t)) (-2 * m.alpha * Real.exp (-2 * m.alpha * t)) t := by
    intro t
    have := ((hasDerivAt_id t).const_mul (-2 * m.alpha)).exp
    refine (this.congr_deriv ?_)
    simp; ring
  have hconv : ConvexOn ℝ Set.univ (fun t : ℝ => Real.exp (-2 * m.alpha * t)) := by
    have := convexOn_exp.comp_linearMap (LinearMap.lsmul ℝ ℝ (-2 * m.alpha))
    simpa [Function.comp_def] using this
  have hc := m.vol ^ 2 / (2 * m.alpha)
  have hcpos : 0 ≤ m.vol ^ 2 / (2 * m.alpha) := div_nonneg (sq_nonneg _) (by linarith)
  constructor
  · have h1 := hconv.2 (Set.mem_univ a) (Set.mem_univ (a + d)) (by linarith : (0:ℝ) ≤ 1 - l) hl0 (by ring)
    simp only [smul_eq_mul] at h1
    rw [← hse] at h1
    unfold flatDrift
    nlinarith [mul_nonneg hcpos (sub_nonneg.mpr h1)]
  · have hg : ConvexOn ℝ (Set.Ici 0) (fun t : ℝ => 2 * m.alpha ^ 2 * t ^ 2 - Real.exp (-2 * m.alpha * t)) := by
      have d1 : ∀ t : ℝ, HasDerivAt (fun t : ℝ => 2 * m.alpha ^ 2 * t ^ 2 - Real.exp (-2 * m.alpha * t))
          (4 * m.alpha ^ 2 * t + 2 * m.alpha * Real.exp (-2 * m.alpha * t)) t := by
        intro t
        refine (((hasDerivAt_pow 2 t).const_mul (2 * m.alpha ^ 2)).sub (hE t)).congr_deriv ?_
        push_cast; ring
      have d2 : ∀ t : ℝ, HasDerivAt (fun t : ℝ => 4 * m.alpha ^ 2 * t + 2 * m.alpha * Real.exp (-2 * m.alpha * t))
          (4 * m.alpha ^ 2 * (1 - Real.exp (-2 * m.alpha * t))) t := by
        intro t
        refine (((hasDerivAt_id t).const_mul (4 * m.alpha ^ 2)).add ((hE t).const_mul (2 * m.alpha))).congr_deriv ?_
        simp; ring
      refine convexOn_of_hasDerivWithinAt2_nonneg (convex_Ici 0) (fun t _ => (d1 t).continuousAt.continuousWithinAt)
        (fun t _ => (d1 t).hasDerivWithinAt) (fun t _ => (d2 t).hasDerivWithinAt) ?_
      intro t ht
      rw [interior_Ici] at ht
      have : Real.exp (-2 * m.alpha * t) ≤ 1 := Real.exp_le_one_iff.2 (by nlinarith [ht.out])
      have := sq_nonneg m.alpha
      nlinarith
    have h1 := hg.2 (Set.mem_Ici.mpr h0) (Set.mem_Ici.mpr (by linarith : (0:ℝ) ≤ a + d)) (by linarith : (0:ℝ) ≤ 1 - l) hl0 (by ring)
    simp only [smul_eq_mul] at h1
    rw [← hse] at h1
    have h2 : ((1 - l) * a ^ 2 + l * (a + d) ^ 2) - s ^ 2 = l * (1 - l) * d ^ 2 := by rw [hse]; ring
    have h3 : l * (1 - l) ≤ 1 / 4 := by nlinarith [sq_nonneg (l - 1 / 2)]
    have h4 : (1 - l) * Real.exp (-2 * m.alpha * a) + l * Real.exp (-2 * m.alpha * (a + d)) - Real.exp (-2 * m.alpha * s) ≤
        2 * m.alpha ^ 2 * (l * (1 - l) * d ^ 2) := by
      rw [← h2]; nlinarith
    have h5 : 2 * m.alpha ^ 2 * (l * (1 - l) * d ^ 2) ≤ m.alpha ^ 2 * d ^ 2 / 2 := by
      have : 0 ≤ m.alpha ^ 2 * d ^ 2 := by positivity
      nlinarith
    have h6 := mul_le_mul_of_nonneg_left (h4.trans h5) hcpos
    have h7 : m.vol ^ 2 / (2 * m.alpha) * (m.alpha ^ 2 * d ^ 2 / 2) = m.alpha * m.vol ^ 2 * d ^ 2 / 4 := by field_simp; ring
    rw [h7] at h6
    unfold flatDrift
    nlinarith

/-- The exact scheme: the rate is normal with exactly the variance of the model, and a mean at most `vol² dt² / 4` below that of the model
with the drift of a flat curve (the drift is interpolated linearly over a step). -/
theorem C96_exact_law (gen : Ω → Generator) (m : HullWhite) (ha : 0 < m.alpha) (tau : ℝ) (steps sims : Int) (anti : Bool) (seed : Nat)
    (x : Ω → HwSimulation) (hx : ∀ ω, hwSimulate (gen ω) m tau steps sims anti seed .exact = .ok (x ω))
    (ht : 0 < tau) (z : Ω → Cube) (hz : ∀ ω, generateRandNbs (gen ω) steps 1 sims anti seed = .ok (z ω)) (s : Nat)
    (hs : NormalColumn P z steps.toNat 0 s) :
    ∀ k ≤ steps.toNat, ∃ mean, P.map (fun ω => (x ω).rate k s) =
        gaussianReal mean (∫ u in (0:ℝ)..(k * (tau / steps)), m.vol ^ 2 * Real.exp (-2 * m.alpha * (k * (tau / steps) - u))).toNNReal ∧
      mean ≤ flatMean m (k * (tau / steps)) ∧ flatMean m (k * (tau / steps)) ≤ mean + m.vol ^ 2 * (tau / steps) ^ 2 / 4 := by
  have hr : ∀ ω, ∀ k, (x ω).rate k s =
      hwPath .exact m.alpha m.vol m.r0 (tau / steps) (fun i => flatDrift m (i * (tau / steps))) (fun i => (z ω).get i 0 s) k ∧ 1 ≤ steps := by
    intro ω k
    obtain ⟨z', hz', -, h1, -, -, hxe⟩ := hwSimulate_ok (hx ω)
    rw [hz ω] at hz'
    cases hz'
    rw [hxe]
    exact ⟨rfl, h1⟩
  have hP : Nonempty Ω := by
    have : IsProbabilityMeasure P := hs.indep.isProbabilityMeasure
    exact P.nonempty_of_neZero
  have hd : (0:ℝ) < tau / steps := by
    obtain ⟨ω⟩ := hP
    have : (1 : ℝ) ≤ steps := by exact_mod_cast (hr ω 0).2
    exact div_pos ht (by linarith)
  generalize tau / (steps : ℝ) = d at hr hd ⊢
  have hvar : 0 ≤ m.vol ^ 2 / (2 * m.alpha) * (1 - Real.exp (-2 * m.alpha * d)) := by
    apply mul_nonneg (by positivity)
    have : Real.exp (-2 * m.alpha * d) ≤ 1 := Real.exp_le_one_iff.2 (by nlinarith)
    linarith
  intro k hk
  refine ⟨affineMean (fun _ => Real.exp (-m.alpha * d)) (fun i => ∫ u in (i * d)..((i + 1) * d), (flatDrift m (i * d) +
      (flatDrift m (((i + 1 : Nat) : ℝ) * d) - flatDrift m (i * d)) * ((u - i * d) / d)) * Real.exp (-m.alpha * ((i + 1) * d - u))) m.r0 k, ?_, ?_⟩
  · rw [affine_law (z := fun i ω => (z ω).get i 0 s) hs (fun _ => Real.exp (-m.alpha * d))
      (fun i => ∫ u in (i * d)..((i + 1) * d), (flatDrift m (i * d) +
        (flatDrift m (((i + 1 : Nat) : ℝ) * d) - flatDrift m (i * d)) * ((u - i * d) / d)) * Real.exp (-m.alpha * ((i + 1) * d - u)))
      (fun _ => Real.sqrt ((m.vol ^ 2 / (2 * m.alpha)) * (1 - Real.exp (-2 * m.alpha * d)))) m.r0 (fun k ω => (x ω).rate k s)
      (fun ω => (hr ω 0).1) (fun i _ ω => by rw [(hr ω (i + 1)).1, (hr ω i).1, hwPath, hwStep]; ring) k hk]
    congr 2
    have e : ∀ k : Nat, (∫ u in (0:ℝ)..(k * d), m.vol ^ 2 * Real.exp (-2 * m.alpha * (k * d - u))) =
        m.vol ^ 2 / (2 * m.alpha) * (1 - Real.exp (-2 * m.alpha * (k * d))) := by
      intro k
      have := stateVariance_eq (vol := m.vol) ha.ne' 0 (k * d)
      unfold stateVariance at this
      rw [sub_zero] at this
      rw [← this]
      congr 1; funext u; ring
    rw [e]
    clear hk e
    induction k with
    | zero => simp [affineVar]
    | succ k ih =>
      rw [affineVar, ih, Real.sq_sqrt hvar, ← Real.exp_nat_mul,
        show ((2 : Nat) : ℝ) * (-m.alpha * d) = -2 * m.alpha * d by push_cast; ring,
        show -2 * m.alpha * (((k + 1 : Nat) : ℝ) * d) = -2 * m.alpha * d + -2 * m.alpha * (k * d) by push_cast; ring, Real.exp_add]
      ring
  · clear hk
    -- the difference of the means, with the factor the bound needs for the induction
    suffices hmain : 0 ≤ flatMean m (k * d) - affineMean (fun _ => Real.exp (-m.alpha * d)) (fun i => ∫ u in (i * d)..((i + 1) * d),
        (flatDrift m (i * d) + (flatDrift m (((i + 1 : Nat) : ℝ) * d) - flatDrift m (i * d)) * ((u - i * d) / d)) *
          Real.exp (-m.alpha * ((i + 1) * d - u))) m.r0 k ∧
        flatMean m (k * d) - affineMean (fun _ => Real.exp (-m.alpha * d)) (fun i => ∫ u in (i * d)..((i + 1) * d),
        (flatDrift m (i * d) + (flatDrift m (((i + 1 : Nat) : ℝ) * d) - flatDrift m (i * d)) * ((u - i * d) / d)) *
          Real.exp (-m.alpha * ((i + 1) * d - u))) m.r0 k ≤ m.vol ^ 2 * d ^ 2 / 4 * (1 - Real.exp (-m.alpha * (k * d))) by
      refine ⟨by linarith [hmain.1], ?_⟩
      have h1 : m.vol ^ 2 * d ^ 2 / 4 * (1 - Real.exp (-m.alpha * (k * d))) ≤ m.vol ^ 2 * d ^ 2 / 4 := by
        have h2 : 0 ≤ m.vol ^ 2 * d ^ 2 / 4 := by positivity
        nlinarith [Real.exp_pos (-m.alpha * (k * d))]
      linarith [hmain.2]
    induction k with
    | zero => simp [affineMean, flatMean]
    | succ k ih =>
      rw [affineMean]
      generalize affineMean (fun _ => Real.exp (-m.alpha * d)) (fun i : Nat => ∫ u in (i * d)..((i + 1) * d),
        (flatDrift m (i * d) + (flatDrift m (((i + 1 : Nat) : ℝ) * d) - flatDrift m (i * d)) * ((u - i * d) / d)) *
          Real.exp (-m.alpha * ((i + 1) * d - u))) m.r0 k = mk at ih ⊢
      have ek : (((k + 1 : Nat) : ℝ)) * d = (k : ℝ) * d + d := by push_cast; ring
      have ek2 : ((k : ℝ) + 1) * d = (k : ℝ) * d + d := by ring
      rw [ek, ek2, flatMean_step ha.ne' (k * d) (k * d + d), show (k : ℝ) * d + d - k * d = d by ring]
      have hkd : 0 ≤ (k : ℝ) * d := by positivity
      generalize (k : ℝ) * d = a at ih hkd ⊢
      have hcont : Continuous (fun s => flatDrift m s * Real.exp (-m.alpha * (a + d - s))) := by unfold flatDrift; fun_prop
      have hcont2 : Continuous (fun u => (flatDrift m a + (flatDrift m (a + d) - flatDrift m a) * ((u - a) / d)) *
          Real.exp (-m.alpha * (a + d - u))) := by fun_prop
      have hdiff : (∫ s in a..(a + d), flatDrift m s * Real.exp (-m.alpha * (a + d - s))) -
          (∫ u in a..(a + d), (flatDrift m a + (flatDrift m (a + d) - flatDrift m a) * ((u - a) / d)) * Real.exp (-m.alpha * (a + d - u))) =
          ∫ s in a..(a + d), (flatDrift m s - (flatDrift m a + (flatDrift m (a + d) - flatDrift m a) * ((s - a) / d))) *
            Real.exp (-m.alpha * (a + d - s)) := by
        rw [← intervalIntegral.integral_sub (hcont.intervalIntegrable _ _) (hcont2.intervalIntegrable _ _)]
        congr 1; funext s; ring
      have hlow : 0 ≤ ∫ s in a..(a + d), (flatDrift m s - (flatDrift m a + (flatDrift m (a + d) - flatDrift m a) * ((s - a) / d))) *
            Real.exp (-m.alpha * (a + d - s)) :=
        intervalIntegral.integral_nonneg (by linarith) (fun s hs => mul_nonneg (flatDrift_chord ha hkd hd hs).1 (Real.exp_nonneg _))
      have hupp : (∫ s in a..(a + d), (flatDrift m s - (flatDrift m a + (flatDrift m (a + d) - flatDrift m a) * ((s - a) / d))) *
            Real.exp (-m.alpha * (a + d - s))) ≤ ∫ s in a..(a + d), m.alpha * m.vol ^ 2 * d ^ 2 / 4 * Real.exp (-m.alpha * (a + d - s)) := by
        apply intervalIntegral.integral_mono_on (by linarith)
        · apply Continuous.intervalIntegrable; unfold flatDrift; fun_prop
        · apply Continuous.intervalIntegrable; fun_prop
        · intro s hs
          exact mul_le_mul_of_nonneg_right (flatDrift_chord ha hkd hd hs).2 (Real.exp_nonneg _)
      have hint : (∫ s in a..(a + d), m.alpha * m.vol ^ 2 * d ^ 2 / 4 * Real.exp (-m.alpha * (a + d - s))) =
          m.vol ^ 2 * d ^ 2 / 4 * (1 - Real.exp (-m.alpha * d)) := by
        have h1 : ∀ s : ℝ, m.alpha * m.vol ^ 2 * d ^ 2 / 4 * Real.exp (-m.alpha * (a + d - s)) =
            (m.alpha * m.vol ^ 2 * d ^ 2 / 4 * Real.exp (-m.alpha * (a + d))) * Real.exp (m.alpha * s) := by
          intro s
          rw [show -m.alpha * (a + d - s) = -m.alpha * (a + d) + m.alpha * s by ring, Real.exp_add]; ring
        simp only [h1]
        rw [intervalIntegral.integral_const_mul, script_int_exp ha.ne']
        have h2 : Real.exp (-m.alpha * (a + d)) * Real.exp (m.alpha * (a + d)) = 1 := by rw [← Real.exp_add]; simp
        have h3 : Real.exp (-m.alpha * (a + d)) * Real.exp (m.alpha * a) = Real.exp (-m.alpha * d) := by rw [← Real.exp_add]; ring_nf
        have h4 : m.alpha * m.vol ^ 2 * d ^ 2 / 4 * Real.exp (-m.alpha * (a + d)) * ((Real.exp (m.alpha * (a + d)) - Real.exp (m.alpha * a)) / m.alpha) =
            m.vol ^ 2 * d ^ 2 / 4 * (Real.exp (-m.alpha * (a + d)) * Real.exp (m.alpha * (a + d)) - Real.exp (-m.alpha * (a + d)) * Real.exp (m.alpha * a)) := by
          field_simp
        rw [h4, h2, h3]
      rw [← hdiff] at hlow hupp
      rw [hint] at hupp
      have hE : Real.exp (-m.alpha * (a + d)) = Real.exp (-m.alpha * d) * Real.exp (-m.alpha * a) := by rw [← Real.exp_add]; ring_nf
      rw [hE]
      have hEp := Real.exp_pos (-m.alpha * d)
      constructor
      · nlinarith [mul_nonneg hEp.le ih.1]
      · nlinarith [mul_le_mul_of_nonneg_left ih.2 hEp.le]

/-! ## Clewlow–Strickland -/

/-- The simulated spot is lognormal; its mean is the forward times a bias that is none without mean reversion. -/
theorem C96_clewlow (gen : Ω → Generator) (hg : NormalGenerator P gen) (forward : Nat → ℝ) (sims segments horizon : Nat) (a sigma : ℝ)
    (hn : 1 ≤ sims) (hs : 1 ≤ segments) (hT : 1 ≤ horizon) (hmax : horizon * segments ≤ 100000000) (hF : ∀ i, 0 < forward i) :
    ∃ r : Ω → Grid, (∀ ω, csSimulate (gen ω) forward sims segments horizon a sigma = .ok (r ω)) ∧
      ∀ t ≤ horizon, ∀ c < sims,
        P.map (fun ω => Real.log ((r ω).get t c)) =
          gaussianReal (Real.log (forward (t * segments)) - sigma ^ 2 / 4 * (1 / segments) * ∑ i ∈ Finset.range (t * segments),
              (1 - a * (1 / segments)) ^ (t * segments - 1 - i) * (1 + Real.exp (-(2 * a * (i * (1 / segments))))))
            (sigma ^ 2 * (1 / segments) * ∑ i ∈ Finset.range (t * segments), (1 - a * (1 / segments)) ^ (2 * (t * segments - 1 - i))).toNNReal ∧
        ∫ ω, (r ω).get t c ∂P = forward (t * segments) * Real.exp (sigma ^ 2 / 4 * (1 / segments) * ∑ i ∈ Finset.range (t * segments),
          (2 * (1 - a * (1 / segments)) ^ (2 * (t * segments - 1 - i)) -
            (1 - a * (1 / segments)) ^ (t * segments - 1 - i) * (1 + Real.exp (-(2 * a * (i * (1 / segments))))))) := by
  choose r h1 h2 h3 h4 h5 h6 using fun ω => C60_columns (gen ω) forward sims segments horizon a sigma hn hs hT hmax
  refine ⟨r, h1, fun t ht c hc => ?_⟩
  have hb : 1 ≤ batchSize sims (horizon * segments) := by
    have hP : Nonempty Ω := by
      have h0 := hg 0 1 1 1
      have : IsProbabilityMeasure P := h0.indep.isProbabilityMeasure
      exact P.nonempty_of_neZero
    obtain ⟨ω⟩ := hP
    exact h4 ω
  choose x hx hv using fun ω => h6 ω c hc
  have hcol := normalGenerator_column hg (seed := c / batchSize sims (horizon * segments)) (steps := horizon * segments) (vars := 1)
    (sims := batchSize sims (horizon * segments)) (v := 0) (s := c % batchSize sims (horizon * segments)) (by omega) (Nat.mod_lt _ (by omega))
  have hdt : (0:ℝ) ≤ 1 / segments := by positivity
  have hlaw := affine_law (z := fun i ω => gen ω (c / batchSize sims (horizon * segments)) (horizon * segments) 1
      (batchSize sims (horizon * segments)) i 0 (c % batchSize sims (horizon * segments))) hcol
    (fun _ => 1 - a * (1 / segments))
    (fun i => Real.log (forward (i + 1)) - Real.log (forward i) + a * Real.log (forward i) * (1 / segments) -
      sigma ^ 2 / 4 * (1 + Real.exp (-(2 * a * (i * (1 / segments))))) * (1 / segments))
    (fun _ => sigma * Real.sqrt (1 / segments)) (Real.log (forward 0)) (fun i ω => x ω i) (fun ω => (hx ω).1)
    (fun i hi ω => by have := (hx ω).2 i hi; linarith) (t * segments) (Nat.mul_le_mul_right _ ht)
  have hmean : ∀ n : Nat, affineMean (fun _ => 1 - a * (1 / segments))
      (fun i => Real.log (forward (i + 1)) - Real.log (forward i) + a * Real.log (forward i) * (1 / segments) -
      sigma ^ 2 / 4 * (1 + Real.exp (-(2 * a * (i * (1 / segments))))) * (1 / segments)) (Real.log (forward 0)) n =
      Real.log (forward n) - sigma ^ 2 / 4 * (1 / segments) * ∑ i ∈ Finset.range n,
              (1 - a * (1 / segments)) ^ (n - 1 - i) * (1 + Real.exp (-(2 * a * (i * (1 / segments))))) := by
    intro n
    induction n with
    | zero => simp [affineMean]
    | succ n ih =>
      rw [affineMean, ih, Finset.sum_range_succ, Nat.add_sub_cancel, Nat.sub_self, pow_zero]
      have : ∑ i ∈ Finset.range n, (1 - a * (1 / (segments : ℝ))) ^ (n - i) * (1 + Real.exp (-(2 * a * (i * (1 / segments))))) =
          (1 - a * (1 / segments)) * ∑ i ∈ Finset.range n, (1 - a * (1 / (segments : ℝ))) ^ (n - 1 - i) * (1 + Real.exp (-(2 * a * (i * (1 / segments))))) := by
        rw [Finset.mul_sum]
        refine Finset.sum_congr rfl (fun i hi => ?_)
        have := Finset.mem_range.mp hi
        rw [show n - i = (n - 1 - i) + 1 by omega, pow_succ]; ring
      rw [this]
      ring
  have hvar : ∀ n : Nat, affineVar (fun _ => 1 - a * (1 / (segments : ℝ))) (fun _ => sigma * Real.sqrt (1 / segments)) n =
      sigma ^ 2 * (1 / segments) * ∑ i ∈ Finset.range n, (1 - a * (1 / segments)) ^ (2 * (n - 1 - i)) := by
    intro n
    induction n with
    | zero => simp [affineVar]
    | succ n ih =>
      rw [affineVar, ih, Finset.sum_range_succ, Nat.add_sub_cancel, Nat.sub_self, mul_zero, pow_zero, mul_pow, Real.sq_sqrt hdt]
      have : ∑ i ∈ Finset.range n, (1 - a * (1 / (segments : ℝ))) ^ (2 * (n - i)) =
          (1 - a * (1 / segments)) ^ 2 * ∑ i ∈ Finset.range n, (1 - a * (1 / (segments : ℝ))) ^ (2 * (n - 1 - i)) := by
        rw [Finset.mul_sum]
        refine Finset.sum_congr rfl (fun i hi => ?_)
        have := Finset.mem_range.mp hi
        rw [show 2 * (n - i) = 2 * (n - 1 - i) + 2 by omega, pow_add]; ring
      rw [this]
      ring
  rw [hmean, hvar] at hlaw
  have hval : ∀ ω, (r ω).get t c = Real.exp (x ω (t * segments)) := fun ω => hv ω t ht
  simp only [hval, Real.log_exp]
  refine ⟨hlaw, ?_⟩
  have hvnn : 0 ≤ sigma ^ 2 * (1 / (segments : ℝ)) * ∑ i ∈ Finset.range (t * segments), (1 - a * (1 / (segments : ℝ))) ^ (2 * (t * segments - 1 - i)) := by
    apply mul_nonneg (by positivity)
    exact Finset.sum_nonneg (fun i _ => by rw [pow_mul]; positivity)
  rw [normal_exp_mean hvnn hlaw, show ∀ A B C : ℝ, A - B + C = A + (C - B) from fun A B C => by ring, Real.exp_add, Real.exp_log (hF _)]
  congr 2
  rw [Finset.mul_sum, Finset.mul_sum, Finset.mul_sum, Finset.sum_div, ← Finset.sum_sub_distrib]
  exact Finset.sum_congr rfl (fun i _ => by ring)

/-- Without mean reversion the mean of the simulated spot is the forward curve. -/
theorem C96_clewlow_forward (gen : Ω → Generator) (hg : NormalGenerator P gen) (forward : Nat → ℝ) (sims segments horizon : Nat) (sigma : ℝ)
    (hn : 1 ≤ sims) (hs : 1 ≤ segments) (hT : 1 ≤ horizon) (hmax : horizon * segments ≤ 100000000) (hF : ∀ i, 0 < forward i) :
    ∃ r : Ω → Grid, (∀ ω, csSimulate (gen ω) forward sims segments horizon 0 sigma = .ok (r ω)) ∧
      ∀ t ≤ horizon, ∀ c < sims, ∫ ω, (r ω).get t c ∂P = forward (t * segments) := by
  obtain ⟨r, h1, h2⟩ := C96_clewlow gen hg forward sims segments horizon 0 sigma hn hs hT hmax hF
  refine ⟨r, h1, fun t ht c hc => ?_⟩
  rw [(h2 t ht c hc).2]
  norm_num

end

/-- There are such generators: on the product of normal distributions, one coordinate for each seed, shape and position. -/
theorem exists_normalGenerator : ∃ (Ω : Type) (_ : MeasurableSpace Ω) (P : Measure Ω) (gen : Ω → Generator), NormalGenerator P gen :=
  ⟨Nat × Nat × Nat × Nat × Nat × Nat × Nat → ℝ, inferInstance, Measure.infinitePi (fun _ => gaussianReal 0 1), fun ω seed steps vars sims i v s => ω (seed, steps, vars, sims, i, v, s),
    fun seed steps vars sims => (exists_standardNormals (Nat × Nat × Nat × Nat × Nat × Nat × Nat)).precomp
      (g := fun q : Fin steps × Fin vars × Fin sims => (seed, steps, vars, sims, q.1.val, q.2.1.val, q.2.2.val))
      (fun p q h => by
        simp only [Prod.mk.injEq, true_and] at h
        exact Prod.ext (Fin.ext h.1) (Prod.ext (Fin.ext h.2.1) (Fin.ext h.2.2)))⟩

/-- Two steps of a price of 1.2: its mean after both is the forward. -/
example {Ω : Type} [MeasurableSpace Ω] (P : Measure Ω) (gen : Ω → Generator) (hg : NormalGenerator P gen) (z : Ω → Cube)
    (hz : ∀ ω, generateRandNbs (gen ω) 2 1 4 true 7 = .ok (z ω)) :
    ∃ (x : Ω → NanCube) (S : Ω → ℝ),
      (∀ ω, simulateGbm ⟨1, 1, fun _ _ => 1.2⟩ ⟨1, 2, fun _ _ => 0.03⟩ ⟨1, 2, fun _ _ => 0.1⟩ [0.5, 0.25] (z ω) = .ok (x ω)) ∧
      (∀ ω, (x ω).get 2 0 3 = some (S ω)) ∧ ∫ ω, S ω ∂P = 1.2 * Real.exp (0.03 * 0.75) := by
  obtain ⟨z', h1, h2⟩ := C96_draws gen hg 2 1 4 true 7 (by norm_num) (by norm_num) (by norm_num) (fun _ => by norm_num) (by norm_num)
  have he : z = z' := by
    funext ω
    exact Except.ok.inj ((hz ω).symm.trans (h1 ω).1)
  subst he
  obtain ⟨x, S, hx, hS, hm⟩ := C96_gbm_mean (P := P) ⟨1, 1, fun _ _ => 1.2⟩ ⟨1, 2, fun _ _ => 0.03⟩ ⟨1, 2, fun _ _ => 0.1⟩ [0.5, 0.25] z 2 rfl
    (fun ω => ⟨(h1 ω).2.1, (h1 ω).2.2.1⟩) ⟨rfl, rfl⟩ ⟨rfl, rfl⟩ ⟨rfl, rfl⟩ (by norm_num) (by norm_num) 3 (h2 0 (by norm_num) 3 (by norm_num))
  refine ⟨x, S 2, hx, hS 2, ?_⟩
  rw [hm 2 (le_refl 2)]
  norm_num [Finset.sum_range_succ]

/-- The exact scheme on four antithetic paths of twelve steps. -/
example {Ω : Type} [MeasurableSpace Ω] (P : Measure Ω) (gen : Ω → Generator) (hg : NormalGenerator P gen) :
    ∃ x : Ω → HwSimulation, (∀ ω, hwSimulate (gen ω) flatHw 1 12 4 true 7 .exact = .ok (x ω)) ∧
      ∃ mean, P.map (fun ω => (x ω).rate 12 3) =
        gaussianReal mean (∫ u in (0:ℝ)..(12 * (1 / 12)), flatHw.vol ^ 2 * Real.exp (-2 * flatHw.alpha * (12 * (1 / 12) - u))).toNNReal ∧
      mean ≤ flatMean flatHw (12 * (1 / 12)) := by
  have ha : ∀ ω, ∃ x, hwSimulate (gen ω) flatHw 1 12 4 true 7 .exact = .ok x := by
    intro ω
    rw [C75_accepts]
    refine ⟨by norm_num, by norm_num, by norm_num, ?_, fun _ => ⟨by norm_num, fun _ => by norm_num⟩⟩
    norm_num [flatHw]
  choose x hx using ha
  obtain ⟨z, h1, h2⟩ := C96_draws gen hg 12 1 4 true 7 (by norm_num) (by norm_num) (by norm_num) (fun _ => by norm_num) (by norm_num)
  obtain ⟨mean, h3, h4, -⟩ := C96_exact_law gen flatHw (by norm_num [flatHw]) 1 12 4 true 7 x hx one_pos z (fun ω => (h1 ω).1) 3
    (h2 0 (by norm_num) 3 (by norm_num)) 12 (by decide)
  refine ⟨x, hx, mean, ?_, ?_⟩
  · rw [h3]; norm_num
  · convert h4 using 2; norm_num

end Frm.Props
