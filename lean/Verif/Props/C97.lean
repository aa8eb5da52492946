import Verif.Model.GbmScripts
import Verif.Props.C96
import Mathlib.Probability.Independence.Integration

/-!
# C97: the scripts that simulate geometric Brownian motion
-/

namespace Frm
namespace Spec

set_option autoImplicit false

/-- The documented schemes, by number. -/
inductive GbmScheme where
  | exact | euler | milstein | second

/-- Their numbers in the scripts. -/
def GbmScheme.number : GbmScheme → Int
  | .exact => 0
  | .euler => 1
  | .milstein => 2
  | .second => 3

/-- What a scheme multiplies the price by over a step of length `dt`, `z` being the draw. -/
noncomputable def GbmScheme.growth (m : GbmScheme) (mu vol dt z : ℝ) : ℝ :=
  match m with
  | .exact => Real.exp ((mu - vol ^ 2 / 2) * dt + vol * Real.sqrt dt * z)
  | .euler => 1 + mu * dt + vol * Real.sqrt dt * z
  | .milstein => 1 + mu * dt + vol * Real.sqrt dt * z + vol ^ 2 / 2 * dt * (z ^ 2 - 1)
  | .second => 1 + mu * dt + vol * Real.sqrt dt * z + vol ^ 2 / 2 * dt * (z ^ 2 - 1) + mu * vol * z * (dt * Real.sqrt dt) +
      mu ^ 2 * dt ^ 2 / 2

/-- The path of a scheme: the price after each number of steps. -/
noncomputable def GbmScheme.price (m : GbmScheme) (x0 mu vol dt : ℝ) (z : Nat → ℝ) (k : Nat) : ℝ :=
  x0 * ∏ i ∈ Finset.range k, m.growth mu vol dt (z i)

end Spec
end Frm

namespace Frm.Props
open Classical MeasureTheory ProbabilityTheory

set_option autoImplicit false

open Frm Frm.Spec

/-! ## Running products -/

theorem cumulate_length (op : ℝ → ℝ → ℝ) (a : ℝ) (l : List ℝ) : (cumulate op a l).length = l.length := by
  induction l generalizing a with
  | nil => rfl
  | cons b l ih => simp [cumulate, ih]

private theorem cumulate_mul_map (x a : ℝ) (l : List ℝ) : (cumulate (· * ·) a l).map (x * ·) = cumulate (· * ·) (x * a) l := by
  induction l generalizing a with
  | nil => rfl
  | cons b l ih => simp only [cumulate, List.map_cons, ih, mul_assoc]

private theorem cumulate_exp (x a : ℝ) (l : List ℝ) :
    (cumulate (· + ·) a l).map (fun s => x * Real.exp s) = cumulate (· * ·) (x * Real.exp a) (l.map Real.exp) := by
  induction l generalizing a with
  | nil => rfl
  | cons b l ih => simp only [cumulate, List.map_cons, ih, Real.exp_add, mul_assoc]

private theorem cumulate_step (f : ℝ → ℝ) (x : ℝ) (l : List ℝ) :
    cumulate (fun x z => x * f z) x l = cumulate (· * ·) x (l.map f) := by
  induction l generalizing x with
  | nil => rfl
  | cons b l ih => simp only [cumulate, List.map_cons, ih]

theorem cumulate_get (x : ℝ) (f : ℝ → ℝ) (l : List ℝ) (k : Nat) (hk : k ≤ l.length) :
    (x :: cumulate (· * ·) x (l.map f))[k]? = some (x * ∏ i ∈ Finset.range k, f (l.getD i 0)) := by
  induction l generalizing x k with
  | nil =>
    have : k = 0 := by simpa using hk
    subst this; simp
  | cons b l ih =>
    cases k with
    | zero => simp
    | succ k =>
      simp only [List.map_cons, cumulate, List.getElem?_cons_succ]
      rw [ih (x * f b) k (by simpa using hk), Finset.prod_range_succ']
      simp only [List.getD_cons_succ, List.getD_cons_zero]
      congr 1
      ring

private theorem pow_three_halves {dt : ℝ} (h : 0 ≤ dt) : dt ^ (1.5 : ℝ) = dt * Real.sqrt dt := by
  rw [Real.sqrt_eq_rpow, show (1.5 : ℝ) = 1 + 1 / 2 by norm_num, Real.rpow_add_of_nonneg h (by norm_num) (by norm_num), Real.rpow_one]

/-! ## The three versions -/

section
variable (normal : Nat → List ℝ) (memory : Nat → List ℝ) (x0 mu vol T dt : ℝ) (rand : Option (List ℝ))

private theorem script_ok (m : GbmScheme) (hdt : 0 ≤ dt) :
    scriptGbm normal x0 mu vol T dt rand m.number =
      (scriptDraws normal T dt rand).map (fun z => x0 :: cumulate (· * ·) x0 (z.map (m.growth mu vol dt))) := by
  unfold scriptGbm
  cases scriptDraws normal T dt rand with
  | error e => rfl
  | ok z =>
    have e1 : (0.5 : ℝ) * vol ^ 2 = vol ^ 2 / 2 := by ring
    have e2 : (0.5 : ℝ) * mu ^ 2 * dt ^ 2 = mu ^ 2 * dt ^ 2 / 2 := by ring
    cases m <;> simp [GbmScheme.number, bind, Except.bind, pure, Except.pure, Except.map, cumulate_mul_map, cumulate_exp,
      e1, e2, pow_three_halves hdt, Function.comp_def] <;> rfl

/-- The two compiled versions return what `simulate_gbm` returns, in all four schemes, or raise what it raises. -/
theorem C97_same (m : GbmScheme) :
    scriptGbmPrange normal memory x0 mu vol T dt rand m.number = scriptGbm normal x0 mu vol T dt rand m.number ∧
    scriptGbmNumba normal memory x0 mu vol T dt rand m.number = scriptGbm normal x0 mu vol T dt rand m.number := by
  unfold scriptGbmPrange scriptGbmNumba scriptGbm
  cases scriptDraws normal T dt rand with
  | error e => exact ⟨rfl, rfl⟩
  | ok z =>
    cases m <;> simp [GbmScheme.number, bind, Except.bind, pure, Except.pure, cumulate_mul_map, cumulate_exp, cumulate_step,
      Function.comp_def, mul_assoc]

/-- The number of draws must be the number of steps: the horizon over the step, rounded up. -/
theorem C97_refused (method : Int) :
    (dt = 0 → scriptGbm normal x0 mu vol T dt rand method = .error .zeroDiv) ∧
    (∀ z, rand = some z → dt ≠ 0 → (z.length : Int) ≠ ⌈T / dt⌉ → scriptGbm normal x0 mu vol T dt rand method = .error .value) := by
  constructor
  · intro h
    unfold scriptGbm scriptDraws
    rw [if_pos h]; rfl
  · rintro z rfl h hn
    unfold scriptGbm scriptDraws
    rw [if_neg h]
    simp only [if_pos hn]
    rfl

/-- Any other number of a method is an unbound variable in `simulate_gbm`; the compiled versions return memory that nobody wrote. -/
theorem C97_unknown_method (z : List ℝ) (method : Int) (hm : ∀ m : GbmScheme, m.number ≠ method) (hdt : dt ≠ 0)
    (hz : (z.length : Int) = ⌈T / dt⌉) :
    scriptGbm normal x0 mu vol T dt (some z) method = .error .name ∧
    scriptGbmNumba normal memory x0 mu vol T dt (some z) method = .ok (x0 :: memory z.length) ∧
    scriptGbmPrange normal memory x0 mu vol T dt (some z) method = .ok (x0 :: (memory z.length).map (x0 * ·)) := by
  have h0 : method ≠ 0 := fun h => hm .exact h.symm
  have h1 : method ≠ 1 := fun h => hm .euler h.symm
  have h2 : method ≠ 2 := fun h => hm .milstein h.symm
  have h3 : method ≠ 3 := fun h => hm .second h.symm
  have hd : scriptDraws normal T dt (some z) = .ok z := by
    unfold scriptDraws
    rw [if_neg hdt]
    simp [hz]
  unfold scriptGbm scriptGbmNumba scriptGbmPrange
  simp only [hd, bind, Except.bind, if_neg h0, if_neg h1, if_neg h2, if_neg h3, pure, Except.pure, and_self]

/-- The path: one price more than there are steps, the first of them `x0`, each of them `x0` times the growth of the steps before it. -/
theorem C97_path (m : GbmScheme) (z : List ℝ) (hdt : 0 < dt) (hz : (z.length : Int) = ⌈T / dt⌉) :
    ∃ x, scriptGbm normal x0 mu vol T dt (some z) m.number = .ok x ∧ x.length = z.length + 1 ∧
      ∀ k ≤ z.length, x[k]? = some (m.price x0 mu vol dt (fun i => z.getD i 0) k) := by
  have hd : scriptDraws normal T dt (some z) = .ok z := by
    unfold scriptDraws
    rw [if_neg hdt.ne']
    simp [hz]
  refine ⟨_, by rw [script_ok normal x0 mu vol T dt (some z) m hdt.le, hd]; rfl, ?_, ?_⟩
  · simp [cumulate_length]
  · intro k hk
    rw [cumulate_get x0 (m.growth mu vol dt) z k hk]
    rfl

/-- Without draws given, those of the generator are used. -/
theorem C97_own_draws (m : GbmScheme) (hdt : 0 < dt) (hT : 0 ≤ T) :
    scriptGbm normal x0 mu vol T dt none m.number = scriptGbm normal x0 mu vol T dt (some (normal ⌈T / dt⌉.toNat)) m.number := by
  have hc : 0 ≤ ⌈T / dt⌉ := Int.ceil_nonneg (div_nonneg hT hdt.le)
  have : scriptDraws normal T dt none = scriptDraws normal T dt (some (normal ⌈T / dt⌉.toNat)) := by
    unfold scriptDraws
    simp only [if_neg hdt.ne', if_neg (not_lt.mpr hc)]
  unfold scriptGbm
  rw [this]

end

/-! ## Distributions -/

section
variable {Ω : Type} [MeasurableSpace Ω] {P : Measure Ω}

/-- The mean of a product of functions of independent standard normal variables. -/
theorem mean_prod {z : Nat → Ω → ℝ} {N : Nat} (h : StandardNormals P (fun (i : Fin N) => z i)) (f : ℝ → ℝ) (hf : Measurable f) {k : Nat} (hk : k ≤ N) :
    ∫ ω, ∏ i ∈ Finset.range k, f (z i ω) ∂P = (∫ y, f y ∂gaussianReal 0 1) ^ k := by
  have h1 : StandardNormals P (fun (i : Fin k) => z i) := h.precomp (g := Fin.castLE hk) (Fin.castLE_injective hk)
  have h2 := h1.indep.integral_fun_prod_comp (f := fun _ => f) (fun i => (h1.measurable i).aemeasurable)
    (fun i => hf.aestronglyMeasurable)
  have h3 : ∀ i : Fin k, ∫ ω, f (z i ω) ∂P = ∫ y, f y ∂gaussianReal 0 1 := by
    intro i
    rw [← h1.normal i, integral_map (h1.measurable i).aemeasurable hf.aestronglyMeasurable]
  simp only [h3, Finset.prod_const, Finset.card_univ, Fintype.card_fin] at h2
  rw [← h2]
  refine integral_congr_ae (Filter.Eventually.of_forall (fun ω => ?_))
  exact (Fin.prod_univ_eq_prod_range (fun i => f (z i ω)) k).symm

private theorem normal_integrable (n : Nat) : Integrable (fun y : ℝ => y ^ n) (gaussianReal 0 1) := by
  have h := (memLp_id_gaussianReal (μ := 0) (v := 1) (n : NNReal)).integrable_norm_pow' 
  refine h.mono' (by fun_prop) (Filter.Eventually.of_forall (fun y => ?_))
  simp

private theorem normal_sq : ∫ y : ℝ, y ^ 2 ∂gaussianReal 0 1 = 1 := by
  have h := variance_fun_id_gaussianReal (μ := 0) (v := 1)
  rw [variance_eq_integral (by fun_prop)] at h
  simpa [integral_id_gaussianReal] using h

/-- The mean growth of a step. -/
noncomputable def meanGrowth (m : GbmScheme) (mu dt : ℝ) : ℝ :=
  match m with
  | .exact => Real.exp (mu * dt)
  | .euler => 1 + mu * dt
  | .milstein => 1 + mu * dt
  | .second => 1 + mu * dt + mu ^ 2 * dt ^ 2 / 2

private theorem quadratic_mean (a b c : ℝ) : ∫ y : ℝ, (a + b * y + c * y ^ 2) ∂gaussianReal 0 1 = a + c := by
  have i1 : Integrable (fun y : ℝ => b * y) (gaussianReal 0 1) := by
    simpa using (normal_integrable 1).const_mul b
  rw [integral_add (by exact (integrable_const a).add i1) ((normal_integrable 2).const_mul c), integral_add (integrable_const a) i1,
    integral_const_mul, integral_const_mul, normal_sq, integral_id_gaussianReal]
  simp

private theorem growth_mean (m : GbmScheme) (mu vol dt : ℝ) (hdt : 0 ≤ dt) :
    ∫ y, m.growth mu vol dt y ∂gaussianReal 0 1 = meanGrowth m mu dt := by
  cases m with
  | exact =>
    have h := normal_exp_mean (P := gaussianReal 0 1) (X := fun y => (mu - vol ^ 2 / 2) * dt + vol * Real.sqrt dt * y)
      (m := (mu - vol ^ 2 / 2) * dt) (v := vol ^ 2 * dt) (mul_nonneg (sq_nonneg _) hdt) (by
        rw [show (fun y => (mu - vol ^ 2 / 2) * dt + vol * Real.sqrt dt * y) =
          (fun y => (mu - vol ^ 2 / 2) * dt + y) ∘ (fun y => (vol * Real.sqrt dt) * y) from rfl,
          ← Measure.map_map (by fun_prop) (by fun_prop), gaussianReal_map_const_mul, gaussianReal_map_const_add]
        congr 1
        · ring
        · ext
          rw [mul_one, Real.coe_toNNReal _ (mul_nonneg (sq_nonneg _) hdt)]
          show (vol * Real.sqrt dt) ^ 2 = _
          rw [mul_pow, Real.sq_sqrt hdt])
    unfold GbmScheme.growth meanGrowth
    simp only
    rw [h]
    congr 1; ring
  | euler =>
    have := quadratic_mean (1 + mu * dt) (vol * Real.sqrt dt) 0
    simp only [zero_mul, add_zero] at this
    exact this
  | milstein =>
    have := quadratic_mean (1 + mu * dt - vol ^ 2 / 2 * dt) (vol * Real.sqrt dt) (vol ^ 2 / 2 * dt)
    unfold GbmScheme.growth meanGrowth
    simp only
    refine Eq.trans ?_ (this.trans (by ring))
    congr 1; funext y; ring
  | second =>
    have := quadratic_mean (1 + mu * dt + mu ^ 2 * dt ^ 2 / 2 - vol ^ 2 / 2 * dt) (vol * Real.sqrt dt + mu * vol * (dt * Real.sqrt dt))
      (vol ^ 2 / 2 * dt)
    unfold GbmScheme.growth meanGrowth
    simp only
    refine Eq.trans ?_ (this.trans (by ring))
    congr 1; funext y; ring

private theorem growth_measurable (m : GbmScheme) (mu vol dt : ℝ) : Measurable (m.growth mu vol dt) := by
  cases m <;> (unfold GbmScheme.growth; simp only; fun_prop)

private theorem price_mean (m : GbmScheme) (x0 mu vol dt : ℝ) (hdt : 0 ≤ dt) (z : Nat → Ω → ℝ) (n : Nat)
    (hz : StandardNormals P (fun (i : Fin n) => z i)) (k : Nat) (hk : k ≤ n) :
    ∫ ω, m.price x0 mu vol dt (fun i => z i ω) k ∂P =
      x0 * (match m with
        | .exact => Real.exp (mu * (k * dt))
        | .euler => (1 + mu * dt) ^ k
        | .milstein => (1 + mu * dt) ^ k
        | .second => (1 + mu * dt + mu ^ 2 * dt ^ 2 / 2) ^ k) := by
  unfold GbmScheme.price
  rw [integral_const_mul, mean_prod hz _ (growth_measurable m mu vol dt) hk, growth_mean m mu vol dt hdt]
  cases m with
  | exact => simp only [meanGrowth]; rw [← Real.exp_nat_mul]; congr 2; ring
  | euler => rfl
  | milstein => rfl
  | second => rfl

omit [MeasurableSpace Ω] in
/-- The paths of `simulate_gbm` with given draws, one for each run. -/
private theorem script_paths (normal : Nat → List ℝ) (m : GbmScheme) (x0 mu vol T dt : ℝ) (hdt : 0 < dt) (z : Nat → Ω → ℝ) (n : Nat)
    (hn : (n : Int) = ⌈T / dt⌉) :
    ∃ x : Ω → List ℝ, (∀ ω, scriptGbm normal x0 mu vol T dt (some ((List.range n).map (fun i => z i ω))) m.number = .ok (x ω)) ∧
      ∀ ω, ∀ k ≤ n, (x ω).getD k 0 = m.price x0 mu vol dt (fun i => z i ω) k := by
  choose x hx using fun ω => C97_path normal x0 mu vol T dt m ((List.range n).map (fun i => z i ω)) hdt (by simpa using hn)
  refine ⟨x, fun ω => (hx ω).1, fun ω k hk => ?_⟩
  have h := (hx ω).2.2 k (by simpa using hk)
  rw [List.getD, h, Option.getD_some]
  unfold GbmScheme.price
  congr 1
  refine Finset.prod_congr rfl (fun i hi => ?_)
  have : i < n := by have := Finset.mem_range.mp hi; omega
  simp [List.getD, this]

/-- The mean price after `k` steps: exact for method 0, and `(1 + mu dt)^k` or `(1 + mu dt + mu^2 dt^2 / 2)^k` times the initial price
for the others. -/
theorem C97_mean (normal : Nat → List ℝ) (m : GbmScheme) (x0 mu vol T dt : ℝ) (hdt : 0 < dt) (z : Nat → Ω → ℝ) (n : Nat)
    (hn : (n : Int) = ⌈T / dt⌉) (hz : StandardNormals P (fun (i : Fin n) => z i)) :
    ∃ x : Ω → List ℝ, (∀ ω, scriptGbm normal x0 mu vol T dt (some ((List.range n).map (fun i => z i ω))) m.number = .ok (x ω)) ∧
      ∀ k ≤ n, ∫ ω, (x ω).getD k 0 ∂P =
        x0 * (match m with
          | .exact => Real.exp (mu * (k * dt))
          | .euler => (1 + mu * dt) ^ k
          | .milstein => (1 + mu * dt) ^ k
          | .second => (1 + mu * dt + mu ^ 2 * dt ^ 2 / 2) ^ k) := by
  obtain ⟨x, hx, hp⟩ := script_paths normal m x0 mu vol T dt hdt z n hn
  refine ⟨x, hx, fun k hk => ?_⟩
  simp only [fun ω => hp ω k hk]
  exact price_mean m x0 mu vol dt hdt.le z n hz k hk

/-- The means of the schemes are in order: Euler's and Milstein's, that of second order, and the exact one. -/
theorem C97_mean_order (x0 mu dt : ℝ) (h0 : 0 ≤ x0) (hmu : 0 ≤ mu) (hdt : 0 ≤ dt) (k : Nat) :
    x0 * (1 + mu * dt) ^ k ≤ x0 * (1 + mu * dt + mu ^ 2 * dt ^ 2 / 2) ^ k ∧
    x0 * (1 + mu * dt + mu ^ 2 * dt ^ 2 / 2) ^ k ≤ x0 * Real.exp (mu * (k * dt)) := by
  have hm := mul_nonneg hmu hdt
  constructor
  · refine mul_le_mul_of_nonneg_left (pow_le_pow_left₀ (by linarith) ?_ k) h0
    have : 0 ≤ mu ^ 2 * dt ^ 2 / 2 := by positivity
    linarith
  · rw [show mu * (k * dt) = k * (mu * dt) by ring, Real.exp_nat_mul]
    refine mul_le_mul_of_nonneg_left (pow_le_pow_left₀ (by positivity) ?_ k) h0
    have := Real.quadratic_le_exp_of_nonneg hm
    nlinarith

private theorem exact_law (x0 mu vol dt : ℝ) (h0 : 0 < x0) (hdt : 0 ≤ dt) (z : Nat → Ω → ℝ) (n : Nat)
    (hz : StandardNormals P (fun (i : Fin n) => z i)) (k : Nat) (hk : k ≤ n) :
    P.map (fun ω => Real.log (GbmScheme.exact.price x0 mu vol dt (fun i => z i ω) k)) =
      gaussianReal (Real.log x0 + (mu - vol ^ 2 / 2) * (k * dt)) (vol ^ 2 * (k * dt)).toNNReal := by
  have h := hz.sum (Real.log x0 + (mu - vol ^ 2 / 2) * (k * dt)) (fun _ => vol * Real.sqrt dt) k hk
  have e : ∑ i ∈ Finset.range k, (vol * Real.sqrt dt) ^ 2 = vol ^ 2 * (k * dt) := by
    rw [Finset.sum_const, Finset.card_range, mul_pow, Real.sq_sqrt hdt, nsmul_eq_mul]; ring
  rw [e] at h
  rw [← h]
  congr 1
  funext ω
  unfold GbmScheme.price GbmScheme.growth
  simp only
  rw [← Real.exp_sum, Real.log_mul h0.ne' (Real.exp_ne_zero _), Real.log_exp, Finset.sum_add_distrib, Finset.sum_const,
    Finset.card_range, nsmul_eq_mul]
  ring

/-- Method 0: the logarithm of the price is normal, its variance growing with time. -/
theorem C97_exact_law (normal : Nat → List ℝ) (x0 mu vol T dt : ℝ) (h0 : 0 < x0) (hdt : 0 < dt) (z : Nat → Ω → ℝ) (n : Nat)
    (hn : (n : Int) = ⌈T / dt⌉) (hz : StandardNormals P (fun (i : Fin n) => z i)) :
    ∃ x : Ω → List ℝ, (∀ ω, scriptGbm normal x0 mu vol T dt (some ((List.range n).map (fun i => z i ω))) 0 = .ok (x ω)) ∧
      ∀ k ≤ n, P.map (fun ω => Real.log ((x ω).getD k 0)) =
        gaussianReal (Real.log x0 + (mu - vol ^ 2 / 2) * (k * dt)) (vol ^ 2 * (k * dt)).toNNReal := by
  obtain ⟨x, hx, hp⟩ := script_paths normal .exact x0 mu vol T dt hdt z n hn
  refine ⟨x, hx, fun k hk => ?_⟩
  simp only [fun ω => hp ω k hk]
  exact exact_law x0 mu vol dt h0 hdt.le z n hz k hk

/-- Euler's scheme goes below zero for some draws, however small the step; Milstein's scheme stays above zero for all draws as long as
`(vol^2 / 2 - mu) dt` is below a half. -/
theorem C97_sign (x0 mu vol dt : ℝ) (h0 : 0 < x0) (hv : vol ≠ 0) (hdt : 0 < dt) :
    (∃ z : Nat → ℝ, GbmScheme.euler.price x0 mu vol dt z 1 < 0) ∧
    ((vol ^ 2 / 2 - mu) * dt < 1 / 2 → ∀ (z : Nat → ℝ) k, 0 < GbmScheme.milstein.price x0 mu vol dt z k) := by
  have hs : 0 < Real.sqrt dt := Real.sqrt_pos.mpr hdt
  constructor
  · refine ⟨fun _ => -(2 + mu * dt) / (vol * Real.sqrt dt), ?_⟩
    unfold GbmScheme.price GbmScheme.growth
    simp only [Finset.range_one, Finset.prod_singleton]
    rw [mul_div_cancel₀ _ (mul_ne_zero hv hs.ne')]
    nlinarith
  · intro h z k
    refine mul_pos h0 (Finset.prod_pos (fun i _ => ?_))
    unfold GbmScheme.growth
    simp only
    have e : vol ^ 2 * dt = (vol * Real.sqrt dt) ^ 2 := by rw [mul_pow, Real.sq_sqrt hdt.le]
    have : 1 + mu * dt + vol * Real.sqrt dt * z i + vol ^ 2 / 2 * dt * (z i ^ 2 - 1) =
        (1 + vol * Real.sqrt dt * z i) ^ 2 / 2 + (1 / 2 - (vol ^ 2 / 2 - mu) * dt) := by
      linear_combination (z i ^ 2 / 2) * e
    rw [this]
    have := sq_nonneg (1 + vol * Real.sqrt dt * z i)
    linarith

/-! ## `option.py` and `monte_carlo_multiprocessing.py` -/

/-- `GeometricBrownian` never returns: the function it sends to the pool of processes is local to it. -/
theorem C97_never_returns (gen : Generator) (entropy : Nat → Nat) (x0 dt drift speed : ℝ) :
    geometricBrownian gen entropy true x0 dt drift speed = .error .attribute := by
  unfold geometricBrownian
  rw [if_pos rfl, show List.range 10 = 0 :: [1, 2, 3, 4, 5, 6, 7, 8, 9] from rfl, List.mapM_cons]
  rfl

private theorem one_asset (x0 dt drift speed : ℝ) (w : Nat → Nat → Nat → ℝ) (t s : Nat) :
    brownianPrice x0 dt drift speed w t 0 s = GbmScheme.exact.price x0 drift speed dt (fun _ => w t 0 s) 1 := by
  unfold brownianPrice cumprodAssets GbmScheme.price GbmScheme.growth
  simp only [zero_add, Finset.range_one, Finset.prod_singleton]
  rw [show (0.5 : ℝ) * speed ^ 2 = speed ^ 2 / 2 by ring]

private theorem one_step (x0 dt drift speed : ℝ) (h0 : 0 < x0) (hdt : 0 ≤ dt) (y : Ω → ℝ) (hy : StandardNormals P (fun (_ : Fin 1) => y)) :
    P.map (fun ω => Real.log (GbmScheme.exact.price x0 drift speed dt (fun _ => y ω) 1)) =
      gaussianReal (Real.log x0 + (drift - speed ^ 2 / 2) * dt) (speed ^ 2 * dt).toNNReal ∧
    ∫ ω, GbmScheme.exact.price x0 drift speed dt (fun _ => y ω) 1 ∂P = x0 * Real.exp (drift * dt) := by
  have h1 := exact_law x0 drift speed dt h0 hdt (fun _ => y) 1 hy 1 le_rfl
  have h2 := price_mean .exact x0 drift speed dt hdt (fun _ => y) 1 hy 1 le_rfl
  simp only [Nat.cast_one, one_mul] at h1 h2
  exact ⟨h1, h2⟩

/-- Nor would its result be a path: the running product is over the assets, of which there is one, so the price at every time is one step
away from the initial price and its logarithm has the variance of one step. -/
theorem C97_no_path (gen : Ω → Generator) (hg : NormalGenerator P gen) (entropy : Nat) (x0 dt drift speed : ℝ) (h0 : 0 < x0)
    (hdt : 0 ≤ dt) :
    ∃ x : Ω → Cube, (∀ ω, geometricBrownian (gen ω) (fun _ => entropy) false x0 dt drift speed = .ok [x ω] ∧
        (x ω).steps = 365 ∧ (x ω).vars = 1 ∧ (x ω).sims = 100000) ∧
      ∀ t < 365, ∀ s < 100000,
        P.map (fun ω => Real.log ((x ω).get t 0 s)) = gaussianReal (Real.log x0 + (drift - speed ^ 2 / 2) * dt) (speed ^ 2 * dt).toNNReal ∧
        ∫ ω, (x ω).get t 0 s ∂P = x0 * Real.exp (drift * dt) := by
  refine ⟨fun ω => ⟨365, 1, 100000, brownianPrice x0 dt drift speed (gen ω entropy 365 1 100000)⟩, fun ω => ⟨rfl, rfl, rfl, rfl⟩, ?_⟩
  intro t ht s hs
  simp only [one_asset]
  exact one_step x0 dt drift speed h0 hdt (fun ω => gen ω entropy 365 1 100000 t 0 s)
    ((normalGenerator_column hg (seed := entropy) (steps := 365) (vars := 1) (sims := 100000) (v := 0) (s := s) (by norm_num) hs).precomp
      (g := fun _ : Fin 1 => (⟨t, ht⟩ : Fin 365)) (fun _ _ _ => Subsingleton.elim _ _))

/-- `gbm_helper` has the same fault: ten times, each of them one day away from the start.  The second half of the paths mirrors the first,
and of an odd number of iterations one is lost. -/
theorem C97_multiprocessing (gen : Ω → Generator) (hg : NormalGenerator P gen) (entropy : Nat) (start n : Nat) :
    ∃ x : Ω → Cube, (∀ ω, gbmHelper (gen ω) entropy start (start + n) = .ok (x ω) ∧
        (x ω).steps = 10 ∧ (x ω).vars = 1 ∧ (x ω).sims = 2 * (n / 2)) ∧
      (∀ t < 10, ∀ s < 2 * (n / 2),
        P.map (fun ω => Real.log ((x ω).get t 0 s)) = gaussianReal (Real.log 10 + (0.05 - 0.3 ^ 2 / 2) * (1 / 365)) ((0.3 : ℝ) ^ 2 * (1 / 365)).toNNReal ∧
        ∫ ω, (x ω).get t 0 s ∂P = 10 * Real.exp (0.05 * (1 / 365))) ∧
      ∀ ω t, ∀ s < n / 2, (x ω).get t 0 s * (x ω).get t 0 (s + n / 2) = (10 * Real.exp ((0.05 - 0.3 ^ 2 / 2) * (1 / 365))) ^ 2 := by
  have hn : ((start : Int) + n - start) / 2 = ((n / 2 : Nat) : Int) := by omega
  refine ⟨fun ω => ⟨10, 1, 2 * (n / 2), concatSims (n / 2) (brownianPrice 10 (1 / 365) 0.05 0.3 (gen ω entropy 10 1 (n / 2)))
    (brownianPrice 10 (1 / 365) 0.05 0.3 (fun t a s => -gen ω entropy 10 1 (n / 2) t a s))⟩, fun ω => ⟨?_, rfl, rfl, rfl⟩, ?_, ?_⟩
  · unfold gbmHelper brownianHelper
    rw [if_neg (by norm_num), if_pos rfl, hn, if_neg (by omega)]
    rfl
  · intro t ht s hs
    by_cases hlt : s < n / 2
    · simp only [concatSims, if_pos hlt, one_asset]
      exact one_step 10 (1 / 365) 0.05 0.3 (by norm_num) (by norm_num) (fun ω => gen ω entropy 10 1 (n / 2) t 0 s)
        ((normalGenerator_column hg (seed := entropy) (steps := 10) (vars := 1) (sims := n / 2) (v := 0) (s := s) (by norm_num) hlt).precomp
          (g := fun _ : Fin 1 => (⟨t, ht⟩ : Fin 10)) (fun _ _ _ => Subsingleton.elim _ _))
    · simp only [concatSims, if_neg hlt, one_asset]
      have h1 := ((normalGenerator_column hg (seed := entropy) (steps := 10) (vars := 1) (sims := n / 2) (v := 0) (s := s - n / 2)
        (by norm_num) (by omega)).precomp (g := fun _ : Fin 1 => (⟨t, ht⟩ : Fin 10)) (fun _ _ _ => Subsingleton.elim _ _)).neg
      simp only [neg_mul, one_mul] at h1
      exact one_step 10 (1 / 365) 0.05 0.3 (by norm_num) (by norm_num) (fun ω => -gen ω entropy 10 1 (n / 2) t 0 (s - n / 2)) h1
  · intro ω t s hs
    simp only [concatSims, if_pos hs, if_neg (show ¬ s + n / 2 < n / 2 by omega), one_asset, Nat.add_sub_cancel]
    unfold GbmScheme.price GbmScheme.growth
    simp only [Finset.range_one, Finset.prod_singleton]
    rw [mul_mul_mul_comm, ← Real.exp_add, mul_pow, ← Real.exp_nat_mul, ← sq]
    congr 2
    push_cast
    ring

/-- A negative number of iterations is refused. -/
theorem C97_negative (gen : Generator) (entropy : Nat) (start stop : Int) (h : stop < start) :
    gbmHelper gen entropy start stop = .error .value := by
  unfold gbmHelper brownianHelper
  rw [if_neg (by norm_num), if_pos rfl, if_pos (by omega)]

end

/-- Five steps of a fifth of a year, for which there are independent draws. -/
example : ((5 : Nat) : Int) = ⌈(1 : ℝ) / (1 / 5)⌉ ∧
    ∃ (Ω : Type) (_ : MeasurableSpace Ω) (P : Measure Ω) (z : Nat → Ω → ℝ), StandardNormals P (fun (i : Fin 5) => z i) := by
  refine ⟨by norm_num, Nat → ℝ, inferInstance, Measure.infinitePi (fun _ : Nat => gaussianReal 0 1), fun i ω => ω i, ?_⟩
  exact (exists_standardNormals Nat).precomp (g := fun i : Fin 5 => (i : Nat)) (fun i j h => Fin.ext h)

/-- The number of another method, and a generator of independent draws. -/
example : (∀ m : GbmScheme, m.number ≠ 4) ∧
    ∃ (Ω : Type) (_ : MeasurableSpace Ω) (P : Measure Ω) (gen : Ω → Generator), NormalGenerator P gen :=
  ⟨fun m => by cases m <;> decide, exists_normalGenerator⟩

end Frm.Props
