import Mathlib.Probability.Distributions.Gaussian.Real
import Mathlib.Probability.Independence.Basic
import Mathlib.Probability.ProductMeasure
import Mathlib.Probability.Independence.InfinitePi

/-!
# Sums of independent normal variables, and linear recursions driven by them
-/

namespace Frm
open MeasureTheory ProbabilityTheory

set_option autoImplicit false

/-- Independent standard normal variables on a probability space. -/
structure StandardNormals {ι Ω : Type} [MeasurableSpace Ω] (P : Measure Ω) (z : ι → Ω → ℝ) : Prop where
  measurable : ∀ i, Measurable (z i)
  normal : ∀ i, P.map (z i) = gaussianReal 0 1
  indep : iIndepFun z P

/-- There are such variables. -/
theorem exists_standardNormals (ι : Type) : StandardNormals (Measure.infinitePi (fun _ : ι => gaussianReal 0 1)) (fun i (ω : ι → ℝ) => ω i) where
  measurable i := measurable_pi_apply i
  normal i := by
    have := Measure.infinitePi_map_eval (fun _ : ι => gaussianReal 0 1) i
    exact this
  indep := by
    have := iIndepFun_infinitePi (P := fun _ : ι => gaussianReal 0 1) (X := fun _ x => x) (fun _ => measurable_id)
    exact this

section
variable {ι Ω : Type} [MeasurableSpace Ω] {P : Measure Ω} {z : ι → Ω → ℝ}

/-- Some of the variables. -/
theorem StandardNormals.precomp {κ : Type} (h : StandardNormals P z) {g : κ → ι} (hg : Function.Injective g) :
    StandardNormals P (fun k => z (g k)) where
  measurable _ := h.measurable _
  normal _ := h.normal _
  indep := h.indep.precomp hg

/-- Their negatives. -/
theorem StandardNormals.neg (h : StandardNormals P z) : StandardNormals P (fun i ω => -1 * z i ω) where
  measurable i := (h.measurable i).const_mul _
  normal i := by
    have h1 := gaussianReal_map_const_mul (μ := 0) (v := 1) (-1)
    rw [← h.normal i, Measure.map_map (by fun_prop) (h.measurable i)] at h1
    rw [show (fun ω => -1 * z i ω) = (fun x => -1 * x) ∘ z i from rfl, h1]
    congr 1
    · ring
    · ext; simp
  indep := h.indep.comp (fun _ x => -1 * x) (fun _ => by fun_prop)

/-- A weighted sum of independent standard normal variables, plus a constant, is normal. -/
theorem StandardNormals.sum_finset (h : StandardNormals P z) (m : ℝ) (w : ι → ℝ) (S : Finset ι) :
    P.map (fun ω => m + ∑ i ∈ S, w i * z i ω) = gaussianReal m (∑ i ∈ S, (w i) ^ 2).toNNReal := by
  classical
  have : IsProbabilityMeasure P := h.indep.isProbabilityMeasure
  induction S using Finset.induction_on with
  | empty =>
    simp only [Finset.sum_empty, add_zero, Real.toNNReal_zero, gaussianReal_zero_var]
    rw [Measure.map_const, measure_univ, one_smul]
  | insert n S hn ih =>
    have hw : P.map (fun ω => w n * z n ω) = gaussianReal 0 ((w n) ^ 2).toNNReal := by
      have h1 := gaussianReal_map_const_mul (μ := 0) (v := 1) (w n)
      rw [← h.normal n, Measure.map_map (by fun_prop) (h.measurable n)] at h1
      rw [show (fun ω => w n * z n ω) = (fun x => w n * x) ∘ z n from rfl, h1]
      congr 1
      · ring
      · rw [mul_one]; ext; simp [Real.coe_toNNReal _ (sq_nonneg (w n))]
    have hi : IndepFun (fun ω => m + ∑ i ∈ S, w i * z i ω) (fun ω => w n * z n ω) P := by
      have h1 := h.indep.indepFun_finset S {n} (by simpa using hn) h.measurable
      refine h1.comp (φ := fun v => m + ∑ i : S, w i * v i) (ψ := fun v => w n * v ⟨n, by simp⟩) ?_ ?_ |>.congr ?_ ?_
      · fun_prop
      · fun_prop
      · refine Filter.Eventually.of_forall (fun ω => ?_)
        simp only [Function.comp_apply]
        rw [← Finset.sum_coe_sort S]
      · exact Filter.Eventually.of_forall (fun ω => rfl)
    have h2 := gaussianReal_add_gaussianReal_of_indepFun hi ih hw
    rw [Finset.sum_insert hn, add_comm ((w n) ^ 2), Real.toNNReal_add (Finset.sum_nonneg (fun i _ => sq_nonneg _)) (sq_nonneg _)]
    rw [add_zero] at h2
    rw [← h2]
    congr 1
    funext ω
    simp only [Pi.add_apply, Finset.sum_insert hn]
    ring

end

/-- The first `n` of a sequence. -/
theorem StandardNormals.sum {Ω : Type} [MeasurableSpace Ω] {P : Measure Ω} {z : Nat → Ω → ℝ} {N : Nat}
    (h : StandardNormals P (fun (i : Fin N) => z i)) (m : ℝ) (w : Nat → ℝ) (n : Nat) (hn : n ≤ N) :
    P.map (fun ω => m + ∑ i ∈ Finset.range n, w i * z i ω) = gaussianReal m (∑ i ∈ Finset.range n, (w i) ^ 2).toNNReal := by
  have h1 : StandardNormals P (fun (i : Fin n) => z i) := h.precomp (g := Fin.castLE hn) (Fin.castLE_injective hn)
  have h2 := h1.sum_finset m (fun i => w i) Finset.univ
  simp only [Fin.sum_univ_eq_sum_range (fun i => w i ^ 2)] at h2
  rw [← h2]
  congr 1
  funext ω
  rw [Fin.sum_univ_eq_sum_range (fun i => w i * z i ω)]

/-! ## Linear recursions -/

/-- The mean of `x (i+1) = a i * x i + b i + c i * z i`. -/
noncomputable def affineMean (a b : Nat → ℝ) (x0 : ℝ) : Nat → ℝ
  | 0 => x0
  | i + 1 => a i * affineMean a b x0 i + b i

/-- Its variance. -/
noncomputable def affineVar (a c : Nat → ℝ) : Nat → ℝ
  | 0 => 0
  | i + 1 => a i ^ 2 * affineVar a c i + c i ^ 2

/-- The weight of draw `i` in `x n`. -/
noncomputable def affineWeight (a c : Nat → ℝ) : Nat → Nat → ℝ
  | 0, _ => 0
  | n + 1, i => if i = n then c n else a n * affineWeight a c n i

theorem affineWeight_sum (a c : Nat → ℝ) (n : Nat) : ∑ i ∈ Finset.range n, affineWeight a c n i ^ 2 = affineVar a c n := by
  induction n with
  | zero => simp [affineVar]
  | succ n ih =>
    rw [Finset.sum_range_succ, affineVar, ← ih, Finset.mul_sum]
    congr 1
    · refine Finset.sum_congr rfl (fun i hi => ?_)
      rw [affineWeight, if_neg (by have := Finset.mem_range.mp hi; omega)]; ring
    · rw [affineWeight, if_pos rfl]

theorem affine_path (a b c : Nat → ℝ) (x0 : ℝ) (z x : Nat → ℝ) (h0 : x 0 = x0) (n : Nat) (hx : ∀ i < n, x (i + 1) = a i * x i + b i + c i * z i) :
    x n = affineMean a b x0 n + ∑ i ∈ Finset.range n, affineWeight a c n i * z i := by
  induction n with
  | zero => simp [affineMean, h0]
  | succ n ih =>
    rw [hx n (by omega), ih (fun i hi => hx i (by omega)), Finset.sum_range_succ, affineMean, mul_add, Finset.mul_sum]
    have : ∑ i ∈ Finset.range n, a n * (affineWeight a c n i * z i) = ∑ i ∈ Finset.range n, affineWeight a c (n + 1) i * z i := by
      refine Finset.sum_congr rfl (fun i hi => ?_)
      rw [affineWeight, if_neg (by have := Finset.mem_range.mp hi; omega)]; ring
    rw [this, affineWeight, if_pos rfl]
    ring

/-- A linear recursion driven by independent standard normal draws is normal. -/
theorem affine_law {Ω : Type} [MeasurableSpace Ω] {P : Measure Ω} {z : Nat → Ω → ℝ} {N : Nat}
    (h : StandardNormals P (fun (i : Fin N) => z i)) (a b c : Nat → ℝ) (x0 : ℝ) (x : Nat → Ω → ℝ) (h0 : ∀ ω, x 0 ω = x0)
    (hx : ∀ i < N, ∀ ω, x (i + 1) ω = a i * x i ω + b i + c i * z i ω) (n : Nat) (hn : n ≤ N) :
    P.map (x n) = gaussianReal (affineMean a b x0 n) (affineVar a c n).toNNReal := by
  rw [← affineWeight_sum, ← h.sum (affineMean a b x0 n) (affineWeight a c n) n hn]
  congr 1
  funext ω
  exact affine_path a b c x0 (fun i => z i ω) (fun i => x i ω) (h0 ω) n (fun i hi => hx i (by omega) ω)

end Frm
