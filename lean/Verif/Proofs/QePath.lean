import Verif.Proofs.GaussianSum
import Mathlib.Probability.Independence.Basic
import Mathlib.MeasureTheory.Measure.Prod
import Mathlib.Probability.Distributions.Gaussian.Real

/-!
# Exponentials of sums whose coefficients depend on other draws
-/

namespace Frm
open MeasureTheory ProbabilityTheory

set_option autoImplicit false

/-- The mean of the exponential of a normal variable. -/
theorem gaussian_lintegral_exp (m : ℝ) (v : NNReal) :
    ∫⁻ u, ENNReal.ofReal (Real.exp u) ∂(gaussianReal m v) = ENNReal.ofReal (Real.exp (m + v / 2)) := by
  have h1 := congrFun (mgf_fun_id_gaussianReal (μ := m) (v := v)) 1
  simp only [mgf, one_mul, mul_one, one_pow] at h1
  have h2 := integrable_exp_mul_gaussianReal (μ := m) (v := v) 1
  simp only [one_mul] at h2
  rw [← ofReal_integral_eq_lintegral_ofReal h2 (Filter.Eventually.of_forall fun _ => (Real.exp_pos _).le), h1]

/-- The draws numbered below `n` of variable `k`, and zeros. -/
noncomputable def drawsOf {Ω : Type} (z : Nat → Nat → Ω → ℝ) (n k : Nat) (ω : Ω) : Nat → ℝ := fun j => if j < n then z j k ω else 0

theorem drawsOf_measurable {Ω : Type} [MeasurableSpace Ω] {P : Measure Ω} {z : Nat → Nat → Ω → ℝ} {n : Nat}
    (hz : StandardNormals P (fun (q : Fin n × Fin 2) => z q.1 q.2)) (k : Fin 2) : Measurable (drawsOf z n k) := by
  rw [measurable_pi_iff]
  intro j
  unfold drawsOf
  by_cases h : j < n
  · simp only [if_pos h]
    exact hz.measurable (⟨j, h⟩, k)
  · simp only [if_neg h]
    exact measurable_const

theorem drawsOf_indep {Ω : Type} [MeasurableSpace Ω] {P : Measure Ω} {z : Nat → Nat → Ω → ℝ} {n : Nat}
    (hz : StandardNormals P (fun (q : Fin n × Fin 2) => z q.1 q.2)) : IndepFun (drawsOf z n 0) (drawsOf z n 1) P := by
  classical
  have hd : Disjoint (Finset.univ.filter (fun q : Fin n × Fin 2 => q.2 = 0)) (Finset.univ.filter (fun q : Fin n × Fin 2 => q.2 = 1)) := by
    rw [Finset.disjoint_filter]
    intro q _ h0 h1
    rw [h0] at h1
    exact absurd h1 (by decide)
  have h := hz.indep.indepFun_finset _ _ hd hz.measurable
  have hm : ∀ k : Fin 2, Measurable (fun (t : (Finset.univ.filter (fun q : Fin n × Fin 2 => q.2 = k)) → ℝ) (j : Nat) =>
      if hj : j < n then t ⟨(⟨j, hj⟩, k), by simp⟩ else 0) := by
    intro k
    rw [measurable_pi_iff]
    intro j
    by_cases hj : j < n
    · simp only [dif_pos hj]
      exact measurable_pi_apply _
    · simp only [dif_neg hj]
      exact measurable_const
  have h2 := h.comp (hm 0) (hm 1)
  have e : ∀ k : Fin 2, ((fun (t : (Finset.univ.filter (fun q : Fin n × Fin 2 => q.2 = k)) → ℝ) (j : Nat) =>
      if hj : j < n then t ⟨(⟨j, hj⟩, k), by simp⟩ else 0) ∘ fun ω (q : (Finset.univ.filter (fun q : Fin n × Fin 2 => q.2 = k))) =>
        z q.1.1 q.1.2 ω) = drawsOf z n k := by
    intro k
    funext ω j
    unfold drawsOf
    by_cases hj : j < n
    · simp only [Function.comp, dif_pos hj, if_pos hj]
    · simp only [Function.comp, dif_neg hj, if_neg hj]
  have e0 := e 0
  have e1 := e 1
  simp only [Fin.val_zero, Fin.val_one] at e0 e1
  rw [← e0, ← e1]
  exact h2

/-- If the coefficients of the first draws depend on the second ones only, the mean of the exponential of the sum is the mean over the second
draws of the exponential of the mean and half the variance of the sum. -/
theorem conditional_exp {Ω : Type} [MeasurableSpace Ω] {P : Measure Ω} {z : Nat → Nat → Ω → ℝ} {n : Nat}
    (hz : StandardNormals P (fun (q : Fin n × Fin 2) => z q.1 q.2)) (c d : Nat → (Nat → ℝ) → ℝ) (hc : ∀ j, Measurable (c j))
    (hd : ∀ j, Measurable (d j)) {i : Nat} (hi : i ≤ n) :
    ∫⁻ ω, ENNReal.ofReal (Real.exp (∑ j ∈ Finset.range i, (c j (drawsOf z n 1 ω) + d j (drawsOf z n 1 ω) * z j 0 ω))) ∂P =
      ∫⁻ ω, ENNReal.ofReal (Real.exp (∑ j ∈ Finset.range i, (c j (drawsOf z n 1 ω) + d j (drawsOf z n 1 ω) ^ 2 / 2))) ∂P := by
  have : IsProbabilityMeasure P := hz.indep.isProbabilityMeasure
  have hX : Measurable (drawsOf z n 0) := drawsOf_measurable hz 0
  have hY : Measurable (drawsOf z n 1) := drawsOf_measurable hz 1
  have hF : Measurable (fun q : (Nat → ℝ) × (Nat → ℝ) =>
      ENNReal.ofReal (Real.exp (∑ j ∈ Finset.range i, (c j q.2 + d j q.2 * q.1 j)))) := by
    refine (Real.measurable_exp.comp (Finset.measurable_sum _ fun j _ => ?_)).ennreal_ofReal
    exact ((hc j).comp measurable_snd).add (((hd j).comp measurable_snd).mul ((measurable_pi_apply j).comp measurable_fst))
  have h1 : ∀ ω, ENNReal.ofReal (Real.exp (∑ j ∈ Finset.range i, (c j (drawsOf z n 1 ω) + d j (drawsOf z n 1 ω) * z j 0 ω))) =
      (fun q : (Nat → ℝ) × (Nat → ℝ) => ENNReal.ofReal (Real.exp (∑ j ∈ Finset.range i, (c j q.2 + d j q.2 * q.1 j))))
        (drawsOf z n 0 ω, drawsOf z n 1 ω) := by
    intro ω
    simp only
    congr 2
    refine Finset.sum_congr rfl fun j hj => ?_
    have : drawsOf z n 0 ω j = z j 0 ω := if_pos ((Finset.mem_range.1 hj).trans_le hi)
    rw [this]
  refine (lintegral_congr h1).trans ((lintegral_map hF (hX.prodMk hY)).symm.trans ?_)
  rw [(indepFun_iff_map_prod_eq_prod_map_map hX.aemeasurable hY.aemeasurable).1 (drawsOf_indep hz)]
  have : IsProbabilityMeasure (P.map (drawsOf z n 0)) := Measure.isProbabilityMeasure_map hX.aemeasurable
  have : IsProbabilityMeasure (P.map (drawsOf z n 1)) := Measure.isProbabilityMeasure_map hY.aemeasurable
  rw [lintegral_prod_symm _ hF.aemeasurable, lintegral_map hF.lintegral_prod_left' hY]
  refine lintegral_congr fun ω => ?_
  generalize drawsOf z n 1 ω = y
  simp only
  have hFy : Measurable (fun x : Nat → ℝ => ENNReal.ofReal (Real.exp (∑ j ∈ Finset.range i, (c j y + d j y * x j)))) :=
    hF.comp (measurable_id.prodMk measurable_const)
  rw [lintegral_map hFy hX]
  have hz0 : StandardNormals P (fun (j : Fin n) => z j 0) :=
    hz.precomp (g := fun j => (j, 0)) (fun a b h => (Prod.mk.inj h).1)
  have law := StandardNormals.sum (z := fun j => z j 0) hz0 (∑ j ∈ Finset.range i, c j y) (fun j => d j y) i hi
  have hmeas : Measurable (fun ω => ∑ j ∈ Finset.range i, c j y + ∑ j ∈ Finset.range i, d j y * z j 0 ω) := by
    refine measurable_const.add (Finset.measurable_sum _ fun j hj => ?_)
    exact (hz0.measurable ⟨j, (Finset.mem_range.1 hj).trans_le hi⟩).const_mul _
  have e : ∀ ω, ENNReal.ofReal (Real.exp (∑ j ∈ Finset.range i, (c j y + d j y * drawsOf z n 0 ω j))) =
      (fun u => ENNReal.ofReal (Real.exp u)) (∑ j ∈ Finset.range i, c j y + ∑ j ∈ Finset.range i, d j y * z j 0 ω) := by
    intro ω
    simp only
    rw [← Finset.sum_add_distrib]
    congr 2
    refine Finset.sum_congr rfl fun j hj => ?_
    have : drawsOf z n 0 ω j = z j 0 ω := if_pos ((Finset.mem_range.1 hj).trans_le hi)
    rw [this]
  simp only [e]
  rw [← lintegral_map (f := fun u => ENNReal.ofReal (Real.exp u)) (Real.measurable_exp.ennreal_ofReal) hmeas, law, gaussian_lintegral_exp,
    Real.coe_toNNReal _ (Finset.sum_nonneg fun j _ => sq_nonneg _), Finset.sum_div, ← Finset.sum_add_distrib]

end Frm
