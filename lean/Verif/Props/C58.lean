import Verif.Model.MonteCarlo
import Mathlib.MeasureTheory.Integral.Bochner.Basic
import Mathlib.LinearAlgebra.Matrix.PosDef
import Mathlib.Tactic.Linarith
import Mathlib.Tactic.NormNum
import Mathlib.Tactic.FinCases

/-!
# C58: correlated normals

The map applied to independent variates is the transpose of the Cholesky factor, so the covariance of the result is `Lᵀ L` instead of
`L Lᵀ`; the two agree only for a diagonal matrix.
-/

namespace Frm
namespace Spec

set_option autoImplicit false

/-- `L` is the Cholesky factor of `C`: lower triangular with positive diagonal and `L Lᵀ = C`. -/
def IsCholesky {n : Nat} (L C : Matrix (Fin n) (Fin n) ℝ) : Prop :=
  (∀ i j, i < j → L i j = 0) ∧ (∀ i, 0 < L i i) ∧ L * L.transpose = C

/-- Random variables with zero mean, unit variance and no correlation. -/
structure Uncorrelated {Ω : Type} [MeasurableSpace Ω] (P : MeasureTheory.Measure Ω) {n : Nat} (X : Ω → Fin n → ℝ) : Prop where
  integrable : ∀ i j, MeasureTheory.Integrable (fun ω => X ω i * X ω j) P
  second : ∀ i j, ∫ ω, X ω i * X ω j ∂P = if i = j then 1 else 0

/-- The variates returned by `normal_corr` in each state of the world. -/
def CorrelatedDraws {Ω : Type} {n : Nat} (chol : Matrix (Fin n) (Fin n) ℝ → Except Err (Matrix (Fin n) (Fin n) ℝ)) (C : Matrix (Fin n) (Fin n) ℝ)
    (X Y : Ω → Fin n → ℝ) : Prop := ∀ ω, normalCorr chol C [X ω] = .ok [Y ω]

/-- Second moments of the variates (their covariances, the means being zero). -/
def HasCovariance {Ω : Type} [MeasurableSpace Ω] (P : MeasureTheory.Measure Ω) {n : Nat} (Y : Ω → Fin n → ℝ) (S : Matrix (Fin n) (Fin n) ℝ) : Prop :=
  ∀ i j, ∫ ω, Y ω i * Y ω j ∂P = S i j

end Spec
end Frm

namespace Frm.Props

set_option autoImplicit false

open Frm Frm.Spec Matrix

/-- Each simulation is transformed by itself, in order. -/
theorem C58_elementwise {n : Nat} (chol : Matrix (Fin n) (Fin n) ℝ → Except Err (Matrix (Fin n) (Fin n) ℝ)) (C L : Matrix (Fin n) (Fin n) ℝ)
    (h : chol C = .ok L) (draws : List (Fin n → ℝ)) : ∃ out, normalCorr chol C draws = .ok out ∧ out.length = draws.length ∧
      ∀ (i : Nat) x, draws[i]? = some x → ∃ y, out[i]? = some y ∧ normalCorr chol C [x] = .ok [y] := by
  unfold normalCorr
  rw [h]
  refine ⟨_, rfl, by simp, fun i x hx => ⟨L.transpose.mulVec x, ?_, rfl⟩⟩
  simp [hx]

/-- The covariance of the result is `Lᵀ L`.  Missing for the property: that this is the requested matrix `L Lᵀ`, see `C58_iff_diagonal`. -/
theorem C58_covariance_partial {Ω : Type} [MeasurableSpace Ω] (P : MeasureTheory.Measure Ω) {n : Nat}
    (chol : Matrix (Fin n) (Fin n) ℝ → Except Err (Matrix (Fin n) (Fin n) ℝ)) (C L : Matrix (Fin n) (Fin n) ℝ) (h : chol C = .ok L)
    (X Y : Ω → Fin n → ℝ) (hX : Uncorrelated P X) (hY : CorrelatedDraws chol C X Y) : HasCovariance P Y (L.transpose * L) := by
  have hy : ∀ ω i, Y ω i = ∑ k, L k i * X ω k := by
    intro ω i
    have := hY ω
    unfold normalCorr at this
    rw [h] at this
    simp only [List.map_cons, List.map_nil, Except.ok.injEq, List.cons.injEq, and_true] at this
    rw [← this]
    simp [Matrix.mulVec, dotProduct, Matrix.transpose_apply]
  intro i j
  have e : (fun ω => Y ω i * Y ω j) = fun ω => ∑ k, ∑ l, (L k i * L l j) * (X ω k * X ω l) := by
    funext ω
    rw [hy, hy, Finset.sum_mul_sum]
    refine Finset.sum_congr rfl fun k _ => Finset.sum_congr rfl fun l _ => ?_
    ring
  have hint : ∀ k l, MeasureTheory.Integrable (fun ω => (L k i * L l j) * (X ω k * X ω l)) P := fun k l => (hX.integrable k l).const_mul _
  rw [e, MeasureTheory.integral_finsetSum _ (fun k _ => MeasureTheory.integrable_finsetSum _ (fun l _ => hint k l))]
  have inner : ∀ k, ∫ ω, (∑ l, (L k i * L l j) * (X ω k * X ω l)) ∂P = L k i * L k j := by
    intro k
    rw [MeasureTheory.integral_finsetSum _ (fun l _ => hint k l)]
    simp only [MeasureTheory.integral_const_mul, hX.second]
    simp
  simp only [inner]
  rw [Matrix.mul_apply]
  simp [Matrix.transpose_apply]

theorem normal_lower_diag {n : Nat} (L : Matrix (Fin n) (Fin n) ℝ) (hlow : ∀ i j, i < j → L i j = 0)
    (hn : L.transpose * L = L * L.transpose) : ∀ i j, i ≠ j → L i j = 0 := by
  have key : ∀ (m : Nat) (i : Fin n), i.val = m → ∀ j, i < j → L j i = 0 := by
    intro m
    induction m using Nat.strong_induction_on with
    | _ m ih =>
      intro i hi
      have hrow : ∀ k, k ≠ i → L i k = 0 := by
        intro k hk
        rcases lt_or_gt_of_ne hk with h | h
        · exact ih k.val (by rw [← hi]; exact h) k rfl i h
        · exact hlow i k h
      have h1 : (L * L.transpose) i i = L i i ^ 2 := by
        rw [Matrix.mul_apply, Finset.sum_eq_single i]
        · rw [Matrix.transpose_apply, sq]
        · intro k _ hk
          rw [hrow k hk, zero_mul]
        · intro h; exact absurd (Finset.mem_univ i) h
      have h2 : (L.transpose * L) i i = ∑ k, L k i ^ 2 := by
        rw [Matrix.mul_apply]
        exact Finset.sum_congr rfl fun k _ => by rw [Matrix.transpose_apply, sq]
      have h3 : ∑ k ∈ Finset.univ.erase i, L k i ^ 2 = 0 := by
        have := congrFun (congrFun hn i) i
        rw [h1, h2, ← Finset.add_sum_erase _ _ (Finset.mem_univ i)] at this
        linarith
      intro j hij
      have := (Finset.sum_eq_zero_iff_of_nonneg (fun k _ => sq_nonneg (L k i))).1 h3 j (Finset.mem_erase.2 ⟨(ne_of_gt hij), Finset.mem_univ j⟩)
      exact pow_eq_zero_iff (by norm_num) |>.1 this
  intro i j hij
  rcases lt_or_gt_of_ne hij with h | h
  · exact hlow i j h
  · exact key j.val j rfl i h

/-- The requested covariance is obtained exactly when the matrix is diagonal, that is when nothing is to be correlated. -/
theorem C58_iff_diagonal {Ω : Type} [MeasurableSpace Ω] (P : MeasureTheory.Measure Ω) {n : Nat}
    (chol : Matrix (Fin n) (Fin n) ℝ → Except Err (Matrix (Fin n) (Fin n) ℝ)) (C L : Matrix (Fin n) (Fin n) ℝ) (h : chol C = .ok L)
    (hL : IsCholesky L C) (X Y : Ω → Fin n → ℝ) (hX : Uncorrelated P X) (hY : CorrelatedDraws chol C X Y) :
    HasCovariance P Y C ↔ ∀ i j, i ≠ j → C i j = 0 := by
  have hcov := C58_covariance_partial P chol C L h X Y hX hY
  obtain ⟨hlow, hpos, hC⟩ := hL
  have hiff : HasCovariance P Y C ↔ L.transpose * L = L * L.transpose := by
    constructor
    · intro hh
      ext i j
      rw [← hcov i j, hh i j, hC]
    · intro hh i j
      rw [hcov i j, hh, hC]
  rw [hiff]
  constructor
  · intro hn i j hij
    have hd := normal_lower_diag L hlow hn
    rw [← hC, Matrix.mul_apply]
    refine Finset.sum_eq_zero fun k _ => ?_
    rw [Matrix.transpose_apply]
    by_cases hk : i = k
    · subst hk
      rw [hd j i (Ne.symm hij), mul_zero]
    · rw [hd i k hk, zero_mul]
  · intro hd
    -- a Cholesky factor of a diagonal matrix is diagonal
    have hdiag : ∀ (m : Nat) (j : Fin n), j.val = m → ∀ i, j < i → L i j = 0 := by
      intro m
      induction m using Nat.strong_induction_on with
      | _ m ih =>
        intro j hj i hij
        have h0 : (L * L.transpose) i j = L i j * L j j := by
          rw [Matrix.mul_apply, Finset.sum_eq_single j]
          · rw [Matrix.transpose_apply]
          · intro k _ hk
            rw [Matrix.transpose_apply]
            rcases lt_or_gt_of_ne hk with hlt | hgt
            · rw [ih k.val (by rw [← hj]; exact hlt) k rfl j hlt, mul_zero]
            · rw [hlow j k hgt, mul_zero]
          · intro hh; exact absurd (Finset.mem_univ j) hh
        rw [hC, hd i j (ne_of_gt hij)] at h0
        rcases mul_eq_zero.1 h0.symm with h1 | h1
        · exact h1
        · exact absurd h1 (hpos j).ne'
    have hd' : ∀ i j, i ≠ j → L i j = 0 := by
      intro i j hij
      rcases lt_or_gt_of_ne hij with hlt | hgt
      · exact hlow i j hlt
      · exact hdiag j.val j rfl i hgt
    have ht : L.transpose = L := by
      ext i j
      rw [Matrix.transpose_apply]
      by_cases hij : i = j
      · rw [hij]
      · rw [hd' i j hij, hd' j i (Ne.symm hij)]
    rw [ht]

/-- For two variates with correlation `r` the result has variances `1 + r²` and `1 - r²` and covariance `r √(1 - r²)`. -/
theorem C58_two {Ω : Type} [MeasurableSpace Ω] (P : MeasureTheory.Measure Ω)
    (chol : Matrix (Fin 2) (Fin 2) ℝ → Except Err (Matrix (Fin 2) (Fin 2) ℝ)) (r : ℝ) (h1 : -1 < r) (h2 : r < 1)
    (h : ∃ L, chol !![1, r; r, 1] = .ok L ∧ IsCholesky L !![1, r; r, 1])
    (X Y : Ω → Fin 2 → ℝ) (hX : Uncorrelated P X) (hY : CorrelatedDraws chol !![1, r; r, 1] X Y) :
    HasCovariance P Y !![1 + r ^ 2, r * Real.sqrt (1 - r ^ 2); r * Real.sqrt (1 - r ^ 2), 1 - r ^ 2] := by
  obtain ⟨L, hc, hlow, hpos, hC⟩ := h
  have hcov := C58_covariance_partial P chol _ L hc X Y hX hY
  have e01 : L 0 1 = 0 := hlow 0 1 (by decide)
  have e00 : L 0 0 * L 0 0 = 1 := by
    have := congrFun (congrFun hC 0) 0
    simpa [Matrix.mul_apply, Fin.sum_univ_two, e01] using this
  have e10 : L 1 0 * L 0 0 = r := by
    have := congrFun (congrFun hC 1) 0
    simpa [Matrix.mul_apply, Fin.sum_univ_two, e01] using this
  have e11 : L 1 0 * L 1 0 + L 1 1 * L 1 1 = 1 := by
    have := congrFun (congrFun hC 1) 1
    simpa [Matrix.mul_apply, Fin.sum_univ_two] using this
  have l00 : L 0 0 = 1 := by
    have hp := hpos 0
    nlinarith
  have l10 : L 1 0 = r := by rw [l00, mul_one] at e10; exact e10
  have l11 : L 1 1 = Real.sqrt (1 - r ^ 2) := by
    rw [l10] at e11
    rw [show 1 - r ^ 2 = L 1 1 ^ 2 by linarith, Real.sqrt_sq (hpos 1).le]
  have hs : Real.sqrt (1 - r ^ 2) * Real.sqrt (1 - r ^ 2) = 1 - r ^ 2 := Real.mul_self_sqrt (by nlinarith)
  intro i j
  rw [hcov i j]
  fin_cases i <;> fin_cases j <;> simp [Matrix.mul_apply, Fin.sum_univ_two, l00, l10, l11, e01, hs]
  · ring
  · ring

/-- The factor of a two-by-two correlation matrix exists. -/
example : IsCholesky !![1, 0; (0.6 : ℝ), 0.8] !![1, 0.6; 0.6, 1] := by
  refine ⟨?_, ?_, ?_⟩
  · intro i j hij
    fin_cases i <;> fin_cases j <;> simp_all
  · intro i
    fin_cases i <;> norm_num
  · ext i j
    fin_cases i <;> fin_cases j <;> norm_num [Matrix.mul_apply, Fin.sum_univ_two]

/-- Uncorrelated variates exist: a fair coin for one variate. -/
example : ∃ (X : Bool → Fin 1 → ℝ), Uncorrelated ((1 / 2 : ENNReal) • MeasureTheory.Measure.count) X := by
  refine ⟨fun b _ => if b then 1 else -1, ⟨fun i j => ?_, fun i j => ?_⟩⟩
  · have : (fun ω : Bool => (if ω then (1 : ℝ) else -1) * (if ω then 1 else -1)) = fun _ => 1 := by
      funext ω; cases ω <;> norm_num
    rw [this]
    apply MeasureTheory.Integrable.smul_measure
    · exact MeasureTheory.integrable_const _
    · norm_num
  · have : (fun ω : Bool => (if ω then (1 : ℝ) else -1) * (if ω then 1 else -1)) = fun _ => 1 := by
      funext ω; cases ω <;> norm_num
    rw [this]
    have hij : i = j := Subsingleton.elim _ _
    have hc : MeasureTheory.Measure.count ({false, true} : Set Bool) = 2 := by
      rw [show ({false, true} : Set Bool) = (({false, true} : Finset Bool) : Set Bool) by simp, MeasureTheory.Measure.count_apply_finset]
      norm_num
    simp [hij, MeasureTheory.Measure.real, hc]

end Frm.Props
