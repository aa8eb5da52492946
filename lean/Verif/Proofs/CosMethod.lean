import Verif.Model.CosMethod
import Verif.Proofs.Normal
import Mathlib.Analysis.SpecialFunctions.Integrals.Basic
import Mathlib.MeasureTheory.Integral.IntervalIntegral.IntegrationByParts
import Mathlib.Algebra.BigOperators.Intervals
import Mathlib.Tactic.Linarith
import Mathlib.Tactic.FieldSimp

/-!
# Cosine sums, integrals and Riemann sums for the cosine method
-/

namespace Frm.Cos
open Classical Finset

set_option autoImplicit false

/-! ## Points -/

theorem mem_points {p a b dt x : ℝ} (hdt : 0 < dt) :
    x ∈ cosPoints p a b dt ↔ x = p ∨ ∃ i : ℕ, x = a + i * dt ∧ x < b + dt := by
  unfold cosPoints cosGrid
  rw [Finset.mem_sort, List.mem_toFinset, List.mem_cons, List.mem_map]
  refine or_congr_right ⟨?_, ?_⟩
  · rintro ⟨i, hi, rfl⟩
    refine ⟨i, rfl, ?_⟩
    rw [List.mem_range, Nat.lt_ceil, lt_div_iff₀ hdt] at hi
    linarith
  · rintro ⟨i, rfl, hi⟩
    refine ⟨i, ?_, rfl⟩
    rw [List.mem_range, Nat.lt_ceil, lt_div_iff₀ hdt]
    linarith

theorem points_sorted (p a b dt : ℝ) : (cosPoints p a b dt).Pairwise (· < ·) := by
  unfold cosPoints
  exact (Finset.sortedLT_sort _).pairwise

theorem points_nodup (p a b dt : ℝ) : (cosPoints p a b dt).Nodup := Finset.sort_nodup _ _

theorem diff_length (l : List ℝ) : (npDiff l).length = l.length - 1 := by
  induction l with
  | nil => rfl
  | cons x l ih =>
    cases l with
    | nil => rfl
    | cons y l => simp only [npDiff, List.length_cons] at ih ⊢; omega

theorem cumsum_length (l : List ℝ) : (npCumsum l).length = l.length := by
  induction l with
  | nil => rfl
  | cons x l ih => simp [npCumsum, ih]

theorem cumsum_get (l : List ℝ) (i : ℕ) (h : i < l.length) :
    (npCumsum l)[i]? = some (∑ j ∈ range (i + 1), l.getD j 0) := by
  induction l generalizing i with
  | nil => simp at h
  | cons x l ih =>
    cases i with
    | zero => simp [npCumsum]
    | succ i =>
      simp only [npCumsum, List.getElem?_cons_succ, List.getElem?_map]
      rw [ih i (by simpa using h), Finset.sum_range_succ' _ (i + 1)]
      simp [add_comm]

theorem sum_getD (l : List ℝ) : l.sum = ∑ j ∈ range l.length, l.getD j 0 := by
  induction l with
  | nil => simp
  | cons x l ih =>
    rw [List.sum_cons, ih, List.length_cons, Finset.sum_range_succ']
    simp [add_comm]

/-- The step after the `j`-th point: to the next point, or `dt` after the last. -/
noncomputable def stepAfter (dt : ℝ) (l : List ℝ) (j : ℕ) : ℝ :=
  if j + 1 < l.length then l.getD (j + 1) 0 - l.getD j 0 else dt

theorem diff_getD (dt : ℝ) (l : List ℝ) (j : ℕ) (h : j < l.length) : (npDiff l ++ [dt]).getD j 0 = stepAfter dt l j := by
  induction l generalizing j with
  | nil => simp at h
  | cons x l ih =>
    cases l with
    | nil =>
      have : j = 0 := by simpa using h
      subst this
      simp [npDiff, stepAfter]
    | cons y l =>
      cases j with
      | zero => simp [npDiff, stepAfter]
      | succ j =>
        have := ih j (by simpa using h)
        simp only [npDiff, List.cons_append, List.getD_cons_succ] at this ⊢
        rw [this]
        simp [stepAfter]

theorem zip_getD (f : ℝ → ℝ) (dt : ℝ) (l : List ℝ) (j : ℕ) (h : j < l.length) :
    (List.zipWith (· * ·) (l.map f) (npDiff l ++ [dt])).getD j 0 = f (l.getD j 0) * stepAfter dt l j := by
  have hl : j < (npDiff l ++ [dt]).length := by simp [diff_length]; omega
  rw [← diff_getD dt l j h, List.getD_eq_getElem?_getD, List.getElem?_zipWith]
  simp only [List.getElem?_map, List.getD_eq_getElem?_getD]
  rw [List.getElem?_eq_getElem h, List.getElem?_eq_getElem hl]
  rfl

theorem zip_length (f : ℝ → ℝ) (dt : ℝ) (l : List ℝ) (h : l ≠ []) :
    (List.zipWith (· * ·) (l.map f) (npDiff l ++ [dt])).length = l.length := by
  have : 0 < l.length := List.length_pos_iff.2 h
  simp [diff_length]
  omega

/-! ## Cosine sums -/

theorem sin_half_mul (t : ℝ) (n : ℕ) : 2 * Real.sin (t / 2) * ∑ i ∈ range (n + 1), Real.cos (i * t) =
    Real.sin ((n + 1 / 2) * t) + Real.sin (t / 2) := by
  induction n with
  | zero => simp; ring_nf
  | succ n ih =>
    rw [Finset.sum_range_succ, mul_add, ih]
    push_cast
    have e1 : Real.sin (((n : ℝ) + 1 + 1 / 2) * t) = Real.sin ((n + 1) * t + t / 2) := by congr 1; ring
    have e2 : Real.sin (((n : ℝ) + 1 / 2) * t) = Real.sin ((n + 1) * t - t / 2) := by congr 1; ring
    rw [e1, e2, Real.sin_add, Real.sin_sub]
    ring

theorem cos_nat_pi (k : ℕ) : Real.cos (k * Real.pi) = (-1) ^ k := Real.cos_nat_mul_pi k

/-- The sum of a cosine over an even grid of the interval, ends included. -/
theorem cos_grid_sum {n k : ℕ} (hk : 0 < k) (hkn : k < 2 * n) :
    ∑ i ∈ range (n + 1), Real.cos (i * (k * Real.pi / n)) = (1 + (-1) ^ k) / 2 := by
  have hn : (0 : ℝ) < n := by have : 0 < n := by omega
                              exact_mod_cast this
  have hpi := Real.pi_pos
  have hk' : (0 : ℝ) < k := by exact_mod_cast hk
  have hkn' : (k : ℝ) < 2 * n := by exact_mod_cast hkn
  have hs : 0 < Real.sin (k * Real.pi / n / 2) := by
    apply Real.sin_pos_of_pos_of_lt_pi
    · positivity
    · rw [div_div, div_lt_iff₀ (by positivity)]
      nlinarith
  have h := sin_half_mul (k * Real.pi / n) n
  have e : ((n : ℝ) + 1 / 2) * (k * Real.pi / n) = k * Real.pi / n / 2 + k * Real.pi := by field_simp; ring
  rw [e, Real.sin_add_nat_mul_pi] at h
  have : 2 * Real.sin (k * Real.pi / n / 2) * (∑ i ∈ range (n + 1), Real.cos (i * (k * Real.pi / n)) - (1 + (-1) ^ k) / 2) = 0 := by
    rw [mul_sub, h]
    ring
  have := (mul_eq_zero.1 this).resolve_left (by positivity)
  linarith

/-! ## Integrals of cosines -/

theorem cos_integral {a b : ℝ} (hab : a < b) (m : ℤ) :
    ∫ x in a..b, Real.cos (m * Real.pi * (x - a) / (b - a)) = if m = 0 then b - a else 0 := by
  have hL : b - a ≠ 0 := by linarith
  split_ifs with hm
  · subst hm
    simp
  · have hm' : (m : ℝ) ≠ 0 := by exact_mod_cast hm
    have hc : (m : ℝ) * Real.pi / (b - a) ≠ 0 := div_ne_zero (mul_ne_zero hm' Real.pi_ne_zero) hL
    have e : ∀ x : ℝ, (m : ℝ) * Real.pi * (x - a) / (b - a) = (m * Real.pi / (b - a)) * x - (m * Real.pi / (b - a)) * a := fun x => by ring
    simp_rw [e]
    rw [intervalIntegral.integral_comp_mul_sub (fun x => Real.cos x) hc, integral_cos]
    have h1 : (m : ℝ) * Real.pi / (b - a) * b - m * Real.pi / (b - a) * a = m * Real.pi := by field_simp
    rw [h1, sub_self, Real.sin_zero, Real.sin_int_mul_pi]
    simp

theorem cos_mul_cos_integral {a b : ℝ} (hab : a < b) (j k : ℕ) :
    ∫ x in a..b, Real.cos (j * Real.pi * (x - a) / (b - a)) * Real.cos (k * Real.pi * (x - a) / (b - a)) =
      if j = k then (if k = 0 then b - a else (b - a) / 2) else 0 := by
  have e : ∀ x : ℝ, Real.cos (j * Real.pi * (x - a) / (b - a)) * Real.cos (k * Real.pi * (x - a) / (b - a)) =
      (Real.cos (((j - k : ℤ) : ℝ) * Real.pi * (x - a) / (b - a)) + Real.cos (((j + k : ℤ) : ℝ) * Real.pi * (x - a) / (b - a))) / 2 := by
    intro x
    have e1 : ((j - k : ℤ) : ℝ) * Real.pi * (x - a) / (b - a) = j * Real.pi * (x - a) / (b - a) - k * Real.pi * (x - a) / (b - a) := by
      push_cast; ring
    have e2 : ((j + k : ℤ) : ℝ) * Real.pi * (x - a) / (b - a) = j * Real.pi * (x - a) / (b - a) + k * Real.pi * (x - a) / (b - a) := by
      push_cast; ring
    rw [e1, e2, Real.cos_sub, Real.cos_add]
    ring
  have hi : ∀ m : ℤ, IntervalIntegrable (fun x => Real.cos (m * Real.pi * (x - a) / (b - a))) MeasureTheory.volume a b := by
    intro m
    exact (by fun_prop : Continuous fun x => Real.cos (m * Real.pi * (x - a) / (b - a))).intervalIntegrable _ _
  simp_rw [e]
  rw [intervalIntegral.integral_div, intervalIntegral.integral_add (hi _) (hi _), cos_integral hab, cos_integral hab]
  by_cases hjk : j = k
  · subst hjk
    by_cases hj : j = 0
    · subst hj; simp
    · have : ((j : ℤ) + j) ≠ 0 := by omega
      simp [hj, this]
  · have h1 : ((j : ℤ) - k) ≠ 0 := by omega
    have h2 : ((j : ℤ) + k) ≠ 0 := by omega
    simp [hjk, h1, h2]

/-! ## Riemann sums -/

theorem getD_get {l : List ℝ} {i : ℕ} (h : i < l.length) : l.getD i 0 = l[i] := by
  rw [List.getD_eq_getElem?_getD, List.getElem?_eq_getElem h]
  rfl

/-- The sum of `f` times the step up to and including the point `p`. -/
noncomputable def leftSum (f : ℝ → ℝ) (dt : ℝ) (l : List ℝ) (i : ℕ) : ℝ :=
  ∑ j ∈ range (i + 1), f (l.getD j 0) * stepAfter dt l j

theorem cell_bound {f : ℝ → ℝ} {K : ℝ} (hK : ∀ x y, |f x - f y| ≤ K * |x - y|) (hf : Continuous f) {x y : ℝ} (hxy : x ≤ y) :
    |f x * (y - x) - ∫ t in x..y, f t| ≤ K * (y - x) * (y - x) := by
  have e : f x * (y - x) - ∫ t in x..y, f t = ∫ t in x..y, (f x - f t) := by
    rw [intervalIntegral.integral_sub (by simp) (hf.intervalIntegrable _ _)]
    simp [mul_comm]
  rw [e]
  have hK0 : 0 ≤ K := by
    have := (abs_nonneg _).trans (hK 1 0)
    simpa using this
  have := intervalIntegral.norm_integral_le_of_norm_le_const (a := x) (b := y) (C := K * (y - x)) (f := fun t => f x - f t) ?_
  · rw [Real.norm_eq_abs, abs_of_nonneg (sub_nonneg.2 hxy)] at this
    exact this
  · intro t ht
    rw [Set.uIoc_of_le hxy] at ht
    rw [Real.norm_eq_abs]
    refine (hK x t).trans ?_
    apply mul_le_mul_of_nonneg_left _ hK0
    rw [abs_sub_comm, abs_of_nonneg (by linarith [ht.1])]
    linarith [ht.2]

theorem leftSum_close {f : ℝ → ℝ} {K dt : ℝ} (hK : ∀ x y, |f x - f y| ≤ K * |x - y|) (hf : Continuous f) (l : List ℝ)
    (hs : l.Pairwise (· < ·)) (hg : ∀ j, j + 1 < l.length → l.getD (j + 1) 0 - l.getD j 0 ≤ dt) (i : ℕ) (hi : i < l.length) :
    |leftSum f dt l i - f (l.getD i 0) * stepAfter dt l i - ∫ t in (l.getD 0 0)..(l.getD i 0), f t| ≤
      K * dt * (l.getD i 0 - l.getD 0 0) := by
  have hK0 : 0 ≤ K := by
    have := (abs_nonneg _).trans (hK 1 0)
    simpa using this
  induction i with
  | zero => simp [leftSum]
  | succ i ih =>
    have ih := ih (by omega)
    have hlt : l.getD i 0 < l.getD (i + 1) 0 := by
      rw [getD_get (by omega), getD_get hi]
      exact List.pairwise_iff_getElem.1 hs i (i + 1) (by omega) hi (by omega)
    have hgi := hg i hi
    have hst : stepAfter dt l i = l.getD (i + 1) 0 - l.getD i 0 := by simp only [stepAfter, if_pos hi]
    have e1 : leftSum f dt l (i + 1) = leftSum f dt l i + f (l.getD (i + 1) 0) * stepAfter dt l (i + 1) := by
      unfold leftSum; rw [Finset.sum_range_succ]
    have e2 := intervalIntegral.integral_add_adjacent_intervals (hf.intervalIntegrable (μ := MeasureTheory.volume) (l.getD 0 0) (l.getD i 0))
      (hf.intervalIntegrable (l.getD i 0) (l.getD (i + 1) 0))
    have hc := cell_bound hK hf hlt.le
    rw [e1, ← e2]
    rw [hst] at ih
    have hb : K * (l.getD (i + 1) 0 - l.getD i 0) * (l.getD (i + 1) 0 - l.getD i 0) ≤ K * dt * (l.getD (i + 1) 0 - l.getD i 0) := by
      apply mul_le_mul_of_nonneg_right _ (by linarith)
      exact mul_le_mul_of_nonneg_left hgi hK0
    rw [abs_le] at ih hc ⊢
    constructor <;> nlinarith [ih.1, ih.2, hc.1, hc.2]

end Frm.Cos
