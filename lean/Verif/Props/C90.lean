import Verif.Proofs.CosMethod
import Mathlib.MeasureTheory.Measure.CharacteristicFunction.Basic
import Mathlib.MeasureTheory.Measure.Dirac
import Mathlib.Analysis.SpecialFunctions.Trigonometric.Bounds

/-!
# C90: densities and distribution functions by the cosine method
-/

namespace Frm
namespace Spec

set_option autoImplicit false

/-- The cosine coefficient of a density on `[a, b]`, by way of its characteristic function (Fang and Oosterlee 2008, equation 8). -/
noncomputable def densityCoefficient (cf : ℝ → ℂ) (a b : ℝ) (k : ℕ) : ℝ :=
  2 / (b - a) * (cf (k * Real.pi / (b - a)) * Complex.exp (-(k * Real.pi * a / (b - a) : ℝ) * Complex.I)).re

/-- The cosine series with terms up to `N` (equation 11). -/
noncomputable def cosineSeries (cf : ℝ → ℂ) (a b : ℝ) (N : ℕ) (x : ℝ) : ℝ :=
  densityCoefficient cf a b 0 / 2 + ∑ k ∈ Finset.Icc 1 N, densityCoefficient cf a b k * Real.cos (k * Real.pi * (x - a) / (b - a))

/-- A bound on the slope of that series. -/
noncomputable def cosineSlope (cf : ℝ → ℂ) (a b : ℝ) (N : ℕ) : ℝ :=
  ∑ k ∈ Finset.Icc 1 N, |densityCoefficient cf a b k| * (k * Real.pi / (b - a))

end Spec
end Frm

namespace Frm.Props
open Classical Finset

set_option autoImplicit false

open Frm Frm.Spec Frm.Cos

theorem cosCoefficient_eq (cf : ℝ → ℂ) (a b : ℝ) (k : ℕ) : cosCoefficient cf a b k = densityCoefficient cf a b k := by
  unfold cosCoefficient densityCoefficient
  congr 4
  push_cast
  ring

theorem cosDensity_eq (cf : ℝ → ℂ) (a b : ℝ) (N : ℕ) : cosDensity cf a b N = cosineSeries cf a b N := by
  funext x
  unfold cosDensity cosineSeries
  rw [← List.sum_toFinset _ List.nodup_range, List.toFinset_range, Finset.sum_range_succ', add_comm]
  congr 1
  · simp [cosWeight, cosCoefficient_eq]
    ring
  · have e : Finset.Icc 1 N = Finset.Ico 1 (N + 1) := by ext; simp
    rw [e, Finset.sum_Ico_eq_sum_range, Nat.add_sub_cancel]
    refine Finset.sum_congr rfl fun k _ => ?_
    rw [cosCoefficient_eq, add_comm 1 k]
    simp [cosWeight]

theorem points_ne_nil (p a b dt : ℝ) : cosPoints p a b dt ≠ [] := by
  intro h
  have : p ∈ cosPoints p a b dt := by
    unfold cosPoints
    simp
  rw [h] at this
  cases this

theorem p_mem_points (p a b dt : ℝ) : p ∈ cosPoints p a b dt := by
  unfold cosPoints
  simp

/-- What a run comes to, when the arguments are admissible. -/
theorem cosMethod_run {p dt a b : ℝ} (cf : ℝ → ℂ) {N : ℤ} (h : 0 < dt ∧ a + dt ≤ b ∧ a ≤ p ∧ p ≤ b) (hN : 0 ≤ N) :
    cosMethod p cf dt a b N =
      (if leftSum (cosineSeries cf a b N.toNat) dt (cosPoints p a b dt) ((cosPoints p a b dt).length - 1) < normCdf 5 then .error .value else
        .ok { cdfAtP := leftSum (cosineSeries cf a b N.toNat) dt (cosPoints p a b dt) ((cosPoints p a b dt).idxOf p)
              cdf := npCumsum (List.zipWith (· * ·) ((cosPoints p a b dt).map (cosineSeries cf a b N.toNat)) (npDiff (cosPoints p a b dt) ++ [dt]))
              pdf := (cosPoints p a b dt).map (cosineSeries cf a b N.toNat)
              integral := leftSum (cosineSeries cf a b N.toNat) dt (cosPoints p a b dt) ((cosPoints p a b dt).length - 1)
              pts := cosPoints p a b dt }) := by
  have hne := points_ne_nil p a b dt
  have hlen : 0 < (cosPoints p a b dt).length := List.length_pos_iff.2 hne
  have hz := zip_length (cosineSeries cf a b N.toNat) dt _ hne
  have hi : (cosPoints p a b dt).idxOf p < (cosPoints p a b dt).length := List.idxOf_lt_length_of_mem (p_mem_points p a b dt)
  have hsum : ∀ i, i < (cosPoints p a b dt).length →
      ∑ j ∈ range (i + 1), (List.zipWith (· * ·) ((cosPoints p a b dt).map (cosineSeries cf a b N.toNat)) (npDiff (cosPoints p a b dt) ++ [dt])).getD j 0 =
        leftSum (cosineSeries cf a b N.toNat) dt (cosPoints p a b dt) i := by
    intro i hi
    unfold leftSum
    refine Finset.sum_congr rfl fun j hj => ?_
    rw [Finset.mem_range] at hj
    exact zip_getD _ _ _ j (by omega)
  unfold cosMethod
  rw [if_neg (not_not.2 h), if_neg (not_lt.2 hN)]
  simp only [cosDensity_eq]
  rw [cumsum_get _ _ (by rw [hz]; exact hi), hsum _ hi, sum_getD, hz]
  have := hsum ((cosPoints p a b dt).length - 1) (by omega)
  rw [Nat.sub_add_cancel hlen] at this
  rw [this]

theorem cosMethod_args {p dt a b : ℝ} {cf : ℝ → ℂ} {N : ℤ} {r : CosResult} (h : cosMethod p cf dt a b N = .ok r) :
    (0 < dt ∧ a + dt ≤ b ∧ a ≤ p ∧ p ≤ b) ∧ 0 ≤ N := by
  unfold cosMethod at h
  by_cases h1 : 0 < dt ∧ a + dt ≤ b ∧ a ≤ p ∧ p ≤ b
  · rw [if_neg (not_not.2 h1)] at h
    by_cases h2 : N < 0
    · rw [if_pos h2] at h; cases h
    · exact ⟨h1, not_lt.1 h2⟩
  · rw [if_pos h1] at h; cases h

theorem cosMethod_result {p dt a b : ℝ} {cf : ℝ → ℂ} {N : ℤ} {r : CosResult} (h : cosMethod p cf dt a b N = .ok r) :
    r = { cdfAtP := leftSum (cosineSeries cf a b N.toNat) dt (cosPoints p a b dt) ((cosPoints p a b dt).idxOf p)
          cdf := npCumsum (List.zipWith (· * ·) ((cosPoints p a b dt).map (cosineSeries cf a b N.toNat)) (npDiff (cosPoints p a b dt) ++ [dt]))
          pdf := (cosPoints p a b dt).map (cosineSeries cf a b N.toNat)
          integral := leftSum (cosineSeries cf a b N.toNat) dt (cosPoints p a b dt) ((cosPoints p a b dt).length - 1)
          pts := cosPoints p a b dt } ∧
    normCdf 5 ≤ leftSum (cosineSeries cf a b N.toNat) dt (cosPoints p a b dt) ((cosPoints p a b dt).length - 1) := by
  obtain ⟨h1, h2⟩ := cosMethod_args h
  rw [cosMethod_run cf h1 h2] at h
  split_ifs at h with h3
  cases h
  exact ⟨rfl, not_lt.1 h3⟩

/-! ## The properties -/

/-- Exactly the step, ranges and points that make no sense are refused with an `AssertionError`. -/
theorem C90_arguments (p : ℝ) (cf : ℝ → ℂ) (dt a b : ℝ) (N : ℤ) :
    cosMethod p cf dt a b N = .error .assertion ↔ ¬ (0 < dt ∧ a + dt ≤ b ∧ a ≤ p ∧ p ≤ b) := by
  constructor
  · intro h hc
    by_cases hN : 0 ≤ N
    · rw [cosMethod_run cf hc hN] at h
      split_ifs at h; cases h
    · unfold cosMethod at h
      rw [if_neg (not_not.2 hc), if_pos (not_le.1 hN)] at h
      cases h
  · intro h
    unfold cosMethod
    rw [if_pos h]

/-- With sensible arguments the only other outcome is a `ValueError`: the number of terms is negative, or the sum of the cells is below `Φ(5)`. -/
theorem C90_outcomes (p : ℝ) (cf : ℝ → ℂ) (dt a b : ℝ) (N : ℤ) (h : 0 < dt ∧ a + dt ≤ b ∧ a ≤ p ∧ p ≤ b) :
    (N < 0 ∧ cosMethod p cf dt a b N = .error .value) ∨ (0 ≤ N ∧ cosMethod p cf dt a b N = .error .value) ∨
    ∃ r, cosMethod p cf dt a b N = .ok r ∧ normCdf 5 ≤ r.integral := by
  by_cases hN : 0 ≤ N
  · right
    rw [cosMethod_run cf h hN]
    split_ifs with h3
    · exact .inl ⟨hN, rfl⟩
    · exact .inr ⟨_, rfl, not_lt.1 h3⟩
  · left
    refine ⟨not_le.1 hN, ?_⟩
    unfold cosMethod
    rw [if_neg (not_not.2 h), if_pos (not_le.1 hN)]

/-- The points: `p` and the multiples of the step from `a`, up to the first at or past `b`; increasing, from `a`, no more than a step apart. -/
theorem C90_points {p dt a b : ℝ} {cf : ℝ → ℂ} {N : ℤ} {r : CosResult} (h : cosMethod p cf dt a b N = .ok r) :
    r.pts.Pairwise (· < ·) ∧ (∀ x, x ∈ r.pts ↔ x = p ∨ ∃ i : ℕ, x = a + i * dt ∧ x < b + dt) ∧ r.pts.getD 0 0 = a ∧
    (∀ j, j + 1 < r.pts.length → r.pts.getD (j + 1) 0 - r.pts.getD j 0 ≤ dt) ∧ ∃ x ∈ r.pts, b ≤ x := by
  obtain ⟨h1, h2⟩ := cosMethod_args h
  obtain ⟨rfl, -⟩ := cosMethod_result h
  obtain ⟨hdt, hab, hpa, hpb⟩ := h1
  have hs := points_sorted p a b dt
  have hmem := fun x => mem_points (p := p) (a := a) (b := b) (dt := dt) (x := x) hdt
  have ha : a ∈ cosPoints p a b dt := (hmem a).2 (.inr ⟨0, by simp, by linarith⟩)
  have hmin : ∀ x ∈ cosPoints p a b dt, a ≤ x := by
    intro x hx
    rcases (hmem x).1 hx with rfl | ⟨i, rfl, -⟩
    · exact hpa
    · have : (0 : ℝ) ≤ i := Nat.cast_nonneg i
      nlinarith
  refine ⟨hs, hmem, ?_, ?_, ?_⟩
  · obtain ⟨i, hi, hia⟩ := List.getElem_of_mem ha
    have h0 : 0 < (cosPoints p a b dt).length := by omega
    rw [getD_get h0]
    rcases Nat.eq_zero_or_pos i with rfl | hpos
    · exact hia
    · have := List.pairwise_iff_getElem.1 hs 0 i h0 hi hpos
      rw [hia] at this
      exact absurd (hmin _ (List.getElem_mem h0)) (not_le.2 this)
  · intro j (hj : j + 1 < (cosPoints p a b dt).length)
    have hj0 : j < (cosPoints p a b dt).length := by omega
    show (cosPoints p a b dt).getD (j + 1) 0 - (cosPoints p a b dt).getD j 0 ≤ dt
    rw [getD_get hj, getD_get hj0]
    by_contra hcon
    rw [not_le] at hcon
    -- a grid point lies strictly between the two
    have hxj := hmin _ (List.getElem_mem hj0)
    set x := (cosPoints p a b dt)[j] with hx
    set y := (cosPoints p a b dt)[j + 1] with hy
    have hyb : y < b + dt := by
      rcases (hmem y).1 (List.getElem_mem hj) with e | ⟨i, -, hi⟩
      · rw [e]; linarith
      · exact hi
    have hz : a + (⌊(x - a) / dt⌋₊ + 1 : ℕ) * dt ∈ cosPoints p a b dt := by
      refine (hmem _).2 (.inr ⟨_, rfl, ?_⟩)
      have := Nat.floor_le (show 0 ≤ (x - a) / dt from div_nonneg (by linarith) hdt.le)
      rw [le_div_iff₀ hdt] at this
      push_cast
      linarith
    have hz1 : x < a + (⌊(x - a) / dt⌋₊ + 1 : ℕ) * dt := by
      have := Nat.lt_floor_add_one ((x - a) / dt)
      rw [div_lt_iff₀ hdt] at this
      push_cast
      linarith
    have hz2 : a + (⌊(x - a) / dt⌋₊ + 1 : ℕ) * dt < y := by
      have := Nat.floor_le (show 0 ≤ (x - a) / dt from div_nonneg (by linarith) hdt.le)
      rw [le_div_iff₀ hdt] at this
      push_cast
      linarith
    obtain ⟨m, hm, hmz⟩ := List.getElem_of_mem hz
    rw [← hmz] at hz1 hz2
    have hpw := List.pairwise_iff_getElem.1 hs
    rcases Nat.lt_or_ge j m with hjm | hjm
    · rcases Nat.lt_or_ge (j + 1) m with h' | h'
      · exact absurd (hpw _ _ hj hm h') (not_lt.2 hz2.le)
      · have : m = j + 1 := by omega
        subst this
        exact lt_irrefl _ hz2
    · rcases Nat.eq_or_lt_of_le hjm with h' | h'
      · subst h'
        exact lt_irrefl _ hz1
      · exact absurd (hpw _ _ hm hj0 h') (not_lt.2 hz1.le)
  · refine ⟨a + (⌈(b - a) / dt⌉₊ : ℕ) * dt, (hmem _).2 (.inr ⟨_, rfl, ?_⟩), ?_⟩
    · have := Nat.ceil_lt_add_one (show 0 ≤ (b - a) / dt from div_nonneg (by linarith) hdt.le)
      have h3 : (⌈(b - a) / dt⌉₊ : ℝ) * dt < ((b - a) / dt + 1) * dt := mul_lt_mul_of_pos_right this hdt
      rw [add_mul, div_mul_cancel₀ _ hdt.ne'] at h3
      linarith
    · have := Nat.le_ceil ((b - a) / dt)
      rw [div_le_iff₀ hdt] at this
      linarith

/-- The density at each point is the cosine series of the characteristic function. -/
theorem C90_density {p dt a b : ℝ} {cf : ℝ → ℂ} {N : ℤ} {r : CosResult} (h : cosMethod p cf dt a b N = .ok r) :
    r.pdf = r.pts.map (cosineSeries cf a b N.toNat) := by
  obtain ⟨rfl, -⟩ := cosMethod_result h
  rfl

/-- The distribution function at a point sums, up to and with that point, the density times the distance to the next point (the step after the last);
its last value is the integral; the value at `p` is the one at the place of `p`. -/
theorem C90_distribution {p dt a b : ℝ} {cf : ℝ → ℂ} {N : ℤ} {r : CosResult} (h : cosMethod p cf dt a b N = .ok r) :
    r.cdf.length = r.pts.length ∧
    (∀ i : ℕ, i < r.pts.length → r.cdf[i]? = some (∑ j ∈ range (i + 1), cosineSeries cf a b N.toNat (r.pts.getD j 0) *
      (if j + 1 < r.pts.length then r.pts.getD (j + 1) 0 - r.pts.getD j 0 else dt))) ∧
    r.cdf.getLast? = some r.integral ∧ (∀ i : ℕ, r.pts[i]? = some p → r.cdf[i]? = some r.cdfAtP) := by
  obtain ⟨rfl, -⟩ := cosMethod_result h
  have hne := points_ne_nil p a b dt
  have hlen : 0 < (cosPoints p a b dt).length := List.length_pos_iff.2 hne
  have hz := zip_length (cosineSeries cf a b N.toNat) dt _ hne
  have hget : ∀ i, i < (cosPoints p a b dt).length →
      (npCumsum (List.zipWith (· * ·) ((cosPoints p a b dt).map (cosineSeries cf a b N.toNat)) (npDiff (cosPoints p a b dt) ++ [dt])))[i]? =
        some (leftSum (cosineSeries cf a b N.toNat) dt (cosPoints p a b dt) i) := by
    intro i hi
    rw [cumsum_get _ _ (by rw [hz]; exact hi)]
    unfold leftSum
    refine congrArg some (Finset.sum_congr rfl fun j hj => ?_)
    rw [Finset.mem_range] at hj
    exact zip_getD _ _ _ j (by omega)
  refine ⟨by simp only [cumsum_length, hz], hget, ?_, ?_⟩
  · rw [List.getLast?_eq_getElem?, cumsum_length, hz]
    exact hget _ (by omega)
  · intro i hi
    have hlt : i < (cosPoints p a b dt).length := (List.getElem?_eq_some_iff.1 hi).1
    have hip := (List.getElem?_eq_some_iff.1 hi).2
    have : (cosPoints p a b dt).idxOf p = i := by
      have := (points_nodup p a b dt).idxOf_getElem i hlt
      rwa [hip] at this
    rw [this]
    exact hget i hlt

theorem series_continuous (cf : ℝ → ℂ) (a b : ℝ) (N : ℕ) : Continuous (cosineSeries cf a b N) := by
  unfold cosineSeries
  fun_prop

theorem series_lipschitz (cf : ℝ → ℂ) {a b : ℝ} (hab : a < b) (N : ℕ) (x y : ℝ) :
    |cosineSeries cf a b N x - cosineSeries cf a b N y| ≤ cosineSlope cf a b N * |x - y| := by
  unfold cosineSeries cosineSlope
  rw [add_sub_add_left_eq_sub, ← Finset.sum_sub_distrib, Finset.sum_mul]
  refine le_trans (Finset.abs_sum_le_sum_abs _ _) (Finset.sum_le_sum fun (k : ℕ) _ => ?_)
  rw [← mul_sub, abs_mul, mul_assoc |densityCoefficient cf a b k|]
  refine mul_le_mul_of_nonneg_left ?_ (abs_nonneg (densityCoefficient cf a b k))
  have h1 := Real.abs_cos_sub_cos_le (k * Real.pi * (x - a) / (b - a)) (k * Real.pi * (y - a) / (b - a))
  refine h1.trans (le_of_eq ?_)
  have e : k * Real.pi * (x - a) / (b - a) - k * Real.pi * (y - a) / (b - a) = (k * Real.pi / (b - a)) * (x - y) := by ring
  rw [e, abs_mul, abs_of_nonneg]
  have : 0 < b - a := by linarith
  positivity

/-- The distribution function at `p` is the integral of the density from `a` to `p`, up to an error of the order of the step. -/
theorem C90_close {p dt a b : ℝ} {cf : ℝ → ℂ} {N : ℤ} {r : CosResult} (h : cosMethod p cf dt a b N = .ok r) :
    |r.cdfAtP - ∫ x in a..p, cosineSeries cf a b N.toNat x| ≤
      dt * (cosineSlope cf a b N.toNat * (p - a) + |cosineSeries cf a b N.toNat p|) := by
  obtain ⟨hs, -, h0, hgap, -⟩ := C90_points h
  obtain ⟨⟨hdt, hab, hpa, hpb⟩, -⟩ := cosMethod_args h
  obtain ⟨rfl, -⟩ := cosMethod_result h
  simp only at hs h0 hgap ⊢
  have hi : (cosPoints p a b dt).idxOf p < (cosPoints p a b dt).length := List.idxOf_lt_length_of_mem (p_mem_points p a b dt)
  have hp : (cosPoints p a b dt).getD ((cosPoints p a b dt).idxOf p) 0 = p := by
    rw [getD_get hi]
    exact List.getElem_idxOf hi
  have hc := leftSum_close (series_lipschitz cf (show a < b by linarith) N.toNat) (series_continuous cf a b N.toNat) _ hs hgap _ hi
  rw [h0, hp] at hc
  have hstep : 0 ≤ stepAfter dt (cosPoints p a b dt) ((cosPoints p a b dt).idxOf p) ∧
      stepAfter dt (cosPoints p a b dt) ((cosPoints p a b dt).idxOf p) ≤ dt := by
    unfold stepAfter
    split_ifs with hj
    · refine ⟨?_, hgap _ hj⟩
      rw [getD_get hj, getD_get hi]
      exact sub_nonneg.2 (List.pairwise_iff_getElem.1 hs _ _ hi hj (by omega)).le
    · exact ⟨hdt.le, le_rfl⟩
  set S := stepAfter dt (cosPoints p a b dt) ((cosPoints p a b dt).idxOf p)
  set f := cosineSeries cf a b N.toNat
  have h1 : |f p * S| ≤ |f p| * dt := by
    rw [abs_mul, abs_of_nonneg hstep.1]
    exact mul_le_mul_of_nonneg_left hstep.2 (abs_nonneg _)
  rw [abs_le] at hc h1 ⊢
  constructor <;> nlinarith [hc.1, hc.2, h1.1, h1.2]

/-- The coefficients are those of the density, when the characteristic function is that of a density on `[a, b]`. -/
theorem coefficient_of_density {a b : ℝ} {g : ℝ → ℝ} (hg : Continuous g) {cf : ℝ → ℂ}
    (hcf : ∀ u : ℝ, cf u = ∫ x in a..b, Complex.exp (u * x * Complex.I) * g x) (k : ℕ) :
    densityCoefficient cf a b k = 2 / (b - a) * ∫ x in a..b, g x * Real.cos (k * Real.pi * (x - a) / (b - a)) := by
  unfold densityCoefficient
  congr 1
  rw [hcf, ← intervalIntegral.integral_mul_const]
  have hint : IntervalIntegrable (fun x : ℝ => Complex.exp (((k * Real.pi / (b - a) : ℝ) : ℂ) * x * Complex.I) * g x *
      Complex.exp (-(k * Real.pi * a / (b - a) : ℝ) * Complex.I)) MeasureTheory.volume a b := by
    apply Continuous.intervalIntegrable
    fun_prop
  have := Complex.reCLM.intervalIntegral_comp_comm hint
  simp only [Complex.reCLM_apply] at this
  rw [← this]
  congr 1
  funext x
  rw [mul_right_comm, ← Complex.exp_add]
  have e : ((k * Real.pi / (b - a) : ℝ) : ℂ) * x * Complex.I + -(k * Real.pi * a / (b - a) : ℝ) * Complex.I =
      ((k * Real.pi * (x - a) / (b - a) : ℝ) : ℂ) * Complex.I := by
    push_cast
    ring
  rw [e, Complex.re_mul_ofReal, Complex.exp_ofReal_mul_I_re, mul_comm]

/-- A density on `[a, b]` that is a cosine polynomial with at most `N` waves is recovered exactly, from its characteristic function. -/
theorem C90_exact {p dt a b : ℝ} {N : ℤ} (c : ℕ → ℝ) {cf : ℝ → ℂ}
    (hcf : ∀ u : ℝ, cf u = ∫ x in a..b, Complex.exp (u * x * Complex.I) *
      ((∑ k ∈ range (N.toNat + 1), c k * Real.cos (k * Real.pi * (x - a) / (b - a)) : ℝ) : ℂ))
    {r : CosResult} (h : cosMethod p cf dt a b N = .ok r) :
    r.pdf = r.pts.map fun x => ∑ k ∈ range (N.toNat + 1), c k * Real.cos (k * Real.pi * (x - a) / (b - a)) := by
  obtain ⟨⟨hdt, hab, hpa, hpb⟩, hN⟩ := cosMethod_args h
  have hlt : a < b := by linarith
  have hL : b - a ≠ 0 := by linarith
  rw [C90_density h]
  refine List.map_congr_left fun x _ => ?_
  have hco : ∀ k ∈ range (N.toNat + 1), densityCoefficient cf a b k = if k = 0 then 2 * c 0 else c k := by
    intro k hk
    rw [coefficient_of_density (g := fun x => ∑ k ∈ range (N.toNat + 1), c k * Real.cos (k * Real.pi * (x - a) / (b - a))) (by fun_prop) hcf]
    simp_rw [Finset.sum_mul]
    rw [intervalIntegral.integral_finsetSum]
    · have : ∀ j ∈ range (N.toNat + 1), ∫ x in a..b, c j * Real.cos (j * Real.pi * (x - a) / (b - a)) * Real.cos (k * Real.pi * (x - a) / (b - a)) =
          if j = k then c k * (if k = 0 then b - a else (b - a) / 2) else 0 := by
        intro j _
        have e : ∀ x : ℝ, c j * Real.cos (j * Real.pi * (x - a) / (b - a)) * Real.cos (k * Real.pi * (x - a) / (b - a)) =
            c j * (Real.cos (j * Real.pi * (x - a) / (b - a)) * Real.cos (k * Real.pi * (x - a) / (b - a))) := fun x => by ring
        simp_rw [e]
        rw [intervalIntegral.integral_const_mul, cos_mul_cos_integral hlt]
        split_ifs with h1 <;> simp_all
      rw [Finset.sum_congr rfl this, Finset.sum_ite_eq' , if_pos hk]
      split_ifs with h0
      · subst h0
        field_simp
      · field_simp
    · intro j _
      apply Continuous.intervalIntegrable
      fun_prop
  unfold cosineSeries
  have e : Finset.Icc 1 N.toNat = Finset.Ico 1 (N.toNat + 1) := by ext; simp
  rw [hco 0 (by simp), if_pos rfl, e, Finset.sum_Ico_eq_sum_range, Nat.add_sub_cancel, Finset.sum_range_succ', add_comm]
  congr 1
  · refine Finset.sum_congr rfl fun k hk => ?_
    rw [Finset.mem_range] at hk
    rw [add_comm 1 k, hco (k + 1) (by rw [Finset.mem_range]; omega), if_neg (by omega)]
  · simp

/-- On an even grid of the interval, with `p` on it, the points are the grid. -/
theorem points_even {a b : ℝ} (hab : a < b) {n m : ℕ} (hn : 0 < n) (hm : m ≤ n) :
    cosPoints (a + m * ((b - a) / n)) a b ((b - a) / n) = (List.range (n + 1)).map fun i : ℕ => a + (i : ℝ) * ((b - a) / n) := by
  have hn' : (0 : ℝ) < n := by exact_mod_cast hn
  have hL : 0 < b - a := by linarith
  have hd : 0 < (b - a) / n := by positivity
  have hc : ⌈(b + (b - a) / n - a) / ((b - a) / n)⌉₊ = n + 1 := by
    have : (b + (b - a) / n - a) / ((b - a) / n) = ((n + 1 : ℕ) : ℝ) := by
      push_cast
      field_simp
      ring
    rw [this, Nat.ceil_natCast]
  unfold cosPoints cosGrid
  rw [hc]
  set l := (List.range (n + 1)).map fun i : ℕ => a + (i : ℝ) * ((b - a) / n) with hl
  have hpw : l.Pairwise (· < ·) := by
    rw [hl, List.pairwise_map]
    refine List.pairwise_lt_range.imp fun {i j} hij => ?_
    have : (i : ℝ) < j := by exact_mod_cast hij
    have := mul_lt_mul_of_pos_right this hd
    linarith
  have hmem : a + m * ((b - a) / n) ∈ l := List.mem_map.2 ⟨m, List.mem_range.2 (by omega), rfl⟩
  have e : ((a + (m : ℝ) * ((b - a) / n)) :: l).toFinset = l.toFinset := by
    rw [List.toFinset_cons]
    exact Finset.insert_eq_self.2 (List.mem_toFinset.2 hmem)
  rw [e]
  exact (List.toFinset_sort _ (hpw.imp fun h => ne_of_lt h)).2 (hpw.imp fun h => le_of_lt h)

theorem leftSum_even {a b : ℝ} (f : ℝ → ℝ) {n i : ℕ} (hi : i ≤ n) :
    leftSum f ((b - a) / n) ((List.range (n + 1)).map fun i : ℕ => a + (i : ℝ) * ((b - a) / n)) i =
      ∑ j ∈ range (i + 1), f (a + j * ((b - a) / n)) * ((b - a) / n) := by
  unfold leftSum
  refine Finset.sum_congr rfl fun j hj => ?_
  rw [Finset.mem_range] at hj
  have hlen : ((List.range (n + 1)).map fun i : ℕ => a + (i : ℝ) * ((b - a) / n)).length = n + 1 := by simp
  have hget : ∀ j, j < n + 1 → ((List.range (n + 1)).map fun i : ℕ => a + (i : ℝ) * ((b - a) / n)).getD j 0 = a + j * ((b - a) / n) := by
    intro j hj
    rw [getD_get (by rw [hlen]; exact hj)]
    simp
  rw [hget j (by omega)]
  congr 1
  unfold stepAfter
  rw [hlen]
  split_ifs with h
  · rw [hget j (by omega), hget (j + 1) h]
    push_cast
    ring
  · rfl

/-- With fewer waves than twice the number of cells, the sum of the cells of an even grid has nothing to do with the mass inside the range: it is
the mass of the whole distribution, plus half a step times the density at the two ends. -/
theorem even_integral {a b : ℝ} (hab : a < b) (cf : ℝ → ℂ) {n N : ℕ} (hn : 0 < n) (hN : N < 2 * n) :
    ∑ i ∈ range (n + 1), cosineSeries cf a b N (a + i * ((b - a) / n)) * ((b - a) / n) =
      (cf 0).re + (b - a) / n / 2 * (cosineSeries cf a b N a + cosineSeries cf a b N b) := by
  have hn' : (0 : ℝ) < n := by exact_mod_cast hn
  have hL : b - a ≠ 0 := by linarith
  rw [← Finset.sum_mul]
  have e : ∀ i ∈ range (n + 1), cosineSeries cf a b N (a + i * ((b - a) / n)) =
      densityCoefficient cf a b 0 / 2 + ∑ k ∈ Finset.Icc 1 N, densityCoefficient cf a b k * Real.cos (i * (k * Real.pi / n)) := by
    intro i _
    unfold cosineSeries
    congr 1
    refine Finset.sum_congr rfl fun k _ => ?_
    congr 2
    field_simp
    ring
  have hA : cosineSeries cf a b N a = densityCoefficient cf a b 0 / 2 + ∑ k ∈ Finset.Icc 1 N, densityCoefficient cf a b k := by
    unfold cosineSeries
    simp
  have hB : cosineSeries cf a b N b = densityCoefficient cf a b 0 / 2 + ∑ k ∈ Finset.Icc 1 N, densityCoefficient cf a b k * (-1) ^ k := by
    unfold cosineSeries
    congr 1
    refine Finset.sum_congr rfl fun k _ => ?_
    rw [mul_div_assoc, div_self hL, mul_one, cos_nat_pi]
  have h0 : densityCoefficient cf a b 0 = 2 / (b - a) * (cf 0).re := by
    unfold densityCoefficient
    simp
  rw [Finset.sum_congr rfl e, Finset.sum_add_distrib, Finset.sum_comm, hA, hB]
  have e2 : ∀ k ∈ Finset.Icc 1 N, ∑ i ∈ range (n + 1), densityCoefficient cf a b k * Real.cos (i * (k * Real.pi / n)) =
      densityCoefficient cf a b k / 2 + densityCoefficient cf a b k * (-1) ^ k / 2 := by
    intro k hk
    rw [Finset.mem_Icc] at hk
    rw [← Finset.mul_sum, cos_grid_sum (by omega) (by omega)]
    ring
  rw [Finset.sum_congr rfl e2, Finset.sum_add_distrib]
  simp only [← Finset.sum_div]
  rw [Finset.sum_const, Finset.card_range, h0]
  simp only [nsmul_eq_mul]
  push_cast
  field_simp
  ring

/-- On an even grid, with fewer waves than twice the number of cells: whether the run is accepted, and the integral it reports. -/
theorem C90_range_partial {a b : ℝ} (hab : a < b) (cf : ℝ → ℂ) {n m : ℕ} (hn : 0 < n) (hm : m ≤ n) {N : ℕ} (hN : N < 2 * n) :
    (returns (cosMethod (a + m * ((b - a) / n)) cf ((b - a) / n) a b N) ↔
      normCdf 5 ≤ (cf 0).re + (b - a) / n / 2 * (cosineSeries cf a b N a + cosineSeries cf a b N b)) ∧
    ∀ r, cosMethod (a + m * ((b - a) / n)) cf ((b - a) / n) a b N = .ok r →
      r.integral = (cf 0).re + (b - a) / n / 2 * (cosineSeries cf a b N a + cosineSeries cf a b N b) ∧
      r.cdfAtP = ∑ j ∈ range (m + 1), cosineSeries cf a b N (a + j * ((b - a) / n)) * ((b - a) / n) := by
  have hn' : (0 : ℝ) < n := by exact_mod_cast hn
  have h1n : (1 : ℝ) ≤ n := by exact_mod_cast hn
  have hmn : (m : ℝ) ≤ n := by exact_mod_cast hm
  have hL : 0 < b - a := by linarith
  have hd : 0 < (b - a) / n := by positivity
  have hend : (n : ℝ) * ((b - a) / n) = b - a := by field_simp
  have hargs : 0 < (b - a) / n ∧ a + (b - a) / n ≤ b ∧ a ≤ a + m * ((b - a) / n) ∧ a + m * ((b - a) / n) ≤ b := by
    refine ⟨hd, ?_, ?_, ?_⟩
    · nlinarith
    · have : (0 : ℝ) ≤ m := Nat.cast_nonneg m
      nlinarith
    · nlinarith
  have hrun := cosMethod_run (N := (N : ℤ)) cf hargs (by omega)
  have hpts := points_even hab hn hm
  have hidx : (cosPoints (a + m * ((b - a) / n)) a b ((b - a) / n)).idxOf (a + m * ((b - a) / n)) = m := by
    have hlt : m < (cosPoints (a + m * ((b - a) / n)) a b ((b - a) / n)).length := by
      rw [hpts]; simp; omega
    have hnd := points_nodup (a + m * ((b - a) / n)) a b ((b - a) / n)
    have := hnd.idxOf_getElem m hlt
    have hget : (cosPoints (a + m * ((b - a) / n)) a b ((b - a) / n))[m] = a + m * ((b - a) / n) := by
      simp only [hpts]
      simp
    rwa [hget] at this
  have hlen : (cosPoints (a + m * ((b - a) / n)) a b ((b - a) / n)).length - 1 = n := by rw [hpts]; simp
  rw [hidx, hlen, hpts, leftSum_even _ le_rfl, leftSum_even _ hm, Int.toNat_natCast, even_integral hab cf hn hN] at hrun
  rw [hrun]
  split_ifs with h3
  · refine ⟨⟨fun ⟨r, hr⟩ => (by cases hr), fun h => absurd h (not_le.2 h3)⟩, fun r hr => (by cases hr)⟩
  · refine ⟨⟨fun _ => not_lt.1 h3, fun _ => ⟨_, rfl⟩⟩, fun r hr => ?_⟩
    cases hr
    exact ⟨rfl, rfl⟩

theorem coefficient_dirac (x a b : ℝ) (k : ℕ) :
    densityCoefficient (MeasureTheory.charFun (MeasureTheory.Measure.dirac x)) a b k = 2 / (b - a) * Real.cos (k * Real.pi * (x - a) / (b - a)) := by
  unfold densityCoefficient
  rw [MeasureTheory.charFun_dirac, ← Complex.exp_add]
  congr 1
  have e : ((inner ℝ x (k * Real.pi / (b - a)) : ℝ) : ℂ) * Complex.I + -(k * Real.pi * a / (b - a) : ℝ) * Complex.I =
      ((k * Real.pi * (x - a) / (b - a) : ℝ) : ℂ) * Complex.I := by
    simp only [RCLike.inner_apply, conj_trivial]
    push_cast
    ring
  rw [e, Complex.exp_ofReal_mul_I_re]

theorem charFun_dirac_zero (x : ℝ) : MeasureTheory.charFun (MeasureTheory.Measure.dirac x) 0 = 1 := by
  rw [MeasureTheory.charFun_dirac]
  simp

/-- A range that carries none of the probability is accepted: for every range, even grid and number of waves below twice the number of cells there is a
distribution with no mass in the range whose characteristic function goes through, with an integral of at least one. -/
theorem C90_range_unchecked {a b : ℝ} (hab : a < b) {n m : ℕ} (hn : 0 < n) (hm : m ≤ n) {N : ℕ} (hN : N < 2 * n) :
    ∃ μ : MeasureTheory.Measure ℝ, MeasureTheory.IsProbabilityMeasure μ ∧ μ (Set.Icc a b) = 0 ∧
      ∃ r, cosMethod (a + m * ((b - a) / n)) (MeasureTheory.charFun μ) ((b - a) / n) a b N = .ok r ∧ 1 ≤ r.integral := by
  refine ⟨MeasureTheory.Measure.dirac (2 * b - a), inferInstance, ?_, ?_⟩
  · rw [MeasureTheory.Measure.dirac_apply' _ measurableSet_Icc, Set.indicator_of_notMem]
    rw [Set.mem_Icc]
    intro h
    linarith [h.2]
  · have hL : b - a ≠ 0 := by linarith
    have hLp : 0 < b - a := by linarith
    have hn' : (0 : ℝ) < n := by exact_mod_cast hn
    have hco : ∀ k, densityCoefficient (MeasureTheory.charFun (MeasureTheory.Measure.dirac (2 * b - a))) a b k = 2 / (b - a) := by
      intro k
      rw [coefficient_dirac]
      have : k * Real.pi * (2 * b - a - a) / (b - a) = k * (2 * Real.pi) := by
        field_simp
        ring
      rw [this, Real.cos_nat_mul_two_pi, mul_one]
    have hsum : 0 ≤ cosineSeries (MeasureTheory.charFun (MeasureTheory.Measure.dirac (2 * b - a))) a b N a +
        cosineSeries (MeasureTheory.charFun (MeasureTheory.Measure.dirac (2 * b - a))) a b N b := by
      unfold cosineSeries
      simp only [hco]
      rw [add_add_add_comm, ← Finset.sum_add_distrib]
      refine add_nonneg (by positivity) (Finset.sum_nonneg fun k _ => ?_)
      rw [sub_self, mul_zero, zero_div, Real.cos_zero, mul_one, ← mul_one_add]
      refine mul_nonneg (by positivity) ?_
      linarith [Real.neg_one_le_cos (k * Real.pi * (b - a) / (b - a))]
    have hge : (1 : ℝ) ≤ (MeasureTheory.charFun (MeasureTheory.Measure.dirac (2 * b - a)) 0).re + (b - a) / n / 2 *
        (cosineSeries (MeasureTheory.charFun (MeasureTheory.Measure.dirac (2 * b - a))) a b N a +
          cosineSeries (MeasureTheory.charFun (MeasureTheory.Measure.dirac (2 * b - a))) a b N b) := by
      rw [charFun_dirac_zero, Complex.one_re]
      have := mul_nonneg (show 0 ≤ (b - a) / n / 2 by positivity) hsum
      linarith
    obtain ⟨hiff, hval⟩ := C90_range_partial hab (MeasureTheory.charFun (MeasureTheory.Measure.dirac (2 * b - a))) hn hm hN
    obtain ⟨r, hr⟩ := hiff.2 ((normCdf_lt_one 5).le.trans hge)
    exact ⟨r, hr, by rw [(hval r hr).1]; exact hge⟩

/-- A range that carries all of the probability can be refused. -/
theorem C90_whole_mass_refused {a b : ℝ} (hab : a < b) {n m : ℕ} (hn : 1 < n) (hm : m ≤ n) (hd : 1 - 1 / (n : ℝ) < normCdf 5) :
    ∃ μ : MeasureTheory.Measure ℝ, MeasureTheory.IsProbabilityMeasure μ ∧ μ (Set.Icc a b) = 1 ∧
      cosMethod (a + m * ((b - a) / n)) (MeasureTheory.charFun μ) ((b - a) / n) a b 2 = .error .value := by
  have hL : b - a ≠ 0 := by linarith
  have hn' : (0 : ℝ) < n := by exact_mod_cast (show 0 < n by omega)
  refine ⟨MeasureTheory.Measure.dirac ((a + b) / 2), inferInstance, ?_, ?_⟩
  · rw [MeasureTheory.Measure.dirac_apply' _ measurableSet_Icc, Set.indicator_of_mem]
    · rfl
    · rw [Set.mem_Icc]
      constructor <;> linarith
  · obtain ⟨hiff, -⟩ := C90_range_partial hab (MeasureTheory.charFun (MeasureTheory.Measure.dirac ((a + b) / 2))) (show 0 < n by omega) hm
      (N := 2) (by omega)
    have hI : Finset.Icc 1 2 = ({1, 2} : Finset ℕ) := rfl
    have hA : cosineSeries (MeasureTheory.charFun (MeasureTheory.Measure.dirac ((a + b) / 2))) a b 2 a +
        cosineSeries (MeasureTheory.charFun (MeasureTheory.Measure.dirac ((a + b) / 2))) a b 2 b = - (2 / (b - a)) := by
      have e1 : Real.pi * ((a + b) / 2 - a) / (b - a) = Real.pi / 2 := by field_simp; ring
      have e2 : 2 * Real.pi * ((a + b) / 2 - a) / (b - a) = Real.pi := by field_simp; ring
      have e3 : 2 * Real.pi * (b - a) / (b - a) = 2 * Real.pi := by field_simp
      unfold cosineSeries
      rw [hI, Finset.sum_pair (by norm_num), Finset.sum_pair (by norm_num)]
      simp only [coefficient_dirac]
      simp only [Nat.cast_zero, Nat.cast_one, Nat.cast_ofNat, zero_mul, zero_div, one_mul, e1, e2, e3, Real.cos_zero, Real.cos_pi_div_two,
        Real.cos_pi, Real.cos_two_pi, sub_self, mul_zero]
      ring
    rw [hA, charFun_dirac_zero, Complex.one_re] at hiff
    have hargs := C90_outcomes (a + m * ((b - a) / n)) (MeasureTheory.charFun (MeasureTheory.Measure.dirac ((a + b) / 2))) ((b - a) / n) a b 2 ?_
    · rcases hargs with ⟨h, -⟩ | ⟨-, h⟩ | ⟨r, h, -⟩
      · omega
      · exact h
      · exfalso
        have := hiff.1 ⟨r, h⟩
        have e : (1 : ℝ) + (b - a) / n / 2 * - (2 / (b - a)) = 1 - 1 / n := by field_simp; ring
        rw [e] at this
        linarith
    · have h1n : (1 : ℝ) ≤ n := by exact_mod_cast hn.le
      have hmn : (m : ℝ) ≤ n := by exact_mod_cast hm
      have hLp : 0 < b - a := by linarith
      have hdp : 0 < (b - a) / n := by positivity
      have hend : (n : ℝ) * ((b - a) / n) = b - a := by field_simp
      refine ⟨hdp, by nlinarith, ?_, by nlinarith⟩
      have : (0 : ℝ) ≤ m := Nat.cast_nonneg m
      nlinarith

/-- The case is there: two cells. -/
example : (1 : ℝ) - 1 / ((2 : ℕ) : ℝ) < normCdf 5 := by
  have := normCdf_strictMono (show (0 : ℝ) < 5 by norm_num)
  rw [normCdf_zero] at this
  norm_num at this ⊢
  exact this

/-- The uniform distribution on the range: the density is right, but the distribution function is one cell ahead, so that it is positive where it should be
zero and exceeds one at the upper end, and so does the integral. -/
theorem C90_uniform_ahead {a b : ℝ} (hab : a < b) {cf : ℝ → ℂ} (hcf : ∀ u : ℝ, cf u = ∫ x in a..b, Complex.exp (u * x * Complex.I) * ((1 / (b - a) : ℝ) : ℂ))
    {n m : ℕ} (hn : 0 < n) (hm : m ≤ n) {N : ℕ} (hN : N < 2 * n) :
    ∃ r, cosMethod (a + m * ((b - a) / n)) cf ((b - a) / n) a b N = .ok r ∧ r.pdf = r.pts.map (fun _ => 1 / (b - a)) ∧
      r.integral = 1 + 1 / n ∧ r.cdfAtP = (m + 1) / n := by
  have hL : b - a ≠ 0 := by linarith
  have hLp : 0 < b - a := by linarith
  have hn' : (0 : ℝ) < n := by exact_mod_cast hn
  have hco : ∀ k, densityCoefficient cf a b k = if k = 0 then 2 / (b - a) else 0 := by
    intro k
    rw [coefficient_of_density (g := fun _ => 1 / (b - a)) continuous_const hcf]
    have := cos_integral hab (k : ℤ)
    push_cast at this
    rw [intervalIntegral.integral_const_mul, this]
    by_cases hk : k = 0
    · subst hk
      simp
      field_simp
    · simp [hk]
  have hs : cosineSeries cf a b N = fun _ => 1 / (b - a) := by
    funext x
    unfold cosineSeries
    rw [Finset.sum_eq_zero]
    · rw [hco, if_pos rfl]
      ring
    · intro k hk
      rw [Finset.mem_Icc] at hk
      rw [hco, if_neg (by omega), zero_mul]
  have hc0 : (cf 0).re = 1 := by
    have h0 := hco 0
    unfold densityCoefficient at h0
    simp at h0
    field_simp at h0
    exact h0
  obtain ⟨hiff, hval⟩ := C90_range_partial hab cf hn hm hN
  have hv : (cf 0).re + (b - a) / n / 2 * (cosineSeries cf a b N a + cosineSeries cf a b N b) = 1 + 1 / n := by
    rw [hs, hc0]
    field_simp
    ring
  rw [hv] at hiff hval
  obtain ⟨r, hr⟩ := hiff.2 (by
    have : (0 : ℝ) ≤ 1 / n := by positivity
    linarith [normCdf_lt_one 5])
  refine ⟨r, hr, ?_, (hval r hr).1, ?_⟩
  · rw [C90_density hr, Int.toNat_natCast, hs]
  · rw [(hval r hr).2, hs]
    simp
    field_simp

end Frm.Props
