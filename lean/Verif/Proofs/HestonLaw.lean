import Verif.Proofs.HestonStrip
import Verif.Proofs.LevyExponent

/-!
# The law behind Heston's characteristic function

The Riccati equation is solved by steps each of which keeps exponents of characteristic functions; in the limit the characteristic function
of the code is that of a law.
-/

open Filter Topology

namespace Frm.Props
open Classical

set_option autoImplicit false

open Frm Frm.Laws

/-- One step of length `d` of the equation `w' = s²/2 w² - k w + g`. -/
noncomputable def riccatiStep (k s d : ℝ) (g w : ℂ) : ℂ :=
  ((1 - k * d : ℝ) : ℂ) * ((Complex.exp ((s ^ 2 * d : ℝ) * w) - 1) / (s ^ 2 * d : ℝ)) + d * g

/-- The steps, and the sum of the values times the length of a step. -/
noncomputable def riccatiPath (k s d : ℝ) (g w0 : ℂ) : ℕ → ℂ × ℂ
  | 0 => (w0, 0)
  | n + 1 => (riccatiStep k s d g (riccatiPath k s d g w0 n).1, (riccatiPath k s d g w0 n).2 + d * (riccatiPath k s d g w0 n).1)

/-- The steps keep exponents of characteristic functions, and a bound of the moment that does not grow in one step. -/
theorem path_exponent (b k s d p c : ℝ) (g w0 : ℝ → ℂ) (hs : 0 < s ^ 2 * d) (hk : 0 ≤ 1 - k * d) (hd : 0 ≤ d) (hg : Exponent b g c)
    (h0 : Exponent b w0 p) (hp : (1 - k * d) * ((Real.exp (s ^ 2 * d * p) - 1) / (s ^ 2 * d)) + d * c ≤ p) (j : ℕ) :
    Exponent b (fun u => (riccatiPath k s d (g u) (w0 u) j).1) p ∧ Exponent b (fun u => (riccatiPath k s d (g u) (w0 u) j).2) (j * (d * p)) := by
  induction j with
  | zero => exact ⟨h0, by simpa [riccatiPath] using Exponent.zero b⟩
  | succ j ih =>
    refine ⟨?_, ?_⟩
    · exact (((ih.1.poisson hs).smul hk).add (hg.smul hd)).mono hp
    · have := ih.2.add (ih.1.smul hd)
      refine this.mono (le_of_eq ?_)
      push_cast
      ring

/-! ## Convergence of the steps -/

theorem exp_lipschitz {z w : ℂ} (hz : z.re ≤ 0) (hw : w.re ≤ 0) : ‖Complex.exp z - Complex.exp w‖ ≤ ‖z - w‖ := by
  have := Convex.norm_image_sub_le_of_norm_hasDerivWithin_le (f := Complex.exp) (f' := Complex.exp) (C := 1) (s := {z : ℂ | z.re ≤ 0})
    (fun x _ => (Complex.hasDerivAt_exp x).hasDerivWithinAt) (fun x hx => by
      rw [Complex.norm_exp, Real.exp_le_one_iff]; exact hx) (convex_halfSpace_re_le 0) hw hz
  simpa using this

theorem step_lipschitz (k s d : ℝ) (hs : 0 < s ^ 2 * d) (hk : 0 ≤ k * d) (hk1 : k * d ≤ 1) (g z w : ℂ) (hz : z.re ≤ 0) (hw : w.re ≤ 0) :
    ‖riccatiStep k s d g z - riccatiStep k s d g w‖ ≤ ‖z - w‖ := by
  unfold riccatiStep
  generalize s ^ 2 * d = e at hs
  have h1 : ((1 - k * d : ℝ) : ℂ) * ((Complex.exp (e * z) - 1) / e) + d * g - (((1 - k * d : ℝ) : ℂ) * ((Complex.exp (e * w) - 1) / e) + d * g) =
      ((1 - k * d : ℝ) : ℂ) * ((Complex.exp (e * z) - Complex.exp (e * w)) / e) := by ring
  rw [h1, norm_mul, norm_div, Complex.norm_real, Complex.norm_real, Real.norm_of_nonneg (by linarith), Real.norm_of_nonneg hs.le]
  have h2 : ‖Complex.exp (e * z) - Complex.exp (e * w)‖ ≤ e * ‖z - w‖ := by
    have := exp_lipschitz (z := e * z) (w := e * w) (by simp; nlinarith) (by simp; nlinarith)
    rwa [← mul_sub, norm_mul, Complex.norm_real, Real.norm_of_nonneg hs.le] at this
  calc (1 - k * d) * (‖Complex.exp (e * z) - Complex.exp (e * w)‖ / e) ≤ 1 * (e * ‖z - w‖ / e) := by
        apply mul_le_mul (by linarith) (div_le_div_of_nonneg_right h2 hs.le) (by positivity) zero_le_one
    _ = ‖z - w‖ := by field_simp

/-- The error of one step against the first order of the equation. -/
theorem step_local (k s d M : ℝ) (hs : 0 < s ^ 2 * d) (hk : 0 ≤ k * d) (hk1 : k * d ≤ 1) (hM : s ^ 2 * d * M ≤ 1) (g w : ℂ) (hw : ‖w‖ ≤ M) :
    ‖riccatiStep k s d g w - (w + d * (s ^ 2 / 2 * w ^ 2 - k * w + g))‖ ≤ (k * d) * (s ^ 2 * d) / 2 * M ^ 2 + (s ^ 2 * d) ^ 2 * M ^ 3 := by
  unfold riccatiStep
  have hM0 : 0 ≤ M := (norm_nonneg _).trans hw
  have hsC : ((s : ℂ) ^ 2 * d) = ((s ^ 2 * d : ℝ) : ℂ) := by push_cast; ring
  generalize he : s ^ 2 * d = e at *
  have heC : (e : ℂ) ≠ 0 := by exact_mod_cast hs.ne'
  have hz : ‖(e : ℂ) * w‖ ≤ 1 := by
    rw [norm_mul, Complex.norm_real, Real.norm_of_nonneg hs.le]
    exact (mul_le_mul_of_nonneg_left hw hs.le).trans hM
  have hr := Complex.exp_bound hz (n := 3) (by norm_num)
  have hsum : ∑ m ∈ Finset.range 3, ((e : ℂ) * w) ^ m / (m.factorial : ℂ) = 1 + e * w + (e * w) ^ 2 / 2 := by
    simp [Finset.sum_range_succ, Nat.factorial]
  rw [hsum] at hr
  generalize hrr : Complex.exp (e * w) - (1 + e * w + (e * w) ^ 2 / 2) = rr at hr
  have hexp : Complex.exp (e * w) = 1 + e * w + (e * w) ^ 2 / 2 + rr := by rw [← hrr]; ring
  have hr2 : ‖rr‖ ≤ (e * M) ^ 3 := by
    refine hr.trans ?_
    rw [norm_mul, Complex.norm_real, Real.norm_of_nonneg hs.le]
    calc (e * ‖w‖) ^ 3 * ((Nat.succ 3 : ℝ) * ((Nat.factorial 3 : ℝ) * (3 : ℕ))⁻¹) ≤ (e * ‖w‖) ^ 3 * 1 := by
          apply mul_le_mul_of_nonneg_left _ (by positivity)
          norm_num [Nat.factorial]
      _ ≤ (e * M) ^ 3 := by
          rw [mul_one]
          exact pow_le_pow_left₀ (by positivity) (mul_le_mul_of_nonneg_left hw hs.le) 3
  have e1 : ((1 - k * d : ℝ) : ℂ) * ((Complex.exp (e * w) - 1) / e) + d * g - (w + d * ((s : ℂ) ^ 2 / 2 * w ^ 2 - k * w + g)) =
      -((k * d * e / 2 : ℝ) : ℂ) * w ^ 2 + ((1 - k * d : ℝ) : ℂ) * (rr / e) := by
    rw [hexp]
    have : (d : ℂ) * ((s : ℂ) ^ 2 / 2 * w ^ 2 - k * w + g) = e / 2 * w ^ 2 - d * k * w + d * g := by
      rw [← hsC]; ring
    rw [this]
    push_cast
    field_simp
    ring
  rw [e1]
  refine (norm_add_le _ _).trans ?_
  rw [norm_mul, norm_neg, norm_mul, norm_div, norm_pow, Complex.norm_real, Complex.norm_real, Complex.norm_real, Real.norm_of_nonneg hs.le,
    Real.norm_of_nonneg (by linarith : (0 : ℝ) ≤ 1 - k * d), Real.norm_of_nonneg (by positivity : (0 : ℝ) ≤ k * d * e / 2)]
  apply add_le_add
  · apply mul_le_mul_of_nonneg_left (pow_le_pow_left₀ (norm_nonneg _) hw 2) (by positivity)
  · calc (1 - k * d) * (‖rr‖ / e) ≤ 1 * ((e * M) ^ 3 / e) := by
          apply mul_le_mul (by linarith) (div_le_div_of_nonneg_right hr2 hs.le) (by positivity) zero_le_one
      _ = e ^ 2 * M ^ 3 := by field_simp

theorem taylor_one (f f' : ℝ → ℂ) (t d K : ℝ) (hd : 0 ≤ d) (hf : ∀ y ∈ Set.Icc t (t + d), HasDerivAt f (f' y) y)
    (hK : ∀ y ∈ Set.Icc t (t + d), ‖f' y - f' t‖ ≤ K) : ‖f (t + d) - f t - d * f' t‖ ≤ K * d := by
  have h1 := norm_image_sub_le_of_norm_deriv_le_segment' (f := fun y : ℝ => f y - (y - t) * f' t) (f' := fun y => f' y - f' t) (C := K) (a := t) (b := t + d)
    (fun y hy => by
      have h2 : HasDerivAt (fun y : ℝ => ((y : ℂ) - t) * f' t) (f' t) y := by
        have := ((Complex.ofRealCLM.hasDerivAt (x := y)).sub_const (t : ℂ)).mul_const (f' t)
        simpa using this
      exact ((hf y hy).sub h2).hasDerivWithinAt)
    (fun y hy => hK y ⟨hy.1, hy.2.le⟩) (t + d) ⟨by linarith, le_rfl⟩
  simp only [sub_self, zero_mul, sub_zero, add_sub_cancel_left] at h1
  have e : f (t + d) - f t - d * f' t = f (t + d) - (((t + d : ℝ) : ℂ) - t) * f' t - f t := by push_cast; ring
  rw [e]
  exact h1

/-- The steps converge to the solution and its integral. -/
theorem steps_converge (k s T : ℝ) (hk : 0 < k) (hs : 0 < s) (hT : 0 < T) (g : ℂ) (W A : ℝ → ℂ)
    (hW : ∀ t, 0 ≤ t → HasDerivAt W ((s : ℂ) ^ 2 / 2 * W t ^ 2 - k * W t + g) t) (hA : ∀ t, 0 ≤ t → HasDerivAt A (W t) t) (hA0 : A 0 = 0)
    (hre : ∀ t, 0 ≤ t → (W t).re ≤ 0) (hpath : ∀ᶠ n : ℕ in atTop, ∀ j, ((riccatiPath k s (T / n) g (W 0) j).1).re ≤ 0) :
    Tendsto (fun n : ℕ => (riccatiPath k s (T / n) g (W 0) n).1) atTop (𝓝 (W T)) ∧
    Tendsto (fun n : ℕ => (riccatiPath k s (T / n) g (W 0) n).2) atTop (𝓝 (A T)) := by
  obtain ⟨M0, hM0⟩ := isCompact_Icc.exists_bound_of_continuousOn (f := W) (s := Set.Icc 0 T)
    (fun t ht => (hW t ht.1).continuousAt.continuousWithinAt)
  obtain ⟨M, hMdef, hMpos⟩ : ∃ M, M0 ≤ M ∧ 0 < M := ⟨max M0 1, le_max_left _ _, lt_of_lt_of_le one_pos (le_max_right _ _)⟩
  have hM : ∀ t ∈ Set.Icc 0 T, ‖W t‖ ≤ M := fun t ht => (hM0 t ht).trans hMdef
  obtain ⟨M1, hM1⟩ : ∃ M1, M1 = s ^ 2 / 2 * M ^ 2 + k * M + ‖g‖ := ⟨_, rfl⟩
  have hM1pos : 0 ≤ M1 := by rw [hM1]; positivity
  have hderiv : ∀ t ∈ Set.Icc 0 T, ‖(s : ℂ) ^ 2 / 2 * W t ^ 2 - k * W t + g‖ ≤ M1 := by
    intro t ht
    have h1 := hM t ht
    calc ‖(s : ℂ) ^ 2 / 2 * W t ^ 2 - k * W t + g‖ ≤ ‖(s : ℂ) ^ 2 / 2 * W t ^ 2 - k * W t‖ + ‖g‖ := norm_add_le _ _
      _ ≤ ‖(s : ℂ) ^ 2 / 2 * W t ^ 2‖ + ‖k * W t‖ + ‖g‖ := by gcongr; exact norm_sub_le _ _
      _ = s ^ 2 / 2 * ‖W t‖ ^ 2 + k * ‖W t‖ + ‖g‖ := by
        rw [norm_mul, norm_div, norm_pow, norm_pow, norm_mul, Complex.norm_real, Complex.norm_real, Real.norm_of_nonneg hs.le, Real.norm_of_nonneg hk.le]
        simp
      _ ≤ M1 := by rw [hM1]; gcongr
  have hlip : ∀ x ∈ Set.Icc 0 T, ∀ y ∈ Set.Icc 0 T, ‖W y - W x‖ ≤ M1 * ‖y - x‖ := fun x hx y hy =>
    Convex.norm_image_sub_le_of_norm_hasDerivWithin_le (fun z hz => (hW z hz.1).hasDerivWithinAt) hderiv (convex_Icc 0 T) hx hy
  obtain ⟨L, hL⟩ : ∃ L, L = s ^ 2 * M + k := ⟨_, rfl⟩
  have hLpos : 0 ≤ L := by rw [hL]; positivity
  have hR : ∀ x ∈ Set.Icc 0 T, ∀ y ∈ Set.Icc 0 T, ‖((s : ℂ) ^ 2 / 2 * W y ^ 2 - k * W y + g) - ((s : ℂ) ^ 2 / 2 * W x ^ 2 - k * W x + g)‖ ≤ L * ‖W y - W x‖ := by
    intro x hx y hy
    have e : ((s : ℂ) ^ 2 / 2 * W y ^ 2 - k * W y + g) - ((s : ℂ) ^ 2 / 2 * W x ^ 2 - k * W x + g) = ((s : ℂ) ^ 2 / 2 * (W y + W x) - k) * (W y - W x) := by ring
    rw [e, norm_mul]
    apply mul_le_mul_of_nonneg_right _ (norm_nonneg _)
    calc ‖(s : ℂ) ^ 2 / 2 * (W y + W x) - k‖ ≤ ‖(s : ℂ) ^ 2 / 2 * (W y + W x)‖ + ‖(k : ℂ)‖ := norm_sub_le _ _
      _ = s ^ 2 / 2 * ‖W y + W x‖ + k := by
        rw [norm_mul, norm_div, norm_pow, Complex.norm_real, Complex.norm_real, Real.norm_of_nonneg hs.le, Real.norm_of_nonneg hk.le]
        simp
      _ ≤ s ^ 2 / 2 * (M + M) + k := by
        gcongr
        exact (norm_add_le _ _).trans (add_le_add (hM y hy) (hM x hx))
      _ = L := by rw [hL]; ring
  obtain ⟨C, hC⟩ : ∃ C, C = k * s ^ 2 / 2 * M ^ 2 + s ^ 4 * M ^ 3 + L * M1 := ⟨_, rfl⟩
  have hCpos : 0 ≤ C := by rw [hC]; positivity
  -- the errors after j steps
  have herr : ∀ d : ℝ, 0 < d → k * d ≤ 1 → s ^ 2 * d * M ≤ 1 → (∀ j, ((riccatiPath k s d g (W 0) j).1).re ≤ 0) → ∀ j : ℕ, j * d ≤ T →
      ‖(riccatiPath k s d g (W 0) j).1 - W (j * d)‖ ≤ j * (C * d ^ 2) ∧ ‖(riccatiPath k s d g (W 0) j).2 - A (j * d)‖ ≤ j * ((C * T + M1) * d ^ 2) := by
    intro d hd hkd hsd hneg j
    induction j with
    | zero => intro _; simp [riccatiPath, hA0]
    | succ j ih =>
      intro hj
      push_cast at hj
      have hjd : (j : ℝ) * d ≤ T := by nlinarith
      have hj0 : 0 ≤ (j : ℝ) * d := by positivity
      obtain ⟨ih1, ih2⟩ := ih hjd
      have hsub : ∀ y ∈ Set.Icc ((j : ℝ) * d) (j * d + d), y ∈ Set.Icc 0 T := fun y hy => ⟨hj0.trans hy.1, hy.2.trans (by linarith)⟩
      have hmem : (j : ℝ) * d ∈ Set.Icc 0 T := ⟨hj0, hjd⟩
      have hstep : ∀ y ∈ Set.Icc ((j : ℝ) * d) (j * d + d), ‖W y - W (j * d)‖ ≤ M1 * d := by
        intro y hy
        refine (hlip _ hmem y (hsub y hy)).trans (mul_le_mul_of_nonneg_left ?_ hM1pos)
        rw [Real.norm_eq_abs, abs_le]
        constructor <;> linarith [hy.1, hy.2]
      have t1 := taylor_one W (fun t => (s : ℂ) ^ 2 / 2 * W t ^ 2 - k * W t + g) (j * d) d (L * (M1 * d)) hd.le (fun y hy => hW y (hsub y hy).1)
        (fun y hy => (hR _ hmem y (hsub y hy)).trans (mul_le_mul_of_nonneg_left (hstep y hy) hLpos))
      have t2 := taylor_one A W (j * d) d (M1 * d) hd.le (fun y hy => hA y (hsub y hy).1) hstep
      have l1 := step_local k s d M (by positivity) (by positivity) hkd hsd g (W (j * d)) (hM _ hmem)
      have l2 := step_lipschitz k s d (by positivity) (by positivity) hkd g (riccatiPath k s d g (W 0) j).1 (W (j * d)) (hneg j) (hre _ hj0)
      have ej : ((j + 1 : ℕ) : ℝ) * d = j * d + d := by push_cast; ring
      rw [ej]
      constructor
      · have e : (riccatiPath k s d g (W 0) (j + 1)).1 - W (j * d + d) =
            (riccatiStep k s d g (riccatiPath k s d g (W 0) j).1 - riccatiStep k s d g (W (j * d))) +
            (riccatiStep k s d g (W (j * d)) - (W (j * d) + d * ((s : ℂ) ^ 2 / 2 * W (j * d) ^ 2 - k * W (j * d) + g))) -
            (W (j * d + d) - W (j * d) - d * ((s : ℂ) ^ 2 / 2 * W (j * d) ^ 2 - k * W (j * d) + g)) := by
          simp only [riccatiPath]; ring
        rw [e]
        refine (norm_sub_le _ _).trans ?_
        refine (add_le_add (norm_add_le _ _) le_rfl).trans ?_
        calc _ ≤ (j * (C * d ^ 2) + ((k * d) * (s ^ 2 * d) / 2 * M ^ 2 + (s ^ 2 * d) ^ 2 * M ^ 3)) + L * (M1 * d) * d :=
              add_le_add (add_le_add (l2.trans ih1) l1) t1
          _ = ((j + 1 : ℕ) : ℝ) * (C * d ^ 2) := by rw [hC]; push_cast; ring
      · have e : (riccatiPath k s d g (W 0) (j + 1)).2 - A (j * d + d) =
            ((riccatiPath k s d g (W 0) j).2 - A (j * d)) + d * ((riccatiPath k s d g (W 0) j).1 - W (j * d)) - (A (j * d + d) - A (j * d) - d * W (j * d)) := by
          simp only [riccatiPath]; ring
        rw [e]
        refine (norm_sub_le _ _).trans ?_
        refine (add_le_add (norm_add_le _ _) le_rfl).trans ?_
        rw [norm_mul, Complex.norm_real, Real.norm_of_nonneg hd.le]
        have h3 : d * ‖(riccatiPath k s d g (W 0) j).1 - W (j * d)‖ ≤ C * T * d ^ 2 := by
          calc d * ‖(riccatiPath k s d g (W 0) j).1 - W (j * d)‖ ≤ d * (j * (C * d ^ 2)) := mul_le_mul_of_nonneg_left ih1 hd.le
            _ = C * (j * d) * d ^ 2 := by ring
            _ ≤ C * T * d ^ 2 := by gcongr
        calc _ ≤ (j * ((C * T + M1) * d ^ 2) + C * T * d ^ 2) + M1 * d * d := add_le_add (add_le_add ih2 h3) t2
          _ = ((j + 1 : ℕ) : ℝ) * ((C * T + M1) * d ^ 2) := by push_cast; ring
  have hd0 : Tendsto (fun n : ℕ => T / (n : ℝ)) atTop (𝓝 0) := tendsto_const_div_atTop_nhds_zero_nat T
  have ev1 : ∀ᶠ n : ℕ in atTop, k * (T / n) ≤ 1 := by
    have : Tendsto (fun n : ℕ => k * (T / (n : ℝ))) atTop (𝓝 0) := by simpa using hd0.const_mul k
    exact this.eventually_le_const one_pos
  have ev2 : ∀ᶠ n : ℕ in atTop, s ^ 2 * (T / n) * M ≤ 1 := by
    have : Tendsto (fun n : ℕ => s ^ 2 * (T / (n : ℝ)) * M) atTop (𝓝 0) := by simpa using (hd0.const_mul (s ^ 2)).mul_const M
    exact this.eventually_le_const one_pos
  have hall : ∀ᶠ n : ℕ in atTop, ‖(riccatiPath k s (T / n) g (W 0) n).1 - W T‖ ≤ (C * T ^ 2) / n ∧
      ‖(riccatiPath k s (T / n) g (W 0) n).2 - A T‖ ≤ ((C * T + M1) * T ^ 2) / n := by
    filter_upwards [ev1, ev2, hpath, eventually_gt_atTop 0] with n h1 h2 h3 hn
    have hn' : (0 : ℝ) < n := by exact_mod_cast hn
    have hnT : (n : ℝ) * (T / n) = T := by field_simp
    have := herr (T / n) (by positivity) h1 h2 h3 n hnT.le
    rw [hnT] at this
    refine ⟨this.1.trans (le_of_eq ?_), this.2.trans (le_of_eq ?_)⟩ <;> field_simp
  constructor
  · rw [tendsto_iff_norm_sub_tendsto_zero]
    exact squeeze_zero' (Eventually.of_forall fun _ => norm_nonneg _) (hall.mono fun n h => h.1) (tendsto_const_div_atTop_nhds_zero_nat _)
  · rw [tendsto_iff_norm_sub_tendsto_zero]
    exact squeeze_zero' (Eventually.of_forall fun _ => norm_nonneg _) (hall.mono fun n h => h.2) (tendsto_const_div_atTop_nhds_zero_nat _)

/-- A bound at which the equation decreases is not exceeded by short steps. -/
theorem bound_kept (k s T p c : ℝ) (hk : 0 < k) (hs : 0 < s) (hT : 0 < T) (hq : s ^ 2 / 2 * p ^ 2 - k * p + c < 0) :
    ∀ᶠ n : ℕ in atTop, (1 - k * (T / n)) * ((Real.exp (s ^ 2 * (T / n) * p) - 1) / (s ^ 2 * (T / n))) + T / n * c ≤ p := by
  have hd0 : Tendsto (fun n : ℕ => T / (n : ℝ)) atTop (𝓝 0) := tendsto_const_div_atTop_nhds_zero_nat T
  have ev1 : ∀ᶠ n : ℕ in atTop, k * (T / n) ≤ 1 := by
    have : Tendsto (fun n : ℕ => k * (T / (n : ℝ))) atTop (𝓝 0) := by simpa using hd0.const_mul k
    exact this.eventually_le_const one_pos
  have ev2 : ∀ᶠ n : ℕ in atTop, s ^ 2 * (T / n) * |p| ≤ 1 := by
    have : Tendsto (fun n : ℕ => s ^ 2 * (T / (n : ℝ)) * |p|) atTop (𝓝 0) := by simpa using (hd0.const_mul (s ^ 2)).mul_const |p|
    exact this.eventually_le_const one_pos
  have ev3 : ∀ᶠ n : ℕ in atTop, s ^ 4 * (T / n) * |p| ^ 3 ≤ -(s ^ 2 / 2 * p ^ 2 - k * p + c) := by
    have : Tendsto (fun n : ℕ => s ^ 4 * (T / (n : ℝ)) * |p| ^ 3) atTop (𝓝 0) := by simpa using (hd0.const_mul (s ^ 4)).mul_const (|p| ^ 3)
    exact this.eventually_le_const (by linarith)
  filter_upwards [ev1, ev2, ev3, eventually_gt_atTop 0] with n h1 h2 h3 hn
  have hn' : (0 : ℝ) < n := by exact_mod_cast hn
  have hd : 0 < T / n := by positivity
  generalize T / (n : ℝ) = d at *
  have he : 0 < s ^ 2 * d := by positivity
  have hz : |s ^ 2 * d * p| ≤ 1 := by rw [abs_mul, abs_of_pos he]; exact h2
  have hr := Real.exp_bound hz (n := 3) (by norm_num)
  have hsum : ∑ m ∈ Finset.range 3, (s ^ 2 * d * p) ^ m / (m.factorial : ℝ) = 1 + s ^ 2 * d * p + (s ^ 2 * d * p) ^ 2 / 2 := by
    simp [Finset.sum_range_succ, Nat.factorial]
  rw [hsum] at hr
  have h4 : |s ^ 2 * d * p| ^ 3 * ((Nat.succ 3 : ℝ) * ((Nat.factorial 3 : ℝ) * (3 : ℕ))⁻¹) ≤ |s ^ 2 * d * p| ^ 3 := by
    conv_rhs => rw [← mul_one (|s ^ 2 * d * p| ^ 3)]
    apply mul_le_mul_of_nonneg_left _ (by positivity)
    norm_num [Nat.factorial]
  have h5 := (abs_le.mp hr).2
  have h6 : Real.exp (s ^ 2 * d * p) - 1 ≤ (s ^ 2 * d) * (p + s ^ 2 * d * p ^ 2 / 2 + (s ^ 2 * d) ^ 2 * |p| ^ 3) := by
    have e : |s ^ 2 * d * p| ^ 3 = (s ^ 2 * d) ^ 3 * |p| ^ 3 := by rw [abs_mul, abs_of_pos he, mul_pow]
    have h7 : Real.exp (s ^ 2 * d * p) - 1 ≤ s ^ 2 * d * p + (s ^ 2 * d * p) ^ 2 / 2 + (s ^ 2 * d) ^ 3 * |p| ^ 3 := by
      rw [← e]; linarith
    refine h7.trans (le_of_eq (by ring))
  have h7 : (Real.exp (s ^ 2 * d * p) - 1) / (s ^ 2 * d) ≤ p + s ^ 2 * d * p ^ 2 / 2 + (s ^ 2 * d) ^ 2 * |p| ^ 3 := by
    rw [div_le_iff₀ he]; linarith
  have h8 : (1 - k * d) * ((Real.exp (s ^ 2 * d * p) - 1) / (s ^ 2 * d)) ≤ (1 - k * d) * (p + s ^ 2 * d * p ^ 2 / 2 + (s ^ 2 * d) ^ 2 * |p| ^ 3) :=
    mul_le_mul_of_nonneg_left h7 (by linarith)
  have h9 : 0 ≤ k * d * (s ^ 2 * d * p ^ 2 / 2 + (s ^ 2 * d) ^ 2 * |p| ^ 3) := by positivity
  have h10 : d * (s ^ 4 * d * |p| ^ 3) ≤ d * -(s ^ 2 / 2 * p ^ 2 - k * p + c) := mul_le_mul_of_nonneg_left h3 hd.le
  nlinarith

/-! ## Heston's model -/

/-- The solution the steps approach. -/
noncomputable def lawW (h : Heston) (u t : ℝ) : ℂ := chfD h u t + Complex.I * u * ((h.rho / h.vv : ℝ) : ℂ)

/-- Its integral. -/
noncomputable def lawA (h : Heston) (u t : ℝ) : ℂ := chfB { h with theta := 1 / h.kappa } u t + Complex.I * u * ((h.rho / h.vv : ℝ) : ℂ) * t

/-- The constant of the equation. -/
noncomputable def lawG (h : Heston) (u : ℝ) : ℂ :=
  Complex.I * u * ((h.kappa * h.rho / h.vv - 1 / 2 : ℝ) : ℂ) + -((1 - h.rho ^ 2 : ℝ) / 2) * (u : ℂ) ^ 2

theorem lawW_deriv (h : Heston) (hg : GoodHeston h) (u t : ℝ) (ht : 0 ≤ t) :
    HasDerivAt (lawW h u) ((h.vv : ℂ) ^ 2 / 2 * lawW h u t ^ 2 - h.kappa * lawW h u t + lawG h u) t := by
  have h1 := (chfD_deriv h hg u t ht).add_const (Complex.I * u * ((h.rho / h.vv : ℝ) : ℂ))
  refine h1.congr_deriv ?_
  have hv : (h.vv : ℂ) ≠ 0 := by exact_mod_cast hg.vv.ne'
  unfold lawW lawG chfW
  push_cast
  field_simp
  ring_nf
  simp only [Complex.I_sq]
  ring

theorem lawA_deriv (h : Heston) (hg : GoodHeston h) (u t : ℝ) (ht : 0 ≤ t) : HasDerivAt (lawA h u) (lawW h u t) t := by
  have hg1 : GoodHeston { h with theta := 1 / h.kappa } := ⟨hg.kappa, hg.vv, hg.rho⟩
  have hk : (h.kappa : ℂ) ≠ 0 := by exact_mod_cast hg.kappa.ne'
  have h1 := chfB_deriv { h with theta := 1 / h.kappa } hg1 u t ht
  have h2 : HasDerivAt (fun t : ℝ => Complex.I * u * ((h.rho / h.vv : ℝ) : ℂ) * t) (Complex.I * u * ((h.rho / h.vv : ℝ) : ℂ)) t := by
    simpa using (Complex.ofRealCLM.hasDerivAt (x := t)).const_mul (Complex.I * u * ((h.rho / h.vv : ℝ) : ℂ))
  refine (h1.add h2).congr_deriv ?_
  unfold lawW
  have e : chfD { h with theta := 1 / h.kappa } u t = chfD h u t := rfl
  rw [e]
  push_cast
  field_simp

theorem lawW_zero (h : Heston) (u : ℝ) : lawW h u 0 = Complex.I * u * ((h.rho / h.vv : ℝ) : ℂ) := by
  unfold lawW chfD
  simp

theorem lawA_zero (h : Heston) (hg : GoodHeston h) (u : ℝ) : lawA h u 0 = 0 := by
  unfold lawA chfB chfPsi
  have h1 : (1 - chfRatio { h with theta := 1 / h.kappa } u) ≠ 0 := one_sub_ratio_ne h hg u
  simp

theorem lawW_re (h : Heston) (hg : GoodHeston h) (u t : ℝ) (ht : 0 ≤ t) : (lawW h u t).re ≤ 0 := by
  have := chfD_re_nonpos h hg u t ht
  unfold lawW
  simpa using this

/-- The characteristic function of the code is the characteristic function of a law, which has every good moment. -/
theorem heston_hasLaw (h : Heston) (hg : GoodHeston h) (hv : 0 ≤ h.var0) (hth : 0 ≤ h.theta) (x tau r q : ℝ) (ht : 0 ≤ tau) (b : ℝ)
    (hb : GoodPower h b) : ∃ M, HasLaw b (fun u => chfAlbrecher h x tau r q u) M := by
  rcases ht.eq_or_lt with h0 | htau
  · subst h0
    refine ⟨Real.exp (b * x), (hasLaw_dirac b x).congr fun u => ?_⟩
    exact ((C78_backward_equation h hg.kappa hg.vv hg.rho r q u).2 x h.var0 hv).symm
  · obtain ⟨p, hp⟩ : ∃ p, p = b * (h.rho / h.vv) + (h.kappa - h.rho * h.vv * b) / h.vv ^ 2 := ⟨_, rfl⟩
    obtain ⟨c, hc⟩ : ∃ c, c = b * (h.kappa * h.rho / h.vv - 1 / 2) + (1 - h.rho ^ 2) / 2 * b ^ 2 := ⟨_, rfl⟩
    have hvv := hg.vv
    have hrho : 0 ≤ 1 - h.rho ^ 2 := by
      have h1 : h.rho ^ 2 ≤ 1 := by rw [← sq_abs]; nlinarith [hg.rho, abs_nonneg h.rho]
      linarith
    have hG : Exponent b (lawG h) c := by
      have := (Exponent.drift b (h.kappa * h.rho / h.vv - 1 / 2)).add (Exponent.gauss b hrho)
      rw [hc]
      exact this
    have hW0 : Exponent b (fun u => lawW h u 0) p := by
      simp only [lawW_zero]
      refine (Exponent.drift b (h.rho / h.vv)).mono ?_
      rw [hp]
      have : 0 < (h.kappa - h.rho * h.vv * b) / h.vv ^ 2 := div_pos hb.1 (by positivity)
      linarith
    have hq : h.vv ^ 2 / 2 * p ^ 2 - h.kappa * p + c < 0 := by
      have e : h.vv ^ 2 / 2 * p ^ 2 - h.kappa * p + c = -((h.kappa - h.rho * h.vv * b) ^ 2 - h.vv ^ 2 * (b ^ 2 - b)) / (2 * h.vv ^ 2) := by
        rw [hp, hc]
        field_simp
        ring
      rw [e]
      exact div_neg_of_neg_of_pos (by linarith [hb.2]) (by positivity)
    have hd0 : Tendsto (fun n : ℕ => tau / (n : ℝ)) atTop (𝓝 0) := tendsto_const_div_atTop_nhds_zero_nat tau
    have ev1 : ∀ᶠ n : ℕ in atTop, h.kappa * (tau / n) ≤ 1 := by
      have : Tendsto (fun n : ℕ => h.kappa * (tau / (n : ℝ))) atTop (𝓝 0) := by simpa using hd0.const_mul h.kappa
      exact this.eventually_le_const one_pos
    have hexp : ∀ᶠ n : ℕ in atTop, ∀ j, Exponent b (fun u => (riccatiPath h.kappa h.vv (tau / n) (lawG h u) (lawW h u 0) j).1) p ∧
        Exponent b (fun u => (riccatiPath h.kappa h.vv (tau / n) (lawG h u) (lawW h u 0) j).2) (j * (tau / n * p)) := by
      filter_upwards [ev1, bound_kept h.kappa h.vv tau p c hg.kappa hvv htau hq, eventually_gt_atTop 0] with n h1 h2 hn j
      have hn' : (0 : ℝ) < n := by exact_mod_cast hn
      exact path_exponent b h.kappa h.vv (tau / n) p c (lawG h) (fun u => lawW h u 0) (by positivity) (by linarith) (by positivity) hG hW0 h2 j
    have hconv : ∀ u, Tendsto (fun n : ℕ => (riccatiPath h.kappa h.vv (tau / n) (lawG h u) (lawW h u 0) n).1) atTop (𝓝 (lawW h u tau)) ∧
        Tendsto (fun n : ℕ => (riccatiPath h.kappa h.vv (tau / n) (lawG h u) (lawW h u 0) n).2) atTop (𝓝 (lawA h u tau)) := fun u =>
      steps_converge h.kappa h.vv tau hg.kappa hvv htau (lawG h u) (lawW h u) (lawA h u) (fun t ht => lawW_deriv h hg u t ht)
        (fun t ht => lawA_deriv h hg u t ht) (lawA_zero h hg u) (fun t ht => lawW_re h hg u t ht) (hexp.mono fun n hn j => (hn j).1.re_nonpos u)
    have hgood0 : GoodPower h (-(((0 : ℝ) : ℂ)).im) := by simpa using goodPower_zero h hg
    have hcW : ContinuousAt (fun u => lawW h u tau) 0 := by
      unfold lawW
      have h1 : ContinuousAt (fun u : ℝ => chfD h (u : ℂ) tau) 0 :=
        ContinuousAt.comp (f := fun u : ℝ => (u : ℂ)) (g := fun u : ℂ => chfD h u tau) (chfD_diff h hg _ hgood0 tau htau.le).continuousAt
          Complex.continuous_ofReal.continuousAt
      exact h1.add (by fun_prop)
    have hcA : ContinuousAt (fun u => lawA h u tau) 0 := by
      unfold lawA
      have hg1 : GoodHeston { h with theta := 1 / h.kappa } := ⟨hg.kappa, hg.vv, hg.rho⟩
      have h1 : ContinuousAt (fun u : ℝ => chfB { h with theta := 1 / h.kappa } (u : ℂ) tau) 0 :=
        ContinuousAt.comp (f := fun u : ℝ => (u : ℂ)) (g := fun u : ℂ => chfB { h with theta := 1 / h.kappa } u tau)
          (chfB_diff { h with theta := 1 / h.kappa } hg1 _ hgood0 tau htau.le).continuousAt Complex.continuous_ofReal.continuousAt
      exact h1.add (by fun_prop)
    obtain ⟨N, hN⟩ := eventually_atTop.mp (hexp.and (eventually_gt_atTop 0))
    have hEW : Exponent b (fun u => lawW h u tau) p :=
      Exponent.lim (F := fun n u => (riccatiPath h.kappa h.vv (tau / ((n + N : ℕ) : ℝ)) (lawG h u) (lawW h u 0) (n + N)).1) (K := fun _ => p)
        (fun n => ((hN (n + N) (by omega)).1 (n + N)).1) hcW (fun u => (hconv u).1.comp (tendsto_add_atTop_nat N)) tendsto_const_nhds
    have hEA : Exponent b (fun u => lawA h u tau) (tau * p) :=
      Exponent.lim (F := fun n u => (riccatiPath h.kappa h.vv (tau / ((n + N : ℕ) : ℝ)) (lawG h u) (lawW h u 0) (n + N)).2) (K := fun _ => tau * p)
        (fun n => by
          have h1 := ((hN (n + N) (by omega)).1 (n + N)).2
          have h2 : (0 : ℝ) < ((n + N : ℕ) : ℝ) := by exact_mod_cast (hN (n + N) (by omega)).2
          refine h1.mono (le_of_eq ?_)
          field_simp) hcA (fun u => (hconv u).2.comp (tendsto_add_atTop_nat N)) tendsto_const_nhds
    have hkt : 0 ≤ h.kappa * h.theta := mul_nonneg hg.kappa.le hth
    have hall := ((hEW.smul hv).add (hEA.smul hkt)).add
      (Exponent.drift b (x + (r - q) * tau - h.var0 * (h.rho / h.vv) - h.kappa * h.theta * (h.rho / h.vv) * tau))
    refine ⟨_, (hall.2 1 zero_le_one).congr fun u => ?_⟩
    have e1 := chfAlbrecher_eq h h.var0 hv x tau r q u
    rw [show ({ h with var0 := h.var0 } : Heston) = h from rfl] at e1
    rw [e1]
    congr 1
    have hk : (h.kappa : ℂ) ≠ 0 := by exact_mod_cast hg.kappa.ne'
    have e2 : chfB h u tau = h.kappa * h.theta * chfB { h with theta := 1 / h.kappa } u tau := by
      unfold chfB
      have e3 : chfPsi { h with theta := 1 / h.kappa } tau u = chfPsi h tau u := rfl
      have e4 : chfW { h with theta := 1 / h.kappa } u = chfW h u := rfl
      have e5 : chfRoot { h with theta := 1 / h.kappa } u = chfRoot h u := rfl
      rw [e3, e4, e5]
      push_cast
      field_simp
    rw [e2]
    unfold lawW lawA
    push_cast
    ring

end Frm.Props
