import Verif.Proofs.Bachelier
import Verif.Proofs.Taylor
import Mathlib.Analysis.SpecialFunctions.Trigonometric.DerivHyp

/-!
# The normal volatility with the same price as a lognormal one

Away from the money the normal volatility that gives the price of a Black-76 option is bracketed: with `L = log (A / B)`, `M = (A - B) / L`,
`β = 2 log (M / √(A B)) / L²` and total volatility `s`, the total normal volatility lies between `M s / √(1 + β s² + s⁴ / 480)` and
`M s / √(1 + β s²)`.  Both sides are compared with the Black price by their derivatives in `s`.
-/

namespace Frm.NormalVol
open Filter Topology Set Frm Frm.Taylor

set_option autoImplicit false

/-- A function on the positive numbers that starts from zero and does not increase is not positive. -/
theorem nonpos_of_deriv {g g' : ℝ → ℝ} (h : ∀ x, 0 < x → HasDerivAt g (g' x) x) (h0 : Tendsto g (𝓝[>] 0) (𝓝 0)) (hn : ∀ x, 0 < x → g' x ≤ 0)
    {x : ℝ} (hx : 0 < x) : g x ≤ 0 := by
  have hanti : AntitoneOn g (Ioi 0) := by
    apply antitoneOn_of_deriv_nonpos (convex_Ioi _)
    · exact fun y hy => (h y hy).continuousAt.continuousWithinAt
    · intro y hy
      rw [interior_Ioi] at hy
      exact (h y hy).differentiableAt.differentiableWithinAt
    · intro y hy
      rw [interior_Ioi] at hy
      rw [(h y hy).deriv]
      exact hn y hy
  refine ge_of_tendsto h0 ?_
  filter_upwards [Ioo_mem_nhdsGT hx] with y hy
  exact hanti hy.1 hx hy.2.le

theorem nonneg_of_deriv {g g' : ℝ → ℝ} (h : ∀ x, 0 < x → HasDerivAt g (g' x) x) (h0 : Tendsto g (𝓝[>] 0) (𝓝 0)) (hn : ∀ x, 0 < x → 0 ≤ g' x)
    {x : ℝ} (hx : 0 < x) : 0 ≤ g x := by
  have := nonpos_of_deriv (g := fun y => -g y) (g' := fun y => -g' y) (fun y hy => (h y hy).neg) (by simpa using h0.neg)
    (fun y hy => by have := hn y hy; linarith) hx
  linarith

/-! ## The logarithm of `sinh x / x` -/

theorem sinh_le_mul_cosh {x : ℝ} (hx : 0 ≤ x) : Real.sinh x ≤ x * Real.cosh x := by
  have h := Taylor.nonneg_of_deriv (Y := x) (g := fun x => x * Real.cosh x - Real.sinh x) (g' := fun x => x * Real.sinh x)
    (fun x => by
      have := ((hasDerivAt_id' x).mul (Real.hasDerivAt_cosh x)).sub (Real.hasDerivAt_sinh x)
      exact this.congr_deriv (by ring))
    (by simp) (fun y hy _ => mul_nonneg hy (Real.sinh_nonneg_iff.2 hy)) x hx le_rfl
  linarith

/-- `coth x - 1/x ≤ x/3`. -/
theorem coth_le1 {x : ℝ} (hx : 0 ≤ x) : x * Real.cosh x - Real.sinh x ≤ x ^ 2 / 3 * Real.sinh x := by
  have h := Taylor.nonneg_of_deriv (Y := x) (g := fun x => x ^ 2 / 3 * Real.sinh x - (x * Real.cosh x - Real.sinh x))
    (g' := fun x => x / 3 * (x * Real.cosh x - Real.sinh x))
    (fun x => by
      have := (((hasDerivAt_pow 2 x).div_const 3).mul (Real.hasDerivAt_sinh x)).sub
        (((hasDerivAt_id' x).mul (Real.hasDerivAt_cosh x)).sub (Real.hasDerivAt_sinh x))
      exact this.congr_deriv (by push_cast; ring))
    (by simp) (fun y hy _ => mul_nonneg (by positivity) (by have := sinh_le_mul_cosh hy; linarith)) x hx le_rfl
  linarith

theorem coth_aux {x : ℝ} (hx : 0 ≤ x) : 0 ≤ (1 / 3 + 4 * x ^ 2 / 45) * Real.sinh x - (x / 3 - x ^ 3 / 45) * Real.cosh x := by
  have h := Taylor.nonneg_of_deriv (Y := x) (g := fun x => (1 / 3 + 4 * x ^ 2 / 45) * Real.sinh x - (x / 3 - x ^ 3 / 45) * Real.cosh x)
    (g' := fun x => x / 45 * (7 * (x * Real.cosh x - Real.sinh x) + x ^ 2 * Real.sinh x))
    (fun x => by
      have := (((((hasDerivAt_pow 2 x).const_mul 4).div_const 45).const_add (1 / 3)).mul (Real.hasDerivAt_sinh x)).sub
        ((((hasDerivAt_id' x).div_const 3).sub ((hasDerivAt_pow 3 x).div_const 45)).mul (Real.hasDerivAt_cosh x))
      exact this.congr_deriv (by simp only [Pi.sub_apply]; push_cast; ring))
    (by simp) (fun y hy _ => by
      have h1 := sinh_le_mul_cosh hy
      have h2 := Real.sinh_nonneg_iff.2 hy
      exact mul_nonneg (by positivity) (add_nonneg (by linarith) (by positivity))) x hx le_rfl
  exact h

/-- `x/3 - x³/45 ≤ coth x - 1/x`. -/
theorem coth_ge3 {x : ℝ} (hx : 0 ≤ x) : (x ^ 2 / 3 - x ^ 4 / 45) * Real.sinh x ≤ x * Real.cosh x - Real.sinh x := by
  have h := Taylor.nonneg_of_deriv (Y := x) (g := fun x => x * Real.cosh x - Real.sinh x - (x ^ 2 / 3 - x ^ 4 / 45) * Real.sinh x)
    (g' := fun x => x * ((1 / 3 + 4 * x ^ 2 / 45) * Real.sinh x - (x / 3 - x ^ 3 / 45) * Real.cosh x))
    (fun x => by
      have := (((hasDerivAt_id' x).mul (Real.hasDerivAt_cosh x)).sub (Real.hasDerivAt_sinh x)).sub
        ((((hasDerivAt_pow 2 x).div_const 3).sub ((hasDerivAt_pow 4 x).div_const 45)).mul (Real.hasDerivAt_sinh x))
      exact this.congr_deriv (by simp only [Pi.sub_apply]; push_cast; ring))
    (by simp) (fun y hy _ => mul_nonneg hy (coth_aux hy)) x hx le_rfl
  linarith

theorem coth_aux2 {x : ℝ} (hx : 0 ≤ x) :
    0 ≤ 147 * (Real.sinh x - x * Real.cosh x) + (27 * x ^ 2 + 2 * x ^ 4) * Real.sinh x + 22 * x ^ 3 * Real.cosh x := by
  have h := Taylor.nonneg_of_deriv (Y := x)
    (g := fun x => 147 * (Real.sinh x - x * Real.cosh x) + (27 * x ^ 2 + 2 * x ^ 4) * Real.sinh x + 22 * x ^ 3 * Real.cosh x)
    (g' := fun x => 93 * x * (x * Real.cosh x - Real.sinh x) + 30 * x ^ 3 * Real.sinh x + 2 * x ^ 4 * Real.cosh x)
    (fun x => by
      have := ((((Real.hasDerivAt_sinh x).sub ((hasDerivAt_id' x).mul (Real.hasDerivAt_cosh x))).const_mul 147).add
        ((((hasDerivAt_pow 2 x).const_mul 27).add ((hasDerivAt_pow 4 x).const_mul 2)).mul (Real.hasDerivAt_sinh x))).add
        (((hasDerivAt_pow 3 x).const_mul 22).mul (Real.hasDerivAt_cosh x))
      exact this.congr_deriv (by simp only [Pi.add_apply]; push_cast; ring))
    (by simp) (fun y hy _ => by
      have h1 := sinh_le_mul_cosh hy
      have h2 := Real.sinh_nonneg_iff.2 hy
      have h3 := Real.cosh_pos y
      have : 0 ≤ 93 * y * (y * Real.cosh y - Real.sinh y) := mul_nonneg (by positivity) (by linarith)
      positivity) x hx le_rfl
  exact h

theorem coth_aux3 {x : ℝ} (hx : 0 ≤ x) :
    0 ≤ (x / 3 - x ^ 3 / 45 + 2 * x ^ 5 / 945) * Real.cosh x - (1 / 3 + 4 * x ^ 2 / 45 - 12 * x ^ 4 / 945) * Real.sinh x := by
  have h := Taylor.nonneg_of_deriv (Y := x)
    (g := fun x => (x / 3 - x ^ 3 / 45 + 2 * x ^ 5 / 945) * Real.cosh x - (1 / 3 + 4 * x ^ 2 / 45 - 12 * x ^ 4 / 945) * Real.sinh x)
    (g' := fun x => x / 945 * (147 * (Real.sinh x - x * Real.cosh x) + (27 * x ^ 2 + 2 * x ^ 4) * Real.sinh x + 22 * x ^ 3 * Real.cosh x))
    (fun x => by
      have := (((((hasDerivAt_id' x).div_const 3).sub ((hasDerivAt_pow 3 x).div_const 45)).add (((hasDerivAt_pow 5 x).const_mul 2).div_const 945)).mul
        (Real.hasDerivAt_cosh x)).sub
        ((((((hasDerivAt_pow 2 x).const_mul 4).div_const 45).const_add (1 / 3)).sub (((hasDerivAt_pow 4 x).const_mul 12).div_const 945)).mul
        (Real.hasDerivAt_sinh x))
      exact this.congr_deriv (by simp only [Pi.sub_apply, Pi.add_apply]; push_cast; ring))
    (by simp) (fun y hy _ => mul_nonneg (by positivity) (coth_aux2 hy)) x hx le_rfl
  exact h

/-- `coth x - 1/x ≤ x/3 - x³/45 + 2x⁵/945`. -/
theorem coth_le5 {x : ℝ} (hx : 0 ≤ x) : x * Real.cosh x - Real.sinh x ≤ (x ^ 2 / 3 - x ^ 4 / 45 + 2 * x ^ 6 / 945) * Real.sinh x := by
  have h := Taylor.nonneg_of_deriv (Y := x)
    (g := fun x => (x ^ 2 / 3 - x ^ 4 / 45 + 2 * x ^ 6 / 945) * Real.sinh x - (x * Real.cosh x - Real.sinh x))
    (g' := fun x => x * ((x / 3 - x ^ 3 / 45 + 2 * x ^ 5 / 945) * Real.cosh x - (1 / 3 + 4 * x ^ 2 / 45 - 12 * x ^ 4 / 945) * Real.sinh x))
    (fun x => by
      have := (((((hasDerivAt_pow 2 x).div_const 3).sub ((hasDerivAt_pow 4 x).div_const 45)).add (((hasDerivAt_pow 6 x).const_mul 2).div_const 945)).mul
        (Real.hasDerivAt_sinh x)).sub
        (((hasDerivAt_id' x).mul (Real.hasDerivAt_cosh x)).sub (Real.hasDerivAt_sinh x))
      exact this.congr_deriv (by simp only [Pi.sub_apply, Pi.add_apply]; push_cast; ring))
    (by simp) (fun y hy _ => mul_nonneg hy (coth_aux3 hy)) x hx le_rfl
  linarith

/-- `log (sinh x / x)`. -/
noncomputable def logSinhc (x : ℝ) : ℝ := Real.log (Real.sinh x / x)

theorem logSinhc_hasDerivAt {x : ℝ} (hx : 0 < x) : HasDerivAt logSinhc ((x * Real.cosh x - Real.sinh x) / (x * Real.sinh x)) x := by
  have hs : 0 < Real.sinh x := Real.sinh_pos_iff.2 hx
  have := ((Real.hasDerivAt_sinh x).div (hasDerivAt_id' x) hx.ne').log (div_pos hs hx).ne'
  refine this.congr_deriv ?_
  simp only [Pi.div_apply]
  field_simp

theorem logSinhc_zero : Tendsto logSinhc (𝓝[>] 0) (𝓝 0) := by
  have h := (hasDerivAt_iff_tendsto_slope_zero.1 (Real.hasDerivAt_sinh 0)).mono_left (nhdsWithin_mono 0 (fun x (hx : 0 < x) => (ne_of_gt hx : x ≠ 0)))
  have h' : Tendsto (fun x : ℝ => Real.sinh x / x) (𝓝[>] 0) (𝓝 1) := by
    have e : ∀ t : ℝ, t⁻¹ • (Real.sinh (0 + t) - Real.sinh 0) = Real.sinh t / t := fun t => by
      rw [zero_add, Real.sinh_zero, sub_zero, smul_eq_mul]; field_simp
    simp only [e, Real.cosh_zero] at h
    exact h
  have := h'.log one_ne_zero
  rwa [Real.log_one] at this

theorem pow_tendsto_zero (n : ℕ) (c : ℝ) : Tendsto (fun x : ℝ => x ^ (n + 1) / c) (𝓝[>] 0) (𝓝 0) := by
  have : ContinuousAt (fun x : ℝ => x ^ (n + 1) / c) 0 := by fun_prop
  have h := this.tendsto.mono_left (nhdsWithin_le_nhds (s := Ioi 0))
  simpa using h

theorem logSinhc_le2 {x : ℝ} (hx : 0 < x) : logSinhc x ≤ x ^ 2 / 6 := by
  have := nonpos_of_deriv (g := fun x => logSinhc x - x ^ 2 / 6) (g' := fun x => (x * Real.cosh x - Real.sinh x) / (x * Real.sinh x) - x / 3)
    (fun x hx => ((logSinhc_hasDerivAt hx).sub ((hasDerivAt_pow 2 x).div_const 6)).congr_deriv (by push_cast; ring))
    (by simpa using logSinhc_zero.sub (pow_tendsto_zero 1 6))
    (fun x hx => by
      have hs : 0 < Real.sinh x := Real.sinh_pos_iff.2 hx
      have := coth_le1 hx.le
      rw [sub_nonpos, div_le_iff₀ (mul_pos hx hs)]
      nlinarith) hx
  linarith

theorem logSinhc_ge4 {x : ℝ} (hx : 0 < x) : x ^ 2 / 6 - x ^ 4 / 180 ≤ logSinhc x := by
  have := nonneg_of_deriv (g := fun x => logSinhc x - (x ^ 2 / 6 - x ^ 4 / 180))
    (g' := fun x => (x * Real.cosh x - Real.sinh x) / (x * Real.sinh x) - (x / 3 - x ^ 3 / 45))
    (fun x hx => ((logSinhc_hasDerivAt hx).sub (((hasDerivAt_pow 2 x).div_const 6).sub ((hasDerivAt_pow 4 x).div_const 180))).congr_deriv
      (by push_cast; ring))
    (by simpa using logSinhc_zero.sub ((pow_tendsto_zero 1 6).sub (pow_tendsto_zero 3 180)))
    (fun x hx => by
      have hs : 0 < Real.sinh x := Real.sinh_pos_iff.2 hx
      have := coth_ge3 hx.le
      rw [sub_nonneg, le_div_iff₀ (mul_pos hx hs)]
      nlinarith) hx
  linarith

theorem logSinhc_le6 {x : ℝ} (hx : 0 < x) : logSinhc x ≤ x ^ 2 / 6 - x ^ 4 / 180 + x ^ 6 / 2835 := by
  have := nonpos_of_deriv (g := fun x => logSinhc x - (x ^ 2 / 6 - x ^ 4 / 180 + x ^ 6 / 2835))
    (g' := fun x => (x * Real.cosh x - Real.sinh x) / (x * Real.sinh x) - (x / 3 - x ^ 3 / 45 + 2 * x ^ 5 / 945))
    (fun x hx => ((logSinhc_hasDerivAt hx).sub ((((hasDerivAt_pow 2 x).div_const 6).sub ((hasDerivAt_pow 4 x).div_const 180)).add
      ((hasDerivAt_pow 6 x).div_const 2835))).congr_deriv (by push_cast; ring))
    (by simpa using logSinhc_zero.sub (((pow_tendsto_zero 1 6).sub (pow_tendsto_zero 3 180)).add (pow_tendsto_zero 5 2835)))
    (fun x hx => by
      have hs : 0 < Real.sinh x := Real.sinh_pos_iff.2 hx
      have := coth_le5 hx.le
      rw [sub_nonpos, div_le_iff₀ (mul_pos hx hs)]
      nlinarith) hx
  linarith

theorem logSinhc_nonneg {x : ℝ} (hx : 0 < x) : 0 ≤ logSinhc x :=
  Real.log_nonneg ((one_le_div hx).2 (sinh_ge1 hx.le))

/-! ## Elementary inequalities -/

theorem cube_root_upper {β w : ℝ} (hw : 0 ≤ w) (h0 : 0 ≤ β) (hβ : β ≤ 1 / 12) : (1 + β * w) * Real.sqrt (1 + β * w) ≤ Real.exp (w / 8) := by
  have hD : 1 + β * w ≤ Real.exp (w / 12) := by
    have h1 := Real.add_one_le_exp (w / 12)
    have h2 := mul_le_mul_of_nonneg_right hβ hw
    linarith
  have hq : Real.sqrt (1 + β * w) ≤ Real.exp (w / 24) := by
    rw [Real.sqrt_le_left (Real.exp_pos _).le, ← Real.exp_nat_mul]
    have e : ((2 : ℕ) : ℝ) * (w / 24) = w / 12 := by push_cast; ring
    rw [e]
    exact hD
  have e : Real.exp (w / 8) = Real.exp (w / 12) * Real.exp (w / 24) := by rw [← Real.exp_add]; congr 1; ring
  rw [e]
  exact mul_le_mul hD hq (Real.sqrt_nonneg _) (Real.exp_pos _).le

theorem exp_quadratic {u : ℝ} (hu : 0 ≤ u) : Real.exp u * (1 - u ^ 2 / 5) ≤ 1 + u + 3 * u ^ 2 / 10 := by
  have h := Taylor.nonneg_of_deriv (Y := u) (g := fun u => (1 + u + 3 * u ^ 2 / 10) * Real.exp (-u) - (1 - u ^ 2 / 5))
    (g' := fun u => u * (2 / 5 - Real.exp (-u) * (2 / 5 + 3 * u / 10)))
    (fun x => by
      have := (((((hasDerivAt_id' x).const_add 1).add (((hasDerivAt_pow 2 x).const_mul 3).div_const 10))).mul (expNeg_hasDerivAt x)).sub
        (((hasDerivAt_pow 2 x).div_const 5).const_sub 1)
      exact this.congr_deriv (by simp only [Pi.add_apply]; push_cast; ring))
    (by simp) (fun y hy _ => by
      refine mul_nonneg hy ?_
      have h1 := Real.add_one_le_exp y
      have h2 := Real.exp_pos (-y)
      have h3 : Real.exp (-y) * Real.exp y = 1 := by rw [← Real.exp_add]; simp
      nlinarith [mul_le_mul_of_nonneg_left h1 h2.le, mul_nonneg h2.le hy]) u hu le_rfl
  have h2 : Real.exp u * Real.exp (-u) = 1 := by rw [← Real.exp_add]; simp
  have h3 := mul_nonneg (Real.exp_pos u).le h
  have e : Real.exp u * ((1 + u + 3 * u ^ 2 / 10) * Real.exp (-u) - (1 - u ^ 2 / 5)) = (1 + u + 3 * u ^ 2 / 10) * (Real.exp u * Real.exp (-u)) - Real.exp u * (1 - u ^ 2 / 5) := by
    ring
  rw [e, h2] at h3
  linarith

theorem exp_quadratic_g {u g : ℝ} (hu : 0 ≤ u) (hg : 3 * u ^ 2 / 10 ≤ g) : Real.exp u * (1 - 2 * g / 3) ≤ 1 + u + g := by
  have h1 := exp_quadratic hu
  have h2 := Real.exp_pos u
  nlinarith [mul_le_mul_of_nonneg_left (show u ^ 2 / 5 ≤ 2 * g / 3 by linarith) h2.le]

theorem cube_root_lower {β w c : ℝ} (hw : 0 ≤ w) (h0 : 0 ≤ β) (hβ : β ≤ 1 / 12) (hc : 1 / 8 - c ≤ 3 * β / 2) :
    Real.exp (-(c * w)) * (1 - w ^ 2 / 480) ≤ (1 + β * w + w ^ 2 / 480) * Real.sqrt (1 + β * w + w ^ 2 / 480) * Real.exp (-(w / 8)) := by
  set u := β * w with hu
  set g := w ^ 2 / 480 with hg
  have hu0 : 0 ≤ u := mul_nonneg h0 hw
  have hg0 : 0 ≤ g := by positivity
  have hD : 0 < 1 + u + g := by linarith
  by_cases h1 : 1 ≤ g
  · have ha : Real.exp (-(c * w)) * (1 - g) ≤ 0 := mul_nonpos_of_nonneg_of_nonpos (Real.exp_pos _).le (by linarith)
    have hb : 0 ≤ (1 + u + g) * Real.sqrt (1 + u + g) * Real.exp (-(w / 8)) := by positivity
    linarith
  · rw [not_le] at h1
    have hug : 3 * u ^ 2 / 10 ≤ g := by
      have : u ≤ w / 12 := by rw [hu]; nlinarith
      have : u ^ 2 ≤ (w / 12) ^ 2 := pow_le_pow_left₀ hu0 this 2
      rw [hg]
      nlinarith
    have hk := exp_quadratic_g hu0 hug
    have hp : 0 ≤ Real.exp u * (1 - 2 * g / 3) := mul_nonneg (Real.exp_pos _).le (by linarith)
    -- the squares
    have hcube : (1 - g) ^ 2 * Real.exp (3 * u) ≤ (1 + u + g) ^ 3 := by
      have h2 : (1 - g) ^ 2 ≤ (1 - 2 * g / 3) ^ 3 := by nlinarith [mul_nonneg (sq_nonneg g) (sub_nonneg.2 h1.le), sq_nonneg g]
      have h3 := pow_le_pow_left₀ hp hk 3
      have e : (Real.exp u * (1 - 2 * g / 3)) ^ 3 = (1 - 2 * g / 3) ^ 3 * Real.exp (3 * u) := by
        rw [mul_pow, ← Real.exp_nat_mul]; push_cast; ring
      rw [e] at h3
      exact (mul_le_mul_of_nonneg_right h2 (Real.exp_pos _).le).trans h3
    have hsq : (1 - g) * Real.exp (3 * u / 2) ≤ (1 + u + g) * Real.sqrt (1 + u + g) := by
      refine (sq_le_sq₀ (mul_nonneg (by linarith) (Real.exp_pos _).le) (by positivity)).1 ?_
      rw [mul_pow, mul_pow, Real.sq_sqrt hD.le, ← Real.exp_nat_mul]
      have e : ((2 : ℕ) : ℝ) * (3 * u / 2) = 3 * u := by push_cast; ring
      rw [e]
      calc (1 - g) ^ 2 * Real.exp (3 * u) ≤ (1 + u + g) ^ 3 := hcube
        _ = (1 + u + g) ^ 2 * (1 + u + g) := by ring
    have he : Real.exp (-(c * w)) ≤ Real.exp (3 * u / 2) * Real.exp (-(w / 8)) := by
      rw [← Real.exp_add]
      apply Real.exp_le_exp.2
      have := mul_le_mul_of_nonneg_right hc hw
      rw [hu]
      linarith
    calc Real.exp (-(c * w)) * (1 - g) ≤ Real.exp (3 * u / 2) * Real.exp (-(w / 8)) * (1 - g) :=
          mul_le_mul_of_nonneg_right he (by linarith)
      _ = ((1 - g) * Real.exp (3 * u / 2)) * Real.exp (-(w / 8)) := by ring
      _ ≤ _ := mul_le_mul_of_nonneg_right hsq (Real.exp_pos _).le

/-! ## Derivatives -/

/-- The bounding volatility. -/
noncomputable def bound (M β γ s : ℝ) : ℝ := M * s / Real.sqrt (1 + β * s ^ 2 + γ * s ^ 4)

theorem bound_hasDerivAt {M β γ s : ℝ} (hD : 0 < 1 + β * s ^ 2 + γ * s ^ 4) :
    HasDerivAt (bound M β γ) (M * (1 - γ * s ^ 4) / ((1 + β * s ^ 2 + γ * s ^ 4) * Real.sqrt (1 + β * s ^ 2 + γ * s ^ 4))) s := by
  have hd : HasDerivAt (fun s : ℝ => 1 + β * s ^ 2 + γ * s ^ 4) (2 * β * s + 4 * γ * s ^ 3) s := by
    have := (((hasDerivAt_pow 2 s).const_mul β).const_add 1).add ((hasDerivAt_pow 4 s).const_mul γ)
    exact this.congr_deriv (by push_cast; ring)
  have hs := hd.sqrt hD.ne'
  have hq : 0 < Real.sqrt (1 + β * s ^ 2 + γ * s ^ 4) := Real.sqrt_pos.2 hD
  have h := ((hasDerivAt_id' s).const_mul M).div hs hq.ne'
  refine h.congr_deriv ?_
  have hsq : Real.sqrt (1 + β * s ^ 2 + γ * s ^ 4) ^ 2 = 1 + β * s ^ 2 + γ * s ^ 4 := Real.sq_sqrt hD.le
  set q := Real.sqrt (1 + β * s ^ 2 + γ * s ^ 4)
  rw [← hsq]
  field_simp
  rw [hsq]
  ring

theorem bound_pos {M β γ s : ℝ} (hM : 0 < M) (hs : 0 < s) (hβ : 0 ≤ β) (hγ : 0 ≤ γ) : 0 < bound M β γ s := by
  unfold bound
  have : 0 < 1 + β * s ^ 2 + γ * s ^ 4 := by positivity
  have := Real.sqrt_pos.2 this
  positivity

theorem bound_le {M β γ s : ℝ} (hM : 0 < M) (hs : 0 < s) (hβ : 0 ≤ β) (hγ : 0 ≤ γ) : bound M β γ s ≤ M * s := by
  unfold bound
  refine div_le_self (by positivity) ?_
  rw [Real.one_le_sqrt]
  have : 0 ≤ β * s ^ 2 := by positivity
  have : 0 ≤ γ * s ^ 4 := by positivity
  linarith

theorem bach_le (m : ℝ) {s : ℝ} (hs : 0 < s) : bachF 1 m s ≤ max 0 m + s * normPdf 0 := by
  unfold bachF
  rw [one_mul, one_mul]
  have h1 := mul_le_mul_of_nonneg_left (normPdf_le (m / s)) hs.le
  have h2 : m * normCdf (m / s) ≤ max 0 m := by
    rcases le_total 0 m with h | h
    · rw [max_eq_right h]
      exact mul_le_of_le_one_right h (normCdf_lt_one _).le
    · rw [max_eq_left h]
      exact mul_nonpos_of_nonpos_of_nonneg h (normCdf_pos _).le
  linarith

theorem bach_bound_zero {m M β γ : ℝ} (hM : 0 < M) (hβ : 0 ≤ β) (hγ : 0 ≤ γ) :
    Tendsto (fun s => bachF 1 m (bound M β γ s)) (𝓝[>] 0) (𝓝 (max 0 m)) := by
  have hlim : Tendsto (fun s : ℝ => max 0 m + M * s * normPdf 0) (𝓝[>] 0) (𝓝 (max 0 m)) := by
    have : ContinuousAt (fun s : ℝ => max 0 m + M * s * normPdf 0) 0 := by fun_prop
    have h := this.tendsto.mono_left (nhdsWithin_le_nhds (s := Ioi 0))
    simpa using h
  refine tendsto_of_tendsto_of_tendsto_of_le_of_le' tendsto_const_nhds hlim ?_ ?_
  · filter_upwards [self_mem_nhdsWithin] with s hs
    have := bach_gt_intrinsic (m := m) (cp := 1) (bound_pos hM hs hβ hγ) (.inl rfl)
    rw [one_mul] at this
    exact this.le
  · filter_upwards [self_mem_nhdsWithin] with s hs
    have h1 := bach_le m (bound_pos hM hs hβ hγ)
    have h2 := mul_le_mul_of_nonneg_right (bound_le hM hs hβ hγ) (normPdf_pos 0).le
    linarith

/-- Black's vega. -/
theorem black_density {A B G s : ℝ} (hG : A = G * Real.exp (Real.log (A / B) / 2)) (hs : 0 < s) :
    A * normPdf (bD1 A B s) = G * normPdf (Real.log (A / B) / s) * Real.exp (-(s ^ 2 / 8)) := by
  unfold bD1
  set L := Real.log (A / B)
  rw [pdf_shift, hG]
  have e : -(L / s * (s / 2)) - (s / 2) ^ 2 / 2 = -(L / 2) + -(s ^ 2 / 8) := by field_simp; ring
  have h1 : Real.exp (L / 2) * Real.exp (-(L / 2)) = 1 := by rw [← Real.exp_add]; simp
  rw [e, Real.exp_add]
  linear_combination G * normPdf (L / s) * Real.exp (-(s ^ 2 / 8)) * h1

/-- The density of the normal model at the bounding volatility. -/
theorem normal_density {L M β γ s : ℝ} (hM : 0 < M) (hs : 0 < s) (hβ : 0 ≤ β) (hγ : 0 ≤ γ) :
    normPdf (M * L / bound M β γ s) = normPdf (L / s) * Real.exp (-(β * L ^ 2 / 2)) * Real.exp (-(γ * L ^ 2 / 2 * s ^ 2)) := by
  unfold bound
  have hD : 0 < 1 + β * s ^ 2 + γ * s ^ 4 := by positivity
  have hq : 0 < Real.sqrt (1 + β * s ^ 2 + γ * s ^ 4) := Real.sqrt_pos.2 hD
  have e : M * L / (M * s / Real.sqrt (1 + β * s ^ 2 + γ * s ^ 4)) = L * Real.sqrt (1 + β * s ^ 2 + γ * s ^ 4) / s := by field_simp
  rw [e]
  unfold normPdf
  rw [div_mul_eq_mul_div, div_mul_eq_mul_div, ← Real.exp_add, ← Real.exp_add]
  congr 2
  rw [div_pow, mul_pow, Real.sq_sqrt hD.le]
  field_simp
  ring

/-! ## The comparison -/

section
variable {A B : ℝ}

/-- `(A - B) / log (A / B)`. -/
noncomputable def logMean (A B : ℝ) : ℝ := (A - B) / Real.log (A / B)

/-- `2 log (M / √(A B)) / L²`. -/
noncomputable def curv (A B : ℝ) : ℝ := 2 * Real.log (logMean A B / Real.sqrt (A * B)) / Real.log (A / B) ^ 2

theorem log_ne (hA : 0 < A) (hB : 0 < B) (h : A ≠ B) : Real.log (A / B) ≠ 0 := by
  intro h0
  rcases Real.log_eq_zero.1 h0 with h1 | h1 | h1
  · exact (div_pos hA hB).ne' h1
  · exact h (by rwa [div_eq_one_iff_eq hB.ne'] at h1)
  · have := div_pos hA hB; linarith

theorem geo_left (hA : 0 < A) (hB : 0 < B) : A = Real.sqrt (A * B) * Real.exp (Real.log (A / B) / 2) := by
  rw [Real.exp_half, Real.exp_log (div_pos hA hB), ← Real.sqrt_mul (mul_pos hA hB).le, show A * B * (A / B) = A ^ 2 by field_simp, Real.sqrt_sq hA.le]

theorem geo_right (hA : 0 < A) (hB : 0 < B) : B = Real.sqrt (A * B) * Real.exp (-(Real.log (A / B) / 2)) := by
  rw [show -(Real.log (A / B) / 2) = (-Real.log (A / B)) / 2 by ring, Real.exp_half, ← Real.log_inv, inv_div, Real.exp_log (div_pos hB hA),
    ← Real.sqrt_mul (mul_pos hA hB).le, show A * B * (B / A) = B ^ 2 by field_simp, Real.sqrt_sq hB.le]

theorem logMean_eq (hA : 0 < A) (hB : 0 < B) (h : A ≠ B) :
    logMean A B / Real.sqrt (A * B) = Real.sinh (|Real.log (A / B)| / 2) / (|Real.log (A / B)| / 2) := by
  have hL := log_ne hA hB h
  have hG : 0 < Real.sqrt (A * B) := Real.sqrt_pos.2 (mul_pos hA hB)
  have h1 := geo_left hA hB
  have h2 := geo_right hA hB
  have hd : A - B = Real.sqrt (A * B) * (2 * Real.sinh (Real.log (A / B) / 2)) := by
    rw [Real.sinh_eq]
    linear_combination h1 - h2
  unfold logMean
  rw [hd]
  rcases lt_or_gt_of_ne hL with hl | hl
  · rw [abs_of_neg hl, show -Real.log (A / B) / 2 = -(Real.log (A / B) / 2) by ring, Real.sinh_neg]
    field_simp
  · rw [abs_of_pos hl]
    field_simp

theorem logMean_pos (hA : 0 < A) (hB : 0 < B) (h : A ≠ B) : 0 < logMean A B := by
  have hL := abs_pos.2 (log_ne hA hB h)
  have hG : 0 < Real.sqrt (A * B) := Real.sqrt_pos.2 (mul_pos hA hB)
  have h1 := logMean_eq hA hB h
  have h2 : 0 < Real.sinh (|Real.log (A / B)| / 2) / (|Real.log (A / B)| / 2) :=
    div_pos (Real.sinh_pos_iff.2 (by linarith)) (by linarith)
  rw [← h1] at h2
  exact (div_pos_iff_of_pos_right hG).1 h2

theorem curv_eq (hA : 0 < A) (hB : 0 < B) (h : A ≠ B) :
    curv A B * Real.log (A / B) ^ 2 = 2 * logSinhc (|Real.log (A / B)| / 2) := by
  unfold curv logSinhc
  rw [logMean_eq hA hB h, div_mul_cancel₀ _ (pow_ne_zero 2 (log_ne hA hB h))]

theorem curv_nonneg (hA : 0 < A) (hB : 0 < B) (h : A ≠ B) : 0 ≤ curv A B := by
  have hL := abs_pos.2 (log_ne hA hB h)
  have h1 := curv_eq hA hB h
  have h2 := logSinhc_nonneg (x := |Real.log (A / B)| / 2) (by linarith)
  have h3 : 0 < Real.log (A / B) ^ 2 := by rw [← sq_abs]; positivity
  nlinarith

theorem curv_le (hA : 0 < A) (hB : 0 < B) (h : A ≠ B) : curv A B ≤ 1 / 12 := by
  have hL := abs_pos.2 (log_ne hA hB h)
  have h1 := curv_eq hA hB h
  have h2 := logSinhc_le2 (x := |Real.log (A / B)| / 2) (by linarith)
  have h3 : 0 < Real.log (A / B) ^ 2 := by rw [← sq_abs]; positivity
  rw [div_pow, sq_abs] at h2
  nlinarith

theorem curv_ge (hA : 0 < A) (hB : 0 < B) (h : A ≠ B) : 1 / 12 - Real.log (A / B) ^ 2 / 1440 ≤ curv A B := by
  have hL := abs_pos.2 (log_ne hA hB h)
  have h1 := curv_eq hA hB h
  have h2 := logSinhc_ge4 (x := |Real.log (A / B)| / 2) (by linarith)
  have h3 : 0 < Real.log (A / B) ^ 2 := by rw [← sq_abs]; positivity
  have e : (|Real.log (A / B)| / 2) ^ 4 = (Real.log (A / B) ^ 2) ^ 2 / 16 := by rw [← sq_abs (Real.log (A / B))]; ring
  rw [e, div_pow, sq_abs] at h2
  nlinarith

theorem curv_le4 (hA : 0 < A) (hB : 0 < B) (h : A ≠ B) : curv A B ≤ 1 / 12 - Real.log (A / B) ^ 2 / 1440 + Real.log (A / B) ^ 4 / 90720 := by
  have hL := abs_pos.2 (log_ne hA hB h)
  have h1 := curv_eq hA hB h
  have h2 := logSinhc_le6 (x := |Real.log (A / B)| / 2) (by linarith)
  have h3 : 0 < Real.log (A / B) ^ 2 := by rw [← sq_abs]; positivity
  have e : (|Real.log (A / B)| / 2) ^ 4 = (Real.log (A / B) ^ 2) ^ 2 / 16 := by rw [← sq_abs (Real.log (A / B))]; ring
  have e' : (|Real.log (A / B)| / 2) ^ 6 = (Real.log (A / B) ^ 2) ^ 3 / 64 := by rw [← sq_abs (Real.log (A / B))]; ring
  have e4 : Real.log (A / B) ^ 4 = (Real.log (A / B) ^ 2) ^ 2 := by ring
  rw [e, e', div_pow, sq_abs] at h2
  rw [e4]
  refine le_of_mul_le_mul_right ?_ h3
  rw [h1]
  refine (mul_le_mul_of_nonneg_left h2 (by norm_num : (0 : ℝ) ≤ 2)).trans (le_of_eq ?_)
  ring

theorem geo_eq (hA : 0 < A) (hB : 0 < B) (h : A ≠ B) :
    logMean A B * Real.exp (-(curv A B * Real.log (A / B) ^ 2 / 2)) = Real.sqrt (A * B) := by
  have hG : 0 < Real.sqrt (A * B) := Real.sqrt_pos.2 (mul_pos hA hB)
  have hM := logMean_pos hA hB h
  have e : curv A B * Real.log (A / B) ^ 2 / 2 = Real.log (logMean A B / Real.sqrt (A * B)) := by
    unfold curv
    rw [div_mul_cancel₀ _ (pow_ne_zero 2 (log_ne hA hB h))]
    ring
  rw [e, ← Real.log_inv, inv_div, Real.exp_log (div_pos hG hM)]
  field_simp

/-- The derivative of the difference of the two prices. -/
theorem diff_hasDerivAt (hA : 0 < A) (hB : 0 < B) (h : A ≠ B) {γ s : ℝ} (hγ : 0 ≤ γ) (hs : 0 < s) :
    HasDerivAt (fun s => bachF 1 (A - B) (bound (logMean A B) (curv A B) γ s) - blackF 1 A B s)
      (Real.sqrt (A * B) * normPdf (Real.log (A / B) / s) *
        (Real.exp (-(γ * Real.log (A / B) ^ 2 / 2 * s ^ 2)) * (1 - γ * s ^ 4) /
          ((1 + curv A B * s ^ 2 + γ * s ^ 4) * Real.sqrt (1 + curv A B * s ^ 2 + γ * s ^ 4)) - Real.exp (-(s ^ 2 / 8)))) s := by
  have hM := logMean_pos hA hB h
  have hβ := curv_nonneg hA hB h
  have hD : 0 < 1 + curv A B * s ^ 2 + γ * s ^ 4 := by positivity
  have hbp := bound_pos hM hs hβ hγ
  have h1 := bach_hasDerivAt (cp := 1) (.inl rfl) (hasDerivAt_const s (A - B)) (bound_hasDerivAt (M := logMean A B) hD) hbp.ne'
  have h2 := black_hasDerivAt (cp := 1) (.inl rfl) (hasDerivAt_const s A) (hasDerivAt_const s B) (hasDerivAt_id' s) hA hB hs.ne'
  refine (h1.sub h2).congr_deriv ?_
  have hAB : A - B = logMean A B * Real.log (A / B) := by unfold logMean; rw [div_mul_cancel₀ _ (log_ne hA hB h)]
  have e1 : normPdf ((A - B) / bound (logMean A B) (curv A B) γ s) = normPdf (Real.log (A / B) / s) *
      Real.exp (-(curv A B * Real.log (A / B) ^ 2 / 2)) * Real.exp (-(γ * Real.log (A / B) ^ 2 / 2 * s ^ 2)) := by
    rw [hAB]
    exact normal_density hM hs hβ hγ
  have e2 := black_density (geo_left hA hB) hs
  have e3 := geo_eq hA hB h
  rw [mul_zero, zero_add, e1, e2, zero_mul, zero_mul, sub_zero, mul_zero, zero_add, mul_one]
  rw [← e3]
  ring

theorem diff_zero (hA : 0 < A) (hB : 0 < B) (h : A ≠ B) {γ : ℝ} (hγ : 0 ≤ γ) :
    Tendsto (fun s => bachF 1 (A - B) (bound (logMean A B) (curv A B) γ s) - blackF 1 A B s) (𝓝[>] 0) (𝓝 0) := by
  have := (bach_bound_zero (m := A - B) (logMean_pos hA hB h) (curv_nonneg hA hB h) hγ).sub (black_call_zero hA hB)
  simpa using this

/-- Black's price is at most the normal price with the larger volatility. -/
theorem black_le (hA : 0 < A) (hB : 0 < B) (h : A ≠ B) {s : ℝ} (hs : 0 < s) :
    blackF 1 A B s ≤ bachF 1 (A - B) (bound (logMean A B) (curv A B) 0 s) := by
  have := nonneg_of_deriv (fun s hs => diff_hasDerivAt hA hB h le_rfl hs) (diff_zero hA hB h le_rfl) (fun s hs => by
    have hβ := curv_nonneg hA hB h
    have hG : 0 < Real.sqrt (A * B) := Real.sqrt_pos.2 (mul_pos hA hB)
    refine mul_nonneg (mul_pos hG (normPdf_pos _)).le ?_
    simp only [zero_mul, zero_div, neg_zero, Real.exp_zero, sub_zero, mul_one, add_zero]
    have hD : 0 < 1 + curv A B * s ^ 2 := by positivity
    have hq := Real.sqrt_pos.2 hD
    have hc := cube_root_upper (sq_nonneg s) hβ (curv_le hA hB h)
    have he : Real.exp (-(s ^ 2 / 8)) = 1 / Real.exp (s ^ 2 / 8) := by rw [Real.exp_neg, one_div]
    rw [he, sub_nonneg]
    exact one_div_le_one_div_of_le (by positivity) hc) hs
  linarith

/-- Black's price is at least the normal price with the smaller volatility. -/
theorem black_ge (hA : 0 < A) (hB : 0 < B) (h : A ≠ B) {s : ℝ} (hs : 0 < s) :
    bachF 1 (A - B) (bound (logMean A B) (curv A B) (1 / 480) s) ≤ blackF 1 A B s := by
  have := nonpos_of_deriv (fun s hs => diff_hasDerivAt hA hB h (by norm_num) hs) (diff_zero hA hB h (γ := 1 / 480) (by norm_num)) (fun s hs => by
    have hβ := curv_nonneg hA hB h
    have hG : 0 < Real.sqrt (A * B) := Real.sqrt_pos.2 (mul_pos hA hB)
    refine mul_nonpos_of_nonneg_of_nonpos (mul_pos hG (normPdf_pos _)).le ?_
    have hD : 0 < 1 + curv A B * s ^ 2 + 1 / 480 * s ^ 4 := by positivity
    have hq := Real.sqrt_pos.2 hD
    have hge := curv_ge hA hB h
    have hc := cube_root_lower (w := s ^ 2) (c := 1 / 480 * Real.log (A / B) ^ 2 / 2) (sq_nonneg s) hβ (curv_le hA hB h) (by linarith)
    have e : (s ^ 2) ^ 2 / 480 = 1 / 480 * s ^ 4 := by ring
    rw [e] at hc
    rw [sub_nonpos, div_le_iff₀ (by positivity)]
    linarith) hs
  linarith

/-- The normal volatility with the same price lies between the two. -/
theorem between (hA : 0 < A) (hB : 0 < B) (h : A ≠ B) {s v : ℝ} (hs : 0 < s) (hv : 0 < v) (he : bachF 1 (A - B) v = blackF 1 A B s) :
    bound (logMean A B) (curv A B) (1 / 480) s ≤ v ∧ v ≤ bound (logMean A B) (curv A B) 0 s := by
  have hM := logMean_pos hA hB h
  have hβ := curv_nonneg hA hB h
  have hmono := bach_strictMono (m := A - B) (cp := 1) (.inl rfl)
  constructor
  · refine (hmono.le_iff_le (bound_pos hM hs hβ (by norm_num)) hv).1 ?_
    rw [he]
    exact black_ge hA hB h hs
  · refine (hmono.le_iff_le hv (bound_pos hM hs hβ le_rfl)).1 ?_
    rw [he]
    exact black_le hA hB h hs

/-- There is one. -/
theorem equivalent_exists (hA : 0 < A) (hB : 0 < B) (h : A ≠ B) {s : ℝ} (hs : 0 < s) : ∃ v, 0 < v ∧ bachF 1 (A - B) v = blackF 1 A B s := by
  have hM := logMean_pos hA hB h
  have hβ := curv_nonneg hA hB h
  have h1 := bound_pos hM hs hβ (show (0 : ℝ) ≤ 1 / 480 by norm_num)
  have h2 := bound_pos hM hs hβ (le_refl (0 : ℝ))
  have hcont : ContinuousOn (bachF 1 (A - B)) (Ioi 0) := fun x hx => by
    have := bach_hasDerivAt (cp := 1) (.inl rfl) (hasDerivAt_const x (A - B)) (hasDerivAt_id' x) (ne_of_gt hx)
    exact this.continuousAt.continuousWithinAt
  have := isPreconnected_Ioi.intermediate_value (show bound (logMean A B) (curv A B) (1 / 480) s ∈ Ioi (0 : ℝ) from h1)
    (show bound (logMean A B) (curv A B) 0 s ∈ Ioi (0 : ℝ) from h2) hcont
  obtain ⟨v, hv, he⟩ := this ⟨black_ge hA hB h hs, black_le hA hB h hs⟩
  exact ⟨v, hv, he⟩

end

end Frm.NormalVol
