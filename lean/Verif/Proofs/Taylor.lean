import Verif.Proofs.Normal
import Mathlib.Analysis.SpecialFunctions.Trigonometric.DerivHyp
import Mathlib.Tactic.Linarith

/-!
# Polynomial bounds for the exponential, the hyperbolic sine and the normal distribution function
-/

namespace Frm.Taylor
open Set

set_option autoImplicit false

theorem nonneg_of_deriv {g g' : ℝ → ℝ} {Y : ℝ} (h : ∀ x, HasDerivAt g (g' x) x) (h0 : g 0 = 0) (hn : ∀ x, 0 ≤ x → x ≤ Y → 0 ≤ g' x) :
    ∀ x, 0 ≤ x → x ≤ Y → 0 ≤ g x := by
  intro x hx hxY
  have hm : MonotoneOn g (Icc 0 x) := by
    refine monotoneOn_of_deriv_nonneg (convex_Icc 0 x) (fun y _ => (h y).continuousAt.continuousWithinAt)
      (fun y _ => (h y).differentiableAt.differentiableWithinAt) fun y hy => ?_
    rw [interior_Icc] at hy
    rw [(h y).deriv]
    exact hn y hy.1.le (hy.2.le.trans hxY)
  have := hm (left_mem_Icc.2 hx) (right_mem_Icc.2 hx) hx
  rwa [h0] at this

theorem hasDerivAt_pow' (n : ℕ) (c x : ℝ) : HasDerivAt (fun x : ℝ => c * x ^ (n + 1)) (c * ((n + 1 : ℕ) * x ^ n)) x := by
  have := (hasDerivAt_pow (n + 1) x).const_mul c
  simpa using this

theorem expNeg_hasDerivAt (x : ℝ) : HasDerivAt (fun x : ℝ => Real.exp (-x)) (-Real.exp (-x)) x := by
  have := (hasDerivAt_neg x).exp
  simpa using this

/-! ## `exp (-y)` -/

theorem exp_neg_ge1 (y : ℝ) : 1 - y ≤ Real.exp (-y) := by
  have := Real.add_one_le_exp (-y)
  linarith

theorem exp_neg_le2 {y : ℝ} (hy : 0 ≤ y) : Real.exp (-y) ≤ 1 - y + y ^ 2 / 2 := by
  have h := nonneg_of_deriv (Y := y) (g := fun x => (1 - x + 1 / 2 * x ^ 2) - Real.exp (-x)) (g' := fun x => (0 - 1 + 1 / 2 * ((2 : ℕ) * x ^ 1)) - -Real.exp (-x))
    (fun x => ((((hasDerivAt_const x (1 : ℝ)).sub (hasDerivAt_id' x)).add (hasDerivAt_pow' 1 (1 / 2) x)).sub (expNeg_hasDerivAt x)))
    (by simp) (fun x hx _ => by have := exp_neg_ge1 x; push_cast; linarith) y hy le_rfl
  linarith

theorem exp_neg_ge3 {y : ℝ} (hy : 0 ≤ y) : 1 - y + y ^ 2 / 2 - y ^ 3 / 6 ≤ Real.exp (-y) := by
  have h := nonneg_of_deriv (Y := y) (g := fun x => Real.exp (-x) - ((1 - x + 1 / 2 * x ^ 2) - 1 / 6 * x ^ 3))
    (g' := fun x => -Real.exp (-x) - ((0 - 1 + 1 / 2 * ((2 : ℕ) * x ^ 1)) - 1 / 6 * ((3 : ℕ) * x ^ 2)))
    (fun x => (expNeg_hasDerivAt x).sub ((((hasDerivAt_const x (1 : ℝ)).sub (hasDerivAt_id' x)).add (hasDerivAt_pow' 1 (1 / 2) x)).sub (hasDerivAt_pow' 2 (1 / 6) x)))
    (by simp) (fun x hx _ => by have := exp_neg_le2 hx; push_cast; linarith) y hy le_rfl
  linarith

/-! ## The normal distribution function -/

/-- `(Φ(u) - 1/2) / φ(0)`. -/
noncomputable def halfMass (u : ℝ) : ℝ := (normCdf u - 1 / 2) / normPdf 0

theorem halfMass_hasDerivAt (u : ℝ) : HasDerivAt halfMass (Real.exp (-(u ^ 2 / 2))) u := by
  have h := ((normCdf_hasDerivAt u).sub_const (1 / 2)).div_const (normPdf 0)
  refine h.congr_deriv ?_
  unfold normPdf
  have : Real.sqrt (2 * Real.pi) ≠ 0 := (Real.sqrt_pos.2 (by positivity)).ne'
  simp
  field_simp

theorem halfMass_zero : halfMass 0 = 0 := by simp [halfMass, normCdf_zero]

theorem halfMass_le {u : ℝ} (hu : 0 ≤ u) : halfMass u ≤ u - u ^ 3 / 6 + u ^ 5 / 40 := by
  have h := nonneg_of_deriv (Y := u) (g := fun x => (x - 1 / 6 * x ^ 3 + 1 / 40 * x ^ 5) - halfMass x)
    (g' := fun x => (1 - 1 / 6 * ((3 : ℕ) * x ^ 2) + 1 / 40 * ((5 : ℕ) * x ^ 4)) - Real.exp (-(x ^ 2 / 2)))
    (fun x => (((hasDerivAt_id' x).sub (hasDerivAt_pow' 2 (1 / 6) x)).add (hasDerivAt_pow' 4 (1 / 40) x)).sub (halfMass_hasDerivAt x))
    (by simp [halfMass_zero]) (fun x hx _ => by have := exp_neg_le2 (show 0 ≤ x ^ 2 / 2 by positivity); push_cast; nlinarith) u hu le_rfl
  linarith

theorem halfMass_ge {u : ℝ} (hu : 0 ≤ u) : u - u ^ 3 / 6 + u ^ 5 / 40 - u ^ 7 / 336 ≤ halfMass u := by
  have h := nonneg_of_deriv (Y := u) (g := fun x => halfMass x - (x - 1 / 6 * x ^ 3 + 1 / 40 * x ^ 5 - 1 / 336 * x ^ 7))
    (g' := fun x => Real.exp (-(x ^ 2 / 2)) - (1 - 1 / 6 * ((3 : ℕ) * x ^ 2) + 1 / 40 * ((5 : ℕ) * x ^ 4) - 1 / 336 * ((7 : ℕ) * x ^ 6)))
    (fun x => (halfMass_hasDerivAt x).sub ((((hasDerivAt_id' x).sub (hasDerivAt_pow' 2 (1 / 6) x)).add (hasDerivAt_pow' 4 (1 / 40) x)).sub (hasDerivAt_pow' 6 (1 / 336) x)))
    (by simp [halfMass_zero]) (fun x hx _ => by have := exp_neg_ge3 (show 0 ≤ x ^ 2 / 2 by positivity); push_cast; nlinarith) u hu le_rfl
  linarith

/-! ## The hyperbolic sine -/

theorem sinh_ge1 {y : ℝ} (hy : 0 ≤ y) : y ≤ Real.sinh y := by
  have h := nonneg_of_deriv (Y := y) (g := fun x => Real.sinh x - x) (g' := fun x => Real.cosh x - 1)
    (fun x => (Real.hasDerivAt_sinh x).sub (hasDerivAt_id' x)) (by simp) (fun x _ _ => by linarith [Real.one_le_cosh x]) y hy le_rfl
  linarith

theorem cosh_ge2 {y : ℝ} (hy : 0 ≤ y) : 1 + y ^ 2 / 2 ≤ Real.cosh y := by
  have h := nonneg_of_deriv (Y := y) (g := fun x => Real.cosh x - (1 + 1 / 2 * x ^ 2)) (g' := fun x => Real.sinh x - (0 + 1 / 2 * ((2 : ℕ) * x ^ 1)))
    (fun x => (Real.hasDerivAt_cosh x).sub ((hasDerivAt_const x (1 : ℝ)).add (hasDerivAt_pow' 1 (1 / 2) x))) (by simp)
    (fun x hx _ => by have := sinh_ge1 hx; push_cast; linarith) y hy le_rfl
  linarith

theorem sinh_ge3 {y : ℝ} (hy : 0 ≤ y) : y + y ^ 3 / 6 ≤ Real.sinh y := by
  have h := nonneg_of_deriv (Y := y) (g := fun x => Real.sinh x - (x + 1 / 6 * x ^ 3)) (g' := fun x => Real.cosh x - (1 + 1 / 6 * ((3 : ℕ) * x ^ 2)))
    (fun x => (Real.hasDerivAt_sinh x).sub ((hasDerivAt_id' x).add (hasDerivAt_pow' 2 (1 / 6) x))) (by simp)
    (fun x hx _ => by have := cosh_ge2 hx; push_cast; linarith) y hy le_rfl
  linarith

theorem cosh_ge4 {y : ℝ} (hy : 0 ≤ y) : 1 + y ^ 2 / 2 + y ^ 4 / 24 ≤ Real.cosh y := by
  have h := nonneg_of_deriv (Y := y) (g := fun x => Real.cosh x - (1 + 1 / 2 * x ^ 2 + 1 / 24 * x ^ 4))
    (g' := fun x => Real.sinh x - (0 + 1 / 2 * ((2 : ℕ) * x ^ 1) + 1 / 24 * ((4 : ℕ) * x ^ 3)))
    (fun x => (Real.hasDerivAt_cosh x).sub (((hasDerivAt_const x (1 : ℝ)).add (hasDerivAt_pow' 1 (1 / 2) x)).add (hasDerivAt_pow' 3 (1 / 24) x))) (by simp)
    (fun x hx _ => by have := sinh_ge3 hx; push_cast; linarith) y hy le_rfl
  linarith

theorem sinh_ge5 {y : ℝ} (hy : 0 ≤ y) : y + y ^ 3 / 6 + y ^ 5 / 120 ≤ Real.sinh y := by
  have h := nonneg_of_deriv (Y := y) (g := fun x => Real.sinh x - (x + 1 / 6 * x ^ 3 + 1 / 120 * x ^ 5))
    (g' := fun x => Real.cosh x - (1 + 1 / 6 * ((3 : ℕ) * x ^ 2) + 1 / 120 * ((5 : ℕ) * x ^ 4)))
    (fun x => (Real.hasDerivAt_sinh x).sub (((hasDerivAt_id' x).add (hasDerivAt_pow' 2 (1 / 6) x)).add (hasDerivAt_pow' 4 (1 / 120) x))) (by simp)
    (fun x hx _ => by have := cosh_ge4 hx; push_cast; linarith) y hy le_rfl
  linarith

theorem cosh_mono {x y : ℝ} (hx : 0 ≤ x) (hxy : x ≤ y) : Real.cosh x ≤ Real.cosh y := by
  rw [Real.cosh_le_cosh, abs_of_nonneg hx, abs_of_nonneg (hx.trans hxy)]
  exact hxy

section Upper
variable {Y : ℝ}

theorem sinh_le1 : ∀ x, 0 ≤ x → x ≤ Y → Real.sinh x ≤ Real.cosh Y * x := by
  intro x hx hxY
  have h := nonneg_of_deriv (Y := Y) (g := fun x => Real.cosh Y * x ^ (0 + 1) - Real.sinh x) (g' := fun x => Real.cosh Y * ((0 + 1 : ℕ) * x ^ 0) - Real.cosh x)
    (fun x => (hasDerivAt_pow' 0 (Real.cosh Y) x).sub (Real.hasDerivAt_sinh x)) (by simp)
    (fun x hx hxY => by have := cosh_mono hx hxY; push_cast; rw [pow_zero, mul_one, mul_one]; linarith) x hx hxY
  simp only [zero_add, pow_one] at h
  linarith

theorem cosh_le2 : ∀ x, 0 ≤ x → x ≤ Y → Real.cosh x ≤ 1 + Real.cosh Y / 2 * x ^ 2 := by
  intro x hx hxY
  have h := nonneg_of_deriv (Y := Y) (g := fun x => (1 + Real.cosh Y / 2 * x ^ 2) - Real.cosh x)
    (g' := fun x => (0 + Real.cosh Y / 2 * ((2 : ℕ) * x ^ 1)) - Real.sinh x)
    (fun x => ((hasDerivAt_const x (1 : ℝ)).add (hasDerivAt_pow' 1 (Real.cosh Y / 2) x)).sub (Real.hasDerivAt_cosh x)) (by simp)
    (fun x hx hxY => by have := sinh_le1 x hx hxY; push_cast; linarith) x hx hxY
  linarith

theorem sinh_le3 : ∀ x, 0 ≤ x → x ≤ Y → Real.sinh x ≤ x + Real.cosh Y / 6 * x ^ 3 := by
  intro x hx hxY
  have h := nonneg_of_deriv (Y := Y) (g := fun x => (x + Real.cosh Y / 6 * x ^ 3) - Real.sinh x)
    (g' := fun x => (1 + Real.cosh Y / 6 * ((3 : ℕ) * x ^ 2)) - Real.cosh x)
    (fun x => ((hasDerivAt_id' x).add (hasDerivAt_pow' 2 (Real.cosh Y / 6) x)).sub (Real.hasDerivAt_sinh x)) (by simp)
    (fun x hx hxY => by have := cosh_le2 x hx hxY; push_cast; linarith) x hx hxY
  linarith

theorem cosh_le4 : ∀ x, 0 ≤ x → x ≤ Y → Real.cosh x ≤ 1 + 1 / 2 * x ^ 2 + Real.cosh Y / 24 * x ^ 4 := by
  intro x hx hxY
  have h := nonneg_of_deriv (Y := Y) (g := fun x => (1 + 1 / 2 * x ^ 2 + Real.cosh Y / 24 * x ^ 4) - Real.cosh x)
    (g' := fun x => (0 + 1 / 2 * ((2 : ℕ) * x ^ 1) + Real.cosh Y / 24 * ((4 : ℕ) * x ^ 3)) - Real.sinh x)
    (fun x => (((hasDerivAt_const x (1 : ℝ)).add (hasDerivAt_pow' 1 (1 / 2) x)).add (hasDerivAt_pow' 3 (Real.cosh Y / 24) x)).sub (Real.hasDerivAt_cosh x)) (by simp)
    (fun x hx hxY => by have := sinh_le3 x hx hxY; push_cast; linarith) x hx hxY
  linarith

theorem sinh_le5 : ∀ x, 0 ≤ x → x ≤ Y → Real.sinh x ≤ x + 1 / 6 * x ^ 3 + Real.cosh Y / 120 * x ^ 5 := by
  intro x hx hxY
  have h := nonneg_of_deriv (Y := Y) (g := fun x => (x + 1 / 6 * x ^ 3 + Real.cosh Y / 120 * x ^ 5) - Real.sinh x)
    (g' := fun x => (1 + 1 / 6 * ((3 : ℕ) * x ^ 2) + Real.cosh Y / 120 * ((5 : ℕ) * x ^ 4)) - Real.cosh x)
    (fun x => (((hasDerivAt_id' x).add (hasDerivAt_pow' 2 (1 / 6) x)).add (hasDerivAt_pow' 4 (Real.cosh Y / 120) x)).sub (Real.hasDerivAt_sinh x)) (by simp)
    (fun x hx hxY => by have := cosh_le4 x hx hxY; push_cast; linarith) x hx hxY
  linarith

theorem cosh_le6 : ∀ x, 0 ≤ x → x ≤ Y → Real.cosh x ≤ 1 + 1 / 2 * x ^ 2 + 1 / 24 * x ^ 4 + Real.cosh Y / 720 * x ^ 6 := by
  intro x hx hxY
  have h := nonneg_of_deriv (Y := Y) (g := fun x => (1 + 1 / 2 * x ^ 2 + 1 / 24 * x ^ 4 + Real.cosh Y / 720 * x ^ 6) - Real.cosh x)
    (g' := fun x => (0 + 1 / 2 * ((2 : ℕ) * x ^ 1) + 1 / 24 * ((4 : ℕ) * x ^ 3) + Real.cosh Y / 720 * ((6 : ℕ) * x ^ 5)) - Real.sinh x)
    (fun x => ((((hasDerivAt_const x (1 : ℝ)).add (hasDerivAt_pow' 1 (1 / 2) x)).add (hasDerivAt_pow' 3 (1 / 24) x)).add
      (hasDerivAt_pow' 5 (Real.cosh Y / 720) x)).sub (Real.hasDerivAt_cosh x)) (by simp)
    (fun x hx hxY => by have := sinh_le5 x hx hxY; push_cast; linarith) x hx hxY
  linarith

theorem sinh_le7 : ∀ x, 0 ≤ x → x ≤ Y → Real.sinh x ≤ x + 1 / 6 * x ^ 3 + 1 / 120 * x ^ 5 + Real.cosh Y / 5040 * x ^ 7 := by
  intro x hx hxY
  have h := nonneg_of_deriv (Y := Y) (g := fun x => (x + 1 / 6 * x ^ 3 + 1 / 120 * x ^ 5 + Real.cosh Y / 5040 * x ^ 7) - Real.sinh x)
    (g' := fun x => (1 + 1 / 6 * ((3 : ℕ) * x ^ 2) + 1 / 120 * ((5 : ℕ) * x ^ 4) + Real.cosh Y / 5040 * ((7 : ℕ) * x ^ 6)) - Real.cosh x)
    (fun x => ((((hasDerivAt_id' x).add (hasDerivAt_pow' 2 (1 / 6) x)).add (hasDerivAt_pow' 4 (1 / 120) x)).add
      (hasDerivAt_pow' 6 (Real.cosh Y / 5040) x)).sub (Real.hasDerivAt_sinh x)) (by simp)
    (fun x hx hxY => by have := cosh_le6 x hx hxY; push_cast; linarith) x hx hxY
  linarith

end Upper

end Frm.Taylor
