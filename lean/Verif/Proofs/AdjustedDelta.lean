import Verif.Proofs.BlackFormula
import Verif.Proofs.Bachelier
import Verif.Proofs.Expectation
import Mathlib.Analysis.Calculus.Deriv.MeanValue

/-!
# Shape of the premium-adjusted delta

With `s = σ√τ` and `x = d2`, a strike is `F exp(-x s - s²/2)`, so that the premium-adjusted forward delta of a call is
`exp(-x s - s²/2) Φ(x)` and that of a put is `-exp(-x s - s²/2) Φ(-x)`.
-/

namespace Frm

open Set Filter Topology

set_option autoImplicit false

noncomputable def adjCall (s x : ℝ) : ℝ := Real.exp (-(x * s) - s ^ 2 / 2) * normCdf x
noncomputable def adjPut (s x : ℝ) : ℝ := Real.exp (-(x * s) - s ^ 2 / 2) * normCdf (-x)
noncomputable def adjSlope (s x : ℝ) : ℝ := s * normCdf x - normPdf x

theorem adjSlope_hasDerivAt (s x : ℝ) : HasDerivAt (adjSlope s) ((s + x) * normPdf x) x := by
  have := ((normCdf_hasDerivAt x).const_mul s).sub (normPdf_hasDerivAt x)
  refine this.congr_deriv ?_
  ring

theorem adjSlope_continuous (s : ℝ) : Continuous (adjSlope s) :=
  continuous_iff_continuousAt.2 fun x => (adjSlope_hasDerivAt s x).continuousAt

theorem adjSlope_neg {s x : ℝ} (hx : x ≤ -s) : adjSlope s x < 0 := by
  have h1 := mills x
  have h2 := normCdf_pos x
  unfold adjSlope
  nlinarith

theorem adjSlope_strictMono (s : ℝ) : StrictMonoOn (adjSlope s) (Ici (-s)) := by
  apply strictMonoOn_of_deriv_pos (convex_Ici _)
  · exact (adjSlope_continuous s).continuousOn
  · intro x hx
    rw [interior_Ici, mem_Ioi] at hx
    rw [(adjSlope_hasDerivAt s x).deriv]
    exact mul_pos (by linarith) (normPdf_pos x)

theorem adjSlope_signs {s x₀ : ℝ} (h0 : adjSlope s x₀ = 0) {x : ℝ} : (x < x₀ → adjSlope s x < 0) ∧ (x₀ < x → 0 < adjSlope s x) := by
  have hx₀ : -s < x₀ := by
    by_contra h
    have := adjSlope_neg (not_lt.1 h)
    linarith
  constructor
  · intro hx
    by_cases h : x ≤ -s
    · exact adjSlope_neg h
    · have := adjSlope_strictMono s (mem_Ici.2 (not_le.1 h).le) (mem_Ici.2 hx₀.le) hx
      linarith
  · intro hx
    have := adjSlope_strictMono s (mem_Ici.2 hx₀.le) (mem_Ici.2 (hx₀.trans hx).le) hx
    linarith

theorem adjSlope_root {s : ℝ} (hs : 0 < s) : ∃ x₀, adjSlope s x₀ = 0 := by
  have hlim : Tendsto (adjSlope s) atTop (𝓝 (s * 1 - 0)) := (normCdf_atTop.const_mul s).sub normPdf_tendsto
  obtain ⟨b, hb⟩ := (hlim.eventually (lt_mem_nhds (show 0 < s * 1 - 0 by linarith))).exists_forall_of_atTop
  have h1 := adjSlope_neg (le_refl (-s))
  have h2 := hb (max b (-s)) (le_max_left _ _)
  obtain ⟨x, -, hx⟩ := intermediate_value_Icc (le_max_right b (-s)) (adjSlope_continuous s).continuousOn ⟨h1.le, h2.le⟩
  exact ⟨x, hx⟩

theorem adjCall_hasDerivAt (s x : ℝ) : HasDerivAt (adjCall s) (-(Real.exp (-(x * s) - s ^ 2 / 2) * adjSlope s x)) x := by
  have he : HasDerivAt (fun x : ℝ => Real.exp (-(x * s) - s ^ 2 / 2)) (Real.exp (-(x * s) - s ^ 2 / 2) * (-s)) x := by
    have : HasDerivAt (fun x : ℝ => -(x * s) - s ^ 2 / 2) (-s) x := by
      simpa using (((hasDerivAt_id x).mul_const s).neg).sub_const (s ^ 2 / 2)
    exact this.exp
  refine (he.mul (normCdf_hasDerivAt x)).congr_deriv ?_
  unfold adjSlope
  ring

theorem adjCall_continuous (s : ℝ) : Continuous (adjCall s) :=
  continuous_iff_continuousAt.2 fun x => (adjCall_hasDerivAt s x).continuousAt

theorem adjCall_mono {s x₀ : ℝ} (h0 : adjSlope s x₀ = 0) : StrictMonoOn (adjCall s) (Iic x₀) := by
  apply strictMonoOn_of_deriv_pos (convex_Iic _) (adjCall_continuous s).continuousOn
  intro x hx
  rw [interior_Iic, mem_Iio] at hx
  rw [(adjCall_hasDerivAt s x).deriv]
  have := (adjSlope_signs h0 (x := x)).1 hx
  have := Real.exp_pos (-(x * s) - s ^ 2 / 2)
  nlinarith

theorem adjCall_anti {s x₀ : ℝ} (h0 : adjSlope s x₀ = 0) : StrictAntiOn (adjCall s) (Ici x₀) := by
  apply strictAntiOn_of_deriv_neg (convex_Ici _) (adjCall_continuous s).continuousOn
  intro x hx
  rw [interior_Ici, mem_Ioi] at hx
  rw [(adjCall_hasDerivAt s x).deriv]
  have := (adjSlope_signs h0 (x := x)).2 hx
  have := Real.exp_pos (-(x * s) - s ^ 2 / 2)
  nlinarith

theorem adjCall_le {s x₀ : ℝ} (h0 : adjSlope s x₀ = 0) (x : ℝ) : adjCall s x ≤ adjCall s x₀ := by
  rcases le_total x x₀ with h | h
  · exact (adjCall_mono h0).monotoneOn (mem_Iic.2 h) (mem_Iic.2 le_rfl) h
  · exact (adjCall_anti h0).antitoneOn (mem_Ici.2 le_rfl) (mem_Ici.2 h) h

theorem adjCall_lt {s x₀ : ℝ} (h0 : adjSlope s x₀ = 0) {x : ℝ} (hx : x ≠ x₀) : adjCall s x < adjCall s x₀ := by
  rcases lt_or_gt_of_ne hx with h | h
  · exact adjCall_mono h0 (mem_Iic.2 h.le) (mem_Iic.2 le_rfl) h
  · exact adjCall_anti h0 (mem_Ici.2 le_rfl) (mem_Ici.2 h.le) h

theorem adjPut_strictAnti {s : ℝ} (hs : 0 < s) : StrictAnti (adjPut s) := by
  intro x y hxy
  unfold adjPut
  have h1 : Real.exp (-(y * s) - s ^ 2 / 2) < Real.exp (-(x * s) - s ^ 2 / 2) := Real.exp_lt_exp.2 (by nlinarith)
  have h2 : normCdf (-y) < normCdf (-x) := normCdf_strictMono (by linarith)
  exact mul_lt_mul'' h1 h2 (Real.exp_pos _).le (normCdf_pos _).le

theorem adjPut_continuous (s : ℝ) : Continuous (adjPut s) := by
  unfold adjPut
  exact (by fun_prop : Continuous fun x : ℝ => Real.exp (-(x * s) - s ^ 2 / 2)).mul (normCdf_continuous.comp continuous_neg)

/-- The call's premium is positive. -/
theorem adjCall_lt_regular {s : ℝ} (hs : 0 < s) (x : ℝ) : adjCall s x < normCdf (x + s) := by
  have h := black_call_pos one_pos (Real.exp_pos (-(x * s) - s ^ 2 / 2)) hs
  have e : bD1 1 (Real.exp (-(x * s) - s ^ 2 / 2)) s = x + s := by
    unfold bD1
    rw [one_div, ← Real.exp_neg, Real.log_exp]
    field_simp
    ring
  unfold blackF bD2 at h
  rw [e] at h
  unfold adjCall
  simp only [one_mul, add_sub_cancel_right] at h
  linarith

/-- The put's premium is positive. -/
theorem adjPut_gt_regular {s : ℝ} (hs : 0 < s) (x : ℝ) : normCdf (-(x + s)) < adjPut s x := by
  have h := black_put_pos one_pos (Real.exp_pos (-(x * s) - s ^ 2 / 2)) hs
  have e : bD1 1 (Real.exp (-(x * s) - s ^ 2 / 2)) s = x + s := by
    unfold bD1
    rw [one_div, ← Real.exp_neg, Real.log_exp]
    field_simp
    ring
  unfold blackF bD2 at h
  rw [e] at h
  unfold adjPut
  simp only [neg_mul, one_mul, add_sub_cancel_right] at h
  linarith

end Frm
