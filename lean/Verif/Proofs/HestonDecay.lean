import Verif.Proofs.HestonLaw
import Mathlib.MeasureTheory.Integral.ExpDecay

/-!
# The decay of Heston's characteristic function

The real part of the Riccati solution lies below a real solution, so the characteristic function decays exponentially along the real line,
and by a change of measure along the line of the spot.
-/

open Filter Topology

namespace Frm.Props
open Classical

set_option autoImplicit false

open Frm MeasureTheory

/-- The root of the real equation. -/
noncomputable def realRoot (h : Heston) (u : ℝ) : ℝ := Real.sqrt (h.kappa ^ 2 + h.vv ^ 2 * (1 - h.rho ^ 2) * u ^ 2)

theorem one_sub_rho_sq (h : Heston) (hg : GoodHeston h) : 0 ≤ 1 - h.rho ^ 2 := by
  have h1 : h.rho ^ 2 ≤ 1 := by rw [← sq_abs]; nlinarith [hg.rho, abs_nonneg h.rho]
  linarith

theorem realRoot_sq (h : Heston) (hg : GoodHeston h) (u : ℝ) : realRoot h u ^ 2 = h.kappa ^ 2 + h.vv ^ 2 * (1 - h.rho ^ 2) * u ^ 2 := by
  have := one_sub_rho_sq h hg
  exact Real.sq_sqrt (by positivity)

theorem kappa_le_root (h : Heston) (hg : GoodHeston h) (u : ℝ) : h.kappa ≤ realRoot h u := by
  have h1 := one_sub_rho_sq h hg
  apply Real.le_sqrt_of_sq_le
  have : 0 ≤ h.vv ^ 2 * (1 - h.rho ^ 2) * u ^ 2 := by positivity
  linarith

/-- The real part of the coefficient of the variance lies below the solution of the real equation. -/
theorem chfD_re_bound (h : Heston) (hg : GoodHeston h) (u t : ℝ) (ht : 0 ≤ t) :
    (chfD h u t).re ≤ -((realRoot h u - h.kappa) / h.vv ^ 2) * (1 - Real.exp (-((h.kappa + realRoot h u) / 2) * t)) := by
  let h1 : Heston := { h with theta := 1 / h.kappa }
  have hg1 : GoodHeston h1 := ⟨hg.kappa, hg.vv, hg.rho⟩
  have hvv := hg.vv
  have hR := realRoot_sq h hg u
  have hkR := kappa_le_root h hg u
  generalize realRoot h u = R at *
  obtain ⟨p, hp⟩ : ∃ p, p = (h.kappa - R) / h.vv ^ 2 := ⟨_, rfl⟩
  obtain ⟨p', hp'⟩ : ∃ p', p' = (h.kappa + R) / h.vv ^ 2 := ⟨_, rfl⟩
  have hpn : p ≤ 0 := by rw [hp]; exact div_nonpos_of_nonpos_of_nonneg (by linarith) (by positivity)
  have hJ : ∀ s, 0 ≤ s → HasDerivAt (fun s => (chfB h1 u s).re) (chfD h u s).re s := by
    intro s hs
    have hk : (h.kappa : ℂ) ≠ 0 := by exact_mod_cast hg.kappa.ne'
    have := chfB_deriv h1 hg1 u s hs
    have e : (h1.kappa : ℂ) * h1.theta * chfD h1 u s = chfD h u s := by
      have e1 : chfD h1 u s = chfD h u s := rfl
      rw [e1]
      simp only [h1]
      push_cast
      field_simp
    rw [e] at this
    exact (Complex.reCLM.hasFDerivAt.comp_hasDerivAt s this)
  have hD : ∀ s, 0 ≤ s → HasDerivAt (fun s => (chfD h u s).re)
      ((h.vv : ℂ) ^ 2 / 2 * chfD h u s ^ 2 - chfW h u * chfD h u s - ((u : ℂ) ^ 2 + Complex.I * u) / 2).re s := by
    intro s hs
    exact (Complex.reCLM.hasFDerivAt.comp_hasDerivAt s (chfD_deriv h hg u s hs))
  have hre : ∀ s, ((h.vv : ℂ) ^ 2 / 2 * chfD h u s ^ 2 - chfW h u * chfD h u s - ((u : ℂ) ^ 2 + Complex.I * u) / 2).re ≤
      (h.vv ^ 2 / 2 * ((chfD h u s).re - p')) * ((chfD h u s).re - p) := by
    intro s
    generalize chfD h u s = D
    have e : ((h.vv : ℂ) ^ 2 / 2 * D ^ 2 - chfW h u * D - ((u : ℂ) ^ 2 + Complex.I * u) / 2).re =
        h.vv ^ 2 / 2 * (D.re ^ 2 - D.im ^ 2) - (h.kappa * D.re + h.rho * h.vv * u * D.im) - u ^ 2 / 2 := by
      unfold chfW
      have e1 : (h.vv : ℂ) ^ 2 / 2 = ((h.vv ^ 2 / 2 : ℝ) : ℂ) := by push_cast; ring
      have e2 : ((u : ℂ) ^ 2 + Complex.I * u) / 2 = ((u ^ 2 / 2 : ℝ) : ℂ) + Complex.I * ((u / 2 : ℝ) : ℂ) := by push_cast; ring
      rw [e1, e2]
      simp [pow_two]
    rw [e]
    have e2 : (h.vv ^ 2 / 2 * (D.re - p')) * (D.re - p) = h.vv ^ 2 / 2 * D.re ^ 2 - h.kappa * D.re - (1 - h.rho ^ 2) * u ^ 2 / 2 := by
      have e3 : (h.vv ^ 2 / 2 * (D.re - p')) * (D.re - p) = h.vv ^ 2 / 2 * D.re ^ 2 - h.kappa * D.re + (h.kappa ^ 2 - R ^ 2) / (2 * h.vv ^ 2) := by
        rw [hp, hp']; field_simp; ring
      rw [e3, hR]
      field_simp
      ring
    rw [e2]
    have := sq_nonneg (h.vv * D.im + h.rho * u)
    nlinarith
  -- the integrating factor
  let F := fun s : ℝ => Real.exp (-(h.vv ^ 2 / 2 * ((chfB h1 u s).re - p' * s)))
  let G := fun s : ℝ => ((chfD h u s).re - p) * F s
  have hG : ∀ s, 0 ≤ s → HasDerivAt G
      (((h.vv : ℂ) ^ 2 / 2 * chfD h u s ^ 2 - chfW h u * chfD h u s - ((u : ℂ) ^ 2 + Complex.I * u) / 2).re * F s +
        ((chfD h u s).re - p) * (F s * -(h.vv ^ 2 / 2 * ((chfD h u s).re - p')))) s := by
    intro s hs
    have a1 := ((((hJ s hs).sub ((hasDerivAt_id' s).const_mul p')).const_mul (h.vv ^ 2 / 2))).neg.exp
    have a2 := ((hD s hs).sub_const p).mul a1
    exact a2.congr_deriv (by simp [F])
  have hanti : AntitoneOn G (Set.Ici 0) := by
    apply antitoneOn_of_deriv_nonpos (convex_Ici 0)
    · intro s hs
      exact (hG s hs).continuousAt.continuousWithinAt
    · intro s hs
      rw [interior_Ici] at hs
      exact (hG s (le_of_lt hs)).differentiableAt.differentiableWithinAt
    · intro s hs
      rw [interior_Ici] at hs
      rw [(hG s (le_of_lt hs)).deriv]
      have := mul_le_mul_of_nonneg_right (hre s) (Real.exp_pos (-(h.vv ^ 2 / 2 * ((chfB h1 u s).re - p' * s)))).le
      simp only [F]
      linarith
  have h0 : G 0 = -p := by
    have e1 : chfD h u 0 = 0 := by unfold chfD; simp
    have e2 : chfB h1 u 0 = 0 := by
      unfold chfB chfPsi
      have : (1 - chfRatio h1 u) ≠ 0 := one_sub_ratio_ne h1 hg1 u
      simp
    simp [G, F, e1, e2]
  have hfin := hanti (Set.mem_Ici.2 le_rfl) (Set.mem_Ici.2 ht) ht
  rw [h0] at hfin
  have hB := chfB_re_nonpos h1 hg1 (by simp only [h1]; have := hg.kappa; positivity) u t ht
  simp only [G, F] at hfin
  have e1 : Real.exp (-(h.vv ^ 2 / 2 * ((chfB h1 u t).re - p' * t))) = (Real.exp (h.vv ^ 2 / 2 * ((chfB h1 u t).re - p' * t)))⁻¹ := Real.exp_neg _
  rw [e1, ← div_eq_mul_inv, div_le_iff₀ (Real.exp_pos _)] at hfin
  have e2 : Real.exp (h.vv ^ 2 / 2 * ((chfB h1 u t).re - p' * t)) ≤ Real.exp (-((h.kappa + R) / 2) * t) := by
    apply Real.exp_le_exp.2
    have e3 : h.vv ^ 2 / 2 * ((chfB h1 u t).re - p' * t) = h.vv ^ 2 / 2 * (chfB h1 u t).re + -((h.kappa + R) / 2) * t := by
      rw [hp']; field_simp; ring
    rw [e3]
    have : h.vv ^ 2 / 2 * (chfB h1 u t).re ≤ 0 := mul_nonpos_of_nonneg_of_nonpos (by positivity) hB
    linarith
  have e4 : -p * Real.exp (h.vv ^ 2 / 2 * ((chfB h1 u t).re - p' * t)) ≤ -p * Real.exp (-((h.kappa + R) / 2) * t) :=
    mul_le_mul_of_nonneg_left e2 (by linarith)
  have e5 : (R - h.kappa) / h.vv ^ 2 = -p := by rw [hp]; ring
  rw [e5]
  linarith

/-- The bound with a constant rate. -/
theorem chfD_re_linear (h : Heston) (hg : GoodHeston h) (u t0 t : ℝ) (h0 : 0 ≤ t0) (ht : t0 ≤ t) :
    (chfD h u t).re ≤ -((1 - Real.exp (-h.kappa * t0)) / h.vv ^ 2) * (h.vv * Real.sqrt (1 - h.rho ^ 2) * |u| - h.kappa) := by
  have h1 := chfD_re_bound h hg u t (h0.trans ht)
  have hkR := kappa_le_root h hg u
  have hk := hg.kappa
  have hvv := hg.vv
  have hr := one_sub_rho_sq h hg
  have hR : h.vv * Real.sqrt (1 - h.rho ^ 2) * |u| ≤ realRoot h u := by
    apply Real.le_sqrt_of_sq_le
    rw [mul_pow, mul_pow, Real.sq_sqrt hr, sq_abs]
    have := sq_nonneg h.kappa
    linarith
  have hE : Real.exp (-((h.kappa + realRoot h u) / 2) * t) ≤ Real.exp (-h.kappa * t0) := by
    apply Real.exp_le_exp.2
    nlinarith
  have hE1 : Real.exp (-h.kappa * t0) ≤ 1 := Real.exp_le_one_iff.2 (by nlinarith)
  have h2 : (1 - Real.exp (-h.kappa * t0)) / h.vv ^ 2 * (h.vv * Real.sqrt (1 - h.rho ^ 2) * |u| - h.kappa) ≤
      (1 - Real.exp (-h.kappa * t0)) / h.vv ^ 2 * (realRoot h u - h.kappa) :=
    mul_le_mul_of_nonneg_left (by linarith) (div_nonneg (by linarith) (by positivity))
  have h3 : (1 - Real.exp (-h.kappa * t0)) / h.vv ^ 2 * (realRoot h u - h.kappa) ≤
      (realRoot h u - h.kappa) / h.vv ^ 2 * (1 - Real.exp (-((h.kappa + realRoot h u) / 2) * t)) := by
    rw [div_mul_eq_mul_div, div_mul_eq_mul_div]
    apply div_le_div_of_nonneg_right _ (by positivity)
    nlinarith
  linarith

/-- The constant part decays likewise. -/
theorem chfB_re_linear (h : Heston) (hg : GoodHeston h) (hth : 0 ≤ h.theta) (u t : ℝ) (ht : 0 ≤ t) :
    (chfB h u t).re ≤ h.kappa * h.theta * (t / 2) *
      (-((1 - Real.exp (-h.kappa * (t / 2))) / h.vv ^ 2) * (h.vv * Real.sqrt (1 - h.rho ^ 2) * |u| - h.kappa)) := by
  have hB : ∀ s, 0 ≤ s → HasDerivAt (fun s => (chfB h u s).re) (h.kappa * h.theta * (chfD h u s).re) s := by
    intro s hs
    have := (Complex.reCLM.hasFDerivAt.comp_hasDerivAt s (chfB_deriv h hg u s hs))
    refine this.congr_deriv ?_
    simp only [Complex.reCLM_apply]
    rw [show (h.kappa : ℂ) * h.theta * chfD h u s = ((h.kappa * h.theta : ℝ) : ℂ) * chfD h u s by push_cast; ring, Complex.re_ofReal_mul]
  have hkt : 0 ≤ h.kappa * h.theta := mul_nonneg hg.kappa.le hth
  have h1 := Convex.image_sub_le_mul_sub_of_deriv_le (D := Set.Icc (t / 2) t) (convex_Icc _ _) (f := fun s => (chfB h u s).re)
    (C := h.kappa * h.theta * (-((1 - Real.exp (-h.kappa * (t / 2))) / h.vv ^ 2) * (h.vv * Real.sqrt (1 - h.rho ^ 2) * |u| - h.kappa)))
    (fun s hs => (hB s (by linarith [hs.1])).continuousAt.continuousWithinAt)
    (fun s hs => (hB s (by have := (interior_subset hs).1; linarith)).differentiableAt.differentiableWithinAt)
    (fun s hs => by
      have hs' := (interior_subset hs).1
      rw [(hB s (by linarith)).deriv]
      exact mul_le_mul_of_nonneg_left (chfD_re_linear h hg u (t / 2) s (by linarith) hs') hkt)
    (t / 2) ⟨le_rfl, by linarith⟩ t ⟨by linarith, le_rfl⟩ (by linarith)
  have h2 := chfB_re_nonpos h hg hth u (t / 2) (by linarith)
  have e : t - t / 2 = t / 2 := by ring
  rw [e] at h1
  nlinarith

/-- The parts of the characteristic function that do not depend on the spot decay exponentially. -/
theorem heston_decay (h : Heston) (hg : GoodHeston h) (hr : |h.rho| < 1) (hv : 0 ≤ h.var0) (hth : 0 ≤ h.theta) (hpos : 0 < h.var0 ∨ 0 < h.theta)
    (t : ℝ) (ht : 0 < t) :
    ∃ C c : ℝ, 0 < c ∧ ∀ u : ℝ, ‖Complex.exp (chfB h u t + chfD h u t * h.var0)‖ ≤ C * Real.exp (-c * |u|) := by
  have hk := hg.kappa
  have hvv := hg.vv
  have hrho : 0 < Real.sqrt (1 - h.rho ^ 2) := by
    apply Real.sqrt_pos.2
    have : h.rho ^ 2 < 1 := by rw [← sq_abs]; nlinarith [abs_nonneg h.rho]
    linarith
  obtain ⟨m, hm⟩ : ∃ m, m = (1 - Real.exp (-h.kappa * (t / 2))) / h.vv ^ 2 := ⟨_, rfl⟩
  have hmpos : 0 < m := by
    have : Real.exp (-h.kappa * (t / 2)) < 1 := Real.exp_lt_one_iff.2 (by nlinarith)
    rw [hm]
    exact div_pos (by linarith) (by positivity)
  obtain ⟨a, ha⟩ : ∃ a, a = h.kappa * h.theta * (t / 2) + h.var0 := ⟨_, rfl⟩
  have hapos : 0 < a := by
    rw [ha]
    rcases hpos with h1 | h1
    · have : 0 ≤ h.kappa * h.theta * (t / 2) := by positivity
      linarith
    · have : 0 < h.kappa * h.theta * (t / 2) := by positivity
      linarith
  refine ⟨Real.exp (a * m * h.kappa), a * m * (h.vv * Real.sqrt (1 - h.rho ^ 2)), by positivity, fun u => ?_⟩
  rw [Complex.norm_exp, ← Real.exp_add]
  apply Real.exp_le_exp.2
  rw [Complex.add_re, Complex.re_mul_ofReal]
  have h1 := chfB_re_linear h hg hth u t ht.le
  have h2 := mul_le_mul_of_nonneg_right (chfD_re_linear h hg u (t / 2) t (by linarith) (by linarith)) hv
  rw [← hm] at h1 h2
  have e : a * m * h.kappa + -(a * m * (h.vv * Real.sqrt (1 - h.rho ^ 2))) * |u| =
      h.kappa * h.theta * (t / 2) * (-m * (h.vv * Real.sqrt (1 - h.rho ^ 2) * |u| - h.kappa)) +
        -m * (h.vv * Real.sqrt (1 - h.rho ^ 2) * |u| - h.kappa) * h.var0 := by
    rw [ha]; ring
  rw [e]
  linarith

/-! ## The line of the spot -/

/-- The model under the measure of the spot. -/
noncomputable def spotMeasure (h : Heston) : Heston :=
  { h with kappa := h.kappa - h.rho * h.vv, theta := h.kappa * h.theta / (h.kappa - h.rho * h.vv), rho := -h.rho }

theorem spot_W (h : Heston) (u : ℂ) : chfW h (u - Complex.I) = chfW (spotMeasure h) (-u) := by
  unfold chfW spotMeasure
  push_cast
  linear_combination (h.rho * h.vv : ℂ) * Complex.I_sq

theorem spot_root (h : Heston) (u : ℂ) : chfRoot h (u - Complex.I) = chfRoot (spotMeasure h) (-u) := by
  unfold chfRoot spotMeasure
  congr 1
  push_cast
  linear_combination (-(2 * h.rho * h.vv * (h.rho * h.vv * (u - Complex.I) * Complex.I - h.kappa) + h.rho ^ 2 * h.vv ^ 2 * (Complex.I ^ 2 + 1)) : ℂ) * Complex.I_sq

theorem spot_ratio (h : Heston) (u : ℂ) : chfRatio h (u - Complex.I) = chfRatio (spotMeasure h) (-u) := by
  have h1 := spot_W h u
  have h2 := spot_root h u
  have e : ∀ (g : Heston) (u : ℂ), chfRatio g u = (chfW g u - chfRoot g u) / (chfW g u + chfRoot g u) := by
    intro g u
    unfold chfRatio chfW
    ring_nf
  rw [e, e, h1, h2]

theorem spot_D (h : Heston) (u : ℂ) (t : ℝ) : chfD h (u - Complex.I) t = chfD (spotMeasure h) (-u) t := by
  unfold chfD
  rw [spot_W, spot_root, spot_ratio]
  rfl

theorem spot_B (h : Heston) (hcorr : h.rho * h.vv < h.kappa) (u : ℂ) (t : ℝ) : chfB h (u - Complex.I) t = chfB (spotMeasure h) (-u) t := by
  unfold chfB chfPsi
  rw [spot_W, spot_root, spot_ratio]
  congr 1
  have e : (spotMeasure h).kappa * (spotMeasure h).theta = h.kappa * h.theta := by
    unfold spotMeasure
    have : h.kappa - h.rho * h.vv ≠ 0 := by linarith
    simp only
    field_simp
  have e2 : ((spotMeasure h).kappa : ℂ) * (spotMeasure h).theta = h.kappa * h.theta := by exact_mod_cast e
  rw [e2]
  rfl

theorem spot_good (h : Heston) (hg : GoodHeston h) (hcorr : h.rho * h.vv < h.kappa) : GoodHeston (spotMeasure h) :=
  ⟨by unfold spotMeasure; simp only; linarith, hg.vv, by unfold spotMeasure; simpa using hg.rho⟩

/-- Absolute convergence of an inversion integral. -/
theorem inversion_integrable (f : ℝ → ℂ) (k : ℝ) (h0 : f 0 = 1) (hc : Continuous f) (hd : DifferentiableAt ℝ f 0) (C c : ℝ) (hcpos : 0 < c)
    (hdec : ∀ w : ℝ, 0 ≤ w → ‖f w‖ ≤ C * Real.exp (-c * w)) :
    IntegrableOn (fun w : ℝ => (Complex.exp (-Complex.I * w * k) * f w / (Complex.I * w)).re) (Set.Ioi 0) := by
  obtain ⟨F, hF⟩ : ∃ F : ℝ → ℂ, F = fun w : ℝ => Complex.exp (-Complex.I * w * k) * f w := ⟨_, rfl⟩
  have hF0 : F 0 = 1 := by rw [hF]; simp [h0]
  have hFc : Continuous F := by rw [hF]; fun_prop
  have hE : Differentiable ℝ fun w : ℝ => Complex.exp (-Complex.I * w * k) := by
    intro w
    have h1 : HasDerivAt (fun w : ℝ => -Complex.I * (w : ℂ) * k) (-Complex.I * k) w := by
      simpa using ((Complex.ofRealCLM.hasDerivAt (x := w)).const_mul (-Complex.I)).mul_const (k : ℂ)
    exact h1.cexp.differentiableAt
  have hFd : DifferentiableAt ℝ F 0 := by rw [hF]; exact (hE 0).mul hd
  have hFn : ∀ w, ‖F w‖ = ‖f w‖ := by
    intro w
    rw [hF]
    simp only [norm_mul]
    rw [show -Complex.I * (w : ℂ) * k = ((-(w * k) : ℝ) : ℂ) * Complex.I by push_cast; ring, Complex.norm_exp_ofReal_mul_I, one_mul]
  have hs : Continuous (dslope F 0) := by
    rw [← continuousOn_univ, continuousOn_dslope Filter.univ_mem]
    exact ⟨hFc.continuousOn, hFd⟩
  obtain ⟨L, hL⟩ := isCompact_Icc.exists_bound_of_continuousOn (f := dslope F 0) (s := Set.Icc 0 1) hs.continuousOn
  have key : ∀ w : ℝ, 0 < w → (F w / (Complex.I * w)).re = ((F w - 1) / (Complex.I * w)).re := by
    intro w hw
    rw [sub_div, Complex.sub_re]
    have : ((1 : ℂ) / (Complex.I * w)).re = 0 := by
      rw [one_div, mul_inv, Complex.inv_I, ← Complex.ofReal_inv]
      simp
    rw [this, sub_zero]
  have hb : ∀ w ∈ Set.Ioi (0 : ℝ), ‖(F w / (Complex.I * w)).re‖ ≤ max (L * Real.exp c) C * Real.exp (-c * w) := by
    intro w hw
    have hw' : (0 : ℝ) < w := hw
    rcases le_or_gt w 1 with h1 | h1
    · rw [key w hw, Real.norm_eq_abs]
      have e : (F w - 1) / (Complex.I * w) = dslope F 0 w / Complex.I := by
        rw [dslope_of_ne _ hw'.ne', slope_def_module, hF0, sub_zero, Complex.real_smul, Complex.ofReal_inv]
        have : (w : ℂ) ≠ 0 := by exact_mod_cast hw'.ne'
        have := Complex.I_ne_zero
        field_simp
      have hLn := hL w ⟨hw'.le, h1⟩
      calc |((F w - 1) / (Complex.I * w)).re| ≤ ‖(F w - 1) / (Complex.I * w)‖ := Complex.abs_re_le_norm _
        _ = ‖dslope F 0 w‖ := by rw [e, norm_div, Complex.norm_I, div_one]
        _ ≤ L * 1 := by rw [mul_one]; exact hLn
        _ ≤ L * (Real.exp c * Real.exp (-c * w)) := by
          apply mul_le_mul_of_nonneg_left _ ((norm_nonneg _).trans hLn)
          rw [← Real.exp_add]
          exact Real.one_le_exp (by nlinarith)
        _ = L * Real.exp c * Real.exp (-c * w) := by ring
        _ ≤ _ := mul_le_mul_of_nonneg_right (le_max_left _ _) (Real.exp_pos _).le
    · rw [Real.norm_eq_abs]
      calc |(F w / (Complex.I * w)).re| ≤ ‖F w / (Complex.I * w)‖ := Complex.abs_re_le_norm _
        _ = ‖f w‖ / w := by rw [norm_div, norm_mul, Complex.norm_I, one_mul, hFn, Complex.norm_real, Real.norm_of_nonneg hw'.le]
        _ ≤ ‖f w‖ := div_le_self (norm_nonneg _) h1.le
        _ ≤ C * Real.exp (-c * w) := hdec w hw'.le
        _ ≤ _ := mul_le_mul_of_nonneg_right (le_max_right _ _) (Real.exp_pos _).le
  have hm : AEStronglyMeasurable (fun w : ℝ => (F w / (Complex.I * w)).re) (volume.restrict (Set.Ioi 0)) := by
    apply ContinuousOn.aestronglyMeasurable _ measurableSet_Ioi
    apply Complex.continuous_re.comp_continuousOn
    apply hFc.continuousOn.div (by fun_prop)
    intro w hw
    have : (w : ℂ) ≠ 0 := by exact_mod_cast (ne_of_gt hw)
    exact mul_ne_zero Complex.I_ne_zero this
  have hint : IntegrableOn (fun w : ℝ => max (L * Real.exp c) C * Real.exp (-c * w)) (Set.Ioi 0) := (exp_neg_integrableOn_Ioi 0 hcpos).const_mul _
  have := Integrable.mono' hint hm ((ae_restrict_iff' measurableSet_Ioi).2 (Eventually.of_forall hb))
  rw [hF] at this
  exact this

end Frm.Props
