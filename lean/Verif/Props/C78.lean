import Verif.Proofs.HestonChf

/-!
# C78: Heston's characteristic function
-/

namespace Frm
namespace Spec

set_option autoImplicit false

/-- Heston's backward equation, in the log spot `x`, the variance `v` and the time `t` to expiry, with all the derivatives it mentions
(Heston 1993, equation 13, for the drift `mu`). -/
def SolvesHestonEquation (h : Heston) (mu : ℝ) (f : ℝ → ℝ → ℝ → ℂ) : Prop :=
  ∃ ft fx fv fxx fxv fvv : ℝ → ℝ → ℝ → ℂ, ∀ x v t, 0 < v → 0 ≤ t →
    HasDerivAt (fun s => f x v s) (ft x v t) t ∧
    HasDerivAt (fun y => f y v t) (fx x v t) x ∧
    HasDerivAt (fun w => f x w t) (fv x v t) v ∧
    HasDerivAt (fun y => fx y v t) (fxx x v t) x ∧
    HasDerivAt (fun w => fx x w t) (fxv x v t) v ∧
    HasDerivAt (fun w => fv x w t) (fvv x v t) v ∧
    ft x v t = (mu - v / 2) * fx x v t + v / 2 * fxx x v t + h.rho * h.vv * v * fxv x v t + h.vv ^ 2 * v / 2 * fvv x v t +
      h.kappa * (h.theta - v) * fv x v t

end Spec
end Frm

namespace Frm.Props
open Classical

set_option autoImplicit false

open Frm Frm.Spec

/-- The coefficient of the variance. -/
noncomputable def chfD (h : Heston) (u : ℂ) (t : ℝ) : ℂ :=
  (chfW h u - chfRoot h u) / (h.vv : ℂ) ^ 2 * ((1 - Complex.exp (-chfRoot h u * t)) / (1 - chfRatio h u * Complex.exp (-chfRoot h u * t)))

/-- The part that does not depend on the state. -/
noncomputable def chfB (h : Heston) (u : ℂ) (t : ℝ) : ℂ :=
  h.kappa * h.theta / (h.vv : ℂ) ^ 2 * ((chfW h u - chfRoot h u) * t - 2 * Complex.log (chfPsi h t u))

theorem chfAlbrecher_eq (h : Heston) (v : ℝ) (hv : 0 ≤ v) (x t r q : ℝ) (u : ℂ) :
    chfAlbrecher { h with var0 := v } x t r q u = Complex.exp (Complex.I * u * (x + (r - q) * t) + chfB h u t + chfD h u t * v) := by
  have e : (((Real.sqrt v : ℝ) : ℂ)) ^ 2 = v := by rw [← Complex.ofReal_pow, Real.sq_sqrt hv]
  unfold chfAlbrecher
  simp only
  rw [e]
  congr 1
  have hW : (h.kappa : ℂ) - h.rho * h.vv * Complex.I * u = chfW h u := by unfold chfW; ring
  have hd : chfRoot { h with var0 := v } u = chfRoot h u := rfl
  have hg : chfRatio { h with var0 := v } u = chfRatio h u := rfl
  rw [hd, hg, hW]
  unfold chfB chfD chfPsi
  ring

theorem chfFang_eq (h : Heston) (t r q : ℝ) (u : ℂ) :
    chfFang h t r q u = Complex.exp (Complex.I * u * ((r - q) * t) + chfB h u t + chfD h u t * h.var0) := by
  have hW : (h.kappa : ℂ) - Complex.I * h.rho * h.vv * u = chfW h u := rfl
  have hd : csqrt ((chfW h u) ^ 2 + (u ^ 2 + Complex.I * u) * (h.vv : ℂ) ^ 2) = chfRoot h u := by
    unfold chfRoot chfW
    congr 1
    ring
  unfold chfFang
  simp only [hW, hd]
  rw [← chfRatio_eq]
  congr 1
  unfold chfB chfD chfPsi
  ring

/-- The two implementations agree: the one starts from today's log spot, the other from zero. -/
theorem C78_implementations_agree (h : Heston) (hv : 0 ≤ h.var0) (logS0 tau r q : ℝ) (u : ℂ) :
    chfAlbrecher h logS0 tau r q u = Complex.exp (Complex.I * u * logS0) * chfFang h tau r q u := by
  have := chfAlbrecher_eq h h.var0 hv logS0 tau r q u
  rw [show ({ h with var0 := h.var0 } : Heston) = h from rfl] at this
  rw [this, chfFang_eq, ← Complex.exp_add]
  congr 1
  ring

theorem denominator_ne (h : Heston) (hg : GoodHeston h) (t u : ℝ) (ht : 0 ≤ t) : 1 - chfRatio h u * Complex.exp (-chfRoot h u * t) ≠ 0 := by
  intro h0
  have := Complex.slitPlane_ne_zero (chfPsi_mem h hg t u ht)
  apply this
  unfold chfPsi
  rw [h0, zero_div]

theorem exp_line_deriv (d : ℂ) (t : ℝ) : HasDerivAt (fun s : ℝ => Complex.exp (-d * s)) (-d * Complex.exp (-d * t)) t := by
  have h1 : HasDerivAt (fun s : ℝ => -d * (s : ℂ)) (-d) t := by simpa using (Complex.ofRealCLM.hasDerivAt (x := t)).const_mul (-d)
  exact h1.cexp.congr_deriv (by ring)

/-- The Riccati equation. -/
theorem chfD_deriv (h : Heston) (hg : GoodHeston h) (u t : ℝ) (ht : 0 ≤ t) :
    HasDerivAt (chfD h u) ((h.vv : ℂ) ^ 2 / 2 * chfD h u t ^ 2 - chfW h u * chfD h u t - ((u : ℂ) ^ 2 + Complex.I * u) / 2) t := by
  have hN := denominator_ne h hg t u ht
  have hs := chfSum_ne h hg u
  have hv : (h.vv : ℂ) ≠ 0 := by exact_mod_cast hg.vv.ne'
  have he := exp_line_deriv (chfRoot h u) t
  have h1 := ((he.const_sub 1).div ((he.const_mul (chfRatio h u)).const_sub 1) hN).const_mul ((chfW h u - chfRoot h u) / (h.vv : ℂ) ^ 2)
  refine (h1.congr_deriv ?_)
  have hsq := chfRoot_sq h u
  have hu : ((u : ℂ) ^ 2 + Complex.I * u) = -(chfRatio h u * (chfW h u + chfRoot h u) ^ 2) / (h.vv : ℂ) ^ 2 := by
    rw [chfRatio_eq]
    field_simp
    linear_combination -hsq
  have hgs : chfW h u - chfRoot h u = chfRatio h u * (chfW h u + chfRoot h u) := by rw [chfRatio_eq]; field_simp
  unfold chfD
  rw [hu]
  generalize chfRatio h u = g at *
  generalize hS : chfW h u + chfRoot h u = S at *
  have hW : chfW h u = S * (1 + g) / 2 := by linear_combination (1 / 2 : ℂ) * hS + (1 / 2 : ℂ) * hgs
  have hd : chfRoot h u = S * (1 - g) / 2 := by linear_combination (1 / 2 : ℂ) * hS - (1 / 2 : ℂ) * hgs
  rw [hgs]
  generalize Complex.exp (-chfRoot h u * t) = e at *
  rw [hW, hd]
  field_simp
  ring

theorem chfB_deriv (h : Heston) (hg : GoodHeston h) (u t : ℝ) (ht : 0 ≤ t) :
    HasDerivAt (chfB h u) (h.kappa * h.theta * chfD h u t) t := by
  have hN := denominator_ne h hg t u ht
  have hs := chfSum_ne h hg u
  have hv : (h.vv : ℂ) ≠ 0 := by exact_mod_cast hg.vv.ne'
  have h1g := one_sub_ratio_ne h hg u
  have he := exp_line_deriv (chfRoot h u) t
  have hpsi : HasDerivAt (fun s : ℝ => chfPsi h s u) (-(chfRatio h u * (-chfRoot h u * Complex.exp (-chfRoot h u * t))) / (1 - chfRatio h u)) t :=
    ((he.const_mul (chfRatio h u)).const_sub 1).div_const (1 - chfRatio h u)
  have hlog := hpsi.clog_real (chfPsi_mem h hg t u ht)
  have hlin : HasDerivAt (fun s : ℝ => (chfW h u - chfRoot h u) * (s : ℂ)) (chfW h u - chfRoot h u) t := by
    simpa using (Complex.ofRealCLM.hasDerivAt (x := t)).const_mul (chfW h u - chfRoot h u)
  have h1 := (hlin.sub (hlog.const_mul 2)).const_mul (h.kappa * h.theta / (h.vv : ℂ) ^ 2)
  refine (h1.congr_deriv ?_)
  have hgs : chfW h u - chfRoot h u = chfRatio h u * (chfW h u + chfRoot h u) := by rw [chfRatio_eq]; field_simp
  unfold chfD chfPsi
  generalize chfRatio h u = g at *
  generalize hS : chfW h u + chfRoot h u = S at *
  have hd : chfRoot h u = S * (1 - g) / 2 := by linear_combination (1 / 2 : ℂ) * hS - (1 / 2 : ℂ) * hgs
  rw [hgs]
  generalize Complex.exp (-chfRoot h u * t) = e at *
  rw [hd]
  field_simp
  ring

theorem exp_affine_deriv (a b : ℂ) (x : ℝ) : HasDerivAt (fun y : ℝ => Complex.exp (a + b * y)) (b * Complex.exp (a + b * x)) x := by
  have h1 : HasDerivAt (fun s : ℝ => a + b * (s : ℂ)) b x := by simpa using ((Complex.ofRealCLM.hasDerivAt (x := x)).const_mul b).const_add a
  exact h1.cexp.congr_deriv (by ring)

/-- The characteristic function solves Heston's backward equation for every frequency: it is the value today of a payoff `e^{i u x}`, the
solution starting from that payoff.  No condition on the parameters restricts the complex logarithm. -/
theorem C78_backward_equation (h : Heston) (hk : 0 < h.kappa) (hvv : 0 < h.vv) (hr : |h.rho| ≤ 1) (r q u : ℝ) :
    SolvesHestonEquation h (r - q) (fun x v t => chfAlbrecher { h with var0 := v } x t r q u) ∧
    ∀ x v, 0 ≤ v → chfAlbrecher { h with var0 := v } x 0 r q u = Complex.exp (Complex.I * u * x) := by
  have hg : GoodHeston h := ⟨hk, hvv, hr⟩
  refine ⟨?_, ?_⟩
  · let f := fun x v t : ℝ => Complex.exp (Complex.I * u * (x + (r - q) * t) + chfB h u t + chfD h u t * v)
    refine ⟨fun x v t => (Complex.I * u * (r - q) + h.kappa * h.theta * chfD h u t +
        ((h.vv : ℂ) ^ 2 / 2 * chfD h u t ^ 2 - chfW h u * chfD h u t - ((u : ℂ) ^ 2 + Complex.I * u) / 2) * v) * f x v t,
      fun x v t => Complex.I * u * f x v t, fun x v t => chfD h u t * f x v t, fun x v t => (Complex.I * u) * (Complex.I * u * f x v t),
      fun x v t => Complex.I * u * (chfD h u t * f x v t), fun x v t => chfD h u t * (chfD h u t * f x v t), ?_⟩
    intro x v t hv ht
    have hx : ∀ y, HasDerivAt (fun y => f y v t) (Complex.I * u * f y v t) y := by
      intro y
      have := exp_affine_deriv (Complex.I * u * ((r - q) * t) + chfB h u t + chfD h u t * v) (Complex.I * u) y
      have e : ∀ y : ℝ, f y v t = Complex.exp (Complex.I * u * ((r - q) * t) + chfB h u t + chfD h u t * v + Complex.I * u * y) := by
        intro y; simp only [f]; congr 1; ring
      simp only [e]
      exact this
    have hw : ∀ w, HasDerivAt (fun w => f x w t) (chfD h u t * f x w t) w := by
      intro w
      exact exp_affine_deriv (Complex.I * u * (x + (r - q) * t) + chfB h u t) (chfD h u t) w
    refine ⟨?_, ?_, ?_, ?_, ?_, ?_, ?_⟩
    · have h1 : HasDerivAt (fun s : ℝ => Complex.I * u * (x + (r - q) * s) + chfB h u s + chfD h u s * v)
          (Complex.I * u * (r - q) + h.kappa * h.theta * chfD h u t +
            ((h.vv : ℂ) ^ 2 / 2 * chfD h u t ^ 2 - chfW h u * chfD h u t - ((u : ℂ) ^ 2 + Complex.I * u) / 2) * v) t := by
        have a1 : HasDerivAt (fun s : ℝ => Complex.I * u * (x + (r - q) * (s : ℂ))) (Complex.I * u * (r - q)) t := by
          simpa using ((((Complex.ofRealCLM.hasDerivAt (x := t)).const_mul ((r : ℂ) - q)).const_add (x : ℂ)).const_mul (Complex.I * u))
        exact (a1.add (chfB_deriv h hg u t ht)).add ((chfD_deriv h hg u t ht).mul_const _)
      have h2 := h1.cexp
      simp only [chfAlbrecher_eq h v hv.le]
      exact h2.congr_deriv (by simp only [f]; ring)
    · simp only [chfAlbrecher_eq h v hv.le]
      exact hx x
    · apply (hw v).congr_of_eventuallyEq
      filter_upwards [lt_mem_nhds hv] with w hw0
      simp only [chfAlbrecher_eq h w hw0.le]
      rfl
    · exact (hx x).const_mul _
    · exact (hw v).const_mul _
    · exact (hw v).const_mul _
    · simp only [chfW]
      push_cast
      linear_combination (-(1 / 2 : ℂ) * v * u ^ 2 * f x v t) * Complex.I_sq
  · intro x v hv
    rw [chfAlbrecher_eq h v hv]
    have h1 : chfB h u 0 = 0 := by
      unfold chfB chfPsi
      simp [div_self (one_sub_ratio_ne h hg u)]
    have h2 : chfD h u 0 = 0 := by
      unfold chfD
      simp
    rw [h1, h2]
    simp

theorem chfD_re_nonpos (h : Heston) (hg : GoodHeston h) (u t : ℝ) (ht : 0 ≤ t) : (chfD h u t).re ≤ 0 := by
  let h1 : Heston := { h with theta := 1 / h.kappa }
  have hg1 : GoodHeston h1 := ⟨hg.kappa, hg.vv, hg.rho⟩
  have hJ : ∀ s, 0 ≤ s → HasDerivAt (fun s => (chfB h1 u s).re) (chfD h u s).re s := by
    intro s hs
    have hk : (h.kappa : ℂ) ≠ 0 := by exact_mod_cast hg.kappa.ne'
    have := chfB_deriv h1 hg1 u s hs
    have e : (h1.kappa : ℂ) * h1.theta * chfD h1 u s = chfD h u s := by
      have e1 : chfD h1 u s = chfD h u s := rfl
      rw [e1]
      simp only [h1]
      push_cast
      field_simp
    rw [e] at this
    exact (Complex.reCLM.hasFDerivAt.comp_hasDerivAt s this)
  have hD : ∀ s, 0 ≤ s → HasDerivAt (fun s => (chfD h u s).re)
      ((h.vv : ℂ) ^ 2 / 2 * chfD h u s ^ 2 - chfW h u * chfD h u s - ((u : ℂ) ^ 2 + Complex.I * u) / 2).re s := by
    intro s hs
    exact (Complex.reCLM.hasFDerivAt.comp_hasDerivAt s (chfD_deriv h hg u s hs))
  have hre : ∀ s, ((h.vv : ℂ) ^ 2 / 2 * chfD h u s ^ 2 - chfW h u * chfD h u s - ((u : ℂ) ^ 2 + Complex.I * u) / 2).re ≤
      (h.vv ^ 2 / 2 * (chfD h u s).re - h.kappa) * (chfD h u s).re := by
    intro s
    generalize chfD h u s = D
    have e : ((h.vv : ℂ) ^ 2 / 2 * D ^ 2 - chfW h u * D - ((u : ℂ) ^ 2 + Complex.I * u) / 2).re =
        h.vv ^ 2 / 2 * (D.re ^ 2 - D.im ^ 2) - (h.kappa * D.re + h.rho * h.vv * u * D.im) - u ^ 2 / 2 := by
      unfold chfW
      have e1 : (h.vv : ℂ) ^ 2 / 2 = ((h.vv ^ 2 / 2 : ℝ) : ℂ) := by push_cast; ring
      have e2 : ((u : ℂ) ^ 2 + Complex.I * u) / 2 = ((u ^ 2 / 2 : ℝ) : ℂ) + Complex.I * ((u / 2 : ℝ) : ℂ) := by push_cast; ring
      rw [e1, e2]
      simp [pow_two]
    rw [e]
    have hr := abs_le.1 hg.rho
    have q1 : 0 ≤ h.vv ^ 2 * D.im ^ 2 + 2 * h.rho * (h.vv * D.im) * u + u ^ 2 := by
      have a1 : 0 ≤ (1 - h.rho ^ 2) := by nlinarith
      have a2 := mul_nonneg a1 (sq_nonneg u)
      have a3 := sq_nonneg (h.vv * D.im + h.rho * u)
      linarith
    linarith
  -- the integrating factor
  let G := fun s : ℝ => (chfD h u s).re * Real.exp (-(h.vv ^ 2 / 2 * (chfB h1 u s).re - h.kappa * s))
  have hG : ∀ s, 0 ≤ s → HasDerivAt G
      (((h.vv : ℂ) ^ 2 / 2 * chfD h u s ^ 2 - chfW h u * chfD h u s - ((u : ℂ) ^ 2 + Complex.I * u) / 2).re *
          Real.exp (-(h.vv ^ 2 / 2 * (chfB h1 u s).re - h.kappa * s)) +
        (chfD h u s).re * (Real.exp (-(h.vv ^ 2 / 2 * (chfB h1 u s).re - h.kappa * s)) * -(h.vv ^ 2 / 2 * (chfD h u s).re - h.kappa))) s := by
    intro s hs
    have a1 := (((hJ s hs).const_mul (h.vv ^ 2 / 2)).sub ((hasDerivAt_id' s).const_mul h.kappa)).neg.exp
    have a2 := (hD s hs).mul a1
    exact a2.congr_deriv (by simp)
  have hanti : AntitoneOn G (Set.Ici 0) := by
    apply antitoneOn_of_deriv_nonpos (convex_Ici 0)
    · intro s hs
      exact (hG s hs).continuousAt.continuousWithinAt
    · intro s hs
      rw [interior_Ici] at hs
      exact (hG s (le_of_lt hs)).differentiableAt.differentiableWithinAt
    · intro s hs
      rw [interior_Ici] at hs
      rw [(hG s (le_of_lt hs)).deriv]
      have := mul_le_mul_of_nonneg_right (hre s) (Real.exp_pos (-(h.vv ^ 2 / 2 * (chfB h1 u s).re - h.kappa * s))).le
      linarith
  have h0 : G 0 = 0 := by
    have : chfD h u 0 = 0 := by unfold chfD; simp
    simp only [G, this]
    simp
  have := hanti (Set.mem_Ici.2 le_rfl) (Set.mem_Ici.2 ht) ht
  rw [h0] at this
  exact nonpos_of_mul_nonpos_left this (Real.exp_pos _)

theorem chfB_re_nonpos (h : Heston) (hg : GoodHeston h) (htheta : 0 ≤ h.theta) (u t : ℝ) (ht : 0 ≤ t) : (chfB h u t).re ≤ 0 := by
  have hB : ∀ s, 0 ≤ s → HasDerivAt (fun s => (chfB h u s).re) (h.kappa * h.theta * (chfD h u s).re) s := by
    intro s hs
    have := (Complex.reCLM.hasFDerivAt.comp_hasDerivAt s (chfB_deriv h hg u s hs))
    refine this.congr_deriv ?_
    rw [← Complex.ofReal_mul]
    simp
  have hanti : AntitoneOn (fun s => (chfB h u s).re) (Set.Ici 0) := by
    apply antitoneOn_of_deriv_nonpos (convex_Ici 0)
    · intro s hs
      exact (hB s hs).continuousAt.continuousWithinAt
    · intro s hs
      rw [interior_Ici] at hs
      exact (hB s (le_of_lt hs)).differentiableAt.differentiableWithinAt
    · intro s hs
      rw [interior_Ici] at hs
      rw [(hB s (le_of_lt hs)).deriv]
      exact mul_nonpos_of_nonneg_of_nonpos (mul_nonneg hg.kappa.le htheta) (chfD_re_nonpos h hg u s (le_of_lt hs))
  have := hanti (Set.mem_Ici.2 le_rfl) (Set.mem_Ici.2 ht) ht
  have h0 : chfB h u 0 = 0 := by
    unfold chfB chfPsi
    simp [div_self (one_sub_ratio_ne h hg u)]
  simpa [h0] using this

/-- Like every characteristic function it is one at zero, and nowhere larger than one in modulus. -/
theorem C78_bounded (h : Heston) (hk : 0 < h.kappa) (hvv : 0 < h.vv) (hr : |h.rho| ≤ 1) (hv : 0 ≤ h.var0) (htheta : 0 ≤ h.theta)
    (logS0 tau r q : ℝ) (ht : 0 ≤ tau) :
    chfAlbrecher h logS0 tau r q 0 = 1 ∧ chfFang h tau r q 0 = 1 ∧
    ∀ u : ℝ, ‖chfAlbrecher h logS0 tau r q u‖ ≤ 1 ∧ ‖chfFang h tau r q u‖ ≤ 1 := by
  have hg : GoodHeston h := ⟨hk, hvv, hr⟩
  have hF : ∀ u : ℝ, ‖chfFang h tau r q u‖ ≤ 1 := by
    intro u
    rw [chfFang_eq, Complex.norm_exp, Real.exp_le_one_iff]
    have h1 := chfB_re_nonpos h hg htheta u tau ht
    have h2 := mul_nonpos_of_nonpos_of_nonneg (chfD_re_nonpos h hg u tau ht) hv
    have e : (Complex.I * u * (((r : ℂ) - q) * tau)).re = 0 := by
      rw [show Complex.I * (u : ℂ) * (((r : ℂ) - q) * tau) = Complex.I * ((u * ((r - q) * tau) : ℝ) : ℂ) by push_cast; ring]
      simp
    rw [Complex.add_re, Complex.add_re, e, Complex.re_mul_ofReal]
    linarith
  have h0 : chfFang h tau r q 0 = 1 := by
    rw [chfFang_eq]
    have hr0 : chfRoot h 0 = h.kappa := chfRoot_zero h hg
    have hW0 : chfW h 0 = h.kappa := by simp [chfW]
    have hgz : chfRatio h 0 = 0 := by rw [chfRatio_eq, hr0, hW0]; simp
    have hB : chfB h 0 tau = 0 := by unfold chfB chfPsi; simp [hr0, hW0, hgz]
    have hD : chfD h 0 tau = 0 := by unfold chfD; simp [hr0, hW0]
    rw [hB, hD]
    simp
  refine ⟨?_, h0, ?_⟩
  · rw [C78_implementations_agree h hv, h0]
    simp
  · intro u
    refine ⟨?_, hF u⟩
    rw [C78_implementations_agree h hv, norm_mul]
    have : ‖Complex.exp (Complex.I * u * logS0)‖ = 1 := by
      rw [show Complex.I * (u : ℂ) * (logS0 : ℂ) = ((u * logS0 : ℝ) : ℂ) * Complex.I by push_cast; ring, Complex.norm_exp_ofReal_mul_I]
    rw [this, one_mul]
    exact hF u

/-- At the frequency `-i` it is the mean of the spot, the forward. -/
theorem C78_forward (h : Heston) (hv : 0 ≤ h.var0) (hcorr : h.rho * h.vv < h.kappa) (S0 tau r q : ℝ) (hS : 0 < S0) :
    chfAlbrecher h (Real.log S0) tau r q (-Complex.I) = (S0 * Real.exp ((r - q) * tau) : ℝ) := by
  rw [C78_implementations_agree h hv, chfFang_eq]
  have hW : chfW h (-Complex.I) = ((h.kappa - h.rho * h.vv : ℝ) : ℂ) := by
    unfold chfW
    push_cast
    linear_combination (h.rho * h.vv : ℂ) * Complex.I_sq
  have hd : chfRoot h (-Complex.I) = ((h.kappa - h.rho * h.vv : ℝ) : ℂ) := by
    unfold chfRoot
    have e : (h.rho * h.vv * -Complex.I * Complex.I - h.kappa : ℂ) ^ 2 + (h.vv : ℂ) ^ 2 * (Complex.I * -Complex.I + (-Complex.I) ^ 2) =
        (((h.kappa - h.rho * h.vv) ^ 2 : ℝ) : ℂ) := by
      push_cast
      ring_nf
      simp only [show Complex.I ^ 4 = 1 by rw [show (4 : ℕ) = 2 * 2 from rfl, pow_mul, Complex.I_sq]; norm_num, Complex.I_sq]
      ring
    rw [e]
    unfold csqrt
    have := Complex.ofReal_cpow (sq_nonneg (h.kappa - h.rho * h.vv)) (1 / 2)
    push_cast at this
    push_cast
    rw [← this]
    rw [← Real.sqrt_eq_rpow, Real.sqrt_sq (by linarith)]
    push_cast
    ring
  have hg : chfRatio h (-Complex.I) = 0 := by rw [chfRatio_eq, hd, hW]; simp
  have hB : chfB h (-Complex.I) tau = 0 := by unfold chfB chfPsi; simp [hd, hW, hg]
  have hD : chfD h (-Complex.I) tau = 0 := by unfold chfD; simp [hd, hW]
  rw [hB, hD, ← Complex.exp_add]
  have e : Complex.I * -Complex.I * (Real.log S0 : ℂ) + (Complex.I * -Complex.I * (((r : ℂ) - q) * tau) + 0 + 0 * h.var0) =
      ((Real.log S0 + (r - q) * tau : ℝ) : ℂ) := by
    push_cast
    linear_combination (-(Real.log S0 : ℂ) - (r - q) * tau) * Complex.I_sq
  rw [e, ← Complex.ofReal_exp, Real.exp_add, Real.exp_log hS]

/-- Heston's two original functions are the same function: the second is the characteristic function itself, the first is its shift by
`-i` over the forward.  A price of volatility risk only moves the mean reversion and the level. -/
theorem C78_heston1993 (h : Heston) (lambda S0 tau r q phi : ℝ) (hv : 0 ≤ h.var0) (hS : 0 < S0) (hsum : h.kappa + lambda ≠ 0) :
    let h' : Heston := { h with kappa := h.kappa + lambda, theta := h.kappa * h.theta / (h.kappa + lambda) }
    heston1993Chf h lambda S0 tau r q false phi = chfAlbrecher h' (Real.log S0) tau r q phi ∧
    (S0 * Real.exp ((r - q) * tau) : ℝ) * heston1993Chf h lambda S0 tau r q true phi = chfAlbrecher h' (Real.log S0) tau r q (phi - Complex.I) := by
  intro h'
  have hs : ((h.kappa : ℂ) + lambda) ≠ 0 := by exact_mod_cast hsum
  have hkt : (h'.kappa : ℂ) * h'.theta = h.kappa * h.theta := by
    simp only [h']
    push_cast
    field_simp
  have hr' : (h'.rho : ℂ) = h.rho := rfl
  have hv' : (h'.vv : ℂ) = h.vv := rfl
  have hk' : (h'.kappa : ℂ) = h.kappa + lambda := by simp only [h']; push_cast; ring
  have hvar : h'.var0 = h.var0 := rfl
  constructor
  · rw [C78_implementations_agree h' hv, chfFang_eq, ← Complex.exp_add]
    unfold heston1993Chf heston1993Constants
    simp only [Bool.false_eq_true, if_false]
    have hW : (((h.kappa + lambda : ℝ) : ℂ)) - h.rho * h.vv * phi * Complex.I = chfW h' phi := by
      unfold chfW; rw [hk', hr', hv']; push_cast; ring
    have hd : csqrt ((h.rho * h.vv * phi * Complex.I - ((h.kappa + lambda : ℝ) : ℂ)) ^ 2 - (h.vv : ℂ) ^ 2 * (2 * ((-0.5 : ℝ) : ℂ) * phi * Complex.I - (phi : ℂ) ^ 2)) =
        chfRoot h' phi := by
      unfold chfRoot
      congr 1
      rw [hk', hr', hv']
      push_cast
      ring
    rw [hW, hd, ← chfRatio_eq]
    congr 1
    unfold chfB chfD chfPsi
    rw [hkt, hv', hvar]
    ring
  · rw [C78_implementations_agree h' hv, chfFang_eq, ← Complex.exp_add]
    unfold heston1993Chf heston1993Constants
    simp only [if_true]
    have hW : (((h.kappa + lambda - h.rho * h.vv : ℝ) : ℂ)) - h.rho * h.vv * phi * Complex.I = chfW h' (phi - Complex.I) := by
      unfold chfW; rw [hk', hr', hv']; push_cast; linear_combination (-(h.rho * h.vv : ℂ)) * Complex.I_sq
    have hd : csqrt ((h.rho * h.vv * phi * Complex.I - ((h.kappa + lambda - h.rho * h.vv : ℝ) : ℂ)) ^ 2 - (h.vv : ℂ) ^ 2 * (2 * ((0.5 : ℝ) : ℂ) * phi * Complex.I - (phi : ℂ) ^ 2)) =
        chfRoot h' (phi - Complex.I) := by
      unfold chfRoot
      congr 1
      rw [hk', hr', hv']
      push_cast
      ring_nf
      simp only [show Complex.I ^ 4 = 1 by rw [show (4 : ℕ) = 2 * 2 from rfl, pow_mul, Complex.I_sq]; norm_num,
        show Complex.I ^ 3 = -Complex.I by rw [show (3 : ℕ) = 2 + 1 from rfl, pow_succ, Complex.I_sq]; ring, Complex.I_sq]
      ring
    rw [hW, hd, ← chfRatio_eq]
    have hF : ((S0 * Real.exp ((r - q) * tau) : ℝ) : ℂ) = Complex.exp (Real.log S0 + (r - q) * tau) := by
      rw [show ((Real.log S0 : ℂ) + (r - q) * tau) = ((Real.log S0 + (r - q) * tau : ℝ) : ℂ) by push_cast; ring, ← Complex.ofReal_exp,
        Real.exp_add, Real.exp_log hS]
    rw [hF, ← Complex.exp_add]
    congr 1
    unfold chfB chfD chfPsi
    rw [hkt, hv', hvar]
    linear_combination ((Real.log S0 : ℂ) + (r - q) * tau) * Complex.I_sq

/-- The hypotheses are met by everyday parameters, also with strong positive correlation and little mean reversion. -/
example : let h : Heston := ⟨0.04, 1, 0.1, 0.04, 0.9⟩; 0 < h.kappa ∧ 0 < h.vv ∧ |h.rho| ≤ 1 ∧ 0 ≤ h.var0 ∧ 0 ≤ h.theta := by
  norm_num [abs_le]

example : let h : Heston := ⟨0.04, 0.5, 1.5, 0.04, -0.7⟩; h.rho * h.vv < h.kappa ∧ h.kappa + 0 ≠ 0 := by norm_num

end Frm.Props
