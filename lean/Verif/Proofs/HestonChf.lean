import Verif.Model.Heston
import Mathlib.Analysis.SpecialFunctions.Complex.LogDeriv
import Mathlib.Analysis.SpecialFunctions.ExpDeriv
import Mathlib.Analysis.Complex.ExponentialBounds
import Mathlib.Analysis.Real.Pi.Bounds

/-!
# Lemmas about Heston's characteristic function
-/

namespace Frm.Props
open Classical

set_option autoImplicit false

open Frm

theorem csqrt_sq (z : ℂ) : csqrt z ^ 2 = z := by
  unfold csqrt
  rw [← Complex.cpow_mul_nat]
  norm_num

theorem csqrt_re_pos (z : ℂ) (hz : z ∈ Complex.slitPlane) : 0 < (csqrt z).re := by
  have h0 : z ≠ 0 := Complex.slitPlane_ne_zero hz
  unfold csqrt
  rw [Complex.cpow_def_of_ne_zero h0, Complex.exp_re]
  apply mul_pos (Real.exp_pos _)
  have him : (Complex.log z * (1 / 2)).im = z.arg / 2 := by
    have : Complex.log z * (1 / 2) = Complex.log z * ((1 / 2 : ℝ) : ℂ) := by push_cast; rfl
    rw [this, Complex.im_mul_ofReal, Complex.log_im]; ring
  rw [him]
  have h1 := Complex.neg_pi_lt_arg z
  have h2 := Complex.mem_slitPlane_iff_arg.1 hz
  have h3 := lt_of_le_of_ne (Complex.arg_le_pi z) h2.1
  apply Real.cos_pos_of_mem_Ioo
  constructor <;> linarith

theorem branch_tail (al be E s c : ℝ) (hbad : al ≤ 0) (hbe0 : be < 0) (hab : be ≤ al) (hE0 : 0 < E) (hE : E < 1 / 20) (hc1 : c ≤ 1) (hc2 : -1 ≤ c)
    (hs1 : s ≤ 1) (hs2 : -1 ≤ s) :
    0 < 1 + al + E * ((1 - al) * c - be * s) ∨ be + E * (-be * c - (1 - al) * s) ≠ 0 := by
  have a1 : 0 ≤ (1 - al) * (c + 1) := mul_nonneg (by linarith) (by linarith)
  have a2 : 0 ≤ -be * (s + 1) := mul_nonneg (by linarith) (by linarith)
  have a3 : 0 ≤ -be * (1 - c) := mul_nonneg (by linarith) (by linarith)
  have a4 : 0 ≤ (1 - al) * (s + 1) := mul_nonneg (by linarith) (by linarith)
  rcases le_or_gt (-be) (1 / 10) with hb | hb
  · left
    have hx : -(12 / 10) ≤ (1 - al) * c - be * s := by linarith
    have hy : E * (-(12 / 10)) ≤ E * ((1 - al) * c - be * s) := mul_le_mul_of_nonneg_left hx hE0.le
    linarith
  · right
    have hx : -be * c - (1 - al) * s ≤ 1 - 2 * be := by linarith
    have hy : E * (-be * c - (1 - al) * s) ≤ E * (1 - 2 * be) := mul_le_mul_of_nonneg_left hx hE0.le
    have hz : E * (1 - 2 * be) ≤ 1 / 20 * (1 - 2 * be) := mul_le_mul_of_nonneg_right hE.le (by linarith)
    have : be + E * (-be * c - (1 - al) * s) < 0 := by linarith
    exact this.ne

/-- The heart of the matter: with `c = W / d`, the argument of the logarithm never meets the branch cut. -/
theorem branch_core (kappa eta rho u p q tau : ℝ) (hk : 0 < kappa) (he : 0 < eta) (hr : |rho| ≤ 1) (hu : 0 < u) (ht : 0 ≤ tau) (hp : 0 < p)
    (hre : p ^ 2 - q ^ 2 = kappa ^ 2 + eta ^ 2 * u ^ 2 * (1 - rho ^ 2)) (him : 2 * p * q = eta * u * (eta - 2 * kappa * rho))
    (al be : ℝ) (hal : al * (p ^ 2 + q ^ 2) = kappa * p - rho * eta * u * q) (hbe : be * (p ^ 2 + q ^ 2) = -(rho * eta * u * p + kappa * q))
    (hbad : al ≤ 0) :
    0 < 1 + al + Real.exp (-p * tau) * ((1 - al) * Real.cos (q * tau) - be * Real.sin (q * tau)) ∨
      be + Real.exp (-p * tau) * (-be * Real.cos (q * tau) - (1 - al) * Real.sin (q * tau)) ≠ 0 := by
  have hn : 0 < p ^ 2 + q ^ 2 := by positivity
  have hrho := abs_le.1 hr
  have h1 : kappa * p ≤ rho * eta * u * q := by
    have : al * (p ^ 2 + q ^ 2) ≤ 0 := mul_nonpos_of_nonpos_of_nonneg hbad hn.le
    linarith
  have hkp : 0 < kappa * p := mul_pos hk hp
  have heu : 0 < eta * u := mul_pos he hu
  have hrq : 0 < rho * q := by
    have : 0 < eta * u * (rho * q) := by nlinarith
    exact pos_of_mul_pos_right this heu.le
  have hq : 0 < q := by
    rcases lt_trichotomy q 0 with h | h | h
    · have hr0 : rho < 0 := by
        by_contra hc
        push Not at hc
        have := mul_nonpos_of_nonneg_of_nonpos hc h.le
        linarith
      have h2 : 0 < eta * u * (eta - 2 * kappa * rho) := by
        apply mul_pos heu
        have := mul_pos hk (neg_pos.2 hr0)
        linarith
      have h3 : p * q < 0 := mul_neg_of_pos_of_neg hp h
      linarith
    · rw [h] at hrq; simp at hrq
    · exact h
  have hr0 : 0 < rho := pos_of_mul_pos_left hrq hq.le
  have hsq : q < p := by
    have h2 : 0 < p ^ 2 - q ^ 2 := by
      rw [hre]
      have : rho ^ 2 ≤ 1 := by nlinarith
      have h3 : 0 ≤ eta ^ 2 * u ^ 2 * (1 - rho ^ 2) := by apply mul_nonneg (by positivity); linarith
      have : 0 < kappa ^ 2 := by positivity
      linarith
    nlinarith
  have hreu : 0 < rho * eta * u := by positivity
  have hbe0 : be < 0 := by
    have : be * (p ^ 2 + q ^ 2) < 0 := by
      rw [hbe]
      have := mul_pos hreu hp
      have := mul_pos hk hq
      linarith
    exact neg_of_mul_neg_left this hn.le
  have hab : be ≤ al := by
    have : be * (p ^ 2 + q ^ 2) ≤ al * (p ^ 2 + q ^ 2) := by
      rw [hbe, hal]
      have h4 := mul_lt_mul_of_pos_left hsq hreu
      have h5 := mul_pos hk hq
      linarith
    exact le_of_mul_le_mul_right this hn
  have hE0 := Real.exp_pos (-p * tau)
  have hc1 := Real.cos_le_one (q * tau)
  have hc2 := Real.neg_one_le_cos (q * tau)
  have hs1 := Real.sin_le_one (q * tau)
  have hs2 := Real.neg_one_le_sin (q * tau)
  rcases ht.eq_or_lt with h0 | h0
  · left
    rw [← h0]
    simp
  · have hE1 : Real.exp (-p * tau) < 1 := by
      rw [Real.exp_lt_one_iff]
      have := mul_pos hp h0
      linarith
    generalize hEdef : Real.exp (-p * tau) = E at *
    rcases le_or_gt (q * tau) Real.pi with hphi | hphi
    · right
      have hs := Real.sin_nonneg_of_nonneg_of_le_pi (mul_pos hq h0).le hphi
      generalize Real.sin (q * tau) = s at *
      generalize Real.cos (q * tau) = c at *
      have h6 : 0 < 1 - E * c := by nlinarith
      have h7 : be * (1 - E * c) < 0 := mul_neg_of_neg_of_pos hbe0 h6
      have h8 : 0 ≤ E * ((1 - al) * s) := mul_nonneg hE0.le (mul_nonneg (by linarith) hs)
      nlinarith
    · have hE : E < 1 / 20 := by
        rw [← hEdef]
        have h9 : (3 : ℝ) < p * tau := by
          have := mul_lt_mul_of_pos_right hsq h0
          linarith [Real.pi_gt_three]
        have h10 : Real.exp (-p * tau) < Real.exp (-3) := Real.exp_lt_exp.2 (by linarith)
        have h11 : Real.exp (-3) < 1 / 20 := by
          rw [Real.exp_neg, inv_eq_one_div]
          apply one_div_lt_one_div_of_lt (by norm_num)
          have e3 : Real.exp 3 = Real.exp 1 ^ 3 := by rw [← Real.exp_nat_mul]; norm_num
          rw [e3]
          have := Real.exp_one_gt_d9
          have h12 : (2.718 : ℝ) ^ 3 < Real.exp 1 ^ 3 := pow_lt_pow_left₀ (by linarith) (by norm_num) (by norm_num)
          have h13 : (20 : ℝ) < 2.718 ^ 3 := by norm_num
          linarith
        linarith
      exact branch_tail al be E _ _ hbad hbe0 hab hE0 hE hc1 hc2 hs1 hs2

theorem branch_core_any (kappa eta rho u p q tau : ℝ) (hk : 0 < kappa) (he : 0 < eta) (hr : |rho| ≤ 1) (hu : u ≠ 0) (ht : 0 ≤ tau) (hp : 0 < p)
    (hre : p ^ 2 - q ^ 2 = kappa ^ 2 + eta ^ 2 * u ^ 2 * (1 - rho ^ 2)) (him : 2 * p * q = eta * u * (eta - 2 * kappa * rho))
    (al be : ℝ) (hal : al * (p ^ 2 + q ^ 2) = kappa * p - rho * eta * u * q) (hbe : be * (p ^ 2 + q ^ 2) = -(rho * eta * u * p + kappa * q))
    (hbad : al ≤ 0) :
    0 < 1 + al + Real.exp (-p * tau) * ((1 - al) * Real.cos (q * tau) - be * Real.sin (q * tau)) ∨
      be + Real.exp (-p * tau) * (-be * Real.cos (q * tau) - (1 - al) * Real.sin (q * tau)) ≠ 0 := by
  rcases lt_or_gt_of_ne hu with h | h
  · have := branch_core kappa eta rho (-u) p (-q) tau hk he hr (neg_pos.2 h) ht hp (by rw [neg_sq, neg_sq]; exact hre) (by linarith) al (-be)
      (by rw [neg_sq]; linarith) (by rw [neg_sq]; linarith) hbad
    rw [show -q * tau = -(q * tau) by ring, Real.cos_neg, Real.sin_neg] at this
    rcases this with h1 | h1
    · left
      linarith [h1]
    · right
      intro h2
      apply h1
      linarith
  · exact branch_core kappa eta rho u p q tau hk he hr h ht hp hre him al be hal hbe hbad

/-- `W` of the characteristic function. -/
noncomputable def chfW (h : Heston) (u : ℂ) : ℂ := h.kappa - Complex.I * h.rho * h.vv * u

/-- The parameters for which the model makes sense. -/
structure GoodHeston (h : Heston) : Prop where
  kappa : 0 < h.kappa
  vv : 0 < h.vv
  rho : |h.rho| ≤ 1

theorem chfRoot_sq (h : Heston) (u : ℂ) : chfRoot h u ^ 2 = chfW h u ^ 2 + (h.vv : ℂ) ^ 2 * (u ^ 2 + Complex.I * u) := by
  unfold chfRoot chfW
  rw [csqrt_sq]
  ring

theorem chfRatio_eq (h : Heston) (u : ℂ) : chfRatio h u = (chfW h u - chfRoot h u) / (chfW h u + chfRoot h u) := by
  unfold chfRatio chfW
  congr 1 <;> ring

theorem chfRoot_sq_re (h : Heston) (u : ℝ) :
    (chfRoot h u ^ 2).re = h.kappa ^ 2 + h.vv ^ 2 * u ^ 2 * (1 - h.rho ^ 2) ∧ (chfRoot h u ^ 2).im = h.vv * u * (h.vv - 2 * h.kappa * h.rho) := by
  rw [chfRoot_sq]
  unfold chfW
  simp [pow_two]
  constructor <;> ring

theorem chfRoot_re_pos (h : Heston) (hg : GoodHeston h) (u : ℝ) : 0 < (chfRoot h u).re := by
  unfold chfRoot
  apply csqrt_re_pos
  left
  have e : (h.rho * h.vv * (u : ℂ) * Complex.I - h.kappa) ^ 2 + (h.vv : ℂ) ^ 2 * (Complex.I * u + (u : ℂ) ^ 2) = chfRoot h u ^ 2 := by
    unfold chfRoot; rw [csqrt_sq]
  rw [e, (chfRoot_sq_re h u).1]
  have h1 : h.rho ^ 2 ≤ 1 := by rw [← sq_abs]; nlinarith [hg.rho, abs_nonneg h.rho]
  have h2 : 0 ≤ h.vv ^ 2 * u ^ 2 * (1 - h.rho ^ 2) := mul_nonneg (by positivity) (by linarith)
  have := hg.kappa
  positivity

theorem chfRoot_ne (h : Heston) (hg : GoodHeston h) (u : ℝ) : chfRoot h u ≠ 0 := by
  intro h0
  have := chfRoot_re_pos h hg u
  rw [h0] at this
  simp at this

theorem chfRoot_zero (h : Heston) (hg : GoodHeston h) : chfRoot h 0 = h.kappa := by
  have h1 := chfRoot_sq h 0
  have h2 := chfRoot_re_pos h hg 0
  simp only [chfW, Complex.ofReal_zero] at h1 h2
  have h3 : (chfRoot h 0 - h.kappa) * (chfRoot h 0 + h.kappa) = 0 := by linear_combination h1
  rcases mul_eq_zero.1 h3 with h4 | h4
  · exact sub_eq_zero.1 h4
  · have : (chfRoot h 0 + h.kappa).re = 0 := by rw [h4]; rfl
    simp at this
    have := hg.kappa
    linarith

theorem chfSum_ne (h : Heston) (hg : GoodHeston h) (u : ℝ) : chfW h u + chfRoot h u ≠ 0 := by
  intro h0
  have h1 : chfRoot h u = -chfW h u := by linear_combination h0
  have h2 := chfRoot_sq h u
  rw [h1, neg_sq] at h2
  have h3 : (h.vv : ℂ) ^ 2 * ((u : ℂ) ^ 2 + Complex.I * u) = 0 := by linear_combination -h2
  have hv : (h.vv : ℂ) ^ 2 ≠ 0 := pow_ne_zero _ (by exact_mod_cast hg.vv.ne')
  have h4 : (u : ℂ) ^ 2 + Complex.I * u = 0 := by
    rcases mul_eq_zero.1 h3 with h5 | h5
    · exact absurd h5 hv
    · exact h5
  have h5 : u = 0 := by
    have := congrArg Complex.im h4
    simpa [pow_two] using this
  subst h5
  have := chfRoot_zero h hg
  simp only [Complex.ofReal_zero] at h1
  rw [this, chfW] at h1
  have hk : (h.kappa : ℂ) ≠ 0 := by exact_mod_cast hg.kappa.ne'
  apply hk
  linear_combination (1 / 2 : ℂ) * h1

theorem one_sub_ratio (h : Heston) (hg : GoodHeston h) (u : ℝ) : 1 - chfRatio h u = 2 * chfRoot h u / (chfW h u + chfRoot h u) := by
  rw [chfRatio_eq]
  have := chfSum_ne h hg u
  field_simp
  ring

theorem one_sub_ratio_ne (h : Heston) (hg : GoodHeston h) (u : ℝ) : 1 - chfRatio h u ≠ 0 := by
  rw [one_sub_ratio h hg u]
  exact div_ne_zero (mul_ne_zero two_ne_zero (chfRoot_ne h hg u)) (chfSum_ne h hg u)

/-- The argument of the logarithm. -/
noncomputable def chfPsi (h : Heston) (tau : ℝ) (u : ℂ) : ℂ := (1 - chfRatio h u * Complex.exp (-chfRoot h u * tau)) / (1 - chfRatio h u)

theorem chfPsi_eq (h : Heston) (hg : GoodHeston h) (tau u : ℝ) : chfPsi h tau u =
    ((1 + chfW h u / chfRoot h u) + (1 - chfW h u / chfRoot h u) * Complex.exp (-chfRoot h u * tau)) / 2 := by
  unfold chfPsi
  rw [one_sub_ratio h hg u, chfRatio_eq]
  have h1 := chfSum_ne h hg u
  have h2 := chfRoot_ne h hg u
  field_simp
  ring

theorem exp_root (d : ℂ) (tau : ℝ) : Complex.exp (-d * tau) =
    ⟨Real.exp (-d.re * tau) * Real.cos (d.im * tau), -(Real.exp (-d.re * tau) * Real.sin (d.im * tau))⟩ := by
  apply Complex.ext
  · rw [Complex.exp_re]
    simp
  · rw [Complex.exp_im]
    simp

/-- The argument of the logarithm never meets the negative axis: the principal branch is the right one, for all parameters. -/
theorem chfPsi_mem (h : Heston) (hg : GoodHeston h) (tau u : ℝ) (ht : 0 ≤ tau) : chfPsi h tau u ∈ Complex.slitPlane := by
  by_cases hu : u = 0
  · subst hu
    have : chfRatio h 0 = 0 := by
      rw [chfRatio_eq, chfRoot_zero h hg]; simp [chfW]
    unfold chfPsi
    simp [this]
  · set d := chfRoot h u with hd
    set c := chfW h u / d with hc
    have hd0 : d ≠ 0 := chfRoot_ne h hg u
    have hp : 0 < d.re := chfRoot_re_pos h hg u
    obtain ⟨hre, him⟩ := chfRoot_sq_re h u
    rw [← hd] at hre him
    have hre2 : d.re ^ 2 - d.im ^ 2 = h.kappa ^ 2 + h.vv ^ 2 * u ^ 2 * (1 - h.rho ^ 2) := by
      rw [← hre]; simp [pow_two]
    have him2 : 2 * d.re * d.im = h.vv * u * (h.vv - 2 * h.kappa * h.rho) := by
      rw [← him]; simp [pow_two]; ring
    have hn : 0 < d.re ^ 2 + d.im ^ 2 := by positivity
    have hcd : c * d = chfW h u := by rw [hc]; field_simp
    have hW1 : (chfW h u).re = h.kappa := by unfold chfW; simp
    have hW2 : (chfW h u).im = -(h.rho * h.vv * u) := by unfold chfW; simp
    have e1 : c.re * d.re - c.im * d.im = h.kappa := by rw [← hW1, ← hcd, Complex.mul_re]
    have e2 : c.re * d.im + c.im * d.re = -(h.rho * h.vv * u) := by rw [← hW2, ← hcd, Complex.mul_im]
    have hal : c.re * (d.re ^ 2 + d.im ^ 2) = h.kappa * d.re - h.rho * h.vv * u * d.im := by
      linear_combination d.re * e1 + d.im * e2
    have hbe : c.im * (d.re ^ 2 + d.im ^ 2) = -(h.rho * h.vv * u * d.re + h.kappa * d.im) := by
      linear_combination d.re * e2 - d.im * e1
    have hpsi : chfPsi h tau u = ((1 + c) + (1 - c) * Complex.exp (-d * tau)) / 2 := chfPsi_eq h hg tau u
    have hpre : (chfPsi h tau u).re = (1 + c.re + Real.exp (-d.re * tau) * ((1 - c.re) * Real.cos (d.im * tau) - c.im * Real.sin (d.im * tau))) / 2 := by
      rw [hpsi, exp_root]
      simp
      ring
    have hpim : (chfPsi h tau u).im = (c.im + Real.exp (-d.re * tau) * (-c.im * Real.cos (d.im * tau) - (1 - c.re) * Real.sin (d.im * tau))) / 2 := by
      rw [hpsi, exp_root]
      simp
      ring
    rcases le_or_gt c.re 0 with hbad | hgood
    · rcases branch_core_any h.kappa h.vv h.rho u d.re d.im tau hg.kappa hg.vv hg.rho hu ht hp hre2 him2 c.re c.im hal hbe hbad with h1 | h1
      · left
        rw [hpre]
        linarith
      · right
        rw [hpim]
        intro h2
        apply h1
        linarith
    · rw [Complex.mem_slitPlane_iff]
      by_contra hcon
      push Not at hcon
      obtain ⟨hx, hy⟩ := hcon
      -- psi * (1 + c)⁻¹ * 2 = 1 - g e has positive real part
      have h1c : (1 + c).re > 0 := by simp; linarith
      have h1c0 : 1 + c ≠ 0 := by intro h0; rw [h0] at h1c; simp at h1c
      have hreal : chfPsi h tau u = (((chfPsi h tau u).re : ℝ) : ℂ) := by apply Complex.ext <;> simp [hy]
      set s := (chfPsi h tau u).re with hs
      have hE0 := Real.exp_pos (-d.re * tau)
      have hE1 : Real.exp (-d.re * tau) ≤ 1 := by
        rw [Real.exp_le_one_iff]
        have := mul_nonneg hp.le ht
        linarith
      have key : (1 - c) * Complex.exp (-d * tau) = -(1 + c) + 2 * (s : ℂ) := by
        rw [← hreal, hpsi]; ring
      have hnorm : ‖(1 - c) * Complex.exp (-d * tau)‖ ≤ ‖1 - c‖ := by
        rw [norm_mul, Complex.norm_exp]
        simp only [Complex.mul_re, Complex.neg_re, Complex.ofReal_re, Complex.ofReal_im, mul_zero, sub_zero]
        exact mul_le_of_le_one_right (norm_nonneg _) hE1
      rw [key] at hnorm
      have h3 := pow_le_pow_left₀ (norm_nonneg _) hnorm 2
      rw [Complex.sq_norm, Complex.sq_norm, Complex.normSq_apply, Complex.normSq_apply] at h3
      simp at h3
      nlinarith

end Frm.Props
