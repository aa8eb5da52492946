import Verif.Props.C78
import Mathlib.Analysis.SpecialFunctions.Pow.Deriv

/-!
# Heston's characteristic function at complex frequencies
-/

namespace Frm.Props
open Classical

set_option autoImplicit false

open Frm

/-- `branch_core` along any line: nothing is needed of the imaginary part of the square. -/
theorem branch_line_pos (k m p q tau : ℝ) (hk : 0 < k) (ht : 0 ≤ tau) (hp : 0 < p) (hq : 0 < q) (hqp : q < p) (al be : ℝ)
    (hal : al * (p ^ 2 + q ^ 2) = k * p - m * q) (hbe : be * (p ^ 2 + q ^ 2) = -(m * p + k * q)) (hbad : al ≤ 0) :
    0 < 1 + al + Real.exp (-p * tau) * ((1 - al) * Real.cos (q * tau) - be * Real.sin (q * tau)) ∨
      be + Real.exp (-p * tau) * (-be * Real.cos (q * tau) - (1 - al) * Real.sin (q * tau)) ≠ 0 := by
  have hn : 0 < p ^ 2 + q ^ 2 := by positivity
  have h1 : k * p ≤ m * q := by
    have : al * (p ^ 2 + q ^ 2) ≤ 0 := mul_nonpos_of_nonpos_of_nonneg hbad hn.le
    linarith
  have hkp : 0 < k * p := mul_pos hk hp
  have hm : 0 < m := by
    have : 0 < m * q := by linarith
    exact pos_of_mul_pos_left this hq.le
  have hbe0 : be < 0 := by
    have : be * (p ^ 2 + q ^ 2) < 0 := by
      rw [hbe]
      have := mul_pos hm hp
      have := mul_pos hk hq
      linarith
    exact neg_of_mul_neg_left this hn.le
  have hab : be ≤ al := by
    have : be * (p ^ 2 + q ^ 2) ≤ al * (p ^ 2 + q ^ 2) := by
      rw [hbe, hal]
      have h4 := mul_lt_mul_of_pos_left hqp hm
      have h5 := mul_pos hk hq
      linarith
    exact le_of_mul_le_mul_right this hn
  have hE0 := Real.exp_pos (-p * tau)
  have hc1 := Real.cos_le_one (q * tau)
  have hc2 := Real.neg_one_le_cos (q * tau)
  have hs1 := Real.sin_le_one (q * tau)
  have hs2 := Real.neg_one_le_sin (q * tau)
  rcases ht.eq_or_lt with h0 | h0
  · left
    rw [← h0]
    simp
  · have hE1 : Real.exp (-p * tau) < 1 := by
      rw [Real.exp_lt_one_iff]
      have := mul_pos hp h0
      linarith
    generalize hEdef : Real.exp (-p * tau) = E at *
    rcases le_or_gt (q * tau) Real.pi with hphi | hphi
    · right
      have hs := Real.sin_nonneg_of_nonneg_of_le_pi (mul_pos hq h0).le hphi
      generalize Real.sin (q * tau) = s at *
      generalize Real.cos (q * tau) = c at *
      have h6 : 0 < 1 - E * c := by nlinarith
      have h7 : be * (1 - E * c) < 0 := mul_neg_of_neg_of_pos hbe0 h6
      have h8 : 0 ≤ E * ((1 - al) * s) := mul_nonneg hE0.le (mul_nonneg (by linarith) hs)
      nlinarith
    · have hE : E < 1 / 20 := by
        rw [← hEdef]
        have h9 : (3 : ℝ) < p * tau := by
          have := mul_lt_mul_of_pos_right hqp h0
          linarith [Real.pi_gt_three]
        have h10 : Real.exp (-p * tau) < Real.exp (-3) := Real.exp_lt_exp.2 (by linarith)
        have h11 : Real.exp (-3) < 1 / 20 := by
          rw [Real.exp_neg, inv_eq_one_div]
          apply one_div_lt_one_div_of_lt (by norm_num)
          have e3 : Real.exp 3 = Real.exp 1 ^ 3 := by rw [← Real.exp_nat_mul]; norm_num
          rw [e3]
          have := Real.exp_one_gt_d9
          have h12 : (2.718 : ℝ) ^ 3 < Real.exp 1 ^ 3 := pow_lt_pow_left₀ (by linarith) (by norm_num) (by norm_num)
          have h13 : (20 : ℝ) < 2.718 ^ 3 := by norm_num
          linarith
        linarith
      exact branch_tail al be E _ _ hbad hbe0 hab hE0 hE hc1 hc2 hs1 hs2

theorem branch_line (k m p q tau : ℝ) (hk : 0 < k) (ht : 0 ≤ tau) (hp : 0 < p) (hqp : q ^ 2 < p ^ 2) (al be : ℝ)
    (hal : al * (p ^ 2 + q ^ 2) = k * p - m * q) (hbe : be * (p ^ 2 + q ^ 2) = -(m * p + k * q)) (hbad : al ≤ 0) :
    0 < 1 + al + Real.exp (-p * tau) * ((1 - al) * Real.cos (q * tau) - be * Real.sin (q * tau)) ∨
      be + Real.exp (-p * tau) * (-be * Real.cos (q * tau) - (1 - al) * Real.sin (q * tau)) ≠ 0 := by
  rcases lt_trichotomy q 0 with h | h | h
  · have := branch_line_pos k (-m) p (-q) tau hk ht hp (neg_pos.2 h) (by nlinarith) al (-be)
      (by rw [neg_sq]; linarith) (by rw [neg_sq]; linarith) hbad
    rw [show -q * tau = -(q * tau) by ring, Real.cos_neg, Real.sin_neg] at this
    rcases this with h1 | h1
    · left
      linarith [h1]
    · right
      intro h2
      apply h1
      linarith
  · exfalso
    rw [h] at hal
    have h1 : 0 < k * p := mul_pos hk hp
    have h2 : al * (p ^ 2 + 0 ^ 2) ≤ 0 := mul_nonpos_of_nonpos_of_nonneg hbad (by positivity)
    linarith
  · exact branch_line_pos k m p q tau hk ht hp h (by nlinarith) al be hal hbe hbad

/-- The frequencies at which no power of the spot explodes: `b` is the power. -/
def GoodPower (h : Heston) (b : ℝ) : Prop :=
  0 < h.kappa - h.rho * h.vv * b ∧ 0 < (h.kappa - h.rho * h.vv * b) ^ 2 - h.vv ^ 2 * (b ^ 2 - b)

section
variable (h : Heston) (hg : GoodHeston h) (u : ℂ) (hu : GoodPower h (-u.im))
include hg hu

omit hg hu in
theorem chfW_re : (chfW h u).re = h.kappa - h.rho * h.vv * (-u.im) ∧ (chfW h u).im = -(h.rho * h.vv * u.re) := by
  unfold chfW
  constructor <;> simp

theorem stripRoot_sq_re_pos : 0 < (chfRoot h u ^ 2).re := by
  have e : (chfRoot h u ^ 2).re = (h.kappa - h.rho * h.vv * (-u.im)) ^ 2 - h.vv ^ 2 * ((-u.im) ^ 2 - (-u.im)) +
      h.vv ^ 2 * u.re ^ 2 * (1 - h.rho ^ 2) := by
    rw [chfRoot_sq]
    unfold chfW
    simp [pow_two]
    ring
  rw [e]
  have h1 : h.rho ^ 2 ≤ 1 := by rw [← sq_abs]; nlinarith [hg.rho, abs_nonneg h.rho]
  have h2 : 0 ≤ h.vv ^ 2 * u.re ^ 2 * (1 - h.rho ^ 2) := mul_nonneg (by positivity) (by linarith)
  linarith [hu.2]

theorem rootArg_mem : (h.rho * h.vv * u * Complex.I - h.kappa) ^ 2 + (h.vv : ℂ) ^ 2 * (Complex.I * u + u ^ 2) ∈ Complex.slitPlane := by
  left
  have e : (h.rho * h.vv * u * Complex.I - h.kappa) ^ 2 + (h.vv : ℂ) ^ 2 * (Complex.I * u + u ^ 2) = chfRoot h u ^ 2 := by
    unfold chfRoot; rw [csqrt_sq]
  rw [e]
  exact stripRoot_sq_re_pos h hg u hu

theorem stripRoot_re_pos : 0 < (chfRoot h u).re := csqrt_re_pos _ (rootArg_mem h hg u hu)

theorem stripRoot_ne : chfRoot h u ≠ 0 := by
  intro h0
  have := stripRoot_re_pos h hg u hu
  rw [h0] at this
  simp at this

theorem stripSum_ne : chfW h u + chfRoot h u ≠ 0 := by
  intro h0
  have h1 := stripRoot_re_pos h hg u hu
  have h2 := (chfW_re h u).1
  have h3 := congrArg Complex.re h0
  simp only [Complex.add_re, Complex.zero_re] at h3
  linarith [hu.1]

theorem strip_one_sub_ratio : 1 - chfRatio h u = 2 * chfRoot h u / (chfW h u + chfRoot h u) := by
  rw [chfRatio_eq]
  have := stripSum_ne h hg u hu
  field_simp
  ring

theorem strip_one_sub_ratio_ne : 1 - chfRatio h u ≠ 0 := by
  rw [strip_one_sub_ratio h hg u hu]
  exact div_ne_zero (mul_ne_zero two_ne_zero (stripRoot_ne h hg u hu)) (stripSum_ne h hg u hu)

theorem stripPsi_eq (tau : ℝ) : chfPsi h tau u =
    ((1 + chfW h u / chfRoot h u) + (1 - chfW h u / chfRoot h u) * Complex.exp (-chfRoot h u * tau)) / 2 := by
  unfold chfPsi
  rw [strip_one_sub_ratio h hg u hu, chfRatio_eq]
  have h1 := stripSum_ne h hg u hu
  have h2 := stripRoot_ne h hg u hu
  field_simp
  ring

/-- The argument of the logarithm does not meet the negative axis on any line of good power. -/
theorem stripPsi_mem (tau : ℝ) (ht : 0 ≤ tau) : chfPsi h tau u ∈ Complex.slitPlane := by
  set d := chfRoot h u with hd
  set c := chfW h u / d with hc
  have hd0 : d ≠ 0 := stripRoot_ne h hg u hu
  have hp : 0 < d.re := stripRoot_re_pos h hg u hu
  have hqp : d.im ^ 2 < d.re ^ 2 := by
    have := stripRoot_sq_re_pos h hg u hu
    rw [← hd] at this
    simp [pow_two] at this
    nlinarith
  have hn : 0 < d.re ^ 2 + d.im ^ 2 := by positivity
  have hcd : c * d = chfW h u := by rw [hc]; field_simp
  obtain ⟨hW1, hW2⟩ := chfW_re h u
  generalize hkdef : h.kappa - h.rho * h.vv * (-u.im) = k at hW1
  have hk : 0 < k := by rw [← hkdef]; exact hu.1
  have e1 : c.re * d.re - c.im * d.im = k := by rw [← hW1, ← hcd, Complex.mul_re]
  have e2 : c.re * d.im + c.im * d.re = -(h.rho * h.vv * u.re) := by rw [← hW2, ← hcd, Complex.mul_im]
  have hal : c.re * (d.re ^ 2 + d.im ^ 2) = k * d.re - h.rho * h.vv * u.re * d.im := by
    linear_combination d.re * e1 + d.im * e2
  have hbe : c.im * (d.re ^ 2 + d.im ^ 2) = -(h.rho * h.vv * u.re * d.re + k * d.im) := by
    linear_combination d.re * e2 - d.im * e1
  have hpsi : chfPsi h tau u = ((1 + c) + (1 - c) * Complex.exp (-d * tau)) / 2 := stripPsi_eq h hg u hu tau
  have hpre : (chfPsi h tau u).re = (1 + c.re + Real.exp (-d.re * tau) * ((1 - c.re) * Real.cos (d.im * tau) - c.im * Real.sin (d.im * tau))) / 2 := by
    rw [hpsi, exp_root]
    simp
    ring
  have hpim : (chfPsi h tau u).im = (c.im + Real.exp (-d.re * tau) * (-c.im * Real.cos (d.im * tau) - (1 - c.re) * Real.sin (d.im * tau))) / 2 := by
    rw [hpsi, exp_root]
    simp
    ring
  rcases le_or_gt c.re 0 with hbad | hgood
  · rcases branch_line k (h.rho * h.vv * u.re) d.re d.im tau hk ht hp hqp c.re c.im hal hbe hbad with h1 | h1
    · left
      rw [hpre]
      linarith
    · right
      rw [hpim]
      intro h2
      apply h1
      linarith
  · rw [Complex.mem_slitPlane_iff]
    by_contra hcon
    push Not at hcon
    obtain ⟨hx, hy⟩ := hcon
    have h1c : (1 + c).re > 0 := by simp; linarith
    have hreal : chfPsi h tau u = (((chfPsi h tau u).re : ℝ) : ℂ) := by apply Complex.ext <;> simp [hy]
    set s := (chfPsi h tau u).re with hs
    have hE0 := Real.exp_pos (-d.re * tau)
    have hE1 : Real.exp (-d.re * tau) ≤ 1 := by
      rw [Real.exp_le_one_iff]
      have := mul_nonneg hp.le ht
      linarith
    have key : (1 - c) * Complex.exp (-d * tau) = -(1 + c) + 2 * (s : ℂ) := by
      rw [← hreal, hpsi]; ring
    have hnorm : ‖(1 - c) * Complex.exp (-d * tau)‖ ≤ ‖1 - c‖ := by
      rw [norm_mul, Complex.norm_exp]
      simp only [Complex.mul_re, Complex.neg_re, Complex.ofReal_re, Complex.ofReal_im, mul_zero, sub_zero]
      exact mul_le_of_le_one_right (norm_nonneg _) hE1
    rw [key] at hnorm
    have h3 := pow_le_pow_left₀ (norm_nonneg _) hnorm 2
    rw [Complex.sq_norm, Complex.sq_norm, Complex.normSq_apply, Complex.normSq_apply] at h3
    simp at h3
    nlinarith

theorem strip_denominator_ne (t : ℝ) (ht : 0 ≤ t) : 1 - chfRatio h u * Complex.exp (-chfRoot h u * t) ≠ 0 := by
  intro h0
  have := Complex.slitPlane_ne_zero (stripPsi_mem h hg u hu t ht)
  apply this
  unfold chfPsi
  rw [h0, zero_div]

theorem chfRoot_diff : DifferentiableAt ℂ (chfRoot h) u := by
  unfold chfRoot csqrt
  exact DifferentiableAt.cpow (by fun_prop) (by fun_prop) (rootArg_mem h hg u hu)

omit hg hu in
theorem chfW_diff : DifferentiableAt ℂ (chfW h) u := by unfold chfW; fun_prop

theorem chfRatio_diff : DifferentiableAt ℂ (chfRatio h) u := by
  rw [show chfRatio h = fun u => (chfW h u - chfRoot h u) / (chfW h u + chfRoot h u) from funext (chfRatio_eq h)]
  have h1 := chfRoot_diff h hg u hu
  have h2 := chfW_diff h u
  exact (h2.sub h1).div (h2.add h1) (stripSum_ne h hg u hu)

theorem chfEx_diff (t : ℝ) : DifferentiableAt ℂ (fun u => Complex.exp (-chfRoot h u * t)) u :=
  ((chfRoot_diff h hg u hu).neg.mul_const _).cexp

theorem chfPsi_diff (t : ℝ) : DifferentiableAt ℂ (chfPsi h t) u := by
  unfold chfPsi
  have h1 := chfRatio_diff h hg u hu
  exact ((h1.mul (chfEx_diff h hg u hu t)).const_sub 1).div (h1.const_sub 1) (strip_one_sub_ratio_ne h hg u hu)

theorem chfD_diff (t : ℝ) (ht : 0 ≤ t) : DifferentiableAt ℂ (fun u => chfD h u t) u := by
  unfold chfD
  have h1 := chfRatio_diff h hg u hu
  have h2 := chfEx_diff h hg u hu t
  exact (((chfW_diff h u).sub (chfRoot_diff h hg u hu)).div_const _).mul
    ((h2.const_sub 1).div ((h1.mul h2).const_sub 1) (strip_denominator_ne h hg u hu t ht))

theorem chfB_diff (t : ℝ) (ht : 0 ≤ t) : DifferentiableAt ℂ (fun u => chfB h u t) u := by
  unfold chfB
  exact ((((chfW_diff h u).sub (chfRoot_diff h hg u hu)).mul_const _).sub
    (((chfPsi_diff h hg u hu t).clog (stripPsi_mem h hg u hu t ht)).const_mul _)).const_mul _

end

theorem goodPower_zero (h : Heston) (hg : GoodHeston h) : GoodPower h 0 := by
  unfold GoodPower
  have := hg.kappa
  constructor
  · simpa using this
  · have h2 : 0 < h.kappa ^ 2 := by positivity
    simpa using h2

end Frm.Props
