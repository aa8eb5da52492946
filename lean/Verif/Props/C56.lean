import Verif.Model.Sabr
import Mathlib.Topology.Order.IntermediateValue
import Mathlib.Topology.Algebra.Order.LiminfLimsup
import Mathlib.Algebra.Polynomial.Roots
import Mathlib.Tactic.Linarith
import Mathlib.Tactic.NormNum
import Mathlib.Tactic.FieldSimp
import Mathlib.Tactic.LinearCombination
import Mathlib.Tactic.Positivity

/-!
# C56: SABR alpha is consistent with the at-the-money volatility
-/

namespace Frm
namespace Spec

set_option autoImplicit false

/-- The value at `z` of the polynomial with these coefficients, highest power first. -/
noncomputable def polyAt (p : List ℝ) (z : ℂ) : ℂ := p.foldl (fun (acc : ℂ) (c : ℝ) => acc * z + c) 0

/-- A root finder for polynomials that is exact: it lists exactly the complex roots of every non-zero polynomial. -/
def ExactRoots (roots : List ℝ → List ℂ) : Prop := ∀ p : List ℝ, (∃ c ∈ p, c ≠ 0) → ∀ z, z ∈ roots p ↔ polyAt p z = 0

/-- The at-the-money SABR volatility of Hagan et al. (2.18) for a forward `f`. -/
noncomputable def haganAtm (tau f a b r v : ℝ) : ℝ :=
  a / f ^ (1 - b) * (1 + ((1 - b) ^ 2 / 24 * a ^ 2 / f ^ (2 - 2 * b) + r * b * v * a / (4 * f ^ (1 - b)) + (2 - 3 * r ^ 2) / 24 * v ^ 2) * tau)

end Spec
end Frm

namespace Frm.Props
open Classical Set

set_option autoImplicit false

open Frm Frm.Spec

theorem sabr_pows {f : ℝ} (hf : 0 < f) (b : ℝ) : (f * f) ^ ((1 - b) / 2) = f ^ (1 - b) ∧ (f * f) ^ (1 - b) = f ^ (2 - 2 * b) := by
  have h2 : f * f = f ^ (2 : ℝ) := by
    rw [show (2 : ℝ) = 1 + 1 by norm_num, Real.rpow_add hf, Real.rpow_one]
  constructor
  · rw [h2, ← Real.rpow_mul hf.le]
    congr 1
    ring
  · rw [h2, ← Real.rpow_mul hf.le]
    congr 1
    ring

theorem sabrAtm_eq {f : ℝ} (hf : 0 < f) (tau a b r v : ℝ) : sabrAtm tau f f a b r v = haganAtm tau f a b r v := by
  unfold sabrAtm haganAtm
  rw [(sabr_pows hf b).1, (sabr_pows hf b).2]
  have h1 : f ^ (1 - b) ≠ 0 := (Real.rpow_pos_of_pos hf _).ne'
  have h2 : f ^ (2 - 2 * b) ≠ 0 := (Real.rpow_pos_of_pos hf _).ne'
  rw [show (0.25 : ℝ) = 1 / 4 by norm_num]
  field_simp

/-- At the strike equal to the forward the smile is formula (2.18). -/
theorem C56_atm_formula (tau F a b r v shift : ℝ) (hF : 0 < F + shift) :
    calcSabrVols [(tau, F, a, b, r, v)] [F] shift = .ok [some (haganAtm tau (F + shift) a b r v)] := by
  unfold calcSabrVols
  simp only [List.length_singleton, lt_self_iff_false, false_and, if_false, if_true, List.zipWith_cons_cons, List.zipWith_nil_left]
  congr 2
  unfold sabrVol sabrRow
  simp only
  rw [if_pos (mul_pos hF hF), div_self hF.ne', Real.log_one, abs_zero, if_pos (by norm_num), sabrAtm_eq hF]

theorem polyAt_cubic (A B C K : ℝ) (x : ℝ) : polyAt [A, B, C, K] (x : ℂ) = ((A * x ^ 3 + B * x ^ 2 + C * x + K : ℝ) : ℂ) := by
  simp only [polyAt, List.foldl_cons, List.foldl_nil]
  push_cast
  ring

theorem nearest_spec (g : ℝ) (xs : List ℝ) : (nearestTo g xs = none ↔ xs = []) ∧
    ∀ y, nearestTo g xs = some y → y ∈ xs ∧ ∀ x ∈ xs, |y - g| ≤ |x - g| := by
  induction xs with
  | nil => simp [nearestTo]
  | cons x xs ih =>
    rw [nearestTo]
    cases hn : nearestTo g xs with
    | none =>
      have := ih.1.1 hn
      subst this
      simp
    | some y =>
      have hy := ih.2 y hn
      simp only
      by_cases hlt : |y - g| < |x - g|
      · rw [if_pos hlt]
        refine ⟨by simp, ?_⟩
        intro w hw
        cases hw
        refine ⟨List.mem_cons_of_mem _ hy.1, fun t ht => ?_⟩
        rcases List.mem_cons.1 ht with rfl | ht
        · exact hlt.le
        · exact hy.2 t ht
      · rw [if_neg hlt]
        refine ⟨by simp, ?_⟩
        intro w hw
        cases hw
        refine ⟨List.mem_cons_self .., fun t ht => ?_⟩
        rcases List.mem_cons.1 ht with rfl | ht
        · exact le_refl _
        · exact le_trans (not_lt.1 hlt) (hy.2 t ht)

/-- The three leading coefficients and the first guess of the cubic. -/
noncomputable def cubA (tau f b : ℝ) : ℝ := (1 / 24) * (1 - b) ^ 2 * tau / f ^ (2 - 2 * b)
noncomputable def cubB (tau f b r v : ℝ) : ℝ := (1 / 4) * r * b * v * tau / f ^ (1 - b)
noncomputable def cubC (tau r v : ℝ) : ℝ := 1 + (2 - 3 * r ^ 2) * v ^ 2 * tau / 24

theorem real_root_iff {roots : List ℝ → List ℂ} (hr : ExactRoots roots) {tau f b r v vol : ℝ} (hf : 0 < f) (hv : vol ≠ 0) (x : ℝ) :
    x ∈ ((roots (sabrCubic tau f b r v vol)).filter (fun z => z.im = 0)).map Complex.re ↔
      cubA tau f b * x ^ 3 + cubB tau f b r v * x ^ 2 + cubC tau r v * x + -vol * f ^ (1 - b) = 0 := by
  have hne : ∃ c ∈ sabrCubic tau f b r v vol, c ≠ 0 :=
    ⟨-vol * f ^ (1 - b), by simp [sabrCubic], mul_ne_zero (neg_ne_zero.2 hv) (Real.rpow_pos_of_pos hf _).ne'⟩
  have key : ∀ x : ℝ, (x : ℂ) ∈ roots (sabrCubic tau f b r v vol) ↔
      cubA tau f b * x ^ 3 + cubB tau f b r v * x ^ 2 + cubC tau r v * x + -vol * f ^ (1 - b) = 0 := by
    intro x
    rw [hr _ hne]
    unfold sabrCubic
    rw [polyAt_cubic]
    exact_mod_cast Iff.rfl
  rw [← key]
  simp only [List.mem_map, List.mem_filter, decide_eq_true_eq]
  constructor
  · rintro ⟨z, ⟨hz, him⟩, hre⟩
    have : z = (x : ℂ) := by
      apply Complex.ext
      · simp [hre]
      · simp [him]
    rwa [← this]
  · intro h
    exact ⟨x, ⟨h, by simp⟩, by simp⟩

theorem haganAtm_iff {f : ℝ} (hf : 0 < f) (tau a b r v vol : ℝ) :
    haganAtm tau f a b r v = vol ↔ cubA tau f b * a ^ 3 + cubB tau f b r v * a ^ 2 + cubC tau r v * a + -vol * f ^ (1 - b) = 0 := by
  have h1 : f ^ (1 - b) ≠ 0 := (Real.rpow_pos_of_pos hf _).ne'
  have h2 : f ^ (2 - 2 * b) ≠ 0 := (Real.rpow_pos_of_pos hf _).ne'
  have e : cubA tau f b * a ^ 3 + cubB tau f b r v * a ^ 2 + cubC tau r v * a + -vol * f ^ (1 - b)
      = (haganAtm tau f a b r v - vol) * f ^ (1 - b) := by
    unfold haganAtm cubA cubB cubC
    field_simp
    ring
  rw [e, mul_eq_zero, or_iff_left h1, sub_eq_zero]

theorem solveAlpha_ok {roots : List ℝ → List ℂ} {tau F b r v vol shift a : ℝ} (h : solveAlpha roots tau F b r v vol shift = .ok a) :
    nearestTo (vol * (F + shift) ^ (1 - b))
      (((roots (sabrCubic tau (F + shift) b r v vol)).filter (fun z => z.im = 0)).map Complex.re) = some a := by
  unfold solveAlpha at h
  simp only at h
  cases hn : nearestTo (vol * (F + shift) ^ (1 - b))
      (((roots (sabrCubic tau (F + shift) b r v vol)).filter (fun z => z.im = 0)).map Complex.re) with
  | none => rw [hn] at h; cases h
  | some y => rw [hn] at h; cases h; rfl

/-- The alpha returned gives back the at-the-money volatility, and among all alphas that do it is one nearest to the first guess
`vol * (F + shift) ** (1 - beta)`. -/
theorem C56_consistent (roots : List ℝ → List ℂ) (hr : ExactRoots roots) (tau F b r v vol shift a : ℝ) (hF : 0 < F + shift) (hv : 0 < vol)
    (h : solveAlpha roots tau F b r v vol shift = .ok a) :
    calcSabrVols [(tau, F, a, b, r, v)] [F] shift = .ok [some vol] ∧
    ∀ a', calcSabrVols [(tau, F, a', b, r, v)] [F] shift = .ok [some vol] →
      |a - vol * (F + shift) ^ (1 - b)| ≤ |a' - vol * (F + shift) ^ (1 - b)| := by
  have hn := (nearest_spec _ _).2 a (solveAlpha_ok h)
  rw [C56_atm_formula tau F a b r v shift hF]
  refine ⟨?_, fun a' h' => ?_⟩
  · rw [(haganAtm_iff hF tau a b r v vol).2 ((real_root_iff hr hF hv.ne' a).1 hn.1)]
  · rw [C56_atm_formula tau F a' b r v shift hF] at h'
    simp only [Except.ok.injEq, List.cons.injEq, Option.some.injEq, and_true] at h'
    exact hn.2 a' ((real_root_iff hr hF hv.ne' a').2 ((haganAtm_iff hF tau a' b r v vol).1 h'))

/-- A value is returned exactly when some alpha reproduces the volatility; otherwise `ValueError` is raised. -/
theorem C56_defined_iff (roots : List ℝ → List ℂ) (hr : ExactRoots roots) (tau F b r v vol shift : ℝ) (hF : 0 < F + shift) (hv : 0 < vol) :
    ((∃ a, solveAlpha roots tau F b r v vol shift = .ok a) ↔ ∃ a, calcSabrVols [(tau, F, a, b, r, v)] [F] shift = .ok [some vol]) ∧
    ∀ e, solveAlpha roots tau F b r v vol shift = .error e → e = .value := by
  refine ⟨⟨fun ⟨a, ha⟩ => ⟨a, (C56_consistent roots hr tau F b r v vol shift a hF hv ha).1⟩, ?_⟩, ?_⟩
  · rintro ⟨a, ha⟩
    rw [C56_atm_formula tau F a b r v shift hF] at ha
    simp only [Except.ok.injEq, List.cons.injEq, Option.some.injEq, and_true] at ha
    have hm := (real_root_iff hr hF hv.ne' a).2 ((haganAtm_iff hF tau a b r v vol).1 ha)
    unfold solveAlpha
    simp only
    cases hn : nearestTo (vol * (F + shift) ^ (1 - b))
        (((roots (sabrCubic tau (F + shift) b r v vol)).filter (fun z => z.im = 0)).map Complex.re) with
    | none =>
      rw [(nearest_spec _ _).1.1 hn] at hm
      cases hm
    | some y => exact ⟨y, rfl⟩
  · intro e he
    unfold solveAlpha at he
    simp only at he
    split at he <;> cases he
    rfl

theorem cubic_pos_root {A B C g : ℝ} (hA : 0 < A) (hg : 0 < g) : ∃ x, 0 < x ∧ A * x ^ 3 + B * x ^ 2 + C * x + -g = 0 := by
  have hM : ∃ M, 1 ≤ M ∧ 0 ≤ A * M ^ 3 + B * M ^ 2 + C * M + -g := by
    refine ⟨1 + (|B| + |C| + g) / A, ?_, ?_⟩
    · have : 0 ≤ (|B| + |C| + g) / A := by positivity
      linarith
    · set M := 1 + (|B| + |C| + g) / A with hMd
      have hM1 : 1 ≤ M := by
        have : 0 ≤ (|B| + |C| + g) / A := by positivity
        linarith
      have hAM : A * M = A + (|B| + |C| + g) := by
        rw [hMd]
        field_simp
      have hB : -(|B| * M ^ 2) ≤ B * M ^ 2 := by
        have := neg_abs_le B
        nlinarith [sq_nonneg M]
      have hC : -(|C| * M ^ 2) ≤ C * M := by
        have h1 := neg_abs_le C
        have h2 : M ≤ M ^ 2 := by nlinarith
        have h3 := abs_nonneg C
        nlinarith
      have hgm : -(g * M ^ 2) ≤ -g := by
        have : 1 ≤ M ^ 2 := by nlinarith
        nlinarith
      have hcube : A * M ^ 3 = (A + (|B| + |C| + g)) * M ^ 2 := by rw [← hAM]; ring
      have : 0 ≤ A * M ^ 2 := by positivity
      nlinarith
  obtain ⟨M, hM1, hM0⟩ := hM
  have hc : ContinuousOn (fun x : ℝ => A * x ^ 3 + B * x ^ 2 + C * x + -g) (Icc 0 M) := by fun_prop
  have hmem : (0 : ℝ) ∈ Icc ((fun x : ℝ => A * x ^ 3 + B * x ^ 2 + C * x + -g) 0) ((fun x : ℝ => A * x ^ 3 + B * x ^ 2 + C * x + -g) M) := by
    constructor
    · simp only
      norm_num
      exact hg.le
    · exact hM0
  obtain ⟨x, hx, h0⟩ := intermediate_value_Icc (by linarith : (0 : ℝ) ≤ M) hc hmem
  refine ⟨x, lt_of_le_of_ne hx.1 ?_, h0⟩
  rintro rfl
  simp at h0
  exact hg.ne' h0

/-- For `beta < 1` (or above one) and a positive time an alpha is always found.  Missing for "valid parameters always have one": the case
`beta = 1`, settled by `C56_beta_one`. -/
theorem C56_exists_partial (roots : List ℝ → List ℂ) (hr : ExactRoots roots) (tau F b r v vol shift : ℝ) (hF : 0 < F + shift) (hv : 0 < vol)
    (ht : 0 < tau) (hb : b ≠ 1) : ∃ a, solveAlpha roots tau F b r v vol shift = .ok a := by
  rw [(C56_defined_iff roots hr tau F b r v vol shift hF hv).1]
  have hA : 0 < cubA tau (F + shift) b := by
    unfold cubA
    have : 0 < (1 - b) ^ 2 := by
      have : 1 - b ≠ 0 := sub_ne_zero.2 (Ne.symm hb)
      positivity
    have := Real.rpow_pos_of_pos hF (2 - 2 * b)
    positivity
  obtain ⟨x, -, hx⟩ := cubic_pos_root (B := cubB tau (F + shift) b r v) (C := cubC tau r v) hA (mul_pos hv (Real.rpow_pos_of_pos hF (1 - b)))
  refine ⟨x, ?_⟩
  rw [C56_atm_formula tau F x b r v shift hF, (haganAtm_iff hF tau x b r v vol).2 ?_]
  rw [← hx]
  ring

/-- For `beta = 1` an alpha exists exactly when the quadratic `rho*v*tau/4 a² + C a - vol` has a root, `C = 1 + (2 - 3 rho²) v² tau / 24`. -/
theorem C56_beta_one (roots : List ℝ → List ℂ) (hr : ExactRoots roots) (tau F r v vol shift : ℝ) (hF : 0 < F + shift) (hv : 0 < vol) :
    (∃ a, solveAlpha roots tau F 1 r v vol shift = .ok a) ↔
      (r * v * tau ≠ 0 ∧ 0 ≤ (1 + (2 - 3 * r ^ 2) * v ^ 2 * tau / 24) ^ 2 + r * v * tau * vol) ∨
      (r * v * tau = 0 ∧ 1 + (2 - 3 * r ^ 2) * v ^ 2 * tau / 24 ≠ 0) := by
  rw [(C56_defined_iff roots hr tau F 1 r v vol shift hF hv).1]
  have e : ∀ a, calcSabrVols [(tau, F, a, 1, r, v)] [F] shift = .ok [some vol] ↔
      r * v * tau / 4 * a ^ 2 + (1 + (2 - 3 * r ^ 2) * v ^ 2 * tau / 24) * a - vol = 0 := by
    intro a
    rw [C56_atm_formula tau F a 1 r v shift hF]
    simp only [Except.ok.injEq, List.cons.injEq, Option.some.injEq, and_true]
    rw [haganAtm_iff hF]
    unfold cubA cubB cubC
    rw [show (1 : ℝ) - 1 = 0 by norm_num, Real.rpow_zero]
    constructor <;> intro h <;> linear_combination h
  simp only [e]
  generalize hC : 1 + (2 - 3 * r ^ 2) * v ^ 2 * tau / 24 = C
  generalize hB : r * v * tau = B
  constructor
  · rintro ⟨a, ha⟩
    by_cases h0 : B = 0
    · refine Or.inr ⟨h0, ?_⟩
      rintro rfl
      rw [h0] at ha
      norm_num at ha
      exact hv.ne' ha
    · refine Or.inl ⟨h0, ?_⟩
      have : C ^ 2 + B * vol = (B / 2 * a + C) ^ 2 := by linear_combination (-B) * ha
      rw [this]
      exact sq_nonneg _
  · rintro (⟨h0, hd⟩ | ⟨h0, hc⟩)
    · refine ⟨(Real.sqrt (C ^ 2 + B * vol) - C) / (B / 2), ?_⟩
      have hs := Real.sq_sqrt hd
      generalize Real.sqrt (C ^ 2 + B * vol) = s at hs
      field_simp
      linear_combination 4 * hs
    · refine ⟨vol / C, ?_⟩
      rw [h0]
      field_simp
      ring

/-- So with `beta = 1`, correlation minus one, volatility of volatility 2, ten years and a volatility of 100%, there is no alpha. -/
theorem C56_no_alpha (roots : List ℝ → List ℂ) (hr : ExactRoots roots) :
    solveAlpha roots 10 0.02 1 (-1) 2 1 0 = .error .value := by
  cases h : solveAlpha roots 10 0.02 1 (-1) 2 1 0 with
  | error e => rw [(C56_defined_iff roots hr 10 0.02 1 (-1) 2 1 0 (by norm_num) (by norm_num)).2 e h]
  | ok a =>
    have := (C56_beta_one roots hr 10 0.02 (-1) 2 1 0 (by norm_num) (by norm_num)).1 ⟨a, h⟩
    norm_num at this

/-- The alpha returned is positive whenever `1 + (2 - 3 rho²) v² tau / 24` is, time is positive and beta is not one. -/
theorem C56_positive (roots : List ℝ → List ℂ) (hr : ExactRoots roots) (tau F b r v vol shift a : ℝ) (hF : 0 < F + shift) (hv : 0 < vol)
    (ht : 0 < tau) (hb : b ≠ 1) (hC : 0 < 1 + (2 - 3 * r ^ 2) * v ^ 2 * tau / 24) (h : solveAlpha roots tau F b r v vol shift = .ok a) : 0 < a := by
  have hn := (nearest_spec _ _).2 a (solveAlpha_ok h)
  have hroot := (real_root_iff hr hF hv.ne' a).1 hn.1
  have hg := mul_pos hv (Real.rpow_pos_of_pos hF (1 - b))
  have hA : 0 < cubA tau (F + shift) b := by
    unfold cubA
    have : 0 < (1 - b) ^ 2 := by
      have : 1 - b ≠ 0 := sub_ne_zero.2 (Ne.symm hb)
      positivity
    have := Real.rpow_pos_of_pos hF (2 - 2 * b)
    positivity
  obtain ⟨x, hx0, hx⟩ := cubic_pos_root (B := cubB tau (F + shift) b r v) (C := cubC tau r v) hA hg
  have hle := hn.2 x ((real_root_iff hr hF hv.ne' x).2 (by rw [← hx]; ring))
  have hC' : 0 < cubC tau r v := hC
  generalize cubA tau (F + shift) b = A at *
  generalize cubB tau (F + shift) b r v = B at *
  generalize cubC tau r v = C at *
  have hroot' : A * a ^ 3 + B * a ^ 2 + C * a - vol * (F + shift) ^ (1 - b) = 0 := by linear_combination hroot
  generalize vol * (F + shift) ^ (1 - b) = g at *
  by_contra hneg
  have ha0 : a ≠ 0 := by
    rintro rfl
    norm_num at hroot'
    exact hg.ne' hroot'
  have ha : a < 0 := lt_of_le_of_ne (not_lt.1 hneg) ha0
  rw [abs_of_neg (by linarith : a - g < 0)] at hle
  have hxg : 2 * g - a ≤ x := by
    rcases le_total x g with hxg | hxg
    · rw [abs_of_nonpos (by linarith)] at hle
      linarith
    · rw [abs_of_nonneg (by linarith)] at hle
      linarith
  have hBa : B * a ^ 2 = g + C * (-a) + A * (-a) ^ 3 := by linear_combination hroot'
  have hBg : g ≤ B * a ^ 2 := by
    rw [hBa]
    have h1 : 0 < C * (-a) := mul_pos hC' (by linarith)
    have h2 : 0 < A * (-a) ^ 3 := mul_pos hA (by have : 0 < -a := by linarith
                                                 positivity)
    linarith
  have hB : 0 < B := by
    by_contra hB
    have : B * a ^ 2 ≤ 0 := mul_nonpos_of_nonpos_of_nonneg (not_lt.1 hB) (sq_nonneg a)
    linarith
  have hxa : a ^ 2 ≤ x ^ 2 := by nlinarith
  have h3 : 0 < A * x ^ 3 := by positivity
  have h4 : 0 < C * x := mul_pos hC' hx0
  have h5 : B * a ^ 2 ≤ B * x ^ 2 := mul_le_mul_of_nonneg_left hxa hB.le
  linarith

/-- Forward, strike and shift matter only through the shifted forward and strike; for alpha, through the shifted forward. -/
theorem C56_shift (smiles : List SabrSmile) (strikes : List ℝ) (roots : List ℝ → List ℂ) (tau F b r v vol s d : ℝ) :
    calcSabrVols (smiles.map (fun x => (x.1, x.2.1 - d, x.2.2))) (strikes.map (· - d)) (s + d) = calcSabrVols smiles strikes s ∧
    solveAlpha roots tau (F - d) b r v vol (s + d) = solveAlpha roots tau F b r v vol s := by
  have hv : ∀ (x : SabrSmile) k, sabrVol (s + d) (sabrRow (x.1, x.2.1 - d, x.2.2) (k - d)) = sabrVol s (sabrRow x k) := by
    intro x k
    unfold sabrVol sabrRow
    simp only
    rw [show x.2.1 - d + (s + d) = x.2.1 + s by ring, show k - d + (s + d) = k + s by ring]
  constructor
  · unfold calcSabrVols
    simp only [List.length_map]
    have hz : List.zipWith (fun x k => sabrVol (s + d) (sabrRow x k)) (smiles.map (fun x => (x.1, x.2.1 - d, x.2.2))) (strikes.map (· - d))
        = List.zipWith (fun x k => sabrVol s (sabrRow x k)) smiles strikes := by
      rw [List.zipWith_map]
      congr 1
      funext x k
      exact hv x k
    rw [hz]
    by_cases h1 : 1 < strikes.length ∧ ¬ (smiles.length = strikes.length ∨ smiles.length = 1)
    · rw [if_pos h1, if_pos h1]
    · rw [if_neg h1, if_neg h1]
      by_cases h2 : smiles.length = strikes.length
      · rw [if_pos h2, if_pos h2]
      · rw [if_neg h2, if_neg h2]
        rcases strikes with _ | ⟨k, _ | ⟨k', ks⟩⟩ <;> rcases smiles with _ | ⟨x, _ | ⟨x', xs⟩⟩ <;>
          simp_all
  · unfold solveAlpha
    rw [show F - d + (s + d) = F + s by ring]

/-- Exact root finders exist. -/
theorem exactRoots_exists : ∃ roots, ExactRoots roots := by
  have key : ∀ p : List ℝ, (∃ c ∈ p, c ≠ 0) → ∃ l : List ℂ, ∀ z, z ∈ l ↔ polyAt p z = 0 := by
    intro p hp
    let q : Polynomial ℂ := p.foldl (fun (acc : Polynomial ℂ) (c : ℝ) => acc * Polynomial.X + Polynomial.C (c : ℂ)) 0
    have hev : ∀ (l : List ℝ) (q0 : Polynomial ℂ) (z : ℂ),
        (l.foldl (fun (acc : Polynomial ℂ) (c : ℝ) => acc * Polynomial.X + Polynomial.C (c : ℂ)) q0).eval z = l.foldl (fun (acc : ℂ) (c : ℝ) => acc * z + c) (q0.eval z) := by
      intro l
      induction l with
      | nil => intro q0 z; rfl
      | cons c l ih =>
        intro q0 z
        rw [List.foldl_cons, List.foldl_cons, ih]
        simp
    have hq : ∀ z, q.eval z = polyAt p z := by
      intro z
      rw [hev]
      simp [polyAt]
    have hne : ∀ (l : List ℝ) (q0 : Polynomial ℂ), (q0 ≠ 0 ∨ ∃ c ∈ l, c ≠ 0) →
        l.foldl (fun (acc : Polynomial ℂ) (c : ℝ) => acc * Polynomial.X + Polynomial.C (c : ℂ)) q0 ≠ 0 := by
      intro l
      induction l with
      | nil =>
        rintro q0 (h | ⟨c, hc, -⟩)
        · exact h
        · cases hc
      | cons c l ih =>
        intro q0 h
        rw [List.foldl_cons]
        apply ih
        by_cases hc : q0 ≠ 0 ∨ c ≠ 0
        · left
          intro h0
          have hcoef := congrArg (fun q => Polynomial.coeff q 0) h0
          simp at hcoef
          rw [hcoef] at h0
          simp at h0
          rcases hc with hc | hc
          · exact hc h0
          · exact hc hcoef
        · right
          simp only [not_or, not_not] at hc
          rcases h with h | ⟨c', hc', hne⟩
          · exact absurd hc.1 h
          · rcases List.mem_cons.1 hc' with rfl | hc'
            · exact absurd hc.2 hne
            · exact ⟨c', hc', hne⟩
    have hq0 : q ≠ 0 := hne p 0 (Or.inr hp)
    refine ⟨q.roots.toList, fun z => ?_⟩
    rw [Multiset.mem_toList, Polynomial.mem_roots hq0, Polynomial.IsRoot, hq]
  refine ⟨fun p => if h : ∃ c ∈ p, c ≠ 0 then (key p h).choose else [], fun p hp z => ?_⟩
  simp only [dif_pos hp]
  exact (key p hp).choose_spec z

/-- An ordinary five-year smile has an alpha, and it is positive. -/
example : ∃ roots a, ExactRoots roots ∧ solveAlpha roots 5 0.02 0.5 (-0.3) 0.4 0.25 0.01 = .ok a ∧ 0 < a := by
  obtain ⟨roots, hr⟩ := exactRoots_exists
  obtain ⟨a, ha⟩ := C56_exists_partial roots hr 5 0.02 0.5 (-0.3) 0.4 0.25 0.01 (by norm_num) (by norm_num) (by norm_num) (by norm_num)
  exact ⟨roots, a, hr, ha, C56_positive roots hr 5 0.02 0.5 (-0.3) 0.4 0.25 0.01 a (by norm_num) (by norm_num) (by norm_num) (by norm_num)
    (by norm_num) ha⟩

end Frm.Props
