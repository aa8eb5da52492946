import Verif.Props.C58
import Verif.Model.HestonSim
import Verif.Proofs.Normal

/-!
# C63: Heston variance paths do not go negative
-/

namespace Frm
namespace Spec

set_option autoImplicit false

/-- A simulation: `x` is returned for the draws `z`. -/
def HestonSimulated (method : HestonMethod) (h : Heston) (S0 mu tau : ℝ) (z : Cube) (x : NanCube) : Prop :=
  ∃ chol, hestonSimulate chol method h S0 mu tau z = .ok x

/-- The spot of simulation `s` at row `i`; `none` is `nan`. -/
def spotAt (x : NanCube) (i s : Nat) : Option ℝ := x.get i 0 s
/-- The variance (see `spotAt`). -/
def varianceAt (x : NanCube) (i s : Nat) : Option ℝ := x.get i 1 s

end Spec
end Frm

namespace Frm.Props
open Classical

set_option autoImplicit false

open Frm Frm.Spec

theorem npSqrtReal_nonneg {x : ℝ} (hx : 0 ≤ x) : npSqrtReal x = some (Real.sqrt x) := if_neg (not_lt.2 hx)

theorem npSqrtReal_neg {x : ℝ} (hx : x < 0) : npSqrtReal x = none := if_pos hx

theorem hestonSimulate_ok {chol : Matrix (Fin 2) (Fin 2) ℝ → Except Err (Matrix (Fin 2) (Fin 2) ℝ)} {method : HestonMethod} {h : Heston}
    {S0 mu tau : ℝ} {z : Cube} {x : NanCube} (hx : hestonSimulate chol method h S0 mu tau z = .ok x) :
    z.vars = 2 ∧ z.steps ≠ 0 ∧ ¬ method.divides h ∧ ∃ M, chol !![1, h.rho; h.rho, 1] = .ok M ∧ x.steps = z.steps + 1 ∧ x.vars = 2 ∧
      x.sims = z.sims ∧ ∀ i s, (spotAt x i s, varianceAt x i s) = hestonRow method h S0 mu (tau / z.steps) z.steps (fun i v => z.get i v s)
        (fun i v => (npSqrtReal (tau / z.steps)).map (fun root =>
          (M.transpose.mulVec (fun j : Fin 2 => z.get i j.val s)) (if v = 0 then 0 else 1) * root)) i := by
  unfold hestonSimulate at hx
  by_cases hv : z.vars ≠ 2
  · rw [if_pos hv] at hx; cases hx
  rw [if_neg hv] at hx
  by_cases hn : z.steps = 0
  · rw [if_pos hn] at hx; cases hx
  rw [if_neg hn] at hx
  cases hM : chol !![1, h.rho; h.rho, 1] with
  | error e => rw [hM] at hx; cases hx
  | ok M =>
    rw [hM] at hx
    simp only at hx
    by_cases hd : method.divides h
    · rw [if_pos hd] at hx; cases hx
    rw [if_neg hd] at hx
    cases hx
    exact ⟨not_not.1 hv, hn, hd, M, rfl, rfl, rfl, rfl, fun i s => rfl⟩

theorem qe_divides {h : Heston} (hd : ¬ HestonMethod.quadraticExponential.divides h) : h.kappa ≠ 0 ∧ h.vv ≠ 0 :=
  ⟨fun e => hd (Or.inl e), fun e => hd (Or.inr e)⟩

theorem qeMean_nonneg {h : Heston} {dt v : ℝ} (hk : 0 < h.kappa) (hth : 0 ≤ h.theta) (hv : 0 ≤ v) (hdt : 0 ≤ dt) : 0 ≤ qeMean h dt v := by
  unfold qeMean
  have h1 : Real.exp (-h.kappa * dt) ≤ 1 := Real.exp_le_one_iff.2 (by nlinarith)
  have h2 := Real.exp_pos (-h.kappa * dt)
  nlinarith [mul_nonneg hv h2.le, mul_nonneg hth (sub_nonneg.2 h1)]

theorem qeVariance_nonneg {h : Heston} {dt v : ℝ} (hk : 0 < h.kappa) (hth : 0 ≤ h.theta) (hv : 0 ≤ v) (hdt : 0 ≤ dt) : 0 ≤ qeVariance h dt v := by
  unfold qeVariance
  have h1 : 0 ≤ 1 - Real.exp (-h.kappa * dt) := sub_nonneg.2 (Real.exp_le_one_iff.2 (by nlinarith))
  positivity

/-- The quadratic-exponential step as a real number, where it is one. -/
noncomputable def qeReal (h : Heston) (dt v z : ℝ) : ℝ :=
  let m := qeMean h dt v
  let phi := qeVariance h dt v / m ^ 2
  if m = 0 then 0
  else if phi ≤ 1.5 then
    let b2 := 2 / phi - 1 + Real.sqrt (2 / phi * (2 / phi - 1))
    let a := m / (1 + b2)
    a * (Real.sqrt b2 + z) ^ 2
  else
    let p := (phi - 1) / (phi + 1)
    let beta := (1 - p) / m
    if 0 ≤ normCdf z ∧ normCdf z ≤ p then 0
    else if p < normCdf z ∧ normCdf z ≤ 1 then 1 / beta * Real.log ((1 - p) / (1 - normCdf z))
    else 0

theorem qeVariance_pos {h : Heston} {dt v : ℝ} (hk : 0 < h.kappa) (hth : 0 ≤ h.theta) (hv : 0 ≤ v) (hvv : h.vv ≠ 0) (hdt : 0 < dt)
    (hm : qeMean h dt v ≠ 0) : 0 < qeVariance h dt v := by
  have h1 : 0 < 1 - Real.exp (-h.kappa * dt) := sub_pos.2 (Real.exp_lt_one_iff.2 (by nlinarith))
  have hvv2 : 0 < h.vv ^ 2 := by positivity
  have a1 : 0 ≤ v * h.vv ^ 2 * Real.exp (-h.kappa * dt) / h.kappa * (1 - Real.exp (-h.kappa * dt)) := by positivity
  have a2 : 0 ≤ h.theta * h.vv ^ 2 / (2 * h.kappa) * (1 - Real.exp (-h.kappa * dt)) ^ 2 := by positivity
  rcases hv.lt_or_eq with hv' | hv'
  · have : 0 < v * h.vv ^ 2 * Real.exp (-h.kappa * dt) / h.kappa * (1 - Real.exp (-h.kappa * dt)) := by positivity
    unfold qeVariance; linarith
  · rcases hth.lt_or_eq with ht' | ht'
    · have : 0 < h.theta * h.vv ^ 2 / (2 * h.kappa) * (1 - Real.exp (-h.kappa * dt)) ^ 2 := by positivity
      unfold qeVariance; linarith
    · exfalso
      apply hm
      unfold qeMean
      rw [← hv', ← ht']; ring

theorem qe_step_eq {h : Heston} {dt v : ℝ} (hk : 0 < h.kappa) (hth : 0 ≤ h.theta) (hv : 0 ≤ v) (hvv : h.vv ≠ 0) (hdt : 0 < dt) (z : ℝ) :
    qeVarianceStep h dt (some v) z = some (qeReal h dt v z) := by
  unfold qeVarianceStep qeReal
  simp only
  by_cases hm : qeMean h dt v = 0
  · rw [if_pos hm, if_pos hm, if_neg (not_lt.2 (qeVariance_nonneg hk hth hv hdt.le))]
  rw [if_neg hm, if_neg hm]
  have hphi : 0 < qeVariance h dt v / qeMean h dt v ^ 2 := div_pos (qeVariance_pos hk hth hv hvv hdt hm) (by positivity)
  generalize qeVariance h dt v / qeMean h dt v ^ 2 = phi at hphi ⊢
  by_cases hc : phi ≤ 1.5
  · rw [if_pos hc, if_pos hc, if_neg hphi.ne']
    have hx : 1 ≤ 2 / phi := by rw [one_le_div hphi]; norm_num at hc; linarith
    have h1 : 0 ≤ 2 / phi * (2 / phi - 1) := mul_nonneg (by linarith) (by linarith)
    rw [npSqrtReal_nonneg h1, Option.bind_some]
    have h2 : 0 ≤ 2 / phi - 1 + Real.sqrt (2 / phi * (2 / phi - 1)) := add_nonneg (by linarith) (Real.sqrt_nonneg _)
    rw [npSqrtReal_nonneg h2, Option.map_some]
  · rw [if_neg hc, if_neg hc]
    split_ifs <;> rfl

theorem qe_nonneg {h : Heston} {dt v : ℝ} (hk : 0 < h.kappa) (hth : 0 ≤ h.theta) (hv : 0 ≤ v) (hdt : 0 ≤ dt) (z : ℝ) :
    0 ≤ qeReal h dt v z := by
  have hm := qeMean_nonneg hk hth hv hdt
  have hs := qeVariance_nonneg hk hth hv hdt
  unfold qeReal
  simp only
  split_ifs with h1 h2 h3 h4
  · exact le_refl 0
  · have hphi : 0 ≤ qeVariance h dt v / qeMean h dt v ^ 2 := by positivity
    have hb : 0 ≤ 1 + (2 / (qeVariance h dt v / qeMean h dt v ^ 2) - 1 + Real.sqrt (2 / (qeVariance h dt v / qeMean h dt v ^ 2) *
        (2 / (qeVariance h dt v / qeMean h dt v ^ 2) - 1))) := by
      have := Real.sqrt_nonneg (2 / (qeVariance h dt v / qeMean h dt v ^ 2) * (2 / (qeVariance h dt v / qeMean h dt v ^ 2) - 1))
      have h2 : 0 ≤ 2 / (qeVariance h dt v / qeMean h dt v ^ 2) := by positivity
      linarith
    exact mul_nonneg (div_nonneg hm hb) (sq_nonneg _)
  · exact le_refl 0
  · have hphi : 1.5 < qeVariance h dt v / qeMean h dt v ^ 2 := not_le.1 h2
    set phi := qeVariance h dt v / qeMean h dt v ^ 2 with hphi'
    have hp1 : (phi - 1) / (phi + 1) < 1 := by
      rw [div_lt_one (by linarith)]; linarith
    apply mul_nonneg
    · apply div_nonneg zero_le_one
      exact div_nonneg (by linarith) hm
    · apply Real.log_nonneg
      rw [one_le_div (sub_pos.2 (normCdf_lt_one z))]
      linarith [h4.1]
  · exact le_refl 0

theorem qe_path {h : Heston} (hk : 0 < h.kappa) (hth : 0 ≤ h.theta) (hv : 0 ≤ h.var0) (hvv : h.vv ≠ 0) {S0 mu dt : ℝ} (hdt : 0 < dt)
    (z : Nat → Nat → ℝ) (i : Nat) : ∃ v, (qePath h S0 mu dt z i).2 = some v ∧ 0 ≤ v ∧
      (qePath h S0 mu dt z (i + 1)).2 = some (qeReal h dt v (z i 1)) ∧ 0 ≤ qeReal h dt v (z i 1) := by
  induction i with
  | zero => exact ⟨h.var0, rfl, hv, qe_step_eq hk hth hv hvv hdt _, qe_nonneg hk hth hv hdt.le _⟩
  | succ i ih =>
    obtain ⟨v, h1, h2, h3, h4⟩ := ih
    refine ⟨_, h3, h4, ?_, qe_nonneg hk hth h4 hdt.le _⟩
    rw [qePath]
    simp only
    rw [h3]
    exact qe_step_eq hk hth h4 hvv hdt _

theorem qe_log {h : Heston} (hr : h.rho ^ 2 ≤ 1) {mu dt v w : ℝ} (hdt : 0 ≤ dt) (hv : 0 ≤ v) (hw : 0 ≤ w) (z : ℝ) :
    qeLogStep h mu dt (some v) (some w) z = some (mu * dt + -h.rho * h.kappa * h.theta / h.vv * dt +
      (0.5 * dt * (h.kappa * h.rho / h.vv - 0.5) - h.rho / h.vv) * v + (0.5 * dt * (h.kappa * h.rho / h.vv - 0.5) + h.rho / h.vv) * w +
      Real.sqrt (0.5 * dt * (1 - h.rho ^ 2) * v + 0.5 * dt * (1 - h.rho ^ 2) * w) * z) := by
  unfold qeLogStep
  simp only
  have hr' : 0 ≤ 1 - h.rho ^ 2 := sub_nonneg.2 hr
  rw [npSqrtReal_nonneg (by positivity), Option.map_some]

theorem qe_log_path {h : Heston} (hk : 0 < h.kappa) (hth : 0 ≤ h.theta) (hv : 0 ≤ h.var0) (hvv : h.vv ≠ 0) (hr : h.rho ^ 2 ≤ 1)
    {S0 mu dt : ℝ} (hS : 0 < S0) (hdt : 0 < dt) (z : Nat → Nat → ℝ) (i : Nat) : ∃ x, (qePath h S0 mu dt z i).1 = .fin x := by
  induction i with
  | zero => exact ⟨Real.log S0, if_pos hS⟩
  | succ i ih =>
    obtain ⟨x, hx⟩ := ih
    obtain ⟨v, h1, h2, h3, h4⟩ := qe_path (S0 := S0) (mu := mu) hk hth hv hvv hdt z i
    rw [qePath] at h3 ⊢
    simp only at h3 ⊢
    rw [h3, h1, qe_log hr hdt.le h2 h4, hx]
    exact ⟨_, rfl⟩

/-- Quadratic-exponential scheme: every variance is a non-negative number and every spot a positive one, for all draws. -/
theorem C63_quadratic_exponential (h : Heston) (hk : 0 < h.kappa) (hth : 0 ≤ h.theta) (hv : 0 ≤ h.var0) (S0 mu tau : ℝ) (htau : 0 < tau)
    (z : Cube) (x : NanCube) (hx : HestonSimulated .quadraticExponential h S0 mu tau z x) (i s : Nat) :
    (∃ v, varianceAt x i s = some v ∧ 0 ≤ v) ∧ (0 < S0 → h.rho ^ 2 ≤ 1 → ∃ S, spotAt x i s = some S ∧ 0 < S) := by
  obtain ⟨chol, hx⟩ := hx
  obtain ⟨-, hn, hd, M, -, -, -, -, hrow⟩ := hestonSimulate_ok hx
  have e := hrow i s
  simp only [hestonRow, Prod.mk.injEq] at e
  rw [e.1, e.2]
  have hdt : 0 < tau / (z.steps : ℝ) := div_pos htau (by exact_mod_cast Nat.pos_of_ne_zero hn)
  refine ⟨?_, ?_⟩
  · obtain ⟨v, h1, h2, -⟩ := qe_path (S0 := S0) (mu := mu) hk hth hv (qe_divides hd).2 hdt (fun i v => z.get i v s) i
    exact ⟨v, h1, h2⟩
  · intro hS hr
    obtain ⟨y, hy⟩ := qe_log_path (mu := mu) hk hth hv (qe_divides hd).2 hr hS hdt (fun i v => z.get i v s) i
    rw [hy]
    exact ⟨_, rfl, Real.exp_pos _⟩

theorem qe_log_nan {h : Heston} {mu dt : ℝ} {v w : Option ℝ} {z : ℝ} (hn : v = none ∨ w = none) : qeLogStep h mu dt v w z = none := by
  unfold qeLogStep
  simp only
  rcases hn with rfl | rfl
  · rfl
  · cases v <;> rfl

theorem qe_nan_stays {h : Heston} {S0 mu dt : ℝ} {z : Nat → Nat → ℝ} {i : Nat} (hn : (qePath h S0 mu dt z i).1 = .nan) {j : Nat} (hj : i ≤ j) :
    (qePath h S0 mu dt z j).1 = .nan := by
  induction j, hj using Nat.le_induction with
  | base => exact hn
  | succ j _ ih =>
    rw [qePath]
    simp only
    rw [ih]
    cases qeLogStep h mu dt (qePath h S0 mu dt z j).2 _ _ <;> rfl

/-- At the valuation date itself (no time to the horizon), whatever the number of steps and the draws, the quadratic-exponential scheme
returns `nan` after the first row: for the variance in the second row, which is zero afterwards, and for the spot in all of them. -/
theorem C63_no_time (h : Heston) (hv : h.var0 ≠ 0) (S0 mu : ℝ) (z : Cube) (x : NanCube)
    (hx : HestonSimulated .quadraticExponential h S0 mu 0 z x) (s : Nat) :
    varianceAt x 0 s = some h.var0 ∧ varianceAt x 1 s = none ∧ (∀ i, 2 ≤ i → varianceAt x i s = some 0) ∧ ∀ i, 1 ≤ i → spotAt x i s = none := by
  obtain ⟨chol, hx⟩ := hx
  obtain ⟨-, hn, hd, M, -, -, -, -, hrow⟩ := hestonSimulate_ok hx
  simp only [hestonRow, Prod.mk.injEq, zero_div] at hrow
  have hmean : ∀ v, qeMean h 0 v = v := fun v => by simp [qeMean]
  have hvar : ∀ v, qeVariance h 0 v = 0 := fun v => by simp [qeVariance]
  have h1 : (qePath h S0 mu 0 (fun i v => z.get i v s) 1).2 = none := by
    show qeVarianceStep h 0 (some h.var0) _ = none
    unfold qeVarianceStep
    simp only
    rw [hmean, hvar, if_neg hv, zero_div, if_pos (by norm_num), if_pos rfl]
  have h1' : (qePath h S0 mu 0 (fun i v => z.get i v s) 1).1 = .nan := by
    have h2 := h1
    rw [qePath] at h2 ⊢
    simp only at h2 ⊢
    rw [h2, qe_log_nan (Or.inr rfl)]
  refine ⟨(hrow 0 s).2, (hrow 1 s).2.trans h1, ?_, ?_⟩
  · intro i hi
    rw [(hrow i s).2]
    induction i, hi using Nat.le_induction with
    | base =>
      show qeVarianceStep h 0 (qePath h S0 mu 0 (fun i v => z.get i v s) 1).2 _ = some 0
      rw [h1]; rfl
    | succ i _ ih =>
      show qeVarianceStep h 0 (qePath h S0 mu 0 (fun i v => z.get i v s) i).2 _ = some 0
      rw [ih]
      unfold qeVarianceStep
      simp only
      rw [hmean, hvar, if_pos rfl, if_neg (lt_irrefl 0)]
  · intro i hi
    rw [(hrow i s).1, qe_nan_stays h1' hi]
    rfl

/-- A negative spot is `nan` at every row of the quadratic-exponential scheme; a zero spot stays zero. -/
theorem C63_spot_start (h : Heston) (S0 mu tau : ℝ) (z : Cube) (x : NanCube)
    (hx : HestonSimulated .quadraticExponential h S0 mu tau z x) (i s : Nat) :
    (S0 < 0 → spotAt x i s = none) ∧
    (S0 = 0 → 0 < h.kappa → 0 ≤ h.theta → 0 ≤ h.var0 → 0 < tau → h.rho ^ 2 ≤ 1 → spotAt x i s = some 0) := by
  obtain ⟨chol, hx⟩ := hx
  obtain ⟨-, hn, hd, M, -, -, -, -, hrow⟩ := hestonSimulate_ok hx
  simp only [hestonRow, Prod.mk.injEq] at hrow
  rw [(hrow i s).1]
  refine ⟨fun hS => ?_, ?_⟩
  · have h0 : (qePath h S0 mu (tau / z.steps) (fun i v => z.get i v s) 0).1 = .nan := by
      show (if 0 < S0 then Npf.fin (Real.log S0) else if S0 = 0 then .negInf else .nan) = .nan
      rw [if_neg (not_lt.2 hS.le), if_neg hS.ne]
    rw [qe_nan_stays h0 (Nat.zero_le i)]
    rfl
  · rintro rfl hk hth hv htau hr
    have hdt : 0 < tau / (z.steps : ℝ) := div_pos htau (by exact_mod_cast Nat.pos_of_ne_zero hn)
    have key : (qePath h 0 mu (tau / z.steps) (fun i v => z.get i v s) i).1 = .negInf := by
      clear hrow
      induction i with
      | zero =>
        show (if (0 : ℝ) < 0 then Npf.fin (Real.log 0) else if (0 : ℝ) = 0 then .negInf else .nan) = .negInf
        rw [if_neg (lt_irrefl 0), if_pos rfl]
      | succ i ih =>
        obtain ⟨v, h1, h2, h3, h4⟩ := qe_path (S0 := 0) (mu := mu) hk hth hv (qe_divides hd).2 hdt (fun i v => z.get i v s) i
        rw [qePath] at h3 ⊢
        simp only at h3 ⊢
        rw [h3, h1, qe_log hr hdt.le h2 h4, ih]
        rfl
    rw [key]
    rfl

/-- Where the average of two successive variances times the step and `1 - rho²` is negative, as for a horizon in the past and positive variances,
or where one of the variances is `nan`, the quadratic-exponential scheme returns `nan` spots from the next row on. -/
theorem C63_negative_average (h : Heston) (S0 mu tau : ℝ) (z : Cube) (x : NanCube) (hx : HestonSimulated .quadraticExponential h S0 mu tau z x)
    (i s : Nat) (hi : varianceAt x i s = none ∨ varianceAt x (i + 1) s = none ∨
      ∃ v w, varianceAt x i s = some v ∧ varianceAt x (i + 1) s = some w ∧ (1 - h.rho ^ 2) * tau * (v + w) < 0) (j : Nat) (hj : i < j) :
    spotAt x j s = none := by
  obtain ⟨chol, hx⟩ := hx
  obtain ⟨-, hn, hd, M, -, -, -, -, hrow⟩ := hestonSimulate_ok hx
  simp only [hestonRow, Prod.mk.injEq] at hrow
  rw [(hrow i s).2, (hrow (i + 1) s).2] at hi
  rw [(hrow j s).1]
  have key : (qePath h S0 mu (tau / z.steps) (fun i v => z.get i v s) (i + 1)).1 = .nan := by
    rw [qePath] at hi ⊢
    simp only at hi ⊢
    rcases hi with h1 | h1 | ⟨v, w, h1, h2, h3⟩
    · rw [qe_log_nan (Or.inl h1)]
    · rw [qe_log_nan (Or.inr h1)]
    · rw [h1] at h2 ⊢
      rw [h2]
      have hneg : 0.5 * (tau / z.steps) * (1 - h.rho ^ 2) * v + 0.5 * (tau / z.steps) * (1 - h.rho ^ 2) * w < 0 := by
        have hz : (0 : ℝ) < z.steps := by exact_mod_cast Nat.pos_of_ne_zero hn
        have e : 0.5 * (tau / z.steps) * (1 - h.rho ^ 2) * v + 0.5 * (tau / z.steps) * (1 - h.rho ^ 2) * w =
            0.5 * ((1 - h.rho ^ 2) * tau * (v + w)) / z.steps := by ring
        rw [e]
        exact div_neg_of_neg_of_pos (by linarith) hz
      unfold qeLogStep
      simp only
      rw [npSqrtReal_neg hneg]
      rfl
  rw [qe_nan_stays key hj]
  rfl

theorem eulerFix_nonneg {method : HestonMethod} (hm : method = .eulerAbsorption ∨ method = .eulerReflection) {v : Option ℝ} {w : ℝ}
    (hw : eulerFix method v = some w) : 0 ≤ w := by
  rcases hm with rfl | rfl <;> cases v with
  | none => cases hw
  | some v =>
    cases hw
    first | exact le_max_left _ _ | exact abs_nonneg _

theorem euler_defined {method : HestonMethod} (hm : method = .eulerAbsorption ∨ method = .eulerReflection) {h : Heston} {S0 mu dt : ℝ}
    {u : Nat → Nat → Option ℝ} (hu : ∀ i v, ∃ c, u i v = some c) (i : Nat) : ∃ S v w, eulerRow method h S0 mu dt u i = (some S, some v) ∧
      eulerFix method (some v) = some w ∧ 0 ≤ w := by
  have hfix : ∀ v : ℝ, ∃ w, eulerFix method (some v) = some w ∧ 0 ≤ w := by
    intro v
    rcases hm with rfl | rfl
    · exact ⟨_, rfl, le_max_left _ _⟩
    · exact ⟨_, rfl, abs_nonneg _⟩
  induction i with
  | zero =>
    obtain ⟨w, hw⟩ := hfix h.var0
    exact ⟨S0, h.var0, w, rfl, hw⟩
  | succ i ih =>
    obtain ⟨S, v, w, h1, h2, h3⟩ := ih
    obtain ⟨c0, hc0⟩ := hu i 0
    obtain ⟨c1, hc1⟩ := hu i 1
    have e : eulerRow method h S0 mu dt u (i + 1) =
        (some (S + S * (mu * dt + Real.sqrt w * c0)), some (w + h.kappa * (h.theta - w) * dt + h.vv * Real.sqrt w * c1)) := by
      rw [eulerRow]
      rw [h1, h2]
      unfold eulerStep
      simp only
      rw [npSqrtReal_nonneg h3]
      simp only
      rw [hc0, hc1]
      rfl
    obtain ⟨w', hw'⟩ := hfix (w + h.kappa * (h.theta - w) * dt + h.vv * Real.sqrt w * c1)
    exact ⟨_, _, w', e, hw'⟩

/-- Euler schemes with absorption or reflection: every variance except the one at the last row is a non-negative number, for all draws and
parameters and any time from zero on.  Missing: the last row, which is not fixed (`C63_euler_last`). -/
theorem C63_euler_partial (method : HestonMethod) (hm : method = .eulerAbsorption ∨ method = .eulerReflection) (h : Heston) (S0 mu tau : ℝ)
    (htau : 0 ≤ tau) (z : Cube) (x : NanCube) (hx : HestonSimulated method h S0 mu tau z x) (i s : Nat) :
    (∃ S, spotAt x i s = some S) ∧ ∃ v, varianceAt x i s = some v ∧ (i + 1 < x.steps → 0 ≤ v) := by
  obtain ⟨chol, hx⟩ := hx
  obtain ⟨-, hn, -, M, -, hsteps, -, -, hrow⟩ := hestonSimulate_ok hx
  have e := hrow i s
  have hdt : 0 ≤ tau / (z.steps : ℝ) := div_nonneg htau (Nat.cast_nonneg _)
  rw [npSqrtReal_nonneg hdt] at e
  obtain ⟨S, v, w, h1, h2, h3⟩ := euler_defined hm (h := h) (S0 := S0) (mu := mu) (dt := tau / z.steps)
    (u := fun i v => (some (Real.sqrt (tau / z.steps))).map (fun root =>
          (M.transpose.mulVec (fun j : Fin 2 => z.get i j.val s)) (if v = 0 then 0 else 1) * root)) (fun i v => ⟨_, rfl⟩) i
  have e' : (spotAt x i s, varianceAt x i s) = if i < z.steps then (some S, some w) else (some S, some v) := by
    rw [e]
    rcases hm with rfl | rfl <;>
    · simp only [hestonRow]
      rw [h1, h2]
  by_cases hi : i < z.steps
  · rw [if_pos hi, Prod.mk.injEq] at e'
    exact ⟨⟨S, e'.1⟩, w, e'.2, fun _ => h3⟩
  · rw [if_neg hi, Prod.mk.injEq] at e'
    exact ⟨⟨S, e'.1⟩, v, e'.2, fun hh => absurd hh (by omega)⟩

/-- The Euler recursion: each row follows from the row before it by the discretised equations with the correlated shocks, and then all
rows but the last have their variance absorbed or reflected. -/
theorem C63_euler_scheme (method : HestonMethod) (hm : method = .eulerAbsorption ∨ method = .eulerReflection) (h : Heston) (S0 mu tau : ℝ)
    (htau : 0 ≤ tau) (chol : Matrix (Fin 2) (Fin 2) ℝ → Except Err (Matrix (Fin 2) (Fin 2) ℝ))
    (z : Cube) (x : NanCube) (hx : hestonSimulate chol method h S0 mu tau z = .ok x) (s : Nat) :
    ∃ M, chol !![1, h.rho; h.rho, 1] = .ok M ∧ spotAt x 0 s = some S0 ∧ (0 ≤ h.var0 → varianceAt x 0 s = some h.var0) ∧
      ∀ i, i < z.steps → ∃ S v raw : ℝ, spotAt x i s = some S ∧ varianceAt x i s = some v ∧
        let dt := tau / z.steps
        let u := M.transpose.mulVec ![z.get i 0 s, z.get i 1 s]
        raw = v + h.kappa * (h.theta - v) * dt + h.vv * Real.sqrt v * (u 1 * Real.sqrt dt) ∧
        spotAt x (i + 1) s = some (S * (1 + mu * dt + Real.sqrt v * (u 0 * Real.sqrt dt))) ∧
        varianceAt x (i + 1) s =
          some (if i + 1 < z.steps then (match method with | .eulerAbsorption => max 0 raw | _ => |raw|) else raw) := by
  obtain ⟨-, hn, -, M, hM, hsteps, -, -, hrow⟩ := hestonSimulate_ok hx
  have hvec : ∀ i, (fun j : Fin 2 => z.get i j.val s) = ![z.get i 0 s, z.get i 1 s] := by
    intro i
    funext j
    fin_cases j <;> rfl
  have hpos : 0 < z.steps := Nat.pos_of_ne_zero hn
  have hdt : 0 ≤ tau / (z.steps : ℝ) := div_nonneg htau (Nat.cast_nonneg _)
  rw [npSqrtReal_nonneg hdt] at hrow
  replace hrow := fun i => hrow i s
  simp only [hvec, Option.map_some] at hrow
  refine ⟨M, hM, ?_, ?_, ?_⟩
  · have e := hrow 0
    rcases hm with rfl | rfl <;>
    · simp only [hestonRow, if_pos hpos, Prod.mk.injEq] at e
      rw [e.1]; rfl
  · intro hv
    have e := hrow 0
    rcases hm with rfl | rfl
    · simp only [hestonRow, if_pos hpos, Prod.mk.injEq] at e
      rw [e.2]; exact congrArg some (max_eq_right hv)
    · simp only [hestonRow, if_pos hpos, Prod.mk.injEq] at e
      rw [e.2]; exact congrArg some (abs_of_nonneg hv)
  · intro i hi
    have e0 := hrow i
    have e1 := hrow (i + 1)
    obtain ⟨S, v, w, h1, h2, h3⟩ := euler_defined hm (h := h) (S0 := S0) (mu := mu) (dt := tau / z.steps)
      (u := fun i v => some (M.transpose.mulVec ![z.get i 0 s, z.get i 1 s] (if v = 0 then 0 else 1) * Real.sqrt (tau / z.steps)))
      (fun i v => ⟨_, rfl⟩) i
    have e2 : eulerRow method h S0 mu (tau / z.steps) (fun i v => some (M.transpose.mulVec ![z.get i 0 s, z.get i 1 s]
        (if v = 0 then 0 else 1) * Real.sqrt (tau / z.steps))) (i + 1) =
        (some (S * (1 + mu * (tau / z.steps) + Real.sqrt w * (M.transpose.mulVec ![z.get i 0 s, z.get i 1 s] 0 * Real.sqrt (tau / z.steps)))),
          some (w + h.kappa * (h.theta - w) * (tau / z.steps) +
            h.vv * Real.sqrt w * (M.transpose.mulVec ![z.get i 0 s, z.get i 1 s] 1 * Real.sqrt (tau / z.steps)))) := by
      rw [eulerRow]
      rw [h1, h2]
      unfold eulerStep
      simp only
      rw [npSqrtReal_nonneg h3]
      simp only [if_true, if_neg one_ne_zero, Option.map_some]
      congr 2
      ring
    refine ⟨S, w, _, ?_, ?_, rfl, ?_, ?_⟩
    · rcases hm with rfl | rfl <;>
      · simp only [hestonRow, if_pos hi, h1, Prod.mk.injEq] at e0
        exact e0.1
    · rcases hm with rfl | rfl <;>
      · simp only [hestonRow, if_pos hi, h1, Prod.mk.injEq] at e0
        exact e0.2.trans h2
    · rcases hm with rfl | rfl <;>
      · simp only [hestonRow, e2] at e1
        exact (congrArg Prod.fst e1).trans (by split_ifs <;> rfl)
    · rcases hm with rfl | rfl <;>
      · simp only [hestonRow, e2] at e1
        refine (congrArg Prod.snd e1).trans ?_
        by_cases hl : i + 1 < z.steps
        · rw [if_pos hl, if_pos hl]; rfl
        · rw [if_neg hl, if_neg hl]

/-- The last row of the Euler schemes: for every model with positive variance and volatility of variance there are draws for which the
variance returned at the horizon is negative. -/
theorem C63_euler_last (method : HestonMethod) (hm : method = .eulerAbsorption ∨ method = .eulerReflection) (h : Heston) (hv : 0 < h.var0)
    (hvv : 0 < h.vv) (S0 mu tau : ℝ) (htau : 0 < tau)
    (chol : Matrix (Fin 2) (Fin 2) ℝ → Except Err (Matrix (Fin 2) (Fin 2) ℝ)) (M : Matrix (Fin 2) (Fin 2) ℝ)
    (hM : chol !![1, h.rho; h.rho, 1] = .ok M) (hc : IsCholesky M !![1, h.rho; h.rho, 1]) :
    ∃ z x v, hestonSimulate chol method h S0 mu tau z = .ok x ∧ z.steps = 1 ∧ varianceAt x 1 0 = some v ∧ v < 0 := by
  obtain ⟨hlow, hdiag, -⟩ := hc
  have h01 : M 0 1 = 0 := hlow 0 1 (by decide)
  have h11 : 0 < M 1 1 := hdiag 1
  have hst : 0 < Real.sqrt tau := Real.sqrt_pos.2 htau
  have hsv : 0 < Real.sqrt h.var0 := Real.sqrt_pos.2 hv
  have hcoef : 0 < h.vv * Real.sqrt h.var0 * (M 1 1 * Real.sqrt tau) := by positivity
  let shock : ℝ := -(|h.var0 + h.kappa * (h.theta - h.var0) * tau| + 1) / (h.vv * Real.sqrt h.var0 * (M 1 1 * Real.sqrt tau))
  let z : Cube := ⟨1, 2, 1, fun _ v _ => if v = 0 then 0 else shock⟩
  have hok : ∃ x, hestonSimulate chol method h S0 mu tau z = .ok x := by
    unfold hestonSimulate
    rw [if_neg (by simp [z]), if_neg (by simp [z]), hM]
    simp only
    rw [if_neg (by rcases hm with rfl | rfl <;> exact id)]
    exact ⟨_, rfl⟩
  obtain ⟨x, hx⟩ := hok
  obtain ⟨M', hM', -, h0, hstep⟩ := C63_euler_scheme method hm h S0 mu tau htau.le chol z x hx 0
  have hMM : M' = M := Except.ok.inj (hM'.symm.trans hM)
  subst hMM
  obtain ⟨S, v, raw, -, hv0, hraw, -, hlast⟩ := hstep 0 (by simp [z])
  rw [if_neg (by simp [z])] at hlast
  refine ⟨z, x, raw, hx, rfl, hlast, ?_⟩
  obtain rfl : h.var0 = v := Option.some.inj ((h0 hv.le).symm.trans hv0)
  rw [hraw]
  have hu : M'.transpose.mulVec ![z.get 0 0 0, z.get 0 1 0] 1 = M' 1 1 * shock := by
    simp [Matrix.mulVec, dotProduct, Fin.sum_univ_two, Matrix.transpose_apply, z, h01]
  rw [hu]
  have hsteps : tau / (z.steps : ℝ) = tau := by simp [z]
  rw [hsteps]
  have hval : h.vv * Real.sqrt h.var0 * (M' 1 1 * shock * Real.sqrt tau) = -(|h.var0 + h.kappa * (h.theta - h.var0) * tau| + 1) := by
    simp only [shock]
    field_simp
  rw [hval]
  have := le_abs_self (h.var0 + h.kappa * (h.theta - h.var0) * tau)
  linarith

/-- The scalar simulator is the vectorised one for a single path. -/
theorem C63_scalar (chol : Matrix (Fin 2) (Fin 2) ℝ → Except Err (Matrix (Fin 2) (Fin 2) ℝ)) (method : HestonMethod) (h : Heston)
    (S0 mu tau : ℝ) (z : Cube) (x : NanCube) (hx : hestonSimulate chol method h S0 mu tau z = .ok x) (s : Nat) :
    ∃ g, hestonSimulateScalar chol method h S0 mu tau ⟨z.steps, z.vars, fun i v => z.get i v s⟩ = .ok g ∧ g.rows = x.steps ∧
      g.cols = x.vars ∧ ∀ i v, g.get i v = x.get i v s := by
  unfold hestonSimulate at hx
  unfold hestonSimulateScalar
  by_cases hv : z.vars ≠ 2
  · rw [if_pos hv] at hx; cases hx
  rw [if_neg hv] at hx
  by_cases hn : z.steps = 0
  · rw [if_pos hn] at hx; cases hx
  rw [if_neg hn] at hx
  simp only
  rw [if_neg hv, if_neg hn]
  cases hM : chol !![1, h.rho; h.rho, 1] with
  | error e => rw [hM] at hx; cases hx
  | ok M =>
    rw [hM] at hx
    simp only at hx ⊢
    by_cases hd : method.divides h
    · rw [if_pos hd] at hx; cases hx
    rw [if_neg hd] at hx ⊢
    cases hx
    exact ⟨_, rfl, rfl, rfl, fun i v => rfl⟩

/-- The simulation of a single path raises exactly what the simulation of many paths with the same draws raises. -/
theorem C63_scalar_exceptions (chol : Matrix (Fin 2) (Fin 2) ℝ → Except Err (Matrix (Fin 2) (Fin 2) ℝ)) (method : HestonMethod) (h : Heston)
    (S0 mu tau : ℝ) (z : Cube) (s : Nat) (e : Err) :
    hestonSimulateScalar chol method h S0 mu tau ⟨z.steps, z.vars, fun i v => z.get i v s⟩ = .error e ↔
      hestonSimulate chol method h S0 mu tau z = .error e := by
  unfold hestonSimulate hestonSimulateScalar
  simp only
  by_cases hv : z.vars ≠ 2
  · rw [if_pos hv, if_pos hv]
    constructor <;> intro h <;> cases h <;> rfl
  rw [if_neg hv, if_neg hv]
  by_cases hn : z.steps = 0
  · rw [if_pos hn, if_pos hn]
    constructor <;> intro h <;> cases h <;> rfl
  rw [if_neg hn, if_neg hn]
  cases chol !![1, h.rho; h.rho, 1] with
  | error e' => constructor <;> intro h <;> cases h <;> rfl
  | ok M =>
    by_cases hd : method.divides h
    · simp only [if_pos hd]
      constructor <;> intro h <;> cases h <;> rfl
    · simp only [if_neg hd]
      constructor <;> intro h <;> cases h

/-- Two rows of draws per step are required, at least one step, and a correlation that factorises, for every method; the quadratic-exponential
scheme needs mean reversion and a volatility of variance. -/
theorem C63_accepts (chol : Matrix (Fin 2) (Fin 2) ℝ → Except Err (Matrix (Fin 2) (Fin 2) ℝ)) (method : HestonMethod) (h : Heston)
    (S0 mu tau : ℝ) (z : Cube) :
    (∃ x, hestonSimulate chol method h S0 mu tau z = .ok x) ↔ z.vars = 2 ∧ z.steps ≠ 0 ∧ (∃ M, chol !![1, h.rho; h.rho, 1] = .ok M) ∧
      (method = .quadraticExponential → h.kappa ≠ 0 ∧ h.vv ≠ 0) := by
  have hdiv : method.divides h ↔ ¬ (method = .quadraticExponential → h.kappa ≠ 0 ∧ h.vv ≠ 0) := by
    cases method <;> simp [HestonMethod.divides]
    tauto
  constructor
  · rintro ⟨x, hx⟩
    obtain ⟨h1, h2, h4, M, h3, -⟩ := hestonSimulate_ok hx
    exact ⟨h1, h2, ⟨M, h3⟩, not_not.1 (fun hh => h4 (hdiv.2 hh))⟩
  · rintro ⟨h1, h2, ⟨M, h3⟩, h4⟩
    unfold hestonSimulate
    rw [if_neg (not_not.2 h1), if_neg h2, h3]
    simp only
    rw [if_neg (fun hh => hdiv.1 hh h4)]
    exact ⟨_, rfl⟩

/-- Which exception: an assertion for the wrong number of rows of draws, a division by zero when there is no step, that of the
factorisation, and a division by zero for a quadratic-exponential scheme without mean reversion or volatility of variance. -/
theorem C63_exceptions (chol : Matrix (Fin 2) (Fin 2) ℝ → Except Err (Matrix (Fin 2) (Fin 2) ℝ)) (method : HestonMethod) (h : Heston)
    (S0 mu tau : ℝ) (z : Cube) :
    (z.vars ≠ 2 → hestonSimulate chol method h S0 mu tau z = .error .assertion) ∧
    (z.vars = 2 → z.steps = 0 → hestonSimulate chol method h S0 mu tau z = .error .zeroDiv) ∧
    (z.vars = 2 → z.steps ≠ 0 → ∀ e, chol !![1, h.rho; h.rho, 1] = .error e → hestonSimulate chol method h S0 mu tau z = .error e) ∧
    (z.vars = 2 → z.steps ≠ 0 → ∀ M, chol !![1, h.rho; h.rho, 1] = .ok M → method = .quadraticExponential → h.kappa = 0 ∨ h.vv = 0 →
      hestonSimulate chol method h S0 mu tau z = .error .zeroDiv) := by
  refine ⟨fun h1 => if_pos h1, fun h1 h2 => ?_, fun h1 h2 e he => ?_, ?_⟩
  · unfold hestonSimulate
    rw [if_neg (not_not.2 h1), if_pos h2]
  · unfold hestonSimulate
    rw [if_neg (not_not.2 h1), if_neg h2, he]
  · rintro h1 h2 M hM rfl hd
    unfold hestonSimulate
    rw [if_neg (not_not.2 h1), if_neg h2, hM]
    exact if_pos hd

/-- Other names beginning with `euler`: from the row after the first negative variance on, spot and variance are `nan`; while the variances
are not negative the rows follow the Euler recursion. -/
theorem C63_euler_plain (h : Heston) (S0 mu tau : ℝ) (htau : 0 ≤ tau)
    (chol : Matrix (Fin 2) (Fin 2) ℝ → Except Err (Matrix (Fin 2) (Fin 2) ℝ)) (z : Cube) (x : NanCube)
    (hx : hestonSimulate chol .eulerPlain h S0 mu tau z = .ok x) (s : Nat) :
    ∃ M, chol !![1, h.rho; h.rho, 1] = .ok M ∧ spotAt x 0 s = some S0 ∧ varianceAt x 0 s = some h.var0 ∧
      ∀ i, (varianceAt x i s = none ∨ (∃ v, varianceAt x i s = some v ∧ v < 0) →
          ∀ j, i < j → spotAt x j s = none ∧ varianceAt x j s = none) ∧
        ∀ S v : ℝ, spotAt x i s = some S → varianceAt x i s = some v → 0 ≤ v →
          let dt := tau / z.steps
          let u := M.transpose.mulVec ![z.get i 0 s, z.get i 1 s]
          varianceAt x (i + 1) s = some (v + h.kappa * (h.theta - v) * dt + h.vv * Real.sqrt v * (u 1 * Real.sqrt dt)) ∧
          spotAt x (i + 1) s = some (S * (1 + mu * dt + Real.sqrt v * (u 0 * Real.sqrt dt))) := by
  obtain ⟨-, hn, -, M, hM, hsteps, -, -, hrow⟩ := hestonSimulate_ok hx
  have hvec : ∀ i, (fun j : Fin 2 => z.get i j.val s) = ![z.get i 0 s, z.get i 1 s] := by
    intro i
    funext j
    fin_cases j <;> rfl
  have hdt : 0 ≤ tau / (z.steps : ℝ) := div_nonneg htau (Nat.cast_nonneg _)
  rw [npSqrtReal_nonneg hdt] at hrow
  replace hrow := fun i => hrow i s
  simp only [hvec, Option.map_some, hestonRow, eulerFix, Prod.mk.eta, ite_self] at hrow
  set u : Nat → Nat → Option ℝ := fun i v => some (M.transpose.mulVec ![z.get i 0 s, z.get i 1 s] (if v = 0 then 0 else 1) *
    Real.sqrt (tau / z.steps)) with hu
  have hr : ∀ i, (spotAt x i s, varianceAt x i s) = eulerRow .eulerPlain h S0 mu (tau / z.steps) u i := hrow
  have hs : ∀ i, (spotAt x (i + 1) s, varianceAt x (i + 1) s) = eulerStep h mu (tau / z.steps) (spotAt x i s, varianceAt x i s) (u i) := fun i => by
    rw [hr (i + 1), hr i, eulerRow]
    simp only [eulerFix, Prod.mk.eta]
  have hnan : ∀ i, (varianceAt x i s = none ∨ (∃ v, varianceAt x i s = some v ∧ v < 0)) →
      spotAt x (i + 1) s = none ∧ varianceAt x (i + 1) s = none := by
    intro i hi
    have := hs i
    rcases hi with hi | ⟨v, hi, hv⟩
    · rw [hi] at this
      exact Prod.mk.injEq _ _ _ _ ▸ this
    · rw [hi] at this
      unfold eulerStep at this
      simp only at this
      rw [npSqrtReal_neg hv] at this
      exact Prod.mk.injEq _ _ _ _ ▸ this
  refine ⟨M, hM, congrArg Prod.fst (hr 0), congrArg Prod.snd (hr 0), fun i => ⟨fun hi j hj => ?_, ?_⟩⟩
  · induction j, hj using Nat.le_induction with
    | base => exact hnan i hi
    | succ j _ ih => exact hnan j (Or.inl ih.2)
  · intro S v h1 h2 h3
    have := hs i
    rw [h1, h2] at this
    unfold eulerStep at this
    simp only at this
    rw [npSqrtReal_nonneg h3, hu] at this
    simp only [if_true, if_neg one_ne_zero, Option.map_some, Prod.mk.injEq] at this
    refine ⟨this.2, this.1.trans (congrArg some ?_)⟩
    ring

/-- Before the valuation date (a negative time) the Euler schemes return `nan` after the first row. -/
theorem C63_euler_past (method : HestonMethod) (hm : method ≠ .quadraticExponential ∧ method ≠ .other) (h : Heston) (S0 mu tau : ℝ)
    (htau : tau < 0) (z : Cube) (x : NanCube) (hx : HestonSimulated method h S0 mu tau z x) (i s : Nat) (hi : 1 ≤ i) :
    spotAt x i s = none ∧ varianceAt x i s = none := by
  obtain ⟨chol, hx⟩ := hx
  obtain ⟨-, hn, -, M, hM, hsteps, -, -, hrow⟩ := hestonSimulate_ok hx
  have hdt : tau / (z.steps : ℝ) < 0 := div_neg_of_neg_of_pos htau (by exact_mod_cast Nat.pos_of_ne_zero hn)
  rw [npSqrtReal_neg hdt] at hrow
  have key : ∀ m : HestonMethod, eulerRow m h S0 mu (tau / z.steps) (fun _ _ => none) i = (none, none) := by
    intro m
    obtain ⟨k, rfl⟩ : ∃ k, i = k + 1 := ⟨i - 1, by omega⟩
    rw [eulerRow]
    unfold eulerStep
    simp only
    cases eulerFix m (eulerRow m h S0 mu (tau / z.steps) (fun _ _ => none) k).2 with
    | none => rfl
    | some v =>
      simp only
      cases npSqrtReal v with
      | none => rfl
      | some r =>
        simp only [Option.map_none]
        cases (eulerRow m h S0 mu (tau / z.steps) (fun _ _ => none) k).1 <;> rfl
  have e := hrow i s
  simp only [Option.map_none] at e
  cases method with
  | quadraticExponential => exact absurd rfl hm.1
  | other => exact absurd rfl hm.2
  | _ =>
    simp only [hestonRow, key, eulerFix, Option.map_none, ite_self, Prod.mk.injEq] at e
    exact e

/-- An unrecognised method returns zeros, for spot and variance alike. -/
theorem C63_unknown_method (h : Heston) (S0 mu tau : ℝ) (z : Cube) (x : NanCube) (hx : HestonSimulated .other h S0 mu tau z x) (i s : Nat) :
    spotAt x i s = some 0 ∧ varianceAt x i s = some 0 := by
  obtain ⟨chol, hx⟩ := hx
  obtain ⟨-, -, -, M, -, -, -, -, hrow⟩ := hestonSimulate_ok hx
  have e := hrow i s
  simp only [hestonRow, Prod.mk.injEq] at e
  exact e

/-- Parameters of a usual FX smile. -/
noncomputable def fxHeston : Heston := ⟨0.01, 0.4, 1.5, 0.02, -0.3⟩

/-- Simulations of those parameters exist, whatever the draws. -/
example (method : HestonMethod) (z : Cube) (hz : z.vars = 2) (hn : z.steps ≠ 0) : ∃ x, HestonSimulated method fxHeston 1.1 0.01 1 z x := by
  obtain ⟨x, hx⟩ := (C63_accepts (fun _ => .ok !![1, 0; -0.3, Real.sqrt 0.91]) method fxHeston 1.1 0.01 1 z).2 ⟨hz, hn, ⟨_, rfl⟩, fun _ => by constructor <;> norm_num [fxHeston]⟩
  exact ⟨x, _, hx⟩

/-- The factor of those parameters' correlation. -/
example : IsCholesky !![1, 0; -0.3, Real.sqrt 0.91] !![1, fxHeston.rho; fxHeston.rho, 1] := by
  refine ⟨?_, ?_, ?_⟩
  · intro i j hij
    fin_cases i <;> fin_cases j <;> simp_all
  · intro i
    fin_cases i
    · simp
    · simpa using (by norm_num : (0 : ℝ) < 0.91)
  · ext i j
    have : Real.sqrt 0.91 * Real.sqrt 0.91 = 0.91 := Real.mul_self_sqrt (by norm_num)
    fin_cases i <;> fin_cases j <;> simp [Matrix.mul_apply, Fin.sum_univ_two, fxHeston]
    rw [this]; norm_num

end Frm.Props
