import Verif.Props.C76
import Verif.Proofs.QeSpot
import Verif.Proofs.QePath

/-!
# C107: the mean of the simulated Heston spot
-/

namespace Frm
namespace Spec
open MeasureTheory ProbabilityTheory

set_option autoImplicit false

/-- By how much the mean spot after a step differs from the forward, when the variance goes from `v` to `w`: the exponential of the correlated
part of the return less half of its variance over the step, the variance being taken at the average of `v` and `w`. -/
noncomputable def correlatedGrowth (h : Heston) (dt v w : ℝ) : ℝ :=
  Real.exp (h.rho / h.vv * (w - v - h.kappa * h.theta * dt + h.kappa * (dt * (v + w) / 2)) - h.rho ^ 2 * (dt * (v + w) / 2) / 2)

/-- The coefficient of the next variance in the logarithm of `correlatedGrowth`. -/
noncomputable def growthSlope (h : Heston) (dt : ℝ) : ℝ := h.rho / h.vv * (1 + h.kappa * dt / 2) - h.rho ^ 2 * dt / 4

/-- The mean of `exp (A w)` for the next variance `w` of a step of the scheme with mean `m` and variance `s2` of the variance. -/
noncomputable def schemeTransform (m s2 A : ℝ) : ℝ :=
  let phi := s2 / m ^ 2
  if phi ≤ 3 / 2 then
    let b2 := 2 / phi - 1 + Real.sqrt (2 / phi * (2 / phi - 1))
    Real.exp (A * m * b2 / (1 + b2 - 2 * A * m)) / Real.sqrt (1 - 2 * A * m / (1 + b2))
  else (phi - 1) / (phi + 1) + 2 / (phi + 1) / (1 - A * m * (phi + 1) / 2)

/-- Where that mean is finite. -/
def TransformFinite (m s2 A : ℝ) : Prop :=
  let phi := s2 / m ^ 2
  if phi ≤ 3 / 2 then 2 * A * m < 2 / phi + Real.sqrt (2 / phi * (2 / phi - 1)) else A * m * (phi + 1) / 2 < 1

end Spec
end Frm

namespace Frm.Props
open Classical MeasureTheory ProbabilityTheory

set_option autoImplicit false

open Frm Frm.Spec

theorem normal_exp_linear (c s : ℝ) : Integrable (fun z : ℝ => Real.exp (c + s * z)) (gaussianReal 0 1) ∧
    normalMean (fun z => Real.exp (c + s * z)) = Real.exp (c + s ^ 2 / 2) := by
  have e : (fun z : ℝ => Real.exp (c + s * z)) = fun z => Real.exp c * Real.exp (s * z) := by
    funext z; rw [Real.exp_add]
  refine ⟨?_, ?_⟩
  · rw [e]
    exact (integrable_exp_mul_gaussianReal s).const_mul _
  · unfold normalMean
    rw [e, integral_const_mul]
    have := mgf_fun_id_gaussianReal (μ := 0) (v := 1)
    have h1 := congrFun this s
    simp only [mgf, NNReal.coe_one, one_mul, zero_mul, zero_add] at h1
    rw [h1, ← Real.exp_add]

/-- The next spot of the quadratic-exponential scheme, from the spot `S`, the variance `v` and the two draws. -/
noncomputable def qeSpot (h : Heston) (mu dt S v z0 y : ℝ) : ℝ :=
  S * Real.exp (mu * dt - dt * (v + qeReal h dt v y) / 2 / 2 + h.rho / h.vv * (qeReal h dt v y - v -
      h.kappa * h.theta * dt + h.kappa * (dt * (v + qeReal h dt v y) / 2)) + Real.sqrt ((1 - h.rho ^ 2) * (dt * (v + qeReal h dt v y) / 2)) * z0)

theorem qeSpot_mean {h : Heston} (hk : 0 < h.kappa) (hth : 0 ≤ h.theta) (hr : h.rho ^ 2 ≤ 1) {mu dt S v y : ℝ} (hdt : 0 < dt) (hv0 : 0 ≤ v) :
    Integrable (fun z0 => qeSpot h mu dt S v z0 y) (gaussianReal 0 1) ∧
      normalMean (fun z0 => qeSpot h mu dt S v z0 y) = S * Real.exp (mu * dt) * correlatedGrowth h dt v (qeReal h dt v y) := by
  have hw := qe_nonneg hk hth hv0 hdt.le y
  unfold qeSpot
  generalize qeReal h dt v y = w at hw ⊢
  obtain ⟨i1, i2⟩ := normal_exp_linear (mu * dt - dt * (v + w) / 2 / 2 + h.rho / h.vv * (w - v - h.kappa * h.theta * dt +
    h.kappa * (dt * (v + w) / 2))) (Real.sqrt ((1 - h.rho ^ 2) * (dt * (v + w) / 2)))
  refine ⟨i1.const_mul S, ?_⟩
  unfold normalMean at i2 ⊢
  simp only at i2
  rw [integral_const_mul, i2, Real.sq_sqrt (mul_nonneg (sub_nonneg.2 hr) (by positivity))]
  unfold correlatedGrowth
  rw [mul_assoc S, ← Real.exp_add]
  congr 2
  ring

theorem qe_spot_step {h : Heston} (hk : 0 < h.kappa) (hth : 0 ≤ h.theta) (hv : 0 ≤ h.var0) (hr : h.rho ^ 2 ≤ 1) {S0 mu tau : ℝ}
    (htau : 0 < tau) (hS : 0 < S0) {z : Cube} {x : NanCube} (hx : HestonSimulated .quadraticExponential h S0 mu tau z x) (i s : Nat) :
    ∃ S v, 0 < S ∧ 0 ≤ v ∧ spotAt x i s = some S ∧ varianceAt x i s = some v ∧ varianceAt x (i + 1) s = some (qeReal h (tau / z.steps) v (z.get i 1 s)) ∧
      spotAt x (i + 1) s = some (qeSpot h mu (tau / z.steps) S v (z.get i 0 s) (z.get i 1 s)) := by
  obtain ⟨chol, hx⟩ := hx
  obtain ⟨-, hn, hd, L, -, -, -, -, hrow⟩ := hestonSimulate_ok hx
  have hvv := (qe_divides hd).2
  have hdt : 0 < tau / (z.steps : ℝ) := div_pos htau (by exact_mod_cast Nat.pos_of_ne_zero hn)
  have e0 := hrow i s
  have e1 := hrow (i + 1) s
  simp only [hestonRow, Prod.mk.injEq] at e0 e1
  obtain ⟨v, h1, h2, h3, h4⟩ := qe_path (S0 := S0) (mu := mu) hk hth hv hvv hdt (fun i v => z.get i v s) i
  obtain ⟨y, hy⟩ := qe_log_path (mu := mu) hk hth hv hvv hr hS hdt (fun i v => z.get i v s) i
  refine ⟨Real.exp y, v, Real.exp_pos _, h2, ?_, e0.2.trans h1, e1.2.trans h3, ?_⟩
  · rw [e0.1, hy]; rfl
  · rw [e1.1]
    rw [qePath] at h3 ⊢
    simp only at h3 ⊢
    rw [h3, h1, qe_log hr hdt.le h2 h4, hy, qe_log_form hvv]
    show some _ = some _
    congr 1
    unfold qeSpot
    rw [← Real.exp_add]

theorem qe_spot_zero {h : Heston} {S0 mu tau : ℝ} (hS : 0 < S0) {z : Cube} {x : NanCube}
    (hx : HestonSimulated .quadraticExponential h S0 mu tau z x) (s : Nat) : spotAt x 0 s = some S0 ∧ varianceAt x 0 s = some h.var0 := by
  obtain ⟨chol, hx⟩ := hx
  obtain ⟨-, -, -, L, -, -, -, -, hrow⟩ := hestonSimulate_ok hx
  have e2 := hrow 0 s
  simp only [hestonRow, Prod.mk.injEq] at e2
  refine ⟨?_, e2.2⟩
  rw [e2.1]
  show npExpSpot (if 0 < S0 then Npf.fin (Real.log S0) else if S0 = 0 then .negInf else .nan) = some S0
  rw [if_pos hS]
  exact congrArg some (Real.exp_log hS)

/-- On every path the next variance is `f v` of the second draw and the next spot `g S v` of the two draws, where the functions depend on the
step only.  Averaged over the first draw, the spot grows by the drift and `correlatedGrowth` of the two variances. -/
theorem C107_spot_step (h : Heston) (hk : 0 < h.kappa) (hth : 0 ≤ h.theta) (hv : 0 ≤ h.var0) (hvv : h.vv ≠ 0) (hr : h.rho ^ 2 ≤ 1) (mu tau : ℝ)
    (htau : 0 < tau) (n : Nat) (hn : n ≠ 0) :
    ∃ (f : ℝ → ℝ → ℝ) (g : ℝ → ℝ → ℝ → ℝ → ℝ),
      (∀ v, 0 ≤ v → (∀ y, 0 ≤ f v y) ∧ ∀ M V, VarianceMoments h v M V → normalMean (f v) = M (tau / n) ∧
        normalMean (fun y => (f v y - M (tau / n)) ^ 2) = V (tau / n)) ∧
      (∀ S v y, 0 ≤ v → Integrable (fun z0 => g S v z0 y) (gaussianReal 0 1) ∧
        normalMean (fun z0 => g S v z0 y) = S * Real.exp (mu * (tau / n)) * correlatedGrowth h (tau / n) v (f v y)) ∧
      ∀ (S0 : ℝ) (z : Cube) (x : NanCube), 0 < S0 → z.steps = n → HestonSimulated .quadraticExponential h S0 mu tau z x → ∀ i s,
        ∃ S v, 0 ≤ v ∧ spotAt x i s = some S ∧ varianceAt x i s = some v ∧ varianceAt x (i + 1) s = some (f v (z.get i 1 s)) ∧
          spotAt x (i + 1) s = some (g S v (z.get i 0 s) (z.get i 1 s)) := by
  have hdt : 0 < tau / (n : ℝ) := div_pos htau (by exact_mod_cast Nat.pos_of_ne_zero hn)
  refine ⟨qeReal h (tau / n), qeSpot h mu (tau / n), fun v hv => ⟨fun y => qe_nonneg hk hth hv hdt.le y, fun M V hmom => ?_⟩,
    fun S v y hv0 => qeSpot_mean hk hth hr hdt hv0, ?_⟩
  · obtain ⟨hM, hV⟩ := moments_unique hk.ne' hmom (tau / n)
    rw [hM, hV]
    exact qe_moments hk hth hv hvv hdt
  · rintro S0 z x hS rfl hx i s
    obtain ⟨S, v, -, h1, h2, h3, h4, h5⟩ := qe_spot_step hk hth hv hr htau hS hx i s
    exact ⟨S, v, h1, h2, h3, h4, h5⟩

/-- Without correlation the mean spot after a step is the forward, whatever becomes of the variance. -/
theorem C107_uncorrelated_step (h : Heston) (hr : h.rho = 0) (dt v w : ℝ) : correlatedGrowth h dt v w = 1 := by
  unfold correlatedGrowth
  rw [hr]
  simp

theorem growth_split (h : Heston) (dt v w : ℝ) :
    correlatedGrowth h dt v w = Real.exp (-h.rho / h.vv * h.kappa * h.theta * dt + (growthSlope h dt - 2 * h.rho / h.vv) * v) *
      Real.exp (growthSlope h dt * w) := by
  unfold correlatedGrowth growthSlope
  rw [← Real.exp_add]
  congr 1
  ring

theorem qe_transform {h : Heston} {dt v : ℝ} (hk : 0 < h.kappa) (hth : 0 ≤ h.theta) (hv : 0 ≤ v) (hvv : h.vv ≠ 0) (hdt : 0 < dt)
    (hm0 : qeMean h dt v ≠ 0) (A : ℝ) :
    (TransformFinite (qeMean h dt v) (qeVariance h dt v) A → Integrable (fun y => Real.exp (A * qeReal h dt v y)) (gaussianReal 0 1) ∧
      normalMean (fun y => Real.exp (A * qeReal h dt v y)) = schemeTransform (qeMean h dt v) (qeVariance h dt v) A) ∧
    (¬ TransformFinite (qeMean h dt v) (qeVariance h dt v) A → ¬ Integrable (fun y => Real.exp (A * qeReal h dt v y)) (gaussianReal 0 1)) := by
  have hmp : 0 < qeMean h dt v := lt_of_le_of_ne (qeMean_nonneg hk hth hv hdt.le) (Ne.symm hm0)
  have hsp := qeVariance_pos hk hth hv hvv hdt hm0
  unfold TransformFinite schemeTransform
  simp only
  have hr : qeReal h dt v = qeReal h dt v := rfl
  unfold qeReal at hr ⊢
  simp only at hr ⊢
  clear hr
  simp only [if_neg hm0]
  set m := qeMean h dt v
  have hphi : 0 < qeVariance h dt v / m ^ 2 := by positivity
  generalize qeVariance h dt v / m ^ 2 = phi at hphi ⊢
  rw [show (1.5 : ℝ) = 3 / 2 by norm_num]
  by_cases hc : phi ≤ 3 / 2
  · simp only [if_pos hc]
    have hx : 1 ≤ 2 / phi := by rw [one_le_div hphi]; linarith
    have hb : 0 ≤ 2 / phi - 1 + Real.sqrt (2 / phi * (2 / phi - 1)) := add_nonneg (by linarith) (Real.sqrt_nonneg _)
    have hsum : 2 / phi + Real.sqrt (2 / phi * (2 / phi - 1)) = 1 + (2 / phi - 1 + Real.sqrt (2 / phi * (2 / phi - 1))) := by ring
    rw [hsum]
    generalize 2 / phi - 1 + Real.sqrt (2 / phi * (2 / phi - 1)) = b2 at hb ⊢
    have hb1 : 0 < 1 + b2 := by linarith
    have e : (fun y => Real.exp (A * (m / (1 + b2) * (Real.sqrt b2 + y) ^ 2))) =
        fun y => Real.exp (A * m / (1 + b2) * (Real.sqrt b2 + y) ^ 2) := by
      funext y; congr 1; ring
    rw [e]
    have hiff : 2 * (A * m / (1 + b2)) < 1 ↔ 2 * A * m < 1 + b2 := by
      rw [show 2 * (A * m / (1 + b2)) = 2 * A * m / (1 + b2) by ring, div_lt_one hb1]
    refine ⟨fun hf => ?_, fun hf => quadratic_exp_infinite _ (not_lt.1 (fun hh => hf (hiff.1 hh)))⟩
    obtain ⟨i1, i2⟩ := quadratic_exp (Real.sqrt b2) (hiff.2 hf)
    refine ⟨i1, ?_⟩
    unfold normalMean
    rw [i2, Real.sq_sqrt hb]
    have hne : 1 + b2 - 2 * A * m ≠ 0 := (sub_pos.2 hf).ne'
    have e1 : A * m / (1 + b2) * b2 / (1 - 2 * (A * m / (1 + b2))) = A * m * b2 / (1 + b2 - 2 * A * m) := by
      have e3 : 1 - 2 * (A * m / (1 + b2)) = (1 + b2 - 2 * A * m) / (1 + b2) := by field_simp
      rw [e3, div_mul_eq_mul_div, div_div_div_cancel_right₀ hb1.ne']
    rw [e1, show 2 * (A * m / (1 + b2)) = 2 * A * m / (1 + b2) by ring]
  · simp only [if_neg hc]
    have hphi1 : 1 < phi := by linarith [not_le.1 hc]
    have hp0 : 0 < (phi - 1) / (phi + 1) := div_pos (by linarith) (by linarith)
    have hp1 : (phi - 1) / (phi + 1) < 1 := by rw [div_lt_one (by linarith)]; linarith
    obtain ⟨q1, q2⟩ := exponential_exp (p := (phi - 1) / (phi + 1)) (b := 1 / ((1 - (phi - 1) / (phi + 1)) / m)) (A := A) hp0 hp1
      (fun z => if 0 ≤ normCdf z ∧ normCdf z ≤ (phi - 1) / (phi + 1) then 0
        else if (phi - 1) / (phi + 1) < normCdf z ∧ normCdf z ≤ 1 then
          1 / ((1 - (phi - 1) / (phi + 1)) / m) * Real.log ((1 - (phi - 1) / (phi + 1)) / (1 - normCdf z)) else 0)
      (fun z hz => if_pos ⟨(normCdf_pos z).le, hz⟩)
      (fun z hz => by rw [if_neg (fun hh => absurd hh.2 (not_le.2 hz)), if_pos ⟨hz, (normCdf_lt_one z).le⟩]; rfl)
    have e1 : 1 - (phi - 1) / (phi + 1) = 2 / (phi + 1) := by field_simp; ring
    have e2 : A * (1 / ((1 - (phi - 1) / (phi + 1)) / m)) = A * m * (phi + 1) / 2 := by
      rw [e1]
      field_simp
    rw [e2] at q1 q2
    rw [e1] at q1
    unfold normalMean
    rw [e1] at q2 ⊢
    exact ⟨q1, fun hf => q2 (not_lt.1 hf)⟩

/-- The whole step: the mean of `correlatedGrowth` over the second draw, in terms of the mean `m` and the variance of the next variance, where it
is finite; elsewhere the simulated spot has no finite mean. -/
theorem C107_growth (h : Heston) (hk : 0 < h.kappa) (hth : 0 ≤ h.theta) (hv : 0 ≤ h.var0) (hvv : h.vv ≠ 0) (tau : ℝ)
    (htau : 0 < tau) (n : Nat) (hn : n ≠ 0) (v : ℝ) (hv' : 0 ≤ v) (hpos : 0 < h.theta ∨ 0 < v) (M V : ℝ → ℝ) (hmom : VarianceMoments h v M V) :
    let dt := tau / n
    ∃ f : ℝ → ℝ,
      (∀ (S0 mu : ℝ) (z : Cube) (x : NanCube), z.steps = n → HestonSimulated .quadraticExponential h S0 mu tau z x → ∀ i s,
        varianceAt x i s = some v → varianceAt x (i + 1) s = some (f (z.get i 1 s))) ∧
      (TransformFinite (M dt) (V dt) (growthSlope h dt) →
        Integrable (fun y => correlatedGrowth h dt v (f y)) (gaussianReal 0 1) ∧
        normalMean (fun y => correlatedGrowth h dt v (f y)) =
          Real.exp (-h.rho / h.vv * h.kappa * h.theta * dt + (growthSlope h dt - 2 * h.rho / h.vv) * v) *
            schemeTransform (M dt) (V dt) (growthSlope h dt)) ∧
      (¬ TransformFinite (M dt) (V dt) (growthSlope h dt) → ¬ Integrable (fun y => correlatedGrowth h dt v (f y)) (gaussianReal 0 1)) := by
  intro dt
  have hdt : 0 < dt := div_pos htau (by exact_mod_cast Nat.pos_of_ne_zero hn)
  obtain ⟨hM, hV⟩ := moments_unique hk.ne' hmom dt
  rw [hM, hV]
  have hm0 : qeMean h dt v ≠ 0 := by
    have h1 : Real.exp (-h.kappa * dt) < 1 := Real.exp_lt_one_iff.2 (by nlinarith)
    have h2 := Real.exp_pos (-h.kappa * dt)
    unfold qeMean
    have h3 : 0 < h.theta * (1 - Real.exp (-h.kappa * dt)) + v * Real.exp (-h.kappa * dt) := by
      rcases hpos with hp | hp
      · have := mul_pos hp (sub_pos.2 h1)
        have := mul_nonneg hv' h2.le
        linarith
      · have := mul_pos hp h2
        have := mul_nonneg hth (sub_pos.2 h1).le
        linarith
    intro h4
    linarith
  obtain ⟨t1, t2⟩ := qe_transform hk hth hv' hvv hdt hm0 (growthSlope h dt)
  refine ⟨qeReal h dt v, ?_, ?_, ?_⟩
  · rintro S0 mu z x rfl ⟨chol, hx⟩ i s hvi
    obtain ⟨-, -, hd, L, -, -, -, -, hrow⟩ := hestonSimulate_ok hx
    have e0 := hrow i s
    have e1 := hrow (i + 1) s
    simp only [hestonRow, Prod.mk.injEq] at e0 e1
    obtain ⟨v', h1, h2, h3, -⟩ := qe_path (S0 := S0) (mu := mu) hk hth hv hvv hdt (fun i v => z.get i v s) i
    obtain rfl : v = v' := Option.some.inj (hvi.symm.trans (e0.2.trans h1))
    exact e1.2.trans h3
  · intro hf
    obtain ⟨i1, i2⟩ := t1 hf
    simp only [growth_split]
    refine ⟨i1.const_mul _, ?_⟩
    unfold normalMean at i2 ⊢
    rw [integral_const_mul, i2]
  · intro hf hi
    apply t2 hf
    simp only [growth_split] at hi
    have := hi.const_mul (Real.exp (-h.rho / h.vv * h.kappa * h.theta * dt + (growthSlope h dt - 2 * h.rho / h.vv) * v))⁻¹
    refine this.congr (ae_of_all _ (fun y => ?_))
    simp only
    rw [← mul_assoc, inv_mul_cancel₀ (Real.exp_pos _).ne', one_mul]

/-- With correlation the mean spot is in general not the forward, as the scheme has no martingale correction: started without variance, with
`η² > 3 κ θ` and a negative correlation, one step multiplies the forward by more than `(η² - 2 κ θ) / (η² + 2 κ θ)` times
`exp (|ρ| κ θ t / η)`, which grows beyond all bounds with the length of the step. -/
theorem C107_forward_biased (h : Heston) (hk : 0 < h.kappa) (hth : 0 < h.theta) (hv : h.var0 = 0) (hvv : 0 < h.vv)
    (hf : 3 * h.kappa * h.theta < h.vv ^ 2) (hr : h.rho < 0) (hr1 : h.rho ^ 2 ≤ 1) (mu tau : ℝ) (htau : 0 < tau) :
    ∃ g : ℝ → ℝ → ℝ,
      (∀ (S0 : ℝ) (z : Cube) (x : NanCube), 0 < S0 → z.steps = 1 → HestonSimulated .quadraticExponential h S0 mu tau z x → ∀ s,
        spotAt x 1 s = some (S0 * g (z.get 0 0 s) (z.get 0 1 s))) ∧
      (∀ y, Integrable (fun z0 => g z0 y) (gaussianReal 0 1)) ∧ Integrable (fun y => normalMean (fun z0 => g z0 y)) (gaussianReal 0 1) ∧
      Real.exp (mu * tau) * ((h.vv ^ 2 - 2 * h.kappa * h.theta) / (h.vv ^ 2 + 2 * h.kappa * h.theta) *
        Real.exp (-h.rho / h.vv * h.kappa * h.theta * tau)) < normalMean (fun y => normalMean (fun z0 => g z0 y)) := by
  have hE : 0 < 1 - Real.exp (-h.kappa * tau) := sub_pos.2 (Real.exp_lt_one_iff.2 (by nlinarith))
  have hm : qeMean h tau 0 = h.theta * (1 - Real.exp (-h.kappa * tau)) := by unfold qeMean; ring
  have hm0 : 0 < qeMean h tau 0 := hm ▸ mul_pos hth hE
  have hphi : qeVariance h tau 0 / qeMean h tau 0 ^ 2 = h.vv ^ 2 / (2 * h.kappa * h.theta) := by
    rw [hm]
    unfold qeVariance
    generalize 1 - Real.exp (-h.kappa * tau) = e at hE
    field_simp
    ring
  have hphi1 : 3 / 2 < h.vv ^ 2 / (2 * h.kappa * h.theta) := by
    rw [lt_div_iff₀ (by positivity)]
    linarith
  have hslope : growthSlope h tau < 0 := by
    unfold growthSlope
    have h1 : h.rho / h.vv * (1 + h.kappa * tau / 2) < 0 := mul_neg_of_neg_of_pos (div_neg_of_neg_of_pos hr hvv) (by positivity)
    have h2 : 0 ≤ h.rho ^ 2 * tau / 4 := by positivity
    linarith
  obtain ⟨t1, -⟩ := qe_transform hk hth.le (le_refl 0) hvv.ne' htau hm0.ne' (growthSlope h tau)
  have hneg : growthSlope h tau * qeMean h tau 0 * (h.vv ^ 2 / (2 * h.kappa * h.theta) + 1) / 2 < 0 := by
    have h1 := mul_neg_of_neg_of_pos hslope hm0
    have h2 : 0 < h.vv ^ 2 / (2 * h.kappa * h.theta) + 1 := by linarith
    have := mul_neg_of_neg_of_pos h1 h2
    linarith
  obtain ⟨i1, i2⟩ := t1 (by
    unfold TransformFinite
    simp only
    rw [hphi, if_neg (not_le.2 hphi1)]
    linarith)
  have hmean : ∀ y, normalMean (fun z0 => qeSpot h mu tau 1 0 z0 y) = Real.exp (mu * tau) *
      (Real.exp (-h.rho / h.vv * h.kappa * h.theta * tau) * Real.exp (growthSlope h tau * qeReal h tau 0 y)) := by
    intro y
    rw [(qeSpot_mean hk hth.le hr1 htau (le_refl 0)).2, growth_split, mul_zero, add_zero, one_mul]
  refine ⟨fun z0 y => qeSpot h mu tau 1 0 z0 y, ?_, fun y => (qeSpot_mean hk hth.le hr1 htau (le_refl 0)).1, ?_, ?_⟩
  · intro S0 z x hS hz hx s
    obtain ⟨S, v, -, -, h1, h2, -, h3⟩ := qe_spot_step hk hth.le hv.ge hr1 htau hS hx 0 s
    obtain ⟨h4, h5⟩ := qe_spot_zero hS hx s
    obtain rfl : S0 = S := Option.some.inj (h4.symm.trans h1)
    obtain rfl : h.var0 = v := Option.some.inj (h5.symm.trans h2)
    rw [h3, hz, hv]
    unfold qeSpot
    simp only [Nat.cast_one, div_one, one_mul]
  · simp only [hmean]
    exact (i1.const_mul _).const_mul _
  · simp only [hmean]
    unfold normalMean at i2 ⊢
    rw [integral_const_mul, integral_const_mul, i2]
    apply mul_lt_mul_of_pos_left _ (Real.exp_pos _)
    rw [mul_comm]
    apply mul_lt_mul_of_pos_left _ (Real.exp_pos _)
    unfold schemeTransform
    simp only
    rw [hphi, if_neg (not_le.2 hphi1)]
    have e : (h.vv ^ 2 - 2 * h.kappa * h.theta) / (h.vv ^ 2 + 2 * h.kappa * h.theta) =
        (h.vv ^ 2 / (2 * h.kappa * h.theta) - 1) / (h.vv ^ 2 / (2 * h.kappa * h.theta) + 1) := by
      field_simp
    rw [e]
    have : 0 < 2 / (h.vv ^ 2 / (2 * h.kappa * h.theta) + 1) /
        (1 - growthSlope h tau * qeMean h tau 0 * (h.vv ^ 2 / (2 * h.kappa * h.theta) + 1) / 2) :=
      div_pos (div_pos two_pos (by linarith)) (by linarith)
    linarith

/-! ## Along a whole path -/

theorem qeReal_measurable (h : Heston) (dt : ℝ) : Measurable (fun q : ℝ × ℝ => qeReal h dt q.1 q.2) := by
  have hm : Measurable (fun q : ℝ × ℝ => qeMean h dt q.1) := by unfold qeMean; fun_prop
  have hs : Measurable (fun q : ℝ × ℝ => qeVariance h dt q.1) := by unfold qeVariance; fun_prop
  have hp : Measurable (fun q : ℝ × ℝ => qeVariance h dt q.1 / qeMean h dt q.1 ^ 2) := hs.div (hm.pow_const 2)
  have hc : Measurable (fun q : ℝ × ℝ => normCdf q.2) := normCdf_continuous.measurable.comp measurable_snd
  unfold qeReal
  simp only
  refine Measurable.ite (measurableSet_eq_fun hm measurable_const) measurable_const ?_
  refine Measurable.ite (measurableSet_le hp measurable_const) ?_ ?_
  · exact (by fun_prop)
  · refine Measurable.ite ((measurableSet_le measurable_const hc).inter (measurableSet_le hc (by fun_prop))) measurable_const ?_
    refine Measurable.ite ((measurableSet_lt (by fun_prop) hc).inter (measurableSet_le hc measurable_const)) ?_ measurable_const
    exact (by fun_prop)

/-- The variances of a path from its second draws. -/
noncomputable def qeVariances (h : Heston) (dt : ℝ) (y : Nat → ℝ) : Nat → ℝ
  | 0 => h.var0
  | i + 1 => qeReal h dt (qeVariances h dt y i) (y i)

theorem qeVariances_measurable (h : Heston) (dt : ℝ) (i : Nat) : Measurable (fun y => qeVariances h dt y i) := by
  induction i with
  | zero => exact measurable_const
  | succ i ih => exact (qeReal_measurable h dt).comp (ih.prodMk (measurable_pi_apply i))

theorem qeVariances_nonneg {h : Heston} (hk : 0 < h.kappa) (hth : 0 ≤ h.theta) (hv : 0 ≤ h.var0) {dt : ℝ} (hdt : 0 < dt) (y : Nat → ℝ) (i : Nat) :
    0 ≤ qeVariances h dt y i := by
  induction i with
  | zero => exact hv
  | succ i ih => exact qe_nonneg hk hth ih hdt.le (y i)

/-- The part of a step of the log spot that is not proportional to the first draw. -/
noncomputable def qeDrift (h : Heston) (mu dt v w : ℝ) : ℝ :=
  mu * dt - dt * (v + w) / 2 / 2 + h.rho / h.vv * (w - v - h.kappa * h.theta * dt + h.kappa * (dt * (v + w) / 2))

theorem qe_whole_path {h : Heston} (hk : 0 < h.kappa) (hth : 0 ≤ h.theta) (hv : 0 ≤ h.var0) (hr : h.rho ^ 2 ≤ 1) {S0 mu tau : ℝ}
    (htau : 0 < tau) (hS : 0 < S0) {z : Cube} {x : NanCube} (hx : HestonSimulated .quadraticExponential h S0 mu tau z x) (y : Nat → ℝ) (s : Nat)
    (hy : ∀ j < z.steps, y j = z.get j 1 s) (i : Nat) (hi : i ≤ z.steps) :
    varianceAt x i s = some (qeVariances h (tau / z.steps) y i) ∧
      spotAt x i s = some (S0 * Real.exp (∑ j ∈ Finset.range i,
        (qeDrift h mu (tau / z.steps) (qeVariances h (tau / z.steps) y j) (qeVariances h (tau / z.steps) y (j + 1)) +
          Real.sqrt ((1 - h.rho ^ 2) * (tau / z.steps * (qeVariances h (tau / z.steps) y j + qeVariances h (tau / z.steps) y (j + 1)) / 2)) *
            z.get j 0 s))) := by
  induction i with
  | zero =>
    obtain ⟨h1, h2⟩ := qe_spot_zero hS hx s
    refine ⟨h2, ?_⟩
    rw [h1, Finset.range_zero, Finset.sum_empty, Real.exp_zero, mul_one]
  | succ i ih =>
    obtain ⟨i1, i2⟩ := ih (by omega)
    obtain ⟨S, v, -, -, h1, h2, h3, h4⟩ := qe_spot_step hk hth hv hr htau hS hx i s
    obtain rfl := Option.some.inj (i1.symm.trans h2)
    obtain rfl := Option.some.inj (i2.symm.trans h1)
    refine ⟨?_, ?_⟩
    · rw [h3, qeVariances, hy i (by omega)]
    · rw [h4, Finset.sum_range_succ, Real.exp_add, qeSpot]
      simp only [qeVariances, hy i (by omega), qeDrift, mul_assoc]

/-- If the draws are independent standard normals, the mean of a simulated spot is the forward times the mean of the product of `correlatedGrowth`
over the steps: the means are taken as integrals of nonnegative functions, so that either both are finite or none is. -/
theorem C107_mean_spot {Ω : Type} [MeasurableSpace Ω] (P : Measure Ω) (h : Heston) (hk : 0 < h.kappa) (hth : 0 ≤ h.theta) (hv : 0 ≤ h.var0)
    (hr : h.rho ^ 2 ≤ 1) (S0 mu tau : ℝ) (htau : 0 < tau) (hS : 0 < S0) (z : Ω → Cube) (x : Ω → NanCube) (n s : Nat) (hn : ∀ ω, (z ω).steps = n)
    (hz : StandardNormals P (fun (q : Fin n × Fin 2) ω => (z ω).get q.1 q.2 s))
    (hx : ∀ ω, HestonSimulated .quadraticExponential h S0 mu tau (z ω) (x ω)) :
    ∃ S V : Nat → Ω → ℝ, (∀ i ω, i ≤ n → spotAt (x ω) i s = some (S i ω) ∧ varianceAt (x ω) i s = some (V i ω)) ∧
      ∀ i ≤ n, Measurable (S i) ∧ Measurable (V i) ∧ (∀ ω, 0 < S i ω ∧ 0 ≤ V i ω) ∧
        ∫⁻ ω, ENNReal.ofReal (S i ω) ∂P = ∫⁻ ω, ENNReal.ofReal (S0 * Real.exp (mu * (i * (tau / n))) *
          ∏ j ∈ Finset.range i, correlatedGrowth h (tau / n) (V j ω) (V (j + 1) ω)) ∂P := by
  rcases Nat.eq_zero_or_pos n with rfl | hn0
  · have : IsProbabilityMeasure P := hz.indep.isProbabilityMeasure
    refine ⟨fun _ _ => S0, fun _ _ => h.var0, fun i ω hi => ?_, fun i hi => ⟨measurable_const, measurable_const, fun _ => ⟨hS, hv⟩, ?_⟩⟩
    · obtain rfl : i = 0 := by omega
      exact qe_spot_zero hS (hx ω) s
    · obtain rfl : i = 0 := by omega
      simp
  have hdt : 0 < tau / (n : ℝ) := div_pos htau (by exact_mod_cast hn0)
  let y : Ω → Nat → ℝ := drawsOf (fun j k ω => (z ω).get j k s) n 1
  have hym : Measurable y := drawsOf_measurable hz 1
  let c : Nat → (Nat → ℝ) → ℝ := fun j y => qeDrift h mu (tau / n) (qeVariances h (tau / n) y j) (qeVariances h (tau / n) y (j + 1))
  let d : Nat → (Nat → ℝ) → ℝ := fun j y =>
    Real.sqrt ((1 - h.rho ^ 2) * (tau / n * (qeVariances h (tau / n) y j + qeVariances h (tau / n) y (j + 1)) / 2))
  have hc : ∀ j, Measurable (c j) := by
    intro j
    have h1 := qeVariances_measurable h (tau / n) j
    have h2 := qeVariances_measurable h (tau / n) (j + 1)
    simp only [c, qeDrift]
    fun_prop
  have hd : ∀ j, Measurable (d j) := by
    intro j
    have h1 := qeVariances_measurable h (tau / n) j
    have h2 := qeVariances_measurable h (tau / n) (j + 1)
    simp only [d]
    fun_prop
  refine ⟨fun i ω => S0 * Real.exp (∑ j ∈ Finset.range i, (c j (y ω) + d j (y ω) * (z ω).get j 0 s)),
    fun i ω => qeVariances h (tau / n) (y ω) i, fun i ω hi => ?_, fun i hi => ⟨?_, ?_, fun ω => ⟨mul_pos hS (Real.exp_pos _), ?_⟩, ?_⟩⟩
  · obtain ⟨h1, h2⟩ := qe_whole_path hk hth hv hr htau hS (hx ω) (y ω) s (fun j hj => if_pos (hn ω ▸ hj)) i (by rw [hn ω]; exact hi)
    rw [hn ω] at h1 h2
    exact ⟨h2, h1⟩
  · refine (Real.measurable_exp.comp (Finset.measurable_sum _ fun j hj => ?_)).const_mul S0
    exact ((hc j).comp hym).add (((hd j).comp hym).mul (hz.measurable (⟨j, (Finset.mem_range.1 hj).trans_le hi⟩, 0)))
  · exact (qeVariances_measurable h (tau / n) i).comp hym
  · exact qeVariances_nonneg hk hth hv hdt (y ω) i
  · have key := conditional_exp (z := fun j k ω => (z ω).get j k s) hz c d hc hd hi
    have e1 : ∀ ω, ENNReal.ofReal (S0 * Real.exp (∑ j ∈ Finset.range i, (c j (y ω) + d j (y ω) * (z ω).get j 0 s))) =
        ENNReal.ofReal S0 * ENNReal.ofReal (Real.exp (∑ j ∈ Finset.range i, (c j (y ω) + d j (y ω) * (z ω).get j 0 s))) :=
      fun ω => ENNReal.ofReal_mul hS.le
    have e2 : ∀ ω, ENNReal.ofReal (S0 * Real.exp (mu * (i * (tau / n))) *
          ∏ j ∈ Finset.range i, correlatedGrowth h (tau / n) (qeVariances h (tau / n) (y ω) j) (qeVariances h (tau / n) (y ω) (j + 1))) =
        ENNReal.ofReal S0 * ENNReal.ofReal (Real.exp (∑ j ∈ Finset.range i, (c j (y ω) + d j (y ω) ^ 2 / 2))) := by
      intro ω
      rw [← ENNReal.ofReal_mul hS.le, mul_assoc]
      congr 2
      rw [Real.exp_sum]
      have e3 : Real.exp (mu * (i * (tau / n))) = ∏ j ∈ Finset.range i, Real.exp (mu * (tau / n)) := by
        rw [Finset.prod_const, Finset.card_range, ← Real.exp_nat_mul]
        congr 1
        ring
      rw [e3, ← Finset.prod_mul_distrib]
      refine Finset.prod_congr rfl fun j _ => ?_
      have h1 := qeVariances_nonneg hk hth hv hdt (y ω) j
      have h2 := qeVariances_nonneg hk hth hv hdt (y ω) (j + 1)
      simp only [c, d]
      rw [Real.sq_sqrt (mul_nonneg (sub_nonneg.2 hr) (by positivity)), correlatedGrowth, ← Real.exp_add, qeDrift]
      congr 1
      ring
    simp only [e1, e2]
    rw [lintegral_const_mul' _ _ ENNReal.ofReal_ne_top, lintegral_const_mul' _ _ ENNReal.ofReal_ne_top]
    exact congrArg _ key

/-- Without correlation every simulated spot has the forward as its mean. -/
theorem C107_uncorrelated {Ω : Type} [MeasurableSpace Ω] (P : Measure Ω) (h : Heston) (hk : 0 < h.kappa) (hth : 0 ≤ h.theta) (hv : 0 ≤ h.var0)
    (hr : h.rho = 0) (S0 mu tau : ℝ) (htau : 0 < tau) (hS : 0 < S0) (z : Ω → Cube) (x : Ω → NanCube) (n s : Nat) (hn : ∀ ω, (z ω).steps = n)
    (hz : StandardNormals P (fun (q : Fin n × Fin 2) ω => (z ω).get q.1 q.2 s))
    (hx : ∀ ω, HestonSimulated .quadraticExponential h S0 mu tau (z ω) (x ω)) (i : Nat) (hi : i ≤ n) :
    ∃ S : Ω → ℝ, (∀ ω, spotAt (x ω) i s = some (S ω)) ∧ Integrable S P ∧ ∫ ω, S ω ∂P = S0 * Real.exp (mu * (i * (tau / n))) := by
  have : IsProbabilityMeasure P := hz.indep.isProbabilityMeasure
  obtain ⟨S, V, h1, h2⟩ := C107_mean_spot P h hk hth hv (by rw [hr]; norm_num) S0 mu tau htau hS z x n s hn hz hx
  obtain ⟨m1, -, pos, h3⟩ := h2 i hi
  have hone : ∀ v w, correlatedGrowth h (tau / n) v w = 1 := by
    intro v w
    rw [correlatedGrowth, hr]
    simp
  simp only [hone, Finset.prod_const_one, mul_one, lintegral_const, measure_univ] at h3
  refine ⟨S i, fun ω => (h1 i ω hi).1, ⟨m1.aestronglyMeasurable, ?_⟩, ?_⟩
  · rw [hasFiniteIntegral_iff_ofReal (Filter.Eventually.of_forall fun ω => (pos ω).1.le), h3]
    exact ENNReal.ofReal_lt_top
  · rw [integral_eq_lintegral_of_nonneg_ae (Filter.Eventually.of_forall fun ω => (pos ω).1.le) m1.aestronglyMeasurable, h3,
      ENNReal.toReal_ofReal (mul_pos hS (Real.exp_pos _)).le]

/-! ## The Euler schemes -/

theorem normal_quadratic (a b c : ℝ) : normalMean (fun z => a + b * z + c * z ^ 2) = a + c := by
  have h := gauss_quartic a b c 0 0
  simp only [zero_mul, add_zero, mul_zero] at h
  exact h

theorem cholesky_two {M : Matrix (Fin 2) (Fin 2) ℝ} {r : ℝ} (hc : IsCholesky M !![1, r; r, 1]) :
    M 0 0 = 1 ∧ M 0 1 = 0 ∧ M 1 0 = r ∧ M 1 1 = Real.sqrt (1 - r ^ 2) ∧ r ^ 2 < 1 := by
  obtain ⟨hlow, hdiag, hM⟩ := hc
  have h01 : M 0 1 = 0 := hlow 0 1 (by decide)
  have e00 := congrFun (congrFun hM 0) 0
  have e10 := congrFun (congrFun hM 1) 0
  have e11 := congrFun (congrFun hM 1) 1
  simp only [Matrix.mul_apply, Fin.sum_univ_two, Matrix.transpose_apply, h01, mul_zero, add_zero, Matrix.of_apply, Matrix.cons_val_zero,
    Matrix.cons_val_one, Matrix.cons_val_fin_one, Matrix.cons_val'] at e00 e10 e11
  have h0 := hdiag 0
  have h1 := hdiag 1
  have h00 : M 0 0 = 1 := by nlinarith
  rw [h00, mul_one] at e10
  rw [e10] at e11
  have h11 : M 1 1 ^ 2 = 1 - r ^ 2 := by rw [sq, sq]; linarith
  refine ⟨h00, h01, e10, ?_, ?_⟩
  · rw [← h11, Real.sqrt_sq h1.le]
  · have := pow_pos h1 2
    linarith

/-- A step of the Euler schemes with a Cholesky factor of the correlation: the mean spot grows by the drift, but the variance of the return is
`1 + rho²` times the one of the model and that of the new variance `1 - rho²` times, because the transposed factor is applied to the draws. -/
theorem C107_euler_moments (method : HestonMethod) (hm : method = .eulerAbsorption ∨ method = .eulerReflection) (h : Heston) (mu tau : ℝ)
    (htau : 0 ≤ tau) (chol : Matrix (Fin 2) (Fin 2) ℝ → Except Err (Matrix (Fin 2) (Fin 2) ℝ)) (M : Matrix (Fin 2) (Fin 2) ℝ)
    (hM : chol !![1, h.rho; h.rho, 1] = .ok M) (hc : IsCholesky M !![1, h.rho; h.rho, 1]) (n : Nat) :
    ∃ (f : ℝ → ℝ → ℝ → ℝ → ℝ) (g : ℝ → ℝ → ℝ),
      (∀ S v, 0 ≤ v →
        let dt := tau / n
        let mean := fun q : ℝ → ℝ → ℝ => normalMean (fun y => normalMean (fun z0 => q z0 y))
        mean (fun z0 y => f S v z0 y) = S * (1 + mu * dt) ∧
        mean (fun z0 y => (f S v z0 y - S * (1 + mu * dt)) ^ 2) = S ^ 2 * (v * dt) * (1 + h.rho ^ 2) ∧
        mean (fun _ y => g v y) = v + h.kappa * (h.theta - v) * dt ∧
        mean (fun _ y => (g v y - (v + h.kappa * (h.theta - v) * dt)) ^ 2) = h.vv ^ 2 * (v * dt) * (1 - h.rho ^ 2) ∧
        mean (fun z0 y => (f S v z0 y - S * (1 + mu * dt)) * (g v y - (v + h.kappa * (h.theta - v) * dt))) =
          S * h.vv * (v * dt) * h.rho * Real.sqrt (1 - h.rho ^ 2)) ∧
      ∀ (S0 : ℝ) (z : Cube) (x : NanCube), z.steps = n → hestonSimulate chol method h S0 mu tau z = .ok x → ∀ i s, i < n →
        ∃ S v, 0 ≤ v ∧ spotAt x i s = some S ∧ varianceAt x i s = some v ∧ spotAt x (i + 1) s = some (f S v (z.get i 0 s) (z.get i 1 s)) ∧
          varianceAt x (i + 1) s = some (if i + 1 < n then (match method with
            | .eulerAbsorption => max 0 (g v (z.get i 1 s))
            | _ => |g v (z.get i 1 s)|) else g v (z.get i 1 s)) := by
  obtain ⟨m00, m01, m10, m11, hr⟩ := cholesky_two hc
  have hdt : 0 ≤ tau / (n : ℝ) := div_nonneg htau (Nat.cast_nonneg n)
  refine ⟨fun S v z0 y => S * (1 + mu * (tau / n) + Real.sqrt v * ((z0 + h.rho * y) * Real.sqrt (tau / n))),
    fun v y => v + h.kappa * (h.theta - v) * (tau / n) + h.vv * Real.sqrt v * (Real.sqrt (1 - h.rho ^ 2) * y * Real.sqrt (tau / n)), ?_, ?_⟩
  · intro S v hv
    have q1 := Real.sq_sqrt hv
    have q2 := Real.sq_sqrt hdt
    have q3 := Real.sq_sqrt (sub_nonneg.2 hr.le)
    simp only
    generalize Real.sqrt v = a at q1 ⊢
    generalize Real.sqrt (tau / n) = b at q2 ⊢
    generalize Real.sqrt (1 - h.rho ^ 2) = c at q3 ⊢
    generalize tau / (n : ℝ) = dt at q2 ⊢
    subst q1 q2
    refine ⟨?_, ?_, ?_, ?_, ?_⟩
    · have e : ∀ y z0, S * (1 + mu * b ^ 2 + a * ((z0 + h.rho * y) * b)) =
          (S * (1 + mu * b ^ 2) + S * a * b * h.rho * y) + S * a * b * z0 + 0 * z0 ^ 2 := fun y z0 => by ring
      simp only [e, normal_quadratic]
      have e2 : ∀ y, S * (1 + mu * b ^ 2) + S * a * b * h.rho * y + 0 = S * (1 + mu * b ^ 2) + S * a * b * h.rho * y + 0 * y ^ 2 :=
        fun y => by ring
      simp only [e2, normal_quadratic, add_zero]
    · have e : ∀ y z0, (S * (1 + mu * b ^ 2 + a * ((z0 + h.rho * y) * b)) - S * (1 + mu * b ^ 2)) ^ 2 =
          (S ^ 2 * a ^ 2 * b ^ 2 * h.rho ^ 2 * y ^ 2) + 2 * S ^ 2 * a ^ 2 * b ^ 2 * h.rho * y * z0 + S ^ 2 * a ^ 2 * b ^ 2 * z0 ^ 2 :=
        fun y z0 => by ring
      simp only [e, normal_quadratic]
      have e2 : ∀ y, S ^ 2 * a ^ 2 * b ^ 2 * h.rho ^ 2 * y ^ 2 + S ^ 2 * a ^ 2 * b ^ 2 =
          S ^ 2 * a ^ 2 * b ^ 2 + 0 * y + S ^ 2 * a ^ 2 * b ^ 2 * h.rho ^ 2 * y ^ 2 := fun y => by ring
      simp only [e2, normal_quadratic]
      ring
    · have e : ∀ y z0 : ℝ, a ^ 2 + h.kappa * (h.theta - a ^ 2) * b ^ 2 + h.vv * a * (c * y * b) =
          (a ^ 2 + h.kappa * (h.theta - a ^ 2) * b ^ 2 + h.vv * a * (c * y * b)) + 0 * z0 + 0 * z0 ^ 2 := fun y z0 => by ring
      have e2 : ∀ y, normalMean (fun _ => a ^ 2 + h.kappa * (h.theta - a ^ 2) * b ^ 2 + h.vv * a * (c * y * b)) =
          (a ^ 2 + h.kappa * (h.theta - a ^ 2) * b ^ 2) + h.vv * a * c * b * y + 0 * y ^ 2 := by
        intro y
        rw [funext (e y), normal_quadratic]
        ring
      simp only [e2, normal_quadratic, add_zero]
    · have e : ∀ y z0 : ℝ, (a ^ 2 + h.kappa * (h.theta - a ^ 2) * b ^ 2 + h.vv * a * (c * y * b) -
            (a ^ 2 + h.kappa * (h.theta - a ^ 2) * b ^ 2)) ^ 2 = (h.vv * a * (c * y * b)) ^ 2 + 0 * z0 + 0 * z0 ^ 2 := fun y z0 => by ring
      have e2 : ∀ y, normalMean (fun _ => (a ^ 2 + h.kappa * (h.theta - a ^ 2) * b ^ 2 + h.vv * a * (c * y * b) -
            (a ^ 2 + h.kappa * (h.theta - a ^ 2) * b ^ 2)) ^ 2) = 0 + 0 * y + h.vv ^ 2 * a ^ 2 * c ^ 2 * b ^ 2 * y ^ 2 := by
        intro y
        rw [funext (e y), normal_quadratic]
        ring
      simp only [e2, normal_quadratic]
      rw [q3]
      ring
    · have e : ∀ y z0, (S * (1 + mu * b ^ 2 + a * ((z0 + h.rho * y) * b)) - S * (1 + mu * b ^ 2)) *
            (a ^ 2 + h.kappa * (h.theta - a ^ 2) * b ^ 2 + h.vv * a * (c * y * b) - (a ^ 2 + h.kappa * (h.theta - a ^ 2) * b ^ 2)) =
          S * h.vv * a ^ 2 * b ^ 2 * h.rho * c * y ^ 2 + S * h.vv * a ^ 2 * b ^ 2 * c * y * z0 + 0 * z0 ^ 2 := fun y z0 => by ring
      simp only [e, normal_quadratic]
      have e2 : ∀ y, S * h.vv * a ^ 2 * b ^ 2 * h.rho * c * y ^ 2 + 0 = 0 + 0 * y + S * h.vv * a ^ 2 * b ^ 2 * h.rho * c * y ^ 2 :=
        fun y => by ring
      simp only [e2, normal_quadratic]
      ring
  · rintro S0 z x rfl hx i s hi
    obtain ⟨M', hM', -, -, hstep⟩ := C63_euler_scheme method hm h S0 mu tau htau chol z x hx s
    obtain rfl : M = M' := by rw [hM] at hM'; exact Except.ok.inj hM'
    obtain ⟨S, v, raw, h1, h2, h3, h4, h5⟩ := hstep i hi
    obtain ⟨-, v', h6, h7⟩ := C63_euler_partial method hm h S0 mu tau htau z x ⟨chol, hx⟩ i s
    obtain rfl : v = v' := Option.some.inj (h2.symm.trans h6)
    have hsteps : x.steps = z.steps + 1 := by
      obtain ⟨-, -, -, -, -, hs, -⟩ := hestonSimulate_ok hx
      exact hs
    have u0 : M.transpose.mulVec ![z.get i 0 s, z.get i 1 s] 0 = z.get i 0 s + h.rho * z.get i 1 s := by
      simp [Matrix.mulVec, dotProduct, Fin.sum_univ_two, Matrix.transpose_apply, m00, m10]
    have u1 : M.transpose.mulVec ![z.get i 0 s, z.get i 1 s] 1 = Real.sqrt (1 - h.rho ^ 2) * z.get i 1 s := by
      simp [Matrix.mulVec, dotProduct, Fin.sum_univ_two, Matrix.transpose_apply, m01, m11]
    simp only [u0, u1] at h3 h4
    refine ⟨S, v, h7 (by omega), h1, h2, h4, ?_⟩
    rw [h5, h3]
    rcases hm with rfl | rfl <;> rfl

/-! ## Concrete cases -/

/-- The parameters of a usual FX smile but for the correlation. -/
noncomputable def uncorrelatedHeston : Heston := { fxHeston with rho := 0 }

/-- Draws and simulations as `C107_uncorrelated` asks for: the draws are the coordinates of a product of normal distributions. -/
example (n : Nat) (hn : n ≠ 0) : ∃ x : (Fin n × Fin 2 → ℝ) → NanCube,
    ∃ z : (Fin n × Fin 2 → ℝ) → Cube, (∀ ω, (z ω).steps = n) ∧
      StandardNormals (Measure.infinitePi (fun _ : Fin n × Fin 2 => gaussianReal 0 1)) (fun (q : Fin n × Fin 2) ω => (z ω).get q.1 q.2 0) ∧
      ∀ ω, HestonSimulated .quadraticExponential uncorrelatedHeston 1.1 0.01 1 (z ω) (x ω) := by
  let z : (Fin n × Fin 2 → ℝ) → Cube := fun ω =>
    ⟨n, 2, 1, fun i v _ => if h : i < n ∧ v < 2 then ω (⟨i, h.1⟩, ⟨v, h.2⟩) else 0⟩
  have hx : ∀ ω, ∃ x, HestonSimulated .quadraticExponential uncorrelatedHeston 1.1 0.01 1 (z ω) x := by
    intro ω
    obtain ⟨x, hx⟩ := (C63_accepts (fun _ => .ok 1) .quadraticExponential uncorrelatedHeston 1.1 0.01 1 (z ω)).2
      ⟨rfl, hn, ⟨_, rfl⟩, fun _ => by constructor <;> norm_num [uncorrelatedHeston, fxHeston]⟩
    exact ⟨x, _, hx⟩
  choose x hx using hx
  refine ⟨x, z, fun _ => rfl, ?_, hx⟩
  have : (fun (q : Fin n × Fin 2) (ω : Fin n × Fin 2 → ℝ) => (z ω).get q.1 q.2 0) = fun q ω => ω q := by
    funext q ω
    exact dif_pos ⟨q.1.2, q.2.2⟩
  rw [this]
  exact exists_standardNormals _

/-- Parameters that meet the hypotheses of `C107_forward_biased`; for a single step of ten years its bound exceeds the forward. -/
example : let h : Heston := ⟨0, 1, 1, 0.02, -0.9⟩
    3 * h.kappa * h.theta < h.vv ^ 2 ∧ h.rho < 0 ∧ h.rho ^ 2 ≤ 1 ∧
      1 < (h.vv ^ 2 - 2 * h.kappa * h.theta) / (h.vv ^ 2 + 2 * h.kappa * h.theta) * Real.exp (-h.rho / h.vv * h.kappa * h.theta * 10) := by
  refine ⟨by norm_num, by norm_num, by norm_num, ?_⟩
  have := Real.add_one_le_exp (0.18 : ℝ)
  norm_num at this ⊢
  linarith

end Frm.Props
