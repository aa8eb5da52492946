import Verif.Props.C63
import Verif.Props.C72
import Verif.Proofs.QuadraticExponential

/-!
# C76: the quadratic-exponential scheme has the moments of Heston's variance
-/

namespace Frm
namespace Spec

set_option autoImplicit false

/-- The mean `M` and the variance `V`, as functions of time, of Heston's variance process
`dv = κ (θ - v) dt + η √v dW` started at `v`: `M' = κ (θ - M)`, `V' = η² M - 2 κ V`. -/
structure VarianceMoments (h : Heston) (v : ℝ) (M V : ℝ → ℝ) : Prop where
  start : M 0 = v ∧ V 0 = 0
  mean : ∀ t, HasDerivAt M (h.kappa * (h.theta - M t)) t
  variance : ∀ t, HasDerivAt V (h.vv ^ 2 * M t - 2 * h.kappa * V t) t

end Spec
end Frm

namespace Frm.Props
open Classical MeasureTheory ProbabilityTheory

set_option autoImplicit false

open Frm Frm.Spec

theorem exp_decay_hasDerivAt (k t : ℝ) : HasDerivAt (fun t => Real.exp (-k * t)) (-k * Real.exp (-k * t)) t := by
  have h1 : HasDerivAt (fun t : ℝ => -k * t) (-k) t := by simpa using (hasDerivAt_id t).const_mul (-k)
  exact h1.exp.congr_deriv (by ring)

theorem linear_ode_unique {f : ℝ → ℝ} {c : ℝ} (hf : ∀ t, HasDerivAt f (-c * f t) t) (h0 : f 0 = 0) (t : ℝ) : f t = 0 := by
  have hg : ∀ t, HasDerivAt (fun t => f t * Real.exp (c * t)) 0 t := by
    intro t
    have h1 : HasDerivAt (fun t : ℝ => c * t) c t := by simpa using (hasDerivAt_id t).const_mul c
    exact ((hf t).mul h1.exp).congr_deriv (by ring)
  have := is_const_of_deriv_eq_zero (fun t => (hg t).differentiableAt) (fun t => (hg t).deriv) t 0
  simp only [h0, zero_mul] at this
  rcases mul_eq_zero.1 this with h | h
  · exact h
  · exact absurd h (Real.exp_pos _).ne'

theorem moments_formula (h : Heston) (hk : h.kappa ≠ 0) (v : ℝ) : VarianceMoments h v (fun t => qeMean h t v) (fun t => qeVariance h t v) := by
  refine ⟨?_, ?_, ?_⟩
  · simp [qeMean, qeVariance]
  · intro t
    unfold qeMean
    exact (((exp_decay_hasDerivAt h.kappa t).const_mul (v - h.theta)).const_add h.theta).congr_deriv (by ring)
  · intro t
    unfold qeVariance qeMean
    have he := exp_decay_hasDerivAt h.kappa t
    have h1 : HasDerivAt (fun t => 1 - Real.exp (-h.kappa * t)) (-(-h.kappa * Real.exp (-h.kappa * t))) t := he.const_sub 1
    have h2 := ((he.const_mul (v * h.vv ^ 2)).div_const h.kappa).mul h1
    have h3 := (h1.pow 2).const_mul (h.theta * h.vv ^ 2 / (2 * h.kappa))
    refine (h2.add h3).congr_deriv ?_
    simp only [Nat.cast_ofNat, Nat.add_one_sub_one, pow_one, Nat.reduceSub]
    field_simp
    ring

theorem moments_unique {h : Heston} (hk : h.kappa ≠ 0) {v : ℝ} {M V : ℝ → ℝ} (hm : VarianceMoments h v M V) (t : ℝ) :
    M t = qeMean h t v ∧ V t = qeVariance h t v := by
  have hq := moments_formula h hk v
  have hM : ∀ t, M t = qeMean h t v := by
    intro t
    have := linear_ode_unique (f := fun t => M t - qeMean h t v) (c := h.kappa)
      (fun t => ((hm.mean t).sub (hq.mean t)).congr_deriv (by ring)) (by simp [hm.start.1, qeMean]) t
    linarith
  refine ⟨hM t, ?_⟩
  have := linear_ode_unique (f := fun t => V t - qeVariance h t v) (c := 2 * h.kappa)
    (fun t => ((hm.variance t).sub (hq.variance t)).congr_deriv (by rw [hM t]; ring)) (by simp [hm.start.2, qeVariance]) t
  linarith

theorem qe_moments {h : Heston} {dt v : ℝ} (hk : 0 < h.kappa) (hth : 0 ≤ h.theta) (hv : 0 ≤ v) (hvv : h.vv ≠ 0) (hdt : 0 < dt) :
    normalMean (qeReal h dt v) = qeMean h dt v ∧
      normalMean (fun z => (qeReal h dt v z - qeMean h dt v) ^ 2) = qeVariance h dt v := by
  have he0 := Real.exp_pos (-h.kappa * dt)
  have he1 : Real.exp (-h.kappa * dt) < 1 := Real.exp_lt_one_iff.2 (by nlinarith)
  have hm := qeMean_nonneg hk hth hv hdt.le
  by_cases hm0 : qeMean h dt v = 0
  · have hz : v = 0 ∧ h.theta = 0 := by
      unfold qeMean at hm0
      have a1 := mul_nonneg hv he0.le
      have a2 := mul_nonneg hth (sub_pos.2 he1).le
      have : v * Real.exp (-h.kappa * dt) = 0 := by nlinarith
      have hv0 : v = 0 := by rcases mul_eq_zero.1 this with h | h; exact h; exact absurd h he0.ne'
      have : h.theta * (1 - Real.exp (-h.kappa * dt)) = 0 := by nlinarith
      have ht0 : h.theta = 0 := by rcases mul_eq_zero.1 this with h | h; exact h; exact absurd h (sub_pos.2 he1).ne'
      exact ⟨hv0, ht0⟩
    have hs0 : qeVariance h dt v = 0 := by unfold qeVariance; rw [hz.1, hz.2]; ring
    have hstep : qeReal h dt v = fun _ => 0 := by
      funext z
      unfold qeReal
      simp only
      rw [if_pos hm0]
    rw [hstep, hm0, hs0]
    simp [normalMean]
  · have hmp : 0 < qeMean h dt v := lt_of_le_of_ne hm (Ne.symm hm0)
    have hsp : 0 < qeVariance h dt v := qeVariance_pos hk hth hv hvv hdt hm0
    set m := qeMean h dt v with hmdef
    set s2 := qeVariance h dt v with hsdef
    have hphi : 0 < s2 / m ^ 2 := by positivity
    have hs2 : s2 = s2 / m ^ 2 * m ^ 2 := by field_simp
    generalize hphidef : s2 / m ^ 2 = phi at hphi hs2
    by_cases hc : phi ≤ 1.5
    · have hx : 1 ≤ 2 / phi := by rw [one_le_div hphi]; norm_num at hc; linarith
      have hR := Real.sq_sqrt (mul_nonneg (le_trans zero_le_one hx) (sub_nonneg.2 hx))
      set X := 2 / phi with hX
      set R := Real.sqrt (X * (X - 1)) with hRdef
      have hR0 : 0 ≤ R := Real.sqrt_nonneg _
      have hb : 0 ≤ X - 1 + R := by linarith
      have hb1 : 0 < 1 + (X - 1 + R) := by linarith
      have hstep : qeReal h dt v = fun z => m / (1 + (X - 1 + R)) * (Real.sqrt (X - 1 + R) + z) ^ 2 := by
        funext z
        unfold qeReal
        simp only
        rw [← hmdef, ← hsdef, if_neg hm0, hphidef, if_pos hc]
      rw [hstep]
      obtain ⟨q1, q2⟩ := quadratic_moments (m / (1 + (X - 1 + R))) (Real.sqrt (X - 1 + R))
      have hmean : m = m / (1 + (X - 1 + R)) * (Real.sqrt (X - 1 + R) ^ 2 + 1) := by
        rw [Real.sq_sqrt hb]; field_simp; ring
      refine ⟨?_, ?_⟩
      · unfold normalMean
        rw [q1, ← hmean]
      · unfold normalMean
        rw [q2 m hmean, Real.sq_sqrt hb, hs2]
        have hphiX : phi = 2 / X := by rw [hX]; field_simp
        have hXp : 0 < X := by linarith
        rw [hphiX]
        field_simp
        nlinarith [hR]
    · have hphi1 : 1 < phi := by norm_num at hc; linarith
      have hp0 : 0 < (phi - 1) / (phi + 1) := div_pos (by linarith) (by linarith)
      have hp1 : (phi - 1) / (phi + 1) < 1 := by rw [div_lt_one (by linarith)]; linarith
      have hstep : ∀ z, qeReal h dt v z =
          if 0 ≤ normCdf z ∧ normCdf z ≤ (phi - 1) / (phi + 1) then 0
          else if (phi - 1) / (phi + 1) < normCdf z ∧ normCdf z ≤ 1 then
            1 / ((1 - (phi - 1) / (phi + 1)) / m) * Real.log ((1 - (phi - 1) / (phi + 1)) / (1 - normCdf z)) else 0 := by
        intro z
        unfold qeReal
        simp only
        rw [← hmdef, ← hsdef, if_neg hm0, hphidef, if_neg hc]
      obtain ⟨q1, q2⟩ := exponential_moments (p := (phi - 1) / (phi + 1)) (b := 1 / ((1 - (phi - 1) / (phi + 1)) / m)) hp0 hp1
        (qeReal h dt v)
        (fun z hz => by rw [hstep, if_pos ⟨(normCdf_pos z).le, hz⟩])
        (fun z hz => by rw [hstep, if_neg (fun hh => absurd hh.2 (not_le.2 hz)), if_pos ⟨hz, (normCdf_lt_one z).le⟩]; rfl)
      have hmean : m = 1 / ((1 - (phi - 1) / (phi + 1)) / m) * (1 - (phi - 1) / (phi + 1)) := by
        have : 1 - (phi - 1) / (phi + 1) ≠ 0 := (sub_pos.2 hp1).ne'
        field_simp
      refine ⟨?_, ?_⟩
      · unfold normalMean
        rw [q1, ← hmean]
      · unfold normalMean
        rw [q2 m hmean, hs2]
        have h1 : 1 - (phi - 1) / (phi + 1) = 2 / (phi + 1) := by field_simp; ring
        have h2 : 1 + (phi - 1) / (phi + 1) = 2 * phi / (phi + 1) := by field_simp; ring
        rw [h1, h2]
        field_simp

/-- On every path the next variance is one and the same function of the draw, which depends on the current variance and the step only; for
a standard normal draw its mean and variance are exactly those of Heston's variance process after the time step, started at the current
variance. -/
theorem C76_variance_moments (h : Heston) (hk : 0 < h.kappa) (hth : 0 ≤ h.theta) (hv : 0 ≤ h.var0) (hvv : h.vv ≠ 0) (tau : ℝ) (htau : 0 < tau)
    (n : Nat) (hn : n ≠ 0) (v : ℝ) (hv' : 0 ≤ v) (M V : ℝ → ℝ) (hmom : VarianceMoments h v M V) :
    ∃ f : ℝ → ℝ, normalMean f = M (tau / n) ∧ normalMean (fun y => (f y - M (tau / n)) ^ 2) = V (tau / n) ∧
      ∀ (S0 mu : ℝ) (z : Cube) (x : NanCube), z.steps = n → HestonSimulated .quadraticExponential h S0 mu tau z x → ∀ i s,
        varianceAt x i s = some v → varianceAt x (i + 1) s = some (f (z.get i 1 s)) := by
  have hdt : 0 < tau / (n : ℝ) := div_pos htau (by exact_mod_cast Nat.pos_of_ne_zero hn)
  obtain ⟨hM, hV⟩ := moments_unique hk.ne' hmom (tau / n)
  rw [hM, hV]
  obtain ⟨q1, q2⟩ := qe_moments hk hth hv' hvv hdt
  refine ⟨qeReal h (tau / n) v, q1, q2, ?_⟩
  rintro S0 mu z x rfl ⟨chol, hx⟩ i s hvi
  obtain ⟨-, -, hd, L, -, -, -, -, hrow⟩ := hestonSimulate_ok hx
  have e0 := hrow i s
  have e1 := hrow (i + 1) s
  simp only [hestonRow, Prod.mk.injEq] at e0 e1
  obtain ⟨v', h1, h2, h3, -⟩ := qe_path (S0 := S0) (mu := mu) hk hth hv hvv hdt (fun i v => z.get i v s) i
  obtain rfl : v = v' := Option.some.inj (hvi.symm.trans (e0.2.trans h1))
  exact e1.2.trans h3

/-- The moments exist. -/
theorem C76_moments_exist (h : Heston) (hk : h.kappa ≠ 0) (v : ℝ) : ∃ M V, VarianceMoments h v M V := ⟨_, _, moments_formula h hk v⟩

theorem qe_log_form {h : Heston} (hvv : h.vv ≠ 0) (mu dt v w z : ℝ) :
    mu * dt + -h.rho * h.kappa * h.theta / h.vv * dt +
      (0.5 * dt * (h.kappa * h.rho / h.vv - 0.5) - h.rho / h.vv) * v + (0.5 * dt * (h.kappa * h.rho / h.vv - 0.5) + h.rho / h.vv) * w +
      Real.sqrt (0.5 * dt * (1 - h.rho ^ 2) * v + 0.5 * dt * (1 - h.rho ^ 2) * w) * z =
    mu * dt - dt * (v + w) / 2 / 2 + h.rho / h.vv * (w - v - h.kappa * h.theta * dt + h.kappa * (dt * (v + w) / 2)) +
      Real.sqrt ((1 - h.rho ^ 2) * (dt * (v + w) / 2)) * z := by
  have hr : 0.5 * dt * (1 - h.rho ^ 2) * v + 0.5 * dt * (1 - h.rho ^ 2) * w = (1 - h.rho ^ 2) * (dt * (v + w) / 2) := by ring
  rw [hr]
  field_simp
  ring

/-- The log spot: with `I` the trapezium of the two variances over the step, it moves by the drift less half of `I`, plus the part of the
variance's innovation that is correlated, plus an independent part of variance `(1 - ρ²) I`. -/
theorem C76_log_spot (h : Heston) (hk : 0 < h.kappa) (hth : 0 ≤ h.theta) (hv : 0 ≤ h.var0) (hr : h.rho ^ 2 ≤ 1) (S0 mu tau : ℝ) (hS : 0 < S0)
    (htau : 0 < tau) (z : Cube) (x : NanCube) (hx : HestonSimulated .quadraticExponential h S0 mu tau z x) (i s : Nat) :
    spotAt x 0 s = some S0 ∧ varianceAt x 0 s = some h.var0 ∧
    ∃ S S' v v' : ℝ, spotAt x i s = some S ∧ spotAt x (i + 1) s = some S' ∧ varianceAt x i s = some v ∧ varianceAt x (i + 1) s = some v' ∧
      let dt := tau / z.steps
      let I := dt * (v + v') / 2
      Real.log S' = Real.log S + mu * dt - I / 2 + h.rho / h.vv * (v' - v - h.kappa * h.theta * dt + h.kappa * I) +
        Real.sqrt ((1 - h.rho ^ 2) * I) * z.get i 0 s := by
  obtain ⟨chol, hx⟩ := hx
  obtain ⟨-, hn, hd, L, -, -, -, -, hrow⟩ := hestonSimulate_ok hx
  have hdt : 0 < tau / (z.steps : ℝ) := div_pos htau (by exact_mod_cast Nat.pos_of_ne_zero hn)
  have e0 := hrow i s
  have e1 := hrow (i + 1) s
  have e2 := hrow 0 s
  simp only [hestonRow, Prod.mk.injEq] at e0 e1 e2
  obtain ⟨v, h1, h2, h3, h4⟩ := qe_path (S0 := S0) (mu := mu) hk hth hv (qe_divides hd).2 hdt (fun i v => z.get i v s) i
  obtain ⟨y, hy⟩ := qe_log_path (mu := mu) hk hth hv (qe_divides hd).2 hr hS hdt (fun i v => z.get i v s) i
  refine ⟨?_, e2.2, ?_⟩
  · rw [e2.1]
    show npExpSpot (if 0 < S0 then Npf.fin (Real.log S0) else if S0 = 0 then .negInf else .nan) = some S0
    rw [if_pos hS]
    exact congrArg some (Real.exp_log hS)
  · have e3 := e1.1
    rw [e0.1, e0.2, e1.2, h1, h3, hy, e3]
    rw [qePath] at h3 ⊢
    simp only at h3 ⊢
    rw [h3, h1, qe_log hr hdt.le h2 h4, hy]
    refine ⟨_, _, v, _, rfl, rfl, rfl, rfl, ?_⟩
    rw [Real.log_exp, Real.log_exp, qe_log_form (qe_divides hd).2]
    ring

end Frm.Props
