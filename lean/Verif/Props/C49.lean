import Verif.Props.C47
import Mathlib.Analysis.SpecialFunctions.Sqrt

/-!
# C49: analytical greeks are the derivatives of the price

True for delta, vega and gamma.  Theta and rho are derivatives only in special cases, characterised below.
-/

namespace Frm.Props
open Classical Set Filter Topology

set_option autoImplicit false

open Frm Frm.Spec

theorem gkValid_regular {x : GkRow} (h : RegularFx x) : gkValid x :=
  ⟨h.1, h.2.2.1.le, h.2.2.2.2.1, fun F hF => by rw [h.2.2.2.2.2] at hF; cases hF⟩

theorem rate_regular {x : GkRow} (h : x.fwd = none) : gkRate x = x.rd := by unfold gkRate; rw [h]

theorem pricesAs_eq {f : ℝ → GkRow} {D : Set ℝ} {P : ℝ → ℝ} (h : PricesAs f D P) {y : ℝ} (hy : y ∈ D) (hf : RegularFx (f y)) :
    P y = blackF (f y).cp ((f y).S0 * Real.exp (-(f y).rf * (f y).tau)) ((f y).K * Real.exp (-(f y).rd * (f y).tau))
      ((f y).vol * Real.sqrt (f y).tau) := by
  obtain ⟨v, hv, hp⟩ := h y hy
  rw [garmanKohlhagenPrice_of (by simpa using gkValid_regular hf)] at hv
  simp only [List.map_cons, List.map_nil, Except.ok.injEq, List.cons.injEq, and_true] at hv
  subst hv
  have hp' : gkPrice (f y) = some (P y) := hp
  rw [gkPrice_eq hf.1 hf.2.1 hf.2.2.1 hf.2.2.2.1.ne', rate_regular hf.2.2.2.2.2] at hp'
  exact (Option.some.inj hp').symm

theorem greeks_eq {x : GkRow} (h : RegularFx x) {g : GkGreeks} (hg : garmanKohlhagenGreeks [x] = .ok [g]) :
    gkGreeks x = g := by
  unfold garmanKohlhagenGreeks at hg
  rw [if_neg (by simpa using gkValid_regular h)] at hg
  simpa using hg

/-- The greeks of a regular contract, in terms of `d1` and `d2`. -/
theorem greeks_formula {x : GkRow} (h : RegularFx x) {g : GkGreeks} (hg : garmanKohlhagenGreeks [x] = .ok [g]) :
    ∃ d1 d2, d1 = bD1 (x.S0 * Real.exp (-x.rf * x.tau)) (x.K * Real.exp (-x.rd * x.tau)) (x.vol * Real.sqrt x.tau) ∧
      d2 = bD2 (x.S0 * Real.exp (-x.rf * x.tau)) (x.K * Real.exp (-x.rd * x.tau)) (x.vol * Real.sqrt x.tau) ∧
      g.spotDelta = some (x.cp * Real.exp (-x.rf * x.tau) * normCdf (x.cp * d1)) ∧
      g.forwardDelta = some (x.cp * normCdf (x.cp * d1)) ∧
      g.vega = some (x.S0 * Real.sqrt x.tau * normPdf d1 * Real.exp (-x.rf * x.tau) * 0.01) ∧
      g.theta = some ((-(x.S0 * Real.exp (-x.rd * x.tau) * normPdf (d1 * x.cp) * x.vol) / (2 * Real.sqrt x.tau)
        + x.rf * Real.exp (-x.rf * x.tau) * x.S0 * normCdf (d1 * x.cp)
        - x.rd * Real.exp (-x.rd * x.tau) * x.K * normCdf (d2 * x.cp)) * 1 / 365.25) ∧
      g.gamma = some (0.01 * x.S0 * (Real.exp (-x.rf * x.tau) * normPdf d1 / (x.S0 * x.vol * Real.sqrt x.tau))) ∧
      g.rho = some (x.K * x.tau * Real.exp (-x.rf * x.tau) * normCdf (x.cp * d2) * 0.01) := by
  have hg' := greeks_eq h hg
  have e1 := gk_d1 h.1 h.2.1 h.2.2.1 h.2.2.2.1.ne'
  have e2 := gk_d2 h.1 h.2.1 h.2.2.1 h.2.2.2.1.ne'
  rw [rate_regular h.2.2.2.2.2] at e1 e2
  subst hg'
  refine ⟨_, _, rfl, rfl, ?_, ?_, ?_, ?_, ?_, ?_⟩ <;> unfold gkGreeks <;> simp only [e1, e2, Npf.signed, npCdf, npPdf, Option.map_some]
  · rw [if_neg h.2.2.1.ne', rate_regular h.2.2.2.2.2]
    simp only [Option.bind_some, mul_comm x.cp]
  · rw [if_neg (not_or.2 ⟨h.2.2.1.ne', h.2.2.2.1.ne'⟩)]

/-- Every regular contract has greeks, and all of them are numbers. -/
theorem C49_defined (x : GkRow) (h : RegularFx x) : ∃ g, garmanKohlhagenGreeks [x] = .ok [g] ∧ g.spotDelta.isSome ∧ g.forwardDelta.isSome ∧
    g.vega.isSome ∧ g.theta.isSome ∧ g.gamma.isSome ∧ g.rho.isSome := by
  have hg : garmanKohlhagenGreeks [x] = .ok [gkGreeks x] := by
    unfold garmanKohlhagenGreeks
    rw [if_neg (by simpa using gkValid_regular h)]
    rfl
  obtain ⟨d1, d2, -, -, h1, h2, h3, h4, h5, h6⟩ := greeks_formula h hg
  exact ⟨_, hg, by simp [h1], by simp [h2], by simp [h3], by simp [h4], by simp [h5], by simp [h6]⟩

theorem delta_deriv {x : GkRow} (h : RegularFx x) {P : ℝ → ℝ} (hP : PricesAs (fun S => { x with S0 := S }) (Ioi 0) P) {S : ℝ} (hS : 0 < S) :
    HasDerivAt P (x.cp * Real.exp (-x.rf * x.tau) *
      normCdf (x.cp * bD1 (S * Real.exp (-x.rf * x.tau)) (x.K * Real.exp (-x.rd * x.tau)) (x.vol * Real.sqrt x.tau))) S := by
  obtain ⟨h1, h2, h3, h4, h5, h6⟩ := h
  have hs : x.vol * Real.sqrt x.tau ≠ 0 := (mul_pos h4 (Real.sqrt_pos.2 h3)).ne'
  have hA : HasDerivAt (fun S : ℝ => S * Real.exp (-x.rf * x.tau)) (Real.exp (-x.rf * x.tau)) S := by
    simpa using (hasDerivAt_id S).mul_const (Real.exp (-x.rf * x.tau))
  have hd := black_hasDerivAt h5 hA (hasDerivAt_const S (x.K * Real.exp (-x.rd * x.tau)))
    (hasDerivAt_const S (x.vol * Real.sqrt x.tau)) (mul_pos hS (Real.exp_pos _)) (mul_pos h2 (Real.exp_pos _)) hs
  have he : P =ᶠ[𝓝 S] fun y => blackF x.cp (y * Real.exp (-x.rf * x.tau)) (x.K * Real.exp (-x.rd * x.tau)) (x.vol * Real.sqrt x.tau) := by
    filter_upwards [Ioi_mem_nhds hS] with y hy
    exact pricesAs_eq hP hy ⟨hy, h2, h3, h4, h5, h6⟩
  refine (hd.congr_of_eventuallyEq he).congr_deriv ?_
  ring

/-- Spot delta is the derivative of the price with respect to spot; forward delta is that of the price undiscounted at the foreign
rate. -/
theorem C49_delta (x : GkRow) (h : RegularFx x) (g : GkGreeks) (hg : garmanKohlhagenGreeks [x] = .ok [g]) (P : ℝ → ℝ)
    (hP : PricesAs (fun S => { x with S0 := S }) (Ioi 0) P) :
    ∃ δ φ, g.spotDelta = some δ ∧ g.forwardDelta = some φ ∧ HasDerivAt P δ x.S0 ∧
      HasDerivAt (fun S => P S * Real.exp (x.rf * x.tau)) φ x.S0 := by
  obtain ⟨d1, d2, e1, -, ed, ef, -⟩ := greeks_formula h hg
  have hd := delta_deriv h hP h.1
  refine ⟨_, _, ed, ef, by rw [e1]; exact hd, ?_⟩
  refine (hd.mul_const (Real.exp (x.rf * x.tau))).congr_deriv ?_
  rw [e1]
  have : Real.exp (-x.rf * x.tau) * Real.exp (x.rf * x.tau) = 1 := by rw [← Real.exp_add]; simp
  linear_combination (x.cp * normCdf (x.cp * bD1 (x.S0 * Real.exp (-x.rf * x.tau)) (x.K * Real.exp (-x.rd * x.tau)) (x.vol * Real.sqrt x.tau))) * this

/-- Vega is the price change for one percentage point of volatility, to first order. -/
theorem C49_vega (x : GkRow) (h : RegularFx x) (g : GkGreeks) (hg : garmanKohlhagenGreeks [x] = .ok [g]) (P : ℝ → ℝ)
    (hP : PricesAs (fun v => { x with vol := v }) (Ioi 0) P) :
    ∃ D, HasDerivAt P D x.vol ∧ g.vega = some (0.01 * D) := by
  obtain ⟨d1, d2, e1, -, -, -, ev, -⟩ := greeks_formula h hg
  obtain ⟨h1, h2, h3, h4, h5, h6⟩ := h
  have hs : x.vol * Real.sqrt x.tau ≠ 0 := (mul_pos h4 (Real.sqrt_pos.2 h3)).ne'
  have hsd : HasDerivAt (fun v : ℝ => v * Real.sqrt x.tau) (Real.sqrt x.tau) x.vol := by
    simpa using (hasDerivAt_id x.vol).mul_const (Real.sqrt x.tau)
  have hd := black_hasDerivAt h5 (hasDerivAt_const x.vol (x.S0 * Real.exp (-x.rf * x.tau)))
    (hasDerivAt_const x.vol (x.K * Real.exp (-x.rd * x.tau))) hsd (mul_pos h1 (Real.exp_pos _)) (mul_pos h2 (Real.exp_pos _)) hs
  have he : P =ᶠ[𝓝 x.vol] fun y => blackF x.cp (x.S0 * Real.exp (-x.rf * x.tau)) (x.K * Real.exp (-x.rd * x.tau)) (y * Real.sqrt x.tau) := by
    filter_upwards [Ioi_mem_nhds h4] with y hy
    exact pricesAs_eq hP hy ⟨h1, h2, h3, hy, h5, h6⟩
  refine ⟨_, hd.congr_of_eventuallyEq he, ?_⟩
  rw [ev, e1]
  congr 1
  ring

/-- Gamma is the change of delta for a one per cent change of spot, to first order. -/
theorem C49_gamma (x : GkRow) (h : RegularFx x) (g : GkGreeks) (hg : garmanKohlhagenGreeks [x] = .ok [g]) (P : ℝ → ℝ)
    (hP : PricesAs (fun S => { x with S0 := S }) (Ioi 0) P) :
    ∃ D2, HasDerivAt (deriv P) D2 x.S0 ∧ g.gamma = some (0.01 * x.S0 * D2) := by
  obtain ⟨d1, d2, e1, -, -, -, -, -, eg, -⟩ := greeks_formula h hg
  have he : deriv P =ᶠ[𝓝 x.S0] fun S => x.cp * Real.exp (-x.rf * x.tau) *
      normCdf (x.cp * bD1 (S * Real.exp (-x.rf * x.tau)) (x.K * Real.exp (-x.rd * x.tau)) (x.vol * Real.sqrt x.tau)) := by
    filter_upwards [Ioi_mem_nhds h.1] with y hy
    exact (delta_deriv h hP hy).deriv
  obtain ⟨h1, h2, h3, h4, h5, h6⟩ := h
  have hs : x.vol * Real.sqrt x.tau ≠ 0 := (mul_pos h4 (Real.sqrt_pos.2 h3)).ne'
  have hB : 0 < x.K * Real.exp (-x.rd * x.tau) := mul_pos h2 (Real.exp_pos _)
  have hE := Real.exp_pos (-x.rf * x.tau)
  have hq : HasDerivAt (fun S : ℝ => S * Real.exp (-x.rf * x.tau) / (x.K * Real.exp (-x.rd * x.tau)))
      (Real.exp (-x.rf * x.tau) / (x.K * Real.exp (-x.rd * x.tau))) x.S0 := by
    simpa using ((hasDerivAt_id x.S0).mul_const (Real.exp (-x.rf * x.tau))).div_const (x.K * Real.exp (-x.rd * x.tau))
  have hl := hq.log (div_pos (mul_pos h1 hE) hB).ne'
  have hd1 : HasDerivAt (fun S : ℝ => bD1 (S * Real.exp (-x.rf * x.tau)) (x.K * Real.exp (-x.rd * x.tau)) (x.vol * Real.sqrt x.tau))
      (1 / (x.S0 * (x.vol * Real.sqrt x.tau))) x.S0 := by
    unfold bD1
    refine ((hl.div_const (x.vol * Real.sqrt x.tau)).add_const ((x.vol * Real.sqrt x.tau) / 2)).congr_deriv ?_
    field_simp
  have hc := (normCdf_hasDerivAt (x.cp * bD1 (x.S0 * Real.exp (-x.rf * x.tau)) (x.K * Real.exp (-x.rd * x.tau)) (x.vol * Real.sqrt x.tau))).comp x.S0
    (hd1.const_mul x.cp)
  refine ⟨_, (hc.const_mul (x.cp * Real.exp (-x.rf * x.tau))).congr_of_eventuallyEq he, ?_⟩
  have hp : normPdf (x.cp * bD1 (x.S0 * Real.exp (-x.rf * x.tau)) (x.K * Real.exp (-x.rd * x.tau)) (x.vol * Real.sqrt x.tau)) = normPdf d1 := by
    rw [e1]
    rcases h5 with h | h <;> rw [h]
    · rw [one_mul]
    · rw [neg_one_mul, normPdf_neg]
  have hcc : x.cp * x.cp = 1 := by rcases h5 with h | h <;> rw [h] <;> norm_num
  rw [eg, hp]
  have e : x.cp * Real.exp (-x.rf * x.tau) * (normPdf d1 * (x.cp * (1 / (x.S0 * (x.vol * Real.sqrt x.tau)))))
      = (x.cp * x.cp) * (Real.exp (-x.rf * x.tau) * normPdf d1 / (x.S0 * x.vol * Real.sqrt x.tau)) := by
    field_simp
  rw [e, hcc, one_mul]

/-- The derivative of the price with respect to the time to expiry. -/
theorem theta_deriv {x : GkRow} (h : RegularFx x) {P : ℝ → ℝ} (hP : PricesAs (fun t => { x with tau := t }) (Ioi 0) P) {d1 d2 : ℝ}
    (e1 : d1 = bD1 (x.S0 * Real.exp (-x.rf * x.tau)) (x.K * Real.exp (-x.rd * x.tau)) (x.vol * Real.sqrt x.tau))
    (e2 : d2 = bD2 (x.S0 * Real.exp (-x.rf * x.tau)) (x.K * Real.exp (-x.rd * x.tau)) (x.vol * Real.sqrt x.tau)) :
    HasDerivAt P (x.cp * (-x.rf * (x.S0 * Real.exp (-x.rf * x.tau)) * normCdf (x.cp * d1)
        + x.rd * (x.K * Real.exp (-x.rd * x.tau)) * normCdf (x.cp * d2))
      + x.S0 * Real.exp (-x.rf * x.tau) * normPdf d1 * (x.vol / (2 * Real.sqrt x.tau))) x.tau := by
  obtain ⟨h1, h2, h3, h4, h5, h6⟩ := h
  have hst := Real.sqrt_pos.2 h3
  have hs : x.vol * Real.sqrt x.tau ≠ 0 := (mul_pos h4 hst).ne'
  have hexp : ∀ c : ℝ, HasDerivAt (fun t : ℝ => Real.exp (-c * t)) (Real.exp (-c * x.tau) * -c) x.tau := by
    intro c
    have : HasDerivAt (fun t : ℝ => -c * t) (-c) x.tau := by simpa using (hasDerivAt_id x.tau).const_mul (-c)
    exact this.exp
  have hsd : HasDerivAt (fun t : ℝ => x.vol * Real.sqrt t) (x.vol * (1 / (2 * Real.sqrt x.tau))) x.tau :=
    (Real.hasDerivAt_sqrt h3.ne').const_mul x.vol
  have hd := black_hasDerivAt h5 ((hexp x.rf).const_mul x.S0) ((hexp x.rd).const_mul x.K) hsd
    (mul_pos h1 (Real.exp_pos _)) (mul_pos h2 (Real.exp_pos _)) hs
  have he : P =ᶠ[𝓝 x.tau] fun y => blackF x.cp (x.S0 * Real.exp (-x.rf * y)) (x.K * Real.exp (-x.rd * y)) (x.vol * Real.sqrt y) := by
    filter_upwards [Ioi_mem_nhds h3] with y hy
    exact pricesAs_eq hP hy ⟨h1, h2, hy, h4, h5, h6⟩
  refine (hd.congr_of_eventuallyEq he).congr_deriv ?_
  rw [e1, e2]
  ring

/-- Theta, for a call whose two rates are equal, is the loss of value over one calendar day, to first order.  For a call with
different rates it is not.  Missing: it should be so for every contract. -/
theorem C49_theta_call_partial (x : GkRow) (h : RegularFx x) (hc : x.cp = 1) (g : GkGreeks) (hg : garmanKohlhagenGreeks [x] = .ok [g])
    (P : ℝ → ℝ) (hP : PricesAs (fun t => { x with tau := t }) (Ioi 0) P) :
    ∃ D, HasDerivAt P D x.tau ∧ (g.theta = some (-D / 365.25) ↔ x.rd = x.rf) := by
  obtain ⟨d1, d2, e1, e2, -, -, -, et, -, -⟩ := greeks_formula h hg
  refine ⟨_, theta_deriv h hP e1 e2, ?_⟩
  obtain ⟨h1, h2, h3, h4, h5, h6⟩ := h
  have hst := Real.sqrt_pos.2 h3
  rw [et, hc, Option.some.injEq]
  simp only [mul_one, one_mul]
  constructor
  · intro heq
    have hne : Real.exp (-x.rd * x.tau) = Real.exp (-x.rf * x.tau) := by
      have hpos : x.S0 * normPdf d1 * x.vol / (2 * Real.sqrt x.tau) ≠ 0 :=
        (div_pos (mul_pos (mul_pos h1 (normPdf_pos d1)) h4) (by linarith)).ne'
      apply mul_left_cancel₀ hpos
      have : x.S0 * normPdf d1 * x.vol / (2 * Real.sqrt x.tau) * (Real.exp (-x.rd * x.tau) - Real.exp (-x.rf * x.tau)) = 0 := by
        have h3' := congrArg (fun z => z * 365.25) heq
        rw [div_mul_cancel₀ _ (by norm_num), div_mul_cancel₀ _ (by norm_num)] at h3'
        have e : -(x.S0 * Real.exp (-x.rd * x.tau) * normPdf d1 * x.vol) / (2 * Real.sqrt x.tau)
          = -(x.S0 * normPdf d1 * x.vol / (2 * Real.sqrt x.tau) * Real.exp (-x.rd * x.tau)) := by ring
        have e' : x.S0 * Real.exp (-x.rf * x.tau) * normPdf d1 * (x.vol / (2 * Real.sqrt x.tau))
          = x.S0 * normPdf d1 * x.vol / (2 * Real.sqrt x.tau) * Real.exp (-x.rf * x.tau) := by ring
        rw [e, e'] at h3'
        linarith
      linarith
    have := Real.exp_injective hne
    have := mul_right_cancel₀ h3.ne' this
    linarith
  · intro heq
    rw [heq]
    ring

/-- For a put whose two rates are equal, theta is the loss of value over one calendar day exactly when the rates are zero. -/
theorem C49_theta_put_partial (x : GkRow) (h : RegularFx x) (hc : x.cp = -1) (hrate : x.rd = x.rf) (g : GkGreeks)
    (hg : garmanKohlhagenGreeks [x] = .ok [g]) (P : ℝ → ℝ) (hP : PricesAs (fun t => { x with tau := t }) (Ioi 0) P) :
    ∃ D, HasDerivAt P D x.tau ∧ (g.theta = some (-D / 365.25) ↔ x.rf = 0) := by
  obtain ⟨d1, d2, e1, e2, -, -, -, et, -, -⟩ := greeks_formula h hg
  refine ⟨_, theta_deriv h hP e1 e2, ?_⟩
  obtain ⟨h1, h2, h3, h4, h5, h6⟩ := h
  have hst := Real.sqrt_pos.2 h3
  have hput : 0 < blackF (-1) (x.S0 * Real.exp (-x.rf * x.tau)) (x.K * Real.exp (-x.rd * x.tau)) (x.vol * Real.sqrt x.tau) :=
    black_put_pos (mul_pos h1 (Real.exp_pos _)) (mul_pos h2 (Real.exp_pos _)) (mul_pos h4 hst)
  unfold blackF at hput
  rw [← e1, ← e2] at hput
  rw [et, hc, Option.some.injEq, show d1 * -1 = -1 * d1 by ring, show d2 * -1 = -1 * d2 by ring]
  have hp : normPdf (-1 * d1) = normPdf d1 := by rw [neg_one_mul, normPdf_neg]
  rw [hp]
  rw [hrate] at hput ⊢
  constructor
  · intro heq
    have h3' := congrArg (fun z => z * 365.25) heq
    rw [div_mul_cancel₀ _ (by norm_num), div_mul_cancel₀ _ (by norm_num)] at h3'
    have e : -(x.S0 * Real.exp (-x.rf * x.tau) * normPdf d1 * x.vol) / (2 * Real.sqrt x.tau)
      = -(x.S0 * Real.exp (-x.rf * x.tau) * normPdf d1 * (x.vol / (2 * Real.sqrt x.tau))) := by ring
    rw [e] at h3'
    have : x.rf * (-1 * (x.S0 * Real.exp (-x.rf * x.tau) * normCdf (-1 * d1) - x.K * Real.exp (-x.rf * x.tau) * normCdf (-1 * d2))) = 0 := by
      linarith
    exact (mul_eq_zero.1 this).resolve_right hput.ne'
  · intro heq
    rw [heq]
    ring

/-- Rho is one hundredth of the derivative of the price with respect to the domestic rate exactly for calls whose two rates are
equal.  Missing: it should be so for every contract. -/
theorem C49_rho_partial (x : GkRow) (h : RegularFx x) (g : GkGreeks) (hg : garmanKohlhagenGreeks [x] = .ok [g]) (P : ℝ → ℝ)
    (hP : PricesAs (fun r => { x with rd := r }) univ P) :
    ∃ D, HasDerivAt P D x.rd ∧ (g.rho = some (0.01 * D) ↔ x.cp = 1 ∧ x.rd = x.rf) := by
  obtain ⟨d1, d2, e1, e2, -, -, -, -, -, er⟩ := greeks_formula h hg
  obtain ⟨h1, h2, h3, h4, h5, h6⟩ := h
  have hs : x.vol * Real.sqrt x.tau ≠ 0 := (mul_pos h4 (Real.sqrt_pos.2 h3)).ne'
  have hexp : HasDerivAt (fun r : ℝ => Real.exp (-r * x.tau)) (Real.exp (-x.rd * x.tau) * -x.tau) x.rd := by
    have : HasDerivAt (fun r : ℝ => -r * x.tau) (-x.tau) x.rd := by simpa using (hasDerivAt_id x.rd).neg.mul_const x.tau
    exact this.exp
  have hd := black_hasDerivAt h5 (hasDerivAt_const x.rd (x.S0 * Real.exp (-x.rf * x.tau))) (hexp.const_mul x.K)
    (hasDerivAt_const x.rd (x.vol * Real.sqrt x.tau)) (mul_pos h1 (Real.exp_pos _)) (mul_pos h2 (Real.exp_pos _)) hs
  have he : P =ᶠ[𝓝 x.rd] fun y => blackF x.cp (x.S0 * Real.exp (-x.rf * x.tau)) (x.K * Real.exp (-y * x.tau)) (x.vol * Real.sqrt x.tau) := by
    filter_upwards with y
    exact pricesAs_eq hP (mem_univ y) ⟨h1, h2, h3, h4, h5, h6⟩
  refine ⟨_, hd.congr_of_eventuallyEq he, ?_⟩
  rw [er, ← e1, ← e2, Option.some.injEq]
  have hpos : 0 < x.K * x.tau * normCdf (x.cp * d2) := mul_pos (mul_pos h2 h3) (normCdf_pos _)
  have hE1 := Real.exp_pos (-x.rd * x.tau)
  have hE2 := Real.exp_pos (-x.rf * x.tau)
  have hl : x.K * x.tau * Real.exp (-x.rf * x.tau) * normCdf (x.cp * d2) * 0.01
      = 0.01 * (x.K * x.tau * normCdf (x.cp * d2)) * Real.exp (-x.rf * x.tau) := by ring
  have hr : 0.01 * (x.cp * (0 * normCdf (x.cp * d1) - x.K * (Real.exp (-x.rd * x.tau) * -x.tau) * normCdf (x.cp * d2))
      + x.S0 * Real.exp (-x.rf * x.tau) * normPdf d1 * 0)
      = 0.01 * (x.K * x.tau * normCdf (x.cp * d2)) * (x.cp * Real.exp (-x.rd * x.tau)) := by ring
  rw [hl, hr]
  have hne : (0.01 : ℝ) * (x.K * x.tau * normCdf (x.cp * d2)) ≠ 0 := (mul_pos (by norm_num) hpos).ne'
  constructor
  · intro heq
    have := mul_left_cancel₀ hne heq
    rcases h5 with hc | hc
    · rw [hc, one_mul] at this
      have := Real.exp_injective this
      have := mul_right_cancel₀ h3.ne' this
      exact ⟨hc, by linarith⟩
    · rw [hc] at this
      linarith
  · rintro ⟨hc, heq⟩
    rw [hc, heq]
    ring

/-- A one-year call at the money with different rates is a regular contract, and its price is a function of each of its terms. -/
example : RegularFx ⟨1.1, 1, 0.05, 0.02, 1, 1.1, 0.1, none⟩ ∧
    ∃ P, PricesAs (fun t => ⟨1.1, t, 0.05, 0.02, 1, 1.1, 0.1, none⟩) (Ioi 0) P := by
  have hreg : ∀ t : ℝ, 0 < t → RegularFx ⟨1.1, t, 0.05, 0.02, 1, 1.1, 0.1, none⟩ := fun t ht =>
    ⟨by norm_num, by norm_num, ht, by norm_num, Or.inl rfl, rfl⟩
  refine ⟨hreg 1 (by norm_num), fun t => (gkPrice ⟨1.1, t, 0.05, 0.02, 1, 1.1, 0.1, none⟩).getD 0, fun t ht => ?_⟩
  have hr := hreg t ht
  refine ⟨_, garmanKohlhagenPrice_of (by simpa using gkValid_regular hr), ?_⟩
  have e := gkPrice_eq hr.1 hr.2.1 hr.2.2.1 hr.2.2.2.1.ne'
  show gkPrice _ = some ((gkPrice _).getD 0)
  rw [e]
  rfl

/-! ## Without time or volatility -/

/-- The greeks of one contract. -/
theorem greeks_of {x : GkRow} (h : gkValid x) : garmanKohlhagenGreeks [x] = .ok [gkGreeks x] := by
  unfold garmanKohlhagenGreeks
  rw [if_neg (by simpa using h)]
  rfl

theorem log_sign {S K : ℝ} (hS : 0 < S) (hK : 0 < K) : (0 < Real.log (S / K) ↔ K < S) ∧ (Real.log (S / K) < 0 ↔ S < K) :=
  ⟨⟨fun h => by
      by_contra hle
      exact absurd (Real.log_nonpos (div_pos hS hK).le ((div_le_one hK).2 (not_lt.1 hle))) (not_le.2 h),
    fun h => Real.log_pos ((one_lt_div hK).2 h)⟩,
   ⟨fun h => by
      by_contra hle
      exact absurd (Real.log_nonneg ((one_le_div hK).2 (not_lt.1 hle))) (not_le.2 h),
    fun h => Real.log_neg (div_pos hS hK) ((div_lt_one hK).2 h)⟩⟩

/-- An infinite `d1` leaves deltas of one or zero, and no vega. -/
theorem infinite_d1 {x : GkRow} (hcp : x.cp = 1 ∨ x.cp = -1) {a : ℝ} (ha : a ≠ 0)
    (h1 : gkD1 x = if 0 < a then .posInf else if a < 0 then .negInf else .nan) (h2 : gkD2 x = gkD1 x) :
    npCdf ((gkD1 x).signed x.cp) = some (if 0 < x.cp * a then 1 else 0) ∧ npCdf ((gkD2 x).signed x.cp) = some (if 0 < x.cp * a then 1 else 0) ∧
      npPdf (gkD1 x) = some 0 ∧ npPdf ((gkD1 x).signed x.cp) = some 0 := by
  rw [h2, h1]
  rcases lt_or_gt_of_ne ha with h | h
  · rw [if_neg (not_lt.2 h.le), if_pos h]
    rcases hcp with hc | hc <;> rw [hc] <;> norm_num [Npf.signed, npCdf, npPdf, h, h.le]
  · rw [if_pos h]
    rcases hcp with hc | hc <;> rw [hc] <;> norm_num [Npf.signed, npCdf, npPdf, h, h.le]

/-- At expiry and priced from rates, away from the money: the deltas of an option in the money are its flag, those of one out of the money
zero; vega and rho are zero; theta and gamma are `nan`. -/
theorem C49_expiry (x : GkRow) (hS : 0 < x.S0) (hK : 0 < x.K) (hcp : x.cp = 1 ∨ x.cp = -1) (ht : x.tau = 0) (hv : 0 ≤ x.vol)
    (hf : x.fwd = none) (hne : x.S0 ≠ x.K) :
    garmanKohlhagenGreeks [x] = .ok [⟨some (if 0 < x.cp * (x.S0 - x.K) then x.cp else 0), some (if 0 < x.cp * (x.S0 - x.K) then x.cp else 0),
      some 0, none, none, some 0⟩] := by
  rw [greeks_of ⟨hS, ht.ge, hcp, fun F hF => by rw [hf] at hF; cases hF⟩]
  have hl := log_sign hS hK
  have ha : Real.log (x.S0 / x.K) ≠ 0 := by
    rcases lt_or_gt_of_ne hne with h | h
    · exact (hl.2.2 h).ne
    · exact (hl.1.2 h).ne'
  have h1 : gkD1 x = if 0 < Real.log (x.S0 / x.K) then .posInf else if Real.log (x.S0 / x.K) < 0 then .negInf else .nan := by
    unfold gkD1
    rw [if_neg (fun h => h.2 hf), if_neg (fun h => not_lt.2 hv h.2)]
    have e1 : Npf.divide x.S0 x.K = .fin (x.S0 / x.K) := by unfold Npf.divide; rw [if_pos hK.ne']
    have e2 : (Npf.fin (x.S0 / x.K)).log = .fin (Real.log (x.S0 / x.K)) := by
      show (if 0 < x.S0 / x.K then _ else _) = _
      rw [if_pos (div_pos hS hK)]
    rw [e1, e2, ht, Real.sqrt_zero, mul_zero, mul_zero]
    show Npf.divide (_ + 0) 0 = _
    unfold Npf.divide
    rw [if_neg (by simp), add_zero]
  have h2 : gkD2 x = gkD1 x := by
    unfold gkD2
    rw [ht, Real.sqrt_zero, mul_zero, neg_zero, h1]
    split_ifs <;> rfl
  obtain ⟨f1, f2, f3, f4⟩ := infinite_d1 hcp ha h1 h2
  have hsgn : 0 < x.cp * Real.log (x.S0 / x.K) ↔ 0 < x.cp * (x.S0 - x.K) := by
    rcases hcp with h | h <;> rw [h]
    · rw [one_mul, one_mul, hl.1, sub_pos]
    · rw [neg_one_mul, neg_one_mul, neg_pos, neg_pos, hl.2, sub_neg]
  simp only [hsgn] at f1 f2
  unfold gkGreeks
  rw [f1, f2, f3, ht]
  simp

/-- At the money at expiry, or with a forward at expiry, every greek is `nan`. -/
theorem C49_expiry_nan (x : GkRow) (hx : gkValid x) (hK : 0 < x.K) (ht : x.tau = 0) (h : x.S0 = x.K ∨ x.fwd ≠ none) :
    garmanKohlhagenGreeks [x] = .ok [⟨none, none, none, none, none, none⟩] := by
  rw [greeks_of hx]
  have h1 : gkD1 x = .nan := by
    unfold gkD1
    by_cases hf : x.fwd = none
    · have hS := h.resolve_right (not_not.2 hf)
      rw [if_neg (fun h => h.2 hf), ht, hS, Real.sqrt_zero, mul_zero, mul_zero]
      have e1 : Npf.divide x.K x.K = .fin 1 := by unfold Npf.divide; rw [if_pos hK.ne', div_self hK.ne']
      have e2 : (Npf.fin 1).log = .fin 0 := by
        show (if (0 : ℝ) < 1 then _ else _) = _
        rw [if_pos one_pos, Real.log_one]
      have e3 : Npf.divide 0 0 = .nan := by unfold Npf.divide; norm_num
      rw [e1, e2]
      split_ifs
      · show (Npf.divide 0 0).signed (-1) = _
        rw [e3]; rfl
      · show Npf.divide (0 + 0) 0 = _
        rw [add_zero, e3]
    · rw [if_pos ⟨ht, hf⟩]
  have h2 : gkD2 x = .nan := by unfold gkD2; rw [h1]; rfl
  unfold gkGreeks
  rw [h1, h2, if_pos ht, if_pos (Or.inl ht)]
  rfl

/-- For a zero volatility, with the forward away from the strike: the deltas are those of the forward contract if it is in the money and
zero if not, vega is zero and gamma `nan`. -/
theorem C49_no_volatility (x : GkRow) (hS : 0 < x.S0) (hK : 0 < x.K) (hcp : x.cp = 1 ∨ x.cp = -1) (ht : 0 < x.tau) (hv : x.vol = 0)
    (hf : x.fwd = none) (hne : x.S0 * Real.exp ((x.rd - x.rf) * x.tau) ≠ x.K) :
    ∃ g, garmanKohlhagenGreeks [x] = .ok [g] ∧
      g.forwardDelta = some (if 0 < x.cp * (x.S0 * Real.exp ((x.rd - x.rf) * x.tau) - x.K) then x.cp else 0) ∧
      g.spotDelta = some (if 0 < x.cp * (x.S0 * Real.exp ((x.rd - x.rf) * x.tau) - x.K) then x.cp * Real.exp (-x.rf * x.tau) else 0) ∧
      g.vega = some 0 ∧ g.gamma = none ∧ g.theta.isSome ∧ g.rho.isSome := by
  refine ⟨_, greeks_of ⟨hS, ht.le, hcp, fun F hF => by rw [hf] at hF; cases hF⟩, ?_⟩
  have hF := mul_pos hS (Real.exp_pos ((x.rd - x.rf) * x.tau))
  have hl := log_sign hF hK
  have ha : Real.log (x.S0 * Real.exp ((x.rd - x.rf) * x.tau) / x.K) ≠ 0 := by
    rcases lt_or_gt_of_ne hne with h | h
    · exact (hl.2.2 h).ne
    · exact (hl.1.2 h).ne'
  have hlog : Real.log (x.S0 / x.K) + (x.rd - x.rf + 0.5 * 0 ^ 2) * x.tau = Real.log (x.S0 * Real.exp ((x.rd - x.rf) * x.tau) / x.K) := by
    rw [mul_div_right_comm, Real.log_mul (div_pos hS hK).ne' (Real.exp_pos _).ne', Real.log_exp]
    ring
  have h1 : gkD1 x = if 0 < Real.log (x.S0 * Real.exp ((x.rd - x.rf) * x.tau) / x.K) then .posInf
      else if Real.log (x.S0 * Real.exp ((x.rd - x.rf) * x.tau) / x.K) < 0 then .negInf else .nan := by
    unfold gkD1
    rw [if_neg (fun h => ht.ne' h.1), if_neg (fun h => ht.ne' h.1), rate_regular hf]
    have e1 : Npf.divide x.S0 x.K = .fin (x.S0 / x.K) := by unfold Npf.divide; rw [if_pos hK.ne']
    have e2 : (Npf.fin (x.S0 / x.K)).log = .fin (Real.log (x.S0 / x.K)) := by
      show (if 0 < x.S0 / x.K then _ else _) = _
      rw [if_pos (div_pos hS hK)]
    rw [e1, e2, hv, zero_mul]
    show Npf.divide _ 0 = _
    unfold Npf.divide
    rw [if_neg (by simp), hlog]
  have h2 : gkD2 x = gkD1 x := by
    unfold gkD2
    rw [hv, zero_mul, neg_zero, h1]
    split_ifs <;> rfl
  obtain ⟨f1, f2, f3, f4⟩ := infinite_d1 hcp ha h1 h2
  have hsgn : 0 < x.cp * Real.log (x.S0 * Real.exp ((x.rd - x.rf) * x.tau) / x.K) ↔ 0 < x.cp * (x.S0 * Real.exp ((x.rd - x.rf) * x.tau) - x.K) := by
    rcases hcp with h | h <;> rw [h]
    · rw [one_mul, one_mul, hl.1, sub_pos]
    · rw [neg_one_mul, neg_one_mul, neg_pos, neg_pos, hl.2, sub_neg]
  simp only [hsgn] at f1 f2
  unfold gkGreeks
  simp only [f1, f2, f3, f4, if_neg ht.ne', hv]
  refine ⟨?_, ?_, ?_, ?_, ?_, ?_⟩ <;> simp

/-- A call one per cent in the money at expiry, and the same with its forward supplied. -/
example : garmanKohlhagenGreeks [⟨1.01, 0, 0.05, 0.02, 1, 1, 0.1, none⟩] = .ok [⟨some 1, some 1, some 0, none, none, some 0⟩] ∧
    garmanKohlhagenGreeks [⟨1.01, 0, 0.05, 0.02, 1, 1, 0.1, some 1.01⟩] = .ok [⟨none, none, none, none, none, none⟩] := by
  constructor
  · have := C49_expiry ⟨1.01, 0, 0.05, 0.02, 1, 1, 0.1, none⟩ (by norm_num) (by norm_num) (Or.inl rfl) rfl (by norm_num) rfl (by norm_num)
    norm_num at this ⊢
    exact this
  · exact C49_expiry_nan _ ⟨by norm_num, le_rfl, Or.inl rfl, fun F hF => by cases hF; norm_num⟩ (by norm_num) rfl (Or.inr (by simp))

end Frm.Props
