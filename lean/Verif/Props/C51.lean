import Verif.Props.C50

/-!
# C51: strike-from-delta inverts the delta
-/

namespace Frm
namespace Spec

set_option autoImplicit false

/-- The option on the market `m` with volatility, strike and type given. -/
def StrikeMarket.option (m : StrikeMarket) (vol K cp : ℝ) : GkRow := ⟨m.S0, m.tau, m.rd, m.rf, cp, K, vol, m.fwd⟩

/-- `d` is the option's spot delta as the pricing function reports it. -/
def HasSpotDelta (x : GkRow) (d : ℝ) : Prop := ∃ g, garmanKohlhagenGreeks [x] = .ok [g] ∧ g.spotDelta = some d

/-- `d` is the option's forward delta as the pricing function reports it. -/
def HasForwardDelta (x : GkRow) (d : ℝ) : Prop := ∃ g, garmanKohlhagenGreeks [x] = .ok [g] ∧ g.forwardDelta = some d

/-- `d` is the premium-adjusted spot delta: the spot delta less the premium in foreign currency. -/
def HasAdjustedSpotDelta (x : GkRow) (d : ℝ) : Prop :=
  ∃ g v s p, garmanKohlhagenGreeks [x] = .ok [g] ∧ g.spotDelta = some s ∧ garmanKohlhagenPrice [x] = .ok [v] ∧ v.price = some p ∧
    d = s - p / x.S0

/-- `d` is the premium-adjusted forward delta: the same, carried forward at the foreign rate. -/
def HasAdjustedForwardDelta (x : GkRow) (d : ℝ) : Prop :=
  ∃ e, HasAdjustedSpotDelta x e ∧ d = e * Real.exp (x.rf * x.tau)

/-- The numerical solver returns positive roots only. -/
def SolvesStrikes (solve : (ℝ → ℝ) → DeltaQuote → Except Err ℝ) : Prop := ∀ f q K, solve f q = .ok K → 0 < K ∧ f K = 0

/-- The market data is valid: positive spot, time and forward. -/
def MarketOk (m : StrikeMarket) : Prop := 0 < m.S0 ∧ 0 < m.tau ∧ ∀ F, m.fwd = some F → 0 < F

end Spec
end Frm

namespace Frm.Props
open Classical

set_option autoImplicit false

open Frm Frm.Spec

theorem forward_pos {m : StrikeMarket} (hm : MarketOk m) : 0 < m.forward := by
  unfold StrikeMarket.forward
  cases hf : m.fwd with
  | none => exact mul_pos hm.1 (Real.exp_pos _)
  | some F => exact hm.2.2 F hf

theorem option_ratio {m : StrikeMarket} (hm : MarketOk m) {vol K cp : ℝ} (hK : 0 < K) :
    let x := StrikeMarket.option m vol K cp
    x.S0 * Real.exp (-x.rf * x.tau) / (x.K * Real.exp (-gkRate x * x.tau)) = m.forward / K := by
  intro x
  have hF : m.S0 * Real.exp ((gkRate x - m.rf) * m.tau) = m.forward := by
    unfold StrikeMarket.forward
    cases hf : m.fwd with
    | none =>
      have : gkRate x = m.rd := by show (match m.fwd with | some F => _ | none => m.rd) = _; rw [hf]
      rw [this]
    | some F =>
      have : gkRate x = Real.log (F / m.S0) / m.tau + m.rf := by
        show (match m.fwd with | some F => Real.log (F / m.S0) / m.tau + m.rf | none => m.rd) = _; rw [hf]
      rw [this]
      have e : (Real.log (F / m.S0) / m.tau + m.rf - m.rf) * m.tau = Real.log (F / m.S0) := by
        have := hm.2.1.ne'
        field_simp
        ring
      rw [e, Real.exp_log (div_pos (hm.2.2 F hf) hm.1)]
      exact mul_div_cancel₀ _ hm.1.ne'
  rw [← hF]
  show m.S0 * Real.exp (-m.rf * m.tau) / (K * Real.exp (-gkRate x * m.tau)) = _
  have e : (gkRate x - m.rf) * m.tau = -m.rf * m.tau - -gkRate x * m.tau := by ring
  rw [e, Real.exp_sub]
  have := (Real.exp_pos (-gkRate x * m.tau)).ne'
  field_simp

/-- `d1` and `d2` of an option, in terms of the forward. -/
theorem option_facts {m : StrikeMarket} (hm : MarketOk m) {vol K cp : ℝ} (hK : 0 < K) (hv : 0 < vol) (hcp : cp = 1 ∨ cp = -1) :
    ∃ d1 d2, d1 = Real.log (m.forward / K) / (vol * Real.sqrt m.tau) + vol * Real.sqrt m.tau / 2 ∧ d2 = d1 - vol * Real.sqrt m.tau ∧
      (∃ g, garmanKohlhagenGreeks [StrikeMarket.option m vol K cp] = .ok [g] ∧
        g.spotDelta = some (cp * Real.exp (-m.rf * m.tau) * normCdf (cp * d1)) ∧ g.forwardDelta = some (cp * normCdf (cp * d1))) ∧
      HasAdjustedSpotDelta (StrikeMarket.option m vol K cp) (cp * Real.exp (-m.rf * m.tau) * (K / m.forward) * normCdf (cp * d2)) := by
  have hr := option_ratio hm (vol := vol) (cp := cp) hK
  simp only at hr
  have hvalid : gkValid (StrikeMarket.option m vol K cp) := ⟨hm.1, hm.2.1.le, hcp, hm.2.2⟩
  have e1 := gk_d1 (x := StrikeMarket.option m vol K cp) hm.1 hK hm.2.1 hv.ne'
  have e2 := gk_d2 (x := StrikeMarket.option m vol K cp) hm.1 hK hm.2.1 hv.ne'
  have ep := gkPrice_eq (x := StrikeMarket.option m vol K cp) hm.1 hK hm.2.1 hv.ne'
  have hd1 : bD1 ((StrikeMarket.option m vol K cp).S0 * Real.exp (-(StrikeMarket.option m vol K cp).rf * (StrikeMarket.option m vol K cp).tau))
      ((StrikeMarket.option m vol K cp).K * Real.exp (-gkRate (StrikeMarket.option m vol K cp) * (StrikeMarket.option m vol K cp).tau))
      ((StrikeMarket.option m vol K cp).vol * Real.sqrt (StrikeMarket.option m vol K cp).tau)
      = Real.log (m.forward / K) / (vol * Real.sqrt m.tau) + vol * Real.sqrt m.tau / 2 := by
    unfold bD1
    rw [hr]
    rfl
  have hd2 : bD2 ((StrikeMarket.option m vol K cp).S0 * Real.exp (-(StrikeMarket.option m vol K cp).rf * (StrikeMarket.option m vol K cp).tau))
      ((StrikeMarket.option m vol K cp).K * Real.exp (-gkRate (StrikeMarket.option m vol K cp) * (StrikeMarket.option m vol K cp).tau))
      ((StrikeMarket.option m vol K cp).vol * Real.sqrt (StrikeMarket.option m vol K cp).tau)
      = Real.log (m.forward / K) / (vol * Real.sqrt m.tau) + vol * Real.sqrt m.tau / 2 - vol * Real.sqrt m.tau := by
    unfold bD2
    rw [hd1]
    rfl
  rw [hd1] at e1
  rw [hd2] at e2
  have hg : ∃ g, garmanKohlhagenGreeks [StrikeMarket.option m vol K cp] = .ok [g] ∧
        g.spotDelta = some (cp * Real.exp (-m.rf * m.tau) * normCdf (cp * (Real.log (m.forward / K) / (vol * Real.sqrt m.tau) + vol * Real.sqrt m.tau / 2))) ∧
        g.forwardDelta = some (cp * normCdf (cp * (Real.log (m.forward / K) / (vol * Real.sqrt m.tau) + vol * Real.sqrt m.tau / 2))) := by
    unfold garmanKohlhagenGreeks
    rw [if_neg (by simpa using hvalid), List.map_cons, List.map_nil]
    refine ⟨_, rfl, ?_, ?_⟩ <;> unfold gkGreeks <;> simp only [e1] <;> rfl
  refine ⟨_, _, rfl, rfl, hg, ?_⟩
  obtain ⟨g, hg1, hg2, -⟩ := hg
  refine ⟨g, _, _, _, hg1, hg2, garmanKohlhagenPrice_of (by simpa using hvalid), ep, ?_⟩
  unfold blackF
  rw [hd1, hd2]
  set d1 := Real.log (m.forward / K) / (vol * Real.sqrt m.tau) + vol * Real.sqrt m.tau / 2
  show _ = cp * Real.exp (-m.rf * m.tau) * normCdf (cp * d1) -
    cp * (m.S0 * Real.exp (-m.rf * m.tau) * normCdf (cp * d1) -
      K * Real.exp (-gkRate (StrikeMarket.option m vol K cp) * m.tau) * normCdf (cp * (d1 - vol * Real.sqrt m.tau))) / m.S0
  have hr' : m.S0 * Real.exp (-m.rf * m.tau) / (K * Real.exp (-gkRate (StrikeMarket.option m vol K cp) * m.tau)) = m.forward / K := hr
  have hF := forward_pos hm
  have hS := hm.1
  have hE := Real.exp_pos (-gkRate (StrikeMarket.option m vol K cp) * m.tau)
  rw [div_eq_div_iff (mul_pos hK hE).ne' hK.ne'] at hr'
  have hk : K * Real.exp (-gkRate (StrikeMarket.option m vol K cp) * m.tau) = m.S0 * Real.exp (-m.rf * m.tau) * K / m.forward := by
    rw [eq_div_iff hF.ne']
    linarith
  rw [hk]
  field_simp
  ring

/-- The pieces of `d1` for a strike of the form the code uses. -/
theorem strike_d1 {F z s : ℝ} (hF : 0 < F) (hs : s ≠ 0) : Real.log (F / (F * Real.exp (-z * s + s ^ 2 / 2))) / s + s / 2 = z := by
  rw [div_mul_cancel_left₀ hF.ne', ← Real.exp_neg, Real.log_exp]
  field_simp
  ring

theorem npSign_cases {d : ℝ} (hd : d ≠ 0) : (npSign d = 1 ∨ npSign d = -1) ∧ npSign d * d = |d| := by
  unfold npSign
  rcases lt_or_gt_of_ne hd with h | h
  · rw [if_neg (not_lt.2 h.le), if_pos h, abs_of_neg h]; exact ⟨Or.inr rfl, by ring⟩
  · rw [if_pos h, abs_of_pos h]; exact ⟨Or.inl rfl, by ring⟩

theorem sq_s {v t : ℝ} (ht : 0 ≤ t) : (v * Real.sqrt t) ^ 2 = v ^ 2 * t := by rw [mul_pow, Real.sq_sqrt ht]

theorem normPpf_fin {p z : ℝ} (h : normPpf p = .fin z) : normCdf z = p := by
  unfold normPpf at h
  by_cases hx : ∃ x, normCdf x = p
  · rw [dif_pos hx] at h
    cases h
    exact hx.choose_spec
  · rw [dif_neg hx] at h
    split at h
    · cases h
    · split at h <;> cases h

theorem normPpf_of {p : ℝ} (h0 : 0 < p) (h1 : p < 1) : ∃ z, normPpf p = .fin z := by
  unfold normPpf
  rw [dif_pos (normCdf_surj h0 h1)]
  exact ⟨_, rfl⟩

theorem strike_ok {solve : (ℝ → ℝ) → DeltaQuote → Except Err ℝ} {m : StrikeMarket} {conv : DeltaConvention} {atm : AtmConvention}
    {quotes : List DeltaQuote} {out : List (Option ℝ)} (h : gkStrikeFromDelta solve m conv atm quotes = .ok out) :
    MarketOk m ∧ (∀ q ∈ quotes, 0 < q.vol ∧ -0.5 ≤ q.delta ∧ q.delta ≤ 0.5) ∧
      (match conv with
        | .regularSpot => Except.ok (quotes.map (regularStrike m true atm))
        | .regularForward => .ok (quotes.map (regularStrike m false atm))
        | .adjustedSpot => adjustedStrikes solve m true quotes
        | .adjustedForward => adjustedStrikes solve m false quotes) = .ok out := by
  unfold gkStrikeFromDelta at h
  split at h
  · cases h
  · rename_i hc
    push Not at hc
    exact ⟨hc.1, hc.2, h⟩

theorem regular_eq {m : StrikeMarket} {spot : Bool} {atm : AtmConvention} {q : DeltaQuote} (hn : ¬ (|q.delta| = 0.5 ∧ atm = .forward)) :
    regularStrike m spot atm q = match normPpf (if spot then npSign q.delta * q.delta * Real.exp (m.rf * m.tau) else npSign q.delta * q.delta) with
      | .fin z => some (m.forward * Real.exp (-npSign q.delta * z * q.vol * Real.sqrt m.tau + 0.5 * q.vol ^ 2 * m.tau))
      | _ => none := by
  unfold regularStrike
  simp only [if_neg hn]
  rfl

theorem regular_facts {m : StrikeMarket} (hm : MarketOk m) {spot : Bool} {atm : AtmConvention} {q : DeltaQuote} (hv : 0 < q.vol)
    (hd : q.delta ≠ 0) (hn : ¬ (|q.delta| = 0.5 ∧ atm = .forward)) {K : ℝ} (h : regularStrike m spot atm q = some K) :
    0 < K ∧ ∃ z d1, normCdf z = (if spot then |q.delta| * Real.exp (m.rf * m.tau) else |q.delta|) ∧ npSign q.delta * d1 = z ∧
      d1 = Real.log (m.forward / K) / (q.vol * Real.sqrt m.tau) + q.vol * Real.sqrt m.tau / 2 := by
  obtain ⟨hcp, habs⟩ := npSign_cases hd
  rw [regular_eq hn, habs] at h
  have hs : q.vol * Real.sqrt m.tau ≠ 0 := (mul_pos hv (Real.sqrt_pos.2 hm.2.1)).ne'
  have hcc : npSign q.delta * npSign q.delta = 1 := by rcases hcp with h | h <;> rw [h] <;> norm_num
  cases hz : normPpf (if spot then |q.delta| * Real.exp (m.rf * m.tau) else |q.delta|) with
  | fin z =>
    rw [hz] at h
    simp only [Option.some.injEq] at h
    have e : -npSign q.delta * z * q.vol * Real.sqrt m.tau + 0.5 * q.vol ^ 2 * m.tau
        = -(npSign q.delta * z) * (q.vol * Real.sqrt m.tau) + (q.vol * Real.sqrt m.tau) ^ 2 / 2 := by
      rw [sq_s hm.2.1.le]
      ring
    rw [e] at h
    refine ⟨by rw [← h]; exact mul_pos (forward_pos hm) (Real.exp_pos _), z, npSign q.delta * z, normPpf_fin hz, ?_, ?_⟩
    · rw [← mul_assoc, hcc, one_mul]
    · rw [← h]
      exact (strike_d1 (forward_pos hm) hs).symm
  | posInf => rw [hz] at h; cases h
  | negInf => rw [hz] at h; cases h
  | nan => rw [hz] at h; cases h

/-- RegularFx spot convention: the strike returned for a non-zero delta has exactly that spot delta (except at the money under the
forward at-the-money convention, see `C51_atm`). -/
theorem C51_regular_spot (solve : (ℝ → ℝ) → DeltaQuote → Except Err ℝ) (m : StrikeMarket) (atm : AtmConvention) (quotes : List DeltaQuote)
    (out : List (Option ℝ)) (h : gkStrikeFromDelta solve m .regularSpot atm quotes = .ok out) (i : Nat) (q : DeltaQuote)
    (hi : quotes[i]? = some q) (hd : q.delta ≠ 0) (hn : ¬ (|q.delta| = 0.5 ∧ atm = .forward)) :
    (∀ K, out[i]? = some (some K) → 0 < K ∧
      ((0 < q.delta ∧ HasSpotDelta (StrikeMarket.option m q.vol K 1) q.delta) ∨
       (q.delta < 0 ∧ HasSpotDelta (StrikeMarket.option m q.vol K (-1)) q.delta))) ∧
    (|q.delta| < Real.exp (-m.rf * m.tau) → ∃ K, out[i]? = some (some K)) := by
  obtain ⟨hm, hq, ho⟩ := strike_ok h
  simp only [Except.ok.injEq] at ho
  subst ho
  have hv := (hq q (List.mem_of_getElem? hi)).1
  have hoi : (quotes.map (regularStrike m true atm))[i]? = some (regularStrike m true atm q) := by simp [hi]
  constructor
  · intro K hK
    rw [hoi, Option.some.injEq] at hK
    obtain ⟨hK0, z, d1, hz, hcz, hd1⟩ := regular_facts hm hv hd hn hK
    simp only [if_true] at hz
    refine ⟨hK0, ?_⟩
    have he : Real.exp (-m.rf * m.tau) * Real.exp (m.rf * m.tau) = 1 := by rw [← Real.exp_add]; simp
    have key : ∀ cp, npSign q.delta = cp → (cp = 1 ∨ cp = -1) → HasSpotDelta (StrikeMarket.option m q.vol K cp) q.delta := by
      intro cp hc hcp
      obtain ⟨d1', d2', e1, -, ⟨g, hg1, hg2, -⟩, -⟩ := option_facts hm hK0 hv hcp
      refine ⟨g, hg1, ?_⟩
      rw [hg2, e1, ← hd1, ← hc, hcz, hz]
      have habs := (npSign_cases hd).2
      have hcc : npSign q.delta * npSign q.delta = 1 := by rw [hc]; rcases hcp with h | h <;> rw [h] <;> norm_num
      rw [← habs]
      congr 1
      linear_combination (npSign q.delta * npSign q.delta * q.delta) * he + q.delta * hcc
    rcases lt_or_gt_of_ne hd with h0 | h0
    · exact Or.inr ⟨h0, key (-1) (by unfold npSign; rw [if_neg (not_lt.2 h0.le), if_pos h0]) (Or.inr rfl)⟩
    · exact Or.inl ⟨h0, key 1 (by unfold npSign; rw [if_pos h0]) (Or.inl rfl)⟩
  · intro hlt
    rw [hoi, regular_eq hn, (npSign_cases hd).2]
    have hp0 : 0 < |q.delta| * Real.exp (m.rf * m.tau) := mul_pos (abs_pos.2 hd) (Real.exp_pos _)
    have hp1 : |q.delta| * Real.exp (m.rf * m.tau) < 1 := by
      have := mul_lt_mul_of_pos_right hlt (Real.exp_pos (m.rf * m.tau))
      rw [← Real.exp_add] at this
      simpa using this
    obtain ⟨z, hz⟩ := normPpf_of hp0 hp1
    simp only [if_true, hz]
    exact ⟨_, rfl⟩

/-- RegularFx forward convention: a strike is returned for every non-zero delta, and it has exactly that forward delta (except at the
money under the forward at-the-money convention, see `C51_atm`). -/
theorem C51_regular_forward (solve : (ℝ → ℝ) → DeltaQuote → Except Err ℝ) (m : StrikeMarket) (atm : AtmConvention) (quotes : List DeltaQuote)
    (out : List (Option ℝ)) (h : gkStrikeFromDelta solve m .regularForward atm quotes = .ok out) (i : Nat) (q : DeltaQuote)
    (hi : quotes[i]? = some q) (hd : q.delta ≠ 0) (hn : ¬ (|q.delta| = 0.5 ∧ atm = .forward)) :
    ∃ K, out[i]? = some (some K) ∧ 0 < K ∧
      ((0 < q.delta ∧ HasForwardDelta (StrikeMarket.option m q.vol K 1) q.delta) ∨
       (q.delta < 0 ∧ HasForwardDelta (StrikeMarket.option m q.vol K (-1)) q.delta)) := by
  obtain ⟨hm, hq, ho⟩ := strike_ok h
  simp only [Except.ok.injEq] at ho
  subst ho
  obtain ⟨hv, hlo, hhi⟩ := hq q (List.mem_of_getElem? hi)
  have hoi : (quotes.map (regularStrike m false atm))[i]? = some (regularStrike m false atm q) := by simp [hi]
  have hK : ∃ K, regularStrike m false atm q = some K := by
    rw [regular_eq hn, (npSign_cases hd).2]
    have hp1 : |q.delta| < 1 := by rw [abs_lt]; constructor <;> norm_num at * <;> linarith
    obtain ⟨z, hz⟩ := normPpf_of (abs_pos.2 hd) hp1
    simp only [Bool.false_eq_true, if_false, hz]
    exact ⟨_, rfl⟩
  obtain ⟨K, hK⟩ := hK
  obtain ⟨hK0, z, d1, hz, hcz, hd1⟩ := regular_facts hm hv hd hn hK
  simp only [Bool.false_eq_true, if_false] at hz
  refine ⟨K, by rw [hoi, hK], hK0, ?_⟩
  have key : ∀ cp, npSign q.delta = cp → (cp = 1 ∨ cp = -1) → HasForwardDelta (StrikeMarket.option m q.vol K cp) q.delta := by
    intro cp hc hcp
    obtain ⟨d1', d2', e1, -, ⟨g, hg1, -, hg2⟩, -⟩ := option_facts hm hK0 hv hcp
    refine ⟨g, hg1, ?_⟩
    rw [hg2, e1, ← hd1, ← hc, hcz, hz, ← (npSign_cases hd).2]
    have hcc : npSign q.delta * npSign q.delta = 1 := by rw [hc]; rcases hcp with h | h <;> rw [h] <;> norm_num
    congr 1
    linear_combination q.delta * hcc
  rcases lt_or_gt_of_ne hd with h0 | h0
  · exact Or.inr ⟨h0, key (-1) (by unfold npSign; rw [if_neg (not_lt.2 h0.le), if_pos h0]) (Or.inr rfl)⟩
  · exact Or.inl ⟨h0, key 1 (by unfold npSign; rw [if_pos h0]) (Or.inl rfl)⟩

/-- At the money, under the forward convention and either regular delta convention, the strike is forward-delta neutral: the
forward deltas of the call and the put are 0.5 and -0.5. -/
theorem C51_atm (solve : (ℝ → ℝ) → DeltaQuote → Except Err ℝ) (m : StrikeMarket) (conv : DeltaConvention)
    (hconv : conv = .regularSpot ∨ conv = .regularForward) (quotes : List DeltaQuote)
    (out : List (Option ℝ)) (h : gkStrikeFromDelta solve m conv .forward quotes = .ok out) (i : Nat) (q : DeltaQuote)
    (hi : quotes[i]? = some q) (hd : |q.delta| = 0.5) :
    ∃ K, out[i]? = some (some K) ∧ 0 < K ∧ HasForwardDelta (StrikeMarket.option m q.vol K 1) 0.5 ∧
      HasForwardDelta (StrikeMarket.option m q.vol K (-1)) (-0.5) := by
  obtain ⟨hm, hq, ho⟩ := strike_ok h
  have hv := (hq q (List.mem_of_getElem? hi)).1
  have hs : q.vol * Real.sqrt m.tau ≠ 0 := (mul_pos hv (Real.sqrt_pos.2 hm.2.1)).ne'
  have hr : ∀ spot, regularStrike m spot .forward q = some (m.forward * Real.exp (0.5 * q.vol ^ 2 * m.tau)) := by
    intro spot
    unfold regularStrike
    simp only [hd, true_and, if_true]
  have hoi : out[i]? = some (some (m.forward * Real.exp (0.5 * q.vol ^ 2 * m.tau))) := by
    rcases hconv with rfl | rfl <;> simp only [Except.ok.injEq] at ho <;> subst ho <;> simp [hi, hr]
  have hK0 : 0 < m.forward * Real.exp (0.5 * q.vol ^ 2 * m.tau) := mul_pos (forward_pos hm) (Real.exp_pos _)
  have hd1 : Real.log (m.forward / (m.forward * Real.exp (0.5 * q.vol ^ 2 * m.tau))) / (q.vol * Real.sqrt m.tau) + q.vol * Real.sqrt m.tau / 2 = 0 := by
    have e : 0.5 * q.vol ^ 2 * m.tau = -0 * (q.vol * Real.sqrt m.tau) + (q.vol * Real.sqrt m.tau) ^ 2 / 2 := by
      rw [sq_s hm.2.1.le]; ring
    rw [e]
    exact strike_d1 (forward_pos hm) hs
  refine ⟨_, hoi, hK0, ?_, ?_⟩
  · obtain ⟨d1, d2, e1, -, ⟨g, hg1, -, hg2⟩, -⟩ := option_facts hm hK0 hv (cp := 1) (Or.inl rfl)
    refine ⟨g, hg1, ?_⟩
    rw [hg2, e1, hd1, mul_zero, normCdf_zero]; norm_num
  · obtain ⟨d1, d2, e1, -, ⟨g, hg1, -, hg2⟩, -⟩ := option_facts hm hK0 hv (cp := -1) (Or.inr rfl)
    refine ⟨g, hg1, ?_⟩
    rw [hg2, e1, hd1, mul_zero, normCdf_zero]; norm_num

/-! ### Premium-adjusted conventions -/

theorem loop_cons_atm {solve : (ℝ → ℝ) → DeltaQuote → Except Err ℝ} {m : StrikeMarket} {spot : Bool} {last : Option ℝ} {q : DeltaQuote}
    {qs : List DeltaQuote} (h : q.delta = 0.5) : adjustedLoop solve m spot last (q :: qs) =
      (adjustedLoop solve m spot last qs).bind
        (fun rest => .ok (some (m.forward * Real.exp (-1 * 0.5 * q.vol ^ 2 * m.tau)) :: rest)) := by
  rw [adjustedLoop.eq_def]
  simp only [if_pos h]
  rfl

theorem loop_cons_other {solve : (ℝ → ℝ) → DeltaQuote → Except Err ℝ} {m : StrikeMarket} {spot : Bool} {last : Option ℝ} {q : DeltaQuote}
    {qs : List DeltaQuote} (h : q.delta ≠ 0.5) (h0 : q.delta ≠ 0) : adjustedLoop solve m spot last (q :: qs) =
      (solve (adjustedDeltaError m spot q) q).bind (fun K => (adjustedLoop solve m spot (some K) qs).bind (fun rest => .ok (some K :: rest))) := by
  rw [adjustedLoop.eq_def]
  simp only [if_neg h, if_neg h0]
  rfl

theorem loop_get {solve : (ℝ → ℝ) → DeltaQuote → Except Err ℝ} {m : StrikeMarket} {spot : Bool} :
    ∀ (quotes : List DeltaQuote) (last : Option ℝ) (out : List (Option ℝ)), adjustedLoop solve m spot last quotes = .ok out →
      ∀ (i : Nat) q, quotes[i]? = some q →
        (q.delta = 0.5 → out[i]? = some (some (m.forward * Real.exp (-1 * 0.5 * q.vol ^ 2 * m.tau)))) ∧
        (q.delta ≠ 0.5 → q.delta ≠ 0 → ∃ K, out[i]? = some (some K) ∧ solve (adjustedDeltaError m spot q) q = .ok K) := by
  intro quotes
  induction quotes with
  | nil => intro last out h i q hq; simp at hq
  | cons a as ih =>
    intro last out h i q hq
    have step : ∃ last' v rest, adjustedLoop solve m spot last' as = .ok rest ∧ out = v :: rest ∧
        (a.delta = 0.5 → v = some (m.forward * Real.exp (-1 * 0.5 * a.vol ^ 2 * m.tau))) ∧
        (a.delta ≠ 0.5 → a.delta ≠ 0 → ∃ K, v = some K ∧ solve (adjustedDeltaError m spot a) a = .ok K) := by
      by_cases h1 : a.delta = 0.5
      · rw [loop_cons_atm h1] at h
        cases hr : adjustedLoop solve m spot last as with
        | error e => rw [hr] at h; cases h
        | ok rest =>
          rw [hr] at h
          cases h
          exact ⟨last, _, rest, hr, rfl, fun _ => rfl, fun h2 => absurd h1 h2⟩
      · by_cases h0 : a.delta = 0
        · rw [adjustedLoop.eq_def] at h
          simp only [if_neg h1, if_pos h0] at h
          cases last with
          | none => cases h
          | some K =>
            simp only [bind, Except.bind] at h
            cases hr : adjustedLoop solve m spot (some K) as with
            | error e => rw [hr] at h; cases h
            | ok rest =>
              rw [hr] at h
              cases h
              exact ⟨some K, _, rest, hr, rfl, fun h2 => absurd h2 h1, fun _ h2 => absurd h0 h2⟩
        · rw [loop_cons_other h1 h0] at h
          cases hs : solve (adjustedDeltaError m spot a) a with
          | error e => rw [hs] at h; cases h
          | ok K =>
            rw [hs] at h
            simp only [Except.bind] at h
            cases hr : adjustedLoop solve m spot (some K) as with
            | error e => rw [hr] at h; cases h
            | ok rest =>
              rw [hr] at h
              cases h
              exact ⟨some K, _, rest, hr, rfl, fun h2 => absurd h2 h1, fun _ _ => ⟨K, rfl, rfl⟩⟩
    obtain ⟨last', v, rest, hr, rfl, ha, hb⟩ := step
    cases i with
    | zero =>
      simp only [List.getElem?_cons_zero, Option.some.injEq] at hq
      subst hq
      refine ⟨fun h => by rw [List.getElem?_cons_zero, ha h], fun h h0 => ?_⟩
      obtain ⟨K, e, hs⟩ := hb h h0
      exact ⟨K, by rw [List.getElem?_cons_zero, e], hs⟩
    | succ n =>
      simp only [List.getElem?_cons_succ] at hq ⊢
      exact ih last' rest hr n q hq

/-- The premium-adjusted delta of an option, under the spot or the forward convention. -/
def HasAdjustedDelta (spot : Bool) (x : GkRow) (d : ℝ) : Prop :=
  if spot then HasAdjustedSpotDelta x d else HasAdjustedForwardDelta x d

theorem adjusted_delta {m : StrikeMarket} (hm : MarketOk m) {spot : Bool} {vol K cp : ℝ} (hK : 0 < K) (hv : 0 < vol) (hcp : cp = 1 ∨ cp = -1) :
    HasAdjustedDelta spot (StrikeMarket.option m vol K cp)
      ((if spot then Real.exp (-m.rf * m.tau) else 1) * (cp * K / m.forward) *
        normCdf (cp * (Real.log (m.forward / K) - 0.5 * vol ^ 2 * m.tau) / (vol * Real.sqrt m.tau))) := by
  obtain ⟨d1, d2, e1, e2, -, ha⟩ := option_facts hm hK hv hcp
  have hs : vol * Real.sqrt m.tau ≠ 0 := (mul_pos hv (Real.sqrt_pos.2 hm.2.1)).ne'
  have hd2 : cp * (Real.log (m.forward / K) - 0.5 * vol ^ 2 * m.tau) / (vol * Real.sqrt m.tau) = cp * d2 := by
    have e : 0.5 * vol ^ 2 * m.tau = (vol * Real.sqrt m.tau) ^ 2 / 2 := by rw [sq_s hm.2.1.le]; ring
    rw [e2, e1, e]
    field_simp
    ring
  rw [hd2]
  have he : Real.exp (-m.rf * m.tau) * Real.exp (m.rf * m.tau) = 1 := by rw [← Real.exp_add]; simp
  unfold HasAdjustedDelta
  cases spot with
  | true =>
    simp only [if_true]
    convert ha using 1
    ring
  | false =>
    simp only [Bool.false_eq_true, if_false]
    refine ⟨_, ha, ?_⟩
    show _ = _ * Real.exp (m.rf * m.tau)
    linear_combination (-(cp * K / m.forward * normCdf (cp * d2))) * he

theorem adjusted_ok {solve : (ℝ → ℝ) → DeltaQuote → Except Err ℝ} {m : StrikeMarket} {atm : AtmConvention} {spot : Bool}
    {quotes : List DeltaQuote} {out : List (Option ℝ)}
    (h : gkStrikeFromDelta solve m (if spot then .adjustedSpot else .adjustedForward) atm quotes = .ok out) :
    MarketOk m ∧ (∀ q ∈ quotes, 0 < q.vol ∧ -0.5 ≤ q.delta ∧ q.delta ≤ 0.5) ∧ adjustedStrikes solve m spot quotes = .ok out := by
  obtain ⟨h1, h2, h3⟩ := strike_ok h
  cases spot <;> exact ⟨h1, h2, h3⟩

/-- Premium-adjusted conventions: the strike returned for a delta other than 0 and ±0.5 has exactly that premium-adjusted delta,
that is, delta less premium. -/
theorem C51_adjusted_partial (solve : (ℝ → ℝ) → DeltaQuote → Except Err ℝ) (hsolve : SolvesStrikes solve) (m : StrikeMarket)
    (spot : Bool) (atm : AtmConvention) (quotes : List DeltaQuote) (out : List (Option ℝ))
    (h : gkStrikeFromDelta solve m (if spot then .adjustedSpot else .adjustedForward) atm quotes = .ok out) (i : Nat) (q : DeltaQuote)
    (hi : quotes[i]? = some q) (hd : q.delta ≠ 0) (hn : |q.delta| ≠ 0.5) :
    ∃ K, out[i]? = some (some K) ∧ 0 < K ∧
      ((0 < q.delta ∧ HasAdjustedDelta spot (StrikeMarket.option m q.vol K 1) q.delta) ∨
       (q.delta < 0 ∧ HasAdjustedDelta spot (StrikeMarket.option m q.vol K (-1)) q.delta)) := by
  obtain ⟨hm, hq, ho⟩ := adjusted_ok h
  have hv := (hq q (List.mem_of_getElem? hi)).1
  unfold adjustedStrikes at ho
  rw [if_pos ⟨q, List.mem_of_getElem? hi, hn⟩] at ho
  have hne : q.delta ≠ 0.5 := fun e => hn (by rw [e]; norm_num [abs_of_pos])
  obtain ⟨K, hK, hsol⟩ := (loop_get quotes none out ho i q hi).2 hne hd
  obtain ⟨hK0, hroot⟩ := hsolve _ _ _ hsol
  refine ⟨K, hK, hK0, ?_⟩
  have key : ∀ cp, npSign q.delta = cp → (cp = 1 ∨ cp = -1) → HasAdjustedDelta spot (StrikeMarket.option m q.vol K cp) q.delta := by
    intro cp hc hcp
    have ha := adjusted_delta hm (spot := spot) hK0 hv hcp
    unfold adjustedDeltaError at hroot
    rw [hc] at hroot
    rwa [sub_eq_zero.1 hroot] at ha
  rcases lt_or_gt_of_ne hd with h0 | h0
  · exact Or.inr ⟨h0, key (-1) (by unfold npSign; rw [if_neg (not_lt.2 h0.le), if_pos h0]) (Or.inr rfl)⟩
  · exact Or.inl ⟨h0, key 1 (by unfold npSign; rw [if_pos h0]) (Or.inl rfl)⟩

theorem neutral_facts {m : StrikeMarket} (hm : MarketOk m) {spot : Bool} {vol : ℝ} (hv : 0 < vol) :
    let K := m.forward * Real.exp (-1 * 0.5 * vol ^ 2 * m.tau)
    0 < K ∧ HasAdjustedDelta spot (StrikeMarket.option m vol K 1) ((if spot then Real.exp (-m.rf * m.tau) else 1) * (K / m.forward) * 0.5) ∧
      HasAdjustedDelta spot (StrikeMarket.option m vol K (-1)) (-((if spot then Real.exp (-m.rf * m.tau) else 1) * (K / m.forward) * 0.5)) := by
  intro K
  have hF := forward_pos hm
  have hK0 : 0 < K := mul_pos hF (Real.exp_pos _)
  have hz : Real.log (m.forward / K) - 0.5 * vol ^ 2 * m.tau = 0 := by
    show Real.log (m.forward / (m.forward * Real.exp (-1 * 0.5 * vol ^ 2 * m.tau))) - _ = 0
    rw [div_mul_cancel_left₀ hF.ne', ← Real.exp_neg, Real.log_exp]
    ring
  refine ⟨hK0, ?_, ?_⟩
  · have ha := adjusted_delta hm (spot := spot) hK0 hv (Or.inl rfl)
    rw [hz, mul_zero, zero_div, normCdf_zero] at ha
    convert ha using 1
    ring
  · have ha := adjusted_delta hm (spot := spot) hK0 hv (Or.inr rfl)
    rw [hz, mul_zero, zero_div, normCdf_zero] at ha
    convert ha using 1
    ring

/-- Premium-adjusted conventions, at the money (0.5): the strike is premium-adjusted delta neutral, the deltas of call and put being
opposite. -/
theorem C51_adjusted_atm (solve : (ℝ → ℝ) → DeltaQuote → Except Err ℝ) (m : StrikeMarket)
    (spot : Bool) (atm : AtmConvention) (quotes : List DeltaQuote) (out : List (Option ℝ))
    (h : gkStrikeFromDelta solve m (if spot then .adjustedSpot else .adjustedForward) atm quotes = .ok out) (i : Nat) (q : DeltaQuote)
    (hi : quotes[i]? = some q) (hd : q.delta = 0.5) :
    ∃ K d, out[i]? = some (some K) ∧ 0 < K ∧ 0 < d ∧ HasAdjustedDelta spot (StrikeMarket.option m q.vol K 1) d ∧
      HasAdjustedDelta spot (StrikeMarket.option m q.vol K (-1)) (-d) := by
  obtain ⟨hm, hq, ho⟩ := adjusted_ok h
  have hv := (hq q (List.mem_of_getElem? hi)).1
  obtain ⟨hK0, h1, h2⟩ := neutral_facts hm (spot := spot) hv
  have hd0 : 0 < (if spot then Real.exp (-m.rf * m.tau) else 1) * (m.forward * Real.exp (-1 * 0.5 * q.vol ^ 2 * m.tau) / m.forward) * 0.5 := by
    have : 0 < (if spot then Real.exp (-m.rf * m.tau) else 1) := by cases spot <;> simp [Real.exp_pos]
    exact mul_pos (mul_pos this (div_pos hK0 (forward_pos hm))) (by norm_num)
  refine ⟨_, _, ?_, hK0, hd0, h1, h2⟩
  unfold adjustedStrikes at ho
  split at ho
  · exact (loop_get quotes none out ho i q hi).1 hd
  · cases ho
    simp [hi]

/-- The strike of a put quoted at the money (-0.5) depends on the other quotes of the call: alone, it is the delta-neutral strike;
beside a quote that is not at the money, it is another strike. -/
theorem C51_put_atm_inconsistent (solve : (ℝ → ℝ) → DeltaQuote → Except Err ℝ) (hsolve : SolvesStrikes solve) (m : StrikeMarket)
    (atm : AtmConvention) (vol : ℝ) (other : DeltaQuote) (hother : |other.delta| ≠ 0.5) (out out' : List (Option ℝ))
    (h : gkStrikeFromDelta solve m .adjustedForward atm [⟨vol, -0.5⟩] = .ok out)
    (h' : gkStrikeFromDelta solve m .adjustedForward atm [⟨vol, -0.5⟩, other] = .ok out') :
    ∃ K K', out[0]? = some (some K) ∧ out'[0]? = some (some K') ∧ K ≠ K' := by
  obtain ⟨hm, hq, ho⟩ := adjusted_ok (spot := false) h
  obtain ⟨-, -, ho'⟩ := adjusted_ok (spot := false) h'
  have hv : 0 < vol := (hq ⟨vol, -0.5⟩ (by simp)).1
  have habs : |(-0.5 : ℝ)| = 0.5 := by rw [abs_of_neg] <;> norm_num
  unfold adjustedStrikes at ho ho'
  rw [if_neg (by simp [habs])] at ho
  rw [if_pos ⟨other, by simp, hother⟩] at ho'
  obtain ⟨K', hK', hsol⟩ := (loop_get _ none out' ho' 0 ⟨vol, -0.5⟩ rfl).2 (by norm_num) (by norm_num)
  obtain ⟨hK0', hroot⟩ := hsolve _ _ _ hsol
  cases ho
  refine ⟨_, K', rfl, hK', ?_⟩
  intro e
  rw [← e] at hroot
  unfold adjustedDeltaError at hroot
  have hF := forward_pos hm
  have hz : Real.log (m.forward / (m.forward * Real.exp (-1 * 0.5 * vol ^ 2 * m.tau))) - 0.5 * vol ^ 2 * m.tau = 0 := by
    rw [div_mul_cancel_left₀ hF.ne', ← Real.exp_neg, Real.log_exp]
    ring
  have hsg : npSign (-0.5) = -1 := by unfold npSign; rw [if_neg (by norm_num), if_pos (by norm_num)]
  simp only [Bool.false_eq_true, if_false, hz, mul_zero, zero_div, normCdf_zero, hsg] at hroot
  have hlt : Real.exp (-1 * 0.5 * vol ^ 2 * m.tau) < 1 := by
    rw [Real.exp_lt_one_iff]
    have := mul_pos (pow_pos hv 2) hm.2.1
    linarith
  have e2 : -1 * (m.forward * Real.exp (-1 * 0.5 * vol ^ 2 * m.tau)) / m.forward = -Real.exp (-1 * 0.5 * vol ^ 2 * m.tau) := by
    field_simp
  rw [e2] at hroot
  generalize Real.exp (-1 * 0.5 * vol ^ 2 * m.tau) = E at hroot hlt
  norm_num at hroot
  linarith

/-- Premium-adjusted conventions, a quote of −0.5: beside a quote that is not at the money, the strike is one whose put has premium-adjusted delta −0.5;
when all quotes are at the money, it is the premium-adjusted delta-neutral strike. -/
theorem C51_adjusted_put_atm (solve : (ℝ → ℝ) → DeltaQuote → Except Err ℝ) (hsolve : SolvesStrikes solve) (m : StrikeMarket)
    (spot : Bool) (atm : AtmConvention) (quotes : List DeltaQuote) (out : List (Option ℝ))
    (h : gkStrikeFromDelta solve m (if spot then .adjustedSpot else .adjustedForward) atm quotes = .ok out) (i : Nat) (q : DeltaQuote)
    (hi : quotes[i]? = some q) (hd : q.delta = -0.5) :
    ((∃ q' ∈ quotes, |q'.delta| ≠ 0.5) → ∃ K, out[i]? = some (some K) ∧ 0 < K ∧
      HasAdjustedDelta spot (StrikeMarket.option m q.vol K (-1)) (-0.5)) ∧
    ((∀ q' ∈ quotes, |q'.delta| = 0.5) → ∃ K d, out[i]? = some (some K) ∧ 0 < K ∧ 0 < d ∧
      HasAdjustedDelta spot (StrikeMarket.option m q.vol K 1) d ∧ HasAdjustedDelta spot (StrikeMarket.option m q.vol K (-1)) (-d)) := by
  obtain ⟨hm, hq, ho⟩ := adjusted_ok h
  have hv := (hq q (List.mem_of_getElem? hi)).1
  unfold adjustedStrikes at ho
  constructor
  · intro hex
    rw [if_pos hex] at ho
    obtain ⟨K, hK, hsol⟩ := (loop_get quotes none out ho i q hi).2 (by rw [hd]; norm_num) (by rw [hd]; norm_num)
    obtain ⟨hK0, hroot⟩ := hsolve _ _ _ hsol
    refine ⟨K, hK, hK0, ?_⟩
    have ha := adjusted_delta hm (spot := spot) hK0 hv (Or.inr rfl : (-1 : ℝ) = 1 ∨ (-1 : ℝ) = -1)
    have hsg : npSign q.delta = -1 := by rw [hd]; unfold npSign; rw [if_neg (by norm_num), if_pos (by norm_num)]
    unfold adjustedDeltaError at hroot
    rw [hsg, hd] at hroot
    convert ha using 1
    linarith
  · intro hall
    rw [if_neg (by push Not; exact hall)] at ho
    cases ho
    obtain ⟨hK0, h1, h2⟩ := neutral_facts hm (spot := spot) hv
    refine ⟨_, _, by simp [hi], hK0, ?_, h1, h2⟩
    have : 0 < (if spot then Real.exp (-m.rf * m.tau) else 1) := by cases spot <;> simp [Real.exp_pos]
    exact mul_pos (mul_pos this (div_pos hK0 (forward_pos hm))) (by norm_num)

/-- The strike that the loop has solved last. -/
theorem loop_zero {solve : (ℝ → ℝ) → DeltaQuote → Except Err ℝ} {m : StrikeMarket} {spot : Bool} (q : DeltaQuote) (h0 : q.delta = 0) :
    ∀ (pre : List DeltaQuote) (last : Option ℝ) (post : List DeltaQuote), (∀ p ∈ pre, p.delta = 0.5) →
      (last = none → adjustedLoop solve m spot last (pre ++ q :: post) = .error .name) ∧
      (∀ K out, last = some K → adjustedLoop solve m spot last (pre ++ q :: post) = .ok out → out[pre.length]? = some (some K)) := by
  have hne : q.delta ≠ 0.5 := by rw [h0]; norm_num
  intro pre
  induction pre with
  | nil =>
    intro last post _
    constructor
    · rintro rfl
      rw [List.nil_append, adjustedLoop.eq_def]
      simp only [if_neg hne, if_pos h0]
    · rintro K out rfl h
      rw [List.nil_append, adjustedLoop.eq_def] at h
      simp only [if_neg hne, if_pos h0, bind, Except.bind] at h
      cases hr : adjustedLoop solve m spot (some K) post with
      | error e => rw [hr] at h; cases h
      | ok rest => rw [hr] at h; cases h; rfl
  | cons p pre ih =>
    intro last post hp
    obtain ⟨ih1, ih2⟩ := ih last post (fun x hx => hp x (List.mem_cons_of_mem _ hx))
    rw [List.cons_append, loop_cons_atm (hp p (by simp))]
    constructor
    · intro hl
      rw [ih1 hl]
      rfl
    · intro K out hl h
      cases hr : adjustedLoop solve m spot last (pre ++ q :: post) with
      | error e => rw [hr] at h; cases h
      | ok rest =>
        rw [hr] at h
        cases h
        simpa using ih2 K rest hl hr

theorem loop_after {solve : (ℝ → ℝ) → DeltaQuote → Except Err ℝ} {m : StrikeMarket} {spot : Bool} (p q : DeltaQuote) (hp : p.delta ≠ 0.5) (hp0 : p.delta ≠ 0)
    (h0 : q.delta = 0) (mid post : List DeltaQuote) (hmid : ∀ p ∈ mid, p.delta = 0.5) :
    ∀ (pre : List DeltaQuote) (last : Option ℝ) (out : List (Option ℝ)), adjustedLoop solve m spot last (pre ++ p :: (mid ++ q :: post)) = .ok out →
      ∃ K, solve (adjustedDeltaError m spot p) p = .ok K ∧ out[pre.length]? = some (some K) ∧ out[pre.length + 1 + mid.length]? = some (some K) := by
  intro pre
  induction pre with
  | nil =>
    intro last out h
    rw [List.nil_append, loop_cons_other hp hp0] at h
    cases hs : solve (adjustedDeltaError m spot p) p with
    | error e => rw [hs] at h; cases h
    | ok K =>
      rw [hs] at h
      simp only [Except.bind] at h
      cases hr : adjustedLoop solve m spot (some K) (mid ++ q :: post) with
      | error e => rw [hr] at h; cases h
      | ok rest =>
        rw [hr] at h
        cases h
        refine ⟨K, rfl, rfl, ?_⟩
        have := (loop_zero q h0 mid (some K) post hmid).2 K rest rfl hr
        simpa [Nat.add_comm] using this
  | cons a pre ih =>
    intro last out h
    have step : ∃ last' v rest, adjustedLoop solve m spot last' (pre ++ p :: (mid ++ q :: post)) = .ok rest ∧ out = v :: rest := by
      rw [List.cons_append, adjustedLoop.eq_def] at h
      simp only [bind, Except.bind] at h
      split at h
      · split at h
        · cases h
        · rename_i hr; cases h; exact ⟨_, _, _, hr, rfl⟩
      · split at h
        · split at h
          · cases h
          · split at h
            · cases h
            · rename_i hr; cases h; exact ⟨_, _, _, hr, rfl⟩
        · split at h
          · cases h
          · split at h
            · cases h
            · rename_i hr; cases h; exact ⟨_, _, _, hr, rfl⟩
    obtain ⟨last', v, rest, hr, rfl⟩ := step
    obtain ⟨K, k1, k2, k3⟩ := ih last' rest hr
    refine ⟨K, k1, by simpa using k2, ?_⟩
    have e : (a :: pre).length + 1 + mid.length = (pre.length + 1 + mid.length) + 1 := by simp; omega
    rw [e, List.getElem?_cons_succ]
    exact k3

/-- A delta of zero.  Regular conventions: no strike (`nan`).  Premium-adjusted conventions: preceded by at-the-money quotes alone, `NameError`; otherwise, the strike of
the last earlier quote that was solved, whatever its volatility. -/
theorem C51_zero_delta (solve : (ℝ → ℝ) → DeltaQuote → Except Err ℝ) (m : StrikeMarket) (atm : AtmConvention) (q : DeltaQuote) (h0 : q.delta = 0)
    (pre post : List DeltaQuote) :
    (∀ conv out, (conv = .regularSpot ∨ conv = .regularForward) → gkStrikeFromDelta solve m conv atm (pre ++ q :: post) = .ok out →
      out[pre.length]? = some none) ∧
    (∀ spot : Bool, (∀ p ∈ pre, p.delta = 0.5) → MarketOk m → (∀ p ∈ pre ++ q :: post, 0 < p.vol ∧ -0.5 ≤ p.delta ∧ p.delta ≤ 0.5) →
      gkStrikeFromDelta solve m (if spot then .adjustedSpot else .adjustedForward) atm (pre ++ q :: post) = .error .name) ∧
    (∀ (spot : Bool) (a mid : List DeltaQuote) (p : DeltaQuote) (out : List (Option ℝ)), pre = a ++ p :: mid → p.delta ≠ 0.5 → p.delta ≠ 0 →
      (∀ p ∈ mid, p.delta = 0.5) → gkStrikeFromDelta solve m (if spot then .adjustedSpot else .adjustedForward) atm (pre ++ q :: post) = .ok out →
      ∃ K, out[a.length]? = some (some K) ∧ out[pre.length]? = some (some K)) := by
  have hn : |q.delta| ≠ 0.5 := by rw [h0]; norm_num
  refine ⟨?_, ?_, ?_⟩
  · intro conv out hc h
    obtain ⟨hm, hq, ho⟩ := strike_ok h
    have hr : ∀ spot, regularStrike m spot atm q = none := by
      intro spot
      rw [regular_eq (fun hh => hn hh.1)]
      have hp : normPpf 0 = .negInf := by
        unfold normPpf
        rw [dif_neg, if_pos rfl]
        rintro ⟨x, hx⟩
        exact (normCdf_pos x).ne' hx
      cases spot <;> simp [h0, hp]
    rcases hc with rfl | rfl
    · cases ho; simp [hr]
    · cases ho; simp [hr]
  · intro spot hpre hm hq
    have ha : adjustedStrikes solve m spot (pre ++ q :: post) = .error .name := by
      unfold adjustedStrikes
      rw [if_pos ⟨q, by simp, hn⟩, (loop_zero q h0 pre none post hpre).1 rfl]
    unfold gkStrikeFromDelta
    rw [if_neg]
    · cases spot <;> exact ha
    · push Not
      exact ⟨hm, hq⟩
  · rintro spot a mid p out rfl hp hp0 hmid h
    obtain ⟨-, -, ho⟩ := adjusted_ok h
    unfold adjustedStrikes at ho
    rw [if_pos ⟨q, by simp, hn⟩] at ho
    rw [List.append_assoc, List.cons_append] at ho
    obtain ⟨K, -, k2, k3⟩ := loop_after p q hp hp0 h0 mid post hmid a none out ho
    refine ⟨K, k2, ?_⟩
    have e : (a ++ p :: mid).length = a.length + 1 + mid.length := by simp; omega
    rw [e]
    exact k3

/-- A market with quotes that the function accepts. -/
example : ∃ out, gkStrikeFromDelta (fun _ _ => .error .value) ⟨1.1, 1, 0.05, 0.02, none⟩ .regularForward .forward
    [⟨0.1, 0.25⟩, ⟨0.1, 0.5⟩, ⟨0.1, -0.1⟩] = .ok out := by
  refine ⟨[⟨0.1, 0.25⟩, ⟨0.1, 0.5⟩, ⟨0.1, -0.1⟩].map (regularStrike ⟨1.1, 1, 0.05, 0.02, none⟩ false .forward), ?_⟩
  unfold gkStrikeFromDelta
  rw [if_neg]
  push Not
  refine ⟨⟨by norm_num, by norm_num, fun F h => by cases h⟩, ?_⟩
  intro q hq
  simp only [List.mem_cons, List.not_mem_nil, or_false] at hq
  rcases hq with rfl | rfl | rfl <;> norm_num

/-- A solver that returns positive roots only and succeeds on some function. -/
example : ∃ solve, SolvesStrikes solve ∧ ∃ f q, solve f q = .ok 1 := by
  refine ⟨fun f _ => if f 1 = 0 then .ok 1 else .error .value, fun f q K h => ?_, fun _ => 0, ⟨0.1, 0.25⟩, by simp⟩
  by_cases h1 : f 1 = 0
  · simp only [if_pos h1] at h; cases h; exact ⟨one_pos, h1⟩
  · simp only [if_neg h1] at h; cases h

end Frm.Props
