import Verif.Model.StrikeBracket
import Verif.Proofs.AdjustedDelta
import Verif.Props.C51

/-!
# C51: which premium-adjusted strikes the bracketed searches find
-/

namespace Frm
namespace Spec

set_option autoImplicit false

/-- A bracketing root finder: it raises on values of the same sign, converges on continuous functions whose values at the ends are
not of the same sign, and what it returns as converged is a root within the bracket. -/
def FindsBracketedRoots (brent : (ℝ → ℝ) → ℝ × ℝ → BracketRun) : Prop :=
  ∀ (f : ℝ → ℝ) (a b : ℝ),
    (0 < f a * f b → brent f (a, b) = .raised) ∧
    (ContinuousOn f (Set.uIcc a b) → f a * f b ≤ 0 → ∃ x, brent f (a, b) = .stopped true x) ∧
    (∀ x, brent f (a, b) = .stopped true x → x ∈ Set.uIcc a b ∧ f x = 0)

/-- The forward is the one that interest rate parity gives. -/
def ParityForward (m : StrikeMarket) : Prop := ∀ F, m.fwd = some F → F = m.S0 * Real.exp ((m.rd - m.rf) * m.tau)

end Spec
end Frm

namespace Frm.Props
open Classical

set_option autoImplicit false

open Frm Frm.Spec Set

/-- `d2` of a strike on the forward `F`. -/
noncomputable def strikeX (F vol tau K : ℝ) : ℝ := (Real.log (F / K) - 0.5 * vol ^ 2 * tau) / (vol * Real.sqrt tau)

theorem strikeX_exp {F vol tau K : ℝ} (hF : 0 < F) (hv : 0 < vol) (ht : 0 < tau) (hK : 0 < K) :
    Real.exp (-(strikeX F vol tau K * (vol * Real.sqrt tau)) - (vol * Real.sqrt tau) ^ 2 / 2) = K / F := by
  have hs : vol * Real.sqrt tau ≠ 0 := (mul_pos hv (Real.sqrt_pos.2 ht)).ne'
  unfold strikeX
  rw [div_mul_cancel₀ _ hs, sq_s ht.le]
  have : -(Real.log (F / K) - 0.5 * vol ^ 2 * tau) - vol ^ 2 * tau / 2 = Real.log (K / F) := by
    rw [Real.log_div hF.ne' hK.ne', Real.log_div hK.ne' hF.ne']; ring
  rw [this, Real.exp_log (div_pos hK hF)]

theorem strikeX_anti {F vol tau : ℝ} (hF : 0 < F) (hv : 0 < vol) (ht : 0 < tau) : StrictAntiOn (strikeX F vol tau) (Ioi 0) := by
  intro a ha b hb hab
  rw [mem_Ioi] at ha hb
  unfold strikeX
  apply div_lt_div_of_pos_right _ (mul_pos hv (Real.sqrt_pos.2 ht))
  have : Real.log (F / b) < Real.log (F / a) := Real.log_lt_log (div_pos hF hb) (div_lt_div_of_pos_left hF ha hab)
  linarith

theorem strikeX_lt_iff {F vol tau a b : ℝ} (hF : 0 < F) (hv : 0 < vol) (ht : 0 < tau) (ha : 0 < a) (hb : 0 < b) :
    strikeX F vol tau a < strikeX F vol tau b ↔ b < a := (strikeX_anti hF hv ht).lt_iff_gt ha hb

theorem strikeX_le_iff {F vol tau a b : ℝ} (hF : 0 < F) (hv : 0 < vol) (ht : 0 < tau) (ha : 0 < a) (hb : 0 < b) :
    strikeX F vol tau a ≤ strikeX F vol tau b ↔ b ≤ a := (strikeX_anti hF hv ht).le_iff_ge ha hb

theorem strikeX_continuousOn {F vol tau : ℝ} (hF : 0 < F) : ContinuousOn (strikeX F vol tau) (Ioi 0) := by
  intro K hK
  rw [mem_Ioi] at hK
  unfold strikeX
  apply ContinuousAt.continuousWithinAt
  have : ContinuousAt (fun K => Real.log (F / K)) K :=
    ContinuousAt.log (continuousAt_const.div continuousAt_id hK.ne') (div_pos hF hK).ne'
  exact (this.sub continuousAt_const).div_const _

/-- The factor of the convention: `exp(-r_f τ)` for spot deltas. -/
noncomputable def convFactor (m : StrikeMarket) (spot : Bool) : ℝ := if spot then Real.exp (-m.rf * m.tau) else 1

theorem convFactor_pos (m : StrikeMarket) (spot : Bool) : 0 < convFactor m spot := by
  unfold convFactor; cases spot <;> simp [Real.exp_pos]

theorem call_error {m : StrikeMarket} (hm : MarketOk m) {spot : Bool} {q : DeltaQuote} (hv : 0 < q.vol) (hd : 0 < q.delta) {K : ℝ} (hK : 0 < K) :
    adjustedDeltaError m spot q K =
      convFactor m spot * adjCall (q.vol * Real.sqrt m.tau) (strikeX m.forward q.vol m.tau K) - q.delta := by
  have hsg : npSign q.delta = 1 := by unfold npSign; rw [if_pos hd]
  unfold adjustedDeltaError adjCall
  rw [strikeX_exp (forward_pos hm) hv hm.2.1 hK, hsg]
  unfold strikeX convFactor
  simp only [one_mul]
  ring

theorem put_error {m : StrikeMarket} (hm : MarketOk m) {spot : Bool} {q : DeltaQuote} (hv : 0 < q.vol) (hd : q.delta < 0) {K : ℝ} (hK : 0 < K) :
    adjustedDeltaError m spot q K =
      -(convFactor m spot * adjPut (q.vol * Real.sqrt m.tau) (strikeX m.forward q.vol m.tau K)) - q.delta := by
  have hsg : npSign q.delta = -1 := by unfold npSign; rw [if_neg (not_lt.2 hd.le), if_pos hd]
  unfold adjustedDeltaError adjPut
  rw [strikeX_exp (forward_pos hm) hv hm.2.1 hK, hsg]
  unfold strikeX convFactor
  have : -1 * (Real.log (m.forward / K) - 0.5 * q.vol ^ 2 * m.tau) / (q.vol * Real.sqrt m.tau) =
      -((Real.log (m.forward / K) - 0.5 * q.vol ^ 2 * m.tau) / (q.vol * Real.sqrt m.tau)) := by ring
  rw [this]
  ring

theorem adjustedDelta_unique {spot : Bool} {x : GkRow} {d e : ℝ} (h : HasAdjustedDelta spot x d) (h' : HasAdjustedDelta spot x e) : d = e := by
  have key : ∀ {d e}, HasAdjustedSpotDelta x d → HasAdjustedSpotDelta x e → d = e := by
    rintro d e ⟨g, v, s, p, h1, h2, h3, h4, rfl⟩ ⟨g', v', s', p', h1', h2', h3', h4', rfl⟩
    rw [h1] at h1'
    rw [h3] at h3'
    cases h1'
    cases h3'
    rw [h2] at h2'
    rw [h4] at h4'
    cases h2'
    cases h4'
    rfl
  unfold HasAdjustedDelta at h h'
  cases spot with
  | true => exact key h h'
  | false =>
    obtain ⟨a, ha, rfl⟩ := h
    obtain ⟨b, hb, rfl⟩ := h'
    rw [key ha hb]

theorem call_delta_iff {m : StrikeMarket} (hm : MarketOk m) {spot : Bool} {vol K d : ℝ} (hv : 0 < vol) (hK : 0 < K) :
    HasAdjustedDelta spot (StrikeMarket.option m vol K 1) d ↔
      d = convFactor m spot * adjCall (vol * Real.sqrt m.tau) (strikeX m.forward vol m.tau K) := by
  have ha := adjusted_delta hm (spot := spot) hK hv (Or.inl rfl)
  have e : (if spot then Real.exp (-m.rf * m.tau) else 1) * (1 * K / m.forward) *
        normCdf (1 * (Real.log (m.forward / K) - 0.5 * vol ^ 2 * m.tau) / (vol * Real.sqrt m.tau)) =
      convFactor m spot * adjCall (vol * Real.sqrt m.tau) (strikeX m.forward vol m.tau K) := by
    unfold adjCall
    rw [strikeX_exp (forward_pos hm) hv hm.2.1 hK]
    unfold strikeX convFactor
    simp only [one_mul]
    ring
  rw [e] at ha
  exact ⟨fun h => adjustedDelta_unique h ha, fun h => h ▸ ha⟩

theorem put_delta_iff {m : StrikeMarket} (hm : MarketOk m) {spot : Bool} {vol K d : ℝ} (hv : 0 < vol) (hK : 0 < K) :
    HasAdjustedDelta spot (StrikeMarket.option m vol K (-1)) d ↔
      d = -(convFactor m spot * adjPut (vol * Real.sqrt m.tau) (strikeX m.forward vol m.tau K)) := by
  have ha := adjusted_delta hm (spot := spot) hK hv (Or.inr rfl)
  have e : (if spot then Real.exp (-m.rf * m.tau) else 1) * (-1 * K / m.forward) *
        normCdf (-1 * (Real.log (m.forward / K) - 0.5 * vol ^ 2 * m.tau) / (vol * Real.sqrt m.tau)) =
      -(convFactor m spot * adjPut (vol * Real.sqrt m.tau) (strikeX m.forward vol m.tau K)) := by
    unfold adjPut
    rw [strikeX_exp (forward_pos hm) hv hm.2.1 hK]
    unfold strikeX convFactor
    have : -1 * (Real.log (m.forward / K) - 0.5 * vol ^ 2 * m.tau) / (vol * Real.sqrt m.tau) =
      -((Real.log (m.forward / K) - 0.5 * vol ^ 2 * m.tau) / (vol * Real.sqrt m.tau)) := by ring
    rw [this]
    ring
  rw [e] at ha
  exact ⟨fun h => adjustedDelta_unique h ha, fun h => h ▸ ha⟩

/-- Premium-adjusted put deltas fall as the strike rises: two strikes never have the same. -/
theorem C51_put_unique (m : StrikeMarket) (hm : MarketOk m) (spot : Bool) (vol : ℝ) (hv : 0 < vol) (K K' d d' : ℝ) (hK : 0 < K) (hKK : K < K')
    (h : HasAdjustedDelta spot (StrikeMarket.option m vol K (-1)) d) (h' : HasAdjustedDelta spot (StrikeMarket.option m vol K' (-1)) d') : d' < d := by
  have hs := mul_pos hv (Real.sqrt_pos.2 hm.2.1)
  rw [put_delta_iff hm hv hK] at h
  rw [put_delta_iff hm hv (hK.trans hKK)] at h'
  have hx := (strikeX_lt_iff (forward_pos hm) hv hm.2.1 (hK.trans hKK) hK).2 hKK
  have := mul_lt_mul_of_pos_left (adjPut_strictAnti hs hx) (convFactor_pos m spot)
  rw [h, h']
  linarith

theorem bracketed_solves {brent : (ℝ → ℝ) → ℝ × ℝ → BracketRun} (hb : FindsBracketedRoots brent) {m : StrikeMarket} (hm : MarketOk m) (spot : Bool) :
    SolvesStrikes (bracketedStrike brent m spot) := by
  intro f q K h
  unfold bracketedStrike at h
  cases hr : regularStrike m spot .forward q with
  | none => rw [hr] at h; simp only at h; split at h <;> cases h
  | some Kmax =>
    have hmax : 0 < Kmax := by
      unfold regularStrike at hr
      simp only at hr
      have hF := forward_pos hm
      split at hr
      · cases hr; exact mul_pos hF (Real.exp_pos _)
      · split at hr
        · cases hr; exact mul_pos hF (Real.exp_pos _)
        · cases hr
    rw [hr] at h
    simp only at h
    split at h
    · split at h
      · cases h
      · cases h
      · rename_i hx
        cases h
        obtain ⟨h1, h2⟩ := (hb f _ _).2.2 _ hx
        exact ⟨lt_of_lt_of_le (lt_min (by norm_num) hmax) h1.1, h2⟩
    · split at h
      · cases h
      · cases h
      · rename_i Kmin hx
        have h1 := ((hb _ _ _).2.2 _ hx).1
        have hmin : 0 < Kmin := lt_of_lt_of_le (lt_min (by norm_num) hmax) h1.1
        split at h
        · cases h
        · cases h
        · rename_i hy
          cases h
          obtain ⟨h3, h4⟩ := (hb _ _ _).2.2 _ hy
          exact ⟨lt_of_lt_of_le (lt_min hmin hmax) h3.1, h4⟩

theorem kmax_facts {m : StrikeMarket} (hm : MarketOk m) {spot : Bool} {q : DeltaQuote} (hv : 0 < q.vol) (hd : q.delta ≠ 0)
    (hn : |q.delta| ≠ 0.5) {K : ℝ} (h : regularStrike m spot .forward q = some K) :
    0 < K ∧ |q.delta| = convFactor m spot * normCdf (npSign q.delta * (strikeX m.forward q.vol m.tau K + q.vol * Real.sqrt m.tau)) := by
  obtain ⟨hK, z, d1, hz, hc, hd1⟩ := regular_facts hm hv hd (fun hh => hn hh.1) h
  refine ⟨hK, ?_⟩
  have hs : q.vol * Real.sqrt m.tau ≠ 0 := (mul_pos hv (Real.sqrt_pos.2 hm.2.1)).ne'
  have e : strikeX m.forward q.vol m.tau K + q.vol * Real.sqrt m.tau = d1 := by
    rw [hd1]
    unfold strikeX
    have e : 0.5 * q.vol ^ 2 * m.tau = (q.vol * Real.sqrt m.tau) ^ 2 / 2 := by rw [sq_s hm.2.1.le]; ring
    rw [e]
    field_simp
    ring
  rw [e, hc, hz]
  unfold convFactor
  cases spot with
  | false => simp
  | true =>
    simp only [if_true]
    have : Real.exp (-m.rf * m.tau) * Real.exp (m.rf * m.tau) = 1 := by rw [← Real.exp_add]; simp
    linear_combination (-|q.delta|) * this

theorem kmax_exists {m : StrikeMarket} {spot : Bool} {q : DeltaQuote} (hd : q.delta ≠ 0) (hn : |q.delta| ≠ 0.5)
    (h : |q.delta| < convFactor m spot) : ∃ K, regularStrike m spot .forward q = some K := by
  obtain ⟨-, habs⟩ := npSign_cases hd
  have hp : ∃ z, normPpf (if spot then |q.delta| * Real.exp (m.rf * m.tau) else |q.delta|) = .fin z := by
    unfold convFactor at h
    cases spot with
    | false => exact normPpf_of (abs_pos.2 hd) h
    | true =>
      refine normPpf_of (mul_pos (abs_pos.2 hd) (Real.exp_pos _)) ?_
      simp only [if_true] at h
      have := mul_lt_mul_of_pos_right h (Real.exp_pos (m.rf * m.tau))
      rwa [← Real.exp_add, neg_mul, neg_add_cancel, Real.exp_zero] at this
  obtain ⟨z, hz⟩ := hp
  rw [regular_eq (fun hh => hn hh.1), habs, hz]
  exact ⟨_, rfl⟩

theorem conv_beq (spot : Bool) : ((if spot then DeltaConvention.adjustedSpot else .adjustedForward) == DeltaConvention.adjustedSpot) = spot := by
  cases spot <;> rfl

theorem single_eq {solve : (ℝ → ℝ) → DeltaQuote → Except Err ℝ} {m : StrikeMarket} (hm : MarketOk m) {spot : Bool} {atm : AtmConvention}
    {q : DeltaQuote} (hv : 0 < q.vol) (hd : q.delta ≠ 0) (hn : |q.delta| < 0.5) :
    gkStrikeFromDelta solve m (if spot then .adjustedSpot else .adjustedForward) atm [q] =
      (solve (adjustedDeltaError m spot q) q).bind (fun K => .ok [some K]) := by
  have h5 := abs_lt.1 hn
  have hne : q.delta ≠ 0.5 := h5.2.ne
  have h1 : adjustedStrikes solve m spot [q] = (solve (adjustedDeltaError m spot q) q).bind (fun K => .ok [some K]) := by
    unfold adjustedStrikes
    rw [if_pos ⟨q, by simp, hn.ne⟩, loop_cons_other hne hd]
    cases solve (adjustedDeltaError m spot q) q with
    | error e => rfl
    | ok K => simp only [Except.bind]; rw [adjustedLoop.eq_def]
  unfold gkStrikeFromDelta
  rw [if_neg]
  · cases spot <;> exact h1
  · push Not
    refine ⟨hm, fun p hp => ?_⟩
    rw [List.mem_singleton] at hp
    subst hp
    exact ⟨hv, h5.1.le, h5.2.le⟩

theorem bracketed_single {brent : (ℝ → ℝ) → ℝ × ℝ → BracketRun} {m : StrikeMarket} (hm : MarketOk m) {spot : Bool} {atm : AtmConvention}
    {q : DeltaQuote} (hv : 0 < q.vol) (hd : q.delta ≠ 0) (hn : |q.delta| < 0.5) :
    gkBracketedStrikes brent m (if spot then .adjustedSpot else .adjustedForward) atm [q] =
      (bracketedStrike brent m spot (adjustedDeltaError m spot q) q).bind (fun K => .ok [some K]) := by
  unfold gkBracketedStrikes
  rw [conv_beq]
  exact single_eq hm hv hd hn

theorem uIcc_pos {a b x : ℝ} (ha : 0 < a) (hb : 0 < b) (hx : x ∈ uIcc a b) : 0 < x := lt_of_lt_of_le (lt_min ha hb) hx.1

theorem put_error_continuousOn {m : StrikeMarket} (hm : MarketOk m) {spot : Bool} {q : DeltaQuote} (hv : 0 < q.vol) (hd : q.delta < 0) :
    ContinuousOn (adjustedDeltaError m spot q) (Ioi 0) := by
  have : ContinuousOn (fun K => -(convFactor m spot * adjPut (q.vol * Real.sqrt m.tau) (strikeX m.forward q.vol m.tau K)) - q.delta) (Ioi 0) :=
    ((continuousOn_const.mul ((adjPut_continuous _).comp_continuousOn (strikeX_continuousOn (forward_pos hm)))).neg).sub continuousOn_const
  exact this.congr fun K hK => put_error hm hv hd hK

theorem call_error_continuousOn {m : StrikeMarket} (hm : MarketOk m) {spot : Bool} {q : DeltaQuote} (hv : 0 < q.vol) (hd : 0 < q.delta) :
    ContinuousOn (adjustedDeltaError m spot q) (Ioi 0) := by
  have : ContinuousOn (fun K => convFactor m spot * adjCall (q.vol * Real.sqrt m.tau) (strikeX m.forward q.vol m.tau K) - q.delta) (Ioi 0) :=
    (continuousOn_const.mul ((adjCall_continuous _).comp_continuousOn (strikeX_continuousOn (forward_pos hm)))).sub continuousOn_const
  exact this.congr fun K hK => call_error hm hv hd hK

/-- Puts: a strike of at least 0.000001 with the delta asked for is found, if the regular convention has a strike for that delta. -/
theorem C51_put_found (brent : (ℝ → ℝ) → ℝ × ℝ → BracketRun) (hb : FindsBracketedRoots brent) (m : StrikeMarket) (hm : MarketOk m) (spot : Bool)
    (atm : AtmConvention) (q : DeltaQuote) (hv : 0 < q.vol) (hlo : -0.5 < q.delta) (hd : q.delta < 0)
    (hreg : -q.delta < if spot then Real.exp (-m.rf * m.tau) else 1) (K : ℝ) (hK : 0.000001 ≤ K)
    (h : HasAdjustedDelta spot (StrikeMarket.option m q.vol K (-1)) q.delta) :
    gkBracketedStrikes brent m (if spot then .adjustedSpot else .adjustedForward) atm [q] = .ok [some K] := by
  have hK0 : 0 < K := lt_of_lt_of_le (by norm_num) hK
  have habs : |q.delta| = -q.delta := abs_of_neg hd
  have hn : |q.delta| < 0.5 := by rw [habs]; linarith
  have hs := mul_pos hv (Real.sqrt_pos.2 hm.2.1)
  have hF := forward_pos hm
  rw [bracketed_single hm hv hd.ne hn]
  obtain ⟨Kmax, hr⟩ := kmax_exists (spot := spot) (m := m) hd.ne hn.ne (by rw [habs]; exact hreg)
  obtain ⟨hmax, hkd⟩ := kmax_facts hm hv hd.ne hn.ne hr
  have hsg : npSign q.delta = -1 := by unfold npSign; rw [if_neg (not_lt.2 hd.le), if_pos hd]
  rw [hsg, habs, neg_one_mul] at hkd
  have hc := convFactor_pos m spot
  have fmax : adjustedDeltaError m spot q Kmax < 0 := by
    rw [put_error hm hv hd hmax]
    have := mul_lt_mul_of_pos_left (adjPut_gt_regular hs (strikeX m.forward q.vol m.tau Kmax)) hc
    linarith
  have fK : adjustedDeltaError m spot q K = 0 := by
    rw [put_delta_iff hm hv hK0] at h
    rw [put_error hm hv hd hK0, ← h, sub_self]
  have mono : ∀ a b, 0 < a → a < b → adjustedDeltaError m spot q b < adjustedDeltaError m spot q a := by
    intro a b ha hab
    rw [put_error hm hv hd ha, put_error hm hv hd (ha.trans hab)]
    have hx := (strikeX_lt_iff hF hv hm.2.1 (ha.trans hab) ha).2 hab
    have := mul_lt_mul_of_pos_left (adjPut_strictAnti hs hx) hc
    linarith
  have flo : 0 ≤ adjustedDeltaError m spot q 0.000001 := by
    rcases eq_or_lt_of_le hK with e | e
    · rw [e, fK]
    · have := mono _ _ (by norm_num) e
      linarith
  obtain ⟨x, hx⟩ := (hb (adjustedDeltaError m spot q) 0.000001 Kmax).2.1
    ((put_error_continuousOn hm hv hd).mono fun y hy => uIcc_pos (by norm_num) hmax hy) (mul_nonpos_of_nonneg_of_nonpos flo fmax.le)
  obtain ⟨hxI, hx0⟩ := (hb _ _ _).2.2 x hx
  have hxp := uIcc_pos (by norm_num) hmax hxI
  have hxK : x = K := by
    rcases lt_trichotomy x K with hlt | heq | hgt
    · have := mono _ _ hxp hlt; linarith
    · exact heq
    · have := mono _ _ hK0 hgt; linarith
  unfold bracketedStrike
  simp only [hr, if_pos hd, hx, hxK]
  rfl

/-- Puts: `ValueError` if the only strike with the delta asked for is below 0.000001, or if the regular convention has no strike for that
delta, whether or not a strike has the premium-adjusted delta. -/
theorem C51_put_refused (brent : (ℝ → ℝ) → ℝ × ℝ → BracketRun) (hb : FindsBracketedRoots brent) (m : StrikeMarket) (hm : MarketOk m) (spot : Bool)
    (atm : AtmConvention) (q : DeltaQuote) (hv : 0 < q.vol) (hlo : -0.5 < q.delta) (hd : q.delta < 0)
    (h : (if spot then Real.exp (-m.rf * m.tau) else 1) ≤ -q.delta ∨
      ∃ K, 0 < K ∧ K < 0.000001 ∧ HasAdjustedDelta spot (StrikeMarket.option m q.vol K (-1)) q.delta) :
    gkBracketedStrikes brent m (if spot then .adjustedSpot else .adjustedForward) atm [q] = .error .value := by
  have habs : |q.delta| = -q.delta := abs_of_neg hd
  have hn : |q.delta| < 0.5 := by rw [habs]; linarith
  have hs := mul_pos hv (Real.sqrt_pos.2 hm.2.1)
  have hF := forward_pos hm
  have hc := convFactor_pos m spot
  rw [bracketed_single hm hv hd.ne hn]
  unfold bracketedStrike
  cases hr : regularStrike m spot .forward q with
  | none => simp only [if_pos hd]; rfl
  | some Kmax =>
    obtain ⟨hmax, hkd⟩ := kmax_facts hm hv hd.ne hn.ne hr
    have hsg : npSign q.delta = -1 := by unfold npSign; rw [if_neg (not_lt.2 hd.le), if_pos hd]
    rw [hsg, habs, neg_one_mul] at hkd
    simp only [if_pos hd]
    rcases h with h | ⟨K, hK, hK6, h⟩
    · exfalso
      have h1 : convFactor m spot ≤ -q.delta := h
      have := mul_lt_mul_of_pos_left (normCdf_lt_one (-(strikeX m.forward q.vol m.tau Kmax + q.vol * Real.sqrt m.tau))) hc
      linarith
    · have fmax : adjustedDeltaError m spot q Kmax < 0 := by
        rw [put_error hm hv hd hmax]
        have := mul_lt_mul_of_pos_left (adjPut_gt_regular hs (strikeX m.forward q.vol m.tau Kmax)) hc
        linarith
      have flo : adjustedDeltaError m spot q 0.000001 < 0 := by
        rw [put_delta_iff hm hv hK] at h
        rw [put_error hm hv hd (by norm_num)]
        have hx := (strikeX_lt_iff hF hv hm.2.1 (by norm_num) hK).2 hK6
        have := mul_lt_mul_of_pos_left (adjPut_strictAnti hs hx) hc
        linarith
      rw [(hb _ 0.000001 Kmax).1 (mul_pos_of_neg_of_neg flo fmax)]
      rfl

theorem lower_error {m : StrikeMarket} (hm : MarketOk m) {q : DeltaQuote} (hv : 0 < q.vol) {K : ℝ} (hK : 0 < K) :
    lowerBoundError m q K = adjSlope (q.vol * Real.sqrt m.tau)
      (strikeX (m.S0 * Real.exp ((m.rd - m.rf) * m.tau)) q.vol m.tau K) := by
  have hs : q.vol * Real.sqrt m.tau ≠ 0 := (mul_pos hv (Real.sqrt_pos.2 hm.2.1)).ne'
  unfold lowerBoundError adjSlope
  have e : (Real.log (m.S0 / K) + (m.rd - m.rf + 0.5 * q.vol ^ 2) * m.tau) / (q.vol * Real.sqrt m.tau) - q.vol * Real.sqrt m.tau =
      strikeX (m.S0 * Real.exp ((m.rd - m.rf) * m.tau)) q.vol m.tau K := by
    unfold strikeX
    rw [Real.log_div hm.1.ne' hK.ne', Real.log_div (mul_pos hm.1 (Real.exp_pos _)).ne' hK.ne', Real.log_mul hm.1.ne' (Real.exp_pos _).ne', Real.log_exp,
      sub_eq_iff_eq_add, div_eq_iff hs, add_mul _ (q.vol * Real.sqrt m.tau), div_mul_cancel₀ _ hs, ← sq, sq_s hm.2.1.le]
    ring
  simp only [e]

theorem lower_error_continuousOn {m : StrikeMarket} (hm : MarketOk m) {q : DeltaQuote} (hv : 0 < q.vol) :
    ContinuousOn (lowerBoundError m q) (Ioi 0) :=
  ((adjSlope_continuous _).comp_continuousOn (strikeX_continuousOn (mul_pos hm.1 (Real.exp_pos _)))).congr fun _ hK => lower_error hm hv hK

theorem parity_forward {m : StrikeMarket} (h : ParityForward m) : m.forward = m.S0 * Real.exp ((m.rd - m.rf) * m.tau) := by
  unfold StrikeMarket.forward
  cases hf : m.fwd with
  | none => rfl
  | some F => exact h F hf

theorem brent_cases {brent : (ℝ → ℝ) → ℝ × ℝ → BracketRun} (hb : FindsBracketedRoots brent) {f : ℝ → ℝ} {a b : ℝ} (ha : 0 < a) (hb0 : 0 < b)
    (hf : ContinuousOn f (Ioi 0)) : (0 < f a * f b ∧ brent f (a, b) = .raised) ∨ (∃ x, brent f (a, b) = .stopped true x ∧ 0 < x ∧ x ∈ uIcc a b ∧ f x = 0) := by
  rcases lt_or_ge 0 (f a * f b) with h | h
  · exact Or.inl ⟨h, (hb f a b).1 h⟩
  · obtain ⟨x, hx⟩ := (hb f a b).2.1 (hf.mono fun y hy => uIcc_pos ha hb0 hy) h
    obtain ⟨h1, h2⟩ := (hb f a b).2.2 x hx
    exact Or.inr ⟨x, hx, uIcc_pos ha hb0 h1, h1, h2⟩

theorem call_kmax {m : StrikeMarket} (hm : MarketOk m) {spot : Bool} {q : DeltaQuote} (hv : 0 < q.vol) (hd : 0 < q.delta)
    (hhi : q.delta < 0.5) {Kmax : ℝ} (hr : regularStrike m spot .forward q = some Kmax) :
    0 < Kmax ∧ q.delta = convFactor m spot * normCdf (strikeX m.forward q.vol m.tau Kmax + q.vol * Real.sqrt m.tau) ∧
      adjustedDeltaError m spot q Kmax < 0 := by
  have habs : |q.delta| = q.delta := abs_of_pos hd
  obtain ⟨hmax, hkd⟩ := kmax_facts hm hv hd.ne' (by rw [habs]; exact hhi.ne) hr
  have hsg : npSign q.delta = 1 := by unfold npSign; rw [if_pos hd]
  rw [hsg, habs, one_mul] at hkd
  refine ⟨hmax, hkd, ?_⟩
  rw [call_error hm hv hd hmax]
  have := mul_lt_mul_of_pos_left (adjCall_lt_regular (mul_pos hv (Real.sqrt_pos.2 hm.2.1)) (strikeX m.forward q.vol m.tau Kmax)) (convFactor_pos m spot)
  linarith

/-- A strike with the call delta asked for lies below the regular strike, which then exists. -/
theorem call_below {m : StrikeMarket} (hm : MarketOk m) {spot : Bool} {q : DeltaQuote} (hv : 0 < q.vol) (hd : 0 < q.delta)
    (hhi : q.delta < 0.5) {K : ℝ} (hK : 0 < K) (h : adjustedDeltaError m spot q K = 0) :
    ∃ Kmax, regularStrike m spot .forward q = some Kmax ∧ K < Kmax := by
  have hs := mul_pos hv (Real.sqrt_pos.2 hm.2.1)
  have hc := convFactor_pos m spot
  have habs : |q.delta| = q.delta := abs_of_pos hd
  rw [call_error hm hv hd hK] at h
  have hlt := mul_lt_mul_of_pos_left (adjCall_lt_regular hs (strikeX m.forward q.vol m.tau K)) hc
  have hd' : q.delta < convFactor m spot * normCdf (strikeX m.forward q.vol m.tau K + q.vol * Real.sqrt m.tau) := by linarith
  obtain ⟨Kmax, hr⟩ := kmax_exists (spot := spot) (m := m) hd.ne' (by rw [habs]; exact hhi.ne) (by
    rw [habs]
    refine hd'.trans ?_
    have := mul_lt_mul_of_pos_left (normCdf_lt_one (strikeX m.forward q.vol m.tau K + q.vol * Real.sqrt m.tau)) hc
    linarith)
  obtain ⟨hmax, hkd, -⟩ := call_kmax hm hv hd hhi hr
  refine ⟨Kmax, hr, ?_⟩
  rw [hkd] at hd'
  have h1 := normCdf_strictMono.lt_iff_lt.1 (lt_of_mul_lt_mul_left hd' hc.le)
  exact (strikeX_lt_iff (forward_pos hm) hv hm.2.1 hmax hK).1 (by linarith)

/-- Calls: if no strike has the delta asked for, `TypeError`. -/
theorem C51_call_refused (brent : (ℝ → ℝ) → ℝ × ℝ → BracketRun) (hb : FindsBracketedRoots brent) (m : StrikeMarket) (hm : MarketOk m) (spot : Bool)
    (atm : AtmConvention) (q : DeltaQuote) (hv : 0 < q.vol) (hd : 0 < q.delta) (hhi : q.delta < 0.5)
    (h : ∀ K, 0 < K → ¬ HasAdjustedDelta spot (StrikeMarket.option m q.vol K 1) q.delta) :
    gkBracketedStrikes brent m (if spot then .adjustedSpot else .adjustedForward) atm [q] = .error .type := by
  have hf0 : ∀ K, 0 < K → adjustedDeltaError m spot q K ≠ 0 := by
    intro K hK e
    refine h K hK ((call_delta_iff hm hv hK).2 ?_)
    rw [call_error hm hv hd hK] at e
    linarith
  rw [bracketed_single hm hv hd.ne' (by rw [abs_of_pos hd]; exact hhi)]
  unfold bracketedStrike
  cases hr : regularStrike m spot .forward q with
  | none => simp only [if_neg (not_lt.2 hd.le)]; rfl
  | some Kmax =>
    obtain ⟨hmax, -, fmax⟩ := call_kmax hm hv hd hhi hr
    simp only [if_neg (not_lt.2 hd.le)]
    rcases brent_cases hb (a := 0.00001) (by norm_num) hmax (lower_error_continuousOn hm hv (q := q)) with ⟨-, e⟩ | ⟨Kmin, e, hmin, -, -⟩
    · rw [e]; rfl
    · rw [e]
      simp only
      rcases brent_cases hb hmin hmax (call_error_continuousOn hm hv hd (spot := spot)) with ⟨-, e'⟩ | ⟨x, -, hx, -, hx0⟩
      · rw [e']; rfl
      · exact absurd hx0 (hf0 x hx)

/-- Calls, on the forward of interest rate parity: the strike found is the largest with the delta asked for; every larger strike has a
smaller delta. -/
theorem C51_call_largest (brent : (ℝ → ℝ) → ℝ × ℝ → BracketRun) (hb : FindsBracketedRoots brent) (m : StrikeMarket) (hp : ParityForward m)
    (spot : Bool) (atm : AtmConvention) (quotes : List DeltaQuote) (out : List (Option ℝ))
    (h : gkBracketedStrikes brent m (if spot then .adjustedSpot else .adjustedForward) atm quotes = .ok out) (i : Nat) (q : DeltaQuote)
    (hi : quotes[i]? = some q) (hd : 0 < q.delta) (hhi : q.delta < 0.5) :
    ∃ K, out[i]? = some (some K) ∧ 0 < K ∧ HasAdjustedDelta spot (StrikeMarket.option m q.vol K 1) q.delta ∧
      ∀ K' d', K < K' → HasAdjustedDelta spot (StrikeMarket.option m q.vol K' 1) d' → d' < q.delta := by
  unfold gkBracketedStrikes at h
  rw [conv_beq] at h
  obtain ⟨hm, hq, ho⟩ := adjusted_ok h
  have hv := (hq q (List.mem_of_getElem? hi)).1
  have hn : |q.delta| ≠ 0.5 := by rw [abs_of_pos hd]; exact hhi.ne
  unfold adjustedStrikes at ho
  rw [if_pos ⟨q, List.mem_of_getElem? hi, hn⟩] at ho
  obtain ⟨K, hK, hsol⟩ := (loop_get quotes none out ho i q hi).2 hhi.ne hd.ne'
  obtain ⟨hK0, hroot⟩ := bracketed_solves hb hm spot _ _ _ hsol
  have hs := mul_pos hv (Real.sqrt_pos.2 hm.2.1)
  have hF := forward_pos hm
  refine ⟨K, hK, hK0, ?_, ?_⟩
  · rw [call_delta_iff hm hv hK0]
    rw [call_error hm hv hd hK0] at hroot
    linarith
  · intro K' d' hKK h'
    rw [call_delta_iff hm hv (hK0.trans hKK)] at h'
    obtain ⟨Kmax, hr, hKm⟩ := call_below hm hv hd hhi hK0 hroot
    obtain ⟨hmax, -, -⟩ := call_kmax hm hv hd hhi hr
    unfold bracketedStrike at hsol
    simp only [hr, if_neg (not_lt.2 hd.le)] at hsol
    rcases brent_cases hb (a := 0.00001) (by norm_num) hmax (lower_error_continuousOn hm hv (q := q)) with ⟨-, e⟩ | ⟨Kmin, e, hmin, -, hlow⟩
    · rw [e] at hsol; cases hsol
    · rw [e] at hsol
      simp only at hsol
      rcases brent_cases hb hmin hmax (call_error_continuousOn hm hv hd (spot := spot)) with ⟨-, e'⟩ | ⟨x, e', hx, hxI, hx0⟩
      · rw [e'] at hsol; cases hsol
      · rw [e'] at hsol
        cases hsol
        rw [lower_error hm hv hmin, ← parity_forward hp] at hlow
        -- the strike found is not below `K_min`
        have hge : Kmin ≤ K := by
          by_contra hlt
          push Not at hlt
          have h1 : min Kmin Kmax ≤ K := hxI.1
          rw [min_le_iff] at h1
          rcases h1 with h1 | h1 <;> linarith
        have hxK : strikeX m.forward q.vol m.tau K ≤ strikeX m.forward q.vol m.tau Kmin := (strikeX_le_iff hF hv hm.2.1 hK0 hmin).2 hge
        have hxK' := (strikeX_lt_iff hF hv hm.2.1 (hK0.trans hKK) hK0).2 hKK
        have hlt := adjCall_mono hlow (mem_Iic.2 (hxK'.le.trans hxK)) (mem_Iic.2 hxK) hxK'
        have := mul_lt_mul_of_pos_left hlt (convFactor_pos m spot)
        rw [call_error hm hv hd hK0] at hroot
        rw [h']
        linarith

/-- On every market some strike has the largest premium-adjusted call delta, and only one. -/
theorem C51_call_maximum (m : StrikeMarket) (hm : MarketOk m) (spot : Bool) (vol : ℝ) (hv : 0 < vol) :
    ∃ K₀ d₀, 0 < K₀ ∧ HasAdjustedDelta spot (StrikeMarket.option m vol K₀ 1) d₀ ∧
      ∀ K d, 0 < K → K ≠ K₀ → HasAdjustedDelta spot (StrikeMarket.option m vol K 1) d → d < d₀ := by
  have hs := mul_pos hv (Real.sqrt_pos.2 hm.2.1)
  have hF := forward_pos hm
  obtain ⟨x₀, h0⟩ := adjSlope_root hs
  have hK₀ : 0 < m.forward * Real.exp (-(x₀ * (vol * Real.sqrt m.tau)) - (vol * Real.sqrt m.tau) ^ 2 / 2) := mul_pos hF (Real.exp_pos _)
  have hx : strikeX m.forward vol m.tau (m.forward * Real.exp (-(x₀ * (vol * Real.sqrt m.tau)) - (vol * Real.sqrt m.tau) ^ 2 / 2)) = x₀ := by
    unfold strikeX
    rw [div_mul_cancel_left₀ hF.ne', ← Real.exp_neg, Real.log_exp, div_eq_iff hs.ne', sq_s hm.2.1.le]
    ring
  refine ⟨_, _, hK₀, (call_delta_iff hm hv hK₀).2 rfl, ?_⟩
  intro K d hK hne h
  rw [call_delta_iff hm hv hK] at h
  rw [h, hx]
  refine mul_lt_mul_of_pos_left (adjCall_lt h0 ?_) (convFactor_pos m spot)
  intro e
  rw [← hx] at e
  exact hne ((strikeX_anti hF hv hm.2.1).injOn (mem_Ioi.2 hK) (mem_Ioi.2 hK₀) e)

/-- Calls, on the forward of interest rate parity: a strike is found exactly if the largest delta of any strike is at least the one asked
for and belongs to a strike of at least 0.00001; otherwise `TypeError`. -/
theorem C51_call_found (brent : (ℝ → ℝ) → ℝ × ℝ → BracketRun) (hb : FindsBracketedRoots brent) (m : StrikeMarket) (hm : MarketOk m)
    (hp : ParityForward m) (spot : Bool) (atm : AtmConvention) (q : DeltaQuote) (hv : 0 < q.vol) (hd : 0 < q.delta) (hhi : q.delta < 0.5)
    (K₀ d₀ : ℝ) (hK₀ : 0 < K₀) (h₀ : HasAdjustedDelta spot (StrikeMarket.option m q.vol K₀ 1) d₀)
    (hmaxi : ∀ K d, 0 < K → HasAdjustedDelta spot (StrikeMarket.option m q.vol K 1) d → d ≤ d₀) :
    ((0.00001 ≤ K₀ ∧ q.delta ≤ d₀) → ∃ K, gkBracketedStrikes brent m (if spot then .adjustedSpot else .adjustedForward) atm [q] = .ok [some K]) ∧
    (¬ (0.00001 ≤ K₀ ∧ q.delta ≤ d₀) → gkBracketedStrikes brent m (if spot then .adjustedSpot else .adjustedForward) atm [q] = .error .type) := by
  have hs := mul_pos hv (Real.sqrt_pos.2 hm.2.1)
  have hF := forward_pos hm
  have hc := convFactor_pos m spot
  obtain ⟨x₀, h0⟩ := adjSlope_root hs
  -- the strike with the largest delta is the root of the lower bound
  have hX : strikeX m.forward q.vol m.tau K₀ = x₀ := by
    by_contra hne
    have hlt := mul_lt_mul_of_pos_left (adjCall_lt h0 hne) hc
    have hK₁ : 0 < m.forward * Real.exp (-(x₀ * (q.vol * Real.sqrt m.tau)) - (q.vol * Real.sqrt m.tau) ^ 2 / 2) := mul_pos hF (Real.exp_pos _)
    have hx : strikeX m.forward q.vol m.tau (m.forward * Real.exp (-(x₀ * (q.vol * Real.sqrt m.tau)) - (q.vol * Real.sqrt m.tau) ^ 2 / 2)) = x₀ := by
      unfold strikeX
      rw [div_mul_cancel_left₀ hF.ne', ← Real.exp_neg, Real.log_exp, div_eq_iff hs.ne', sq_s hm.2.1.le]
      ring
    have := hmaxi _ _ hK₁ ((call_delta_iff hm hv hK₁).2 rfl)
    rw [hx] at this
    rw [call_delta_iff hm hv hK₀] at h₀
    linarith
  rw [call_delta_iff hm hv hK₀] at h₀
  have low : ∀ {K}, 0 < K → (K < K₀ → 0 < lowerBoundError m q K) ∧ (K₀ < K → lowerBoundError m q K < 0) ∧ (lowerBoundError m q K = 0 → K = K₀) := by
    intro K hK
    have e : lowerBoundError m q K = adjSlope (q.vol * Real.sqrt m.tau) (strikeX m.forward q.vol m.tau K) := by
      rw [lower_error hm hv hK, ← parity_forward hp]
    have a1 : K < K₀ → 0 < lowerBoundError m q K := by
      intro h
      rw [e]
      exact (adjSlope_signs h0).2 (by rw [← hX]; exact (strikeX_lt_iff hF hv hm.2.1 hK₀ hK).2 h)
    have a2 : K₀ < K → lowerBoundError m q K < 0 := by
      intro h
      rw [e]
      exact (adjSlope_signs h0).1 (by rw [← hX]; exact (strikeX_lt_iff hF hv hm.2.1 hK hK₀).2 h)
    refine ⟨a1, a2, fun h => ?_⟩
    rcases lt_trichotomy K K₀ with hl | he | hg
    · have := a1 hl; linarith
    · exact he
    · have := a2 hg; linarith
  have low0 : lowerBoundError m q K₀ = 0 := by rw [lower_error hm hv hK₀, ← parity_forward hp, hX, h0]
  have fK₀ : adjustedDeltaError m spot q K₀ = d₀ - q.delta := by rw [call_error hm hv hd hK₀, ← h₀]
  have hn : |q.delta| < 0.5 := by rw [abs_of_pos hd]; exact hhi
  -- if the largest delta suffices, the regular strike exists and lies above
  have above : q.delta ≤ d₀ → ∃ Kmax, regularStrike m spot .forward q = some Kmax ∧ K₀ < Kmax := by
    intro hle
    have hlt := mul_lt_mul_of_pos_left (adjCall_lt_regular hs (strikeX m.forward q.vol m.tau K₀)) hc
    have hd' : q.delta < convFactor m spot * normCdf (strikeX m.forward q.vol m.tau K₀ + q.vol * Real.sqrt m.tau) := by linarith
    obtain ⟨Kmax, hr⟩ := kmax_exists (spot := spot) (m := m) hd.ne' hn.ne (by
      rw [abs_of_pos hd]
      refine hd'.trans ?_
      have := mul_lt_mul_of_pos_left (normCdf_lt_one (strikeX m.forward q.vol m.tau K₀ + q.vol * Real.sqrt m.tau)) hc
      linarith)
    obtain ⟨hmax, hkd, -⟩ := call_kmax hm hv hd hhi hr
    refine ⟨Kmax, hr, ?_⟩
    rw [hkd] at hd'
    have h1 := normCdf_strictMono.lt_iff_lt.1 (lt_of_mul_lt_mul_left hd' hc.le)
    exact (strikeX_lt_iff hF hv hm.2.1 hmax hK₀).1 (by linarith)
  constructor
  · rintro ⟨hK5, hle⟩
    obtain ⟨Kmax, hr, hlt⟩ := above hle
    have hmax := hK₀.trans hlt
    rw [bracketed_single hm hv hd.ne' hn]
    unfold bracketedStrike
    simp only [hr, if_neg (not_lt.2 hd.le)]
    have hlo : 0 ≤ lowerBoundError m q 0.00001 := by
      rcases eq_or_lt_of_le hK5 with e | e
      · rw [e, low0]
      · exact ((low (by norm_num)).1 e).le
    rcases brent_cases hb (a := 0.00001) (by norm_num) hmax (lower_error_continuousOn hm hv (q := q)) with ⟨e, -⟩ | ⟨Kmin, e, hmin, -, hz⟩
    · exact absurd e (not_lt.2 (mul_nonpos_of_nonneg_of_nonpos hlo ((low hmax).2.1 hlt).le))
    · have := (low hmin).2.2 hz
      subst this
      simp only [e]
      have fmax := (call_kmax hm hv hd hhi hr).2.2
      rcases brent_cases hb hK₀ hmax (call_error_continuousOn hm hv hd (spot := spot)) with ⟨e', -⟩ | ⟨x, e', -⟩
      · exact absurd e' (not_lt.2 (mul_nonpos_of_nonneg_of_nonpos (by rw [fK₀]; linarith) fmax.le))
      · exact ⟨x, by simp only [e']; rfl⟩
  · intro hno
    by_cases hle : q.delta ≤ d₀
    · have hK5 : K₀ < 0.00001 := not_le.1 fun h => hno ⟨h, hle⟩
      obtain ⟨Kmax, hr, hlt⟩ := above hle
      have hmax := hK₀.trans hlt
      rw [bracketed_single hm hv hd.ne' hn]
      unfold bracketedStrike
      simp only [hr, if_neg (not_lt.2 hd.le)]
      have := (hb (lowerBoundError m q) 0.00001 Kmax).1 (mul_pos_of_neg_of_neg ((low (by norm_num)).2.1 hK5) ((low hmax).2.1 hlt))
      rw [this]
      rfl
    · refine C51_call_refused brent hb m hm spot atm q hv hd hhi fun K hK h => hle (hmaxi K _ hK h)

/-- Calls on a supplied forward: the deltas do not depend on the spot rate, but the search does.  Whatever the forward and the quote, for some
spot rates it ends in `TypeError`. -/
theorem C51_call_spot (brent : (ℝ → ℝ) → ℝ × ℝ → BracketRun) (hb : FindsBracketedRoots brent) (m : StrikeMarket) (hm : MarketOk m) (F : ℝ)
    (hF : m.fwd = some F) (atm : AtmConvention) (q : DeltaQuote) (hv : 0 < q.vol) (hd : 0 < q.delta) (hhi : q.delta < 0.5) :
    (∀ S0 K d, 0 < S0 → 0 < K → (HasAdjustedDelta false (StrikeMarket.option { m with S0 := S0 } q.vol K 1) d ↔
      HasAdjustedDelta false (StrikeMarket.option m q.vol K 1) d)) ∧
    ∃ S0, 0 < S0 ∧ gkBracketedStrikes brent { m with S0 := S0 } .adjustedForward atm [q] = .error .type := by
  have hfw : ∀ S0, StrikeMarket.forward { m with S0 := S0 } = m.forward := by intro S0; unfold StrikeMarket.forward; simp [hF]
  constructor
  · intro S0 K d hS hK
    rw [call_delta_iff (m := { m with S0 := S0 }) ⟨hS, hm.2⟩ hv hK, call_delta_iff hm hv hK, hfw]
    rfl
  · have hs := mul_pos hv (Real.sqrt_pos.2 hm.2.1)
    obtain ⟨x₀, h0⟩ := adjSlope_root hs
    obtain ⟨Kmax, hr⟩ := kmax_exists (m := m) (spot := false) (q := q) hd.ne' (by rw [abs_of_pos hd]; exact hhi.ne)
      (by rw [abs_of_pos hd]; unfold convFactor; simp only [Bool.false_eq_true, if_false]; linarith)
    have hmax := (call_kmax hm hv hd hhi hr).1
    have hM : 0 < max 0.00001 Kmax := lt_max_of_lt_right hmax
    set P := max 0.00001 Kmax * Real.exp ((x₀ + 1) * (q.vol * Real.sqrt m.tau) + 0.5 * q.vol ^ 2 * m.tau) with hP
    have hP0 : 0 < P := mul_pos hM (Real.exp_pos _)
    have hS : 0 < P * Real.exp (-((m.rd - m.rf) * m.tau)) := mul_pos hP0 (Real.exp_pos _)
    refine ⟨P * Real.exp (-((m.rd - m.rf) * m.tau)), hS, ?_⟩
    have hm' : MarketOk { m with S0 := P * Real.exp (-((m.rd - m.rf) * m.tau)) } := ⟨hS, hm.2⟩
    have hr' : regularStrike { m with S0 := P * Real.exp (-((m.rd - m.rf) * m.tau)) } false .forward q = some Kmax := by
      rw [← hr]
      unfold regularStrike
      simp only [hfw]
    have low : ∀ K, 0 < K → K ≤ max 0.00001 Kmax → 0 < lowerBoundError { m with S0 := P * Real.exp (-((m.rd - m.rf) * m.tau)) } q K := by
      intro K hK hle
      rw [lower_error hm' hv hK]
      refine (adjSlope_signs h0).2 ?_
      have e : P * Real.exp (-((m.rd - m.rf) * m.tau)) * Real.exp ((m.rd - m.rf) * m.tau) = P := by
        rw [mul_assoc, ← Real.exp_add]; simp
      simp only [e]
      have h1 := (strikeX_le_iff hP0 hv hm.2.1 hM hK).2 hle
      refine lt_of_lt_of_le ?_ h1
      unfold strikeX
      rw [hP, mul_div_cancel_left₀ _ hM.ne', Real.log_exp, add_sub_cancel_right, mul_div_cancel_right₀ _ hs.ne']
      linarith
    have key := bracketed_single (brent := brent) hm' (spot := false) (atm := atm) hv hd.ne' (by rw [abs_of_pos hd]; exact hhi)
    simp only [Bool.false_eq_true, if_false] at key
    rw [key]
    unfold bracketedStrike
    simp only [hr', if_neg (not_lt.2 hd.le)]
    rw [(hb _ 0.00001 Kmax).1 (mul_pos (low _ (by norm_num) (le_max_left _ _)) (low _ hmax (le_max_right _ _)))]
    rfl

/-- What the bracketed searches return is a positive root, so that every theorem of C51 about solved strikes holds of them. -/
theorem C51_bracketed (brent : (ℝ → ℝ) → ℝ × ℝ → BracketRun) (hb : FindsBracketedRoots brent) (m : StrikeMarket) (spot : Bool) (atm : AtmConvention)
    (quotes : List DeltaQuote) (out : List (Option ℝ))
    (h : gkBracketedStrikes brent m (if spot then .adjustedSpot else .adjustedForward) atm quotes = .ok out) (i : Nat) (q : DeltaQuote)
    (hi : quotes[i]? = some q) (hd : q.delta ≠ 0) (hn : |q.delta| ≠ 0.5) :
    ∃ K, out[i]? = some (some K) ∧ 0 < K ∧
      ((0 < q.delta ∧ HasAdjustedDelta spot (StrikeMarket.option m q.vol K 1) q.delta) ∨
       (q.delta < 0 ∧ HasAdjustedDelta spot (StrikeMarket.option m q.vol K (-1)) q.delta)) := by
  unfold gkBracketedStrikes at h
  rw [conv_beq] at h
  exact C51_adjusted_partial _ (bracketed_solves hb (adjusted_ok h).1 spot) m spot atm quotes out h i q hi hd hn

/-- Quotes are solved apart: if none is zero or -0.5 and each has a strike when asked for alone, the strikes of all are those. -/
theorem C51_quotes_apart (brent : (ℝ → ℝ) → ℝ × ℝ → BracketRun) (m : StrikeMarket) (hm : MarketOk m) (spot : Bool) (atm : AtmConvention)
    (quotes : List DeltaQuote) (Ks : List ℝ) (h0 : ∀ q ∈ quotes, q.delta ≠ 0 ∧ q.delta ≠ -0.5)
    (h : List.Forall₂ (fun q K => gkBracketedStrikes brent m (if spot then .adjustedSpot else .adjustedForward) atm [q] = .ok [some K]) quotes Ks) :
    gkBracketedStrikes brent m (if spot then .adjustedSpot else .adjustedForward) atm quotes = .ok (Ks.map some) := by
  unfold gkBracketedStrikes at h ⊢
  rw [conv_beq] at h ⊢
  generalize bracketedStrike brent m spot = solve at h ⊢
  have each : ∀ q K, q.delta ≠ 0 → q.delta ≠ -0.5 → gkStrikeFromDelta solve m (if spot then .adjustedSpot else .adjustedForward) atm [q] = .ok [some K] →
      (0 < q.vol ∧ -0.5 ≤ q.delta ∧ q.delta ≤ 0.5) ∧ (q.delta = 0.5 → K = m.forward * Real.exp (-1 * 0.5 * q.vol ^ 2 * m.tau)) ∧
      (q.delta ≠ 0.5 → solve (adjustedDeltaError m spot q) q = .ok K) := by
    intro q K hd hn h
    obtain ⟨-, hq, ho⟩ := adjusted_ok h
    refine ⟨hq q (by simp), fun e => ?_, fun e => ?_⟩
    · unfold adjustedStrikes at ho
      rw [if_neg (by simp [e]; norm_num)] at ho
      simp at ho
      rw [← ho]; norm_num
    · unfold adjustedStrikes at ho
      have hne : |q.delta| ≠ 0.5 := by
        intro ha
        rcases eq_or_eq_neg_of_abs_eq ha with h | h
        · exact e h
        · exact hn h
      rw [if_pos ⟨q, by simp, hne⟩] at ho
      obtain ⟨K', h1, h2⟩ := (loop_get [q] none [some K] ho 0 q rfl).2 e hd
      simp at h1
      rw [h1, h2]
  have loop : ∀ last, adjustedLoop solve m spot last quotes = .ok (Ks.map some) := by
    induction h with
    | nil => intro last; rw [adjustedLoop.eq_def]; rfl
    | @cons q K qs Ks' hq hqs ih =>
      intro last
      obtain ⟨hd, hn⟩ := h0 q (by simp)
      obtain ⟨-, h1, h2⟩ := each q K hd hn hq
      have ih' := ih (fun p hp => h0 p (List.mem_cons_of_mem _ hp))
      by_cases e : q.delta = 0.5
      · rw [loop_cons_atm e, ih' last, h1 e]; rfl
      · rw [loop_cons_other e hd, h2 e]
        simp only [Except.bind]
        rw [ih' (some K)]; rfl
  have valid : ∀ q ∈ quotes, 0 < q.vol ∧ -0.5 ≤ q.delta ∧ q.delta ≤ 0.5 := by
    clear loop
    induction h with
    | nil => intro q hq; simp at hq
    | @cons q K qs Ks' hq hqs ih =>
      intro p hp
      rcases List.mem_cons.1 hp with rfl | hp
      · obtain ⟨hd, hn⟩ := h0 p (by simp)
        exact (each p K hd hn hq).1
      · exact ih (fun p hp => h0 p (List.mem_cons_of_mem _ hp)) p hp
  have hall : adjustedStrikes solve m spot quotes = .ok (Ks.map some) := by
    unfold adjustedStrikes
    split
    · exact loop none
    · rename_i hno
      push Not at hno
      rw [Except.ok.injEq]
      clear loop
      induction h with
      | nil => rfl
      | @cons q K qs Ks' hq hqs ih =>
        obtain ⟨hd, hn⟩ := h0 q (by simp)
        have e : q.delta = 0.5 := (eq_or_eq_neg_of_abs_eq (hno q (by simp))).resolve_right hn
        have := (each q K hd hn hq).2.1 e
        simp only [List.map_cons, List.cons.injEq, Option.some.injEq]
        exact ⟨this.symm, ih (fun p hp => h0 p (List.mem_cons_of_mem _ hp)) (fun p hp => valid p (List.mem_cons_of_mem _ hp)) (fun p hp => hno p (List.mem_cons_of_mem _ hp))⟩
  unfold gkStrikeFromDelta
  rw [if_neg]
  · cases spot <;> exact hall
  · push Not
    exact ⟨hm, valid⟩

/-- A root finder of the kind assumed. -/
noncomputable def exactBrent (f : ℝ → ℝ) (ab : ℝ × ℝ) : BracketRun :=
  if 0 < f ab.1 * f ab.2 then .raised
  else if h : ∃ x, x ∈ uIcc ab.1 ab.2 ∧ f x = 0 then .stopped true h.choose else .stopped false ab.1

theorem exactBrent_finds : FindsBracketedRoots exactBrent := by
  intro f a b
  refine ⟨fun h => by unfold exactBrent; rw [if_pos h], fun hf h => ?_, fun x h => ?_⟩
  · have hx : ∃ x, x ∈ uIcc a b ∧ f x = 0 := by
      rcases mul_nonpos_iff.1 h with ⟨h1, h2⟩ | ⟨h1, h2⟩
      · exact intermediate_value_uIcc hf (mem_uIcc.2 (Or.inr ⟨h2, h1⟩))
      · exact intermediate_value_uIcc hf (mem_uIcc.2 (Or.inl ⟨h1, h2⟩))
    unfold exactBrent
    rw [if_neg (not_lt.2 h), dif_pos hx]
    exact ⟨_, rfl⟩
  · unfold exactBrent at h
    split at h
    · cases h
    · split at h
      · rename_i hx
        cases h
        exact hx.choose_spec
      · cases h

/-- A call for which a strike is found: delta 0.25 and volatility 10% over one year, on spot 1.1 with rates of 5% and 2%. -/
example : ∃ K, gkBracketedStrikes exactBrent ⟨1.1, 1, 0.05, 0.02, none⟩ .adjustedForward .forward [⟨0.1, 0.25⟩] = .ok [some K] := by
  have hm : MarketOk ⟨1.1, 1, 0.05, 0.02, none⟩ := ⟨by norm_num, by norm_num, fun F h => by cases h⟩
  have hp : ParityForward ⟨1.1, 1, 0.05, 0.02, none⟩ := fun F h => by cases h
  have hv : (0 : ℝ) < 0.1 := by norm_num
  have hF := forward_pos hm
  have hFe : StrikeMarket.forward ⟨1.1, 1, 0.05, 0.02, none⟩ = 1.1 * Real.exp ((0.05 - 0.02) * 1) := rfl
  have hs1 : (0.1 : ℝ) * Real.sqrt 1 = 0.1 := by rw [Real.sqrt_one, mul_one]
  obtain ⟨K₀, d₀, hK₀, h₀, hmax⟩ := C51_call_maximum _ hm false 0.1 hv
  have hmaxi : ∀ K d, 0 < K → HasAdjustedDelta false (StrikeMarket.option ⟨1.1, 1, 0.05, 0.02, none⟩ 0.1 K 1) d → d ≤ d₀ := by
    intro K d hK h
    by_cases e : K = K₀
    · subst e; exact (adjustedDelta_unique h h₀).le
    · exact (hmax K d hK e h).le
  -- the delta of the at-the-money strike
  have hatm : 0.25 ≤ d₀ := by
    obtain ⟨ha, hb, -⟩ := neutral_facts hm (spot := false) hv
    refine le_trans ?_ (hmaxi _ _ ha hb)
    rw [mul_div_cancel_left₀ _ hF.ne']
    have := Real.add_one_le_exp (-1 * 0.5 * (0.1 : ℝ) ^ 2 * 1)
    simp only [Bool.false_eq_true, if_false]
    norm_num at this ⊢
    linarith
  -- below 0.00001 the deltas are smaller still
  have hK5 : 0.00001 ≤ K₀ := by
    by_contra hlt
    push Not at hlt
    have e := (call_delta_iff hm hv hK₀).1 h₀
    have hle : d₀ ≤ K₀ / StrikeMarket.forward ⟨1.1, 1, 0.05, 0.02, none⟩ := by
      rw [e]
      unfold adjCall convFactor
      rw [strikeX_exp hF hv hm.2.1 hK₀]
      simp only [Bool.false_eq_true, if_false, one_mul]
      exact mul_le_of_le_one_right (div_pos hK₀ hF).le (normCdf_lt_one _).le
    have hF1 : 1 ≤ StrikeMarket.forward ⟨1.1, 1, 0.05, 0.02, none⟩ := by
      rw [hFe]
      have := Real.add_one_le_exp ((0.05 - 0.02) * 1 : ℝ)
      norm_num at this ⊢
      linarith
    have : K₀ / StrikeMarket.forward ⟨1.1, 1, 0.05, 0.02, none⟩ ≤ K₀ := div_le_self hK₀.le hF1
    norm_num at hlt hatm
    linarith
  exact (C51_call_found exactBrent exactBrent_finds _ hm hp false .forward ⟨0.1, 0.25⟩ hv (by norm_num) (by norm_num) K₀ d₀ hK₀ h₀ hmaxi).1 ⟨hK5, hatm⟩

end Frm.Props
