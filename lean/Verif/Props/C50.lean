import Verif.Props.C47

/-!
# C50: the price is strictly increasing in volatility, so implied volatility is unique
-/

namespace Frm
namespace Spec

set_option autoImplicit false

/-- The root finder returns roots only. -/
def ReturnsRoots (f : RootFinder) : Prop := ∀ g v, f g = .ok v → g v = some 0

/-- A bracketing solver on `[a, b]`, for functions continuous there: `ValueError` when the values at the ends have the same strict
sign, otherwise a root in the bracket. -/
def Brackets (f : RootFinder) (a b : ℝ) : Prop :=
  ∀ (g : ℝ → Option ℝ) (y : ℝ → ℝ), ContinuousOn y (Set.Icc a b) → (∀ v ∈ Set.Icc a b, g v = some (y v)) →
    (0 < y a * y b ∧ f g = .error .value) ∨ (y a * y b ≤ 0 ∧ ∃ v, f g = .ok v ∧ a ≤ v ∧ v ≤ b ∧ g v = some 0)

/-- `X` is the price of the contract at volatility `v`. -/
def PricedAt (x : GkRow) (v X : ℝ) : Prop :=
  ∃ val, garmanKohlhagenPrice [{ x with vol := v }] = .ok [val] ∧ val.price = some X

end Spec
end Frm

namespace Frm.Props
open Classical Set

set_option autoImplicit false

open Frm Frm.Spec

theorem pricedAt_iff {x : GkRow} (hx : FxAdmissible x) (v X : ℝ) : PricedAt x v X ↔ gkPrice { x with vol := v } = some X := by
  have hv : ∀ y ∈ [{ x with vol := v }], gkValid y := by simpa using (show gkValid { x with vol := v } from hx)
  unfold PricedAt
  rw [garmanKohlhagenPrice_of hv]
  constructor
  · rintro ⟨val, h, hp⟩
    simp only [List.map_cons, List.map_nil, Except.ok.injEq, List.cons.injEq, and_true] at h
    subst h
    exact hp
  · intro h
    exact ⟨_, rfl, h⟩

theorem pricedAt_black {x : GkRow} (hx : FxAdmissible x) (hK : 0 < x.K) (ht : 0 < x.tau) {r : ℝ} (hr : DomesticRate x r) {v X : ℝ} (hv : v ≠ 0) :
    PricedAt x v X ↔ blackF x.cp (assetPv x) (strikePv x r) (v * Real.sqrt x.tau) = X := by
  rw [pricedAt_iff hx]
  have hr' := domesticRate_eq hx.1 ht.ne' hr
  have hrate : gkRate { x with vol := v } = r := hr'
  rw [gkPrice_eq (x := { x with vol := v }) hx.1 hK ht hv, hrate, Option.some.injEq]
  rfl

/-- At each positive volatility there is exactly one price; it is strictly increasing and continuous in the volatility. -/
theorem C50_monotone (x : GkRow) (hx : FxAdmissible x) (hK : 0 < x.K) (ht : 0 < x.tau) :
    ∃ P : ℝ → ℝ, (∀ v, 0 < v → ∀ X, PricedAt x v X ↔ X = P v) ∧ StrictMonoOn P (Ioi 0) ∧ ContinuousOn P (Ioi 0) := by
  obtain ⟨r, hr, -⟩ := domesticRate_exists x hx ht
  have hA : 0 < assetPv x := mul_pos hx.1 (Real.exp_pos _)
  have hB : 0 < strikePv x r := mul_pos hK (Real.exp_pos _)
  have hst := Real.sqrt_pos.2 ht
  refine ⟨fun v => blackF x.cp (assetPv x) (strikePv x r) (v * Real.sqrt x.tau), ?_, ?_, ?_⟩
  · intro v hv X
    rw [pricedAt_black hx hK ht hr hv.ne']
    exact eq_comm
  · intro a ha b hb hab
    exact black_strictMono hA hB hx.2.2.1 (mul_pos ha hst) (mul_pos hb hst) (mul_lt_mul_of_pos_right hab hst)
  · exact (black_continuousOn hA hB hx.2.2.1).comp (by fun_prop) (fun v hv => mul_pos hv hst)

/-- The prices attained at positive volatilities are exactly those strictly between the discounted intrinsic value and the present
value of the asset (call) or the strike (put); each is attained at exactly one volatility. -/
theorem C50_range (x : GkRow) (hx : FxAdmissible x) (hK : 0 < x.K) (ht : 0 < x.tau) (r : ℝ) (hr : DomesticRate x r) (X : ℝ) :
    (∃! v, 0 < v ∧ PricedAt x v X) ↔
      max 0 (x.cp * (assetPv x - strikePv x r)) < X ∧ X < if x.cp = 1 then assetPv x else strikePv x r := by
  have hA : 0 < assetPv x := mul_pos hx.1 (Real.exp_pos _)
  have hB : 0 < strikePv x r := mul_pos hK (Real.exp_pos _)
  have hst := Real.sqrt_pos.2 ht
  constructor
  · rintro ⟨v, ⟨hv, hp⟩, -⟩
    rw [pricedAt_black hx hK ht hr hv.ne'] at hp
    rw [← hp]
    exact black_bounds hA hB (mul_pos hv hst) hx.2.2.1
  · rintro ⟨hlo, hhi⟩
    obtain ⟨s, hs, h⟩ := black_surj hA hB hx.2.2.1 hlo hhi
    have e : s / Real.sqrt x.tau * Real.sqrt x.tau = s := div_mul_cancel₀ _ hst.ne'
    have hv : 0 < s / Real.sqrt x.tau := div_pos hs hst
    refine ⟨s / Real.sqrt x.tau, ⟨hv, ?_⟩, ?_⟩
    · rw [pricedAt_black hx hK ht hr hv.ne', e]; exact h
    · rintro w ⟨hw, hp⟩
      rw [pricedAt_black hx hK ht hr hw.ne'] at hp
      have hm := (black_strictMono hA hB hx.2.2.1).injOn (mul_pos hw hst) hs (hp.trans h.symm)
      rw [eq_div_iff hst.ne']
      exact hm

/-- Prices at non-positive volatilities, which the solver may try: never above the discounted intrinsic value. -/
theorem priced_nonpos {x : GkRow} (hx : FxAdmissible x) (hK : 0 < x.K) (ht : 0 < x.tau) {r : ℝ} (hr : DomesticRate x r) {v X : ℝ} (hv : v ≤ 0)
    (hp : PricedAt x v X) : X ≤ max 0 (x.cp * (assetPv x - strikePv x r)) := by
  have hA : 0 < assetPv x := mul_pos hx.1 (Real.exp_pos _)
  have hB : 0 < strikePv x r := mul_pos hK (Real.exp_pos _)
  have hst := Real.sqrt_pos.2 ht
  rcases hv.lt_or_eq with hv | rfl
  · rw [pricedAt_black hx hK ht hr hv.ne] at hp
    have e : v * Real.sqrt x.tau = -(-v * Real.sqrt x.tau) := by ring
    rw [e, black_swap] at hp
    have hcp : -x.cp = 1 ∨ -x.cp = -1 := by rcases hx.2.2.1 with h | h <;> rw [h] <;> norm_num
    have := (black_bounds hA hB (mul_pos (neg_pos.2 hv) hst) hcp).1
    have h0 := le_max_left 0 (-x.cp * (assetPv x - strikePv x r))
    have h1 := le_max_left 0 (x.cp * (assetPv x - strikePv x r))
    linarith
  · rw [pricedAt_iff hx] at hp
    have hrate : gkRate { x with vol := 0 } = r := domesticRate_eq hx.1 ht.ne' hr
    have e1 : Npf.divide x.S0 x.K = .fin (x.S0 / x.K) := by unfold Npf.divide; rw [if_pos hK.ne']
    have e2 : (Npf.fin (x.S0 / x.K)).log = .fin (Real.log (x.S0 / x.K)) := by
      show (if 0 < x.S0 / x.K then _ else _) = _
      rw [if_pos (div_pos hx.1 hK)]
    have e3 : gkD1 { x with vol := 0 } = Npf.divide (Real.log (x.S0 / x.K) + (r - x.rf + 0.5 * 0 ^ 2) * x.tau) (0 * Real.sqrt x.tau) := by
      unfold gkD1
      rw [if_neg (fun h => ht.ne' h.1), if_neg (fun h => ht.ne' h.1), hrate]
      simp only [e1, e2]
      rfl
    have e4 : Npf.divide (Real.log (x.S0 / x.K) + (r - x.rf + 0.5 * 0 ^ 2) * x.tau) (0 * Real.sqrt x.tau)
        = if 0 < Real.log (assetPv x / strikePv x r) then .posInf else if Real.log (assetPv x / strikePv x r) < 0 then .negInf else .nan := by
      have hl : Real.log (x.S0 / x.K) + (r - x.rf + 0.5 * 0 ^ 2) * x.tau = Real.log (assetPv x / strikePv x r) := by
        unfold assetPv strikePv
        rw [log_assets hx.1 hK]
        ring
      rw [hl]
      unfold Npf.divide
      rw [if_neg (by simp)]
    rw [e4] at e3
    have hprice : gkPrice { x with vol := 0 } = match npCdf ((gkD1 { x with vol := 0 }).signed x.cp), npCdf ((gkD2 { x with vol := 0 }).signed x.cp) with
        | some n1, some n2 => some (x.cp * (assetPv x * n1 - strikePv x r * n2))
        | _, _ => none := by
      unfold gkPrice
      rw [if_neg ht.ne', hrate]
      rfl
    rw [hprice] at hp
    unfold gkD2 at hp
    rw [e3] at hp
    by_cases hpos : 0 < Real.log (assetPv x / strikePv x r)
    · rw [if_pos hpos] at hp
      rcases hx.2.2.1 with h | h
      · rw [h] at hp ⊢
        simp [Npf.signed, npCdf, Npf.plus] at hp
        rw [← hp, one_mul]
        exact le_max_right _ _
      · rw [h] at hp ⊢
        have : ¬ (0 : ℝ) < -1 := by norm_num
        simp [Npf.signed, npCdf, Npf.plus, this] at hp
        rw [← hp]
        exact le_max_left _ _
    · rw [if_neg hpos] at hp
      by_cases hneg : Real.log (assetPv x / strikePv x r) < 0
      · rw [if_pos hneg] at hp
        rcases hx.2.2.1 with h | h
        · rw [h] at hp ⊢
          simp [Npf.signed, npCdf, Npf.plus] at hp
          rw [← hp]
          exact le_max_left _ _
        · rw [h] at hp ⊢
          have : ¬ (0 : ℝ) < -1 := by norm_num
          simp [Npf.signed, npCdf, Npf.plus, this] at hp
          have e : -1 * (assetPv x - strikePv x r) = X := by rw [← hp]; ring
          rw [e]
          exact le_max_right _ _
      · rw [if_neg hneg] at hp
        simp [Npf.signed, npCdf, Npf.plus] at hp

theorem gkError_zero {x : GkRow} (hx : FxAdmissible { x with fwd := none }) {X v : ℝ} (h : gkError x X v = some 0) :
    PricedAt { x with fwd := none } v X := by
  rw [pricedAt_iff hx]
  unfold gkError at h
  obtain ⟨p, hp, h0⟩ := Option.map_eq_some_iff.1 h
  have hp' : gkPrice { x with fwd := none, vol := v } = some p := hp
  rw [hp']
  congr 1
  linarith

/-- A number returned by the solver reprices to the input; if the input exceeds the discounted intrinsic value the number is
positive and is the only positive volatility that does. -/
theorem C50_solver (newton : RootFinder) (brentq : ℝ × ℝ → RootFinder) (hn : ReturnsRoots newton) (hb : ∀ b, ReturnsRoots (brentq b)) (x : GkRow) (X v : ℝ)
    (h : gkSolveImpliedVol newton brentq x X = .ok (.vol v)) :
    PricedAt { x with fwd := none } v X ∧
    (0 < x.K → 0 < x.tau → max 0 (x.cp * (assetPv x - strikePv x x.rd)) < X →
      0 < v ∧ ∀ w, 0 < w → PricedAt { x with fwd := none } w X → w = v) := by
  unfold gkSolveImpliedVol at h
  by_cases hv : gkValid { x with fwd := none }
  · rw [if_neg (not_not.2 hv)] at h
    have hroot : gkError x X v = some 0 := by
      cases hnw : newton (gkError x X) with
      | ok w =>
        rw [hnw] at h
        simp only [Except.ok.injEq, ImpliedVol.vol.injEq] at h
        subst h
        exact hn _ _ hnw
      | error e =>
        rw [hnw] at h
        cases e with
        | runtime =>
          simp only at h
          cases hbw : brentq (0.0001, 2) (gkError x X) with
          | ok w =>
            rw [hbw] at h
            simp only [Except.ok.injEq, ImpliedVol.vol.injEq] at h
            subst h
            exact hb _ _ _ hbw
          | error e =>
            rw [hbw] at h
            cases e <;> simp at h
        | _ => simp at h
    have hp := gkError_zero hv hroot
    refine ⟨hp, fun hK ht hlo => ?_⟩
    have hr : DomesticRate { x with fwd := none } x.rd := rfl
    have hpos : 0 < v := by
      by_contra hv0
      exact absurd (priced_nonpos hv hK ht hr (not_lt.1 hv0) hp) (not_le.2 hlo)
    refine ⟨hpos, fun w hw hpw => ?_⟩
    obtain ⟨P, hP, hmono, -⟩ := C50_monotone { x with fwd := none } hv hK ht
    exact hmono.injOn hw hpos (((hP w hw X).1 hpw).symm.trans ((hP v hpos X).1 hp))
  · rw [if_pos hv] at h
    cases h

/-- When Newton's method fails, the fallback finds the volatility if it lies in `[0.0001, 2]`, and the result is infinite if it does
not. -/
theorem C50_fallback (newton : RootFinder) (brentq : ℝ × ℝ → RootFinder) (hb : ∀ a b, a ≤ b → Brackets (brentq (a, b)) a b) (x : GkRow) (X : ℝ)
    (hx : FxAdmissible { x with fwd := none }) (hK : 0 < x.K) (ht : 0 < x.tau) (hn : newton (gkError x X) = .error .runtime) :
    (∃ v, gkSolveImpliedVol newton brentq x X = .ok (.vol v) ∧ 0.0001 ≤ v ∧ v ≤ 2 ∧ PricedAt { x with fwd := none } v X) ∨
    (gkSolveImpliedVol newton brentq x X = .ok .inf ∧ ∀ v, 0.0001 ≤ v → v ≤ 2 → ¬ PricedAt { x with fwd := none } v X) := by
  obtain ⟨P, hP, hmono, hcont⟩ := C50_monotone { x with fwd := none } hx hK ht
  have hval : ∀ v, 0 < v → gkError x X v = some (P v - X) := by
    intro v hv
    have := (pricedAt_iff hx v (P v)).1 ((hP v hv (P v)).2 rfl)
    have hp' : gkPrice { x with vol := v, fwd := none } = some (P v) := this
    unfold gkError
    rw [hp']
    rfl
  have hsolve : gkSolveImpliedVol newton brentq x X = match brentq (0.0001, 2) (gkError x X) with
      | .ok v => .ok (.vol v)
      | .error .value => .ok .inf
      | .error e => .error e := by
    unfold gkSolveImpliedVol
    rw [if_neg (not_not.2 (show gkValid { x with fwd := none } from hx)), hn]
    rfl
  have hsub : Icc (0.0001 : ℝ) 2 ⊆ Ioi 0 := fun v hv => lt_of_lt_of_le (by norm_num) hv.1
  rcases hb 0.0001 2 (by norm_num) (gkError x X) (fun v => P v - X) ((hcont.mono hsub).sub continuousOn_const) (fun v hv => hval v (hsub hv)) with ⟨hsign, he⟩ | ⟨_, v, he, ha, hb', hv⟩
  · right
    rw [hsolve, he]
    refine ⟨rfl, fun v hv1 hv2 hp => ?_⟩
    have hv0 : 0 < v := lt_of_lt_of_le (by norm_num) hv1
    have hX := (hP v hv0 X).1 hp
    have h1 : P 0.0001 ≤ P v := hmono.monotoneOn (by norm_num [mem_Ioi]) hv0 hv1
    have h2 : P v ≤ P 2 := hmono.monotoneOn hv0 (by norm_num [mem_Ioi]) hv2
    have := mul_nonneg (sub_nonneg.2 h1) (sub_nonneg.2 h2)
    rw [hX] at hsign
    nlinarith
  · left
    rw [hsolve, he]
    exact ⟨v, rfl, ha, hb', gkError_zero hx hv⟩

/-- A one-year contract meets the hypotheses. -/
example : FxAdmissible ⟨1.1, 1, 0.05, 0.02, 1, 1.2, 0.1, none⟩ ∧ (0 : ℝ) < 1.2 ∧ (0 : ℝ) < 1 ∧
    DomesticRate ⟨1.1, 1, 0.05, 0.02, 1, 1.2, 0.1, none⟩ 0.05 :=
  ⟨⟨by norm_num, by norm_num, Or.inl rfl, fun F h => by cases h⟩, by norm_num, by norm_num, rfl⟩

/-- Root finders of the kinds assumed exist. -/
example : ∃ f : RootFinder, ReturnsRoots f ∧ ∃ g v, f g = .ok v := by
  refine ⟨fun g => if g 0 = some 0 then .ok 0 else .error .runtime, fun g v h => ?_, fun _ => some 0, 0, by simp⟩
  by_cases h0 : g 0 = some 0
  · simp only [if_pos h0] at h; cases h; exact h0
  · simp only [if_neg h0] at h; cases h

example (a b : ℝ) (hab : a ≤ b) : ∃ f : RootFinder, ReturnsRoots f ∧ Brackets f a b := by
  refine ⟨fun g => if h : ∃ v, a ≤ v ∧ v ≤ b ∧ g v = some 0 then
    (if ∃ ya yb, g a = some ya ∧ g b = some yb ∧ 0 < ya * yb then .error .value else .ok h.choose) else .error .value, ?_, ?_⟩
  · intro g v h
    by_cases h0 : ∃ v, a ≤ v ∧ v ≤ b ∧ g v = some 0
    · simp only [dif_pos h0] at h
      by_cases h1 : ∃ ya yb, g a = some ya ∧ g b = some yb ∧ 0 < ya * yb
      · simp only [if_pos h1] at h; cases h
      · simp only [if_neg h1] at h; cases h; exact h0.choose_spec.2.2
    · simp only [dif_neg h0] at h; cases h
  · intro g y hy hg
    have ha := hg a ⟨le_refl a, hab⟩
    have hb := hg b ⟨hab, le_refl b⟩
    by_cases hs : 0 < y a * y b
    · refine Or.inl ⟨hs, ?_⟩
      have h1 : ∃ ya yb, g a = some ya ∧ g b = some yb ∧ 0 < ya * yb := ⟨_, _, ha, hb, hs⟩
      by_cases h0 : ∃ v, a ≤ v ∧ v ≤ b ∧ g v = some 0
      · simp only [dif_pos h0, if_pos h1]
      · simp only [dif_neg h0]
    · have h0 : ∃ v, a ≤ v ∧ v ≤ b ∧ g v = some 0 := by
        rcases le_total (y a) 0 with hya | hya
        · have hyb : 0 ≤ y b ∨ y a = 0 := by
            by_contra hc
            push Not at hc
            exact hs (mul_pos_of_neg_of_neg (lt_of_le_of_ne hya hc.2) hc.1)
          rcases hyb with hyb | hyb
          · obtain ⟨v, hv, hv0⟩ := intermediate_value_Icc hab hy ⟨hya, hyb⟩
            exact ⟨v, hv.1, hv.2, by rw [hg v hv, hv0]⟩
          · exact ⟨a, le_refl a, hab, by rw [ha, hyb]⟩
        · have hyb : y b ≤ 0 ∨ y a = 0 := by
            by_contra hc
            push Not at hc
            exact hs (mul_pos (lt_of_le_of_ne hya (Ne.symm hc.2)) hc.1)
          rcases hyb with hyb | hyb
          · obtain ⟨v, hv, hv0⟩ := intermediate_value_Icc' hab hy ⟨hyb, hya⟩
            exact ⟨v, hv.1, hv.2, by rw [hg v hv, hv0]⟩
          · exact ⟨a, le_refl a, hab, by rw [ha, hyb]⟩
      have h1 : ¬ ∃ ya yb, g a = some ya ∧ g b = some yb ∧ 0 < ya * yb := by
        rintro ⟨ya, yb, e1, e2, h⟩
        rw [ha] at e1; rw [hb] at e2
        cases e1; cases e2
        exact hs h
      refine Or.inr ⟨not_lt.1 hs, h0.choose, ?_, h0.choose_spec⟩
      simp only [dif_pos h0, if_neg h1]

end Frm.Props
