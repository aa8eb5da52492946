import Verif.Proofs.Bachelier

/-!
# C52: Black-76 parity, bounds, shift invariance and greeks
-/

namespace Frm
namespace Spec

set_option autoImplicit false

/-- An option before expiry with positive shifted forward and strike and a positive volatility. -/
def LognormalOption (x : B76Row) : Prop :=
  0 < x.F + x.shift ∧ 0 < x.K + x.shift ∧ 0 < x.tau ∧ 0 < x.vol ∧ (x.cp = 1 ∨ x.cp = -1)

/-- `X` is the Black-76 price of the option. -/
def B76Priced (x : B76Row) (X : ℝ) : Prop := ∃ v, black76Price [x] = [v] ∧ v.price = some X

/-- `P` is the Black-76 price as one of the terms `y` varies in `D`. -/
def B76PricesAs (f : ℝ → B76Row) (D : Set ℝ) (P : ℝ → ℝ) : Prop := ∀ y ∈ D, B76Priced (f y) (P y)

end Spec
end Frm

namespace Frm.Props
open Classical Set Filter Topology

set_option autoImplicit false

open Frm Frm.Spec

/-- The function values each element by itself, in order. -/
theorem C52_elementwise (rows : List B76Row) :
    (black76Price rows).length = rows.length ∧
    ∀ (i : Nat) x, rows[i]? = some x → ∃ v, (black76Price rows)[i]? = some v ∧ black76Price [x] = [v] := by
  refine ⟨by simp [black76Price], fun i x hx => ⟨b76Value x, ?_, rfl⟩⟩
  simp [black76Price, hx]

theorem b76Priced_iff (x : B76Row) (X : ℝ) : B76Priced x X ↔ b76Price x = some X := by
  constructor
  · rintro ⟨v, h, hp⟩
    simp only [black76Price, List.map_cons, List.map_nil, List.cons.injEq, and_true] at h
    subst h
    exact hp
  · intro h
    exact ⟨_, rfl, h⟩

theorem b76Priced_black {x : B76Row} (h : LognormalOption x) (X : ℝ) :
    B76Priced x X ↔ X = x.annuity * blackF x.cp (x.F + x.shift) (x.K + x.shift) (x.vol * Real.sqrt x.tau) := by
  rw [b76Priced_iff, b76Price_eq h.1 h.2.1 h.2.2.1 h.2.2.2.1.ne', Option.some.injEq]
  exact eq_comm

/-- Every such option has exactly one price. -/
theorem C52_price (x : B76Row) (h : LognormalOption x) : ∃! X, B76Priced x X :=
  ⟨_, (b76Priced_black h _).2 rfl, fun _ hy => (b76Priced_black h _).1 hy⟩

/-- Put–call parity. -/
theorem C52_parity (x : B76Row) (h : LognormalOption x) (c p : ℝ) (hc : B76Priced { x with cp := 1 } c)
    (hp : B76Priced { x with cp := -1 } p) : c - p = x.annuity * (x.F - x.K) := by
  rw [b76Priced_black (x := { x with cp := 1 }) ⟨h.1, h.2.1, h.2.2.1, h.2.2.2.1, Or.inl rfl⟩] at hc
  rw [b76Priced_black (x := { x with cp := -1 }) ⟨h.1, h.2.1, h.2.2.1, h.2.2.2.1, Or.inr rfl⟩] at hp
  rw [hc, hp, ← mul_sub]
  simp only [black_parity]
  ring

/-- Prices, intrinsic and time values, and greeks depend on the forward, the strike and the shift only through the shifted forward and
the shifted strike. -/
theorem C52_shift (x y : B76Row) (hF : x.F + x.shift = y.F + y.shift) (hK : x.K + x.shift = y.K + y.shift) (ht : x.tau = y.tau)
    (hcp : x.cp = y.cp) (hv : x.vol = y.vol) (ha : x.annuity = y.annuity) :
    black76Price [x] = black76Price [y] ∧ black76Greeks [x] = black76Greeks [y] := by
  have h1 : b76D1 x = b76D1 y := by unfold b76D1; rw [hF, hK, ht, hv]
  have h2 : b76D2 x = b76D2 y := by unfold b76D2; rw [h1, ht, hv]
  have hp : b76Price x = b76Price y := by unfold b76Price; rw [h1, h2, hF, hK, hcp, ha]
  have hi : b76Intrinsic x = b76Intrinsic y := by unfold b76Intrinsic; rw [hp, hF, hK, hcp, ht]
  have hval : b76Value x = b76Value y := by unfold b76Value; rw [hp, hi]
  have hg : b76Greeks x = b76Greeks y := by unfold b76Greeks; rw [h1, hF, hcp, ht, ha]
  exact ⟨by simp [black76Price, hval], by simp [black76Greeks, hg]⟩

/-- The price is proportional to the annuity factor. -/
theorem C52_annuity (x : B76Row) (a X : ℝ) (h : B76Priced { x with annuity := 1 } X) : B76Priced { x with annuity := a } (a * X) := by
  rw [b76Priced_iff] at *
  have e1 : b76D1 { x with annuity := a } = b76D1 { x with annuity := 1 } := rfl
  have e2 : b76D2 { x with annuity := a } = b76D2 { x with annuity := 1 } := rfl
  unfold b76Price at *
  rw [e1, e2]
  revert h
  cases npCdf ((b76D1 { x with annuity := 1 }).signed x.cp) with
  | none => intro h; cases h
  | some n1 =>
    cases npCdf ((b76D2 { x with annuity := 1 }).signed x.cp) with
    | none => intro h; cases h
    | some n2 =>
      intro h
      simp only [Option.some.injEq] at h ⊢
      rw [← h]
      ring

/-- With a positive annuity factor, the price lies strictly between the intrinsic value and the forward (call) or the strike (put),
all times the annuity factor. -/
theorem C52_bounds (x : B76Row) (h : LognormalOption x) (ha : 0 < x.annuity) (X : ℝ) (hX : B76Priced x X) :
    x.annuity * max 0 (x.cp * (x.F - x.K)) < X ∧ (x.cp = 1 → X < x.annuity * (x.F + x.shift)) ∧
      (x.cp = -1 → X < x.annuity * (x.K + x.shift)) := by
  have hX' := (b76Priced_black h X).1 hX
  obtain ⟨h1, h2, h3, h4, h5⟩ := h
  have hb := black_bounds h1 h2 (mul_pos h4 (Real.sqrt_pos.2 h3)) h5
  have e : x.F + x.shift - (x.K + x.shift) = x.F - x.K := by ring
  rw [e] at hb
  rw [hX']
  refine ⟨mul_lt_mul_of_pos_left hb.1 ha, fun hc => ?_, fun hc => ?_⟩
  · have := hb.2
    rw [if_pos hc] at this
    exact mul_lt_mul_of_pos_left this ha
  · have := hb.2
    rw [if_neg (by rw [hc]; norm_num)] at this
    exact mul_lt_mul_of_pos_left this ha

/-- The price is strictly increasing and continuous in the volatility, and takes every value between the bounds, each at one
volatility. -/
theorem C52_monotone (x : B76Row) (h : LognormalOption x) (ha : 0 < x.annuity) (P : ℝ → ℝ)
    (hP : B76PricesAs (fun v => { x with vol := v }) (Ioi 0) P) :
    StrictMonoOn P (Ioi 0) ∧ ContinuousOn P (Ioi 0) ∧
    ∀ X, (∃! v, 0 < v ∧ P v = X) ↔
      x.annuity * max 0 (x.cp * (x.F - x.K)) < X ∧ X < x.annuity * (if x.cp = 1 then x.F + x.shift else x.K + x.shift) := by
  obtain ⟨h1, h2, h3, h4, h5⟩ := h
  have hst := Real.sqrt_pos.2 h3
  have hPe : ∀ v ∈ Ioi (0 : ℝ), P v = x.annuity * blackF x.cp (x.F + x.shift) (x.K + x.shift) (v * Real.sqrt x.tau) := by
    intro v hv
    exact (b76Priced_black (x := { x with vol := v }) ⟨h1, h2, h3, hv, h5⟩ _).1 (hP v hv)
  have hmono : StrictMonoOn P (Ioi 0) := by
    intro a ha' b hb' hab
    rw [hPe a ha', hPe b hb']
    exact mul_lt_mul_of_pos_left (black_strictMono h1 h2 h5 (mul_pos ha' hst) (mul_pos hb' hst) (mul_lt_mul_of_pos_right hab hst)) ha
  refine ⟨hmono, ?_, ?_⟩
  · have hc : ContinuousOn (fun v => x.annuity * blackF x.cp (x.F + x.shift) (x.K + x.shift) (v * Real.sqrt x.tau)) (Ioi 0) :=
      continuousOn_const.mul ((black_continuousOn h1 h2 h5).comp (by fun_prop) (fun v hv => mul_pos hv hst))
    exact hc.congr hPe
  · intro X
    have e : x.F + x.shift - (x.K + x.shift) = x.F - x.K := by ring
    constructor
    · rintro ⟨v, ⟨hv, rfl⟩, -⟩
      rw [hPe v hv]
      have hb := black_bounds h1 h2 (mul_pos hv hst) h5
      rw [e] at hb
      exact ⟨mul_lt_mul_of_pos_left hb.1 ha, mul_lt_mul_of_pos_left hb.2 ha⟩
    · rintro ⟨hlo, hhi⟩
      have hX : x.annuity * (X / x.annuity) = X := mul_div_cancel₀ _ ha.ne'
      obtain ⟨s, hs, hsX⟩ := black_surj (X := X / x.annuity) h1 h2 h5
        (by rw [e]; rw [lt_div_iff₀ ha, mul_comm]; exact hlo) (by rw [div_lt_iff₀ ha, mul_comm]; exact hhi)
      have hv : 0 < s / Real.sqrt x.tau := div_pos hs hst
      have hPv : P (s / Real.sqrt x.tau) = X := by rw [hPe _ hv, div_mul_cancel₀ _ hst.ne', hsX, hX]
      exact ⟨_, ⟨hv, hPv⟩, fun w hw => hmono.injOn hw.1 hv (hw.2.trans hPv.symm)⟩

theorem b76Greeks_eq {x : B76Row} (h : LognormalOption x) : ∃ g, black76Greeks [x] = [g] ∧
    g.delta = some (x.cp * normCdf (x.cp * bD1 (x.F + x.shift) (x.K + x.shift) (x.vol * Real.sqrt x.tau)) * x.annuity) ∧
    g.vega = some (0.01 * ((x.F + x.shift) * Real.sqrt x.tau * normPdf (bD1 (x.F + x.shift) (x.K + x.shift) (x.vol * Real.sqrt x.tau))) *
      x.annuity) := by
  refine ⟨_, rfl, ?_, ?_⟩ <;> unfold b76Greeks <;> rw [b76_d1 h.1 h.2.1 h.2.2.1 h.2.2.2.1.ne'] <;> rfl

/-- Delta is the derivative of the price with respect to the forward. -/
theorem C52_delta (x : B76Row) (h : LognormalOption x) (P : ℝ → ℝ)
    (hP : B76PricesAs (fun F => { x with F := F }) (Ioi (-x.shift)) P) :
    ∃ g δ, black76Greeks [x] = [g] ∧ g.delta = some δ ∧ HasDerivAt P δ x.F := by
  obtain ⟨g, hg, hδ, -⟩ := b76Greeks_eq h
  refine ⟨g, _, hg, hδ, ?_⟩
  obtain ⟨h1, h2, h3, h4, h5⟩ := h
  have hs : x.vol * Real.sqrt x.tau ≠ 0 := (mul_pos h4 (Real.sqrt_pos.2 h3)).ne'
  have hA : HasDerivAt (fun F : ℝ => F + x.shift) 1 x.F := (hasDerivAt_id x.F).add_const x.shift
  have hd := (black_hasDerivAt h5 hA (hasDerivAt_const x.F (x.K + x.shift)) (hasDerivAt_const x.F (x.vol * Real.sqrt x.tau)) h1 h2 hs).const_mul x.annuity
  have he : P =ᶠ[𝓝 x.F] fun F => x.annuity * blackF x.cp (F + x.shift) (x.K + x.shift) (x.vol * Real.sqrt x.tau) := by
    filter_upwards [Ioi_mem_nhds (show -x.shift < x.F by linarith)] with F hF
    have hF' : -x.shift < F := hF
    exact (b76Priced_black (x := { x with F := F }) ⟨by show 0 < F + x.shift; linarith, h2, h3, h4, h5⟩ _).1 (hP F hF)
  refine (hd.congr_of_eventuallyEq he).congr_deriv ?_
  ring

/-- Vega is the price change for one percentage point of volatility, to first order. -/
theorem C52_vega (x : B76Row) (h : LognormalOption x) (P : ℝ → ℝ) (hP : B76PricesAs (fun v => { x with vol := v }) (Ioi 0) P) :
    ∃ g D, black76Greeks [x] = [g] ∧ HasDerivAt P D x.vol ∧ g.vega = some (0.01 * D) := by
  obtain ⟨g, hg, -, hgv⟩ := b76Greeks_eq h
  obtain ⟨h1, h2, h3, h4, h5⟩ := h
  have hs : x.vol * Real.sqrt x.tau ≠ 0 := (mul_pos h4 (Real.sqrt_pos.2 h3)).ne'
  have hsd : HasDerivAt (fun v : ℝ => v * Real.sqrt x.tau) (Real.sqrt x.tau) x.vol := by
    simpa using (hasDerivAt_id x.vol).mul_const (Real.sqrt x.tau)
  have hd := (black_hasDerivAt h5 (hasDerivAt_const x.vol (x.F + x.shift)) (hasDerivAt_const x.vol (x.K + x.shift)) hsd h1 h2 hs).const_mul x.annuity
  have he : P =ᶠ[𝓝 x.vol] fun v => x.annuity * blackF x.cp (x.F + x.shift) (x.K + x.shift) (v * Real.sqrt x.tau) := by
    filter_upwards [Ioi_mem_nhds h4] with v hv
    exact (b76Priced_black (x := { x with vol := v }) ⟨h1, h2, h3, hv, h5⟩ _).1 (hP v hv)
  refine ⟨g, _, hg, hd.congr_of_eventuallyEq he, ?_⟩
  rw [hgv, Option.some.injEq]
  ring

/-- At expiry, and without volatility before it, the price is the payoff times the annuity factor when forward and strike differ, delta is
that of the payoff and vega is zero; everything is `nan` when they are equal. -/
theorem C52_expiry (x : B76Row) (hF : 0 < x.F + x.shift) (hK : 0 < x.K + x.shift) (h0 : x.tau = 0 ∨ (0 < x.tau ∧ x.vol = 0))
    (hcp : x.cp = 1 ∨ x.cp = -1) :
    (x.F ≠ x.K → B76Priced x (x.annuity * max 0 (x.cp * (x.F - x.K))) ∧
      black76Greeks [x] = [⟨some (if 0 < x.cp * (x.F - x.K) then x.cp * x.annuity else 0), some 0⟩]) ∧
    (x.F = x.K → (∀ X, ¬ B76Priced x X) ∧ black76Greeks [x] = [⟨none, none⟩]) := by
  have e1 : Npf.divide (x.F + x.shift) (x.K + x.shift) = .fin ((x.F + x.shift) / (x.K + x.shift)) := by unfold Npf.divide; rw [if_pos hK.ne']
  have e2 : (Npf.fin ((x.F + x.shift) / (x.K + x.shift))).log = .fin (Real.log ((x.F + x.shift) / (x.K + x.shift))) := by
    show (if 0 < (x.F + x.shift) / (x.K + x.shift) then _ else _) = _
    rw [if_pos (div_pos hF hK)]
  have ht : ¬ x.tau < 0 := by rcases h0 with h | h <;> linarith [h]
  have hs : x.vol * Real.sqrt x.tau = 0 := by rcases h0 with h | h <;> simp [h]
  have hq : 0.5 * x.vol ^ 2 * x.tau = 0 := by rcases h0 with h | h <;> simp [h]
  have e3 : b76D1 x = if 0 < Real.log ((x.F + x.shift) / (x.K + x.shift)) then .posInf
      else if Real.log ((x.F + x.shift) / (x.K + x.shift)) < 0 then .negInf else .nan := by
    unfold b76D1
    rw [if_neg ht, e1, e2, hs, hq]
    show Npf.divide (_ + _) _ = _
    unfold Npf.divide
    rw [if_neg (by simp)]
    simp only [add_zero]
  have hn : ¬ (0 : ℝ) < -1 := by norm_num
  have hm : (-1 : ℝ) < 0 := by norm_num
  constructor
  · intro hne
    rw [b76Priced_iff]
    unfold b76Price b76D2
    simp only [black76Greeks, List.map_cons, List.map_nil, List.cons.injEq, and_true]
    unfold b76Greeks
    rw [e3]
    rcases lt_or_gt_of_ne hne with hlt | hgt
    · have hl : Real.log ((x.F + x.shift) / (x.K + x.shift)) < 0 := Real.log_neg (div_pos hF hK) ((div_lt_one hK).2 (by linarith))
      rw [if_neg (not_lt.2 hl.le), if_pos hl]
      rcases hcp with h | h <;> rw [h]
      · rw [max_eq_left (by linarith), if_neg (by linarith)]
        simp [Npf.signed, npCdf, npPdf, Npf.plus]
      · rw [max_eq_right (by linarith), if_pos (by linarith)]
        simp only [Npf.signed, npCdf, npPdf, Npf.plus, hn, hm, if_true, if_false, Option.map_some, Option.some.injEq, B76Greeks.mk.injEq]
        refine ⟨?_, ?_, ?_⟩ <;> ring
    · have hl : 0 < Real.log ((x.F + x.shift) / (x.K + x.shift)) := Real.log_pos ((one_lt_div hK).2 (by linarith))
      rw [if_pos hl]
      rcases hcp with h | h <;> rw [h]
      · rw [max_eq_right (by linarith), if_pos (by linarith)]
        simp only [Npf.signed, npCdf, npPdf, Npf.plus, one_pos, if_true, Option.map_some, Option.some.injEq, B76Greeks.mk.injEq]
        refine ⟨?_, ?_, ?_⟩ <;> ring
      · rw [max_eq_left (by linarith), if_neg (by linarith)]
        simp [Npf.signed, npCdf, npPdf, Npf.plus, hn, hm]
  · intro heq
    have hl : Real.log ((x.F + x.shift) / (x.K + x.shift)) = 0 := by rw [heq, div_self hK.ne', Real.log_one]
    rw [hl, if_neg (lt_irrefl 0), if_neg (lt_irrefl 0)] at e3
    refine ⟨fun X hX => ?_, ?_⟩
    · rw [b76Priced_iff] at hX
      unfold b76Price b76D2 at hX
      rw [e3] at hX
      simp [Npf.signed, npCdf] at hX
    · simp only [black76Greeks, List.map_cons, List.map_nil, List.cons.injEq, and_true]
      unfold b76Greeks
      rw [e3]
      rfl

/-- A negative time is not refused: price, intrinsic value, time value and greeks are `nan`. -/
theorem C52_negative_time (x : B76Row) (ht : x.tau < 0) :
    black76Price [x] = [⟨none, none, none⟩] ∧ black76Greeks [x] = [⟨none, none⟩] := by
  have e : b76D1 x = .nan := by unfold b76D1; rw [if_pos ht]
  have hp : b76Price x = none := by
    unfold b76Price b76D2
    rw [e]
    rfl
  refine ⟨?_, ?_⟩
  · simp only [black76Price, List.map_cons, List.map_nil, List.cons.injEq, and_true]
    unfold b76Value b76Intrinsic
    rw [hp, if_neg (by linarith), if_neg ht.ne]
    rfl
  · simp only [black76Greeks, List.map_cons, List.map_nil, List.cons.injEq, and_true]
    unfold b76Greeks
    rw [e]
    rfl

/-- An option out of the money at expiry, and one a year after it. -/
example : black76Greeks [⟨0.02, 0, 1, 0.03, 0.2, 0.01, 0.5⟩] = [⟨some 0, some 0⟩] ∧
    black76Greeks [⟨0.02, -1, 1, 0.03, 0.2, 0.01, 0.5⟩] = [⟨none, none⟩] := by
  refine ⟨?_, (C52_negative_time _ (by norm_num)).2⟩
  rw [((C52_expiry ⟨0.02, 0, 1, 0.03, 0.2, 0.01, 0.5⟩ (by norm_num) (by norm_num) (.inl rfl) (.inl rfl)).1 (by norm_num)).2]
  norm_num

/-- A caplet on a negative forward with a shift is such an option. -/
example : LognormalOption ⟨-0.005, 2, 1, 0.01, 0.3, 0.03, 0.48⟩ := ⟨by norm_num, by norm_num, by norm_num, by norm_num, Or.inl rfl⟩

end Frm.Props
