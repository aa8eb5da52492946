import Verif.Proofs.Bachelier

/-!
# C53: Bachelier parity, positivity and greeks
-/

namespace Frm
namespace Spec

set_option autoImplicit false

/-- An option before expiry with a positive normal volatility. -/
def NormalOption (x : BachRow) : Prop := 0 < x.tau ∧ 0 < x.vol ∧ (x.cp = 1 ∨ x.cp = -1)

/-- `X` is the Bachelier price of the option. -/
def BachPriced (x : BachRow) (X : ℝ) : Prop := ∃ v, bachelierPrice [x] = [v] ∧ v.price = some X

/-- `P` is the Bachelier price as one of the terms `y` varies in `D`. -/
def BachPricesAs (f : ℝ → BachRow) (D : Set ℝ) (P : ℝ → ℝ) : Prop := ∀ y ∈ D, BachPriced (f y) (P y)

end Spec
end Frm

namespace Frm.Props
open Classical Set Filter Topology

set_option autoImplicit false

open Frm Frm.Spec

/-- The function values each element by itself, in order. -/
theorem C53_elementwise (rows : List BachRow) :
    (bachelierPrice rows).length = rows.length ∧
    ∀ (i : Nat) x, rows[i]? = some x → ∃ v, (bachelierPrice rows)[i]? = some v ∧ bachelierPrice [x] = [v] := by
  refine ⟨by simp [bachelierPrice], fun i x hx => ⟨bachValue x, ?_, rfl⟩⟩
  simp [bachelierPrice, hx]

theorem bachPriced_iff (x : BachRow) (X : ℝ) : BachPriced x X ↔ bachPrice x = some X := by
  constructor
  · rintro ⟨v, h, hp⟩
    simp only [bachelierPrice, List.map_cons, List.map_nil, List.cons.injEq, and_true] at h
    subst h
    exact hp
  · intro h
    exact ⟨_, rfl, h⟩

theorem bachPriced_eq {x : BachRow} (h : NormalOption x) (X : ℝ) :
    BachPriced x X ↔ X = x.annuity * bachF x.cp (x.F - x.K) (x.vol * Real.sqrt x.tau) := by
  rw [bachPriced_iff, bachPrice_eq h.1 h.2.1.ne', Option.some.injEq]
  exact eq_comm

/-- Every such option has exactly one price. -/
theorem C53_price (x : BachRow) (h : NormalOption x) : ∃! X, BachPriced x X :=
  ⟨_, (bachPriced_eq h _).2 rfl, fun _ hy => (bachPriced_eq h _).1 hy⟩

/-- Put–call parity. -/
theorem C53_parity (x : BachRow) (h : NormalOption x) (c p : ℝ) (hc : BachPriced { x with cp := 1 } c)
    (hp : BachPriced { x with cp := -1 } p) : c - p = x.annuity * (x.F - x.K) := by
  rw [bachPriced_eq (x := { x with cp := 1 }) ⟨h.1, h.2.1, Or.inl rfl⟩] at hc
  rw [bachPriced_eq (x := { x with cp := -1 }) ⟨h.1, h.2.1, Or.inr rfl⟩] at hp
  rw [hc, hp, ← mul_sub]
  simp only [bach_parity]

/-- With a positive annuity factor the price exceeds the intrinsic value times the annuity factor, and depends on forward and strike
only through their difference. -/
theorem C53_bounds (x : BachRow) (h : NormalOption x) (ha : 0 < x.annuity) (X : ℝ) (hX : BachPriced x X) :
    x.annuity * max 0 (x.cp * (x.F - x.K)) < X ∧
      ∀ F K, F - K = x.F - x.K → BachPriced { x with F := F, K := K } X := by
  have hX' := (bachPriced_eq h X).1 hX
  obtain ⟨h1, h2, h3⟩ := h
  refine ⟨?_, fun F K hFK => ?_⟩
  · rw [hX']
    exact mul_lt_mul_of_pos_left (bach_gt_intrinsic (mul_pos h2 (Real.sqrt_pos.2 h1)) h3) ha
  · rw [bachPriced_eq (x := { x with F := F, K := K }) ⟨h1, h2, h3⟩, hX', hFK]

/-- The price is strictly increasing in the volatility. -/
theorem C53_monotone (x : BachRow) (h : NormalOption x) (ha : 0 < x.annuity) (P : ℝ → ℝ)
    (hP : BachPricesAs (fun v => { x with vol := v }) (Ioi 0) P) : StrictMonoOn P (Ioi 0) := by
  obtain ⟨h1, h2, h3⟩ := h
  have hst := Real.sqrt_pos.2 h1
  intro a ha' b hb' hab
  rw [(bachPriced_eq (x := { x with vol := a }) ⟨h1, ha', h3⟩ _).1 (hP a ha'),
    (bachPriced_eq (x := { x with vol := b }) ⟨h1, hb', h3⟩ _).1 (hP b hb')]
  exact mul_lt_mul_of_pos_left (bach_strictMono h3 (mul_pos ha' hst) (mul_pos hb' hst) (mul_lt_mul_of_pos_right hab hst)) ha

theorem bachGreeks_eq {x : BachRow} (h : NormalOption x) : ∃ g, bachelierGreeks [x] = [g] ∧
    g.delta = some (x.cp * normCdf (x.cp * ((x.F - x.K) / (x.vol * Real.sqrt x.tau))) * x.annuity) ∧
    g.vega = some (Real.sqrt x.tau * normPdf ((x.F - x.K) / (x.vol * Real.sqrt x.tau)) * x.annuity * 0.0001) ∧
    g.theta = some ((-0.5 * normPdf ((x.F - x.K) / (x.vol * Real.sqrt x.tau)) * x.vol / Real.sqrt x.tau) * x.annuity / (1 / 365.25)) := by
  refine ⟨_, rfl, ?_, ?_, ?_⟩ <;> unfold bachGreeks <;> simp only [if_neg h.1.ne'] <;> rw [bach_d h.1 h.2.1.ne']
  · rfl
  rotate_left
  · rfl
  show some (Real.sqrt x.tau * normPdf (x.cp * ((x.F - x.K) / (x.vol * Real.sqrt x.tau))) * x.annuity * 0.0001) = _
  have : normPdf (x.cp * ((x.F - x.K) / (x.vol * Real.sqrt x.tau))) = normPdf ((x.F - x.K) / (x.vol * Real.sqrt x.tau)) := by
    rcases h.2.2 with h | h <;> rw [h]
    · rw [one_mul]
    · rw [neg_one_mul, normPdf_neg]
  rw [this]

/-- Delta is the derivative of the price with respect to the forward. -/
theorem C53_delta (x : BachRow) (h : NormalOption x) (P : ℝ → ℝ) (hP : BachPricesAs (fun F => { x with F := F }) univ P) :
    ∃ g δ, bachelierGreeks [x] = [g] ∧ g.delta = some δ ∧ HasDerivAt P δ x.F := by
  obtain ⟨g, hg, hd, -, -⟩ := bachGreeks_eq h
  refine ⟨g, _, hg, hd, ?_⟩
  obtain ⟨h1, h2, h3⟩ := h
  have hs : x.vol * Real.sqrt x.tau ≠ 0 := (mul_pos h2 (Real.sqrt_pos.2 h1)).ne'
  have hm : HasDerivAt (fun F : ℝ => F - x.K) 1 x.F := (hasDerivAt_id x.F).sub_const x.K
  have hb := (bach_hasDerivAt h3 hm (hasDerivAt_const x.F (x.vol * Real.sqrt x.tau)) hs).const_mul x.annuity
  have he : P =ᶠ[𝓝 x.F] fun F => x.annuity * bachF x.cp (F - x.K) (x.vol * Real.sqrt x.tau) := by
    filter_upwards with F
    exact (bachPriced_eq (x := { x with F := F }) ⟨h1, h2, h3⟩ _).1 (hP F (mem_univ F))
  refine (hb.congr_of_eventuallyEq he).congr_deriv ?_
  ring

/-- Vega is the price change for one basis point of volatility, to first order. -/
theorem C53_vega (x : BachRow) (h : NormalOption x) (P : ℝ → ℝ) (hP : BachPricesAs (fun v => { x with vol := v }) (Ioi 0) P) :
    ∃ g D, bachelierGreeks [x] = [g] ∧ HasDerivAt P D x.vol ∧ g.vega = some (0.0001 * D) := by
  obtain ⟨g, hg, -, hv, -⟩ := bachGreeks_eq h
  obtain ⟨h1, h2, h3⟩ := h
  have hs : x.vol * Real.sqrt x.tau ≠ 0 := (mul_pos h2 (Real.sqrt_pos.2 h1)).ne'
  have hsd : HasDerivAt (fun v : ℝ => v * Real.sqrt x.tau) (Real.sqrt x.tau) x.vol := by
    simpa using (hasDerivAt_id x.vol).mul_const (Real.sqrt x.tau)
  have hb := (bach_hasDerivAt h3 (hasDerivAt_const x.vol (x.F - x.K)) hsd hs).const_mul x.annuity
  have he : P =ᶠ[𝓝 x.vol] fun v => x.annuity * bachF x.cp (x.F - x.K) (v * Real.sqrt x.tau) := by
    filter_upwards [Ioi_mem_nhds h2] with v hv
    exact (bachPriced_eq (x := { x with vol := v }) ⟨h1, hv, h3⟩ _).1 (hP v hv)
  refine ⟨g, _, hg, hb.congr_of_eventuallyEq he, ?_⟩
  rw [hv, Option.some.injEq]
  ring

/-- Theta is 365.25 times the loss of value per year, where the loss of value per calendar day is one 365.25th of it.  Missing: theta
per calendar day; it is never that for a non-zero annuity factor. -/
theorem C53_theta_partial (x : BachRow) (h : NormalOption x) (ha : x.annuity ≠ 0) (P : ℝ → ℝ)
    (hP : BachPricesAs (fun t => { x with tau := t }) (Ioi 0) P) :
    ∃ g D, bachelierGreeks [x] = [g] ∧ HasDerivAt P D x.tau ∧ g.theta = some (-D * 365.25) ∧ g.theta ≠ some (-D / 365.25) := by
  obtain ⟨g, hg, -, -, ht⟩ := bachGreeks_eq h
  obtain ⟨h1, h2, h3⟩ := h
  have hst := Real.sqrt_pos.2 h1
  have hs : x.vol * Real.sqrt x.tau ≠ 0 := (mul_pos h2 hst).ne'
  have hsd : HasDerivAt (fun t : ℝ => x.vol * Real.sqrt t) (x.vol * (1 / (2 * Real.sqrt x.tau))) x.tau :=
    (Real.hasDerivAt_sqrt h1.ne').const_mul x.vol
  have hb := (bach_hasDerivAt h3 (hasDerivAt_const x.tau (x.F - x.K)) hsd hs).const_mul x.annuity
  have he : P =ᶠ[𝓝 x.tau] fun t => x.annuity * bachF x.cp (x.F - x.K) (x.vol * Real.sqrt t) := by
    filter_upwards [Ioi_mem_nhds h1] with t ht'
    exact (bachPriced_eq (x := { x with tau := t }) ⟨ht', h2, h3⟩ _).1 (hP t ht')
  have key : g.theta = some (-(x.annuity * (x.cp * normCdf (x.cp * ((x.F - x.K) / (x.vol * Real.sqrt x.tau))) * 0
      + normPdf ((x.F - x.K) / (x.vol * Real.sqrt x.tau)) * (x.vol * (1 / (2 * Real.sqrt x.tau))))) * 365.25) := by
    rw [ht, Option.some.injEq]
    have := hst.ne'
    field_simp
    ring
  refine ⟨g, _, hg, hb.congr_of_eventuallyEq he, key, ?_⟩
  rw [key]
  have hne : x.annuity * (x.cp * normCdf (x.cp * ((x.F - x.K) / (x.vol * Real.sqrt x.tau))) * 0
      + normPdf ((x.F - x.K) / (x.vol * Real.sqrt x.tau)) * (x.vol * (1 / (2 * Real.sqrt x.tau)))) ≠ 0 := by
    rw [mul_zero, zero_add]
    exact mul_ne_zero ha (mul_pos (normPdf_pos _) (mul_pos h2 (by positivity))).ne'
  generalize x.annuity * (x.cp * normCdf (x.cp * ((x.F - x.K) / (x.vol * Real.sqrt x.tau))) * 0
      + normPdf ((x.F - x.K) / (x.vol * Real.sqrt x.tau)) * (x.vol * (1 / (2 * Real.sqrt x.tau)))) = D at hne
  intro heq
  rw [Option.some.injEq] at heq
  apply hne
  norm_num at heq
  linarith

/-- At expiry, and without volatility before it, the price is the payoff times the annuity factor when forward and strike differ, delta is
that of the payoff, vega is zero and so is theta, which is `nan` at expiry; everything is `nan` when they are equal. -/
theorem C53_expiry (x : BachRow) (h0 : x.tau = 0 ∨ (0 < x.tau ∧ x.vol = 0)) (hcp : x.cp = 1 ∨ x.cp = -1) :
    (x.F ≠ x.K → BachPriced x (x.annuity * max 0 (x.cp * (x.F - x.K))) ∧
      bachelierGreeks [x] = [⟨some (if 0 < x.cp * (x.F - x.K) then x.cp * x.annuity else 0), some 0, if x.tau = 0 then none else some 0⟩]) ∧
    (x.F = x.K → (∀ X, ¬ BachPriced x X) ∧ bachelierGreeks [x] = [⟨none, none, none⟩]) := by
  have ht : ¬ x.tau < 0 := by rcases h0 with h | h <;> linarith [h]
  have hs : x.vol * Real.sqrt x.tau = 0 := by rcases h0 with h | h <;> simp [h]
  have e : bachD x = if 0 < x.F - x.K then .posInf else if x.F - x.K < 0 then .negInf else .nan := by
    unfold bachD Npf.divide
    rw [if_neg ht, hs, if_neg (by simp)]
  have hn : ¬ (0 : ℝ) < -1 := by norm_num
  have hm : (-1 : ℝ) < 0 := by norm_num
  constructor
  · intro hne
    rw [bachPriced_iff]
    unfold bachPrice
    simp only [bachelierGreeks, List.map_cons, List.map_nil, List.cons.injEq, and_true]
    unfold bachGreeks
    rw [e, hs]
    rcases lt_or_gt_of_ne hne with hlt | hgt
    · rw [if_neg (by linarith), if_pos (by linarith)]
      rcases hcp with h | h <;> rw [h]
      · rw [max_eq_left (by linarith), if_neg (show ¬ (0 : ℝ) < 1 * (x.F - x.K) by linarith)]
        simp [Npf.signed, npCdf, npPdf]
      · rw [max_eq_right (by linarith), if_pos (show (0 : ℝ) < -1 * (x.F - x.K) by linarith)]
        simp [Npf.signed, npCdf, npPdf, hn, hm]
    · rw [if_pos (by linarith)]
      rcases hcp with h | h <;> rw [h]
      · rw [max_eq_right (by linarith), if_pos (show (0 : ℝ) < 1 * (x.F - x.K) by linarith)]
        simp [Npf.signed, npCdf, npPdf]
      · rw [max_eq_left (by linarith), if_neg (show ¬ (0 : ℝ) < -1 * (x.F - x.K) by linarith)]
        simp [Npf.signed, npCdf, npPdf, hn, hm]
  · intro heq
    rw [if_neg (by linarith), if_neg (by linarith)] at e
    refine ⟨fun X hX => ?_, ?_⟩
    · rw [bachPriced_iff] at hX
      unfold bachPrice at hX
      rw [e] at hX
      simp [Npf.signed, npCdf] at hX
    · simp only [bachelierGreeks, List.map_cons, List.map_nil, List.cons.injEq, and_true]
      unfold bachGreeks
      rw [e]
      simp [Npf.signed, npCdf, npPdf]

/-- A negative time is not refused: price, intrinsic value, time value and greeks are `nan`. -/
theorem C53_negative_time (x : BachRow) (ht : x.tau < 0) :
    bachelierPrice [x] = [⟨none, none, none⟩] ∧ bachelierGreeks [x] = [⟨none, none, none⟩] := by
  have e : bachD x = .nan := by unfold bachD; rw [if_pos ht]
  have hp : bachPrice x = none := by
    unfold bachPrice
    rw [e]
    rfl
  refine ⟨?_, ?_⟩
  · simp only [bachelierPrice, List.map_cons, List.map_nil, List.cons.injEq, and_true]
    unfold bachValue bachIntrinsic
    rw [hp, if_neg (by linarith), if_neg ht.ne]
    rfl
  · simp only [bachelierGreeks, List.map_cons, List.map_nil, List.cons.injEq, and_true]
    unfold bachGreeks
    rw [e, if_neg ht.ne]
    rfl

/-- A floorlet in the money without volatility, and one a year after expiry. -/
example : bachelierGreeks [⟨0.02, 1, -1, 0.03, 0, 0.5⟩] = [⟨some (-0.5), some 0, some 0⟩] ∧
    bachelierGreeks [⟨0.02, -1, -1, 0.03, 0.2, 0.5⟩] = [⟨none, none, none⟩] := by
  refine ⟨?_, (C53_negative_time _ (by norm_num)).2⟩
  rw [((C53_expiry ⟨0.02, 1, -1, 0.03, 0, 0.5⟩ (.inr ⟨by norm_num, rfl⟩) (.inr rfl)).1 (by norm_num)).2]
  norm_num

/-- A floorlet on a negative forward is such an option. -/
example : NormalOption ⟨-0.005, 2, -1, 0.01, 0.006, 0.48⟩ := ⟨by norm_num, by norm_num, Or.inr rfl⟩

end Frm.Props
