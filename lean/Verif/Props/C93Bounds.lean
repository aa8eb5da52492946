import Verif.Props.C70Bounds
import Verif.Props.C71
import Verif.Props.C92
import Verif.Props.C93

/-!
# C93: the range of the bootstrapped volatilities and smiles

With numerical methods that keep to their bounds, the parameters of every smile in the table are within fixed bounds, including those
interpolated between pillars.
-/

namespace Frm
namespace Spec

set_option autoImplicit false

/-- Rho is a correlation, volvol at least 0.0001, the lognormal volatility between 0.1% and 1000%, beta between `bl` and `bh`, and the normal
volatility between `lo` and `hi`. -/
def SmileWithin (bl bh lo hi : ℝ) (s : BootSmile) : Prop :=
  (-1 ≤ s.rho ∧ s.rho ≤ 1) ∧ 0.0001 ≤ s.volvol ∧ (0.001 ≤ s.volSln ∧ s.volSln ≤ 10) ∧ (bl ≤ s.beta ∧ s.beta ≤ bh) ∧ lo ≤ s.volN ∧ s.volN ≤ hi

/-- The beta of a quote is between `bl` and `bh`; without one, these include the bounds of the fit. -/
def BetaWithin (bl bh : ℝ) (q : BootQuote) : Prop := (∀ b, q.beta = some b → bl ≤ b ∧ b ≤ bh) ∧ (q.beta = none → bl ≤ -1 ∧ 1 ≤ bh)

end Spec
end Frm

namespace Frm.Props
open Classical

set_option autoImplicit false

open Frm Frm.Spec

theorem interp_two_le {t t0 y0 t1 y1 hi : ℝ} (h0 : y0 ≤ hi) (h1 : y1 ≤ hi) : npInterp t [(t0, y0), (t1, y1)] ≤ hi := by
  unfold npInterp
  split_ifs with ha hb
  · exact h0
  · simp only at ha hb ⊢
    have hd : 0 < t1 - t0 := by linarith [not_lt.1 ha]
    have hw0 : 0 ≤ (t - t0) / (t1 - t0) := div_nonneg (by linarith [not_lt.1 ha]) hd.le
    have hw1 : (t - t0) / (t1 - t0) ≤ 1 := (div_le_one hd).2 (by linarith)
    have e : (y1 - y0) / (t1 - t0) * (t - t0) + y0 = (1 - (t - t0) / (t1 - t0)) * y0 + (t - t0) / (t1 - t0) * y1 := by ring
    rw [e]
    nlinarith [mul_le_mul_of_nonneg_left h0 (sub_nonneg.2 hw1), mul_le_mul_of_nonneg_left h1 hw0]
  · exact h1

theorem le_interp_two {t t0 y0 t1 y1 lo : ℝ} (h0 : lo ≤ y0) (h1 : lo ≤ y1) : lo ≤ npInterp t [(t0, y0), (t1, y1)] := by
  unfold npInterp
  split_ifs with ha hb
  · exact h0
  · simp only at ha hb ⊢
    have hd : 0 < t1 - t0 := by linarith [not_lt.1 ha]
    have hw0 : 0 ≤ (t - t0) / (t1 - t0) := div_nonneg (by linarith [not_lt.1 ha]) hd.le
    have hw1 : (t - t0) / (t1 - t0) ≤ 1 := (div_le_one hd).2 (by linarith)
    have e : (y1 - y0) / (t1 - t0) * (t - t0) + y0 = (1 - (t - t0) / (t1 - t0)) * y0 + (t - t0) / (t1 - t0) * y1 := by ring
    rw [e]
    nlinarith [mul_le_mul_of_nonneg_left h0 (sub_nonneg.2 hw1), mul_le_mul_of_nonneg_left h1 hw0]
  · exact h1

theorem between_mem {t0 y0 t1 y1 y : ℝ} {rows : List BootRow} {i : Nat} (h : (betweenPillars t0 y0 t1 y1 rows)[i]? = some y) :
    ∃ t, y = npInterp t [(t0, y0), (t1, y1)] := by
  unfold betweenPillars at h
  rw [List.getElem?_map, Option.map_eq_some_iff] at h
  obtain ⟨o, -, rfl⟩ := h
  exact ⟨o.tau, rfl⟩

theorem pillar_within {sv : BootSolvers} (hp : StaysInside sv.pillar) {shift : ℝ} {solved : List (BootRow × BootSmile)} {rows : List BootRow}
    {c : QuoteCell} {v : ℝ} (h : solvePillar sv shift solved rows c = .ok v) : 0.0001 ≤ v ∧ v ≤ 1 := by
  unfold solvePillar at h
  split at h
  · cases h
  · split_ifs at h
    obtain ⟨y0, -, h⟩ := except_bind_ok h
    exact minimise_within (inside_normal hp _) h

theorem step_within {sv : BootSolvers} (hs : StaysInBox sv.sabr) (hp : StaysInside sv.pillar) (hc : StaysInside sv.convert) {bl bh lo hi : ℝ}
    (hlo : lo ≤ 0.0001) (hhi : 1 ≤ hi) {shift : ℝ} {first : Bool} {solved new : List (BootRow × BootSmile)} {rows : List BootRow} {q : BootQuote}
    (hb : BetaWithin bl bh q) (hv : first = true → ∀ c v, q.atmf = some (c, v) → lo ≤ v ∧ v ≤ hi)
    (hsolved : ∀ p ∈ solved, SmileWithin bl bh lo hi p.2) (h : bootStep sv shift first solved rows q = .ok new) :
    ∀ p ∈ new, SmileWithin bl bh lo hi p.2 := by
  obtain ⟨vols, rs, b, r, w, hvols, -, ⟨x, hx, hu⟩, -, hmap, hg⟩ := bootStep_get h
  have hbox := sabrBox_bounds (hs _ _ _ _ hx) hu
  have hbeta : bl ≤ b ∧ b ≤ bh := by
    cases hq : q.beta with
    | none => exact ⟨(hb.2 hq).1.trans (hbox.2.2.2 hq).1, (hbox.2.2.2 hq).2.trans (hb.2 hq).2⟩
    | some b' => rw [sabrUnpack_beta hu b' hq]; exact hb.1 b' hq
  rintro ⟨o, s⟩ hm
  obtain ⟨i, hi'⟩ := List.getElem?_of_mem hm
  have hr : rows[i]? = some o := by rw [← hmap, List.getElem?_map, hi']; rfl
  obtain ⟨s', s1, s2, s3, s4, -⟩ := hg i o hr
  rw [hi', Option.some.injEq, Prod.mk.injEq] at s1
  obtain ⟨-, rfl⟩ := s1
  have hsln := C70_normal_range _ hc _ _ _ _ _ _ s3
  unfold quoteVolN at hvols
  split at hvols
  · cases hvols
  · rename_i c v hat
    cases first with
    | true =>
      simp only [if_true, Except.ok.injEq] at hvols
      subst hvols
      rw [List.getElem?_map, hr] at s2
      unfold smileColumns at s4
      simp only [if_true, List.getElem?_map, hr, Option.map_some, Option.some.injEq, Prod.mk.injEq] at s2 s4
      obtain ⟨rfl, rfl, rfl⟩ := s4
      have := hv rfl c v hat
      exact ⟨⟨hbox.1, hbox.2.1⟩, hbox.2.2.1, hsln, hbeta, s2 ▸ this.1, s2 ▸ this.2⟩
    | false =>
      simp only [Bool.false_eq_true, if_false] at hvols
      split at hvols
      · cases hvols
      · rename_i last hlast
        obtain ⟨p, hpil, rfl⟩ := except_map_ok hvols
        obtain ⟨l1, l2, l3, l4, l5⟩ := hsolved last (List.mem_of_getLast? hlast)
        have hpw := pillar_within hp hpil
        obtain ⟨t, ht⟩ := between_mem s2
        unfold smileColumns at s4
        simp only [Bool.false_eq_true, if_false, hlast] at s4
        rw [List.getElem?_zip_eq_some, List.getElem?_zip_eq_some] at s4
        obtain ⟨s4, s5, s6⟩ := s4
        obtain ⟨t1, h1⟩ := between_mem s4
        obtain ⟨t2, h2⟩ := between_mem s5
        obtain ⟨t3, h3⟩ := between_mem s6
        simp only at h1 h2 h3
        refine ⟨?_, ?_, hsln, ?_, ?_⟩
        · rw [h2]; exact ⟨le_interp_two l1.1 hbox.1, interp_two_le l1.2 hbox.2.1⟩
        · rw [h3]; exact le_interp_two l2 hbox.2.2.1
        · rw [h1]; exact ⟨le_interp_two l4.1 hbeta.1, interp_two_le l4.2 hbeta.2⟩
        · rw [ht]; exact ⟨le_interp_two l5.1 (hlo.trans hpw.1), interp_two_le l5.2 (hpw.2.trans hhi)⟩

theorem from_within {sv : Nat → BootSolvers} (hs : ∀ n, StaysInBox (sv n).sabr) (hp : ∀ n, StaysInside (sv n).pillar)
    (hc : ∀ n, StaysInside (sv n).convert) {bl bh lo hi : ℝ} (hlo : lo ≤ 0.0001) (hhi : 1 ≤ hi) {shift : ℝ}
    {quotes : List (BootQuote × List BootRow)} (hb : ∀ q ∈ quotes, BetaWithin bl bh q.1) {n : Nat} {solved out : List (BootRow × BootSmile)}
    (hv : n = 0 → ∀ q c v, quotes.head? = some q → q.1.atmf = some (c, v) → lo ≤ v ∧ v ≤ hi)
    (hsolved : ∀ p ∈ solved, SmileWithin bl bh lo hi p.2) (h : bootFrom sv shift n solved quotes = .ok out) :
    ∀ p ∈ out, SmileWithin bl bh lo hi p.2 := by
  induction quotes generalizing n solved with
  | nil => cases h; exact hsolved
  | cons q quotes ih =>
    rw [bootFrom] at h
    obtain ⟨new, h1, h2⟩ := except_bind_ok h
    refine ih (fun q' hq' => hb q' (List.mem_cons_of_mem _ hq')) (fun h0 => absurd h0 (Nat.succ_ne_zero n)) ?_ h2
    intro p hp'
    rcases List.mem_append.1 hp' with hp' | hp'
    · exact hsolved p hp'
    · exact step_within (hs n) (hp n) (hc n) hlo hhi (hb q (List.mem_cons_self ..))
        (fun h0 c v hat => hv (by simpa using h0) q c v rfl hat) hsolved h1 p hp'

/-- Every smile of the table has rho between -1 and 1, volvol at least 0.0001, a lognormal volatility between 0.1% and 1000%, beta within any
bounds that hold the given ones, and a normal volatility between one basis point and 100%, or the first quote's if that is outside. -/
theorem C93_ranges (sv : Nat → BootSolvers) (hs : ∀ n, StaysInBox (sv n).sabr) (hp : ∀ n, StaysInside (sv n).pillar)
    (hc : ∀ n, StaysInside (sv n).convert) (bl bh lo hi : ℝ) (hlo : lo ≤ 0.0001) (hhi : 1 ≤ hi) (shift : ℝ)
    (quotes : List (BootQuote × List BootRow)) (hb : ∀ q ∈ quotes, BetaWithin bl bh q.1)
    (hv : ∀ q c v, quotes.head? = some q → q.1.atmf = some (c, v) → lo ≤ v ∧ v ≤ hi) (out : List (BootRow × BootSmile))
    (h : bootOptionlets sv shift quotes = .ok out) (o : BootRow) (s : BootSmile) (hm : (o, s) ∈ out) : SmileWithin bl bh lo hi s :=
  from_within hs hp hc hlo hhi hb (fun _ => hv) (by simp) h (o, s) hm

/-- The normal volatility of a quote is at most a fifth below and a quarter above the closed-form approximation. -/
theorem C93_quote_vol_range (m : Method) (hm : StaysInside m) (F tau vol shift : ℝ) (rows : List BootRow) (c : QuoteCell) (g v : ℝ)
    (hg : slnToNormalAnalytical F tau c.K vol shift = .ok (.fin g)) (h0 : 0 ≤ g)
    (h : quoteNormalVol m F tau vol shift rows c = .ok v) : 0.8 * g ≤ v ∧ v ≤ 1.25 * g := by
  unfold quoteNormalVol at h
  have e : quoteStart F tau vol shift c = .fin g := by unfold quoteStart; rw [hg]
  rw [e] at h
  exact minimise_within (hm _ _ _ (by linarith)) h

/-- So a quote whose every repricing volatility is outside this range is refused, when the minimiser reports success only where it reprices. -/
theorem C93_quote_vol_missed (m : Method) (hm : StaysInside m) (hrel : ∀ x0 bounds, Reliable (m x0 bounds)) (F tau vol shift : ℝ)
    (rows : List BootRow) (c : QuoteCell) (g : ℝ) (hg : slnToNormalAnalytical F tau c.K vol shift = .ok (.fin g)) (h0 : 0 ≤ g)
    (hout : ∀ v X, NormalWorth c (rows.map (fun o => (o, v))) X → |X - c.price| < 0.00001 * |c.price| → v < 0.8 * g ∨ 1.25 * g < v) (v : ℝ) :
    quoteNormalVol m F tau vol shift rows c ≠ .ok v := by
  intro h
  have hr := C93_quote_vol_range m hm F tau vol shift rows c g v hg h0 h
  unfold quoteNormalVol at h
  obtain ⟨e, he1, he2⟩ := minimiseVol_reliable (hrel _ _) (fun x e => npSquare_nonneg _ e) h
  cases hX : normalValue c (rows.map (fun o => (o, v))) with
  | none => rw [hX] at he1; simp [relativeGap, npSquare] at he1
  | some X =>
    rw [hX] at he1
    rcases hout v X ((normalWorth_iff _ _ _).2 hX) (relGap_within (by norm_num) he1 he2).2 with h' | h' <;> linarith [hr.1, hr.2]

/-! ## Concrete cases -/

/-- A method that returns one point if it is within the bounds. -/
noncomputable def pointMethod (v : ℝ) : Method := fun _ b =>
  match b with
  | (.fin lo, .fin hi) => if lo ≤ v ∧ v ≤ hi then .ret v true else .fail .value
  | _ => .fail .value

theorem pointMethod_inside (v : ℝ) : StaysInside (pointMethod v) := by
  intro x0 lo hi _
  simp only [pointMethod]
  split_ifs with h
  · exact h
  · trivial

/-- A minimiser that returns one point if it is within the bounds. -/
noncomputable def pointFit (x : List ℝ) : BoxMinimiser := fun _ box _ => if InBox x box then .ok (true, x) else .ok (false, x)

theorem pointFit_inside (x : List ℝ) : StaysInBox (pointFit x) := by
  intro x0 box f y h
  unfold pointFit at h
  split_ifs at h with hx
  · cases h; exact hx
  · simp at h

/-- A quote with two optionlets, bootstrapped by methods that keep to their bounds. -/
example : ∃ sv : BootSolvers, StaysInBox sv.sabr ∧ StaysInside sv.pillar ∧ StaysInside sv.convert ∧
    bootOptionlets (fun _ => sv) 0.01 [(sampleBootQuote 0.0305, sampleEarly)] = .ok (sampleEarly.map (fun o => (o, sampleBootSmile 0.006))) := by
  refine ⟨⟨pointMethod 0.0065, pointMethod 0.0065, pointMethod 0.008, pointMethod 0.2, fun _ => [1], pointFit [0, 0.3]⟩,
    pointFit_inside _, pointMethod_inside _, pointMethod_inside _, ?_⟩
  have hc : ∀ x, pointMethod 0.2 x volSlnBounds = .ret 0.2 true := by
    intro x
    simp only [pointMethod, volSlnBounds]
    rw [if_pos (by norm_num)]
  have hf : ∀ x f, pointFit [0, 0.3] x (sabrBox (some 0.5)) f = .ok (true, [0, 0.3]) := by
    intro x f
    unfold pointFit
    rw [if_pos]
    simp [InBox, sabrBox]
    norm_num
  simp [bootOptionlets, bootFrom, bootStep, solveVolNAtm, quoteVolN, sampleBootQuote, sampleEarly, normalVolToBlack76Sln, minimiseVol, hc, hf,
    show ¬ ((0.03 : ℝ) + 0.01 = 0) by norm_num, show ¬ ((0.031 : ℝ) + 0.01 = 0) by norm_num, Search.run, solveSabrParams, sabrUnpack, rowSmiles,
    smileColumns, solveAlpha, nearestTo, Except.bind, Except.map, bind, pure, Except.pure, sampleBootSmile]

/-- A strike at the forward: the approximation is a positive number. -/
example : ∃ g, slnToNormalAnalytical 0.03 1 0.03 0.2 0.01 = .ok (.fin g) ∧ 0 ≤ g := by
  obtain ⟨g, hg, h⟩ := C92_positive (F := 0.03) (K := 0.03) (tau := 1) (vol := 0.2) (shift := 0.01) (by norm_num) (by norm_num) (by norm_num)
    (by norm_num) (by rw [div_self (by norm_num)]; norm_num)
  exact ⟨g, hg, h.le⟩

end Frm.Props
