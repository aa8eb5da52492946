import Verif.Model.OptionletBoot
import Verif.Spec.Bounds
import Verif.Proofs.ZeroCurve
import Verif.Props.C53
import Verif.Props.C56
import Verif.Props.C64
import Verif.Props.C67
import Mathlib.Algebra.Order.BigOperators.Group.List
import Mathlib.Tactic.Linarith
import Mathlib.Tactic.FieldSimp
import Mathlib.Tactic.Ring

/-!
# C93: optionlet smiles bootstrapped from cap and floor quotes
-/

namespace Frm
namespace Spec

set_option autoImplicit false

/-- The optionlets, each at its normal volatility, are together worth `X` at the strike of the cell. -/
inductive NormalWorth (c : QuoteCell) : List (BootRow × ℝ) → ℝ → Prop
  | nil : NormalWorth c [] 0
  | cons (o : BootRow) (vol x y : ℝ) (rest : List (BootRow × ℝ))
      (h : BachPriced { F := o.F, tau := o.tau, cp := c.cp, K := c.K, vol := vol, annuity := o.annuity } x)
      (hr : NormalWorth c rest y) : NormalWorth c ((o, vol) :: rest) (x + y)

/-- The optionlets, each on its SABR smile, are together worth `X` at the strike of the cell. -/
inductive SmileWorth (shift : ℝ) (c : QuoteCell) : List (BootRow × BootSmile) → ℝ → Prop
  | nil : SmileWorth shift c [] 0
  | cons (o : BootRow) (s : BootSmile) (vol x y : ℝ) (rest : List (BootRow × BootSmile))
      (hs : calcSabrVols [(o.tau, o.F, s.alpha, s.beta, s.rho, s.volvol)] [c.K] shift = .ok [some vol])
      (h : B76Priced { F := o.F, tau := o.tau, cp := c.cp, K := c.K, vol := vol, shift := shift, annuity := o.annuity } x)
      (hr : SmileWorth shift c rest y) : SmileWorth shift c ((o, s) :: rest) (x + y)

/-- `(t, y)` is on the straight line through `(t0, y0)` and `(t1, y1)`. -/
def OnSegment (t0 y0 t1 y1 t y : ℝ) : Prop := (y - y0) * (t1 - t0) = (y1 - y0) * (t - t0)

/-- A minimiser that reports success only where the squared relative error is below `1e-5 ** 2`. -/
def Reliable (s : Search) : Prop := ∀ f v, s.run f 0 = .returned v true → ∃ e, f v = .fin e ∧ e < 0.00001 ^ 2

/-- A minimiser for smiles that reports success only where the mean squared relative error is at most `tol`. -/
def FitsWithin (tol : ℝ) (fit : BoxMinimiser) : Prop :=
  ∀ x0 box f x, fit x0 box f = .ok (true, x) → ∃ e, f x = .ok (some e) ∧ e ≤ tol

end Spec

set_option autoImplicit false

open Spec

theorem normalWorth_iff (c : QuoteCell) (l : List (BootRow × ℝ)) (X : ℝ) : NormalWorth c l X ↔ normalValue c l = some X := by
  induction l generalizing X with
  | nil =>
    constructor
    · intro h; cases h; rfl
    · intro h
      simp only [normalValue, List.map_nil, npSum, Option.some.injEq] at h
      subst h
      exact .nil
  | cons p l ih =>
    have e : normalValue c (p :: l) =
        (bachPrice ⟨p.1.F, p.1.tau, c.cp, c.K, p.2, p.1.annuity⟩).bind (fun a => (normalValue c l).map (a + ·)) := rfl
    rw [e]
    constructor
    · rintro (_ | ⟨o, vol, x, y, _, h, hr⟩)
      rw [Props.bachPriced_iff] at h
      rw [h, (ih y).1 hr]
      rfl
    · intro h
      cases hb : bachPrice ⟨p.1.F, p.1.tau, c.cp, c.K, p.2, p.1.annuity⟩ with
      | none => rw [hb] at h; cases h
      | some x =>
        cases hl : normalValue c l with
        | none => rw [hb, hl] at h; cases h
        | some y =>
          rw [hb, hl] at h
          cases h
          exact .cons p.1 p.2 x y l ((Props.bachPriced_iff _ _).2 hb) ((ih y).2 hl)

theorem calcSabr_single (sm : SabrSmile) (K shift : ℝ) : calcSabrVols [sm] [K] shift = .ok [sabrVol shift (sabrRow sm K)] := by
  unfold calcSabrVols
  simp

theorem smileValue_iff (shift : ℝ) (o : BootRow) (s : BootSmile) (c : QuoteCell) (x : ℝ) :
    smileValue shift o s.alpha s.beta s.rho s.volvol c = some x ↔
      ∃ vol, calcSabrVols [(o.tau, o.F, s.alpha, s.beta, s.rho, s.volvol)] [c.K] shift = .ok [some vol] ∧
        B76Priced { F := o.F, tau := o.tau, cp := c.cp, K := c.K, vol := vol, shift := shift, annuity := o.annuity } x := by
  rw [calcSabr_single]
  unfold smileValue
  rw [show sabrRow (o.tau, o.F, s.alpha, s.beta, s.rho, s.volvol) c.K = ⟨o.tau, o.F, s.alpha, s.beta, s.rho, s.volvol, c.K⟩ from rfl]
  cases sabrVol shift ⟨o.tau, o.F, s.alpha, s.beta, s.rho, s.volvol, c.K⟩ with
  | none => simp
  | some v =>
    rw [Option.bind_some, b76Price_annuity ⟨o.F, o.tau, c.cp, c.K, v, shift, 1⟩ o.annuity, ← Props.b76Priced_iff]
    constructor
    · exact fun h => ⟨v, rfl, h⟩
    · rintro ⟨w, hw, h⟩
      cases hw
      exact h

theorem smileWorth_iff (shift : ℝ) (c : QuoteCell) (l : List (BootRow × BootSmile)) (X : ℝ) :
    SmileWorth shift c l X ↔ solvedValue shift l c = some X := by
  induction l generalizing X with
  | nil =>
    constructor
    · intro h; cases h; rfl
    · intro h
      simp only [solvedValue, List.map_nil, npSum, Option.some.injEq] at h
      subst h
      exact .nil
  | cons p l ih =>
    have e : solvedValue shift (p :: l) c =
        (smileValue shift p.1 p.2.alpha p.2.beta p.2.rho p.2.volvol c).bind (fun a => (solvedValue shift l c).map (a + ·)) := rfl
    rw [e]
    constructor
    · rintro (_ | ⟨o, s, vol, x, y, _, hs, h, hr⟩)
      rw [(smileValue_iff shift o s c x).2 ⟨vol, hs, h⟩, (ih y).1 hr]
      rfl
    · intro h
      cases hb : smileValue shift p.1 p.2.alpha p.2.beta p.2.rho p.2.volvol c with
      | none => rw [hb] at h; cases h
      | some x =>
        cases hl : solvedValue shift l c with
        | none => rw [hb, hl] at h; cases h
        | some y =>
          rw [hb, hl] at h
          cases h
          obtain ⟨vol, hs, hp⟩ := (smileValue_iff _ _ _ _ _).1 hb
          exact .cons p.1 p.2 vol x y l hs hp ((ih y).2 hl)

theorem npSum_append (a b : List (Option ℝ)) : npSum (a ++ b) = (npSum a).bind (fun x => (npSum b).map (x + ·)) := by
  induction a with
  | nil =>
    simp only [List.nil_append, npSum, Option.bind_some]
    cases npSum b with
    | none => rfl
    | some y => simp
  | cons x a ih =>
    simp only [List.cons_append, npSum]
    rw [ih]
    cases x with
    | none => rfl
    | some x =>
      cases npSum a with
      | none => rfl
      | some y =>
        cases npSum b with
        | none => rfl
        | some z => simp [add_assoc]

theorem solvedValue_append (shift : ℝ) (a b : List (BootRow × BootSmile)) (c : QuoteCell) (x y : ℝ) (ha : solvedValue shift a c = some x)
    (hb : solvedValue shift b c = some y) : solvedValue shift (a ++ b) c = some (x + y) := by
  unfold solvedValue at *
  rw [List.map_append, npSum_append, ha, hb]
  rfl

theorem run_never_stops (s : Search) (f : ℝ → Npf) (x : ℝ) : s.run f 0 ≠ .stopped x := by
  induction s with
  | ask y k ih =>
    have : ¬ within 0 (f y) := by
      cases f y with
      | fin e => simp [within]
      | _ => simp [within]
    simp only [Search.run, if_neg this]
    exact ih _
  | ret => simp [Search.run]
  | fail => simp [Search.run]

theorem minimiseVol_iff (s : Search) (f : ℝ → Npf) (v : ℝ) :
    minimiseVol s f = .ok v ↔ ∃ b, s.run f 0 = .returned v b ∧ (b = true ∨ within (0.00001 ^ 2) (f v)) := by
  unfold minimiseVol
  cases h : s.run f 0 with
  | stopped x => exact absurd h (run_never_stops s f x)
  | raised e => simp
  | returned x b =>
    simp only [SearchEnd.returned.injEq]
    constructor
    · intro hh
      split at hh
      · cases hh; exact ⟨b, ⟨rfl, rfl⟩, ‹_›⟩
      · cases hh
    · rintro ⟨b', ⟨rfl, rfl⟩, hb⟩
      rw [if_pos hb]

theorem minimiseVol_reliable {s : Search} (hs : Reliable s) {f : ℝ → Npf} (hf : ∀ x e, f x = .fin e → 0 ≤ e) {v : ℝ}
    (h : minimiseVol s f = .ok v) : ∃ e, f v = .fin e ∧ e < 0.00001 ^ 2 := by
  obtain ⟨b, hr, hb⟩ := (minimiseVol_iff s f v).1 h
  rcases hb with rfl | hb
  · exact hs f v hr
  · cases hfv : f v with
    | fin e =>
      rw [hfv] at hb
      refine ⟨e, rfl, ?_⟩
      have := hf v e hfv
      simpa [within, abs_of_nonneg this] using hb
    | _ => rw [hfv] at hb; exact absurd hb (by simp [within])

theorem relGap_within {p q e tol : ℝ} (ht : 0 ≤ tol) (h : npSquare (Npf.divide (p - q) q) = .fin e) (he : e < tol ^ 2) :
    q ≠ 0 ∧ |p - q| < tol * |q| := by
  by_cases hq : q = 0
  · subst hq
    exfalso
    unfold Npf.divide at h
    rw [if_neg (by simp)] at h
    split at h
    · simp [npSquare] at h
    · split at h <;> simp [npSquare] at h
  · refine ⟨hq, ?_⟩
    unfold Npf.divide at h
    rw [if_pos hq] at h
    simp only [npSquare, Npf.fin.injEq] at h
    have hq' := abs_pos.2 hq
    have h1 : |(p - q) / q| < tol := by
      rw [← h] at he
      exact abs_lt_of_sq_lt_sq he ht
    rwa [abs_div, div_lt_iff₀ hq'] at h1

end Frm

namespace Frm.Props
open Classical Set

set_option autoImplicit false

open Frm Frm.Spec

theorem npSquare_nonneg (x : Npf) (e : ℝ) (h : npSquare x = .fin e) : 0 ≤ e := by
  cases x with
  | fin y => simp only [npSquare, Npf.fin.injEq] at h; rw [← h]; positivity
  | _ => simp [npSquare] at h

/-- The normal volatility of a quote is the one its minimiser returns, accepted when it reports success or the optionlets at this
volatility are worth the quote's price within a relative `1e-5`; otherwise `ValueError`. -/
theorem C93_quote_vol (m : Method) (F tau vol shift : ℝ) (rows : List BootRow) (c : QuoteCell) (s : Search)
    (hs : s = m (quoteStart F tau vol shift c) ((quoteStart F tau vol shift c).signed 0.8, (quoteStart F tau vol shift c).signed 1.25)) (hp : c.price ≠ 0) (f : ℝ → Npf)
    (hf : ∀ v X, NormalWorth c (rows.map (fun o => (o, v))) X → f v = .fin (((X - c.price) / c.price) ^ 2))
    (hn : ∀ v, (∀ X, ¬ NormalWorth c (rows.map (fun o => (o, v))) X) → f v = .nan) :
    (∀ v, quoteNormalVol m F tau vol shift rows c = .ok v ↔ ∃ b, s.run f 0 = .returned v b ∧
      (b = true ∨ ∃ X, NormalWorth c (rows.map (fun o => (o, v))) X ∧ |X - c.price| < 0.00001 * |c.price|)) ∧
    ∀ v, s.run f 0 = .returned v false → (∀ X, NormalWorth c (rows.map (fun o => (o, v))) X → 0.00001 * |c.price| ≤ |X - c.price|) →
      quoteNormalVol m F tau vol shift rows c = .error .value := by
  subst hs
  have e : (fun v => npSquare (relativeGap (normalValue c (rows.map (fun o => (o, v)))) (some c.price))) = f := by
    funext v
    cases hv : normalValue c (rows.map (fun o => (o, v))) with
    | none =>
      rw [hn v (fun X hX => by rw [normalWorth_iff, hv] at hX; cases hX)]
      rfl
    | some X =>
      rw [hf v X ((normalWorth_iff _ _ _).2 hv)]
      simp [relativeGap, Npf.divide, hp, npSquare]
  have hw : ∀ v, within (0.00001 ^ 2) (f v) ↔
      ∃ X, NormalWorth c (rows.map (fun o => (o, v))) X ∧ |X - c.price| < 0.00001 * |c.price| := by
    intro v
    constructor
    · intro h
      by_cases hX : ∃ X, NormalWorth c (rows.map (fun o => (o, v))) X
      · obtain ⟨X, hX⟩ := hX
        refine ⟨X, hX, ?_⟩
        rw [hf v X hX] at h
        refine (relGap_within (p := X) (q := c.price) (e := ((X - c.price) / c.price) ^ 2) (by norm_num) ?_ ?_).2
        · simp [Npf.divide, hp, npSquare]
        · simpa [within, abs_of_nonneg (sq_nonneg ((X - c.price) / c.price))] using h
      · rw [hn v (fun X h' => hX ⟨X, h'⟩)] at h
        exact absurd h (by simp [within])
    · rintro ⟨X, hX, hlt⟩
      rw [hf v X hX]
      simp only [within]
      rw [abs_of_nonneg (sq_nonneg _)]
      apply sq_lt_sq'
      · have := (abs_lt.1 ((div_lt_iff₀ (abs_pos.2 hp)).2 hlt |> fun h => by rwa [← abs_div] at h)).1
        exact this
      · exact (abs_lt.1 ((div_lt_iff₀ (abs_pos.2 hp)).2 hlt |> fun h => by rwa [← abs_div] at h)).2
  refine ⟨fun v => ?_, fun v hr hX => ?_⟩
  · unfold quoteNormalVol
    rw [e, minimiseVol_iff]
    simp only [hw]
  · unfold quoteNormalVol minimiseVol
    rw [e, hr]
    simp only [Bool.false_eq_true, false_or]
    rw [if_neg]
    rw [hw]
    rintro ⟨X, h1, h2⟩
    exact absurd (hX X h1) (not_le.2 h2)

/-- The worth of optionlets at normal volatilities increases with the volatilities. -/
theorem normalWorth_mono (c : QuoteCell) (hcp : c.cp = 1 ∨ c.cp = -1) (rows : List BootRow) (f g : BootRow → ℝ)
    (h : ∀ o ∈ rows, 0 < o.tau ∧ 0 < o.annuity ∧ 0 < f o ∧ f o ≤ g o) (x y : ℝ)
    (hx : NormalWorth c (rows.map (fun o => (o, f o))) x) (hy : NormalWorth c (rows.map (fun o => (o, g o))) y) :
    x ≤ y ∧ ((∃ o ∈ rows, f o < g o) → x < y) := by
  induction rows generalizing x y with
  | nil =>
    cases hx
    cases hy
    simp
  | cons o rows ih =>
    obtain ⟨ht, ha, hf, hfg⟩ := h o (by simp)
    rcases hx with _ | ⟨_, _, x1, x2, _, hx1, hx2⟩
    rcases hy with _ | ⟨_, _, y1, y2, _, hy1, hy2⟩
    obtain ⟨h1, h2⟩ := ih (fun o ho => h o (by simp [ho])) x2 y2 hx2 hy2
    rw [bachPriced_eq ⟨ht, hf, hcp⟩] at hx1
    rw [bachPriced_eq ⟨ht, lt_of_lt_of_le hf hfg, hcp⟩] at hy1
    simp only at hx1 hy1
    have hst := Real.sqrt_pos.2 ht
    have hlt : f o < g o → x1 < y1 := by
      intro hlt
      rw [hx1, hy1]
      exact mul_lt_mul_of_pos_left (bach_strictMono hcp (mul_pos hf hst) (mul_pos (lt_trans hf hlt) hst)
        (mul_lt_mul_of_pos_right hlt hst)) ha
    have hle : x1 ≤ y1 := by
      rcases lt_or_eq_of_le hfg with hl | he
      · exact (hlt hl).le
      · rw [hx1, hy1, he]
    refine ⟨add_le_add hle h1, ?_⟩
    rintro ⟨o', ho', hl⟩
    rcases List.mem_cons.1 ho' with rfl | ho'
    · exact add_lt_add_of_lt_of_le (hlt hl) h1
    · exact add_lt_add_of_le_of_lt hle (h2 ⟨o', ho', hl⟩)

/-- No two positive normal volatilities give a quote the same price. -/
theorem C93_quote_vol_unique (rows : List BootRow) (hne : rows ≠ []) (h : ∀ o ∈ rows, 0 < o.tau ∧ 0 < o.annuity) (c : QuoteCell)
    (hcp : c.cp = 1 ∨ c.cp = -1) (v w : ℝ) (hv : 0 < v) (hw : 0 < w) (X : ℝ) (h1 : NormalWorth c (rows.map (fun o => (o, v))) X)
    (h2 : NormalWorth c (rows.map (fun o => (o, w))) X) : v = w := by
  obtain ⟨o, ho⟩ := List.exists_mem_of_ne_nil rows hne
  rcases lt_trichotomy v w with hlt | he | hlt
  · exact absurd ((normalWorth_mono c hcp rows (fun _ => v) (fun _ => w) (fun o ho => ⟨(h o ho).1, (h o ho).2, hv, hlt.le⟩) X X h1 h2).2
      ⟨o, ho, hlt⟩) (lt_irrefl _)
  · exact he
  · exact absurd ((normalWorth_mono c hcp rows (fun _ => w) (fun _ => v) (fun o ho => ⟨(h o ho).1, (h o ho).2, hw, hlt.le⟩) X X h2 h1).2
      ⟨o, ho, hlt⟩) (lt_irrefl _)

/-! ## One step -/

theorem except_bind_ok {α β : Type} {x : Except Err α} {f : α → Except Err β} {b : β} (h : x.bind f = .ok b) :
    ∃ a, x = .ok a ∧ f a = .ok b := by
  cases x with
  | error e => cases h
  | ok a => exact ⟨a, rfl, h⟩

theorem except_map_ok {α β : Type} {x : Except Err α} {f : α → β} {b : β} (h : x.map f = .ok b) : ∃ a, x = .ok a ∧ f a = b := by
  cases x with
  | error e => cases h
  | ok a => cases h; exact ⟨a, rfl, rfl⟩

theorem betweenPillars_length (t0 y0 t1 y1 : ℝ) (rows : List BootRow) : (betweenPillars t0 y0 t1 y1 rows).length = rows.length := by
  simp [betweenPillars]

theorem quoteVolN_length {sv : BootSolvers} {shift : ℝ} {first : Bool} {solved : List (BootRow × BootSmile)} {rows : List BootRow}
    {q : BootQuote} {vols : List ℝ} (h : quoteVolN sv shift first solved rows q = .ok vols) :
    vols.length = rows.length ∧ (first = true ∨ ∃ last, solved.getLast? = some last) := by
  unfold quoteVolN at h
  cases ha : q.atmf with
  | none => rw [ha] at h; cases h
  | some p =>
    rw [ha] at h
    simp only at h
    cases first with
    | true =>
      simp only [if_true] at h
      cases h
      simp
    | false =>
      simp only [Bool.false_eq_true, if_false] at h
      cases hl : solved.getLast? with
      | none => rw [hl] at h; cases h
      | some last =>
        rw [hl] at h
        obtain ⟨v, -, rfl⟩ := except_map_ok h
        exact ⟨betweenPillars_length .., Or.inr ⟨last, rfl⟩⟩

theorem smileColumns_length {first : Bool} {solved : List (BootRow × BootSmile)} (h : first = true ∨ ∃ last, solved.getLast? = some last)
    (rows : List BootRow) (b r v : ℝ) : (smileColumns first solved rows b r v).length = rows.length := by
  unfold smileColumns
  cases first with
  | true => simp
  | false =>
    obtain h | ⟨last, h⟩ := h
    · cases h
    · simp [h, betweenPillars]

theorem rowSmiles_get {sv : BootSolvers} {shift : ℝ} {first : Bool} {solved : List (BootRow × BootSmile)} {rs : List (BootRow × ℝ × ℝ)}
    (hf : first = true ∨ ∃ last, solved.getLast? = some last) {b r v : ℝ} {new : List (BootRow × BootSmile)}
    (h : rowSmiles sv shift first solved rs b r v = .ok new) :
    new.length = rs.length ∧ ∀ (i : Nat) (o : BootRow) (vn vs : ℝ), rs[i]? = some (o, vn, vs) → ∃ s : BootSmile, new[i]? = some (o, s) ∧
      s.volN = vn ∧ s.volSln = vs ∧ (smileColumns first solved (rs.map (·.1)) b r v)[i]? = some (s.beta, s.rho, s.volvol) ∧
      solveAlpha sv.roots o.tau o.F s.beta s.rho s.volvol vs shift = .ok s.alpha := by
  unfold rowSmiles at h
  obtain ⟨h1, h2⟩ := mapM_get h
  have hlen := smileColumns_length hf (rs.map (·.1)) b r v
  rw [List.length_map] at hlen
  refine ⟨by rw [h1, List.length_zip, hlen, Nat.min_self], ?_⟩
  intro i o vn vs hi
  have hil : i < rs.length := (List.getElem?_eq_some_iff.1 hi).1
  obtain ⟨col, hc⟩ : ∃ col, (smileColumns first solved (rs.map (·.1)) b r v)[i]? = some col :=
    ⟨_, List.getElem?_eq_getElem (by rw [hlen]; exact hil)⟩
  obtain ⟨out, ho1, ho2⟩ := h2 i ((o, vn, vs), col) (by rw [List.getElem?_zip_eq_some]; exact ⟨hi, hc⟩)
  obtain ⟨a, ha, rfl⟩ := except_map_ok ho2
  exact ⟨_, ho1, rfl, rfl, hc, ha⟩

theorem solveVolNAtm_get {sv : BootSolvers} {shift : ℝ} {first : Bool} {solved : List (BootRow × BootSmile)} {rows : List BootRow}
    {q : BootQuote} {rs : List (BootRow × ℝ × ℝ)} (h : solveVolNAtm sv shift first solved rows q = .ok rs) :
    ∃ vols, quoteVolN sv shift first solved rows q = .ok vols ∧ rs.map (·.1) = rows ∧
      ∀ (i : Nat) (o : BootRow), rows[i]? = some o → ∃ vn vs, vols[i]? = some vn ∧ rs[i]? = some (o, vn, vs) ∧
        normalVolToBlack76Sln sv.convert o.F o.tau o.F vn shift = .ok vs := by
  unfold solveVolNAtm at h
  obtain ⟨vols, hv, h⟩ := except_bind_ok h
  obtain ⟨hlen, -⟩ := quoteVolN_length hv
  obtain ⟨h1, h2⟩ := mapM_get h
  have key : ∀ (i : Nat) (o : BootRow), rows[i]? = some o → ∃ vn vs, vols[i]? = some vn ∧ rs[i]? = some (o, vn, vs) ∧
        normalVolToBlack76Sln sv.convert o.F o.tau o.F vn shift = .ok vs := by
    intro i o hi
    have hil : i < rows.length := (List.getElem?_eq_some_iff.1 hi).1
    obtain ⟨vn, hvn⟩ : ∃ vn, vols[i]? = some vn := ⟨_, List.getElem?_eq_getElem (by rw [hlen]; exact hil)⟩
    obtain ⟨out, ho1, ho2⟩ := h2 i (o, vn) (by rw [List.getElem?_zip_eq_some]; exact ⟨hi, hvn⟩)
    obtain ⟨vs, hvs, rfl⟩ := except_map_ok ho2
    exact ⟨vn, vs, hvn, ho1, hvs⟩
  refine ⟨vols, hv, ?_, key⟩
  rw [List.length_zip, hlen, Nat.min_self] at h1
  apply List.ext_getElem?
  intro i
  rw [List.getElem?_map]
  cases hr : rows[i]? with
  | none =>
    rw [List.getElem?_eq_none_iff] at hr
    rw [List.getElem?_eq_none (by omega)]
    rfl
  | some o =>
    obtain ⟨vn, vs, -, hrs, -⟩ := key i o hr
    rw [hrs]
    rfl

theorem sabrUnpack_beta {override : Option ℝ} {x : List ℝ} {b r v : ℝ} (h : sabrUnpack override x = .ok (b, r, v)) :
    ∀ beta, override = some beta → b = beta := by
  rintro beta rfl
  unfold sabrUnpack at h
  split at h <;> simp_all

/-- What a step that succeeds does. -/
theorem bootStep_get {sv : BootSolvers} {shift : ℝ} {first : Bool} {solved : List (BootRow × BootSmile)} {rows : List BootRow}
    {q : BootQuote} {new : List (BootRow × BootSmile)} (h : bootStep sv shift first solved rows q = .ok new) :
    ∃ vols rs b r v, quoteVolN sv shift first solved rows q = .ok vols ∧ rs.map (·.1) = rows ∧
      (∃ x, sv.sabr (sabrStart q.beta) (sabrBox q.beta)
        (fun x => (sabrUnpack q.beta x).bind (fun p => bootSse sv shift first solved rs q p.1 p.2.1 p.2.2)) = .ok (true, x) ∧
        sabrUnpack q.beta x = .ok (b, r, v)) ∧
      rowSmiles sv shift first solved rs b r v = .ok new ∧ new.map (·.1) = rows ∧
      ∀ (i : Nat) (o : BootRow), rows[i]? = some o → ∃ s : BootSmile, new[i]? = some (o, s) ∧ vols[i]? = some s.volN ∧
        normalVolToBlack76Sln sv.convert o.F o.tau o.F s.volN shift = .ok s.volSln ∧
        (smileColumns first solved rows b r v)[i]? = some (s.beta, s.rho, s.volvol) ∧
        solveAlpha sv.roots o.tau o.F s.beta s.rho s.volvol s.volSln shift = .ok s.alpha := by
  unfold bootStep at h
  obtain ⟨rs, h1, h2⟩ := except_bind_ok h
  obtain ⟨vols, hv, hrs, hg⟩ := solveVolNAtm_get h1
  obtain ⟨-, hf⟩ := quoteVolN_length hv
  unfold solveSabrParams at h2
  cases hs : sv.sabr (sabrStart q.beta) (sabrBox q.beta)
      (fun x => (sabrUnpack q.beta x).bind (fun p => bootSse sv shift first solved rs q p.1 p.2.1 p.2.2)) with
  | error e => rw [hs] at h2; cases h2
  | ok p =>
    obtain ⟨ok, x⟩ := p
    rw [hs] at h2
    cases ok with
    | false => cases h2
    | true =>
      simp only at h2
      obtain ⟨⟨b, r, v⟩, hu, h2⟩ := except_bind_ok h2
      obtain ⟨hl, hget⟩ := rowSmiles_get hf h2
      have key : ∀ (i : Nat) (o : BootRow), rows[i]? = some o → ∃ s : BootSmile, new[i]? = some (o, s) ∧ vols[i]? = some s.volN ∧
          normalVolToBlack76Sln sv.convert o.F o.tau o.F s.volN shift = .ok s.volSln ∧
          (smileColumns first solved rows b r v)[i]? = some (s.beta, s.rho, s.volvol) ∧
          solveAlpha sv.roots o.tau o.F s.beta s.rho s.volvol s.volSln shift = .ok s.alpha := by
        intro i o hi
        obtain ⟨vn, vs, e1, e2, e3⟩ := hg i o hi
        obtain ⟨s, s1, s2, s3, s4, s5⟩ := hget i o vn vs e2
        subst s2 s3
        rw [hrs] at s4
        exact ⟨s, s1, e1, e3, s4, s5⟩
      refine ⟨vols, rs, b, r, v, hv, hrs, ⟨x, hs, hu⟩, h2, ?_, key⟩
      have hlr : rs.length = rows.length := by rw [← hrs, List.length_map]
      apply List.ext_getElem?
      intro i
      rw [List.getElem?_map]
      cases hr : rows[i]? with
      | none =>
        rw [List.getElem?_eq_none_iff] at hr
        rw [List.getElem?_eq_none (by omega)]
        rfl
      | some o =>
        obtain ⟨s, hs, -⟩ := key i o hr
        rw [hs]
        rfl

theorem bootFrom_append (sv : Nat → BootSolvers) (shift : ℝ) (n : Nat) (solved : List (BootRow × BootSmile))
    (pre post : List (BootQuote × List BootRow)) :
    bootFrom sv shift n solved (pre ++ post) = (bootFrom sv shift n solved pre).bind (fun s => bootFrom sv shift (n + pre.length) s post) := by
  induction pre generalizing n solved with
  | nil => rfl
  | cons q pre ih =>
    simp only [List.cons_append, bootFrom, List.length_cons]
    cases bootStep (sv n) shift (n == 0) solved q.2 q.1 with
    | error e => rfl
    | ok s =>
      show bootFrom sv shift (n + 1) (solved ++ s) (pre ++ post) = _
      rw [ih, show n + 1 + pre.length = n + (pre.length + 1) by omega]
      rfl

theorem bootFrom_out {sv : Nat → BootSolvers} {shift : ℝ} {n : Nat} {solved out : List (BootRow × BootSmile)}
    {quotes : List (BootQuote × List BootRow)} (h : bootFrom sv shift n solved quotes = .ok out) :
    ∃ new, out = solved ++ new ∧ new.map (·.1) = quotes.flatMap (·.2) := by
  induction quotes generalizing n solved with
  | nil => cases h; exact ⟨[], by simp, rfl⟩
  | cons q quotes ih =>
    rw [bootFrom] at h
    obtain ⟨s, h1, h2⟩ := except_bind_ok h
    obtain ⟨new, e1, e2⟩ := ih h2
    obtain ⟨_, _, _, _, _, _, _, _, _, e3, -⟩ := bootStep_get h1
    exact ⟨s ++ new, by rw [e1, List.append_assoc], by rw [List.map_append, e3, e2]; rfl⟩

theorem boot_last {sv : Nat → BootSolvers} {shift : ℝ} {pre : List (BootQuote × List BootRow)} {q : BootQuote} {rows : List BootRow}
    {out : List (BootRow × BootSmile)} (h : bootOptionlets sv shift (pre ++ [(q, rows)]) = .ok out) :
    ∃ solved new, bootOptionlets sv shift pre = .ok solved ∧ out = solved ++ new ∧
      bootStep (sv pre.length) shift (pre.length == 0) solved rows q = .ok new := by
  unfold bootOptionlets at *
  rw [bootFrom_append] at h
  obtain ⟨solved, h1, h2⟩ := except_bind_ok h
  rw [bootFrom, Nat.zero_add] at h2
  obtain ⟨new, h3, h4⟩ := except_bind_ok h2
  cases h4
  exact ⟨solved, new, h1, rfl, h3⟩

/-! ## The table -/

/-- The table has one smile per optionlet, in the order of the optionlets, and later quotes leave the smiles of earlier ones as they are. -/
theorem C93_table (sv : Nat → BootSolvers) (shift : ℝ) (pre post : List (BootQuote × List BootRow)) (out : List (BootRow × BootSmile))
    (h : bootOptionlets sv shift (pre ++ post) = .ok out) :
    out.map (·.1) = (pre ++ post).flatMap (·.2) ∧
      bootOptionlets sv shift pre = .ok (out.take (pre.flatMap (·.2)).length) := by
  obtain ⟨new, e1, e2⟩ := bootFrom_out (show bootFrom sv shift 0 [] (pre ++ post) = .ok out from h)
  rw [List.nil_append] at e1
  subst e1
  refine ⟨e2, ?_⟩
  unfold bootOptionlets at *
  rw [bootFrom_append] at h
  obtain ⟨solved, h1, h2⟩ := except_bind_ok h
  obtain ⟨new', e3, -⟩ := bootFrom_out h2
  obtain ⟨s, e4, e5⟩ := bootFrom_out h1
  rw [List.nil_append] at e4
  subst e4
  rw [h1, e3, List.take_left' (by rw [← e5, List.length_map])]

/-- The rows numbered `n` of a table whose numbers do not decrease, for each quote in turn, are the table. -/
theorem groups_flatten (num : OptionletRow → Nat) (m : Nat) (os : List OptionletRow) (hs : os.Pairwise (fun a b => num a ≤ num b))
    (hm : ∀ o ∈ os, num o < m) : (List.range m).flatMap (fun n => os.filter (fun o => decide (num o = n))) = os := by
  induction m generalizing os with
  | zero =>
    cases os with
    | nil => rfl
    | cons o os => exact absurd (hm o (by simp)) (by omega)
  | succ m ih =>
    rw [List.range_succ, List.flatMap_append]
    have split : ∀ l : List OptionletRow, l.Pairwise (fun a b => num a ≤ num b) → (∀ o ∈ l, num o < m + 1) →
        l.filter (fun o => decide (num o < m)) ++ l.filter (fun o => decide (num o = m)) = l := by
      intro l hl hlm
      induction l with
      | nil => rfl
      | cons o l ihl =>
        have hl' := List.pairwise_cons.1 hl
        have hi := ihl hl'.2 (fun x hx => hlm x (by simp [hx]))
        by_cases h : num o < m
        · rw [List.filter_cons, if_pos (by simpa using h), List.filter_cons, if_neg (by simp; omega), List.cons_append, hi]
        · have ho : num o = m := by have := hlm o (by simp); omega
          have : ∀ x ∈ l, num x = m := by
            intro x hx
            have h1 := hl'.1 x hx
            have h2 := hlm x (by simp [hx])
            omega
          rw [List.filter_eq_nil_iff.2 (by simpa [ho] using fun x hx => (this x hx).ge), List.nil_append,
            List.filter_eq_self.2 (by simpa [ho] using this)]
    have h1 : (List.range m).flatMap (fun n => os.filter (fun o => decide (num o = n))) = os.filter (fun o => decide (num o < m)) := by
      rw [← ih (os.filter (fun o => decide (num o < m))) (hs.filter _) (by simp)]
      apply List.flatMap_congr
      intro n hn
      rw [List.filter_filter]
      apply List.filter_congr
      intro o _
      have := List.mem_range.1 hn
      by_cases h : num o = n
      · simp [h, this]
      · simp [h]
    rw [h1]
    simpa using split os hs hm

/-- The rows that the bootstrap treats quote by quote are, put together, the rows of the schedule in their order. -/
theorem C93_groups (cal : BusCal) (hcal : cal.Ok) (hg : NoYearLongClosure cal) (freq : PeriodFreq) (basis : DayCountBasis)
    (cd : Int) (delay date : Option Int) (inputs : List CapQuoteInput) (quotes : List CapQuote)
    (h : capQuoteTable cal freq basis cd delay date inputs = .ok quotes) (os : List OptionletRow)
    (ho : OptionletsOf cal freq quotes os) :
    (List.range quotes.length).flatMap (fun n => os.filter (fun o => decide (quoteNumber quotes o = n))) = os := by
  refine groups_flatten _ _ _ (C64_monotone cal hcal hg freq basis cd delay date inputs quotes h os ho) ?_
  intro o hmem
  obtain ⟨⟨q, hq, -⟩, -⟩ := C64_first_quote cal hcal hg freq basis cd delay date inputs quotes h os ho o hmem
  exact (List.getElem?_eq_some_iff.1 hq).1

/-! ## First quote -/

/-- The optionlets of the first quote all get the quote's at-the-money normal volatility, and the same beta, rho and volvol; a beta given
with the quote is taken as it is. -/
theorem C93_first_quote (sv : Nat → BootSolvers) (shift : ℝ) (q : BootQuote) (rows : List BootRow) (out : List (BootRow × BootSmile))
    (h : bootOptionlets sv shift [(q, rows)] = .ok out) :
    ∃ c v b r w, q.atmf = some (c, v) ∧ (∀ beta, q.beta = some beta → b = beta) ∧
      ∀ p ∈ out, p.2.volN = v ∧ p.2.beta = b ∧ p.2.rho = r ∧ p.2.volvol = w := by
  obtain ⟨solved, new, h1, rfl, h2⟩ := boot_last (pre := []) h
  cases h1
  obtain ⟨vols, rs, b, r, w, hv, -, ⟨x, -, hu⟩, -, e, hg⟩ := bootStep_get h2
  unfold quoteVolN at hv
  cases ha : q.atmf with
  | none => rw [ha] at hv; cases hv
  | some p =>
    obtain ⟨c, v⟩ := p
    rw [ha] at hv
    simp only [List.length_nil, BEq.rfl, if_true, Except.ok.injEq] at hv
    refine ⟨c, v, b, r, w, rfl, sabrUnpack_beta hu, ?_⟩
    · intro p hp
      rw [List.nil_append] at hp
      obtain ⟨i, hi⟩ := List.getElem?_of_mem hp
      have hr : rows[i]? = some p.1 := by rw [← e, List.getElem?_map, hi]; rfl
      obtain ⟨s, s1, s2, -, s4, -⟩ := hg i p.1 hr
      rw [hi, Option.some.injEq] at s1
      have s1' : p.2 = s := by rw [s1]
      rw [← hv, List.getElem?_map, hr] at s2
      simp only [smileColumns, List.length_nil, BEq.rfl, if_true, List.getElem?_map, hr, Option.map_some, Option.some.injEq,
        Prod.mk.injEq] at s2 s4
      rw [s1']
      exact ⟨s2.symm, s4.1.symm, s4.2.1.symm, s4.2.2.symm⟩

/-! ## Later quotes -/

theorem interp_onLine {t0 y0 t1 y1 t : ℝ} (h : t0 < t1) (h0 : t0 ≤ t) (h1 : t ≤ t1) :
    OnSegment t0 y0 t1 y1 t (npInterp t [(t0, y0), (t1, y1)]) := by
  unfold OnSegment
  have hd : t1 - t0 ≠ 0 := (sub_pos.2 h).ne'
  rw [npInterp, if_neg (not_lt.2 h0)]
  split
  · field_simp
    simp
  · have : t = t1 := le_antisymm h1 (not_lt.1 ‹_›)
    rw [npInterp, this]

theorem onLine_eq {t0 y0 t1 y1 t y : ℝ} (h : t0 < t1) (hl : OnSegment t0 y0 t1 y1 t y) :
    y = y0 + (y1 - y0) * ((t - t0) / (t1 - t0)) := by
  have hd : t1 - t0 ≠ 0 := (sub_pos.2 h).ne'
  unfold OnSegment at hl
  rw [mul_div_assoc', ← hl]
  field_simp
  ring

/-- A value on the line is between the two ends of it. -/
theorem onLine_between {t0 y0 t1 y1 t y : ℝ} (h : t0 < t1) (h0 : t0 ≤ t) (h1 : t ≤ t1) (hl : OnSegment t0 y0 t1 y1 t y) :
    min y0 y1 ≤ y ∧ y ≤ max y0 y1 := by
  have hy := onLine_eq h hl
  have hd := sub_pos.2 h
  have hw0 : 0 ≤ (t - t0) / (t1 - t0) := div_nonneg (by linarith) hd.le
  have hw1 : (t - t0) / (t1 - t0) ≤ 1 := (div_le_one hd).2 (by linarith)
  rw [hy]
  rcases le_total y0 y1 with hle | hle
  · rw [min_eq_left hle, max_eq_right hle]
    constructor <;> nlinarith
  · rw [min_eq_right hle, max_eq_left hle]
    constructor <;> nlinarith

theorem later_step {sv : BootSolvers} {shift : ℝ} {solved new : List (BootRow × BootSmile)} {last : BootRow × BootSmile}
    {rows : List BootRow} {q : BootQuote} (hl : solved.getLast? = some last)
    (h : bootStep sv shift false solved rows q = .ok new) :
    ∃ c v0 v b r w, q.atmf = some (c, v0) ∧ solvePillar sv shift solved rows c = .ok v ∧ (∀ beta, q.beta = some beta → b = beta) ∧
      new.map (·.1) = rows ∧ ∀ p ∈ new,
        p.2.volN = npInterp p.1.tau [(last.1.tau, last.2.volN), (pillarTime last rows, v)] ∧
        p.2.beta = npInterp p.1.tau [(last.1.tau, last.2.beta), (pillarTime last rows, b)] ∧
        p.2.rho = npInterp p.1.tau [(last.1.tau, last.2.rho), (pillarTime last rows, r)] ∧
        p.2.volvol = npInterp p.1.tau [(last.1.tau, last.2.volvol), (pillarTime last rows, w)] := by
  obtain ⟨vols, rs, b, r, w, hv, -, ⟨x, -, hu⟩, -, e, hg⟩ := bootStep_get h
  unfold quoteVolN at hv
  cases ha : q.atmf with
  | none => rw [ha] at hv; cases hv
  | some p =>
    obtain ⟨c, v0⟩ := p
    rw [ha] at hv
    simp only [Bool.false_eq_true, if_false, hl] at hv
    obtain ⟨v, hp, hv⟩ := except_map_ok hv
    refine ⟨c, v0, v, b, r, w, rfl, hp, sabrUnpack_beta hu, e, ?_⟩
    · intro p hp
      obtain ⟨i, hi⟩ := List.getElem?_of_mem hp
      have hr : rows[i]? = some p.1 := by rw [← e, List.getElem?_map, hi]; rfl
      obtain ⟨s, s1, s2, -, s4, -⟩ := hg i p.1 hr
      rw [hi, Option.some.injEq] at s1
      have s1' : p.2 = s := by rw [s1]
      rw [← hv, betweenPillars, List.getElem?_map, hr] at s2
      simp only [smileColumns, Bool.false_eq_true, if_false, hl, betweenPillars] at s4
      rw [List.getElem?_zip_eq_some, List.getElem?_zip_eq_some] at s4
      simp only [List.getElem?_map, hr, Option.map_some, Option.some.injEq] at s2 s4
      rw [s1']
      exact ⟨s2.symm, s4.1.symm, s4.2.1.symm, s4.2.2.symm⟩

theorem pre_pos {pre : List (BootQuote × List BootRow)} (h : pre ≠ []) : (pre.length == 0) = false := by
  cases pre with
  | nil => exact absurd rfl h
  | cons => rfl

/-- Along the optionlets of a later quote, normal volatility, beta, rho and volvol are on the straight lines from the last optionlet of
the earlier quotes to the last optionlet of this quote, so between the two; a beta given with the quote is that of its last optionlet. -/
theorem C93_later_quote (sv : Nat → BootSolvers) (shift : ℝ) (pre : List (BootQuote × List BootRow)) (hpre : pre ≠ []) (q : BootQuote)
    (rows : List BootRow) (fin : BootRow) (hfin : rows.getLast? = some fin) (solved out : List (BootRow × BootSmile))
    (last : BootRow × BootSmile) (hs : bootOptionlets sv shift pre = .ok solved) (hlast : solved.getLast? = some last)
    (ht : last.1.tau < fin.tau) (hr : ∀ o ∈ rows, last.1.tau ≤ o.tau ∧ o.tau ≤ fin.tau)
    (h : bootOptionlets sv shift (pre ++ [(q, rows)]) = .ok out) :
    ∃ new pillar, out = solved ++ new ∧ new.map (·.1) = rows ∧ new.getLast? = some (fin, pillar) ∧
      (∀ beta, q.beta = some beta → pillar.beta = beta) ∧
      ∀ o s, (o, s) ∈ new →
        OnSegment last.1.tau last.2.volN fin.tau pillar.volN o.tau s.volN ∧ OnSegment last.1.tau last.2.beta fin.tau pillar.beta o.tau s.beta ∧
        OnSegment last.1.tau last.2.rho fin.tau pillar.rho o.tau s.rho ∧
        OnSegment last.1.tau last.2.volvol fin.tau pillar.volvol o.tau s.volvol ∧
        (min last.2.volN pillar.volN ≤ s.volN ∧ s.volN ≤ max last.2.volN pillar.volN) := by
  obtain ⟨solved', new, h1, rfl, h2⟩ := boot_last h
  rw [hs] at h1
  cases h1
  rw [pre_pos hpre] at h2
  obtain ⟨c, v0, v, b, r, w, -, -, hb, e, hg⟩ := later_step hlast h2
  have hpt : pillarTime last rows = fin.tau := by simp [pillarTime, hfin]
  rw [hpt] at hg
  obtain ⟨⟨o', pillar⟩, hnl⟩ : ∃ p, new.getLast? = some p := by
    cases hn : new.getLast? with
    | some p => exact ⟨p, rfl⟩
    | none =>
      rw [List.getLast?_eq_none_iff] at hn
      subst hn
      rw [← e] at hfin
      cases hfin
  have ho' : o' = fin := by
    have := hfin
    rw [← e, List.getLast?_map, hnl] at this
    simpa using this
  subst ho'
  have hend : ∀ y0 y1 : ℝ, npInterp o'.tau [(last.1.tau, y0), (o'.tau, y1)] = y1 := by
    intro y0 y1
    rw [npInterp, if_neg (not_lt.2 ht.le), if_neg (lt_irrefl _), npInterp]
  obtain ⟨p1, p2, p3, p4⟩ := hg (o', pillar) (List.mem_of_getLast? hnl)
  simp only [hend] at p1 p2 p3 p4
  refine ⟨new, pillar, rfl, e, hnl, fun beta hbeta => by rw [p2, hb beta hbeta], ?_⟩
  intro o s hos
  obtain ⟨g1, g2, g3, g4⟩ := hg (o, s) hos
  simp only at g1 g2 g3 g4
  have hro := hr o (by rw [← e]; exact List.mem_map_of_mem (f := (·.1)) hos)
  have hv := interp_onLine (y0 := last.2.volN) (y1 := v) ht hro.1 hro.2
  rw [p1, p2, p3, p4, g1, g2, g3, g4]
  exact ⟨hv, interp_onLine ht hro.1 hro.2, interp_onLine ht hro.1 hro.2, interp_onLine ht hro.1 hro.2,
    onLine_between ht hro.1 hro.2 hv⟩

/-! ## Every smile -/

theorem boot_mem {sv : Nat → BootSolvers} {shift : ℝ} {n : Nat} {solved out : List (BootRow × BootSmile)}
    {quotes : List (BootQuote × List BootRow)} (h : bootFrom sv shift n solved quotes = .ok out) {o : BootRow} {s : BootSmile}
    (hm : (o, s) ∈ out) : (o, s) ∈ solved ∨ ∃ m, n ≤ m ∧ m < n + quotes.length ∧
      normalVolToBlack76Sln (sv m).convert o.F o.tau o.F s.volN shift = .ok s.volSln ∧
      solveAlpha (sv m).roots o.tau o.F s.beta s.rho s.volvol s.volSln shift = .ok s.alpha := by
  induction quotes generalizing n solved with
  | nil => cases h; exact Or.inl hm
  | cons q quotes ih =>
    rw [bootFrom] at h
    obtain ⟨new, h1, h2⟩ := except_bind_ok h
    rcases ih h2 with hs | ⟨m, m1, m2, m3⟩
    · rcases List.mem_append.1 hs with hs | hs
      · exact Or.inl hs
      · right
        obtain ⟨vols, rs, b, r, w, hv, -, -, -, e, hg⟩ := bootStep_get h1
        obtain ⟨i, hi⟩ := List.getElem?_of_mem hs
        have hr : q.2[i]? = some o := by rw [← e, List.getElem?_map, hi]; rfl
        obtain ⟨s', s1, -, s3, -, s5⟩ := hg i o hr
        rw [hi, Option.some.injEq, Prod.mk.injEq] at s1
        obtain ⟨-, rfl⟩ := s1
        exact ⟨n, le_refl _, by simp, s3, s5⟩
    · exact Or.inr ⟨m, by omega, by simp only [List.length_cons]; omega, m3⟩

/-- Every smile in the table gives back its own lognormal volatility at its forward. -/
theorem C93_smile (sv : Nat → BootSolvers) (hroots : ∀ n, ExactRoots (sv n).roots) (shift : ℝ) (quotes : List (BootQuote × List BootRow))
    (out : List (BootRow × BootSmile)) (h : bootOptionlets sv shift quotes = .ok out) (o : BootRow) (s : BootSmile) (hm : (o, s) ∈ out)
    (hF : 0 < o.F + shift) (hv : 0 < s.volSln) :
    calcSabrVols [(o.tau, o.F, s.alpha, s.beta, s.rho, s.volvol)] [o.F] shift = .ok [some s.volSln] := by
  rcases boot_mem h hm with hm | ⟨m, -, -, -, ha⟩
  · cases hm
  · exact (C56_consistent (sv m).roots (hroots m) o.tau o.F s.beta s.rho s.volvol s.volSln shift s.alpha hF hv ha).1

/-- With reliable minimisers, the lognormal volatility of every smile prices the option at the forward as the normal volatility does,
within a relative `1e-5`. -/
theorem C93_converted (sv : Nat → BootSolvers) (hrel : ∀ n x0 bounds, Reliable ((sv n).convert x0 bounds)) (shift : ℝ)
    (quotes : List (BootQuote × List BootRow)) (out : List (BootRow × BootSmile)) (h : bootOptionlets sv shift quotes = .ok out)
    (o : BootRow) (s : BootSmile) (hm : (o, s) ∈ out) :
    ∃ X Y, BachPriced { F := o.F, tau := o.tau, cp := 1, K := o.F, vol := s.volN, annuity := 1 } X ∧
      B76Priced { F := o.F, tau := o.tau, cp := 1, K := o.F, vol := s.volSln, shift := shift, annuity := 1 } Y ∧
      |Y - X| < 0.00001 * |X| := by
  rcases boot_mem h hm with hm | ⟨m, -, -, hc, -⟩
  · cases hm
  · unfold normalVolToBlack76Sln at hc
    split_ifs at hc
    obtain ⟨e, he1, he2⟩ := minimiseVol_reliable (hrel m _ _) (fun x e => npSquare_nonneg _ e) hc
    cases hY : b76Price ⟨o.F, o.tau, 1, o.F, s.volSln, shift, 1⟩ with
    | none => rw [hY] at he1; simp [relativeGap, npSquare] at he1
    | some Y =>
      cases hX : bachPrice ⟨o.F, o.tau, 1, o.F, s.volN, 1⟩ with
      | none => rw [hY, hX] at he1; simp [relativeGap, npSquare] at he1
      | some X =>
        rw [hY, hX] at he1
        exact ⟨X, Y, (bachPriced_iff _ _).2 hX, (b76Priced_iff _ _).2 hY, (relGap_within (by norm_num) he1 he2).2⟩

/-! ## Repricing -/

theorem npSum_all {α : Type} {f : α → Option ℝ} {l : List α} {e : ℝ} (h : npSum (l.map f) = some e) :
    ∃ g : α → ℝ, (∀ a ∈ l, f a = some (g a)) ∧ e = (l.map g).sum := by
  have hn : ∀ a ∈ l, f a ≠ none := by
    intro a ha hf
    rw [(npSum_none f l).2 ⟨a, ha, hf⟩] at h
    cases h
  have hs : ∀ a ∈ l, f a = some ((f a).getD 0) := by
    intro a ha
    cases hf : f a with
    | none => exact absurd hf (hn a ha)
    | some x => rfl
  refine ⟨fun a => (f a).getD 0, hs, ?_⟩
  rw [npSum_some f _ l hs] at h
  exact (Option.some.inj h).symm

/-- If the minimiser of the smile reports success only where the mean squared relative error is at most `tol`, then after each quote the
optionlets up to it, on their smiles, are worth the quote's prices: the error in each column is at most `sqrt(m * tol)` of the part of the
price left for this quote's own optionlets, `m` being the number of columns.  With `tol = 0` every price is met exactly. -/
theorem C93_reprices (sv : Nat → BootSolvers) (tol : ℝ) (shift : ℝ) (pre : List (BootQuote × List BootRow)) (q : BootQuote)
    (rows : List BootRow) (hfit : FitsWithin tol (sv pre.length).sabr) (solved out : List (BootRow × BootSmile))
    (hs : bootOptionlets sv shift pre = .ok solved) (h : bootOptionlets sv shift (pre ++ [(q, rows)]) = .ok out) (c : QuoteCell)
    (hc : c ∈ q.cells) :
    ∃ S W, SmileWorth shift c solved S ∧ SmileWorth shift c out W ∧ S ≠ c.price ∧
      (W - c.price) ^ 2 ≤ q.cells.length * tol * (c.price - S) ^ 2 := by
  obtain ⟨solved', new, h1, rfl, h2⟩ := boot_last h
  rw [hs] at h1
  cases h1
  obtain ⟨vols, rs, b, r, w, -, -, ⟨x, hsab, hu⟩, hrow, -, -⟩ := bootStep_get h2
  obtain ⟨e, he, hle⟩ := hfit _ _ _ x hsab
  simp only [hu, Except.bind, bootSse, hrow] at he
  simp only [Except.map, Except.ok.injEq] at he
  obtain ⟨g, hg, hsum⟩ := npSum_all he
  have hgc := hg c hc
  cases hce : columnError shift solved new c with
  | none => rw [hce] at hgc; cases hgc
  | some x =>
    rw [hce, Option.map_some, Option.some.injEq] at hgc
    unfold columnError bootTarget at hce
    cases hS : solvedValue shift solved c with
    | none => rw [hS] at hce; cases hce
    | some S =>
      cases hN : solvedValue shift new c with
      | none => rw [hS, hN] at hce; cases hce
      | some N =>
        rw [hS, hN] at hce
        simp only [Option.map_some, npDiv] at hce
        split at hce
        · cases hce
        · rename_i hne
          simp only [Option.map_some, Option.some.injEq] at hce
          refine ⟨S, S + N, (smileWorth_iff _ _ _ _).2 hS, (smileWorth_iff _ _ _ _).2 (solvedValue_append _ _ _ _ _ _ hS hN),
            fun hh => hne (by rw [hh, sub_self]), ?_⟩
          have hm : (0 : ℝ) < q.cells.length := by
            have := List.length_pos_of_mem hc
            exact_mod_cast this
          have hnn : ∀ y ∈ q.cells.map g, 0 ≤ y := by
            intro y hy
            obtain ⟨c', hc', rfl⟩ := List.mem_map.1 hy
            have := hg c' hc'
            cases hce' : columnError shift solved new c' with
            | none => rw [hce'] at this; cases this
            | some z =>
              rw [hce', Option.map_some, Option.some.injEq] at this
              rw [← this]
              positivity
          have hle' : x ^ 2 / q.cells.length ≤ tol := by
            rw [hgc]
            refine le_trans (List.single_le_sum hnn _ (List.mem_map_of_mem hc)) ?_
            rw [← hsum]
            exact hle
          rw [div_le_iff₀ hm] at hle'
          have hx : S + N - c.price = -(x * (c.price - S)) := by
            rw [← hce]
            field_simp
            ring
          rw [hx, neg_sq, mul_pow, mul_comm (q.cells.length : ℝ) tol]
          exact mul_le_mul_of_nonneg_right hle' (sq_nonneg _)

/-- With the minimiser's success reported, the fit is accepted whatever the prices: they are not looked at again. -/
theorem C93_fit_unchecked (sv : Nat → BootSolvers) (shift : ℝ) (pre : List (BootQuote × List BootRow)) (q : BootQuote)
    (rows : List BootRow) (x : List ℝ) (hconst : (sv pre.length).sabr = fun _ _ _ => .ok (true, x)) (cells : List QuoteCell) :
    bootOptionlets sv shift (pre ++ [({ q with cells := cells }, rows)]) = bootOptionlets sv shift (pre ++ [(q, rows)]) := by
  unfold bootOptionlets
  rw [bootFrom_append, bootFrom_append]
  cases bootFrom sv shift 0 [] pre with
  | error e => rfl
  | ok s =>
    have : ∀ q' : BootQuote, q'.atmf = q.atmf → q'.beta = q.beta →
        bootFrom sv shift (0 + pre.length) s [(q', rows)] = bootFrom sv shift (0 + pre.length) s [(q, rows)] := by
      intro q' ha hb
      simp only [bootFrom, Nat.zero_add, bootStep, solveVolNAtm, quoteVolN, ha, solveSabrParams, hconst, hb]
    exact this _ rfl rfl

/-- Without success reported the bootstrap raises `ValueError`, and an exception of the smile functions is passed on. -/
theorem C93_fit_refused (sv : BootSolvers) (shift : ℝ) (first : Bool) (solved : List (BootRow × BootSmile)) (rows : List BootRow)
    (q : BootQuote) (rs : List (BootRow × ℝ × ℝ)) (h : solveVolNAtm sv shift first solved rows q = .ok rs) :
    ((∃ x, sv.sabr (sabrStart q.beta) (sabrBox q.beta)
        (fun x => (sabrUnpack q.beta x).bind (fun p => bootSse sv shift first solved rs q p.1 p.2.1 p.2.2)) = .ok (false, x)) →
      bootStep sv shift first solved rows q = .error .value) ∧
    ∀ e, sv.sabr (sabrStart q.beta) (sabrBox q.beta)
        (fun x => (sabrUnpack q.beta x).bind (fun p => bootSse sv shift first solved rs q p.1 p.2.1 p.2.2)) = .error e →
      bootStep sv shift first solved rows q = .error e := by
  unfold bootStep
  rw [h]
  refine ⟨?_, fun e he => ?_⟩
  · rintro ⟨p, hp⟩
    show solveSabrParams sv shift first solved rs q = _
    unfold solveSabrParams
    rw [hp]
  · show solveSabrParams sv shift first solved rs q = _
    unfold solveSabrParams
    rw [he]

/-! ## The pillar of a later quote is solved with volatilities other than those stored -/

/-- With a reliable minimiser, the last normal volatility of a later quote is such that the quote's optionlets, at volatilities on the line
to it from the normal volatility `y0` that the last earlier smile has at the quote's strike, are worth what the earlier optionlets leave
of the price, within a relative `1e-5`. -/
theorem C93_pillar (sv : Nat → BootSolvers) (shift : ℝ) (pre : List (BootQuote × List BootRow)) (hpre : pre ≠ []) (q : BootQuote)
    (rows : List BootRow) (fin : BootRow) (hfin : rows.getLast? = some fin) (solved new : List (BootRow × BootSmile))
    (last : BootRow × BootSmile) (hs : bootOptionlets sv shift pre = .ok solved) (hlast : solved.getLast? = some last)
    (ht : last.1.tau < fin.tau) (hr : ∀ o ∈ rows, last.1.tau ≤ o.tau ∧ o.tau ≤ fin.tau)
    (h : bootOptionlets sv shift (pre ++ [(q, rows)]) = .ok (solved ++ new)) (c : QuoteCell) (v0 : ℝ) (hq : q.atmf = some (c, v0))
    (y0 : ℝ) (hy : priorPillarVol (sv pre.length) shift last c = .ok (.fin y0)) (pillar : BootSmile)
    (hp : new.getLast? = some (fin, pillar)) (hrel : ∀ x0 bounds, Reliable ((sv pre.length).pillar x0 bounds)) (line : BootRow → ℝ)
    (hline : ∀ o ∈ rows, OnSegment last.1.tau y0 fin.tau pillar.volN o.tau (line o)) :
    ∃ S T, SmileWorth shift c solved S ∧ NormalWorth c (rows.map (fun o => (o, line o))) T ∧
      |T - (c.price - S)| < 0.00001 * |c.price - S| := by
  obtain ⟨solved', new', h1, hout, h2⟩ := boot_last h
  rw [hs] at h1
  cases h1
  have := List.append_cancel_left hout
  subst this
  rw [pre_pos hpre] at h2
  obtain ⟨c', v0', v, b, r, w, hq', hsol, hb, e, hg⟩ := later_step hlast h2
  rw [hq] at hq'
  cases hq'
  have hpt : pillarTime last rows = fin.tau := by simp [pillarTime, hfin]
  rw [hpt] at hg
  have hpiv : pillar.volN = v := by
    have := (hg (fin, pillar) (List.mem_of_getLast? hp)).1
    simp only at this
    rw [this, npInterp, if_neg (not_lt.2 ht.le), if_neg (lt_irrefl _), npInterp]
  have hzip : rows.zip (betweenPillars last.1.tau y0 fin.tau v rows) = rows.map (fun o => (o, line o)) := by
    have : betweenPillars last.1.tau y0 fin.tau v rows = rows.map line := by
      apply List.map_congr_left
      intro o ho
      obtain ⟨r1, r2⟩ := hr o ho
      rw [onLine_eq ht (hline o ho), hpiv, onLine_eq ht (interp_onLine (y0 := y0) (y1 := v) ht r1 r2)]
    rw [this, List.zip_eq_zipWith, List.zipWith_map_right, List.zipWith_self]
  unfold solvePillar at hsol
  rw [hlast] at hsol
  simp only at hsol
  split at hsol
  · cases hsol
  · rw [hy, hpt] at hsol
    obtain ⟨er, he1, he2⟩ := minimiseVol_reliable (hrel _ _) (fun x e => npSquare_nonneg _ e) hsol
    simp only [pillarError, hzip] at he1
    cases hT : normalValue c (rows.map (fun o => (o, line o))) with
    | none => rw [hT] at he1; simp [relativeGap, npSquare] at he1
    | some T =>
      unfold bootTarget at he1
      cases hS : solvedValue shift solved c with
      | none => rw [hT, hS] at he1; simp [relativeGap, npSquare] at he1
      | some S =>
        rw [hT, hS] at he1
        exact ⟨S, T, (smileWorth_iff _ _ _ _).2 hS, (normalWorth_iff _ _ _).2 hT, (relGap_within (by norm_num) he1 he2).2⟩

/-- The pillar is solved with volatilities on the line from the normal volatility that the last earlier smile has at this quote's strike,
while those stored are on the line from the last stored volatility.  So when the two starting points differ and an optionlet expires
strictly between the two pillars, the stored volatilities do not reprice what was solved: they are too low or too high. -/
theorem C93_pillar_mispriced (sv : Nat → BootSolvers) (shift : ℝ) (pre : List (BootQuote × List BootRow)) (hpre : pre ≠ []) (q : BootQuote)
    (rows : List BootRow) (fin : BootRow) (hfin : rows.getLast? = some fin) (solved new : List (BootRow × BootSmile))
    (last : BootRow × BootSmile) (hs : bootOptionlets sv shift pre = .ok solved) (hlast : solved.getLast? = some last)
    (ht : last.1.tau < fin.tau)
    (hr : ∀ o ∈ rows, last.1.tau ≤ o.tau ∧ o.tau ≤ fin.tau ∧ 0 < o.tau ∧ 0 < o.annuity)
    (hmid : ∃ o ∈ rows, o.tau < fin.tau)
    (h : bootOptionlets sv shift (pre ++ [(q, rows)]) = .ok (solved ++ new)) (c : QuoteCell) (v0 : ℝ) (hq : q.atmf = some (c, v0))
    (hcp : c.cp = 1 ∨ c.cp = -1) (y0 : ℝ) (hy : priorPillarVol (sv pre.length) shift last c = .ok (.fin y0))
    (h0 : 0 < y0) (hn0 : 0 < last.2.volN) (pillar : BootSmile) (hp : new.getLast? = some (fin, pillar)) (hpv : 0 < pillar.volN) :
    ∀ line : BootRow → ℝ, (∀ o ∈ rows, OnSegment last.1.tau y0 fin.tau pillar.volN o.tau (line o)) → ∀ T W,
      NormalWorth c (rows.map (fun o => (o, line o))) T → NormalWorth c (new.map (fun p => (p.1, p.2.volN))) W →
      (last.2.volN < y0 → W < T) ∧ (y0 < last.2.volN → T < W) := by
  obtain ⟨solved', new', h1, hout, h2⟩ := boot_last h
  rw [hs] at h1
  cases h1
  have := List.append_cancel_left hout
  subst this
  rw [pre_pos hpre] at h2
  obtain ⟨c', v0', v, b, r, w, hq', hsol, hb, e, hg⟩ := later_step hlast h2
  rw [hq] at hq'
  cases hq'
  have hpt : pillarTime last rows = fin.tau := by simp [pillarTime, hfin]
  rw [hpt] at hg
  have hpiv : pillar.volN = v := by
    have := (hg (fin, pillar) (List.mem_of_getLast? hp)).1
    simp only at this
    rw [this, npInterp, if_neg (not_lt.2 ht.le), if_neg (lt_irrefl _), npInterp]
  intro line hline T W hT hW
  let st : BootRow → ℝ := fun o => npInterp o.tau [(last.1.tau, last.2.volN), (fin.tau, v)]
  have hnew : new.map (fun p => (p.1, p.2.volN)) = rows.map (fun o => (o, st o)) := by
    rw [← e, List.map_map]
    apply List.map_congr_left
    intro p hpm
    simp only [Function.comp, st]
    rw [(hg p hpm).1]
  rw [hnew] at hW
  have hd := sub_pos.2 ht
  have hl : ∀ o ∈ rows, line o = y0 + (v - y0) * ((o.tau - last.1.tau) / (fin.tau - last.1.tau)) ∧
      st o = last.2.volN + (v - last.2.volN) * ((o.tau - last.1.tau) / (fin.tau - last.1.tau)) ∧
      0 ≤ (o.tau - last.1.tau) / (fin.tau - last.1.tau) ∧ (o.tau - last.1.tau) / (fin.tau - last.1.tau) ≤ 1 ∧
      (o.tau < fin.tau → (o.tau - last.1.tau) / (fin.tau - last.1.tau) < 1) := by
    intro o ho
    obtain ⟨r1, r2, -, -⟩ := hr o ho
    refine ⟨?_, onLine_eq ht (interp_onLine ht r1 r2), div_nonneg (by linarith) hd.le, (div_le_one hd).2 (by linarith),
      fun hlt => (div_lt_one hd).2 (by linarith)⟩
    have := onLine_eq ht (hline o ho)
    rwa [hpiv] at this
  rw [hpiv] at hpv
  have pos : ∀ (y lam : ℝ), 0 < y → 0 ≤ lam → lam ≤ 1 → 0 < y + (v - y) * lam := by
    intro y lam hy0 hl0 hl1
    rcases eq_or_lt_of_le hl0 with h | h
    · rw [← h]; simpa using hy0
    · nlinarith [mul_pos hpv h, mul_nonneg hy0.le (sub_nonneg.2 hl1)]
  obtain ⟨om, hom, homt⟩ := hmid
  constructor
  · intro hlt
    refine (normalWorth_mono c hcp rows st line ?_ W T hW hT).2 ⟨om, hom, ?_⟩
    · intro o ho
      obtain ⟨e1, e2, e3, e4, -⟩ := hl o ho
      refine ⟨(hr o ho).2.2.1, (hr o ho).2.2.2, ?_, ?_⟩
      · rw [e2]; exact pos _ _ hn0 e3 e4
      · rw [e1, e2]; nlinarith
    · obtain ⟨e1, e2, e3, e4, e5⟩ := hl om hom
      have := e5 homt
      rw [e1, e2]
      nlinarith
  · intro hlt
    refine (normalWorth_mono c hcp rows line st ?_ T W hT hW).2 ⟨om, hom, ?_⟩
    · intro o ho
      obtain ⟨e1, e2, e3, e4, -⟩ := hl o ho
      refine ⟨(hr o ho).2.2.1, (hr o ho).2.2.2, ?_, ?_⟩
      · rw [e1]; exact pos _ _ h0 e3 e4
      · rw [e1, e2]; nlinarith
    · obtain ⟨e1, e2, e3, e4, e5⟩ := hl om hom
      have := e5 homt
      rw [e1, e2]
      nlinarith

/-- With a reliable minimiser a later quote is bootstrapped only when the last earlier smile has a volatility at the quote's strike, lognormal
and normal. -/
theorem C93_prior_known (sv : Nat → BootSolvers) (shift : ℝ) (pre : List (BootQuote × List BootRow)) (hpre : pre ≠ []) (q : BootQuote)
    (rows : List BootRow) (solved out : List (BootRow × BootSmile)) (last : BootRow × BootSmile)
    (hs : bootOptionlets sv shift pre = .ok solved) (hlast : solved.getLast? = some last) (ht : 0 < last.1.tau)
    (h : bootOptionlets sv shift (pre ++ [(q, rows)]) = .ok out) (hrel : ∀ x0 bounds, Reliable ((sv pre.length).pillar x0 bounds)) :
    ∃ c v0, q.atmf = some (c, v0) ∧ (∃ y0, priorPillarVol (sv pre.length) shift last c = .ok (.fin y0)) ∧
      ∃ s, sabrVol shift ⟨last.1.tau, last.1.F, last.2.alpha, last.2.beta, last.2.rho, last.2.volvol, c.K⟩ = some s := by
  obtain ⟨solved', new', h1, -, h2⟩ := boot_last h
  rw [hs] at h1
  cases h1
  rw [pre_pos hpre] at h2
  obtain ⟨c, v0, v, b, r, w, hq, hsol, -, -, -⟩ := later_step hlast h2
  refine ⟨c, v0, hq, ?_⟩
  unfold solvePillar at hsol
  rw [hlast] at hsol
  simp only at hsol
  split at hsol
  · cases hsol
  obtain ⟨y, hy, hm⟩ := except_bind_ok hsol
  have hnn : ∀ x e, pillarError (bootTarget shift solved c) last.1.tau (pillarTime last rows) c rows y x = .fin e → 0 ≤ e := by
    intro x e he
    unfold pillarError at he
    cases y with
    | fin y => exact npSquare_nonneg _ e he
    | _ =>
      simp only at he
      split at he
      · exact npSquare_nonneg _ e he
      · cases he
  obtain ⟨e, he, -⟩ := minimiseVol_reliable (hrel _ _) hnn hm
  have hworth : ∃ S, solvedValue shift solved c = some S := by
    cases hS : solvedValue shift solved c with
    | some S => exact ⟨S, rfl⟩
    | none =>
      have hT : bootTarget shift solved c = none := by unfold bootTarget; rw [hS]; rfl
      have gapn : ∀ p, npSquare (relativeGap p none) = .nan := fun p => by cases p <;> rfl
      rw [hT] at he
      unfold pillarError at he
      simp only [gapn, ite_self] at he
      cases y <;> simp at he
  obtain ⟨S, hS⟩ := hworth
  have hlastv : ∃ s, sabrVol shift ⟨last.1.tau, last.1.F, last.2.alpha, last.2.beta, last.2.rho, last.2.volvol, c.K⟩ = some s := by
    cases hv : sabrVol shift ⟨last.1.tau, last.1.F, last.2.alpha, last.2.beta, last.2.rho, last.2.volvol, c.K⟩ with
    | some s => exact ⟨s, rfl⟩
    | none =>
      obtain ⟨x, hx, -⟩ := npSum_all hS
      replace hx := hx last (List.mem_of_getLast? hlast)
      unfold smileValue at hx
      rw [hv] at hx
      cases hx
  refine ⟨?_, hlastv⟩
  obtain ⟨s, hv⟩ := hlastv
  unfold priorPillarVol at hy
  rw [hv] at hy
  simp only at hy
  unfold priorPillarVol
  rw [hv]
  simp only
  unfold black76SlnToNormalVol at hy ⊢
  by_cases hatm : |last.1.F - c.K| < 1e-10
  · rw [if_pos hatm, if_neg (not_lt.2 ht.le), Npf.divide, if_pos (mul_pos (Real.sqrt_pos.2 ht) (normPdf_pos 0)).ne']
    exact ⟨_, rfl⟩
  · rw [if_neg hatm] at hy ⊢
    obtain ⟨g, hg, hy⟩ := except_bind_ok hy
    rw [hg]
    simp only [Except.bind]
    cases hb : b76Price ⟨last.1.F, last.1.tau, 1, c.K, s, shift, 1⟩ with
    | some px =>
      rw [hb] at hy
      obtain ⟨z, hz, -⟩ := except_map_ok hy
      exact ⟨z, by simp only [hz, Except.map]⟩
    | none =>
      rw [hb] at hy
      obtain ⟨z, hz, -⟩ := except_map_ok hy
      exact ⟨z, by simp only [hz, Except.map]⟩

/-! ## Refusals -/

/-- Quotes without a column for the at-the-money forward are refused with `KeyError`, at the first quote. -/
theorem C93_no_atmf (sv : Nat → BootSolvers) (shift : ℝ) (q : BootQuote) (hq : q.atmf = none) (rows : List BootRow)
    (rest : List (BootQuote × List BootRow)) : bootOptionlets sv shift ((q, rows) :: rest) = .error .key := by
  simp only [bootOptionlets, bootFrom, bootStep, solveVolNAtm, quoteVolN, hq]
  rfl

/-- When exactly one optionlet comes before the second quote, `TypeError` is raised: a first quote with a single optionlet followed by
another quote is never bootstrapped.  When none does, `KeyError`. -/
theorem C93_short_first_quote (sv : Nat → BootSolvers) (shift : ℝ) (q0 q1 : BootQuote) (rows0 rows1 : List BootRow)
    (rest : List (BootQuote × List BootRow)) (s0 : List (BootRow × BootSmile)) (h0 : bootOptionlets sv shift [(q0, rows0)] = .ok s0)
    (hatm : q1.atmf ≠ none) :
    (rows0.length = 1 → bootOptionlets sv shift ((q0, rows0) :: (q1, rows1) :: rest) = .error .type) ∧
    (rows0 = [] → bootOptionlets sv shift ((q0, rows0) :: (q1, rows1) :: rest) = .error .key) := by
  obtain ⟨hm, -⟩ := C93_table sv shift [] [(q0, rows0)] s0 h0
  simp only [List.nil_append, List.flatMap_cons, List.flatMap_nil, List.append_nil] at hm
  have e : bootOptionlets sv shift ((q0, rows0) :: (q1, rows1) :: rest) = bootFrom sv shift 1 s0 ((q1, rows1) :: rest) := by
    have := bootFrom_append sv shift 0 [] [(q0, rows0)] ((q1, rows1) :: rest)
    unfold bootOptionlets at *
    rw [h0] at this
    exact this
  obtain ⟨⟨c, v⟩, hc⟩ := Option.ne_none_iff_exists'.1 hatm
  constructor
  · intro hlen
    rw [← hm, List.length_map] at hlen
    obtain ⟨last, hl⟩ := List.length_eq_one_iff.1 hlen
    subst hl
    rw [e]
    simp only [bootFrom, bootStep, solveVolNAtm, quoteVolN, hc, solvePillar, List.getLast?_singleton, List.length_singleton, if_true]
    rfl
  · intro hnil
    subst hnil
    have : s0 = [] := List.map_eq_nil_iff.1 hm
    subst this
    rw [e]
    simp only [bootFrom, bootStep, solveVolNAtm, quoteVolN, hc, List.getLast?_nil]
    rfl

/-! ## Concrete cases -/

/-- Methods that return the same point always: 0.0065 for the smile of the last optionlet, 0.008 for the pillar, 0.2 as lognormal
volatility, and the smile `(b, r, w)`. -/
noncomputable def sampleBootSolvers (b r w : ℝ) : BootSolvers where
  brent := fun _ _ => .fail .runtime
  lbfgs := fun _ _ => .ret 0.0065 true
  pillar := fun _ _ => .ret 0.008 true
  convert := fun _ _ => .ret 0.2 true
  roots := fun _ => [1]
  sabr := fun x0 _ _ => .ok (true, if x0.length = 2 then [r, w] else [b, r, w])

noncomputable def sampleBootQuote (K : ℝ) : BootQuote where
  cells := [⟨K, 1, 0.01⟩]
  atmf := some (⟨K, 1, 0.01⟩, 0.006)
  beta := some 0.5

noncomputable def sampleEarly : List BootRow := [⟨0.03, 0.5, 0.49⟩, ⟨0.031, 1, 0.48⟩]
noncomputable def sampleLate : List BootRow := [⟨0.032, 1.5, 0.47⟩, ⟨0.033, 2, 0.46⟩]

noncomputable def sampleBootSmile (vol : ℝ) : BootSmile := ⟨vol, 0.2, 1, 0.5, 0, 0.3⟩

theorem sampleBootFirst : bootOptionlets (fun _ => sampleBootSolvers 0.5 0 0.3) 0.01 [(sampleBootQuote 0.0305, sampleEarly)] =
    .ok (sampleEarly.map (fun o => (o, sampleBootSmile 0.006))) := by
  simp [bootOptionlets, bootFrom, bootStep, solveVolNAtm, quoteVolN, sampleBootQuote, sampleEarly, normalVolToBlack76Sln, minimiseVol,
    show ¬ ((0.03 : ℝ) + 0.01 = 0) by norm_num, show ¬ ((0.031 : ℝ) + 0.01 = 0) by norm_num, sampleBootSolvers, Search.run, solveSabrParams, sabrStart, sabrUnpack, rowSmiles, smileColumns, solveAlpha, nearestTo, Except.bind, Except.map, bind, pure,
    Except.pure, sampleBootSmile]

theorem sampleBootPrior : priorPillarVol (sampleBootSolvers 0.5 0 0.3) 0.01 (⟨0.031, 1, 0.48⟩, sampleBootSmile 0.006) ⟨0.032, 1, 0.01⟩ =
    .ok (.fin 0.0065) := by
  have hk : ¬ |(0.031 : ℝ) - 0.032| < 1e-10 := by norm_num [abs_lt]
  have hs : ∀ f : ℝ → Npf, solveVol (.fail .runtime) (.ret 0.0065 true) f = .ok 0.0065 := by
    intro f
    simp [solveVol, solveVol.fallback, Search.run]
  unfold priorPillarVol
  simp only [sampleBootSolvers]
  split
  · rename_i s _
    obtain ⟨g, hg⟩ : ∃ g, slnToNormalAnalytical 0.031 1 0.032 s 0.01 = .ok g := by
      unfold slnToNormalAnalytical
      rw [if_neg (by norm_num), if_neg (by norm_num)]
      exact ⟨_, rfl⟩
    unfold black76SlnToNormalVol
    rw [if_neg hk, hg]
    simp only [Except.bind]
    split
    · unfold bachelierSolveImpliedVol
      rw [hs]
      rfl
    · rw [hs]; rfl
  · rw [if_neg hk, hs]; rfl

theorem sampleBootSecond : bootOptionlets (fun _ => sampleBootSolvers 0.5 0 0.3) 0.01
      ([(sampleBootQuote 0.0305, sampleEarly)] ++ [(sampleBootQuote 0.032, sampleLate)]) =
    .ok (sampleEarly.map (fun o => (o, sampleBootSmile 0.006)) ++ [(⟨0.032, 1.5, 0.47⟩, sampleBootSmile 0.007), (⟨0.033, 2, 0.46⟩, sampleBootSmile 0.008)]) := by
  unfold bootOptionlets
  rw [bootFrom_append]
  have := sampleBootFirst
  unfold bootOptionlets at this
  rw [this]
  show bootFrom _ _ _ _ _ = _
  have hp := sampleBootPrior
  have i1 : ∀ a b t0 t1 : ℝ, npInterp t1 [(t0, a), (t1, b)] = if t1 < t0 then a else b := by
    intro a b t0 t1
    simp [npInterp]
  have i2 : npInterp 1.5 [(1, (0.006 : ℝ)), (2, 0.008)] = 0.007 := by norm_num [npInterp]
  have i3 : ∀ x : ℝ, npInterp 1.5 [(1, x), (2, x)] = x := by intro x; norm_num [npInterp]
  have i4 : ¬ (2 : ℝ) < 1 := by norm_num
  have hpil : solvePillar (sampleBootSolvers 0.5 0 0.3) 0.01 (sampleEarly.map (fun o => (o, sampleBootSmile 0.006))) sampleLate ⟨0.032, 1, 0.01⟩ = .ok 0.008 := by
    unfold solvePillar
    simp only [sampleEarly, List.map_cons, List.map_nil, List.getLast?_cons_cons, List.getLast?_singleton, List.length_cons, List.length_nil]
    rw [if_neg (by norm_num), hp]
    simp [Except.bind, minimiseVol, sampleBootSolvers, Search.run]
  have hv : quoteVolN (sampleBootSolvers 0.5 0 0.3) 0.01 false (sampleEarly.map (fun o => (o, sampleBootSmile 0.006))) sampleLate (sampleBootQuote 0.032) =
      .ok [0.007, 0.008] := by
    unfold quoteVolN
    simp only [sampleBootQuote, Bool.false_eq_true, if_false, hpil]
    simp [sampleEarly, sampleLate, sampleBootSmile, Except.map, betweenPillars, pillarTime, i1, i2, i4]
  simp only [bootFrom, bootStep, solveVolNAtm]
  rw [show ((0 + [(sampleBootQuote 0.0305, sampleEarly)].length) == 0) = false from rfl, hv]
  simp [Except.bind, sampleLate, normalVolToBlack76Sln, minimiseVol, show ¬ ((0.032 : ℝ) + 0.01 = 0) by norm_num,
    show ¬ ((0.033 : ℝ) + 0.01 = 0) by norm_num, sampleBootSolvers, Search.run, solveSabrParams, sabrStart, sabrUnpack, rowSmiles, smileColumns,
    solveAlpha, nearestTo, Except.map, bind, pure, Except.pure, sampleEarly, sampleBootSmile, sampleBootQuote, betweenPillars, pillarTime, i1, i3, i4]

/-- The two quotes meet the hypotheses of `C93_table`, `C93_first_quote`, `C93_later_quote` and `C93_pillar_mispriced`: the volatilities
stored start from 0.006, those solved with from 0.0065. -/
example : (∀ o ∈ sampleLate, (1 : ℝ) ≤ o.tau ∧ o.tau ≤ 2 ∧ 0 < o.tau ∧ 0 < o.annuity) ∧ (∃ o ∈ sampleLate, o.tau < 2) ∧
    (sampleEarly.map (fun o => (o, sampleBootSmile 0.006))).getLast? = some (⟨0.031, 1, 0.48⟩, sampleBootSmile 0.006) ∧
    sampleLate.getLast? = some ⟨0.033, 2, 0.46⟩ ∧ (sampleBootSmile 0.006).volN < 0.0065 := by
  refine ⟨?_, ⟨⟨0.032, 1.5, 0.47⟩, by simp [sampleLate], by norm_num⟩, rfl, rfl, by norm_num [sampleBootSmile]⟩
  intro o ho
  simp only [sampleLate, List.mem_cons, List.not_mem_nil, or_false] at ho
  rcases ho with rfl | rfl <;> norm_num

/-- A first quote with one optionlet, followed by another. -/
example : bootOptionlets (fun _ => sampleBootSolvers 0.5 0 0.3) 0.01 [(sampleBootQuote 0.03, [⟨0.03, 0.5, 0.49⟩]), (sampleBootQuote 0.032, sampleLate)] =
    .error .type :=
  (C93_short_first_quote _ _ _ _ _ _ [] [(⟨0.03, 0.5, 0.49⟩, sampleBootSmile 0.006)]
    (by
      simp [bootOptionlets, bootFrom, bootStep, solveVolNAtm, quoteVolN, sampleBootQuote, normalVolToBlack76Sln, minimiseVol,
        show ¬ ((0.03 : ℝ) + 0.01 = 0) by norm_num, sampleBootSolvers, Search.run, solveSabrParams, sabrStart, sabrUnpack, rowSmiles, smileColumns, solveAlpha, nearestTo, Except.bind, Except.map, bind, pure,
        Except.pure, sampleBootSmile])
    (by simp [sampleBootQuote])).1 rfl

/-- A minimiser that only reports success within the bounds and where the error is at most `tol` (and does whenever there is such a
point). -/
noncomputable def perfectFit (tol : ℝ) : BoxMinimiser := fun _ box f =>
  if h : ∃ x, InBox x box ∧ ∃ e, f x = .ok (some e) ∧ e ≤ tol then .ok (true, h.choose) else .ok (false, [])

theorem perfectFit_fits (tol : ℝ) : FitsWithin tol (perfectFit tol) := by
  intro x0 box f x h
  unfold perfectFit at h
  split at h
  · rename_i hex
    have := hex.choose_spec.2
    simp only [Except.ok.injEq, Prod.mk.injEq, true_and] at h
    rw [h] at this
    exact this
  · simp at h

/-- With it, a quote of one optionlet at its forward, priced on some smile, is bootstrapped, and repriced exactly by `C93_reprices`. -/
example : ∃ W : ℝ, ∃ out, W ≠ 0 ∧ FitsWithin 0 (perfectFit 0) ∧ bootOptionlets (fun _ => { sampleBootSolvers 1 0 0.3 with sabr := perfectFit 0 }) 0.01
    [(⟨[⟨0.03, 1, W⟩], some (⟨0.03, 1, W⟩, 0.006), none⟩, [⟨0.03, 0.5, 0.49⟩])] = .ok out := by
  have hv : sabrVol 0.01 ⟨0.5, 0.03, 1, 1, 0, 0.3, 0.03⟩ = some (haganAtm 0.5 (0.03 + 0.01) 1 1 0 0.3) := by
    have := calcSabr_single (0.5, 0.03, 1, 1, 0, 0.3) 0.03 0.01
    rw [C56_atm_formula _ _ _ _ _ _ _ (by norm_num)] at this
    simp only [Except.ok.injEq, List.cons.injEq, and_true] at this
    exact this.symm
  have hpos : 0 < haganAtm 0.5 (0.03 + 0.01) 1 1 0 0.3 := by
    unfold haganAtm
    norm_num
  have hopt : LognormalOption ⟨0.03, 0.5, 1, 0.03, haganAtm 0.5 (0.03 + 0.01) 1 1 0 0.3, 0.01, 0.49⟩ := by
    refine ⟨?_, ?_, ?_, ?_, ?_⟩ <;> first | exact hpos | norm_num
  obtain ⟨W, hW, -⟩ := C52_price _ hopt
  have hWpos : 0 < W := by
    have := (C52_bounds _ hopt (by norm_num) W hW).1
    simpa using this
  let c : QuoteCell := ⟨0.03, 1, W⟩
  let o : BootRow := ⟨0.03, 0.5, 0.49⟩
  let sv : BootSolvers := { sampleBootSolvers 1 0 0.3 with sabr := perfectFit 0 }
  let q : BootQuote := ⟨[c], some (c, 0.006), none⟩
  have hvol : solveVolNAtm sv 0.01 true [] [o] q = .ok [(o, 0.006, 0.2)] := by
    simp [solveVolNAtm, quoteVolN, q, o, show ¬ ((0.03 : ℝ) + 0.01 = 0) by norm_num, Except.bind, normalVolToBlack76Sln, minimiseVol, sv, sampleBootSolvers, Search.run, Except.map,
      bind, pure, Except.pure]
  have hrow : ∀ b r v, rowSmiles sv 0.01 true [] [(o, 0.006, 0.2)] b r v = .ok [(o, ⟨0.006, 0.2, 1, b, r, v⟩)] := by
    intro b r v
    simp [rowSmiles, smileColumns, solveAlpha, nearestTo, sv, sampleBootSolvers, Except.map, bind, pure, Except.pure, Except.bind]
  have hval : solvedValue 0.01 [(o, ⟨0.006, 0.2, 1, 1, 0, 0.3⟩)] c = some W := by
    rw [← smileWorth_iff]
    have := SmileWorth.cons (shift := 0.01) (c := c) o ⟨0.006, 0.2, 1, 1, 0, 0.3⟩ _ W 0 []
      (by rw [calcSabr_single]; exact congrArg (fun x => Except.ok [x]) hv) hW .nil
    rwa [add_zero] at this
  have hsse : bootSse sv 0.01 true [] [(o, 0.006, 0.2)] q 1 0 0.3 = .ok (some 0) := by
    unfold bootSse
    rw [hrow]
    have : columnError 0.01 [] [(o, ⟨0.006, 0.2, 1, 1, 0, 0.3⟩)] c = some 0 := by
      unfold columnError bootTarget
      rw [hval]
      simp [solvedValue, npSum, npDiv, c, hWpos.ne']
    simp [Except.map, q, npSum, this]
  refine ⟨W, ?_⟩
  have hfit : ∃ x, InBox x (sabrBox q.beta) ∧ ∃ e, (sabrUnpack q.beta x).bind
      (fun p => bootSse sv 0.01 true [] [(o, 0.006, 0.2)] q p.1 p.2.1 p.2.2) = .ok (some e) ∧ e ≤ 0 := by
    refine ⟨[1, 0, 0.3], ?_, 0, hsse, le_refl _⟩
    simp only [InBox, sabrBox, q, Option.isSome_none, Bool.false_eq_true, if_false, List.forall₂_cons, List.forall₂_nil_left_iff, and_true,
      Option.some.injEq, reduceCtorEq, false_implies, forall_const, forall_eq']
    norm_num
  obtain ⟨b, r, w, hx⟩ : ∃ b r w, hfit.choose = [b, r, w] := by
    have := hfit.choose_spec.1.length_eq
    rw [show (sabrBox q.beta).length = 3 from rfl] at this
    exact List.length_eq_three.1 this
  refine ⟨[(o, ⟨0.006, 0.2, 1, b, r, w⟩)], hWpos.ne', perfectFit_fits 0, ?_⟩
  show bootFrom (fun _ => sv) 0.01 0 [] [(q, [o])] = _
  simp only [bootFrom, bootStep]
  rw [show ((0 : Nat) == 0) = true from rfl, hvol]
  show (solveSabrParams sv 0.01 true [] [(o, 0.006, 0.2)] q).bind _ = _
  have : sv.sabr (sabrStart q.beta) (sabrBox q.beta)
      (fun x => (sabrUnpack q.beta x).bind (fun p => bootSse sv 0.01 true [] [(o, 0.006, 0.2)] q p.1 p.2.1 p.2.2)) = .ok (true, hfit.choose) := by
    exact dif_pos hfit
  unfold solveSabrParams
  rw [this, hx]
  show (rowSmiles sv 0.01 true [] [(o, 0.006, 0.2)] b r w).bind _ = _
  rw [hrow]
  rfl

/-- A minimiser that fails is reliable, and so is one that reports success only within the tolerance. -/
example : Reliable (.ask 0.2 (fun y => .ret 0.2 (match y with | .fin e => decide (e < 0.00001 ^ 2) | _ => false))) := by
  intro f v h
  simp only [Search.run] at h
  split at h
  · cases h
  · simp only [SearchEnd.returned.injEq] at h
    obtain ⟨rfl, h⟩ := h
    cases hf : f 0.2 with
    | fin e => rw [hf] at h; exact ⟨e, rfl, by simpa using h⟩
    | _ => rw [hf] at h; simp at h

/-- Where the search for the normal volatility of a quote starts: a search that stops there returns the approximation of Hagan and others
from the quoted volatility; a strike at minus the shift has no starting point (`nan`). -/
theorem C93_quote_start (F tau vol shift : ℝ) (rows : List BootRow) (c : QuoteCell) (L d : ℝ) (hL : L = Real.log ((F + shift) / (c.K + shift)))
    (hd : d = 1 + (1 / 24) * (1 - (1 / 120) * L ^ 2) * vol ^ 2 * tau + (1 / 5760) * vol ^ 4 * tau ^ 2) (hd0 : d ≠ 0) :
    (0 < F + shift → 0 < c.K + shift →
      quoteNormalVol (fun x0 _ => match x0 with | .fin x => .ret x true | _ => .fail .runtime) F tau vol shift rows c =
        .ok (vol * Real.sqrt ((F + shift) * (c.K + shift)) * (1 + (1 / 24) * L ^ 2 + 1 / 1920 * L ^ 4) / d)) ∧
    (c.K + shift = 0 →
      quoteNormalVol (fun x0 _ => match x0 with | .nan => .fail .runtime | _ => .fail .value) F tau vol shift rows c = .error .runtime) := by
  constructor
  · intro hF hK
    have e : quoteStart F tau vol shift c =
        .fin (vol * Real.sqrt ((F + shift) * (c.K + shift)) * (1 + (1 / 24) * L ^ 2 + 1 / 1920 * L ^ 4) / d) := by
      unfold quoteStart slnToNormalAnalytical
      simp only [hK.ne', if_false, not_le.2 (div_pos hF hK)]
      rw [← hL, ← hd]
      simp only [Npf.divide, hd0, ne_eq, not_false_eq_true, if_true]
    unfold quoteNormalVol
    rw [e]
    simp [minimiseVol, Search.run]
  · intro hK
    have e : quoteStart F tau vol shift c = .nan := by
      unfold quoteStart slnToNormalAnalytical
      simp only [hK, if_true]
    unfold quoteNormalVol
    rw [e]
    rfl

end Frm.Props
