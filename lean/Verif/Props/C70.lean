import Verif.Props.C52
import Verif.Props.C53

/-!
# C70: implied volatilities reprice

The implied-volatility solvers return a volatility that reprices the target within a relative error of 1e-5, except when the fallback
minimisation reports success without meeting the tolerance: its report is trusted.
-/

namespace Frm
namespace Spec

set_option autoImplicit false

/-- The prices are numbers whose sum is within a relative 1e-5 of the target. -/
def Matches (prices : List (Option ℝ)) (X : ℝ) : Prop := ∃ ps : List ℝ, prices = ps.map some ∧ |ps.sum - X| < 0.00001 * |X|

/-- One volatility for all options: the Black-76 prices match the target. -/
def B76Reprices (rows : List B76Row) (X v : ℝ) : Prop := Matches ((black76Price (rows.map (fun x => { x with vol := v }))).map (·.price)) X

/-- One volatility for all options: the Bachelier prices match the target. -/
def BachReprices (rows : List BachRow) (X v : ℝ) : Prop := Matches ((bachelierPrice (rows.map (fun x => { x with vol := v }))).map (·.price)) X

/-- The points a numerical method evaluates or returns when its function is `f`. -/
inductive Tries (f : ℝ → Npf) : Search → ℝ → Prop
  | here (x k) : Tries f (.ask x k) x
  | later (x k y) : Tries f (k (f x)) y → Tries f (.ask x k) y
  | ret (x s) : Tries f (.ret x s) x

/-- The method ends by returning `v` and reporting success. -/
inductive ReportsSuccess (f : ℝ → Npf) (v : ℝ) : Search → Prop
  | ret : ReportsSuccess f v (.ret v true)
  | later (x k) : ReportsSuccess f v (k (f x)) → ReportsSuccess f v (.ask x k)

end Spec
end Frm

namespace Frm.Props
open Classical Set

set_option autoImplicit false

open Frm Frm.Spec

theorem mapM_id_some (ps : List (Option ℝ)) (qs : List ℝ) : ps.mapM id = some qs ↔ ps = qs.map some := by
  induction ps generalizing qs with
  | nil => cases qs <;> simp
  | cons a l ih =>
    rw [List.mapM_cons]
    cases a with
    | none => cases qs <;> simp
    | some a =>
      cases qs with
      | nil =>
        simp only [id, Option.bind_eq_bind, Option.bind_some, List.map_nil, reduceCtorEq, iff_false]
        cases List.mapM id l <;> simp
      | cons q qs =>
        have := ih qs
        simp only [id, Option.bind_eq_bind, Option.bind_some, List.map_cons, List.cons.injEq, Option.some.injEq]
        rw [← this]
        cases List.mapM id l <;> simp [eq_comm]

theorem within_relative (prices : List (Option ℝ)) (X : ℝ) : within 0.00001 (relativeError prices X) ↔ Matches prices X := by
  unfold relativeError Matches
  cases h : prices.mapM id with
  | none =>
    simp only [within, false_iff, not_exists, not_and]
    intro ps hp
    rw [(mapM_id_some prices ps).2 hp] at h
    cases h
  | some qs =>
    have hq := (mapM_id_some prices qs).1 h
    have huniq : ∀ ps : List ℝ, prices = ps.map some → ps = qs := by
      intro ps hp
      rw [(mapM_id_some prices ps).2 hp] at h
      exact Option.some.inj h
    have : (∃ ps : List ℝ, prices = ps.map some ∧ |ps.sum - X| < 0.00001 * |X|) ↔ |qs.sum - X| < 0.00001 * |X| := by
      constructor
      · rintro ⟨ps, hp, hlt⟩
        rw [huniq ps hp] at hlt
        exact hlt
      · intro hlt
        exact ⟨qs, hq, hlt⟩
    rw [this]
    by_cases hX : X = 0
    · subst hX
      simp only [Npf.divide, ne_eq, not_true_eq_false, if_false, abs_zero, mul_zero]
      have hneg : ¬ |qs.sum - 0| < 0 := not_lt.2 (abs_nonneg _)
      by_cases h1 : 0 < qs.sum - 0
      · rw [if_pos h1]; exact iff_of_false (fun h => h) hneg
      · rw [if_neg h1]
        by_cases h2 : qs.sum - 0 < 0
        · rw [if_pos h2]; exact iff_of_false (fun h => h) hneg
        · rw [if_neg h2]; exact iff_of_false (fun h => h) hneg
    · simp only [Npf.divide, ne_eq, hX, not_false_eq_true, if_true, within]
      rw [abs_div, div_lt_iff₀ (abs_pos.2 hX)]

theorem within_square {t : ℝ} (ht : 0 < t) (e : Npf) : within (t ^ 2) (npSquare e) ↔ within t e := by
  cases e with
  | fin x =>
    simp only [npSquare, within, abs_of_nonneg (sq_nonneg x)]
    rw [sq_lt_sq, abs_of_pos ht]
  | _ => simp [npSquare, within]

theorem run_stopped {f : ℝ → Npf} {t v : ℝ} (s : Search) (h : s.run f t = .stopped v) : within t (f v) := by
  induction s with
  | ask x k ih =>
    rw [Search.run] at h
    by_cases hw : within t (f x)
    · rw [if_pos hw] at h
      cases h
      exact hw
    · rw [if_neg hw] at h
      exact ih _ h
  | ret x b => cases h
  | fail e => cases h

theorem run_success {f : ℝ → Npf} {t v : ℝ} (s : Search) (h : s.run f t = .returned v true) : ReportsSuccess f v s := by
  induction s with
  | ask x k ih =>
    rw [Search.run] at h
    by_cases hw : within t (f x)
    · rw [if_pos hw] at h
      cases h
    · rw [if_neg hw] at h
      exact .later _ _ (ih _ h)
  | ret x b =>
    cases h
    exact .ret
  | fail e => cases h

theorem run_tries {f : ℝ → Npf} {t y : ℝ} (s : Search) (h : Tries f s y) (hy : within t (f y)) :
    (∃ v, s.run f t = .stopped v ∧ within t (f v)) ∨ ∃ v b, s.run f t = .returned v b ∧ within t (f v) := by
  induction h with
  | here x k => exact Or.inl ⟨x, by rw [Search.run, if_pos hy], hy⟩
  | later x k y hk ih =>
    rw [Search.run]
    by_cases hw : within t (f x)
    · exact Or.inl ⟨x, by rw [if_pos hw], hw⟩
    · simp only [if_neg hw]
      exact ih hy
  | ret x b => exact Or.inr ⟨x, b, rfl, hy⟩

theorem fallback_sound {lbfgs : Search} {err : ℝ → Npf} {v : ℝ} (h : solveVol.fallback lbfgs err = .ok v) :
    within 0.00001 (err v) ∨ ReportsSuccess (fun w => npSquare (err w)) v lbfgs := by
  unfold solveVol.fallback at h
  have ht : (0 : ℝ) < 0.00001 := by norm_num
  cases hr : lbfgs.run (fun v => npSquare (err v)) (0.00001 ^ 2) with
  | stopped w =>
    rw [hr] at h
    cases h
    exact Or.inl ((within_square ht _).1 (run_stopped _ hr))
  | returned w b =>
    rw [hr] at h
    simp only at h
    split at h
    · cases h
      rename_i hc
      rcases hc with hc | hc
      · rw [hc] at hr
        exact Or.inr (run_success _ hr)
      · exact Or.inl ((within_square ht _).1 hc)
    · cases h
  | raised e =>
    rw [hr] at h
    cases h

theorem solve_sound {brent lbfgs : Search} {err : ℝ → Npf} {v : ℝ} (h : solveVol brent lbfgs err = .ok v) :
    within 0.00001 (err v) ∨ ReportsSuccess (fun w => npSquare (err w)) v lbfgs := by
  unfold solveVol at h
  cases hr : brent.run err 0.00001 with
  | stopped w =>
    rw [hr] at h
    cases h
    exact Or.inl (run_stopped _ hr)
  | returned w b =>
    rw [hr] at h
    simp only at h
    split at h
    · cases h
      rename_i hc
      exact Or.inl hc
    · exact fallback_sound h
  | raised e =>
    rw [hr] at h
    cases e with
    | runtime => exact fallback_sound h
    | _ => cases h

theorem solve_complete {brent : Search} (lbfgs : Search) {err : ℝ → Npf} {y : ℝ} (hy : Tries err brent y) (hw : within 0.00001 (err y)) :
    ∃ v, solveVol brent lbfgs err = .ok v ∧ within 0.00001 (err v) := by
  unfold solveVol
  rcases run_tries brent hy hw with ⟨v, hr, hv⟩ | ⟨v, b, hr, hv⟩
  · exact ⟨v, by rw [hr], hv⟩
  · exact ⟨v, by rw [hr]; simp only; rw [if_pos hv], hv⟩

/-- Black-76: a volatility that is returned reprices the target, or the fallback minimisation returned it and reported success.
Missing: that it reprices in the second case. -/
theorem C70_black_partial (brent lbfgs : Method) (rows : List B76Row) (X : ℝ) (guess : Npf) (v : ℝ)
    (h : black76SolveImpliedVol brent lbfgs rows X guess = .ok v) :
    B76Reprices rows X v ∨ ∃ sq, ReportsSuccess sq v (lbfgs guess volSlnBounds) := by
  rcases solve_sound h with hw | hs
  · exact Or.inl ((within_relative _ _).1 hw)
  · exact Or.inr ⟨_, hs⟩

/-- Bachelier: the same. -/
theorem C70_bachelier_partial (brent lbfgs : Method) (rows : List BachRow) (X : ℝ) (guess : Npf) (v : ℝ)
    (h : bachelierSolveImpliedVol brent lbfgs rows X guess = .ok v) :
    BachReprices rows X v ∨ ∃ sq, ReportsSuccess sq v (lbfgs guess volNBounds) := by
  rcases solve_sound h with hw | hs
  · exact Or.inl ((within_relative _ _).1 hw)
  · exact Or.inr ⟨_, hs⟩

/-- Black-76: if Brent's method evaluates or returns any volatility that reprices the target, a volatility that reprices the target is
returned, whatever the fallback would have done. -/
theorem C70_black_found (brent lbfgs : Method) (rows : List B76Row) (X : ℝ) (guess : Npf) (y : ℝ)
    (hy : Tries (fun v => relativeError ((black76Price (rows.map (fun x => { x with vol := v }))).map (·.price)) X)
      (brent guess volSlnBounds) y)
    (hr : B76Reprices rows X y) : ∃ v, black76SolveImpliedVol brent lbfgs rows X guess = .ok v ∧ B76Reprices rows X v := by
  obtain ⟨v, hv, hw⟩ := solve_complete (lbfgs guess _) hy ((within_relative _ _).2 hr)
  exact ⟨v, hv, (within_relative _ _).1 hw⟩

/-- Bachelier: the same. -/
theorem C70_bachelier_found (brent lbfgs : Method) (rows : List BachRow) (X : ℝ) (guess : Npf) (y : ℝ)
    (hy : Tries (fun v => relativeError ((bachelierPrice (rows.map (fun x => { x with vol := v }))).map (·.price)) X)
      (brent guess volNBounds) y)
    (hr : BachReprices rows X y) : ∃ v, bachelierSolveImpliedVol brent lbfgs rows X guess = .ok v ∧ BachReprices rows X v := by
  obtain ⟨v, hv, hw⟩ := solve_complete (lbfgs guess _) hy ((within_relative _ _).2 hr)
  exact ⟨v, hv, (within_relative _ _).1 hw⟩

theorem matches_single {p : Option ℝ} {X : ℝ} (h : Matches [p] X) : ∃ q, p = some q ∧ |q - X| < 0.00001 * |X| := by
  obtain ⟨ps, hp, hlt⟩ := h
  cases ps with
  | nil => cases hp
  | cons q qs =>
    cases qs with
    | nil =>
      simp only [List.map_cons, List.map_nil, List.cons.injEq, and_true] at hp
      refine ⟨q, hp, ?_⟩
      simpa using hlt
    | cons r rs => simp at hp

/-- For one option, a repricing volatility lies strictly between the exact implied volatilities of the target less and plus 0.001%. -/
theorem C70_black_accuracy (x : B76Row) (h : LognormalOption x) (ha : 0 < x.annuity) (X v lo hi : ℝ) (hX : 0 < X) (hv : 0 < v)
    (hlo : 0 < lo) (hhi : 0 < hi) (hpl : B76Priced { x with vol := lo } (X * (1 - 0.00001)))
    (hph : B76Priced { x with vol := hi } (X * (1 + 0.00001))) (hr : B76Reprices [x] X v) : lo < v ∧ v < hi := by
  obtain ⟨q, hq, hlt⟩ := matches_single (p := b76Price { x with vol := v }) hr
  rw [abs_of_pos hX, abs_lt] at hlt
  have hvol : ∀ w, 0 < w → LognormalOption { x with vol := w } := fun w hw => ⟨h.1, h.2.1, h.2.2.1, hw, h.2.2.2.2⟩
  have hmono := (C52_monotone x h ha (fun w => x.annuity * blackF x.cp (x.F + x.shift) (x.K + x.shift) (w * Real.sqrt x.tau))
    (fun w hw => (b76Priced_black (hvol w hw) _).2 rfl)).1
  have hq' := (b76Priced_black (hvol v hv) q).1 ((b76Priced_iff _ _).2 hq)
  have hl' := (b76Priced_black (hvol lo hlo) _).1 hpl
  have hh' := (b76Priced_black (hvol hi hhi) _).1 hph
  constructor
  · apply (hmono.lt_iff_lt hlo hv).1
    show x.annuity * blackF x.cp (x.F + x.shift) (x.K + x.shift) (lo * Real.sqrt x.tau) < x.annuity * blackF x.cp (x.F + x.shift) (x.K + x.shift) (v * Real.sqrt x.tau)
    rw [← hq', ← hl']
    linarith [hlt.1]
  · apply (hmono.lt_iff_lt hv hhi).1
    show x.annuity * blackF x.cp (x.F + x.shift) (x.K + x.shift) (v * Real.sqrt x.tau) < x.annuity * blackF x.cp (x.F + x.shift) (x.K + x.shift) (hi * Real.sqrt x.tau)
    rw [← hq', ← hh']
    linarith [hlt.2]

/-- The same for Bachelier. -/
theorem C70_bachelier_accuracy (x : BachRow) (h : NormalOption x) (ha : 0 < x.annuity) (X v lo hi : ℝ) (hX : 0 < X) (hv : 0 < v)
    (hlo : 0 < lo) (hhi : 0 < hi) (hpl : BachPriced { x with vol := lo } (X * (1 - 0.00001)))
    (hph : BachPriced { x with vol := hi } (X * (1 + 0.00001))) (hr : BachReprices [x] X v) : lo < v ∧ v < hi := by
  obtain ⟨q, hq, hlt⟩ := matches_single (p := bachPrice { x with vol := v }) hr
  rw [abs_of_pos hX, abs_lt] at hlt
  have hvol : ∀ w, 0 < w → NormalOption { x with vol := w } := fun w hw => ⟨h.1, hw, h.2.2⟩
  have hmono := C53_monotone x h ha (fun w => x.annuity * bachF x.cp (x.F - x.K) (w * Real.sqrt x.tau))
    (fun w hw => (bachPriced_eq (hvol w hw) _).2 rfl)
  have hq' := (bachPriced_eq (hvol v hv) q).1 ((bachPriced_iff _ _).2 hq)
  have hl' := (bachPriced_eq (hvol lo hlo) _).1 hpl
  have hh' := (bachPriced_eq (hvol hi hhi) _).1 hph
  constructor
  · apply (hmono.lt_iff_lt hlo hv).1
    show x.annuity * bachF x.cp (x.F - x.K) (lo * Real.sqrt x.tau) < x.annuity * bachF x.cp (x.F - x.K) (v * Real.sqrt x.tau)
    rw [← hq', ← hl']
    linarith [hlt.1]
  · apply (hmono.lt_iff_lt hv hhi).1
    show x.annuity * bachF x.cp (x.F - x.K) (v * Real.sqrt x.tau) < x.annuity * bachF x.cp (x.F - x.K) (hi * Real.sqrt x.tau)
    rw [← hq', ← hh']
    linarith [hlt.2]

/-- The full statement fails: when Brent's method does not converge and the fallback reports success at any volatility, that volatility
is returned. -/
theorem C70_trusts_success (rows : List B76Row) (rowsN : List BachRow) (X v : ℝ) :
    black76SolveImpliedVol (fun _ _ => .fail .runtime) (fun _ _ => .ret v true) rows X = .ok v ∧
      bachelierSolveImpliedVol (fun _ _ => .fail .runtime) (fun _ _ => .ret v true) rowsN X = .ok v := by
  simp [black76SolveImpliedVol, bachelierSolveImpliedVol, solveVol, Search.run, solveVol.fallback]

theorem run_zero {f : ℝ → Npf} {v : ℝ} (s : Search) : s.run f 0 ≠ .stopped v := by
  intro h
  have := run_stopped s h
  cases hf : f v with
  | fin x =>
    rw [hf] at this
    exact absurd this (not_lt.2 (abs_nonneg _))
  | _ => rw [hf] at this; exact this

theorem gap_within {p q : Option ℝ} (h : within (0.00001 ^ 2) (npSquare (relativeGap p q))) :
    ∃ a b, p = some a ∧ q = some b ∧ |a - b| < 0.00001 * |b| := by
  have ht : (0 : ℝ) < 0.00001 := by norm_num
  rw [within_square ht] at h
  unfold relativeGap at h
  cases p with
  | none => exact absurd h (by simp [within])
  | some a =>
    cases q with
    | none => exact absurd h (by simp [within])
    | some b =>
      refine ⟨a, b, rfl, rfl, ?_⟩
      by_cases hb : b = 0
      · subst hb
        simp only [Npf.divide, ne_eq, not_true_eq_false, if_false] at h
        split at h
        · exact absurd h (fun h => h)
        · split at h <;> exact absurd h (fun h => h)
      · simp only [Npf.divide, ne_eq, hb, not_false_eq_true, if_true, within] at h
        rwa [abs_div, div_lt_iff₀ (abs_pos.2 hb)] at h

theorem minimise_sound {lbfgs : Search} {p : ℝ → Option ℝ} {q : Option ℝ} {v : ℝ}
    (h : minimiseVol lbfgs (fun w => npSquare (relativeGap (p w) q)) = .ok v) :
    (∃ a b, p v = some a ∧ q = some b ∧ |a - b| < 0.00001 * |b|) ∨ ∃ sq, ReportsSuccess sq v lbfgs := by
  unfold minimiseVol at h
  cases hr : lbfgs.run (fun w => npSquare (relativeGap (p w) q)) 0 with
  | stopped w => exact absurd hr (run_zero _)
  | returned w b =>
    rw [hr] at h
    simp only at h
    split at h
    · cases h
      rename_i hc
      rcases hc with hc | hc
      · rw [hc] at hr
        exact Or.inr ⟨_, run_success _ hr⟩
      · exact Or.inl (gap_within hc)
    · cases h
  | raised e =>
    rw [hr] at h
    cases h

/-- Moving a volatility to another shift: the call price under the new shift is within a relative 1e-5 of the price under the old one, or
the minimisation reported success. -/
theorem C70_shift_partial (lbfgs : Method) (F tau K vol fromShift toShift v : ℝ)
    (h : shiftBlack76Vol lbfgs F tau K vol fromShift toShift = .ok v) :
    (∃ a b, B76Priced ⟨F, tau, 1, K, v, toShift, 1⟩ a ∧ B76Priced ⟨F, tau, 1, K, vol, fromShift, 1⟩ b ∧ |a - b| < 0.00001 * |b|) ∨
      ∃ sq, ReportsSuccess sq v (lbfgs (.fin (vol * (F / (F + (toShift - fromShift))))) volSlnBounds) := by
  unfold shiftBlack76Vol at h
  split_ifs at h
  rcases minimise_sound (p := fun w => b76Price ⟨F, tau, 1, K, w, toShift, 1⟩) h with ⟨a, b, ha, hb, hlt⟩ | hs
  · exact Or.inl ⟨a, b, (b76Priced_iff _ _).2 ha, (b76Priced_iff _ _).2 hb, hlt⟩
  · exact Or.inr hs

/-- From a normal to a log-normal volatility: the Black-76 call price is within a relative 1e-5 of the Bachelier price, or the
minimisation reported success. -/
theorem C70_normal_partial (lbfgs : Method) (F tau K volN shift v : ℝ)
    (h : normalVolToBlack76Sln lbfgs F tau K volN shift = .ok v) :
    (∃ a b, B76Priced ⟨F, tau, 1, K, v, shift, 1⟩ a ∧ BachPriced ⟨F, tau, 1, K, volN, 1⟩ b ∧ |a - b| < 0.00001 * |b|) ∨
      ∃ sq, ReportsSuccess sq v (lbfgs (.fin (volN / (F + shift))) volSlnBounds) := by
  unfold normalVolToBlack76Sln at h
  split_ifs at h
  rcases minimise_sound (p := fun w => b76Price ⟨F, tau, 1, K, w, shift, 1⟩) h with ⟨a, b, ha, hb, hlt⟩ | hs
  · exact Or.inl ⟨a, b, (b76Priced_iff _ _).2 ha, (bachPriced_iff _ _).2 hb, hlt⟩
  · exact Or.inr hs

/-- From a log-normal to a normal volatility, away from the money: the Bachelier call price is within a relative 1e-5 of the Black-76
price, or the fallback minimisation reported success. -/
theorem C70_to_normal_partial (brent lbfgs : Method) (F tau K vol shift : ℝ) (r : Npf) (hFK : 1e-10 ≤ |F - K|)
    (hx : LognormalOption ⟨F, tau, 1, K, vol, shift, 1⟩) (h : black76SlnToNormalVol brent lbfgs F tau K vol shift = .ok r) :
    ∃ n, r = .fin n ∧
      ((∃ a b, BachPriced ⟨F, tau, 1, K, n, 1⟩ a ∧ B76Priced ⟨F, tau, 1, K, vol, shift, 1⟩ b ∧ |a - b| < 0.00001 * |b|) ∨
        ∃ guess sq, slnToNormalAnalytical F tau K vol shift = .ok guess ∧ ReportsSuccess sq n (lbfgs guess volNBounds)) := by
  obtain ⟨b, hb, -⟩ := C52_price _ hx
  unfold black76SlnToNormalVol at h
  rw [if_neg (not_lt.2 hFK), (b76Priced_iff _ _).1 hb] at h
  simp only at h
  cases hg : slnToNormalAnalytical F tau K vol shift with
  | error e => rw [hg] at h; cases h
  | ok guess =>
  rw [hg] at h
  simp only [Except.bind] at h
  cases hs : bachelierSolveImpliedVol brent lbfgs [⟨F, tau, 1, K, 0, 1⟩] b guess with
  | error e => rw [hs] at h; cases h
  | ok n =>
    rw [hs] at h
    cases h
    refine ⟨n, rfl, ?_⟩
    rcases C70_bachelier_partial _ _ _ _ _ _ hs with hr | ⟨sq, hr⟩
    · obtain ⟨q, hq, hlt⟩ := matches_single (p := bachPrice ⟨F, tau, 1, K, n, 1⟩) hr
      exact Or.inl ⟨q, b, (bachPriced_iff _ _).2 hq, hb, hlt⟩
    · exact Or.inr ⟨guess, sq, rfl, hr⟩

/-- The hypotheses are met away from the money. -/
example : (1e-10 : ℝ) ≤ |0.01 - 0.02| ∧ LognormalOption ⟨0.01, 2, 1, 0.02, 0.3, 0.02, 1⟩ :=
  ⟨by norm_num, by norm_num, by norm_num, by norm_num, by norm_num, Or.inl rfl⟩

/-- At the money the closed form is computed and dropped: the minimisation decides what is returned. -/
theorem C70_atm_dropped (F tau volN shift v : ℝ) (hF : F + shift ≠ 0) :
    normalVolToBlack76Sln (fun _ _ => .ret v true) F tau F volN shift = .ok v := by
  simp [normalVolToBlack76Sln, minimiseVol, Search.run, hF]

/-- A method that ends at the exact volatility is one that finds a repricing volatility. -/
example : ∃ X, 0 < X ∧ B76Reprices [⟨0.01, 2, 1, 0.02, 0.3, 0.02, 0.5⟩] X 0.3 ∧ Tries (fun _ => .nan) (.ret 0.3 true) 0.3 := by
  have h : LognormalOption ⟨0.01, 2, 1, 0.02, 0.3, 0.02, 0.5⟩ := ⟨by norm_num, by norm_num, by norm_num, by norm_num, Or.inl rfl⟩
  obtain ⟨X, hX, -⟩ := C52_price _ h
  have hb := (C52_bounds _ h (by norm_num) X hX).1
  have hpos : 0 < X := lt_of_le_of_lt (mul_nonneg (by norm_num) (le_max_left _ _)) hb
  refine ⟨X, hpos, ⟨[X], ?_, ?_⟩, .ret _ _⟩
  · show [b76Price _] = [some X]
    rw [(b76Priced_iff _ _).1 hX]
  · simp [hpos.ne']
    norm_num

end Frm.Props
