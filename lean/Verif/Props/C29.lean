import Verif.Props.C25

/-! # C29 — Solving for a par or target value -/

namespace Frm
open Spec

set_option autoImplicit false

/-- Everything agreed but the solved parameter. -/
def otherTerms (r : LegRow) : Terms := { termsOf r with rate := none }

/-- Two states of the same leg that differ in the solved parameter and the computed columns only. -/
structure SameLeg (a b : Leg) : Prop where
  kind : a.kind = b.kind
  payRcv : a.payRcv = b.payRcv
  basis : a.basis = b.basis
  curve : a.curve = b.curve
  fixingCurve : a.fixingCurve = b.fixingCurve
  zeroDf : a.zeroDf = b.zeroDf
  rows : a.rows.map otherTerms = b.rows.map otherTerms

theorem SameLeg.refl (a : Leg) : SameLeg a a := ⟨rfl, rfl, rfl, rfl, rfl, rfl, rfl⟩

theorem SameLeg.trans {a b c : Leg} (h : SameLeg a b) (g : SameLeg b c) : SameLeg a c :=
  ⟨h.1.trans g.1, h.2.trans g.2, h.3.trans g.3, h.4.trans g.4, h.5.trans g.5, h.6.trans g.6, h.7.trans g.7⟩

theorem SameLeg.ready {a b : Leg} (h : SameLeg a b) : Ready a ↔ Ready b := by
  unfold Ready; rw [h.kind, h.fixingCurve]

theorem sameLeg_calc (S : Settings) (leg : Leg) (o : Option Rat) : SameLeg leg (calcDirtyPv S leg o).1 := by
  by_cases hr : Ready leg
  · rcases Option.eq_none_or_eq_some leg.curve with hc | ⟨D, hc⟩
    · rw [calcDirtyPv_noCurve hr hc]
      refine ⟨rfl, rfl, rfl, rfl, rfl, rfl, ?_⟩
      simp only [List.map_map]; rfl
    · rw [calcDirtyPv_ready hr hc]
      refine ⟨rfl, rfl, rfl, rfl, rfl, rfl, ?_⟩
      simp only [List.map_map]; rfl
  · rw [calcDirtyPv_notReady hr]; exact SameLeg.refl leg

/-- Equal images of a map, used through another function that factors through it. -/
theorem map_eq_of_map_eq {α β γ : Type} {f : α → β} {g g' : α → γ} (h : ∀ x y, f x = f y → g x = g' y) :
    ∀ {a b : List α}, a.map f = b.map f → a.map g = b.map g'
  | [], [], _ => rfl
  | [], _ :: _, e => by cases e
  | _ :: _, [], e => by cases e
  | x :: a, y :: b, e => by
    simp only [List.map_cons, List.cons.injEq] at e ⊢
    exact ⟨h x y e.1, map_eq_of_map_eq h e.2⟩

theorem rowPv_congr {a b : Leg} (h : SameLeg a b) (S : Settings) (D : Int → Rat) (o : Option Rat) (x y : LegRow)
    (hxy : termsOf { x with rate := o.or x.rate } = termsOf { y with rate := o.or y.rate }) :
    nadd (rowAfterPv S a D o x).notionalPv (rowAfterPv S a D o x).couponPv =
      nadd (rowAfterPv S b D o y).notionalPv (rowAfterPv S b D o y).couponPv := by
  have hc := couponOf_congr h.kind h.payRcv h.zeroDf hxy
  simp only [termsOf, Terms.mk.injEq] at hxy
  obtain ⟨-, -, -, h4, h5, h6, -, -⟩ := hxy
  unfold rowAfterPv rowAfterCoupon
  simp only
  rw [hc, h4, h5, h6]

/-- With an override the value depends only on the agreed terms other than the solved parameter. -/
theorem value_override {a b : Leg} (h : SameLeg a b) (S : Settings) (x : Rat) :
    (calcDirtyPv S a (some x)).2 = (calcDirtyPv S b (some x)).2 := by
  by_cases hr : Ready a
  · rcases Option.eq_none_or_eq_some a.curve with hc | ⟨D, hc⟩
    · rw [calcDirtyPv_noCurve hr hc, calcDirtyPv_noCurve (h.ready.mp hr) (h.curve ▸ hc)]
    · rw [calcDirtyPv_ready hr hc, calcDirtyPv_ready (h.ready.mp hr) (h.curve ▸ hc)]
      simp only [Except.ok.injEq]
      congr 1
      refine map_eq_of_map_eq (f := otherTerms) ?_ h.rows
      intro r r' e
      apply rowPv_congr h
      simp only [otherTerms, termsOf, Terms.mk.injEq] at e ⊢
      simpa using e
  · rw [calcDirtyPv_notReady hr, calcDirtyPv_notReady (fun g => hr (h.ready.mpr g))]

/-- Without an override the value depends only on the agreed terms. -/
theorem value_terms {a b : Leg} (h : SameLeg a b) (ht : a.rows.map termsOf = b.rows.map termsOf) (S : Settings) :
    (calcDirtyPv S a none).2 = (calcDirtyPv S b none).2 := by
  by_cases hr : Ready a
  · rcases Option.eq_none_or_eq_some a.curve with hc | ⟨D, hc⟩
    · rw [calcDirtyPv_noCurve hr hc, calcDirtyPv_noCurve (h.ready.mp hr) (h.curve ▸ hc)]
    · rw [calcDirtyPv_ready hr hc, calcDirtyPv_ready (h.ready.mp hr) (h.curve ▸ hc)]
      simp only [Except.ok.injEq]
      congr 1
      refine map_eq_of_map_eq (f := termsOf) ?_ ht
      intro r r' e
      apply rowPv_congr h
      simpa using e
  · rw [calcDirtyPv_notReady hr, calcDirtyPv_notReady (fun g => hr (h.ready.mpr g))]

theorem sameLeg_run (S : Settings) (target : Rat) (solver : SolverRun) :
    ∀ leg, SameLeg leg (runSolver S target solver leg).1 := by
  induction solver with
  | done c x => intro leg; exact SameLeg.refl leg
  | fail => intro leg; exact SameLeg.refl leg
  | eval x next ih =>
    intro leg
    have h1 := sameLeg_calc S leg (some x)
    unfold runSolver
    revert h1
    generalize calcDirtyPv S leg (some x) = q
    obtain ⟨l1, res⟩ := q
    intro h1
    cases res with
    | error e => exact h1
    | ok pv => exact h1.trans (ih (pv - target) l1)

theorem otherTerms_length {a b : Leg} (h : SameLeg a b) : a.rows.length = b.rows.length := by
  simpa using congrArg List.length h.rows

theorem setRates_terms {a b : Leg} (h : SameLeg a b) :
    (setRates b (a.rows.map (·.rate))).rows.map termsOf = a.rows.map termsOf := by
  unfold setRates
  simp only [List.map_map]
  have := h.rows
  revert this
  generalize a.rows = ra
  generalize b.rows = rb
  induction ra generalizing rb with
  | nil => intro e; cases rb with
    | nil => rfl
    | cons _ _ => cases e
  | cons x ra ih =>
    intro e
    cases rb with
    | nil => cases e
    | cons y rb =>
      simp only [List.map_cons, List.cons.injEq, List.zip_cons_cons] at e ⊢
      refine ⟨?_, ih rb e.2⟩
      have e1 := e.1
      simp only [otherTerms, termsOf, Terms.mk.injEq, Function.comp] at e1 ⊢
      obtain ⟨h1, h2, h3, h4, h5, h6, h7, -⟩ := e1
      exact ⟨h1.symm, h2.symm, h3.symm, h4.symm, h5.symm, h6.symm, h7.symm, trivial⟩

theorem sameLeg_setRates {a b : Leg} (h : SameLeg a b) : SameLeg a (setRates b (a.rows.map (·.rate))) := by
  refine ⟨h.1, h.2, h.3, h.4, h.5, h.6, ?_⟩
  have := setRates_terms h
  exact map_eq_of_map_eq (f := termsOf) (fun x y e => by unfold otherTerms; rw [e]) this.symm

/-- The solver sees a fixed function, although the leg is mutated under its feet. -/
theorem run_eq_search (S : Settings) (target : Rat) (solver : SolverRun) (leg0 : Leg) (f : Rat → Rat)
    (hf : ∀ x, (calcDirtyPv S leg0 (some x)).2 = .ok (f x)) :
    ∀ leg, SameLeg leg0 leg → (runSolver S target solver leg).2 = searchOn (fun x => f x - target) solver := by
  induction solver with
  | done c x => intro leg _; rfl
  | fail => intro leg _; rfl
  | eval x next ih =>
    intro leg h
    have h1 := h.trans (sameLeg_calc S leg (some x))
    have h2 := value_override h S x
    rw [hf] at h2
    unfold runSolver searchOn
    revert h1 h2
    generalize calcDirtyPv S leg (some x) = q
    obtain ⟨l1, res⟩ := q
    intro h1 h2
    simp only at h2
    subst h2
    exact ih (f x - target) l1 h1

end Frm

namespace Frm.Props
open Spec

set_option autoImplicit false

/-- Whatever the root search does — any number of trial values, convergence, failure to converge, an exception from the
search or from a valuation — all agreed terms of the leg, the solved parameter included, are what they were. -/
theorem C29_restored (S : Settings) (solver : Rat × Rat → SolverRun) (leg : Leg) (target : Rat) :
    (solverHelper S solver leg target).1.rows.map termsOf = leg.rows.map termsOf ∧
    (solverHelper S solver leg target).1.kind = leg.kind ∧ (solverHelper S solver leg target).1.payRcv = leg.payRcv ∧
    (solverHelper S solver leg target).1.basis = leg.basis ∧ (solverHelper S solver leg target).1.curve = leg.curve := by
  have h := sameLeg_run S target (solver (-1 / 10, 3)) leg
  unfold solverHelper
  exact ⟨setRates_terms h, h.1.symm, h.2.symm, h.3.symm, h.4.symm⟩

/-- In particular the leg values the same afterwards. -/
theorem C29_same_value (S : Settings) (solver : Rat × Rat → SolverRun) (leg : Leg) (target : Rat) :
    (calcDirtyPv S (solverHelper S solver leg target).1 none).2 = (calcDirtyPv S leg none).2 := by
  have h := sameLeg_run S target (solver (-1 / 10, 3)) leg
  symm
  exact value_terms (sameLeg_setRates h) (setRates_terms h).symm S

/-- The same for `par_solve`, which searches for the value of the outstanding notional payments. -/
theorem C29_par (S : Settings) (solver : Rat × Rat → SolverRun) (leg : Leg) :
    (parSolve S solver leg).1.rows.map termsOf = leg.rows.map termsOf ∧
    parSolve S solver leg = solverHelper S solver leg
      ((leg.rows.map (fun r => match r.notionalPaymentDate with
        | some d => if ToCome S d then r.notionalPayment else 0
        | none => 0)).sum) := by
  have e : ∀ rows : List LegRow, ((rows.filter (fun r => r.notionalPaymentDate.any (fun x =>
      if S.includeOnValueDate then decide (S.valueDate ≤ x) else decide (S.valueDate < x)))).map (·.notionalPayment)).sum =
      (rows.map (fun r => match r.notionalPaymentDate with
        | some d => if ToCome S d then r.notionalPayment else 0
        | none => 0)).sum := by
    intro rows
    induction rows with
    | nil => rfl
    | cons r rows ih =>
      cases hd : r.notionalPaymentDate with
      | none => rw [List.filter_cons_of_neg (by simp [hd]), ih]; simp [hd]
      | some d =>
        have hl : (if S.includeOnValueDate then decide (S.valueDate ≤ d) else decide (S.valueDate < d)) =
            decide (ToCome S d) := by
          rw [Bool.eq_iff_iff]
          by_cases hi : S.includeOnValueDate = true
          · simp only [hi, if_true, decide_eq_true_eq, ToCome, true_and]; omega
          · simp [hi, ToCome]
        by_cases ht : ToCome S d
        · rw [List.filter_cons_of_pos (by simp only [hd, Option.any_some, hl]; simp [ht])]
          simp [hd, ht, ih]
        · rw [List.filter_cons_of_neg (by simp only [hd, Option.any_some, hl]; simp [ht]), ih]
          simp [hd, ht]
  unfold parSolve
  simp only [e]
  exact ⟨(C29_restored S solver leg _).1, trivial⟩

/-- The trial valuations do not disturb one another: the search runs against one fixed function of the trial value, the
leg's value at that parameter minus the target; `nan` is returned unless it converges. -/
theorem C29_search (S : Settings) (solver : Rat × Rat → SolverRun) (leg : Leg) (target : Rat) (f : Rat → Rat)
    (hf : ∀ x, (calcDirtyPv S leg (some x)).2 = .ok (f x)) :
    (solverHelper S solver leg target).2 =
      match searchOn (fun x => f x - target) (solver (-1 / 10, 3)) with
      | some (true, root) => some root
      | _ => none := by
  have h := run_eq_search S target (solver (-1 / 10, 3)) leg f hf leg (SameLeg.refl leg)
  unfold solverHelper
  simp only [h]
  rcases searchOn (fun x => f x - target) (solver (-1 / 10, 3)) with _ | ⟨_ | _, _⟩ <;> rfl

/-- If the search is right when it reports convergence, the value returned reprices the leg to the target. -/
theorem C29_reprices (S : Settings) (solver : Rat × Rat → SolverRun) (leg : Leg) (target : Rat) (f : Rat → Rat)
    (hf : ∀ x, (calcDirtyPv S leg (some x)).2 = .ok (f x))
    (hsound : ∀ root, searchOn (fun x => f x - target) (solver (-1 / 10, 3)) = some (true, root) → f root - target = 0)
    (x : Rat) (hx : (solverHelper S solver leg target).2 = some x) :
    (calcDirtyPv S leg (some x)).2 = .ok target := by
  rw [C29_search S solver leg target f hf] at hx
  revert hx hsound
  generalize searchOn (fun x => f x - target) (solver (-1 / 10, 3)) = q
  intro hsound hx
  match q with
  | none => cases hx
  | some (false, r) => cases hx
  | some (true, r) =>
    simp only [Option.some.injEq] at hx
    subst hx
    have := hsound r rfl
    rw [hf]
    congr 1
    linarith

/-- A search that raises, or a valuation that raises, gives `nan`: the exception does not reach the caller. -/
theorem C29_swallows (S : Settings) (leg : Leg) (target x : Rat) (next : Rat → SolverRun) :
    (solverHelper S (fun _ => .fail) leg target).2 = none ∧
    (∀ e, (calcDirtyPv S leg (some x)).2 = .error e → (solverHelper S (fun _ => .eval x next) leg target).2 = none) := by
  constructor
  · rfl
  · intro e he
    unfold solverHelper runSolver
    revert he
    generalize calcDirtyPv S leg (some x) = q
    obtain ⟨l1, res⟩ := q
    intro he
    simp only at he
    subst he
    rfl

/-- Solving a swap's leg leaves the other leg alone and both legs' terms as they were; a leg number other than 1 or 2
raises. -/
theorem C29_swap (S : Settings) (solver : Rat × Rat → SolverRun) (sw : Swap) (target : Rat) (n : Int) :
    (sw.targetSolve S solver target n).1.leg1.rows.map termsOf = sw.leg1.rows.map termsOf ∧
    (sw.targetSolve S solver target n).1.leg2.rows.map termsOf = sw.leg2.rows.map termsOf ∧
    ((sw.targetSolve S solver target n).2 = .error .value ↔ n ≠ 1 ∧ n ≠ 2) := by
  unfold Swap.targetSolve
  by_cases h1 : n = 1
  · simp only [h1, if_true]
    exact ⟨(C29_restored S solver sw.leg1 target).1, by simp⟩
  · by_cases h2 : n = 2
    · simp only [h2]
      exact ⟨rfl, (C29_restored S solver sw.leg2 target).1, by simp⟩
    · simp [h1, h2]

/-- The leg with its parameter set to a value. -/
def withRate (leg : Leg) (x : Rat) : Leg := { leg with rows := leg.rows.map (fun r => { r with rate := some x }) }

theorem value_withRate (S : Settings) (leg : Leg) (x : Rat) :
    (calcDirtyPv S (withRate leg x) none).2 = (calcDirtyPv S leg (some x)).2 := by
  by_cases hr : Ready leg
  · rcases Option.eq_none_or_eq_some leg.curve with hc | ⟨D, hc⟩
    · rw [calcDirtyPv_noCurve hr hc, calcDirtyPv_noCurve (leg := withRate leg x) hr hc]
    · rw [calcDirtyPv_ready hr hc, calcDirtyPv_ready (leg := withRate leg x) hr hc]
      simp only [withRate, List.map_map]
      rfl
  · rw [calcDirtyPv_notReady hr, calcDirtyPv_notReady (leg := withRate leg x) hr]

/-- Defect: the swap-level solve aims the *leg*, not the swap, at the target, so the solved value reprices the swap to
the target plus the value of the other leg. -/
theorem C29_swap_target_off (S : Settings) (solver : Rat × Rat → SolverRun) (sw : Swap) (target : Rat) (f : Rat → Rat)
    (hf : ∀ x, (calcDirtyPv S sw.leg1 (some x)).2 = .ok (f x))
    (hsound : ∀ root, searchOn (fun x => f x - target) (solver (-1 / 10, 3)) = some (true, root) → f root - target = 0)
    (x other : Rat) (hx : (sw.targetSolve S solver target 1).2 = .ok (some x))
    (ho : (calcDirtyPv S sw.leg2 none).2 = .ok other) :
    (Swap.calcDirtyPv S { sw with leg1 := withRate sw.leg1 x }).2 = .ok (target + other) := by
  rw [C25_swap_dirty]
  refine ⟨target, other, ?_, ho, rfl⟩
  rw [value_withRate]
  apply C29_reprices S solver sw.leg1 target f hf hsound x
  simpa [Swap.targetSolve] using hx

/-- A search that tries 5 % and 10 % and settles on the secant's root, on the sample leg. -/
def sampleSolver (_ : Rat × Rat) : SolverRun :=
  .eval (1 / 20) (fun y0 => .eval (1 / 10) (fun y1 => .done true (1 / 20 - y0 * (1 / 20) / (y1 - y0))))

example : (solverHelper sampleSettings sampleSolver (sampleLeg .fixed) 90).2 = some (9 / 171) ∧
    (calcDirtyPv sampleSettings (sampleLeg .fixed) (some (9 / 171))).2 = .ok 90 ∧
    (solverHelper sampleSettings sampleSolver (sampleLeg .fixed) 90).1.rows.map termsOf =
      (sampleLeg .fixed).rows.map termsOf := by decide +kernel

/-- The computed columns are not restored: after the search the coupons are those of the last trial. -/
theorem C29_stale_columns :
    (solverHelper sampleSettings sampleSolver (sampleLeg .fixed) 90).1.rows.map (·.couponPayment) =
      [some 0, some 10, some 10] ∧
    (calcDirtyPv sampleSettings (sampleLeg .fixed) none).1.rows.map (·.couponPayment) = [some 0, some 5, some 5] := by
  decide +kernel

end Frm.Props
