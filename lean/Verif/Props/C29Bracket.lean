import Mathlib.Tactic.FieldSimp
import Mathlib.Tactic.Positivity
import Verif.Props.C29

/-! # C29 — The bracket of the search: which par rates can be found -/

namespace Frm.Spec

set_option autoImplicit false

/-- A search that evaluates and returns only points between `lo` and `hi`. -/
def RunWithin (lo hi : Rat) : SolverRun → Prop
  | .done _ x => lo ≤ x ∧ x ≤ hi
  | .fail => True
  | .eval x next => (lo ≤ x ∧ x ≤ hi) ∧ ∀ y, RunWithin lo hi (next y)

/-- `brentq` as documented: it looks at both ends first and raises when the values there have the same sign. -/
def LooksAtEnds (m : Rat × Rat → SolverRun) : Prop :=
  ∀ lo hi, lo ≤ hi → ∃ k : Rat → Rat → SolverRun, m (lo, hi) = .eval lo (fun a => .eval hi (k a)) ∧
    ∀ a b, 0 < a ∧ 0 < b ∨ a < 0 ∧ b < 0 → k a b = .fail

/-- It finds the root of a straight line that does not have the same sign at both ends. -/
def SolvesLines (m : Rat × Rat → SolverRun) : Prop :=
  ∀ lo hi a b : Rat, lo ≤ hi → ¬ (0 < a + b * lo ∧ 0 < a + b * hi ∨ a + b * lo < 0 ∧ a + b * hi < 0) →
    ∃ r, searchOn (fun x => a + b * x) (m (lo, hi)) = some (true, r) ∧ a + b * r = 0

/-- Present value of one unit of rate on a fixed leg. -/
def annuity (S : Settings) (D : Int → Rat) (leg : Leg) : Rat :=
  presentValue S D (couponFlows (fun r => leg.payRcv.multiplier * r.notional * val r.yearFrac) leg.rows)

/-- The outstanding notional payments, not discounted. -/
def outstanding (S : Settings) (rows : List LegRow) : Rat :=
  (rows.map (fun r => match r.notionalPaymentDate with
    | some d => if ToCome S d then r.notionalPayment else 0
    | none => 0)).sum

end Frm.Spec

namespace Frm
open Spec

set_option autoImplicit false

theorem presentValue_scale (S : Settings) (D : Int → Rat) (g : LegRow → Rat) (x : Rat) (rows : List LegRow) :
    presentValue S D (couponFlows (fun r => x * g r) rows) = x * presentValue S D (couponFlows g rows) := by
  induction rows with
  | nil => simp [couponFlows, presentValue]
  | cons r rows ih =>
    simp only [couponFlows] at ih
    simp only [couponFlows, List.map_cons]
    cases r.couponPaymentDate with
    | none => simpa [presentValue] using ih
    | some d =>
      simp only [presentValue, ih]
      split <;> ring

theorem searchOn_within (f : Rat → Rat) {lo hi : Rat} (m : SolverRun) (h : RunWithin lo hi m) (c : Bool) (x : Rat)
    (hx : searchOn f m = some (c, x)) : lo ≤ x ∧ x ≤ hi := by
  induction m with
  | done c' x' => simp only [searchOn, Option.some.injEq, Prod.mk.injEq] at hx; rw [← hx.2]; exact h
  | fail => cases hx
  | eval z next ih => exact ih _ (h.2 _) hx

theorem run_within (S : Settings) (target : Rat) {lo hi : Rat} (m : SolverRun) (h : RunWithin lo hi m) :
    ∀ leg c x, (runSolver S target m leg).2 = some (c, x) → lo ≤ x ∧ x ≤ hi := by
  induction m with
  | done c' x' => intro leg c x hx; simp only [runSolver, Option.some.injEq, Prod.mk.injEq] at hx; rw [← hx.2]; exact h
  | fail => intro leg c x hx; cases hx
  | eval z next ih =>
    intro leg c x hx
    unfold runSolver at hx
    revert hx
    generalize calcDirtyPv S leg (some z) = q
    obtain ⟨l1, res⟩ := q
    intro hx
    cases res with
    | error e => cases hx
    | ok pv => exact ih _ (h.2 _) l1 c x hx

end Frm

namespace Frm.Props
open Spec

set_option autoImplicit false

/-- Whatever the leg and the target, the value found is between −10 % and 300 %. -/
theorem C29_range (S : Settings) (m : Rat × Rat → SolverRun) (hm : ∀ lo hi, lo ≤ hi → RunWithin lo hi (m (lo, hi)))
    (leg : Leg) (target x : Rat) (hx : (solverHelper S m leg target).2 = some x) : -1 / 10 ≤ x ∧ x ≤ 3 := by
  have hw := run_within S target (m (-1 / 10, 3)) (hm _ _ (by norm_num)) leg
  unfold solverHelper at hx
  revert hx hw
  generalize runSolver S target (m (-1 / 10, 3)) leg = q
  obtain ⟨l1, res⟩ := q
  intro hx hw
  match res, hw, hx with
  | none, _, hx => cases hx
  | some (false, r), _, hx => cases hx
  | some (true, r), hw, hx =>
    simp only [Option.some.injEq] at hx
    subst hx
    exact hw true r rfl

/-- When the leg is worth more than the target at both −10 % and 300 %, or less at both, the search ends in `nan`, although the target
may be reached in between or outside; no exception tells the caller. -/
theorem C29_same_sign (S : Settings) (m : Rat × Rat → SolverRun) (hm : LooksAtEnds m) (leg : Leg) (target v w : Rat)
    (hv : (calcDirtyPv S leg (some (-1 / 10))).2 = .ok v) (hw : (calcDirtyPv S leg (some 3)).2 = .ok w)
    (h : target < v ∧ target < w ∨ v < target ∧ w < target) : (solverHelper S m leg target).2 = none := by
  obtain ⟨k, hk, hsame⟩ := hm (-1 / 10) 3 (by norm_num)
  have hw' := value_override (sameLeg_calc S leg (some (-1 / 10))) S 3
  rw [hw] at hw'
  unfold solverHelper
  rw [hk]
  unfold runSolver
  revert hv hw'
  generalize calcDirtyPv S leg (some (-1 / 10)) = q
  obtain ⟨l1, res⟩ := q
  intro hv hw'
  simp only at hv hw'
  subst hv
  simp only
  unfold runSolver
  revert hw'
  generalize calcDirtyPv S l1 (some 3) = q
  obtain ⟨l2, res⟩ := q
  intro hw'
  simp only at hw'
  subst hw'
  simp only
  rw [hsame _ _ (by rcases h with h | h; exacts [.inl ⟨by linarith [h.1], by linarith [h.2]⟩, .inr ⟨by linarith [h.1], by linarith [h.2]⟩])]
  rfl

/-- The value of a fixed leg is a straight line in its rate: the notional flows plus the rate times the annuity. -/
theorem C29_fixed_line (S : Settings) (leg : Leg) (hk : leg.kind = .fixed) (D : Int → Rat) (hD : leg.curve = some D)
    (hr : ∀ r ∈ leg.rows, r.couponPaymentDate ≠ none → r.yearFrac ≠ none) (x : Rat) :
    (calcDirtyPv S leg (some x)).2 = .ok (presentValue S D (notionalFlows leg.rows) + annuity S D leg * x) := by
  rw [C24_fixed_override S leg hk D hD x hr]
  have e : (fun r : LegRow => (leg.payRcv.multiplier : Rat) * r.notional * x * val r.yearFrac) =
      fun r => x * ((leg.payRcv.multiplier : Rat) * r.notional * val r.yearFrac) := by funext r; ring
  rw [e, presentValue_scale]
  unfold annuity
  congr 2
  ring

/-- The rate of a fixed leg, exactly: what is left of the target after the notional flows, divided by the annuity — when that is between
−10 % and 300 %, and `nan` otherwise. -/
theorem C29_fixed_rate (S : Settings) (m : Rat × Rat → SolverRun) (hm : LooksAtEnds m) (hs : SolvesLines m) (leg : Leg)
    (hk : leg.kind = .fixed) (D : Int → Rat) (hD : leg.curve = some D)
    (hr : ∀ r ∈ leg.rows, r.couponPaymentDate ≠ none → r.yearFrac ≠ none) (target : Rat) (hA : annuity S D leg ≠ 0) :
    (solverHelper S m leg target).2 =
      if -1 / 10 ≤ (target - presentValue S D (notionalFlows leg.rows)) / annuity S D leg ∧
          (target - presentValue S D (notionalFlows leg.rows)) / annuity S D leg ≤ 3
      then some ((target - presentValue S D (notionalFlows leg.rows)) / annuity S D leg) else none := by
  have hf := C29_fixed_line S leg hk D hD hr
  generalize presentValue S D (notionalFlows leg.rows) = N at hf ⊢
  generalize annuity S D leg = A at hf hA ⊢
  set ρ := (target - N) / A with hρ
  have hN : N = target - A * ρ := by rw [hρ]; field_simp; ring
  have key : ∀ x, N + A * x - target = A * (x - ρ) := by intro x; rw [hN]; ring
  split
  · rename_i h
    obtain ⟨r, h1, h2⟩ := hs (-1 / 10) 3 (N - target) A (by norm_num) (by
      have e1 : N - target + A * (-1 / 10) = A * (-1 / 10 - ρ) := by rw [← key]; ring
      have e2 : N - target + A * 3 = A * (3 - ρ) := by rw [← key]; ring
      rw [e1, e2]
      rcases lt_or_gt_of_ne hA with ha | ha
      · have p1 : 0 ≤ A * (-1 / 10 - ρ) := mul_nonneg_of_nonpos_of_nonpos ha.le (by linarith [h.1])
        have p2 : A * (3 - ρ) ≤ 0 := mul_nonpos_of_nonpos_of_nonneg ha.le (by linarith [h.2])
        rintro (⟨-, h⟩ | ⟨h, -⟩)
        · exact absurd h (not_lt.mpr p2)
        · exact absurd h (not_lt.mpr p1)
      · have p1 : A * (-1 / 10 - ρ) ≤ 0 := mul_nonpos_of_nonneg_of_nonpos ha.le (by linarith [h.1])
        have p2 : 0 ≤ A * (3 - ρ) := mul_nonneg ha.le (by linarith [h.2])
        rintro (⟨h, -⟩ | ⟨-, h⟩)
        · exact absurd h (not_lt.mpr p1)
        · exact absurd h (not_lt.mpr p2))
    rw [C29_search S m leg target (fun x => N + A * x) hf]
    have e : (fun x => N + A * x - target) = fun x => N - target + A * x := by funext x; ring
    rw [e, h1]
    simp only [Option.some.injEq]
    have : A * (r - ρ) = 0 := by rw [← key]; linarith
    rcases mul_eq_zero.mp this with h | h
    · exact absurd h hA
    · linarith
  · rename_i h
    apply C29_same_sign S m hm leg target _ _ (hf _) (hf _)
    have e1 := key (-1 / 10)
    have e2 := key 3
    have hout : ρ < -1 / 10 ∨ 3 < ρ := by
      by_contra hc
      rw [not_or, not_lt, not_lt] at hc
      exact h hc
    rcases lt_or_gt_of_ne hA with ha | ha <;> rcases hout with ho | ho
    · right
      have p1 : A * (-1 / 10 - ρ) < 0 := mul_neg_of_neg_of_pos ha (by linarith)
      have p2 : A * (3 - ρ) < 0 := mul_neg_of_neg_of_pos ha (by linarith)
      constructor <;> linarith
    · left
      have p1 : 0 < A * (-1 / 10 - ρ) := mul_pos_of_neg_of_neg ha (by linarith)
      have p2 : 0 < A * (3 - ρ) := mul_pos_of_neg_of_neg ha (by linarith)
      constructor <;> linarith
    · left
      have p1 : 0 < A * (-1 / 10 - ρ) := mul_pos ha (by linarith)
      have p2 : 0 < A * (3 - ρ) := mul_pos ha (by linarith)
      constructor <;> linarith
    · right
      have p1 : A * (-1 / 10 - ρ) < 0 := mul_neg_of_pos_of_neg ha (by linarith)
      have p2 : A * (3 - ρ) < 0 := mul_neg_of_pos_of_neg ha (by linarith)
      constructor <;> linarith

/-- The par rate of a fixed leg: the outstanding notional payments less their present value, per unit of annuity. -/
theorem C29_fixed_par_rate (S : Settings) (m : Rat × Rat → SolverRun) (hm : LooksAtEnds m) (hs : SolvesLines m) (leg : Leg)
    (hk : leg.kind = .fixed) (D : Int → Rat) (hD : leg.curve = some D)
    (hr : ∀ r ∈ leg.rows, r.couponPaymentDate ≠ none → r.yearFrac ≠ none) (hA : annuity S D leg ≠ 0) :
    (parSolve S m leg).2 =
      if -1 / 10 ≤ (outstanding S leg.rows - presentValue S D (notionalFlows leg.rows)) / annuity S D leg ∧
          (outstanding S leg.rows - presentValue S D (notionalFlows leg.rows)) / annuity S D leg ≤ 3
      then some ((outstanding S leg.rows - presentValue S D (notionalFlows leg.rows)) / annuity S D leg) else none := by
  rw [(C29_par S m leg).2]
  exact C29_fixed_rate S m hm hs leg hk D hD hr _ hA

/-- Without coupons to come there is no rate: unless the notional flows alone are worth the target, the search ends in `nan`. -/
theorem C29_no_annuity (S : Settings) (m : Rat × Rat → SolverRun) (hm : LooksAtEnds m) (leg : Leg)
    (hk : leg.kind = .fixed) (D : Int → Rat) (hD : leg.curve = some D)
    (hr : ∀ r ∈ leg.rows, r.couponPaymentDate ≠ none → r.yearFrac ≠ none) (target : Rat) (hA : annuity S D leg = 0)
    (ht : presentValue S D (notionalFlows leg.rows) ≠ target) : (solverHelper S m leg target).2 = none := by
  have hf := C29_fixed_line S leg hk D hD hr
  rw [hA] at hf
  apply C29_same_sign S m hm leg target _ _ (hf _) (hf _)
  simp only [zero_mul, add_zero, and_self]
  exact (lt_or_gt_of_ne ht).symm

/-- Solving each leg of a swap: two separate searches, each for the leg's own outstanding notional; the terms of both legs are what they
were, so the swap is worth what it was. -/
theorem C29_each_leg (S : Settings) (m : Rat × Rat → SolverRun) (sw : Swap) :
    (sw.parSolveEach S m).2 = ((solverHelper S m sw.leg1 (outstanding S sw.leg1.rows)).2,
      (solverHelper S m sw.leg2 (outstanding S sw.leg2.rows)).2) ∧
    (sw.parSolveEach S m).1.leg1.rows.map termsOf = sw.leg1.rows.map termsOf ∧
    (sw.parSolveEach S m).1.leg2.rows.map termsOf = sw.leg2.rows.map termsOf ∧
    ((sw.parSolveEach S m).1.calcDirtyPv S).2 = (sw.calcDirtyPv S).2 := by
  have e1 := (C29_par S m sw.leg1).2
  have e2 := (C29_par S m sw.leg2).2
  refine ⟨?_, (C29_par S m sw.leg1).1, (C29_par S m sw.leg2).1, ?_⟩
  · unfold Swap.parSolveEach
    rw [e1, e2]
    rfl
  · have v1 := C29_same_value S m sw.leg1 (outstanding S sw.leg1.rows)
    have v2 := C29_same_value S m sw.leg2 (outstanding S sw.leg2.rows)
    have c1 : (sw.parSolveEach S m).1.leg1 = (solverHelper S m sw.leg1 (outstanding S sw.leg1.rows)).1 := by
      unfold Swap.parSolveEach; rw [e1]; rfl
    have c2 : (sw.parSolveEach S m).1.leg2 = (solverHelper S m sw.leg2 (outstanding S sw.leg2.rows)).1 := by
      unfold Swap.parSolveEach; rw [e2]; rfl
    rw [← c1] at v1
    rw [← c2] at v2
    generalize (sw.parSolveEach S m).1 = sw' at v1 v2
    unfold Swap.calcDirtyPv
    revert v1 v2
    generalize Frm.calcDirtyPv S sw'.leg1 none = a
    generalize Frm.calcDirtyPv S sw.leg1 none = b
    generalize Frm.calcDirtyPv S sw'.leg2 none = c
    generalize Frm.calcDirtyPv S sw.leg2 none = d
    obtain ⟨a1, a2⟩ := a
    obtain ⟨b1, b2⟩ := b
    obtain ⟨c1, c2⟩ := c
    obtain ⟨d1, d2⟩ := d
    intro v1 v2
    simp only at v1 v2
    subst v1 v2
    cases a2 with
    | error e => rfl
    | ok x => cases c2 <;> rfl

/-! ## Concrete cases -/

/-- A search that looks at both ends and, unless the signs agree, returns the root of the line through them. -/
def chordSolver (b : Rat × Rat) : SolverRun :=
  .eval b.1 (fun x => .eval b.2 (fun y =>
    if 0 < x ∧ 0 < y ∨ x < 0 ∧ y < 0 then .fail else .done true (b.1 - x * (b.2 - b.1) / (y - x))))

theorem chord_ends : LooksAtEnds chordSolver := by
  intro lo hi _
  refine ⟨fun x y => if 0 < x ∧ 0 < y ∨ x < 0 ∧ y < 0 then .fail else .done true (lo - x * (hi - lo) / (y - x)), rfl, ?_⟩
  intro a b h
  exact if_pos h

theorem chord_lines : SolvesLines chordSolver := by
  intro lo hi a b hl h
  refine ⟨lo - (a + b * lo) * (hi - lo) / (a + b * hi - (a + b * lo)), ?_, ?_⟩
  · simp only [chordSolver, searchOn]
    rw [if_neg h]
    rfl
  · by_cases hd : b * (hi - lo) = 0
    · have e : a + b * hi = a + b * lo := by linarith
      rw [e]
      have h0 : a + b * lo = 0 := by
        rw [e] at h
        rcases lt_trichotomy (a + b * lo) 0 with h' | h' | h'
        · exact absurd (.inr ⟨h', h'⟩) h
        · exact h'
        · exact absurd (.inl ⟨h', h'⟩) h
      simp [h0]
    · have e : a + b * hi - (a + b * lo) = b * (hi - lo) := by ring
      rw [e]
      have hb : b ≠ 0 := left_ne_zero_of_mul hd
      have hc : hi - lo ≠ 0 := right_ne_zero_of_mul hd
      field_simp
      ring

theorem chord_within (lo hi : Rat) (h : lo ≤ hi) : RunWithin lo hi (chordSolver (lo, hi)) := by
  refine ⟨⟨le_refl _, h⟩, fun x => ⟨⟨h, le_refl _⟩, fun y => ?_⟩⟩
  dsimp only
  split
  · trivial
  · rename_i hs
    have ht : 0 ≤ -x / (y - x) ∧ -x / (y - x) ≤ 1 := by
      rcases lt_trichotomy x y with hxy | hxy | hxy
      · have hx : x ≤ 0 := by
          by_contra hc; exact hs (.inl ⟨by linarith, by linarith⟩)
        have hy : 0 ≤ y := by
          by_contra hc; exact hs (.inr ⟨by linarith, by linarith⟩)
        exact ⟨div_nonneg (by linarith) (by linarith), (div_le_one (by linarith)).mpr (by linarith)⟩
      · rw [hxy]; simp
      · have hx : 0 ≤ x := by
          by_contra hc; exact hs (.inr ⟨by linarith, by linarith⟩)
        have hy : y ≤ 0 := by
          by_contra hc; exact hs (.inl ⟨by linarith, by linarith⟩)
        have e : -x / (y - x) = x / (x - y) := by rw [← neg_div_neg_eq]; congr 1 <;> ring
        rw [e]
        exact ⟨div_nonneg hx (by linarith), (div_le_one (by linarith)).mpr (by linarith)⟩
    have e : lo - x * (hi - lo) / (y - x) = lo + -x / (y - x) * (hi - lo) := by ring
    show lo ≤ lo - x * (hi - lo) / (y - x) ∧ lo - x * (hi - lo) / (y - x) ≤ hi
    rw [e]
    have d : 0 ≤ hi - lo := by linarith
    constructor
    · have := mul_nonneg ht.1 d; linarith
    · have := mul_le_mul_of_nonneg_right ht.2 d; linarith

/-- Hypotheses of the theorems on the sample leg, and its par rate: 19/171. -/
example : (sampleLeg .fixed).kind = .fixed ∧ annuity sampleSettings (fun d => if d ≤ 365 then 9 / 10 else 81 / 100) (sampleLeg .fixed) = 171 ∧
    outstanding sampleSettings (sampleLeg .fixed).rows = 100 ∧
    (parSolve sampleSettings chordSolver (sampleLeg .fixed)).2 = some (19 / 171) := by decide +kernel

/-- A target of 1000 would take a rate above 300 %: `nan`. -/
example : (solverHelper sampleSettings chordSolver (sampleLeg .fixed) 1000).2 = none := by decide +kernel

end Frm.Props
