import Verif.Props.C24

/-! # C25 — Dirty = clean + accrued -/

namespace Frm
open Spec

set_option autoImplicit false

/-- Computing again changes nothing. -/
theorem calcDirtyPv_again (S : Settings) (leg : Leg) :
    calcDirtyPv S (calcDirtyPv S leg none).1 none = calcDirtyPv S leg none := by
  by_cases hr : Ready leg
  · rcases Option.eq_none_or_eq_some leg.curve with hc | ⟨D, hc⟩
    · rw [calcDirtyPv_noCurve hr hc]
      rw [calcDirtyPv_noCurve (leg := { leg with rows := leg.rows.map (rowAfterCoupon leg none), computed := true }) hr hc]
      simp only [List.map_map, Prod.mk.injEq, and_true]
      congr 1
      apply List.map_congr_left
      intro r _
      unfold rowAfterCoupon
      simp only [Function.comp]
      congr 1
      · split <;> simp_all
    · rw [calcDirtyPv_ready hr hc]
      rw [calcDirtyPv_ready (leg := { leg with rows := leg.rows.map (rowAfterPv S leg D none), computed := true }) hr hc]
      have key : ∀ r, rowAfterPv S { leg with rows := leg.rows.map (rowAfterPv S leg D none), computed := true } D none
          (rowAfterPv S leg D none r) = rowAfterPv S leg D none r := by
        intro r
        unfold rowAfterPv rowAfterCoupon
        simp only
        congr 1
        · split <;> simp_all
      simp only [List.map_map, Function.comp_def, key]
  · rw [calcDirtyPv_notReady hr, calcDirtyPv_notReady hr]

end Frm

namespace Frm.Props
open Spec

set_option autoImplicit false

/-- A clean PV returned for a leg plus the accrued interest queried afterwards is the dirty PV, whether the latter is
queried before or after. -/
theorem C25_leg (S : Settings) (leg : Leg) (c : Rat) (h : (calcCleanPv S leg).2 = .ok c) :
    ∃ d a, (calcDirtyPv S leg none).2 = .ok d ∧ calcAccruedInterest S (calcCleanPv S leg).1 = .ok a ∧
      (calcDirtyPv S (calcCleanPv S leg).1 none).2 = .ok d ∧ c + a = d := by
  have hag := calcDirtyPv_again S leg
  unfold calcCleanPv at h ⊢
  revert h hag
  generalize hl : calcDirtyPv S leg none = q
  obtain ⟨l1, res⟩ := q
  intro h hag
  cases res with
  | error e => cases h
  | ok d =>
    simp only at h hag ⊢
    cases ha : calcAccruedInterest S l1 with
    | error e => rw [ha] at h; cases h
    | ok a =>
      rw [ha] at h
      simp only [Except.map, Except.ok.injEq] at h
      exact ⟨d, a, rfl, rfl, by rw [hag], by rw [← h]; ring⟩

/-- The clean PV exists exactly when the dirty PV and the accrued interest do, with the exception of the first to
fail. -/
theorem C25_leg_defined (S : Settings) (leg : Leg) (d a : Rat) (hd : (calcDirtyPv S leg none).2 = .ok d)
    (ha : calcAccruedInterest S (calcDirtyPv S leg none).1 = .ok a) : (calcCleanPv S leg).2 = .ok (d - a) := by
  unfold calcCleanPv
  revert hd ha
  generalize calcDirtyPv S leg none = q
  obtain ⟨l1, res⟩ := q
  intro hd ha
  simp only at hd ha
  subst hd
  simp [ha, Except.map]

/-- Asking for the dirty PV again gives the same value and leaves the leg as it is. -/
theorem C25_idempotent (S : Settings) (leg : Leg) :
    calcDirtyPv S (calcDirtyPv S leg none).1 none = calcDirtyPv S leg none := calcDirtyPv_again S leg

/-- The swap's dirty PV is the sum of its legs' dirty PVs. -/
theorem C25_swap_dirty (S : Settings) (sw : Swap) (d : Rat) :
    (sw.calcDirtyPv S).2 = .ok d ↔
      ∃ x y, (calcDirtyPv S sw.leg1 none).2 = .ok x ∧ (calcDirtyPv S sw.leg2 none).2 = .ok y ∧ d = x + y := by
  unfold Swap.calcDirtyPv
  generalize Frm.calcDirtyPv S sw.leg1 none = a
  generalize Frm.calcDirtyPv S sw.leg2 none = b
  obtain ⟨a1, a2⟩ := a
  obtain ⟨b1, b2⟩ := b
  cases a2 with
  | error e => simp
  | ok x => cases b2 with
    | error e => simp
    | ok y => simp [eq_comm]

/-- What pricing a swap does to its legs: the first is left as pricing it leaves it, and so is the second unless the first raised.  The
exception of a leg is passed on. -/
theorem C25_swap_state (S : Settings) (sw : Swap) :
    (∀ e, (calcDirtyPv S sw.leg1 none).2 = .error e →
      sw.calcDirtyPv S = ({ leg1 := (calcDirtyPv S sw.leg1 none).1, leg2 := sw.leg2 }, .error e)) ∧
    (∀ x, (calcDirtyPv S sw.leg1 none).2 = .ok x →
      (sw.calcDirtyPv S).1 = { leg1 := (calcDirtyPv S sw.leg1 none).1, leg2 := (calcDirtyPv S sw.leg2 none).1 } ∧
      ∀ e, (calcDirtyPv S sw.leg2 none).2 = .error e → (sw.calcDirtyPv S).2 = .error e) := by
  unfold Swap.calcDirtyPv
  generalize Frm.calcDirtyPv S sw.leg1 none = a
  generalize Frm.calcDirtyPv S sw.leg2 none = b
  obtain ⟨a1, a2⟩ := a
  obtain ⟨b1, b2⟩ := b
  cases a2 with
  | error e => simp
  | ok x => cases b2 with
    | error e => simp
    | ok y => simp

/-- A fixed leg and one without a discount curve: the first has its columns, the second raises. -/
example : ∃ x e, (calcDirtyPv sampleSettings (sampleLeg .fixed) none).2 = .ok x ∧
    (calcDirtyPv sampleSettings { sampleLeg .fixed with curve := none } none).2 = .error e := by
  have h : ∃ x, (calcDirtyPv sampleSettings (sampleLeg .fixed) none).2 = .ok x := by
    cases hx : (calcDirtyPv sampleSettings (sampleLeg .fixed) none).2 with
    | ok x => exact ⟨x, rfl⟩
    | error e => exact absurd hx (by revert e; intro e; cases e <;> decide +kernel)
  obtain ⟨x, hx⟩ := h
  exact ⟨x, _, hx, rfl⟩

/-- The swap's accrued interest is the sum of its legs' accrued interests. -/
theorem C25_swap_accrued (S : Settings) (sw : Swap) (a : Rat) :
    sw.calcAccruedInterest S = .ok a ↔
      ∃ x y, calcAccruedInterest S sw.leg1 = .ok x ∧ calcAccruedInterest S sw.leg2 = .ok y ∧ a = x + y := by
  unfold Swap.calcAccruedInterest
  cases Frm.calcAccruedInterest S sw.leg1 with
  | error e => simp [bind, Except.bind]
  | ok x => cases Frm.calcAccruedInterest S sw.leg2 with
    | error e => simp [bind, Except.bind]
    | ok y => simp [bind, Except.bind, pure, Except.pure, eq_comm]

/-- The swap's clean PV is the sum of its legs' clean PVs, and with the accrued interest adds up to its dirty PV. -/
theorem C25_swap (S : Settings) (sw : Swap) (c : Rat) (h : (sw.calcCleanPv S).2 = .ok c) :
    (∃ c1 c2, (calcCleanPv S sw.leg1).2 = .ok c1 ∧ (calcCleanPv S sw.leg2).2 = .ok c2 ∧ c = c1 + c2) ∧
    (∃ d a, (sw.calcDirtyPv S).2 = .ok d ∧ (sw.calcCleanPv S).1.calcAccruedInterest S = .ok a ∧ c + a = d) := by
  have hd := C25_swap_dirty S sw
  have hst : ∀ d, (sw.calcDirtyPv S).2 = .ok d →
      (sw.calcDirtyPv S).1 = ⟨(calcDirtyPv S sw.leg1 none).1, (calcDirtyPv S sw.leg2 none).1⟩ := by
    intro d hd
    unfold Swap.calcDirtyPv at hd ⊢
    revert hd
    generalize Frm.calcDirtyPv S sw.leg1 none = a
    generalize Frm.calcDirtyPv S sw.leg2 none = b
    obtain ⟨a1, a2⟩ := a
    obtain ⟨b1, b2⟩ := b
    cases a2 with
    | error e => intro h; cases h
    | ok x => cases b2 with
      | error e => intro h; cases h
      | ok y => intro _; rfl
  unfold Swap.calcCleanPv at h ⊢
  revert h hd hst
  generalize sw.calcDirtyPv S = q
  obtain ⟨sw1, res⟩ := q
  intro h hd hst
  cases res with
  | error e => cases h
  | ok d =>
    simp only at h hd hst ⊢
    obtain ⟨x, y, hx, hy, hxy⟩ := (hd d).mp rfl
    cases ha : sw1.calcAccruedInterest S with
    | error e => rw [ha] at h; cases h
    | ok a =>
      rw [ha] at h
      simp only [Except.map, Except.ok.injEq] at h
      obtain ⟨p, q, hp, hq, hpq⟩ := (C25_swap_accrued S sw1 a).mp ha
      rw [hst d rfl] at hp hq
      refine ⟨⟨x - p, y - q, C25_leg_defined S _ x p hx hp, C25_leg_defined S _ y q hy hq, ?_⟩, d, a, rfl, rfl, ?_⟩
      · rw [← h, hxy, hpq]; ring
      · rw [← h]; ring

/-- Accrued interest queried before any PV raises `KeyError` (or whatever the current-period lookup raises): the coupon
column does not exist yet. -/
theorem C25_accrued_needs_pv (S : Settings) (leg : Leg) (h : leg.computed = false) (x : Rat) :
    calcAccruedInterest S leg ≠ .ok x := by
  unfold calcAccruedInterest
  cases accruedCore S leg with
  | error e => simp [bind, Except.bind]
  | ok a => simp [bind, Except.bind, h]

example : ∃ c, (calcCleanPv sampleSettings (sampleLeg .fixed)).2 = .ok c := by
  exact ⟨115943 / 1460, by decide +kernel⟩

example : ∃ c, (Swap.calcCleanPv sampleSettings ⟨sampleLeg .fixed, { sampleLeg .fixed with payRcv := .pay }⟩).2 = .ok c := by
  exact ⟨11806 / 73, by decide +kernel⟩

end Frm.Props
