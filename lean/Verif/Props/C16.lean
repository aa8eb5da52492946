import Verif.Proofs.ScheduleBuilt
import Verif.Props.C12

/-! # C16 — Inconsistent schedule requests are rejected -/

namespace Frm.Props
open Spec

/-- `start ≥ end` is a `ValueError`, whatever else is given. -/
theorem C16_bad_order {a : ScheduleArgs} (h : a.endDate ≤ a.startDate) : makeSchedule a = .error .value := by
  simp only [makeSchedule, validateSchedule, bind, Except.bind]
  rw [if_pos (by omega)]

/-- A `first_period_end` outside `(start, end]` is an assertion error. -/
theorem C16_bad_first {a : ScheduleArgs} (h : a.startDate < a.endDate) {f : Int} (hf : a.firstPeriodEnd = some f)
    (hbad : f ≤ a.startDate ∨ a.endDate < f) : makeSchedule a = .error .assertion := by
  simp only [makeSchedule, validateSchedule, bind, Except.bind]
  rw [if_neg (by omega), hf]
  rw [if_pos]
  simp; omega

/-- A `last_period_start` outside `[start, end)` is an assertion error. -/
theorem C16_bad_last {a : ScheduleArgs} (h : a.startDate < a.endDate) {l : Int} (hl : a.lastPeriodStart = some l)
    (hbad : l < a.startDate ∨ a.endDate ≤ l) : makeSchedule a = .error .assertion := by
  simp only [makeSchedule, validateSchedule, bind, Except.bind]
  rw [if_neg (by omega), hl]
  split
  · rename_i heq
    split at heq
    · cases heq; rfl
    · rw [if_pos (by simp; omega)] at heq; cases heq; rfl
  · rename_i heq
    split at heq
    · cases heq
    · rw [if_pos (by simp; omega)] at heq; cases heq

/-- Without stub dates: a stub declared as date-defined is an assertion error. -/
theorem C16_defined_without_date {a : ScheduleArgs} (h : a.startDate < a.endDate) (hz : a.freq ≠ .zeroCoupon)
    (hf : a.firstPeriodEnd = none) (hl : a.lastPeriodStart = none)
    (hbad : a.firstStub = .definedPerFirstPeriodEnd ∨ a.lastStub = .definedPerLastPeriodStart) :
    makeSchedule a = .error .assertion := by
  have hv : validateSchedule a = .ok () := by simp [validateSchedule, h, hf, hl]
  have hc : scheduleColumns a = .error .assertion := by
    unfold scheduleColumns
    rw [if_neg (by simp [hz, hf, hl]), hf, hl]
    simp only [scheduleNoDates]
    have : resolveStubs a.firstStub a.lastStub = .error .assertion := by
      unfold resolveStubs
      split
      · rfl
      · rw [if_pos (hbad.resolve_left (by assumption))]
    rw [this]; rfl
  unfold makeSchedule; rw [hv, hc]; rfl

/-- Without stub dates: both stubs specified (neither left to default) is a `ValueError`. -/
theorem C16_both_stubs {a : ScheduleArgs} (h : a.startDate < a.endDate) (hz : a.freq ≠ .zeroCoupon)
    (hf : a.firstPeriodEnd = none) (hl : a.lastPeriodStart = none)
    (h1 : a.firstStub = .none ∨ a.firstStub = .short ∨ a.firstStub = .long)
    (h2 : a.lastStub = .none ∨ a.lastStub = .short ∨ a.lastStub = .long) :
    makeSchedule a = .error .value := by
  have hv : validateSchedule a = .ok () := by simp [validateSchedule, h, hf, hl]
  have hc : scheduleColumns a = .error .value := by
    unfold scheduleColumns
    rw [if_neg (by simp [hz, hf, hl]), hf, hl]
    simp only [scheduleNoDates]
    have : resolveStubs a.firstStub a.lastStub = .error .value := by
      rcases h1 with e | e | e <;> rcases h2 with e' | e' | e' <;> rw [e, e'] <;> rfl
    rw [this]; rfl
  unfold makeSchedule; rw [hv, hc]; rfl

/-- The unadjusted roll convention is rejected as soon as a grid is needed. -/
theorem C16_unadjusted {a : ScheduleArgs} (hz : a.freq ≠ .zeroCoupon) (hr : a.rollConv = .unadjusted)
    (hf : a.firstPeriodEnd = none) (hl : a.lastPeriodStart = none) : raises (makeSchedule a) := by
  cases hm : makeSchedule a with
  | error e => exact ⟨e, rfl⟩
  | ok ps =>
    exfalso
    unfold makeSchedule at hm
    simp only [bind_ok] at hm
    obtain ⟨_, _, d, hd, _⟩ := hm
    unfold scheduleColumns at hd
    rw [if_neg (by simp [hz, hf, hl]), hf, hl] at hd
    simp only [scheduleNoDates, bind_ok] at hd
    obtain ⟨st, _, hd⟩ := hd
    obtain ⟨⟨x, hx⟩, ⟨y, hy⟩⟩ := generate_fails (p := a.toGenParams) (s := a.startDate) (e := a.endDate)
      (Or.inr (Or.inr hr))
    split at hd
    · rw [hy] at hd; cases hd
    · split at hd
      · rw [hx] at hd; cases hd
      · cases hd

/-- Every schedule that is returned came from consistent dates. -/
theorem C16_returned_consistent {a : ScheduleArgs} {ps : List (Int × Int)} (h : makeSchedule a = .ok ps) :
    a.startDate < a.endDate ∧ (∀ f, a.firstPeriodEnd = some f → a.startDate < f ∧ f ≤ a.endDate) ∧
      (∀ l, a.lastPeriodStart = some l → a.startDate ≤ l ∧ l < a.endDate) := by
  unfold makeSchedule at h
  simp only [bind_ok] at h
  obtain ⟨_, hv, _⟩ := h
  exact validate_ok hv

/-- Zero-coupon frequency: exactly one period, from start to end, for consistent dates and any other setting. -/
theorem C16_zero_coupon {a : ScheduleArgs} (hz : a.freq = .zeroCoupon) (h : a.startDate < a.endDate)
    (hf : ∀ f, a.firstPeriodEnd = some f → a.startDate < f ∧ f ≤ a.endDate)
    (hl : ∀ l, a.lastPeriodStart = some l → a.startDate ≤ l ∧ l < a.endDate) :
    makeSchedule a = .ok [(a.startDate, a.endDate)] := by
  have hv : validateSchedule a = .ok () := by
    unfold validateSchedule
    rw [if_neg (by omega), if_neg, if_neg]
    · cases e : a.lastPeriodStart with
      | none => simp
      | some l => have := hl l e; simp [this]
    · cases e : a.firstPeriodEnd with
      | none => simp
      | some f => have := hf f e; simp [this]
  unfold makeSchedule scheduleColumns
  rw [hv, if_pos (Or.inl hz)]; rfl

example : makeSchedule { sampleArgs with firstPeriodEnd := some (mkDate 2023 12 1) } = .error .assertion :=
  C16_bad_first (by decide +kernel) rfl (Or.inl (by decide +kernel))
example : makeSchedule { sampleArgs with freq := .zeroCoupon } = .ok [(mkDate 2024 1 10, mkDate 2024 12 10)] :=
  by decide +kernel

end Frm.Props
