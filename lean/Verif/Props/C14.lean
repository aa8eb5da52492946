import Verif.Proofs.ScheduleBuilt
import Verif.Props.C12

/-! # C14 — Generated dates are the rolled multiples of the frequency from the anchor -/

namespace Frm.Spec

/-- The interior dates of a forward schedule: the grid dates `s + 1·f, s + 2·f, …` (adjusted), in order, up to but
excluding the first one that reaches `e`. -/
def ForwardGrid (p : GenParams) (s e : Int) (mid : List Int) : Prop :=
  (∀ (i : Nat) (x : Int), mid[i]? = some x → OnGrid p s ((i : Int) + 1) x ∧ x < e) ∧
  ∃ x, OnGrid p s ((mid.length : Int) + 1) x ∧ e ≤ x

/-- The interior dates of a backward schedule, latest first: `e - 1·f, e - 2·f, …` (adjusted), up to but excluding the
first one that reaches `s`. -/
def BackwardGrid (p : GenParams) (s e : Int) (rev : List Int) : Prop :=
  (∀ (i : Nat) (x : Int), rev[i]? = some x → OnGrid p e (-((i : Int) + 1)) x ∧ s < x) ∧
  ∃ x, OnGrid p e (-((rev.length : Int) + 1)) x ∧ x ≤ s

end Frm.Spec

namespace Frm
open Spec

theorem interior_iff {g : Nat → Int} {go : Int → Bool} {m : List Int} :
    Interior g go m ↔ (∀ i x, m[i]? = some x → g (i + 1) = x ∧ go x = true) ∧ go (g (m.length + 1)) = false := by
  unfold Interior
  constructor
  · rintro ⟨h1, h2, h3⟩
    refine ⟨?_, h3⟩
    intro i x hx
    have hi : i < m.length := (List.getElem?_eq_some_iff.mp hx).1
    rw [h1] at hx
    simp only [List.getElem?_map, List.getElem?_range hi, Option.map_some, Option.some.injEq] at hx
    subst hx
    exact ⟨rfl, h2 i hi⟩
  · rintro ⟨h1, h2⟩
    have key : ∀ i (hi : i < m.length), m[i] = g (i + 1) ∧ go (g (i + 1)) = true := by
      intro i hi
      have := h1 i m[i] (List.getElem?_eq_getElem hi)
      exact ⟨this.1.symm, by rw [this.1]; exact this.2⟩
    refine ⟨?_, fun j hj => (key j hj).2, h2⟩
    apply List.ext_getElem
    · simp
    · intro i h1 h2
      simp [(key i h1).1]

theorem interior_unique {g : Nat → Int} {go : Int → Bool} {m m' : List Int} (h : Interior g go m)
    (h' : Interior g go m') : m = m' := by
  obtain ⟨a1, a2, a3⟩ := h
  obtain ⟨b1, b2, b3⟩ := h'
  have hl : m.length = m'.length := by
    rcases Nat.lt_trichotomy m.length m'.length with h | h | h
    · have := b2 _ h; rw [a3] at this; cases this
    · exact h
    · have := a2 _ h; rw [b3] at this; cases this
  rw [a1, b1, hl]

theorem forwardGrid_iff {p : GenParams} (h : p.cal.Ok) (hr : p.rollConv ≠ .unadjusted) (s e : Int) (m : List Int) :
    Interior (fun k => gridFn p s k) (fun c => decide (c < e)) m ↔ ForwardGrid p s e m := by
  rw [interior_iff]
  unfold ForwardGrid
  simp only [onGrid_iff h hr, decide_eq_true_eq, decide_eq_false_iff_not, Int.not_lt]
  constructor
  · rintro ⟨h1, h2⟩
    exact ⟨fun i x hx => by simpa using h1 i x hx, _, rfl, by simpa using h2⟩
  · rintro ⟨h1, x, rfl, h2⟩
    exact ⟨fun i x hx => by simpa using h1 i x hx, by simpa using h2⟩

theorem backwardGrid_iff {p : GenParams} (h : p.cal.Ok) (hr : p.rollConv ≠ .unadjusted) (s e : Int) (m : List Int) :
    Interior (fun k => gridFn p e (-(k : Int))) (fun c => decide (c > s)) m ↔ BackwardGrid p s e m := by
  rw [interior_iff]
  unfold BackwardGrid
  simp only [onGrid_iff h hr, decide_eq_true_eq, decide_eq_false_iff_not, gt_iff_lt, Int.not_lt]
  constructor
  · rintro ⟨h1, h2⟩
    exact ⟨fun i x hx => by simpa using h1 i x hx, _, rfl, by simpa using h2⟩
  · rintro ⟨h1, x, rfl, h2⟩
    exact ⟨fun i x hx => by simpa using h1 i x hx, by simpa using h2⟩

end Frm

namespace Frm.Props
open Spec

/-- Forward generation returns exactly the adjusted multiples of the frequency from the start date, in order, up to
the first that reaches the end date; it returns if and only if the dates are ordered, the frequency has a step and
the roll convention is one numpy knows. -/
theorem C14_forward {p : GenParams} (h : p.cal.Ok) (hu : p.rollUser = false) (s e : Int) (d : List Int × List Int) :
    generateForward p s e = .ok d ↔
      s < e ∧ p.freq ≠ .zeroCoupon ∧ p.rollConv ≠ .unadjusted ∧
      ∃ mid, d = (s :: mid, mid ++ [e]) ∧ ForwardGrid p s e mid := by
  constructor
  · intro hd
    obtain ⟨m, hm, h1, h2, h3, hi⟩ := fwdMid_of h hu hd
    exact ⟨h1, h2, h3, m, hm, (forwardGrid_iff h h3 s e m).mp hi⟩
  · rintro ⟨h1, h2, h3, m, rfl, hg⟩
    obtain ⟨m', hm', hi'⟩ := generateForward_eq h h2 h3 h1
    have := interior_unique hi' ((forwardGrid_iff h h3 s e m).mpr hg)
    subst this
    simpa [userDate, hu] using hm'

/-- Backward generation likewise, from the end date. -/
theorem C14_backward {p : GenParams} (h : p.cal.Ok) (hu : p.rollUser = false) (s e : Int) (d : List Int × List Int) :
    generateBackward p s e = .ok d ↔
      s < e ∧ p.freq ≠ .zeroCoupon ∧ p.rollConv ≠ .unadjusted ∧
      ∃ rev, d = (s :: rev.reverse, rev.reverse ++ [e]) ∧ BackwardGrid p s e rev := by
  constructor
  · intro hd
    obtain ⟨m, hm, h1, h2, h3, hi⟩ := bwdMid_of h hu hd
    exact ⟨h1, h2, h3, m.reverse, by rw [List.reverse_reverse]; exact hm, (backwardGrid_iff h h3 s e _).mp hi⟩
  · rintro ⟨h1, h2, h3, m, rfl, hg⟩
    obtain ⟨m', hm', hi'⟩ := generateBackward_eq h h2 h3 h1
    have := interior_unique hi' ((backwardGrid_iff h h3 s e m).mpr hg)
    subst this
    simpa [userDate, hu] using hm'

/-- With `roll_user_specified_dates=True` only the outer dates change: they are rolled; the interior grid is still
anchored on the unrolled date. -/
theorem C14_rolled_outer {p : GenParams} (h : p.cal.Ok) (hu : p.rollUser = true) (s e : Int)
    (d : List Int × List Int) :
    (generateForward p s e = .ok d →
      ∃ s' e' mid, RollsTo p.cal p.rollConv s s' ∧ RollsTo p.cal p.rollConv e e' ∧
        d = (s' :: mid, mid ++ [e']) ∧ ForwardGrid p s e mid) ∧
    (generateBackward p s e = .ok d →
      ∃ s' e' rev, RollsTo p.cal p.rollConv s s' ∧ RollsTo p.cal p.rollConv e e' ∧
        d = (s' :: rev.reverse, rev.reverse ++ [e']) ∧ BackwardGrid p s e rev) := by
  constructor
  · intro hd
    obtain ⟨h1, h2, h3, m, hm, hi⟩ := generateForward_ok_iff h hd
    refine ⟨_, _, m, (rollsTo_rollFn h h3 _ _).mpr rfl, (rollsTo_rollFn h h3 _ _).mpr rfl, ?_,
      (forwardGrid_iff h h3 s e m).mp hi⟩
    simpa [userDate, hu] using hm
  · intro hd
    obtain ⟨h1, h2, h3, m, hm, hi⟩ := generateBackward_ok_iff h hd
    refine ⟨_, _, m, (rollsTo_rollFn h h3 _ _).mpr rfl, (rollsTo_rollFn h h3 _ _).mpr rfl, ?_,
      (backwardGrid_iff h h3 s e m).mp hi⟩
    simpa [userDate, hu] using hm

/-- `make_schedule` with default stubs: the backward grid from the end date. -/
theorem C14_make_schedule_default {a : ScheduleArgs} (h : a.cal.Ok) (hu : a.rollUser = false)
    (hf : a.freq ≠ .zeroCoupon) (h1 : a.firstPeriodEnd = none) (h2 : a.lastPeriodStart = none)
    (h3 : a.firstStub = .default) (h4 : a.lastStub = .default) (ps : List (Int × Int)) :
    makeSchedule a = .ok ps ↔
      a.startDate < a.endDate ∧ a.rollConv ≠ .unadjusted ∧
      ∃ rev, BackwardGrid a.toGenParams a.startDate a.endDate rev ∧
        ps = periodsOf a.startDate a.endDate rev.reverse := by
  have hc : scheduleColumns a = generateBackward a.toGenParams a.startDate a.endDate := by
    unfold scheduleColumns
    rw [if_neg (by simp [hf, h1, h2]), h1, h2]
    simp only [scheduleNoDates, h3, h4, resolveStubs, Stub.marketConvention]
    cases generateBackward a.toGenParams a.startDate a.endDate <;> rfl
  unfold makeSchedule
  rw [hc]
  simp only [bind_ok]
  constructor
  · rintro ⟨_, hv, d, hd, hp⟩
    obtain ⟨b1, b2, b3, rev, rfl, hg⟩ := (C14_backward h hu _ _ _).mp hd
    rw [periodFrame_shape, Except.ok.injEq] at hp
    exact ⟨b1, b3, rev, hg, hp.symm⟩
  · rintro ⟨b1, b2, rev, hg, rfl⟩
    refine ⟨(), ?_, _, (C14_backward h hu _ _ _).mpr ⟨b1, hf, b2, rev, rfl, hg⟩, periodFrame_shape _ _ _⟩
    simp [validateSchedule, h1, h2, b1]

/-- `make_schedule` with a short last stub: the forward grid from the start date. -/
theorem C14_make_schedule_last_stub {a : ScheduleArgs} (h : a.cal.Ok) (hu : a.rollUser = false)
    (hf : a.freq ≠ .zeroCoupon) (h1 : a.firstPeriodEnd = none) (h2 : a.lastPeriodStart = none)
    (h3 : a.firstStub = .default) (h4 : a.lastStub = .short) (ps : List (Int × Int)) :
    makeSchedule a = .ok ps ↔
      a.startDate < a.endDate ∧ a.rollConv ≠ .unadjusted ∧
      ∃ mid, ForwardGrid a.toGenParams a.startDate a.endDate mid ∧
        ps = periodsOf a.startDate a.endDate mid := by
  have hc : scheduleColumns a = generateForward a.toGenParams a.startDate a.endDate := by
    unfold scheduleColumns
    rw [if_neg (by simp [hf, h1, h2]), h1, h2]
    simp only [scheduleNoDates, h3, h4, resolveStubs, Stub.marketConvention]
    cases generateForward a.toGenParams a.startDate a.endDate <;> rfl
  unfold makeSchedule
  rw [hc]
  simp only [bind_ok]
  constructor
  · rintro ⟨_, hv, d, hd, hp⟩
    obtain ⟨b1, b2, b3, mid, rfl, hg⟩ := (C14_forward h hu _ _ _).mp hd
    rw [periodFrame_shape, Except.ok.injEq] at hp
    exact ⟨b1, b3, mid, hg, hp.symm⟩
  · rintro ⟨b1, b2, mid, hg, rfl⟩
    refine ⟨(), ?_, _, (C14_forward h hu _ _ _).mpr ⟨b1, hf, b2, mid, rfl, hg⟩, periodFrame_shape _ _ _⟩
    simp [validateSchedule, h1, h2, b1]

/-- The grid date is unique and always exists: the characterisations above determine the schedule. -/
theorem C14_grid_functional {p : GenParams} (h : p.cal.Ok) (hr : p.rollConv ≠ .unadjusted) (anchor k : Int) :
    (∃ x, OnGrid p anchor k x) ∧ ∀ x y, OnGrid p anchor k x → OnGrid p anchor k y → x = y :=
  ⟨⟨_, (onGrid_iff h hr _ _ _).mpr rfl⟩,
   fun x y hx hy => by rw [onGrid_iff h hr] at hx hy; omega⟩

/-- No drift: a month-end schedule of one-month steps from 31 August keeps the 31st after a February. -/
example : makeSchedule { sampleArgs with freq := .monthly, startDate := mkDate 2023 12 31, endDate := mkDate 2024 4 30, firstPeriodEnd := none, lastStub := .short } =
    .ok [(mkDate 2023 12 31, mkDate 2024 1 31), (mkDate 2024 1 31, mkDate 2024 2 29),
      (mkDate 2024 2 29, mkDate 2024 3 29), (mkDate 2024 3 29, mkDate 2024 4 30)] := by decide +kernel

end Frm.Props
