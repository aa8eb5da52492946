import Verif.Proofs.Schedule
import Verif.Props.C04

/-! # C12 — Schedules tile the trade -/

namespace Frm
open Spec

/-- Start and end columns of a chain of periods. -/
def Shape (s e : Int) (d : List Int × List Int) : Prop := ∃ mid, d = (s :: mid, mid ++ [e])

/-- If the columns make a data frame, its rows tile. -/
def Good (s e : Int) (d : List Int × List Int) : Prop := ∀ ps, periodFrame d = .ok ps → Tiles s e ps

theorem Shape.good {s e : Int} {d : List Int × List Int} (h : Shape s e d) : Good s e d := by
  obtain ⟨mid, rfl⟩ := h
  intro ps hps
  rw [periodFrame_shape, Except.ok.injEq] at hps
  subst hps; exact tiles_periodsOf s e mid

theorem Shape.mergeFirst {s e : Int} {d d' : List Int × List Int} (h : Shape s e d)
    (hd : mergeFirst d = .ok d') : Good s e d' := by
  obtain ⟨mid, rfl⟩ := h
  cases mid with
  | nil =>
    rw [List.nil_append, mergeFirst_nil, Except.ok.injEq] at hd
    subst hd; intro ps hps; simp [periodFrame] at hps
  | cons x xs =>
    rw [mergeFirst_cons, Except.ok.injEq] at hd
    subst hd; exact Shape.good ⟨xs, rfl⟩

theorem Shape.mergeLast {s e : Int} {d d' : List Int × List Int} (h : Shape s e d)
    (hd : mergeLast d = .ok d') : Good s e d' := by
  obtain ⟨mid, rfl⟩ := h
  rcases List.eq_nil_or_concat mid with rfl | ⟨xs, x, rfl⟩
  · rw [List.nil_append, mergeLast_nil, Except.ok.injEq] at hd
    subst hd; intro ps hps; simp [periodFrame] at hps
  · rw [List.concat_eq_append, mergeLast_snoc, Except.ok.injEq] at hd
    subst hd; exact Shape.good ⟨xs, rfl⟩

theorem shape_forward {p : GenParams} (h : p.cal.Ok) {s e : Int} {d : List Int × List Int}
    (hd : generateForward p s e = .ok d) : Shape (userDate p s) (userDate p e) d := by
  obtain ⟨_, _, _, mid, rfl, _⟩ := generateForward_ok_iff h hd
  exact ⟨mid, rfl⟩

theorem shape_backward {p : GenParams} (h : p.cal.Ok) {s e : Int} {d : List Int × List Int}
    (hd : generateBackward p s e = .ok d) : Shape (userDate p s) (userDate p e) d := by
  obtain ⟨_, _, _, mid, rfl, _⟩ := generateBackward_ok_iff h hd
  exact ⟨mid.reverse, rfl⟩

theorem good_noDates {a : ScheduleArgs} (h : a.cal.Ok) {d : List Int × List Int}
    (hd : scheduleNoDates a = .ok d) :
    Good (userDate a.toGenParams a.startDate) (userDate a.toGenParams a.endDate) d := by
  unfold scheduleNoDates at hd
  simp only [bind_ok] at hd
  obtain ⟨st, _, hd⟩ := hd
  split at hd
  · rw [bind_ok] at hd
    obtain ⟨d0, hb, hd⟩ := hd
    split at hd
    · exact (shape_backward h hb).mergeFirst hd
    · cases hd; exact (shape_backward h hb).good
  · split at hd
    · rw [bind_ok] at hd
      obtain ⟨d0, hb, hd⟩ := hd
      split at hd
      · exact (shape_forward h hb).mergeLast hd
      · cases hd; exact (shape_forward h hb).good
    · cases hd

theorem good_step3 {a : ScheduleArgs} (h : a.cal.Ok) (hu : a.rollUser = false) {fs ls : Stub} {dirs : List Bool}
    {bwd fwd d : List Int × List Int}
    (hb : generateBackward a.toGenParams a.startDate a.endDate = .ok bwd)
    (hf : generateForward a.toGenParams a.startDate a.endDate = .ok fwd)
    (hd : scheduleStep3 a fs ls dirs bwd fwd = .ok d) : Good a.startDate a.endDate d := by
  have us : ∀ x, userDate a.toGenParams x = x := fun x => by simp [userDate, hu]
  have sb := shape_backward h hb
  have sf := shape_forward h hf
  rw [us, us] at sb sf
  unfold scheduleStep3 at hd
  split at hd
  · simp only [bind_ok] at hd
    obtain ⟨fpe, _, lps, _, d0, h0, hd⟩ := hd
    obtain ⟨mid, rfl⟩ := shape_backward h h0
    cases hd
    rw [us, us]
    exact Shape.good ⟨fpe :: (mid ++ [lps]), by simp⟩
  · split at hd
    · simp only [bind_ok] at hd
      obtain ⟨fpe, _, d0, h0, hd⟩ := hd
      obtain ⟨mid, rfl⟩ := shape_forward h h0
      rw [us, us] at hd
      have sh : Shape a.startDate a.endDate ([a.startDate] ++ (fpe :: mid), [fpe] ++ (mid ++ [a.endDate])) :=
        ⟨fpe :: mid, by simp⟩
      split at hd
      · exact sh.mergeLast hd
      · cases hd; exact sh.good
    · split at hd
      · simp only [bind_ok] at hd
        obtain ⟨lps, _, d0, h0, hd⟩ := hd
        obtain ⟨mid, rfl⟩ := shape_backward h h0
        rw [us, us] at hd
        have sh : Shape a.startDate a.endDate ((a.startDate :: mid) ++ [lps], (mid ++ [lps]) ++ [a.endDate]) :=
          ⟨mid ++ [lps], by simp⟩
        split at hd
        · exact sh.mergeFirst hd
        · cases hd; exact sh.good
      · simp only [bind_ok] at hd
        obtain ⟨_, _, hd⟩ := hd
        split at hd
        · split at hd
          · exact sf.mergeLast hd
          · cases hd; exact sf.good
        · split at hd
          · split at hd
            · exact sb.mergeFirst hd
            · cases hd; exact sb.good
          · cases hd

theorem good_withDates {a : ScheduleArgs} (h : a.cal.Ok) (hu : a.rollUser = false) {d : List Int × List Int}
    (hd : scheduleWithDates a = .ok d) : Good a.startDate a.endDate d := by
  unfold scheduleWithDates at hd
  simp only [bind_ok] at hd
  obtain ⟨bwd, hb, fwd, hf, _, _, _, _, _, _, _, _, hd⟩ := hd
  exact good_step3 h hu hb hf hd

end Frm

namespace Frm.Props
open Spec

/-- Whenever `make_schedule` returns with `roll_user_specified_dates=False`, its periods tile `[start, end]`: for
every frequency, calendar, roll, day roll, stub combination and explicit stub dates. -/
theorem C12_tiles {a : ScheduleArgs} (h : a.cal.Ok) (hu : a.rollUser = false) {ps : List (Int × Int)}
    (hps : makeSchedule a = .ok ps) : Tiles a.startDate a.endDate ps := by
  unfold makeSchedule at hps
  simp only [bind_ok] at hps
  obtain ⟨_, _, d, hd, hps⟩ := hps
  unfold scheduleColumns at hd
  split at hd
  · cases hd; exact Shape.good ⟨[], rfl⟩ ps hps
  · split at hd
    · have us : ∀ x, userDate a.toGenParams x = x := fun x => by simp [userDate, hu]
      have := good_noDates h hd ps hps
      rwa [us, us] at this
    · split at hd
      · rename_i heq
        cases hd
        subst heq
        exact Shape.good ⟨[_], rfl⟩ ps hps
      · exact good_withDates h hu hd ps hps
    · exact good_withDates h hu hd ps hps

/-- With `roll_user_specified_dates=True` and no explicit stub dates the rows tile between the rolled start and the
rolled end. -/
theorem C12_tiles_rolled {a : ScheduleArgs} (h : a.cal.Ok) (hu : a.rollUser = true) (hf : a.freq ≠ .zeroCoupon)
    (h1 : a.firstPeriodEnd = none) (h2 : a.lastPeriodStart = none) {ps : List (Int × Int)}
    (hps : makeSchedule a = .ok ps) :
    ∃ s e, RollsTo a.cal a.rollConv a.startDate s ∧ RollsTo a.cal a.rollConv a.endDate e ∧ Tiles s e ps := by
  unfold makeSchedule at hps
  simp only [bind_ok] at hps
  obtain ⟨_, _, d, hd, hps⟩ := hps
  unfold scheduleColumns at hd
  rw [if_neg (by simp [hf, h1, h2]), h1, h2] at hd
  simp only at hd
  have ht := good_noDates h hd ps hps
  have us : ∀ x, userDate a.toGenParams x = rollFn a.cal a.rollConv x := fun x => by simp [userDate, hu]
  rw [us, us] at ht
  have hr : a.rollConv ≠ .unadjusted := by
    intro hr
    unfold scheduleNoDates at hd
    simp only [bind_ok] at hd
    obtain ⟨st, _, hd⟩ := hd
    obtain ⟨⟨x, hx⟩, ⟨y, hy⟩⟩ := generate_fails (p := a.toGenParams) (s := a.startDate) (e := a.endDate)
      (Or.inr (Or.inr hr))
    split at hd
    · rw [hy] at hd; cases hd
    · split at hd
      · rw [hx] at hd; cases hd
      · cases hd
  exact ⟨_, _, (rollsTo_rollFn h hr _ _).mpr rfl, (rollsTo_rollFn h hr _ _).mpr rfl, ht⟩

/-- A quarterly schedule over ten months on the sample calendar, with one stub date. -/
def sampleArgs : ScheduleArgs :=
  { freq := .quarterly, rollConv := .modifiedFollowing, dayRoll := .unadjusted, rollUser := false,
    cal := weekdaysXmas, startDate := mkDate 2024 1 10, endDate := mkDate 2024 12 10,
    firstPeriodEnd := some (mkDate 2024 2 17), lastPeriodStart := none, firstStub := .default,
    lastStub := .default }

/-- Rolling user dates together with an off-grid `first_period_end` breaks contiguity: the first period ends on
Saturday 17 February, the second starts on Monday 19 February. -/
theorem C12_rolled_stub_gap :
    ∃ ps, makeSchedule { sampleArgs with rollUser := true } = .ok ps ∧
      ps[0]? = some (mkDate 2024 1 10, mkDate 2024 2 17) ∧ ps[1]? = some (mkDate 2024 2 19, mkDate 2024 5 17) := by
  refine ⟨[(mkDate 2024 1 10, mkDate 2024 2 17), (mkDate 2024 2 19, mkDate 2024 5 17),
    (mkDate 2024 5 17, mkDate 2024 8 19), (mkDate 2024 8 19, mkDate 2024 11 18),
    (mkDate 2024 11 18, mkDate 2024 12 10)], by decide +kernel, rfl, rfl⟩

example : returns (makeSchedule sampleArgs) :=
  ⟨[(mkDate 2024 1 10, mkDate 2024 2 17), (mkDate 2024 2 17, mkDate 2024 5 17),
    (mkDate 2024 5 17, mkDate 2024 8 19), (mkDate 2024 8 19, mkDate 2024 11 18),
    (mkDate 2024 11 18, mkDate 2024 12 10)], by decide +kernel⟩
example : returns (makeSchedule { sampleArgs with firstPeriodEnd := none, rollUser := true }) :=
  ⟨[(mkDate 2024 1 10, mkDate 2024 3 11), (mkDate 2024 3 11, mkDate 2024 6 10),
    (mkDate 2024 6 10, mkDate 2024 9 10), (mkDate 2024 9 10, mkDate 2024 12 10)], by decide +kernel⟩

end Frm.Props
