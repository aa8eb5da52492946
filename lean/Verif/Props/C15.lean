import Verif.Proofs.ScheduleBuilt
import Verif.Props.C14

/-! # C15 — Stub selection -/

namespace Frm.Spec

/-- The first two periods replaced by their union (needs two periods). -/
def mergeFirstTwo : List (Int × Int) → Option (List (Int × Int))
  | p :: q :: rest => some ((p.1, q.2) :: rest)
  | _ => none

/-- The last two periods replaced by their union (needs two periods). -/
def mergeLastTwo : List (Int × Int) → Option (List (Int × Int))
  | [p, q] => some [(p.1, q.2)]
  | p :: q :: r :: rest => (mergeLastTwo (q :: r :: rest)).map (p :: ·)
  | _ => none

end Frm.Spec

namespace Frm
open Spec

theorem mergeFirstTwo_periodsOf (s e x : Int) (m : List Int) :
    mergeFirstTwo (periodsOf s e (x :: m)) = some (periodsOf s e m) := by
  cases m <;> rfl

theorem mergeLastTwo_periodsOf (s e x : Int) (m : List Int) :
    mergeLastTwo (periodsOf s e (m ++ [x])) = some (periodsOf s e m) := by
  induction m generalizing s with
  | nil => rfl
  | cons y ys ih =>
    have := ih y
    cases ys with
    | nil => rfl
    | cons z zs =>
      simp only [List.cons_append, periodsOf] at this ⊢
      cases hz : periodsOf z e (zs ++ [x]) with
      | nil => cases zs <;> simp [periodsOf] at hz
      | cons w ws =>
        rw [hz] at this
        simp only [mergeLastTwo, this, Option.map_some]

theorem pyGet_ok {l : List Int} {i : Nat} {x : Int} : pyGet l i = .ok x ↔ l[i]? = some x := by
  unfold pyGet; cases l[i]? <;> simp

theorem pyGetNeg_snoc (l : List Int) (x : Int) : pyGetNeg (l ++ [x]) 1 = .ok x := by
  simp [pyGetNeg, pyGet]

theorem pyGetNeg_append (l : List Int) (x : Int) {k : Nat} (hk : 0 < k) :
    pyGetNeg (l ++ [x]) (k + 1) = pyGetNeg l k := by
  unfold pyGetNeg pyGet
  by_cases h : k ≤ l.length
  · rw [if_pos h, if_pos (by simpa using h), List.getElem?_append_left (by simp; omega)]
    simp
  · rw [if_neg h, if_neg (by simpa using h)]

theorem matchFirst_ok {f : Int} {bwd fwd : List Int × List Int} {r : Stub × List Bool}
    (h : matchFirst f bwd fwd = .ok r) :
    (r = (.none, [true]) ∧ fwd.2[0]? = some f) ∨ (r = (.short, [false]) ∧ bwd.2[0]? = some f) ∨
    (r = (.long, [false]) ∧ bwd.2[1]? = some f) ∨
    (r = (.definedPerFirstPeriodEnd, []) ∧ fwd.2[0]? ≠ some f ∧ bwd.2[0]? ≠ some f ∧ bwd.2[1]? ≠ some f) := by
  unfold matchFirst at h
  rw [bind_ok] at h
  obtain ⟨f0, h0, h⟩ := h
  rw [pyGet_ok] at h0
  split at h
  · rename_i e; cases h; exact Or.inl ⟨rfl, by rw [h0, e]⟩
  · rename_i n0
    rw [bind_ok] at h
    obtain ⟨b0, hb0, h⟩ := h
    rw [pyGet_ok] at hb0
    split at h
    · rename_i e; cases h; exact Or.inr (Or.inl ⟨rfl, by rw [hb0, e]⟩)
    · rename_i n1
      rw [bind_ok] at h
      obtain ⟨b1, hb1, h⟩ := h
      rw [pyGet_ok] at hb1
      split at h
      · rename_i e; cases h; exact Or.inr (Or.inr (Or.inl ⟨rfl, by rw [hb1, e]⟩))
      · rename_i n2
        cases h
        refine Or.inr (Or.inr (Or.inr ⟨rfl, ?_, ?_, ?_⟩)) <;> intro hh <;> simp_all

theorem matchLast_ok {l : Int} {bwd fwd : List Int × List Int} {r : Stub × List Bool}
    (h : matchLast l bwd fwd = .ok r) :
    (r = (.none, [false]) ∧ pyGetNeg bwd.1 1 = .ok l) ∨ (r = (.short, [true]) ∧ pyGetNeg fwd.1 1 = .ok l) ∨
    (r = (.long, [true]) ∧ pyGetNeg fwd.1 2 = .ok l) ∨ r = (.definedPerLastPeriodStart, []) := by
  unfold matchLast at h
  rw [bind_ok] at h
  obtain ⟨b1, h0, h⟩ := h
  split at h
  · rename_i e; cases h; exact Or.inl ⟨rfl, by rw [h0, e]⟩
  · rw [bind_ok] at h
    obtain ⟨f1, hf1, h⟩ := h
    split at h
    · rename_i e; cases h; exact Or.inr (Or.inl ⟨rfl, by rw [hf1, e]⟩)
    · rw [bind_ok] at h
      obtain ⟨f2, hf2, h⟩ := h
      split at h
      · rename_i e; cases h; exact Or.inr (Or.inr (Or.inl ⟨rfl, by rw [hf2, e]⟩))
      · cases h; exact Or.inr (Or.inr (Or.inr rfl))

theorem head_periodsOf {s e f : Int} {m : List Int} (h : (m ++ [e])[0]? = some f) :
    (periodsOf s e m).head? = some (s, f) := by
  cases m with
  | nil => simp at h; simp [periodsOf, h]
  | cons x xs => simp at h; simp [periodsOf, h]

theorem last_periodsOf {s e : Int} (m : List Int) :
    ∃ q, (periodsOf s e m).getLast? = some (q, e) ∧ pyGetNeg (s :: m) 1 = .ok q := by
  induction m generalizing s with
  | nil => exact ⟨s, rfl, rfl⟩
  | cons x xs ih =>
    obtain ⟨q, h1, h2⟩ := ih (s := x)
    refine ⟨q, ?_, ?_⟩
    · rw [periodsOf]
      have hne : periodsOf x e xs ≠ [] := by cases xs <;> simp [periodsOf]
      rw [List.getLast?_cons, h1]; rfl
    · rw [← h2]; simp [pyGetNeg, pyGet]

end Frm

namespace Frm.Props
open Spec

/-- The schedule for given stubs and no stub dates. -/
def withStubs (a : ScheduleArgs) (first last : Stub) : ScheduleArgs :=
  { a with firstPeriodEnd := none, lastPeriodStart := none, firstStub := first, lastStub := last }

/-- Without stub dates: a default, explicit short or explicit absent first stub, and an explicit absent last stub,
all give the same grid generated backward from the end date. -/
theorem C15_first_stub_grid (a : ScheduleArgs) :
    makeSchedule (withStubs a .short .default) = makeSchedule (withStubs a .default .default) ∧
    makeSchedule (withStubs a .none .default) = makeSchedule (withStubs a .default .default) ∧
    makeSchedule (withStubs a .default .none) = makeSchedule (withStubs a .default .default) := by
  refine ⟨?_, ?_, ?_⟩ <;>
    simp only [makeSchedule, scheduleColumns, withStubs, scheduleNoDates, resolveStubs, Stub.marketConvention,
      validateSchedule] <;> rfl

/-- A long first stub is the backward grid with its first two periods merged; if there is only one period the call
raises `ValueError`. -/
theorem C15_long_first {a : ScheduleArgs} (h : a.cal.Ok) (hu : a.rollUser = false) (hf : a.freq ≠ .zeroCoupon) :
    makeSchedule (withStubs a .long .default) =
      match makeSchedule (withStubs a .default .default) with
      | .error e => .error e
      | .ok ps => match mergeFirstTwo ps with
        | some qs => .ok qs
        | none => .error .value := by
  have hv : validateSchedule (withStubs a .long .default) = validateSchedule (withStubs a .default .default) := rfl
  have c1 : scheduleColumns (withStubs a .long .default) =
      generateBackward a.toGenParams a.startDate a.endDate >>= mergeFirst := by
    simp only [scheduleColumns, withStubs, scheduleNoDates, resolveStubs, hf]
    simp [bind, Except.bind]
  have c2 : scheduleColumns (withStubs a .default .default) =
      generateBackward a.toGenParams a.startDate a.endDate := by
    simp only [scheduleColumns, withStubs, scheduleNoDates, resolveStubs, hf, Stub.marketConvention]
    simp [bind, Except.bind]
    cases generateBackward a.toGenParams a.startDate a.endDate <;> rfl
  unfold makeSchedule
  rw [hv, c1, c2]
  cases validateSchedule (withStubs a .default .default) with
  | error e => rfl
  | ok u =>
    cases hg : generateBackward a.toGenParams a.startDate a.endDate with
    | error e => rfl
    | ok d =>
      obtain ⟨m, rfl, hm⟩ := bwdMid_of h hu hg
      simp only [bind, Except.bind, periodFrame_shape]
      cases m with
      | nil => rfl
      | cons x xs =>
        rw [mergeFirst_cons, mergeFirstTwo_periodsOf]
        exact periodFrame_shape _ _ _

/-- A long last stub is the forward grid with its last two periods merged; if there is only one period the call
raises `ValueError`. -/
theorem C15_long_last {a : ScheduleArgs} (h : a.cal.Ok) (hu : a.rollUser = false) (hf : a.freq ≠ .zeroCoupon) :
    makeSchedule (withStubs a .default .long) =
      match makeSchedule (withStubs a .default .short) with
      | .error e => .error e
      | .ok ps => match mergeLastTwo ps with
        | some qs => .ok qs
        | none => .error .value := by
  have hv : validateSchedule (withStubs a .default .long) = validateSchedule (withStubs a .default .short) := rfl
  have c1 : scheduleColumns (withStubs a .default .long) =
      generateForward a.toGenParams a.startDate a.endDate >>= mergeLast := by
    simp only [scheduleColumns, withStubs, scheduleNoDates, resolveStubs, hf]
    simp [bind, Except.bind]
  have c2 : scheduleColumns (withStubs a .default .short) =
      generateForward a.toGenParams a.startDate a.endDate := by
    simp only [scheduleColumns, withStubs, scheduleNoDates, resolveStubs, hf]
    simp [bind, Except.bind]
    cases generateForward a.toGenParams a.startDate a.endDate <;> rfl
  unfold makeSchedule
  rw [hv, c1, c2]
  cases validateSchedule (withStubs a .default .short) with
  | error e => rfl
  | ok u =>
    cases hg : generateForward a.toGenParams a.startDate a.endDate with
    | error e => rfl
    | ok d =>
      obtain ⟨m, rfl, hm⟩ := fwdMid_of h hu hg
      simp only [bind, Except.bind, periodFrame_shape]
      rcases List.eq_nil_or_concat m with rfl | ⟨xs, x, rfl⟩
      · rfl
      · rw [List.concat_eq_append, mergeLast_snoc, mergeLastTwo_periodsOf]
        exact periodFrame_shape _ _ _

/-! The full property asks that explicit stub dates *always* appear as boundaries.  That is false of the code when
both are given and only one of them lies on the generated grid (`C15_last_start_lost`, `C15_first_end_lost`); it holds
when one is given (`C15_first_period_end_partial`, `C15_last_period_start_partial`) and when both are given and
`C15_both_dates_partial` applies. -/

/-- An explicit `first_period_end` alone (last stub not long) is the end of the first period of every schedule
returned. -/
theorem C15_first_period_end_partial {a : ScheduleArgs} (h : a.cal.Ok) (hu : a.rollUser = false) {f : Int}
    (hf : a.firstPeriodEnd = some f) (hl : a.lastPeriodStart = none) (hz : a.freq ≠ .zeroCoupon)
    (hlong : a.lastStub ≠ .long) {ps : List (Int × Int)} (hps : makeSchedule a = .ok ps) :
    ps.head? = some (a.startDate, f) := by
  unfold makeSchedule at hps
  simp only [bind_ok] at hps
  obtain ⟨_, hv, d, hd, hp⟩ := hps
  unfold scheduleColumns at hd
  split at hd
  · rename_i hc
    rw [hl] at hc
    have : f = a.endDate := by simpa [hz, hf] using hc
    cases hd; rw [frame_eq (m := []) hp, this]; rfl
  · rw [hf, hl] at hd
    simp only [scheduleWithDates, bind_ok] at hd
    obtain ⟨bwd, hb, fwd, hfw, first, h1, last, h2, fs, h3, ls, h4, hd⟩ := hd
    obtain ⟨mb, rfl, hmb⟩ := bwdMid_of h hu hb
    obtain ⟨mf, rfl, hmf⟩ := fwdMid_of h hu hfw
    rw [hl] at h2
    simp only [stubOfLast, Except.ok.injEq] at h2
    subst h2
    rw [hf] at h1
    simp only [stubOfFirst] at h1
    rcases matchFirst_ok h1 with ⟨rfl, hm⟩ | ⟨rfl, hm⟩ | ⟨rfl, hm⟩ | ⟨rfl, _⟩
    · -- matches the forward grid
      simp only [defaultFirst] at h3
      cases h3
      have hls : ls ≠ .long := by
        unfold defaultLast at h4
        split at h4
        · rename_i hc; simp at h4; subst h4; decide
        · cases h4; exact hlong
      unfold scheduleStep3 at hd
      rw [if_neg (by simp), if_neg (by simp)] at hd
      split at hd
      · simp [hl, needDate, bind, Except.bind] at hd
      · rw [if_pos rfl] at hd; simp only [if_neg hls] at hd
        simp only [bind_ok] at hd
        obtain ⟨_, _, hd⟩ := hd
        cases hd
        rw [frame_eq hp]; exact head_periodsOf hm
    · simp only [defaultFirst] at h3
      cases h3
      unfold scheduleStep3 at hd
      rw [if_neg (by simp), if_neg (by simp)] at hd
      split at hd
      · simp [hl, needDate, bind, Except.bind] at hd
      · rw [if_neg (by simp)] at hd
        simp only [bind_ok] at hd
        obtain ⟨_, _, hd⟩ := hd
        split at hd
        · rw [if_neg (by simp)] at hd
          cases hd
          rw [frame_eq hp]; exact head_periodsOf hm
        · cases hd
    · simp only [defaultFirst] at h3
      cases h3
      unfold scheduleStep3 at hd
      rw [if_neg (by simp), if_neg (by simp)] at hd
      split at hd
      · simp [hl, needDate, bind, Except.bind] at hd
      · rw [if_neg (by simp)] at hd
        simp only [bind_ok] at hd
        obtain ⟨_, _, hd⟩ := hd
        split at hd
        · simp only [if_true] at hd
          obtain ⟨x, m', rfl, rfl⟩ := mergeFirst_shape hd hp
          rw [frame_eq hp]; exact head_periodsOf (by simpa using hm)
        · cases hd
    · simp only [defaultFirst] at h3
      cases h3
      simp only [defaultLast] at h4
      simp at h4
      subst h4
      unfold scheduleStep3 at hd
      split at hd
      · simp [hl, needDate, bind, Except.bind] at hd
        split at hd <;> cases hd
      · simp only [if_true, if_neg hlong, hf] at hd
        simp only [needDate, bind_ok] at hd
        obtain ⟨f', hf', d0, h0, hd⟩ := hd
        cases hf'
        obtain ⟨m, rfl, hm⟩ := fwdMid_of h hu h0
        cases hd
        rw [frame_eq (m := f :: m) hp]; rfl

/-- An explicit `last_period_start` alone (first stub left to its default) is the start of the last period of every
schedule returned. -/
theorem C15_last_period_start_partial {a : ScheduleArgs} (h : a.cal.Ok) (hu : a.rollUser = false) {l : Int}
    (hf : a.firstPeriodEnd = none) (hl : a.lastPeriodStart = some l) (hz : a.freq ≠ .zeroCoupon)
    (hdef : a.firstStub = .default) {ps : List (Int × Int)} (hps : makeSchedule a = .ok ps) :
    ps.getLast? = some (l, a.endDate) := by
  unfold makeSchedule at hps
  simp only [bind_ok] at hps
  obtain ⟨_, hv, d, hd, hp⟩ := hps
  unfold scheduleColumns at hd
  split at hd
  · rename_i hc
    rw [hf] at hc
    have : l = a.startDate := by simpa [hz, hl] using hc
    cases hd; rw [frame_eq (m := []) hp, this]; rfl
  · rw [hf, hl] at hd
    simp only [scheduleWithDates, bind_ok] at hd
    obtain ⟨bwd, hb, fwd, hfw, first, h1, last, h2, fs, h3, ls, h4, hd⟩ := hd
    obtain ⟨mb, rfl, hmb⟩ := bwdMid_of h hu hb
    obtain ⟨mf, rfl, hmf⟩ := fwdMid_of h hu hfw
    rw [hf] at h1
    simp only [stubOfFirst, Except.ok.injEq] at h1
    subst h1
    rw [hl] at h2
    simp only [stubOfLast] at h2
    have lastOf : ∀ {m : List Int}, pyGetNeg (a.startDate :: m) 1 = .ok l →
        (periodsOf a.startDate a.endDate m).getLast? = some (l, a.endDate) := by
      intro m hm
      obtain ⟨q, q1, q2⟩ := last_periodsOf (s := a.startDate) (e := a.endDate) m
      rw [q2, Except.ok.injEq] at hm; rw [q1, hm]
    rw [hdef] at h3
    rcases matchLast_ok h2 with ⟨rfl, hm⟩ | ⟨rfl, hm⟩ | ⟨rfl, hm⟩ | rfl
    · simp [defaultFirst, Stub.marketConvention] at h3
      subst h3
      simp [defaultLast] at h4
      subst h4
      simp [scheduleStep3, bind_ok, pyAssert] at hd
      cases hd
      rw [frame_eq hp]; exact lastOf hm
    · simp [defaultFirst] at h3
      subst h3
      simp [defaultLast] at h4
      subst h4
      simp [scheduleStep3, bind_ok, pyAssert] at hd
      cases hd
      rw [frame_eq hp]; exact lastOf hm
    · simp [defaultFirst] at h3
      subst h3
      simp [defaultLast] at h4
      subst h4
      simp [scheduleStep3, bind_ok, pyAssert] at hd
      obtain ⟨_, hd⟩ := hd
      obtain ⟨x, m', rfl, rfl⟩ := mergeLast_shape hd hp
      rw [frame_eq hp]
      apply lastOf
      rw [← hm]
      exact (pyGetNeg_append (a.startDate :: m') x (by omega)).symm
    · simp [defaultFirst] at h3
      subst h3
      simp [defaultLast] at h4
      subst h4
      unfold scheduleStep3 at hd
      rw [if_neg (by simp), if_neg (by simp), if_pos rfl] at hd
      simp only [bind_ok] at hd
      obtain ⟨l', hl', d0, h0, hd⟩ := hd
      have := needDate_ok hl'
      rw [hl, Option.some.injEq] at this
      subst this
      obtain ⟨m, rfl, hmb⟩ := bwdMid_of h hu h0
      rw [if_neg (by simp)] at hd
      cases hd
      rw [frame_eq (m := m ++ [l]) hp]
      exact lastOf (by rw [← List.cons_append]; exact pyGetNeg_snoc _ _)

/-- Equal explicit dates give exactly the two periods they define. -/
theorem C15_two_periods {a : ScheduleArgs} {f : Int} (hz : a.freq ≠ .zeroCoupon)
    (hf : a.firstPeriodEnd = some f) (hl : a.lastPeriodStart = some f) (h1 : a.startDate < f) (h2 : f < a.endDate) :
    makeSchedule a = .ok [(a.startDate, f), (f, a.endDate)] := by
  have hv : validateSchedule a = .ok () := by
    unfold validateSchedule
    rw [if_neg (by omega), hf, hl]
    simp [h1, h2, Int.le_of_lt h1, Int.le_of_lt h2]
  have hc : scheduleColumns a = .ok ([a.startDate, f], [f, a.endDate]) := by
    unfold scheduleColumns
    rw [hf, hl, if_neg (by simp [hz]; omega)]
    simp
  unfold makeSchedule; rw [hv, hc]; rfl

/-- Both dates given and neither on a generated grid: the schedule is the first period, the grid between the two
dates, and the last period. -/
theorem C15_both_dates_partial {a : ScheduleArgs} (h : a.cal.Ok) (hu : a.rollUser = false) {f l : Int}
    (hf : a.firstPeriodEnd = some f) (hl : a.lastPeriodStart = some l) (hz : a.freq ≠ .zeroCoupon)
    (hfl : f ≠ l) (hfe : f ≠ a.endDate) (hls : l ≠ a.startDate)
    (hoffF : ∀ mid rev, ForwardGrid a.toGenParams a.startDate a.endDate mid →
      BackwardGrid a.toGenParams a.startDate a.endDate rev → f ∉ mid ∧ f ∉ rev)
    (hoffL : ∀ mid rev, ForwardGrid a.toGenParams a.startDate a.endDate mid →
      BackwardGrid a.toGenParams a.startDate a.endDate rev → l ∉ mid ∧ l ∉ rev)
    {ps : List (Int × Int)} (hps : makeSchedule a = .ok ps) :
    ∃ rev, BackwardGrid a.toGenParams f l rev ∧
      ps = (a.startDate, f) :: (periodsOf f l rev.reverse ++ [(l, a.endDate)]) := by
  unfold makeSchedule at hps
  simp only [bind_ok] at hps
  obtain ⟨_, hv, d, hd, hp⟩ := hps
  obtain ⟨v1, v2, v3⟩ := validate_ok hv
  unfold scheduleColumns at hd
  rw [hf, hl] at hd
  rw [if_neg (by simp [hz, hfe, hls])] at hd
  simp only [hfl, if_false] at hd
  simp only [scheduleWithDates, bind_ok] at hd
  obtain ⟨bwd, hb, fwd, hfw, first, h1, last, h2, fs, h3, ls, h4, hd⟩ := hd
  obtain ⟨mb, rfl, hmb⟩ := bwdMid_of h hu hb
  obtain ⟨mf, rfl, hmf⟩ := fwdMid_of h hu hfw
  have gf := (forwardGrid_iff h hmf.2.2.1 _ _ _).mp hmf.2.2.2
  have gb := (backwardGrid_iff h hmb.2.2.1 _ _ _).mp hmb.2.2.2
  obtain ⟨f1, f2⟩ := hoffF _ _ gf gb
  obtain ⟨l1, l2⟩ := hoffL _ _ gf gb
  rw [List.mem_reverse] at f2 l2
  rw [hf] at h1; rw [hl] at h2
  simp only [stubOfFirst] at h1
  simp only [stubOfLast] at h2
  have notF : ∀ {m : List Int} {i : Nat}, f ∉ m → (m ++ [a.endDate])[i]? ≠ some f := by
    intro m i hm hh
    have := List.mem_of_getElem? hh
    simp only [List.mem_append, List.mem_singleton] at this
    exact this.elim hm hfe
  have notL : ∀ {m : List Int} {k : Nat}, l ∉ m → pyGetNeg (a.startDate :: m) k ≠ .ok l := by
    intro m k hm hh
    unfold pyGetNeg at hh
    split at hh
    · rw [pyGet_ok] at hh
      have := List.mem_of_getElem? hh
      simp only [List.mem_cons] at this
      exact this.elim hls hm
    · cases hh
  rcases matchFirst_ok h1 with ⟨_, hm⟩ | ⟨_, hm⟩ | ⟨_, hm⟩ | ⟨rfl, _⟩
  · exact absurd hm (notF f1)
  · exact absurd hm (notF f2)
  · exact absurd hm (notF f2)
  rcases matchLast_ok h2 with ⟨_, hm⟩ | ⟨_, hm⟩ | ⟨_, hm⟩ | rfl
  · exact absurd hm (notL l2)
  · exact absurd hm (notL l1)
  · exact absurd hm (notL l1)
  simp [defaultFirst] at h3
  subst h3
  simp [defaultLast] at h4
  subst h4
  unfold scheduleStep3 at hd
  rw [if_pos ⟨rfl, rfl⟩, hf, hl] at hd
  simp only [bind_ok] at hd
  obtain ⟨f', hf', l', hl', d0, h0, hd⟩ := hd
  cases hf'; cases hl'
  obtain ⟨m, rfl, hm⟩ := bwdMid_of h hu h0
  cases hd
  refine ⟨m.reverse, (backwardGrid_iff h hm.2.2.1 _ _ _).mp hm.2.2.2, ?_⟩
  rw [List.reverse_reverse]
  have e1 : ps = periodsOf a.startDate a.endDate (f :: (m ++ [l])) := by
    apply frame_eq; rw [← hp]; simp
  rw [e1, periodsOf, List.cons.injEq]
  refine ⟨rfl, ?_⟩
  clear e1 hp h0 hm
  have : ∀ s, periodsOf s a.endDate (m ++ [l]) = periodsOf s l m ++ [(l, a.endDate)] := by
    induction m with
    | nil => intro s; rfl
    | cons x xs ih => intro s; simp only [List.cons_append, periodsOf, ih x]
  exact this f

/-- Refutation: with an off-grid `first_period_end` an on-grid `last_period_start` (10 September) is ignored — the
schedule is generated forward from the first date and has no boundary there. -/
theorem C15_last_start_lost :
    ∃ ps, makeSchedule { sampleArgs with lastPeriodStart := some (mkDate 2024 9 10) } = .ok ps ∧
      mkDate 2024 9 10 ∉ boundaries ps :=
  ⟨[(mkDate 2024 1 10, mkDate 2024 2 17), (mkDate 2024 2 17, mkDate 2024 5 17),
    (mkDate 2024 5 17, mkDate 2024 8 19), (mkDate 2024 8 19, mkDate 2024 11 18),
    (mkDate 2024 11 18, mkDate 2024 12 10)], by decide +kernel, by decide +kernel⟩

/-- Refutation: with an off-grid `last_period_start` an on-grid `first_period_end` (10 April, a forward grid date) is
ignored. -/
theorem C15_first_end_lost :
    ∃ ps, makeSchedule { sampleArgs with firstPeriodEnd := some (mkDate 2024 4 10), lastPeriodStart := some (mkDate 2024 9 18) } = .ok ps ∧
      mkDate 2024 4 10 ∉ boundaries ps :=
  ⟨[(mkDate 2024 1 10, mkDate 2024 3 18), (mkDate 2024 3 18, mkDate 2024 6 18),
    (mkDate 2024 6 18, mkDate 2024 9 18), (mkDate 2024 9 18, mkDate 2024 12 10)], by decide +kernel, by decide +kernel⟩

/-- Refutation: an off-grid `first_period_end` followed by a single period is merged away by a long last stub. -/
theorem C15_first_end_merged :
    makeSchedule { sampleArgs with firstPeriodEnd := some (mkDate 2024 11 1), lastStub := .long } =
      .ok [(mkDate 2024 1 10, mkDate 2024 12 10)] := by decide +kernel

/-! Samples: a long first stub on a backward grid, a long last stub on a forward grid, off-grid dates at both ends. -/
example : makeSchedule (withStubs sampleArgs .default .default) =
    .ok [(mkDate 2024 1 10, mkDate 2024 3 11), (mkDate 2024 3 11, mkDate 2024 6 10),
      (mkDate 2024 6 10, mkDate 2024 9 10), (mkDate 2024 9 10, mkDate 2024 12 10)] := by decide +kernel
example : makeSchedule (withStubs sampleArgs .long .default) =
    .ok [(mkDate 2024 1 10, mkDate 2024 6 10), (mkDate 2024 6 10, mkDate 2024 9 10),
      (mkDate 2024 9 10, mkDate 2024 12 10)] := by decide +kernel
example : makeSchedule (withStubs sampleArgs .default .long) =
    .ok [(mkDate 2024 1 10, mkDate 2024 4 10), (mkDate 2024 4 10, mkDate 2024 7 10),
      (mkDate 2024 7 10, mkDate 2024 12 10)] := by decide +kernel
example : makeSchedule { sampleArgs with lastPeriodStart := some (mkDate 2024 9 18) } =
    .ok [(mkDate 2024 1 10, mkDate 2024 2 17), (mkDate 2024 2 17, mkDate 2024 3 18),
      (mkDate 2024 3 18, mkDate 2024 6 18), (mkDate 2024 6 18, mkDate 2024 9 18),
      (mkDate 2024 9 18, mkDate 2024 12 10)] := by decide +kernel

end Frm.Props
