import Verif.Proofs.Schedule

namespace Frm
open Spec

/-- Interior dates of a forward / backward generation between `s` and `e`. -/
def FwdMid (p : GenParams) (s e : Int) (m : List Int) : Prop :=
  s < e ∧ p.freq ≠ .zeroCoupon ∧ p.rollConv ≠ .unadjusted ∧
  Interior (fun k => gridFn p s k) (fun c => decide (c < e)) m
def BwdMid (p : GenParams) (s e : Int) (m : List Int) : Prop :=
  s < e ∧ p.freq ≠ .zeroCoupon ∧ p.rollConv ≠ .unadjusted ∧
  Interior (fun k => gridFn p e (-(k : Int))) (fun c => decide (c > s)) m.reverse

/-- Where the boundaries of a schedule come from. -/
inductive Built (a : ScheduleArgs) : List Int → Prop where
  | one : Built a []
  | two (f : Int) : a.firstPeriodEnd = some f → a.lastPeriodStart = some f → Built a [f]
  | fwd {m mid : List Int} : FwdMid a.toGenParams a.startDate a.endDate m → mid.Sublist m → Built a mid
  | bwd {m mid : List Int} : BwdMid a.toGenParams a.startDate a.endDate m → mid.Sublist m → Built a mid
  | both {f l : Int} {m : List Int} : a.firstPeriodEnd = some f → a.lastPeriodStart = some l →
      BwdMid a.toGenParams f l m → Built a (f :: (m ++ [l]))
  | first {f : Int} {m mid : List Int} : a.firstPeriodEnd = some f → FwdMid a.toGenParams f a.endDate m →
      mid.Sublist (f :: m) → Built a mid
  | last {l : Int} {m mid : List Int} : a.lastPeriodStart = some l → BwdMid a.toGenParams a.startDate l m →
      mid.Sublist (m ++ [l]) → Built a mid

theorem fwdMid_of {p : GenParams} (h : p.cal.Ok) (hu : p.rollUser = false) {s e : Int} {d : List Int × List Int}
    (hd : generateForward p s e = .ok d) : ∃ m, d = (s :: m, m ++ [e]) ∧ FwdMid p s e m := by
  obtain ⟨h1, h2, h3, m, hm, hi⟩ := generateForward_ok_iff h hd
  have us : ∀ x, userDate p x = x := fun x => by simp [userDate, hu]
  rw [us, us] at hm
  exact ⟨m, hm, h1, h2, h3, hi⟩

theorem bwdMid_of {p : GenParams} (h : p.cal.Ok) (hu : p.rollUser = false) {s e : Int} {d : List Int × List Int}
    (hd : generateBackward p s e = .ok d) : ∃ m, d = (s :: m, m ++ [e]) ∧ BwdMid p s e m := by
  obtain ⟨h1, h2, h3, m, hm, hi⟩ := generateBackward_ok_iff h hd
  have us : ∀ x, userDate p x = x := fun x => by simp [userDate, hu]
  rw [us, us] at hm
  exact ⟨m.reverse, hm, h1, h2, h3, by rw [List.reverse_reverse]; exact hi⟩

theorem mergeFirst_shape {s e : Int} {m : List Int} {d : List Int × List Int} {ps : List (Int × Int)}
    (hd : mergeFirst (s :: m, m ++ [e]) = .ok d) (hp : periodFrame d = .ok ps) :
    ∃ x m', m = x :: m' ∧ d = (s :: m', m' ++ [e]) := by
  cases m with
  | nil =>
    rw [List.nil_append, mergeFirst_nil, Except.ok.injEq] at hd
    subst hd; simp [periodFrame] at hp
  | cons x xs =>
    rw [mergeFirst_cons, Except.ok.injEq] at hd
    exact ⟨x, xs, rfl, hd.symm⟩

theorem mergeLast_shape {s e : Int} {m : List Int} {d : List Int × List Int} {ps : List (Int × Int)}
    (hd : mergeLast (s :: m, m ++ [e]) = .ok d) (hp : periodFrame d = .ok ps) :
    ∃ x m', m = m' ++ [x] ∧ d = (s :: m', m' ++ [e]) := by
  rcases List.eq_nil_or_concat m with rfl | ⟨xs, x, rfl⟩
  · rw [List.nil_append, mergeLast_nil, Except.ok.injEq] at hd
    subst hd; simp [periodFrame] at hp
  · rw [List.concat_eq_append] at hd ⊢
    rw [mergeLast_snoc, Except.ok.injEq] at hd
    exact ⟨x, xs, rfl, hd.symm⟩

theorem frame_eq {s e : Int} {m : List Int} {ps : List (Int × Int)}
    (hp : periodFrame (s :: m, m ++ [e]) = .ok ps) : ps = periodsOf s e m := by
  rw [periodFrame_shape, Except.ok.injEq] at hp; exact hp.symm

theorem built_noDates {a : ScheduleArgs} (h : a.cal.Ok) (hu : a.rollUser = false) {d : List Int × List Int}
    {ps : List (Int × Int)} (hd : scheduleNoDates a = .ok d) (hp : periodFrame d = .ok ps) :
    ∃ mid, ps = periodsOf a.startDate a.endDate mid ∧ Built a mid := by
  unfold scheduleNoDates at hd
  simp only [bind_ok] at hd
  obtain ⟨st, _, hd⟩ := hd
  split at hd
  · rw [bind_ok] at hd
    obtain ⟨d0, hb, hd⟩ := hd
    obtain ⟨m, rfl, hm⟩ := bwdMid_of h hu hb
    split at hd
    · obtain ⟨x, m', rfl, rfl⟩ := mergeFirst_shape hd hp
      exact ⟨m', frame_eq hp, .bwd hm (List.sublist_cons_self _ _)⟩
    · cases hd; exact ⟨m, frame_eq hp, .bwd hm (List.Sublist.refl _)⟩
  · split at hd
    · rw [bind_ok] at hd
      obtain ⟨d0, hb, hd⟩ := hd
      obtain ⟨m, rfl, hm⟩ := fwdMid_of h hu hb
      split at hd
      · obtain ⟨x, m', rfl, rfl⟩ := mergeLast_shape hd hp
        exact ⟨m', frame_eq hp, .fwd hm (List.sublist_append_left _ _)⟩
      · cases hd; exact ⟨m, frame_eq hp, .fwd hm (List.Sublist.refl _)⟩
    · cases hd

theorem needDate_ok {d : Option Int} {x : Int} (h : needDate d = .ok x) : d = some x := by
  cases d with
  | none => cases h
  | some y => simp only [needDate, Except.ok.injEq] at h; rw [h]

theorem built_step3 {a : ScheduleArgs} (h : a.cal.Ok) (hu : a.rollUser = false) {fs ls : Stub} {dirs : List Bool}
    {bwd fwd d : List Int × List Int} {ps : List (Int × Int)}
    (hb : generateBackward a.toGenParams a.startDate a.endDate = .ok bwd)
    (hf : generateForward a.toGenParams a.startDate a.endDate = .ok fwd)
    (hd : scheduleStep3 a fs ls dirs bwd fwd = .ok d) (hp : periodFrame d = .ok ps) :
    ∃ mid, ps = periodsOf a.startDate a.endDate mid ∧ Built a mid := by
  obtain ⟨mb, rfl, hmb⟩ := bwdMid_of h hu hb
  obtain ⟨mf, rfl, hmf⟩ := fwdMid_of h hu hf
  unfold scheduleStep3 at hd
  split at hd
  · simp only [bind_ok] at hd
    obtain ⟨fpe, hfpe, lps, hlps, d0, h0, hd⟩ := hd
    obtain ⟨m, rfl, hm⟩ := bwdMid_of h hu h0
    cases hd
    refine ⟨fpe :: (m ++ [lps]), ?_, .both (needDate_ok hfpe) (needDate_ok hlps) hm⟩
    apply frame_eq
    rw [← hp]; simp
  · split at hd
    · simp only [bind_ok] at hd
      obtain ⟨fpe, hfpe, d0, h0, hd⟩ := hd
      obtain ⟨m, rfl, hm⟩ := fwdMid_of h hu h0
      simp only [List.cons_append, List.nil_append] at hd
      split at hd
      · obtain ⟨x, m', he, rfl⟩ := mergeLast_shape (m := fpe :: m) hd hp
        exact ⟨m', frame_eq hp, .first (needDate_ok hfpe) hm (he ▸ List.sublist_append_left _ _)⟩
      · cases hd
        exact ⟨fpe :: m, frame_eq hp, .first (needDate_ok hfpe) hm (List.Sublist.refl _)⟩
    · split at hd
      · simp only [bind_ok] at hd
        obtain ⟨lps, hlps, d0, h0, hd⟩ := hd
        obtain ⟨m, rfl, hm⟩ := bwdMid_of h hu h0
        simp only [List.cons_append] at hd
        split at hd
        · obtain ⟨x, m', he, rfl⟩ := mergeFirst_shape (m := m ++ [lps]) hd hp
          exact ⟨m', frame_eq hp, .last (needDate_ok hlps) hm (he ▸ List.sublist_cons_self _ _)⟩
        · cases hd
          exact ⟨m ++ [lps], frame_eq hp, .last (needDate_ok hlps) hm (List.Sublist.refl _)⟩
      · simp only [bind_ok] at hd
        obtain ⟨_, _, hd⟩ := hd
        split at hd
        · split at hd
          · obtain ⟨x, m', rfl, rfl⟩ := mergeLast_shape hd hp
            exact ⟨m', frame_eq hp, .fwd hmf (List.sublist_append_left _ _)⟩
          · cases hd; exact ⟨mf, frame_eq hp, .fwd hmf (List.Sublist.refl _)⟩
        · split at hd
          · split at hd
            · obtain ⟨x, m', rfl, rfl⟩ := mergeFirst_shape hd hp
              exact ⟨m', frame_eq hp, .bwd hmb (List.sublist_cons_self _ _)⟩
            · cases hd; exact ⟨mb, frame_eq hp, .bwd hmb (List.Sublist.refl _)⟩
          · cases hd

theorem built_withDates {a : ScheduleArgs} (h : a.cal.Ok) (hu : a.rollUser = false) {d : List Int × List Int}
    {ps : List (Int × Int)} (hd : scheduleWithDates a = .ok d) (hp : periodFrame d = .ok ps) :
    ∃ mid, ps = periodsOf a.startDate a.endDate mid ∧ Built a mid := by
  unfold scheduleWithDates at hd
  simp only [bind_ok] at hd
  obtain ⟨bwd, hb, fwd, hf, _, _, _, _, _, _, _, _, hd⟩ := hd
  exact built_step3 h hu hb hf hd hp

theorem validate_ok {a : ScheduleArgs} {u : Unit} (h : validateSchedule a = .ok u) :
    a.startDate < a.endDate ∧ (∀ f, a.firstPeriodEnd = some f → a.startDate < f ∧ f ≤ a.endDate) ∧
      (∀ l, a.lastPeriodStart = some l → a.startDate ≤ l ∧ l < a.endDate) := by
  unfold validateSchedule at h
  split at h
  · cases h
  · split at h
    · cases h
    · split at h
      · cases h
      · rename_i h1 h2 h3
        refine ⟨by omega, ?_, ?_⟩
        · intro f hf; rw [hf] at h2; simp at h2; omega
        · intro l hl; rw [hl] at h3; simp at h3; omega

/-- Every returned schedule has the start, a list of interior dates of known origin, and the end. -/
theorem built_of_ok {a : ScheduleArgs} (h : a.cal.Ok) (hu : a.rollUser = false) {ps : List (Int × Int)}
    (hps : makeSchedule a = .ok ps) :
    validateSchedule a = .ok () ∧ ∃ mid, ps = periodsOf a.startDate a.endDate mid ∧ Built a mid := by
  unfold makeSchedule at hps
  simp only [bind_ok] at hps
  obtain ⟨_, hv, d, hd, hps⟩ := hps
  refine ⟨hv, ?_⟩
  unfold scheduleColumns at hd
  split at hd
  · cases hd; exact ⟨[], frame_eq hps, .one⟩
  · split at hd
    · exact built_noDates h hu hd hps
    · split at hd
      · rename_i f l h1 h2 heq
        cases hd
        subst heq
        exact ⟨[f], frame_eq (m := [f]) hps, .two f h1 h2⟩
      · exact built_withDates h hu hd hps
    · exact built_withDates h hu hd hps

/-! ## Order of the interior dates -/

theorem interior_mem {g : Nat → Int} {go : Int → Bool} {m : List Int} (hi : Interior g go m) {x : Int} (hx : x ∈ m) :
    ∃ k : Nat, x = g (k + 1) ∧ go x = true := by
  obtain ⟨h1, h2, _⟩ := hi
  rw [h1] at hx
  simp only [List.mem_map, List.mem_range] at hx
  obtain ⟨k, hk, rfl⟩ := hx
  exact ⟨k, rfl, h2 k hk⟩

theorem interior_pairwise {R : Int → Int → Prop} {g : Nat → Int} {go : Int → Bool} {m : List Int}
    (hi : Interior g go m) (hR : ∀ i j : Nat, i < j → R (g (i + 1)) (g (j + 1))) : m.Pairwise R := by
  rw [hi.1, List.pairwise_map]
  exact List.pairwise_lt_range.imp (fun h => hR _ _ h)

theorem mem_periodsOf {R : Int → Int → Prop} {s e : Int} {m : List Int} (h : (s :: (m ++ [e])).Pairwise R)
    {p : Int × Int} (hp : p ∈ periodsOf s e m) : R p.1 p.2 := by
  induction m generalizing s with
  | nil =>
    simp only [periodsOf, List.mem_singleton] at hp
    subst hp; simpa using h
  | cons x xs ih =>
    simp only [periodsOf, List.mem_cons] at hp
    rw [List.cons_append, List.pairwise_cons] at h
    rcases hp with rfl | hp
    · exact h.1 x (by simp)
    · exact ih h.2 hp

theorem mem_periodsOf_dates {s e : Int} {m : List Int} {p : Int × Int} (hp : p ∈ periodsOf s e m) :
    (p.1 = s ∨ p.1 ∈ m) ∧ (p.2 = e ∨ p.2 ∈ m) := by
  induction m generalizing s with
  | nil =>
    simp only [periodsOf, List.mem_singleton] at hp
    subst hp; simp
  | cons x xs ih =>
    simp only [periodsOf, List.mem_cons] at hp
    rcases hp with rfl | hp
    · simp
    · obtain ⟨h1, h2⟩ := ih hp
      constructor
      · rcases h1 with h1 | h1 <;> simp [h1]
      · rcases h2 with h2 | h2 <;> simp [h2]

theorem pairwise_ends {R : Int → Int → Prop} {s e : Int} {m : List Int} (hse : R s e) (h1 : ∀ x ∈ m, R s x)
    (h2 : ∀ x ∈ m, R x e) (hm : m.Pairwise R) : (s :: (m ++ [e])).Pairwise R := by
  rw [List.pairwise_cons]
  constructor
  · intro x hx
    simp only [List.mem_append, List.mem_singleton] at hx
    rcases hx with hx | rfl
    · exact h1 x hx
    · exact hse
  · rw [List.pairwise_append]
    exact ⟨hm, by simp, by intro x hx y hy; simp only [List.mem_singleton] at hy; subst hy; exact h2 x hx⟩

end Frm
