import Mathlib.Data.List.Forall2
import Verif.Spec.Calendar

namespace Frm
theorem weekmaskOf_aux (l : List (Fin 7)) (mask : Fin 7 → Bool) (x : Fin 7) :
    l.foldl (fun mask w => fun x => if x = w then false else mask x) mask x = (mask x && !l.contains x) := by
  induction l generalizing mask with
  | nil => simp
  | cons w ws ih =>
    rw [List.foldl_cons, ih]
    by_cases h : x = w
    · subst h; simp
    · have : (x == w) = false := by simp [h]
      simp [h]

theorem weekmaskOf_eq (l : List (Fin 7)) (x : Fin 7) : weekmaskOf l x = !l.contains x := by
  unfold weekmaskOf; rw [weekmaskOf_aux]; simp

theorem foldl_weekend (objs : List HolidayObj) (acc : List (Fin 7)) :
    objs.foldl (fun x y => x ++ y.weekend) acc = acc ++ objs.flatMap (fun o => o.weekend) := by
  induction objs generalizing acc with
  | nil => simp
  | cons o os ih => rw [List.foldl_cons, ih]; simp

theorem mapM_ok {α β : Type} {f : α → Except Err β} :
    ∀ {l : List α} {r : List β}, l.mapM f = .ok r ↔ List.Forall₂ (fun a b => f a = .ok b) l r := by
  intro l
  induction l with
  | nil =>
    intro r
    simp only [List.mapM_nil]
    constructor
    · intro h
      have : r = [] := by cases h; rfl
      subst this; exact .nil
    · intro h; cases h; rfl
  | cons a as ih =>
    intro r
    rw [List.mapM_cons]
    constructor
    · intro h
      cases hfa : f a with
      | error e => rw [hfa] at h; cases h
      | ok b =>
        rw [hfa] at h
        cases hr : as.mapM f with
        | error e => rw [hr] at h; cases h
        | ok bs =>
          rw [hr] at h
          have : r = b :: bs := by cases h; rfl
          subst this
          exact .cons hfa (ih.mp hr)
    · intro h
      cases h with
      | cons h1 h2 =>
        rw [h1, ih.mpr h2]; rfl

theorem mapM_error {α β : Type} {f : α → Except Err β} {l : List α} (hf : ∀ a, (∃ b, f a = .ok b) ∨ f a = .error .value) :
    (∃ r, l.mapM f = .ok r) ∨ (l.mapM f = .error .value ∧ ∃ a ∈ l, f a = .error .value) := by
  induction l with
  | nil => exact Or.inl ⟨[], rfl⟩
  | cons a as ih =>
    rw [List.mapM_cons]
    rcases hf a with ⟨b, hb⟩ | he
    · rcases ih with ⟨r, hr⟩ | ⟨he, x, hx, hx'⟩
      · left; exact ⟨b :: r, by rw [hb, hr]; rfl⟩
      · right; refine ⟨by rw [hb, he]; rfl, x, List.mem_cons_of_mem _ hx, hx'⟩
    · right; exact ⟨by rw [he]; rfl, a, List.mem_cons_self, he⟩

theorem forall₂_mem_left {α β : Type} {R : α → β → Prop} {l : List α} {r : List β} (h : List.Forall₂ R l r) :
    ∀ a ∈ l, ∃ b ∈ r, R a b := by
  induction h with
  | nil => intro a ha; cases ha
  | cons h1 _ ih =>
    intro a ha
    rcases List.mem_cons.mp ha with rfl | ha
    · exact ⟨_, List.mem_cons_self, h1⟩
    · obtain ⟨b, hb, hr⟩ := ih a ha
      exact ⟨b, List.mem_cons_of_mem _ hb, hr⟩

theorem forall₂_mem_right {α β : Type} {R : α → β → Prop} {l : List α} {r : List β} (h : List.Forall₂ R l r) :
    ∀ b ∈ r, ∃ a ∈ l, R a b := by
  induction h with
  | nil => intro a ha; cases ha
  | cons h1 _ ih =>
    intro a ha
    rcases List.mem_cons.mp ha with rfl | ha
    · exact ⟨_, List.mem_cons_self, h1⟩
    · obtain ⟨b, hb, hr⟩ := ih a ha
      exact ⟨b, List.mem_cons_of_mem _ hb, hr⟩

theorem getHolidaysObject_total (T : HolidayTables) (k : Str) :
    (∃ o, getHolidaysObject T k = .ok o) ∨ getHolidaysObject T k = .error .value := by
  unfold getHolidaysObject
  cases T.ccy k with
  | some o => exact Or.inl ⟨o, rfl⟩
  | none =>
    cases T.locale k with
    | some o => exact Or.inl ⟨o, rfl⟩
    | none => exact Or.inr rfl

open Spec

theorem entry_iff {T : HolidayTables} {k : Str} {o : HolidayObj} : getHolidaysObject T k = .ok o ↔ Entry T k o := by
  unfold getHolidaysObject Entry
  cases h : T.ccy k with
  | some x => simp
  | none =>
    cases h2 : T.locale k with
    | some y => simp
    | none => simp

theorem entry_none {T : HolidayTables} {k : Str} : getHolidaysObject T k = .error .value ↔ ¬ ∃ o, Entry T k o := by
  rcases getHolidaysObject_total T k with ⟨o, h⟩ | h
  · rw [h]; simp only [reduceCtorEq, false_iff, not_not]; exact ⟨o, entry_iff.mp h⟩
  · rw [h]; simp only [true_iff]
    rintro ⟨o, ho⟩
    rw [entry_iff.mpr ho] at h; cases h

theorem build_ok {T : HolidayTables} {ks : List Str} {cal : BusCal} (h : getBusdaycal.build T ks = .ok cal) :
    (∀ k ∈ ks, ∃ o, Entry T k o) ∧ cal.Ok ∧
    ∀ d, isBusDay cal d = true ↔ ∀ k ∈ ks, ∀ o, Entry T k o → OpenOn o d := by
  unfold getBusdaycal.build at h
  cases hm : ks.mapM (getHolidaysObject T) with
  | error e => rw [hm] at h; cases h
  | ok objs =>
    rw [hm] at h
    have hF := mapM_ok.mp hm
    have h' : mkBusCal (weekmaskOf (objs.foldl (fun x y => x ++ y.weekend) [])) (objs.flatMap (fun o => o.dates)) =
        .ok cal := h
    unfold mkBusCal at h'
    split at h'
    · rename_i hw
      simp only [Except.ok.injEq] at h'
      subst h'
      refine ⟨?_, hw, ?_⟩
      · intro k hk
        obtain ⟨o, _, ho⟩ := forall₂_mem_left hF k hk
        exact ⟨o, entry_iff.mp ho⟩
      · intro d
        unfold isBusDay
        simp only [weekmaskOf_eq, foldl_weekend, List.nil_append, Bool.and_eq_true, Bool.not_eq_true',
          List.contains_eq_mem, decide_eq_false_iff_not, List.mem_flatMap, not_exists, not_and]
        constructor
        · rintro ⟨a, b⟩ k hk o ho
          obtain ⟨o', hm', ho'⟩ := forall₂_mem_left hF k hk
          have : o' = o := by
            have := entry_iff.mpr ho
            rw [this] at ho'; cases ho'; rfl
          subst this
          exact ⟨a o' hm', b o' hm'⟩
        · intro hall
          constructor
          · intro o ho
            obtain ⟨k, hk, hko⟩ := forall₂_mem_right hF o ho
            exact (hall k hk o (entry_iff.mp hko)).1
          · intro o ho
            obtain ⟨k, hk, hko⟩ := forall₂_mem_right hF o ho
            exact (hall k hk o (entry_iff.mp hko)).2
    · cases h'

theorem build_total (T : HolidayTables) (ks : List Str) :
    ((∀ k ∈ ks, ∃ o, Entry T k o) ∧ CommonWorkday T ks ∧ ∃ cal, getBusdaycal.build T ks = .ok cal) ∨
    (((∃ k ∈ ks, ¬ ∃ o, Entry T k o) ∨ ¬ CommonWorkday T ks) ∧ getBusdaycal.build T ks = .error .value) := by
  unfold getBusdaycal.build
  rcases mapM_error (l := ks) (getHolidaysObject_total T) with ⟨objs, hm⟩ | ⟨hm, k, hk, he⟩
  · have hF := mapM_ok.mp hm
    rw [hm]
    show (_ ∧ _ ∧ ∃ cal, mkBusCal (weekmaskOf (objs.foldl (fun x y => x ++ y.weekend) []))
      (objs.flatMap (fun o => o.dates)) = .ok cal) ∨ (_ ∧ mkBusCal (weekmaskOf (objs.foldl (fun x y => x ++ y.weekend) []))
      (objs.flatMap (fun o => o.dates)) = .error .value)
    unfold mkBusCal
    have key : (∃ w, weekmaskOf (objs.foldl (fun x y => x ++ y.weekend) []) w = true) ↔ CommonWorkday T ks := by
      unfold CommonWorkday
      refine exists_congr (fun w => ?_)
      simp only [weekmaskOf_eq, foldl_weekend, List.nil_append, Bool.not_eq_true',
          List.contains_eq_mem, decide_eq_false_iff_not, List.mem_flatMap, not_exists, not_and]
      constructor
      · intro h k hk o ho
        obtain ⟨o', hm', ho'⟩ := forall₂_mem_left hF k hk
        have : o' = o := by
          have := entry_iff.mpr ho
          rw [this] at ho'; cases ho'; rfl
        subst this
        exact h o' hm'
      · intro h o ho
        obtain ⟨k, hk, hko⟩ := forall₂_mem_right hF o ho
        exact h k hk o (entry_iff.mp hko)
    by_cases hw : ∃ w, weekmaskOf (objs.foldl (fun x y => x ++ y.weekend) []) w = true
    · left
      rw [if_pos hw]
      refine ⟨?_, key.mp hw, _, rfl⟩
      intro k hk
      obtain ⟨o, _, ho⟩ := forall₂_mem_left hF k hk
      exact ⟨o, entry_iff.mp ho⟩
    · right
      rw [if_neg hw]
      exact ⟨Or.inr (fun h => hw (key.mpr h)), rfl⟩
  · right
    rw [hm]
    exact ⟨Or.inl ⟨k, hk, entry_none.mp he⟩, rfl⟩

end Frm
