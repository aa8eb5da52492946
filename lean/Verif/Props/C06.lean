import Verif.Proofs.Calendar
import Verif.Proofs.Text
import Verif.Props.C04

/-! # C06 — A multi-key calendar is the union of the closures -/

namespace Frm.Props
open Spec

/-- A date is a business day of the combined calendar exactly when every key's market is open: no key's weekend or
holiday is lost and none is invented. -/
theorem C06_union {T : HolidayTables} {ks : List Str} {cal : BusCal} (h : getBusdaycal T (.list ks) = .ok cal) (d : Int) :
    isBusDay cal d = true ↔ ∀ k ∈ ks, ∃ o, Entry T (upper k) o ∧ OpenOn o d := by
  obtain ⟨h1, _, h3⟩ := build_ok (T := T) h
  rw [h3]
  constructor
  · intro hh k hk
    have hk' : upper k ∈ ks.eraseDups.map upper := List.mem_map.mpr ⟨k, List.mem_eraseDups.mpr hk, rfl⟩
    obtain ⟨o, ho⟩ := h1 _ hk'
    exact ⟨o, ho, hh _ hk' o ho⟩
  · intro hh k' hk' o ho
    obtain ⟨k, hk, rfl⟩ := List.mem_map.mp hk'
    obtain ⟨o', ho', hopen⟩ := hh k (List.mem_eraseDups.mp hk)
    have : o' = o := by
      have e1 := entry_iff.mpr ho'
      rw [entry_iff.mpr ho] at e1
      cases e1; rfl
    subst this; exact hopen

/-- The same in terms of the single-key calendars. -/
theorem C06_intersection_of_business_days {T : HolidayTables} {ks : List Str} {cal : BusCal}
    (h : getBusdaycal T (.list ks) = .ok cal) (d : Int) :
    isBusDay cal d = true ↔ ∀ k ∈ ks, ∃ ck, getBusdaycal T (.str k) = .ok ck ∧ isBusDay ck d = true := by
  rw [C06_union h]
  have hall := (build_total T (ks.eraseDups.map upper)).resolve_right (by
    rintro ⟨_, he⟩
    have : getBusdaycal T (.list ks) = .error .value := he
    rw [h] at this; cases this)
  obtain ⟨_, ⟨w, hw⟩, _⟩ := hall
  refine forall_congr' (fun k => forall_congr' (fun hk => ?_))
  constructor
  · rintro ⟨o, ho, hopen⟩
    have hs := (build_total T [upper k]).resolve_right (by
      rintro ⟨hbad | hbad, _⟩
      · obtain ⟨k', hk', hno⟩ := hbad
        simp only [List.mem_cons, List.not_mem_nil, or_false] at hk'
        subst hk'; exact hno ⟨o, ho⟩
      · apply hbad
        refine ⟨w, fun k' hk' o' ho' => ?_⟩
        simp only [List.mem_cons, List.not_mem_nil, or_false] at hk'
        subst hk'
        exact hw (upper k) (List.mem_map.mpr ⟨k, List.mem_eraseDups.mpr hk, rfl⟩) o' ho')
    obtain ⟨_, _, ck, hck⟩ := hs
    refine ⟨ck, hck, ?_⟩
    rw [(build_ok hck).2.2]
    intro k' hk' o' ho'
    simp only [List.mem_cons, List.not_mem_nil, or_false] at hk'
    subst hk'
    have : o' = o := by
      have e1 := entry_iff.mpr ho'
      rw [entry_iff.mpr ho] at e1
      cases e1; rfl
    subst this; exact hopen
  · rintro ⟨ck, hck, hb⟩
    obtain ⟨h1, _, h3⟩ := build_ok (T := T) (ks := [upper k]) hck
    obtain ⟨o, ho⟩ := h1 (upper k) (by simp)
    exact ⟨o, ho, (h3 d).mp hb (upper k) (by simp) o ho⟩

/-- Order, letter case and repetition of the keys do not matter: both calls fail, or both succeed with the same
business days. -/
theorem C06_order_case_repetition (T : HolidayTables) (ks js : List Str)
    (hsame : ∀ u, (∃ k ∈ ks, upper k = u) ↔ (∃ j ∈ js, upper j = u)) :
    (getBusdaycal T (.list ks) = .error .value ∧ getBusdaycal T (.list js) = .error .value) ∨
    (∃ c c', getBusdaycal T (.list ks) = .ok c ∧ getBusdaycal T (.list js) = .ok c' ∧
      ∀ d, isBusDay c d = isBusDay c' d) := by
  have hmem : ∀ u, u ∈ ks.eraseDups.map upper ↔ u ∈ js.eraseDups.map upper := by
    intro u
    simp only [List.mem_map, List.mem_eraseDups]
    exact hsame u
  have hbad : ((∃ k ∈ ks.eraseDups.map upper, ¬ ∃ o, Entry T k o) ∨ ¬ CommonWorkday T (ks.eraseDups.map upper)) ↔
      ((∃ k ∈ js.eraseDups.map upper, ¬ ∃ o, Entry T k o) ∨ ¬ CommonWorkday T (js.eraseDups.map upper)) := by
    unfold CommonWorkday
    simp only [hmem]
  rcases build_total T (ks.eraseDups.map upper) with ⟨a1, a2, c, hc⟩ | ⟨b1, b2⟩
  · right
    rcases build_total T (js.eraseDups.map upper) with ⟨_, _, c', hc'⟩ | ⟨b1, _⟩
    · refine ⟨c, c', hc, hc', fun d => ?_⟩
      rw [Bool.eq_iff_iff, (build_ok hc).2.2 d, (build_ok hc').2.2 d]
      simp only [hmem]
    · exfalso
      rcases hbad.mpr b1 with ⟨k, hk, hno⟩ | hno
      · exact hno (a1 k hk)
      · exact hno a2
  · left
    rcases build_total T (js.eraseDups.map upper) with ⟨a1, a2, _⟩ | ⟨_, b2'⟩
    · exfalso
      rcases hbad.mp b1 with ⟨k, hk, hno⟩ | hno
      · exact hno (a1 k hk)
      · exact hno a2
    · exact ⟨b2, b2'⟩

/-- The call fails exactly when a key is unknown or the weekends together leave no working day, and then with
`ValueError`. -/
theorem C06_rejects_iff (T : HolidayTables) (ks : List Str) :
    getBusdaycal T (.list ks) = .error .value ↔
      ((∃ k ∈ ks, ¬ ∃ o, Entry T (upper k) o) ∨ ¬ CommonWorkday T (ks.map upper)) := by
  have hmem : ∀ u, u ∈ ks.eraseDups.map upper ↔ u ∈ ks.map upper := by
    intro u; simp only [List.mem_map, List.mem_eraseDups]
  have hb : ((∃ k ∈ ks.eraseDups.map upper, ¬ ∃ o, Entry T k o) ∨ ¬ CommonWorkday T (ks.eraseDups.map upper)) ↔
      ((∃ k ∈ ks, ¬ ∃ o, Entry T (upper k) o) ∨ ¬ CommonWorkday T (ks.map upper)) := by
    unfold CommonWorkday
    simp only [hmem]
    refine or_congr ?_ Iff.rfl
    constructor
    · rintro ⟨k, hk, hno⟩
      obtain ⟨j, hj, rfl⟩ := List.mem_map.mp hk
      exact ⟨j, hj, hno⟩
    · rintro ⟨j, hj, hno⟩
      exact ⟨upper j, List.mem_map.mpr ⟨j, hj, rfl⟩, hno⟩
  rw [← hb]
  rcases build_total T (ks.eraseDups.map upper) with ⟨a1, a2, c, hc⟩ | ⟨b1, b2⟩
  · constructor
    · intro h
      have : getBusdaycal T (.list ks) = .ok c := hc
      rw [this] at h; cases h
    · rintro (⟨k, hk, hno⟩ | hno)
      · exact absurd (a1 k hk) hno
      · exact absurd a2 hno
  · exact ⟨fun _ => b1, fun _ => b2⟩

/-- Every calendar handed out has a working weekday, so C04 and C05 apply to it. -/
theorem C06_ok {T : HolidayTables} {arg : KeysArg} {cal : BusCal} (h : getBusdaycal T arg = .ok cal) : cal.Ok := by
  cases arg with
  | none =>
    have : cal = defaultBusCal := by
      have h' : Except.ok defaultBusCal = Except.ok cal := h
      cases h'; rfl
    subst this; exact ⟨0, by decide⟩
  | str s => exact (build_ok h).2.1
  | list l => exact (build_ok h).2.1
  | other l => exact (build_ok h).2.1

/-- Without keys: Monday to Friday. -/
theorem C06_default (T : HolidayTables) :
    ∃ cal, getBusdaycal T .none = .ok cal ∧ ∀ d, isBusDay cal d = true ↔ weekday d < 5 := by
  refine ⟨defaultBusCal, rfl, fun d => ?_⟩
  simp only [isBusDay, defaultBusCal, weekdayFin, List.contains_nil, Bool.not_false, Bool.and_true, decide_eq_true_eq]
  unfold weekday; omega

/-- A table entry whose name has a lower-case letter can never be selected by a string or a list of strings: the keys
are upper-cased before the lookup.  (`business_day_calendar.py` stores 'European_Central_Bank', 'ICE_Futures_Europe'
and 'New_York_Stock_Exchange' under such names.) -/
theorem C06_mixed_case_entries_unreachable (name : Str) (hname : upper name ≠ name)
    (s : Str) : upper s ≠ name := by
  intro h
  apply hname
  rw [← h, upper_upper]

example : upper "European_Central_Bank".toList ≠ "European_Central_Bank".toList := by decide

/-! A table with a Friday–Saturday market and a Saturday–Sunday market. -/

def sampleTables : HolidayTables :=
  { ccy := fun k => if k = "USD".toList then some ⟨[5, 6], [mkDate 2024 7 4]⟩
                    else if k = "AED".toList then some ⟨[4, 5], []⟩ else none
    locale := fun _ => none }

example : ∃ cal, getBusdaycal sampleTables (.list ["usd".toList, "AED".toList, "Usd".toList]) = .ok cal := by
  rcases build_total sampleTables (["usd".toList, "AED".toList, "Usd".toList].eraseDups.map upper) with
    ⟨_, _, h⟩ | ⟨hbad, _⟩
  · exact h
  · exfalso
    have e : (["usd".toList, "AED".toList, "Usd".toList].eraseDups.map upper) =
      ["USD".toList, "AED".toList, "USD".toList] := by decide
    rw [e] at hbad
    rcases hbad with ⟨k, hk, hno⟩ | hno
    · simp only [List.mem_cons, List.not_mem_nil, or_false] at hk
      rcases hk with rfl | rfl | rfl
      · exact hno ⟨_, Or.inl rfl⟩
      · exact hno ⟨_, Or.inl rfl⟩
      · exact hno ⟨_, Or.inl rfl⟩
    · apply hno
      refine ⟨0, ?_⟩
      intro k hk o ho
      simp only [List.mem_cons, List.not_mem_nil, or_false] at hk
      have h1 := entry_iff.mpr ho
      rcases hk with rfl | rfl | rfl
      · have : getHolidaysObject sampleTables "USD".toList = .ok ⟨[5, 6], [mkDate 2024 7 4]⟩ := rfl
        rw [this] at h1; cases h1; decide
      · have : getHolidaysObject sampleTables "AED".toList = .ok ⟨[4, 5], []⟩ := rfl
        rw [this] at h1; cases h1; decide
      · have : getHolidaysObject sampleTables "USD".toList = .ok ⟨[5, 6], [mkDate 2024 7 4]⟩ := rfl
        rw [this] at h1; cases h1; decide

end Frm.Props
