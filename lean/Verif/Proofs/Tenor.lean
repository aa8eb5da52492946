import Verif.Model.Tenor
import Verif.Spec.Tenor

namespace Frm
open Spec

theorem isDigit_iff (c : Char) : c.isDigit = true ↔ '0' ≤ c ∧ c ≤ '9' := by
  unfold Char.isDigit
  simp only [Bool.and_eq_true, decide_eq_true_eq]
  exact Iff.rfl

theorem all_isDigit_iff (s : Str) : (s.all Char.isDigit = true) ↔ ∀ c ∈ s, '0' ≤ c ∧ c ≤ '9' := by
  rw [List.all_eq_true]
  exact ⟨fun h c hc => (isDigit_iff c).mp (h c hc), fun h c hc => (isDigit_iff c).mpr (h c hc)⟩

theorem toNat_ge_of_digit {c : Char} (h : c.isDigit = true) : 48 ≤ c.toNat := by
  have := (isDigit_iff c).mp h
  have h1 : ('0' : Char).toNat ≤ c.toNat := this.1
  exact h1

theorem foldl_numeral (s : Str) (hs : s.all Char.isDigit = true) (a : Int) :
    s.foldl (fun a c => 10 * a + (digitVal c : Int)) a = a * 10 ^ s.length + numeral s := by
  induction s generalizing a with
  | nil => simp [numeral]
  | cons c cs ih =>
    rw [List.all_cons, Bool.and_eq_true] at hs
    rw [List.foldl_cons, ih hs.2]
    have h48 := toNat_ge_of_digit hs.1
    have hd : (digitVal c : Int) = (c.toNat : Int) - 48 := by unfold digitVal; omega
    rw [hd]
    simp only [numeral, List.length_cons, Int.pow_succ]
    rw [Int.add_mul]
    have : a * (10 ^ cs.length * 10) = 10 * a * 10 ^ cs.length := by
      rw [Int.mul_comm (10 ^ cs.length) 10, ← Int.mul_assoc, Int.mul_comm a 10]
    rw [this]; omega

theorem pyInt_eq {s : Str} (h : Digits s) : pyInt s = .ok (numeral s) := by
  unfold pyInt
  have ha := (all_isDigit_iff s).mpr h.2
  rw [if_pos ⟨h.1, ha⟩, foldl_numeral s ha]
  simp

theorem pyInt_ok {s : Str} {n : Int} (h : pyInt s = .ok n) : Digits s ∧ n = numeral s := by
  unfold pyInt at h
  split at h
  · rename_i hc
    refine ⟨⟨hc.1, (all_isDigit_iff s).mp hc.2⟩, ?_⟩
    rw [foldl_numeral s hc.2] at h
    simp at h; exact h.symm
  · cases h

theorem pyInt_total (s : Str) : (∃ n, pyInt s = .ok n) ∨ pyInt s = .error .value := by
  unfold pyInt; split
  · exact Or.inl ⟨_, rfl⟩
  · exact Or.inr rfl

theorem takeWhile_append_digits {p : Char → Bool} {ds rest : Str} (h : ∀ c ∈ ds, p c = true)
    (hr : ∀ c, rest.head? = some c → p c = false) :
    (ds ++ rest).takeWhile p = ds ∧ (ds ++ rest).dropWhile p = rest := by
  induction ds with
  | nil =>
    cases rest with
    | nil => simp
    | cons c cs =>
      have := hr c rfl
      simp [this]
  | cons d ds ih =>
    have hd := h d List.mem_cons_self
    have := ih (fun c hc => h c (List.mem_cons_of_mem _ hc))
    simp [hd, this]

theorem digits_isDigit {ds : Str} (h : Digits ds) : ∀ c ∈ ds, c.isDigit = true :=
  fun c hc => (isDigit_iff c).mpr (h.2 c hc)

theorem split_digits {ds rest : Str} (h : Digits ds) (hr : ∀ c, rest.head? = some c → c.isDigit = false) :
    (ds ++ rest).takeWhile Char.isDigit = ds ∧ (ds ++ rest).dropWhile Char.isDigit = rest :=
  takeWhile_append_digits (digits_isDigit h) hr

theorem takeWhile_all (p : Char → Bool) (s : Str) : ∀ c ∈ s.takeWhile p, p c = true := by
  induction s with
  | nil => simp
  | cons a s ih =>
    intro c hc
    rw [List.takeWhile_cons] at hc
    split at hc
    · rcases List.mem_cons.mp hc with rfl | h
      · assumption
      · exact ih c h
    · cases hc

theorem matchesUnit_iff {u : Char} (s : Str) (hu : u.isDigit = false) :
    matchesUnit u s = true ↔ ∃ ds, Digits ds ∧ (s = ds ++ [u] ∨ s = ds ++ [u, '\n']) := by
  unfold matchesUnit
  simp only [Bool.and_eq_true, Bool.or_eq_true, beq_iff_eq]
  constructor
  · rintro ⟨h1, h2⟩
    refine ⟨s.takeWhile Char.isDigit, ⟨?_, ?_⟩, ?_⟩
    · intro e; rw [e] at h1; simp at h1
    · intro c hc; exact (isDigit_iff c).mp (takeWhile_all _ _ c hc)
    · have e := List.takeWhile_append_dropWhile (p := Char.isDigit) (l := s)
      rcases h2 with h2 | h2
      · left; rw [h2] at e; exact e.symm
      · right; rw [h2] at e; exact e.symm
  · rintro ⟨ds, hd, h⟩
    have hne : ds.isEmpty = false := by
      cases ds with
      | nil => exact absurd rfl hd.1
      | cons => rfl
    rcases h with rfl | rfl
    · obtain ⟨e1, e2⟩ := split_digits (rest := [u]) hd (by simp [hu])
      rw [e1, e2, hne]; simp
    · obtain ⟨e1, e2⟩ := split_digits (rest := [u, '\n']) hd (by simp [hu])
      rw [e1, e2, hne]; simp

theorem matchesYearMonth_iff (s : Str) :
    matchesYearMonth s = true ↔ ∃ ds es, Digits ds ∧ Digits es ∧
      (s = ds ++ 'y' :: (es ++ ['m']) ∨ s = ds ++ 'y' :: (es ++ ['m', '\n'])) := by
  unfold matchesYearMonth
  simp only
  constructor
  · intro h
    split at h
    · cases h
    · rename_i c rest heq
      simp only [Bool.and_eq_true, beq_iff_eq] at h
      obtain ⟨⟨h1, rfl⟩, h3⟩ := h
      obtain ⟨es, he, h4⟩ := (matchesUnit_iff rest (by decide)).mp h3
      refine ⟨s.takeWhile Char.isDigit, es, ⟨?_, ?_⟩, he, ?_⟩
      · intro e; rw [e] at h1; simp at h1
      · intro c hc; exact (isDigit_iff c).mp (takeWhile_all _ _ c hc)
      · have e := List.takeWhile_append_dropWhile (p := Char.isDigit) (l := s)
        rw [heq] at e
        rcases h4 with h4 | h4
        · left; rw [← h4]; exact e.symm
        · right; rw [← h4]; exact e.symm
  · rintro ⟨ds, es, hd, he, h⟩
    have hne : ds.isEmpty = false := by
      cases ds with
      | nil => exact absurd rfl hd.1
      | cons => rfl
    rcases h with rfl | rfl
    · obtain ⟨e1, e2⟩ := split_digits (rest := 'y' :: (es ++ ['m'])) hd (by simp)
      rw [e1, e2, hne]
      simp only [(matchesUnit_iff (es ++ ['m']) (by decide)).mpr ⟨es, he, Or.inl rfl⟩]
      simp
    · obtain ⟨e1, e2⟩ := split_digits (rest := 'y' :: (es ++ ['m', '\n'])) hd (by simp)
      rw [e1, e2, hne]
      simp only [(matchesUnit_iff (es ++ ['m', '\n']) (by decide)).mpr ⟨es, he, Or.inr rfl⟩]
      simp

/-- A digit string followed by something beginning with a non-digit is split uniquely. -/
theorem digits_split_unique {ds es r t : Str} (hd : Digits ds) (he : Digits es)
    (hr : ∀ c, r.head? = some c → c.isDigit = false) (ht : ∀ c, t.head? = some c → c.isDigit = false)
    (h : ds ++ r = es ++ t) : ds = es ∧ r = t := by
  have a := split_digits hd hr
  have b := split_digits he ht
  rw [h] at a
  exact ⟨a.1.symm.trans b.1, a.2.symm.trans b.2⟩

theorem head_isDigit {ds r : Str} (hd : Digits ds) : ∃ c cs, ds ++ r = c :: cs ∧ c.isDigit = true := by
  cases ds with
  | nil => exact absurd rfl hd.1
  | cons c cs => exact ⟨c, cs ++ r, rfl, digits_isDigit hd c List.mem_cons_self⟩

theorem not_code_of_digits {ds r : Str} (hd : Digits ds) :
    ds ++ r ≠ "on".toList ∧ ds ++ r ≠ "tn".toList ∧ ds ++ r ≠ "sp".toList ∧ ds ++ r ≠ "sn".toList ∧
    ds ++ r ≠ "sw".toList := by
  obtain ⟨c, cs, e, hc⟩ := head_isDigit (r := r) hd
  rw [e]
  refine ⟨?_, ?_, ?_, ?_, ?_⟩ <;> intro h <;>
    (have := (List.cons.inj h).1; subst this; revert hc; decide)

theorem matchesUnit_digits {u v : Char} {ds : Str} (hd : Digits ds) (hu : u.isDigit = false) (hv : v.isDigit = false)
    (hvn : v ≠ '\n') : matchesUnit u (ds ++ [v]) = decide (u = v) := by
  by_cases h : u = v
  · subst h
    rw [(matchesUnit_iff _ hu).mpr ⟨ds, hd, Or.inl rfl⟩]; simp
  · rw [decide_eq_false h]
    rw [Bool.eq_false_iff]
    intro hm
    obtain ⟨es, he, h1 | h1⟩ := (matchesUnit_iff _ hu).mp hm
    · have := (digits_split_unique hd he (by simp [hv]) (by simp [hu]) h1).2
      simp at this; exact h this.symm
    · have := (digits_split_unique hd he (by simp [hv]) (by simp [hu]) h1).2
      simp at this

theorem matchesUnit_yearMonth {u : Char} {ds es : Str} (hd : Digits ds) (he : Digits es) (hu : u.isDigit = false) :
    matchesUnit u (ds ++ 'y' :: (es ++ ['m'])) = false := by
  rw [Bool.eq_false_iff]
  intro hm
  obtain ⟨fs, hf, h1 | h1⟩ := (matchesUnit_iff _ hu).mp hm
  · have := (digits_split_unique hd hf (by simp) (by simp [hu]) h1).2
    simp at this
  · have := (digits_split_unique hd hf (by simp) (by simp [hu]) h1).2
    have h2 := (List.cons.inj this).2
    cases es with
    | nil => exact absurd rfl he.1
    | cons => simp at h2

theorem dropLast_append_two (s : Str) (a b : Char) : (s ++ [a, b]).dropLast = s ++ [a] := by
  have : s ++ [a, b] = (s ++ [a]) ++ [b] := by simp
  rw [this, List.dropLast_concat]

theorem pyInt_nonDigit {s : Str} {c : Char} (hc : c ∈ s) (h : c.isDigit = false) : pyInt s = .error .value := by
  unfold pyInt
  rw [if_neg]
  rintro ⟨_, ha⟩
  rw [List.all_eq_true] at ha
  rw [ha c hc] at h; cases h

/-- Result of one `<digits>u` branch. -/
theorem unit_branch {u : Char} {s : Str} (hu : u.isDigit = false) (h : matchesUnit u s = true)
    (f : Int → DateOffset) :
    (∃ ds, Digits ds ∧ s = ds ++ [u] ∧ (do return f (← pyInt s.dropLast) : Except Err DateOffset) = .ok (f (numeral ds)))
    ∨ ((∃ ds, Digits ds ∧ s = ds ++ [u, '\n']) ∧
        (do return f (← pyInt s.dropLast) : Except Err DateOffset) = .error .value) := by
  obtain ⟨ds, hd, rfl | rfl⟩ := (matchesUnit_iff s hu).mp h
  · left
    refine ⟨ds, hd, rfl, ?_⟩
    rw [List.dropLast_concat, pyInt_eq hd]; rfl
  · right
    refine ⟨⟨ds, hd, rfl⟩, ?_⟩
    rw [dropLast_append_two, pyInt_nonDigit (c := u) (by simp) hu]; rfl

theorem yearMonth_body {ds es r : Str} (hd : Digits ds) :
    (ds ++ 'y' :: (es ++ r)).takeWhile (· != 'y') = ds ∧ ((ds ++ 'y' :: (es ++ r)).dropWhile (· != 'y')).drop 1 = es ++ r := by
  obtain ⟨a, b⟩ := takeWhile_append_digits (p := (· != 'y')) (ds := ds) (rest := 'y' :: (es ++ r))
    (fun c hc => by
      have := digits_isDigit hd c hc
      simp only [bne_iff_ne, ne_eq]
      intro e; subst e; revert this; decide)
    (by simp)
  rw [a, b]; exact ⟨rfl, rfl⟩

end Frm
