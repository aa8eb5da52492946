import Mathlib.Tactic.Ring
import Verif.Proofs.FxQuotes

/-! # C42 — Risk reversals and butterflies -/

namespace Frm

set_option autoImplicit false

namespace Spec

/-- A table of quotes with cleaned column names: distinct names, and the columns with "riskreversal" or "butterfly" in
their name are called `<delta>_delta_riskreversal`, `<delta>_delta_butterfly`. -/
structure CleanTable (t : QuoteTable) : Prop where
  nodup : (t.map (·.1)).Nodup
  rr : ∀ c ∈ t, containsStr "riskreversal".toList c.1 = true → ∃ d, '_' ∉ d ∧ c.1 = d ++ "_delta_riskreversal".toList
  bf : ∀ c ∈ t, containsStr "butterfly".toList c.1 = true → ∃ d, '_' ∉ d ∧ c.1 = d ++ "_delta_butterfly".toList

/-- The column of that name. -/
def Column (t : QuoteTable) (name : Str) (v : List (Option Rat)) : Prop := (name, v) ∈ t

end Spec

open Spec

theorem lookup_iff_mem {t : QuoteTable} (h : (t.map (·.1)).Nodup) (n : Str) (v : List (Option Rat)) :
    t.lookup n = some v ↔ (n, v) ∈ t := by
  induction t with
  | nil => simp
  | cons c t ih =>
    obtain ⟨m, w⟩ := c
    simp only [List.map_cons, List.nodup_cons] at h
    rw [List.lookup_cons]
    by_cases hn : n = m
    · subst hn
      simp only [beq_self_eq_true, List.mem_cons, Prod.mk.injEq, true_and]
      constructor
      · intro he; simp only [Option.some.injEq] at he; exact .inl he.symm
      · rintro (he | he)
        · rw [he]
        · exact absurd (List.mem_map_of_mem (f := (·.1)) he) h.1
    · have hb : (n == m) = false := by simpa using hn
      rw [hb]
      simp only [List.mem_cons, Prod.mk.injEq, hn, false_and, false_or]
      exact ih h.2

/-- The deltas of the columns of one kind. -/
theorem deltas_facts {t : QuoteTable} {word suf : Str} (hsuf : ∀ d, containsStr word (d ++ '_' :: suf) = true)
    (hnd : (t.map (·.1)).Nodup)
    (hc : ∀ c ∈ t, containsStr word c.1 = true → ∃ d, '_' ∉ d ∧ c.1 = d ++ '_' :: suf) :
    ((t.filter (fun c => containsStr word c.1)).map (fun c => beforeUnderscore c.1)).Nodup ∧
    ∀ d, d ∈ (t.filter (fun c => containsStr word c.1)).map (fun c => beforeUnderscore c.1) ↔
      (t.lookup (d ++ '_' :: suf)).isSome ∧ '_' ∉ d := by
  have hname : ∀ c ∈ t, containsStr word c.1 = true → c.1 = beforeUnderscore c.1 ++ '_' :: suf ∧ '_' ∉ beforeUnderscore c.1 := by
    intro c h1 h2
    obtain ⟨d, h3, h4⟩ := hc c h1 h2
    rw [h4, before_suffix h3]; exact ⟨rfl, h3⟩
  constructor
  · have h1 : ((t.filter (fun c => containsStr word c.1)).map (·.1)).Nodup :=
      hnd.sublist (List.Sublist.map _ List.filter_sublist)
    have h2 : (t.filter (fun c => containsStr word c.1)).map (·.1) =
        ((t.filter (fun c => containsStr word c.1)).map (fun c => beforeUnderscore c.1)).map (fun d => d ++ '_' :: suf) := by
      rw [List.map_map]
      apply List.map_congr_left
      intro c hc'
      obtain ⟨h1, h2⟩ := List.mem_filter.mp hc'
      exact (hname c h1 h2).1
    rw [h2] at h1
    exact List.Nodup.of_map _ h1
  · intro d
    rw [lookup_isSome_iff, List.mem_map, List.mem_map]
    constructor
    · rintro ⟨c, hc', rfl⟩
      obtain ⟨h1, h2⟩ := List.mem_filter.mp hc'
      obtain ⟨h3, h4⟩ := hname c h1 h2
      exact ⟨⟨c, h1, h3⟩, h4⟩
    · rintro ⟨⟨c, h1, h2⟩, h3⟩
      refine ⟨c, List.mem_filter.mpr ⟨h1, by rw [h2]; exact hsuf d⟩, ?_⟩
      rw [h2, before_suffix h3]

theorem bf_deltas {t : QuoteTable} (h : CleanTable t) :
    ((t.filter (fun c => containsStr "butterfly".toList c.1)).map (fun c => beforeUnderscore c.1)).Nodup ∧
    ∀ d, d ∈ (t.filter (fun c => containsStr "butterfly".toList c.1)).map (fun c => beforeUnderscore c.1) ↔
      (t.lookup (d ++ sufBf)).isSome ∧ '_' ∉ d :=
  deltas_facts (suf := "delta_butterfly".toList) contains_bf h.nodup h.bf

theorem rr_deltas {t : QuoteTable} (h : CleanTable t) :
    ((t.filter (fun c => containsStr "riskreversal".toList c.1)).map (fun c => beforeUnderscore c.1)).Nodup ∧
    ∀ d, d ∈ (t.filter (fun c => containsStr "riskreversal".toList c.1)).map (fun c => beforeUnderscore c.1) ↔
      (t.lookup (d ++ sufRr)).isSome ∧ '_' ∉ d :=
  deltas_facts (suf := "delta_riskreversal".toList) contains_rr h.nodup h.rr

theorem bf_no_underscore {t : QuoteTable} (h : CleanTable t) {d : Str} (hd : (t.lookup (d ++ sufBf)).isSome) : '_' ∉ d := by
  rw [lookup_isSome_iff, List.mem_map] at hd
  obtain ⟨c, h1, h2⟩ := hd
  obtain ⟨d', h3, h4⟩ := h.bf c h1 (by rw [h2]; exact contains_bf d)
  rw [h4] at h2
  have : d' = d := List.append_cancel_right h2
  exact this ▸ h3

theorem rr_no_underscore {t : QuoteTable} (h : CleanTable t) {d : Str} (hd : (t.lookup (d ++ sufRr)).isSome) : '_' ∉ d := by
  rw [lookup_isSome_iff, List.mem_map] at hd
  obtain ⟨c, h1, h2⟩ := hd
  obtain ⟨d', h3, h4⟩ := h.rr c h1 (by rw [h2]; exact contains_rr d)
  rw [h4] at h2
  have : d' = d := List.append_cancel_right h2
  exact this ▸ h3

/-- The computation on a clean table. -/
theorem solveCallPut_eq {t : QuoteTable} (h : CleanTable t) :
    (∃ out, solveCallPut t = .ok out) ↔ (t.lookup atmName).isSome ∧
      ∀ d, (t.lookup (d ++ sufBf)).isSome ↔ (t.lookup (d ++ sufRr)).isSome := by
  obtain ⟨b1, b2⟩ := bf_deltas h
  obtain ⟨r1, r2⟩ := rr_deltas h
  unfold solveCallPut
  simp only
  change (∃ out, (if (t.lookup atmName).isSome = false then _ else _) = _) ↔ _
  by_cases ha : (t.lookup atmName).isSome = false
  · rw [if_pos ha]; simp [ha]
  rw [if_neg ha]
  simp only [Bool.not_eq_false] at ha
  constructor
  · rintro ⟨out, ho⟩
    refine ⟨ha, ?_⟩
    by_cases hne : sortStrs ((t.filter (fun c => containsStr "riskreversal".toList c.1)).map (fun c => beforeUnderscore c.1)) ≠
        sortStrs ((t.filter (fun c => containsStr "butterfly".toList c.1)).map (fun c => beforeUnderscore c.1))
    · rw [if_pos hne] at ho; cases ho
    · have hp := (sortStrs_eq_iff _ _).mp (not_not.mp hne)
      intro d
      constructor
      · intro hd
        exact ((r2 d).mp (hp.mem_iff.mpr ((b2 d).mpr ⟨hd, bf_no_underscore h hd⟩))).1
      · intro hd
        exact ((b2 d).mp (hp.mem_iff.mp ((r2 d).mpr ⟨hd, rr_no_underscore h hd⟩))).1
  · rintro ⟨-, hiff⟩
    have hp := (List.perm_ext_iff_of_nodup r1 b1).mpr (fun d => by rw [r2, b2, hiff])
    rw [if_neg (not_not.mpr ((sortStrs_eq_iff _ _).mpr hp))]
    obtain ⟨out, ho, -⟩ := strategyFold_ok (t := t) (ds := sortStrs ((t.filter (fun c => containsStr "butterfly".toList c.1)).map
      (fun c => beforeUnderscore c.1))) ((sortStrs_perm _).nodup_iff.mpr b1) (by
      intro d hd
      have := ((b2 d).mp ((sortStrs_perm _).mem_iff.mp hd)).1
      exact ⟨ha, this, (hiff d).mp this⟩)
    exact ⟨out, ho⟩

theorem solveCallPut_lookup {t out : QuoteTable} (h : CleanTable t) (ho : solveCallPut t = .ok out) (n : Str) :
      ((∃ d, (t.lookup (d ++ sufBf)).isSome ∧ (n = d ++ sufBf ∨ n = d ++ sufRr)) → out.lookup n = none) ∧
      ((¬ ∃ d, (t.lookup (d ++ sufBf)).isSome ∧ (n = d ++ sufBf ∨ n = d ++ sufRr)) →
        (∀ v, t.lookup n = some v → out.lookup n = some v) ∧
        (t.lookup n = none →
          (∀ d, (t.lookup (d ++ sufBf)).isSome → n = d ++ sufPut → out.lookup n = some (wing t d (-1 / 2))) ∧
          (∀ d, (t.lookup (d ++ sufBf)).isSome → n = d ++ sufCall → out.lookup n = some (wing t d (1 / 2))) ∧
          ((∀ d, (t.lookup (d ++ sufBf)).isSome → n ≠ d ++ sufPut ∧ n ≠ d ++ sufCall) → out.lookup n = none))) := by
  obtain ⟨ha, hiff⟩ := (solveCallPut_eq h).mp ⟨out, ho⟩
  obtain ⟨b1, b2⟩ := bf_deltas h
  obtain ⟨r1, r2⟩ := rr_deltas h
  have hp := (List.perm_ext_iff_of_nodup r1 b1).mpr (fun d => by rw [r2, b2, hiff])
  obtain ⟨out', ho', hl⟩ := strategyFold_ok (t := t) (ds := sortStrs ((t.filter (fun c => containsStr "butterfly".toList c.1)).map
      (fun c => beforeUnderscore c.1))) ((sortStrs_perm _).nodup_iff.mpr b1) (by
      intro d hd
      have := ((b2 d).mp ((sortStrs_perm _).mem_iff.mp hd)).1
      exact ⟨ha, this, (hiff d).mp this⟩)
  have hmem : ∀ d, d ∈ sortStrs ((t.filter (fun c => containsStr "butterfly".toList c.1)).map (fun c => beforeUnderscore c.1)) ↔
      (t.lookup (d ++ sufBf)).isSome := by
    intro d
    rw [(sortStrs_perm _).mem_iff, b2]
    exact ⟨fun h => h.1, fun hd => ⟨hd, bf_no_underscore h hd⟩⟩
  unfold solveCallPut at ho
  simp only at ho
  change (if (t.lookup atmName).isSome = false then _ else _) = _ at ho
  rw [if_neg (by rw [ha]; simp), if_neg (not_not.mpr ((sortStrs_eq_iff _ _).mpr hp)), ho'] at ho
  simp only [Except.ok.injEq] at ho
  subst ho
  have := hl n
  simp only [hmem] at this
  exact this

theorem wing_get {t : QuoteTable} {d : Str} {half : Rat} {atm bf rr : List (Option Rat)} (ha : t.lookup atmName = some atm)
    (hb : t.lookup (d ++ sufBf) = some bf) (hr : t.lookup (d ++ sufRr) = some rr) (i : Nat) (a b r : Option Rat)
    (h1 : atm[i]? = some a) (h2 : bf[i]? = some b) (h3 : rr[i]? = some r) : (wing t d half)[i]? = some (wingQuote half a b r) := by
  unfold wing
  rw [ha, hb, hr]
  have hz : ((bf.zip rr))[i]? = some (b, r) := List.getElem?_zip_eq_some.mpr ⟨h2, h3⟩
  rw [List.getElem?_zipWith]
  simp [h1, hz]

end Frm

namespace Frm.Props
open Spec

set_option autoImplicit false

/-- Every delta quoted by a risk reversal and a butterfly gets a call and a put column with `call − put = RR` and
`(call + put)/2 − ATM = BF` in every row; where one of the three quotes is missing, so are the call and the put. -/
theorem C42_inverts (t out : QuoteTable) (h : CleanTable t) (ho : solveCallPut t = .ok out) (d : Str)
    (atm bf rr : List (Option Rat)) (hatm : Column t "atm_delta_neutral".toList atm)
    (hbf : Column t (d ++ "_delta_butterfly".toList) bf) (hrr : Column t (d ++ "_delta_riskreversal".toList) rr)
    (hput : ∀ v, ¬ Column t (d ++ "_delta_put".toList) v) (hcall : ∀ v, ¬ Column t (d ++ "_delta_call".toList) v) :
    ∃ put call, out.lookup (d ++ "_delta_put".toList) = some put ∧ out.lookup (d ++ "_delta_call".toList) = some call ∧
    (∀ (i : Nat) (a b r : Rat), atm[i]? = some (some a) → bf[i]? = some (some b) → rr[i]? = some (some r) →
      ∃ p c, put[i]? = some (some p) ∧ call[i]? = some (some c) ∧ c - p = r ∧ (c + p) / 2 - a = b) ∧
    ∀ (i : Nat) (a b r : Option Rat), atm[i]? = some a → bf[i]? = some b → rr[i]? = some r → a = none ∨ b = none ∨ r = none →
      put[i]? = some none ∧ call[i]? = some none := by
  have la := (lookup_iff_mem h.nodup _ _).mpr hatm
  have lb := (lookup_iff_mem h.nodup _ _).mpr hbf
  have lr := (lookup_iff_mem h.nodup _ _).mpr hrr
  have hs : (t.lookup (d ++ sufBf)).isSome := by rw [show t.lookup (d ++ sufBf) = some bf from lb]; rfl
  have lp : t.lookup (d ++ sufPut) = none := by
    cases hx : t.lookup (d ++ sufPut) with
    | none => rfl
    | some v => exact absurd ((lookup_iff_mem h.nodup _ _).mp hx) (hput v)
  have lc : t.lookup (d ++ sufCall) = none := by
    cases hx : t.lookup (d ++ sufCall) with
    | none => rfl
    | some v => exact absurd ((lookup_iff_mem h.nodup _ _).mp hx) (hcall v)
  have n1 : ¬ ∃ e, (t.lookup (e ++ sufBf)).isSome ∧ (d ++ sufPut = e ++ sufBf ∨ d ++ sufPut = e ++ sufRr) := by
    rintro ⟨e, -, h | h⟩
    · exact put_ne_bf d e h
    · exact put_ne_rr d e h
  have n2 : ¬ ∃ e, (t.lookup (e ++ sufBf)).isSome ∧ (d ++ sufCall = e ++ sufBf ∨ d ++ sufCall = e ++ sufRr) := by
    rintro ⟨e, -, h | h⟩
    · exact call_ne_bf d e h
    · exact call_ne_rr d e h
  refine ⟨wing t d (-1 / 2), wing t d (1 / 2), ?_, ?_, ?_, ?_⟩
  · exact (((solveCallPut_lookup h ho (d ++ sufPut)).2 n1).2 lp).1 d hs rfl
  · exact (((solveCallPut_lookup h ho (d ++ sufCall)).2 n2).2 lc).2.1 d hs rfl
  · intro i a b r h1 h2 h3
    exact ⟨_, _, wing_get la lb lr i _ _ _ h1 h2 h3, wing_get la lb lr i _ _ _ h1 h2 h3, by ring, by ring⟩
  · intro i a b r h1 h2 h3 hn
    have e : ∀ half, wingQuote half a b r = none := by
      intro half
      rcases hn with rfl | rfl | rfl
      · rfl
      · cases a <;> rfl
      · cases a <;> cases b <;> rfl
    exact ⟨by rw [wing_get la lb lr i a b r h1 h2 h3, e], by rw [wing_get la lb lr i a b r h1 h2 h3, e]⟩

/-- The strategy columns are gone and all other columns of the table are as before. -/
theorem C42_other_columns (t out : QuoteTable) (h : CleanTable t) (ho : solveCallPut t = .ok out) (n : Str) (v : List (Option Rat))
    (hn : Column t n v) :
    (containsStr "riskreversal".toList n = true ∨ containsStr "butterfly".toList n = true → out.lookup n = none) ∧
    (containsStr "riskreversal".toList n = false → containsStr "butterfly".toList n = false → out.lookup n = some v) := by
  obtain ⟨ha, hiff⟩ := (solveCallPut_eq h).mp ⟨out, ho⟩
  have hl := (lookup_iff_mem h.nodup _ _).mpr hn
  constructor
  · intro hc
    apply (solveCallPut_lookup h ho n).1
    rcases hc with hc | hc
    · obtain ⟨d, -, hd⟩ := h.rr _ hn hc
      have hd' : n = d ++ sufRr := hd
      exact ⟨d, (hiff d).mpr (by rw [← hd', hl]; rfl), .inr hd'⟩
    · obtain ⟨d, -, hd⟩ := h.bf _ hn hc
      have hd' : n = d ++ sufBf := hd
      exact ⟨d, by rw [← hd', hl]; rfl, .inl hd'⟩
  · intro h1 h2
    refine ((solveCallPut_lookup h ho n).2 ?_).1 v hl
    rintro ⟨d, -, he | he⟩
    · rw [he, contains_bf] at h2; cases h2
    · rw [he, contains_rr] at h1; cases h1

/-- No further columns appear. -/
theorem C42_no_new_columns (t out : QuoteTable) (h : CleanTable t) (ho : solveCallPut t = .ok out) (n : Str) (v : List (Option Rat))
    (hn : out.lookup n = some v) : Column t n v ∨ ∃ d w, Column t (d ++ "_delta_butterfly".toList) w ∧
      (n = d ++ "_delta_put".toList ∨ n = d ++ "_delta_call".toList) := by
  obtain ⟨h1, h2⟩ := solveCallPut_lookup h ho n
  by_cases hs : ∃ d, (t.lookup (d ++ sufBf)).isSome ∧ (n = d ++ sufBf ∨ n = d ++ sufRr)
  · rw [h1 hs] at hn; cases hn
  obtain ⟨h3, h4⟩ := h2 hs
  cases hl : t.lookup n with
  | some w =>
    left
    rw [h3 w hl] at hn
    simp only [Option.some.injEq] at hn
    subst hn
    exact (lookup_iff_mem h.nodup _ _).mp hl
  | none =>
    right
    obtain ⟨-, -, h5⟩ := h4 hl
    by_contra hc
    have : out.lookup n = none := by
      apply h5
      intro d hd
      obtain ⟨w, hw⟩ := Option.isSome_iff_exists.mp hd
      have hw' := (lookup_iff_mem h.nodup _ _).mp hw
      exact ⟨fun he => hc ⟨d, w, hw', .inl he⟩, fun he => hc ⟨d, w, hw', .inr he⟩⟩
    rw [this] at hn; cases hn

/-- A clean table is accepted exactly when it has the at-the-money column and each delta has both strategies. -/
theorem C42_accepts_iff (t : QuoteTable) (h : CleanTable t) :
    (∃ out, solveCallPut t = .ok out) ↔ (∃ v, Column t "atm_delta_neutral".toList v) ∧
      ∀ d, (∃ v, Column t (d ++ "_delta_butterfly".toList) v) ↔ ∃ v, Column t (d ++ "_delta_riskreversal".toList) v := by
  have e : ∀ n, (t.lookup n).isSome ↔ ∃ v, Column t n v := by
    intro n
    rw [Option.isSome_iff_exists]
    exact exists_congr (fun v => lookup_iff_mem h.nodup n v)
  rw [solveCallPut_eq h]
  simp only [e]
  rfl

/-- One delta, two rows, the second without a butterfly. -/
example : solveCallPut [("atm_delta_neutral".toList, [some 10, some 11]), ("25_delta_riskreversal".toList, [some 2, some 3]),
    ("25_delta_butterfly".toList, [some 1, none]), ("x".toList, [some 7, none])] =
    .ok [("atm_delta_neutral".toList, [some 10, some 11]), ("x".toList, [some 7, none]), ("25_delta_put".toList, [some 10, none]),
      ("25_delta_call".toList, [some 12, none])] := by decide +kernel

example : CleanTable [("atm_delta_neutral".toList, [some 10]), ("25_delta_riskreversal".toList, [some 2]),
    ("25_delta_butterfly".toList, [some 1])] := by
  refine ⟨by decide, ?_, ?_⟩
  · intro c hc h
    simp only [List.mem_cons, List.not_mem_nil, or_false] at hc
    rcases hc with rfl | rfl | rfl
    · exact absurd h (by decide)
    · exact ⟨"25".toList, by decide, rfl⟩
    · exact absurd h (by decide)
  · intro c hc h
    simp only [List.mem_cons, List.not_mem_nil, or_false] at hc
    rcases hc with rfl | rfl | rfl
    · exact absurd h (by decide)
    · exact absurd h (by decide)
    · exact ⟨"25".toList, by decide, rfl⟩

end Frm.Props
