import Verif.Model.Utilities
import Verif.Proofs.Text
import Mathlib.Data.List.DropRight
import Mathlib.Data.List.Basic
import Mathlib.Data.List.Nodup

/-!
# C84: cleaning an input table
-/

namespace Frm
namespace Spec

set_option autoImplicit false

/-- A cell with its text, if it is text, in lower case. -/
def Cell.lowered : Cell → Cell
  | .str s => .str (s.map Char.toLower)
  | .num q => .num q
  | .nan => .nan

/-- A row with nothing in it. -/
def Blank (row : List Cell) : Prop := ∀ c ∈ row, c = Cell.nan

instance (row : List Cell) : Decidable (Blank row) := inferInstanceAs (Decidable (∀ c ∈ row, c = Cell.nan))

/-- A table: distinct labels, rows as long as the list of labels. -/
structure Rectangular (t : RawTable) : Prop where
  labels : t.names.Nodup
  rows : ∀ row ∈ t.rows, row.length = t.names.length

end Spec
end Frm

namespace Frm.Props

set_option autoImplicit false

open Frm Frm.Spec

theorem lowered_eq (c : Cell) : Spec.Cell.lowered c = lowerCell c := by cases c <;> rfl

theorem lowerCell_lowerCell (c : Cell) : lowerCell (lowerCell c) = lowerCell c := by
  cases c with
  | str s => simp [lowerCell, lower, toLower_toLower]
  | _ => rfl

theorem lowerCell_nan (c : Cell) : lowerCell c = Cell.nan ↔ c = Cell.nan := by cases c <;> simp [lowerCell]

theorem strip_strip (s : Str) : strip (strip s) = strip s := by
  have hstrip : ∀ s, strip s = (s.dropWhile isSpace).rdropWhile isSpace := fun s => rfl
  have h1 : (strip s).dropWhile isSpace = strip s := by
    rw [List.dropWhile_eq_self_iff]
    intro hl
    obtain ⟨t, ht⟩ : strip s <+: s.dropWhile isSpace := by
      rw [hstrip]
      exact List.rdropWhile_prefix _ _
    have hl' : 0 < (s.dropWhile isSpace).length := by
      rw [← ht]
      simp only [List.length_append]
      omega
    have h2 := (List.dropWhile_eq_self_iff.1 (List.dropWhile_idempotent (p := isSpace) (l := s))) hl'
    have h3 : (s.dropWhile isSpace)[0] = (strip s)[0] := by
      have : (s.dropWhile isSpace)[0]? = (strip s)[0]? := by
        rw [← ht, List.getElem?_append_left hl]
      rw [List.getElem?_eq_getElem hl', List.getElem?_eq_getElem hl] at this
      exact Option.some.inj this
    rw [← h3]
    exact h2
  rw [hstrip (strip s), h1, hstrip s]
  exact List.rdropWhile_idempotent _ _

theorem mem_pyInsert {α : Type} {l : List α} {i : Nat} {x y : α} : y ∈ pyInsert l i x ↔ y = x ∨ y ∈ l := by
  unfold pyInsert
  rw [List.mem_append, List.mem_cons]
  conv_rhs => rw [← List.take_append_drop i l, List.mem_append]
  constructor
  · rintro (h | h | h)
    · exact Or.inr (Or.inl h)
    · exact Or.inl h
    · exact Or.inr (Or.inr h)
  · rintro (h | h | h)
    · exact Or.inr (Or.inl h)
    · exact Or.inl h
    · exact Or.inr (Or.inr h)

theorem keepRow_iff {names : List Str} {row : List Cell} :
    keepRow names row = true ↔ ∃ (j : Nat) (n : Str) (c : Cell), names[j]? = some n ∧ row[j]? = some c ∧ n ≠ idName ∧ c ≠ Cell.nan := by
  unfold keepRow
  rw [List.any_eq_true]
  constructor
  · rintro ⟨e, he, h⟩
    obtain ⟨j, hj⟩ := List.mem_iff_getElem?.1 he
    rw [List.getElem?_zip_eq_some] at hj
    simp only [ne_eq, Bool.and_eq_true, decide_eq_true_eq] at h
    exact ⟨j, e.1, e.2, hj.1, hj.2, h.1, h.2⟩
  · rintro ⟨j, n, c, hn, hc, h1, h2⟩
    refine ⟨(n, c), List.mem_of_getElem? (i := j) ?_, by simp [h1, h2]⟩
    rw [List.getElem?_zip_eq_some]
    exact ⟨hn, hc⟩

/-- **C84.**  Cleaning a table without identifiers or message columns: the blank rows are dropped and the others kept in order; each keeps its
original position as identifier; labels are stripped; text is in lower case; two empty message columns come first. -/
theorem C84_cleaned_partial (t : RawTable) (ht : Rectangular t) (hid : idName ∉ t.names) (hix : "index".toList ∉ t.names)
    (herr : "errors".toList ∉ t.names.map strip) (hwarn : "warnings".toList ∉ t.names.map strip) :
    cleanInput t = .ok ⟨"errors".toList :: "warnings".toList :: "internal_id".toList :: t.names.map strip,
      (t.rows.zipIdx.filter (fun e => ¬ Blank e.1)).map (fun e => .str [] :: .str [] :: .num e.2 :: e.1.map Spec.Cell.lowered)⟩ := by
  unfold cleanInput
  rw [if_neg hid]
  have hadd : addId t = .ok ⟨idName :: t.names, t.rows.mapIdx (fun i row => Cell.num i :: row)⟩ := by
    unfold addId
    simp only [if_pos hix, List.map_cons, if_true]
    congr 3
    apply List.map_congr_left (g := id) (fun n hn => ?_) |>.trans (List.map_id _)
    rw [if_neg (fun h : n = "index".toList => hix (h ▸ hn))]
    rfl
  rw [hadd]
  simp only [List.map_cons]
  rw [show strip idName = idName by decide]
  have he : ¬ "errors".toList ∈ idName :: t.names.map strip := by
    rw [List.mem_cons, not_or]
    exact ⟨by decide, herr⟩
  have hw : ¬ "warnings".toList ∈ "errors".toList :: idName :: t.names.map strip := by
    rw [List.mem_cons, List.mem_cons, not_or, not_or]
    exact ⟨by decide, by decide, hwarn⟩
  unfold ensureBlank
  simp only
  rw [if_neg he]
  simp only [insertBlank, pyInsert, List.take_zero, List.drop_zero, List.nil_append]
  rw [if_neg hw]
  simp only [List.take_succ_cons, List.take_zero, List.drop_succ_cons, List.drop_zero, List.cons_append, List.nil_append, List.map_map]
  congr 2
  rw [List.mapIdx_eq_zipIdx_map, List.filter_map, List.map_map]
  have hkeep : t.rows.zipIdx.filter ((fun row => keepRow (idName :: t.names) row) ∘ (fun e : List Cell × Nat => Cell.num e.2 :: e.1)) =
      t.rows.zipIdx.filter (fun e => ¬ Blank e.1) := by
    apply List.filter_congr
    intro e he
    have hrow : e.1 ∈ t.rows := by
      obtain ⟨r, i⟩ := e
      exact (List.mem_zipIdx' he).2 ▸ List.getElem_mem _
    have hlen := ht.rows _ hrow
    rw [Bool.eq_iff_iff, decide_eq_true_eq]
    simp only [Function.comp]
    rw [keepRow_iff]
    constructor
    · rintro ⟨j, n, c, hn, hc, hni, hcn⟩ hb
      cases j with
      | zero =>
        simp only [List.getElem?_cons_zero, Option.some.injEq] at hn
        exact hni hn.symm
      | succ j =>
        simp only [List.getElem?_cons_succ] at hc
        exact hcn (hb c (List.mem_of_getElem? hc))
    · intro hb
      unfold Blank at hb
      push Not at hb
      obtain ⟨c, hc, hcn⟩ := hb
      obtain ⟨j, hj⟩ := List.mem_iff_getElem?.1 hc
      have hjl : j < t.names.length := by rw [← hlen]; exact (List.getElem?_eq_some_iff.1 hj).1
      refine ⟨j + 1, t.names[j], c, by simp [hjl], by simpa using hj, fun h => ?_, hcn⟩
      exact hid (h ▸ List.getElem_mem hjl)
  have hkeep' : (fun e : List Cell × Nat => keepRow (idName :: t.names) (Cell.num e.2 :: e.1)) =
    ((fun row => keepRow (idName :: t.names) row) ∘ (fun e : List Cell × Nat => Cell.num e.2 :: e.1)) := rfl
  rw [show (keepRow (idName :: t.names) ∘ fun x : List Cell × Nat => Cell.num x.2 :: x.1) =
    ((fun row => keepRow (idName :: t.names) row) ∘ (fun e : List Cell × Nat => Cell.num e.2 :: e.1)) from rfl, hkeep]
  apply List.map_congr_left
  intro e _
  simp [Function.comp, lowerCell, funext lowered_eq]

/-- What cleaning produces. -/
def Cleaned (t : RawTable) : Prop :=
  idName ∈ t.names ∧ "errors".toList ∈ t.names ∧ "warnings".toList ∈ t.names ∧ (∀ n ∈ t.names, strip n = n) ∧
  (∀ row ∈ t.rows, keepRow t.names row = true ∧ ∀ c ∈ row, lowerCell c = c)

theorem clean_of_cleaned {t : RawTable} (h : Cleaned t) : cleanInput t = .ok t := by
  obtain ⟨h1, h2, h3, h4, h5⟩ := h
  unfold cleanInput
  rw [if_pos h1]
  have e1 : t.names.map strip = t.names := (List.map_congr_left (g := id) (fun n hn => h4 n hn)).trans (List.map_id _)
  have e2 : t.rows.filter (keepRow t.names) = t.rows := List.filter_eq_self.2 (fun row hr => (h5 row hr).1)
  have e3 : t.rows.map (fun row => row.map lowerCell) = t.rows :=
    (List.map_congr_left (g := id) (fun row hr => (List.map_congr_left (g := id) (fun c hc => (h5 row hr).2 c hc)).trans (List.map_id _))).trans (List.map_id _)
  simp only [e1, e2, e3]
  unfold ensureBlank
  rw [if_pos h2, if_pos h3]

theorem keep_insert {names : List Str} {row : List Cell} {loc : Nat} {name : Str} (hl : row.length = names.length)
    (h : keepRow names row = true) : keepRow (pyInsert names loc name) (pyInsert row loc (.str [])) = true := by
  rw [keepRow_iff] at h ⊢
  obtain ⟨j, n, c, hn, hc, hni, hcn⟩ := h
  unfold pyInsert
  by_cases hj : j < loc
  · refine ⟨j, n, c, ?_, ?_, hni, hcn⟩
    · have hlen := (List.getElem?_eq_some_iff.1 hn).1
      rw [List.getElem?_append_left (by simp; omega), List.getElem?_take_of_lt hj]
      exact hn
    · have hlen := (List.getElem?_eq_some_iff.1 hc).1
      rw [List.getElem?_append_left (by simp; omega), List.getElem?_take_of_lt hj]
      exact hc
  · have hjn := (List.getElem?_eq_some_iff.1 hn).1
    refine ⟨j + 1, n, c, ?_, ?_, hni, hcn⟩
    · rw [List.getElem?_append_right (by simp; omega), List.length_take, show j + 1 - min loc names.length = (j - loc) + 1 by omega,
        List.getElem?_cons_succ, List.getElem?_drop, show loc + (j - loc) = j by omega]
      exact hn
    · rw [List.getElem?_append_right (by simp; omega), List.length_take, show j + 1 - min loc row.length = (j - loc) + 1 by omega,
        List.getElem?_cons_succ, List.getElem?_drop, show loc + (j - loc) = j by omega]
      exact hc

/-- The part of `Cleaned` that does not depend on the message columns. -/
def HalfCleaned (t : RawTable) : Prop :=
  idName ∈ t.names ∧ (∀ n ∈ t.names, strip n = n) ∧
  (∀ row ∈ t.rows, row.length = t.names.length ∧ keepRow t.names row = true ∧ ∀ c ∈ row, lowerCell c = c)

theorem ensure_half {t : RawTable} {loc : Nat} {name : Str} (hs : strip name = name) (h : HalfCleaned t) :
    HalfCleaned (ensureBlank t loc name) ∧ name ∈ (ensureBlank t loc name).names ∧ ∀ n ∈ t.names, n ∈ (ensureBlank t loc name).names := by
  unfold ensureBlank
  by_cases hm : name ∈ t.names
  · rw [if_pos hm]
    exact ⟨h, hm, fun n hn => hn⟩
  · rw [if_neg hm]
    obtain ⟨h1, h2, h3⟩ := h
    refine ⟨⟨mem_pyInsert.2 (Or.inr h1), ?_, ?_⟩, mem_pyInsert.2 (Or.inl rfl), fun n hn => mem_pyInsert.2 (Or.inr hn)⟩
    · intro n hn
      rcases mem_pyInsert.1 hn with rfl | hn
      · exact hs
      · exact h2 n hn
    · intro row hr
      simp only [insertBlank, List.mem_map] at hr
      obtain ⟨r, hr, rfl⟩ := hr
      obtain ⟨hl, hk, hc⟩ := h3 r hr
      refine ⟨by simp [insertBlank, pyInsert, hl], keep_insert hl hk, fun c hcm => ?_⟩
      rcases mem_pyInsert.1 hcm with rfl | hcm
      · rfl
      · exact hc c hcm

/-- **C84.**  Cleaning a cleaned table changes nothing, if no label becomes that of the identifier when stripped. -/
theorem C84_idempotent (t out : RawTable) (ht : Rectangular t) (hs : ∀ n ∈ t.names, strip n = idName → n = idName) (h : cleanInput t = .ok out) :
    cleanInput out = .ok out := by
  apply clean_of_cleaned
  unfold cleanInput at h
  have hstep : ∃ t1 : RawTable, idName ∈ t1.names ∧ (∀ n ∈ t1.names, strip n = idName → n = idName) ∧
      (∀ row ∈ t1.rows, row.length = t1.names.length) ∧
      (if idName ∈ t.names then .ok t else addId t : Except Err RawTable) = .ok t1 := by
    by_cases hid : idName ∈ t.names
    · rw [if_pos hid]
      exact ⟨t, hid, hs, ht.rows, rfl⟩
    · rw [if_neg hid] at h ⊢
      have hn : ∃ first, (first = "index".toList ∨ (first = "level_0".toList ∧ "index".toList ∈ t.names)) ∧
          addId t = .ok ⟨(first :: t.names).map (fun c => if c = "index".toList then idName else c), t.rows.mapIdx (fun i row => Cell.num i :: row)⟩ := by
        unfold addId at h ⊢
        by_cases h1 : "index".toList ∉ t.names
        · rw [if_pos h1]
          exact ⟨_, Or.inl rfl, rfl⟩
        · rw [if_neg h1] at h ⊢
          by_cases h2 : "level_0".toList ∈ t.names
          · rw [if_pos h2] at h
            cases h
          · rw [if_neg h2]
            exact ⟨_, Or.inr ⟨rfl, not_not.1 h1⟩, rfl⟩
      obtain ⟨first, hf, hadd⟩ := hn
      refine ⟨_, ?_, ?_, ?_, hadd⟩
      · rcases hf with rfl | ⟨-, hin⟩
        · simp
        · exact List.mem_map.2 ⟨_, List.mem_cons_of_mem _ hin, if_pos rfl⟩
      · intro n hn hsn
        obtain ⟨m, hm, rfl⟩ := List.mem_map.1 hn
        by_cases hmi : m = "index".toList
        · rw [if_pos hmi]
        · rw [if_neg hmi] at hsn ⊢
          rcases List.mem_cons.1 hm with rfl | hm
          · rcases hf with rfl | ⟨rfl, -⟩
            · exact absurd rfl hmi
            · exact absurd hsn (by decide)
          · exact hs m hm hsn
      · intro row hr
        simp only [List.mem_mapIdx] at hr
        obtain ⟨i, hi, rfl⟩ := hr
        simp [ht.rows _ (List.getElem_mem hi)]
  obtain ⟨t1, hid, hs1, hl1, he⟩ := hstep
  rw [he] at h
  simp only [Except.ok.injEq] at h
  have hhalf : HalfCleaned ⟨t1.names.map strip, (t1.rows.filter (keepRow t1.names)).map (fun row => row.map lowerCell)⟩ := by
    refine ⟨List.mem_map.2 ⟨idName, hid, by decide⟩, ?_, ?_⟩
    · intro n hn
      obtain ⟨m, -, rfl⟩ := List.mem_map.1 hn
      exact strip_strip m
    · intro row hr
      obtain ⟨r, hr', rfl⟩ := List.mem_map.1 hr
      obtain ⟨hr, hk⟩ := List.mem_filter.1 hr'
      refine ⟨by simp [hl1 r hr], ?_, ?_⟩
      · rw [keepRow_iff] at hk ⊢
        obtain ⟨j, n, c, hn, hc, h1, h2⟩ := hk
        refine ⟨j, strip n, lowerCell c, by simp [hn], by simp [hc], fun hx => h1 (hs1 n (List.mem_of_getElem? hn) hx), fun hx => h2 ((lowerCell_nan c).1 hx)⟩
      · intro c hc
        obtain ⟨d, -, rfl⟩ := List.mem_map.1 hc
        exact lowerCell_lowerCell d
  obtain ⟨hh1, hm1, -⟩ := ensure_half (loc := 0) (name := "errors".toList) (by decide) hhalf
  obtain ⟨hh2, hm2, hk2⟩ := ensure_half (loc := 1) (name := "warnings".toList) (by decide) hh1
  rw [h] at hh2 hm2 hk2
  exact ⟨hh2.1, hk2 _ hm1, hm2, hh2.2.1, fun row hr => ⟨(hh2.2.2 row hr).2.1, (hh2.2.2 row hr).2.2⟩⟩

/-- **A column called `index` takes the place of the identifier**: no row is dropped, not even a blank one, and the identifiers are the values
of that column. -/
theorem C84_index (t : RawTable) (hid : idName ∉ t.names) (hix : "index".toList ∈ t.names) (hl0 : "level_0".toList ∉ t.names)
    (herr : ∀ n ∈ t.names, strip n ≠ "errors".toList) (hwarn : ∀ n ∈ t.names, strip n ≠ "warnings".toList) :
    cleanInput t = .ok ⟨"errors".toList :: "warnings".toList :: "level_0".toList ::
        t.names.map (fun n => if n = "index".toList then "internal_id".toList else strip n),
      t.rows.mapIdx (fun i row => .str [] :: .str [] :: .num i :: row.map Spec.Cell.lowered)⟩ := by
  unfold cleanInput
  rw [if_neg hid]
  unfold addId
  simp only [if_neg (not_not.2 hix), if_neg hl0, List.map_cons, List.map_map]
  rw [if_neg (show ¬ "level_0".toList = "index".toList by decide), show strip "level_0".toList = "level_0".toList by decide]
  have hnames : t.names.map (strip ∘ fun c => if c = "index".toList then idName else c) =
      t.names.map (fun n => if n = "index".toList then "internal_id".toList else strip n) := by
    apply List.map_congr_left
    intro n _
    simp only [Function.comp]
    split
    · decide
    · rfl
  rw [hnames]
  have hfilter : (t.rows.mapIdx (fun i row => Cell.num i :: row)).filter
      (keepRow ("level_0".toList :: t.names.map (fun c => if c = "index".toList then idName else c))) =
      t.rows.mapIdx (fun i row => Cell.num i :: row) := by
    apply List.filter_eq_self.2
    intro row hr
    simp only [List.mem_mapIdx] at hr
    obtain ⟨i, hi, rfl⟩ := hr
    rw [keepRow_iff]
    exact ⟨0, "level_0".toList, _, rfl, rfl, by decide, fun h => by cases h⟩
  rw [hfilter]
  have hmem : ∀ x : Str, x ≠ "internal_id".toList → x ≠ "level_0".toList → (∀ n ∈ t.names, strip n ≠ x) →
      ¬ x ∈ "level_0".toList :: t.names.map (fun n => if n = "index".toList then "internal_id".toList else strip n) := by
    intro x h1 h2 h3 h
    rcases List.mem_cons.1 h with h | h
    · exact h2 h
    · obtain ⟨n, hn, hx⟩ := List.mem_map.1 h
      split at hx
      · exact h1 hx.symm
      · exact h3 n hn hx
  unfold ensureBlank
  simp only
  rw [if_neg (hmem _ (by decide) (by decide) herr)]
  simp only [insertBlank, pyInsert, List.take_zero, List.drop_zero, List.nil_append]
  rw [if_neg (by
    rw [List.mem_cons, not_or]
    exact ⟨by decide, hmem _ (by decide) (by decide) hwarn⟩)]
  simp only [List.take_succ_cons, List.take_zero, List.drop_succ_cons, List.drop_zero, List.cons_append, List.nil_append, List.map_map]
  congr 2
  rw [List.mapIdx_eq_zipIdx_map, List.mapIdx_eq_zipIdx_map, List.map_map]
  apply List.map_congr_left
  intro e _
  simp [Function.comp, lowerCell, funext lowered_eq]

/-- **With both `index` and `level_0`, and no identifier, it raises.** -/
theorem C84_raises (t : RawTable) : cleanInput t = .error .value ↔ idName ∉ t.names ∧ "index".toList ∈ t.names ∧ "level_0".toList ∈ t.names := by
  unfold cleanInput addId
  by_cases hid : idName ∈ t.names
  · rw [if_pos hid]
    simp [hid]
  · rw [if_neg hid]
    by_cases hix : "index".toList ∈ t.names
    · by_cases hl : "level_0".toList ∈ t.names
      · simp only [if_neg (not_not.2 hix), if_pos hl]
        simp only [hid, hix, hl, not_false_eq_true, and_self]
      · simp only [if_neg (not_not.2 hix), if_neg hl]
        exact ⟨fun h => (by cases h), fun h => absurd h.2.2 hl⟩
    · simp only [if_pos hix]
      exact ⟨fun h => (by cases h), fun h => absurd h.2.1 hix⟩

/-- A table with a blank row and upper-case text. -/
example : cleanInput ⟨[" ccy".toList, "rate".toList], [[.str "AUD".toList, .nan], [.nan, .nan], [.nan, .num 5]]⟩ =
    .ok ⟨["errors".toList, "warnings".toList, "internal_id".toList, "ccy".toList, "rate".toList],
      [[.str [], .str [], .num 0, .str "aud".toList, .nan], [.str [], .str [], .num 2, .nan, .num 5]]⟩ := by
  rw [C84_cleaned_partial _ ⟨by decide, by decide⟩ (by decide) (by decide) (by decide) (by decide)]
  decide

end Frm.Props
