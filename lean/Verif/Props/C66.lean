import Verif.Model.Utilities
import Mathlib.Data.List.Basic
import Mathlib.Data.List.Nodup
import Mathlib.Data.List.Perm.Basic

/-!
# C66: the table utilities preserve the data
-/

namespace Frm.Props

set_option autoImplicit false

open Frm

/-! ## Moving a column -/

section move
variable {β : Type}

theorem find_label {df : List (Str × β)} (hn : (df.map (·.1)).Nodup) {e : Str × β} (he : e ∈ df) :
    df.find? (fun x => decide (x.1 = e.1)) = some e := by
  induction df with
  | nil => cases he
  | cons a l ih =>
    simp only [List.map_cons, List.nodup_cons] at hn
    rcases List.mem_cons.1 he with rfl | h
    · simp
    · have : ¬ a.1 = e.1 := fun h' => hn.1 (h' ▸ List.mem_map_of_mem h)
      rw [List.find?_cons_of_neg (by simpa using this)]
      exact ih hn.2 h

theorem select_labels {df : List (Str × β)} (hn : (df.map (·.1)).Nodup) :
    ∀ l : List (Str × β), (∀ e ∈ l, e ∈ df) → selectCols df (l.map (·.1)) = .ok l
  | [], _ => rfl
  | e :: l, h => by
    simp only [List.map_cons, selectCols]
    rw [find_label hn (h e List.mem_cons_self), select_labels hn l (fun x hx => h x (List.mem_cons_of_mem _ hx))]

theorem colIndex_at {A D : List (Str × β)} {e : Str × β} (hn : ((A ++ e :: D).map (·.1)).Nodup) :
    colIndex ((A ++ e :: D).map (·.1)) e.1 = .ok A.length := by
  have hnot : ∀ x ∈ A.map (·.1), ¬ x = e.1 := by
    intro x hx h
    subst h
    rw [List.map_append, List.nodup_append] at hn
    exact hn.2.2 _ hx _ (by simp) rfl
  have : ((A ++ e :: D).map (·.1)).findIdx? (fun c => decide (c = e.1)) = some A.length := by
    rw [List.map_append, List.findIdx?_append, List.findIdx?_eq_none_iff.2 (fun x hx => by simpa using hnot x hx)]
    simp [List.findIdx?_cons]
  unfold colIndex
  rw [this]

theorem colIndex_none {cols : List Str} {n : Str} (h : n ∉ cols) : colIndex cols n = .error .value := by
  unfold colIndex
  rw [List.findIdx?_eq_none_iff.2 (fun x hx => by
    simp only [decide_eq_false_iff_not]
    rintro rfl
    exact h hx)]

theorem move_at {df A D A' D' : List (Str × β)} {m r : Str × β} (hn : (df.map (·.1)).Nodup) (h1 : df = A ++ r :: D) (h2 : df = A' ++ m :: D') :
    moveColAfter df m.1 r.1 = .ok (pyInsert (A' ++ D') (A.length + 1) m) := by
  have e1 : colIndex (df.map (·.1)) r.1 = .ok A.length := by
    subst h1
    exact colIndex_at hn
  have e2 : colIndex (df.map (·.1)) m.1 = .ok A'.length := by
    subst h2
    exact colIndex_at hn
  have e3 : (df.map (·.1)).eraseIdx A'.length = (A' ++ D').map (·.1) := by
    rw [h2, List.map_append, List.map_append, List.map_cons, List.eraseIdx_append_of_length_le (by simp)]
    simp
  have e4 : pyInsert ((A' ++ D').map (·.1)) (A.length + 1) m.1 = (pyInsert (A' ++ D') (A.length + 1) m).map (·.1) := by
    simp [pyInsert, List.map_take, List.map_drop]
  unfold moveColAfter
  simp only [e1, e2, e3, e4]
  apply select_labels hn
  intro e he
  unfold pyInsert at he
  rw [List.mem_append, List.mem_cons] at he
  have hin : e ∈ A' ++ D' → e ∈ df := by
    intro h
    rw [h2]
    rw [List.mem_append] at h ⊢
    exact h.imp id (List.mem_cons_of_mem _)
  rcases he with he | rfl | he
  · exact hin (List.mem_of_mem_take he)
  · rw [h2]
    simp
  · exact hin (List.mem_of_mem_drop he)

/-- **C66.**  A column that is after the reference column is moved immediately after it. -/
theorem C66_move_partial (A B D : List (Str × β)) (r m : Str × β) (hn : ((A ++ r :: (B ++ m :: D)).map (·.1)).Nodup) :
    moveColAfter (A ++ r :: (B ++ m :: D)) m.1 r.1 = .ok (A ++ r :: m :: (B ++ D)) := by
  rw [move_at hn rfl (show A ++ r :: (B ++ m :: D) = (A ++ r :: B) ++ m :: D by simp)]
  unfold pyInsert
  simp [List.take_append, List.drop_append, List.take_of_length_le, List.drop_eq_nil_of_le]

/-- **C66 fails** for a column that is before the reference column: it is placed after the column that follows the reference. -/
theorem C66_move_before (A B D : List (Str × β)) (m r next : Str × β) (hn : ((A ++ m :: (B ++ r :: next :: D)).map (·.1)).Nodup) :
    moveColAfter (A ++ m :: (B ++ r :: next :: D)) m.1 r.1 = .ok (A ++ (B ++ r :: next :: m :: D)) := by
  rw [move_at hn (show A ++ m :: (B ++ r :: next :: D) = (A ++ m :: B) ++ r :: (next :: D) by simp) rfl]
  unfold pyInsert
  have e1 : (A ++ (B ++ r :: next :: D)) = (A ++ B ++ [r, next]) ++ D := by simp
  have e2 : (A ++ m :: B).length + 1 = (A ++ B ++ [r, next]).length := by simp; omega
  rw [e1, e2, List.take_left', List.drop_left']
  all_goals simp

/-- The only such column that lands where it should is one moved after the last column. -/
theorem C66_move_last (A B : List (Str × β)) (m r : Str × β) (hn : ((A ++ m :: (B ++ [r])).map (·.1)).Nodup) :
    moveColAfter (A ++ m :: (B ++ [r])) m.1 r.1 = .ok (A ++ (B ++ [r, m])) := by
  rw [move_at hn (show A ++ m :: (B ++ [r]) = (A ++ m :: B) ++ r :: [] by simp) rfl]
  unfold pyInsert
  rw [List.take_of_length_le (by simp), List.drop_eq_nil_of_le (by simp)]
  simp

/-- A column moved after itself changes places with the next. -/
theorem C66_move_self (A D : List (Str × β)) (m next : Str × β) (hn : ((A ++ m :: next :: D).map (·.1)).Nodup) :
    moveColAfter (A ++ m :: next :: D) m.1 m.1 = .ok (A ++ next :: m :: D) := by
  rw [move_at hn rfl rfl]
  unfold pyInsert
  simp [List.take_append, List.drop_append, List.take_of_length_le, List.drop_eq_nil_of_le]

/-- Both columns present: no column is lost, added or changed, and the others keep their order.  One absent: `ValueError`. -/
theorem C66_columns (df : List (Str × β)) (m r : Str) (hn : (df.map (·.1)).Nodup) :
    ((m ∉ df.map (·.1) ∨ r ∉ df.map (·.1)) → moveColAfter df m r = .error .value) ∧
    (m ∈ df.map (·.1) → r ∈ df.map (·.1) → ∃ out, moveColAfter df m r = .ok out ∧ out.Perm df ∧
      out.filter (fun e => e.1 ≠ m) = df.filter (fun e => e.1 ≠ m)) := by
  constructor
  · intro h
    unfold moveColAfter
    by_cases hr : r ∈ df.map (·.1)
    · have hm : m ∉ df.map (·.1) := h.resolve_right (not_not.2 hr)
      obtain ⟨e, he, rfl⟩ := List.mem_map.1 hr
      obtain ⟨A, D, rfl⟩ := List.append_of_mem he
      simp only [colIndex_at hn, colIndex_none hm]
    · simp only [colIndex_none hr]
  · intro hm hr
    obtain ⟨e, he, rfl⟩ := List.mem_map.1 hr
    obtain ⟨A, D, hA⟩ := List.append_of_mem he
    obtain ⟨e', he', rfl⟩ := List.mem_map.1 hm
    obtain ⟨A', D', hA'⟩ := List.append_of_mem he'
    refine ⟨_, move_at hn hA hA', ?_, ?_⟩
    · unfold pyInsert
      refine List.perm_middle.trans ?_
      rw [List.take_append_drop, hA']
      exact List.perm_middle.symm
    · unfold pyInsert
      rw [List.filter_append, List.filter_cons_of_neg (by simp), ← List.filter_append, List.take_append_drop, hA', List.filter_append,
        List.filter_append, List.filter_cons_of_neg (by simp)]

end move

/-- Moving forward and backward, on a table of four columns. -/
example : moveColAfter [("a".toList, 1), ("b".toList, 2), ("c".toList, 3), ("d".toList, 4)] "d".toList "a".toList =
    .ok [("a".toList, 1), ("d".toList, 4), ("b".toList, 2), ("c".toList, 3)] ∧
    moveColAfter [("a".toList, 1), ("b".toList, 2), ("c".toList, 3), ("d".toList, 4)] "a".toList "b".toList =
    .ok [("b".toList, 2), ("c".toList, 3), ("a".toList, 1), ("d".toList, 4)] :=
  ⟨C66_move_partial [] [("b".toList, 2), ("c".toList, 3)] [] _ _ (by decide), C66_move_before [] [] [("d".toList, 4)] _ _ _ (by decide)⟩

/-! ## Copying messages -/

section copy
variable {β γ : Type}

theorem set_id (r : MsgRow β) (v : MsgCol) (s : Str) : (r.set v s).id = r.id := by cases v <;> rfl
theorem set_rest (r : MsgRow β) (v : MsgCol) (s : Str) : (r.set v s).rest = r.rest := by cases v <;> rfl
theorem set_cell (r : MsgRow β) (v : MsgCol) (s : Str) : (r.set v s).cell v = s := by cases v <;> rfl
theorem set_other (r : MsgRow β) {v w : MsgCol} (h : v ≠ w) (s : Str) : (r.set v s).cell w = r.cell w := by
  cases v <;> cases w <;> first | rfl | exact absurd rfl h
theorem set_set (r : MsgRow β) (v : MsgCol) (s t : Str) : (r.set v s).set v t = r.set v t := by cases v <;> rfl

/-- What one column's loop does to a row. -/
def copiedRow (processed : List (MsgRow γ)) (v : MsgCol) (ids : List Int) (r : MsgRow β) : MsgRow β :=
  match processed.find? (fun p => p.id = r.id) with
  | none => r
  | some p => if r.id ∈ ids then r.set v (p.cell v) else r

theorem copiedRow_id (processed : List (MsgRow γ)) (v : MsgCol) (ids : List Int) (r : MsgRow β) : (copiedRow processed v ids r).id = r.id := by
  unfold copiedRow
  split
  · rfl
  · split
    · exact set_id _ _ _
    · rfl

theorem copyMessage_map (processed : List (MsgRow γ)) (v : MsgCol) (input : List (MsgRow β)) (i : Int) :
    copyMessage processed v input i = input.map (copiedRow processed v [i]) := by
  unfold copyMessage
  cases h : processed.find? (fun p => decide (p.id = i)) with
  | none =>
    simp only
    symm
    apply List.map_congr_left (g := id) (fun r _ => ?_) |>.trans (List.map_id _)
    unfold copiedRow
    by_cases hr : r.id = i
    · rw [hr, h]; rfl
    · split
      · rfl
      · rw [if_neg (by simpa using hr)]; rfl
  | some p =>
    simp only
    apply List.map_congr_left
    intro r _
    unfold copiedRow
    by_cases hr : r.id = i
    · rw [hr, h, if_pos rfl]
      simp
    · rw [if_neg hr]
      split
      · rfl
      · rw [if_neg (by simpa using hr)]

theorem copiedRow_comp (processed : List (MsgRow γ)) (v : MsgCol) (i : Int) (ids : List Int) (r : MsgRow β) :
    copiedRow processed v ids (copiedRow processed v [i] r) = copiedRow processed v (i :: ids) r := by
  unfold copiedRow
  cases h : processed.find? (fun p => decide (p.id = r.id)) with
  | none => simp only [h]
  | some p =>
    simp only [List.mem_cons, List.not_mem_nil, or_false]
    by_cases hr : r.id = i
    · rw [if_pos hr, set_id]
      simp only [h, set_set]
      rw [if_pos (Or.inl hr)]
      split <;> rfl
    · rw [if_neg hr]
      simp only [h, hr, false_or]

theorem copyColumn_map (processed : List (MsgRow γ)) (input : List (MsgRow β)) (v : MsgCol) :
    copyColumn processed input v = input.map (copiedRow processed v ((processed.filter (fun p => p.cell v ≠ [])).map (·.id))) := by
  unfold copyColumn
  generalize (processed.filter (fun p => p.cell v ≠ [])).map (·.id) = ids
  induction ids generalizing input with
  | nil =>
    symm
    apply List.map_congr_left (g := id) (fun r _ => ?_) |>.trans (List.map_id _)
    unfold copiedRow
    split <;> simp
  | cons i ids ih =>
    rw [List.foldl_cons, ih, copyMessage_map, List.map_map]
    apply List.map_congr_left
    intro r _
    exact copiedRow_comp processed v i ids r

/-- What the copy does to a row. -/
theorem copied_cell (processed : List (MsgRow γ)) (v w : MsgCol) (r : MsgRow β) :
    let out := copiedRow processed v ((processed.filter (fun p => p.cell v ≠ [])).map (·.id)) r
    out.rest = r.rest ∧ (v ≠ w → out.cell w = r.cell w) ∧
    (∀ p, processed.find? (fun p => p.id = r.id) = some p → (∃ p' ∈ processed, p'.id = r.id ∧ p'.cell v ≠ []) → out.cell v = p.cell v) ∧
    ((∀ p' ∈ processed, p'.id = r.id → p'.cell v = []) → out.cell v = r.cell v) := by
  intro out
  have hmem : r.id ∈ (processed.filter (fun p => p.cell v ≠ [])).map (·.id) ↔ ∃ p' ∈ processed, p'.id = r.id ∧ p'.cell v ≠ [] := by
    simp only [List.mem_map, List.mem_filter, decide_eq_true_eq]
    constructor
    · rintro ⟨p, ⟨h1, h2⟩, h3⟩; exact ⟨p, h1, h3, h2⟩
    · rintro ⟨p, h1, h3, h2⟩; exact ⟨p, ⟨h1, h2⟩, h3⟩
  have hout : out = copiedRow processed v ((processed.filter (fun p => p.cell v ≠ [])).map (·.id)) r := rfl
  unfold copiedRow at hout
  cases h : processed.find? (fun p => decide (p.id = r.id)) with
  | none =>
    simp only [h] at hout
    rw [hout]
    exact ⟨rfl, fun _ => rfl, fun p hp => (by cases hp), fun _ => rfl⟩
  | some p =>
    simp only [h] at hout
    by_cases hm : r.id ∈ (processed.filter (fun p => p.cell v ≠ [])).map (·.id)
    · rw [if_pos hm] at hout
      rw [hout]
      refine ⟨set_rest _ _ _, fun hvw => set_other _ hvw _, fun q hq _ => ?_, fun hno => ?_⟩
      · cases hq
        exact set_cell _ _ _
      · obtain ⟨p', h1, h2, h3⟩ := hmem.1 hm
        exact absurd (hno p' h1 h2) h3
    · rw [if_neg hm] at hout
      rw [hout]
      exact ⟨rfl, fun _ => rfl, fun q _ hex => absurd (hmem.2 hex) hm, fun _ => rfl⟩

/-- **C66.**  The copy keeps the rows, their order, their identifiers and all other cells; a message cell becomes the message of the first
processed row of that identifier if some processed row of that identifier has a message, and is unchanged otherwise. -/
theorem C66_copy (processed : List (MsgRow γ)) (input : List (MsgRow β)) :
    (copyMessages processed input).length = input.length ∧
    ∀ (k : Nat) r, input[k]? = some r → ∃ out, (copyMessages processed input)[k]? = some out ∧ out.id = r.id ∧ out.rest = r.rest ∧
      ∀ v, (∀ p, processed.find? (fun p => p.id = r.id) = some p → (∃ p' ∈ processed, p'.id = r.id ∧ p'.cell v ≠ []) → out.cell v = p.cell v) ∧
        ((∀ p' ∈ processed, p'.id = r.id → p'.cell v = []) → out.cell v = r.cell v) := by
  unfold copyMessages
  simp only [List.foldl_cons, List.foldl_nil, copyColumn_map, List.map_map, List.length_map, List.getElem?_map, true_and]
  intro k r hr
  rw [hr]
  refine ⟨_, rfl, ?_, ?_, ?_⟩
  · simp only [Function.comp, copiedRow_id]
  · simp only [Function.comp]
    rw [(copied_cell processed .warnings .warnings _).1, (copied_cell processed .errors .errors r).1]
  · intro v
    simp only [Function.comp]
    set r1 := copiedRow processed .errors ((processed.filter (fun p => p.cell .errors ≠ [])).map (·.id)) r with hr1
    have hid : r1.id = r.id := copiedRow_id _ _ _ _
    obtain ⟨-, he2, he3, he4⟩ := copied_cell processed .errors v r
    obtain ⟨-, hw2, hw3, hw4⟩ := copied_cell processed .warnings v r1
    rw [← hr1] at he2 he3 he4
    rw [hid] at hw3 hw4
    cases v with
    | errors =>
      rw [hw2 (fun h => by cases h)]
      exact ⟨he3, he4⟩
    | warnings =>
      rw [he2 (fun h => by cases h)] at hw4
      exact ⟨hw3, hw4⟩

/-- **C66.**  With distinct identifiers: the message of the processed row where there is one, otherwise what was there. -/
theorem C66_copy_distinct (processed : List (MsgRow γ)) (input : List (MsgRow β)) (hd : (processed.map (·.id)).Nodup) (k : Nat) (r out : MsgRow β)
    (hr : input[k]? = some r) (hout : (copyMessages processed input)[k]? = some out) (v : MsgCol) :
    (∀ p ∈ processed, p.id = r.id → p.cell v ≠ [] → out.cell v = p.cell v) ∧
    ((∀ p ∈ processed, p.id = r.id → p.cell v = []) → out.cell v = r.cell v) := by
  obtain ⟨out', h1, -, -, h2⟩ := (C66_copy processed input).2 k r hr
  rw [hout] at h1
  cases h1
  refine ⟨fun p hp hid hne => ?_, (h2 v).2⟩
  have hfind : processed.find? (fun q => decide (q.id = r.id)) = some p := by
    rw [← hid]
    clear h2 hout hr
    induction processed with
    | nil => cases hp
    | cons a l ih =>
      simp only [List.map_cons, List.nodup_cons] at hd
      rcases List.mem_cons.1 hp with rfl | h
      · simp
      · have : ¬ a.id = p.id := fun h' => hd.1 (h' ▸ List.mem_map_of_mem h)
        rw [List.find?_cons_of_neg (by simpa using this)]
        exact ih hd.2 h
  exact (h2 v).1 p hfind ⟨p, hp, hid, hne⟩

end copy

/-- **With duplicate identifiers a message can be lost**: whatever the second row's message, the first row's empty one is copied, over any
message the input had. -/
theorem C66_duplicates (i : Int) (message old w w1 w2 : Str) (hm : message ≠ []) :
    (copyMessages [⟨i, [], w1, ()⟩, ⟨i, message, w2, ()⟩] [⟨i, old, w, ()⟩]).map (·.errors) = [[]] := by
  obtain ⟨hl, h⟩ := C66_copy [⟨i, [], w1, ()⟩, ⟨i, message, w2, ()⟩] [⟨i, old, w, ()⟩]
  obtain ⟨out, ho, -, -, hv⟩ := h 0 _ rfl
  have := (hv .errors).1 ⟨i, [], w1, ()⟩ (by simp) ⟨⟨i, message, w2, ()⟩, by simp, rfl, hm⟩
  cases hc : copyMessages [⟨i, [], w1, ()⟩, ⟨i, message, w2, ()⟩] [(⟨i, old, w, ()⟩ : MsgRow Unit)] with
  | nil => rw [hc] at hl; cases hl
  | cons a l =>
    rw [hc] at hl ho
    have hnil : l = [] := by simpa using hl
    simp only [List.getElem?_cons_zero, Option.some.injEq] at ho
    subst ho hnil
    simpa [MsgRow.cell] using this

/-- Two input rows, one of them with an error. -/
example : (copyMessages [⟨1, "bad".toList, [], ()⟩, ⟨2, [], [], ()⟩] [⟨2, [], "w".toList, ()⟩, ⟨1, [], [], ()⟩]).map (fun r => (r.id, r.errors, r.warnings)) =
    [(2, [], "w".toList), (1, "bad".toList, [])] := by decide

end Frm.Props
