import Verif.Model.Err
import Verif.Model.Text

/-!
# `frm/utils/utilities.py`

Tables are lists of labelled columns, or labels with rows.  Labels are strings.
-/

namespace Frm

set_option autoImplicit false

/-! ## `move_col_after` -/

/-- `cols.index(name)` (Python's `list.index`; `utilities.py:51`). -/
def colIndex (cols : List Str) (name : Str) : Except Err Nat :=
  match cols.findIdx? (fun c => c = name) with
  | some i => .ok i
  | none => .error .value

/-- `cols.insert(i, x)` for `i` that is not negative (Python's `list.insert`; `utilities.py:51`): past the end it appends. -/
def pyInsert {α : Type} (l : List α) (i : Nat) (x : α) : List α := l.take i ++ x :: l.drop i

/-- `df[cols]` (`utilities.py:52`): the columns of those labels, in that order. -/
def selectCols {β : Type} (df : List (Str × β)) : List Str → Except Err (List (Str × β))
  | [] => .ok []
  | c :: cs =>
    match df.find? (fun e => e.1 = c) with
    | none => .error .key
    | some e =>
      match selectCols df cs with
      | .error x => .error x
      | .ok es => .ok (e :: es)

/-- `move_col_after` (`utilities.py:49-52`).  The position of the reference is computed before the moved column is taken out. -/
def moveColAfter {β : Type} (df : List (Str × β)) (move ref : Str) : Except Err (List (Str × β)) :=
  let cols := df.map (·.1)
  match colIndex cols ref with
  | .error e => .error e
  | .ok i =>
    match colIndex cols move with
    | .error e => .error e
    | .ok j => selectCols df (pyInsert (cols.eraseIdx j) (i + 1) move)

/-! ## `copy_errors_and_warnings_to_input` -/

/-- A row of either table (`utilities.py:18-25`): the identifier, the two message cells and everything else. -/
structure MsgRow (β : Type) where
  id : Int
  errors : Str
  warnings : Str
  rest : β

/-- The two columns copied (`utilities.py:18`). -/
inductive MsgCol
  | errors
  | warnings

/-- `df[v]` of one row (`utilities.py:20`, 25). -/
def MsgRow.cell {β : Type} (r : MsgRow β) : MsgCol → Str
  | .errors => r.errors
  | .warnings => r.warnings

/-- An assignment to `df[v]` of one row (`utilities.py:25`). -/
def MsgRow.set {β : Type} (r : MsgRow β) (v : MsgCol) (s : Str) : MsgRow β :=
  match v with
  | .errors => { r with errors := s }
  | .warnings => { r with warnings := s }

/-- One turn of the inner loop (`utilities.py:22-25`): `iloc[0]` is the first processed row of that identifier. -/
def copyMessage {β γ : Type} (processed : List (MsgRow γ)) (v : MsgCol) (input : List (MsgRow β)) (i : Int) : List (MsgRow β) :=
  match processed.find? (fun p => p.id = i) with
  | none => input
  | some p => input.map (fun r => if r.id = i then r.set v (p.cell v) else r)

/-- The inner loop (`utilities.py:20-25`). -/
def copyColumn {β γ : Type} (processed : List (MsgRow γ)) (input : List (MsgRow β)) (v : MsgCol) : List (MsgRow β) :=
  ((processed.filter (fun p => p.cell v ≠ [])).map (·.id)).foldl (copyMessage processed v) input

/-- `copy_errors_and_warnings_to_input` (`utilities.py:16-27`), for tables that have the three columns.  Messages that are not strings
are not modelled. -/
def copyMessages {β γ : Type} (processed : List (MsgRow γ)) (input : List (MsgRow β)) : List (MsgRow β) :=
  [MsgCol.errors, .warnings].foldl (copyColumn processed) input

/-! ## `clean_input_dataframe` -/

/-- A cell (`utilities.py:35-39`): missing, a string, or anything else (here a number). -/
inductive Cell
  | nan
  | str (s : Str)
  | num (q : Int)
deriving DecidableEq

/-- A table with the default index (`utilities.py:30`). -/
structure RawTable where
  names : List Str
  rows : List (List Cell)
deriving DecidableEq

/-- The label of the identifier (`utilities.py:32-35`). -/
def idName : Str := "internal_id".toList

/-- `df.reset_index().rename(columns={'index': 'internal_id'})` (`utilities.py:33`).  pandas calls the new first column `index`, or `level_0`
when there already is a column `index`; with both present it raises.  Every column called `index` is then renamed. -/
def addId (t : RawTable) : Except Err RawTable :=
  let first : Except Err Str :=
    if "index".toList ∉ t.names then .ok "index".toList
    else if "level_0".toList ∈ t.names then .error .value
    else .ok "level_0".toList
  match first with
  | .error e => .error e
  | .ok n =>
    .ok ⟨(n :: t.names).map (fun c => if c = "index".toList then idName else c),
      t.rows.mapIdx (fun i row => Cell.num i :: row)⟩

/-- Whether `dropna(how='all')` keeps a row (`utilities.py:35`): it has a cell outside the identifier that is not missing. -/
def keepRow (names : List Str) (row : List Cell) : Bool :=
  (names.zip row).any (fun e => e.1 ≠ idName && e.2 ≠ Cell.nan)

/-- The function of line 39 on one cell (`utilities.py:39`). -/
def lowerCell : Cell → Cell
  | .str s => .str (lower s)
  | c => c

/-- `df.insert(loc, name, value='')` (`utilities.py:42`, 44). -/
def insertBlank (t : RawTable) (loc : Nat) (name : Str) : RawTable :=
  ⟨pyInsert t.names loc name, t.rows.map (fun row => pyInsert row loc (.str []))⟩

/-- `if name not in df.columns: df.insert(...)` (`utilities.py:41-44`). -/
def ensureBlank (t : RawTable) (loc : Nat) (name : Str) : RawTable :=
  if name ∈ t.names then t else insertBlank t loc name

/-- `clean_input_dataframe` (`utilities.py:30-46`), for tables with distinct labels. -/
def cleanInput (t : RawTable) : Except Err RawTable :=
  match (if idName ∈ t.names then .ok t else addId t) with
  | .error e => .error e
  | .ok t =>
    let kept := t.rows.filter (keepRow t.names)
    let low : RawTable := ⟨t.names.map strip, kept.map (fun row => row.map lowerCell)⟩
    .ok (ensureBlank (ensureBlank low 0 "errors".toList) 1 "warnings".toList)

end Frm
