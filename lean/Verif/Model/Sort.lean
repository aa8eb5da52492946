/-!
# `DataFrame.sort_values` on an integer key

A stable sort; where the order of equal keys matters the theorems quantify over sorts.
-/

namespace Frm

/-- Insert before the first larger key.  For `frm/term_structures/fx_helpers.py:61`. -/
def insertBy {α : Type} (key : α → Int) (a : α) : List α → List α
  | [] => [a]
  | b :: l => if key a ≤ key b then a :: b :: l else b :: insertBy key a l

/-- `sort_values(key)` (pandas).  For `frm/term_structures/fx_helpers.py:61`. -/
def sortBy {α : Type} (key : α → Int) : List α → List α
  | [] => []
  | a :: l => insertBy key a (sortBy key l)

end Frm
