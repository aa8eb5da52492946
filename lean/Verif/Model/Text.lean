/-!
# Text

Python strings are modelled as lists of characters; `lower`/`upper` are the ASCII case maps (Lean's `Char.toLower`,
`Char.toUpper`).  Non-ASCII case folding and Unicode digits are not modelled.
-/

namespace Frm

/-- A Python string.  For `frm/enums/helper.py:8-17`. -/
abbrev Str := List Char

/-- `str.lower()`.  For `frm/enums/helper.py:8-17`. -/
def lower (s : Str) : Str := s.map Char.toLower

/-- `str.upper()`.  For `frm/enums/helper.py:8-17`. -/
def upper (s : Str) : Str := s.map Char.toUpper

/-- The characters removed by `str.strip()` (the ASCII ones: blank, U+0009–U+000D, U+001C–U+001F).
For `frm/enums/helper.py:8-17`. -/
def isSpace (c : Char) : Bool :=
  c == ' ' || (9 ≤ c.toNat && c.toNat ≤ 13) || (28 ≤ c.toNat && c.toNat ≤ 31)

/-- `str.strip()`.  For `frm/enums/helper.py:8-17`. -/
def strip (s : Str) : Str := ((s.dropWhile isSpace).reverse.dropWhile isSpace).reverse

/-- Value of a decimal digit character.  For `frm/utils/tenor.py:57`. -/
def digitVal (c : Char) : Nat := c.toNat - 48

end Frm
