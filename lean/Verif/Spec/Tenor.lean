import Verif.Model.Date
import Verif.Model.Text

/-!
# The tenor grammar and its meaning
-/

namespace Frm.Spec

/-- One or more decimal digits. -/
def Digits (s : Str) : Prop := s ≠ [] ∧ ∀ c ∈ s, '0' ≤ c ∧ c ≤ '9'

/-- Positional value of a digit string. -/
def numeral : Str → Int
  | [] => 0
  | c :: cs => ((c.toNat : Int) - 48) * 10 ^ cs.length + numeral cs

/-- The strings that are tenors, each with the offset it denotes. -/
inductive Denotes : Str → DateOffset → Prop
  | overnight : Denotes "on".toList (.days 1)
  | tomNext : Denotes "tn".toList (.days 2)
  | spot : Denotes "sp".toList (.days 0)
  | spotNext : Denotes "sn".toList (.days 1)
  | spotWeek : Denotes "sw".toList (.days 5)
  | days (n : Str) : Digits n → Denotes (n ++ "d".toList) (.days (numeral n))
  | weeks (n : Str) : Digits n → Denotes (n ++ "w".toList) (.weeks (numeral n))
  | months (n : Str) : Digits n → Denotes (n ++ "m".toList) (.months (numeral n))
  | years (n : Str) : Digits n → Denotes (n ++ "y".toList) (.years (numeral n))
  | yearsMonths (n k : Str) : Digits n → Digits k →
      Denotes (n ++ "y".toList ++ k ++ "m".toList) (.months (12 * numeral n + numeral k))

/-- One edit that a tenor's reader ignores: an extra blank, slash or line break anywhere, or a change of letter case. -/
inductive Cosmetic : Str → Str → Prop
  | insert (u v : Str) (c : Char) : c ∈ [' ', '/', '\n', '\r'] → Cosmetic (u ++ v) (u ++ c :: v)
  | upper (u v : Str) (c : Char) : Cosmetic (u ++ c :: v) (u ++ c.toUpper :: v)
  | lower (u v : Str) (c : Char) : Cosmetic (u ++ c :: v) (u ++ c.toLower :: v)

/-- Strings equal up to any number of cosmetic edits in either direction. -/
inductive SameTenor : Str → Str → Prop
  | refl (a : Str) : SameTenor a a
  | edit {a b c : Str} : SameTenor a b → Cosmetic b c → SameTenor a c
  | undo {a b c : Str} : SameTenor a b → Cosmetic c b → SameTenor a c

/-- The spellings of the four units. -/
def unitSpellings : List (Str × Char) :=
  [("d".toList, 'd'), ("day".toList, 'd'), ("days".toList, 'd'),
   ("w".toList, 'w'), ("week".toList, 'w'), ("weeks".toList, 'w'),
   ("m".toList, 'm'), ("mon".toList, 'm'), ("month".toList, 'm'), ("months".toList, 'm'),
   ("y".toList, 'y'), ("yr".toList, 'y'), ("yrs".toList, 'y'), ("year".toList, 'y'), ("years".toList, 'y')]

/-- The spellings of the market codes. -/
def codeSpellings : List (Str × Str) :=
  [("on".toList, "on".toList), ("overnight".toList, "on".toList),
   ("tn".toList, "tn".toList), ("tomnext".toList, "tn".toList), ("tomorrownext".toList, "tn".toList),
   ("sp".toList, "sp".toList), ("spot".toList, "sp".toList),
   ("sn".toList, "sn".toList), ("spotnext".toList, "sn".toList),
   ("sw".toList, "sw".toList), ("spotweek".toList, "sw".toList)]

end Frm.Spec
