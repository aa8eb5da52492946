import Mathlib.Data.Nat.Digits.Defs
import Mathlib.Data.Rat.Floor
import Verif.Model.FxHelpers
import Verif.Model.Err

/-!
# `frm/term_structures/interest_rate_option_helpers.py`: headings of the quote columns

The three functions that standardise the headings (141-202).  A float is a rational number, and every operation on floats is
followed by `fl`, the rounding to the nearest float, which is a parameter: overflow, infinities and the sign of zero are not
modelled.  `str` of a float which is not an integer is the parameter `reprFloat`.
-/

namespace Frm

set_option autoImplicit false

/-! ## Regular expressions (`re`, on ASCII) -/

/-- `[...]?` for a class of characters.  For `frm/term_structures/interest_rate_option_helpers.py:143`. -/
def Pat.optChar (p : Char → Bool) : Pat := fun s =>
  match s with
  | c :: rest => if p c then [rest, s] else [s]
  | [] => [s]

/-- `\d+`, longest first.  For `frm/term_structures/interest_rate_option_helpers.py:158-159`. -/
def Pat.digits : Pat
  | [] => []
  | c :: rest => if c.isDigit then Pat.digits rest ++ [rest] else []

/-- `(...)?`.  For `frm/term_structures/interest_rate_option_helpers.py:158-159`. -/
def Pat.opt (p : Pat) : Pat := fun s => p s ++ [s]

/-- `re.search(p, s) is not None`.  For `frm/term_structures/interest_rate_option_helpers.py:168`. -/
def Pat.search (p : Pat) (s : Str) : Bool := s.tails.any (fun t => !(p t).isEmpty)

/-- `[+-]`.  For `frm/term_structures/interest_rate_option_helpers.py:158-159`. -/
def isSign (c : Char) : Bool := c == '+' || c == '-'

/-- `[ -]`.  For `frm/term_structures/interest_rate_option_helpers.py:143`. -/
def isAtmSep (c : Char) : Bool := c == ' ' || c == '-'

/-- `(a|at)[ -]?(t|the)[ -]?(m|money)[ -]?(f|forward)?` (`interest_rate_option_helpers.py:143`). -/
def atmfPattern : Pat :=
  Pat.seq (Pat.alts ["a".toList, "at".toList]) (Pat.seq (Pat.optChar isAtmSep) (Pat.seq (Pat.alts ["t".toList, "the".toList])
    (Pat.seq (Pat.optChar isAtmSep) (Pat.seq (Pat.alts ["m".toList, "money".toList]) (Pat.seq (Pat.optChar isAtmSep)
      (Pat.opt (Pat.alts ["f".toList, "forward".toList])))))))

/-- `[+-]?\s?\d+\s?(bps|bp)` (`interest_rate_option_helpers.py:158`, 186). -/
def bpsPattern : Pat :=
  Pat.seq (Pat.optChar isSign) (Pat.seq (Pat.optChar isSpace) (Pat.seq Pat.digits (Pat.seq (Pat.optChar isSpace)
    (Pat.alts ["bps".toList, "bp".toList]))))

/-- `[+-]?\s?\d+(\.\d+)?\s?%` (`interest_rate_option_helpers.py:159`, 187). -/
def percentPattern : Pat :=
  Pat.seq (Pat.optChar isSign) (Pat.seq (Pat.optChar isSpace) (Pat.seq Pat.digits
    (Pat.seq (Pat.opt (Pat.seq (Pat.lit ".".toList) Pat.digits)) (Pat.seq (Pat.optChar isSpace) (Pat.lit "%".toList)))))

/-! ## Numbers -/

/-- `s.replace(p, '')` for a non-empty `p`; the first argument counts the characters of an occurrence still to be skipped.
For `frm/term_structures/interest_rate_option_helpers.py:169`. -/
def removeFrom (p : Str) : Nat → Str → Str
  | _, [] => []
  | k + 1, _ :: s => removeFrom p k s
  | 0, c :: s => if p.isPrefixOf (c :: s) then removeFrom p (p.length - 1) s else c :: removeFrom p 0 s

/-- `s.replace(p, '')`.  For `frm/term_structures/interest_rate_option_helpers.py:169`. -/
def removeStr (p s : Str) : Str := removeFrom p 0 s

/-- `float` (of a string) allows underscores between digits only; the first argument is the character before.
For `frm/term_structures/interest_rate_option_helpers.py:169`. -/
def underscoresOk : Char → Str → Bool
  | prev, [] => prev != '_'
  | prev, c :: s =>
    (if c == '_' then prev.isDigit else if prev == '_' then c.isDigit else true) && underscoresOk c s

/-- The number written with decimal digits.  For `frm/term_structures/interest_rate_option_helpers.py:169`. -/
def digitsVal (s : Str) : Nat := s.foldl (fun n c => 10 * n + digitVal c) 0

/-- A sign, and the rest.  For `frm/term_structures/interest_rate_option_helpers.py:169`. -/
def splitSign : Str → Int × Str
  | '+' :: s => (1, s)
  | '-' :: s => (-1, s)
  | s => (1, s)

/-- The exponent of a number, `none` if the text is not one (`float` of a string).
For `frm/term_structures/interest_rate_option_helpers.py:169`. -/
def parseExponent : Str → Option Int
  | [] => some 0
  | c :: s =>
    if c = 'e' ∨ c = 'E' then
      let p := splitSign s
      if p.2 ≠ [] ∧ p.2.all Char.isDigit then some (p.1 * digitsVal p.2) else none
    else none

/-- The digits after a decimal point, and the rest (`float` of a string).
For `frm/term_structures/interest_rate_option_helpers.py:169`. -/
def splitFraction : Str → Str × Str
  | '.' :: s => (s.takeWhile Char.isDigit, s.dropWhile Char.isDigit)
  | s => ([], s)

/-- `float(s)`, before rounding; `none`: `ValueError`.  `'inf'`, `'nan'` and `'infinity'` are not numbers here: the texts
converted contain a digit.  For `frm/term_structures/interest_rate_option_helpers.py:169`. -/
def parseFloat (s : Str) : Option ℚ :=
  let s := strip s
  if underscoresOk ' ' s then
    let p := splitSign (s.filter (· != '_'))
    let whole := p.2.takeWhile Char.isDigit
    let f := splitFraction (p.2.dropWhile Char.isDigit)
    if whole ++ f.1 = [] then none
    else (parseExponent f.2).map (fun e : Int => p.1 * digitsVal (whole ++ f.1) * (10 : ℚ) ^ (e - (f.1.length : Int)))
  else none

/-- `str(n)` of an integer.  For `frm/term_structures/interest_rate_option_helpers.py:170`. -/
def intStr (n : Int) : Str :=
  let ds := if n = 0 then ['0'] else ((Nat.digits 10 n.natAbs).reverse.map Nat.digitChar)
  if n < 0 then '-' :: ds else ds

/-- Nearest integer, ties to even.  For `frm/term_structures/interest_rate_option_helpers.py:169`. -/
def roundHalfEven (x : ℚ) : Int :=
  let f := ⌊x⌋
  if x - f < 1 / 2 then f else if 1 / 2 < x - f then f + 1 else if f % 2 = 0 then f else f + 1

/-- `round(x, 8)`.  For `frm/term_structures/interest_rate_option_helpers.py:169`. -/
def round8 (fl : ℚ → ℚ) (x : ℚ) : ℚ := fl (roundHalfEven (x * 10 ^ 8) / 10 ^ 8)

/-- `int(x)`.  For `frm/term_structures/interest_rate_option_helpers.py:170`. -/
def truncRat (x : ℚ) : Int := if 0 ≤ x then ⌊x⌋ else ⌈x⌉

/-! ## Headings -/

/-- `d[k] = v`.  For `frm/term_structures/interest_rate_option_helpers.py:171-172`. -/
def dictSet {α : Type} (d : List (Str × α)) (k : Str) (v : α) : List (Str × α) :=
  if k ∈ d.map (·.1) then d.map (fun e => if e.1 = k then (k, v) else e) else d ++ [(k, v)]

/-- The heading written for the value `v` (`interest_rate_option_helpers.py:170`, 176, 192, 198; `scale` is 10000 or 100). -/
def quoteHeading (fl : ℚ → ℚ) (reprFloat : ℚ → Str) (v scale : ℚ) : Str :=
  let w := fl (v * scale)
  (if (round8 fl w).den = 1 then intStr (truncRat w) else reprFloat (round8 fl w)) ++ "bps".toList

/-- One turn of the loops (`interest_rate_option_helpers.py:168-178`, 190-200): the new heading and the value, `none` for a
heading that is left alone. -/
def quoteColumn (fl : ℚ → ℚ) (reprFloat : ℚ → Str) (s : Str) : Except Err (Option (Str × ℚ)) :=
  if Pat.search bpsPattern (lower s) then
    match parseFloat (removeStr [' '] (removeStr "bp".toList (removeStr "bps".toList s))) with
    | none => .error .value
    | some x =>
      let v := round8 fl (fl (fl x / 10000))
      .ok (some (quoteHeading fl reprFloat v 10000, v))
  else if Pat.search percentPattern (lower s) then
    match parseFloat (removeStr [' '] (removeStr ['%'] s)) with
    | none => .error .value
    | some x =>
      let v := round8 fl (fl (fl x / 100))
      .ok (some (quoteHeading fl reprFloat v 100, v))
  else .ok none

/-- The two dictionaries returned: from old to new headings, and from new headings to values.
For `frm/term_structures/interest_rate_option_helpers.py:155-180`. -/
structure QuoteHeadings where
  renamed : List (Str × Str)
  values : List (Str × ℚ)
deriving DecidableEq, Repr

/-- The loop over the headings (`interest_rate_option_helpers.py:167-178`, 189-200). -/
def quoteColumns (fl : ℚ → ℚ) (reprFloat : ℚ → Str) : List Str → QuoteHeadings → Except Err QuoteHeadings
  | [], acc => .ok acc
  | s :: rest, acc =>
    match quoteColumn fl reprFloat s with
    | .error e => .error e
    | .ok none => quoteColumns fl reprFloat rest acc
    | .ok (some (h, v)) => quoteColumns fl reprFloat rest ⟨dictSet acc.renamed s h, dictSet acc.values h v⟩

/-- `standardise_atmf_quote_col_names` (`interest_rate_option_helpers.py:141-152`). -/
def atmfHeadings (cols : List Str) : Except Err (List (Str × Str)) :=
  let d := cols.foldl (fun d s => if Pat.search atmfPattern (lower s) then dictSet d s "atmf".toList else d) []
  if d.length = 1 then .ok d else .error .assertion

/-- `standardise_relative_quote_col_names` (`interest_rate_option_helpers.py:155-180`). -/
def relativeHeadings (fl : ℚ → ℚ) (reprFloat : ℚ → Str) (cols : List Str) : Except Err QuoteHeadings :=
  match atmfHeadings cols with
  | .error e => .error e
  | .ok d => quoteColumns fl reprFloat cols ⟨d, [("atmf".toList, 0)]⟩

/-- `standardise_absolute_quote_col_names` (`interest_rate_option_helpers.py:183-202`). -/
def absoluteHeadings (fl : ℚ → ℚ) (reprFloat : ℚ → Str) (cols : List Str) : Except Err QuoteHeadings :=
  quoteColumns fl reprFloat cols ⟨[], []⟩

end Frm
