import Verif.Model.BusDay
import Verif.Model.Text

/-!
# `frm/utils/tenor.py`
-/

namespace Frm

/-- `replacements` flattened in the order of the compiled alternation (`frm/utils/tenor.py:22-34`): each alias with the
key it is replaced by. -/
def tenorAliases : List (Str × Str) :=
  [("days".toList, "d".toList), ("day".toList, "d".toList),
   ("weeks".toList, "w".toList), ("week".toList, "w".toList),
   ("months".toList, "m".toList), ("month".toList, "m".toList), ("mon".toList, "m".toList),
   ("years".toList, "y".toList), ("year".toList, "y".toList), ("yrs".toList, "y".toList), ("yr".toList, "y".toList),
   ("overnight".toList, "on".toList),
   ("tomorrownext".toList, "tn".toList), ("tomnext".toList, "tn".toList),
   ("spotweek".toList, "sw".toList),
   ("spotnext".toList, "sn".toList),
   ("spot".toList, "sp".toList)]

/-- First alternative of the pattern that matches at the beginning of `s`: its length and replacement.
For `frm/utils/tenor.py:22-35`. -/
def matchAlias (s : Str) : Option (Nat × Str) :=
  (tenorAliases.find? (fun p => p.1.isPrefixOf s)).map (fun p => (p.1.length, p.2))

/-- `pattern.sub(…)` (`frm/utils/tenor.py:35`): scan left to right, replace at each position where an alternative
matches and continue after the match.  `skip` counts the remaining characters of the current match. -/
def substAliases : Nat → Str → Str
  | _, [] => []
  | skip + 1, _ :: cs => substAliases skip cs
  | 0, c :: cs =>
    match matchAlias (c :: cs) with
    | some (len, r) => r ++ substAliases (len - 1) cs
    | none => c :: substAliases 0 cs

/-- The characters `clean_tenor` deletes (`frm/utils/tenor.py:20`). -/
def tenorIgnored (c : Char) : Bool := c == ' ' || c == '/' || c == '\n' || c == '\r'

/-- `clean_tenor` (`frm/utils/tenor.py:15-37`).  Simplification: `unicodedata.normalize('NFKD', …)` is the identity on
ASCII input and is not modelled; the type check on non-strings is outside the model's types. -/
def cleanTenor (s : Str) : Str := substAliases 0 ((lower s).filter (fun c => !tenorIgnored c))

/-- `int(s)` on a string.  Only all-digit arguments and arguments containing a letter reach it from
`tenor_to_date_offset`; the former are evaluated, everything else is `ValueError`.  (CPython's limit of 4300 digits is
not modelled.)  For `frm/utils/tenor.py:57-70`. -/
def pyInt (s : Str) : Except Err Int :=
  if s ≠ [] ∧ s.all Char.isDigit then .ok (s.foldl (fun a c => 10 * a + (digitVal c : Int)) 0) else .error .value

/-- `re.search('^\d+U$', tenor) is not None`; `$` also matches before one trailing line feed.
For `frm/utils/tenor.py:56-65`. -/
def matchesUnit (u : Char) (s : Str) : Bool :=
  let ds := s.takeWhile Char.isDigit
  let rest := s.dropWhile Char.isDigit
  !ds.isEmpty && (rest == [u] || rest == [u, '\n'])

/-- `re.search('^\d+y\d+m$', tenor) is not None`.  For `frm/utils/tenor.py:68`. -/
def matchesYearMonth (s : Str) : Bool :=
  let ds := s.takeWhile Char.isDigit
  match s.dropWhile Char.isDigit with
  | [] => false
  | c :: rest => !ds.isEmpty && c == 'y' && matchesUnit 'm' rest

/-- `tenor_to_date_offset` (`frm/utils/tenor.py:40-76`). -/
def tenorToDateOffset (s : Str) : Except Err DateOffset :=
  if s = "on".toList then .ok (.days 1)
  else if s = "tn".toList then .ok (.days 2)
  else if s = "sp".toList then .ok (.days 0)
  else if s = "sn".toList then .ok (.days 1)
  else if s = "sw".toList then .ok (.days 5)
  else if matchesUnit 'd' s then do return .days (← pyInt s.dropLast)
  else if matchesUnit 'w' s then do return .weeks (← pyInt s.dropLast)
  else if matchesUnit 'm' s then do return .months (← pyInt s.dropLast)
  else if matchesUnit 'y' s then do return .years (← pyInt s.dropLast)
  else if matchesYearMonth s then do
    -- years, months = tenor[:-1].split('y')   (the pattern has exactly one 'y')
    let body := s.dropLast
    let years ← pyInt (body.takeWhile (· != 'y'))
    let months ← pyInt ((body.dropWhile (· != 'y')).drop 1)
    return .months (years * 12 + months)
  else .error .value

/-- The loop of `calc_implied_business_day_offset` (`frm/utils/tenor.py:112-117`); every turn moves the date forward by
at least one day, so the distance to the target bounds the number of turns. -/
def impliedOffsetLoop (cal : BusCal) (offsetDate : Int) : Nat → Int → Int → Int
  | 0, _, off => off
  | k + 1, date, off =>
    if date < offsetDate then impliedOffsetLoop cal offsetDate k (following cal (date + 1)) (off + 1) else off

/-- `calc_implied_business_day_offset` (`frm/utils/tenor.py:106-118`). -/
def calcImpliedBusinessDayOffset (cal : BusCal) (date offsetDate : Int) : Except Err Int := do
  pyAssert (decide (date ≥ offsetDate))
  return impliedOffsetLoop cal offsetDate (offsetDate - date).toNat date 0

/-- `get_fx_spot_day_offset` (`frm/utils/tenor.py:150-162`); a pair that is not six characters long falls off the end
and returns `None`. -/
def getFxSpotDayOffset (pair : Str) : Option Int :=
  if pair.length = 6 then
    if ["usdcad".toList, "cadusd".toList, "usdphp".toList, "phpusd".toList,
        "usdrub".toList, "rubusd".toList, "usdtry".toList, "tryusd".toList].contains pair then some 1 else some 2
  else none

/-- `get_ir_settlement_offset` (`frm/utils/tenor.py:165-173`). -/
def getIrSettlementOffset (ccy : Str) : Int :=
  if ["usd".toList, "cad".toList].contains ccy then 2
  else if ["aud".toList, "nzd".toList, "jpy".toList, "eur".toList].contains ccy then 2
  else if ["gbp".toList].contains ccy then 0
  else 2

/-- `validate_ccy_pair` (`frm/term_structures/fx_helpers.py:85-99`): normalised pair, domestic and foreign currency.
The warnings about unconventional quotation are not modelled. -/
def validateCcyPair (s : Str) : Except Err (Str × Str × Str) := do
  let p := strip ((lower s).filter (fun c => c != '/'))
  pyAssert (decide (p.length = 6))
  return (p, p.drop 3, p.take 3)

/-- `resolve_fx_curve_dates` (`frm/utils/tenor.py:121-147`): returns curve date, spot offset, spot date. -/
def resolveFxCurveDates (pair : Str) (cal : BusCal) (curveDate : Option Int) (spotOffset : Option Int)
    (spotDate : Option Int) : Except Err (Int × Int × Int) := do
  let off : Option Int ←
    match curveDate, spotDate, spotOffset with
    -- check_day_offset_consistency is called with the keyword `offset`, which it does not have
    | some _, some _, some _ => .error .type
    | some c, some s, none => do let o ← calcImpliedBusinessDayOffset cal c s; pure (some o)
    | _, _, _ => pure (getFxSpotDayOffset pair)
  match spotDate with
  | none =>
    match curveDate with
    | none => .error .attribute        -- None.to_numpy()
    | some c =>
      match off with
      | none => .error .type           -- busday_offset(offsets=None)
      | some o => do
        let s ← busdayOffset cal .following c o
        return (c, o, s)
  | some s =>
    match curveDate with
    | none =>
      match off with
      | none => .error .type           -- unary minus on None
      | some o => do
        let c ← busdayOffset cal .preceding s (-o)
        return (c, o, s)
    | some c =>
      match off with
      | none => .error .type           -- unreachable: both dates given
      | some o => return (c, o, s)

end Frm
