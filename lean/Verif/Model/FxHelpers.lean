import Mathlib.Data.List.Sort
import Mathlib.Data.Rat.Lemmas
import Verif.Model.Tenor
import Verif.Model.Sort

/-!
# `frm/term_structures/fx_helpers.py`

`validate_ccy_pair` (85-99) is in `Verif/Model/Tenor.lean`.  Floats are rational numbers.
-/

namespace Frm

set_option autoImplicit false

/-! ## Dates of a term structure -/

/-- A row of the user's table: its tenor (`none`: missing), rate-set date and delivery date (`none`: `NaT`, also when the
column is absent) and the value it quotes (`none`: `nan`).  For `frm/term_structures/fx_helpers.py:20-40`. -/
structure FxRow where
  tenor : Option Str
  rateSet : Option Int
  delivery : Option Int
  value : Option Rat
deriving DecidableEq, Repr

/-- One turn of the loop (`fx_helpers.py:41-55`).  The second branch calls `.astype` on a `pd.Timestamp`, which has no such
attribute.  `row['tenor']` is never missing there, see `fxTermStructureHelper`. -/
def fxRowDates (cal : BusCal) (curveDate spotOffset : Int) (r : FxRow) (tenor : Str) : Except Err FxRow :=
  match r.delivery, r.rateSet with
  | some _, _ => .ok r
  | none, some _ => .error .attribute
  | none, none => do
    let o ← tenorToDateOffset tenor
    let d := o.addTo curveDate
    pure { r with rateSet := some (workday cal d 0), delivery := some (workday cal d spotOffset) }

/-- `df['tenor'].apply(clean_tenor)` for one row (`fx_helpers.py:24`): `TypeError` when the tenor is missing. -/
def fxRowTenor (r : FxRow) : Except Err Str :=
  match r.tenor with
  | some t => .ok (cleanTenor t)
  | none => .error .type

/-- `fx_term_structure_helper` (`fx_helpers.py:18-63`).  `hasTenor`: the table has a column `tenor` (line 24 raises
`KeyError` if not).  `sort` is `sort_values('delivery_date')`, which is not stable.  The order of the columns is not
modelled. -/
def fxTermStructureHelper (sort : List FxRow → List FxRow) (cal : BusCal) (curveDate spotOffset : Int) (hasTenor : Bool)
    (rows : List FxRow) : Except Err (List FxRow) :=
  if hasTenor = false then .error .key
  else do
    let tenors ← rows.mapM fxRowTenor
    let out ← (rows.zip tenors).mapM (fun p => fxRowDates cal curveDate spotOffset { p.1 with tenor := some p.2 } p.2)
    pure (sort out)

/-! ## Delta conventions -/

/-- `sub in s`.  For `frm/term_structures/fx_helpers.py:156`. -/
def containsStr (sub s : Str) : Bool := s.tails.any (fun t => sub.isPrefixOf t)

/-- A row of the table of volatility quotes, as far as `check_delta_convention` goes.
For `frm/term_structures/fx_helpers.py:105-130`. -/
structure ConventionRow where
  convention : Str
  warnings : Str
deriving DecidableEq, Repr

/-- The pairs of line 107.  For `frm/term_structures/fx_helpers.py:107`. -/
def regularPairs : List Str := ["audusd".toList, "nzdeur".toList, "gbpusd".toList, "nzdusd".toList]

/-- The pairs of line 117.  For `frm/term_structures/fx_helpers.py:117`. -/
def regularPairsBothWays : List Str :=
  regularPairs ++ ["usdaud".toList, "usdeur".toList, "usdgbp".toList, "usdnzd".toList]

/-- The message of line 109.  For `frm/term_structures/fx_helpers.py:109`. -/
def warnRegular : Str := "the regular delta is the market delta_convention for this currency pair\n".toList

/-- The message of line 121.  For `frm/term_structures/fx_helpers.py:121`. -/
def warnAdjusted : Str := "premium adjusted delta is the market delta_convention for this currency pair\n".toList

/-- `check_delta_convention` (`fx_helpers.py:105-130`), row by row; the calls of `warnings.warn` are not modelled. -/
def checkDeltaConvention (pair : Str) (r : ConventionRow) : ConventionRow :=
  let w1 := if regularPairs.contains pair && containsStr "premium_adjusted".toList r.convention
    then r.warnings ++ warnRegular else r.warnings
  let w2 := if !regularPairsBothWays.contains pair && containsStr "usd".toList pair &&
    containsStr "regular".toList r.convention then w1 ++ warnAdjusted else w1
  { r with warnings := w2 }

/-! ## Column names -/

/-- A regular expression anchored on the left, as the list of the possible remainders, in order of preference.
For `frm/term_structures/fx_helpers.py:134-141`. -/
abbrev Pat := Str → List Str

/-- A literal.  For `frm/term_structures/fx_helpers.py:134-141`. -/
def Pat.lit (p : Str) : Pat := fun s => if p.isPrefixOf s then [s.drop p.length] else []

/-- Alternatives, tried from left to right.  For `frm/term_structures/fx_helpers.py:134-141`. -/
def Pat.alts (ps : List Str) : Pat := fun s => ps.flatMap (fun p => Pat.lit p s)

/-- `[_ ]?`.  For `frm/term_structures/fx_helpers.py:134-141`. -/
def Pat.sep : Pat := fun s =>
  match s with
  | c :: rest => if c = '_' ∨ c = ' ' then [rest, s] else [s]
  | [] => [s]

/-- Concatenation.  For `frm/term_structures/fx_helpers.py:134-141`. -/
def Pat.seq (a b : Pat) : Pat := fun s => (a s).flatMap b

/-- `$`: the end, or a line feed at the end.  For `frm/term_structures/fx_helpers.py:134-141`. -/
def Pat.atEnd (s : Str) : Bool := s == [] || s == ['\n']

/-- `(0?[1-9]|[1-4]\d)`: the possible matches with their remainders.  (`\d` on ASCII.)
For `frm/term_structures/fx_helpers.py:135`. -/
def deltaPrefixes (s : Str) : List (Str × Str) :=
  (match s with
    | '0' :: d :: rest => if '1' ≤ d ∧ d ≤ '9' then [(['0', d], rest)] else []
    | _ => []) ++
  (match s with
    | d :: rest => if '1' ≤ d ∧ d ≤ '9' then [([d], rest)] else []
    | _ => []) ++
  (match s with
    | d :: e :: rest => if '1' ≤ d ∧ d ≤ '4' ∧ e.isDigit then [([d, e], rest)] else []
    | _ => [])

/-- `[_ ]?(delta|Δ)[_ ]?`.  For `frm/term_structures/fx_helpers.py:135`. -/
def Pat.delta : Pat := Pat.seq Pat.sep (Pat.seq (Pat.alts ["delta".toList, "Δ".toList]) Pat.sep)

/-- `^(0?[1-9]|[1-4]\d)[_ ]?(delta|Δ)[_ ]?(call|c|put|p)$`: the delta and whether it is a call.
For `frm/term_structures/fx_helpers.py:135`. -/
def matchCallPut (s : Str) : Option (Str × Bool) :=
  ((deltaPrefixes s).flatMap (fun np => (Pat.delta np.2).flatMap (fun t =>
    ((["call".toList, "c".toList].filter (fun p => (Pat.lit p t).any Pat.atEnd)).map (fun _ => (np.1, true))) ++
    ((["put".toList, "p".toList].filter (fun p => (Pat.lit p t).any Pat.atEnd)).map (fun _ => (np.1, false)))))).head?

/-- `^(0?[1-9]|[1-4]\d)[_ ]?(delta|Δ)[_ ]?(risk[_ ]?reversal|rr|butterfly|bf)$`: the delta and whether it is a risk
reversal.  For `frm/term_structures/fx_helpers.py:137`. -/
def matchStrategy (s : Str) : Option (Str × Bool) :=
  ((deltaPrefixes s).flatMap (fun np => (Pat.delta np.2).flatMap (fun t =>
    (([Pat.seq (Pat.lit "risk".toList) (Pat.seq Pat.sep (Pat.lit "reversal".toList)), Pat.lit "rr".toList].filter
      (fun p => (p t).any Pat.atEnd)).map (fun _ => (np.1, true))) ++
    ((["butterfly".toList, "bf".toList].filter (fun p => (Pat.lit p t).any Pat.atEnd)).map (fun _ => (np.1, false)))))).head?

/-- `^(a|at)[_ ]?(t|the)[_ ]?(m|money)[_ ]?`.  For `frm/term_structures/fx_helpers.py:139-140`. -/
def Pat.atm : Pat := Pat.seq (Pat.alts ["a".toList, "at".toList]) (Pat.seq Pat.sep
  (Pat.seq (Pat.alts ["t".toList, "the".toList]) (Pat.seq Pat.sep (Pat.seq (Pat.alts ["m".toList, "money".toList]) Pat.sep))))

/-- `^(a|at)[_ ]?(t|the)[_ ]?(m|money)[_ ]?(delta|Δ)[_ ]?neutral$`.  For `frm/term_structures/fx_helpers.py:139`. -/
def matchAtmDeltaNeutral (s : Str) : Bool :=
  (Pat.seq Pat.atm (Pat.seq (Pat.alts ["delta".toList, "Δ".toList]) (Pat.seq Pat.sep (Pat.lit "neutral".toList))) s).any
    Pat.atEnd

/-- `^(a|at)[_ ]?(t|the)[_ ]?(m|money)[_ ]?(f|fwd|forward)$`.  For `frm/term_structures/fx_helpers.py:140`. -/
def matchAtmForward (s : Str) : Bool :=
  (Pat.seq Pat.atm (Pat.alts ["f".toList, "fwd".toList, "forward".toList]) s).any Pat.atEnd

/-- The new name of a column (`fx_helpers.py:133-149`). -/
def cleanQuoteName (s : Str) : Str :=
  match matchCallPut s with
  | some (d, c) => d ++ (if c then "_delta_call".toList else "_delta_put".toList)
  | none =>
    match matchStrategy s with
    | some (d, rr) => d ++ (if rr then "_delta_riskreversal".toList else "_delta_butterfly".toList)
    | none =>
      if matchAtmDeltaNeutral s then "atm_delta_neutral".toList
      else if matchAtmForward s then "atm_forward".toList
      else s

/-- The columns of a table of quotes, by name; `none` is a quote that is `nan`.  Names are assumed to be distinct.
For `frm/term_structures/fx_helpers.py:154`. -/
abbrev QuoteTable := List (Str × List (Option Rat))

/-- `clean_vol_quotes_column_names` (`fx_helpers.py:133-151`). -/
def cleanVolQuotesColumnNames (t : QuoteTable) : QuoteTable := t.map (fun c => (cleanQuoteName c.1, c.2))

/-! ## Strategy quotes -/

/-- Order of strings (by code point).  For `frm/term_structures/fx_helpers.py:156-157`. -/
def strLe : Str → Str → Bool
  | [], _ => true
  | _ :: _, [] => false
  | a :: s, b :: t => if a.toNat < b.toNat then true else if b.toNat < a.toNat then false else strLe s t

/-- `sorted(...)` on strings.  For `frm/term_structures/fx_helpers.py:156-157`. -/
def sortStrs (l : List Str) : List Str := l.insertionSort (fun a b => strLe a b = true)

/-- `name.split('_')[0]`.  For `frm/term_structures/fx_helpers.py:156-157`. -/
def beforeUnderscore (s : Str) : Str := s.takeWhile (· != '_')

/-- `vol_quotes_df[name]`.  For `frm/term_structures/fx_helpers.py:165-171`. -/
def QuoteTable.get (t : QuoteTable) (name : Str) : Except Err (List (Option Rat)) :=
  match t.lookup name with
  | some c => .ok c
  | none => .error .key

/-- `atm + bf + sign * 0.5 * rr` for one row (`fx_helpers.py:165-171`): `nan` when one of them is. -/
def wingQuote (half : Rat) : Option Rat → Option Rat → Option Rat → Option Rat
  | some a, some b, some r => some (a + b + half * r)
  | _, _, _ => none

/-- The column `atm + bf + sign * 0.5 * rr` is appended unless a column of that name is there
(`fx_helpers.py:163-171`). -/
def addWing (t : QuoteTable) (delta name : Str) (half : Rat) : Except Err QuoteTable :=
  if (t.lookup name).isSome then .ok t
  else do
    let atm ← t.get "atm_delta_neutral".toList
    let bf ← t.get (delta ++ "_delta_butterfly".toList)
    let rr ← t.get (delta ++ "_delta_riskreversal".toList)
    pure (t ++ [(name, List.zipWith (fun a p => wingQuote half a p.1 p.2) atm (bf.zip rr))])

/-- `drop(labels=[...], axis=1)` (`fx_helpers.py:173`). -/
def dropStrategies (t : QuoteTable) (delta : Str) : Except Err QuoteTable :=
  let bf := delta ++ "_delta_butterfly".toList
  let rr := delta ++ "_delta_riskreversal".toList
  if (t.lookup bf).isSome && (t.lookup rr).isSome then .ok (t.filter (fun c => c.1 != bf && c.1 != rr))
  else .error .key

/-- One turn of the loop (`fx_helpers.py:162-173`). -/
def strategyStep (t : QuoteTable) (delta : Str) : Except Err QuoteTable := do
  let t1 ← addWing t delta (delta ++ "_delta_put".toList) (-1 / 2)
  let t2 ← addWing t1 delta (delta ++ "_delta_call".toList) (1 / 2)
  dropStrategies t2 delta

/-- `solve_call_put_quotes_from_strategy_quotes` (`fx_helpers.py:154-175`). -/
def solveCallPut (t : QuoteTable) : Except Err QuoteTable :=
  let rr := sortStrs ((t.filter (fun c => containsStr "riskreversal".toList c.1)).map (fun c => beforeUnderscore c.1))
  let bf := sortStrs ((t.filter (fun c => containsStr "butterfly".toList c.1)).map (fun c => beforeUnderscore c.1))
  if (t.lookup "atm_delta_neutral".toList).isSome = false then .error .assertion
  else if rr ≠ bf then .error .assertion
  else bf.foldlM strategyStep t

/-! ## The order of the smile -/

/-- A row of `get_delta_smile_quote_details`; `none` is `nan`.  For `frm/term_structures/fx_helpers.py:188-194`. -/
structure SmileQuote where
  name : Str
  flag : Option Int
  signedDelta : Option Rat
deriving DecidableEq, Repr

/-- `call_put_flag` (`fx_helpers.py:188`). -/
def smileFlag (name : Str) : Option Int :=
  if containsStr "call".toList name then some 1
  else if containsStr "put".toList name then some (-1)
  else if name = "atm_delta_neutral".toList then some 1 else none

/-- `signed_delta` (`fx_helpers.py:190-193`).  `float(...)` of the text before the first underscore: the names that get
here begin with digits, and are refused unless nothing but digits precedes the underscore. -/
def smileDelta (name : Str) : Except Err (Option Rat) :=
  if name = "atm_delta_neutral".toList then .ok (some (1 / 2))
  else do
    let n ← pyInt (beforeUnderscore name)
    pure ((smileFlag name).map (fun f => (f : Rat) * n / 100))

/-- `order = 100 / signed_delta` (`fx_helpers.py:195`). -/
def smileOrder (q : SmileQuote) : Option Rat := q.signedDelta.map (fun d => 100 / d)

/-- `get_delta_smile_quote_details` with the default patterns (`fx_helpers.py:178-199`).  `sort` is
`sort_values('order')`. -/
def getDeltaSmileQuoteDetails (sort : List SmileQuote → List SmileQuote) (columns : List Str) :
    Except Err (List SmileQuote) := do
  let names := columns.filter (fun c => (matchCallPut c).isSome || matchAtmDeltaNeutral c)
  let rows ← names.mapM (fun n => (smileDelta n).map (fun d => { name := n, flag := smileFlag n, signedDelta := d }))
  pure (sort rows)

/-! ## Interpolation of forwards -/

/-- `Series.interpolate(method='time', limit_area='inside')` at one missing date: the straight line through the valid
points next to it; nothing outside.  For `frm/term_structures/fx_helpers.py:227`. -/
def timeInterp (points : List (Int × Rat)) (x : Int) : Option Rat :=
  match points with
  | p :: q :: rest =>
    if p.1 ≤ x ∧ x ≤ q.1 then some (p.2 + (q.2 - p.2) * ((x : Rat) - p.1) / ((q.1 : Rat) - p.1))
    else timeInterp (q :: rest) x
  | _ => none

/-- `Series.ffill()`.  For `frm/term_structures/fx_helpers.py:227`. -/
def ffill (last : Option Rat) : List (Int × Option Rat) → List (Int × Option Rat)
  | [] => []
  | (d, v) :: rest => (d, v.or last) :: ffill (v.or last) rest

/-- `Series.bfill()`.  For `frm/term_structures/fx_helpers.py:227`. -/
def bfill (s : List (Int × Option Rat)) : List (Int × Option Rat) := (ffill none s.reverse).reverse

/-- The combined, ordered index (`fx_helpers.py:217-218`). -/
def combinedDates {α : Type} (pillars : List (Int × α)) (dates : List Int) : List Int :=
  sortBy id (dates ++ pillars.map (·.1)).eraseDups

/-- The pillars whose forward is not `nan`: those that `Series.interpolate` sees (`fx_helpers.py:227`, 236). -/
def quotedPillars (pillars : List (Int × Option Rat)) : List (Int × Rat) := pillars.filterMap (fun p => p.2.map (fun v => (p.1, v)))

/-- `interp_fx_forward_curve_df` (`fx_helpers.py:202-238`) on the chosen date column; `none` is a forward that is `nan`.  Simplifications:
repeated pillar dates make `reindex` raise; the warnings are not modelled. -/
def interpFxForwards (pillars : List (Int × Option Rat)) (dates : List Int) (flatExtrapolation : Bool) :
    Except Err (List (Option Rat)) :=
  if ¬ (pillars.map (·.1)).Nodup then .error .value
  else
    let index := combinedDates pillars dates
    let sorted := sortBy (·.1) (quotedPillars pillars)
    let result := index.map (fun d => (d, (pillars.lookup d).join.or (timeInterp sorted d)))
    let filled := if flatExtrapolation then bfill (ffill none result) else result
    .ok (dates.map (fun d => (filled.lookup d).join))

/-- `interp_fx_forward_curve_df` (`fx_helpers.py:202-238`) when no pillar's forward is `nan`. -/
def interpFxForwardCurve (pillars : List (Int × Rat)) (dates : List Int) (flatExtrapolation : Bool) :
    Except Err (List (Option Rat)) :=
  interpFxForwards (pillars.map (fun p => (p.1, some p.2))) dates flatExtrapolation

end Frm
