import Verif.Model.Bootstrap
import Verif.Model.Black76
import Verif.Model.Sort

/-!
# `frm/term_structures/optionlet.py`: the quotes of an optionlet term structure

The constructor up to the pricing of the quotes.  Floats are real numbers; `none` stands for `nan` and the infinities.  Not
modelled: the solves of the equivalent normal volatilities and of the SABR smiles (lines 179-518); the pricing methods are in
`OptionletPricing.lean`.
-/

namespace Frm
open Classical

set_option autoImplicit false

/-- A row of the user's table `quote_vol_sln`: its tenor and the volatility in each quote column.
For `frm/term_structures/optionlet.py:29`. -/
structure CapQuoteInput where
  tenor : Str
  vols : List ℝ

/-- A row after lines 60-99.  For `frm/term_structures/optionlet.py:60-99`. -/
structure CapQuote where
  effective : Int
  lastExpiry : Int
  termination : Int
  vols : List ℝ

/-- The settlement date (`optionlet.py:53-60`; `settlement_date_helper`, `interest_rate_option_helpers.py:122-138`, differs in checking
a date given without a delay). -/
def capSettlement (cal : BusCal) (curveDate : Int) (delay date : Option Int) : Except Err Int :=
  match date, delay with
  | none, none => .error .value
  | none, some n => .ok (workday cal curveDate n)
  | some d, _ => .ok d

/-- The dates of one quote (`optionlet.py:71-81`): counted from the settlement date and rolled forward to business days. -/
def capQuoteDates (cal : BusCal) (freq : DateOffset) (settlement effective : Int) (q : CapQuoteInput) : Except Err CapQuote :=
  (tenorToDateOffset (cleanTenor q.tenor)).map (fun o =>
    { effective := effective
      lastExpiry := workday cal (freq.subFrom (o.addTo settlement)) 0
      termination := workday cal (o.addTo settlement) 0
      vols := q.vols })

/-- The rows of `quote_vol_sln` in order of termination date (`optionlet.py:53-95`).  `DateOffset` of a zero-coupon frequency is
`None`, which cannot be added to a date.  The year fractions (83-86) are computed and can raise. -/
def capQuoteTable (cal : BusCal) (freq : PeriodFreq) (basis : DayCountBasis) (curveDate : Int) (delay date : Option Int)
    (quotes : List CapQuoteInput) : Except Err (List CapQuote) := do
  let settlement ← capSettlement cal curveDate delay date
  match freq.dateOffset with
  | none => .error .type
  | some f => do
    let effective := workday cal (f.addTo settlement) 0
    let rows ← quotes.mapM (capQuoteDates cal f settlement effective)
    let _ ← yearFrac (rows.map (·.effective)) (rows.map (·.termination)) basis none
    let _ ← yearFrac [curveDate] (rows.map (·.lastExpiry)) basis none
    pure (sortBy CapQuote.termination rows)

/-- The call of `make_schedule` (`optionlet.py:108-112`) as intended: from the effective date to the termination date of the last
quote.  The code passes `cal=self.cal`. -/
def optionletSchedule (cal : BusCal) (freq : PeriodFreq) (q : CapQuote) : ScheduleArgs where
  freq := freq
  rollConv := .modifiedFollowing
  dayRoll := .unadjusted
  rollUser := false
  cal := cal
  startDate := q.effective
  endDate := q.termination
  firstPeriodEnd := none
  lastPeriodStart := none
  firstStub := .default
  lastStub := .default

/-- `Optionlet(...)` (`optionlet.py:49-252`): line 111 reads `self.cal`, an attribute the class does not have (its field is
`busdaycal`).  `columns` is the outcome of `standardise_relative_quote_col_names` (102). -/
def makeOptionlet (cal : BusCal) (freq : PeriodFreq) (basis : DayCountBasis) (curveDate : Int) (delay date : Option Int)
    (quotes : List CapQuoteInput) (columns : Except Err (List (Str × ℝ))) : Except Err (List CapQuote) := do
  let rows ← capQuoteTable cal freq basis curveDate delay date quotes
  let _ ← columns
  match rows.getLast? with
  | none => .error .key
  | some _ => .error .attribute

/-- A row of `term_structure` (`optionlet.py:108-121`). -/
structure OptionletRow where
  periodStart : Int
  periodEnd : Int
  expiryYears : ℝ
  forward : ℝ
  annuity : ℝ

/-- The column `quote_nb` (`optionlet.py:123-130`): `idxmax` of a mask is the index of its first `True`. -/
def quoteNumber (quotes : List CapQuote) (o : OptionletRow) : Nat :=
  match quotes.findIdx? (fun q => decide (o.periodEnd ≤ q.termination)) with
  | some i => i
  | none => 0

/-- The column `F` of the quotes (`optionlet.py:133-137`). -/
noncomputable def quoteForward (os : List OptionletRow) (q : CapQuote) : Option ℝ :=
  let covered := os.filter (fun o => decide (o.periodEnd ≤ q.termination))
  npDiv (some (covered.map (fun o => o.forward * o.annuity)).sum) (covered.map (·.annuity)).sum

/-- A cell of `quote_strikes` (`optionlet.py:140-143`). -/
noncomputable def quoteStrike (F : Option ℝ) (offset : ℝ) : Option ℝ := F.map (· + offset)

/-- A cell of `quote_cp` (`optionlet.py:146-149`); a comparison with `nan` is false. -/
noncomputable def quoteFlag (F : Option ℝ) (offset : ℝ) : ℝ :=
  match quoteStrike F offset, F with
  | some k, some f => if k > f then 1 else -1
  | _, _ => -1

/-- Sum of floats, `nan` if one of them is.  For `frm/term_structures/optionlet.py:176`. -/
noncomputable def npSum : List (Option ℝ) → Option ℝ
  | [] => some 0
  | x :: xs => x.bind (fun a => (npSum xs).map (a + ·))

/-- A cell of `quote_pxs` (`optionlet.py:156-177`) for the quote number `n` and one column.  The rows with `quote_nb <= n` are
written into an array with that many rows at their own labels: `IndexError` for a label beyond it. -/
noncomputable def quotePrice (quotes : List CapQuote) (os : List OptionletRow) (shift : ℝ) (n : Nat) (cp : ℝ) (K : Option ℝ)
    (vol : ℝ) : Except Err (Option ℝ) :=
  let rows := (os.zipIdx).filter (fun p => decide (quoteNumber quotes p.1 ≤ n))
  if rows.all (fun p => decide (p.2 < rows.length)) then
    .ok (npSum (rows.map (fun p => K.bind (fun k =>
      (b76Price { F := p.1.forward, tau := p.1.expiryYears, cp := cp, K := k, vol := vol, shift := shift, annuity := 1 }).map
        (· * p.1.annuity)))))
  else .error .index

end Frm
