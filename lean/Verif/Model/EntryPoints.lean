import Verif.Model.Hw1f
import Verif.Model.Tenor

/-!
# Entry points that other code of the library does not go through

`process_capfloor_quotes` (`frm/term_structures/interest_rate_option_helpers.py`), the path simulations of an FX volatility surface
(`frm/term_structures/fx_volatility_surface.py`), `ZeroCurve.flat_shift` (`frm/term_structures/zero_curve.py`), the third closed-form
discount factor of the Hull–White models, the check of a settlement delay (`frm/utils/tenor.py`) and the input checks of the Heston
calibration (`frm/pricing_engine/heston.py`).
-/

namespace Frm

set_option autoImplicit false

/-! ## `process_capfloor_quotes` -/

/-- The parameters of `make_schedule`, each with whether it has a default (`frm/utils/schedule.py:199-211`). -/
def makeScheduleParameters : List (String × Bool) :=
  [("start_date", false), ("end_date", false), ("freq", false), ("roll_conv", true), ("day_roll", true), ("first_period_end", true),
    ("last_period_start", true), ("first_stub", true), ("last_stub", true), ("roll_user_specified_dates", true), ("cal", true)]

/-- The keywords `process_capfloor_quotes` calls `make_schedule` with (`interest_rate_option_helpers.py:75-78`). -/
def capfloorKeywords : List String := ["start_date", "end_date", "frequency", "busdaycal"]

/-- The columns of the table `make_schedule` returns (`frm/utils/schedule.py:413-414`). -/
def capfloorScheduleColumns : List String := ["period_start", "period_end"]

/-- A call of `process_capfloor_quotes`: the columns and the number of rows of the table of quotes, and what each of the steps that depend
on the data raises, if it does (`interest_rate_option_helpers.py:21-31`): the settlement and effective dates (33-37), the tenors (39),
the dates of the rows (43-51), with the first row where they do, the two times (53-54), the conversion of the columns and the headings (58-70), and the schedule itself. -/
structure CapfloorCall where
  columns : List String
  rows : Nat
  dates : Option Err
  tenors : Option Err
  rowDates : Option (Nat × Err)
  termYears : Option Err
  expiryYears : Option Err
  headings : Option Err
  schedule : Option Err

/-- `df[name] = …`: a new column goes to the end.  For `interest_rate_option_helpers.py:39-56`. -/
def setColumn (name : String) (columns : List String) : List String := if columns.contains name then columns else columns ++ [name]

/-- One step: what it raises, or the next columns.  For `interest_rate_option_helpers.py:33-70`. -/
def capfloorStep (raises : Option Err) (columns next : List String) (rest : List String → List String × Except Err Unit) :
    List String × Except Err Unit :=
  match raises with
  | some e => (columns, .error e)
  | none => rest next

/-- The two columns written row by row (`interest_rate_option_helpers.py:50-51`): they are there once one row has been written. -/
def capfloorDated (columns : List String) : List String := setColumn "termination_date" (setColumn "last_optionlet_expiry_date" columns)

/-- `process_capfloor_quotes` (`interest_rate_option_helpers.py:21-118`), if `make_schedule` was called with the keywords `kws`: the columns
of the caller's table afterwards, and what is raised.  `ok` stands for reaching line 80.  The table is written in place until line 62,
which makes a copy. -/
def processCapfloorKw (kws : List String) (c : CapfloorCall) : List String × Except Err Unit :=
  capfloorStep c.dates c.columns c.columns fun t0 =>
  if ¬ t0.contains "tenor" then (t0, .error .key)
  else capfloorStep c.tenors t0 (setColumn "effective_date" (setColumn "settlement_date" t0)) fun t1 =>
  capfloorStep (if c.rows = 0 then none else c.rowDates.map (·.2)) (if (c.rowDates.map (·.1)).getD 0 = 0 then t1 else capfloorDated t1)
    (if c.rows = 0 then t1 else capfloorDated t1) fun t2 =>
  if ¬ t2.contains "termination_date" then (t2, .error .key)
  else capfloorStep c.termYears t2 (setColumn "term_years" t2) fun t3 =>
  if ¬ t3.contains "last_optionlet_expiry_date" then (t3, .error .key)
  else capfloorStep c.expiryYears t3 (setColumn "ln_shift" (setColumn "F" (setColumn "last_optionlet_expiry_years" t3))) fun t4 =>
  capfloorStep c.headings t4 t4 fun t5 =>
  if c.rows = 0 then (t5, .error .key)     -- `vol_ln_df.loc[-1, …]` after `reset_index`
  else match checkKeywords makeScheduleParameters kws with
    | .error e => (t5, .error e)
    | .ok () => capfloorStep c.schedule t5 t5 fun t6 =>
      if capfloorScheduleColumns.contains "payment_dates" then (t6, .ok ()) else (t6, .error .key)

/-- `process_capfloor_quotes` (`interest_rate_option_helpers.py:21-118`). -/
def processCapfloor (c : CapfloorCall) : List String × Except Err Unit := processCapfloorKw capfloorKeywords c

/-! ## Paths of FX rates -/

/-- What a caller or the surface can hand to `Index.union`: dates one by one (a list, an index) or a single date.
For `fx_volatility_surface.py:391, 449`. -/
inductive DatesArg where
  | many (l : List Int)
  | single (d : Int)
deriving DecidableEq, Repr

/-- `DatetimeIndex.union(other)` (pandas): `other` must be list-like.  For `fx_volatility_surface.py:391, 449`. -/
def indexUnion (l : List Int) : DatesArg → Except Err (List Int)
  | .many m => .ok (l ++ m.filter (fun d => !l.contains d))
  | .single _ => .error .type

/-- `simulate_gbm_fx_rate_path` and `simulate_heston_fx_rate_path` (`fx_volatility_surface.py:385-440, 443-498`): `sorted` is what
`delivery_date_grid.unique().sort_values(ascending=True)` gives or raises, `rest` all that follows line 391 or 449. -/
def simulateFxPath {α : Type} (sorted : Except Err (List Int)) (spot : DatesArg) (rest : List Int → Except Err α) : Except Err α :=
  match sorted with
  | .error e => .error e
  | .ok l =>
    match indexUnion l spot with
    | .error e => .error e
    | .ok grid => rest grid

/-- A surface holds one spot date (`fx_volatility_surface.py:385-440, 443-498`). -/
def surfaceSimulate {α : Type} (sorted : Except Err (List Int)) (spotDate : Int) (rest : List Int → Except Err α) : Except Err α :=
  simulateFxPath sorted (.single spotDate) rest

/-! ## `ZeroCurve.flat_shift` -/

/-- `pd.DatetimeIndex(list of text)`: `parse` reads one date; text that is none raises a `ValueError`.
For `frm/utils/daycount.py:190-191`. -/
def parseDates (parse : String → Option Int) (l : List String) : Except Err (List Int) :=
  match l.mapM parse with
  | some d => .ok d
  | none => .error .value

/-- `ZeroCurve.flat_shift` (`zero_curve.py:196-207`): `self.pillar_df.keys()` are the columns of the table of pillars, which are then
read as dates; `rest` is what follows line 198. -/
def flatShift {α : Type} (parse : String → Option Int) (columns : List String) (rest : List Int → Except Err α) : Except Err α :=
  match parseDates parse columns with
  | .error e => .error e
  | .ok dates => rest dates

/-! ## Hull–White -/

/-- `calc_discount_factor_by_solving_ode_3` (`hw1f.py:531-549`, `hw1f2.py:701-719`, `hw1f3.py:748-766`): a documentation string and
nothing else; `None` is returned. -/
def discountFactorByOde3 {α : Type} (_t1 _t2 : α) (_r : Option α) : Option α := none

/-! ## The check of a settlement delay -/

/-- `check_day_offset_consistency` (`frm/utils/tenor.py:94-103`). -/
def checkDayOffsetConsistency (cal : BusCal) (date offsetDate dayOffset : Int) : Except Err Unit := do
  let implied ← calcImpliedBusinessDayOffset cal date offsetDate
  if implied ≠ dayOffset then .error .value else .ok ()

/-! ## The input checks of the Heston calibration -/

/-- A numeric argument: a number or an array with at least one entry; `none` is `nan`.  For `frm/pricing_engine/heston.py:162-166`. -/
inductive NumArg where
  | scalar (x : Option ℝ)
  | array (x : Option ℝ) (rest : List (Option ℝ))

/-- The value `condition` has on an argument, if it is written with `and`, `or` or `not`: Python needs one truth value, and an array of
several raises `ValueError`.  For `frm/pricing_engine/heston.py:162-165`. -/
noncomputable def oneTruth (condition : Option ℝ → Bool) : NumArg → Except Err Bool
  | .scalar x => .ok (condition x)
  | .array x [] => .ok (condition x)
  | .array _ (_ :: _) => .error .value

/-- The value of a condition computed entry by entry, as `np.isin`; `np.all` joins the entries.
For `frm/pricing_engine/heston.py:53-55, 166`. -/
noncomputable def eachTruth (condition : Option ℝ → Bool) : NumArg → Except Err Bool
  | .scalar x => .ok (condition x)
  | .array x rest => .ok ((x :: rest).all condition)

/-- `validate_input` (`frm/pricing_engine/heston.py:49-55`). -/
def validateInput (test : NumArg → Except Err Bool) (x : NumArg) : Except Err Unit := do
  let b ← test x
  if b then .ok () else .error .value

/-- `x > 0 and not np.isnan(x)` (`frm/pricing_engine/heston.py:162-163`). -/
noncomputable def positiveNumber (x : Option ℝ) : Bool :=
  match x with
  | none => false
  | some v => @decide (0 < v) (Classical.propDecidable _)

/-- `np.isin(x, [-1, 1])` (`frm/pricing_engine/heston.py:166`). -/
noncomputable def isFlag (x : Option ℝ) : Bool :=
  match x with
  | none => false
  | some v => @decide (v = -1 ∨ v = 1) (Classical.propDecidable _)

/-- The checks `heston_calibrate_vanilla_smile` begins with (`frm/pricing_engine/heston.py:161-166`). -/
noncomputable def hestonInputs (S0 tau r q cp : NumArg) : Except Err Unit := do
  validateInput (oneTruth positiveNumber) S0
  validateInput (oneTruth positiveNumber) tau
  validateInput (oneTruth Option.isSome) r
  validateInput (oneTruth Option.isSome) q
  validateInput (eachTruth isFlag) cp

end Frm
