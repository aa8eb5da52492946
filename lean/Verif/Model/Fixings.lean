import Verif.Model.Leg
import Verif.Model.Sort

/-!
# Historical fixings (`frm/term_structures/historical_swap_index_fixings.py`) and swap-curve fixings
(`frm/term_structures/swap_curve.py`)

Fixing tables are lists of dated values.  Floats are rationals, `nan` is `none`.
-/

namespace Frm

set_option autoImplicit false

/-- The inner loop of `pd.merge_asof(direction='backward')`: skip the right rows dated on or before `d`, remembering the
last one.  For `frm/term_structures/historical_swap_index_fixings.py:67`. -/
def asofAdvance {α : Type} (d : Int) : List (Int × α) → Option α → List (Int × α) × Option α
  | [], cur => ([], cur)
  | (t, x) :: rest, cur => if t ≤ d then asofAdvance d rest (some x) else ((t, x) :: rest, cur)

/-- `pd.merge_asof(direction='backward')` (pandas): one pass over both sorted tables.
For `frm/term_structures/historical_swap_index_fixings.py:67`. -/
def asofLoop {α : Type} : List (Int × α) → Option α → List Int → List (Option α)
  | _, _, [] => []
  | right, cur, d :: ds => (asofAdvance d right cur).2 :: asofLoop (asofAdvance d right cur).1 (asofAdvance d right cur).2 ds

/-- Non-decreasing.  For `frm/term_structures/historical_swap_index_fixings.py:67`. -/
def isSorted : List Int → Bool
  | a :: b :: l => decide (a ≤ b) && isSorted (b :: l)
  | _ => true

/-- `pd.merge_asof` with its precondition: both key columns must be sorted.
For `frm/term_structures/historical_swap_index_fixings.py:93`. -/
def mergeAsof {α : Type} (left : List Int) (right : List (Int × α)) : Except Err (List (Option α)) :=
  if isSorted left && isSorted (right.map (·.1)) then .ok (asofLoop right none left) else .error .value

/-- `TermFixings.index_historical_fixings` (`historical_swap_index_fixings.py:82-97`): sort the requested dates keeping
their positions, merge, sort back by position.  `sortDates` is `DataFrame.sort_values('date')`, which does not promise an
order among equal dates. -/
def indexHistoricalFixings {α : Type} (sortDates : List (Int × Nat) → List (Int × Nat)) (fixings : List (Int × α))
    (dates : List Int) : Except Err (List (Option α)) := do
  let sorted := sortDates dates.zipIdx
  let values ← mergeAsof (sorted.map (·.1)) fixings
  let back := sortBy (fun x : Nat × Option α => (x.1 : Int)) ((sorted.map (·.2)).zip values)
  pure (back.map (·.2))

/-- `RFRFixingCalcMethod` (`frm/enums/term_structures.py`). -/
inductive RFRFixingCalcMethod where
  | dailyCompounded | weightedAverage | simpleAverage
deriving DecidableEq, Repr

/-- `Series.mean()`: `nan` when empty.  For `frm/term_structures/historical_swap_index_fixings.py:64`. -/
def meanOf (l : List Rat) : NRat := if l = [] then none else some (l.sum / l.length)

/-- `pd.date_range(start, end, freq='D')`, both ends included.
For `frm/term_structures/historical_swap_index_fixings.py:66`. -/
def dateRange (s e : Int) : List Int := (List.range (e - s + 1).toNat).map (fun (i : Nat) => s + i)

/-- `RFRFixings._calculate_coupon_rate` (`historical_swap_index_fixings.py:53-75`).  `Series.prod()` and `mean()` skip
`nan`. -/
def calculateCouponRate (daysPerYear : Option Int) (s e : Int) (fixings : List (Int × Rat))
    (method : RFRFixingCalcMethod) : NRat :=
  let window := fixings.filter (fun f => decide (s ≤ f.1) && decide (f.1 ≤ e))
  match method with
  | .simpleAverage => meanOf (window.map (·.2))
  | .dailyCompounded =>
    let days := dateRange s e
    let values := (asofLoop window none days).filterMap id
    match daysPerYear with
    | none => none
    | some n =>
      if days = [] then none
      else some (((values.map (fun f => 1 + f / (n : Rat))).prod - 1) * n / days.length)
  | .weightedAverage => meanOf ((asofLoop window none (dateRange s e)).filterMap id)

/-- `a > b` where either may be `NaT`.  For `frm/term_structures/swap_curve.py:72-100`. -/
def natGt (a b : Option Int) : Bool :=
  match a, b with
  | some x, some y => decide (y < x)
  | _, _ => false

/-- `a <= b` where either may be `NaT`.  For `frm/term_structures/swap_curve.py:72-100`. -/
def natLe (a b : Option Int) : Bool :=
  match a, b with
  | some x, some y => decide (x ≤ y)
  | _, _ => false

/-- The fixings used by `get_coupon_rates` (`historical_swap_index_fixings.py:40-43`). -/
def applicableFixings (fixings : List (Int × Rat)) (starts ends : List Int) : List (Int × Rat) :=
  sortBy (·.1)
    (fixings.filter (fun f => natLe starts.min? (some f.1) && natLe (some f.1) (ends.map (· - 1)).max?))

/-- `RFRFixings.get_coupon_rates` (`historical_swap_index_fixings.py:31-51`). -/
def getCouponRates (basis : DayCountBasis) (fixings : List (Int × Rat)) (starts ends : List Int)
    (method : RFRFixingCalcMethod) : Except Err (List NRat) :=
  let obsEnd := ends.map (· - 1)
  let applicable := applicableFixings fixings starts ends
  if natGt obsEnd.max? (applicable.map (·.1)).max? || natGt (applicable.map (·.1)).min? obsEnd.min? then .error .value
  else .ok ((starts.zip obsEnd).map (fun p => calculateCouponRate basis.daysPerYear p.1 p.2 applicable method))

/-! ## Swap curves -/

/-- `a[mask]`.  For `frm/term_structures/swap_curve.py:72-100`. -/
def gather {α : Type} : List Bool → List α → List α
  | true :: m, x :: l => x :: gather m l
  | false :: m, _ :: l => gather m l
  | _, _ => []

/-- `a[mask] = values`.  For `frm/term_structures/swap_curve.py:72-100`. -/
def maskedSet {α : Type} : List Bool → List α → List α → List α
  | true :: m, _ :: l, v :: vs => v :: maskedSet m l vs
  | false :: m, x :: l, vs => x :: maskedSet m l vs
  | _, l, _ => l

/-- `TermSwapCurve.get_fixings` (`frm/term_structures/swap_curve.py:29-53`).  `forward` is the zero curve's
`get_forward_rates`.  Line 48 repeats the mask of line 40. -/
def termGetFixings (sortDates : List (Int × Nat) → List (Int × Nat)) (curveDate : Int)
    (forward : List Int → List Int → Except Err (List NRat)) (fixings : List (Int × Rat)) (starts ends : List Int) :
    Except Err (List NRat) := do
  let mask := starts.map (fun s => decide (curveDate ≤ s))
  let fwd ← forward (gather mask starts) (gather mask ends)
  let out := maskedSet mask (List.replicate starts.length none) fwd
  let maskHistorical := starts.map (fun s => decide (curveDate ≤ s))
  let hist ← indexHistoricalFixings sortDates fixings (gather maskHistorical starts)
  pure (maskedSet maskHistorical out hist)

/-- The crossover rate from its components (`frm/term_structures/swap_curve.py:121-123`). -/
def crossoverRate (hy h fy f : Rat) : Rat := (hy * h + (1 + hy * h) * fy * f) / (hy + fy)

/-- `crossoverRate` with `nan`s.  For `frm/term_structures/swap_curve.py:103-127`. -/
def crossoverRateN (hy : Rat) (h : NRat) (fy : Rat) (f : NRat) : NRat :=
  match h, f with
  | some h, some f => some (crossoverRate hy h fy f)
  | _, _ => none

/-- `RFRSwapCurve._get_crossover_coupon_rate` (`frm/term_structures/swap_curve.py:103-125`). -/
def crossoverCouponRates (basis : DayCountBasis) (curveDate : Int)
    (forward : List Int → List Int → Except Err (List NRat)) (fixings : List (Int × Rat)) (starts ends : List Int)
    (method : RFRFixingCalcMethod) : Except Err (List NRat) := do
  let hy ← yearFrac starts [curveDate] basis none
  let fy ← yearFrac [curveDate] ends basis none
  let cds := List.replicate starts.length curveDate
  let h ← getCouponRates basis fixings starts cds method
  let f ← forward cds ends
  pure (((hy.zip h).zip (fy.zip f)).map (fun x => crossoverRateN x.1.1 x.1.2 x.2.1 x.2.2))

/-- One masked block of `RFRSwapCurve.get_fixings`: computed only when the mask selects something.
For `frm/term_structures/swap_curve.py:72-100`. -/
def maskedBlock {α : Type} (mask : List Bool) (starts ends : List Int) (out : List α)
    (rates : List Int → List Int → Except Err (List α)) : Except Err (List α) :=
  if mask.any id then (rates (gather mask starts) (gather mask ends)).map (fun v => maskedSet mask out v) else .ok out

/-- `RFRSwapCurve.get_fixings` (`frm/term_structures/swap_curve.py:67-100`). -/
def rfrGetFixings (basis : DayCountBasis) (curveDate : Int)
    (forward : List Int → List Int → Except Err (List NRat)) (fixings : List (Int × Rat)) (starts ends : List Int)
    (method : RFRFixingCalcMethod) : Except Err (List NRat) := do
  let out0 : List NRat := List.replicate starts.length none
  let out1 ← maskedBlock (starts.map (fun s => decide (curveDate ≤ s))) starts ends out0 forward
  let out2 ← maskedBlock (ends.map (fun e => decide (e ≤ curveDate))) starts ends out1
    (fun s e => getCouponRates basis fixings s e method)
  maskedBlock ((starts.zip ends).map (fun p => decide (p.1 < curveDate) && decide (curveDate < p.2))) starts ends out2
    (fun s e => crossoverCouponRates basis curveDate forward fixings s e method)

end Frm
