import Verif.Model.Err

/-!
# Date grids for FX exposures

`frm/utils/schedule.py:535-620`, with the front of `generate_date_schedule` (417-482) as it is called from there.  Dates are
day numbers; delivery dates are an array of valid `datetime64` values.
-/

namespace Frm

set_option autoImplicit false

/-- The argument `date_grid_pillar`: a `DatetimeIndex` or something else.  `frm/utils/schedule.py:538, 600`. -/
inductive GridPillar where
  | index (dates : List Int)
  | other
deriving DecidableEq

/-- The third and fourth arguments of the calls of `generate_date_schedule` for each `sampling_freq`: they land in `freq` (an integer) and `direction`.
`frm/utils/schedule.py:583-595`. -/
def samplingCall (s : String) : Option (Int × String) :=
  if s = "1d" then some (1, "days")
  else if s = "1w" then some (1, "weeks")
  else if s = "1m" then some (1, "months")
  else if s = "3m" then some (3, "months")
  else if s = "6m" then some (6, "months")
  else if s = "12m" then some (12, "months")
  else none

/-- `generate_date_schedule` with an integer for `freq`: the direction is checked first, then that both dates are `Timestamp`s (the
greatest element of a `datetime64` array is not one).  `frm/utils/schedule.py:477-483`. -/
def generateFromInteger (direction : String) : Except Err (List Int) :=
  if direction ≠ "forward" ∧ direction ≠ "backward" then .error .value
  else .error .type

/-- Insert into an increasing list, unless present.  For `frm/utils/schedule.py:619`. -/
def insertDate (d : Int) : List Int → List Int
  | [] => [d]
  | e :: l => if d < e then d :: e :: l else if d = e then e :: l else e :: insertDate d l

/-- `date_grid.drop_duplicates().sort_values()`.  `frm/utils/schedule.py:619`. -/
def sortedDates (l : List Int) : List Int := l.foldr insertDate []

/-- `date_grid` before the days of value are added.  An unknown `sampling_freq` leaves the name unbound.  `frm/utils/schedule.py:583-603`. -/
def exposureGridBase (samplingFreq : Option String) (pillar : Option GridPillar) : Except Err (List Int) :=
  match samplingFreq with
  | some s =>
    match samplingCall s with
    | some (_, direction) => generateFromInteger direction
    | none => .error .name
  | none =>
    match pillar with
    | some (.index dates) => .ok dates
    | some .other => .error .assertion
    | none => .error .value

/-- `create_date_grid_for_fx_exposures`.  `np.unique([]).max()` raises `ValueError`; `np.concatenate(x, y)` takes `y` for the axis and raises
`TypeError`, as does the difference of a `datetime64` array and a `DateOffset`.  `frm/utils/schedule.py:535-620`. -/
def createDateGrid (_curveDate : Int) (deliveryDates : List Int) (samplingFreq : Option String) (pillar : Option GridPillar)
    (_paymentsHaveValue includeLastDay includeDayAfter : Bool) : Except Err (List Int) :=
  if deliveryDates = [] then .error .value else
  match exposureGridBase samplingFreq pillar with
  | .error e => .error e
  | .ok grid =>
    if includeLastDay then .error .type
    else if includeDayAfter then .error .type
    else .ok (sortedDates grid)

end Frm
