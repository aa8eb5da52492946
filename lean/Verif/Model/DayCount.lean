import Mathlib.Data.Rat.Defs
import Verif.Model.Date
import Verif.Model.Err

/-!
# `frm/utils/daycount.py`

Dates are given as lists, a scalar being a list of one element (`to_datetimeindex`, `daycount.py:163-195`).  The
`scalar_output` flag only unwraps a one-element result and is not modelled.
-/

namespace Frm

/-- `DayCountBasis` (`frm/enums/utils.py:175-186`). -/
inductive DayCountBasis where
  | b30_360
  | b30E_360
  | b30E_360_ISDA
  | act_360
  | act_365
  | act_366
  | act_act
deriving DecidableEq, Repr

/-- `DayCountBasis.days_per_year` (`frm/enums/utils.py:187-198`); ACT/ACT has `nan`. -/
def DayCountBasis.daysPerYear : DayCountBasis → Option Int
  | .b30_360 => some 360
  | .b30E_360 => some 360
  | .b30E_360_ISDA => some 360
  | .act_360 => some 360
  | .act_365 => some 365
  | .act_366 => some 366
  | .act_act => none

/-- `convert_to_same_shape_datetimeindex` (`daycount.py:9-23`): a single date is repeated to the length of the other
argument. -/
def sameShape (s e : List Int) : List Int × List Int :=
  match s, e with
  | [x], _ :: _ :: _ => (List.replicate e.length x, e)
  | _ :: _ :: _, [y] => (s, List.replicate s.length y)
  | _, _ => (s, e)

/-- `assert (start_dti <= end_dti).all()` (`daycount.py:40,142`); comparing indexes of different lengths raises
`ValueError`. -/
def checkOrder (s e : List Int) : Except Err Unit :=
  if s.length ≠ e.length then .error .value
  else pyAssert ((s.zip e).all (fun p => decide (p.1 ≤ p.2)))

/-- 30/360, one pair of dates (`daycount.py:46-61`). -/
def count30_360 (s e : Int) : Int :=
  let c1 := toCivil s
  let c2 := toCivil e
  let d1 := if c1.day = 31 then 30 else c1.day
  let d2 := if d1 = 30 ∧ c2.day = 31 then 30 else c2.day
  360 * (c2.year - c1.year) + 30 * (c2.month - c1.month) + d2 - d1

/-- 30E/360, one pair of dates (`daycount.py:63-77`). -/
def count30E_360 (s e : Int) : Int :=
  let c1 := toCivil s
  let c2 := toCivil e
  let d1 := if c1.day = 31 then 30 else c1.day
  let d2 := if c2.day = 31 then 30 else c2.day
  360 * (c2.year - c1.year) + 30 * (c2.month - c1.month) + d2 - d1

/-- `_is_last_day_of_feb` (`daycount.py:83-88`). -/
def isLastDayOfFeb (d : Int) : Bool :=
  let c := toCivil d
  decide (c.month = 2) && decide (c.day = daysInMonth c.year c.month)

/-- 30E/360 (ISDA), one pair of dates (`daycount.py:90-107`). -/
def count30E_360_ISDA (s e : Int) (isTermination : Bool) : Int :=
  let c1 := toCivil s
  let c2 := toCivil e
  let d1 := if decide (c1.day = 31) || isLastDayOfFeb s then 30 else c1.day
  let d2 := if decide (c2.day = 31) || (isLastDayOfFeb e && !isTermination) then 30 else c2.day
  360 * (c2.year - c1.year) + 30 * (c2.month - c1.month) + d2 - d1

/-- The termination flags used when none are passed: only the last end date is the termination date
(`daycount.py:109-111`). -/
def defaultTermination (n : Nat) : List Bool := (List.range n).map (fun i => !decide (i < n - 1))

/-- `day_count` (`daycount.py:26-120`). -/
def dayCount (s e : List Int) (b : DayCountBasis) (isTermination : Option (List Bool)) : Except Err (List Int) :=
  let (s, e) := sameShape s e
  match checkOrder s e with
  | .error err => .error err
  | .ok () =>
    match b with
    | .act_360 | .act_365 | .act_act | .act_366 => .ok ((s.zip e).map (fun p => p.2 - p.1))
    | .b30_360 => .ok ((s.zip e).map (fun p => count30_360 p.1 p.2))
    | .b30E_360 => .ok ((s.zip e).map (fun p => count30E_360 p.1 p.2))
    | .b30E_360_ISDA =>
      let flags := match isTermination with
        | none => defaultTermination e.length
        | some f => f
      .ok (((s.zip e).zip flags).map (fun p => count30E_360_ISDA p.1.1 p.1.2 p.2))

/-- ACT/ACT year fraction of one pair of dates (`daycount.py:144-155`). -/
def yearFracActAct (s e : Int) : Rat :=
  let y1 := (toCivil s).year
  let y2 := (toCivil e).year
  let total : Rat := ((y2 - y1 - 1 : Int) : Rat)
  let first := mkDate (y1 + 1) 1 1 - s
  let second := e - mkDate y2 1 1
  total + (first : Rat) / (yearLength y1 : Rat) + (second : Rat) / (yearLength y2 : Rat)

/-- `year_frac` (`daycount.py:123-160`). -/
def yearFrac (s e : List Int) (b : DayCountBasis) (isTermination : Option (List Bool)) : Except Err (List Rat) :=
  match b with
  | .b30_360 | .b30E_360 | .b30E_360_ISDA | .act_360 =>
    (dayCount s e b isTermination).map (fun l => l.map (fun (n : Int) => (n : Rat) / 360))
  | .act_365 => (dayCount s e b isTermination).map (fun l => l.map (fun (n : Int) => (n : Rat) / 365))
  | .act_366 => (dayCount s e b isTermination).map (fun l => l.map (fun (n : Int) => (n : Rat) / 366))
  | .act_act =>
    let (s, e) := sameShape s e
    match checkOrder s e with
    | .error err => .error err
    | .ok () => .ok ((s.zip e).map (fun p => yearFracActAct p.1 p.2))

end Frm
