import Verif.Model.Date

/-!
# The Gregorian calendar, by its successor rule

Independent of the closed formulas in `Model/Date.lean`: which years are leap, how long months are, and which day
follows which.
-/

namespace Frm.Spec

/-- Divisible by 4 and not by 100, or divisible by 400. -/
def Leap (y : Int) : Prop := (y % 4 = 0 ∧ y % 100 ≠ 0) ∨ y % 400 = 0

instance (y : Int) : Decidable (Leap y) := by unfold Leap; exact inferInstance

/-- Number of days of a month. -/
def monthLength (y : Int) (m : Int) : Int :=
  match m with
  | 1 => 31 | 2 => if Leap y then 29 else 28 | 3 => 31 | 4 => 30 | 5 => 31 | 6 => 30
  | 7 => 31 | 8 => 31 | 9 => 30 | 10 => 31 | 11 => 30 | _ => 31

/-- The day after. -/
def nextDay (c : Civil) : Civil :=
  if c.day < monthLength c.year c.month then ⟨c.year, c.month, c.day + 1⟩
  else if c.month < 12 then ⟨c.year, c.month + 1, 1⟩
  else ⟨c.year + 1, 1, 1⟩

/-- Months elapsed since year 0. -/
def months (c : Civil) : Int := 12 * c.year + c.month

end Frm.Spec
