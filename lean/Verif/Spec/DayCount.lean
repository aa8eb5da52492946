import Verif.Model.DayCount
import Verif.Spec.Date
import Mathlib.Data.Rat.Defs

/-!
# Day-count rules as published (ISDA 2006 definitions, section 4.16)
-/

namespace Frm.Spec

/-- The common 30/360 formula. -/
def thirty360 (c1 c2 : Civil) (D1 D2 : Int) : Int :=
  360 * (c2.year - c1.year) + 30 * (c2.month - c1.month) + (D2 - D1)

/-- Last day of February of its year. -/
def LastOfFeb (c : Civil) : Prop := c.month = 2 ∧ c.day = (if Leap c.year then 29 else 28)

instance (c : Civil) : Decidable (LastOfFeb c) := by unfold LastOfFeb; exact inferInstance

/-- A date whose day count does not depend on whether it is a termination date: under 30E/360 ISDA the last day of
February counts as the 30th unless it is one; every other date, and every date under another basis, counts the same. -/
def Plain (b : DayCountBasis) (d : Int) : Prop := b = .b30E_360_ISDA → ¬ LastOfFeb (toCivil d)

instance (b : DayCountBasis) (d : Int) : Decidable (Plain b d) := by unfold Plain; exact inferInstance

theorem Plain.of_ne {b : DayCountBasis} (h : b ≠ .b30E_360_ISDA) (d : Int) : Plain b d := fun h' => absurd h' h

/-- Days of a calendar year. -/
def daysOfYear (y : Int) : Int := if Leap y then 366 else 365

/-- Sum over the `n` days beginning with `s` of one over the length of the day's calendar year. -/
def daySum (s : Int) : Nat → Rat
  | 0 => 0
  | n + 1 => daySum s n + 1 / (daysOfYear (toCivil (s + n)).year : Rat)

end Frm.Spec
