import Verif.Model.BusDay

/-!
# What rolling to a business day means

These definitions only use `isBusDay` (a flag for the weekday and a list of closed dates).
-/

namespace Frm.Spec

/-- `r` is the first business day on or after `d`. -/
def FirstOnOrAfter (cal : BusCal) (d r : Int) : Prop :=
  d ≤ r ∧ isBusDay cal r = true ∧ ∀ x, d ≤ x → x < r → isBusDay cal x = false

/-- `r` is the last business day on or before `d`. -/
def LastOnOrBefore (cal : BusCal) (d r : Int) : Prop :=
  r ≤ d ∧ isBusDay cal r = true ∧ ∀ x, r < x → x ≤ d → isBusDay cal x = false

/-- Two dates in the same calendar month of the same year. -/
def SameMonth (a b : Int) : Prop :=
  (toCivil a).year = (toCivil b).year ∧ (toCivil a).month = (toCivil b).month

/-- Number of business days in the half-open interval `(a, a + n]`. -/
def busDaysIn (cal : BusCal) (a : Int) : Nat → Nat
  | 0 => 0
  | n + 1 => busDaysIn cal a n + (if isBusDay cal (a + n + 1) then 1 else 0)

/-- Number of business days in `(a, b]` (zero when `b ≤ a`). -/
def busDaysBetween (cal : BusCal) (a b : Int) : Nat := busDaysIn cal a (b - a).toNat

/-- Closures never last a whole year: within any 300 days there is a business day. -/
def NoYearLongClosure (cal : BusCal) : Prop := ∀ d, ∃ b, d ≤ b ∧ b < d + 300 ∧ isBusDay cal b = true

end Frm.Spec
