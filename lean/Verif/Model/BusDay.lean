import Verif.Model.Date
import Verif.Model.Err

/-!
# Business days (`np.busdaycalendar`, `np.busday_offset`)

`frm` does all business-day arithmetic through numpy.  The definitions below restate numpy's documented semantics
(`numpy/core/src/multiarray/datetime_busday.c`); numpy itself is not part of `/repo`.
-/

namespace Frm

/-- `np.busdaycalendar(weekmask=…, holidays=…)`: seven flags (Monday first) and a list of closed dates.
numpy refuses a week mask without a working day; that is the side condition `BusCal.Ok`.
For `frm/utils/tenor.py:83-89`. -/
structure BusCal where
  weekmask : Fin 7 → Bool
  holidays : List Int

/-- numpy raises `ValueError` when constructing a calendar with an all-zero week mask, so every calendar object
that exists satisfies this.  For `frm/utils/tenor.py:83-89`. -/
def BusCal.Ok (cal : BusCal) : Prop := ∃ w, cal.weekmask w = true

/-- Day of week as an index into the mask.  For `frm/utils/tenor.py:83-89`. -/
def weekdayFin (d : Int) : Fin 7 := ⟨(weekday d).toNat, by unfold weekday; omega⟩

/-- `np.is_busday(d, busdaycal=cal)`.  For `frm/utils/tenor.py:83-89`. -/
def isBusDay (cal : BusCal) (d : Int) : Bool := cal.weekmask (weekdayFin d) && !(cal.holidays.contains d)

/-- Search bound: one week more than there are holidays.  `Proofs/BusDay.lean` shows it is always sufficient, so
the numpy `do … while` loops terminate within it.  For `frm/utils/tenor.py:83-89`. -/
def rollFuel (cal : BusCal) : Nat := 7 * (cal.holidays.length + 1)

/-- Step forward until a business day is met.  For `frm/utils/tenor.py:83-89`. -/
def scanFwd (cal : BusCal) : Nat → Int → Int
  | 0, d => d
  | k + 1, d => if isBusDay cal d then d else scanFwd cal k (d + 1)

/-- Step backward until a business day is met.  For `frm/utils/tenor.py:83-89`. -/
def scanBwd (cal : BusCal) : Nat → Int → Int
  | 0, d => d
  | k + 1, d => if isBusDay cal d then d else scanBwd cal k (d - 1)

/-- `roll='following'`.  For `frm/utils/tenor.py:83-89`. -/
def following (cal : BusCal) (d : Int) : Int := scanFwd cal (rollFuel cal) d

/-- `roll='preceding'`.  For `frm/utils/tenor.py:83-89`. -/
def preceding (cal : BusCal) (d : Int) : Int := scanBwd cal (rollFuel cal) d

/-- `frm/enums/utils.py:448-477` `RollConv`: the value strings handed to `np.busday_offset(roll=…)`. -/
inductive RollConv where
  | unadjusted
  | following
  | preceding
  | modifiedFollowing
  | modifiedPreceding
deriving DecidableEq, Repr

/-- numpy compares month numbers (1..12) to decide whether a modified roll left the month.
For `frm/utils/tenor.py:83-89`. -/
def sameMonthNumber (a b : Int) : Bool := decide ((toCivil a).month = (toCivil b).month)

/-- numpy's roll of a date to a business day.  `'unadjusted'` is not a numpy roll name: `np.busday_offset` raises
`ValueError`.  For `frm/utils/tenor.py:83-89`. -/
def rollDate (cal : BusCal) (r : RollConv) (d : Int) : Except Err Int :=
  match r with
  | .unadjusted => .error .value
  | .following => .ok (following cal d)
  | .preceding => .ok (preceding cal d)
  | .modifiedFollowing =>
      let f := following cal d
      .ok (if sameMonthNumber d f then f else preceding cal d)
  | .modifiedPreceding =>
      let p := preceding cal d
      .ok (if sameMonthNumber d p then p else following cal d)

/-- The business day after `d`.  For `frm/utils/tenor.py:83-89`. -/
def nextBusDay (cal : BusCal) (d : Int) : Int := following cal (d + 1)

/-- The business day before `d`.  For `frm/utils/tenor.py:83-89`. -/
def prevBusDay (cal : BusCal) (d : Int) : Int := preceding cal (d - 1)

/-- Apply `f` `n` times.  For `frm/utils/tenor.py:83-89`. -/
def iter {α : Type _} (f : α → α) : Nat → α → α
  | 0, a => a
  | n + 1, a => iter f n (f a)

/-- Step `n` business days from a business day (negative = backwards).  For `frm/utils/tenor.py:83-89`. -/
def stepBusDays (cal : BusCal) (d : Int) (n : Int) : Int :=
  if 0 ≤ n then iter (nextBusDay cal) n.toNat d else iter (prevBusDay cal) (-n).toNat d

/-- `np.busday_offset(d, offsets=n, roll=r, busdaycal=cal)`: roll first, then step `n` business days.
For `frm/utils/tenor.py:83-89`. -/
def busdayOffset (cal : BusCal) (r : RollConv) (d : Int) (n : Int) : Except Err Int :=
  match rollDate cal r d with
  | .ok x => .ok (stepBusDays cal x n)
  | .error e => .error e

/-- `workday` (`frm/utils/tenor.py:83-89`): `np.busday_offset(dates, offset, roll='following', busdaycal=cal)`,
elementwise. -/
def workday (cal : BusCal) (d : Int) (n : Int) : Int := stepBusDays cal (following cal d) n

end Frm
