import Verif.Model.Schedule
import Verif.Spec.BusDay
import Verif.Spec.Date

/-!
# What a schedule is, independently of how it is generated
-/

namespace Frm.Spec

/-- The periods `ps` cover `[s, e]`: the first starts at `s`, each next one starts where the previous ended, the last
ends at `e`. -/
def Tiles (s e : Int) : List (Int × Int) → Prop
  | [] => False
  | [p] => p.1 = s ∧ p.2 = e
  | p :: ps => p.1 = s ∧ Tiles p.2 e ps

/-- The periods whose boundaries are `s`, then the interior dates, then `e`. -/
def periodsOf (s e : Int) : List Int → List (Int × Int)
  | [] => [(s, e)]
  | x :: xs => (s, x) :: periodsOf x e xs

/-- The boundary dates between consecutive periods. -/
def boundaries (ps : List (Int × Int)) : List Int := ps.dropLast.map (·.2)

/-- The anchor moved by `k` periods of the frequency (`k` may be negative). -/
def moved (f : PeriodFreq) (anchor k : Int) : Int :=
  match f with
  | .daily => anchor + k
  | .weekly => anchor + 7 * k
  | .days28 => anchor + 28 * k
  | .monthly => addMonths anchor k
  | .quarterly => addMonths anchor (3 * k)
  | .semiannual => addMonths anchor (6 * k)
  | .annual => addMonths anchor (12 * k)
  | .zeroCoupon => anchor

/-- `x` is `d` after the day-of-month adjustment: the requested day of the same month, or its last day if the month
is too short (or end of month is requested). -/
def DayAdjusted (r : DayRoll) (d x : Int) : Prop :=
  match r with
  | .unadjusted => x = d
  | .day k => SameMonth d x ∧ (toCivil x).day = min ((k.val : Int) + 1) (monthLength (toCivil d).year (toCivil d).month)
  | .eom => SameMonth d x ∧ (toCivil x).day = monthLength (toCivil d).year (toCivil d).month

/-- `x` is `d` rolled to a business day (numpy compares month numbers for the modified conventions). -/
def RollsTo (cal : BusCal) (r : RollConv) (d x : Int) : Prop :=
  match r with
  | .unadjusted => False
  | .following => FirstOnOrAfter cal d x
  | .preceding => LastOnOrBefore cal d x
  | .modifiedFollowing => ∃ f p, FirstOnOrAfter cal d f ∧ LastOnOrBefore cal d p ∧
      x = if (toCivil d).month = (toCivil f).month then f else p
  | .modifiedPreceding => ∃ f p, FirstOnOrAfter cal d f ∧ LastOnOrBefore cal d p ∧
      x = if (toCivil d).month = (toCivil p).month then p else f

/-- `x` is the schedule date `k` periods away from the anchor. -/
def OnGrid (p : GenParams) (anchor k x : Int) : Prop :=
  ∃ u, DayAdjusted p.dayRoll (moved p.freq anchor k) u ∧ RollsTo p.cal p.rollConv u x

/-- Every calendar month has a business day. -/
def BusDayEveryMonth (cal : BusCal) : Prop := ∀ d, ∃ b, SameMonth d b ∧ isBusDay cal b = true

/-- Frequencies of one month or longer. -/
def MonthBased (f : PeriodFreq) : Prop := f = .monthly ∨ f = .quarterly ∨ f = .semiannual ∨ f = .annual

end Frm.Spec
