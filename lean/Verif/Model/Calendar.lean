import Verif.Model.BusDay
import Verif.Model.Text

/-!
# `frm/utils/business_day_calendar.py`
-/

namespace Frm

/-- What the code uses of a `holidays` object: its `weekend` set and its dates (iteration over its keys).
For `frm/utils/business_day_calendar.py:22-29`. -/
structure HolidayObj where
  weekend : List (Fin 7)
  dates : List Int

/-- The two pickled dictionaries `CCY_HOLIDAY` and `LOCALE_HOLIDAY` (`business_day_calendar.py:15-19`); their contents
are data and left arbitrary. -/
structure HolidayTables where
  ccy : Str → Option HolidayObj
  locale : Str → Option HolidayObj

/-- `get_holidays_object` (`business_day_calendar.py:22-28`). -/
def getHolidaysObject (T : HolidayTables) (key : Str) : Except Err HolidayObj :=
  match T.ccy key with
  | some o => .ok o
  | none => match T.locale key with
    | some o => .ok o
    | none => .error .value

/-- `convert_weekend_to_weekmask` (`business_day_calendar.py:31-41`): start from seven working days and clear one flag
per weekend day. -/
def weekmaskOf (weekend : List (Fin 7)) : Fin 7 → Bool :=
  weekend.foldl (fun mask w => fun x => if x = w then false else mask x) (fun _ => true)

/-- The `keys` argument: `None`, a string, a list, or another iterable of strings (for which no upper-casing is done).
For `frm/utils/business_day_calendar.py:44-56`. -/
inductive KeysArg where
  | none
  | str (s : Str)
  | list (l : List Str)
  | other (l : List Str)

/-- `np.busdaycalendar()`: Monday to Friday, no holidays.  For `frm/utils/business_day_calendar.py:50`. -/
def defaultBusCal : BusCal := { weekmask := fun w => decide (w.val < 5), holidays := [] }

/-- `np.busdaycalendar(weekmask=…, holidays=…)` raises `ValueError` on a mask without a working day.
For `frm/utils/business_day_calendar.py:65`. -/
def mkBusCal (mask : Fin 7 → Bool) (hols : List Int) : Except Err BusCal :=
  if ∃ w, mask w = true then .ok { weekmask := mask, holidays := hols } else .error .value

/-- `get_busdaycal` (`business_day_calendar.py:44-65`).  `list(set(keys))` is modelled by `List.eraseDups` (Python's
set order is arbitrary; `C06_order_case_repetition` shows it cannot matter). -/
def getBusdaycal (T : HolidayTables) (arg : KeysArg) : Except Err BusCal :=
  match arg with
  | .none => .ok defaultBusCal
  | .str s => build [upper s]
  | .list l => build (l.eraseDups.map upper)
  | .other l => build l
where
  build (keys : List Str) : Except Err BusCal := do
    let objs ← keys.mapM (getHolidaysObject T)
    let weekend := objs.foldl (fun x y => x ++ y.weekend) []
    mkBusCal (weekmaskOf weekend) (objs.flatMap (fun o => o.dates))

end Frm
