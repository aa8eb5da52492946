import Verif.Model.Calendar

/-! # Open days of a set of markets -/

namespace Frm.Spec

/-- `d` is an open day of the market described by a holiday object: neither its weekend nor one of its holidays. -/
def OpenOn (o : HolidayObj) (d : Int) : Prop := weekdayFin d ∉ o.weekend ∧ d ∉ o.dates

/-- The entry of a key: the currency table first, then the locale table. -/
def Entry (T : HolidayTables) (k : Str) (o : HolidayObj) : Prop :=
  T.ccy k = some o ∨ (T.ccy k = none ∧ T.locale k = some o)

/-- Some weekday is a working day in all of the entries. -/
def CommonWorkday (T : HolidayTables) (ks : List Str) : Prop :=
  ∃ w : Fin 7, ∀ k ∈ ks, ∀ o, Entry T k o → w ∉ o.weekend

end Frm.Spec
