import Verif.Model.CashTable
import Verif.Props.C67

/-! # C103 — Tables of cash quotes with dates of their own, the default calendar and repeated calls -/

namespace Frm

set_option autoImplicit false

theorem mapM_some {α β : Type} (f : α → Except Err β) (l : List α) (g : Option α → Except Err β)
    (h : ∀ a, g (some a) = f a) : (l.map some).mapM g = l.mapM f := by
  induction l with
  | nil => rfl
  | cons a l ih => simp only [List.map_cons, List.mapM_cons, h, ih]

theorem cashTenors_text (l : List Str) : (l.map some).mapM cashTenor = .ok (l.map cleanTenor) := by
  induction l with
  | nil => rfl
  | cons a l ih => simp only [List.map_cons, List.mapM_cons, cashTenor, ih]; rfl

/-- The start of a quote with a cleaned tenor. -/
def quoteStartDate (cd sd : Int) (t : Str) : Int := if decide (t ≠ "on".toList) = true then sd else cd

/-- The flag and dates of a quote with a cleaned tenor and its offset. -/
def quoteDates (cal : BusCal) (cd sd : Int) (t : Str) (o : DateOffset) : Bool × Int × Int :=
  (decide (t ≠ "on".toList), quoteStartDate cd sd t, workday cal (o.addTo (quoteStartDate cd sd t)) 0)

/-- Dates row by row, and column by column. -/
theorem cashDates_columns (cal : BusCal) (cd sd : Int) (l : List Str) :
    l.mapM (cashDates cal cd sd) = (((l.map cleanTenor).mapM tenorToDateOffset).map (fun os =>
      List.zipWith (quoteDates cal cd sd) (l.map cleanTenor) os)) := by
  induction l with
  | nil => rfl
  | cons a l ih =>
    simp only [List.map_cons, List.mapM_cons, ih]
    unfold cashDates
    simp only [bind, Except.bind]
    cases tenorToDateOffset (cleanTenor a) with
    | error e => rfl
    | ok o =>
      simp only [Except.map]
      cases (l.map cleanTenor).mapM tenorToDateOffset with
      | error e => rfl
      | ok os => rfl

theorem zipWith_left {α β γ δ : Type} (f : α → β → γ) (g : γ → δ) (h : α → δ) (hg : ∀ a b, g (f a b) = h a) (l : List α) (m : List β)
    (hl : m.length = l.length) : (List.zipWith f l m).map g = l.map h := by
  induction l generalizing m with
  | nil => simp
  | cons a l ih =>
    cases m with
    | nil => cases hl
    | cons b m =>
      simp only [List.zipWith_cons_cons, List.map_cons, hg]
      rw [ih m (by simpa using hl)]

theorem zipWith_mapLeft {α β γ δ ε : Type} (f : α → β → γ) (g : γ → δ) (k : α → ε) (h : ε → β → δ) (hg : ∀ a b, g (f a b) = h (k a) b)
    (l : List α) (m : List β) : (List.zipWith f l m).map g = List.zipWith h (l.map k) m := by
  induction l generalizing m with
  | nil => simp
  | cons a l ih =>
    cases m with
    | nil => simp
    | cons b m => simp only [List.zipWith_cons_cons, List.map_cons, hg, ih m]

theorem cashDates_fail {cal : BusCal} {cd sd : Int} {l : List Str} {e : Err}
    (h : (l.map cleanTenor).mapM tenorToDateOffset = .error e) : l.mapM (cashDates cal cd sd) = .error e := by
  rw [cashDates_columns, h]; rfl

theorem cashDates_some {cal : BusCal} {cd sd : Int} {l : List Str} {os : List DateOffset}
    (h : (l.map cleanTenor).mapM tenorToDateOffset = .ok os) : ∃ dates, l.mapM (cashDates cal cd sd) = .ok dates ∧
      dates.length = l.length ∧ dates.map (·.1) = l.map (fun t => decide (cleanTenor t ≠ "on".toList)) ∧
      dates.map (·.2.1) = l.map (fun t => if decide (cleanTenor t ≠ "on".toList) = true then sd else cd) ∧
      dates.map (·.2.2) = List.zipWith (fun e (o : DateOffset) => workday cal (o.addTo e) 0)
        (l.map (fun t => if decide (cleanTenor t ≠ "on".toList) = true then sd else cd)) os := by
  have hlen : os.length = (l.map cleanTenor).length := (mapM_get h).1
  rw [cashDates_columns, h]
  refine ⟨_, rfl, ?_, ?_, ?_, ?_⟩
  · simp only [List.length_zipWith, hlen]; simp
  · refine (zipWith_left (quoteDates cal cd sd) (fun p => p.1) (fun t => decide (t ≠ "on".toList)) (fun _ _ => rfl) _ _ hlen).trans ?_
    rw [List.map_map]; rfl
  · refine (zipWith_left (quoteDates cal cd sd) (fun p => p.2.1) (quoteStartDate cd sd) (fun _ _ => rfl) _ _ hlen).trans ?_
    rw [List.map_map]; rfl
  · refine (zipWith_mapLeft (quoteDates cal cd sd) (fun p => p.2.2) (quoteStartDate cd sd)
      (fun e (o : DateOffset) => workday cal (o.addTo e) 0) (fun _ _ => rfl) _ _).trans ?_
    rw [List.map_map]; rfl

theorem zip_fst {α β γ δ : Type} (g : α → δ) (l : List α) (m : List β) (n : List γ) (h1 : m.length = l.length)
    (h2 : n.length = l.length) : (l.zip (m.zip n)).map (fun p => g p.1) = l.map g := by
  rw [show (fun p : α × β × γ => g p.1) = g ∘ Prod.fst from rfl, ← List.map_map, List.map_fst_zip]
  simp; omega

theorem zip_mid {α β γ δ : Type} (g : β → δ) (l : List α) (m : List β) (n : List γ) (h1 : m.length = l.length)
    (h2 : n.length = l.length) : (l.zip (m.zip n)).map (fun p => g p.2.1) = m.map g := by
  rw [show (fun p : α × β × γ => g p.2.1) = (g ∘ Prod.fst) ∘ Prod.snd from rfl, ← List.map_map, List.map_snd_zip (by simp; omega),
    ← List.map_map, List.map_fst_zip (by omega)]

theorem zip_snd {α β γ δ : Type} (g : γ → δ) (l : List α) (m : List β) (n : List γ) (h1 : m.length = l.length)
    (h2 : n.length = l.length) : (l.zip (m.zip n)).map (fun p => g p.2.2) = n.map g := by
  rw [show (fun p : α × β × γ => g p.2.2) = (g ∘ Prod.snd) ∘ Prod.snd from rfl, ← List.map_map, List.map_snd_zip (by simp; omega),
    ← List.map_map, List.map_snd_zip (by omega)]

end Frm

namespace Frm.Props
open Spec

set_option autoImplicit false

/-- The table a user writes who gives tenors and rates. -/
def tenorTable (df : List CashInput) : CashTable :=
  { tenor := some (df.map (fun r => some r.tenor)), rate := some (df.map (·.rate)) }

/-- The columns of a list of quotes. -/
def quotesTable (tenors : List (Option Str)) (out : List CashQuote) : CashTable :=
  { tenor := some tenors, rate := some (out.map (·.rate)), effective := some (out.map (·.effective)),
    maturity := some (out.map (·.maturity)), delayed := some (out.map (·.hasSettlementDelay)),
    period := some (out.map (·.periodYears)) }

theorem helper_tenors (df : List CashInput) (cd : Int) (basis : DayCountBasis) (delay date : Option Int) (cal : BusCal) :
    (∀ e, cashRatesQuoteHelper df cd basis delay date cal = .error e →
      (cashTableHelper (tenorTable df) cd basis delay date (some cal)).2 = .error e) ∧
    ∀ out, cashRatesQuoteHelper df cd basis delay date cal = .ok out →
      cashTableHelper (tenorTable df) cd basis delay date (some cal) =
        (quotesTable (df.map (fun r => some (cleanTenor r.tenor))) out, .ok ()) := by
  have ht : cashTenors (tenorTable df) = .ok (df.map (fun r => cleanTenor r.tenor)) := by
    unfold cashTenors tenorTable
    simp only [Option.isNone_some, Bool.false_eq_true, if_false, Bool.false_and, cashColumn, bind, Except.bind]
    have := cashTenors_text (df.map (·.tenor))
    simp only [List.map_map, Function.comp_def] at this
    exact this
  have hs : cashTableSettlement (some cal) cd delay date = cashSettlement cal cd delay date := by
    cases date <;> cases delay <;> rfl
  have hd : ∀ sd, df.mapM (fun r => cashDates cal cd sd r.tenor) = (df.map (·.tenor)).mapM (cashDates cal cd sd) := by
    intro sd
    clear ht
    induction df with
    | nil => rfl
    | cons a l ih => simp only [List.map_cons, List.mapM_cons, ih]
  unfold cashTableHelper cashRatesQuoteHelper
  rw [ht]
  simp only [hs]
  cases hsd : cashSettlement cal cd delay date with
  | error e =>
    refine ⟨?_, ?_⟩
    · intro e' h
      simpa [bind, Except.bind] using h
    · intro out h
      cases h
  | ok sd =>
    simp only [bind, Except.bind, hd, cashMaturities, tenorTable, Option.getD_none, Option.isSome_none, Bool.false_eq_true, if_false,
      List.map_map, Function.comp_def]
    cases ho : (df.map (fun r => cleanTenor r.tenor)).mapM tenorToDateOffset with
    | error e =>
      rw [cashDates_fail (by rw [List.map_map]; exact ho)]
      exact ⟨fun e' h => by cases h; rfl, fun out h => by cases h⟩
    | ok os =>
      obtain ⟨dates, d0, d1, d2, d3, d4⟩ := cashDates_some (cal := cal) (cd := cd) (sd := sd) (l := df.map (·.tenor))
        (by rw [List.map_map]; exact ho)
      rw [d0]
      simp only [List.map_map, Function.comp_def] at d2 d3 d4 ⊢
      rw [← d4, ← d3, ← d2]
      rw [List.length_map] at d1
      cases hy : yearFrac (dates.map (·.2.1)) (dates.map (·.2.2)) basis none with
      | error e => exact ⟨fun e' h => by cases h; rfl, fun out h => by cases h⟩
      | ok years =>
        refine ⟨fun e' h => (by cases h), fun out h => ?_⟩
        have hyl := yearFrac_length hy
        rw [sameShape_self _ _ (by simp)] at hyl
        simp only [List.length_zip, List.length_map, Nat.min_self] at hyl
        cases h
        unfold quotesTable
        simp only [List.map_map, Function.comp_def]
        rw [zip_fst (fun r : CashInput => r.rate) df dates years d1 (by omega), zip_mid (fun d : Bool × Int × Int => d.1) df dates years d1 (by omega),
          zip_mid (fun d : Bool × Int × Int => d.2.1) df dates years d1 (by omega),
          zip_mid (fun d : Bool × Int × Int => d.2.2) df dates years d1 (by omega),
          zip_snd (fun y : Rat => (y : ℝ)) df dates years d1 (by omega)]

/-- **C103** On a table of tenors and rates the columns left in the caller's table are those of `C67_rows`, and a call that raises there
raises here. -/
theorem C103_tenors_only (df : List CashInput) (cd : Int) (basis : DayCountBasis) (delay date : Option Int) (cal : BusCal) :
    (∀ e, cashRatesQuoteHelper df cd basis delay date cal = .error e ↔
      (cashTableHelper (tenorTable df) cd basis delay date (some cal)).2 = .error e) ∧
    ∀ out, cashRatesQuoteHelper df cd basis delay date cal = .ok out →
      cashTableHelper (tenorTable df) cd basis delay date (some cal) =
        (quotesTable (df.map (fun r => some (cleanTenor r.tenor))) out, .ok ()) := by
  obtain ⟨h1, h2⟩ := helper_tenors df cd basis delay date cal
  refine ⟨fun e => ⟨h1 e, fun h => ?_⟩, h2⟩
  cases hc : cashRatesQuoteHelper df cd basis delay date cal with
  | error e' => rw [h1 e' hc] at h; cases h; rfl
  | ok out => rw [h2 out hc] at h; cases h

theorem zip_columns {α : Type} (f : CashQuote → α) (out : List CashQuote)
    (F : (Int × Int) × (ℝ × (ℝ × Bool)) → α) (hF : ∀ q : CashQuote, F ((q.effective, q.maturity), (q.rate, (q.periodYears, q.hasSettlementDelay))) = f q) :
    (((out.map (·.effective)).zip (out.map (·.maturity))).zip ((out.map (·.rate)).zip ((out.map (·.periodYears)).zip
      (out.map (·.hasSettlementDelay))))).map F = out.map f := by
  induction out with
  | nil => rfl
  | cons q out ih => simp only [List.map_cons, List.zip_cons_cons, hF, ih]

/-- **C103** The bootstrap reads the quotes off the table that the helper leaves. -/
theorem C103_bootstrap (sort : List CashRow → List CashRow) (tenors : List (Option Str)) (out : List CashQuote) (cd : Int)
    (b : DayCountBasis) : cashTableBootstrap sort (quotesTable tenors out) cd b = bootstrapCashRates sort out cd b := by
  unfold cashTableBootstrap bootstrapCashRates quotesTable
  simp only [cashColumn, bind, Except.bind]
  cases yearFrac [cd] (out.map (·.effective)) b none with
  | error e => rfl
  | ok ey =>
    simp only
    cases yearFrac [cd] (out.map (·.maturity)) b none with
    | error e => rfl
    | ok my =>
      simp only
      rw [zip_columns id out _ (fun q => rfl), List.map_id]

/-- **C103** What a call that returns has done, whatever columns the table had: dates given by the caller are kept, and the period is the
day-count fraction between the two dates. -/
theorem C103_kept (t t' : CashTable) (cd : Int) (basis : DayCountBasis) (delay date : Option Int) (cal : Option BusCal)
    (h : cashTableHelper t cd basis delay date cal = (t', .ok ())) :
    t'.rate = t.rate ∧ t.rate.isSome ∧ (∀ e, t.effective = some e → t'.effective = some e ∧ t'.delayed = t.delayed) ∧
      (∀ m, t.maturity = some m → t'.maturity = some m) ∧
      ∃ e m y, t'.effective = some e ∧ t'.maturity = some m ∧ yearFrac e m basis none = .ok y ∧
        t'.period = some (y.map (fun (v : Rat) => (v : ℝ))) := by
  unfold cashTableHelper at h
  split at h
  · cases h
  rename_i tenors ht
  simp only at h
  split at h
  · cases h
  rename_i sd hs
  split at h
  · cases h
  rename_i mat hm
  split at h
  · cases h
  rename_i years hy
  cases h
  refine ⟨rfl, ?_, ?_, ?_, _, _, years, rfl, rfl, hy, rfl⟩
  · unfold cashTenors at ht
    split at ht
    · cases ht
    · rename_i hr
      cases hr' : t.rate with
      | none => rw [hr'] at hr; exact absurd rfl hr
      | some _ => rfl
  · intro e he
    simp only [he, Option.getD_some, Option.isSome_some, if_true, and_self]
  · intro m hm'
    rw [hm'] at hm
    cases hm
    rfl

/-- **C103** Dates without tenors pass the assertion but raise: the tenors are read all the same. -/
theorem C103_dates_need_tenor (t : CashTable) (cd : Int) (basis : DayCountBasis) (delay date : Option Int) (cal : Option BusCal)
    (hr : t.rate.isSome) (ht : t.tenor = none) (he : t.effective.isSome) (hm : t.maturity.isSome) :
    cashTableHelper t cd basis delay date cal = (t, .error .key) := by
  have : cashTenors t = .error .key := by
    unfold cashTenors
    cases hr' : t.rate with
    | none => rw [hr'] at hr; cases hr
    | some _ => simp [ht, he, hm, cashColumn, bind, Except.bind]
  unfold cashTableHelper
  rw [this]

/-- **C103** A table that brings its own start dates, but not the column that says which quotes have a settlement delay, is returned by
the helper without that column, and cannot be bootstrapped. -/
theorem C103_own_starts_refused (sort : List CashRow → List CashRow) (t t' : CashTable) (cd cd' : Int) (basis b : DayCountBasis)
    (delay date : Option Int) (cal : Option BusCal) (he : t.effective.isSome) (hd : t.delayed = none)
    (h : cashTableHelper t cd basis delay date cal = (t', .ok ())) :
    ∃ e, cashTableBootstrap sort t' cd' b = .error e ∧ (e = .key ∨ ∃ s l, s = cd' ∧ (t'.effective = some l ∨ t'.maturity = some l) ∧
      yearFrac [s] l b none = .error e) := by
  obtain ⟨-, -, k3, -, e, m, y, k4, k5, -⟩ := C103_kept t t' cd basis delay date cal h
  obtain ⟨e0, he0⟩ := Option.isSome_iff_exists.mp he
  have hd' : t'.delayed = none := by rw [(k3 e0 he0).2, hd]
  unfold cashTableBootstrap
  rw [k4, k5, hd']
  simp only [cashColumn, bind, Except.bind]
  cases h1 : yearFrac [cd'] e b none with
  | error x => exact ⟨x, rfl, .inr ⟨cd', e, rfl, .inl rfl, h1⟩⟩
  | ok ey =>
    simp only
    cases h2 : yearFrac [cd'] m b none with
    | error x => exact ⟨x, rfl, .inr ⟨cd', m, rfl, .inr rfl, h2⟩⟩
    | ok my => exact ⟨_, rfl, .inl rfl⟩

/-- **C103** Without a calendar a call returns only when a settlement date is given and the table brings its maturity dates: the default is
a class and not a calendar. -/
theorem C103_default_calendar (t t' : CashTable) (cd : Int) (basis : DayCountBasis) (delay date : Option Int)
    (h : cashTableHelper t cd basis delay date none = (t', .ok ())) : date.isSome ∧ t.maturity.isSome := by
  unfold cashTableHelper at h
  split at h
  · cases h
  simp only at h
  split at h
  · cases h
  rename_i sd hs
  split at h
  · cases h
  rename_i mat hm
  constructor
  · cases date with
    | some _ => rfl
    | none => cases delay <;> cases hs
  · cases hmat : t.maturity with
    | some _ => rfl
    | none =>
      rw [hmat] at hm
      simp only [cashMaturities, bind, Except.bind] at hm
      split at hm <;> cases hm

theorem cleanTenors_again {t : CashTable} {tenors : List Str} (h : cashTenors t = .ok tenors) {t' : CashTable}
    (hr : t'.rate = t.rate) (ht : t'.tenor = some (tenors.map some)) : cashTenors t' = .ok (tenors.map cleanTenor) := by
  unfold cashTenors at h ⊢
  rw [hr, ht]
  split at h
  · cases h
  · rename_i hn
    rw [if_neg hn]
    simp only [Option.isNone_some, Bool.false_and, Bool.false_eq_true, if_false, cashColumn, bind, Except.bind]
    exact cashTenors_text tenors

/-- **C103** Once a call has returned, or has failed after the start dates were written, the dates stay: a second call on the table, for
another curve date, settlement date, delay or calendar, keeps every date of the first, and only counts the periods again. -/
theorem C103_second_call (t t' t'' : CashTable) (cd cd' : Int) (basis basis' : DayCountBasis) (delay date delay' date' : Option Int)
    (cal cal' : Option BusCal) (h : cashTableHelper t cd basis delay date cal = (t', .ok ()))
    (h' : cashTableHelper t' cd' basis' delay' date' cal' = (t'', .ok ())) :
    t''.effective = t'.effective ∧ t''.maturity = t'.maturity ∧ t''.delayed = t'.delayed ∧ t''.rate = t'.rate ∧
      (basis' = basis → t''.period = t'.period) := by
  obtain ⟨a1, -, -, -, e, m, y, a4, a5, a6, a7⟩ := C103_kept t t' cd basis delay date cal h
  obtain ⟨b1, -, b2, b3, e', m', y', b4, b5, b6, b7⟩ := C103_kept t' t'' cd' basis' delay' date' cal' h'
  have c1 := (b2 e a4).1
  have c2 := b3 m a5
  refine ⟨c1.trans a4.symm, c2.trans a5.symm, (b2 e a4).2, b1, ?_⟩
  rintro rfl
  rw [c1] at b4; rw [c2] at b5
  cases b4; cases b5
  rw [a6] at b6
  cases b6
  rw [b7, a7]

/-- **C103** A tenor that cannot be read leaves the start dates in the table. -/
theorem C103_failed_call (t t' : CashTable) (cd : Int) (basis : DayCountBasis) (delay date : Option Int) (cal : Option BusCal) (e : Err)
    (tenors : List Str) (ht : cashTenors t = .ok tenors) (hm : t.maturity = none)
    (hbad : tenors.mapM tenorToDateOffset = .error e) (sd : Int)
    (hs : cashTableSettlement cal cd delay date = .ok sd) (hstart : t.effective = none)
    (h : cashTableHelper t cd basis delay date cal = (t', .error e)) :
    t'.effective = some (tenors.map (fun s => if s = "on".toList then cd else sd)) ∧ t'.maturity = none ∧
    ∀ cd' basis' delay' date' cal' t'', cashTableHelper t' cd' basis' delay' date' cal' = (t'', .ok ()) →
      t''.effective = t'.effective := by
  unfold cashTableHelper at h
  rw [ht] at h
  simp only [hs, hm, cashMaturities, hbad, bind, Except.bind, hstart] at h
  have heff : t'.effective = some (tenors.map (fun s => if s = "on".toList then cd else sd)) := by
    cases h
    simp only [Option.getD_none, List.map_map, Option.some.injEq]
    apply List.map_congr_left
    intro s _
    by_cases hon : s = "on".toList
    · simp [hon]
    · simp [hon]
  refine ⟨heff, ?_, ?_⟩
  · cases h; rfl
  · intro cd' basis' delay' date' cal' t'' h2
    rw [heff]
    exact ((C103_kept t' t'' cd' basis' delay' date' cal' h2).2.2.1 _ heff).1

/-- **C103** The refusals before anything is written: no rates, neither tenors nor both dates, a tenor that is not a text. -/
theorem C103_refusals (t : CashTable) (cd : Int) (basis : DayCountBasis) (delay date : Option Int) (cal : Option BusCal) :
    (t.rate = none → cashTableHelper t cd basis delay date cal = (t, .error .assertion)) ∧
    (t.tenor = none → (t.effective = none ∨ t.maturity = none) → cashTableHelper t cd basis delay date cal = (t, .error .assertion)) ∧
    (∀ l, t.rate.isSome → t.tenor = some l → none ∈ l → cashTableHelper t cd basis delay date cal = (t, .error .type)) := by
  have key : ∀ e, cashTenors t = .error e → cashTableHelper t cd basis delay date cal = (t, .error e) := by
    intro e h
    unfold cashTableHelper
    rw [h]
  refine ⟨fun hr => key _ ?_, fun ht hd => key _ ?_, fun l hr ht hl => key _ ?_⟩
  · unfold cashTenors
    rw [hr]; rfl
  · unfold cashTenors
    rcases hd with hd | hd <;> simp [ht, hd]
  · have hm : l.mapM cashTenor = .error .type := by
      clear ht
      induction l with
      | nil => cases hl
      | cons a l ih =>
        rw [List.mapM_cons]
        cases a with
        | none => rfl
        | some s =>
          have := ih (by simpa using hl)
          simp only [cashTenor, bind, Except.bind, this]
    unfold cashTenors
    cases hr' : t.rate with
    | none => rw [hr'] at hr; cases hr
    | some _ => simp [ht, cashColumn, bind, Except.bind, hm]

/-- **C103** What every call leaves whose tenors are texts: the tenors cleaned, the rates untouched; and once the settlement date is
known, start dates, and once the maturities are, those too, also when the periods cannot be counted. -/
theorem C103_left (t t' : CashTable) (cd : Int) (basis : DayCountBasis) (delay date : Option Int) (cal : Option BusCal)
    (l : List Str) (r : Except Err Unit) (hr : t.rate.isSome) (ht : t.tenor = some (l.map some))
    (h : cashTableHelper t cd basis delay date cal = (t', r)) :
    t'.tenor = some (l.map (fun s => some (cleanTenor s))) ∧ t'.rate = t.rate ∧
    (∀ sd, cashTableSettlement cal cd delay date = .ok sd →
      t'.effective = some (t.effective.getD (l.map (fun s => if cleanTenor s = "on".toList then cd else sd))) ∧
      (t.effective = none → t'.delayed = some (l.map (fun s => decide (cleanTenor s ≠ "on".toList)))) ∧
      ∀ e m, t'.effective = some e → cashMaturities cal t.maturity e (l.map cleanTenor) = .ok m → t'.maturity = some m ∧
        ∀ x, yearFrac e m basis none = .error x → r = .error x ∧ t'.period = t.period) ∧
    (∀ x, cashTableSettlement cal cd delay date = .error x → r = .error x ∧ t'.effective = t.effective ∧ t'.maturity = t.maturity) := by
  have hc : cashTenors t = .ok (l.map cleanTenor) := by
    unfold cashTenors
    cases hr' : t.rate with
    | none => rw [hr'] at hr; cases hr
    | some _ =>
      simp only [ht, Option.isNone_some, Bool.false_eq_true, if_false, Bool.false_and, cashColumn, bind, Except.bind]
      exact cashTenors_text l
  have hmap : (l.map cleanTenor).map some = l.map (fun s => some (cleanTenor s)) := by rw [List.map_map]; rfl
  have heff : ∀ sd, (((l.map cleanTenor).map (fun s => decide (s ≠ "on".toList))).map (fun d => if d = true then sd else cd)) =
      l.map (fun s => if cleanTenor s = "on".toList then cd else sd) := by
    intro sd
    rw [List.map_map, List.map_map]
    apply List.map_congr_left
    intro s _
    by_cases hon : cleanTenor s = "on".toList
    · simp [hon]
    · simp only [Function.comp_def, ne_eq, hon, not_false_eq_true, decide_true, if_true, if_false]
  have hdel : (l.map cleanTenor).map (fun s => decide (s ≠ "on".toList)) = l.map (fun s => decide (cleanTenor s ≠ "on".toList)) := by
    rw [List.map_map]; rfl
  unfold cashTableHelper at h
  rw [hc] at h
  simp only at h
  cases hs : cashTableSettlement cal cd delay date with
  | error x =>
    rw [hs] at h
    cases h
    exact ⟨by rw [← hmap], rfl, fun sd hsd => (by cases hsd), fun x' hx => (by cases hx; exact ⟨rfl, rfl, rfl⟩)⟩
  | ok sd =>
    rw [hs] at h
    simp only [heff] at h
    refine ⟨?_, ?_, ?_, fun x hx => by cases hx⟩
    · split at h
      · cases h; rw [← hmap]
      · split at h <;> cases h <;> rw [← hmap]
    · split at h
      · cases h; rfl
      · split at h <;> cases h <;> rfl
    · intro sd' hsd
      cases hsd
      cases hm : cashMaturities cal t.maturity (t.effective.getD (l.map (fun s => if cleanTenor s = "on".toList then cd else sd)))
          (l.map cleanTenor) with
      | error x =>
        rw [hm] at h
        cases h
        refine ⟨rfl, fun hn => by simp only [hn, Option.isSome_none, Bool.false_eq_true, if_false, hdel], ?_⟩
        intro e m he hm'
        cases he
        rw [hm] at hm'
        cases hm'
      | ok m =>
        rw [hm] at h
        simp only at h
        cases hy : yearFrac (t.effective.getD (l.map (fun s => if cleanTenor s = "on".toList then cd else sd))) m basis none with
        | error x =>
          rw [hy] at h
          cases h
          refine ⟨rfl, fun hn => by simp only [hn, Option.isSome_none, Bool.false_eq_true, if_false, hdel], ?_⟩
          intro e m' he hm'
          cases he
          rw [hm] at hm'
          cases hm'
          refine ⟨rfl, fun x' hx => ?_⟩
          rw [hy] at hx
          cases hx
          exact ⟨rfl, rfl⟩
        | ok ys =>
          rw [hy] at h
          cases h
          refine ⟨rfl, fun hn => by simp only [hn, Option.isSome_none, Bool.false_eq_true, if_false, hdel], ?_⟩
          intro e m' he hm'
          cases he
          rw [hm] at hm'
          cases hm'
          refine ⟨rfl, fun x' hx => ?_⟩
          rw [hy] at hx
          cases hx

/-- **C103** Once bootstrapped, a table of futures keeps its forward rates: new prices, also with new futures rates and convexities,
change nothing. -/
theorem C103_futures_stale (c c' : FuturesColumns) (h : futuresLeft c = .ok c') (price : Option (List ℝ)) (fut conv : List ℝ) :
    forwardColumn { c' with price := price } = forwardColumn c ∧
    forwardColumn { c' with price := price, futuresRate := some fut, convexityBps := some conv } = forwardColumn c := by
  unfold futuresLeft at h
  simp only [bind, Except.bind] at h
  split at h
  · cases h
  split at h
  · cases h
  split at h
  · cases h
  rename_i fwd hfwd
  cases h
  rw [hfwd]
  exact ⟨rfl, rfl⟩

/-- A table of one contract whose price moves from 95 to 94. -/
example : ∃ c', futuresLeft { effective := [91], maturity := [182], price := some [95] } = .ok c' ∧
    forwardColumn { c' with price := some [94] } = .ok [5 / 100] := by
  have h : ∃ c', futuresLeft { effective := [91], maturity := [182], price := some [95] } = .ok c' := ⟨_, rfl⟩
  obtain ⟨c', h⟩ := h
  refine ⟨c', h, ?_⟩
  rw [(C103_futures_stale _ _ h _ [] []).1]
  simp only [forwardColumn, futuresRates, convexities, bind, Except.bind, List.map_cons, List.map_nil, List.zip_cons_cons,
    List.zip_nil_right, Except.ok.injEq, List.cons.injEq, and_true]
  norm_num

/-- A table of an overnight and a one-month quote: the helper returns, and called again a year later keeps the dates. -/
example : ∃ t', cashTableHelper (tenorTable [⟨"ON".toList, 1 / 20⟩, ⟨"1M".toList, 1 / 20⟩]) (mkDate 2024 1 31) .act_365 none
      (some (mkDate 2024 2 2)) (some defaultBusCal) = (t', .ok ()) ∧
    t'.effective = some [mkDate 2024 1 31, mkDate 2024 2 2] ∧ t'.maturity = some [mkDate 2024 2 1, mkDate 2024 3 4] ∧
    ∃ t'', cashTableHelper t' (mkDate 2025 1 31) .act_365 none (some (mkDate 2025 2 4)) (some defaultBusCal) = (t'', .ok ()) ∧
      t''.effective = some [mkDate 2024 1 31, mkDate 2024 2 2] := by
  have a1 : cashTenors (tenorTable [⟨"ON".toList, 1 / 20⟩, ⟨"1M".toList, 1 / 20⟩]) = .ok ["on".toList, "1m".toList] := by
    decide +kernel
  have a2 : cashMaturities (some defaultBusCal) none [mkDate 2024 1 31, mkDate 2024 2 2] ["on".toList, "1m".toList] =
      .ok [mkDate 2024 2 1, mkDate 2024 3 4] := by decide +kernel
  have a3 : yearFrac [mkDate 2024 1 31, mkDate 2024 2 2] [mkDate 2024 2 1, mkDate 2024 3 4] .act_365 none = .ok [1 / 365, 31 / 365] := by
    decide +kernel
  have a4 : ["on".toList, "1m".toList].map (fun s => decide (s ≠ "on".toList)) = [false, true] := by decide +kernel
  have b1 : ["on".toList, "1m".toList].map cleanTenor = ["on".toList, "1m".toList] := by decide +kernel
  have h1 : cashTableHelper (tenorTable [⟨"ON".toList, 1 / 20⟩, ⟨"1M".toList, 1 / 20⟩]) (mkDate 2024 1 31) .act_365 none
      (some (mkDate 2024 2 2)) (some defaultBusCal) =
      ({ tenor := some [some "on".toList, some "1m".toList], rate := some [1 / 20, 1 / 20],
         effective := some [mkDate 2024 1 31, mkDate 2024 2 2], maturity := some [mkDate 2024 2 1, mkDate 2024 3 4],
         delayed := some [false, true], period := some [((1 / 365 : Rat) : ℝ), ((31 / 365 : Rat) : ℝ)] }, .ok ()) := by
    unfold cashTableHelper
    rw [a1]
    simp only [cashTableSettlement, a4, tenorTable, Option.getD_none, List.map_cons, List.map_nil, if_true, Bool.false_eq_true, if_false,
      Option.isSome_none, a2, a3]
  refine ⟨_, h1, rfl, rfl, ?_⟩
  have c1 : cashTenors
      { tenor := some [some "on".toList, some "1m".toList], rate := some [1 / 20, 1 / 20],
         effective := some [mkDate 2024 1 31, mkDate 2024 2 2], maturity := some [mkDate 2024 2 1, mkDate 2024 3 4],
         delayed := some [false, true], period := some [((1 / 365 : Rat) : ℝ), ((31 / 365 : Rat) : ℝ)] } = .ok ["on".toList, "1m".toList] := by
    rw [← b1]
    exact cleanTenors_again a1 rfl rfl
  unfold cashTableHelper
  rw [c1]
  simp only [cashTableSettlement, a4, Option.getD_some, cashMaturities, a3]
  exact ⟨_, rfl, rfl⟩

end Frm.Props
