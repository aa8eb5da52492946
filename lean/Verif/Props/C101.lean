import Verif.Model.Plots
import Verif.Props.C36

/-! # C101 — What the plots show -/

namespace Frm
open Spec

set_option autoImplicit false

theorem dateRange_cons {s e : Int} (h : s ≤ e) : dateRange s e = s :: dateRange (s + 1) e := by
  rw [dateRange_append (m := s + 1) (s := s) (by omega) (by omega)]
  have : dateRange s (s + 1 - 1) = [s] := by simp [dateRange]
  rw [this]; rfl

theorem dateRange_getLast {s e : Int} (h : s ≤ e) : (dateRange s e).getLast? = some e := by
  rw [dateRange_append (m := e) (s := s) (by omega) (by omega)]
  have : dateRange e e = [e] := by simp [dateRange]
  rw [this]; simp

theorem dateRange_getElem {s e : Int} {i : Nat} (h : i < (e - s + 1).toNat) : (dateRange s e)[i]? = some (s + i) := by
  unfold dateRange
  rw [List.getElem?_map, List.getElem?_range h]
  rfl

/-- Year fractions of a column of dates not before the curve date. -/
theorem yearFrac_column {cd : Int} {b : DayCountBasis} {l : List Int} (hl : l ≠ []) (ho : ∀ d ∈ l, cd ≤ d) :
    ∃ r, yearFrac [cd] l b none = .ok r ∧ r.length = l.length ∧
      ∀ (k : Nat) (d : Int), l[k]? = some d → ∃ y, yearFrac [cd] [d] b (some [decide (l.length ≤ k + 1)]) = .ok [y] ∧ r[k]? = some y := by
  have hsh : ∃ S, sameShape [cd] l = (S, l) ∧ S.length = l.length ∧ ∀ x ∈ S, x = cd := by
    match l, hl with
    | [x], _ => exact ⟨[cd], rfl, rfl, by simp⟩
    | x :: y :: l, _ => exact ⟨_, rfl, by simp, fun x hx => List.eq_of_mem_replicate hx⟩
  obtain ⟨S, hS, hlen, hmem⟩ := hsh
  obtain ⟨r, hr⟩ : ∃ r, yearFrac [cd] l b none = .ok r := by
    have hc : checkOrder S l = .ok () := by
      unfold checkOrder
      rw [if_neg (by simpa using hlen)]
      have : ((S.zip l).all (fun p => decide (p.1 ≤ p.2))) = true := by
        rw [List.all_eq_true]
        intro p hp
        have hp1 := hmem p.1 (List.of_mem_zip hp).1
        have := ho p.2 (List.of_mem_zip hp).2
        rw [hp1]; simpa using this
      rw [this]; rfl
    unfold yearFrac dayCount
    cases b <;> simp only [hS, hc, Except.map] <;> exact ⟨_, rfl⟩
  refine ⟨r, hr, by rw [yearFrac_length hr, sameShape_lengths hl], ?_⟩
  intro k d hk
  have := sameShape_left l cd k d hk
  obtain ⟨-, q, hq, hk'⟩ := yearFrac_get_flag hr this.1 this.2
  rw [hS] at hq
  exact ⟨q, hq, hk'⟩

theorem yearFrac_empty (cd : Int) (b : DayCountBasis) : yearFrac [cd] [] b none = .error .value := by cases b <;> rfl

/-- Adding months to a date whose day exists in every month keeps the day. -/
theorem addMonths_mk {y m d : Int} (hm : 1 ≤ m ∧ m ≤ 12) (hd : 1 ≤ d ∧ d ≤ 28) (k : Int) :
    addMonths (mkDate y m d) k = mkDate ((12 * y + (m - 1) + k) / 12) ((12 * y + (m - 1) + k) % 12 + 1) d := by
  have hv : (Civil.mk y m d).Valid := ⟨hm.1, hm.2, hd.1, by have := (daysInMonth_bounds y m).1; simp only; omega⟩
  unfold addMonths
  have : toCivil (mkDate y m d) = ⟨y, m, d⟩ := toCivil_ofCivil hv
  rw [this]
  simp only
  congr 1
  have := (daysInMonth_bounds ((12 * y + (m - 1) + k) / 12) ((12 * y + (m - 1) + k) % 12 + 1)).1
  omega

section
variable {cd : Int} {basis : DayCountBasis} {cal : BusCal} {z : ZeroCurve}

/-- The dates of the daily table. -/
theorem daily_dates (h : IsCurve cd basis cal z) {last : Int}
    (hlast : (z.daily.map (·.date)).getLast? = some last) :
    cd ≤ last ∧ z.daily.map (·.date) = dateRange cd last := by
  obtain ⟨-, -, -, last', hle, this, -⟩ := curve_ok h
  rw [this, dateRange_getLast hle] at hlast
  simp only [Option.some.injEq] at hlast
  subst hlast
  exact ⟨hle, this⟩

/-- Zero rates of dates of the curve, date by date. -/
theorem zeroRates_all (h : IsCurve cd basis cal z) (f : CompoundingFreq)
    {dates : List Int} (hd : ∀ d ∈ dates, InRange z d) :
    ∃ g : Int → Option ℝ, z.zeroRates f dates = dates.map g ∧ ∀ d ∈ dates, z.zeroRates f [d] = [g d] := by
  obtain ⟨-, -, -, last, hle, hdates, -⟩ := curve_ok h
  let g : Int → Option ℝ := fun d => (z.daily.find? (fun r => r.date == d)).bind (fun row =>
    if f = .continuous then row.cczr else if row.years = 0 then none else some (f.zeroRate row.years row.discountFactor))
  have key : ∀ l : List Int, (∀ d ∈ l, InRange z d) → z.zeroRates f l = l.map g := by
    intro l hl'
    unfold ZeroCurve.zeroRates
    rw [curve_indexDates hle hdates]
    have : l.filter (fun d => decide (cd ≤ d) && decide (d ≤ last)) = l := by
      rw [List.filter_eq_self]
      intro d hdl
      have := (curve_inRange h hle hdates d).mp (hl' d hdl)
      simp [this.1, this.2]
    rw [this, List.map_map]
    rfl
  exact ⟨g, key dates hd, fun d hdd => by rw [key [d] (by simpa using hd d hdd)]; rfl⟩

end
end Frm

namespace Frm.Props
open Spec

set_option autoImplicit false

section
variable {cd : Int} {basis : DayCountBasis} {cal : BusCal} {z : ZeroCurve}

/-- `t` is the year fraction from `s` to `e` as an element of a column, `final` telling whether it is the last one: that matters only for the last
day of February under 30E/360 ISDA. -/
def ColumnYears (b : DayCountBasis) (s e : Int) (final : Bool) (t : Rat) : Prop :=
  yearFrac [s] [e] b (some [final]) = .ok [t] ∧ (Plain b e → yearFrac [s] [e] b none = .ok [t])

theorem columnYears {b : DayCountBasis} {s e : Int} {f g : Bool} {t : Rat} (h : yearFrac [s] [e] b (some [f]) = .ok [t]) (hfg : f = g) :
    ColumnYears b s e g t := by
  subst hfg
  exact ⟨h, fun hb => by rw [← yearFrac_flag (.inl hb)]; exact h⟩

/-- What a plot of the curve shows.  First line: the continuously compounded zero rate, in per cent, of every day after the curve date.  Second line: for
every day, the simple forward rate over the next `n` days, in per cent, where `n` is the number of days from the first of the days to the day a term later. -/
structure ShowsCurve (z : ZeroCurve) (cd last n : Int) (basis : DayCountBasis) (p : CurvePlot) : Prop where
  zeroLength : p.zero.length = (last - cd).toNat
  zero : ∀ i : Nat, (i : Int) < last - cd → ∃ (t : Rat) (x : Option ℝ), ColumnYears basis cd (cd + 1 + i) (decide (cd + 1 + i = last)) t ∧
    z.zeroRates .continuous [cd + 1 + i] = [x] ∧ p.zero[i]? = some ((t : ℝ), x.map (fun r => 100 * r))
  forwardLength : p.forward.length = (last - n - cd).toNat
  forward : ∀ i : Nat, (i : Int) < last - n - cd → ∃ (t dt : Rat) (a b : ℝ) (x : Option ℝ),
    ColumnYears basis cd (cd + 1 + i) (decide (cd + 1 + i = last - n)) t ∧
    ColumnYears basis (cd + 1 + i) (cd + 1 + i + n) (decide (cd + 1 + i = last - n)) dt ∧
    z.discountFactors [cd + 1 + i] = [some a] ∧ z.discountFactors [cd + 1 + i + n] = [some b] ∧
    p.forward[i]? = some ((t : ℝ), x.map (fun r => 100 * r)) ∧ ((dt : ℝ) ≠ 0 → ∃ r, x = some r ∧ 1 + r * dt = a / b)

theorem plotLine_ok {years : List Rat} {rates : List (Option ℝ)} (h : years.length = rates.length) :
    ∃ l, plotLine years rates = .ok l ∧ l.length = years.length ∧
      ∀ (i : Nat) (t : Rat) (x : Option ℝ), years[i]? = some t → rates[i]? = some x → l[i]? = some ((t : ℝ), x.map (fun r => 100 * r)) := by
  unfold plotLine
  rw [if_neg (by simpa using h)]
  refine ⟨_, rfl, by simp [h], ?_⟩
  intro i t x ht hx
  have hz : (years.zip rates)[i]? = some (t, x) := List.getElem?_zip_eq_some.mpr ⟨ht, hx⟩
  rw [List.getElem?_map, hz]
  simp only [Option.map_some, Option.some.injEq, Prod.mk.injEq, true_and]
  cases x with
  | none => rfl
  | some r => simp [mul_comm]

/-- Everything a plot of a curve can do.  `last` is the last day of the daily table.  The plot raises for a table of one day; when a term before the last
day comes before the first day; when the term spans different numbers of days from the first day and to the last one; and for a table of two
days.  Otherwise it shows the zero rates and the forward rates over a fixed number of days. -/
theorem C101_curve_plot (h : IsCurve cd basis cal z) {last : Int}
    (hlast : (z.daily.map (·.date)).getLast? = some last) (term : DateOffset) {lo' hi' : Int}
    (hlo : lo' = term.addTo (cd + 1)) (hhi : hi' = term.negated.addTo last) :
    (last = cd → z.plot term = .error .index) ∧
    (cd < last → hi' ≤ cd → z.plot term = .error .value) ∧
    (cd < last → cd < hi' → (last - hi' ≠ lo' - (cd + 1) ∨ lo' ≤ cd) → z.plot term = .error .assertion) ∧
    (cd < last → cd < hi' → last - hi' = lo' - (cd + 1) → cd < lo' → last = cd + 1 → z.plot term = .error .type) ∧
    (cd < last → cd < hi' → last - hi' = lo' - (cd + 1) → cd < lo' → cd + 1 < last →
      ∃ p, z.plot term = .ok p ∧ ShowsCurve z cd last (last - hi') basis p) := by
  obtain ⟨hle, hdates⟩ := daily_dates h hlast
  obtain ⟨hcd, hzb, -⟩ := curve_ok h
  have hin : ∀ d, InRange z d ↔ cd ≤ d ∧ d ≤ last := curve_inRange h hle hdates
  have hone : last = cd → z.plot term = .error .index := by
    intro he
    unfold ZeroCurve.plot
    rw [hdates, he, dateRange_cons (le_refl cd)]
    have : dateRange (cd + 1) cd = [] := by simp [dateRange]
    rw [this]
  by_cases hlt : cd < last
  swap
  · exact ⟨hone, fun h' => absurd h' hlt, fun h' => absurd h' hlt, fun h' => absurd h' hlt, fun h' => absurd h' hlt⟩
  have hd1 : dateRange (cd + 1) last ≠ [] := by rw [dateRange_cons (by omega)]; simp
  obtain ⟨years, hy, hyl, hyg⟩ := yearFrac_column (cd := cd) hd1 (fun d hd => by have := mem_dateRange.mp hd; omega)
  obtain ⟨g, hz, hzs⟩ := zeroRates_all h .continuous (dates := dateRange (cd + 1) last)
    (fun d hd => (hin d).mpr (by have := mem_dateRange.mp hd; omega))
  obtain ⟨zero, hzero, hzl, hzg⟩ := plotLine_ok (years := years) (rates := (dateRange (cd + 1) last).map g) (by simp [hyl])
  have hplot : z.plot term = (do
      let yearsForward ← yearFrac [cd] (dateRange (cd + 1) hi') basis none
      let rates ← z.forwardRates (dateRange (cd + 1) hi') (dateRange lo' last) .simple
      let forward ← plotLine yearsForward rates
      if (dateRange (cd + 1) last).length = 1 then .error .type else .ok ⟨zero, forward⟩) := by
    unfold ZeroCurve.plot
    rw [hdates, dateRange_cons hle, dateRange_cons (by omega : cd + 1 ≤ last)]
    simp only
    have hgl : ((cd + 1) :: dateRange (cd + 1 + 1) last).getLast (by simp) = last := by
      have := dateRange_getLast (by omega : cd + 1 ≤ last)
      rw [dateRange_cons (by omega : cd + 1 ≤ last), List.getLast?_eq_some_getLast (by simp)] at this
      simpa using this
    rw [hgl, hcd, hzb, hy, hz, ← hlo, ← hhi]
    simp only [bind, Except.bind, hzero, ← dateRange_cons (by omega : cd + 1 ≤ last)]
  refine ⟨hone, ?_, ?_, ?_⟩
  · intro _ hc
    have : dateRange (cd + 1) hi' = [] := by simp [dateRange]; omega
    rw [hplot, this, yearFrac_empty]
    rfl
  · intro _ hc hor
    have hd2 : dateRange (cd + 1) hi' ≠ [] := by rw [dateRange_cons (by omega)]; simp
    obtain ⟨yf, hyf, -, -⟩ := yearFrac_column (cd := cd) hd2 (fun d hd => by have := mem_dateRange.mp hd; omega)
    have hf : z.forwardRates (dateRange (cd + 1) hi') (dateRange lo' last) .simple = .error .assertion := by
      unfold ZeroCurve.forwardRates
      simp only [bind, Except.bind, pyAssert, decide_eq_true_eq]
      by_cases hlen : (dateRange (cd + 1) hi').length = (dateRange lo' last).length
      · rw [if_pos hlen]
        have hs : ((dateRange (cd + 1) hi').all (fun s => decide (z.curveDate ≤ s))) = true := by
          rw [List.all_eq_true]
          intro d hd
          have := mem_dateRange.mp hd
          simp only [decide_eq_true_eq]; omega
        simp only [hs, if_true]
        rw [dateRange_length, dateRange_length] at hlen
        have hlo'' : lo' ≤ cd := by omega
        have hlo3 : lo' ≤ last := by omega
        have hall : ((dateRange (cd + 1) hi').zip (dateRange lo' last)).all (fun p => decide (p.1 ≤ p.2)) = false := by
          rw [dateRange_cons (by omega : cd + 1 ≤ hi'), dateRange_cons hlo3, List.zip_cons_cons, List.all_cons]
          have : decide (cd + 1 ≤ lo') = false := by simp; omega
          rw [this]; rfl
        simp only [hall, Bool.false_eq_true, if_false]
      · rw [if_neg hlen]
    rw [hplot, hyf, hf]
    rfl
  · have main : cd < hi' → last - hi' = lo' - (cd + 1) → cd < lo' → ∃ yf rates forward,
        yearFrac [cd] (dateRange (cd + 1) hi') basis none = .ok yf ∧
        z.forwardRates (dateRange (cd + 1) hi') (dateRange lo' last) .simple = .ok rates ∧ plotLine yf rates = .ok forward ∧
        (ShowsCurve z cd last (last - hi') basis ⟨zero, forward⟩) := by
      intro hc heq hlo4
      have hd2 : dateRange (cd + 1) hi' ≠ [] := by rw [dateRange_cons (by omega)]; simp
      obtain ⟨yf, hyf, hyfl, hyfg⟩ := yearFrac_column (cd := cd) hd2 (fun d hd => by have := mem_dateRange.mp hd; omega)
      have hlen : (dateRange (cd + 1) hi').length = (dateRange lo' last).length := by
        rw [dateRange_length, dateRange_length]; omega
      have hpair : ∀ p ∈ (dateRange (cd + 1) hi').zip (dateRange lo' last), p.1 ≤ p.2 := by
        intro p hp
        obtain ⟨i, hi⟩ := List.mem_iff_getElem?.mp hp
        obtain ⟨h1, h2⟩ := List.getElem?_zip_eq_some.mp hi
        have hil : i < (hi' - (cd + 1) + 1).toNat := by
          have := (List.getElem?_eq_some_iff.mp h1).1
          rwa [dateRange_length] at this
        rw [dateRange_getElem hil] at h1
        rw [dateRange_getElem (by omega)] at h2
        simp only [Option.some.injEq] at h1 h2
        omega
      obtain ⟨rates, hr, hrl, hrg⟩ := C36_reproduces h (dateRange (cd + 1) hi') (dateRange lo' last) hlen
        (fun d hd => (hin d).mpr (by have := mem_dateRange.mp hd; omega))
        (fun d hd => (hin d).mpr (by have := mem_dateRange.mp hd; omega)) hpair .simple (by simp)
      obtain ⟨forward, hfw, hfl, hfg⟩ := plotLine_ok (years := yf) (rates := rates) (by rw [hyfl, hrl])
      refine ⟨yf, rates, forward, hyf, hr, hfw, ?_, ?_, ?_, ?_⟩
      · show zero.length = _
        rw [hzl, hyl, dateRange_length]; congr 1; omega
      · intro i hi
        have hget : (dateRange (cd + 1) last)[i]? = some (cd + 1 + i) := dateRange_getElem (by omega)
        obtain ⟨t, ht, htk⟩ := hyg i _ hget
        refine ⟨t, g (cd + 1 + i), columnYears ht (by rw [decide_eq_decide, dateRange_length]; omega), hzs _ (List.mem_of_getElem? hget), ?_⟩
        exact hzg i t _ htk (by rw [List.getElem?_map, hget]; rfl)
      · show forward.length = _
        rw [hfl, hyfl, dateRange_length]; congr 1; omega
      · intro i hi
        have hget : (dateRange (cd + 1) hi')[i]? = some (cd + 1 + i) := dateRange_getElem (by omega)
        have hget2 : (dateRange lo' last)[i]? = some (cd + 1 + i + (last - hi')) := by
          rw [dateRange_getElem (by omega)]; congr 1; omega
        obtain ⟨t, ht, htk⟩ := hyfg i _ hget
        obtain ⟨dt, a, b, hdt, -, ha, hb', hx⟩ := hrg i _ _ hget hget2
        have hil : i < rates.length := by rw [hrl, dateRange_length]; omega
        refine ⟨t, dt, a, b, rates[i], columnYears ht (by rw [decide_eq_decide, dateRange_length]; omega),
          columnYears hdt (by rw [decide_eq_decide, dateRange_length]; omega), ha, hb', hfg i t _ htk (List.getElem?_eq_getElem hil), ?_⟩
        intro hne
        obtain ⟨x, hx1, hx2⟩ := hx hne
        rw [List.getElem?_eq_getElem hil, Option.some.injEq] at hx1
        exact ⟨x, hx1, hx2⟩
    have hlen1 : ((dateRange (cd + 1) last).length = 1) ↔ last = cd + 1 := by rw [dateRange_length]; omega
    refine ⟨?_, ?_⟩
    · intro _ hc heq hlo4 hl1
      obtain ⟨yf, rates, forward, e1, e2, e3, -⟩ := main hc heq hlo4
      rw [hplot, e1, e2]
      simp only [bind, Except.bind, e3]
      rw [if_pos (hlen1.mpr hl1)]
    · intro _ hc heq hlo4 hl1
      obtain ⟨yf, rates, forward, e1, e2, e3, hs⟩ := main hc heq hlo4
      refine ⟨⟨zero, forward⟩, ?_, hs⟩
      rw [hplot, e1, e2]
      simp only [bind, Except.bind, e3]
      rw [if_neg (fun hc => by have := hlen1.mp hc; omega)]

/-- A term before a date: days and weeks are counted back, months and years are those of the calendar. -/
theorem C101_term_before (n d : Int) : (DateOffset.days n).negated.addTo d = d - n ∧ (DateOffset.weeks n).negated.addTo d = d - 7 * n ∧
    (DateOffset.months n).negated.addTo d = addMonths d (-n) ∧ (DateOffset.years n).negated.addTo d = addMonths d (-(12 * n)) := by
  refine ⟨?_, ?_, rfl, ?_⟩ <;> simp only [DateOffset.negated, DateOffset.addTo]
  · ring
  · ring
  · congr 1; ring

/-- The default plot (three-month forwards) of a curve that ends a whole number of years after its date, when neither is at the end of a
month: it fails for most months. -/
theorem C101_whole_years (h : IsCurve cd basis cal z) {y m d k : Int} (hm : 1 ≤ m ∧ m ≤ 12)
    (hd : 1 ≤ d ∧ d ≤ 27) (hk : 1 ≤ k) (hcd : cd = mkDate y m d)
    (hlast : (z.daily.map (·.date)).getLast? = some (mkDate (y + k) m d)) :
    ((m = 6 ∨ m = 8 ∨ m = 10 ∨ m = 11 ∨ (m = 4 ∧ Leap (y + k)) ∨ (m = 12 ∧ Leap (y + 1))) → ∃ p, z.plot = .ok p) ∧
    (¬ (m = 6 ∨ m = 8 ∨ m = 10 ∨ m = 11 ∨ (m = 4 ∧ Leap (y + k)) ∨ (m = 12 ∧ Leap (y + 1))) → z.plot = .error .assertion) := by
  have hc1 : cd + 1 = mkDate y m (d + 1) := by rw [hcd]; unfold mkDate ofCivil; simp only; omega
  have hlo : (DateOffset.months 3).addTo (cd + 1) = mkDate ((12 * y + (m - 1) + 3) / 12) ((12 * y + (m - 1) + 3) % 12 + 1) (d + 1) := by
    rw [hc1]; exact addMonths_mk hm (by omega) 3
  have hhi : (DateOffset.months 3).negated.addTo (mkDate (y + k) m d) =
      mkDate ((12 * (y + k) + (m - 1) + -3) / 12) ((12 * (y + k) + (m - 1) + -3) % 12 + 1) d := addMonths_mk hm (by omega) (-3)
  obtain ⟨-, -, h3, -, h5⟩ := C101_curve_plot h hlast (.months 3) hlo.symm hhi.symm
  have hyr : daysBeforeYear y + 365 ≤ daysBeforeYear (y + k) := daysBeforeYear_lt (by omega)
  have hlt : cd + 270 < mkDate ((12 * (y + k) + (m - 1) + -3) / 12) ((12 * (y + k) + (m - 1) + -3) % 12 + 1) d ∧
      mkDate ((12 * (y + k) + (m - 1) + -3) / 12) ((12 * (y + k) + (m - 1) + -3) % 12 + 1) d < mkDate (y + k) m d ∧
      cd < mkDate ((12 * y + (m - 1) + 3) / 12) ((12 * y + (m - 1) + 3) % 12 + 1) (d + 1) ∧
      (mkDate (y + k) m d - mkDate ((12 * (y + k) + (m - 1) + -3) / 12) ((12 * (y + k) + (m - 1) + -3) % 12 + 1) d =
        mkDate ((12 * y + (m - 1) + 3) / 12) ((12 * y + (m - 1) + 3) % 12 + 1) (d + 1) - (cd + 1) ↔
      (m = 6 ∨ m = 8 ∨ m = 10 ∨ m = 11 ∨ (m = 4 ∧ Leap (y + k)) ∨ (m = 12 ∧ Leap (y + 1)))) := by
    rw [hcd]
    have hmono : daysBeforeYear y ≤ daysBeforeYear (y + k - 1) := daysBeforeYear_mono (by omega)
    have hs1 : daysBeforeYear (y + 1) = daysBeforeYear y + yearLength y := daysBeforeYear_succ y
    have hs2 : daysBeforeYear (y + k) = daysBeforeYear (y + k - 1) + yearLength (y + k - 1) := by
      have := daysBeforeYear_succ (y + k - 1)
      rwa [show y + k - 1 + 1 = y + k by omega] at this
    have ha : (12 * y + (m - 1) + 3) / 12 = (if m ≤ 9 then y else y + 1) := by split <;> omega
    have hb' : (12 * y + (m - 1) + 3) % 12 + 1 = (if m ≤ 9 then m + 3 else m - 9) := by split <;> omega
    have hc' : (12 * (y + k) + (m - 1) + -3) / 12 = (if m ≤ 3 then y + k - 1 else y + k) := by split <;> omega
    have hd' : (12 * (y + k) + (m - 1) + -3) % 12 + 1 = (if m ≤ 3 then m + 9 else m - 3) := by split <;> omega
    rw [ha, hb', hc', hd', ← isLeap_iff, ← isLeap_iff]
    unfold mkDate ofCivil
    clear ha hb' hc' hd' h3 h5 hlo hhi hc1 hlast hcd h
    obtain ⟨l, hl⟩ : ∃ l : Int → Int, ∀ y, (l y = 0 ∨ l y = 1) ∧ (isLeap y = true ↔ l y = 1) ∧ yearLength y = 365 + l y ∧
        ∀ m, daysBeforeMonth y m = daysBeforeMonth 1 m + if 2 < m then l y else 0 := by
      refine ⟨fun y => if isLeap y then 1 else 0, fun y => ?_⟩
      have h1 : isLeap 1 = false := by decide
      refine ⟨by cases e : isLeap y <;> simp [e], by cases e : isLeap y <;> simp [e], by unfold yearLength; cases e : isLeap y <;> simp [e], fun m => ?_⟩
      unfold daysBeforeMonth
      rw [h1]
      cases e : isLeap y <;> simp [e]
    have l1 := hl y
    have l2 := hl (y + 1)
    have l3 := hl (y + k - 1)
    have l4 := hl (y + k)
    rw [l1.2.2.1] at hs1
    rw [l3.2.2.1] at hs2
    rw [l2.2.1, l4.2.1]
    have hm' : m = 1 ∨ m = 2 ∨ m = 3 ∨ m = 4 ∨ m = 5 ∨ m = 6 ∨ m = 7 ∨ m = 8 ∨ m = 9 ∨ m = 10 ∨ m = 11 ∨ m = 12 := by omega
    have b1 : daysBeforeMonth 1 1 = 0 := by decide
    have b2 : daysBeforeMonth 1 2 = 31 := by decide
    have b3 : daysBeforeMonth 1 3 = 59 := by decide
    have b4 : daysBeforeMonth 1 4 = 90 := by decide
    have b5 : daysBeforeMonth 1 5 = 120 := by decide
    have b6 : daysBeforeMonth 1 6 = 151 := by decide
    have b7 : daysBeforeMonth 1 7 = 181 := by decide
    have b8 : daysBeforeMonth 1 8 = 212 := by decide
    have b9 : daysBeforeMonth 1 9 = 243 := by decide
    have b10 : daysBeforeMonth 1 10 = 273 := by decide
    have b11 : daysBeforeMonth 1 11 = 304 := by decide
    have b12 : daysBeforeMonth 1 12 = 334 := by decide
    rcases hm' with rfl | rfl | rfl | rfl | rfl | rfl | rfl | rfl | rfl | rfl | rfl | rfl <;>
      norm_num [l1.2.2.2, l2.2.2.2, l3.2.2.2, l4.2.2.2, b1, b2, b3, b4, b5, b6, b7, b8, b9, b10, b11, b12] <;> omega
  refine ⟨fun hc => ?_, fun hc => ?_⟩
  · obtain ⟨p, hp, -⟩ := h5 (by omega) (by omega) (hlt.2.2.2.mpr hc) hlt.2.2.1 (by omega)
    exact ⟨p, hp⟩
  · exact h3 (by omega) (by omega) (.inl (fun he => hc (hlt.2.2.2.mp he)))

end

/-! ### Two curves -/

/-- A curve with one pillar after 365 days. -/
theorem yearCurve (cal : BusCal) (cd : Int) : ∃ z, makeZeroCurve cd { date := some [cd + 365], discountFactor := some [0.97] }
    none .act_365 cal = .ok z ∧ (z.daily.map (·.date)).getLast? = some (cd + 365) := by
  have hyf : yearFrac [cd] [cd + 365] .act_365 none = .ok [1] := by
    have : checkOrder [cd] [cd + 365] = .ok () := by simp [checkOrder, pyAssert]
    simp [yearFrac, dayCount, sameShape, Except.map, this]
  have hpp : processPillars cal .act_365 cd none { date := some [cd + 365], discountFactor := some [0.97] } =
      .ok [{ date := some cd, years := 0, discountFactor := 1 }, { date := some (cd + 365), years := 1, discountFactor := 0.97 }] := by
    unfold processPillars
    have hc : chooseColumns { date := some [cd + 365], discountFactor := some [0.97] } =
      .ok (.date [cd + 365], .discountFactor [0.97]) := rfl
    simp only [hc, bind, Except.bind, pillarTimes, hyf, Except.map, pillarValues, List.map_cons, List.map_nil,
      List.zip_cons_cons, List.zip_nil_right, List.insertionSort, List.foldr, List.orderedInsert]
    norm_num
  have hlast : lastDay .act_365 cd [{ date := some cd, years := 0, discountFactor := 1 },
      { date := some (cd + 365), years := 1, discountFactor := 0.97 }] = .ok (cd + 365) := by
    simp [lastDay, List.max?]
  obtain ⟨ys, hys, -⟩ := yearFrac_column (cd := cd) (b := .act_365) (l := dateRange cd (cd + 365)) (by rw [dateRange_cons (by omega)]; simp)
    (by intro d hd; simp [dateRange] at hd; omega)
  have hz : ∃ z, makeZeroCurve cd { date := some [cd + 365], discountFactor := some [0.97] } none .act_365 cal = .ok z ∧
      lastDay .act_365 cd z.pillars = .ok (cd + 365) := by
    unfold makeZeroCurve
    simp only [hpp, bind, Except.bind, setupDaily, hlast]
    rw [hys]
    exact ⟨_, rfl, hlast⟩
  obtain ⟨z, hz, hl⟩ := hz
  refine ⟨z, hz, ?_⟩
  obtain ⟨last', hl', hd, -⟩ := daily_facts hz
  rw [hl] at hl'
  cases hl'
  rw [hd (by omega), dateRange_getLast (by omega)]

/-- The default plot of a curve over the year from 15 June 2022 is drawn, and that of a curve over the year from 16 January 2022 is not. -/
example (cal : BusCal) : (∃ z, makeZeroCurve (mkDate 2022 6 15) { date := some [mkDate 2022 6 15 + 365], discountFactor := some [0.97] }
      none .act_365 cal = .ok z ∧ ∃ p, z.plot = .ok p) ∧
    (∃ z, makeZeroCurve (mkDate 2022 1 16) { date := some [mkDate 2022 1 16 + 365], discountFactor := some [0.97] }
      none .act_365 cal = .ok z ∧ z.plot = .error .assertion) := by
  constructor
  · obtain ⟨z, hz, hl⟩ := yearCurve cal (mkDate 2022 6 15)
    exact ⟨z, hz, (C101_whole_years (k := 1) (.linear hz) (by decide) (by decide) (by decide) rfl (by rw [hl]; decide)).1 (.inl rfl)⟩
  · obtain ⟨z, hz, hl⟩ := yearCurve cal (mkDate 2022 1 16)
    exact ⟨z, hz, (C101_whole_years (k := 1) (.linear hz) (by decide) (by decide) (by decide) rfl (by rw [hl]; decide)).2 (by norm_num)⟩
end Frm.Props
