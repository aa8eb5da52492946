import Verif.Model.PillarTable
import Verif.Props.C86

/-! # C87: building a curve and the caller's table -/

namespace Frm
open Spec

set_option autoImplicit false

private theorem choose_columns_error {c : PillarColumns} (h : 2 < c.xs.length + c.ys.length + c.others) :
    chooseColumns c = .error .value := by
  unfold chooseColumns
  rw [if_pos (by omega)]

private theorem curve_of_bad_columns {spl : List (ℝ × ℝ) → ℝ → ℝ} {cd : Int} {c : PillarColumns}
    {freq : Option CompoundingFreq} {basis : DayCountBasis} {cal : BusCal} {m : CurveMethod}
    (h : chooseColumns c = .error .value) : makeCurve spl cd c freq basis cal m = .error .value := by
  cases m with
  | linear => unfold makeCurve makeZeroCurve processPillars; simp only [h, bind, Except.bind, Except.map]
  | spline m => unfold makeCurve makeSplineCurve splineRows; simp only [h, bind, Except.bind, Except.map]

private theorem curve_columns {spl : List (ℝ × ℝ) → ℝ → ℝ} {cd : Int} {c : PillarColumns}
    {freq : Option CompoundingFreq} {basis : DayCountBasis} {cal : BusCal} {m : CurveMethod} {z : AnyCurve}
    (h : makeCurve spl cd c freq basis cal m = .ok z) :
    ∃ x y times, chooseColumns c = .ok (x, y) ∧ pillarTimes cal basis cd x = .ok times ∧
      ¬ (freq = none ∧ c.zeroRate.isSome) := by
  have hno : ∀ {x y}, chooseColumns c = .ok (x, y) → c.zeroRate.isSome → ∃ l, y = .zeroRate l := by
    intro x y hc hz
    obtain ⟨-, hy, -⟩ := (chooseColumns_iff c x y).mp hc
    obtain ⟨l, hl⟩ := Option.isSome_iff_exists.mp hz
    unfold PillarColumns.ys at hy
    rw [hl] at hy
    simp only [Option.map_some, Option.toList_some, List.cons_append, List.nil_append, List.cons.injEq] at hy
    exact ⟨l, hy.1.symm⟩
  cases m with
  | linear =>
    unfold makeCurve at h
    simp only at h
    cases hz : makeZeroCurve cd c freq basis cal with
    | error e => rw [hz] at h; cases h
    | ok z' =>
      obtain ⟨x, y, times, values, sorted, hc, ht, hv, -⟩ := processPillars_ok (makeZeroCurve_ok hz).1
      refine ⟨x, y, times, hc, ht, ?_⟩
      rintro ⟨rfl, hzr⟩
      obtain ⟨l, rfl⟩ := hno hc hzr
      cases hv
  | spline m =>
    unfold makeCurve at h
    simp only at h
    cases hz : makeSplineCurve spl cd c freq basis cal m with
    | error e => rw [hz] at h; cases h
    | ok z' =>
      obtain ⟨rows, points, hrows, hpil, -⟩ := makeSplineCurve_ok hz
      obtain ⟨x, y, times, raw, hc, ht, hraw, hsort, hperm⟩ := splineRows_ok hrows
      refine ⟨x, y, times, hc, ht, ?_⟩
      rintro ⟨rfl, hzr⟩
      obtain ⟨l, rfl⟩ := hno hc hzr
      have hne : rows ≠ [] := by rintro rfl; cases hpil
      cases hl : times.zip (PillarY.zeroRate l).column.2 with
      | nil =>
        rw [hl] at hraw
        simp only [List.mapM_nil, pure, Except.pure, Except.ok.injEq] at hraw
        rw [← hraw] at hperm
        exact hne hperm.eq_nil
      | cons p rest =>
        rw [hl] at hraw
        simp only [List.mapM_cons, bind, Except.bind, PillarY.column, splineRow] at hraw
        cases hraw

end Frm

namespace Frm.Props
open Spec

set_option autoImplicit false

/-- Once a curve has been built from a table of dates or tenors, the table has two (or three) more columns, and no curve can be
built from it again: `ValueError`, whatever the curve date, the basis, the calendar, the frequency and the method. -/
theorem C87_second_time_refused (spl : List (ℝ × ℝ) → ℝ → ℝ) (cd : Int) (c : PillarColumns) (freq : Option CompoundingFreq)
    (basis : DayCountBasis) (cal : BusCal) (m : CurveMethod) (z : AnyCurve) (h : makeCurve spl cd c freq basis cal m = .ok z)
    (hx : c.date.isSome ∨ c.tenor.isSome) (cd' : Int) (freq' : Option CompoundingFreq) (basis' : DayCountBasis) (cal' : BusCal)
    (m' : CurveMethod) :
    makeCurve spl cd' (tableAfter cd c freq basis cal) freq' basis' cal' m' = .error .value := by
  obtain ⟨x, y, times, hc, ht, hfreq⟩ := curve_columns h
  obtain ⟨hxs, hys, ho⟩ := (chooseColumns_iff c x y).mp hc
  have hylen : c.ys.length = 1 := by rw [hys]; rfl
  have e : ∀ {α β : Type} (o : Option α) (f : α → β), (o.map f).toList.length = o.toList.length := by
    intro α β o f; cases o <;> rfl
  have hxlen : c.tenor.toList.length + c.date.toList.length + c.days.toList.length + c.years.toList.length = 1 := by
    have lx := congrArg List.length hxs
    unfold PillarColumns.xs at lx
    simp only [List.length_append, List.length_cons, List.length_nil] at lx
    rwa [e, e, e, e] at lx
  apply curve_of_bad_columns
  apply choose_columns_error
  unfold tableAfter
  rw [if_neg hfreq, hc]
  have hys' : c.zeroRate.toList.length + c.discountFactor.toList.length = 1 := by
    have ly := hylen
    unfold PillarColumns.ys at ly
    simp only [List.length_append] at ly
    rwa [e, e] at ly
  have hadd : ∀ (c' : PillarColumns) (dates : List Int), c'.date.isSome →
      c'.zeroRate.toList.length + c'.discountFactor.toList.length = 1 →
      2 < (addTimeColumns basis cd c' dates).xs.length + (addTimeColumns basis cd c' dates).ys.length +
        (addTimeColumns basis cd c' dates).others := by
    intro c' dates hd' hy'
    obtain ⟨a, ha⟩ := Option.isSome_iff_exists.mp hd'
    unfold addTimeColumns
    split <;> simp only [PillarColumns.xs, PillarColumns.ys, List.length_append, e, ha, Option.toList_some, List.length_cons,
      List.length_nil] <;> omega
  cases x with
  | tenor l =>
    simp only [pillarTimes] at ht
    cases hl : l.mapM (tenorPillarDate cal cd) with
    | error err => rw [hl] at ht; cases ht
    | ok dates => simp only [hl]; exact hadd _ dates rfl hys'
  | date dates =>
    have hdate : c.date.isSome := by
      unfold PillarColumns.xs at hxs
      cases h2 : c.date with
      | some a => rfl
      | none =>
        rw [h2] at hxs
        cases h1 : c.tenor <;> cases h3 : c.days <;> cases h4 : c.years <;> rw [h1, h3, h4] at hxs <;> simp at hxs
    exact hadd c dates hdate hys'
  | days l =>
    exfalso
    simp only [pillarTimes] at ht
    unfold PillarColumns.xs at hxs
    have hd : c.days.toList.length = 1 := by
      cases h3 : c.days with
      | some a => rfl
      | none =>
        rw [h3] at hxs
        cases h1 : c.tenor <;> cases h2 : c.date <;> cases h4 : c.years <;> rw [h1, h2, h4] at hxs <;> simp at hxs
    rcases hx with hx | hx
    all_goals
      obtain ⟨a, ha⟩ := Option.isSome_iff_exists.mp hx
      rw [ha] at hxlen
      simp only [Option.toList_some, List.length_cons, List.length_nil] at hxlen
      omega
  | years l =>
    exfalso
    unfold PillarColumns.xs at hxs
    have hd : c.years.toList.length = 1 := by
      cases h3 : c.years with
      | some a => rfl
      | none =>
        rw [h3] at hxs
        cases h1 : c.tenor <;> cases h2 : c.date <;> cases h4 : c.days <;> rw [h1, h2, h4] at hxs <;> simp at hxs
    rcases hx with hx | hx
    all_goals
      obtain ⟨a, ha⟩ := Option.isSome_iff_exists.mp hx
      rw [ha] at hxlen
      simp only [Option.toList_some, List.length_cons, List.length_nil] at hxlen
      omega

/-- A table of years is left as it was, so the same curve can be built from it again, and any other curve. -/
theorem C87_years_partial (spl : List (ℝ × ℝ) → ℝ → ℝ) (cd : Int) (c : PillarColumns) (ts : List ℝ) (hc : c.years = some ts)
    (freq : Option CompoundingFreq) (basis : DayCountBasis) (cal : BusCal) (cd' : Int) (freq' : Option CompoundingFreq)
    (basis' : DayCountBasis) (cal' : BusCal) (m' : CurveMethod) :
    makeCurve spl cd' (tableAfter cd c freq basis cal) freq' basis' cal' m' = makeCurve spl cd' c freq' basis' cal' m' := by
  suffices h : tableAfter cd c freq basis cal = c by rw [h]
  unfold tableAfter
  split
  · rfl
  cases hch : chooseColumns c with
  | error e => rfl
  | ok xy =>
    obtain ⟨hxs, -, -⟩ := (chooseColumns_iff c xy.1 xy.2).mp hch
    unfold PillarColumns.xs at hxs
    rw [hc] at hxs
    have lx := congrArg List.length hxs
    simp only [List.length_append, Option.map_some, Option.toList_some, List.length_cons, List.length_nil] at lx
    have hx : xy.1 = .years ts := by
      cases h1 : c.tenor with
      | some a => rw [h1] at lx; simp at lx
      | none =>
        cases h2 : c.date with
        | some a => rw [h1, h2] at lx; simp at lx
        | none =>
          cases h3 : c.days with
          | some a => rw [h1, h2, h3] at lx; simp at lx
          | none => rw [h1, h2, h3] at hxs; simpa using hxs.symm
    obtain ⟨x, y⟩ := xy
    simp only at hx
    subst hx
    rfl

/-- The caller's quotes and dates themselves are never changed; only columns are added and tenors cleaned. -/
theorem C87_quotes_kept (cd : Int) (c : PillarColumns) (freq : Option CompoundingFreq) (basis : DayCountBasis) (cal : BusCal) :
    (tableAfter cd c freq basis cal).zeroRate = c.zeroRate ∧
    (tableAfter cd c freq basis cal).discountFactor = c.discountFactor ∧
    (tableAfter cd c freq basis cal).others = c.others ∧
    (∀ ds, c.date = some ds → (tableAfter cd c freq basis cal).date = some ds) ∧
    (∀ l, c.tenor = some l → (tableAfter cd c freq basis cal).tenor = some l ∨
      (tableAfter cd c freq basis cal).tenor = some (l.map cleanTenor)) := by
  unfold tableAfter
  split
  · exact ⟨rfl, rfl, rfl, fun _ h => h, fun _ h => .inl h⟩
  cases hch : chooseColumns c with
  | error e => exact ⟨rfl, rfl, rfl, fun _ h => h, fun _ h => .inl h⟩
  | ok xy =>
    obtain ⟨x, y⟩ := xy
    obtain ⟨hxs, -, -⟩ := (chooseColumns_iff c x y).mp hch
    cases x with
    | tenor l =>
      have hnd : c.tenor = some l ∧ c.date = none := by
        unfold PillarColumns.xs at hxs
        cases h1 : c.tenor with
        | none =>
          rw [h1] at hxs
          cases h2 : c.date <;> cases h3 : c.days <;> cases h4 : c.years <;> rw [h2, h3, h4] at hxs <;> simp at hxs
        | some a =>
          rw [h1] at hxs
          cases h2 : c.date with
          | none => simp at hxs; exact ⟨by rw [hxs.1], rfl⟩
          | some b => rw [h2] at hxs; simp at hxs
      simp only
      cases hl : l.mapM (tenorPillarDate cal cd) with
      | error e =>
        refine ⟨rfl, rfl, rfl, fun _ h => h, ?_⟩
        intro l' hl'
        rw [hnd.1] at hl'
        simp only [Option.some.injEq] at hl'
        subst hl'
        exact .inr rfl
      | ok dates =>
        simp only [addTimeColumns]
        split <;>
        · refine ⟨rfl, rfl, rfl, fun _ h => ?_, ?_⟩
          · rw [hnd.2] at h; cases h
          · intro l' hl'
            rw [hnd.1] at hl'
            simp only [Option.some.injEq] at hl'
            subst hl'
            exact .inr rfl
    | date dates =>
      simp only [addTimeColumns]
      split <;> exact ⟨rfl, rfl, rfl, fun _ h => h, fun _ h => .inl h⟩
    | days l => exact ⟨rfl, rfl, rfl, fun _ h => h, fun _ h => .inl h⟩
    | years l => exact ⟨rfl, rfl, rfl, fun _ h => h, fun _ h => .inl h⟩

/-- The columns added to a table of dates: the days from the curve date, and the year fractions. -/
theorem C87_columns_added (spl : List (ℝ × ℝ) → ℝ → ℝ) (cd : Int) (ds : List Int) (zr df : Option (List ℝ))
    (freq : Option CompoundingFreq) (basis : DayCountBasis) (cal : BusCal) (m : CurveMethod) (z : AnyCurve)
    (h : makeCurve spl cd { date := some ds, zeroRate := zr, discountFactor := df } freq basis cal m = .ok z) :
    ∃ ys : List Rat, yearFrac [cd] ds basis none = .ok ys ∧
      tableAfter cd { date := some ds, zeroRate := zr, discountFactor := df } freq basis cal =
        { date := some ds, days := some (ds.map (fun d => d - cd)), years := some (ys.map (fun (y : Rat) => (y : ℝ))),
          zeroRate := zr, discountFactor := df } := by
  obtain ⟨x, y, times, hc, ht, hfreq⟩ := curve_columns h
  obtain ⟨hxs, hys, -⟩ := (chooseColumns_iff _ x y).mp hc
  have hx : x = .date ds := by
    simp [PillarColumns.xs] at hxs
    exact hxs.symm
  subst hx
  unfold pillarTimes at ht
  cases hy : yearFrac [cd] ds basis none with
  | error e => simp only [hy] at ht; cases ht
  | ok ys =>
    refine ⟨ys, rfl, ?_⟩
    unfold tableAfter
    rw [if_neg hfreq, hc]
    simp only [addTimeColumns, hy]

/-- Two curves from one table of dates: the first is built, the second is not. -/
example (spl : List (ℝ × ℝ) → ℝ → ℝ) : ∃ z c', makeCurve spl 0 { date := some [365, 730], discountFactor := some [0.98, 0.95] } none
      .act_365 defaultBusCal .linear = .ok z ∧
    c' = tableAfter 0 { date := some [365, 730], discountFactor := some [0.98, 0.95] } none .act_365 defaultBusCal ∧
    makeCurve spl 0 c' none .act_365 defaultBusCal .linear = .error .value := by
  obtain ⟨z, hz⟩ := sampleCurve defaultBusCal
  have h : makeCurve spl 0 { date := some [365, 730], discountFactor := some [0.98, 0.95] } none .act_365 defaultBusCal .linear =
      .ok (.linear z) := by
    unfold makeCurve; simp only [hz, Except.map]
  exact ⟨_, _, h, rfl, C87_second_time_refused spl 0 _ none .act_365 defaultBusCal .linear _ h (.inl rfl) 0 none .act_365
    defaultBusCal .linear⟩

end Frm.Props
