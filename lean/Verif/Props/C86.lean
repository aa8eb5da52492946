import Mathlib.Analysis.Calculus.Deriv.Polynomial
import Mathlib.Analysis.Calculus.ContDiff.Polynomial
import Mathlib.Analysis.Convex.SpecificFunctions.Basic
import Mathlib.Analysis.SpecialFunctions.Log.Deriv
import Mathlib.LinearAlgebra.Lagrange
import Mathlib.MeasureTheory.Integral.IntervalIntegral.FundThmCalculus
import Verif.Proofs.SplineCurve
import Verif.Props.C67
import Verif.Props.C22
import Verif.Props.C43
import Verif.Props.C35Inputs

/-! # C86: spline curves reproduce their pillars, and their instantaneous forwards are the slope of the discount factors -/

namespace Frm.Spec

set_option autoImplicit false

/-- A spline routine: through four or more points with increasing times it draws a twice continuously differentiable function that
goes through all of them. -/
def Interpolates (spl : List (ℝ × ℝ) → ℝ → ℝ) : Prop :=
  ∀ points : List (ℝ × ℝ), 4 ≤ points.length → points.Pairwise (fun p q => p.1 < q.1) →
    (∀ p ∈ points, spl points p.1 = p.2) ∧ ContDiff ℝ 2 (spl points)

/-- The rate `f` is the instantaneous forward rate of the discount factors at time `t`: the speed at which `- log` grows. -/
def IsInstantaneousForward (discountFactor : ℝ → ℝ) (t f : ℝ) : Prop :=
  HasDerivAt (fun s => -Real.log (discountFactor s)) f t

end Frm.Spec

namespace Frm
open Classical Spec

set_option autoImplicit false

variable {spl : List (ℝ × ℝ) → ℝ → ℝ} {cd : Int} {c : PillarColumns} {freq : Option CompoundingFreq} {basis : DayCountBasis}
  {cal : BusCal} {m : SplineMethod} {z : SplineCurve}

private theorem row_of {rows : List SplineRow} (h : splineRows cal basis cd freq c = .ok rows) {x : PillarX} {y : PillarY}
    (hc : chooseColumns c = .ok (x, y)) {times : List (Option Int × ℝ)} (ht : pillarTimes cal basis cd x = .ok times) {i : Nat}
    {t : Option Int × ℝ} {v : ℝ} (hti : times[i]? = some t) (hvi : y.column.2[i]? = some v) :
    ∃ r ∈ rows, splineRow freq t y.column.1 v = .ok r := by
  obtain ⟨x', y', times', raw, hc', ht', hr, -, hperm⟩ := splineRows_ok h
  rw [hc] at hc'
  simp only [Except.ok.injEq, Prod.mk.injEq] at hc'
  obtain ⟨rfl, rfl⟩ := hc'
  rw [ht] at ht'
  simp only [Except.ok.injEq] at ht'
  subst ht'
  obtain ⟨r, hr1, hr2⟩ := (mapM_get hr).2 i (t, v) (List.getElem?_zip_eq_some.mpr ⟨hti, hvi⟩)
  exact ⟨r, hperm.symm.subset (List.mem_of_getElem? hr1), hr2⟩

/-- A row whose rate and discount factor agree is reproduced. -/
private theorem reproduced (hs : Interpolates spl) (h : makeSplineCurve spl cd c freq basis cal m = .ok z)
    {rows : List SplineRow} (hrows : splineRows cal basis cd freq c = .ok rows) {r : SplineRow} (hr : r ∈ rows)
    (hln : m = .lnDiscount → 0 < r.discountFactor)
    (hcc : m = .cczr → ∀ y, r.cczr = some y → Real.exp (-1 * y * r.years) = r.discountFactor) :
    z.discountFactorAt r.years = r.discountFactor := by
  obtain ⟨rows', points, hrows', -, hp, h4, hinc, hf, hm, -⟩ := makeSplineCurve_ok h
  rw [hrows] at hrows'
  simp only [Except.ok.injEq] at hrows'
  subst hrows'
  have hthrough := (hs points h4 hinc).1
  unfold SplineCurve.discountFactorAt splineAt
  rw [hm, hf]
  cases m with
  | lnDiscount =>
    have := hthrough _ (points_ln hp hr)
    simp only at this ⊢
    rw [this, Real.exp_log (hln rfl)]
  | cczr =>
    obtain ⟨y, hy, hmem⟩ := points_cczr hp hr
    have := hthrough _ hmem
    simp only at this ⊢
    rw [this, hcc rfl y hy]

private theorem core_df (hs : Interpolates spl) (h : makeSplineCurve spl cd c freq basis cal m = .ok z) {x : PillarX}
    {vs : List ℝ} (hc : chooseColumns c = .ok (x, .discountFactor vs)) {times : List (Option Int × ℝ)}
    (ht : pillarTimes cal basis cd x = .ok times) {i : Nat} {o : Option Int} {t v : ℝ} (hti : times[i]? = some (o, t))
    (hvi : vs[i]? = some v) (hv : 0 < v) : z.discountFactorAt t = v := by
  obtain ⟨rows, points, hrows, -⟩ := makeSplineCurve_ok h
  obtain ⟨r, hr, hrow⟩ := row_of hrows hc ht hti (y := .discountFactor vs) hvi
  simp only [splineRow, PillarY.column, Except.ok.injEq] at hrow
  subst hrow
  refine reproduced hs h hrows hr (fun _ => hv) ?_
  intro _ y hy
  simp only at hy ⊢
  by_cases h0 : t = 0
  · rw [if_pos h0] at hy; cases hy
  · rw [if_neg h0] at hy
    simp only [Option.some.injEq] at hy
    rw [← hy]
    have : -1 * (-1 * Real.log v / t) * t = Real.log v := by field_simp
    rw [this, Real.exp_log hv]

private theorem core_zr (hs : Interpolates spl) {f : CompoundingFreq} (h : makeSplineCurve spl cd c (some f) basis cal m = .ok z)
    {x : PillarX} {rs : List ℝ} (hc : chooseColumns c = .ok (x, .zeroRate rs)) {times : List (Option Int × ℝ)}
    (ht : pillarTimes cal basis cd x = .ok times) {i : Nat} {o : Option Int} {t r : ℝ} (hti : times[i]? = some (o, t))
    (hri : rs[i]? = some r) (hadm : Admissible f t r) (hsimple : m = .cczr → f ≠ .simple) :
    z.discountFactorAt t = f.discountFactor t r := by
  obtain ⟨rows, points, hrows, -⟩ := makeSplineCurve_ok h
  obtain ⟨row, hr, hrow⟩ := row_of hrows hc ht hti (y := .zeroRate rs) hri
  simp only [splineRow, PillarY.column, Except.ok.injEq] at hrow
  subst hrow
  refine reproduced hs h hrows hr (fun _ => (Props.C21_positive f t r hadm).1) ?_
  intro hm y hy
  have hf := hsimple hm
  have h1 : Admissible f 1 r := by
    cases f <;> first | exact absurd rfl hf | exact hadm
  simp only [Option.some.injEq] at hy ⊢
  rw [← hy]
  have := Props.C22_same_discount f .continuous h1 t (by rintro (he | he); exacts [absurd he hf, by cases he])
  rw [← this]
  have e : CompoundingFreq.continuous.discountFactor t (f.convertRateTo r .continuous) =
    Real.exp (-(f.convertRateTo r .continuous) * t) := rfl
  rw [e]
  ring_nf

/-- The times of dated pillars are the year fractions of their dates. -/
private theorem times_of_dates {ds : List Int} {times : List (Option Int × ℝ)}
    (ht : pillarTimes cal basis cd (.date ds) = .ok times) {i : Nat} {d : Int} (hb : Plain basis d)
    (hd : ds[i]? = some d) : ∃ t : Rat, yearFrac [cd] [d] basis none = .ok [t] ∧ times[i]? = some (some d, (t : ℝ)) := by
  simp only [pillarTimes] at ht
  cases hyf : yearFrac [cd] ds basis none with
  | error e => rw [hyf] at ht; cases ht
  | ok ys =>
    rw [hyf] at ht
    simp only [Except.map, Except.ok.injEq] at ht
    subst ht
    have hsh := sameShape_left ds cd i d hd
    obtain ⟨t, ht, hti⟩ := yearFrac_get hyf hb hsh.1 hsh.2
    exact ⟨t, ht, List.getElem?_zip_eq_some.mpr ⟨by simp [hd], by simp [hti]⟩⟩

private theorem times_of_dates_flag {ds : List Int} {times : List (Option Int × ℝ)}
    (ht : pillarTimes cal basis cd (.date ds) = .ok times) {i : Nat} {d : Int}
    (hd : ds[i]? = some d) : ∃ t : Rat, cd ≤ d ∧ yearFrac [cd] [d] basis (some [decide (ds.length ≤ i + 1)]) = .ok [t] ∧
      times[i]? = some (some d, (t : ℝ)) := by
  simp only [pillarTimes] at ht
  cases hyf : yearFrac [cd] ds basis none with
  | error e => rw [hyf] at ht; cases ht
  | ok ys =>
    rw [hyf] at ht
    simp only [Except.map, Except.ok.injEq] at ht
    subst ht
    have hsh := sameShape_left ds cd i d hd
    obtain ⟨ho, t, ht, hti⟩ := yearFrac_get_flag hyf hsh.1 hsh.2
    have h2 : (sameShape [cd] ds).2 = ds := by
      match ds, hd with
      | [x], _ => rfl
      | x :: y :: l, _ => rfl
    rw [h2] at ht
    exact ⟨t, ho, ht, List.getElem?_zip_eq_some.mpr ⟨by simp [hd], by simp [hti]⟩⟩

private theorem yearFrac_ordered {d : Int} {t : Rat}
    (h : yearFrac [cd] [d] basis none = .ok [t]) : cd ≤ d := by
  by_contra hc
  unfold yearFrac dayCount at h
  rw [sameShape_single] at h
  cases basis <;> simp [checkOrder_single, hc, Except.map] at h

/-- The rows of a table given by times are at those times. -/
theorem spline_years_mem {rows : List SplineRow} (hrows : splineRows cal basis cd freq c = .ok rows) {ts : List ℝ}
    (hts : c.years = some ts) : ∀ r ∈ rows, r.years ∈ ts := by
  obtain ⟨x, y, times, raw, hc, ht, hraw, -, hperm⟩ := splineRows_ok hrows
  have hx : x = .years ts := by
    have hx := ((chooseColumns_iff c x y).mp hc).1
    unfold PillarColumns.xs at hx
    rw [hts] at hx
    have lx := congrArg List.length hx
    simp only [List.length_append, Option.map_some, Option.toList_some, List.length_cons, List.length_nil] at lx
    cases h1 : c.tenor with
    | some a => rw [h1] at lx; simp at lx
    | none =>
      cases h2 : c.date with
      | some a => rw [h1, h2] at lx; simp at lx
      | none =>
        cases h3 : c.days with
        | some a => rw [h1, h2, h3] at lx; simp at lx
        | none => rw [h1, h2, h3] at hx; simpa using hx.symm
  subst hx
  simp only [pillarTimes, Except.ok.injEq] at ht
  subst ht
  intro r hr
  obtain ⟨i, hi⟩ := List.getElem?_of_mem (hperm.subset hr)
  have hlen := (mapM_get hraw).1
  have hil : i < ((ts.map (fun y => ((none : Option Int), y))).zip y.column.2).length := by
    rw [← hlen]; exact (List.getElem?_eq_some_iff.mp hi).1
  obtain ⟨b, hb, hrow⟩ := (mapM_get hraw).2 i _ (List.getElem?_eq_getElem hil)
  rw [hi] at hb
  simp only [Option.some.injEq] at hb
  subst hb
  have hy : r.years = (((ts.map (fun y => ((none : Option Int), y))).zip y.column.2)[i]).1.2 := by
    unfold splineRow at hrow
    split at hrow
    · simp only [Except.ok.injEq] at hrow; rw [← hrow]
    · cases hrow
    · simp only [Except.ok.injEq] at hrow; rw [← hrow]
  rw [hy, List.getElem_zip]
  simp only [List.getElem_map]
  exact List.getElem_mem _

/-- Dated rows are in range. -/
private theorem dated_in_range (h : makeSplineCurve spl cd c freq basis cal m = .ok z)
    {rows : List SplineRow} (hrows : splineRows cal basis cd freq c = .ok rows) {r : SplineRow} (hr : r ∈ rows) {d : Int}
    (hd : r.date = some d) (hle : cd ≤ d) : InRange z.base d := by
  obtain ⟨rows', points, hrows', hpil, -, -, -, -, -, hcd, last, years, hl, hy, hday⟩ := makeSplineCurve_ok h
  rw [hrows] at hrows'
  simp only [Except.ok.injEq] at hrows'
  subst hrows'
  rw [(spline_daily hcd hy hday).2.1 d]
  refine ⟨hle, ?_⟩
  have hmem : d ∈ z.base.pillars.filterMap (·.date) := by
    have hm : (⟨r.date, r.years, r.discountFactor⟩ : PillarRow) ∈
        rows.map (fun r => ({ date := r.date, years := r.years, discountFactor := r.discountFactor } : PillarRow)) :=
      List.mem_map.mpr ⟨r, hr, rfl⟩
    refine List.mem_filterMap.mpr ⟨⟨r.date, r.years, r.discountFactor⟩, ?_, hd⟩
    cases rows with
    | nil => cases hr
    | cons a rows =>
      unfold splinePillars at hpil
      simp only at hpil
      split at hpil <;> (simp only [Except.ok.injEq] at hpil; rw [← hpil])
      · exact List.mem_cons_of_mem _ hm
      · exact hm
  unfold lastDay at hl
  cases hmax : (z.base.pillars.filterMap (·.date)).max? with
  | none =>
    rw [List.max?_eq_none_iff] at hmax
    rw [hmax] at hmem; cases hmem
  | some M =>
    rw [hmax] at hl
    simp only [Except.ok.injEq] at hl
    rw [← hl]
    exact (List.max?_eq_some_iff.mp hmax).2 d hmem

private theorem dated_row_flag (h : makeSplineCurve spl cd c freq basis cal m = .ok z) {ds : List Int}
    {y : PillarY} (hc : chooseColumns c = .ok (.date ds, y)) {i : Nat} {d : Int} {v : ℝ}
    (hd : ds[i]? = some d) (hv : y.column.2[i]? = some v) :
    ∃ (times : List (Option Int × ℝ)) (t : Rat), pillarTimes cal basis cd (.date ds) = .ok times ∧
      yearFrac [cd] [d] basis (some [decide (ds.length ≤ i + 1)]) = .ok [t] ∧ times[i]? = some (some d, (t : ℝ)) ∧ InRange z.base d := by
  obtain ⟨rows, points, hrows, -⟩ := makeSplineCurve_ok h
  obtain ⟨x', y', times, raw, hc', ht, -⟩ := splineRows_ok hrows
  rw [hc] at hc'
  simp only [Except.ok.injEq, Prod.mk.injEq] at hc'
  obtain ⟨rfl, rfl⟩ := hc'
  obtain ⟨t, hord, hyf, hti⟩ := times_of_dates_flag ht hd
  obtain ⟨r, hr, hrow⟩ := row_of hrows hc ht hti hv
  have hrd : r.date = some d := by
    unfold splineRow at hrow
    split at hrow
    · simp only [Except.ok.injEq] at hrow; rw [← hrow]
    · cases hrow
    · simp only [Except.ok.injEq] at hrow; rw [← hrow]
  exact ⟨times, t, ht, hyf, hti, dated_in_range h hrows hr hrd hord⟩

theorem dated_row (h : makeSplineCurve spl cd c freq basis cal m = .ok z) {ds : List Int}
    {y : PillarY} (hc : chooseColumns c = .ok (.date ds, y)) {i : Nat} {d : Int} {v : ℝ} (hb : Plain basis d)
    (hd : ds[i]? = some d) (hv : y.column.2[i]? = some v) :
    ∃ (times : List (Option Int × ℝ)) (t : Rat), pillarTimes cal basis cd (.date ds) = .ok times ∧
      yearFrac [cd] [d] basis none = .ok [t] ∧ times[i]? = some (some d, (t : ℝ)) ∧ InRange z.base d := by
  obtain ⟨rows, points, hrows, -⟩ := makeSplineCurve_ok h
  obtain ⟨x', y', times, raw, hc', ht, -⟩ := splineRows_ok hrows
  rw [hc] at hc'
  simp only [Except.ok.injEq, Prod.mk.injEq] at hc'
  obtain ⟨rfl, rfl⟩ := hc'
  obtain ⟨t, hyf, hti⟩ := times_of_dates ht hb hd
  obtain ⟨r, hr, hrow⟩ := row_of hrows hc ht hti hv
  have hrd : r.date = some d := by
    unfold splineRow at hrow
    split at hrow
    · simp only [Except.ok.injEq] at hrow; rw [← hrow]
    · cases hrow
    · simp only [Except.ok.injEq] at hrow; rw [← hrow]
  exact ⟨times, t, ht, hyf, hti, dated_in_range h hrows hr hrd (yearFrac_ordered hyf)⟩

end Frm

namespace Frm.Props
open Classical Spec

set_option autoImplicit false

variable {spl : List (ℝ × ℝ) → ℝ → ℝ} {cd : Int} {c : PillarColumns} {freq : Option CompoundingFreq} {basis : DayCountBasis}
  {cal : BusCal} {m : SplineMethod} {z : SplineCurve}

/-- Every discount factor is positive. -/
theorem C86_positive (z : SplineCurve) (t : ℝ) : 0 < z.discountFactorAt t := by
  unfold SplineCurve.discountFactorAt splineAt
  cases z.method <;> exact Real.exp_pos _

/-- The zero rate of any frequency at any time but 0 is the one that means the discount factor at that time. -/
theorem C86_zero_rates (z : SplineCurve) (f : CompoundingFreq) (t : ℝ) (ht : t ≠ 0) :
    z.zeroRateAt f t = some (f.zeroRate t (z.discountFactorAt t)) := by
  unfold SplineCurve.zeroRateAt
  by_cases hf : f = .continuous
  · subst hf
    rw [if_pos rfl]
    have e : CompoundingFreq.continuous.zeroRate t (z.discountFactorAt t) = -Real.log (z.discountFactorAt t) / t := rfl
    rw [e]
    unfold SplineCurve.discountFactorAt splineAt
    cases z.method with
    | lnDiscount => simp only [if_neg ht, Real.log_exp, Option.some.injEq]; ring
    | cczr => simp only [Real.log_exp, Option.some.injEq]; field_simp
  · rw [if_neg hf, if_neg ht]

/-- Lookup by date is lookup by the date's year fraction. -/
theorem C86_dates_are_times (h : makeSplineCurve spl cd c freq basis cal m = .ok z) (d : Int) (hb : Plain basis d)
    (hd : InRange z.base d) : ∃ t : Rat, yearFrac [cd] [d] basis none = .ok [t] ∧
      z.base.discountFactors [d] = [some (z.discountFactorAt t)] ∧
      ∀ f, z.base.zeroRates f [d] = [z.zeroRateAt f t] := by
  obtain ⟨rows, points, -, -, -, -, -, -, hm, hcd, last, years, hl, hy, hday⟩ := makeSplineCurve_ok h
  obtain ⟨-, hin, hrow⟩ := spline_daily hcd hy hday
  obtain ⟨h1, h2⟩ := (hin d).mp hd
  obtain ⟨t, -, ht, hidx⟩ := hrow d h1 h2
  refine ⟨t, ht hb, ?_, ?_⟩
  · unfold ZeroCurve.discountFactors SplineCurve.discountFactorAt
    rw [hidx, hm]; rfl
  · intro f
    unfold ZeroCurve.zeroRates SplineCurve.zeroRateAt SplineCurve.discountFactorAt
    rw [hidx, hm]
    rfl

/-- The dates left out above, the last days of February under 30E/360 ISDA: on such a date the curve is read at the time at which it is a
termination date exactly if it is the last date of the table. -/
theorem C86_february (h : makeSplineCurve spl cd c freq basis cal m = .ok z) (d : Int) (hd : InRange z.base d) (final : Bool)
    (hfinal : final = true ↔ ∀ e, InRange z.base e → e ≤ d) (t : Rat) (ht : yearFrac [cd] [d] basis (some [final]) = .ok [t]) :
    z.base.discountFactors [d] = [some (z.discountFactorAt t)] ∧ ∀ f, z.base.zeroRates f [d] = [z.zeroRateAt f t] := by
  obtain ⟨rows, points, -, -, -, -, -, -, hm, hcd, last, years, hl, hy, hday⟩ := makeSplineCurve_ok h
  obtain ⟨hle, hin, hrow⟩ := spline_daily hcd hy hday
  obtain ⟨h1, h2⟩ := (hin d).mp hd
  obtain ⟨u, hu, -, hidx⟩ := hrow d h1 h2
  have : (∀ e, InRange z.base e → e ≤ d) ↔ d = last := by
    constructor
    · intro hall
      have := hall last ((hin last).mpr ⟨hle, le_refl _⟩)
      omega
    · rintro rfl e he
      exact ((hin e).mp he).2
  have hf : decide (d = last) = final := by rw [Bool.eq_iff_iff, hfinal, this]; simp
  rw [hf, ht] at hu
  simp only [Except.ok.injEq, List.cons.injEq, and_true] at hu
  subst hu
  constructor
  · unfold ZeroCurve.discountFactors SplineCurve.discountFactorAt
    rw [hidx, hm]; rfl
  · intro f
    unfold ZeroCurve.zeroRates SplineCurve.zeroRateAt SplineCurve.discountFactorAt
    rw [hidx, hm]
    rfl

/-- Quoted discount factors are reproduced at their times. -/
theorem C86_times (hs : Interpolates spl) (ts vs : List ℝ)
    (h : makeSplineCurve spl cd { years := some ts, discountFactor := some vs } freq basis cal m = .ok z) (i : Nat) (t v : ℝ)
    (ht : ts[i]? = some t) (hv : vs[i]? = some v) (hpos : 0 < v) : z.discountFactorAt t = v :=
  core_df hs h (x := .years ts) (vs := vs) rfl (times := ts.map (fun y => (none, y))) rfl (o := none) (by simp [ht]) hv hpos

/-- Quoted discount factors are reproduced on their dates. -/
theorem C86_dates (hs : Interpolates spl) (ds : List Int) (vs : List ℝ)
    (h : makeSplineCurve spl cd { date := some ds, discountFactor := some vs } freq basis cal m = .ok z) (i : Nat) (d : Int) (v : ℝ)
    (hb : Plain basis d) (hd : ds[i]? = some d) (hv : vs[i]? = some v) (hpos : 0 < v) : z.base.discountFactors [d] = [some v] := by
  obtain ⟨times, t, ht, hyf, hti, hr⟩ := dated_row h (y := .discountFactor vs) rfl hb hd hv
  obtain ⟨t', hyf', hdf, -⟩ := C86_dates_are_times h d hb hr
  rw [hyf] at hyf'
  simp only [Except.ok.injEq, List.cons.injEq, and_true] at hyf'
  subst hyf'
  rw [hdf, core_df hs h (vs := vs) rfl ht hti hv hpos]

/-- Quoted discount factors are reproduced on any dates, the last days of February included, provided the last row of the caller's table
is the last date. -/
theorem C86_february_quotes (hs : Interpolates spl) (ds : List Int) (vs : List ℝ)
    (h : makeSplineCurve spl cd { date := some ds, discountFactor := some vs } freq basis cal m = .ok z) (i : Nat) (d : Int) (v : ℝ)
    (hlast : i + 1 = ds.length ↔ ∀ e, InRange z.base e → e ≤ d) (hd : ds[i]? = some d) (hv : vs[i]? = some v) (hpos : 0 < v) :
    z.base.discountFactors [d] = [some v] := by
  obtain ⟨times, t, ht, hyf, hti, hr⟩ := dated_row_flag h (y := .discountFactor vs) rfl hd hv
  have hi : i < ds.length := List.getElem?_eq_some_iff.mp hd |>.1
  have hfin : decide (ds.length ≤ i + 1) = true ↔ ∀ e, InRange z.base e → e ≤ d := by
    rw [← hlast, decide_eq_true_eq]; omega
  rw [(C86_february h d hr _ hfin t hyf).1, core_df hs h (vs := vs) rfl ht hti hv hpos]

/-- Quoted zero rates are reproduced at their times; with splines on the zero rates, for every frequency but `SIMPLE`. -/
theorem C86_rates (hs : Interpolates spl) (ts rs : List ℝ) (f : CompoundingFreq)
    (h : makeSplineCurve spl cd { years := some ts, zeroRate := some rs } (some f) basis cal m = .ok z) (i : Nat) (t r : ℝ)
    (ht : ts[i]? = some t) (hr : rs[i]? = some r) (hpos : 0 < t) (hadm : Admissible f t r)
    (hsimple : m = .cczr → f ≠ .simple) : z.zeroRateAt f t = some r := by
  have := core_zr hs h (x := .years ts) (rs := rs) rfl (times := ts.map (fun y => (none, y))) rfl (o := none) (by simp [ht]) hr
    hadm hsimple
  rw [C86_zero_rates z f t hpos.ne', this, C21_rate_round_trip f hpos hadm]

/-- Quoted zero rates are reproduced on their dates. -/
theorem C86_dated_rates (hs : Interpolates spl) (hb : ActBasis basis) (ds : List Int) (rs : List ℝ) (f : CompoundingFreq)
    (h : makeSplineCurve spl cd { date := some ds, zeroRate := some rs } (some f) basis cal m = .ok z) (i : Nat) (d : Int) (r : ℝ)
    (hd : ds[i]? = some d) (hr : rs[i]? = some r) (hlt : cd < d)
    (hadm : ∀ t : Rat, yearFrac [cd] [d] basis none = .ok [t] → Admissible f t r)
    (hsimple : m = .cczr → f ≠ .simple) : z.base.zeroRates f [d] = [some r] := by
  have hisda : ∀ d, Plain basis d := fun d => by rcases hb with rfl | rfl | rfl | rfl <;> exact Plain.of_ne (by simp) d
  obtain ⟨times, t, ht, hyf, hti, hr'⟩ := dated_row h (y := .zeroRate rs) rfl (hisda d) hd hr
  obtain ⟨t', hyf', -, hzr⟩ := C86_dates_are_times h d (hisda d) hr'
  rw [hyf] at hyf'
  simp only [Except.ok.injEq, List.cons.injEq, and_true] at hyf'
  subst hyf'
  have hpos : (0 : ℝ) < t := by exact_mod_cast yearFrac_strict hb hlt (yearFrac_self (hisda cd)) hyf
  rw [hzr, C86_zero_rates z f t hpos.ne', core_zr hs h (rs := rs) rfl ht hti hr (hadm t hyf) hsimple,
    C21_rate_round_trip f hpos (hadm t hyf)]

/-- With splines on the zero rates, a simple rate `r` quoted for `t` years is taken for an annually compounded one: the curve
contradicts the quote at every time but one year. -/
theorem C86_simple_rates (hs : Interpolates spl) (ts rs : List ℝ)
    (h : makeSplineCurve spl cd { years := some ts, zeroRate := some rs } (some .simple) basis cal .cczr = .ok z) (i : Nat) (t r : ℝ)
    (ht : ts[i]? = some t) (hr : rs[i]? = some r) (hpos : 0 < t) (hr0 : 0 < r) :
    z.discountFactorAt t = 1 / (1 + r) ^ t ∧
    (t ≠ 1 → z.discountFactorAt t ≠ 1 / (1 + r * t) ∧ z.zeroRateAt .simple t ≠ some r) := by
  have hval : z.discountFactorAt t = 1 / (1 + r) ^ t := by
    obtain ⟨rows, points, hrows, -, hp, h4, hinc, hf, hm, -⟩ := makeSplineCurve_ok h
    obtain ⟨row, hmem, hrow⟩ := row_of hrows (x := .years ts) (y := .zeroRate rs) rfl (times := ts.map (fun y => (none, y))) rfl
      (t := (none, t)) (by simp [ht]) hr
    simp only [splineRow, PillarY.column, Except.ok.injEq] at hrow
    subst hrow
    obtain ⟨y, hy, hpt⟩ := points_cczr hp hmem
    simp only [Option.some.injEq] at hy
    have := (hs points h4 hinc).1 _ hpt
    simp only at this
    unfold SplineCurve.discountFactorAt splineAt
    rw [hm, hf]
    simp only
    rw [this, ← hy]
    have e : CompoundingFreq.simple.convertRateTo r .continuous = Real.log (1 + r) := rfl
    rw [e, Real.rpow_def_of_pos (by linarith), one_div, ← Real.exp_neg]
    congr 1; ring
  refine ⟨hval, ?_⟩
  intro h1
  have hne : z.discountFactorAt t ≠ 1 / (1 + r * t) := by
    rw [hval]
    have hp : (0 : ℝ) < (1 + r) ^ t := Real.rpow_pos_of_pos (by linarith) t
    have hq : (0 : ℝ) < 1 + r * t := by positivity
    intro hc
    rw [one_div, one_div, inv_inj] at hc
    rcases lt_or_gt_of_ne h1 with hlt | hgt
    · have := rpow_one_add_lt_one_add_mul_self (s := r) (by linarith) hr0.ne' hpos hlt
      rw [hc] at this; linarith
    · have := one_add_mul_self_lt_rpow_one_add (s := r) (by linarith) hr0.ne' hgt
      rw [hc] at this; linarith
  refine ⟨hne, ?_⟩
  rw [C86_zero_rates z .simple t hpos.ne']
  intro hc
  simp only [Option.some.injEq] at hc
  have := (C21_factor_round_trip .simple hpos (C86_positive z t)).1
  rw [hc] at this
  exact hne this.symm

/-- The discount factor at time 0 is 1, unless a pillar at time 0 says otherwise. -/
theorem C86_unit (hs : Interpolates spl) (h : makeSplineCurve spl cd c freq basis cal m = .ok z)
    (h0 : m = .lnDiscount → ∃ ts, c.years = some ts ∧ (0 : ℝ) ∉ ts) : z.discountFactorAt 0 = 1 := by
  obtain ⟨rows, points, hrows, -, hp, h4, hinc, hf, hm, -⟩ := makeSplineCurve_ok h
  unfold SplineCurve.discountFactorAt splineAt
  rw [hm]
  cases m with
  | cczr => simp
  | lnDiscount =>
    obtain ⟨ts, hts, hnot⟩ := h0 rfl
    have hyears := spline_years_mem hrows hts
    cases rows with
    | nil =>
      simp only [splinePoints, List.map_nil, Option.some.injEq] at hp
      rw [← hp] at h4; simp at h4
    | cons a rest =>
      have ha : a.years ≠ 0 := fun hc => hnot (hc ▸ hyears a (by simp))
      simp only [splinePoints, if_pos ha, Option.some.injEq] at hp
      have := (hs points h4 hinc).1 (0, 0) (by rw [← hp]; simp)
      simp only at this ⊢
      rw [hf, this, Real.exp_zero]

/-- The instantaneous forward rate is the speed at which minus the logarithm of the discount factor grows. -/
theorem C86_instantaneous (hs : Interpolates spl) (h : makeSplineCurve spl cd c freq basis cal m = .ok z) (t : ℝ) :
    ∃ f, z.instantaneousForward t = some f ∧ IsInstantaneousForward z.discountFactorAt t f := by
  obtain ⟨rows, points, -, -, -, h4, hinc, hf, -⟩ := makeSplineCurve_ok h
  have hcd : ContDiff ℝ 2 z.spline := by rw [hf]; exact (hs points h4 hinc).2
  have hd : HasDerivAt z.spline (deriv z.spline t) t := (hcd.differentiable (by norm_num) t).hasDerivAt
  unfold SplineCurve.instantaneousForward IsInstantaneousForward SplineCurve.discountFactorAt splineAt
  cases hz : z.method with
  | lnDiscount =>
    refine ⟨_, rfl, ?_⟩
    simp only [Real.log_exp]
    exact hd.neg
  | cczr =>
    refine ⟨z.spline t + t * deriv z.spline t, ?_, ?_⟩
    · unfold SplineCurve.zeroRateAt splineAt
      simp only [if_true, hz, Option.map_some]
    · simp only [Real.log_exp]
      have := ((hd.const_mul (-1)).mul (hasDerivAt_id t)).neg
      refine (this.congr_deriv ?_)
      simp only [id]; ring

/-- So accumulating the instantaneous forwards from one time to another gives the ratio of the discount factors. -/
theorem C86_accumulates (hs : Interpolates spl) (h : makeSplineCurve spl cd c freq basis cal m = .ok z) (t u : ℝ) :
    z.discountFactorAt u = z.discountFactorAt t * Real.exp (-∫ s in t..u, (z.instantaneousForward s).getD 0) := by
  have hder : ∀ s, HasDerivAt (fun s => -Real.log (z.discountFactorAt s)) ((z.instantaneousForward s).getD 0) s := by
    intro s
    obtain ⟨f, hf, hd⟩ := C86_instantaneous hs h s
    rw [hf]; exact hd
  have hcont : Continuous (fun s => (z.instantaneousForward s).getD 0) := by
    obtain ⟨rows, points, -, -, -, h4, hinc, hf, -⟩ := makeSplineCurve_ok h
    have hcd : ContDiff ℝ 2 z.spline := by rw [hf]; exact (hs points h4 hinc).2
    have hdc : Continuous (deriv z.spline) := hcd.continuous_deriv (by norm_num)
    unfold SplineCurve.instantaneousForward
    cases hz : z.method with
    | lnDiscount => exact hdc.neg
    | cczr =>
      simp only [SplineCurve.zeroRateAt, splineAt, if_true, hz, Option.map_some, Option.getD_some]
      exact hcd.continuous.add (continuous_id.mul hdc)
  have := intervalIntegral.integral_eq_sub_of_hasDerivAt (fun s _ => hder s) (hcont.intervalIntegrable t u)
  rw [this]
  have h1 := C86_positive z t
  have h2 := C86_positive z u
  have e : -(-Real.log (z.discountFactorAt u) - -Real.log (z.discountFactorAt t)) =
    Real.log (z.discountFactorAt u) - Real.log (z.discountFactorAt t) := by ring
  rw [e, Real.exp_sub, Real.exp_log h1, Real.exp_log h2]
  field_simp

/-- What a Hull–White model returns as the forward rate by integration is the logarithm of the ratio of the discount factors: the continuously
compounded forward rate times the length of the period. -/
theorem C86_integrated (hs : Interpolates spl) (h : makeSplineCurve spl cd c freq basis cal m = .ok z) (t u : ℝ) :
    z.integratedForward t u = Real.log (z.discountFactorAt t / z.discountFactorAt u) ∧
      ∀ f, z.discountFactorAt u = z.discountFactorAt t * Real.exp (-(f * (u - t))) → z.integratedForward t u = f * (u - t) := by
  have h1 := C86_positive z t
  have h2 := C86_positive z u
  have hacc := C86_accumulates hs h t u
  have e : z.integratedForward t u = Real.log (z.discountFactorAt t / z.discountFactorAt u) := by
    unfold SplineCurve.integratedForward
    rw [hacc, div_mul_eq_div_div, div_self h1.ne', one_div, ← Real.exp_neg, neg_neg, Real.log_exp]
  refine ⟨e, fun f hf => ?_⟩
  rw [e, hf, div_mul_eq_div_div, div_self h1.ne', one_div, ← Real.exp_neg, neg_neg, Real.log_exp]

/-- So it is the forward rate only over one year, or where the rate is nil. -/
theorem C86_integrated_rate (hs : Interpolates spl) (h : makeSplineCurve spl cd c freq basis cal m = .ok z) (t u f : ℝ)
    (hf : z.discountFactorAt u = z.discountFactorAt t * Real.exp (-(f * (u - t)))) :
    z.integratedForward t u = f ↔ f = 0 ∨ u - t = 1 := by
  rw [(C86_integrated hs h t u).2 f hf]
  constructor
  · intro e
    by_cases h0 : f = 0
    · exact Or.inl h0
    · right
      have : f * (u - t) = f * 1 := by rw [e, mul_one]
      exact mul_left_cancel₀ h0 this
  · rintro (rfl | h1)
    · simp
    · rw [h1, mul_one]

/-- Curves with linear interpolation give no instantaneous forward rate. -/
theorem C86_linear_no_forward (z : ZeroCurve) (t : ℝ) : z.instantaneousForward t = none := rfl

/-- The rows of a table of times and discount factors, before sorting. -/
private noncomputable def rawRows (ts vs : List ℝ) : List SplineRow :=
  (ts.zip vs).map (fun p => ⟨none, p.1, if p.1 = 0 then none else some (-1 * Real.log p.2 / p.1), p.2⟩)

private theorem rows_years (ts vs : List ℝ) (freq : Option CompoundingFreq) (basis : DayCountBasis) (cal : BusCal) (cd : Int) :
    splineRows cal basis cd freq { years := some ts, discountFactor := some vs } =
      .ok ((rawRows ts vs).insertionSort (fun a b => a.years ≤ b.years)) := by
  unfold splineRows
  have hc : chooseColumns { years := some ts, discountFactor := some vs } = .ok (.years ts, .discountFactor vs) := rfl
  simp only [hc, bind, Except.bind, pillarTimes, PillarY.column]
  have : ((ts.map (fun y => ((none : Option Int), y))).zip vs).mapM (fun p => splineRow freq p.1 false p.2) =
      .ok (rawRows ts vs) := by
    rw [mapM_total (g := fun p : (Option Int × ℝ) × ℝ =>
      (⟨p.1.1, p.1.2, if p.1.2 = 0 then none else some (-1 * Real.log p.2 / p.1.2), p.2⟩ : SplineRow)) (by
        intro p _; unfold splineRow; rfl)]
    unfold rawRows
    rw [List.zip_map_left, List.map_map]
    rfl
  rw [this]
  rfl

private theorem sorted_rows (l : List SplineRow) :
    (l.insertionSort (fun a b => a.years ≤ b.years)).Pairwise (fun a b => a.years ≤ b.years) := by
  have : Std.Total (fun a b : SplineRow => a.years ≤ b.years) := ⟨fun a b => le_total _ _⟩
  have : IsTrans SplineRow (fun a b : SplineRow => a.years ≤ b.years) := ⟨fun a b c h1 h2 => le_trans h1 h2⟩
  exact List.pairwise_insertionSort _ l

private theorem rawRows_years {ts vs : List ℝ} (hl : ts.length = vs.length) : (rawRows ts vs).map (·.years) = ts := by
  unfold rawRows
  rw [List.map_map]
  exact List.map_fst_zip hl.le

/-- The number of the points, and their times. -/
private theorem points_of_rows (rows : List SplineRow) (m : SplineMethod) (hne : rows ≠ []) (h0 : ∀ r ∈ rows, r.years ≠ 0)
    (hc : ∀ r ∈ rows, r.cczr.isSome) : ∃ points, splinePoints m rows = some points ∧
      points.map Prod.fst = (if m = .lnDiscount then [0] else []) ++ rows.map (·.years) := by
  cases m with
  | lnDiscount =>
    cases rows with
    | nil => exact absurd rfl hne
    | cons a rest =>
      refine ⟨_, by unfold splinePoints; simp only; rw [if_pos (h0 a (by simp))], ?_⟩
      simp [Function.comp_def]
  | cczr =>
    have : ∀ l : List SplineRow, (∀ r ∈ l, r.cczr.isSome) →
        ∃ points, l.mapM (fun r => r.cczr.map (fun y => (r.years, y))) = some points ∧ points.map Prod.fst = l.map (·.years) := by
      intro l
      induction l with
      | nil => intro _; exact ⟨[], rfl, rfl⟩
      | cons a l ih =>
        intro hl
        obtain ⟨ps, hps, hm⟩ := ih (fun r hr => hl r (by simp [hr]))
        obtain ⟨y, hy⟩ := Option.isSome_iff_exists.mp (hl a (by simp))
        refine ⟨(a.years, y) :: ps, ?_, by simp [hm]⟩
        simp [List.mapM_cons, hy, hps]
    obtain ⟨ps, hps, hm⟩ := this rows hc
    exact ⟨ps, hps, by simpa using hm⟩

/-- Too few pillars, or two pillars at the same time, are refused: a spline needs four points, the one at time 0 included. -/
theorem C86_refused (spl : List (ℝ × ℝ) → ℝ → ℝ) (cd : Int) (ts vs : List ℝ) (freq : Option CompoundingFreq)
    (basis : DayCountBasis) (cal : BusCal) (m : SplineMethod) (hl : ts.length = vs.length) (hne : ts ≠ []) (h0 : (0 : ℝ) ∉ ts) :
    (ts.length + (if m = .lnDiscount then 1 else 0) ≤ 3 →
      makeSplineCurve spl cd { years := some ts, discountFactor := some vs } freq basis cal m = .error .type) ∧
    (4 ≤ ts.length → ¬ ts.Nodup →
      makeSplineCurve spl cd { years := some ts, discountFactor := some vs } freq basis cal m = .error .value) := by
  set rows := (rawRows ts vs).insertionSort (fun a b => a.years ≤ b.years) with hrows
  have hperm : rows.Perm (rawRows ts vs) := List.perm_insertionSort _ _
  have hyears : (rows.map (·.years)).Perm ts := by
    have := hperm.map (fun r : SplineRow => r.years)
    rwa [rawRows_years hl] at this
  have hrne : rows ≠ [] := by
    intro hc
    rw [hc] at hyears
    exact hne (List.nil_perm.mp hyears)
  have hr0 : ∀ r ∈ rows, r.years ≠ 0 := by
    intro r hr hc
    exact h0 (hc ▸ hyears.subset (List.mem_map_of_mem hr))
  have hcc : ∀ r ∈ rows, r.cczr.isSome := by
    intro r hr
    have hy := hr0 r hr
    have := hperm.subset hr
    unfold rawRows at this
    obtain ⟨p, -, rfl⟩ := List.mem_map.mp this
    simp only at hy ⊢
    rw [if_neg hy]; rfl
  obtain ⟨points, hp, hfst⟩ := points_of_rows rows m hrne hr0 hcc
  obtain ⟨pillars, hpil⟩ : ∃ pillars, splinePillars cd rows = .ok pillars := by
    cases hh : rows with
    | nil => exact absurd hh hrne
    | cons a rest =>
      unfold splinePillars
      simp only
      split <;> exact ⟨_, rfl⟩
  have hmk : makeSplineCurve spl cd { years := some ts, discountFactor := some vs } freq basis cal m =
      (splrep spl points).bind (fun f => (splineDaily basis cd pillars m f).bind
        (fun daily => pure ⟨{ curveDate := cd, basis, cal, pillars, daily }, m, f, splineRates m f rows⟩)) := by
    unfold makeSplineCurve
    rw [rows_years, ← hrows]
    simp only [bind, Except.bind, hpil, hp]
  have hlen : points.length = (if m = .lnDiscount then 1 else 0) + ts.length := by
    have := congrArg List.length hfst
    rw [List.length_map, List.length_append, hyears.length_eq] at this
    rw [this]; cases m <;> rfl
  rw [hmk]
  constructor
  · intro h3
    unfold splrep
    rw [if_pos (by omega)]; rfl
  · intro h4 hnd
    unfold splrep
    rw [if_neg (by omega), if_neg]; · rfl
    intro hinc
    apply hnd
    have h1 : (points.map Prod.fst).Pairwise (· < ·) := List.pairwise_map.mpr hinc
    rw [hfst, List.pairwise_append] at h1
    exact hyears.nodup_iff.mp (h1.2.1.imp (fun h => ne_of_lt h))

/-- The pillars the curve keeps: the quoted ones in order of time, after one of discount factor 1 at time 0. -/
theorem C86_pillar_table (ts vs : List ℝ) (hl : ts.length = vs.length) (h0 : (0 : ℝ) ∉ ts)
    (h : makeSplineCurve spl cd { years := some ts, discountFactor := some vs } freq basis cal m = .ok z) :
    ∃ quoted : List (ℝ × ℝ), quoted.Perm (ts.zip vs) ∧ quoted.Pairwise (fun a b => a.1 ≤ b.1) ∧
      z.base.pillars.map (fun r => (r.years, r.discountFactor)) = (0, 1) :: quoted ∧
      ∀ r ∈ z.base.pillars, r.date = none := by
  obtain ⟨rows, -, hrows, hpil, -⟩ := makeSplineCurve_ok h
  rw [rows_years] at hrows
  have hrows' := Except.ok.inj hrows
  have hperm : rows.Perm (rawRows ts vs) := hrows' ▸ List.perm_insertionSort _ _
  have hsort : rows.Pairwise (fun a b => a.years ≤ b.years) := hrows' ▸ sorted_rows _
  have hdate : ∀ r ∈ rows, r.date = none := by
    intro r hr
    have := hperm.subset hr
    unfold rawRows at this
    obtain ⟨p, -, rfl⟩ := List.mem_map.mp this
    rfl
  refine ⟨rows.map (fun r => (r.years, r.discountFactor)), ?_, List.pairwise_map.mpr hsort, ?_⟩
  · refine (hperm.map _).trans ?_
    unfold rawRows
    rw [List.map_map]
    simp [Function.comp_def]
  · cases hh : rows with
    | nil => rw [hh] at hpil; cases hpil
    | cons a rest =>
      have ha : a.years ≠ 0 := by
        intro hc
        apply h0
        have := (hperm.map (fun r : SplineRow => r.years)).subset (List.mem_map_of_mem (a := a) (by rw [hh]; simp))
        rw [rawRows_years hl, hc] at this
        exact this
      rw [hh] at hpil hdate
      unfold splinePillars at hpil
      simp only [if_pos ha, Except.ok.injEq] at hpil
      rw [← hpil]
      constructor
      · simp [Function.comp_def]
      · intro r hr
        rcases List.mem_cons.mp hr with rfl | hr
        · simp [hdate a (by simp)]
        · obtain ⟨q, hq, rfl⟩ := List.mem_map.mp hr
          exact hdate q hq

/-- The order of the rows of the table does not matter. -/
theorem C86_order (spl : List (ℝ × ℝ) → ℝ → ℝ) (cd : Int) (ts vs ts' vs' : List ℝ) (freq : Option CompoundingFreq)
    (basis : DayCountBasis) (cal : BusCal) (m : SplineMethod) (hl : ts.length = vs.length)
    (hperm : (ts.zip vs).Perm (ts'.zip vs')) (hnd : ts.Nodup) :
    makeSplineCurve spl cd { years := some ts, discountFactor := some vs } freq basis cal m =
    makeSplineCurve spl cd { years := some ts', discountFactor := some vs' } freq basis cal m := by
  unfold makeSplineCurve
  rw [rows_years, rows_years]
  have hp : (rawRows ts vs).Perm (rawRows ts' vs') := hperm.map _
  have e : (rawRows ts vs).insertionSort (fun a b => a.years ≤ b.years) =
      (rawRows ts' vs').insertionSort (fun a b => a.years ≤ b.years) := by
    have h1 : ((rawRows ts vs).insertionSort (fun a b => a.years ≤ b.years)).Perm (rawRows ts vs) :=
      List.perm_insertionSort _ _
    have h2 : ((rawRows ts' vs').insertionSort (fun a b => a.years ≤ b.years)).Perm (rawRows ts vs) :=
      (List.perm_insertionSort _ _).trans hp.symm
    refine List.Perm.eq_of_pairwise ?_ (sorted_rows _) (sorted_rows _) (h1.trans h2.symm)
    intro a b ha hb hab hba
    have hinj : ((rawRows ts vs).map (·.years)).Nodup := by rw [rawRows_years hl]; exact hnd
    exact List.inj_on_of_nodup_map hinj (h1.subset ha) (h2.subset hb) (le_antisymm hab hba)
  rw [e]

/-- Pillars given by tenors are the pillars on the first business days on or after the curve date plus the tenor. -/
theorem C86_tenors (spl : List (ℝ × ℝ) → ℝ → ℝ) (cd : Int) (l : List Str) (ds : List Int) (zr df : Option (List ℝ))
    (hone : zr.toList.length + df.toList.length = 1) (freq : Option CompoundingFreq) (basis : DayCountBasis) (cal : BusCal)
    (m : SplineMethod) (hcal : cal.Ok) (hlen : ds.length = l.length)
    (hd : ∀ (i : Nat) (s : Str) (d : Int), l[i]? = some s → ds[i]? = some d →
      ∃ o, tenorToDateOffset (cleanTenor s) = .ok o ∧ FirstOnOrAfter cal (o.addTo cd) d) :
    makeSplineCurve spl cd { tenor := some l, zeroRate := zr, discountFactor := df } freq basis cal m =
    makeSplineCurve spl cd { date := some ds, zeroRate := zr, discountFactor := df } freq basis cal m := by
  have hy : ∃ y, (zr.map PillarY.zeroRate).toList ++ (df.map PillarY.discountFactor).toList = [y] := by
    cases zr <;> cases df <;> simp at hone ⊢
  obtain ⟨y, hy⟩ := hy
  have e : splineRows cal basis cd freq { tenor := some l, zeroRate := zr, discountFactor := df } =
      splineRows cal basis cd freq { date := some ds, zeroRate := zr, discountFactor := df } := by
    unfold splineRows
    rw [choose_pair (x := .tenor l) rfl hy rfl rfl rfl, choose_pair (x := .date ds) rfl hy rfl rfl rfl]
    simp only [bind, Except.bind, pillarTimes, mapM_tenor hcal hlen hd]
  unfold makeSplineCurve
  rw [e]

/-- Four or more different dates after the curve date, with discount factors, make a curve. -/
theorem C86_accepted (spl : List (ℝ × ℝ) → ℝ → ℝ) (cd : Int) (ds : List Int) (vs : List ℝ) (freq : Option CompoundingFreq)
    (basis : DayCountBasis) (hb : ActBasis basis) (cal : BusCal) (m : SplineMethod) (hl : ds.length = vs.length)
    (h4 : 4 ≤ ds.length) (hnd : ds.Nodup) (hds : ∀ d ∈ ds, cd < d) :
    ∃ z, makeSplineCurve spl cd { date := some ds, discountFactor := some vs } freq basis cal m = .ok z ∧
      (∀ p ∈ z.base.pillars, 0 ≤ p.years) ∧ ∃ r, z.rates.head? = some (some r) := by
  have hisda : ∀ d, Plain basis d := fun d => by rcases hb with rfl | rfl | rfl | rfl <;> exact Plain.of_ne (by simp) d
  have htotal : ∀ E : List Int, E ≠ [] → (∀ e ∈ E, cd ≤ e) → ∃ ys, yearFrac [cd] E basis none = .ok ys := by
    intro E hE hle
    have hch : checkOrder (sameShape [cd] E).1 (sameShape [cd] E).2 = .ok () := by
      match E, hE with
      | [x], _ =>
        have := hle x (by simp)
        simp [sameShape, checkOrder, pyAssert, this]
      | x :: y :: l, _ =>
        have hz : ∀ p ∈ (List.replicate (x :: y :: l).length cd).zip (x :: y :: l), p.1 ≤ p.2 := by
          intro p hp
          have h1 := List.of_mem_zip hp
          rw [List.eq_of_mem_replicate h1.1]
          exact hle _ h1.2
        have : sameShape [cd] (x :: y :: l) = (List.replicate (x :: y :: l).length cd, x :: y :: l) := by
          simp [sameShape]
        rw [this]
        unfold checkOrder pyAssert
        rw [if_neg (by simp), if_pos]
        rw [List.all_eq_true]
        intro p hp
        exact decide_eq_true (hz p hp)
    unfold yearFrac dayCount
    rcases hb with rfl | rfl | rfl | rfl <;> simp only [hch, Except.map] <;> exact ⟨_, rfl⟩
  have hdne : ds ≠ [] := by intro hc; rw [hc] at h4; simp at h4
  obtain ⟨ys, hys⟩ := htotal ds hdne (fun e he => (hds e he).le)
  have hyl : ys.length = ds.length := by rw [yearFrac_length hys, sameShape_lengths hdne]
  have hyget : ∀ i (hi : i < ds.length), yearFrac [cd] [ds[i]] basis none = .ok [ys[i]'(by omega)] := by
    intro i hi
    have hsi := sameShape_left ds cd i ds[i] (List.getElem?_eq_getElem hi)
    obtain ⟨t, ht, hti⟩ := yearFrac_get hys (hisda _) hsi.1 hsi.2
    rw [List.getElem?_eq_getElem (by omega)] at hti
    rw [ht, Option.some.inj hti]
  -- the rows
  set raw : List SplineRow := (((ds.map some).zip (ys.map (fun (y : Rat) => (y : ℝ)))).zip vs).map (fun p =>
    ⟨p.1.1, p.1.2, if p.1.2 = 0 then none else some (-1 * Real.log p.2 / p.1.2), p.2⟩) with hraw
  have hrows : splineRows cal basis cd freq { date := some ds, discountFactor := some vs } =
      .ok (raw.insertionSort (fun a b => a.years ≤ b.years)) := by
    unfold splineRows
    have hc : chooseColumns { date := some ds, discountFactor := some vs } = .ok (.date ds, .discountFactor vs) := rfl
    simp only [hc, bind, Except.bind, pillarTimes, hys, Except.map, PillarY.column]
    rw [mapM_total (g := fun p : (Option Int × ℝ) × ℝ =>
      (⟨p.1.1, p.1.2, if p.1.2 = 0 then none else some (-1 * Real.log p.2 / p.1.2), p.2⟩ : SplineRow)) (by
        intro p _; unfold splineRow; rfl)]
    rfl
  set rows := raw.insertionSort (fun a b => a.years ≤ b.years) with hr
  have hperm : rows.Perm raw := List.perm_insertionSort _ _
  have hrawyears : raw.map (·.years) = ys.map (fun (y : Rat) => (y : ℝ)) := by
    rw [hraw, List.map_map]
    have e1 : (((ds.map some).zip (ys.map (fun (y : Rat) => (y : ℝ)))).zip vs).map Prod.fst =
        (ds.map some).zip (ys.map (fun (y : Rat) => (y : ℝ))) := List.map_fst_zip (by simp [hyl, hl])
    have e2 : ((ds.map some).zip (ys.map (fun (y : Rat) => (y : ℝ)))).map Prod.snd = ys.map (fun (y : Rat) => (y : ℝ)) :=
      List.map_snd_zip (by simp [hyl])
    have e3 := congrArg (List.map Prod.snd) e1
    rw [List.map_map, e2] at e3
    exact e3
  have hyears : (rows.map (·.years)).Perm (ys.map (fun (y : Rat) => (y : ℝ))) := by
    rw [← hrawyears]; exact hperm.map _
  have hpos : ∀ y ∈ ys, (0 : Rat) < y := by
    intro y hy
    obtain ⟨i, hi, rfl⟩ := List.getElem_of_mem hy
    exact yearFrac_strict hb (hds _ (List.getElem_mem (by omega : i < ds.length))) (yearFrac_self (hisda cd)) (hyget i (by omega))
  have hynd : ys.Nodup := by
    rw [List.nodup_iff_injective_get]
    intro i j hij
    simp only [List.get_eq_getElem] at hij
    have h1 := hyget i (by omega)
    have h2 := hyget j (by omega)
    rw [hij] at h1
    by_contra hne
    have hd : ds[(i : Nat)] ≠ ds[(j : Nat)] := by
      intro he
      exact hne (Fin.ext ((List.Nodup.getElem_inj_iff hnd).mp he))
    rcases lt_or_gt_of_ne hd with hlt | hlt
    · exact lt_irrefl _ (yearFrac_strict hb hlt h1 h2)
    · exact lt_irrefl _ (yearFrac_strict hb hlt h2 h1)
  have hrpos : ∀ r ∈ rows, 0 < r.years := by
    intro r hr
    have := hyears.subset (List.mem_map_of_mem hr)
    obtain ⟨y, hy, he⟩ := List.mem_map.mp this
    rw [← he]; exact_mod_cast hpos y hy
  have hrne : rows ≠ [] := by
    intro hc
    rw [hc] at hyears
    have := hyears.length_eq
    simp only [List.map_nil, List.length_nil, List.length_map] at this
    omega
  have hcc : ∀ r ∈ rows, r.cczr.isSome := by
    intro r hr
    have hy := (hrpos r hr).ne'
    obtain ⟨p, -, rfl⟩ := List.mem_map.mp (hperm.subset hr)
    simp only at hy ⊢
    rw [if_neg hy]; rfl
  obtain ⟨points, hp, hfst⟩ := points_of_rows rows m hrne (fun r hr => (hrpos r hr).ne') hcc
  have hlen : 4 ≤ points.length := by
    have := congrArg List.length hfst
    rw [List.length_map, List.length_append, hyears.length_eq, List.length_map] at this
    omega
  have hstrict : (rows.map (·.years)).Pairwise (· < ·) := by
    have h1 : (rows.map (·.years)).Nodup := by
      rw [hyears.nodup_iff]
      exact hynd.map (fun a b h => by exact_mod_cast h)
    have h2 : (rows.map (·.years)).Pairwise (· ≤ ·) := List.pairwise_map.mpr (sorted_rows raw)
    exact (h2.and h1).imp (fun h => lt_of_le_of_ne h.1 h.2)
  have hinc : points.Pairwise (fun p q => p.1 < q.1) := by
    have : (points.map Prod.fst).Pairwise (· < ·) := by
      rw [hfst, List.pairwise_append]
      refine ⟨by cases m <;> simp, hstrict, ?_⟩
      intro a ha b hb
      obtain ⟨r, hr, rfl⟩ := List.mem_map.mp hb
      have : a = 0 := by cases m <;> simp at ha; exact ha
      rw [this]; exact hrpos r hr
    exact List.pairwise_map.mp this
  obtain ⟨a, rest, hcons⟩ := List.exists_cons_of_ne_nil hrne
  have hdates : ∀ r ∈ rows, ∃ d ∈ ds, r.date = some d := by
    intro r hr
    obtain ⟨p, hpm, rfl⟩ := List.mem_map.mp (hperm.subset hr)
    have h1 := (List.of_mem_zip (List.of_mem_zip hpm).1).1
    obtain ⟨d, hd, he⟩ := List.mem_map.mp h1
    exact ⟨d, hd, he.symm⟩
  obtain ⟨d0, hd0, had⟩ := hdates a (by rw [hcons]; simp)
  obtain ⟨pillars, hpil, hcdm, hpge⟩ : ∃ pillars, splinePillars cd rows = .ok pillars ∧
      cd ∈ pillars.filterMap (·.date) ∧ ∀ p ∈ pillars, 0 ≤ p.years := by
    rw [hcons] at hrpos ⊢
    unfold splinePillars
    simp only
    rw [if_pos (hrpos a (by simp)).ne', had]
    refine ⟨_, rfl, by simp, ?_⟩
    intro p hp
    rcases List.mem_cons.mp hp with rfl | hp
    · exact le_refl _
    · obtain ⟨r, hr, rfl⟩ := List.mem_map.mp hp
      exact (hrpos r hr).le
  obtain ⟨M, hM⟩ : ∃ M, (pillars.filterMap (·.date)).max? = some M := by
    rw [← Option.isSome_iff_exists]
    have hne : pillars.filterMap (·.date) ≠ [] := by intro hc; rw [hc] at hcdm; cases hcdm
    simpa using hne
  have hMge : cd ≤ M := (List.max?_eq_some_iff.mp hM).2 cd hcdm
  have hlast : lastDay basis cd pillars = .ok M := by unfold lastDay; rw [hM]
  obtain ⟨yd, hyd⟩ := htotal (dateRange cd M) (by
    intro hc
    have : cd ∈ dateRange cd M := mem_dateRange.mpr ⟨le_refl _, hMge⟩
    rw [hc] at this; cases this) (fun e he => (mem_dateRange.mp he).1)
  unfold makeSplineCurve
  simp only [hrows, bind, Except.bind, hpil, hp, splrep, splineDaily, hlast, hyd]
  rw [if_neg (by omega), if_pos hinc]
  refine ⟨_, rfl, hpge, ?_⟩
  simp only
  unfold splineRates
  rw [hcons]
  simp only
  rw [if_pos (hrpos a (by rw [hcons]; simp)).ne']
  cases m <;> exact ⟨_, rfl⟩

/-- Polynomial interpolation is such a spline routine. -/
theorem C86_interpolates : ∃ spl : List (ℝ × ℝ) → ℝ → ℝ, Interpolates spl := by
  refine ⟨fun points x => (Lagrange.interpolate Finset.univ (fun i : Fin points.length => points[i].1)
    (fun i => points[i].2)).eval x, ?_⟩
  intro points _ hinc
  refine ⟨?_, by simpa only [Polynomial.coe_aeval_eq_eval] using Polynomial.contDiff_aeval (R := ℝ) (𝕜 := ℝ) (Lagrange.interpolate Finset.univ
    (fun i : Fin points.length => points[i].1) (fun i => points[i].2)) 2⟩
  intro p hp
  obtain ⟨i, hi, rfl⟩ := List.getElem_of_mem hp
  have hinj : Set.InjOn (fun i : Fin points.length => points[i].1) (Finset.univ : Finset (Fin points.length)) := by
    intro a _ b _ hab
    rw [List.pairwise_iff_getElem] at hinc
    by_contra hne
    rcases lt_or_gt_of_ne hne with hlt | hlt
    · exact (hinc a b a.2 b.2 hlt).ne hab
    · exact (hinc b a b.2 a.2 hlt).ne' hab
  exact Lagrange.eval_interpolate_at_node (r := fun i : Fin points.length => points[i].2) hinj (Finset.mem_univ (⟨i, hi⟩ : Fin points.length))

/-- A curve of four dates, by both methods, that meets the hypotheses of the theorems above. -/
example (m : SplineMethod) : ∃ (spl : List (ℝ × ℝ) → ℝ → ℝ) (z : SplineCurve), Interpolates spl ∧
    makeSplineCurve spl 0 { date := some [365, 1095, 730, 1460], discountFactor := some [0.98, 0.93, 0.95, 0.9] } none .act_365
      defaultBusCal m = .ok z ∧ z.base.discountFactors [1095] = [some 0.93] ∧ z.discountFactorAt 3 = 0.93 := by
  obtain ⟨spl, hs⟩ := C86_interpolates
  obtain ⟨z, hz, -⟩ := C86_accepted spl 0 [365, 1095, 730, 1460] [0.98, 0.93, 0.95, 0.9] none .act_365 (.inr (.inl rfl)) defaultBusCal m
    rfl (by decide) (by decide) (by decide)
  have h1 := C86_dates hs _ _ hz 1 1095 0.93 (by decide) rfl rfl (by norm_num)
  refine ⟨spl, z, hs, hz, h1, ?_⟩
  obtain ⟨times, t, ht, hyf, hti, hr⟩ := dated_row hz (y := .discountFactor [0.98, 0.93, 0.95, 0.9]) rfl
    (i := 1) (d := 1095) (v := 0.93) (by decide) rfl rfl
  have hyf' : yearFrac [0] [1095] .act_365 none = .ok [3] := by decide +kernel
  obtain ⟨t', hyf2, hdf, -⟩ := C86_dates_are_times hz 1095 (by decide) hr
  rw [hyf'] at hyf2
  simp only [Except.ok.injEq, List.cons.injEq, and_true] at hyf2
  subst hyf2
  rw [h1] at hdf
  simp only [List.cons.injEq, Option.some.injEq, and_true] at hdf
  rw [hdf]; norm_num

end Frm.Props
