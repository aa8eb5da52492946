import Verif.Spec.CurveObject
import Verif.Proofs.SplineCurve

/-! # Helper lemmas for curve objects of any interpolation method -/

namespace Frm
open Spec

set_option autoImplicit false

variable {cd : Int} {basis : DayCountBasis} {cal : BusCal} {z : ZeroCurve}

theorem makeSplineCurve_base {spl : List (ℝ × ℝ) → ℝ → ℝ} {c : PillarColumns} {freq : Option CompoundingFreq} {m : SplineMethod}
    {z : SplineCurve} (h : makeSplineCurve spl cd c freq basis cal m = .ok z) : z.base.basis = basis ∧ z.base.cal = cal := by
  unfold makeSplineCurve at h
  simp only [bind, Except.bind] at h
  cases hr : splineRows cal basis cd freq c with
  | error e => rw [hr] at h; cases h
  | ok rows =>
    rw [hr] at h; simp only at h
    cases hp : splinePillars cd rows with
    | error e => rw [hp] at h; cases h
    | ok pillars =>
      rw [hp] at h; simp only at h
      cases hq : splinePoints m rows with
      | none => rw [hq] at h; cases h
      | some points =>
        rw [hq] at h; simp only at h
        cases hs : splrep spl points with
        | error e => rw [hs] at h; cases h
        | ok f =>
          rw [hs] at h; simp only at h
          cases hd : splineDaily basis cd pillars m f with
          | error e => rw [hd] at h; cases h
          | ok daily =>
            rw [hd] at h
            simp only [pure, Except.pure, Except.ok.injEq] at h
            subst h
            exact ⟨rfl, rfl⟩

/-- What every curve has: its date, basis and calendar, and a daily table from the curve date to a last date, with positive discount
factors and the zero rates that stand for them. -/
theorem curve_ok (h : IsCurve cd basis cal z) : z.curveDate = cd ∧ z.basis = basis ∧ z.cal = cal ∧ ∃ last, cd ≤ last ∧
    z.daily.map (·.date) = dateRange cd last ∧ ∀ d, cd ≤ d → d ≤ last → ∃ (y : Rat) (r : DailyRow),
      yearFrac [cd] [d] basis (some [decide (d = last)]) = .ok [y] ∧ (Plain basis d → yearFrac [cd] [d] basis none = .ok [y]) ∧
      z.daily.find? (fun r => r.date == d) = some r ∧ r.years = (y : ℝ) ∧ 0 < r.discountFactor ∧
      ((y : ℝ) ≠ 0 → r.cczr = some (-Real.log r.discountFactor / y)) := by
  cases h with
  | linear h =>
    obtain ⟨-, hcd, hzb, hzc, -⟩ := makeZeroCurve_ok h
    obtain ⟨last, hl, hdates, -, hrow⟩ := daily_facts h
    have hle := last_ge h hl
    refine ⟨hcd, hzb, hzc, last, hle, hdates hle, fun d h1 h2 => ?_⟩
    obtain ⟨y, hy, hp, hf⟩ := hrow d h1 h2
    refine ⟨y, _, hy, hp, hf, rfl, Real.exp_pos _, fun hne => ?_⟩
    simp [dailyRow, hne]
  | @spline spl c freq m s h =>
    obtain ⟨hzb, hzc⟩ := makeSplineCurve_base h
    obtain ⟨rows, points, -, -, -, -, -, -, hm, hcd, last, years, hl, hy, hd⟩ := makeSplineCurve_ok h
    obtain ⟨hle, -, hrow⟩ := spline_daily hcd hy hd
    have hdates : s.base.daily.map (·.date) = dateRange cd last := by
      have hne : dateRange cd last ≠ [] := by
        intro hc
        have := dateRange_length cd last
        rw [hc] at this
        simp only [List.length_nil] at this
        omega
      rw [hd, List.map_map]
      have : ((fun x : DailyRow => x.date) ∘ fun p : Int × Rat => splineDay m s.spline p.1 p.2) = Prod.fst := rfl
      rw [this]
      exact List.map_fst_zip (by rw [yearFrac_length hy, sameShape_lengths hne])
    refine ⟨hcd, hzb, hzc, last, hle, hdates, fun d h1 h2 => ?_⟩
    obtain ⟨y, hy, hp, hf⟩ := hrow d h1 h2
    have hfind : s.base.daily.find? (fun r => r.date == d) = some (splineDay m s.spline d y) := by
      unfold ZeroCurve.indexDates at hf
      rw [hdates, dateRange_min hle, dateRange_max hle] at hf
      simpa [natGt, h1, h2] using hf
    refine ⟨y, _, hy, hp, hfind, rfl, ?_, fun hne => ?_⟩
    · cases m <;> exact Real.exp_pos _
    · cases m <;> simp [splineDay, splineAt, hne]

theorem curve_inRange (h : IsCurve cd basis cal z) {last : Int} (hle : cd ≤ last)
    (hdates : z.daily.map (·.date) = dateRange cd last) (d : Int) : InRange z d ↔ cd ≤ d ∧ d ≤ last := by
  have hcd := (curve_ok h).1
  unfold InRange
  rw [hcd]
  constructor
  · rintro ⟨h1, r, hr, hrd⟩
    have : r.date ∈ z.daily.map (·.date) := List.mem_map_of_mem hr
    rw [hdates] at this
    have := mem_dateRange.mp this
    exact ⟨h1, by omega⟩
  · rintro ⟨h1, h2⟩
    have : last ∈ z.daily.map (·.date) := by rw [hdates]; exact mem_dateRange.mpr ⟨by omega, by omega⟩
    obtain ⟨r, hr, hrd⟩ := List.mem_map.mp this
    exact ⟨h1, r, hr, by omega⟩

theorem curve_indexDates {last : Int} (hle : cd ≤ last) (hdates : z.daily.map (·.date) = dateRange cd last) (dates : List Int) :
    z.indexDates dates = (dates.filter (fun d => decide (cd ≤ d) && decide (d ≤ last))).map
      (fun d => z.daily.find? (fun r => r.date == d)) := by
  unfold ZeroCurve.indexDates
  rw [hdates, dateRange_min hle, dateRange_max hle]
  simp only [natGt]
  congr 1
  apply List.filter_congr
  intro d _
  rw [Bool.eq_iff_iff]
  simp

end Frm
