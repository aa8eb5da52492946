import Verif.Model.NanCurve
import Verif.Props.C86
import Verif.Props.C101
import Verif.Proofs.CurveObject

/-! # C86: discount factors quoted at time 0 -/

namespace Frm
open Spec

set_option autoImplicit false

theorem mapM_option_some {α β : Type} {f : α → Option β} {l : List α} (h : ∀ a ∈ l, f a ≠ none) : ∃ out, l.mapM f = some out := by
  induction l with
  | nil => exact ⟨[], rfl⟩
  | cons a l ih =>
    obtain ⟨out, ho⟩ := ih (fun b hb => h b (by simp [hb]))
    obtain ⟨b, hb⟩ := Option.ne_none_iff_exists'.mp (h a (by simp))
    exact ⟨b :: out, by simp [List.mapM_cons, ho, hb]⟩

theorem splrep_congr {spl : List (ℝ × ℝ) → ℝ → ℝ} {p q : List (ℝ × ℝ)} (h : p.map (·.1) = q.map (·.1)) :
    (∀ e, splrep spl p = .error e ↔ splrep spl q = .error e) ∧ ((∃ f, splrep spl p = .ok f) ↔ ∃ f, splrep spl q = .ok f) := by
  have hl : p.length = q.length := by simpa using congrArg List.length h
  have hp : ∀ l : List (ℝ × ℝ), l.Pairwise (fun p q => p.1 < q.1) ↔ (l.map (·.1)).Pairwise (· < ·) := fun l => by
    rw [List.pairwise_map]
  unfold splrep
  by_cases h1 : q.length ≤ 3
  · rw [if_pos h1, if_pos (by omega)]; simp
  · rw [if_neg h1, if_neg (by omega)]
    by_cases h2 : q.Pairwise (fun p q => p.1 < q.1)
    · rw [if_pos h2, if_pos ((hp p).mpr (by rw [h]; exact (hp q).mp h2))]; simp
    · rw [if_neg h2, if_neg (fun hc => h2 ((hp q).mpr (by rw [← h]; exact (hp p).mp hc)))]; simp

end Frm

namespace Frm.Props
open Spec

set_option autoImplicit false

variable {spl : List (ℝ × ℝ) → ℝ → ℝ} {cd : Int} {c : PillarColumns} {freq : Option CompoundingFreq} {basis : DayCountBasis}
  {cal : BusCal} {m : SplineMethod}

/-- The rows of a table of discount factors have a zero rate except at time 0. -/
theorem quoted_rows {rows : List SplineRow} (hr : splineRows cal basis cd freq c = .ok rows) {x : PillarX} {vs : List ℝ}
    (hc : chooseColumns c = .ok (x, .discountFactor vs)) : ∀ r ∈ rows, (r.cczr = none ↔ r.years = 0) := by
  obtain ⟨x', y', times, raw, hc', -, hm, -, hperm⟩ := splineRows_ok hr
  rw [hc] at hc'
  simp only [Except.ok.injEq, Prod.mk.injEq] at hc'
  obtain ⟨rfl, rfl⟩ := hc'
  intro r hrm
  obtain ⟨i, hi⟩ := List.mem_iff_getElem?.mp (hperm.subset hrm)
  obtain ⟨hlen, hget⟩ := mapM_get hm
  have hil : i < (times.zip (PillarY.discountFactor vs).column.2).length := by
    rw [← hlen]; exact (List.getElem?_eq_some_iff.mp hi).1
  obtain ⟨r', hr1, hr2⟩ := hget i _ (List.getElem?_eq_getElem hil)
  rw [hi] at hr1
  cases hr1
  simp only [splineRow, PillarY.column, Except.ok.injEq] at hr2
  rw [← hr2]
  simp only
  by_cases h0 : (times.zip (PillarY.discountFactor vs).column.2)[i].1.2 = 0
  · simp only [PillarY.column] at h0; simp [h0]
  · simp only [PillarY.column] at h0; simp [h0]

/-- A curve is a curve of `nan`s only when it is a spline on zero rates through discount factors, one of them at time 0: with zero rates, or with
splines on the logarithm of the discount factors, this does not happen.  Fewer than four pillars or two at the same time are refused here too. -/
theorem C86_missing_only (n : NanCurve) (h : makeSplineOrNan spl cd c freq basis cal m = .ok (.inr n)) :
    m = .cczr ∧ ∃ rows x vs, splineRows cal basis cd freq c = .ok rows ∧ chooseColumns c = .ok (x, .discountFactor vs) ∧
      (∃ r ∈ rows, r.years = 0) ∧ 4 ≤ rows.length ∧ rows.Pairwise (fun a b => a.years < b.years) := by
  unfold makeSplineOrNan at h
  simp only [bind, Except.bind] at h
  cases hr : splineRows cal basis cd freq c with
  | error e => rw [hr] at h; cases h
  | ok rows =>
    rw [hr] at h; simp only at h
    cases hp : splinePillars cd rows with
    | error e => rw [hp] at h; cases h
    | ok pillars =>
      rw [hp] at h; simp only at h
      cases hq : splinePoints m rows with
      | some points =>
        rw [hq] at h; simp only at h
        cases hz : makeSplineCurve spl cd c freq basis cal m with
        | error e => rw [hz] at h; cases h
        | ok z => rw [hz] at h; simp [Except.map] at h
      | none =>
        cases m with
        | lnDiscount =>
          exfalso
          unfold splinePoints at hq
          cases rows with
          | nil => cases hq
          | cons a l => simp only at hq; split at hq <;> cases hq
        | cczr =>
          have hs : 4 ≤ rows.length ∧ rows.Pairwise (fun a b => a.years < b.years) := by
            rw [hq] at h; simp only at h
            by_cases h3 : rows.length ≤ 3
            · simp [splrep, h3] at h
            · refine ⟨by omega, ?_⟩
              by_contra hpw
              simp [splrep, h3, List.pairwise_map, hpw] at h
          refine ⟨rfl, rows, ?_⟩
          obtain ⟨x, y, times, raw, hc, -, hm, -, hperm⟩ := splineRows_ok hr
          have hnone : ∃ r ∈ rows, r.cczr = none := by
            by_contra hcon
            push Not at hcon
            obtain ⟨out, ho⟩ := mapM_option_some (f := fun r : SplineRow => r.cczr.map (fun y => (r.years, y))) (l := rows) (by
              intro r hrm hn
              exact hcon r hrm (by simpa using hn))
            unfold splinePoints at hq
            rw [ho] at hq; cases hq
          obtain ⟨r, hrm, hrn⟩ := hnone
          cases y with
          | discountFactor vs => exact ⟨x, vs, rfl, hc, ⟨r, hrm, (quoted_rows hr hc r hrm).mp hrn⟩, hs⟩
          | zeroRate vs =>
            exfalso
            obtain ⟨i, hi⟩ := List.mem_iff_getElem?.mp (hperm.subset hrm)
            obtain ⟨hlen, hget⟩ := mapM_get hm
            have hil : i < (times.zip (PillarY.zeroRate vs).column.2).length := by
              rw [← hlen]; exact (List.getElem?_eq_some_iff.mp hi).1
            obtain ⟨r', hr1, hr2⟩ := hget i _ (List.getElem?_eq_getElem hil)
            rw [hi] at hr1
            cases hr1
            cases freq with
            | none => cases hr2
            | some f =>
              simp only [splineRow, PillarY.column, Except.ok.injEq] at hr2
              rw [← hr2] at hrn
              cases hrn

/-- Defect: discount factors at times from 0 on, one of them at time 0.  The table from which splines on the logarithms make a curve (which
gives the quotes back, `C86_dates`) is accepted with splines on zero rates too, without complaint, but every value of that curve is `nan`. -/
theorem C86_missing {x : PillarX} {vs : List ℝ} (hc : chooseColumns c = .ok (x, .discountFactor vs)) {rows : List SplineRow}
    (hr : splineRows cal basis cd freq c = .ok rows) (hpos : ∀ r ∈ rows, 0 ≤ r.years) (h0 : ∃ r ∈ rows, r.years = 0) (z : SplineCurve)
    (hz : makeSplineCurve spl cd c freq basis cal .lnDiscount = .ok z) :
    ∃ n, makeSplineOrNan spl cd c freq basis cal .cczr = .ok (.inr n) ∧
      ∀ dates, n.lookup dates = (z.base.discountFactors dates).map (fun _ => none) := by
  obtain ⟨rows', points, hrows', hpil, hp, h4, hinc, -, -, hcd, last, years, hl, hy, hd⟩ := makeSplineCurve_ok hz
  rw [hr] at hrows'
  cases hrows'
  obtain ⟨r0, hr0m, hr0⟩ := h0
  have hsort : rows.Pairwise (fun a b => a.years ≤ b.years) := by
    obtain ⟨-, -, -, raw, -, -, -, he, -⟩ := splineRows_ok hr
    rw [he]
    exact List.pairwise_insertionSort _ _
  have hpts : points.map (·.1) = rows.map (·.years) := by
    cases rows with
    | nil => cases hr0m
    | cons a l =>
      have ha : a.years = 0 := by
        rcases List.mem_cons.mp hr0m with rfl | hm
        · exact hr0
        · have h1 := (List.pairwise_cons.mp hsort).1 r0 hm
          have h2 := hpos a (by simp)
          linarith
      unfold splinePoints at hp
      simp only [ha, ne_eq, not_true_eq_false, if_false, Option.some.injEq] at hp
      rw [← hp]
      simp
  have hnone : splinePoints .cczr rows = none := by
    cases hq : splinePoints .cczr rows with
    | none => rfl
    | some ps =>
      obtain ⟨y, hy, -⟩ := points_cczr hq hr0m
      rw [(quoted_rows hr hc r0 hr0m).mpr hr0] at hy
      cases hy
  have hspl : ∃ f, splrep spl (rows.map (fun r => (r.years, (0 : ℝ)))) = .ok f := by
    refine (splrep_congr (p := points) (by rw [hpts]; simp)).2.mp ?_
    unfold splrep
    rw [if_neg (by omega), if_pos hinc]
    exact ⟨_, rfl⟩
  obtain ⟨f, hf⟩ := hspl
  refine ⟨⟨cd, z.base.pillars, dateRange cd last⟩, ?_, fun dates => ?_⟩
  · unfold makeSplineOrNan
    simp only [hr, hpil, hnone, hf, hl, hy, bind, Except.bind, pure, Except.pure]
  · obtain ⟨-, -, -, last', hle, hdates, -⟩ := curve_ok (.spline hz)
    have hlast : dateRange cd last = z.base.daily.map (·.date) := by
      obtain ⟨hle, -⟩ := spline_daily hcd hy hd
      have hne : dateRange cd last ≠ [] := by
        intro hc
        have := dateRange_length cd last
        rw [hc] at this
        simp only [List.length_nil] at this
        omega
      rw [hd, List.map_map]
      have : ((fun x : DailyRow => x.date) ∘ fun p : Int × Rat => splineDay .lnDiscount z.spline p.1 p.2) = Prod.fst := rfl
      rw [this]
      exact (List.map_fst_zip (by rw [yearFrac_length hy, sameShape_lengths hne])).symm
    unfold NanCurve.lookup ZeroCurve.discountFactors ZeroCurve.indexDates
    simp only [hlast, List.map_map]
    rfl

/-- The smallest such table: the curve date with discount factor 1 and three anniversaries. -/
theorem C86_missing_sample (spl : List (ℝ × ℝ) → ℝ → ℝ) (cal : BusCal) :
    (∃ z, makeSplineCurve spl 0 { date := some [0, 365, 730, 1095], discountFactor := some [1, 0.98, 0.95, 0.93] } none .act_365 cal
      .lnDiscount = .ok z) ∧
    ∃ n, makeSplineOrNan spl 0 { date := some [0, 365, 730, 1095], discountFactor := some [1, 0.98, 0.95, 0.93] } none .act_365 cal
      .cczr = .ok (.inr n) ∧ n.lookup [0, 365, 400] = [none, none, none] := by
  have hyf : yearFrac [0] [0, 365, 730, 1095] .act_365 none = .ok [0, 1, 2, 3] := by decide +kernel
  have hrows : splineRows cal .act_365 0 none { date := some [0, 365, 730, 1095], discountFactor := some [1, 0.98, 0.95, 0.93] } =
      .ok [⟨some 0, 0, none, 1⟩, ⟨some 365, 1, some (-1 * Real.log 0.98 / 1), 0.98⟩, ⟨some 730, 2, some (-1 * Real.log 0.95 / 2), 0.95⟩,
        ⟨some 1095, 3, some (-1 * Real.log 0.93 / 3), 0.93⟩] := by
    unfold splineRows
    have hc : chooseColumns { date := some [0, 365, 730, 1095], discountFactor := some [1, 0.98, 0.95, 0.93] } =
      .ok (.date [0, 365, 730, 1095], .discountFactor [1, 0.98, 0.95, 0.93]) := rfl
    have ht : pillarTimes cal .act_365 0 (.date [0, 365, 730, 1095]) =
        .ok [(some 0, 0), (some 365, 1), (some 730, 2), (some 1095, 3)] := by
      unfold pillarTimes
      simp [hyf, Except.map]
    simp only [hc, ht, bind, Except.bind, PillarY.column, List.zip_cons_cons, List.zip_nil_right, List.mapM_cons, List.mapM_nil, splineRow,
      pure, Except.pure, Except.ok.injEq]
    rw [if_pos trivial, if_neg (by norm_num), if_neg (by norm_num), if_neg (by norm_num)]
    apply List.Pairwise.insertionSort_eq
    simp only [List.pairwise_cons, List.mem_cons, List.not_mem_nil, or_false, forall_eq_or_imp, forall_eq, false_implies, implies_true,
      List.Pairwise.nil, and_true]
    norm_num
  have hz : ∃ z, makeSplineCurve spl 0 { date := some [0, 365, 730, 1095], discountFactor := some [1, 0.98, 0.95, 0.93] } none .act_365 cal
      .lnDiscount = .ok z := by
    obtain ⟨ys, hys, -⟩ := yearFrac_column (cd := 0) (b := .act_365) (l := dateRange 0 1095) (by
      intro hc
      have := dateRange_length 0 1095
      rw [hc] at this
      simp at this) (fun d hd => (mem_dateRange.mp hd).1)
    unfold makeSplineCurve
    simp only [hrows, bind, Except.bind, splinePillars, splinePoints, ne_eq, not_true_eq_false, if_false, List.map_cons, List.map_nil]
    unfold splrep
    rw [if_neg (by simp), if_pos (by
      simp only [List.pairwise_cons, List.mem_cons, List.not_mem_nil, or_false, forall_eq_or_imp, forall_eq, false_implies, implies_true,
        List.Pairwise.nil, and_true]
      norm_num)]
    have hlast : lastDay .act_365 0 [({ date := some 0, years := 0, discountFactor := 1 } : PillarRow),
        { date := some 365, years := 1, discountFactor := 0.98 }, { date := some 730, years := 2, discountFactor := 0.95 },
        { date := some 1095, years := 3, discountFactor := 0.93 }] = .ok 1095 := by
      unfold lastDay
      simp [List.max?]
    simp only [splineDaily, hlast, bind, Except.bind, hys, pure, Except.pure]
    exact ⟨_, rfl⟩
  refine ⟨hz, ?_⟩
  obtain ⟨z, hz⟩ := hz
  obtain ⟨n, hn, hlook⟩ := C86_missing (x := .date [0, 365, 730, 1095]) (vs := [1, 0.98, 0.95, 0.93]) rfl hrows (by
    intro r hr
    simp only [List.mem_cons, List.not_mem_nil, or_false] at hr
    rcases hr with rfl | rfl | rfl | rfl <;> norm_num) ⟨_, List.mem_cons_self, rfl⟩ z hz
  refine ⟨n, hn, ?_⟩
  obtain ⟨times, t, ht, hyf, hti, h1⟩ := dated_row hz (y := .discountFactor [1, 0.98, 0.95, 0.93]) rfl
    (i := 3) (d := 1095) (v := 0.93) (by decide) rfl rfl
  have hcd := (curve_ok (.spline hz)).1
  obtain ⟨-, q, hq, hqd⟩ := h1
  have hin : ∀ d, 0 ≤ d → d ≤ 1095 → InRange z.base d := fun d h1 h2 => ⟨by omega, q, hq, by omega⟩
  rw [hlook, discountFactors_all (.spline hz) (by
    intro d hd
    simp only [List.mem_cons, List.not_mem_nil, or_false] at hd
    rcases hd with rfl | rfl | rfl <;> exact hin _ (by decide) (by decide))]
  rfl

end Frm.Props
