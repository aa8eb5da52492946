import Verif.Model.SplineCurve
import Verif.Proofs.ZeroCurve
import Verif.Props.C35

/-! # Helper lemmas for the spline curves -/

namespace Frm
open Classical

set_option autoImplicit false

/-- The row of the daily table for a day. -/
noncomputable def splineDay (m : SplineMethod) (f : ℝ → ℝ) (d : Int) (y : Rat) : DailyRow :=
  { date := d, years := y, cczr := (splineAt m f y).1, discountFactor := (splineAt m f y).2 }

theorem splineRows_ok {cal : BusCal} {basis : DayCountBasis} {cd : Int} {freq : Option CompoundingFreq}
    {c : PillarColumns} {rows : List SplineRow} (h : splineRows cal basis cd freq c = .ok rows) :
    ∃ x y times raw, chooseColumns c = .ok (x, y) ∧ pillarTimes cal basis cd x = .ok times ∧
      (times.zip y.column.2).mapM (fun p => splineRow freq p.1 y.column.1 p.2) = .ok raw ∧
      rows = raw.insertionSort (fun a b => a.years ≤ b.years) ∧ rows.Perm raw := by
  unfold splineRows at h
  simp only [bind, Except.bind] at h
  cases hx : chooseColumns c with
  | error e => rw [hx] at h; cases h
  | ok xy =>
    rw [hx] at h; simp only at h
    cases ht : pillarTimes cal basis cd xy.1 with
    | error e => rw [ht] at h; cases h
    | ok times =>
      rw [ht] at h; simp only at h
      cases hr : (times.zip xy.2.column.2).mapM (fun p => splineRow freq p.1 xy.2.column.1 p.2) with
      | error e => rw [hr] at h; cases h
      | ok raw =>
        rw [hr] at h
        simp only [pure, Except.pure, Except.ok.injEq] at h
        refine ⟨xy.1, xy.2, times, raw, rfl, ht, hr, h.symm, ?_⟩
        rw [← h]; exact List.perm_insertionSort _ raw

theorem makeSplineCurve_ok {spl : List (ℝ × ℝ) → ℝ → ℝ} {cd : Int} {c : PillarColumns} {freq : Option CompoundingFreq}
    {basis : DayCountBasis} {cal : BusCal} {m : SplineMethod} {z : SplineCurve}
    (h : makeSplineCurve spl cd c freq basis cal m = .ok z) :
    ∃ rows points, splineRows cal basis cd freq c = .ok rows ∧ splinePillars cd rows = .ok z.base.pillars ∧
      splinePoints m rows = some points ∧ 4 ≤ points.length ∧ points.Pairwise (fun p q => p.1 < q.1) ∧
      z.spline = spl points ∧ z.method = m ∧ z.base.curveDate = cd ∧
      ∃ last years, lastDay basis cd z.base.pillars = .ok last ∧
        yearFrac [cd] (dateRange cd last) basis none = .ok years ∧
        z.base.daily = ((dateRange cd last).zip years).map (fun p => splineDay m z.spline p.1 p.2) := by
  unfold makeSplineCurve at h
  simp only [bind, Except.bind] at h
  cases hr : splineRows cal basis cd freq c with
  | error e => rw [hr] at h; cases h
  | ok rows =>
    rw [hr] at h; simp only at h
    cases hp : splinePillars cd rows with
    | error e => rw [hp] at h; cases h
    | ok pillars =>
      rw [hp] at h; simp only at h
      cases hq : splinePoints m rows with
      | none => rw [hq] at h; cases h
      | some points =>
        rw [hq] at h; simp only at h
        cases hs : splrep spl points with
        | error e => rw [hs] at h; cases h
        | ok f =>
          rw [hs] at h; simp only at h
          cases hd : splineDaily basis cd pillars m f with
          | error e => rw [hd] at h; cases h
          | ok daily =>
            rw [hd] at h
            simp only [pure, Except.pure, Except.ok.injEq] at h
            subst h
            unfold splrep at hs
            by_cases h4 : points.length ≤ 3
            · rw [if_pos h4] at hs; cases hs
            rw [if_neg h4] at hs
            by_cases hinc : points.Pairwise (fun p q => p.1 < q.1)
            case neg => rw [if_neg hinc] at hs; cases hs
            rw [if_pos hinc] at hs
            simp only [Except.ok.injEq] at hs
            refine ⟨rows, points, rfl, hp, hq, by omega, hinc, hs.symm, rfl, rfl, ?_⟩
            unfold splineDaily at hd
            simp only [bind, Except.bind] at hd
            cases hl : lastDay basis cd pillars with
            | error e => rw [hl] at hd; cases hd
            | ok last =>
              rw [hl] at hd; simp only at hd
              cases hy : yearFrac [cd] (dateRange cd last) basis none with
              | error e => rw [hy] at hd; cases hd
              | ok years =>
                rw [hy] at hd
                simp only [pure, Except.pure, Except.ok.injEq] at hd
                exact ⟨last, years, rfl, hy, hd.symm⟩

/-- The pillars and their rates come from the same rows. -/
theorem makeSplineCurve_rates {spl : List (ℝ × ℝ) → ℝ → ℝ} {cd : Int} {c : PillarColumns} {freq : Option CompoundingFreq}
    {basis : DayCountBasis} {cal : BusCal} {m : SplineMethod} {z : SplineCurve}
    (h : makeSplineCurve spl cd c freq basis cal m = .ok z) {rows : List SplineRow} (hrows : splineRows cal basis cd freq c = .ok rows) :
    z.rates = splineRates m z.spline rows := by
  unfold makeSplineCurve at h
  simp only [bind, Except.bind, hrows] at h
  cases hp : splinePillars cd rows with
  | error e => rw [hp] at h; cases h
  | ok pillars =>
    rw [hp] at h; simp only at h
    cases hq : splinePoints m rows with
    | none => rw [hq] at h; cases h
    | some points =>
      rw [hq] at h; simp only at h
      cases hs : splrep spl points with
      | error e => rw [hs] at h; cases h
      | ok f =>
        rw [hs] at h; simp only at h
        cases hd : splineDaily basis cd pillars m f with
        | error e => rw [hd] at h; cases h
        | ok daily =>
          rw [hd] at h
          simp only [pure, Except.pure, Except.ok.injEq] at h
          subst h
          rfl

/-- What the daily table holds. -/
theorem spline_daily {cd : Int} {basis : DayCountBasis} {m : SplineMethod} {f : ℝ → ℝ} {z : ZeroCurve} {last : Int}
    {years : List Rat} (hcd : z.curveDate = cd)
    (hy : yearFrac [cd] (dateRange cd last) basis none = .ok years)
    (hd : z.daily = ((dateRange cd last).zip years).map (fun p => splineDay m f p.1 p.2)) :
    cd ≤ last ∧ (∀ d, InRange z d ↔ cd ≤ d ∧ d ≤ last) ∧
    ∀ d, cd ≤ d → d ≤ last → ∃ y, yearFrac [cd] [d] basis (some [decide (d = last)]) = .ok [y] ∧
      (Spec.Plain basis d → yearFrac [cd] [d] basis none = .ok [y]) ∧ z.indexDates [d] = [some (splineDay m f d y)] := by
  have hle : cd ≤ last := by
    by_contra hc
    have : dateRange cd last = [] := by
      unfold dateRange
      have : (last - cd + 1).toNat = 0 := by omega
      rw [this]; rfl
    rw [this] at hy
    cases basis <;> cases hy
  have hlen : years.length = (dateRange cd last).length := by
    have hne : dateRange cd last ≠ [] := by
      intro hc
      have := dateRange_length cd last
      rw [hc] at this
      simp only [List.length_nil] at this
      omega
    rw [yearFrac_length hy, sameShape_lengths hne]
  have hdates : z.daily.map (·.date) = dateRange cd last := by
    rw [hd, List.map_map]
    have : ((fun x : DailyRow => x.date) ∘ fun p : Int × Rat => splineDay m f p.1 p.2) = Prod.fst := rfl
    rw [this]
    exact List.map_fst_zip hlen.ge
  refine ⟨hle, ?_, ?_⟩
  · intro d
    unfold InRange
    rw [hcd]
    constructor
    · rintro ⟨h1, r, hr, hrd⟩
      have : r.date ∈ z.daily.map (·.date) := List.mem_map_of_mem hr
      rw [hdates] at this
      have := mem_dateRange.mp this
      exact ⟨h1, by omega⟩
    · rintro ⟨h1, h2⟩
      have : last ∈ z.daily.map (·.date) := by rw [hdates]; exact mem_dateRange.mpr ⟨by omega, by omega⟩
      obtain ⟨r, hr, hrd⟩ := List.mem_map.mp this
      exact ⟨h1, r, hr, by omega⟩
  · intro d h1 h2
    obtain ⟨y, hk, hf⟩ := find_daily (fun d y => splineDay m f d y) (fun _ _ => rfl) hlen
      (dateRange_nodup cd last) hd (dateRange_get h1 h2)
    have hsh := sameShape_left (dateRange cd last) cd (d - cd).toNat d (dateRange_get h1 h2)
    obtain ⟨-, y', hy', hk'⟩ := yearFrac_get_flag hy hsh.1 hsh.2
    rw [hk] at hk'
    simp only [Option.some.injEq] at hk'
    subst hk'
    have hne : dateRange cd last ≠ [] := fun hc => by
      have := dateRange_length cd last
      rw [hc] at this
      simp only [List.length_nil] at this
      omega
    have hflag : decide ((sameShape [cd] (dateRange cd last)).2.length ≤ (d - cd).toNat + 1) = decide (d = last) := by
      have h2 : (sameShape [cd] (dateRange cd last)).2 = dateRange cd last := by
        match hm : dateRange cd last, hne with
        | [x], _ => rfl
        | x :: y :: l, _ => rfl
      rw [h2, dateRange_length, Bool.eq_iff_iff]
      simp only [decide_eq_true_eq]
      omega
    rw [hflag] at hy'
    refine ⟨y, hy', fun hb => by rw [← hy', yearFrac_flag (.inl hb)], ?_⟩
    unfold ZeroCurve.indexDates
    rw [hdates, dateRange_min hle, dateRange_max hle]
    simp [natGt, h1, h2, hf]

/-- `mapM` in `Option` keeps a point for each row. -/
theorem mapM_option_mem {α β : Type} {f : α → Option β} {l : List α} {out : List β} (h : l.mapM f = some out) {a : α}
    (ha : a ∈ l) : ∃ b ∈ out, f a = some b := by
  induction l generalizing out with
  | nil => cases ha
  | cons x l ih =>
    simp only [List.mapM_cons, bind, Option.bind] at h
    cases hx : f x with
    | none => rw [hx] at h; cases h
    | some y =>
      rw [hx] at h
      simp only at h
      cases hl : l.mapM f with
      | none => rw [hl] at h; cases h
      | some ys =>
        rw [hl] at h
        simp only [pure, Option.some.injEq] at h
        subst h
        rcases List.mem_cons.mp ha with rfl | ha
        · exact ⟨y, by simp, hx⟩
        · obtain ⟨b, hb, hf⟩ := ih hl ha
          exact ⟨b, by simp [hb], hf⟩

theorem points_ln {rows : List SplineRow} {points : List (ℝ × ℝ)} (h : splinePoints .lnDiscount rows = some points)
    {r : SplineRow} (hr : r ∈ rows) : (r.years, Real.log r.discountFactor) ∈ points := by
  have hm : (r.years, Real.log r.discountFactor) ∈ rows.map (fun r => (r.years, Real.log r.discountFactor)) :=
    List.mem_map.mpr ⟨r, hr, rfl⟩
  cases rows with
  | nil => cases hr
  | cons a rows =>
    unfold splinePoints at h
    simp only at h
    split at h <;> (simp only [Option.some.injEq] at h; rw [← h])
    · exact List.mem_cons_of_mem _ hm
    · exact hm

theorem points_cczr {rows : List SplineRow} {points : List (ℝ × ℝ)} (h : splinePoints .cczr rows = some points)
    {r : SplineRow} (hr : r ∈ rows) : ∃ y, r.cczr = some y ∧ (r.years, y) ∈ points := by
  obtain ⟨b, hb, hf⟩ := mapM_option_mem (show rows.mapM _ = some points from h) hr
  cases hc : r.cczr with
  | none => rw [hc] at hf; cases hf
  | some y =>
    rw [hc] at hf
    simp only [Option.map_some, Option.some.injEq] at hf
    exact ⟨y, rfl, by rw [hf]; exact hb⟩

end Frm
