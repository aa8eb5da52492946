import Verif.Props.C110
import Verif.Props.C86

/-! # C110 — Cash quotes on spline curves -/

namespace Frm
open Spec

set_option autoImplicit false

/-- The rows of a table given by dates are at the times of those dates. -/
theorem spline_times_of_dates {cal : BusCal} {basis : DayCountBasis} (hb : ActBasis basis) {cd : Int} {freq : Option CompoundingFreq}
    {c : PillarColumns} {rows : List SplineRow} (hrows : splineRows cal basis cd freq c = .ok rows) {ds : List Int} {vs : List ℝ}
    (hc : chooseColumns c = .ok (.date ds, .discountFactor vs)) (hne : ds ≠ []) :
    ∀ r ∈ rows, ∃ d ∈ ds, r.years = yearsFrom basis cd d := by
  obtain ⟨x, y, times, raw, hc', ht, hraw, -, hperm⟩ := splineRows_ok hrows
  rw [hc] at hc'
  simp only [Except.ok.injEq, Prod.mk.injEq] at hc'
  obtain ⟨rfl, rfl⟩ := hc'
  simp only [pillarTimes] at ht
  cases hyf : yearFrac [cd] ds basis none with
  | error e => rw [hyf] at ht; cases ht
  | ok ys =>
    rw [hyf] at ht
    simp only [Except.map, Except.ok.injEq] at ht
    subst ht
    obtain ⟨-, hg⟩ := yearFrac_from (fun e _ => actBasis_plain hb e) hne hyf
    intro r hr
    obtain ⟨i, hi⟩ := List.getElem?_of_mem (hperm.subset hr)
    have hlen := (mapM_get hraw).1
    have hil := (List.getElem?_eq_some_iff.mp hi).1
    rw [hlen] at hil
    obtain ⟨b, hb', hrow⟩ := (mapM_get hraw).2 i _ (List.getElem?_eq_getElem hil)
    rw [hi] at hb'
    simp only [Option.some.injEq] at hb'
    subst hb'
    have hz := List.getElem?_eq_getElem hil
    generalize (((ds.map some).zip (ys.map (fun (y : Rat) => (y : ℝ)))).zip (PillarY.discountFactor vs).column.2)[i] = w at hrow hz
    have hy : r.years = w.1.2 := by
      unfold splineRow at hrow
      split at hrow
      · simp only [Except.ok.injEq] at hrow; rw [← hrow]
      · cases hrow
      · simp only [Except.ok.injEq] at hrow; rw [← hrow]
    obtain ⟨z1, -⟩ := List.getElem?_zip_eq_some.mp hz
    obtain ⟨z2, z3⟩ := List.getElem?_zip_eq_some.mp z1
    rw [List.getElem?_map, Option.map_eq_some_iff] at z2 z3
    obtain ⟨d, hd, -⟩ := z2
    obtain ⟨t, ht, hte⟩ := z3
    obtain ⟨-, t', ht', htt⟩ := hg i d hd
    rw [ht] at ht'
    cases ht'
    exact ⟨d, List.mem_of_getElem? hd, by rw [hy, ← hte, htt]⟩

end Frm

namespace Frm.Props
open Spec

set_option autoImplicit false

section
variable {spl : List (ℝ × ℝ) → ℝ → ℝ} {cd : Int} {freq : Option CompoundingFreq} {basis : DayCountBasis} {cal : BusCal}
  {m : SplineMethod} {z : SplineCurve}

/-- **C86** A spline curve through discount factors on dates after the curve date starts from 1. -/
theorem C86_unit_dates (hs : Interpolates spl) (hb : ActBasis basis) (ds : List Int) (vs : List ℝ) (hne : ds ≠ []) (hds : ∀ d ∈ ds, cd < d)
    (h : makeSplineCurve spl cd { date := some ds, discountFactor := some vs } freq basis cal m = .ok z) :
    z.discountFactorAt 0 = 1 ∧ z.base.discountFactors [cd] = [some 1] := by
  have h1 : z.discountFactorAt 0 = 1 := by
    obtain ⟨rows, points, hrows, -, hp, h4, hinc, hf, hm, -⟩ := makeSplineCurve_ok h
    unfold SplineCurve.discountFactorAt splineAt
    rw [hm]
    cases m with
    | cczr => simp
    | lnDiscount =>
      have hyears := spline_times_of_dates hb hrows rfl hne
      cases rows with
      | nil =>
        simp only [splinePoints, List.map_nil, Option.some.injEq] at hp
        rw [← hp] at h4; simp at h4
      | cons a rest =>
        have ha : a.years ≠ 0 := by
          obtain ⟨d, hd, he⟩ := hyears a (by simp)
          have h1 := yearsFrom_lt hb le_rfl (hds d hd)
          have h2 : yearsFrom basis cd cd = 0 := by rw [yearsFrom_eq (yearFrac_self (actBasis_plain hb cd))]; simp
          rw [he]
          linarith
        simp only [splinePoints, if_pos ha, Option.some.injEq] at hp
        have := (hs points h4 hinc).1 (0, 0) (by rw [← hp]; simp)
        simp only at this ⊢
        rw [hf, this, Real.exp_zero]
  refine ⟨h1, ?_⟩
  have hin : InRange z.base cd := by
    obtain ⟨rows, points, -, -, -, -, -, -, hm, hcd, last, years, hl, hy, hday⟩ := makeSplineCurve_ok h
    obtain ⟨hle, hin, -⟩ := spline_daily hcd hy hday
    exact (hin cd).mpr ⟨le_rfl, hle⟩
  obtain ⟨t, ht, hdf, -⟩ := C86_dates_are_times h cd (actBasis_plain hb cd) hin
  rw [yearFrac_self (actBasis_plain hb cd)] at ht
  simp only [Except.ok.injEq, List.cons.injEq, and_true] at ht
  rw [hdf, ← ht, Rat.cast_zero, h1]

/-- **C110** Cash quotes on a curve of either spline: whenever the maturities and discount factors of the bootstrapped table are accepted,
every quote of the table grows at its own rate, as on the log-linear curve. -/
theorem C110_spline (hs : Interpolates spl) (sort : List CashRow → List CashRow)
    (hsort : SortsOn (fun r : CashRow => r.quote.maturity) sort) (df : List CashQuote) (b : DayCountBasis) (hb : ActBasis b)
    (out : List CashRow) (h : bootstrapCashRates sort df cd b = .ok out) (hne : df ≠ [])
    (hacc : ∀ q ∈ df, q.effective < q.maturity ∧ 0 < 1 + q.rate * q.periodYears)
    (hstart : ∀ q ∈ df, q.hasSettlementDelay = false → q.effective = cd) (hbz : ActBasis basis) (vs : List ℝ)
    (hvs : out.map (·.maturityDf) = vs.map some)
    (hz : makeSplineCurve spl cd { date := some (out.map (·.quote.maturity)), discountFactor := some vs } freq basis cal m = .ok z) :
    ∀ q ∈ df, ∃ u v : ℝ, 0 < v ∧ z.base.discountFactors [q.effective] = [some u] ∧ z.base.discountFactors [q.maturity] = [some v] ∧
      u / v = 1 + q.rate * q.periodYears := by
  obtain ⟨hperm, -, hout⟩ := C38_bootstrap sort hsort df cd b hb hacc out h
  obtain ⟨hdates, -⟩ := (C38_accepts_iff sort hsort df hne cd b hb).mp ⟨out, h⟩
  have hmemq : ∀ o ∈ out, o.quote ∈ df := fun o ho => hperm.subset (List.mem_map.mpr ⟨o, ho, rfl⟩)
  have hds : ∀ d ∈ out.map (·.quote.maturity), cd < d := by
    intro d hd
    obtain ⟨o, ho, rfl⟩ := List.mem_map.mp hd
    have h1 := (hdates _ (hmemq o ho)).1
    have h2 := (hacc _ (hmemq o ho)).1
    omega
  have hone : out.map (·.quote.maturity) ≠ [] := by
    intro hc
    rw [List.map_eq_nil_iff] at hc
    rw [hc] at hperm
    simp only [List.map_nil] at hperm
    exact hne hperm.symm.eq_nil
  have hmat : ∀ o ∈ out, ∀ v, o.maturityDf = some v → 0 < v → z.base.discountFactors [o.quote.maturity] = [some v] := by
    intro o ho v hv hv0
    obtain ⟨i, hi⟩ := List.mem_iff_getElem?.mp ho
    refine C86_dates hs _ vs hz i _ v (actBasis_plain hbz _) (by simp [hi]) ?_ hv0
    have := congrArg (fun l => l[i]?) hvs
    simp only [List.getElem?_map, hi, Option.map_some, hv] at this
    cases hvi : vs[i]? with
    | none => rw [hvi] at this; cases this
    | some w => rw [hvi] at this; simpa using this.symm
  intro q hq
  obtain ⟨o, ho, rfl⟩ := List.mem_map.mp (hperm.symm.subset hq)
  obtain ⟨u, v, hu0, hv0, -, hv, huv, hu1, hu2⟩ := hout o ho
  refine ⟨u, v, hv0, ?_, hmat o ho v hv hv0, huv⟩
  cases hd : o.quote.hasSettlementDelay with
  | false =>
    rw [hstart _ hq hd, hu1 hd]
    exact (C86_unit_dates hs hbz _ vs hone hds hz).2
  | true =>
    obtain ⟨o', ho', he, hu⟩ := hu2 hd
    rw [← he]
    exact hmat o' ho' u hu hu0

end

/-- **C110** Four quotes with different maturities are enough for either spline. -/
theorem C110_spline_curve {spl : List (ℝ × ℝ) → ℝ → ℝ} (hs : Interpolates spl) (sort : List CashRow → List CashRow)
    (hsort : SortsOn (fun r : CashRow => r.quote.maturity) sort) (df : List CashQuote) (cd : Int) (b : DayCountBasis) (hb : ActBasis b)
    (out : List CashRow) (h : bootstrapCashRates sort df cd b = .ok out) (hlen : 4 ≤ df.length)
    (hacc : ∀ q ∈ df, q.effective < q.maturity ∧ 0 < 1 + q.rate * q.periodYears)
    (hstart : ∀ q ∈ df, q.hasSettlementDelay = false → q.effective = cd) (hnd : (df.map (·.maturity)).Nodup)
    (freq : Option CompoundingFreq) (basis : DayCountBasis) (hbz : ActBasis basis) (cal : BusCal) (m : SplineMethod) :
    ∃ (vs : List ℝ) (z : SplineCurve), out.map (·.maturityDf) = vs.map some ∧
      makeSplineCurve spl cd { date := some (out.map (·.quote.maturity)), discountFactor := some vs } freq basis cal m = .ok z ∧
      ∀ q ∈ df, ∃ u v : ℝ, 0 < v ∧ z.base.discountFactors [q.effective] = [some u] ∧ z.base.discountFactors [q.maturity] = [some v] ∧
        u / v = 1 + q.rate * q.periodYears := by
  have hne : df ≠ [] := by
    rintro rfl
    simp at hlen
  obtain ⟨hperm, -, hout⟩ := C38_bootstrap sort hsort df cd b hb hacc out h
  obtain ⟨hdates, -⟩ := (C38_accepts_iff sort hsort df hne cd b hb).mp ⟨out, h⟩
  have hmemq : ∀ o ∈ out, o.quote ∈ df := fun o ho => hperm.subset (List.mem_map.mpr ⟨o, ho, rfl⟩)
  have hds : ∀ d ∈ out.map (·.quote.maturity), cd < d := by
    intro d hd
    obtain ⟨o, ho, rfl⟩ := List.mem_map.mp hd
    have h1 := (hdates _ (hmemq o ho)).1
    have h2 := (hacc _ (hmemq o ho)).1
    omega
  have hnd' : (out.map (·.quote.maturity)).Nodup := by
    have : (out.map (·.quote.maturity)).Perm (df.map (·.maturity)) := by
      have := hperm.map (·.maturity)
      rwa [List.map_map] at this
    exact this.nodup_iff.mpr hnd
  have hol : out.length = df.length := by simpa using hperm.length_eq
  have hvs : out.map (·.maturityDf) = (out.map (fun o => o.maturityDf.getD 0)).map some := by
    rw [List.map_map]
    apply List.map_congr_left
    intro o ho
    obtain ⟨u, v, -, -, -, hv, -⟩ := hout o ho
    simp [hv]
  obtain ⟨z, hz, -⟩ := C86_accepted spl cd (out.map (·.quote.maturity)) (out.map (fun o => o.maturityDf.getD 0)) freq basis hbz cal m
    (by simp) (by simpa [hol] using hlen) hnd' hds
  exact ⟨_, z, hvs, hz, C110_spline hs sort hsort df b hb out h hne hacc hstart hbz _ hvs hz⟩

/-- An overnight rate and rates for one, two and three weeks starting the day after. -/
example (cal : BusCal) (m : SplineMethod) : ∃ (spl : List (ℝ × ℝ) → ℝ → ℝ) (sort : List CashRow → List CashRow) (out : List CashRow)
    (vs : List ℝ) (z : SplineCurve),
    bootstrapCashRates sort [⟨0, 1, 0.04, 1 / 365, false⟩, ⟨1, 8, 0.05, 7 / 365, true⟩, ⟨1, 15, 0.05, 14 / 365, true⟩,
      ⟨1, 22, 0.06, 21 / 365, true⟩] 0 .act_365 = .ok out ∧
    makeSplineCurve spl 0 { date := some (out.map (·.quote.maturity)), discountFactor := some vs } none .act_365 cal m = .ok z ∧
    ∃ u v : ℝ, z.base.discountFactors [1] = [some u] ∧ z.base.discountFactors [22] = [some v] ∧ u / v = 1 + 0.06 * (21 / 365) := by
  obtain ⟨spl, hs⟩ := C86_interpolates
  have hsort : SortsOn (fun r : CashRow => r.quote.maturity)
      (fun l => l.insertionSort (fun a b => a.quote.maturity ≤ b.quote.maturity)) := by
    intro l
    have ht : Std.Total (fun a b : CashRow => a.quote.maturity ≤ b.quote.maturity) := ⟨fun a b => le_total _ _⟩
    have htr : IsTrans CashRow (fun a b => a.quote.maturity ≤ b.quote.maturity) := ⟨fun a b c h1 h2 => le_trans h1 h2⟩
    exact ⟨List.perm_insertionSort _ l, List.pairwise_insertionSort _ l⟩
  have hb : ActBasis .act_365 := .inr (.inl rfl)
  obtain ⟨out, h⟩ := (C38_accepts_iff _ hsort [⟨0, 1, 0.04, 1 / 365, false⟩, ⟨1, 8, 0.05, 7 / 365, true⟩, ⟨1, 15, 0.05, 14 / 365, true⟩,
      ⟨1, 22, 0.06, 21 / 365, true⟩] (by simp) 0 .act_365 hb).mpr (by simp; norm_num)
  obtain ⟨vs, z, -, hz, hq⟩ := C110_spline_curve hs _ hsort _ 0 .act_365 hb out h (by simp)
    (by
      intro q hq
      simp only [List.mem_cons, List.not_mem_nil, or_false] at hq
      rcases hq with rfl | rfl | rfl | rfl <;> norm_num) (by simp) (by simp) none .act_365 hb cal m
  obtain ⟨u, v, -, hu, hv, huv⟩ := hq ⟨1, 22, 0.06, 21 / 365, true⟩ (by simp)
  exact ⟨spl, _, out, vs, z, h, hz, u, v, hu, hv, huv⟩

end Frm.Props
