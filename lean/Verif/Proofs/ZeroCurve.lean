import Mathlib.Tactic.Linarith
import Mathlib.Tactic.FieldSimp
import Mathlib.Tactic.Ring
import Mathlib.Tactic.Positivity
import Verif.Model.ZeroCurve
import Verif.Spec.ZeroCurve
import Verif.Props.C33

namespace Frm
open Spec

set_option autoImplicit false

/-! ### `np.interp` -/

theorem npInterp_cons_ge {x : ℝ} {p q : ℝ × ℝ} {rest : List (ℝ × ℝ)} (h : p.1 ≤ x) (h' : q.1 ≤ x) :
    npInterp x (p :: q :: rest) = npInterp x (q :: rest) := by
  rw [npInterp, if_neg (not_lt.mpr h), if_neg (not_lt.mpr h')]

/-- At or after the first point of the tail, the points before it do not matter. -/
theorem npInterp_append {x : ℝ} (pre : List (ℝ × ℝ)) (p : ℝ × ℝ) (post : List (ℝ × ℝ))
    (hs : (pre ++ p :: post).Pairwise (fun p q => p.1 < q.1)) (h : p.1 ≤ x) :
    npInterp x (pre ++ p :: post) = npInterp x (p :: post) := by
  induction pre with
  | nil => rfl
  | cons a pre ih =>
    have hs' := List.pairwise_cons.mp hs
    have hap : a.1 < p.1 := hs'.1 p (by simp)
    cases pre with
    | nil => exact npInterp_cons_ge (by linarith) h
    | cons b pre =>
      have hbp : b.1 < p.1 := (List.pairwise_cons.mp hs'.2).1 p (by simp)
      rw [List.cons_append, List.cons_append, npInterp_cons_ge (by linarith) (by linarith)]
      exact ih hs'.2

theorem npInterp_at {p : ℝ × ℝ} {post : List (ℝ × ℝ)} (hs : (p :: post).Pairwise (fun p q => p.1 < q.1)) :
    npInterp p.1 (p :: post) = p.2 := by
  cases post with
  | nil => rfl
  | cons q post =>
    have := (List.pairwise_cons.mp hs).1 q (by simp)
    rw [npInterp, if_neg (lt_irrefl _), if_pos this]
    ring

theorem npInterp_pillar {l : List (ℝ × ℝ)} (hs : l.Pairwise (fun p q => p.1 < q.1)) {p : ℝ × ℝ} (hp : p ∈ l) :
    npInterp p.1 l = p.2 := by
  obtain ⟨pre, post, rfl⟩ := List.append_of_mem hp
  rw [npInterp_append pre p post hs (le_refl _)]
  exact npInterp_at (List.pairwise_append.mp hs).2.1

theorem npInterp_between {l : List (ℝ × ℝ)} (hs : l.Pairwise (fun p q => p.1 < q.1)) {p q : ℝ × ℝ}
    (hn : Neighbours l p q) {x : ℝ} (h1 : p.1 ≤ x) (h2 : x ≤ q.1) :
    npInterp x l = p.2 + (q.2 - p.2) / (q.1 - p.1) * (x - p.1) := by
  obtain ⟨pre, post, rfl⟩ := hn
  have hpq : p.1 < q.1 := (List.pairwise_cons.mp (List.pairwise_append.mp hs).2.1).1 q (by simp)
  rw [npInterp_append pre p (q :: post) hs h1]
  rcases lt_or_eq_of_le h2 with h | h
  · rw [npInterp, if_neg (not_lt.mpr h1), if_pos h]; ring
  · rw [npInterp_cons_ge h1 h.ge, h, npInterp_at (List.pairwise_cons.mp (List.pairwise_append.mp hs).2.1).2]
    have : q.1 - p.1 ≠ 0 := by linarith
    field_simp
    ring

/-- Non-increasing values interpolate to a non-increasing function. -/
theorem npInterp_antitone {l : List (ℝ × ℝ)} (hs : l.Pairwise (fun p q => p.1 < q.1))
    (hv : l.Pairwise (fun p q => q.2 ≤ p.2)) {x y : ℝ} (hxy : x ≤ y) :
    npInterp y l ≤ npInterp x l ∧ (∀ p ∈ l.head?, npInterp x l ≤ p.2) := by
  induction l with
  | nil => simp [npInterp]
  | cons p l ih =>
    cases l with
    | nil => simp [npInterp]
    | cons q rest =>
      have hs' := List.pairwise_cons.mp hs
      have hv' := List.pairwise_cons.mp hv
      have hpq : p.1 < q.1 := hs'.1 q (by simp)
      have hqp : q.2 ≤ p.2 := hv'.1 q (by simp)
      obtain ⟨ih1, ih2⟩ := ih hs'.2 hv'.2
      have ihx : npInterp x (q :: rest) ≤ q.2 := ih2 q rfl
      have ihy : npInterp y (q :: rest) ≤ q.2 := ih1.trans ihx
      have hslope : (q.2 - p.2) / (q.1 - p.1) ≤ 0 := div_nonpos_of_nonpos_of_nonneg (by linarith) (by linarith)
      have hmul : (q.2 - p.2) / (q.1 - p.1) * (q.1 - p.1) = q.2 - p.2 := div_mul_cancel₀ _ (by linarith)
      have lin_hi : ∀ z, p.1 ≤ z → (q.2 - p.2) / (q.1 - p.1) * (z - p.1) + p.2 ≤ p.2 := by
        intro z hz
        have := mul_nonpos_of_nonpos_of_nonneg hslope (sub_nonneg.mpr hz)
        linarith
      have lin_lo : ∀ z, z ≤ q.1 → q.2 ≤ (q.2 - p.2) / (q.1 - p.1) * (z - p.1) + p.2 := by
        intro z hz
        have := mul_le_mul_of_nonpos_left (sub_le_sub_right hz p.1) hslope
        rw [hmul] at this
        linarith
      have hx_hi : npInterp x (p :: q :: rest) ≤ p.2 := by
        rw [npInterp]
        split
        · exact le_refl _
        · split
          · exact lin_hi x (by linarith)
          · exact ihx.trans hqp
      refine ⟨?_, ?_⟩
      · by_cases h1 : x < p.1
        · have hx : npInterp x (p :: q :: rest) = p.2 := by rw [npInterp, if_pos h1]
          rw [hx, npInterp]
          split
          · exact le_refl _
          · split
            · exact lin_hi y (by linarith)
            · exact ihy.trans hqp
        · by_cases h2 : x < q.1
          · have hx : npInterp x (p :: q :: rest) = (q.2 - p.2) / (q.1 - p.1) * (x - p.1) + p.2 := by
              rw [npInterp, if_neg h1, if_pos h2]
            rw [hx, npInterp, if_neg (by linarith)]
            split
            · have := mul_le_mul_of_nonpos_left (sub_le_sub_right hxy p.1) hslope
              linarith
            · exact ihy.trans (lin_lo x h2.le)
          · rw [npInterp_cons_ge (by linarith) (by linarith), npInterp_cons_ge (by linarith) (by linarith)]
            exact ih1
      · intro r hr
        simp only [List.head?_cons, Option.mem_some_iff] at hr
        subst hr
        exact hx_hi

/-! ### Daily table and lookups -/

theorem find_daily {curve : List DailyRow} {dates : List Int} {years : List Rat} (f : Int → Rat → DailyRow)
    (hf : ∀ d y, (f d y).date = d) (hl : years.length = dates.length) (hnd : dates.Nodup)
    (hc : curve = (dates.zip years).map (fun p => f p.1 p.2)) {d : Int} {k : Nat} (hk : dates[k]? = some d) :
    ∃ y, years[k]? = some y ∧ curve.find? (fun r => r.date == d) = some (f d y) := by
  subst hc
  induction dates generalizing years k with
  | nil => simp at hk
  | cons a dates ih =>
    cases years with
    | nil => simp at hl
    | cons b years =>
      simp only [List.length_cons, Nat.add_right_cancel_iff] at hl
      cases k with
      | zero =>
        simp only [List.getElem?_cons_zero, Option.some.injEq] at hk
        subst hk
        exact ⟨b, rfl, by simp [List.find?, hf]⟩
      | succ k =>
        simp only [List.getElem?_cons_succ] at hk
        obtain ⟨y, h1, h2⟩ := ih hl (List.nodup_cons.mp hnd).2 hk
        refine ⟨y, h1, ?_⟩
        have hne : a ≠ d := by
          rintro rfl
          exact (List.nodup_cons.mp hnd).1 (List.mem_of_getElem? hk)
        rw [List.zip_cons_cons, List.map_cons, List.find?_cons]
        have : ((f a b).date == d) = false := by rw [hf]; simpa using hne
        simp only [this]
        exact h2

theorem dateRange_nodup (s e : Int) : (dateRange s e).Nodup := by
  unfold dateRange
  refine List.Nodup.map ?_ List.nodup_range
  intro a b h
  simp only at h
  omega

theorem yearFrac_length {S E : List Int} {b : DayCountBasis} {r : List Rat}
    (h : yearFrac S E b none = .ok r) : r.length = ((sameShape S E).1.zip (sameShape S E).2).length := by
  unfold yearFrac dayCount at h
  cases hc : checkOrder (sameShape S E).1 (sameShape S E).2 with
  | error e => cases b <;> simp [hc, Except.map] at h
  | ok u =>
    have hl : (sameShape S E).1.length = (sameShape S E).2.length := by
      by_contra hne
      unfold checkOrder at hc
      rw [if_pos hne] at hc
      cases hc
    cases b <;> simp only [hc, Except.map, Except.ok.injEq] at h <;> subst h <;> simp [defaultTermination, hl]

theorem dateRange_get {s e d : Int} (h1 : s ≤ d) (h2 : d ≤ e) : (dateRange s e)[(d - s).toNat]? = some d := by
  unfold dateRange
  rw [List.getElem?_map, List.getElem?_range (by omega)]
  simp only [Option.map_some, Option.some.injEq]
  omega

end Frm

namespace Frm
open Spec

set_option autoImplicit false

/-- The row `_setup_daily_df` writes for a day. -/
noncomputable def dailyRow (pillars : List PillarRow) (d : Int) (y : Rat) : DailyRow :=
  let lnDf := npInterp (y : ℝ) (pillars.map (fun r => (r.years, Real.log r.discountFactor)))
  { date := d, years := y, cczr := if (y : ℝ) = 0 then none else some (-lnDf / y), discountFactor := Real.exp lnDf }

theorem makeZeroCurve_ok {cd : Int} {c : PillarColumns} {freq : Option CompoundingFreq} {basis : DayCountBasis}
    {cal : BusCal} {z : ZeroCurve} (h : makeZeroCurve cd c freq basis cal = .ok z) :
    processPillars cal basis cd freq c = .ok z.pillars ∧ z.curveDate = cd ∧ z.basis = basis ∧ z.cal = cal ∧
    ∃ last years, lastDay basis cd z.pillars = .ok last ∧ yearFrac [cd] (dateRange cd last) basis none = .ok years ∧
      z.daily = ((dateRange cd last).zip years).map (fun p => dailyRow z.pillars p.1 p.2) := by
  unfold makeZeroCurve at h
  simp only [bind, Except.bind] at h
  cases hp : processPillars cal basis cd freq c with
  | error e => rw [hp] at h; cases h
  | ok pillars =>
    rw [hp] at h
    simp only at h
    cases hd : setupDaily basis cd pillars with
    | error e => rw [hd] at h; cases h
    | ok daily =>
      rw [hd] at h
      simp only [pure, Except.pure, Except.ok.injEq] at h
      subst h
      refine ⟨rfl, rfl, rfl, rfl, ?_⟩
      unfold setupDaily at hd
      simp only [bind, Except.bind] at hd
      cases hl : lastDay basis cd pillars with
      | error e => rw [hl] at hd; cases hd
      | ok last =>
        rw [hl] at hd
        simp only at hd
        cases hy : yearFrac [cd] (dateRange cd last) basis none with
        | error e => rw [hy] at hd; cases hd
        | ok years =>
          rw [hy] at hd
          simp only [pure, Except.pure, Except.ok.injEq] at hd
          exact ⟨last, years, rfl, hy, hd.symm⟩

theorem sameShape_lengths {cd : Int} {l : List Int} (hl : l ≠ []) :
    ((sameShape [cd] l).1.zip (sameShape [cd] l).2).length = l.length := by
  match l, hl with
  | [x], _ => rfl
  | x :: y :: l, _ => simp [sameShape]

/-- The daily table is never empty. -/
theorem last_ge {cd : Int} {c : PillarColumns} {freq : Option CompoundingFreq} {basis : DayCountBasis} {cal : BusCal}
    {z : ZeroCurve} (h : makeZeroCurve cd c freq basis cal = .ok z) {last : Int}
    (hl : lastDay basis cd z.pillars = .ok last) : cd ≤ last := by
  obtain ⟨-, -, -, -, last', years, hl', hy, -⟩ := makeZeroCurve_ok h
  rw [hl] at hl'
  simp only [Except.ok.injEq] at hl'
  subst hl'
  by_contra hc
  have : dateRange cd last = [] := by
    unfold dateRange
    have : (last - cd + 1).toNat = 0 := by omega
    rw [this]; rfl
  rw [this] at hy
  cases basis <;> cases hy

theorem daily_facts {cd : Int} {c : PillarColumns} {freq : Option CompoundingFreq} {basis : DayCountBasis}
    {cal : BusCal} {z : ZeroCurve} (h : makeZeroCurve cd c freq basis cal = .ok z) :
    ∃ last, lastDay basis cd z.pillars = .ok last ∧ (cd ≤ last → z.daily.map (·.date) = dateRange cd last) ∧
      (last < cd → z.daily = []) ∧
      ∀ d, cd ≤ d → d ≤ last → ∃ y, yearFrac [cd] [d] basis (some [decide (d = last)]) = .ok [y] ∧
        (Plain basis d → yearFrac [cd] [d] basis none = .ok [y]) ∧
        z.daily.find? (fun r => r.date == d) = some (dailyRow z.pillars d y) := by
  obtain ⟨-, -, -, -, last, years, hl, hy, hd⟩ := makeZeroCurve_ok h
  have hlen : cd ≤ last → years.length = (dateRange cd last).length := by
    intro hle
    have hne : dateRange cd last ≠ [] := by
      intro hc
      have := dateRange_length cd last
      rw [hc] at this
      simp only [List.length_nil] at this
      omega
    rw [yearFrac_length hy, sameShape_lengths hne]
  refine ⟨last, hl, ?_, ?_, ?_⟩
  · intro hle
    rw [hd, List.map_map]
    have : ((fun x : DailyRow => x.date) ∘ fun p : Int × Rat => dailyRow z.pillars p.1 p.2) = Prod.fst := rfl
    rw [this]
    exact List.map_fst_zip (hlen hle).ge
  · intro hlt
    have : dateRange cd last = [] := by
      unfold dateRange
      have : (last - cd + 1).toNat = 0 := by omega
      rw [this]; rfl
    rw [hd, this]; rfl
  · intro d h1 h2
    obtain ⟨y, hk, hf⟩ := find_daily (fun d y => dailyRow z.pillars d y) (fun _ _ => rfl) (hlen (by omega))
      (dateRange_nodup cd last) hd (dateRange_get h1 h2)
    have hsh := sameShape_left (dateRange cd last) cd (d - cd).toNat d (dateRange_get h1 h2)
    obtain ⟨-, y', hy', hk'⟩ := yearFrac_get_flag hy hsh.1 hsh.2
    rw [hk] at hk'
    simp only [Option.some.injEq] at hk'
    subst hk'
    have hne : dateRange cd last ≠ [] := fun hc => by
      have := dateRange_length cd last
      rw [hc] at this
      simp only [List.length_nil] at this
      omega
    have hflag : decide ((sameShape [cd] (dateRange cd last)).2.length ≤ (d - cd).toNat + 1) = decide (d = last) := by
      have h2 : (sameShape [cd] (dateRange cd last)).2 = dateRange cd last := by
        match hm : dateRange cd last, hne with
        | [x], _ => rfl
        | x :: y :: l, _ => rfl
      rw [h2, dateRange_length, Bool.eq_iff_iff]
      simp only [decide_eq_true_eq]
      omega
    rw [hflag] at hy'
    exact ⟨y, hy', fun hb => by rw [← hy', yearFrac_flag (.inl hb)], hf⟩

/-- A date of the curve's table: from the curve date to the last day. -/
def InRange (z : ZeroCurve) (d : Int) : Prop := z.curveDate ≤ d ∧ ∃ r ∈ z.daily, d ≤ r.date

theorem inRange_iff {cd : Int} {c : PillarColumns} {freq : Option CompoundingFreq} {basis : DayCountBasis}
    {cal : BusCal} {z : ZeroCurve} (h : makeZeroCurve cd c freq basis cal = .ok z) {last : Int}
    (hl : lastDay basis cd z.pillars = .ok last) (d : Int) : InRange z d ↔ cd ≤ d ∧ d ≤ last := by
  obtain ⟨-, hcd, -⟩ := makeZeroCurve_ok h
  obtain ⟨last', hl', hdates, hemp, -⟩ := daily_facts h
  rw [hl] at hl'
  simp only [Except.ok.injEq] at hl'
  subst hl'
  unfold InRange
  rw [hcd]
  constructor
  · rintro ⟨h1, r, hr, hrd⟩
    refine ⟨h1, ?_⟩
    by_cases hle : cd ≤ last
    · have : r.date ∈ z.daily.map (·.date) := List.mem_map_of_mem hr
      rw [hdates hle] at this
      have := mem_dateRange.mp this
      omega
    · rw [hemp (by omega)] at hr; cases hr
  · rintro ⟨h1, h2⟩
    refine ⟨h1, ?_⟩
    have : last ∈ z.daily.map (·.date) := by rw [hdates (by omega)]; exact mem_dateRange.mpr ⟨by omega, by omega⟩
    obtain ⟨r, hr, hrd⟩ := List.mem_map.mp this
    exact ⟨r, hr, by omega⟩

theorem dateRange_min {a b : Int} (h : a ≤ b) : (dateRange a b).min? = some a := by
  rw [List.min?_eq_some_iff]
  exact ⟨mem_dateRange.mpr ⟨by omega, h⟩, fun x hx => (mem_dateRange.mp hx).1⟩

theorem dateRange_max {a b : Int} (h : a ≤ b) : (dateRange a b).max? = some b := by
  rw [List.max?_eq_some_iff]
  exact ⟨mem_dateRange.mpr ⟨h, by omega⟩, fun x hx => (mem_dateRange.mp hx).2⟩

/-- Lookups: dates outside are dropped, the others get their row. -/
theorem indexDates_eq {cd : Int} {c : PillarColumns} {freq : Option CompoundingFreq} {basis : DayCountBasis}
    {cal : BusCal} {z : ZeroCurve} (h : makeZeroCurve cd c freq basis cal = .ok z)
    {last : Int} (hl : lastDay basis cd z.pillars = .ok last) (hle : cd ≤ last) (dates : List Int) :
    z.indexDates dates =
      (dates.filter (fun d => decide (cd ≤ d) && decide (d ≤ last))).map
        (fun d => z.daily.find? (fun r => r.date == d)) := by
  obtain ⟨last', hl', hdates, -, -⟩ := daily_facts h
  rw [hl] at hl'
  simp only [Except.ok.injEq] at hl'
  subst hl'
  unfold ZeroCurve.indexDates
  rw [hdates hle, dateRange_min hle, dateRange_max hle]
  simp only [natGt]
  congr 1
  apply List.filter_congr
  intro d _
  rw [Bool.eq_iff_iff]
  simp

theorem discountFactors_single {cd : Int} {c : PillarColumns} {freq : Option CompoundingFreq} {basis : DayCountBasis}
    {cal : BusCal} {z : ZeroCurve} (h : makeZeroCurve cd c freq basis cal = .ok z) {d : Int} (hb : Plain basis d)
    (hd : InRange z d) {t : Rat} (ht : yearFrac [cd] [d] basis none = .ok [t]) :
    z.discountFactors [d] =
      [some (Real.exp (npInterp (t : ℝ) (z.pillars.map (fun r => (r.years, Real.log r.discountFactor)))))] := by
  obtain ⟨last, hl, -, -, hrow⟩ := daily_facts h
  have hr := (inRange_iff h hl d).mp hd
  obtain ⟨y, -, hy, hf⟩ := hrow d hr.1 hr.2
  replace hy := hy hb
  rw [ht] at hy
  simp only [Except.ok.injEq, List.cons.injEq, and_true] at hy
  subst hy
  unfold ZeroCurve.discountFactors
  rw [indexDates_eq h hl (by omega)]
  simp only [hr.1, hr.2, decide_true, Bool.and_self, List.filter_cons, if_true, List.filter_nil, List.map_cons, List.map_nil,
    hf, Option.map_some]
  rfl

/-- Every date of the table, under any basis: the last date of the table is a termination date. -/
theorem discountFactors_flag {cd : Int} {c : PillarColumns} {freq : Option CompoundingFreq} {basis : DayCountBasis}
    {cal : BusCal} {z : ZeroCurve} (h : makeZeroCurve cd c freq basis cal = .ok z) {d last : Int} (hd : InRange z d)
    (hl : lastDay basis cd z.pillars = .ok last) : ∃ t : Rat, yearFrac [cd] [d] basis (some [decide (d = last)]) = .ok [t] ∧
    z.discountFactors [d] =
      [some (Real.exp (npInterp (t : ℝ) (z.pillars.map (fun r => (r.years, Real.log r.discountFactor)))))] := by
  obtain ⟨last', hl', -, -, hrow⟩ := daily_facts h
  rw [hl] at hl'
  simp only [Except.ok.injEq] at hl'
  subst hl'
  have hr := (inRange_iff h hl d).mp hd
  obtain ⟨y, hy, -, hf⟩ := hrow d hr.1 hr.2
  refine ⟨y, hy, ?_⟩
  unfold ZeroCurve.discountFactors
  rw [indexDates_eq h hl (by omega)]
  simp only [hr.1, hr.2, decide_true, Bool.and_self, List.filter_cons, if_true, List.filter_nil, List.map_cons, List.map_nil,
    hf, Option.map_some]
  rfl

end Frm
