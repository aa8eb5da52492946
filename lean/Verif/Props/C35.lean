import Verif.Proofs.ZeroCurve

/-! # C35 — Zero curve interpolation -/

namespace Frm
open Spec

set_option autoImplicit false

theorem yearFrac_self {b : DayCountBasis} {d : Int} (hb : Plain b d) : yearFrac [d] [d] b none = .ok [0] := by
  unfold yearFrac dayCount
  rw [sameShape_single]
  simp only [checkOrder_single, if_pos (le_refl d)]
  cases b
  case b30E_360_ISDA =>
    have : isLastDayOfFeb d = false := by
      rw [Bool.eq_false_iff]
      exact fun hc => hb rfl ((isLastDayOfFeb_iff d).mp hc)
    simp [Except.map, count30E_360_ISDA, this, defaultTermination]
  case act_act =>
    have := Props.C11_act_act_day_weighted (le_refl d)
    unfold yearFrac at this
    rw [sameShape_single] at this
    simp only [checkOrder_single, if_pos (le_refl d)] at this
    rw [this, Int.sub_self]
    rfl
  case b30_360 =>
    have : count30_360 d d = 0 := by
      unfold count30_360
      simp only
      by_cases h : (toCivil d).day = 31
      · simp [h]
      · rw [if_neg h, if_neg (fun hc => h hc.2)]; omega
    simp [Except.map, this]
  all_goals simp [Except.map, count30E_360]

/-- The ACT bases. -/
def ActBasis (b : DayCountBasis) : Prop := b = .act_360 ∨ b = .act_365 ∨ b = .act_366 ∨ b = .act_act

theorem yearFrac_strict {b : DayCountBasis} (hb : ActBasis b) {s d e : Int} (h : d < e) {y y' : Rat}
    (hy : yearFrac [s] [d] b none = .ok [y]) (hy' : yearFrac [s] [e] b none = .ok [y']) : y < y' := by
  have hsd : s ≤ d := by
    by_contra hc
    unfold yearFrac dayCount at hy
    rw [sameShape_single] at hy
    rcases hb with rfl | rfl | rfl | rfl <;> simp [checkOrder_single, hc, Except.map] at hy
  rcases hb with rfl | rfl | rfl | rfl
  case inr.inr.inr =>
    obtain ⟨p, q, hp, hq, -, hpq⟩ := Props.C11_strictly_increasing hsd h
    rw [hy] at hp; rw [hy'] at hq
    simp only [Except.ok.injEq, List.cons.injEq, and_true] at hp hq
    rw [hp, hq]; exact hpq
  all_goals
    unfold yearFrac dayCount at hy hy'
    rw [sameShape_single] at hy hy'
    simp only [checkOrder_single, if_pos hsd, if_pos (by omega : s ≤ e), Except.map, Except.ok.injEq, List.zip_cons_cons,
      List.zip_nil_right, List.map_cons, List.map_nil, List.cons.injEq, and_true] at hy hy'
    rw [← hy, ← hy']
    have : ((d - s : Int) : Rat) < ((e - s : Int) : Rat) := by exact_mod_cast (by omega)
    linarith

/-- What `_process_pillar_df` leaves. -/
theorem processPillars_ok {cal : BusCal} {basis : DayCountBasis} {cd : Int} {freq : Option CompoundingFreq}
    {c : PillarColumns} {pillars : List PillarRow} (h : processPillars cal basis cd freq c = .ok pillars) :
    ∃ x y times values sorted, chooseColumns c = .ok (x, y) ∧ pillarTimes cal basis cd x = .ok times ∧
      pillarValues freq (times.map (·.2)) y = .ok values ∧
      sorted.Perm ((times.zip values).map (fun p =>
        ({ date := p.1.1, years := p.1.2, discountFactor := p.2 } : PillarRow))) ∧
      sorted.Pairwise (fun a b => a.years ≤ b.years) ∧ sorted ≠ [] ∧
      ∃ d, pillars = { date := d, years := 0, discountFactor := 1 } :: sorted ∧
        (d.isSome → d = some cd) ∧ (∀ r ∈ sorted.head?, d = r.date.map (fun _ => cd)) := by
  unfold processPillars at h
  simp only [bind, Except.bind] at h
  cases hx : chooseColumns c with
  | error e => rw [hx] at h; cases h
  | ok xy =>
    rw [hx] at h
    simp only at h
    cases ht : pillarTimes cal basis cd xy.1 with
    | error e => rw [ht] at h; cases h
    | ok times =>
      rw [ht] at h
      simp only at h
      cases hv : pillarValues freq (times.map (·.2)) xy.2 with
      | error e => rw [hv] at h; cases h
      | ok values =>
        rw [hv] at h
        simp only at h
        set rows := (times.zip values).map (fun p =>
          ({ date := p.1.1, years := p.1.2, discountFactor := p.2 } : PillarRow)) with hrows
        have hperm : (rows.insertionSort (fun a b => a.years ≤ b.years)).Perm rows := List.perm_insertionSort _ rows
        have hsort : (rows.insertionSort (fun a b => a.years ≤ b.years)).Pairwise (fun a b => a.years ≤ b.years) := by
          have : Std.Total (fun a b : PillarRow => a.years ≤ b.years) := ⟨fun a b => le_total _ _⟩
          have : IsTrans PillarRow (fun a b : PillarRow => a.years ≤ b.years) := ⟨fun a b c h1 h2 => le_trans h1 h2⟩
          exact List.pairwise_insertionSort _ rows
        cases hs : rows.insertionSort (fun a b => a.years ≤ b.years) with
        | nil => rw [hs] at h; cases h
        | cons first rest =>
          rw [hs] at h hperm hsort
          simp only at h
          split at h
          · simp only [Except.ok.injEq] at h
            refine ⟨xy.1, xy.2, times, values, first :: rest, rfl, ht, hv, hperm, hsort, by simp, _, h.symm, ?_, ?_⟩
            · cases first.date <;> simp
            · intro r hr
              simp only [List.head?_cons, Option.mem_some_iff] at hr
              rw [hr]
          · cases h

theorem log_sorted {z : ZeroCurve} (h : GoodPillars (points z)) :
    (z.pillars.map (fun r => (r.years, Real.log r.discountFactor))).Pairwise (fun p q => p.1 < q.1) := by
  have := h.1
  unfold points at this
  rw [List.pairwise_map] at this ⊢
  exact this

theorem mem_points_log {z : ZeroCurve} {t v : ℝ} (h : (t, v) ∈ points z) :
    (t, Real.log v) ∈ z.pillars.map (fun r => (r.years, Real.log r.discountFactor)) := by
  unfold points at h
  obtain ⟨r, hr, he⟩ := List.mem_map.mp h
  simp only [Prod.mk.injEq] at he
  exact List.mem_map.mpr ⟨r, hr, by simp [he.1, he.2]⟩

theorem neighbours_log {z : ZeroCurve} {p q : ℝ × ℝ} (h : Neighbours (points z) p q) :
    Neighbours (z.pillars.map (fun r => (r.years, Real.log r.discountFactor))) (p.1, Real.log p.2) (q.1, Real.log q.2) := by
  obtain ⟨pre, post, h⟩ := h
  have e : z.pillars.map (fun r => (r.years, Real.log r.discountFactor)) =
      (points z).map (fun p => (p.1, Real.log p.2)) := by
    unfold points
    rw [List.map_map]; rfl
  rw [e, h]
  exact ⟨pre.map (fun p => (p.1, Real.log p.2)), post.map (fun p => (p.1, Real.log p.2)), by simp⟩

theorem neighbours_mem {l : List (ℝ × ℝ)} {p q : ℝ × ℝ} (h : Neighbours l p q) : p ∈ l ∧ q ∈ l := by
  obtain ⟨pre, post, rfl⟩ := h
  simp

/-- A time between the first and the last of at least two points lies between two neighbours. -/
theorem exists_neighbours (l : List (ℝ × ℝ)) (p : ℝ × ℝ) (hl : l ≠ []) (t : ℝ) (h1 : p.1 ≤ t)
    (h2 : ∃ q ∈ l, t ≤ q.1) : ∃ a b, Neighbours (p :: l) a b ∧ a.1 ≤ t ∧ t ≤ b.1 := by
  induction l generalizing p with
  | nil => exact absurd rfl hl
  | cons q l ih =>
    by_cases hq : t ≤ q.1
    · exact ⟨p, q, ⟨[], l, rfl⟩, h1, hq⟩
    · obtain ⟨r, hr, htr⟩ := h2
      rcases List.mem_cons.mp hr with rfl | hr
      · exact absurd htr hq
      · obtain ⟨a, b, ⟨pre, post, he⟩, ha, hb⟩ := ih q (by rintro rfl; cases hr) (by linarith) ⟨r, hr, htr⟩
        exact ⟨a, b, ⟨p :: pre, post, by rw [he]; rfl⟩, ha, hb⟩

end Frm

namespace Frm.Props
open Spec

set_option autoImplicit false

section
variable {cd : Int} {c : PillarColumns} {freq : Option CompoundingFreq} {basis : DayCountBasis} {cal : BusCal}
  {z : ZeroCurve}

/-- Every curve starts with the point (0, 1). -/
theorem C35_first_point (h : makeZeroCurve cd c freq basis cal = .ok z) : ∃ rest, points z = (0, 1) :: rest ∧ rest ≠ [] := by
  obtain ⟨_, _, _, _, sorted, -, -, -, -, -, hne, d, hp, -⟩ := processPillars_ok (makeZeroCurve_ok h).1
  refine ⟨sorted.map (fun r => (r.years, r.discountFactor)), ?_, by simpa using hne⟩
  unfold points
  rw [hp]
  rfl

/-- The discount factor on the curve date is 1. -/
theorem C35_unit_at_curve_date (h : makeZeroCurve cd c freq basis cal = .ok z) (hb : Plain basis cd)
    (hg : GoodPillars (points z)) (hd : InRange z cd) : z.discountFactors [cd] = [some 1] := by
  rw [discountFactors_single h hb hd (yearFrac_self hb)]
  obtain ⟨rest, hp, -⟩ := C35_first_point h
  have hm : ((0 : ℝ), Real.log 1) ∈ z.pillars.map (fun r => (r.years, Real.log r.discountFactor)) :=
    mem_points_log (by rw [hp]; simp)
  have := npInterp_pillar (log_sorted hg) hm
  simp only [Real.log_one] at this
  simp only [Rat.cast_zero, this, Real.exp_zero]

/-- Pillars are reproduced. -/
theorem C35_pillar (h : makeZeroCurve cd c freq basis cal = .ok z)
    (hg : GoodPillars (points z)) (d : Int) (hb : Plain basis d) (hd : InRange z d) (t : Rat) (ht : yearFrac [cd] [d] basis none = .ok [t])
    (v : ℝ) (hv : ((t : ℝ), v) ∈ points z) : z.discountFactors [d] = [some v] := by
  rw [discountFactors_single h hb hd ht, npInterp_pillar (log_sorted hg) (mem_points_log hv)]
  rw [Real.exp_log (hg.2 _ hv)]

/-- Between neighbouring pillars the curve is linear in the logarithm (so positive). -/
theorem C35_log_linear (h : makeZeroCurve cd c freq basis cal = .ok z)
    (hg : GoodPillars (points z)) (d : Int) (hb : Plain basis d) (hd : InRange z d) (t : Rat) (ht : yearFrac [cd] [d] basis none = .ok [t])
    (p q : ℝ × ℝ) (hn : Neighbours (points z) p q) (h1 : p.1 ≤ t) (h2 : t ≤ q.1) :
    ∃ v, z.discountFactors [d] = [some v] ∧ LogLinear p q t v := by
  refine ⟨_, discountFactors_single h hb hd ht, Real.exp_pos _, ?_⟩
  rw [Real.log_exp, npInterp_between (log_sorted hg) (neighbours_log hn) h1 h2]

/-- Every discount factor of the curve is positive. -/
theorem C35_positive (h : makeZeroCurve cd c freq basis cal = .ok z) (d : Int)
    (hd : InRange z d) : ∃ v, z.discountFactors [d] = [some v] ∧ 0 < v := by
  obtain ⟨last, hl, -⟩ := daily_facts h
  obtain ⟨y, -, hy⟩ := discountFactors_flag h hd hl
  exact ⟨_, hy, Real.exp_pos _⟩

/-- The dates left out above, the last days of February under 30E/360 ISDA: on such a date the curve is read at the time
at which it is a termination date exactly if it is the last date of the table. -/
theorem C35_february (h : makeZeroCurve cd c freq basis cal = .ok z) (hg : GoodPillars (points z)) (d : Int)
    (hd : InRange z d) (final : Bool) (hfinal : final = true ↔ ∀ e, InRange z e → e ≤ d) (t : Rat)
    (ht : yearFrac [cd] [d] basis (some [final]) = .ok [t]) :
    (∀ v, ((t : ℝ), v) ∈ points z → z.discountFactors [d] = [some v]) ∧
    ∀ p q, Neighbours (points z) p q → p.1 ≤ t → t ≤ q.1 → ∃ v, z.discountFactors [d] = [some v] ∧ LogLinear p q t v := by
  obtain ⟨last, hl, -⟩ := daily_facts h
  obtain ⟨u, hu, hf⟩ := discountFactors_flag h hd hl
  have hr := (inRange_iff h hl d).mp hd
  have : (∀ e, InRange z e → e ≤ d) ↔ d = last := by
    constructor
    · intro hall
      have := hall last ((inRange_iff h hl last).mpr ⟨by omega, le_refl _⟩)
      omega
    · rintro rfl e he
      exact ((inRange_iff h hl e).mp he).2
  have hf' : decide (d = last) = final := by rw [Bool.eq_iff_iff, hfinal, this]; simp
  rw [hf', ht] at hu
  simp only [Except.ok.injEq, List.cons.injEq, and_true] at hu
  subst hu
  refine ⟨fun v hv => ?_, fun p q hn h1 h2 => ⟨_, hf, Real.exp_pos _, ?_⟩⟩
  · rw [hf, npInterp_pillar (log_sorted hg) (mem_points_log hv), Real.exp_log (hg.2 _ hv)]
  · rw [Real.log_exp, npInterp_between (log_sorted hg) (neighbours_log hn) h1 h2]

/-- A log-linear value lies between the values of its neighbours. -/
theorem C35_between (p q : ℝ × ℝ) (hp : 0 < p.2) (hq : 0 < q.2) (hpq : p.1 < q.1) (t v : ℝ) (h1 : p.1 ≤ t) (h2 : t ≤ q.1)
    (h : LogLinear p q t v) : min p.2 q.2 ≤ v ∧ v ≤ max p.2 q.2 := by
  obtain ⟨hv, hl⟩ := h
  have hw : 0 ≤ (t - p.1) / (q.1 - p.1) ∧ (t - p.1) / (q.1 - p.1) ≤ 1 :=
    ⟨div_nonneg (by linarith) (by linarith), (div_le_one (by linarith)).mpr (by linarith)⟩
  set w := (t - p.1) / (q.1 - p.1) with hwd
  have hl' : Real.log v = (1 - w) * Real.log p.2 + w * Real.log q.2 := by
    rw [hl, hwd]; field_simp; ring
  rcases le_total p.2 q.2 with hle | hle
  · have hlog := Real.log_le_log hp hle
    rw [min_eq_left hle, max_eq_right hle]
    refine ⟨(Real.log_le_log_iff hp hv).mp ?_, (Real.log_le_log_iff hv hq).mp ?_⟩
    · rw [hl']; nlinarith [hw.1, hw.2]
    · rw [hl']; nlinarith [hw.1, hw.2]
  · have hlog := Real.log_le_log hq hle
    rw [min_eq_right hle, max_eq_left hle]
    refine ⟨(Real.log_le_log_iff hq hv).mp ?_, (Real.log_le_log_iff hv hp).mp ?_⟩
    · rw [hl']; nlinarith [hw.1, hw.2]
    · rw [hl']; nlinarith [hw.1, hw.2]

/-- Between two neighbouring pillars the continuously compounded forward rate is the same for all pairs of times. -/
theorem C35_constant_forward (p q : ℝ × ℝ) (t u v w : ℝ) (htu : t < u) (hv : LogLinear p q t v) (hw : LogLinear p q u w) :
    (Real.log v - Real.log w) / (u - t) = (Real.log p.2 - Real.log q.2) / (q.1 - p.1) := by
  rw [hv.2, hw.2]
  have : u - t ≠ 0 := by linarith
  field_simp
  ring

/-- Non-increasing pillars give a non-increasing curve. -/
theorem C35_antitone (h : makeZeroCurve cd c freq basis cal = .ok z)
    (hg : GoodPillars (points z)) (hv : (points z).Pairwise (fun p q => q.2 ≤ p.2)) (d e : Int)
    (hbd : Plain basis d) (hbe : Plain basis e) (hd : InRange z d) (he : InRange z e) (t u : Rat) (ht : yearFrac [cd] [d] basis none = .ok [t])
    (hu : yearFrac [cd] [e] basis none = .ok [u]) (htu : t ≤ u) :
    ∃ v w, z.discountFactors [d] = [some v] ∧ z.discountFactors [e] = [some w] ∧ w ≤ v := by
  refine ⟨_, _, discountFactors_single h hbd hd ht, discountFactors_single h hbe he hu, ?_⟩
  apply Real.exp_le_exp.mpr
  have hv' : (z.pillars.map (fun r => (r.years, Real.log r.discountFactor))).Pairwise (fun p q => q.2 ≤ p.2) := by
    have hpos := hg.2
    unfold points at hv hpos
    rw [List.pairwise_map] at hv ⊢
    refine List.Pairwise.imp_of_mem ?_ hv
    intro a b _ hb hab
    exact Real.log_le_log (hpos _ (List.mem_map_of_mem hb)) hab
  exact (npInterp_antitone (log_sorted hg) hv' (by exact_mod_cast htu)).1

end

/-- Curves built from dates and discount factors: distinct dates after the curve date and positive factors, on an ACT
basis, make good pillars; the table runs to the last date; and each input point is a pillar at its date's year
fraction. -/
theorem C35_from_dates (cd : Int) (ds : List Int) (vs : List ℝ) (freq : Option CompoundingFreq) (basis : DayCountBasis)
    (hb : ActBasis basis) (cal : BusCal) (z : ZeroCurve) (hlen : ds.length = vs.length) (hnd : ds.Nodup)
    (hds : ∀ d ∈ ds, cd < d) (hvs : ∀ v ∈ vs, 0 < v)
    (h : makeZeroCurve cd { date := some ds, discountFactor := some vs } freq basis cal = .ok z) :
    GoodPillars (points z) ∧ (∀ d, InRange z d ↔ cd ≤ d ∧ ∃ e ∈ ds, d ≤ e) ∧
    ∀ (i : Nat) (d : Int) (v : ℝ), ds[i]? = some d → vs[i]? = some v →
      ∃ t : Rat, yearFrac [cd] [d] basis none = .ok [t] ∧ ((t : ℝ), v) ∈ points z := by
  have hisda : ∀ d, Plain basis d := fun d => by rcases hb with rfl | rfl | rfl | rfl <;> exact Plain.of_ne (by simp) d
  obtain ⟨x, y, times, values, sorted, hxy, ht, hv, hperm, hsort, hne, d0, hp, -, hd0⟩ :=
    processPillars_ok (makeZeroCurve_ok h).1
  have hxy' : chooseColumns { date := some ds, discountFactor := some vs } = .ok (.date ds, .discountFactor vs) := rfl
  rw [hxy'] at hxy
  simp only [Except.ok.injEq, Prod.mk.injEq] at hxy
  obtain ⟨rfl, rfl⟩ := hxy
  simp only [pillarValues, Except.ok.injEq] at hv
  subst hv
  simp only [pillarTimes] at ht
  cases hyf : yearFrac [cd] ds basis none with
  | error e => rw [hyf] at ht; cases ht
  | ok ys =>
    rw [hyf] at ht
    simp only [Except.map, Except.ok.injEq] at ht
    subst ht
    have hdsne : ds ≠ [] := by
      rintro rfl
      simp only [List.map_nil, List.zip_nil_left] at hperm
      exact hne hperm.eq_nil
    have hyl : ys.length = ds.length := by rw [yearFrac_length hyf, sameShape_lengths hdsne]
    have hget : ∀ (i : Nat) (d : Int) (v : ℝ), ds[i]? = some d → vs[i]? = some v →
        ∃ t : Rat, yearFrac [cd] [d] basis none = .ok [t] ∧
          ({ date := some d, years := (t : ℝ), discountFactor := v } : PillarRow) ∈ sorted := by
      intro i d v hdi hvi
      have hsh := sameShape_left ds cd i d hdi
      obtain ⟨t, ht, hti⟩ := yearFrac_get hyf (hisda _) hsh.1 hsh.2
      refine ⟨t, ht, hperm.symm.subset ?_⟩
      refine List.mem_map.mpr ⟨((some d, (t : ℝ)), v), ?_, rfl⟩
      apply List.mem_of_getElem? (i := i)
      refine List.getElem?_zip_eq_some.mpr ⟨List.getElem?_zip_eq_some.mpr ⟨?_, ?_⟩, hvi⟩
      · simp [hdi]
      · simp [hti]
    have hof : ∀ r ∈ sorted, ∃ (i : Nat) (d : Int) (t : Rat), ds[i]? = some d ∧
        yearFrac [cd] [d] basis none = .ok [t] ∧ r.date = some d ∧ r.years = t ∧ r.discountFactor ∈ vs := by
      intro r hr
      obtain ⟨p, hpm, rfl⟩ := List.mem_map.mp (hperm.subset hr)
      obtain ⟨i, hi⟩ := List.getElem?_of_mem hpm
      obtain ⟨hi1, hi2⟩ := List.getElem?_zip_eq_some.mp hi
      obtain ⟨hi3, hi4⟩ := List.getElem?_zip_eq_some.mp hi1
      simp only [List.getElem?_map] at hi3 hi4
      cases hdi : ds[i]? with
      | none => rw [hdi] at hi3; cases hi3
      | some d =>
        rw [hdi] at hi3
        simp only [Option.map_some, Option.some.injEq] at hi3
        have hsh := sameShape_left ds cd i d hdi
        obtain ⟨t, ht, hti⟩ := yearFrac_get hyf (hisda _) hsh.1 hsh.2
        rw [hti] at hi4
        simp only [Option.map_some, Option.some.injEq] at hi4
        exact ⟨i, d, t, hdi, ht, hi3.symm, hi4.symm, List.mem_of_getElem? hi2⟩
    have hpos : ∀ r ∈ sorted, 0 < r.years := by
      intro r hr
      obtain ⟨i, d, t, hdi, ht, -, hrt, -⟩ := hof r hr
      have := yearFrac_strict hb (hds d (List.mem_of_getElem? hdi)) (yearFrac_self (hisda cd)) ht
      rw [hrt]
      exact_mod_cast this
    have hstrict : sorted.Pairwise (fun a b => a.years < b.years) := by
      have hdist : sorted.Pairwise (fun a b => a.years ≠ b.years) := by
        have hsym : ∀ {a b : PillarRow}, a.years ≠ b.years → b.years ≠ a.years := fun h => Ne.symm h
        refine hperm.symm.pairwise ?_ hsym
        rw [List.pairwise_iff_getElem]
        intro i j hi hj hij
        simp only [List.getElem_map, List.getElem_zip]
        simp only [List.length_map, List.length_zip] at hi hj
        intro hc
        have hi' : i < ds.length := by omega
        have hj' : j < ds.length := by omega
        have hsi := sameShape_left ds cd i ds[i] (List.getElem?_eq_getElem hi')
        have hsj := sameShape_left ds cd j ds[j] (List.getElem?_eq_getElem hj')
        obtain ⟨t, ht, hti⟩ := yearFrac_get hyf (hisda _) hsi.1 hsi.2
        obtain ⟨u, hu, huj⟩ := yearFrac_get hyf (hisda _) hsj.1 hsj.2
        have e1 : ys[i]'(by omega) = t := by
          rw [List.getElem?_eq_getElem (by omega)] at hti; exact Option.some.inj hti
        have e2 : ys[j]'(by omega) = u := by
          rw [List.getElem?_eq_getElem (by omega)] at huj; exact Option.some.inj huj
        rw [e1, e2] at hc
        have htu : t = u := by exact_mod_cast hc
        have hne : ds[i] ≠ ds[j] := by
          intro he
          have := (List.Nodup.getElem_inj_iff hnd).mp he
          omega
        rcases lt_or_gt_of_ne hne with hlt | hlt
        · have := yearFrac_strict hb hlt ht hu; rw [htu] at this; exact lt_irrefl _ this
        · have := yearFrac_strict hb hlt hu ht; rw [htu] at this; exact lt_irrefl _ this
      exact (hsort.and hdist).imp (fun h => lt_of_le_of_ne h.1 h.2)
    have hpts : points z = (0, 1) :: sorted.map (fun r => (r.years, r.discountFactor)) := by
      unfold points; rw [hp]; rfl
    refine ⟨⟨?_, ?_⟩, ?_, ?_⟩
    · rw [hpts, List.pairwise_cons]
      refine ⟨?_, List.pairwise_map.mpr hstrict⟩
      intro q hq
      obtain ⟨r, hr, rfl⟩ := List.mem_map.mp hq
      exact hpos r hr
    · intro p hpm
      rw [hpts] at hpm
      rcases List.mem_cons.mp hpm with rfl | hpm
      · exact one_pos
      · obtain ⟨r, hr, rfl⟩ := List.mem_map.mp hpm
        obtain ⟨_, _, _, _, _, _, _, hrv⟩ := hof r hr
        exact hvs _ hrv
    · have hdates : ∀ e, e ∈ z.pillars.filterMap (·.date) ↔ e = cd ∨ e ∈ ds := by
        intro e
        rw [hp]
        simp only [List.mem_filterMap, List.mem_cons]
        have hd0' : d0 = some cd := by
          cases hh : sorted with
          | nil => exact absurd hh hne
          | cons r rest =>
            obtain ⟨_, d, _, _, _, hrd, _⟩ := hof r (by rw [hh]; simp)
            have := hd0 r (by rw [hh]; rfl)
            rw [this, hrd]; rfl
        constructor
        · rintro ⟨r, rfl | hr, hrd⟩
          · simp only [hd0', Option.some.injEq] at hrd
            exact .inl hrd.symm
          · obtain ⟨i, d, _, hdi, _, hrd', _⟩ := hof r hr
            rw [hrd'] at hrd
            simp only [Option.some.injEq] at hrd
            exact .inr (hrd ▸ List.mem_of_getElem? hdi)
        · rintro (rfl | he)
          · exact ⟨_, .inl rfl, hd0'⟩
          · obtain ⟨i, hi⟩ := List.getElem?_of_mem he
            have hiv : i < vs.length := by rw [← hlen]; exact (List.getElem?_eq_some_iff.mp hi).1
            obtain ⟨t, _, hm⟩ := hget i e vs[i] hi (List.getElem?_eq_getElem hiv)
            exact ⟨_, .inr hm, rfl⟩
      obtain ⟨m, hm⟩ : ∃ m, (z.pillars.filterMap (·.date)).max? = some m := by
        rw [← Option.isSome_iff_exists]
        have : cd ∈ z.pillars.filterMap (·.date) := (hdates cd).mpr (.inl rfl)
        have hne : z.pillars.filterMap (·.date) ≠ [] := by intro hc; rw [hc] at this; cases this
        simpa using hne
      have hl : lastDay basis cd z.pillars = .ok m := by unfold lastDay; rw [hm]
      obtain ⟨hm1, hm2⟩ := List.max?_eq_some_iff.mp hm
      intro d
      rw [inRange_iff h hl]
      obtain ⟨e0, he0⟩ := List.exists_mem_of_ne_nil _ hdsne
      constructor
      · rintro ⟨h1, h2⟩
        refine ⟨h1, ?_⟩
        rcases (hdates m).mp hm1 with rfl | hmd
        · exact ⟨e0, he0, by have := hds e0 he0; omega⟩
        · exact ⟨m, hmd, h2⟩
      · rintro ⟨h1, e, he, h2⟩
        exact ⟨h1, h2.trans (hm2 e ((hdates e).mpr (.inr he)))⟩
    · intro i d v hdi hvi
      obtain ⟨t, ht, hm⟩ := hget i d v hdi hvi
      refine ⟨t, ht, ?_⟩
      rw [hpts]
      exact List.mem_cons_of_mem _ (List.mem_map.mpr ⟨_, hm, rfl⟩)

/-- So every quoted discount factor is reproduced on its date. -/
theorem C35_reproduces_quotes (cd : Int) (ds : List Int) (vs : List ℝ) (freq : Option CompoundingFreq)
    (basis : DayCountBasis) (hb : ActBasis basis) (cal : BusCal) (z : ZeroCurve) (hlen : ds.length = vs.length)
    (hnd : ds.Nodup) (hds : ∀ d ∈ ds, cd < d) (hvs : ∀ v ∈ vs, 0 < v)
    (h : makeZeroCurve cd { date := some ds, discountFactor := some vs } freq basis cal = .ok z)
    (i : Nat) (d : Int) (v : ℝ) (hd : ds[i]? = some d) (hv : vs[i]? = some v) : z.discountFactors [d] = [some v] := by
  have hisda : ∀ d, Plain basis d := fun d => by rcases hb with rfl | rfl | rfl | rfl <;> exact Plain.of_ne (by simp) d
  obtain ⟨hg, hr, hpts⟩ := C35_from_dates cd ds vs freq basis hb cal z hlen hnd hds hvs h
  obtain ⟨t, ht, hm⟩ := hpts i d v hd hv
  have hdm := List.mem_of_getElem? hd
  exact C35_pillar h hg d (hisda d) ((hr d).mpr ⟨(hds d hdm).le, d, hdm, le_refl _⟩) t ht v hm

/-- Every date of the table lies between two neighbouring pillars, so `C35_log_linear` applies to it. -/
theorem C35_every_date_between (cd : Int) (ds : List Int) (vs : List ℝ) (freq : Option CompoundingFreq)
    (basis : DayCountBasis) (hb : ActBasis basis) (cal : BusCal) (z : ZeroCurve) (hlen : ds.length = vs.length)
    (hnd : ds.Nodup) (hds : ∀ d ∈ ds, cd < d) (hvs : ∀ v ∈ vs, 0 < v)
    (h : makeZeroCurve cd { date := some ds, discountFactor := some vs } freq basis cal = .ok z) (d : Int)
    (hd : InRange z d) (t : Rat) (ht : yearFrac [cd] [d] basis none = .ok [t]) :
    ∃ p q, Neighbours (points z) p q ∧ p.1 ≤ (t : ℝ) ∧ (t : ℝ) ≤ q.1 := by
  have hisda : ∀ d, Plain basis d := fun d => by rcases hb with rfl | rfl | rfl | rfl <;> exact Plain.of_ne (by simp) d
  obtain ⟨hg, hr, hpts⟩ := C35_from_dates cd ds vs freq basis hb cal z hlen hnd hds hvs h
  obtain ⟨rest, hp, hne⟩ := C35_first_point h
  obtain ⟨h1, e, he, hde⟩ := (hr d).mp hd
  have ht0 : (0 : Rat) ≤ t := by
    rcases lt_or_eq_of_le h1 with hlt | heq
    · exact (yearFrac_strict hb hlt (yearFrac_self (hisda cd)) ht).le
    · rw [← heq, yearFrac_self (hisda cd)] at ht
      simp only [Except.ok.injEq, List.cons.injEq, and_true] at ht
      exact ht.le
  obtain ⟨i, hi⟩ := List.getElem?_of_mem he
  have hiv : i < vs.length := by rw [← hlen]; exact (List.getElem?_eq_some_iff.mp hi).1
  obtain ⟨u, hu, hm⟩ := hpts i e vs[i] hi (List.getElem?_eq_getElem hiv)
  have htu : t ≤ u := by
    rcases lt_or_eq_of_le hde with hlt | heq
    · exact (yearFrac_strict hb hlt ht hu).le
    · rw [heq, hu] at ht
      simp only [Except.ok.injEq, List.cons.injEq, and_true] at ht
      exact ht.ge
  rw [hp]
  refine exists_neighbours rest (0, 1) hne t (show (0 : ℝ) ≤ t by exact_mod_cast ht0) ?_
  rw [hp] at hm
  rcases List.mem_cons.mp hm with heq | hm
  · have hu0 : (u : ℝ) = 0 := by have := congrArg Prod.fst heq; simpa using this
    exfalso
    have := yearFrac_strict hb (hds e he) (yearFrac_self (hisda cd)) hu
    have : (0 : ℝ) < u := by exact_mod_cast this
    linarith
  · exact ⟨_, hm, show (t : ℝ) ≤ u by exact_mod_cast htu⟩

/-- A two-pillar curve that is accepted. -/
theorem sampleCurve (cal : BusCal) : ∃ z, makeZeroCurve 0 { date := some [365, 730], discountFactor := some [0.98, 0.95] }
    none .act_365 cal = .ok z := by
  have hyf : yearFrac [0] [365, 730] .act_365 none = .ok [1, 2] := by decide +kernel
  have hpp : processPillars cal .act_365 0 none { date := some [365, 730], discountFactor := some [0.98, 0.95] } =
      .ok [{ date := some 0, years := 0, discountFactor := 1 }, { date := some 365, years := 1, discountFactor := 0.98 },
        { date := some 730, years := 2, discountFactor := 0.95 }] := by
    unfold processPillars
    have hc : chooseColumns { date := some [365, 730], discountFactor := some [0.98, 0.95] } =
      .ok (.date [365, 730], .discountFactor [0.98, 0.95]) := rfl
    simp only [hc, bind, Except.bind, pillarTimes, hyf, Except.map, pillarValues, List.map_cons, List.map_nil,
      List.zip_cons_cons, List.zip_nil_right, List.insertionSort, List.foldr, List.orderedInsert]
    norm_num
  have hlast : lastDay .act_365 0 [{ date := some 0, years := 0, discountFactor := 1 },
      { date := some 365, years := 1, discountFactor := 0.98 },
      { date := some 730, years := 2, discountFactor := 0.95 }] = .ok 730 := rfl
  unfold makeZeroCurve
  simp only [hpp, bind, Except.bind, setupDaily, hlast]
  have : ∃ ys, yearFrac [0] (dateRange 0 730) .act_365 none = .ok ys := by
    have : (yearFrac [0] (dateRange 0 730) .act_365 none).isOk = true := by decide +kernel
    cases hh : yearFrac [0] (dateRange 0 730) .act_365 none with
    | error e => rw [hh] at this; cases this
    | ok ys => exact ⟨ys, rfl⟩
  obtain ⟨ys, hys⟩ := this
  rw [hys]
  exact ⟨_, rfl⟩

theorem sampleCurve_facts {cal : BusCal} {z : ZeroCurve}
    (hz : makeZeroCurve 0 { date := some [365, 730], discountFactor := some [0.98, 0.95] } none .act_365 cal = .ok z) :
    GoodPillars (points z) ∧ (∀ d, InRange z d ↔ 0 ≤ d ∧ d ≤ 730) ∧ z.discountFactors [730] = [some 0.95] := by
  have hpos : ∀ v ∈ ([0.98, 0.95] : List ℝ), 0 < v := by
    intro v hv
    simp only [List.mem_cons, List.not_mem_nil, or_false] at hv
    rcases hv with rfl | rfl <;> norm_num
  obtain ⟨hg, hr, -⟩ := C35_from_dates 0 [365, 730] [0.98, 0.95] none .act_365 (.inr (.inl rfl)) cal z rfl (by decide)
    (by decide) hpos hz
  refine ⟨hg, ?_, C35_reproduces_quotes 0 [365, 730] [0.98, 0.95] none .act_365 (.inr (.inl rfl)) cal z rfl (by decide)
    (by decide) hpos hz 1 730 0.95 rfl rfl⟩
  intro d
  rw [hr d]
  simp only [List.mem_cons, List.not_mem_nil, or_false, exists_eq_or_imp, exists_eq_left]
  omega

/-- The hypotheses of the theorems above are met by the sample curve. -/
example (cal : BusCal) : ∃ z, makeZeroCurve 0 { date := some [365, 730], discountFactor := some [0.98, 0.95] } none .act_365
    cal = .ok z ∧ GoodPillars (points z) ∧ InRange z 500 ∧ ¬ InRange z 800 := by
  obtain ⟨z, hz⟩ := sampleCurve cal
  obtain ⟨hg, hr, -⟩ := sampleCurve_facts hz
  exact ⟨z, hz, hg, (hr 500).mpr (by omega), fun h => by have := (hr 800).mp h; omega⟩

end Frm.Props
