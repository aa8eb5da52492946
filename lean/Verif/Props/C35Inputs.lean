import Verif.Props.C35
import Verif.Props.C21
import Verif.Props.C33
import Verif.Model.Calendar
import Verif.Proofs.Months

/-! # C35 and C37 — every way of giving the pillars -/

namespace Frm
open Spec

set_option autoImplicit false

/-- A table with one time column and one value column. -/
theorem chooseColumns_iff (c : PillarColumns) (x : PillarX) (y : PillarY) :
    chooseColumns c = .ok (x, y) ↔ c.xs = [x] ∧ c.ys = [y] ∧ c.others = 0 := by
  unfold chooseColumns
  constructor
  · intro h
    by_cases hl : c.xs.length + c.ys.length + c.others ≠ 2
    · rw [if_pos hl] at h; cases h
    · rw [if_neg hl] at h
      split at h
      · rename_i x' y' hx hy
        simp only [Except.ok.injEq, Prod.mk.injEq] at h
        obtain ⟨rfl, rfl⟩ := h
        refine ⟨hx, hy, ?_⟩
        rw [hx, hy] at hl
        simp only [List.length_cons, List.length_nil] at hl
        omega
      · cases h
  · rintro ⟨hx, hy, ho⟩
    rw [hx, hy, ho]
    simp

theorem processPillars_congr {cal : BusCal} {basis : DayCountBasis} {cd : Int} {f f' : Option CompoundingFreq}
    {c c' : PillarColumns} {x x' : PillarX} {y y' : PillarY} (hc : chooseColumns c = .ok (x, y))
    (hc' : chooseColumns c' = .ok (x', y')) (ht : pillarTimes cal basis cd x = pillarTimes cal basis cd x')
    (hv : ∀ times, pillarTimes cal basis cd x = .ok times →
      pillarValues f (times.map (·.2)) y = pillarValues f' (times.map (·.2)) y') :
    processPillars cal basis cd f c = processPillars cal basis cd f' c' := by
  unfold processPillars
  simp only [bind, Except.bind, hc, hc', ← ht]
  cases h : pillarTimes cal basis cd x with
  | error e => rfl
  | ok times => simp only; rw [hv times h]

theorem makeZeroCurve_congr {cal : BusCal} {basis : DayCountBasis} {cd : Int} {f f' : Option CompoundingFreq}
    {c c' : PillarColumns} (h : processPillars cal basis cd f c = processPillars cal basis cd f' c') :
    makeZeroCurve cd c f basis cal = makeZeroCurve cd c' f' basis cal := by
  unfold makeZeroCurve
  rw [h]

theorem choose_pair {zr df : Option (List ℝ)} {y : PillarY} {x : PillarX} {c : PillarColumns} (hx : c.xs = [x])
    (hy : (zr.map PillarY.zeroRate).toList ++ (df.map PillarY.discountFactor).toList = [y]) (hz : c.zeroRate = zr)
    (hd : c.discountFactor = df) (ho : c.others = 0) : chooseColumns c = .ok (x, y) := by
  rw [chooseColumns_iff]
  exact ⟨hx, by unfold PillarColumns.ys; rw [hz, hd]; exact hy, ho⟩

theorem mapM_tenor {cal : BusCal} (hcal : cal.Ok) {cd : Int} {l : List Str} {ds : List Int} (hlen : ds.length = l.length)
    (h : ∀ (i : Nat) (s : Str) (d : Int), l[i]? = some s → ds[i]? = some d →
      ∃ o, tenorToDateOffset (cleanTenor s) = .ok o ∧ FirstOnOrAfter cal (o.addTo cd) d) :
    l.mapM (tenorPillarDate cal cd) = .ok ds := by
  induction l generalizing ds with
  | nil => rw [List.length_nil, List.length_eq_zero_iff] at hlen; rw [hlen]; rfl
  | cons s l ih =>
    cases ds with
    | nil => simp at hlen
    | cons d ds =>
      obtain ⟨o, ho, hf⟩ := h 0 s d rfl rfl
      have e1 : tenorPillarDate cal cd s = .ok d := by
        unfold tenorPillarDate
        rw [ho]
        simp only [Except.map, Except.ok.injEq]
        obtain ⟨a1, a2, a3⟩ := following_spec hcal (o.addTo cd)
        obtain ⟨b1, b2, b3⟩ := hf
        rcases Int.lt_trichotomy (following cal (o.addTo cd)) d with hlt | heq | hgt
        · rw [b3 _ a1 hlt] at a2; cases a2
        · exact heq
        · rw [a3 _ b1 hgt] at b2; cases b2
      have e2 := ih (ds := ds) (by simpa using hlen) (fun i s' d' h1 h2 => h (i + 1) s' d' h1 h2)
      simp only [List.mapM_cons, bind, Except.bind, e1, e2, pure, Except.pure]

theorem actAct_ge (cd : Int) (n : Nat) : (n : Rat) / 366 ≤ daySum cd n := by
  induction n with
  | zero => simp [daySum]
  | succ n ih =>
    have h : (1 : Rat) / 366 ≤ 1 / daysOfYear (toCivil (cd + n)).year := by
      have : daysOfYear (toCivil (cd + n)).year = 365 ∨ daysOfYear (toCivil (cd + n)).year = 366 := by
        unfold daysOfYear; split <;> simp
      rcases this with h | h <;> rw [h] <;> norm_num
    have e : daySum cd (n + 1) = daySum cd n + 1 / daysOfYear (toCivil (cd + n)).year := rfl
    rw [e]
    push_cast
    have : ((n : Rat) + 1) / 366 = n / 366 + 1 / 366 := by ring
    rw [this]
    linarith

/-- Under an ACT basis a day counts at least 1/366 of a year. -/
theorem yearFrac_ge {b : DayCountBasis} (hb : ActBasis b) {cd d : Int} (h : cd ≤ d) :
    ∃ t : Rat, yearFrac [cd] [d] b none = .ok [t] ∧ ((d - cd : Int) : Rat) / 366 ≤ t := by
  have hnn : (0 : Rat) ≤ ((d - cd : Int) : Rat) := by exact_mod_cast (by omega : (0 : Int) ≤ d - cd)
  rcases hb with rfl | rfl | rfl | rfl
  case inr.inr.inr =>
    refine ⟨_, Props.C11_act_act_day_weighted h, ?_⟩
    have := actAct_ge cd (d - cd).toNat
    have e : (((d - cd).toNat : Nat) : Rat) = ((d - cd : Int) : Rat) := by
      have : (((d - cd).toNat : Nat) : Int) = d - cd := by omega
      exact_mod_cast this
    rw [e] at this
    exact this
  all_goals
    unfold yearFrac dayCount
    rw [sameShape_single]
    simp only [checkOrder_single, if_pos h, Except.map, List.zip_cons_cons, List.zip_nil_right, List.map_cons, List.map_nil]
    refine ⟨_, rfl, ?_⟩
    push_cast at hnn ⊢
    linarith

theorem lastDayLoop_spec {b : DayCountBasis} (hb : ActBasis b) {cd : Int} {m : Int} (fuel : Nat) (d : Int) (hd : cd ≤ d)
    (hf : cd + 366 * m ≤ d + fuel) :
    ∃ last, lastDayLoop b cd m fuel d = .ok last ∧ d ≤ last ∧
      (∃ t : Rat, yearFrac [cd] [last] b none = .ok [t] ∧ (m : Rat) ≤ t) ∧
      ∀ x, d ≤ x → x < last → ∃ t : Rat, yearFrac [cd] [x] b none = .ok [t] ∧ t < m := by
  induction fuel generalizing d with
  | zero =>
    refine ⟨d, rfl, by omega, ?_, fun x h1 h2 => by omega⟩
    obtain ⟨t, h1, h2⟩ := yearFrac_ge hb hd
    refine ⟨t, h1, le_trans ?_ h2⟩
    rw [le_div_iff₀ (by norm_num)]
    have : m * 366 ≤ d - cd := by omega
    exact_mod_cast this
  | succ fuel ih =>
    obtain ⟨t, h1, h2⟩ := yearFrac_ge hb hd
    unfold lastDayLoop
    simp only [bind, Except.bind, h1, List.head?_cons, Option.any_some, decide_eq_true_eq]
    by_cases ht : t < m
    · rw [if_pos ht]
      obtain ⟨last, e1, e2, e3, e4⟩ := ih (d + 1) (by omega) (by omega)
      refine ⟨last, e1, by omega, e3, ?_⟩
      intro x hx1 hx2
      by_cases hx : x = d
      · rw [hx]; exact ⟨t, h1, ht⟩
      · exact e4 x (by omega) hx2
    · rw [if_neg ht]
      exact ⟨d, rfl, by omega, ⟨t, h1, not_lt.mp ht⟩, fun x h1 h2 => by omega⟩

theorem foldl_max_spec (l : List ℝ) (a : ℝ) : a ≤ l.foldl max a ∧ (∀ x ∈ l, x ≤ l.foldl max a) ∧
    (l.foldl max a = a ∨ l.foldl max a ∈ l) := by
  induction l generalizing a with
  | nil => simp
  | cons b l ih =>
    obtain ⟨h1, h2, h3⟩ := ih (max a b)
    simp only [List.foldl_cons, List.mem_cons]
    refine ⟨le_trans (le_max_left _ _) h1, ?_, ?_⟩
    · rintro x (rfl | hx)
      · exact le_trans (le_max_right _ _) h1
      · exact h2 x hx
    · rcases h3 with h3 | h3
      · rw [h3]
        rcases max_cases a b with ⟨h, -⟩ | ⟨h, -⟩ <;> rw [h] <;> simp
      · exact .inr (.inr h3)

end Frm

namespace Frm.Props
open Spec

set_option autoImplicit false

/-- A curve is built only from a table with one time column, one value column and nothing else. -/
theorem C35_columns (cd : Int) (c : PillarColumns) (freq : Option CompoundingFreq) (basis : DayCountBasis) (cal : BusCal)
    (z : ZeroCurve) (h : makeZeroCurve cd c freq basis cal = .ok z) :
    c.others = 0 ∧
    c.tenor.toList.length + c.date.toList.length + c.days.toList.length + c.years.toList.length = 1 ∧
    c.zeroRate.toList.length + c.discountFactor.toList.length = 1 ∧ (c.zeroRate.isSome → freq.isSome) := by
  obtain ⟨x, y, times, values, sorted, hc, -, hv, -⟩ := processPillars_ok (makeZeroCurve_ok h).1
  obtain ⟨hx, hy, ho⟩ := (chooseColumns_iff c x y).mp hc
  have lx := congrArg List.length hx
  have ly := congrArg List.length hy
  unfold PillarColumns.xs at lx
  unfold PillarColumns.ys at ly
  simp only [List.length_append, List.length_cons, List.length_nil] at lx ly
  have e : ∀ {α β : Type} (o : Option α) (f : α → β), (o.map f).toList.length = o.toList.length := by
    intro α β o f; cases o <;> rfl
  rw [e, e, e, e] at lx
  rw [e, e] at ly
  refine ⟨ho, lx, ly, ?_⟩
  intro hz
  obtain ⟨l, hl⟩ := Option.isSome_iff_exists.mp hz
  unfold PillarColumns.ys at hy
  rw [hl] at hy
  simp only [Option.map_some, Option.toList_some, List.cons_append, List.nil_append, List.cons.injEq] at hy
  rw [← hy.1] at hv
  cases freq with
  | none => cases hv
  | some f => rfl

/-- No curve is ever built from pillars given by a number of days: with at least one row the constructor raises `NameError`, with
none `IndexError`. -/
theorem C35_days_refused (cd : Int) (ns : List Int) (zr df : Option (List ℝ)) (hone : zr.toList.length + df.toList.length = 1)
    (f : CompoundingFreq) (basis : DayCountBasis) (cal : BusCal) :
    makeZeroCurve cd { days := some ns, zeroRate := zr, discountFactor := df } (some f) basis cal =
    .error (if ns = [] then .index else .name) := by
  have hy : ∃ y, (zr.map PillarY.zeroRate).toList ++ (df.map PillarY.discountFactor).toList = [y] := by
    cases zr <;> cases df <;> simp at hone ⊢
  obtain ⟨y, hy⟩ := hy
  have hc : chooseColumns { days := some ns, zeroRate := zr, discountFactor := df } = .ok (.days ns, y) :=
    choose_pair (x := .days ns) rfl hy rfl rfl rfl
  unfold makeZeroCurve processPillars
  rw [hc]
  by_cases hn : ns = []
  · cases y <;> simp [hn, pillarTimes, pillarValues, bind, Except.bind]
  · simp [hn, pillarTimes, bind, Except.bind]

/-- Pillars given by tenors are the pillars on the first business days on or after the curve date plus the tenor. -/
theorem C35_tenors (cd : Int) (l : List Str) (ds : List Int) (zr df : Option (List ℝ))
    (hone : zr.toList.length + df.toList.length = 1) (freq : Option CompoundingFreq) (basis : DayCountBasis) (cal : BusCal)
    (hcal : cal.Ok) (hlen : ds.length = l.length)
    (hd : ∀ (i : Nat) (s : Str) (d : Int), l[i]? = some s → ds[i]? = some d →
      ∃ o, tenorToDateOffset (cleanTenor s) = .ok o ∧ FirstOnOrAfter cal (o.addTo cd) d) :
    makeZeroCurve cd { tenor := some l, zeroRate := zr, discountFactor := df } freq basis cal =
    makeZeroCurve cd { date := some ds, zeroRate := zr, discountFactor := df } freq basis cal := by
  have hy : ∃ y, (zr.map PillarY.zeroRate).toList ++ (df.map PillarY.discountFactor).toList = [y] := by
    cases zr <;> cases df <;> simp at hone ⊢
  obtain ⟨y, hy⟩ := hy
  refine makeZeroCurve_congr (processPillars_congr (choose_pair (x := .tenor l) rfl hy rfl rfl rfl)
    (choose_pair (x := .date ds) rfl hy rfl rfl rfl) ?_ (fun _ _ => rfl))
  unfold pillarTimes
  simp only [mapM_tenor hcal hlen hd, Except.bind]

/-- Zero-rate quotes are the quotes of the discount factors they mean (`C21` says what these are); the last row of the
table counts as a termination date, which matters under 30E/360 ISDA only. -/
theorem C35_zero_rate_quotes (cd : Int) (ds : List Int) (rs vs : List ℝ) (f : CompoundingFreq)
    (freq : Option CompoundingFreq) (basis : DayCountBasis) (cal : BusCal)
    (hl : rs.length = ds.length) (hl' : vs.length = ds.length)
    (hv : ∀ (i : Nat) (d : Int) (r : ℝ) (t : Rat), ds[i]? = some d → rs[i]? = some r →
      yearFrac [cd] [d] basis (some [decide (ds.length ≤ i + 1)]) = .ok [t] → vs[i]? = some (f.discountFactor t r)) :
    makeZeroCurve cd { date := some ds, zeroRate := some rs } (some f) basis cal =
    makeZeroCurve cd { date := some ds, discountFactor := some vs } freq basis cal := by
  refine makeZeroCurve_congr (processPillars_congr (x := .date ds) (y := .zeroRate rs) (x' := .date ds)
    (y' := .discountFactor vs) rfl rfl rfl ?_)
  intro times ht
  unfold pillarTimes at ht
  simp only at ht
  cases hy : yearFrac [cd] ds basis none with
  | error e => rw [hy] at ht; cases ht
  | ok ys =>
    rw [hy] at ht
    simp only [Except.map, Except.ok.injEq] at ht
    subst ht
    unfold pillarValues
    simp only [Except.ok.injEq]
    have hyl : ds ≠ [] → ys.length = ds.length := by
      intro hne
      have := yearFrac_length hy
      rw [this, sameShape_lengths hne]
    by_cases hne : ds = []
    · subst hne
      have : vs = [] := List.length_eq_zero_iff.mp hl'
      rw [this]; rfl
    have hyl := hyl hne
    have hsnd : ((ds.map some).zip (ys.map (fun (y : Rat) => (y : ℝ)))).map (·.2) = ys.map (fun (y : Rat) => (y : ℝ)) :=
      List.map_snd_zip (by simp [hyl])
    rw [hsnd]
    apply List.ext_getElem?
    intro i
    by_cases hi : i < ds.length
    · have hdi : ds[i]? = some ds[i] := List.getElem?_eq_getElem hi
      have hri : rs[i]? = some (rs[i]'(by omega)) := List.getElem?_eq_getElem (by omega)
      obtain ⟨hs, he⟩ := sameShape_left ds cd i _ hdi
      obtain ⟨-, t, h1, h2⟩ := yearFrac_get_flag hy hs he
      have hdl : (sameShape [cd] ds).2 = ds := by
        match ds, hne with
        | [x], _ => rfl
        | x :: y :: l, _ => rfl
      rw [hdl] at h1
      rw [hv i _ _ t hdi hri h1, List.getElem?_map]
      have hz : ((ys.map (fun (y : Rat) => (y : ℝ))).zip rs)[i]? = some ((t : ℝ), rs[i]'(by omega)) :=
        List.getElem?_zip_eq_some.mpr ⟨by rw [List.getElem?_map, h2]; rfl, hri⟩
      rw [hz]; rfl
    · rw [List.getElem?_eq_none (by simp; omega), List.getElem?_eq_none (by omega)]

/-- Pillars given in years: the knots are the quotes themselves, in order of time, after the unit knot at 0. -/
theorem C35_years (cd : Int) (ys vs : List ℝ) (freq : Option CompoundingFreq) (basis : DayCountBasis) (cal : BusCal)
    (z : ZeroCurve) (h : makeZeroCurve cd { years := some ys, discountFactor := some vs } freq basis cal = .ok z) :
    ∃ rest, points z = (0, 1) :: rest ∧ rest.Perm (ys.zip vs) ∧ rest.Pairwise (fun p q => p.1 ≤ q.1) := by
  obtain ⟨x, y, times, values, sorted, hc, ht, hv, hp, hs, hne, d, hpl, -⟩ := processPillars_ok (makeZeroCurve_ok h).1
  obtain ⟨hx, hy, -⟩ := (chooseColumns_iff _ x y).mp hc
  have hx' : x = .years ys := by
    have : [PillarX.years ys] = [x] := hx
    simpa using this.symm
  have hy' : y = .discountFactor vs := by
    have : [PillarY.discountFactor vs] = [y] := hy
    simpa using this.symm
  subst hx' hy'
  simp only [pillarTimes, Except.ok.injEq] at ht
  simp only [pillarValues, Except.ok.injEq] at hv
  subst ht hv
  refine ⟨sorted.map (fun r => (r.years, r.discountFactor)), ?_, ?_, ?_⟩
  · unfold points; rw [hpl]; rfl
  · refine (hp.map _).trans ?_
    rw [List.map_map]
    have e : ∀ (a b : List ℝ), ((a.map (fun y => ((none : Option Int), y))).zip b).map
        ((fun r : PillarRow => (r.years, r.discountFactor)) ∘ fun p : (Option Int × ℝ) × ℝ =>
          ({ date := p.1.1, years := p.1.2, discountFactor := p.2 } : PillarRow)) = a.zip b := by
      intro a
      induction a with
      | nil => intro b; rfl
      | cons u a ih =>
        intro b
        cases b with
        | nil => rfl
        | cons w b => simp only [List.map_cons, List.zip_cons_cons]; rw [ih]; rfl
    rw [e]
  · rw [List.pairwise_map]; exact hs

/-- Pillars given in years: with `m` the whole number of years of the longest quote, the table goes on to the first date,
from `m` calendar years after the curve date on, that is at least `m` years away.  Quotes beyond lie outside the table. -/
theorem C37_years_table (cd : Int) (ys vs : List ℝ) (hlen : ys.length = vs.length) (freq : Option CompoundingFreq)
    (basis : DayCountBasis) (hb : ActBasis basis) (cal : BusCal) (z : ZeroCurve)
    (h : makeZeroCurve cd { years := some ys, discountFactor := some vs } freq basis cal = .ok z)
    (longest : ℝ) (hpos : 0 ≤ longest) (hmem : longest ∈ ys) (hmax : ∀ y ∈ ys, y ≤ longest) (m : Int)
    (hm : (m : ℝ) ≤ longest) (hm' : longest < m + 1) :
    ∃ last, (∀ d, InRange z d ↔ cd ≤ d ∧ d ≤ last) ∧ addMonths cd (12 * m) ≤ last ∧
      (∃ t : Rat, yearFrac [cd] [last] basis none = .ok [t] ∧ (m : Rat) ≤ t) ∧
      ∀ x, addMonths cd (12 * m) ≤ x → x < last → ∃ t : Rat, yearFrac [cd] [x] basis none = .ok [t] ∧ t < m := by
  obtain ⟨rest, hpts, hperm, -⟩ := C35_years cd ys vs freq basis cal z h
  obtain ⟨x, y, times, values, sorted, hc, ht, hv, hp, hs, hne, d, hpl, -, hd⟩ := processPillars_ok (makeZeroCurve_ok h).1
  obtain ⟨hx, -, -⟩ := (chooseColumns_iff _ x y).mp hc
  have hx' : x = .years ys := by
    have : [PillarX.years ys] = [x] := hx
    simpa using this.symm
  subst hx'
  simp only [pillarTimes, Except.ok.injEq] at ht
  subst ht
  have hnone : ∀ r ∈ sorted, r.date = none := by
    intro r hr
    have := hp.mem_iff.mp hr
    rw [List.mem_map] at this
    obtain ⟨p, hp', rfl⟩ := this
    have h1 := (List.of_mem_zip (show (p.1, p.2) ∈ _ from hp')).1
    rw [List.mem_map] at h1
    obtain ⟨u, -, hu⟩ := h1
    show p.1.1 = none
    rw [← hu]
  have hd' : d = none := by
    cases hsd : sorted with
    | nil => exact absurd hsd hne
    | cons r rs =>
      have := hd r (by rw [hsd]; rfl)
      rw [this, hnone r (by rw [hsd]; simp)]; rfl
  have hfm : z.pillars.filterMap (·.date) = [] := by
    rw [hpl, List.filterMap_eq_nil_iff]
    intro r hr
    rcases List.mem_cons.mp hr with rfl | hr
    · exact hd'
    · exact hnone r hr
  have hyears : z.pillars.map (·.years) = (points z).map (·.1) := by
    unfold points; rw [List.map_map]; rfl
  have hfold : (z.pillars.map (·.years)).foldl max 0 = longest := by
    rw [hyears, hpts]
    simp only [List.map_cons, List.foldl_cons, max_self]
    have hrm : (rest.map (·.1)).Perm ys := by
      have := hperm.map (·.1)
      have e : (ys.zip vs).map (·.1) = ys := List.map_fst_zip (by omega)
      rw [e] at this
      exact this
    obtain ⟨f1, f2, f3⟩ := foldl_max_spec (rest.map (·.1)) 0
    apply le_antisymm
    · rcases f3 with f3 | f3
      · rw [f3]; exact hpos
      · exact hmax _ (hrm.mem_iff.mp f3)
    · exact f2 _ (hrm.mem_iff.mpr hmem)
  have hint : pyIntReal longest = m := by
    unfold pyIntReal
    rw [if_pos hpos]
    exact Int.floor_eq_iff.mpr ⟨hm, hm'⟩
  have hm0 : 0 ≤ m := by
    have : (-1 : ℝ) < m := by linarith
    have : (-1 : Int) < m := by exact_mod_cast this
    omega
  have hadd : cd ≤ addMonths cd (12 * m) := by
    rcases Int.lt_or_eq_of_le (show (0 : Int) ≤ 12 * m by omega) with hlt | heq
    · have := addMonths_strict (n := cd) hlt
      rw [addMonths_zero] at this; omega
    · rw [← heq, addMonths_zero]
  obtain ⟨last, e1, e2, e3, e4⟩ := lastDayLoop_spec hb (m := m) ((366 * m).toNat + 1) (addMonths cd (12 * m))
    hadd (by omega)
  have hlast : lastDay basis cd z.pillars = .ok last := by
    unfold lastDay
    rw [hfm, hfold, hint]
    exact e1
  exact ⟨last, fun d => inRange_iff h hlast d, e2, e3, e4⟩

/-- Lookup by a number of days is lookup of the date that many days after the curve date. -/
theorem C37_days_lookup (cd : Int) (c : PillarColumns) (freq : Option CompoundingFreq) (basis : DayCountBasis)
    (cal : BusCal) (z : ZeroCurve) (h : makeZeroCurve cd c freq basis cal = .ok z) (n : Int) :
    z.indexDailyData { days := some n } = z.indexDailyData { dates := some [cd + n] } := by
  have := (makeZeroCurve_ok h).2.1
  unfold ZeroCurve.indexDailyData
  simp only [this]

/-- The same pillars are accepted as dates and refused as numbers of days. -/
example : (∃ z, makeZeroCurve 0 { date := some [365, 730], discountFactor := some [0.98, 0.95] } (some .annual) .act_365
      defaultBusCal = .ok z ∧ z.discountFactors [730] = [some 0.95]) ∧
    makeZeroCurve 0 { days := some [365, 730], discountFactor := some [0.98, 0.95] } (some .annual) .act_365 defaultBusCal =
      .error .name := by
  obtain ⟨z, hz⟩ := sampleCurve defaultBusCal
  refine ⟨⟨z, ?_, (sampleCurve_facts hz).2.2⟩, ?_⟩
  · rw [← hz]; rfl
  · rw [C35_days_refused 0 [365, 730] none (some [0.98, 0.95]) rfl]
    simp

end Frm.Props
