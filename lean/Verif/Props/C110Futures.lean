import Verif.Props.C110
import Verif.Props.C39

/-! # C110 — Futures on a zero curve built on bootstrapped cash rates and futures -/

namespace Frm
open Spec

set_option autoImplicit false

theorem neighbours_of_gap {l : List (ℝ × ℝ)} (hl : l.Pairwise (fun p q => p.1 < q.1)) {p q : ℝ × ℝ} (hp : p ∈ l) (hq : q ∈ l)
    (hpq : p.1 < q.1) (hgap : ∀ r ∈ l, p.1 < r.1 → q.1 ≤ r.1) : Neighbours l p q := by
  obtain ⟨A, B, rfl⟩ := List.append_of_mem hp
  rw [List.pairwise_append, List.pairwise_cons] at hl
  obtain ⟨-, ⟨hpB, hB⟩, hAB⟩ := hl
  have hqB : q ∈ B := by
    rcases List.mem_append.mp hq with h | h
    · have := hAB q h p (by simp)
      linarith
    · rcases List.mem_cons.mp h with rfl | h
      · exact absurd hpq (lt_irrefl _)
      · exact h
  cases B with
  | nil => cases hqB
  | cons c B =>
    rcases List.mem_cons.mp hqB with rfl | h
    · exact ⟨A, B, rfl⟩
    · have h1 := (List.pairwise_cons.mp hB).1 q h
      have h2 := hgap c (by simp) (hpB c (by simp))
      linarith

/-- The times of a curve built from dates. -/
theorem points_times {cd : Int} {ds : List Int} {vs : List ℝ} {freq : Option CompoundingFreq} {basis : DayCountBasis} (hb : ActBasis basis)
    {cal : BusCal} {z : ZeroCurve} (hne : ds ≠ [])
    (h : makeZeroCurve cd { date := some ds, discountFactor := some vs } freq basis cal = .ok z) :
    ∀ p ∈ points z, p.1 = 0 ∨ ∃ d ∈ ds, p.1 = yearsFrom basis cd d := by
  obtain ⟨x, y, times, values, sorted, hxy, ht, hv, hperm, -, -, d0, hp, -⟩ := processPillars_ok (makeZeroCurve_ok h).1
  have hxy' : chooseColumns { date := some ds, discountFactor := some vs } = .ok (.date ds, .discountFactor vs) := rfl
  rw [hxy'] at hxy
  simp only [Except.ok.injEq, Prod.mk.injEq] at hxy
  obtain ⟨rfl, rfl⟩ := hxy
  simp only [pillarTimes] at ht
  cases hy : yearFrac [cd] ds basis none with
  | error e => rw [hy] at ht; cases ht
  | ok ys =>
    rw [hy] at ht
    simp only [Except.map, Except.ok.injEq] at ht
    subst ht
    obtain ⟨hl, hg⟩ := yearFrac_from (fun e _ => actBasis_plain hb e) hne hy
    intro p hpm
    unfold points at hpm
    rw [hp] at hpm
    rcases List.mem_cons.mp hpm with rfl | hpm
    · exact .inl rfl
    · right
      obtain ⟨r, hr, rfl⟩ := List.mem_map.mp hpm
      obtain ⟨w, hw, rfl⟩ := List.mem_map.mp (hperm.subset hr)
      have h1 := (List.of_mem_zip hw).1
      obtain ⟨i, hi⟩ := List.mem_iff_getElem?.mp h1
      obtain ⟨h2, h3⟩ := List.getElem?_zip_eq_some.mp hi
      rw [List.getElem?_map, Option.map_eq_some_iff] at h2 h3
      obtain ⟨d, hd, -⟩ := h2
      obtain ⟨t, ht, he⟩ := h3
      obtain ⟨-, y, hyi, hyy⟩ := hg i d hd
      rw [ht] at hyi
      cases hyi
      exact ⟨d, List.mem_of_getElem? hd, by rw [← he, hyy]⟩

/-- The times of the rows of bootstrapped futures. -/
theorem futures_years {sort : List FuturesRow → List FuturesRow} (hsort : SortsOn FuturesRow.effective sort) {c : FuturesColumns}
    {cd : Int} {cash : List (ℝ × Option ℝ)} {basis b : DayCountBasis} (hb : ActBasis b) {out : List FuturesRow}
    (h : bootstrapFutures sort c cd cash basis b = .ok out) :
    ∀ o ∈ out, o.effectiveYears = yearsFrom b cd o.effective ∧ o.maturityYears = yearsFrom b cd o.maturity ∧ cd ≤ o.effective ∧
      cd ≤ o.maturity := by
  obtain ⟨fwd, per, ey, my, -, -, h3, h4, hout⟩ := futuresRows h
  obtain ⟨hperm, -⟩ := hsort (((c.effective.zip c.maturity).zip (fwd.zip (per.zip (ey.zip my)))).map (fun p =>
          ({ effective := p.1.1, maturity := p.1.2, forwardRate := p.2.1, periodYears := p.2.2.1,
             effectiveYears := p.2.2.2.1, maturityYears := p.2.2.2.2 } : FuturesRow)))
  have hkeep := futuresLoop_keeps (sort (((c.effective.zip c.maturity).zip (fwd.zip (per.zip (ey.zip my)))).map (fun p =>
          ({ effective := p.1.1, maturity := p.1.2, forwardRate := p.2.1, periodYears := p.2.2.1,
             effectiveYears := p.2.2.2.1, maturityYears := p.2.2.2.2 } : FuturesRow))))
             (cash.map (fun p => (p.1, npLog p.2)))
  rw [← hout] at hkeep
  intro o ho
  have hm : (o.effective, o.maturity, o.forwardRate, o.periodYears, o.effectiveYears, o.maturityYears) ∈
      out.map (fun o => (o.effective, o.maturity, o.forwardRate, o.periodYears, o.effectiveYears, o.maturityYears)) :=
    List.mem_map_of_mem ho
  rw [hkeep] at hm
  obtain ⟨r, hr, hre⟩ := List.mem_map.mp hm
  have hr := hperm.mem_iff.mp hr
  obtain ⟨⟨⟨e, m⟩, f, p, y1, y2⟩, hz, rfl⟩ := List.mem_map.mp hr
  obtain ⟨i, hi⟩ := List.mem_iff_getElem?.mp hz
  obtain ⟨z1, z2⟩ := List.getElem?_zip_eq_some.mp hi
  obtain ⟨z3, z4⟩ := List.getElem?_zip_eq_some.mp z1
  obtain ⟨z5, z6⟩ := List.getElem?_zip_eq_some.mp z2
  obtain ⟨z7, z8⟩ := List.getElem?_zip_eq_some.mp z6
  obtain ⟨z9, z10⟩ := List.getElem?_zip_eq_some.mp z8
  simp only [Prod.mk.injEq] at hre z3 z4 z9 z10
  obtain ⟨rfl, rfl, -, -, r1, r2⟩ := hre
  obtain ⟨-, g1⟩ := yearFrac_from (fun e _ => actBasis_plain hb e) (by intro hc; rw [hc] at z3; cases z3) h3
  obtain ⟨-, g2⟩ := yearFrac_from (fun e _ => actBasis_plain hb e) (by intro hc; rw [hc] at z4; cases z4) h4
  obtain ⟨c1, w1, e1, e2⟩ := g1 i _ z3
  obtain ⟨c2, w2, e3, e4⟩ := g2 i _ z4
  rw [z9] at e1; rw [z10] at e3
  cases e1; cases e3
  exact ⟨by rw [← r1, e2], by rw [← r2, e4], c1, c2⟩

theorem one_year {b : DayCountBasis} (hb : ActBasis b) {s d : Int} (h : s ≤ d) : ∃ t : Rat, yearFrac [s] [d] b none = .ok [t] := by
  obtain ⟨r, hr⟩ := yearFrac_ok (b := b) (S := [s]) (E := [d]) rfl (by simpa using h)
  obtain ⟨hl, -⟩ := yearFrac_from (fun e _ => actBasis_plain hb e) (by simp) hr
  match r, hl with
  | [t], _ => exact ⟨t, hr⟩

theorem chain_split {K : List (ℝ × ℝ)} {os : List FuturesRow} (h : FuturesChain K os) (pre : List FuturesRow) (o : FuturesRow)
    (post : List FuturesRow) (he : os = pre ++ o :: post) :
    ∃ (L : List (ℝ × ℝ)) (u v : ℝ), pre.map (fun r => (r.maturityYears, r.maturityDf)) = L.map (fun p => (p.1, some p.2)) ∧ 0 < u ∧ 0 < v ∧
      o.effectiveDf = some u ∧ o.maturityDf = some v ∧
      OnBrokenLine ((K ++ L).map (fun p => (p.1, Real.log p.2))) o.effectiveYears (Real.log u) ∧
      u / v = 1 + o.forwardRate * o.periodYears := by
  induction pre generalizing K os with
  | nil =>
    subst he
    cases h with
    | cons _ _ _ u v hu hv he hm hline hrate hrest => exact ⟨[], u, v, rfl, hu, hv, he, hm, by simpa using hline, hrate⟩
  | cons r pre ih =>
    subst he
    cases h with
    | cons _ _ _ u v hu hv he hm hline hrate hrest =>
      obtain ⟨L, u', v', h1, h2, h3, h4, h5, h6, h7⟩ := ih hrest rfl
      exact ⟨(r.maturityYears, v) :: L, u', v', by simp [h1, hm], h2, h3, h4, h5, by simpa using h6, h7⟩

end Frm

namespace Frm.Props
open Spec

set_option autoImplicit false

/-- The curve through cash rates and bootstrapped futures, and its points. -/
theorem futures_curve (sort : List FuturesRow → List FuturesRow) (hsort : SortsOn FuturesRow.effective sort) (c : FuturesColumns)
    (cd : Int) (cash : List (Int × ℝ)) (basis b : DayCountBasis) (hb : ActBasis b) (out : List FuturesRow)
    (h : bootstrapFutures sort c cd (cash.map (fun p => (yearsFrom b cd p.1, some p.2))) basis b = .ok out)
    (hlen : 2 ≤ cash.length) (hpos : ∀ p ∈ cash, 0 < p.2) (hnd : (cash.map (·.1) ++ out.map (·.maturity)).Nodup)
    (hafter : ∀ d ∈ cash.map (·.1) ++ out.map (·.maturity), cd < d)
    (hacc : ∀ o ∈ out, 0 < 1 + o.forwardRate * o.periodYears) (freq : Option CompoundingFreq) (cal : BusCal) :
    FuturesChain (cash.map (fun p => (yearsFrom b cd p.1, p.2))) out ∧
    ∃ (vs : List ℝ) (z : ZeroCurve), out.map (·.maturityDf) = vs.map some ∧
      makeZeroCurve cd { date := some (cash.map (·.1) ++ out.map (·.maturity)), discountFactor := some (cash.map (·.2) ++ vs) } freq b cal
        = .ok z ∧ GoodPillars (points z) ∧
      (∀ d, InRange z d ↔ cd ≤ d ∧ ∃ e ∈ cash.map (·.1) ++ out.map (·.maturity), d ≤ e) ∧
      (∀ p ∈ points z, p.1 = 0 ∨ ∃ d ∈ cash.map (·.1) ++ out.map (·.maturity), p.1 = yearsFrom b cd d) ∧
      (∀ p ∈ cash, (yearsFrom b cd p.1, p.2) ∈ points z) ∧
      (∀ o ∈ out, ∀ v, o.maturityDf = some v → (yearsFrom b cd o.maturity, v) ∈ points z) := by
  have hyears := futures_years hsort hb h
  have hmono : ∀ d e : Int, cd ≤ d → d ≤ e → yearsFrom b cd d ≤ yearsFrom b cd e := by
    intro d e h1 h2
    rcases lt_or_eq_of_le h2 with hlt | heq
    · exact (yearsFrom_lt hb h1 hlt).le
    · rw [heq]
  have hndy : ((cash.map (fun p => (yearsFrom b cd p.1, p.2))).map (·.1) ++ out.map (·.maturityYears)).Nodup := by
    have e : (cash.map (fun p => (yearsFrom b cd p.1, p.2))).map (·.1) ++ out.map (·.maturityYears) =
        (cash.map (·.1) ++ out.map (·.maturity)).map (yearsFrom b cd) := by
      rw [List.map_append, List.map_map, List.map_map, List.map_map]
      congr 1
      exact List.map_congr_left (fun o ho => (hyears o ho).2.1)
    rw [e]
    refine List.Nodup.map_on ?_ hnd
    intro x hx y hy hxy
    have h1 := hafter x hx
    have h2 := hafter y hy
    rcases lt_trichotomy x y with hlt | rfl | hlt
    · exact absurd hxy (yearsFrom_lt hb h1.le hlt).ne
    · rfl
    · exact absurd hxy (yearsFrom_lt hb h2.le hlt).ne'
  have hchain : FuturesChain (cash.map (fun p => (yearsFrom b cd p.1, p.2))) out := by
    refine C39_chain_partial sort c cd _ basis b out ?_ (by simpa using hlen) ?_ hndy hacc
    · rw [List.map_map]; exact h
    · intro p hp
      obtain ⟨w, hw, rfl⟩ := List.mem_map.mp hp
      exact hpos w hw
  have hval : ∀ o ∈ out, ∃ v : ℝ, 0 < v ∧ o.maturityDf = some v := by
    intro o ho
    obtain ⟨pre, post, he⟩ := List.append_of_mem ho
    obtain ⟨-, u, v, -, -, hv, -, hm, -⟩ := chain_split hchain pre o post he
    exact ⟨v, hv, hm⟩
  have hvs : ∃ vs : List ℝ, out.map (·.maturityDf) = vs.map some ∧ ∀ v ∈ vs, 0 < v := by
    refine ⟨out.map (fun o => o.maturityDf.getD 0), ?_, ?_⟩
    · rw [List.map_map]
      apply List.map_congr_left
      intro o ho
      obtain ⟨v, -, hv⟩ := hval o ho
      simp [hv]
    · intro v hv
      obtain ⟨o, ho, rfl⟩ := List.mem_map.mp hv
      obtain ⟨v, hv0, hv⟩ := hval o ho
      simpa [hv] using hv0
  obtain ⟨vs, hvs, hvpos⟩ := hvs
  have hvl : vs.length = out.length := by
    have := congrArg List.length hvs
    simpa using this.symm
  have hl : (cash.map (·.1) ++ out.map (·.maturity)).length = (cash.map (·.2) ++ vs).length := by simp [hvl]
  have hne : cash.map (·.1) ++ out.map (·.maturity) ≠ [] := by
    intro hc
    have := congrArg List.length (List.append_eq_nil_iff.mp hc).1
    simp only [List.length_map, List.length_nil] at this
    omega
  have hallpos : ∀ v ∈ cash.map (·.2) ++ vs, 0 < v := by
    intro v hv
    rcases List.mem_append.mp hv with hv | hv
    · obtain ⟨p, hp, rfl⟩ := List.mem_map.mp hv
      exact hpos p hp
    · exact hvpos v hv
  obtain ⟨z, hz⟩ := C110_accepted cd _ (cash.map (·.2) ++ vs) freq b hb cal hl hne hafter
  obtain ⟨hg, hr, hpts⟩ := C35_from_dates cd _ _ freq b hb cal z hl hnd hafter hallpos hz
  have htimes := points_times hb hne hz
  have hcashpt : ∀ p ∈ cash, (yearsFrom b cd p.1, p.2) ∈ points z := by
    intro p hp
    obtain ⟨i, hi⟩ := List.mem_iff_getElem?.mp hp
    have hlt : i < cash.length := (List.getElem?_eq_some_iff.mp hi).1
    obtain ⟨t, ht, hm⟩ := hpts i p.1 p.2 (by rw [List.getElem?_append_left (by simpa using hlt)]; simp [hi])
      (by rw [List.getElem?_append_left (by simpa using hlt)]; simp [hi])
    rw [yearsFrom_eq ht]
    exact hm
  have hfutpt : ∀ o ∈ out, ∀ v, o.maturityDf = some v → (yearsFrom b cd o.maturity, v) ∈ points z := by
    intro o ho v hv
    obtain ⟨i, hi⟩ := List.mem_iff_getElem?.mp ho
    have hvi : vs[i]? = some v := by
      have := congrArg (fun l => l[i]?) hvs
      simp only [List.getElem?_map, hi, Option.map_some, hv] at this
      cases hvi : vs[i]? with
      | none => rw [hvi] at this; cases this
      | some w => rw [hvi] at this; simpa using this.symm
    obtain ⟨t, ht, hm⟩ := hpts (cash.length + i) o.maturity v
      (by rw [List.getElem?_append_right (by simp)]; simp [hi])
      (by rw [List.getElem?_append_right (by simp)]; simp [hvi])
    rw [yearsFrom_eq ht]
    exact hm
  exact ⟨hchain, vs, z, hvs, hz, hg, hr, htimes, hcashpt, hfutpt⟩

theorem yearsFrom_mono {b : DayCountBasis} (hb : ActBasis b) (cd : Int) :
    ∀ d e : Int, cd ≤ d → d ≤ e → yearsFrom b cd d ≤ yearsFrom b cd e := by
  intro d e h1 h2
  rcases lt_or_eq_of_le h2 with hlt | heq
  · exact (yearsFrom_lt hb h1 hlt).le
  · rw [heq]

/-- **C110** A curve built on the maturities and discount factors of cash rates and of the futures bootstrapped on them, on the day count
basis of the times of the bootstrap.  On this curve every contract grows at its own forward rate, if its start lies between points known
when it was bootstrapped and no point was added afterwards between its start and the next of these. -/
theorem C110_futures_partial (sort : List FuturesRow → List FuturesRow) (hsort : SortsOn FuturesRow.effective sort) (c : FuturesColumns)
    (cd : Int) (cash : List (Int × ℝ)) (basis b : DayCountBasis) (hb : ActBasis b) (out : List FuturesRow)
    (h : bootstrapFutures sort c cd (cash.map (fun p => (yearsFrom b cd p.1, some p.2))) basis b = .ok out)
    (hlen : 2 ≤ cash.length) (hpos : ∀ p ∈ cash, 0 < p.2) (hnd : (cash.map (·.1) ++ out.map (·.maturity)).Nodup)
    (hafter : ∀ d ∈ cash.map (·.1) ++ out.map (·.maturity), cd < d)
    (hacc : ∀ o ∈ out, 0 < 1 + o.forwardRate * o.periodYears) (freq : Option CompoundingFreq) (cal : BusCal) :
    ∃ (vs : List ℝ) (z : ZeroCurve), out.map (·.maturityDf) = vs.map some ∧
      makeZeroCurve cd { date := some (cash.map (·.1) ++ out.map (·.maturity)), discountFactor := some (cash.map (·.2) ++ vs) } freq b cal
        = .ok z ∧
      ∀ pre o post, out = pre ++ o :: post → (∃ d ∈ cash.map (·.1) ++ pre.map (·.maturity), d ≤ o.effective) →
        (∃ q ∈ cash.map (·.1) ++ pre.map (·.maturity), o.effective ≤ q ∧ ∀ r ∈ o :: post, q ≤ r.maturity) →
        InRange z o.effective ∧ InRange z o.maturity ∧ ∃ u v : ℝ, 0 < v ∧ z.discountFactors [o.effective] = [some u] ∧
          z.discountFactors [o.maturity] = [some v] ∧ u / v = 1 + o.forwardRate * o.periodYears := by
  have hyears := futures_years hsort hb h
  have hmono := yearsFrom_mono hb cd
  obtain ⟨hchain, vs, z, hvs, hz, hg, hr, htimes, hcashpt, hfutpt⟩ :=
    futures_curve sort hsort c cd cash basis b hb out h hlen hpos hnd hafter hacc freq cal
  refine ⟨vs, z, hvs, hz, ?_⟩
  intro pre o post he hlow hhigh
  have ho : o ∈ out := by rw [he]; simp
  have hpre : ∀ r ∈ pre, r ∈ out := fun r hr' => by rw [he]; simp [hr']
  obtain ⟨hoe, hom, hce, hcm⟩ := hyears o ho
  obtain ⟨q', hq', hq1, hq2⟩ := hhigh
  obtain ⟨d', hd', hd1⟩ := hlow
  have hknown : ∀ d ∈ cash.map (·.1) ++ pre.map (·.maturity), d ∈ cash.map (·.1) ++ out.map (·.maturity) := by
    intro d hd
    rcases List.mem_append.mp hd with hd | hd
    · exact List.mem_append_left _ hd
    · obtain ⟨r, hr', rfl⟩ := List.mem_map.mp hd
      exact List.mem_append_right _ (List.mem_map.mpr ⟨r, hpre r hr', rfl⟩)
  have hine : InRange z o.effective := (hr _).mpr ⟨hce, q', hknown q' hq', hq1⟩
  have hinm : InRange z o.maturity := (hr _).mpr ⟨hcm, o.maturity, List.mem_append_right _ (List.mem_map.mpr ⟨o, ho, rfl⟩), le_refl _⟩
  obtain ⟨L, u, v, hL, hu, hv, hou, hov, hline, huv⟩ := chain_split hchain pre o post he
  refine ⟨hine, hinm, u, v, hv, ?_, ?_, huv⟩
  swap
  · obtain ⟨t, ht⟩ := one_year hb hcm
    have := hfutpt o ho v hov
    rw [yearsFrom_eq ht] at this
    exact C35_pillar hz hg _ (actBasis_plain hb _) hinm t ht v this
  obtain ⟨t, ht⟩ := one_year hb hce
  have hx : o.effectiveYears = t := by rw [hoe, yearsFrom_eq ht]
  rw [hx] at hline
  obtain ⟨P, p, q, Q, hperm, hsorted, hpq, hP, hQ, heq⟩ := hline
  -- the known points are points of the curve, at the times of the known dates
  have hLpt : ∀ w ∈ L, ∃ r ∈ pre, w.1 = yearsFrom b cd r.maturity ∧ r.maturityDf = some w.2 := by
    intro w hw
    have : (w.1, some w.2) ∈ L.map (fun p => (p.1, some p.2)) := List.mem_map.mpr ⟨w, hw, rfl⟩
    rw [← hL] at this
    obtain ⟨r, hr', hre⟩ := List.mem_map.mp this
    simp only [Prod.mk.injEq] at hre
    exact ⟨r, hr', by rw [← hre.1, (hyears r (hpre r hr')).2.1], hre.2⟩
  have hknot : ∀ k ∈ P ++ p :: q :: Q, ∃ w : ℝ × ℝ, w ∈ points z ∧ k = (w.1, Real.log w.2) ∧
      ∃ d ∈ cash.map (·.1) ++ pre.map (·.maturity), w.1 = yearsFrom b cd d := by
    intro k hk
    obtain ⟨w, hw, rfl⟩ := List.mem_map.mp (hperm.subset hk)
    refine ⟨w, ?_, rfl, ?_⟩
    · rcases List.mem_append.mp hw with hw | hw
      · obtain ⟨a, ha, rfl⟩ := List.mem_map.mp hw
        exact hcashpt a ha
      · obtain ⟨r, hr', h1, h2⟩ := hLpt w hw
        have := hfutpt r (hpre r hr') w.2 h2
        rw [← h1] at this
        exact this
    · rcases List.mem_append.mp hw with hw | hw
      · obtain ⟨a, ha, rfl⟩ := List.mem_map.mp hw
        exact ⟨a.1, List.mem_append_left _ (List.mem_map.mpr ⟨a, ha, rfl⟩), rfl⟩
      · obtain ⟨r, hr', h1, -⟩ := hLpt w hw
        exact ⟨r.maturity, List.mem_append_right _ (List.mem_map.mpr ⟨r, hr', rfl⟩), h1⟩
  have hdate : ∀ d ∈ cash.map (·.1) ++ pre.map (·.maturity), ∃ k ∈ P ++ p :: q :: Q, k.1 = yearsFrom b cd d := by
    intro d hd
    have : ∃ w ∈ cash.map (fun p => (yearsFrom b cd p.1, p.2)) ++ L, w.1 = yearsFrom b cd d := by
      rcases List.mem_append.mp hd with hd | hd
      · obtain ⟨a, ha, rfl⟩ := List.mem_map.mp hd
        exact ⟨_, List.mem_append_left _ (List.mem_map.mpr ⟨a, ha, rfl⟩), rfl⟩
      · obtain ⟨r, hr', rfl⟩ := List.mem_map.mp hd
        have : (r.maturityYears, r.maturityDf) ∈ pre.map (fun r => (r.maturityYears, r.maturityDf)) := List.mem_map.mpr ⟨r, hr', rfl⟩
        rw [hL] at this
        obtain ⟨w, hw, hwe⟩ := List.mem_map.mp this
        simp only [Prod.mk.injEq] at hwe
        exact ⟨w, List.mem_append_right _ hw, by rw [hwe.1, (hyears r (hpre r hr')).2.1]⟩
    obtain ⟨w, hw, hwe⟩ := this
    exact ⟨(w.1, Real.log w.2), hperm.symm.subset (List.mem_map.mpr ⟨w, hw, rfl⟩), hwe⟩
  rw [List.pairwise_append, List.pairwise_cons, List.pairwise_cons] at hsorted
  obtain ⟨-, ⟨hpQ, hqQ, -⟩, hPQ⟩ := hsorted
  have hsplit : ∀ k ∈ P ++ p :: q :: Q, k.1 ≤ p.1 ∨ q.1 ≤ k.1 := by
    intro k hk
    rcases List.mem_append.mp hk with hk | hk
    · exact .inl (hPQ k hk p (by simp))
    · rcases List.mem_cons.mp hk with rfl | hk
      · exact .inl le_rfl
      · rcases List.mem_cons.mp hk with rfl | hk
        · exact .inr le_rfl
        · exact .inr (hqQ k hk)
  have hxt : yearsFrom b cd o.effective = t := yearsFrom_eq ht
  have hpx : p.1 ≤ t := by
    rcases hP with rfl | hP
    · obtain ⟨k, hk, hke⟩ := hdate d' hd'
      have h1 : k.1 ≤ t := by rw [hke, ← hxt]; exact hmono _ _ (hafter _ (hknown d' hd')).le hd1
      rcases List.mem_cons.mp (by simpa using hk : k ∈ p :: q :: Q) with rfl | hk
      · exact h1
      · exact (hpQ k hk).trans h1
    · exact hP.le
  obtain ⟨k, hk, hke⟩ := hdate q' hq'
  have hxk : (t : ℝ) ≤ k.1 := by rw [hke, ← hxt]; exact hmono _ _ hce hq1
  have hxq : (t : ℝ) ≤ q.1 := by
    rcases hQ with rfl | hQ
    · rcases List.mem_append.mp hk with hk | hk
      · exact hxk.trans (hPQ k hk q (by simp))
      · rcases List.mem_cons.mp hk with rfl | hk
        · exact hxk.trans hpq.le
        · rw [List.mem_singleton] at hk
          subst hk
          exact hxk
    · exact hQ
  obtain ⟨wp, hwp, rfl, dp, hdp, hdpe⟩ := hknot p (by simp)
  obtain ⟨wq, hwq, rfl, -⟩ := hknot q (by simp)
  simp only at hpq hpx hxq heq hsplit
  rcases eq_or_lt_of_le hpx with hpe | hplt
  · have : Real.log u = Real.log wp.2 := by
      rw [hpe, sub_self, mul_zero] at heq
      rcases mul_eq_zero.mp heq with h0 | h0
      · linarith
      · linarith
    have hue : u = wp.2 := Real.log_injOn_pos (Set.mem_Ioi.mpr hu) (Set.mem_Ioi.mpr (hg.2 _ hwp)) this
    rw [hue]
    refine C35_pillar hz hg _ (actBasis_plain hb _) hine t ht _ ?_
    rw [← hpe]
    exact hwp
  · have hqk : wq.1 ≤ k.1 := by
      rcases hsplit k hk with h1 | h1
      · linarith
      · exact h1
    have hn : Neighbours (points z) wp wq := by
      refine neighbours_of_gap hg.1 hwp hwq hpq ?_
      intro r hr' hlt
      rcases htimes r hr' with h0 | ⟨d, hd, hde⟩
      · have h1 := yearsFrom_lt hb le_rfl (hafter dp (hknown dp hdp))
        have h2 : yearsFrom b cd cd = 0 := by rw [yearsFrom_eq (yearFrac_self (actBasis_plain hb cd))]; simp
        rw [h2, ← hdpe] at h1
        linarith
      · by_cases hdk : d ∈ cash.map (·.1) ++ pre.map (·.maturity)
        · obtain ⟨k2, hk2, hk2e⟩ := hdate d hdk
          rcases hsplit k2 hk2 with h1 | h1
          · rw [hk2e, ← hde] at h1
            linarith
          · rw [hk2e, ← hde] at h1
            exact h1
        · have hdo : ∃ r ∈ o :: post, d = r.maturity := by
            rw [he, List.map_append, ← List.append_assoc] at hd
            rcases List.mem_append.mp hd with hd | hd
            · exact absurd hd hdk
            · obtain ⟨r, hr2, rfl⟩ := List.mem_map.mp hd
              exact ⟨r, hr2, rfl⟩
          obtain ⟨r2, hr2, rfl⟩ := hdo
          rw [hde]
          refine hqk.trans ?_
          rw [hke]
          exact hmono _ _ (hafter _ (hknown q' hq')).le (hq2 r2 hr2)
    obtain ⟨w, hw, hw0, hwl⟩ := C35_log_linear hz hg _ (actBasis_plain hb _) hine t ht wp wq hn hpx hxq
    have hd0 : wq.1 - wp.1 ≠ 0 := by linarith
    have : Real.log w = Real.log u := by
      rw [hwl, div_mul_eq_mul_div, ← heq]
      field_simp
      ring
    rw [hw, Real.log_injOn_pos (Set.mem_Ioi.mpr hw0) (Set.mem_Ioi.mpr hu) this]

/-- **C110** A first contract that starts after every cash rate ends, `p` and `q` being the last two cash rates.  Its
discount factor at the start was taken on the line through `p` and `q`, while the curve joins `q` to its maturity.  On the curve it
therefore grows at its own forward rate only if this rate, continuously compounded, is that between `p` and `q`. -/
theorem C110_gap (sort : List FuturesRow → List FuturesRow) (hsort : SortsOn FuturesRow.effective sort) (c : FuturesColumns)
    (cd : Int) (cash : List (Int × ℝ)) (basis b : DayCountBasis) (hb : ActBasis b) (out : List FuturesRow)
    (h : bootstrapFutures sort c cd (cash.map (fun p => (yearsFrom b cd p.1, some p.2))) basis b = .ok out)
    (hlen : 2 ≤ cash.length) (hpos : ∀ p ∈ cash, 0 < p.2) (hnd : (cash.map (·.1) ++ out.map (·.maturity)).Nodup)
    (hafter : ∀ d ∈ cash.map (·.1) ++ out.map (·.maturity), cd < d)
    (hacc : ∀ o ∈ out, 0 < 1 + o.forwardRate * o.periodYears) (freq : Option CompoundingFreq) (cal : BusCal) :
    ∃ (vs : List ℝ) (z : ZeroCurve), out.map (·.maturityDf) = vs.map some ∧
      makeZeroCurve cd { date := some (cash.map (·.1) ++ out.map (·.maturity)), discountFactor := some (cash.map (·.2) ++ vs) } freq b cal
        = .ok z ∧
      ∀ o post, out = o :: post → (∀ r ∈ post, o.maturity ≤ r.maturity) → o.effective < o.maturity → ∀ p ∈ cash, ∀ q ∈ cash, p.1 < q.1 → (∀ r ∈ cash, r.1 ≤ p.1 ∨ r.1 = q.1) →
        q.1 < o.effective →
        ∃ u v : ℝ, 0 < u ∧ 0 < v ∧ z.discountFactors [o.effective] = [some u] ∧ z.discountFactors [o.maturity] = [some v] ∧
          (u / v = 1 + o.forwardRate * o.periodYears ↔
            Real.log (1 + o.forwardRate * o.periodYears) / (yearsFrom b cd o.maturity - yearsFrom b cd o.effective) =
              Real.log (p.2 / q.2) / (yearsFrom b cd q.1 - yearsFrom b cd p.1)) := by
  have hyears := futures_years hsort hb h
  have hmono := yearsFrom_mono hb cd
  obtain ⟨hchain, vs, z, hvs, hz, hg, hr, htimes, hcashpt, hfutpt⟩ :=
    futures_curve sort hsort c cd cash basis b hb out h hlen hpos hnd hafter hacc freq cal
  refine ⟨vs, z, hvs, hz, ?_⟩
  intro o post hout hpost hem p hp q hq hpq hlast hqe
  have ho : o ∈ out := by rw [hout]; simp
  obtain ⟨hoe, hom, hce, hcm⟩ := hyears o ho
  have hcd : ∀ r ∈ cash, cd < r.1 := fun r hr' => hafter r.1 (List.mem_append_left _ (List.mem_map.mpr ⟨r, hr', rfl⟩))
  have hmem : o.maturity ∈ cash.map (·.1) ++ out.map (·.maturity) := List.mem_append_right _ (List.mem_map.mpr ⟨o, ho, rfl⟩)
  have hine : InRange z o.effective := (hr _).mpr ⟨hce, o.maturity, hmem, hem.le⟩
  have hinm : InRange z o.maturity := (hr _).mpr ⟨hcm, o.maturity, hmem, le_refl _⟩
  obtain ⟨L, u0, v, hL, hu0, hv, hou, hov, hline, huv⟩ := chain_split hchain [] o post (by simpa using hout)
  have hL0 : L = [] := by
    cases L with
    | nil => rfl
    | cons a L => simp at hL
  subst hL0
  obtain ⟨tm, htm⟩ := one_year hb hcm
  obtain ⟨t, ht⟩ := one_year hb hce
  have hx : yearsFrom b cd o.effective = t := yearsFrom_eq ht
  have hvm : z.discountFactors [o.maturity] = [some v] := by
    have := hfutpt o ho v hov
    rw [yearsFrom_eq htm] at this
    exact C35_pillar hz hg _ (actBasis_plain hb _) hinm tm htm v this
  have hqx := yearsFrom_lt hb (hcd q hq).le hqe
  have hxm := yearsFrom_lt hb hce hem
  have hpq' := yearsFrom_lt hb (hcd p hp).le hpq
  -- the curve joins the last cash rate to the maturity
  have hn : Neighbours (points z) (yearsFrom b cd q.1, q.2) (yearsFrom b cd o.maturity, v) := by
    refine neighbours_of_gap hg.1 (hcashpt q hq) (hfutpt o ho v hov) (hqx.trans hxm) ?_
    intro r hr' hlt
    simp only at hlt ⊢
    have h0 := yearsFrom_lt hb le_rfl (hcd q hq)
    have h2 : yearsFrom b cd cd = 0 := by rw [yearsFrom_eq (yearFrac_self (actBasis_plain hb cd))]; simp
    rcases htimes r hr' with hz0 | ⟨d, hd, hde⟩
    · linarith
    · rcases List.mem_append.mp hd with hd | hd
      · obtain ⟨a, ha, rfl⟩ := List.mem_map.mp hd
        have : yearsFrom b cd a.1 ≤ yearsFrom b cd q.1 := by
          rcases hlast a ha with h1 | h1
          · exact hmono _ _ (hcd a ha).le (h1.trans hpq.le)
          · rw [h1]
        linarith
      · rw [hout] at hd
        rw [hde]
        rcases List.mem_cons.mp hd with rfl | hd
        · exact le_rfl
        · obtain ⟨w, hw, rfl⟩ := List.mem_map.mp hd
          exact hmono _ _ hcm (hpost w hw)
  obtain ⟨u, hu, hup, hul⟩ := C35_log_linear hz hg _ (actBasis_plain hb _) hine t ht _ _ hn (by simp only; linarith) (by simp only; linarith)
  refine ⟨u, v, hup, hv, hu, hvm, ?_⟩
  -- the bootstrap continued the line through the last two cash rates
  have hb0 : (Real.log u0 - Real.log p.2) * (yearsFrom b cd q.1 - yearsFrom b cd p.1) =
      (Real.log q.2 - Real.log p.2) * (t - yearsFrom b cd p.1) := by
    obtain ⟨P, p', q', Q, hperm, hsorted, hpq2, hP, hQ, heq⟩ := hline
    rw [List.append_nil] at hperm
    rw [List.map_map] at hperm
    have hkc : ∀ k ∈ P ++ p' :: q' :: Q, ∃ a ∈ cash, k = (yearsFrom b cd a.1, Real.log a.2) := by
      intro k hk
      obtain ⟨a, ha, rfl⟩ := List.mem_map.mp (hperm.subset hk)
      exact ⟨a, ha, rfl⟩
    have hck : ∀ a ∈ cash, (yearsFrom b cd a.1, Real.log a.2) ∈ P ++ p' :: q' :: Q := fun a ha =>
      hperm.symm.subset (List.mem_map.mpr ⟨a, ha, rfl⟩)
    rw [List.pairwise_append, List.pairwise_cons, List.pairwise_cons] at hsorted
    obtain ⟨-, ⟨hpQ, hqQ, -⟩, hPQ⟩ := hsorted
    have hle : ∀ a ∈ cash, yearsFrom b cd a.1 ≤ yearsFrom b cd p.1 ∨ a = q := by
      intro a ha
      rcases hlast a ha with h1 | h1
      · exact .inl (hmono _ _ (hcd a ha).le h1)
      · exact .inr (List.inj_on_of_nodup_map (List.nodup_append.mp hnd).1 ha hq h1)
    obtain ⟨a, ha, hqa⟩ := hkc q' (by simp)
    obtain ⟨a2, ha2, hpa⟩ := hkc p' (by simp)
    have hQ0 : Q = [] := by
      rcases hQ with hQ | hQ
      · exact hQ
      · exfalso
        rw [hqa] at hQ
        simp only at hQ
        rw [hoe] at hQ
        rcases hle a ha with h1 | rfl
        · linarith
        · linarith
    subst hQ0
    have hqq : yearsFrom b cd q.1 ≤ q'.1 := by
      rcases List.mem_append.mp (hck q hq) with h1 | h1
      · exact hPQ _ h1 q' (by simp)
      · rcases List.mem_cons.mp h1 with h1 | h1
        · rw [← h1] at hpq2
          exact hpq2.le
        · rw [List.mem_singleton] at h1
          rw [← h1]
    have haq : a = q := by
      rcases hle a ha with h1 | h1
      · rw [hqa] at hqq
        simp only at hqq
        linarith
      · exact h1
    have hpp : yearsFrom b cd p.1 ≤ p'.1 := by
      rcases List.mem_append.mp (hck p hp) with h1 | h1
      · exact hPQ _ h1 p' (by simp)
      · rcases List.mem_cons.mp h1 with h1 | h1
        · rw [← h1]
        · rw [List.mem_singleton, hqa, haq] at h1
          simp only [Prod.mk.injEq] at h1
          linarith [h1.1]
    have hap : a2 = p := by
      rcases hle a2 ha2 with h1 | h1
      · rw [hpa] at hpp
        simp only at hpp
        have he : yearsFrom b cd a2.1 = yearsFrom b cd p.1 := le_antisymm h1 hpp
        refine List.inj_on_of_nodup_map (List.nodup_append.mp hnd).1 ha2 hp ?_
        rcases lt_trichotomy a2.1 p.1 with hlt | h2 | hlt
        · exact absurd he (yearsFrom_lt hb (hcd _ ha2).le hlt).ne
        · exact h2
        · exact absurd he (yearsFrom_lt hb (hcd _ hp).le hlt).ne'
      · rw [hpa, hqa, h1, haq] at hpq2
        exact absurd hpq2 (lt_irrefl _)
    rw [hpa, hqa, haq, hap, hoe, hx] at heq
    exact heq
  have hG : (u / v = 1 + o.forwardRate * o.periodYears) ↔ Real.log u = Real.log u0 := by
    rw [← huv, div_left_inj' hv.ne']
    exact ⟨fun h => by rw [h], fun h => Real.log_injOn_pos (Set.mem_Ioi.mpr hup) (Set.mem_Ioi.mpr hu0) h⟩
  have hg' : Real.log (1 + o.forwardRate * o.periodYears) = Real.log u0 - Real.log v := by
    rw [← huv, Real.log_div hu0.ne' hv.ne']
  rw [hG, hg', hul, Real.log_div (hpos p hp).ne' (hpos q hq).ne', hx]
  simp only
  rw [hx] at hqx hxm
  have d1 : yearsFrom b cd q.1 - yearsFrom b cd p.1 ≠ 0 := by linarith
  have d2 : yearsFrom b cd o.maturity - (t : ℝ) ≠ 0 := by linarith
  have d3 : yearsFrom b cd o.maturity - yearsFrom b cd q.1 ≠ 0 := by linarith
  have d4 : (t : ℝ) - yearsFrom b cd q.1 ≠ 0 := by linarith
  generalize yearsFrom b cd q.1 = Q at *
  generalize yearsFrom b cd p.1 = P at *
  generalize yearsFrom b cd o.maturity = M at *
  generalize Real.log u0 = lu0 at *
  generalize Real.log v = lv at *
  generalize Real.log p.2 = lp at *
  generalize Real.log q.2 = lq at *
  obtain ⟨s, hs⟩ : ∃ s, lq - lp = s * (Q - P) := ⟨(lq - lp) / (Q - P), by field_simp⟩
  have hu' : lu0 = lq + s * (t - Q) := by
    have : (lu0 - (lq + s * (t - Q))) * (Q - P) = 0 := by
      rw [hs] at hb0
      have : lp = lq - s * (Q - P) := by linarith
      rw [this] at hb0
      linarith
    rcases mul_eq_zero.mp this with h1 | h1
    · linarith
    · exact absurd h1 d1
  have hs' : (lp - lq) / (Q - P) = -s := by
    rw [div_eq_iff d1]
    linarith
  rw [hs', hu', div_eq_iff d2]
  constructor
  · intro h1
    have h2 : ((lv - lq) / (M - Q) - s) * (t - Q) = 0 := by linarith
    rcases mul_eq_zero.mp h2 with h3 | h3
    · have : lv - lq = s * (M - Q) := by rw [← div_eq_iff d3]; linarith
      linarith
    · exact absurd h3 d4
  · intro h1
    have : lv - lq = s * (M - Q) := by linarith
    rw [this, mul_div_assoc, div_self d3, mul_one]

/-- Two contracts after cash rates to day 91 and day 182: the first starts between them, the second after them but before the first one
ends.  The curve gives both forward rates back. -/
example (cal : BusCal) : ∃ sort out vs z,
    bootstrapFutures sort { effective := [100, 190], maturity := [200, 273], price := some [95, 94.5] } 0
      ([((91 : Int), (0.99 : ℝ)), (182, 0.98)].map (fun p => (yearsFrom .act_365 0 p.1, some p.2))) .act_365 .act_365 = .ok out ∧
    out.map (·.maturityDf) = vs.map some ∧
    makeZeroCurve 0 { date := some ([91, 182] ++ out.map (·.maturity)), discountFactor := some ([0.99, 0.98] ++ vs) } none .act_365 cal
      = .ok z ∧ out.length = 2 ∧
    ∀ o ∈ out, ∃ u v : ℝ, 0 < v ∧ z.discountFactors [o.effective] = [some u] ∧ z.discountFactors [o.maturity] = [some v] ∧
      u / v = 1 + o.forwardRate * o.periodYears := by
  have hs : SortsOn FuturesRow.effective (fun l => l.insertionSort (fun a b => a.effective ≤ b.effective)) := by
    intro l
    have ht : Std.Total (fun a b : FuturesRow => a.effective ≤ b.effective) := ⟨fun a b => le_total _ _⟩
    have htr : IsTrans FuturesRow (fun a b => a.effective ≤ b.effective) := ⟨fun a b c h1 h2 => le_trans h1 h2⟩
    exact ⟨List.perm_insertionSort _ l, List.pairwise_insertionSort _ l⟩
  have hb : ActBasis .act_365 := .inr (.inl rfl)
  have y1 : yearFrac [100, 190] [200, 273] .act_365 none = .ok [100 / 365, 83 / 365] := by decide +kernel
  have y2 : yearFrac [0] [100, 190] .act_365 none = .ok [100 / 365, 190 / 365] := by decide +kernel
  have y3 : yearFrac [0] [200, 273] .act_365 none = .ok [200 / 365, 273 / 365] := by decide +kernel
  have hout : ∃ out, bootstrapFutures (fun l => l.insertionSort (fun a b => a.effective ≤ b.effective))
      { effective := [100, 190], maturity := [200, 273], price := some [95, 94.5] } 0
      ([((91 : Int), (0.99 : ℝ)), (182, 0.98)].map (fun p => (yearsFrom .act_365 0 p.1, some p.2))) .act_365 .act_365 = .ok out ∧
      ∃ o1 o2, out = [o1, o2] ∧ o1.effective = 100 ∧ o1.maturity = 200 ∧ o2.effective = 190 ∧ o2.maturity = 273 ∧
        0 < 1 + o1.forwardRate * o1.periodYears ∧ 0 < 1 + o2.forwardRate * o2.periodYears := by
    unfold bootstrapFutures forwardColumn futuresRates convexities
    simp only [y1, y2, y3, bind, Except.bind, pure, Except.pure, List.map_cons, List.isEmpty_cons, Bool.false_and, Bool.false_eq_true,
      if_false]
    refine ⟨_, rfl, ?_⟩
    simp only [List.map_nil, List.zip_cons_cons, List.zip_nil_right, List.map_cons, List.insertionSort_cons, List.insertionSort_nil,
      List.orderedInsert_nil, List.orderedInsert_cons]
    norm_num [bootstrapFuturesLoop]
    refine ⟨_, _, ⟨rfl, rfl⟩, ?_⟩
    norm_num
  obtain ⟨out, h, o1, o2, rfl, e1, m1, e2, m2, g1, g2⟩ := hout
  obtain ⟨vs, z, k1, k2, k3⟩ := C110_futures_partial _ hs _ 0 [(91, 0.99), (182, 0.98)] .act_365 .act_365 hb [o1, o2] h (by simp)
    (by simp; norm_num) (by simp [m1, m2]) (by simp [m1, m2]) (by simp [g1, g2]) none cal
  refine ⟨_, _, vs, z, h, k1, k2, rfl, ?_⟩
  intro o ho
  simp only [List.mem_cons, List.not_mem_nil, or_false] at ho
  rcases ho with rfl | rfl
  · exact (k3 [] o [o2] rfl ⟨91, by simp, by omega⟩ ⟨182, by simp, by omega, by simp [m1, m2]⟩).2.2
  · exact (k3 [o1] o [] rfl ⟨91, by simp, by omega⟩ ⟨200, by simp [m1], by omega, by simp [m2]⟩).2.2

/-- A contract at 5% from day 190, after cash rates of nothing to days 91 and 182: the curve does not give its forward rate back. -/
example (cal : BusCal) : ∃ out vs z o u v,
    bootstrapFutures (fun l => l.insertionSort (fun a b => a.effective ≤ b.effective))
      { effective := [190], maturity := [273], price := some [95] } 0
      ([((91 : Int), (1 : ℝ)), (182, 1)].map (fun p => (yearsFrom .act_365 0 p.1, some p.2))) .act_365 .act_365 = .ok out ∧
    out = [o] ∧ o.forwardRate = 0.05 ∧ out.map (·.maturityDf) = vs.map some ∧
    makeZeroCurve 0 { date := some ([91, 182] ++ out.map (·.maturity)), discountFactor := some ([1, 1] ++ vs) } none .act_365 cal = .ok z ∧
    z.discountFactors [o.effective] = [some u] ∧ z.discountFactors [o.maturity] = [some v] ∧
    u / v ≠ 1 + o.forwardRate * o.periodYears := by
  have hs : SortsOn FuturesRow.effective (fun l => l.insertionSort (fun a b => a.effective ≤ b.effective)) := by
    intro l
    have ht : Std.Total (fun a b : FuturesRow => a.effective ≤ b.effective) := ⟨fun a b => le_total _ _⟩
    have htr : IsTrans FuturesRow (fun a b => a.effective ≤ b.effective) := ⟨fun a b c h1 h2 => le_trans h1 h2⟩
    exact ⟨List.perm_insertionSort _ l, List.pairwise_insertionSort _ l⟩
  have hb : ActBasis .act_365 := .inr (.inl rfl)
  have y1 : yearFrac [190] [273] .act_365 none = .ok [83 / 365] := by decide +kernel
  have y2 : yearFrac [0] [190] .act_365 none = .ok [190 / 365] := by decide +kernel
  have y3 : yearFrac [0] [273] .act_365 none = .ok [273 / 365] := by decide +kernel
  have hout : ∃ out, bootstrapFutures (fun l => l.insertionSort (fun a b => a.effective ≤ b.effective))
      { effective := [190], maturity := [273], price := some [95] } 0
      ([((91 : Int), (1 : ℝ)), (182, 1)].map (fun p => (yearsFrom .act_365 0 p.1, some p.2))) .act_365 .act_365 = .ok out ∧
      ∃ o, out = [o] ∧ o.effective = 190 ∧ o.maturity = 273 ∧ o.forwardRate = 0.05 ∧ o.periodYears = 83 / 365 := by
    unfold bootstrapFutures forwardColumn futuresRates convexities
    simp only [y1, y2, y3, bind, Except.bind, pure, Except.pure, List.map_cons, List.isEmpty_cons, Bool.false_and, Bool.false_eq_true,
      if_false]
    refine ⟨_, rfl, ?_⟩
    simp only [List.map_nil, List.zip_cons_cons, List.zip_nil_right, List.map_cons, List.insertionSort_cons, List.insertionSort_nil,
      List.orderedInsert_nil]
    norm_num [bootstrapFuturesLoop]
  obtain ⟨out, h, o, rfl, e1, m1, f1, p1⟩ := hout
  obtain ⟨vs, z, k1, k2, k3⟩ := C110_gap _ hs _ 0 [(91, 1), (182, 1)] .act_365 .act_365 hb [o] h (by simp)
    (by simp) (by simp [m1]) (by simp [m1]) (by simp [f1, p1]; norm_num) none cal
  obtain ⟨u, v, -, -, hu, hv, hi⟩ := k3 o [] rfl (by simp) (by omega) (91, 1) (by simp) (182, 1) (by simp) (by norm_num) (by simp)
    (by simp only; omega)
  refine ⟨_, vs, z, o, u, v, h, rfl, f1, k1, k2, hu, hv, ?_⟩
  rw [Ne, hi, div_one, Real.log_one, zero_div, div_eq_zero_iff, f1, p1]
  have h1 := yearsFrom_lt hb (s := 0) (d := o.effective) (e := o.maturity) (by omega) (by omega)
  rintro (h2 | h2)
  · have := Real.log_pos (show (1 : ℝ) < 1 + 0.05 * (83 / 365) by norm_num)
    linarith
  · linarith

end Frm.Props
