import Verif.Props.C94

/-!
# C94: every strike of a built surface, and the exceptions of its last steps
-/

namespace Frm
namespace Props

open Spec Classical

set_option autoImplicit false

variable {sorts : FxSorts} {solve : (ℝ → ℝ) → DeltaQuote → Except Err ℝ} {x : FxInputs} {b : FxBuilt}

theorem pyInt_deltaText {d : Str} (h : DeltaText d) : ∃ n, pyInt d = .ok n ∧ 1 ≤ n ∧ n ≤ 49 := by
  have := deltaText_ind (P := fun d => (match pyInt d with | .ok n => decide (1 ≤ n) && decide (n ≤ 49) | .error _ => false) = true)
    (by decide +kernel) (by decide +kernel) h
  cases hp : pyInt d with
  | error e => rw [hp] at this; cases this
  | ok n =>
    rw [hp] at this
    simp only [Bool.and_eq_true, decide_eq_true_eq] at this
    exact ⟨n, rfl, this⟩

theorem pyInt_nondigit {s : Str} {c : Char} (hc : c ∈ s) (hd : c.isDigit = false) : pyInt s = .error .value := by
  unfold pyInt
  rw [if_neg]
  rintro ⟨-, h⟩
  have := List.all_eq_true.1 h c hc
  rw [hd] at this
  cases this

/-- The deltas that column names can stand for. -/
theorem smileDelta_range {name : Str} {y : Rat} (hsel : ((matchCallPut name).isSome || matchAtmDeltaNeutral name) = true)
    (h : smileDelta name = .ok (some y)) : y = 1 / 2 ∨ (1 / 100 ≤ |y| ∧ |y| ≤ 49 / 100) := by
  unfold smileDelta at h
  split at h
  · cases h; exact .inl rfl
  right
  obtain ⟨n, hn, h⟩ := fxBind_ok h
  simp only [pure, Except.pure, Except.ok.injEq] at h
  obtain ⟨f, hf, hfy⟩ := Option.map_eq_some_iff.1 h
  have hf1 : |(f : Rat)| = 1 := by
    obtain ⟨g, hg, hgf⟩ := Option.bind_eq_some_iff.1 hf
    cases hgf
    unfold smileFlag at hg
    split at hg
    · cases hg; norm_num
    · split at hg
      · cases hg; norm_num
      · cases hg
  have hn49 : 1 ≤ n ∧ n ≤ 49 := by
    rw [Bool.or_eq_true, matchAtmDeltaNeutral_iff, Option.isSome_iff_exists] at hsel
    rcases hsel with ⟨⟨d, c⟩, hm⟩ | hatm
    · rw [matchCallPut_iff] at hm
      obtain ⟨hd, t, ht⟩ : DeltaText d ∧ ∃ t, name = d ++ t ∧ (t.head? = some '_' ∨ ∃ k, t.head? = some k ∧ k ≠ '_' ∧ k.isDigit = false) := by
        have key : ∀ {ws : List Str}, DeltaSpelling ws d name → DeltaText d ∧ ∃ t, name = d ++ t ∧
            (t.head? = some '_' ∨ ∃ k, t.head? = some k ∧ k ≠ '_' ∧ k.isDigit = false) := by
          rintro ws ⟨hd, a, w, b, k, nl, ha, hw, -, -, -, he⟩
          refine ⟨hd, _, he, ?_⟩
          rcases ha with rfl | rfl | rfl
          · right
            rcases hw with rfl | rfl
            · exact ⟨'d', rfl, by decide, by decide⟩
            · exact ⟨'Δ', rfl, by decide, by decide⟩
          · exact .inl rfl
          · exact .inr ⟨' ', rfl, by decide, by decide⟩
        cases c
        · exact key hm
        · exact key hm
      obtain ⟨rfl, ht⟩ := ht
      have hbu : beforeUnderscore (d ++ t) = d ++ t.takeWhile (· != '_') := by
        unfold beforeUnderscore
        refine List.takeWhile_append_of_pos (fun c hc => ?_)
        have := deltaText_digits hd c hc
        simp only [bne_iff_ne, ne_eq]
        rintro rfl
        revert this
        decide
      rw [hbu] at hn
      cases t with
      | nil => rcases ht with h | ⟨k, h, -⟩ <;> cases h
      | cons k t =>
        simp only [List.head?_cons, Option.some.injEq] at ht
        rcases ht with rfl | ⟨k', rfl, hk1, hk2⟩
        · simp only [List.takeWhile_cons, bne_self_eq_false, Bool.false_eq_true, if_false, List.append_nil] at hn
          obtain ⟨n', hn', hr⟩ := pyInt_deltaText hd
          rw [hn] at hn'
          cases hn'
          exact hr
        · rw [pyInt_nondigit (c := k) (by simp [hk1]) hk2] at hn
          cases hn
    · have ha : ∃ t, name = 'a' :: t := by
        obtain ⟨a, s1, t, s2, m, s3, w, nl, ha, -, -, -, -, -, -, -, he⟩ := hatm
        rcases ha with rfl | rfl
        · exact ⟨_, he⟩
        · exact ⟨_, he⟩
      obtain ⟨t, rfl⟩ := ha
      rw [pyInt_nondigit (c := 'a') (by unfold beforeUnderscore; simp) (by decide)] at hn
      cases hn
  rw [← hfy, abs_div, abs_mul, hf1, one_mul]
  have h1 : (1 : Rat) ≤ n := by exact_mod_cast hn49.1
  have h2 : (n : Rat) ≤ 49 := by exact_mod_cast hn49.2
  rw [abs_of_nonneg (by linarith), abs_of_nonneg (by norm_num : (0 : Rat) ≤ 100)]
  constructor <;> linarith

theorem smile_row {sort : List SmileQuote → List SmileQuote} (hsort : SortsOnRat smileOrder sort) {columns : List Str} {out : List SmileQuote}
    (h : getDeltaSmileQuoteDetails sort columns = .ok out) {q : SmileQuote} (hq : q ∈ out) :
    ((matchCallPut q.name).isSome || matchAtmDeltaNeutral q.name) = true ∧ smileDelta q.name = .ok q.signedDelta := by
  unfold getDeltaSmileQuoteDetails at h
  obtain ⟨rows, hr, h⟩ := fxBind_ok h
  simp only [pure, Except.pure, Except.ok.injEq] at h
  subst h
  obtain ⟨k, hk⟩ := List.mem_iff_getElem?.1 ((hsort rows).1.mem_iff.1 hq)
  obtain ⟨hl, ha⟩ := mapM_get hr
  have hkl : k < (columns.filter (fun c => (matchCallPut c).isSome || matchAtmDeltaNeutral c)).length := by
    rw [← hl]; exact (List.getElem?_eq_some_iff.1 hk).1
  obtain ⟨q', e1, e2⟩ := ha k _ (List.getElem?_eq_getElem hkl)
  rw [hk] at e1
  cases e1
  have hmem := List.getElem_mem hkl
  rw [List.mem_filter] at hmem
  generalize (columns.filter (fun c => (matchCallPut c).isSome || matchAtmDeltaNeutral c))[k] = n at e2 hmem
  cases hd : smileDelta n with
  | error e => rw [hd] at e2; cases e2
  | ok d =>
    rw [hd] at e2
    simp only [Except.map, Except.ok.injEq] at e2
    subst e2
    exact ⟨hmem.2, hd⟩

/-- **C94.**  Every pillar has, for every quote of the smile, a strike whose delta under the convention of the pillar is the quote's delta, at the quote's volatility, the
pillar's time, forward and rates; only a spot delta too large for its discount factor may have none.  The deltas are one half (at the money) or between 1% and 49%. -/
theorem C94_every_strike (hsolve : SolvesStrikes solve) (hs : FxSorted sorts) (h : makeFxSurface sorts solve x = .ok b) (i : Nat) (p : FxPillar)
    (hi : b.pillars[i]? = some p) :
    ∃ s : Rat, b.spot = some s ∧ 0 < s ∧ 0 < p.years ∧ 0 < p.fwd ∧ ∃ conv ks, p.conv.convention = conventionText conv ∧ b.strikes[i]? = some ks ∧
      ∀ (j : Nat) q, b.smile[j]? = some q → ∃ v : Rat, p.vols[j]? = some (some v) ∧ 0 < v ∧ ∃ δ, q.signedDelta = some δ ∧
        (δ = 1 / 2 ∨ (1 / 100 ≤ |δ| ∧ |δ| ≤ 49 / 100)) ∧
        ((∃ K, ks[j]? = some (some K) ∧ QuotedStrike conv ⟨(s : ℝ), p.years, p.rd, p.rf, some p.fwd⟩ (v : ℝ) (δ : ℝ) K) ∨
        (ks[j]? = some none ∧ conv = .regularSpot ∧ Real.exp (-p.rf * p.years) ≤ |(δ : ℝ)|)) := by
  obtain ⟨s, hs1, h1, h2, h3, conv, ks, h4, h5, h6⟩ := C94_strikes hsolve h i p hi
  refine ⟨s, hs1, h1, h2, h3, conv, ks, h4, h5, fun j q hj => ?_⟩
  have hjl : j < p.vols.length := by
    rw [pillar_vols_length hs h (List.mem_of_getElem? hi)]
    exact (List.getElem?_eq_some_iff.1 hj).1
  obtain ⟨v, hvs, hv, δ, hδ, -, hk⟩ := h6 j q _ hj (List.getElem?_eq_getElem hjl)
  obtain ⟨g1, g2⟩ := smile_row hs.smile (makeFxSurface_parts h).smile (List.mem_of_getElem? hj)
  rw [hδ] at g2
  have hr := smileDelta_range g1 g2
  refine ⟨v, by rw [List.getElem?_eq_getElem hjl, hvs], hv, δ, hδ, hr, hk ?_ ?_⟩
  · rintro rfl
    rcases hr with hr | ⟨hr, -⟩ <;> norm_num at hr
  · rintro rfl
    exfalso
    rcases hr with hr | ⟨-, hr⟩
    · norm_num at hr
    · rw [abs_of_neg (by norm_num)] at hr
      norm_num at hr

/-- **C94.**  Forwards that are missing are passed over: the forward of a pillar is read off those of the table that are there.  Spot is one of them. -/
theorem C94_missing_forward (hs : FxSorted sorts) (h : makeFxSurface sorts solve x = .ok b) (i : Nat) (p : FxPillar) (hi : b.pillars[i]? = some p)
    (points : List (Int × Rat)) (hpts : ∀ d v, (d, v) ∈ points ↔ ∃ r ∈ b.callerForward.rows, r.rateSet = some d ∧ r.value = some v) :
    points ≠ [] ∧ ∃ f, ForwardAt points p.expiry f ∧ p.fwd = (f : ℝ) := by
  have hmem : ∀ q, q ∈ fixingPoints b.callerForward.rows ↔ q ∈ points := by
    rintro ⟨d, v⟩
    rw [hpts]
    unfold fixingPoints
    rw [List.mem_filterMap]
    refine exists_congr (fun r => and_congr_right (fun _ => ?_))
    cases r.rateSet <;> cases r.value <;> simp
  obtain ⟨-, -, ⟨f, hf, hpf⟩, -⟩ := C94_market hs h i p hi
  have hne : points ≠ [] := by
    rintro rfl
    rcases hf with h1 | ⟨q, q', h1, -⟩ | ⟨q, q', h1, -⟩
    · cases (hmem _).1 h1
    · cases (hmem _).1 h1.left
    · cases (hmem _).1 h1.first
  refine ⟨hne, f, ?_, hpf⟩
  rcases hf with h1 | ⟨q, q', h1, h2⟩ | ⟨q, q', h1, h2⟩
  · exact .inl ((hmem _).1 h1)
  · exact .inr (.inl ⟨q, q', ⟨(hmem _).1 h1.left, (hmem _).1 h1.right, h1.before, h1.after, fun r hr => h1.next r ((hmem _).2 hr)⟩, h2⟩)
  · exact .inr (.inr ⟨q, q', ⟨(hmem _).1 h1.first, (hmem _).1 h1.last, fun r hr => h1.min r ((hmem _).2 hr), fun r hr => h1.max r ((hmem _).2 hr)⟩, h2⟩)

/-- The steps of the constructor up to the rows of the volatility table. -/
structure FxRead (sorts : FxSorts) (x : FxInputs) (cd : Int) (spot : Option Rat) (smile : List SmileQuote) (forward : List FxRow) (vols : List VolRow) : Prop where
  steps : ∃ names so sd rows quotes rs, validateCcyPair (x.foreign ++ x.domestic) = .ok names ∧
    resolveFxCurveDates names.1 x.cal x.curveDate x.spotOffset x.spotDate = .ok (cd, so, sd) ∧
    fxForwardTable x.cal cd so x.forward = .ok rows ∧ forward = sorts.forward rows ∧ fxSpotRate forward = .ok spot ∧
    solveCallPut (cleanVolQuotesColumnNames x.quotes.quotes) = .ok quotes ∧
    getDeltaSmileQuoteDetails sorts.smile (quotes.map (·.1)) = .ok smile ∧
    volRows names.1 x.cal cd so x.quotes quotes (smile.map (·.name)) = .ok (rs, vols)
  domestic : x.domesticCurve.curveDate = cd
  foreign : x.foreignCurve.curveDate = cd

theorem read_pillars_error {cd : Int} {spot : Option Rat} {smile : List SmileQuote} {forward : List FxRow} {vols : List VolRow} {e : Err}
    (hr : FxRead sorts x cd spot smile forward vols)
    (h : fxPillars forward x.domesticCurve x.foreignCurve x.basis cd (sorts.pillars vols) = .error e) : makeFxSurface sorts solve x = .error e := by
  obtain ⟨⟨names, so, sd, rows, quotes, rs, h1, h2, h3, rfl, h5, h6, h7, h8⟩, hd, hf⟩ := hr
  unfold makeFxSurface
  simp only [bind, Except.bind, h1, h2, hd, hf, pyAssert, decide_true, if_true, h3, h5, h6, h7, h8, h]

theorem read_daily_error {cd : Int} {spot : Option Rat} {smile : List SmileQuote} {forward : List FxRow} {vols : List VolRow} {pillars : List FxPillar} {e : Err}
    (hr : FxRead sorts x cd spot smile forward vols)
    (h : fxPillars forward x.domesticCurve x.foreignCurve x.basis cd (sorts.pillars vols) = .ok pillars)
    (hdaily : smileDaily (fxCurvesOf forward x.domesticCurve x.foreignCurve x.basis cd ((pillars.map (·.expiry)).max?.getD cd))
      (pillars.map (·.smile)) = .error e) : makeFxSurface sorts solve x = .error e := by
  obtain ⟨⟨names, so, sd, rows, quotes, rs, h1, h2, h3, rfl, h5, h6, h7, h8⟩, hd, hf⟩ := hr
  unfold makeFxSurface
  simp only [bind, Except.bind, h1, h2, hd, hf, pyAssert, decide_true, if_true, h3, h5, h6, h7, h8, h, hdaily]

theorem read_strikes_error {cd : Int} {spot : Option Rat} {smile : List SmileQuote} {forward : List FxRow} {vols : List VolRow} {pillars : List FxPillar} {e : Err}
    {daily : List SmileDay} (hr : FxRead sorts x cd spot smile forward vols)
    (h : fxPillars forward x.domesticCurve x.foreignCurve x.basis cd (sorts.pillars vols) = .ok pillars)
    (hdaily : smileDaily (fxCurvesOf forward x.domesticCurve x.foreignCurve x.basis cd ((pillars.map (·.expiry)).max?.getD cd))
      (pillars.map (·.smile)) = .ok daily) (hs : pillars.mapM (pillarStrikes solve spot smile) = .error e) : makeFxSurface sorts solve x = .error e := by
  obtain ⟨⟨names, so, sd, rows, quotes, rs, h1, h2, h3, rfl, h5, h6, h7, h8⟩, hd, hf⟩ := hr
  unfold makeFxSurface
  simp only [bind, Except.bind, h1, h2, hd, hf, pyAssert, decide_true, if_true, h3, h5, h6, h7, h8, h, hdaily, hs]

theorem fxRatesAt_error {z : ZeroCurve} {dates : List Int} {e : Err} (h : fxRatesAt z dates = .error e) : e = .value := by
  unfold fxRatesAt at h
  split at h
  · cases h; rfl
  · split at h <;> cases h
    rfl

theorem fxForwardsAt_error {rows : List FxRow} {dates : List Int} {e : Err} (hfix : ∀ r ∈ rows, r.rateSet ≠ none)
    (h : fxForwardsAt rows dates = .error e) : e = .value := by
  unfold fxForwardsAt at h
  split at h
  · cases h; rfl
  · split at h
    · rename_i hm
      exfalso
      clear h
      induction rows with
      | nil => cases hm
      | cons r rs ih =>
        rw [List.mapM_cons] at hm
        obtain ⟨d, hd⟩ := Option.ne_none_iff_exists'.1 (hfix r (by simp))
        cases hrs : rs.mapM (fun r => r.rateSet.map (fun d => (d, r.value))) with
        | some t => rw [hd, hrs] at hm; cases hm
        | none =>
          refine ih (fun r hr => hfix r (List.mem_cons_of_mem _ hr)) ?_ hrs
          rename_i hnd
          rw [not_not] at hnd ⊢
          exact (List.nodup_cons.1 hnd).2
    · unfold interpFxForwards at h
      split at h
      · cases h; rfl
      · cases h

/-- **C94.**  `ValueError`: repeated fixing dates in the forward table, an expiry that is missing from one of the two zero curves, expiries out of order
(the rows are sorted by delivery), or no quotes at all, once the rows have been read and the year fractions computed. -/
theorem C94_raises_value {cd : Int} {spot : Option Rat} {smile : List SmileQuote} {forward : List FxRow} {vols : List VolRow}
    (hr : FxRead sorts x cd spot smile forward vols) (hfix : ∀ r ∈ forward, r.rateSet ≠ none)
    (expiries : List Int) (hexp : (sorts.pillars vols).map (·.row.rateSet) = expiries.map some)
    (hyears : ∃ ys, yearFrac [cd] expiries x.basis none = .ok ys)
    (hbad : ¬ (forward.map (·.rateSet)).Nodup ∨ (∃ e ∈ expiries, (∀ r ∈ x.domesticCurve.daily, r.date ≠ e) ∨ ∀ r ∈ x.foreignCurve.daily, r.date ≠ e) ∨
      ¬ expiries.Pairwise (· ≤ ·) ∨ expiries = []) :
    makeFxSurface sorts solve x = .error .value := by
  cases hp : fxPillars forward x.domesticCurve x.foreignCurve x.basis cd (sorts.pillars vols) with
  | error e =>
    obtain rfl : e = .value := by
      unfold fxPillars at hp
      split at hp
      · cases hp; rfl
      · rename_i ex hex
        have : ex = expiries := by
          have h2 := fxMapM_some_get hex
          rw [hexp] at h2
          exact (List.map_injective_iff.2 (Option.some_injective _) h2).symm
        subst this
        obtain ⟨ys, hys⟩ := hyears
        rw [hys] at hp
        simp only [bind, Except.bind] at hp
        split at hp
        · rename_i h1; cases hp; exact fxForwardsAt_error hfix h1
        · split at hp
          · rename_i h1; cases hp; exact fxRatesAt_error h1
          · split at hp
            · rename_i h1; cases hp; exact fxRatesAt_error h1
            · cases hp
    exact read_pillars_error hr hp
  | ok pillars =>
    obtain ⟨hpl, hpa⟩ := fxPillars_rows hp
    have hpe : pillars.map (·.expiry) = expiries := by
      apply List.ext_getElem?
      intro k
      rw [List.getElem?_map]
      have hk := congrArg (fun l => l[k]?) hexp
      simp only [List.getElem?_map] at hk
      by_cases hkl : k < (sorts.pillars vols).length
      · obtain ⟨p', h1, -, -, -, h5, -⟩ := hpa k _ (List.getElem?_eq_getElem hkl)
        rw [List.getElem?_eq_getElem hkl, Option.map_some, h5] at hk
        rw [h1, Option.map_some]
        cases he : expiries[k]? with
        | none => rw [he] at hk; cases hk
        | some e => rw [he] at hk; simp only [Option.map_some, Option.some.injEq] at hk ⊢; exact hk
      · rw [List.getElem?_eq_none (not_lt.1 hkl)] at hk
        rw [List.getElem?_eq_none (hpl ▸ not_lt.1 hkl)]
        cases he : expiries[k]? with
        | none => rfl
        | some e => rw [he] at hk; cases hk
    have hfind : ∀ (z : ZeroCurve) d v, z.zeroRates .continuous [d] = [some v] → ∃ r ∈ z.daily, r.date = d := by
      intro z d v hz
      unfold ZeroCurve.zeroRates ZeroCurve.indexDates at hz
      simp only [List.filter_cons, List.filter_nil] at hz
      by_cases hc : (!natGt (z.daily.map (·.date)).min? (some d) && !natGt (some d) (z.daily.map (·.date)).max?) = true
      · rw [if_pos hc] at hz
        simp only [List.map_cons, List.map_nil, List.cons.injEq, and_true] at hz
        obtain ⟨r, hr, -⟩ := Option.bind_eq_some_iff.1 hz
        exact ⟨r, List.mem_of_find?_eq_some hr, by simpa using List.find?_some hr⟩
      · rw [if_neg hc] at hz
        cases hz
    rcases hbad with hnd | ⟨e, he, hmiss⟩ | hord | hnil
    · exfalso
      unfold fxPillars at hp
      split at hp
      · cases hp
      · obtain ⟨_, -, hp⟩ := fxBind_ok hp
        obtain ⟨_, h2, -⟩ := fxBind_ok hp
        unfold fxForwardsAt at h2
        rw [if_pos hnd] at h2
        cases h2
    · exfalso
      rw [← hpe] at he
      obtain ⟨p, hpm, rfl⟩ := List.mem_map.1 he
      obtain ⟨k, hk⟩ := List.mem_iff_getElem?.1 hpm
      have hkl : k < (sorts.pillars vols).length := by rw [← hpl]; exact (List.getElem?_eq_some_iff.1 hk).1
      obtain ⟨p', h1, -, -, -, -, -, -, ⟨hzd, -⟩, hzf, -⟩ := hpa k _ (List.getElem?_eq_getElem hkl)
      rw [hk] at h1
      cases h1
      rcases hmiss with hm | hm
      · obtain ⟨r, hr, hre⟩ := hfind _ _ _ hzd
        exact hm r hr hre
      · obtain ⟨r, hr, hre⟩ := hfind _ _ _ hzf
        exact hm r hr hre
    · refine read_daily_error hr hp ?_
      unfold smileDaily
      split
      · rfl
      · rw [if_pos]
        intro hpw
        refine hord ?_
        rw [← hpe]
        rw [List.pairwise_map] at hpw
        rw [List.pairwise_map]
        exact hpw
    · refine read_daily_error hr hp ?_
      rw [← hpe, List.map_eq_nil_iff] at hnil
      subst hnil
      rfl

theorem fxMapM_first_error {α β : Type} {f : α → Except Err β} {e : Err} : ∀ (l : List α) (i : Nat) (a : α), l[i]? = some a → f a = .error e →
    (∀ (k : Nat) c, k < i → l[k]? = some c → ∃ y, f c = .ok y) → l.mapM f = .error e := by
  intro l
  induction l with
  | nil => intro i a h; simp at h
  | cons c t ih =>
    intro i a h he hpre
    rw [List.mapM_cons]
    cases i with
    | zero =>
      simp only [List.getElem?_cons_zero, Option.some.injEq] at h
      rw [h, he]
      rfl
    | succ i =>
      obtain ⟨y, hy⟩ := hpre 0 c (by omega) rfl
      rw [hy, show (Except.ok y : Except Err β) >>= (fun b => t.mapM f >>= fun bs => pure (b :: bs)) = (t.mapM f >>= fun bs => pure (y :: bs)) from rfl]
      rw [ih i a (by simpa using h) he (fun k c' hk hc => hpre (k + 1) c' (by omega) (by simpa using hc))]
      rfl

/-- **C94.**  `AssertionError`: the first pillar whose strikes cannot be computed has another convention, a
volatility that is missing or not positive, or no positive time, forward or spot (a missing spot included), once the daily smiles have been computed. -/
theorem C94_raises_assertion {cd : Int} {spot : Option Rat} {smile : List SmileQuote} {forward : List FxRow} {vols : List VolRow} {pillars : List FxPillar}
    {daily : List SmileDay} (hr : FxRead sorts x cd spot smile forward vols)
    (hp : fxPillars forward x.domesticCurve x.foreignCurve x.basis cd (sorts.pillars vols) = .ok pillars)
    (hdaily : smileDaily (fxCurvesOf forward x.domesticCurve x.foreignCurve x.basis cd ((pillars.map (·.expiry)).max?.getD cd))
      (pillars.map (·.smile)) = .ok daily) (i : Nat) (p : FxPillar) (hi : pillars[i]? = some p)
    (hpre : ∀ (k : Nat) q, k < i → pillars[k]? = some q → ∃ ks, pillarStrikes solve spot smile q = .ok ks)
    (hbad : (∀ conv, p.conv.convention ≠ conventionText conv) ∨ (∃ (j : Nat) (v : Option Rat), j < smile.length ∧ p.vols[j]? = some v ∧ ∀ w, v = some w → w ≤ 0) ∨
      (∀ w, spot = some w → w ≤ 0) ∨ p.years ≤ 0 ∨ p.fwd ≤ 0) :
    makeFxSurface sorts solve x = .error .assertion := by
  refine read_strikes_error hr hp hdaily (fxMapM_first_error _ i p hi ?_ hpre)
  unfold pillarStrikes
  split
  · rename_i conv deltas hconv hdel
    have hall := fxMapM_some_get hdel
    unfold gkStrikeFromDelta
    rw [if_pos]
    rcases hbad with hc | ⟨j, v, hj, hv, hv0⟩ | hpos
    · exact absurd (parse_text hconv) (hc conv)
    · right
      have hdl : j < deltas.length := by
        have := congrArg List.length hall
        simp only [List.length_map] at this
        omega
      have hz : (p.vols.zip deltas)[j]? = some (v, deltas[j]) := List.getElem?_zip_eq_some.2 ⟨hv, List.getElem?_eq_getElem hdl⟩
      refine ⟨⟨nanReal v, (deltas[j] : ℝ)⟩, List.mem_map.2 ⟨_, List.mem_of_getElem? hz, rfl⟩, ?_⟩
      rintro ⟨h1, -⟩
      simp only at h1
      obtain ⟨w, hw, hw0, -⟩ := nanReal_pos h1
      linarith [hv0 w hw]
    · left
      rintro ⟨h1, h2, h3⟩
      have h3' := h3 _ rfl
      simp only at h1 h2 h3'
      rcases hpos with h | h | h
      · obtain ⟨w, hw, hw0, -⟩ := nanReal_pos h1
        linarith [h w hw]
      · linarith
      · linarith
  · rfl

/-- The surface of `exampleFx` with another quote and another convention. -/
noncomputable def quoteFx (conv name : Str) (v : Option Rat) : FxInputs :=
  { exampleFx with quotes := ⟨true, [⟨some "1M".toList, none, none, none⟩], some [conv], [(name, [v])]⟩ }

def quoteRow : FxRow := ⟨some "1m".toList, some (mkDate 2024 2 29), some (mkDate 2024 3 4), none⟩

def quoteForward : List FxRow := [⟨some "sp".toList, some (mkDate 2024 1 31), some (mkDate 2024 2 2), some (2 / 3)⟩,
  ⟨some "1m".toList, some (mkDate 2024 2 29), some (mkDate 2024 3 4), some (7 / 10)⟩,
  ⟨some "1y".toList, some (mkDate 2025 1 31), some (mkDate 2025 2 4), some (3 / 4)⟩]

noncomputable def quotePillar (cv : ConventionRow) (v : Option Rat) : FxPillar :=
  ⟨quoteRow, mkDate 2024 2 29, ((29 / 365 : Rat) : ℝ), ((7 / 10 : Rat) : ℝ), 0.05, 0.04, cv, [v]⟩

def quoteSorts (s : List SmileQuote → List SmileQuote) : FxSorts :=
  ⟨sortBy (fun r => r.delivery.getD 0), sortBy (fun r => r.row.delivery.getD 0), s⟩

/-- Its steps up to the strikes. -/
theorem quoteFx_steps (s : List SmileQuote → List SmileQuote) (hs : SortsOnRat smileOrder s) (conv name : Str) (v : Option Rat) (q : SmileQuote) (cv : ConventionRow)
    (h5 : solveCallPut (cleanVolQuotesColumnNames [(name, [v])]) = .ok [(name, [v])])
    (h6 : getDeltaSmileQuoteDetails id [name] = .ok [q])
    (h7 : volRows "audusd".toList defaultBusCal (mkDate 2024 1 31) 2 (quoteFx conv name v).quotes [(name, [v])] [q.name] =
      .ok ([quoteRow], [⟨quoteRow, cv, [v]⟩])) :
    FxRead (quoteSorts s) (quoteFx conv name v) (mkDate 2024 1 31) (some (2 / 3)) [q] quoteForward [⟨quoteRow, cv, [v]⟩] ∧
    fxPillars quoteForward (quoteFx conv name v).domesticCurve (quoteFx conv name v).foreignCurve (quoteFx conv name v).basis (mkDate 2024 1 31)
      ((quoteSorts s).pillars [⟨quoteRow, cv, [v]⟩]) = .ok [quotePillar cv v] ∧
    ∃ daily, smileDaily (fxCurvesOf quoteForward (quoteFx conv name v).domesticCurve (quoteFx conv name v).foreignCurve (quoteFx conv name v).basis
      (mkDate 2024 1 31) (([quotePillar cv v].map (·.expiry)).max?.getD (mkDate 2024 1 31))) ([quotePillar cv v].map (·.smile)) = .ok daily := by
  have h1 : validateCcyPair (exampleFx.foreign ++ exampleFx.domestic) = .ok ("audusd".toList, "usd".toList, "aud".toList) := by decide +kernel
  have h2 : resolveFxCurveDates "audusd".toList defaultBusCal (some (mkDate 2024 1 31)) none none = .ok (mkDate 2024 1 31, 2, mkDate 2024 2 2) := by decide +kernel
  have h3 : fxForwardTable defaultBusCal (mkDate 2024 1 31) 2 exampleFx.forward =
    .ok [⟨some "1y".toList, some (mkDate 2025 1 31), some (mkDate 2025 2 4), some (3 / 4)⟩,
      ⟨some "sp".toList, some (mkDate 2024 1 31), some (mkDate 2024 2 2), some (2 / 3)⟩,
      ⟨some "1m".toList, some (mkDate 2024 2 29), some (mkDate 2024 3 4), some (7 / 10)⟩] := by decide +kernel
  have hfw0 : quoteForward = sortBy (fun r : FxRow => r.delivery.getD 0) [⟨some "1y".toList, some (mkDate 2025 1 31), some (mkDate 2025 2 4), some (3 / 4)⟩,
      ⟨some "sp".toList, some (mkDate 2024 1 31), some (mkDate 2024 2 2), some (2 / 3)⟩,
      ⟨some "1m".toList, some (mkDate 2024 2 29), some (mkDate 2024 3 4), some (7 / 10)⟩] := by decide +kernel
  have h4 : fxSpotRate quoteForward = .ok (some (2 / 3)) := by decide +kernel
  have h6' : getDeltaSmileQuoteDetails s [name] = .ok [q] := by
    have e : s [q] = [q] := List.perm_singleton.1 (hs _).1
    have e1 : getDeltaSmileQuoteDetails s [name] = (getDeltaSmileQuoteDetails id [name]).map s := by
      unfold getDeltaSmileQuoteDetails
      simp only [bind, Except.bind]
      split <;> rfl
    rw [e1, h6, Except.map, e]
  have hr : ∀ z : ZeroCurve, ∀ v y df, z.daily = [⟨mkDate 2024 2 29, y, some v, df⟩] → fxRatesAt z [mkDate 2024 2 29] = .ok [v] := by
    intro z v y df hz
    have : z.zeroRates .continuous [mkDate 2024 2 29] = [some v] := by
      unfold ZeroCurve.zeroRates ZeroCurve.indexDates
      simp [hz, natGt]
    unfold fxRatesAt
    rw [this]
    rfl
  have hy : yearFrac [mkDate 2024 1 31] [mkDate 2024 2 29] .act_365 none = .ok [29 / 365] := by decide +kernel
  have hfw : fxForwardsAt quoteForward [mkDate 2024 2 29] = .ok [some (7 / 10)] := by decide +kernel
  have hd := hr exampleFx.domesticCurve _ _ _ rfl
  have hf := hr exampleFx.foreignCurve _ _ _ rfl
  refine ⟨⟨⟨_, 2, mkDate 2024 2 2, _, _, _, h1, h2, h3, hfw0, h4, h5, h6', h7⟩, rfl, rfl⟩, ?_, ?_⟩
  · show fxPillars quoteForward exampleFx.domesticCurve exampleFx.foreignCurve .act_365 (mkDate 2024 1 31) [⟨quoteRow, cv, [v]⟩] = .ok [quotePillar cv v]
    unfold fxPillars
    have : [(⟨quoteRow, cv, [v]⟩ : VolRow)].mapM (fun r => r.row.rateSet) = some [mkDate 2024 2 29] := rfl
    rw [this]
    simp only [hy, hfw, hd, hf, bind, Except.bind]
    rfl
  · show ∃ daily, smileDaily (fxCurvesOf quoteForward exampleFx.domesticCurve exampleFx.foreignCurve .act_365 (mkDate 2024 1 31) (mkDate 2024 2 29))
      [(quotePillar cv v).smile] = .ok daily
    have hyr : (fxCurvesOf quoteForward exampleFx.domesticCurve exampleFx.foreignCurve .act_365 (mkDate 2024 1 31) (mkDate 2024 2 29)).years (mkDate 2024 2 29) = ((29 / 365 : Rat) : ℝ) := by
      have hy' : yearFrac [mkDate 2024 1 31] [mkDate 2024 2 29] .act_365 (some [decide (mkDate 2024 2 29 = mkDate 2024 2 29)]) = .ok [29 / 365] := by
        rw [yearFrac_flag (.inl (by decide))]
        exact hy
      show (match yearFrac [mkDate 2024 1 31] [mkDate 2024 2 29] .act_365 (some [decide (mkDate 2024 2 29 = mkDate 2024 2 29)]) with
        | .ok [y] => (y : ℝ)
        | _ => 0) = _
      rw [hy']
    generalize fxCurvesOf quoteForward exampleFx.domesticCurve exampleFx.foreignCurve .act_365 (mkDate 2024 1 31) (mkDate 2024 2 29) = curves at hyr
    generalize hp : (quotePillar cv v).smile = p
    have hps : p.years = ((29 / 365 : Rat) : ℝ) := by rw [← hp]; rfl
    have hpe : p.expiry = mkDate 2024 2 29 := by rw [← hp]; rfl
    rw [smileDaily_eq (p0 := p) (pn := p) (by simp) rfl rfl]
    have hdb : daysBetween p.expiry p.expiry = [p.expiry] := by
      unfold daysBetween
      simp
    rw [hdb]
    obtain ⟨hlo, hup⟩ := at_pillar (pillars := [p]) (by simp) (p := p) (by simp)
    obtain ⟨out, ho, -⟩ := C46_flat_forward (smileInterpRows curves p p p.expiry) (by
      intro r hr
      obtain ⟨vw, hvw, rfl⟩ := List.mem_map.1 hr
      simp only [hpe, hyr, hps]
      norm_num)
    have hday : smileDay curves [p] p.expiry = .ok ⟨p.expiry, curves.years p.expiry, curves.fwd p.expiry, curves.rd p.expiry, curves.rf p.expiry, p.conv, smileVols p p out⟩ := by
      unfold smileDay
      rw [hlo, hup]
      simp only [ho]
    exact ⟨_, fxMapM_single hday⟩

/-- Another convention. -/
example (s : List SmileQuote → List SmileQuote) (hs : SortsOnRat smileOrder s) :
    makeFxSurface (quoteSorts s) solve (quoteFx "spot".toList "atm_delta_neutral".toList (some (1 / 10))) = .error .assertion := by
  obtain ⟨hr, hp, daily, hd⟩ := quoteFx_steps s hs "spot".toList "atm_delta_neutral".toList (some (1 / 10)) ⟨"atm_delta_neutral".toList, some 1, some (1 / 2)⟩
    ⟨"spot".toList, (checkDeltaConvention "audusd".toList ⟨"spot".toList, []⟩).warnings⟩ (by decide +kernel) (by decide +kernel) (by decide +kernel)
  exact C94_raises_assertion hr hp hd 0 _ rfl (fun k q hk => absurd hk (by omega)) (.inl (fun c => by cases c <;> decide +kernel))

/-- A missing quote. -/
example (s : List SmileQuote → List SmileQuote) (hs : SortsOnRat smileOrder s) :
    makeFxSurface (quoteSorts s) solve (quoteFx "regular_forward".toList "atm_delta_neutral".toList none) = .error .assertion := by
  obtain ⟨hr, hp, daily, hd⟩ := quoteFx_steps s hs "regular_forward".toList "atm_delta_neutral".toList none ⟨"atm_delta_neutral".toList, some 1, some (1 / 2)⟩
    ⟨"regular_forward".toList, []⟩ (by decide +kernel) (by decide +kernel) (by decide +kernel)
  exact C94_raises_assertion hr hp hd 0 _ rfl (fun k q hk => absurd hk (by omega)) (.inr (.inl ⟨0, none, by simp, rfl, by simp⟩))

/-- Zero curves that end before the expiry. -/
example (s : List SmileQuote → List SmileQuote) (hs : SortsOnRat smileOrder s) :
    makeFxSurface (quoteSorts s) solve { quoteFx "regular_forward".toList "atm_delta_neutral".toList (some (1 / 10)) with
      domesticCurve := ⟨mkDate 2024 1 31, .act_365, defaultBusCal, [], []⟩ } = .error .value := by
  obtain ⟨⟨hr, -, hf⟩, -, -⟩ := quoteFx_steps s hs "regular_forward".toList "atm_delta_neutral".toList (some (1 / 10)) ⟨"atm_delta_neutral".toList, some 1, some (1 / 2)⟩
    ⟨"regular_forward".toList, []⟩ (by decide +kernel) (by decide +kernel) (by decide +kernel)
  exact C94_raises_value ⟨hr, rfl, hf⟩ (by decide +kernel) [mkDate 2024 2 29] rfl ⟨[29 / 365], by decide +kernel⟩
    (.inr (.inl ⟨mkDate 2024 2 29, by simp, .inl (by simp)⟩))

end Props
end Frm
