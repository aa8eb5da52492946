import Verif.Props.C38

/-! # C39 — Bootstrapped futures reprice and extend the curve -/

namespace Frm
open Spec

set_option autoImplicit false

theorem lt_iff_lt_countP {s : List (ℝ × Option ℝ)} (hs : s.Pairwise (fun a b => a.1 ≤ b.1)) (x : ℝ) :
    ∀ (i : Nat) (p : ℝ × Option ℝ), s[i]? = some p → (p.1 < x ↔ i < s.countP (fun q => decide (q.1 < x))) := by
  induction s with
  | nil => intro i p h; simp at h
  | cons a s ih =>
    intro i p h
    obtain ⟨h1, h2⟩ := List.pairwise_cons.mp hs
    by_cases ha : a.1 < x
    · rw [List.countP_cons_of_pos (by simpa using ha)]
      cases i with
      | zero =>
        simp only [List.getElem?_cons_zero, Option.some.injEq] at h
        subst h
        exact ⟨fun _ => Nat.succ_pos _, fun _ => ha⟩
      | succ i =>
        simp only [List.getElem?_cons_succ] at h
        rw [ih h2 i p h]
        omega
    · have hz : s.countP (fun q => decide (q.1 < x)) = 0 := by
        rw [List.countP_eq_zero]
        intro q hq
        have := h1 q hq
        simp only [decide_eq_true_eq]
        linarith
      rw [List.countP_cons_of_neg (by simpa using ha), hz]
      refine ⟨fun hp => ?_, fun hi => absurd hi (Nat.not_lt_zero _)⟩
      exfalso
      cases i with
      | zero =>
        simp only [List.getElem?_cons_zero, Option.some.injEq] at h
        subst h; exact ha hp
      | succ i =>
        simp only [List.getElem?_cons_succ] at h
        have := h1 p (List.mem_of_getElem? h)
        linarith

/-- Extrapolating linear interpolation through at least two points of distinct abscissa. -/
theorem interp1dExtrapolate_line {K : List (ℝ × ℝ)} (hlen : 2 ≤ K.length) (hnd : (K.map (·.1)).Nodup) (x : ℝ) :
    ∃ y, interp1dExtrapolate (K.map (fun p => (p.1, some p.2))) x = some y ∧ OnBrokenLine K x y := by
  have hperm := sortPoints_perm (K.map (fun p => (p.1, some p.2)))
  have hsort := sortPoints_sorted (K.map (fun p => (p.1, some p.2)))
  unfold interp1dExtrapolate
  generalize hs : sortPoints (K.map (fun p => (p.1, some p.2))) = s at hperm hsort
  have hl : s.length = K.length := by rw [hperm.length_eq, List.length_map]
  have hc := lt_iff_lt_countP hsort x
  simp only
  generalize s.countP (fun p => decide (p.1 < x)) = c at hc
  generalize hhi : min (max c 1) (s.length - 1) = hi
  have hi1 : 1 ≤ hi := by omega
  have hi2 : hi < s.length := by omega
  have e1 : s[hi - 1]? = some s[hi - 1] := List.getElem?_eq_getElem (by omega)
  have e2 : s[hi]? = some s[hi] := List.getElem?_eq_getElem hi2
  have hval : ∀ p ∈ s, ∃ k ∈ K, p = (k.1, some k.2) := by
    intro p hp
    obtain ⟨k, hk, rfl⟩ := List.mem_map.mp (hperm.mem_iff.mp hp)
    exact ⟨k, hk, rfl⟩
  obtain ⟨p, hp, hpe⟩ := hval _ (List.getElem_mem (l := s) (n := hi - 1) (by omega))
  obtain ⟨q, hq, hqe⟩ := hval _ (List.getElem_mem (l := s) (n := hi) hi2)
  have hnd' : (s.map (·.1)).Nodup := by
    have := hperm.map (fun p : ℝ × Option ℝ => p.1)
    rw [List.map_map] at this
    exact this.nodup_iff.mpr hnd
  have hsplit : s = s.take (hi - 1) ++ s[hi - 1] :: s[hi] :: s.drop (hi + 1) := by
    conv_lhs => rw [← List.take_append_drop (hi - 1) s, List.drop_eq_getElem_cons (by omega)]
    congr 2
    have : hi - 1 + 1 = hi := by omega
    rw [this, List.drop_eq_getElem_cons hi2]
  have hle : p.1 ≤ q.1 := by
    rw [hsplit, List.pairwise_append] at hsort
    have := (List.pairwise_cons.mp hsort.2.1).1 s[hi] List.mem_cons_self
    rwa [hpe, hqe] at this
  have hne : p.1 ≠ q.1 := by
    intro heq
    rw [hsplit] at hnd'
    simp only [List.map_append, List.map_cons] at hnd'
    have := (List.nodup_append.mp hnd').2.1
    rw [List.nodup_cons] at this
    apply this.1
    rw [hpe, hqe]
    simp [heq]
  have hlt : p.1 < q.1 := lt_of_le_of_ne hle hne
  rw [e1, e2, hpe, hqe]
  simp only [if_neg (Ne.symm hne), Option.bind_some, Option.map_some]
  refine ⟨_, rfl, ?_⟩
  let g : ℝ × Option ℝ → ℝ × ℝ := fun p => (p.1, p.2.getD 0)
  have hg : s.map g = (s.take (hi - 1)).map g ++ p :: q :: (s.drop (hi + 1)).map g := by
    conv_lhs => rw [hsplit]
    simp only [List.map_append, List.map_cons, hpe, hqe]
    rfl
  refine ⟨(s.take (hi - 1)).map g, p, q, (s.drop (hi + 1)).map g, ?_, ?_, hlt, ?_, ?_, ?_⟩
  · rw [← hg]
    have := hperm.map g
    rw [List.map_map] at this
    have hid : (g ∘ fun p : ℝ × ℝ => (p.1, some p.2)) = id := by funext p; rfl
    rwa [hid, List.map_id] at this
  · rw [← hg, List.pairwise_map]
    exact hsort
  · by_cases h : hi = 1
    · left; rw [h]; simp
    · right
      have := (hc (hi - 1) _ e1).mpr (by omega)
      rwa [hpe] at this
  · by_cases h : hi + 1 = s.length
    · left; rw [h]; simp
    · right
      have := (hc hi _ e2).not.mpr (by omega)
      rw [hqe] at this
      exact not_lt.mp this
  · have := sub_ne_zero.mpr hne.symm
    field_simp
    ring

theorem futuresLoop_chain (rows : List FuturesRow) (K : List (ℝ × ℝ)) (hlen : 2 ≤ K.length) (hpos : ∀ p ∈ K, 0 < p.2)
    (hnd : (K.map (·.1) ++ rows.map (·.maturityYears)).Nodup)
    (hacc : ∀ r ∈ rows, 0 < 1 + r.forwardRate * r.periodYears) :
    FuturesChain K (bootstrapFuturesLoop (K.map (fun p => (p.1, npLog (some p.2)))) rows) := by
  induction rows generalizing K with
  | nil => exact .nil K
  | cons r rest ih =>
    have hlog : K.map (fun p => (p.1, npLog (some p.2))) =
        (K.map (fun p => (p.1, Real.log p.2))).map (fun p => (p.1, some p.2)) := by
      rw [List.map_map]
      apply List.map_congr_left
      intro p hp
      simp [npLog, hpos p hp]
    have hnd1 : ((K.map (fun p => (p.1, Real.log p.2))).map (·.1)).Nodup := by
      rw [List.map_map]
      exact (List.nodup_append.mp hnd).1
    obtain ⟨y, hy, hline⟩ := interp1dExtrapolate_line (by simpa using hlen) hnd1 r.effectiveYears
    have hgrow := hacc r (by simp)
    unfold bootstrapFuturesLoop
    simp only
    have he : npExp (interp1dExtrapolate (K.map (fun p => (p.1, npLog (some p.2)))) r.effectiveYears) =
        some (Real.exp y) := by rw [hlog, hy]; rfl
    have hm : npDiv (some (Real.exp y)) (1 + r.forwardRate * r.periodYears) =
        some (Real.exp y / (1 + r.forwardRate * r.periodYears)) := by
      unfold npDiv; rw [if_neg hgrow.ne']; rfl
    rw [he, hm]
    have hv : 0 < Real.exp y / (1 + r.forwardRate * r.periodYears) := div_pos (Real.exp_pos y) hgrow
    refine .cons K _ _ (Real.exp y) (Real.exp y / (1 + r.forwardRate * r.periodYears)) (Real.exp_pos y) hv rfl rfl ?_ ?_ ?_
    · rw [Real.log_exp]; exact hline
    · have := hgrow.ne'
      have := (Real.exp_pos y).ne'
      field_simp
    · have := ih (K ++ [(r.maturityYears, Real.exp y / (1 + r.forwardRate * r.periodYears))]) (by simp; omega) (by
        intro p hp
        rcases List.mem_append.mp hp with hp | hp
        · exact hpos p hp
        · simp only [List.mem_singleton] at hp; rw [hp]; exact hv) (by simpa using hnd)
        (fun s hs => hacc s (by simp [hs]))
      simpa using this

theorem futuresLoop_keeps (rows : List FuturesRow) (K : List (ℝ × Option ℝ)) :
    (bootstrapFuturesLoop K rows).map (fun o => (o.effective, o.maturity, o.forwardRate, o.periodYears, o.effectiveYears,
      o.maturityYears)) = rows.map (fun o => (o.effective, o.maturity, o.forwardRate, o.periodYears, o.effectiveYears,
      o.maturityYears)) := by
  induction rows generalizing K with
  | nil => rfl
  | cons r rest ih => unfold bootstrapFuturesLoop; simp [ih]

theorem futuresLoop_row (rows : List FuturesRow) (K : List (ℝ × Option ℝ)) (o : FuturesRow)
    (ho : o ∈ bootstrapFuturesLoop K rows) : o.maturityDf = npDiv o.effectiveDf (1 + o.forwardRate * o.periodYears) := by
  induction rows generalizing K with
  | nil => cases ho
  | cons r rest ih =>
    unfold bootstrapFuturesLoop at ho
    rcases List.mem_cons.mp ho with rfl | ho
    · rfl
    · exact ih _ ho

/-- The rows before the loop. -/
theorem futuresRows {sort : List FuturesRow → List FuturesRow} {c : FuturesColumns} {cd : Int}
    {cash : List (ℝ × Option ℝ)} {basis basisYears : DayCountBasis} {out : List FuturesRow}
    (h : bootstrapFutures sort c cd cash basis basisYears = .ok out) :
    ∃ (fwd : List ℝ) (per ey my : List Rat), forwardColumn c = .ok fwd ∧ yearFrac c.effective c.maturity basis none = .ok per ∧
      yearFrac [cd] c.effective basisYears none = .ok ey ∧ yearFrac [cd] c.maturity basisYears none = .ok my ∧
      out = bootstrapFuturesLoop (cash.map (fun p => (p.1, npLog p.2))) (sort
        (((c.effective.zip c.maturity).zip (fwd.zip (per.zip (ey.zip my)))).map (fun p =>
          ({ effective := p.1.1, maturity := p.1.2, forwardRate := p.2.1, periodYears := p.2.2.1,
             effectiveYears := p.2.2.2.1, maturityYears := p.2.2.2.2 } : FuturesRow)))) := by
  unfold bootstrapFutures at h
  simp only [bind, Except.bind] at h
  cases h1 : forwardColumn c with
  | error e => rw [h1] at h; cases h
  | ok fwd =>
    rw [h1] at h; simp only at h
    cases h2 : yearFrac c.effective c.maturity basis none with
    | error e => rw [h2] at h; cases h
    | ok per =>
      rw [h2] at h; simp only at h
      cases h3 : yearFrac [cd] c.effective basisYears none with
      | error e => rw [h3] at h; cases h
      | ok ey =>
        rw [h3] at h; simp only at h
        cases h4 : yearFrac [cd] c.maturity basisYears none with
        | error e => rw [h4] at h; cases h
        | ok my =>
          rw [h4] at h
          simp only [pure, Except.pure] at h
          split at h
          · cases h
          simp only [Except.ok.injEq] at h
          exact ⟨fwd, per, ey, my, rfl, rfl, rfl, rfl, h.symm⟩

/-- A line through points of which at most one has a value. -/
theorem interp1dExtrapolate_single {K : List (ℝ × Option ℝ)} (hK : K.countP (fun p => p.2.isSome) ≤ 1) (x : ℝ) :
    interp1dExtrapolate K x = none := by
  have hperm := sortPoints_perm K
  unfold interp1dExtrapolate
  generalize sortPoints K = s at hperm
  have hs : s.countP (fun p => p.2.isSome) ≤ 1 := by rw [hperm.countP_eq]; exact hK
  simp only
  generalize hhi : min (max (s.countP (fun p => decide (p.1 < x))) 1) (s.length - 1) = hi
  cases e1 : s[hi - 1]? with
  | none => rfl
  | some p =>
    cases e2 : s[hi]? with
    | none => rfl
    | some q =>
      simp only
      by_cases hpq : q.1 = p.1
      · rw [if_pos hpq]
      rw [if_neg hpq]
      by_cases h0 : hi = 0
      · rw [h0] at e1 e2
        rw [e2] at e1
        cases e1
        exact absurd rfl hpq
      rcases hp : p.2 with _ | a
      · rfl
      rcases hq : q.2 with _ | b
      · rfl
      exfalso
      obtain ⟨b1, c1⟩ := List.getElem?_eq_some_iff.mp e1
      obtain ⟨b2, c2⟩ := List.getElem?_eq_some_iff.mp e2
      have hsplit : s = s.take (hi - 1) ++ p :: q :: s.drop (hi + 1) := by
        conv_lhs => rw [← List.take_append_drop (hi - 1) s, List.drop_eq_getElem_cons b1]
        congr 1
        rw [c1]
        congr 1
        have : hi - 1 + 1 = hi := by omega
        rw [this, List.drop_eq_getElem_cons b2, c2]
      rw [hsplit, List.countP_append, List.countP_cons_of_pos (by simp [hp]), List.countP_cons_of_pos (by simp [hq])] at hs
      omega

theorem futuresLoop_single (rows : List FuturesRow) (K : List (ℝ × Option ℝ)) (hK : K.countP (fun p => p.2.isSome) ≤ 1) :
    ∀ o ∈ bootstrapFuturesLoop K rows, o.effectiveDf = none ∧ o.maturityDf = none := by
  induction rows generalizing K with
  | nil => intro o ho; cases ho
  | cons r rest ih =>
    intro o ho
    have hd : ∀ g, npDiv none g = none := fun g => by unfold npDiv; split <;> rfl
    unfold bootstrapFuturesLoop at ho
    rw [interp1dExtrapolate_single hK] at ho
    simp only [npExp, Option.map_none, hd] at ho
    rcases List.mem_cons.mp ho with rfl | ho
    · exact ⟨rfl, rfl⟩
    · exact ih _ (by simpa [List.countP_append, List.countP_cons, npLog] using hK) o ho

end Frm

namespace Frm.Props
open Spec

set_option autoImplicit false

/-- Forward rates: the given column, or futures rate less convexity; the futures rate is the given column or
`(100 - price) / 100`; convexity defaults to 0. -/
theorem C39_forward_rate (c : FuturesColumns) (ps : List ℝ) (hp : c.price = some ps) (hf : c.futuresRate = none)
    (hfw : c.forwardRate = none) (hlen : ps.length = c.effective.length) :
    ∃ fwd, forwardColumn c = .ok fwd ∧
      (c.convexityBps = none → fwd = ps.map (fun p => (100 - p) / 100)) ∧
      ∀ cs, c.convexityBps = some cs → cs.length = ps.length → fwd.length = ps.length ∧
        ∀ (i : Nat) (p k : ℝ), ps[i]? = some p → cs[i]? = some k → fwd[i]? = some ((100 - p) / 100 - k / 10000) := by
  unfold forwardColumn futuresRates convexities
  simp only [hp, hf, hfw, bind, Except.bind]
  cases hc : c.convexityBps with
  | none =>
    refine ⟨_, rfl, fun _ => ?_, fun cs h => (by cases h)⟩
    apply List.ext_getElem?
    intro i
    rw [List.getElem?_map]
    by_cases hi : i < ps.length
    · have : (c.effective.map (fun _ => (0 : ℝ)))[i]? = some 0 := by
        rw [List.getElem?_map, List.getElem?_eq_getElem (by omega)]; rfl
      rw [List.getElem?_eq_getElem (by simpa [hlen] using hi)]
      simp [List.getElem?_eq_getElem hi]
    · rw [List.getElem?_eq_none (by simp; omega)]
      simp [List.getElem?_eq_none (by omega : ps.length ≤ i)]
  | some cs =>
    refine ⟨_, rfl, (by intro h; cases h), ?_⟩
    intro cs' hcs hl
    simp only [Option.some.injEq] at hcs
    subst hcs
    refine ⟨by simp [hl], ?_⟩
    intro i p k hpi hki
    have : ((ps.map (fun p => (100 - p) / 100)).zip cs)[i]? = some ((100 - p) / 100, k) :=
      List.getElem?_zip_eq_some.mpr ⟨by simp [hpi], hki⟩
    rw [List.getElem?_map, this]; rfl

/-- Columns given by the user are taken as they are. -/
theorem C39_forward_rate_given (c : FuturesColumns) (l ps : List ℝ) (hfw : c.forwardRate = some l) (hp : c.price = some ps) :
    forwardColumn c = .ok l := by
  unfold forwardColumn futuresRates convexities
  cases c.futuresRate <;> cases c.convexityBps <;> simp [hfw, hp, bind, Except.bind]

/-- The result has one row per contract, in order of effective date, with the contract's dates, its forward rate and its
year fraction. -/
theorem C39_rows (sort : List FuturesRow → List FuturesRow) (hsort : SortsOn FuturesRow.effective sort) (c : FuturesColumns)
    (cd : Int) (cash : List (ℝ × Option ℝ)) (basis basisYears : DayCountBasis) (out : List FuturesRow)
    (h : bootstrapFutures sort c cd cash basis basisYears = .ok out) :
    ∃ (fwd : List ℝ) (per : List Rat), forwardColumn c = .ok fwd ∧ yearFrac c.effective c.maturity basis none = .ok per ∧
      out.Pairwise (fun a b => a.effective ≤ b.effective) ∧
      ∀ o ∈ out, ∃ i : Nat, c.effective[i]? = some o.effective ∧ c.maturity[i]? = some o.maturity ∧
        fwd[i]? = some o.forwardRate ∧ ∃ y : Rat, per[i]? = some y ∧ o.periodYears = y := by
  obtain ⟨fwd, per, ey, my, h1, h2, h3, h4, hout⟩ := futuresRows h
  obtain ⟨hperm, hsorted⟩ := hsort (((c.effective.zip c.maturity).zip (fwd.zip (per.zip (ey.zip my)))).map (fun p =>
          ({ effective := p.1.1, maturity := p.1.2, forwardRate := p.2.1, periodYears := p.2.2.1,
             effectiveYears := p.2.2.2.1, maturityYears := p.2.2.2.2 } : FuturesRow)))
  have hkeep := futuresLoop_keeps (sort (((c.effective.zip c.maturity).zip (fwd.zip (per.zip (ey.zip my)))).map (fun p =>
          ({ effective := p.1.1, maturity := p.1.2, forwardRate := p.2.1, periodYears := p.2.2.1,
             effectiveYears := p.2.2.2.1, maturityYears := p.2.2.2.2 } : FuturesRow))))
             (cash.map (fun p => (p.1, npLog p.2)))
  rw [← hout] at hkeep
  refine ⟨fwd, per, h1, h2, ?_, ?_⟩
  · have : (out.map (fun o => (o.effective, o.maturity, o.forwardRate, o.periodYears, o.effectiveYears,
      o.maturityYears))).Pairwise (fun a b => a.1 ≤ b.1) := by
      rw [hkeep, List.pairwise_map]; exact hsorted
    rwa [List.pairwise_map] at this
  · intro o ho
    have hm : (o.effective, o.maturity, o.forwardRate, o.periodYears, o.effectiveYears, o.maturityYears) ∈
        out.map (fun o => (o.effective, o.maturity, o.forwardRate, o.periodYears, o.effectiveYears, o.maturityYears)) :=
      List.mem_map_of_mem ho
    rw [hkeep] at hm
    obtain ⟨r, hr, hre⟩ := List.mem_map.mp hm
    have hr := hperm.mem_iff.mp hr
    obtain ⟨⟨⟨e, m⟩, f, p, y1, y2⟩, hz, rfl⟩ := List.mem_map.mp hr
    obtain ⟨i, hi⟩ := List.mem_iff_getElem?.mp hz
    obtain ⟨z1, z2⟩ := List.getElem?_zip_eq_some.mp hi
    obtain ⟨z3, z4⟩ := List.getElem?_zip_eq_some.mp z1
    obtain ⟨z5, z6⟩ := List.getElem?_zip_eq_some.mp z2
    obtain ⟨z7, -⟩ := List.getElem?_zip_eq_some.mp z6
    simp only [Prod.mk.injEq] at hre z3 z4 z5 z7
    obtain ⟨q1, q2, q3, q4, -⟩ := hre
    exact ⟨i, by rw [← q1]; exact z3, by rw [← q2]; exact z4, by rw [← q3]; exact z5, p, z7, q4.symm⟩

/-- Every row of the result that has factors reprices. -/
theorem C39_reprices (sort : List FuturesRow → List FuturesRow) (c : FuturesColumns) (cd : Int)
    (cash : List (ℝ × Option ℝ)) (basis basisYears : DayCountBasis) (out : List FuturesRow)
    (h : bootstrapFutures sort c cd cash basis basisYears = .ok out) (o : FuturesRow) (ho : o ∈ out) (v : ℝ)
    (hv : o.maturityDf = some v) (hv0 : v ≠ 0) (hp : o.periodYears ≠ 0) :
    ∃ a, o.effectiveDf = some a ∧ o.forwardRate = (a / v - 1) / o.periodYears := by
  obtain ⟨fwd, per, ey, my, -, -, -, -, hout⟩ := futuresRows h
  rw [hout] at ho
  have k4 := futuresLoop_row _ _ _ ho
  rw [hv] at k4
  unfold npDiv at k4
  by_cases hg : 1 + o.forwardRate * o.periodYears = 0
  · rw [if_pos hg] at k4; cases k4
  rw [if_neg hg] at k4
  cases he : o.effectiveDf with
  | none => rw [he] at k4; cases k4
  | some a =>
    rw [he] at k4
    simp only [Option.map_some, Option.some.injEq] at k4
    refine ⟨a, rfl, ?_⟩
    have ha : a ≠ 0 := by rintro rfl; rw [zero_div] at k4; exact hv0 k4
    have : a / v = 1 + o.forwardRate * o.periodYears := by rw [k4]; field_simp
    rw [this]; field_simp; ring

/-- The bootstrap: on a cash curve of at least two points, with positive accruals and distinct maturities, each contract's
effective factor is log-linear on the points before it (cash points and earlier contracts), all factors are positive and
all contracts reprice. -/
theorem C39_chain_partial (sort : List FuturesRow → List FuturesRow) (c : FuturesColumns) (cd : Int) (cash : List (ℝ × ℝ))
    (basis basisYears : DayCountBasis) (out : List FuturesRow)
    (h : bootstrapFutures sort c cd (cash.map (fun p => (p.1, some p.2))) basis basisYears = .ok out)
    (hlen : 2 ≤ cash.length) (hpos : ∀ p ∈ cash, 0 < p.2)
    (hnd : (cash.map (·.1) ++ out.map (·.maturityYears)).Nodup)
    (hacc : ∀ o ∈ out, 0 < 1 + o.forwardRate * o.periodYears) : FuturesChain cash out := by
  obtain ⟨fwd, per, ey, my, -, -, -, -, hout⟩ := futuresRows h
  generalize sort (((c.effective.zip c.maturity).zip (fwd.zip (per.zip (ey.zip my)))).map (fun p =>
          ({ effective := p.1.1, maturity := p.1.2, forwardRate := p.2.1, periodYears := p.2.2.1,
             effectiveYears := p.2.2.2.1, maturityYears := p.2.2.2.2 } : FuturesRow))) = rows at hout
  have hkeep := futuresLoop_keeps rows ((cash.map (fun p => (p.1, some p.2))).map (fun p => (p.1, npLog p.2)))
  rw [← hout] at hkeep
  have hmy : out.map (·.maturityYears) = rows.map (·.maturityYears) := by
    have := congrArg (List.map (fun p : Int × Int × ℝ × ℝ × ℝ × ℝ => p.2.2.2.2.2)) hkeep
    simpa [List.map_map, Function.comp_def] using this
  have hgr : out.map (fun o => 1 + o.forwardRate * o.periodYears) = rows.map (fun o => 1 + o.forwardRate * o.periodYears) := by
    have := congrArg (List.map (fun p : Int × Int × ℝ × ℝ × ℝ × ℝ => 1 + p.2.2.1 * p.2.2.2.1)) hkeep
    simpa [List.map_map, Function.comp_def] using this
  rw [hmy] at hnd
  have hacc' : ∀ r ∈ rows, 0 < 1 + r.forwardRate * r.periodYears := by
    intro r hr
    have : 1 + r.forwardRate * r.periodYears ∈ rows.map (fun o => 1 + o.forwardRate * o.periodYears) :=
      List.mem_map_of_mem hr
    rw [← hgr] at this
    obtain ⟨o, ho, heq⟩ := List.mem_map.mp this
    rw [← heq]; exact hacc o ho
  rw [hout, List.map_map]
  exact futuresLoop_chain rows cash hlen hpos hnd hacc'

/-- Defect: after a table with one cash rate (an overnight rate, say) no contract gets a discount factor, and nothing is raised. -/
theorem C39_one_cash_rate (sort : List FuturesRow → List FuturesRow) (c : FuturesColumns) (cd : Int) (p : ℝ × Option ℝ)
    (basis basisYears : DayCountBasis) (out : List FuturesRow)
    (h : bootstrapFutures sort c cd [p] basis basisYears = .ok out) : ∀ o ∈ out, o.effectiveDf = none ∧ o.maturityDf = none := by
  obtain ⟨fwd, per, ey, my, -, -, -, -, hout⟩ := futuresRows h
  rw [hout]
  exact futuresLoop_single _ _ (by simp only [List.map_cons, List.map_nil, List.countP_cons, List.countP_nil]; split <;> omega)

/-- Without cash rates contracts are refused. -/
theorem C39_no_cash_rate (sort : List FuturesRow → List FuturesRow) (c : FuturesColumns) (cd : Int) (basis basisYears : DayCountBasis)
    (out : List FuturesRow) (hsort : SortsOn FuturesRow.effective sort) (h : bootstrapFutures sort c cd [] basis basisYears = .ok out) :
    out = [] := by
  unfold bootstrapFutures at h
  simp only [bind, Except.bind] at h
  split at h
  · cases h
  split at h
  · cases h
  split at h
  · cases h
  split at h
  · cases h
  simp only [pure, Except.pure] at h
  split at h
  · cases h
  rename_i hr
  simp only [List.isEmpty_nil, Bool.true_and, Bool.not_eq_true', Bool.not_eq_false, List.isEmpty_iff] at hr
  cases h
  rw [hr, List.perm_nil.mp (hsort []).1]
  rfl

/-- The broken line determines the interpolated value, so `C39_chain_partial` determines all factors. -/
theorem C39_line_unique (K : List (ℝ × ℝ)) (hnd : (K.map (·.1)).Nodup) (x y y' : ℝ) (h : OnBrokenLine K x y)
    (h' : OnBrokenLine K x y') : y = y' := by
  obtain ⟨pre, p, q, post, hp, hs, hlt, h1, h2, he⟩ := h
  obtain ⟨pre', p', q', post', hp', hs', hlt', h1', h2', he'⟩ := h'
  have hnd1 : (pre ++ p :: q :: post).Pairwise (fun a b => a.1 < b.1) := by
    have hne : (pre ++ p :: q :: post).Pairwise (fun a b => a.1 ≠ b.1) := by
      have := (hp.map (fun p : ℝ × ℝ => p.1)).nodup_iff.mpr hnd
      unfold List.Nodup at this
      rwa [List.pairwise_map] at this
    exact (List.pairwise_and_iff.mpr ⟨hs, hne⟩).imp (fun h => lt_of_le_of_ne h.1 h.2)
  have hnd2 : (pre' ++ p' :: q' :: post').Pairwise (fun a b => a.1 < b.1) := by
    have hne : (pre' ++ p' :: q' :: post').Pairwise (fun a b => a.1 ≠ b.1) := by
      have := (hp'.map (fun p : ℝ × ℝ => p.1)).nodup_iff.mpr hnd
      unfold List.Nodup at this
      rwa [List.pairwise_map] at this
    exact (List.pairwise_and_iff.mpr ⟨hs', hne⟩).imp (fun h => lt_of_le_of_ne h.1 h.2)
  have heq : pre ++ p :: q :: post = pre' ++ p' :: q' :: post' := by
    refine List.Perm.eq_of_pairwise (le := fun a b : ℝ × ℝ => a.1 < b.1) ?_ hnd1 hnd2 (hp.trans hp'.symm)
    intro a b _ _ h1 h2
    exact absurd (lt_trans h1 h2) (lt_irrefl _)
  -- the position of the segment is determined
  have hpos : pre.length = pre'.length := by
    rcases Nat.lt_trichotomy pre.length pre'.length with hlt1 | h | hlt1
    · exfalso
      have hp'lt : p'.1 < x := by
        rcases h1' with h | h
        · rw [h] at hlt1; simp at hlt1
        · exact h
      have hpost : post ≠ [] := by
        intro h; have := congrArg List.length heq; rw [h] at this; simp at this; omega
      have hxq : x ≤ q.1 := by rcases h2 with h | h; exact absurd h hpost; exact h
      have : q.1 ≤ p'.1 := by
        have g1 : (pre ++ p :: q :: post)[pre.length + 1]? = some q := by
          rw [List.getElem?_append_right (by omega)]; simp
        have g2 : (pre ++ p :: q :: post)[pre'.length]? = some p' := by
          rw [heq, List.getElem?_append_right (by omega)]; simp
        rcases Nat.lt_or_ge (pre.length + 1) pre'.length with hl | hl
        · obtain ⟨b1, c1⟩ := List.getElem?_eq_some_iff.mp g1
          obtain ⟨b2, c2⟩ := List.getElem?_eq_some_iff.mp g2
          have := (List.pairwise_iff_getElem.mp hnd1) _ _ b1 b2 hl
          rw [c1, c2] at this
          exact this.le
        · have : pre.length + 1 = pre'.length := by omega
          rw [this, g2] at g1
          simp only [Option.some.injEq] at g1
          rw [g1]
      linarith
    · exact h
    · exfalso
      have hplt : p.1 < x := by
        rcases h1 with h | h
        · rw [h] at hlt1; simp at hlt1
        · exact h
      have hpost : post' ≠ [] := by
        intro h; have := congrArg List.length heq; rw [h] at this; simp at this; omega
      have hxq : x ≤ q'.1 := by rcases h2' with h | h; exact absurd h hpost; exact h
      have : q'.1 ≤ p.1 := by
        have g1 : (pre' ++ p' :: q' :: post')[pre'.length + 1]? = some q' := by
          rw [List.getElem?_append_right (by omega)]; simp
        have g2 : (pre' ++ p' :: q' :: post')[pre.length]? = some p := by
          rw [← heq, List.getElem?_append_right (by omega)]; simp
        rcases Nat.lt_or_ge (pre'.length + 1) pre.length with hl | hl
        · obtain ⟨b1, c1⟩ := List.getElem?_eq_some_iff.mp g1
          obtain ⟨b2, c2⟩ := List.getElem?_eq_some_iff.mp g2
          have := (List.pairwise_iff_getElem.mp hnd2) _ _ b1 b2 hl
          rw [c1, c2] at this
          exact this.le
        · have : pre'.length + 1 = pre.length := by omega
          rw [this, g2] at g1
          simp only [Option.some.injEq] at g1
          rw [g1]
      linarith
  obtain ⟨-, h3⟩ := List.append_inj heq hpos
  simp only [List.cons.injEq] at h3
  obtain ⟨rfl, rfl, -⟩ := h3
  have hne : q.1 - p.1 ≠ 0 := by linarith
  have := he.trans he'.symm
  have := mul_right_cancel₀ hne this
  linarith

/-- Two cash points and two contracts: the hypotheses of `C39_chain_partial` are met. -/
example : ∃ out, bootstrapFutures id { effective := [91, 182], maturity := [182, 273], price := some [95, 94.5] } 0
    ([((0.1 : ℝ), (0.99 : ℝ)), (0.2, 0.98)].map (fun p => (p.1, some p.2))) .act_365 .act_365 = .ok out ∧
    ([((0.1 : ℝ), (0.99 : ℝ)), (0.2, 0.98)].map (·.1) ++ out.map (·.maturityYears)).Nodup ∧
    ∀ o ∈ out, 0 < 1 + o.forwardRate * o.periodYears := by
  have y1 : yearFrac [91, 182] [182, 273] .act_365 none = .ok [91 / 365, 91 / 365] := by decide +kernel
  have y2 : yearFrac [0] [91, 182] .act_365 none = .ok [91 / 365, 182 / 365] := by decide +kernel
  have y3 : yearFrac [0] [182, 273] .act_365 none = .ok [182 / 365, 273 / 365] := by decide +kernel
  unfold bootstrapFutures forwardColumn futuresRates convexities
  simp only [y1, y2, y3, bind, Except.bind, pure, Except.pure, List.map_cons, List.isEmpty_cons, Bool.false_and, Bool.false_eq_true,
    if_false]
  refine ⟨_, rfl, ?_, ?_⟩
  · simp only [List.map_cons, List.map_nil, List.zip_cons_cons, List.zip_nil_right, id, bootstrapFuturesLoop,
      List.cons_append, List.nil_append]
    norm_num
  · intro o ho
    simp only [List.map_cons, List.map_nil, List.zip_cons_cons, List.zip_nil_right, id, bootstrapFuturesLoop,
      List.mem_cons, List.not_mem_nil, or_false] at ho
    rcases ho with rfl | rfl <;> norm_num

/-- A table with the overnight rate and two contracts is accepted. -/
example : ∃ out, bootstrapFutures id { effective := [91, 182], maturity := [182, 273], price := some [95, 94.5] } 0
    [((1 / 365 : ℝ), some (0.9999 : ℝ))] .act_365 .act_365 = .ok out ∧ out.length = 2 := by
  have y1 : yearFrac [91, 182] [182, 273] .act_365 none = .ok [91 / 365, 91 / 365] := by decide +kernel
  have y2 : yearFrac [0] [91, 182] .act_365 none = .ok [91 / 365, 182 / 365] := by decide +kernel
  have y3 : yearFrac [0] [182, 273] .act_365 none = .ok [182 / 365, 273 / 365] := by decide +kernel
  unfold bootstrapFutures forwardColumn futuresRates convexities
  simp only [y1, y2, y3, bind, Except.bind, pure, Except.pure, List.isEmpty_cons, Bool.false_and, Bool.false_eq_true, if_false]
  exact ⟨_, rfl, by simp [bootstrapFuturesLoop]⟩

end Frm.Props
