import Verif.Proofs.Bootstrap

/-! # C38 — Bootstrapped cash rates reprice -/

namespace Frm
open Spec

set_option autoImplicit false

/-- The year fraction of a single period, 0 where it is refused. -/
noncomputable def yearsFrom (b : DayCountBasis) (s e : Int) : ℝ :=
  match yearFrac [s] [e] b none with
  | .ok [y] => y
  | _ => 0

theorem yearsFrom_eq {b : DayCountBasis} {s e : Int} {y : Rat} (h : yearFrac [s] [e] b none = .ok [y]) :
    yearsFrom b s e = y := by
  unfold yearsFrom; rw [h]

theorem actBasis_plain {b : DayCountBasis} (h : ActBasis b) (d : Int) : Plain b d := by
  rcases h with rfl | rfl | rfl | rfl <;> exact Plain.of_ne (by simp) d

theorem yearsFrom_lt {b : DayCountBasis} (hb : ActBasis b) {s d e : Int} (hs : s ≤ d) (h : d < e) :
    yearsFrom b s d < yearsFrom b s e := by
  obtain ⟨r1, h1⟩ := yearFrac_ok (b := b) (S := [s]) (E := [d]) rfl (by simpa using hs)
  obtain ⟨r2, h2⟩ := yearFrac_ok (b := b) (S := [s]) (E := [e]) rfl (by simp; omega)
  obtain ⟨-, g1⟩ := yearFrac_same_length h1 rfl
  obtain ⟨-, g2⟩ := yearFrac_same_length h2 rfl
  obtain ⟨y1, e1, -⟩ := g1 0 s d (actBasis_plain hb d) rfl rfl
  obtain ⟨y2, e2, -⟩ := g2 0 s e (actBasis_plain hb e) rfl rfl
  rw [yearsFrom_eq e1, yearsFrom_eq e2]
  exact_mod_cast yearFrac_strict hb h e1 e2

theorem yearFrac_from {b : DayCountBasis} {s : Int} {E : List Int} {r : List Rat} (hb : ∀ e ∈ E, Plain b e) (hE : E ≠ [])
    (h : yearFrac [s] E b none = .ok r) : r.length = E.length ∧ ∀ (k : Nat) (e : Int), E[k]? = some e →
      s ≤ e ∧ ∃ y : Rat, r[k]? = some y ∧ (y : ℝ) = yearsFrom b s e := by
  refine ⟨by rw [yearFrac_length h, sameShape_lengths hE], ?_⟩
  intro k e he
  obtain ⟨h1, h2⟩ := sameShape_left E s k e he
  obtain ⟨y, hy, hr⟩ := yearFrac_get h (hb e (List.mem_of_getElem? he)) h1 h2
  refine ⟨?_, y, hr, (yearsFrom_eq hy).symm⟩
  by_contra hc
  unfold yearFrac dayCount at hy
  rw [sameShape_single] at hy
  cases b <;> simp [checkOrder_single, hc, Except.map] at hy

/-- The rows before the loop. -/
theorem cashRows {sort : List CashRow → List CashRow} {df : List CashQuote} {cd : Int} {b : DayCountBasis}
    (hb : ∀ q ∈ df, Plain b q.effective ∧ Plain b q.maturity) {out : List CashRow} (h : bootstrapCashRates sort df cd b = .ok out) :
    ∃ rows : List CashRow, bootstrapCashLoop [] (sort rows) = .ok out ∧ rows.map (·.quote) = df ∧ ∀ r ∈ rows,
      r.effectiveYears = yearsFrom b cd r.quote.effective ∧ r.maturityYears = yearsFrom b cd r.quote.maturity ∧
      cd ≤ r.quote.effective ∧ cd ≤ r.quote.maturity := by
  unfold bootstrapCashRates at h
  simp only [bind, Except.bind] at h
  cases h1 : yearFrac [cd] (df.map (·.effective)) b none with
  | error e => rw [h1] at h; cases h
  | ok ey =>
    rw [h1] at h; simp only at h
    cases h2 : yearFrac [cd] (df.map (·.maturity)) b none with
    | error e => rw [h2] at h; cases h
    | ok my =>
      rw [h2] at h; simp only at h
      refine ⟨_, h, ?_⟩
      by_cases hdf : df = []
      · subst hdf; simp
      · obtain ⟨l1, g1⟩ := yearFrac_from (by simpa using fun q hq => (hb q hq).1) (by simpa using hdf) h1
        obtain ⟨l2, g2⟩ := yearFrac_from (by simpa using fun q hq => (hb q hq).2) (by simpa using hdf) h2
        simp only [List.length_map] at l1 l2
        constructor
        · rw [List.map_map]
          have : ((fun r : CashRow => r.quote) ∘ fun p : CashQuote × ℚ × ℚ =>
            ({ quote := p.1, effectiveYears := p.2.1, maturityYears := p.2.2 } : CashRow)) = Prod.fst := rfl
          rw [this, List.map_fst_zip (by simp [l1, l2])]
        · apply forall_of_get
          intro k r hr
          rw [List.getElem?_map, Option.map_eq_some_iff] at hr
          obtain ⟨⟨q, y1, y2⟩, hz, rfl⟩ := hr
          obtain ⟨hq, hz2⟩ := List.getElem?_zip_eq_some.mp hz
          obtain ⟨hy1, hy2⟩ := List.getElem?_zip_eq_some.mp hz2
          obtain ⟨c1, z1, e1, e2⟩ := g1 k q.effective (by simp [hq])
          obtain ⟨c2, z2, e3, e4⟩ := g2 k q.maturity (by simp [hq])
          simp only at hy1 hy2
          rw [hy1] at e1; rw [hy2] at e3
          simp only [Option.some.injEq] at e1 e3
          subst e1 e3
          exact ⟨e2, e4, c1, c2⟩

end Frm

namespace Frm.Props
open Spec

set_option autoImplicit false

/-- Every row of the result that has factors reprices: the factor at the effective date is the factor at maturity grown at
the quoted rate, so the quoted rate is recovered.  No assumption on the quotes. -/
theorem C38_reprices (sort : List CashRow → List CashRow) (df : List CashQuote) (cd : Int) (b : DayCountBasis)
    (out : List CashRow) (h : bootstrapCashRates sort df cd b = .ok out) (o : CashRow) (ho : o ∈ out) (v : ℝ)
    (hv : o.maturityDf = some v) (hv0 : v ≠ 0) (hp : o.quote.periodYears ≠ 0) :
    ∃ a, o.effectiveDf = some a ∧ o.quote.rate = (a / v - 1) / o.quote.periodYears := by
  unfold bootstrapCashRates at h
  simp only [bind, Except.bind] at h
  split at h
  · cases h
  split at h
  · cases h
  obtain ⟨filled, h1, h2, h3⟩ := bootstrapCashLoop_get h
  simp only [List.nil_append] at h1
  subst h1
  obtain ⟨k, hk⟩ := List.mem_iff_getElem?.mp ho
  have hlt : k < out.length := by
    by_contra hc
    rw [List.getElem?_eq_none (by omega)] at hk; cases hk
  obtain ⟨o', g1, g2⟩ := h3 k _ (List.getElem?_eq_getElem (by omega))
  rw [hk] at g1
  simp only [Option.some.injEq] at g1
  subst g1
  obtain ⟨k1, -, -, k4, -⟩ := bootstrapCashRow_keeps g2
  rw [hv, ← k1] at k4
  unfold npDiv at k4
  by_cases hg : 1 + o.quote.rate * o.quote.periodYears = 0
  · rw [if_pos hg] at k4; cases k4
  rw [if_neg hg] at k4
  cases he : o.effectiveDf with
  | none => rw [he] at k4; cases k4
  | some a =>
    rw [he] at k4
    simp only [Option.map_some, Option.some.injEq] at k4
    refine ⟨a, rfl, ?_⟩
    have ha : a ≠ 0 := by rintro rfl; rw [zero_div] at k4; exact hv0 k4
    have : a / v = 1 + o.quote.rate * o.quote.periodYears := by rw [k4]; field_simp
    rw [this]; field_simp; ring

/-- The bootstrap on quotes with positive accruals: the rows are those of the input in order of maturity; all factors
exist and are positive; rows without settlement delay start from 1; rows with settlement delay start from the factor of a
row that matures on their effective date; every row reprices. -/
theorem C38_bootstrap (sort : List CashRow → List CashRow) (hsort : SortsOn (fun r : CashRow => r.quote.maturity) sort)
    (df : List CashQuote) (cd : Int) (b : DayCountBasis) (hb : ActBasis b)
    (hacc : ∀ q ∈ df, q.effective < q.maturity ∧ 0 < 1 + q.rate * q.periodYears)
    (out : List CashRow) (h : bootstrapCashRates sort df cd b = .ok out) :
    (out.map (·.quote)).Perm df ∧ out.Pairwise (fun x y => x.quote.maturity ≤ y.quote.maturity) ∧
    ∀ o ∈ out, ∃ u v : ℝ, 0 < u ∧ 0 < v ∧ o.effectiveDf = some u ∧ o.maturityDf = some v ∧
      u / v = 1 + o.quote.rate * o.quote.periodYears ∧
      (o.quote.hasSettlementDelay = false → u = 1) ∧
      (o.quote.hasSettlementDelay = true → ∃ o' ∈ out, o'.quote.maturity = o.quote.effective ∧ o'.maturityDf = some u) := by
  obtain ⟨rows, hloop, hq, hyears⟩ := cashRows (fun q _ => ⟨actBasis_plain hb _, actBasis_plain hb _⟩) h
  obtain ⟨hperm, hsorted⟩ := hsort rows
  obtain ⟨filled, h1, h2, h3⟩ := bootstrapCashLoop_get hloop
  simp only [List.nil_append] at h1 h3
  subst h1
  have hmem : ∀ r ∈ sort rows, r.quote ∈ df ∧ r.effectiveYears = yearsFrom b cd r.quote.effective ∧
      r.maturityYears = yearsFrom b cd r.quote.maturity ∧ cd ≤ r.quote.effective ∧ cd ≤ r.quote.maturity := by
    intro r hr
    have hr' := hperm.mem_iff.mp hr
    exact ⟨by rw [← hq]; exact List.mem_map_of_mem hr', hyears r hr'⟩
  have hget : ∀ (k : Nat) (o : CashRow), out[k]? = some o → ∃ r, (sort rows)[k]? = some r ∧
      bootstrapCashRow (out.take k) r ((sort rows).drop (k + 1)) = .ok o := by
    intro k o hk
    have hlt : k < out.length := by
      by_contra hc
      rw [List.getElem?_eq_none (by omega)] at hk; cases hk
    obtain ⟨o', g1, g2⟩ := h3 k _ (List.getElem?_eq_getElem (by omega))
    rw [hk] at g1
    simp only [Option.some.injEq] at g1
    subst g1
    exact ⟨_, List.getElem?_eq_getElem (by omega), g2⟩
  have hquotes : out.map (·.quote) = (sort rows).map (·.quote) := by
    apply List.ext_getElem?
    intro k
    rw [List.getElem?_map, List.getElem?_map]
    cases hk : out[k]? with
    | none =>
      rw [List.getElem?_eq_none_iff] at hk
      rw [List.getElem?_eq_none (by omega)]
    | some o =>
      obtain ⟨r, g1, g2⟩ := hget k o hk
      rw [g1]
      simp only [Option.map_some, (bootstrapCashRow_keeps g2).1]
  refine ⟨?_, ?_, ?_⟩
  · rw [hquotes, ← hq]; exact hperm.map _
  · have : (out.map (·.quote)).Pairwise (fun x y => x.maturity ≤ y.maturity) := by
      rw [hquotes, List.pairwise_map]; exact hsorted
    rwa [List.pairwise_map] at this
  · have key : ∀ (k : Nat) (o : CashRow), out[k]? = some o → ∃ u v : ℝ, 0 < u ∧ 0 < v ∧ o.effectiveDf = some u ∧
        o.maturityDf = some v ∧ u / v = 1 + o.quote.rate * o.quote.periodYears ∧
        (o.quote.hasSettlementDelay = false → u = 1) ∧
        (o.quote.hasSettlementDelay = true → ∃ o' ∈ out, o'.quote.maturity = o.quote.effective ∧
          o'.maturityDf = some u) := by
      intro k
      induction k using Nat.strong_induction_on with
      | _ k ih =>
        intro o hk
        obtain ⟨r, g1, g2⟩ := hget k o hk
        obtain ⟨k1, k2, k3, k4, k5⟩ := bootstrapCashRow_keeps g2
        obtain ⟨m1, m2, m3, m4, m5⟩ := hmem r (List.mem_of_getElem? g1)
        obtain ⟨a1, a2⟩ := hacc r.quote m1
        have fin : ∀ u : ℝ, 0 < u → o.effectiveDf = some u → ∃ v : ℝ, 0 < v ∧ o.maturityDf = some v ∧
            u / v = 1 + o.quote.rate * o.quote.periodYears := by
          intro u hu he
          refine ⟨u / (1 + r.quote.rate * r.quote.periodYears), div_pos hu a2, ?_, ?_⟩
          · rw [k4, he]; unfold npDiv; rw [if_neg a2.ne']; rfl
          · rw [k1]; have := a2.ne'; have := hu.ne'; field_simp
        cases hd : r.quote.hasSettlementDelay with
        | false =>
          obtain ⟨v, f1, f2, f3⟩ := fin 1 one_pos (k5 hd)
          refine ⟨1, v, one_pos, f1, k5 hd, f2, f3, fun _ => rfl, ?_⟩
          rw [k1, hd]; intro hh; cases hh
        | true =>
          unfold bootstrapCashRow at g2
          rw [if_neg (by rw [hd]; simp)] at g2
          simp only [bind, Except.bind] at g2
          have hle : ∀ q ∈ ((out.take k ++ r :: (sort rows).drop (k + 1)).filter
              (fun q => decide (q.quote.maturity ≤ r.quote.effective))), q ∈ out.take k ∧
              q.quote.maturity ≤ r.quote.effective := by
            intro q hqm
            obtain ⟨q1, q2⟩ := List.mem_filter.mp hqm
            simp only [decide_eq_true_eq] at q2
            refine ⟨?_, q2⟩
            rcases List.mem_append.mp q1 with q1 | q1
            · exact q1
            · exfalso
              rcases List.mem_cons.mp q1 with rfl | q1
              · omega
              · have hk' : k < (sort rows).length := by
                  by_contra hc
                  rw [List.getElem?_eq_none (by omega)] at g1; cases g1
                have hsplit : sort rows = (sort rows).take k ++ r :: (sort rows).drop (k + 1) := by
                  conv_lhs => rw [← List.take_append_drop k (sort rows), List.drop_eq_getElem_cons hk']
                  rw [List.getElem?_eq_getElem hk'] at g1
                  simp only [Option.some.injEq] at g1
                  rw [g1]
                rw [hsplit, List.pairwise_append] at hsorted
                have := (List.pairwise_cons.mp hsorted.2.1).1 q q1
                simp only at this
                omega
          have hout : ∀ q ∈ out.take k, ∃ j, j < k ∧ out[j]? = some q := by
            intro q hq'
            obtain ⟨j, hj⟩ := List.mem_iff_getElem?.mp hq'
            rw [List.getElem?_take] at hj
            split at hj
            · exact ⟨j, by assumption, hj⟩
            · cases hj
          have hmy : ∀ q ∈ out, q.maturityYears = yearsFrom b cd q.quote.maturity ∧ cd ≤ q.quote.maturity := by
            intro q hq'
            obtain ⟨j, hj⟩ := List.mem_iff_getElem?.mp hq'
            obtain ⟨r', e1, e2⟩ := hget j q hj
            obtain ⟨x1, -, x3, -⟩ := bootstrapCashRow_keeps e2
            obtain ⟨-, -, y3, -, y5⟩ := hmem r' (List.mem_of_getElem? e1)
            rw [x3, x1]; exact ⟨y3, y5⟩
          have hx : ∀ q ∈ ((out.take k ++ r :: (sort rows).drop (k + 1)).filter
              (fun q => decide (q.quote.maturity ≤ r.quote.effective))).map
              (fun q => (q.maturityYears, npLog q.maturityDf)), q.1 ≤ r.effectiveYears := by
            intro p hp
            obtain ⟨q, hq', rfl⟩ := List.mem_map.mp hp
            obtain ⟨q1, q2⟩ := hle q hq'
            have := hmy q (List.mem_of_mem_take q1)
            simp only [this.1, m2]
            rcases lt_or_eq_of_le q2 with hlt | heq
            · exact (yearsFrom_lt hb this.2 hlt).le
            · rw [heq]
          split at g2
          · cases g2
          · rename_i y hy
            obtain ⟨p, hp, hpx, hyp⟩ := (interp1dBounded_end hx).1 y hy
            obtain ⟨q, hq', rfl⟩ := List.mem_map.mp hp
            obtain ⟨q1, q2⟩ := hle q hq'
            obtain ⟨j, hj, hqj⟩ := hout q q1
            obtain ⟨u', v', -, pv, -, hv', -⟩ := ih j hj q hqj
            have hqm := hmy q (List.mem_of_mem_take q1)
            simp only [hqm.1, m2] at hpx
            have heq : q.quote.maturity = r.quote.effective := by
              rcases lt_or_eq_of_le q2 with hlt | heq
              · exact absurd hpx (yearsFrom_lt hb hqm.2 hlt).ne
              · exact heq
            simp only [pure, Except.pure, Except.ok.injEq] at g2
            have he : o.effectiveDf = some v' := by
              rw [← g2, hyp, hv']
              simp [npLog, npExp, pv, Real.exp_log pv]
            obtain ⟨v, f1, f2, f3⟩ := fin v' pv he
            refine ⟨v', v, pv, f1, he, f2, f3, ?_, ?_⟩
            · rw [k1, hd]; intro hh; cases hh
            · intro _
              exact ⟨q, List.mem_of_mem_take q1, by rw [k1]; exact heq, hv'⟩
    exact forall_of_get key

/-- Whatever the rates: a row with settlement delay starts from the factor of a row that matures on its effective date if that factor is
positive.  If it is negative, or missing, the logarithm is `nan` and so are both factors of the row. -/
theorem C38_starts (sort : List CashRow → List CashRow) (hsort : SortsOn (fun r : CashRow => r.quote.maturity) sort)
    (df : List CashQuote) (cd : Int) (b : DayCountBasis) (hb : ActBasis b)
    (hacc : ∀ q ∈ df, q.effective < q.maturity)
    (out : List CashRow) (h : bootstrapCashRates sort df cd b = .ok out) :
    ∀ o ∈ out, o.quote.hasSettlementDelay = true → ∃ o' ∈ out, o'.quote.maturity = o.quote.effective ∧
      (∀ v, o'.maturityDf = some v → 0 < v → o.effectiveDf = some v) ∧
      ((o'.maturityDf = none ∨ ∃ v, o'.maturityDf = some v ∧ v < 0) → o.effectiveDf = none ∧ o.maturityDf = none) := by
  obtain ⟨rows, hloop, hq, hyears⟩ := cashRows (fun q _ => ⟨actBasis_plain hb _, actBasis_plain hb _⟩) h
  obtain ⟨hperm, hsorted⟩ := hsort rows
  obtain ⟨filled, h1, h2, h3⟩ := bootstrapCashLoop_get hloop
  simp only [List.nil_append] at h1 h3
  subst h1
  have hmem : ∀ r ∈ sort rows, r.quote ∈ df ∧ r.effectiveYears = yearsFrom b cd r.quote.effective ∧
      r.maturityYears = yearsFrom b cd r.quote.maturity ∧ cd ≤ r.quote.effective ∧ cd ≤ r.quote.maturity := by
    intro r hr
    have hr' := hperm.mem_iff.mp hr
    exact ⟨by rw [← hq]; exact List.mem_map_of_mem hr', hyears r hr'⟩
  have hget : ∀ (k : Nat) (o : CashRow), out[k]? = some o → ∃ r, (sort rows)[k]? = some r ∧
      bootstrapCashRow (out.take k) r ((sort rows).drop (k + 1)) = .ok o := by
    intro k o hk
    have hlt : k < out.length := by
      by_contra hc
      rw [List.getElem?_eq_none (by omega)] at hk; cases hk
    obtain ⟨o', g1, g2⟩ := h3 k _ (List.getElem?_eq_getElem (by omega))
    rw [hk] at g1
    simp only [Option.some.injEq] at g1
    subst g1
    exact ⟨_, List.getElem?_eq_getElem (by omega), g2⟩
  have key : ∀ (k : Nat) (o : CashRow), out[k]? = some o → o.quote.hasSettlementDelay = true → ∃ o' ∈ out, o'.quote.maturity = o.quote.effective ∧
      (∀ v, o'.maturityDf = some v → 0 < v → o.effectiveDf = some v) ∧
      ((o'.maturityDf = none ∨ ∃ v, o'.maturityDf = some v ∧ v < 0) → o.effectiveDf = none ∧ o.maturityDf = none) := by
    intro k o hk hd
    obtain ⟨r, g1, g2⟩ := hget k o hk
    obtain ⟨k1, k2, k3, k4, k5⟩ := bootstrapCashRow_keeps g2
    obtain ⟨m1, m2, m3, m4, m5⟩ := hmem r (List.mem_of_getElem? g1)
    have a1 := hacc r.quote m1
    rw [k1] at hd
    unfold bootstrapCashRow at g2
    rw [if_neg (by rw [hd]; simp)] at g2
    simp only [bind, Except.bind] at g2
    have hle : ∀ q ∈ ((out.take k ++ r :: (sort rows).drop (k + 1)).filter
        (fun q => decide (q.quote.maturity ≤ r.quote.effective))), q ∈ out.take k ∧
        q.quote.maturity ≤ r.quote.effective := by
      intro q hqm
      obtain ⟨q1, q2⟩ := List.mem_filter.mp hqm
      simp only [decide_eq_true_eq] at q2
      refine ⟨?_, q2⟩
      rcases List.mem_append.mp q1 with q1 | q1
      · exact q1
      · exfalso
        rcases List.mem_cons.mp q1 with rfl | q1
        · omega
        · have hk' : k < (sort rows).length := by
            by_contra hc
            rw [List.getElem?_eq_none (by omega)] at g1; cases g1
          have hsplit : sort rows = (sort rows).take k ++ r :: (sort rows).drop (k + 1) := by
            conv_lhs => rw [← List.take_append_drop k (sort rows), List.drop_eq_getElem_cons hk']
            rw [List.getElem?_eq_getElem hk'] at g1
            simp only [Option.some.injEq] at g1
            rw [g1]
          rw [hsplit, List.pairwise_append] at hsorted
          have := (List.pairwise_cons.mp hsorted.2.1).1 q q1
          simp only at this
          omega
    have hout : ∀ q ∈ out.take k, ∃ j, j < k ∧ out[j]? = some q := by
      intro q hq'
      obtain ⟨j, hj⟩ := List.mem_iff_getElem?.mp hq'
      rw [List.getElem?_take] at hj
      split at hj
      · exact ⟨j, by assumption, hj⟩
      · cases hj
    have hmy : ∀ q ∈ out, q.maturityYears = yearsFrom b cd q.quote.maturity ∧ cd ≤ q.quote.maturity := by
      intro q hq'
      obtain ⟨j, hj⟩ := List.mem_iff_getElem?.mp hq'
      obtain ⟨r', e1, e2⟩ := hget j q hj
      obtain ⟨x1, -, x3, -⟩ := bootstrapCashRow_keeps e2
      obtain ⟨-, -, y3, -, y5⟩ := hmem r' (List.mem_of_getElem? e1)
      rw [x3, x1]; exact ⟨y3, y5⟩
    have hx : ∀ q ∈ ((out.take k ++ r :: (sort rows).drop (k + 1)).filter
        (fun q => decide (q.quote.maturity ≤ r.quote.effective))).map
        (fun q => (q.maturityYears, npLog q.maturityDf)), q.1 ≤ r.effectiveYears := by
      intro p hp
      obtain ⟨q, hq', rfl⟩ := List.mem_map.mp hp
      obtain ⟨q1, q2⟩ := hle q hq'
      have := hmy q (List.mem_of_mem_take q1)
      simp only [this.1, m2]
      rcases lt_or_eq_of_le q2 with hlt | heq
      · exact (yearsFrom_lt hb this.2 hlt).le
      · rw [heq]
    split at g2
    · cases g2
    · rename_i y hy
      obtain ⟨p, hp, hpx, hyp⟩ := (interp1dBounded_end hx).1 y hy
      obtain ⟨q, hq', rfl⟩ := List.mem_map.mp hp
      obtain ⟨q1, q2⟩ := hle q hq'
      obtain ⟨j, hj, hqj⟩ := hout q q1
      have hqm := hmy q (List.mem_of_mem_take q1)
      simp only [hqm.1, m2] at hpx
      have heq : q.quote.maturity = r.quote.effective := by
        rcases lt_or_eq_of_le q2 with hlt | heq
        · exact absurd hpx (yearsFrom_lt hb hqm.2 hlt).ne
        · exact heq
      simp only [pure, Except.pure, Except.ok.injEq] at g2
      have he : o.effectiveDf = npExp (npLog q.maturityDf) := by rw [← g2, hyp]
      refine ⟨q, List.mem_of_mem_take q1, by rw [k1]; exact heq, ?_, ?_⟩
      · intro v hv pv
        rw [he, hv]
        simp [npLog, npExp, pv, Real.exp_log pv]
      · intro hv
        have h0 : o.effectiveDf = none := by
          rw [he]
          rcases hv with hv | ⟨v, hv, nv⟩
          · rw [hv]; rfl
          · rw [hv]
            simp [npLog, npExp, not_lt.2 nv.le]
        refine ⟨h0, ?_⟩
        rw [k4, h0]
        unfold npDiv
        split <;> rfl
  exact forall_of_get (fun k o hk hd => key k o hk hd)

/-- Which tables can be bootstrapped: no date before the curve date, every row with settlement delay starts on the
maturity date of some row, and no row without loses everything. -/
theorem C38_accepts_iff (sort : List CashRow → List CashRow) (hsort : SortsOn (fun r : CashRow => r.quote.maturity) sort)
    (df : List CashQuote) (hne : df ≠ []) (cd : Int) (b : DayCountBasis) (hb : ActBasis b) :
    (∃ out, bootstrapCashRates sort df cd b = .ok out) ↔ (∀ q ∈ df, cd ≤ q.effective ∧ cd ≤ q.maturity) ∧
      (∀ q ∈ df, q.hasSettlementDelay = true → ∃ q' ∈ df, q'.maturity = q.effective) ∧
      ∀ q ∈ df, q.hasSettlementDelay = false → 1 + q.rate * q.periodYears ≠ 0 := by
  have hisda := actBasis_plain hb
  have mono : ∀ d e : Int, cd ≤ d → d ≤ e → yearsFrom b cd d ≤ yearsFrom b cd e := by
    intro d e h1 h2
    rcases lt_or_eq_of_le h2 with hlt | heq
    · exact (yearsFrom_lt hb h1 hlt).le
    · rw [heq]
  constructor
  · rintro ⟨out, h⟩
    obtain ⟨rows, hloop, hq, hyears⟩ := cashRows (fun q _ => ⟨hisda _, hisda _⟩) h
    obtain ⟨hperm, -⟩ := hsort rows
    have hall : ∀ q ∈ df, ∃ r ∈ rows, r.quote = q := by
      intro q hqm; rw [← hq] at hqm
      exact List.mem_map.mp hqm
    refine ⟨?_, ?_, ?_⟩
    · intro q hqm
      obtain ⟨r, hr, rfl⟩ := hall q hqm
      exact (hyears r hr).2.2
    · intro q hqm hd
      obtain ⟨r, hr, rfl⟩ := hall q hqm
      obtain ⟨filled, h1, h2, h3⟩ := bootstrapCashLoop_get hloop
      simp only [List.nil_append] at h1 h3
      subst h1
      have hr' := hperm.mem_iff.mpr hr
      obtain ⟨k, hk⟩ := List.mem_iff_getElem?.mp hr'
      obtain ⟨o, -, g2⟩ := h3 k r hk
      have hkeep : ∀ s ∈ out.take k ++ r :: (sort rows).drop (k + 1), ∃ s' ∈ rows, s'.quote = s.quote ∧
          s'.maturityYears = s.maturityYears := by
        intro s hs
        rcases List.mem_append.mp hs with hs | hs
        · obtain ⟨j, hj⟩ := List.mem_iff_getElem?.mp (List.mem_of_mem_take hs)
          have hlt : j < out.length := by
            by_contra hc
            rw [List.getElem?_eq_none (by omega)] at hj; cases hj
          obtain ⟨o', g1, g2⟩ := h3 j _ (List.getElem?_eq_getElem (by omega))
          rw [hj] at g1
          simp only [Option.some.injEq] at g1
          subst g1
          obtain ⟨x1, -, x3, -⟩ := bootstrapCashRow_keeps g2
          exact ⟨_, hperm.mem_iff.mp (List.getElem_mem _), x1.symm, x3.symm⟩
        · rcases List.mem_cons.mp hs with rfl | hs
          · exact ⟨s, hr, rfl, rfl⟩
          · exact ⟨s, hperm.mem_iff.mp (List.mem_of_mem_drop hs), rfl, rfl⟩
      unfold bootstrapCashRow at g2
      rw [if_neg (by rw [hd]; simp)] at g2
      simp only [bind, Except.bind] at g2
      split at g2
      · cases g2
      · rename_i y hy
        have hx : ∀ q ∈ ((out.take k ++ r :: (sort rows).drop (k + 1)).filter
            (fun q => decide (q.quote.maturity ≤ r.quote.effective))).map
            (fun q => (q.maturityYears, npLog q.maturityDf)), q.1 ≤ r.effectiveYears := by
          intro p hp
          obtain ⟨s, hs, rfl⟩ := List.mem_map.mp hp
          obtain ⟨s1, s2⟩ := List.mem_filter.mp hs
          simp only [decide_eq_true_eq] at s2
          obtain ⟨s', t1, t2, t3⟩ := hkeep s s1
          simp only
          rw [← t3, (hyears s' t1).2.1, (hyears r hr).1]
          rw [← t2] at s2
          exact mono _ _ (hyears s' t1).2.2.2 s2
        obtain ⟨p, hp, hpx, -⟩ := (interp1dBounded_end hx).1 y hy
        obtain ⟨s, hs, rfl⟩ := List.mem_map.mp hp
        obtain ⟨s1, s2⟩ := List.mem_filter.mp hs
        simp only [decide_eq_true_eq] at s2
        obtain ⟨s', t1, t2, t3⟩ := hkeep s s1
        simp only at hpx
        rw [← t3, (hyears s' t1).2.1, (hyears r hr).1] at hpx
        refine ⟨s'.quote, by rw [← hq]; exact List.mem_map_of_mem t1, ?_⟩
        rw [← t2] at s2
        rcases lt_or_eq_of_le s2 with hlt | heq
        · exact absurd hpx (yearsFrom_lt hb (hyears s' t1).2.2.2 hlt).ne
        · exact heq
    · intro q hqm hd hg
      obtain ⟨r, hr, rfl⟩ := hall q hqm
      obtain ⟨filled, h1, h2, h3⟩ := bootstrapCashLoop_get hloop
      obtain ⟨k, hk⟩ := List.mem_iff_getElem?.mp (hperm.mem_iff.mpr hr)
      obtain ⟨o, -, g2⟩ := h3 k r hk
      unfold bootstrapCashRow at g2
      rw [if_pos hd, if_pos hg] at g2
      cases g2
  · rintro ⟨hdates, hstart, hzero⟩
    have shape : ∀ E : List Int, E ≠ [] → (∀ e ∈ E, cd ≤ e) → ∃ r, yearFrac [cd] E b none = .ok r := by
      intro E hE hle
      have hc : checkOrder (sameShape [cd] E).1 (sameShape [cd] E).2 = .ok () := by
        match E, hE with
        | [x], _ =>
          have := hle x (by simp)
          simp [sameShape, checkOrder, pyAssert, this]
        | x :: y :: E, _ =>
          unfold checkOrder
          rw [if_neg (by simp [sameShape])]
          have : ((sameShape [cd] (x :: y :: E)).1.zip (sameShape [cd] (x :: y :: E)).2).all
              (fun p => decide (p.1 ≤ p.2)) = true := by
            rw [List.all_eq_true]
            intro p hp
            have := List.of_mem_zip hp
            simp only [sameShape] at this
            have h1 := (List.mem_replicate.mp this.1).2
            have h2 := hle p.2 this.2
            simp only [decide_eq_true_eq]; omega
          rw [this]; rfl
      unfold yearFrac dayCount
      rcases hb with rfl | rfl | rfl | rfl <;> simp [hc, Except.map]
    obtain ⟨ey, h1⟩ := shape (df.map (·.effective)) (by simpa using hne) (by
      intro e he; obtain ⟨q, hq, rfl⟩ := List.mem_map.mp he; exact (hdates q hq).1)
    obtain ⟨my, h2⟩ := shape (df.map (·.maturity)) (by simpa using hne) (by
      intro e he; obtain ⟨q, hq, rfl⟩ := List.mem_map.mp he; exact (hdates q hq).2)
    obtain ⟨l1, g1⟩ := yearFrac_from (fun e _ => hisda e) (by simpa using hne) h1
    obtain ⟨l2, g2⟩ := yearFrac_from (fun e _ => hisda e) (by simpa using hne) h2
    simp only [List.length_map] at l1 l2
    unfold bootstrapCashRates
    simp only [bind, Except.bind, h1, h2]
    generalize hrows : List.map (fun p : CashQuote × ℚ × ℚ =>
      ({ quote := p.1, effectiveYears := p.2.1, maturityYears := p.2.2 } : CashRow)) (df.zip (ey.zip my)) = rows
    have hq : rows.map (·.quote) = df := by
      rw [← hrows, List.map_map]
      have : ((fun r : CashRow => r.quote) ∘ fun p : CashQuote × ℚ × ℚ =>
        ({ quote := p.1, effectiveYears := p.2.1, maturityYears := p.2.2 } : CashRow)) = Prod.fst := rfl
      rw [this, List.map_fst_zip (by simp [l1, l2])]
    have hyears : ∀ r ∈ rows, r.effectiveYears = yearsFrom b cd r.quote.effective ∧
        r.maturityYears = yearsFrom b cd r.quote.maturity := by
      rw [← hrows]
      apply forall_of_get
      intro k r hr
      rw [List.getElem?_map, Option.map_eq_some_iff] at hr
      obtain ⟨⟨q, y1, y2⟩, hz, rfl⟩ := hr
      obtain ⟨hq, hz2⟩ := List.getElem?_zip_eq_some.mp hz
      obtain ⟨hy1, hy2⟩ := List.getElem?_zip_eq_some.mp hz2
      obtain ⟨-, z1, e1, e2⟩ := g1 k q.effective (by simp [hq])
      obtain ⟨-, z2, e3, e4⟩ := g2 k q.maturity (by simp [hq])
      simp only at hy1 hy2
      rw [hy1] at e1; rw [hy2] at e3
      simp only [Option.some.injEq] at e1 e3
      subst e1 e3
      exact ⟨e2, e4⟩
    obtain ⟨hperm, -⟩ := hsort rows
    have loop : ∀ (todo done : List CashRow),
        (∀ r ∈ done ++ todo, r.effectiveYears = yearsFrom b cd r.quote.effective ∧
          r.maturityYears = yearsFrom b cd r.quote.maturity ∧ cd ≤ r.quote.effective ∧ cd ≤ r.quote.maturity) →
        (∀ r ∈ todo, r.quote.hasSettlementDelay = true → ∃ s ∈ done ++ todo, s.quote.maturity = r.quote.effective) →
        (∀ r ∈ todo, r.quote.hasSettlementDelay = false → 1 + r.quote.rate * r.quote.periodYears ≠ 0) →
        ∃ out, bootstrapCashLoop done todo = .ok out := by
      intro todo
      induction todo with
      | nil => intro done _ _ _; exact ⟨done, rfl⟩
      | cons r todo ih =>
        intro done hy hs hz
        unfold bootstrapCashLoop
        have hrow : ∃ r', bootstrapCashRow done r todo = .ok r' := by
          unfold bootstrapCashRow
          cases hd : r.quote.hasSettlementDelay with
          | false => rw [if_pos rfl, if_neg (hz r (by simp) hd)]; exact ⟨_, rfl⟩
          | true =>
            rw [if_neg (by simp)]
            have hr := hy r (by simp)
            have hx : ∀ q ∈ ((done ++ r :: todo).filter
                (fun q => decide (q.quote.maturity ≤ r.quote.effective))).map
                (fun q => (q.maturityYears, npLog q.maturityDf)), q.1 ≤ r.effectiveYears := by
              intro p hp
              obtain ⟨s, hs, rfl⟩ := List.mem_map.mp hp
              obtain ⟨s1, s2⟩ := List.mem_filter.mp hs
              simp only [decide_eq_true_eq] at s2
              have hs' := hy s s1
              simp only
              rw [hs'.2.1, hr.1]
              exact mono _ _ hs'.2.2.2 s2
            obtain ⟨s, sm, se⟩ := hs r (by simp) hd
            obtain ⟨y, hy'⟩ := (interp1dBounded_end hx).2 ⟨(s.maturityYears, npLog s.maturityDf),
              List.mem_map_of_mem (List.mem_filter.mpr ⟨sm, by simp [se]⟩),
              by simp only; rw [(hy s sm).2.1, hr.1, se]⟩
            simp only [hy', bind, Except.bind, pure, Except.pure]
            exact ⟨_, rfl⟩
        obtain ⟨r', hr'⟩ := hrow
        obtain ⟨x1, x2, x3, -⟩ := bootstrapCashRow_keeps hr'
        simp only [hr', bind, Except.bind]
        apply ih
        · intro s hs'
          rw [List.append_assoc] at hs'
          rcases List.mem_append.mp hs' with hs' | hs'
          · exact hy s (by simp [hs'])
          · rcases List.mem_cons.mp hs' with rfl | hs'
            · rw [x1, x2, x3]; exact hy r (by simp)
            · exact hy s (by simp at hs' ⊢; simp [hs'])
        · intro s hs' hd
          obtain ⟨t, tm, te⟩ := hs s (by simp [hs']) hd
          rcases List.mem_append.mp tm with tm | tm
          · exact ⟨t, by simp [tm], te⟩
          · rcases List.mem_cons.mp tm with rfl | tm
            · exact ⟨r', by simp, by rw [x1]; exact te⟩
            · exact ⟨t, by simp [tm], te⟩
        · exact fun s hs' hd => hz s (by simp [hs']) hd
    apply loop
    · intro r hr
      rw [List.nil_append] at hr
      have hr' := hperm.mem_iff.mp hr
      have hqm : r.quote ∈ df := by rw [← hq]; exact List.mem_map_of_mem hr'
      exact ⟨(hyears r hr').1, (hyears r hr').2, hdates _ hqm⟩
    · intro r hr hd
      have hr' := hperm.mem_iff.mp hr
      have hqm : r.quote ∈ df := by rw [← hq]; exact List.mem_map_of_mem hr'
      obtain ⟨q', q1, q2⟩ := hstart _ hqm hd
      rw [← hq] at q1
      obtain ⟨s, s1, rfl⟩ := List.mem_map.mp q1
      exact ⟨s, by rw [List.nil_append]; exact hperm.mem_iff.mpr s1, q2⟩
    · intro r hr hd
      exact hzero _ (by rw [← hq]; exact List.mem_map_of_mem (hperm.mem_iff.mp hr)) hd

/-- An overnight rate followed by a one-week rate from its maturity: accepted, with positive accruals. -/
example : ∃ (sort : List CashRow → List CashRow) (out : List CashRow),
    SortsOn (fun r : CashRow => r.quote.maturity) sort ∧
    bootstrapCashRates sort [⟨0, 1, 0.05, 1 / 365, false⟩, ⟨1, 8, 0.05, 7 / 365, true⟩] 0 .act_act = .ok out ∧
    ∀ q ∈ ([⟨0, 1, 0.05, 1 / 365, false⟩, ⟨1, 8, 0.05, 7 / 365, true⟩] : List CashQuote),
      q.effective < q.maturity ∧ 0 < 1 + q.rate * q.periodYears := by
  have hs : SortsOn (fun r : CashRow => r.quote.maturity)
      (fun l => l.insertionSort (fun a b => a.quote.maturity ≤ b.quote.maturity)) := by
    intro l
    have ht : Std.Total (fun a b : CashRow => a.quote.maturity ≤ b.quote.maturity) := ⟨fun a b => le_total _ _⟩
    have htr : IsTrans CashRow (fun a b => a.quote.maturity ≤ b.quote.maturity) := ⟨fun a b c h1 h2 => le_trans h1 h2⟩
    exact ⟨List.perm_insertionSort _ l, List.pairwise_insertionSort _ l⟩
  obtain ⟨out, h⟩ := (C38_accepts_iff _ hs [⟨0, 1, 0.05, 1 / 365, false⟩, ⟨1, 8, 0.05, 7 / 365, true⟩] (by simp) 0 .act_act
    (.inr (.inr (.inr rfl)))).mpr (by simp; norm_num)
  refine ⟨_, out, hs, h, ?_⟩
  intro q hq
  simp only [List.mem_cons, List.not_mem_nil, or_false] at hq
  rcases hq with rfl | rfl <;> norm_num

end Frm.Props
