import Verif.Props.C38
import Verif.Props.C67
import Verif.Props.C05
import Verif.Props.C35
import Verif.Props.C36
import Verif.Props.C109

/-! # C110 — A zero curve built on bootstrapped cash rates gives the quoted rates back -/

namespace Frm.Props
open Spec

set_option autoImplicit false

/-- Dates after the curve date and as many discount factors make a curve with linear interpolation. -/
theorem C110_accepted (cd : Int) (ds : List Int) (vs : List ℝ) (freq : Option CompoundingFreq) (basis : DayCountBasis)
    (hb : ActBasis basis) (cal : BusCal) (hl : ds.length = vs.length) (hne : ds ≠ []) (hds : ∀ d ∈ ds, cd < d) :
    ∃ z, makeZeroCurve cd { date := some ds, discountFactor := some vs } freq basis cal = .ok z := by
  obtain ⟨ys, hys⟩ := yearFrac_left_ok (b := basis) hne (fun e he => (hds e he).le)
  have hyl : ys.length = ds.length := by rw [yearFrac_length hys, sameShape_lengths hne]
  have hypos : ∀ y ∈ ys, 0 < y := by
    intro y hy
    obtain ⟨i, hi⟩ := List.mem_iff_getElem?.mp hy
    have hlt : i < ds.length := by
      obtain ⟨h, -⟩ := List.getElem?_eq_some_iff.mp hi
      omega
    have hsi := sameShape_left ds cd i ds[i] (List.getElem?_eq_getElem hlt)
    obtain ⟨t, ht, hti⟩ := yearFrac_get hys (actBasis_plain hb _) hsi.1 hsi.2
    rw [hi] at hti
    cases hti
    exact yearFrac_strict hb (hds _ (List.getElem_mem hlt)) (yearFrac_self (actBasis_plain hb cd)) ht
  set rows := (((ds.map some).zip (ys.map (fun (y : Rat) => (y : ℝ)))).zip vs).map (fun p =>
    ({ date := p.1.1, years := p.1.2, discountFactor := p.2 } : PillarRow)) with hrows
  have hrlen : rows.length = ds.length := by simp [hrows, hyl, ← hl]
  have hperm : (rows.insertionSort (fun a b => a.years ≤ b.years)).Perm rows := List.perm_insertionSort _ rows
  have hpos : ∀ r ∈ rows, 0 < r.years := by
    intro r hr
    rw [hrows] at hr
    obtain ⟨p, hp, rfl⟩ := List.mem_map.mp hr
    have h1 := (List.of_mem_zip (List.of_mem_zip hp).1).2
    obtain ⟨y, hy, he⟩ := List.mem_map.mp h1
    simp only [← he]
    exact_mod_cast hypos y hy
  have hdate : ∀ r ∈ rows, ∃ d ∈ ds, r.date = some d := by
    intro r hr
    rw [hrows] at hr
    obtain ⟨p, hp, rfl⟩ := List.mem_map.mp hr
    have h1 := (List.of_mem_zip (List.of_mem_zip hp).1).1
    obtain ⟨d, hd, he⟩ := List.mem_map.mp h1
    exact ⟨d, hd, he.symm⟩
  have hpp : ∃ pillars, processPillars cal basis cd freq { date := some ds, discountFactor := some vs } = .ok pillars ∧
      ∃ r rest, pillars = r :: rest ∧ r.date = some cd ∧ ∀ p ∈ rest, ∃ d ∈ ds, p.date = some d := by
    unfold processPillars
    have hc : chooseColumns { date := some ds, discountFactor := some vs } = .ok (.date ds, .discountFactor vs) := rfl
    simp only [hc, bind, Except.bind, pillarTimes, hys, Except.map, pillarValues]
    rw [← hrows]
    cases hs : rows.insertionSort (fun a b => a.years ≤ b.years) with
    | nil =>
      rw [hs] at hperm
      have h0 := hperm.length_eq
      rw [hrlen] at h0
      exact absurd (List.length_eq_zero_iff.mp h0.symm) hne
    | cons first rest =>
      rw [hs] at hperm
      have hf : first ∈ rows := hperm.subset (by simp)
      simp only
      rw [if_pos (hpos first hf).ne']
      refine ⟨_, rfl, _, _, rfl, ?_, fun p hp => hdate p (hperm.subset hp)⟩
      obtain ⟨d, -, hd⟩ := hdate first hf
      simp [hd]
  obtain ⟨pillars, hp, r0, rest, rfl, hr0, hrest⟩ := hpp
  have hlast : ∃ last, lastDay basis cd (r0 :: rest) = .ok last ∧ cd ≤ last := by
    unfold lastDay
    simp only [List.filterMap_cons, hr0]
    cases hm : (cd :: rest.filterMap (·.date)).max? with
    | none => simp at hm
    | some m => exact ⟨m, rfl, (List.max?_eq_some_iff.mp hm).2 cd (by simp)⟩
  obtain ⟨last, hl1, hl2⟩ := hlast
  have hdr : dateRange cd last ≠ [] := by
    intro hc
    have : cd ∈ dateRange cd last := mem_dateRange.mpr ⟨le_refl _, hl2⟩
    rw [hc] at this
    cases this
  obtain ⟨yd, hyd⟩ := yearFrac_left_ok (b := basis) hdr (fun e he => (mem_dateRange.mp he).1)
  unfold makeZeroCurve setupDaily
  simp only [hp, bind, Except.bind, hl1, hyd]
  exact ⟨_, rfl⟩

section
variable (sort : List CashRow → List CashRow) (hsort : SortsOn (fun r : CashRow => r.quote.maturity) sort)
  (df : List CashQuote) (cd : Int) (b : DayCountBasis) (hb : ActBasis b) (out : List CashRow)
  (h : bootstrapCashRates sort df cd b = .ok out)
include hsort hb h

/-- **C110** The maturities and discount factors of a bootstrapped table make a curve, and on it every quote of the table grows at its own
rate: cash quotes that mature after they start, at different dates, with positive growth; those without settlement delay start on the
curve date. -/
theorem C110_curve (hne : df ≠ []) (hacc : ∀ q ∈ df, q.effective < q.maturity ∧ 0 < 1 + q.rate * q.periodYears)
    (hstart : ∀ q ∈ df, q.hasSettlementDelay = false → q.effective = cd) (hnd : (df.map (·.maturity)).Nodup)
    (freq : Option CompoundingFreq) (basis : DayCountBasis) (hbz : ActBasis basis) (cal : BusCal) :
    ∃ (vs : List ℝ) (z : ZeroCurve), out.map (·.maturityDf) = vs.map some ∧
      makeZeroCurve cd { date := some (out.map (·.quote.maturity)), discountFactor := some vs } freq basis cal = .ok z ∧
      ∀ q ∈ df, InRange z q.effective ∧ InRange z q.maturity ∧ ∃ u v : ℝ, 0 < v ∧ z.discountFactors [q.effective] = [some u] ∧
        z.discountFactors [q.maturity] = [some v] ∧ u / v = 1 + q.rate * q.periodYears := by
  obtain ⟨hperm, -, hout⟩ := C38_bootstrap sort hsort df cd b hb hacc out h
  obtain ⟨hdates, -⟩ := (C38_accepts_iff sort hsort df hne cd b hb).mp ⟨out, h⟩
  have hmemq : ∀ o ∈ out, o.quote ∈ df := fun o ho => hperm.subset (List.mem_map.mpr ⟨o, ho, rfl⟩)
  have hvs : ∃ vs : List ℝ, out.map (·.maturityDf) = vs.map some ∧ ∀ v ∈ vs, 0 < v := by
    refine ⟨out.map (fun o => o.maturityDf.getD 0), ?_, ?_⟩
    · rw [List.map_map]
      apply List.map_congr_left
      intro o ho
      obtain ⟨u, v, -, -, -, hv, -⟩ := hout o ho
      simp [hv]
    · intro v hv
      obtain ⟨o, ho, rfl⟩ := List.mem_map.mp hv
      obtain ⟨u, v, -, hv0, -, hv, -⟩ := hout o ho
      simpa [hv] using hv0
  obtain ⟨vs, hvs, hvpos⟩ := hvs
  have hlen : (out.map (·.quote.maturity)).length = vs.length := by
    have := congrArg List.length hvs
    simpa using this
  have hds : ∀ d ∈ out.map (·.quote.maturity), cd < d := by
    intro d hd
    obtain ⟨o, ho, rfl⟩ := List.mem_map.mp hd
    have h1 := (hdates _ (hmemq o ho)).1
    have h2 := (hacc _ (hmemq o ho)).1
    omega
  have hnd' : (out.map (·.quote.maturity)).Nodup := by
    have : (out.map (·.quote.maturity)).Perm (df.map (·.maturity)) := by
      have := hperm.map (·.maturity)
      rwa [List.map_map] at this
    exact this.nodup_iff.mpr hnd
  have hone : out ≠ [] := by
    intro hc
    rw [hc] at hperm
    simp only [List.map_nil] at hperm
    exact hne hperm.symm.eq_nil
  obtain ⟨z, hz⟩ := C110_accepted cd (out.map (·.quote.maturity)) vs freq basis hbz cal hlen (by simpa using hone) hds
  obtain ⟨hg, hr, -⟩ := C35_from_dates cd _ vs freq basis hbz cal z hlen hnd' hds hvpos hz
  have hrep := C35_reproduces_quotes cd _ vs freq basis hbz cal z hlen hnd' hds hvpos hz
  have hmat : ∀ o ∈ out, ∀ v, o.maturityDf = some v → z.discountFactors [o.quote.maturity] = [some v] := by
    intro o ho v hv
    obtain ⟨i, hi⟩ := List.mem_iff_getElem?.mp ho
    refine hrep i _ v (by simp [hi]) ?_
    have := congrArg (fun l => l[i]?) hvs
    simp only [List.getElem?_map, hi, Option.map_some, hv] at this
    cases hvi : vs[i]? with
    | none => rw [hvi] at this; cases this
    | some w => rw [hvi] at this; simpa using this.symm
  refine ⟨vs, z, hvs, hz, fun q hq => ?_⟩
  obtain ⟨o, ho, rfl⟩ := List.mem_map.mp (hperm.symm.subset hq)
  have hq0 := (hdates _ hq).1
  have hq1 := (hacc _ hq).1
  have hin : ∀ d, cd ≤ d → d ≤ o.quote.maturity → InRange z d := fun d h1 h2 =>
    (hr d).mpr ⟨h1, _, List.mem_map.mpr ⟨o, ho, rfl⟩, h2⟩
  obtain ⟨u, v, -, hv0, -, hv, huv, hu1, hu2⟩ := hout o ho
  refine ⟨hin _ hq0 hq1.le, hin _ (by omega) (le_refl _), u, v, hv0, ?_, hmat o ho v hv, huv⟩
  cases hd : o.quote.hasSettlementDelay with
  | false =>
    rw [hstart _ hq hd, hu1 hd]
    exact C35_unit_at_curve_date hz (actBasis_plain hbz cd) hg (hin cd (le_refl _) (by omega))
  | true =>
    obtain ⟨o', ho', he, hu⟩ := hu2 hd
    rw [← he]
    exact hmat o' ho' u hu

/-- **C110** When the periods of the quotes were counted on the basis of the curve, the simple forward rates of the curve over the periods
of the quotes are the quoted rates. -/
theorem C110_reprices (hne : df ≠ []) (hacc : ∀ q ∈ df, q.effective < q.maturity ∧ 0 < 1 + q.rate * q.periodYears)
    (hstart : ∀ q ∈ df, q.hasSettlementDelay = false → q.effective = cd) (hnd : (df.map (·.maturity)).Nodup)
    (freq : Option CompoundingFreq) (basis : DayCountBasis) (hbz : ActBasis basis) (cal : BusCal)
    (hper : ∀ q ∈ df, ∃ y : Rat, yearFrac [q.effective] [q.maturity] basis none = .ok [y] ∧ q.periodYears = y) :
    ∃ (vs : List ℝ) (z : ZeroCurve), out.map (·.maturityDf) = vs.map some ∧
      makeZeroCurve cd { date := some (out.map (·.quote.maturity)), discountFactor := some vs } freq basis cal = .ok z ∧
      z.forwardRates (df.map (·.effective)) (df.map (·.maturity)) .simple = .ok (df.map (fun q => some q.rate)) := by
  obtain ⟨vs, z, hvs, hz, hq⟩ := C110_curve sort hsort df cd b hb out h hne hacc hstart hnd freq basis hbz cal
  refine ⟨vs, z, hvs, hz, ?_⟩
  obtain ⟨r, hr, hrl, hget⟩ := C36_reproduces (.linear hz) (df.map (·.effective)) (df.map (·.maturity)) (by simp)
    (by intro d hd; obtain ⟨q, hq', rfl⟩ := List.mem_map.mp hd; exact (hq q hq').1)
    (by intro d hd; obtain ⟨q, hq', rfl⟩ := List.mem_map.mp hd; exact (hq q hq').2.1)
    (by
      intro p hp
      rw [List.zip_map, List.mem_map] at hp
      obtain ⟨⟨q, q'⟩, hp, rfl⟩ := hp
      have hd : ∀ (l : List CashQuote), (q, q') ∈ l.zip l → q = q' ∧ q ∈ l := by
        intro l hl
        obtain ⟨i, hi⟩ := List.mem_iff_getElem?.mp hl
        obtain ⟨h1, h2⟩ := List.getElem?_zip_eq_some.mp hi
        simp only at h1 h2
        rw [h1] at h2
        exact ⟨Option.some.inj h2, List.mem_of_getElem? h1⟩
      obtain ⟨rfl, hm⟩ := hd df hp
      exact (hacc q hm).1.le) .simple (by simp)
  rw [hr]
  congr 1
  apply List.ext_getElem?
  intro i
  cases hi : df[i]? with
  | none =>
    have : df.length ≤ i := List.getElem?_eq_none_iff.mp hi
    rw [List.getElem?_eq_none (by rw [hrl]; simpa using this), List.getElem?_eq_none (by simpa using this)]
  | some q =>
    have hm := List.mem_of_getElem? hi
    obtain ⟨dt, a, b', -, hdt, ha, hb', hx⟩ := hget i q.effective q.maturity (by simp [hi]) (by simp [hi])
    have hdt := hdt (actBasis_plain hbz _)
    obtain ⟨y, hy, hpy⟩ := hper q hm
    rw [hdt] at hy
    cases hy
    obtain ⟨-, -, u, v, -, hu, hv, huv⟩ := hq q hm
    rw [hu] at ha; cases ha
    rw [hv] at hb'; cases hb'
    have hpos : (0 : ℝ) < dt := by
      have := yearFrac_strict hbz (hacc q hm).1 (yearFrac_self (actBasis_plain hbz q.effective)) hdt
      exact_mod_cast this
    obtain ⟨x, hx1, hx2⟩ := hx hpos.ne'
    rw [hx1, List.getElem?_map, hi]
    simp only [growth] at hx2
    rw [huv, hpy] at hx2
    have : x = q.rate := by
      have h3 : x * (dt : ℝ) = q.rate * dt := by linarith
      exact mul_right_cancel₀ hpos.ne' h3
    simp [this]

end

/-- **C110** From tenors and rates: `cash_rates_quote_helper`, `bootstrap_cash_rates` and `ZeroCurve` on the maturities and discount factors of
the result give a curve whose simple forward rates over the periods of the quotes are the rates put in, in the order of the input. -/
theorem C110_from_tenors (sort : List CashRow → List CashRow) (hsort : SortsOn (fun r : CashRow => r.quote.maturity) sort)
    (df : List CashInput) (hne : df ≠ []) (cd : Int) (basis : DayCountBasis) (hbz : ActBasis basis) (delay date : Option Int) (cal : BusCal)
    (hcal : cal.Ok) (quotes : List CashQuote) (hq : cashRatesQuoteHelper df cd basis delay date cal = .ok quotes)
    (hacc : ∀ q ∈ quotes, q.effective < q.maturity ∧ 0 < 1 + q.rate * q.periodYears) (hnd : (quotes.map (·.maturity)).Nodup)
    (b : DayCountBasis) (hb : ActBasis b) (out : List CashRow) (h : bootstrapCashRates sort quotes cd b = .ok out)
    (freq : Option CompoundingFreq) :
    ∃ (vs : List ℝ) (z : ZeroCurve), out.map (·.maturityDf) = vs.map some ∧
      makeZeroCurve cd { date := some (out.map (·.quote.maturity)), discountFactor := some vs } freq basis cal = .ok z ∧
      z.forwardRates (quotes.map (·.effective)) (quotes.map (·.maturity)) .simple = .ok (df.map (fun r => some r.rate)) := by
  obtain ⟨sd, -, hlen, hrow⟩ := C67_rows df cd basis delay date cal hcal quotes hq
  have hback : ∀ q ∈ quotes, ∃ (i : Nat) (r : CashInput), df[i]? = some r ∧ quotes[i]? = some q := by
    intro q hq
    obtain ⟨i, hi⟩ := List.mem_iff_getElem?.mp hq
    have hlt : i < df.length := by
      obtain ⟨h, -⟩ := List.getElem?_eq_some_iff.mp hi
      omega
    exact ⟨i, _, List.getElem?_eq_getElem hlt, hi⟩
  have hrates : quotes.map (fun q => some q.rate) = df.map (fun r => some r.rate) := by
    apply List.ext_getElem?
    intro i
    cases hi : df[i]? with
    | none =>
      have : df.length ≤ i := List.getElem?_eq_none_iff.mp hi
      rw [List.getElem?_eq_none (by simp; omega), List.getElem?_eq_none (by simpa using this)]
    | some r =>
      obtain ⟨q, hqi, hr, -⟩ := hrow i r hi
      simp [hi, hqi, hr]
  rw [← hrates]
  refine C110_reprices sort hsort quotes cd b hb out h ?_ hacc ?_ hnd freq basis hbz cal ?_
  · intro hc
    rw [hc] at hlen
    exact hne (List.length_eq_zero_iff.mp hlen.symm)
  · intro q hm hd
    obtain ⟨i, r, hi, hqi⟩ := hback q hm
    obtain ⟨q', hqi', -, h2, h3, -⟩ := hrow i r hi
    rw [hqi] at hqi'
    cases hqi'
    exact h3 (h2.mp hd)
  · intro q hm
    obtain ⟨i, r, hi, hqi⟩ := hback q hm
    obtain ⟨q', hqi', -, -, -, -, -, y, -, hy, hpy⟩ := hrow i r hi
    rw [hqi] at hqi'
    cases hqi'
    exact ⟨y, hy (actBasis_plain hbz _), hpy⟩

theorem settles_unique {cal : BusCal} {cd : Int} {delay date : Option Int} {s s' : Int} (h : settles cal cd delay date s)
    (h' : settles cal cd delay date s') : s = s' := by
  rcases h with h | ⟨h, n, hn, rfl⟩ <;> rcases h' with h' | ⟨h', m, hm, rfl⟩ <;> simp_all

/-- **C110** What the settlement date has to be.  A table with a quote other than an overnight one is bootstrapped only if the settlement
date is the first business day after the curve date, and an overnight quote is in the table: the factor at the settlement date is looked
for among the maturities of the table. -/
theorem C110_settlement (sort : List CashRow → List CashRow) (hsort : SortsOn (fun r : CashRow => r.quote.maturity) sort)
    (df : List CashInput) (cd : Int) (basis : DayCountBasis) (delay date : Option Int) (cal : BusCal)
    (hcal : cal.Ok) (quotes : List CashQuote) (hq : cashRatesQuoteHelper df cd basis delay date cal = .ok quotes)
    (hacc : ∀ q ∈ quotes, q.effective < q.maturity)
    (b : DayCountBasis) (hb : ActBasis b) (out : List CashRow) (h : bootstrapCashRates sort quotes cd b = .ok out)
    (r : CashInput) (hr : r ∈ df) (hr' : cleanTenor r.tenor ≠ "on".toList) (sd : Int) (hsd : settles cal cd delay date sd) :
    FirstOnOrAfter cal (cd + 1) sd ∧ ∃ r' ∈ df, cleanTenor r'.tenor = "on".toList := by
  obtain ⟨sd', hs', hlen, hrow⟩ := C67_rows df cd basis delay date cal hcal quotes hq
  obtain rfl := settles_unique hsd hs'
  obtain ⟨i, hi⟩ := List.mem_iff_getElem?.mp hr
  obtain ⟨q, hqi, -, hdel, -, heff, -⟩ := hrow i r hi
  have hqm := List.mem_of_getElem? hqi
  have hqd : q.hasSettlementDelay = true := by
    cases hd : q.hasSettlementDelay with
    | true => rfl
    | false => exact absurd (hdel.mp hd) hr'
  have hne : quotes ≠ [] := by rintro rfl; cases hqm
  obtain ⟨-, hex, -⟩ := (C38_accepts_iff sort hsort quotes hne cd b hb).mp ⟨out, h⟩
  obtain ⟨q', hq', hmat⟩ := hex q hqm hqd
  rw [heff hr'] at hmat
  obtain ⟨j, hj⟩ := List.mem_iff_getElem?.mp hq'
  have hlt : j < df.length := by
    obtain ⟨h, -⟩ := List.getElem?_eq_some_iff.mp hj
    omega
  obtain ⟨q'', hj', -, -, hon, hoff, ⟨o, ho, hfirst⟩, -⟩ := hrow j _ (List.getElem?_eq_getElem hlt)
  rw [hj] at hj'
  cases hj'
  by_cases ht : cleanTenor (df[j]).tenor = "on".toList
  · refine ⟨?_, df[j], List.getElem_mem hlt, ht⟩
    rw [ht] at ho
    have : o = .days 1 := by
      have h1 : tenorToDateOffset "on".toList = .ok (.days 1) := by unfold tenorToDateOffset; rw [if_pos rfl]
      rw [h1] at ho
      exact (Except.ok.inj ho).symm
    subst this
    rw [hon ht, hmat] at hfirst
    exact hfirst
  · have := hacc q' hq'
    rw [hoff ht] at this
    omega

/-- **C110** So with a delay in business days from a business day, only a delay of one day is bootstrapped: the usual two days are refused
whatever the table, as is no delay at all. -/
theorem C110_one_day_only (sort : List CashRow → List CashRow) (hsort : SortsOn (fun r : CashRow => r.quote.maturity) sort)
    (df : List CashInput) (cd : Int) (basis : DayCountBasis) (n : Int) (hn : n ≠ 1) (cal : BusCal)
    (hcal : cal.Ok) (hcd : isBusDay cal cd = true) (quotes : List CashQuote)
    (hq : cashRatesQuoteHelper df cd basis (some n) none cal = .ok quotes) (hacc : ∀ q ∈ quotes, q.effective < q.maturity)
    (b : DayCountBasis) (hb : ActBasis b) (r : CashInput) (hr : r ∈ df) (hr' : cleanTenor r.tenor ≠ "on".toList) :
    ∃ e, bootstrapCashRates sort quotes cd b = .error e := by
  cases h : bootstrapCashRates sort quotes cd b with
  | error e => exact ⟨e, rfl⟩
  | ok out =>
    exfalso
    obtain ⟨h1, -⟩ := C110_settlement sort hsort df cd basis (some n) none cal hcal quotes hq hacc b hb out h r hr hr' (workday cal cd n)
      (.inr ⟨rfl, n, rfl, rfl⟩)
    have h2 : workday cal cd 1 = workday cal cd n := by
      rw [← (following_eq_iff hcal).mpr h1]
      unfold workday
      rw [following_of_bus hcal hcd]
      rfl
    rcases lt_or_gt_of_ne hn with hlt | hlt
    · have := C05_strict_in_offset hcal cd n (1 - n - 1).toNat
      rw [show n + (((1 - n - 1).toNat : Int) + 1) = 1 by omega] at this
      omega
    · have := C05_strict_in_offset hcal cd 1 (n - 1 - 1).toNat
      rw [show (1 : Int) + (((n - 1 - 1).toNat : Int) + 1) = n by omega] at this
      omega

/-- An overnight rate and a one-week rate settling the next day: bootstrapped, made a curve and given back. -/
example (cal : BusCal) : ∃ (sort : List CashRow → List CashRow) (out : List CashRow) (vs : List ℝ) (z : ZeroCurve),
    bootstrapCashRates sort [⟨0, 1, 0.04, 1 / 365, false⟩, ⟨1, 8, 0.05, 7 / 365, true⟩] 0 .act_act = .ok out ∧
    out.map (·.maturityDf) = vs.map some ∧
    makeZeroCurve 0 { date := some (out.map (·.quote.maturity)), discountFactor := some vs } none .act_365 cal = .ok z ∧
    z.forwardRates [0, 1] [1, 8] .simple = .ok [some 0.04, some 0.05] := by
  have hs : SortsOn (fun r : CashRow => r.quote.maturity)
      (fun l => l.insertionSort (fun a b => a.quote.maturity ≤ b.quote.maturity)) := by
    intro l
    have ht : Std.Total (fun a b : CashRow => a.quote.maturity ≤ b.quote.maturity) := ⟨fun a b => le_total _ _⟩
    have htr : IsTrans CashRow (fun a b => a.quote.maturity ≤ b.quote.maturity) := ⟨fun a b c h1 h2 => le_trans h1 h2⟩
    exact ⟨List.perm_insertionSort _ l, List.pairwise_insertionSort _ l⟩
  have hb : ActBasis .act_act := .inr (.inr (.inr rfl))
  obtain ⟨out, h⟩ := (C38_accepts_iff _ hs [⟨0, 1, 0.04, 1 / 365, false⟩, ⟨1, 8, 0.05, 7 / 365, true⟩] (by simp) 0 .act_act hb).mpr
    (by simp; norm_num)
  have h1 : yearFrac [0] [1] .act_365 none = .ok [1 / 365] := by decide +kernel
  have h2 : yearFrac [1] [8] .act_365 none = .ok [7 / 365] := by decide +kernel
  obtain ⟨vs, z, k1, k2, k3⟩ := C110_reprices _ hs _ 0 .act_act hb out h (by simp)
    (by
      intro q hq
      simp only [List.mem_cons, List.not_mem_nil, or_false] at hq
      rcases hq with rfl | rfl <;> norm_num) (by simp) (by simp) none .act_365 (.inr (.inl rfl)) cal
    (by
      intro q hq
      simp only [List.mem_cons, List.not_mem_nil, or_false] at hq
      rcases hq with rfl | rfl
      · exact ⟨_, h1, by norm_num⟩
      · exact ⟨_, h2, by norm_num⟩)
  exact ⟨_, out, vs, z, h, k1, k2, k3⟩

end Frm.Props
