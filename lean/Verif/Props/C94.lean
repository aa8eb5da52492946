import Verif.Model.FxConstruct
import Verif.Proofs.OptionletPricing
import Verif.Props.C08
import Verif.Props.C41
import Verif.Props.C43
import Verif.Props.C44
import Verif.Props.C51
import Verif.Props.C81

/-!
# C94: construction of an FX volatility surface
-/

namespace Frm
namespace Spec

set_option autoImplicit false

/-- The three sorts do sort. -/
structure FxSorted (s : FxSorts) : Prop where
  forward : SortsOn (fun r : FxRow => r.delivery.getD 0) s.forward
  pillars : SortsOn (fun r : VolRow => r.row.delivery.getD 0) s.pillars
  smile : SortsOnRat smileOrder s.smile

/-- The forwards of a table by fixing date; those that are missing are left out. -/
def fixingPoints (rows : List FxRow) : List (Int × Rat) := rows.filterMap (fun r => r.rateSet.bind (fun d => r.value.map (fun v => (d, v))))

/-- The forward of the day `d`: the one quoted for `d`, else the one on the line between the quotes before and after, else the nearest
quote. -/
def ForwardAt (points : List (Int × Rat)) (d : Int) (y : Rat) : Prop :=
  (d, y) ∈ points ∨ (∃ p q, PillarNeighbours points p q d ∧ OnLine p q d y) ∨
    ∃ p q, Ends points p q ∧ ((d < p.1 ∧ y = p.2) ∨ (q.1 < d ∧ y = q.2))

/-- The text that stands for a convention in a table of quotes. -/
def conventionText : DeltaConvention → Str
  | .regularSpot => "regular_spot".toList
  | .regularForward => "regular_forward".toList
  | .adjustedSpot => "premium_adjusted_spot".toList
  | .adjustedForward => "premium_adjusted_forward".toList

/-- The delta of an option under a convention. -/
def HasDelta : DeltaConvention → GkRow → ℝ → Prop
  | .regularSpot => HasSpotDelta
  | .regularForward => HasForwardDelta
  | .adjustedSpot => HasAdjustedSpotDelta
  | .adjustedForward => HasAdjustedForwardDelta

/-- The strike `K` of a quote `δ`: for one half a call and a put with this strike have opposite deltas (forward deltas, unless adjusted for
premium); another `δ` is the delta of the option with this strike, a call for `0 < δ` and a put for `δ < 0`. -/
def QuotedStrike (conv : DeltaConvention) (m : StrikeMarket) (vol δ K : ℝ) : Prop :=
  0 < K ∧ (|δ| ≠ 0.5 → HasDelta conv (StrikeMarket.option m vol K (if 0 < δ then 1 else -1)) δ) ∧
  (|δ| = 0.5 → ∃ d, 0 < d ∧ HasDelta (if conv = .regularSpot then .regularForward else conv) (StrikeMarket.option m vol K 1) d ∧
    HasDelta (if conv = .regularSpot then .regularForward else conv) (StrikeMarket.option m vol K (-1)) (-d))

end Spec
open Spec Classical

set_option autoImplicit false

/-- What a construction that succeeds has computed. -/
structure FxParts (sorts : FxSorts) (solve : (ℝ → ℝ) → DeltaQuote → Except Err ℝ) (x : FxInputs) (b : FxBuilt) : Prop where
  pair : ∃ dc fc, validateCcyPair (x.foreign ++ x.domestic) = .ok (b.pair, dc, fc)
  dates : resolveFxCurveDates b.pair x.cal x.curveDate x.spotOffset x.spotDate = .ok (b.curveDate, b.spotOffset, b.spotDate)
  domestic : b.curveDate = x.domesticCurve.curveDate
  foreign : b.curveDate = x.foreignCurve.curveDate
  forward : fxForwardTable x.cal b.curveDate b.spotOffset x.forward = .ok b.callerForward.rows
  forwardSorted : b.forward = sorts.forward b.callerForward.rows
  spot : fxSpotRate b.forward = .ok b.spot
  quotes : solveCallPut (cleanVolQuotesColumnNames x.quotes.quotes) = .ok b.callerQuotes.quotes
  smile : getDeltaSmileQuoteDetails sorts.smile (b.callerQuotes.quotes.map (·.1)) = .ok b.smile
  rows : ∃ vols, volRows b.pair x.cal b.curveDate b.spotOffset x.quotes b.callerQuotes.quotes (b.smile.map (·.name)) =
      .ok (b.callerQuotes.rows, vols) ∧
    fxPillars b.forward x.domesticCurve x.foreignCurve x.basis b.curveDate (sorts.pillars vols) = .ok b.pillars
  daily : smileDaily (fxCurvesOf b.forward x.domesticCurve x.foreignCurve x.basis b.curveDate ((b.pillars.map (·.expiry)).max?.getD b.curveDate))
    (b.pillars.map (·.smile)) = .ok b.daily
  strikes : b.pillars.mapM (pillarStrikes solve b.spot b.smile) = .ok b.strikes
  callerForward : b.callerForward = ⟨x.forward.hasRate, x.forward.hasTenor, b.callerForward.rows⟩
  callerQuotes : b.callerQuotes = ⟨x.quotes.hasTenor, b.callerQuotes.rows, x.quotes.conventions, b.callerQuotes.quotes⟩

theorem fxBind_ok {α β : Type} {m : Except Err α} {f : α → Except Err β} {b : β} (h : (m >>= f) = .ok b) : ∃ a, m = .ok a ∧ f a = .ok b := by
  cases m with
  | error e => cases h
  | ok a => exact ⟨a, rfl, h⟩

theorem fxAssert_ok {c : Bool} {u : Unit} (h : pyAssert c = .ok u) : c = true := by
  unfold pyAssert at h
  cases c with
  | true => rfl
  | false => simp at h

theorem makeFxSurface_parts {sorts : FxSorts} {solve : (ℝ → ℝ) → DeltaQuote → Except Err ℝ} {x : FxInputs} {b : FxBuilt}
    (h : makeFxSurface sorts solve x = .ok b) : FxParts sorts solve x b := by
  unfold makeFxSurface at h
  obtain ⟨names, h1, h⟩ := fxBind_ok h
  obtain ⟨dates, h2, h⟩ := fxBind_ok h
  obtain ⟨_, h3, h⟩ := fxBind_ok h
  obtain ⟨_, h4, h⟩ := fxBind_ok h
  obtain ⟨fr, h5, h⟩ := fxBind_ok h
  obtain ⟨spot, h6, h⟩ := fxBind_ok h
  obtain ⟨quotes, h7, h⟩ := fxBind_ok h
  obtain ⟨smile, h8, h⟩ := fxBind_ok h
  obtain ⟨rows, h9, h⟩ := fxBind_ok h
  obtain ⟨pillars, h10, h⟩ := fxBind_ok h
  obtain ⟨daily, h11, h⟩ := fxBind_ok h
  obtain ⟨strikes, h12, h⟩ := fxBind_ok h
  simp only [pure, Except.pure, Except.ok.injEq] at h
  subst h
  have e3 := fxAssert_ok h3
  have e4 := fxAssert_ok h4
  simp only [decide_eq_true_eq] at e3 e4
  exact ⟨⟨_, _, h1⟩, h2, e3, e4, h5, rfl, h6, h7, h8, ⟨rows.2, h9, h10⟩, h11, h12, rfl, rfl⟩

/-- The dates of a table, row by row. -/
theorem fxTableDates_rows {cal : BusCal} (hcal : cal.Ok) {cd spot : Int} {hasTenor : Bool} {rows res : List FxRow}
    (h : fxTableDates cal cd spot hasTenor rows = .ok res) : hasTenor = true ∧ res.length = rows.length ∧
      ∀ (i : Nat) (r : FxRow), rows[i]? = some r → (∃ t, r.tenor = some t) ∧ ∃ o, res[i]? = some o ∧ FxDates cal cd spot r o := by
  unfold fxTableDates at h
  cases hasTenor with
  | false => simp at h
  | true =>
    rw [if_neg (by simp)] at h
    obtain ⟨tenors, ht, hr⟩ := fxBind_ok h
    obtain ⟨m1, m2⟩ := mapM_get hr
    obtain ⟨n1, -⟩ := mapM_get ht
    refine ⟨rfl, by rw [m1, List.length_zip]; omega, fun i r hi => ?_⟩
    obtain ⟨t, e1, e2⟩ := zip_tenors ht hi
    obtain ⟨o, o1, o2⟩ := m2 i _ e2
    exact ⟨⟨t, e1⟩, o, o1, fxRowDates_spec hcal e1 o2⟩

theorem fxTableDates_mem {cal : BusCal} (hcal : cal.Ok) {cd spot : Int} {hasTenor : Bool} {rows res : List FxRow}
    (h : fxTableDates cal cd spot hasTenor rows = .ok res) {o : FxRow} (ho : o ∈ res) : ∃ r ∈ rows, FxDates cal cd spot r o := by
  obtain ⟨-, hl, hr⟩ := fxTableDates_rows hcal h
  obtain ⟨i, hi⟩ := List.mem_iff_getElem?.1 ho
  have hlt : i < rows.length := by rw [← hl]; exact (List.getElem?_eq_some_iff.1 hi).1
  obtain ⟨-, o', h1, h2⟩ := hr i _ (List.getElem?_eq_getElem hlt)
  rw [hi] at h1
  cases h1
  exact ⟨_, List.getElem_mem hlt, h2⟩

theorem fxTableDates_mem' {cal : BusCal} (hcal : cal.Ok) {cd spot : Int} {hasTenor : Bool} {rows res : List FxRow}
    (h : fxTableDates cal cd spot hasTenor rows = .ok res) {r : FxRow} (hr' : r ∈ rows) : ∃ o ∈ res, FxDates cal cd spot r o := by
  obtain ⟨-, -, hr⟩ := fxTableDates_rows hcal h
  obtain ⟨i, hi⟩ := List.mem_iff_getElem?.1 hr'
  obtain ⟨-, o, h1, h2⟩ := hr i _ hi
  exact ⟨o, List.mem_of_getElem? h1, h2⟩

theorem fxDates_delivery {cal : BusCal} {cd spot : Int} {r o : FxRow} (h : FxDates cal cd spot r o) : ∃ d, o.delivery = some d := by
  obtain ⟨-, -, g1, g2⟩ := h
  cases hd : r.delivery with
  | some d => exact ⟨d, (g1 d hd).1⟩
  | none =>
    obtain ⟨-, _, _, _, s, -, -, -, hs', -⟩ := g2 hd
    exact ⟨s, hs'⟩

/-- The dates of a row are determined. -/
theorem fxDates_unique {cal : BusCal} {cd spot : Int} {r o o' : FxRow} (h : FxDates cal cd spot r o) (h' : FxDates cal cd spot r o') : o = o' := by
  obtain ⟨a1, a2, a3, a4⟩ := h
  obtain ⟨c1, c2, c3, c4⟩ := h'
  have key : o.delivery = o'.delivery ∧ o.rateSet = o'.rateSet := by
    cases hdel : r.delivery with
    | some e => exact ⟨by rw [(a3 e hdel).1, (c3 e hdel).1], by rw [(a3 e hdel).2, (c3 e hdel).2]⟩
    | none =>
      obtain ⟨-, off, t1, f1, s1, ht1, ho1, hf1, hs1, hfo1, hw1⟩ := a4 hdel
      obtain ⟨-, off2, t2, f2, s2, ht2, ho2, hf2, hs2, hfo2, hw2⟩ := c4 hdel
      rw [ht1] at ht2
      cases ht2
      rw [ho1] at ho2
      cases ho2
      have : f1 = f2 := by
        obtain ⟨p1, p2, p3⟩ := hfo1
        obtain ⟨q1, q2, q3⟩ := hfo2
        rcases lt_trichotomy f1 f2 with hlt | he | hgt
        · have := q3 f1 p1 hlt; rw [p2] at this; cases this
        · exact he
        · have := p3 f2 q1 hgt; rw [q2] at this; cases this
      exact ⟨by rw [hs1, hs2, hw1, hw2, this], by rw [hf1, hf2, this]⟩
  cases o
  cases o'
  simp only at a1 a2 c1 c2 key
  simp [a1, a2, c1, c2, key.1, key.2]

theorem fxForwardTable_dates {cal : BusCal} {cd spot : Int} {t : FxTable} {res : List FxRow} (h : fxForwardTable cal cd spot t = .ok res) :
    t.hasRate = true ∧ fxTableDates cal cd spot t.hasTenor t.rows = .ok res := by
  unfold fxForwardTable at h
  split at h
  · cases h
  · rename_i h'
    exact ⟨by simpa using h', h⟩

/-- The points of the forward curve, when every row has a fixing date. -/
theorem mapM_points {rows : List FxRow} {points : List (Int × Option Rat)}
    (h : rows.mapM (fun r => r.rateSet.map (fun d => (d, r.value))) = some points) : quotedPillars points = fixingPoints rows ∧
      points.map (fun p => some p.1) = rows.map (·.rateSet) := by
  induction rows generalizing points with
  | nil => simp at h; subst h; exact ⟨rfl, rfl⟩
  | cons r rs ih =>
    rw [List.mapM_cons] at h
    simp only [Option.bind_eq_bind, Option.bind_eq_some_iff, Option.pure_def, Option.some.injEq] at h
    obtain ⟨p, hp, ps, hps, rfl⟩ := h
    obtain ⟨e1, e2⟩ := ih hps
    unfold fixingPoints quotedPillars at e1 ⊢
    cases hr : r.rateSet with
    | none => rw [hr] at hp; cases hp
    | some d =>
      rw [hr] at hp
      simp only [Option.map_some, Option.some.injEq] at hp
      subst hp
      rw [List.filterMap_cons, List.filterMap_cons, e1, List.map_cons, List.map_cons, e2, hr]
      exact ⟨rfl, rfl⟩

theorem fxForwardsAt_ok {rows : List FxRow} {dates : List Int} {out : List (Option Rat)} (h : fxForwardsAt rows dates = .ok out) :
    ((∀ r ∈ rows, ∃ d, r.rateSet = some d) ∧ (rows.map (·.rateSet)).Nodup) ∧
      (∀ ds, fxForwardsAt rows ds = interpFxForwardCurve (fixingPoints rows) ds true) ∧
      interpFxForwardCurve (fixingPoints rows) dates true = .ok out := by
  by_cases hn : (rows.map (·.rateSet)).Nodup
  · cases hm : rows.mapM (fun r => r.rateSet.map (fun d => (d, r.value))) with
    | none =>
      unfold fxForwardsAt at h
      rw [if_neg (not_not.2 hn), hm] at h
      cases h
    | some points =>
      obtain ⟨e1, e2⟩ := mapM_points hm
      have hpn : (points.map (·.1)).Nodup := by
        have : (points.map (fun p => some p.1)) = (points.map (·.1)).map some := by simp
        rw [← e2, this] at hn
        exact List.Nodup.of_map _ hn
      have heq : ∀ ds, fxForwardsAt rows ds = interpFxForwardCurve (fixingPoints rows) ds true := by
        intro ds
        unfold fxForwardsAt
        rw [if_neg (not_not.2 hn), hm, ← e1]
        exact Props.C44_missing points ds true _ (fun d v => mem_quotedPillars) (quotedPillars_nodup hpn) hpn
      refine ⟨⟨fun r hr => ?_, hn⟩, heq, by rw [← heq]; exact h⟩
      have : r.rateSet ∈ rows.map (·.rateSet) := List.mem_map_of_mem hr
      rw [← e2] at this
      obtain ⟨e, -, he⟩ := List.mem_map.1 this
      exact ⟨_, he.symm⟩
  · unfold fxForwardsAt at h
    rw [if_pos hn] at h
    cases h

theorem forwardAt_value {points : List (Int × Rat)} {dates : List Int} {out : List (Option Rat)}
    (h : interpFxForwardCurve points dates true = .ok out) (hne : points ≠ []) {i : Nat} {d : Int} (hd : dates[i]? = some d) :
    ∃ y, out[i]? = some (some y) ∧ ForwardAt points d y := by
  rcases Props.C44_cases points hne d with ⟨v, hv⟩ | ⟨p, q, hpq⟩ | ⟨p, q, he, ho⟩
  · exact ⟨v, Props.C44_pillar points dates true out h i d v hd hv, .inl hv⟩
  · obtain ⟨y, h1, h2⟩ := Props.C44_between points dates true out h i d p q hd hpq
    exact ⟨y, h1, .inr (.inl ⟨p, q, hpq, h2⟩)⟩
  · obtain ⟨h1, h2⟩ := Props.C44_outside points dates true out h i d p q hd he
    rcases ho with ho | ho
    · exact ⟨p.2, h1 ho, .inr (.inr ⟨p, q, he, .inl ⟨ho, rfl⟩⟩)⟩
    · exact ⟨q.2, h2 ho, .inr (.inr ⟨p, q, he, .inr ⟨ho, rfl⟩⟩)⟩

/-- The forward of a day does not depend on the other days asked for. -/
theorem forward_single {points : List (Int × Rat)} {dates : List Int} {out : List (Option Rat)}
    (h : interpFxForwardCurve points dates true = .ok out) (hne : points ≠ []) {i : Nat} {d : Int} (hd : dates[i]? = some d) :
    ∃ y, out[i]? = some (some y) ∧ interpFxForwardCurve points [d] true = .ok [some y] := by
  have hn := (Props.C44_accepts_iff points dates true).1 ⟨out, h⟩
  obtain ⟨out1, h1⟩ := (Props.C44_accepts_iff points [d] true).2 hn
  obtain ⟨y, hy, -⟩ := forwardAt_value h hne hd
  obtain ⟨p, q, he, ho⟩ := interp_value hn h hne hd
  obtain ⟨p', q', he', ho'⟩ := interp_value hn h1 hne (show [d][0]? = some d from rfl)
  have e1 : p.1 = p'.1 := le_antisymm (he.min _ he'.first) (he'.min _ he.first)
  have e2 : q.1 = q'.1 := le_antisymm (he'.max _ he.last) (he.max _ he'.last)
  rw [← e1, ← e2, ← ho, hy] at ho'
  have hl := Props.C44_length points [d] true out1 h1
  match out1, hl with
  | [v], _ =>
    simp only [List.getElem?_cons_zero, Option.some.injEq] at ho'
    exact ⟨y, hy, by rw [h1, ho']⟩

theorem fxMapM_id_some {α : Type} {l : List (Option α)} {out : List α} (h : l.mapM id = some out) : l = out.map some := by
  induction l generalizing out with
  | nil => simp at h; subst h; rfl
  | cons a t ih =>
    rw [List.mapM_cons] at h
    simp only [Option.bind_eq_bind, Option.bind_eq_some_iff, Option.pure_def, Option.some.injEq, id] at h
    obtain ⟨p, hp, ps, hps, rfl⟩ := h
    rw [ih hps, hp]
    rfl

theorem fxMapM_some_get {α β : Type} {f : α → Option β} {l : List α} {out : List β} (h : l.mapM f = some out) : l.map f = out.map some := by
  induction l generalizing out with
  | nil => simp at h; subst h; rfl
  | cons a t ih =>
    rw [List.mapM_cons] at h
    simp only [Option.bind_eq_bind, Option.bind_eq_some_iff, Option.pure_def, Option.some.injEq] at h
    obtain ⟨p, hp, ps, hps, rfl⟩ := h
    rw [List.map_cons, ih hps, hp]
    rfl

theorem fxRatesAt_ok {z : ZeroCurve} {dates : List Int} {out : List ℝ} (h : fxRatesAt z dates = .ok out) :
    out.length = dates.length ∧ z.zeroRates .continuous dates = out.map some := by
  unfold fxRatesAt at h
  split at h
  · cases h
  · rename_i hl
    rw [not_not] at hl
    cases hm : (z.zeroRates .continuous dates).mapM id with
    | none => rw [hm] at h; cases h
    | some rates =>
      rw [hm] at h
      cases h
      have := fxMapM_id_some hm
      exact ⟨by rw [← hl, this, List.length_map], this⟩

/-- When nothing is dropped, every day gets the rate it would get alone. -/
theorem zeroRates_single {z : ZeroCurve} {dates : List Int} (hl : (z.zeroRates .continuous dates).length = dates.length) {i : Nat} {d : Int}
    (hd : dates[i]? = some d) : ∃ r, (z.zeroRates .continuous dates)[i]? = some r ∧ z.zeroRates .continuous [d] = [r] := by
  unfold ZeroCurve.zeroRates ZeroCurve.indexDates at hl ⊢
  simp only at hl ⊢
  rw [List.length_map, List.length_map, List.length_filter_eq_length_iff] at hl
  have hmem := List.mem_of_getElem? hd
  have hf := List.filter_eq_self.2 hl
  rw [hf]
  refine ⟨_, by rw [List.getElem?_map, List.getElem?_map, hd]; rfl, ?_⟩
  rw [List.filter_cons, if_pos (hl d hmem)]
  rfl

theorem fxRatesAt_single {z : ZeroCurve} {dates : List Int} {out : List ℝ} (h : fxRatesAt z dates = .ok out) {i : Nat} {d : Int}
    (hd : dates[i]? = some d) : ∃ r, out[i]? = some r ∧ z.zeroRates .continuous [d] = [some r] ∧ fxRatesAt z [d] = .ok [r] := by
  obtain ⟨hl, he⟩ := fxRatesAt_ok h
  obtain ⟨r, h1, h2⟩ := zeroRates_single (by rw [he, List.length_map, hl]) hd
  rw [he, List.getElem?_map] at h1
  obtain ⟨v, hv, rfl⟩ := Option.map_eq_some_iff.1 h1
  refine ⟨v, hv, h2, ?_⟩
  unfold fxRatesAt
  rw [h2]
  rfl

theorem forwardAt_perm {l m : List (Int × Rat)} (h : l.Perm m) {d : Int} {y : Rat} (hf : ForwardAt l d y) : ForwardAt m d y := by
  rcases hf with h1 | ⟨p, q, hpq, hon⟩ | ⟨p, q, he, ho⟩
  · exact .inl (h.mem_iff.1 h1)
  · exact .inr (.inl ⟨p, q, ⟨h.mem_iff.1 hpq.left, h.mem_iff.1 hpq.right, hpq.before, hpq.after,
      fun r hr => hpq.next r (h.mem_iff.2 hr)⟩, hon⟩)
  · exact .inr (.inr ⟨p, q, ⟨h.mem_iff.1 he.first, h.mem_iff.1 he.last, fun r hr => he.min r (h.mem_iff.2 hr),
      fun r hr => he.max r (h.mem_iff.2 hr)⟩, ho⟩)

theorem fxPillars_fixing {forward : List FxRow} {zd zf : ZeroCurve} {basis : DayCountBasis} {cd : Int} {rows : List VolRow} {out : List FxPillar}
    (h : fxPillars forward zd zf basis cd rows = .ok out) : ∀ r ∈ forward, ∃ d, r.rateSet = some d := by
  unfold fxPillars at h
  cases he : rows.mapM (fun r => r.row.rateSet) with
  | none => rw [he] at h; cases h
  | some expiries =>
    rw [he] at h
    simp only at h
    obtain ⟨_, -, h⟩ := fxBind_ok h
    obtain ⟨_, h2, -⟩ := fxBind_ok h
    exact (fxForwardsAt_ok h2).1.1

theorem built_forward {sorts : FxSorts} {solve : (ℝ → ℝ) → DeltaQuote → Except Err ℝ} {x : FxInputs} {b : FxBuilt}
    (hp : FxParts sorts solve x b) (hpos : ∃ v, b.spot = some v) : fixingPoints b.forward ≠ [] := by
  obtain ⟨v, hv⟩ := hpos
  obtain ⟨vols, -, hpil⟩ := hp.rows
  have hfix := fxPillars_fixing hpil
  have hs := hp.spot
  unfold fxSpotRate at hs
  cases hf : b.forward.find? (fun r => r.tenor = some "sp".toList) with
  | none => rw [hf] at hs; cases hs
  | some o =>
    rw [hf] at hs
    simp only [Except.ok.injEq] at hs
    have ho := List.mem_of_find?_eq_some hf
    obtain ⟨d, hd⟩ := hfix o ho
    refine List.ne_nil_of_mem (a := (d, v)) (List.mem_filterMap.2 ⟨o, ho, ?_⟩)
    rw [hd, hs, hv]
    rfl

/-- What the table of pillars holds. -/
theorem fxPillars_rows {forward : List FxRow} {zd zf : ZeroCurve} {basis : DayCountBasis} {cd : Int} {rows : List VolRow} {out : List FxPillar}
    (h : fxPillars forward zd zf basis cd rows = .ok out) :
    out.length = rows.length ∧ ∀ (i : Nat) r, rows[i]? = some r → ∃ p, out[i]? = some p ∧ p.row = r.row ∧ p.conv = r.conv ∧ p.vols = r.vols ∧
      r.row.rateSet = some p.expiry ∧ (∃ y, yearFrac [cd] [p.expiry] basis (some [decide (rows.length ≤ i + 1)]) = .ok [y] ∧ p.years = (y : ℝ)) ∧
      ((∃ f, ForwardAt (fixingPoints forward) p.expiry f ∧ p.fwd = (f : ℝ) ∧ fxForwardsAt forward [p.expiry] = .ok [some f]) ∨
        fixingPoints forward = [] ∧ p.fwd = 0) ∧
      (zd.zeroRates .continuous [p.expiry] = [some p.rd] ∧ fxRatesAt zd [p.expiry] = .ok [p.rd]) ∧
      zf.zeroRates .continuous [p.expiry] = [some p.rf] ∧ fxRatesAt zf [p.expiry] = .ok [p.rf] := by
  unfold fxPillars at h
  cases he : rows.mapM (fun r => r.row.rateSet) with
  | none => rw [he] at h; cases h
  | some expiries =>
    rw [he] at h
    simp only at h
    obtain ⟨years, h1, h⟩ := fxBind_ok h
    obtain ⟨fwds, h2, h⟩ := fxBind_ok h
    obtain ⟨rds, h3, h⟩ := fxBind_ok h
    obtain ⟨rfs, h4, h⟩ := fxBind_ok h
    simp only [pure, Except.pure, Except.ok.injEq] at h
    have hexp := fxMapM_some_get he
    have hlen : rows.length = expiries.length := by simpa using congrArg List.length hexp
    obtain ⟨hp1, hp2, hp3⟩ := fxForwardsAt_ok h2
    have hfl := Props.C44_length _ _ _ _ hp3
    have hrl := (fxRatesAt_ok h3).1
    have hql := (fxRatesAt_ok h4).1
    rcases List.eq_nil_or_concat rows with hr | ⟨_, _, hr⟩
    · subst hr
      simp only [List.zip_nil_left, List.map_nil] at h
      subst h
      simp
    have hene : expiries ≠ [] := by
      intro hc
      rw [hc, hr] at hlen
      simp at hlen
    obtain ⟨hyl, hyv⟩ := yearFrac_since hene h1
    rw [← hlen] at hyv
    refine ⟨by rw [← h]; simp [hlen, hyl, hfl, hrl, hql], fun i r hi => ?_⟩
    obtain ⟨e, hei, hre⟩ : ∃ e, expiries[i]? = some e ∧ r.row.rateSet = some e := by
      have := congrArg (fun l => l[i]?) hexp
      simp only [List.getElem?_map, hi, Option.map_some] at this
      cases hx : expiries[i]? with
      | none => rw [hx] at this; cases this
      | some e => rw [hx] at this; simp only [Option.map_some, Option.some.injEq] at this; exact ⟨e, rfl, this⟩
    obtain ⟨y, hy1, hy2⟩ := hyv i e hei
    obtain ⟨fo, hfo, hcase⟩ : ∃ fo, fwds[i]? = some fo ∧ ((∃ f, ForwardAt (fixingPoints forward) e f ∧ ((fo.getD 0 : Rat) : ℝ) = (f : ℝ) ∧
        fxForwardsAt forward [e] = .ok [some f]) ∨ fixingPoints forward = [] ∧ ((fo.getD 0 : Rat) : ℝ) = 0) := by
      by_cases hpne : fixingPoints forward = []
      · rw [hpne] at hp3
        have h0 := forwards_none (pillars := []) List.nodup_nil rfl expiries true
        have : fwds = expiries.map (fun _ => none) := by
          have h3' : interpFxForwards [] expiries true = .ok fwds := hp3
          rw [h0] at h3'
          exact (Except.ok.inj h3').symm
        refine ⟨none, by rw [this, List.getElem?_map, hei]; rfl, .inr ⟨hpne, by simp⟩⟩
      · obtain ⟨f, hf1, hf2⟩ := forwardAt_value hp3 hpne hei
        obtain ⟨f', hf1', hf3⟩ := forward_single hp3 hpne hei
        rw [hf1] at hf1'
        cases hf1'
        exact ⟨_, hf1, .inl ⟨f, hf2, rfl, by rw [hp2]; exact hf3⟩⟩
    obtain ⟨rd, hd1, hd2, hd3⟩ := fxRatesAt_single h3 hei
    obtain ⟨rf, hq1, hq2, hq3⟩ := fxRatesAt_single h4 hei
    have hz : (rows.zip (expiries.zip (years.zip (fwds.zip (rds.zip rfs)))))[i]? = some (r, e, y, fo, rd, rf) :=
      List.getElem?_zip_eq_some.2 ⟨hi, List.getElem?_zip_eq_some.2 ⟨hei, List.getElem?_zip_eq_some.2 ⟨hy2,
        List.getElem?_zip_eq_some.2 ⟨hfo, List.getElem?_zip_eq_some.2 ⟨hd1, hq1⟩⟩⟩⟩⟩
    refine ⟨_, by rw [← h, List.getElem?_map, hz]; rfl, rfl, rfl, rfl, hre, ⟨y, hy1, rfl⟩, hcase, ⟨hd2, hd3⟩, hq2, hq3⟩

end Frm

namespace Frm.Props
open Spec Classical

set_option autoImplicit false

variable {sorts : FxSorts} {solve : (ℝ → ℝ) → DeltaQuote → Except Err ℝ} {x : FxInputs} {b : FxBuilt}

/-- **C94.**  The surface is as of one date: the curve date of both zero curves. -/
theorem C94_one_date (h : makeFxSurface sorts solve x = .ok b) :
    x.domesticCurve.curveDate = b.curveDate ∧ x.foreignCurve.curveDate = b.curveDate ∧ (∀ c, x.curveDate = some c → b.curveDate = c) := by
  have hp := makeFxSurface_parts h
  refine ⟨hp.domestic.symm, hp.foreign.symm, fun c hc => ?_⟩
  have hd := hp.dates
  rw [hc] at hd
  unfold resolveFxCurveDates at hd
  cases hs : x.spotDate with
  | none =>
    rw [hs] at hd
    simp only at hd
    obtain ⟨off, -, hd⟩ := fxBind_ok hd
    cases off with
    | none => cases hd
    | some o =>
      simp only at hd
      obtain ⟨s, -, hd⟩ := fxBind_ok hd
      simp only [pure, Except.pure, Except.ok.injEq, Prod.mk.injEq] at hd
      exact hd.1.symm
  | some s =>
    rw [hs] at hd
    cases ho : x.spotOffset with
    | some o =>
      rw [ho] at hd
      simp only at hd
      obtain ⟨off, h1, -⟩ := fxBind_ok hd
      cases h1
    | none =>
      rw [ho] at hd
      simp only at hd
      obtain ⟨o, -, hd⟩ := fxBind_ok hd
      simp only [pure, Except.pure, bind, Except.bind, Except.ok.injEq, Prod.mk.injEq] at hd
      exact hd.1.symm

/-- **C94.**  The spot rate is the forward of the row called spot (in any spelling); of several, one with the earliest delivery. -/
theorem C94_spot (hs : FxSorted sorts) (hcal : x.cal.Ok) (h : makeFxSurface sorts solve x = .ok b) :
    ∃ r ∈ x.forward.rows, ∃ o t, r.tenor = some t ∧ cleanTenor t = "sp".toList ∧ b.spot = r.value ∧
      FxDates x.cal b.curveDate b.spotOffset r o ∧
      ∀ r' ∈ x.forward.rows, ∀ o' t' d d', r'.tenor = some t' → cleanTenor t' = "sp".toList →
        FxDates x.cal b.curveDate b.spotOffset r' o' → o.delivery = some d → o'.delivery = some d' → d ≤ d' := by
  have hp := makeFxSurface_parts h
  obtain ⟨-, hd⟩ := fxForwardTable_dates hp.forward
  obtain ⟨hperm, hsorted⟩ := hs.forward b.callerForward.rows
  rw [← hp.forwardSorted] at hperm hsorted
  have hsp := hp.spot
  unfold fxSpotRate at hsp
  cases hf : b.forward.find? (fun r => r.tenor = some "sp".toList) with
  | none => rw [hf] at hsp; cases hsp
  | some o =>
    rw [hf] at hsp
    simp only [Except.ok.injEq] at hsp
    obtain ⟨hot, i, hi, hie, hmin⟩ := List.find?_eq_some_iff_getElem.1 hf
    have hot' : o.tenor = some "sp".toList := by simpa using hot
    have hom : o ∈ b.forward := by rw [← hie]; exact List.getElem_mem hi
    obtain ⟨r, hr, hrd⟩ := fxTableDates_mem hcal hd (hperm.mem_iff.1 hom)
    have h2 := hrd.2.1
    rw [hot'] at h2
    cases ht : r.tenor with
    | none => rw [ht] at h2; cases h2
    | some t =>
      rw [ht] at h2
      simp only [Option.map_some, Option.some.injEq] at h2
      refine ⟨r, hr, o, t, ht, h2.symm, by rw [← hsp]; exact hrd.1, hrd, ?_⟩
      intro r' hr' o' t' d d' ht' hc' hd' hdo hdo'
      obtain ⟨o'', ho'', hd''⟩ := fxTableDates_mem' hcal hd hr'
      have hdd : o''.delivery = o'.delivery := by rw [fxDates_unique hd'' hd']
      have hsp'' : o''.tenor = some "sp".toList := by rw [hd''.2.1, ht', ← hc']; rfl
      obtain ⟨j, hj⟩ := List.mem_iff_getElem?.1 (hperm.mem_iff.2 ho'')
      obtain ⟨hjl, hje⟩ := List.getElem?_eq_some_iff.1 hj
      rcases Nat.lt_trichotomy j i with hlt | he | hgt
      · have := hmin j hlt
        rw [hje] at this
        simp [hsp''] at this
      · subst he
        rw [hie] at hje
        subst hje
        rw [hdo, hdo'] at hdd
        cases hdd
        exact Int.le_refl _
      · have := List.pairwise_iff_getElem.1 hsorted i j hi hjl hgt
        simp only [hie, hje, hdo, hdd, hdo', Option.getD_some] at this
        exact this

/-- **C94.**  One pillar for each row of quotes: its dates are those of the row, or those of its tenor; its convention is the row's, with the
warnings of the pair; its quotes are those of the smile's columns in that row.  Pillars are in order of delivery. -/
theorem C94_pillars (hs : FxSorted sorts) (hcal : x.cal.Ok)
    (hconv : ∀ c, x.quotes.conventions = some c → c.length = x.quotes.rows.length) (h : makeFxSurface sorts solve x = .ok b) :
    ∃ aligned : List FxPillar, b.pillars.Perm aligned ∧ aligned.length = x.quotes.rows.length ∧
      (∀ (i : Nat) r, x.quotes.rows[i]? = some r → ∃ p conv, aligned[i]? = some p ∧
        FxDates x.cal b.curveDate b.spotOffset r p.row ∧ p.row.rateSet = some p.expiry ∧
        (∃ cs, x.quotes.conventions = some cs ∧ cs[i]? = some conv) ∧ p.conv = checkDeltaConvention b.pair ⟨conv, []⟩ ∧
        p.vols.length = b.smile.length ∧
        ∀ (j : Nat) q, b.smile[j]? = some q → ∃ col v, b.callerQuotes.quotes.lookup q.name = some col ∧ col[i]? = some v ∧ p.vols[j]? = some v) ∧
      b.pillars.Pairwise (fun p q => ∀ d e, p.row.delivery = some d → q.row.delivery = some e → d ≤ e) := by
  have hp := makeFxSurface_parts h
  obtain ⟨vols, hv, hpil⟩ := hp.rows
  unfold volRows at hv
  cases hc : x.quotes.conventions with
  | none => rw [hc] at hv; cases hv
  | some convs =>
    rw [hc] at hv
    simp only at hv
    obtain ⟨rows, hr1, hv⟩ := fxBind_ok hv
    obtain ⟨qs, hq, hv⟩ := fxBind_ok hv
    simp only [pure, Except.pure, Except.ok.injEq, Prod.mk.injEq] at hv
    obtain ⟨hrows, hvols⟩ := hv
    obtain ⟨-, hrl, hra⟩ := fxTableDates_rows hcal hr1
    obtain ⟨hql, hqa⟩ := mapM_get hq
    rw [List.length_range] at hql
    have hcl := hconv convs hc
    have hvl : vols.length = x.quotes.rows.length := by rw [← hvols]; simp [hrl, hql, hcl]
    obtain ⟨hperm, hsorted⟩ := hs.pillars vols
    obtain ⟨hpl, hpa⟩ := fxPillars_rows hpil
    let R : VolRow → FxPillar → Prop := fun r p => p.row = r.row ∧ p.conv = r.conv ∧ p.vols = r.vols ∧ r.row.rateSet = some p.expiry
    have hall : List.Forall₂ R (sorts.pillars vols) b.pillars := by
      rw [List.forall₂_iff_get]
      refine ⟨hpl.symm, fun i h1 h2 => ?_⟩
      obtain ⟨p, e1, e2, e3, e4, e5, -⟩ := hpa i _ (List.getElem?_eq_getElem h1)
      rw [List.getElem?_eq_getElem h2] at e1
      cases e1
      exact ⟨e2, e3, e4, e5⟩
    obtain ⟨aligned, hal, hap⟩ := List.perm_comp_forall₂ hperm.symm hall
    have hfv : ∀ (i : Nat) r, vols[i]? = some r → ∃ p, aligned[i]? = some p ∧ R r p := by
      intro i r hi
      obtain ⟨hl, rfl⟩ := List.getElem?_eq_some_iff.1 hi
      have := (List.forall₂_iff_get.1 hal)
      exact ⟨_, List.getElem?_eq_getElem (by rw [← this.1]; exact hl), this.2 i hl (by rw [← this.1]; exact hl)⟩
    refine ⟨aligned, hap.symm, by rw [← hal.length_eq, hvl], ?_, ?_⟩
    · intro i r hi
      obtain ⟨-, o, ho, hdates⟩ := hra i r hi
      have hil : i < x.quotes.rows.length := (List.getElem?_eq_some_iff.1 hi).1
      obtain ⟨c, hci⟩ : ∃ c, convs[i]? = some c := ⟨_, List.getElem?_eq_getElem (by omega)⟩
      obtain ⟨q, hqi, hqv⟩ := hqa i i (List.getElem?_range (by omega))
      have hvi : vols[i]? = some ⟨o, checkDeltaConvention b.pair ⟨c, []⟩, q⟩ := by
        have hz : (rows.zip (convs.zip qs))[i]? = some (o, c, q) :=
          List.getElem?_zip_eq_some.2 ⟨ho, List.getElem?_zip_eq_some.2 ⟨hci, hqi⟩⟩
        rw [← hvols, List.getElem?_map, hz]
        rfl
      obtain ⟨p, hpi, g1, g2, g3, g4⟩ := hfv i _ hvi
      refine ⟨p, c, hpi, by rw [g1]; exact hdates, by rw [g1]; exact g4, ⟨convs, rfl, hci⟩, g2, ?_, ?_⟩
      · rw [g3]
        have := (mapM_get hqv).1
        rw [this, List.length_map]
      · intro j sq hsq
        rw [g3]
        unfold quotesOfRow at hqv
        obtain ⟨v, hv1, hv2⟩ := (mapM_get hqv).2 j sq.name (by rw [List.getElem?_map, hsq]; rfl)
        split at hv2
        · rename_i w hw
          simp only [Except.ok.injEq] at hv2
          subst hv2
          obtain ⟨col, hcol, hcv⟩ := Option.bind_eq_some_iff.1 hw
          exact ⟨col, w, hcol, hcv, hv1⟩
        · cases hv2
    · rw [List.pairwise_iff_getElem] at hsorted ⊢
      intro i j hi hj hij d e hd he
      have hg := List.forall₂_iff_get.1 hall
      have hi' : i < (sorts.pillars vols).length := by rw [hg.1]; exact hi
      have hj' : j < (sorts.pillars vols).length := by rw [hg.1]; exact hj
      have hle := hsorted i j hi' hj' hij
      have h1 := (hg.2 i hi' hi).1
      have h2 := (hg.2 j hj' hj).1
      simp only [List.get_eq_getElem] at h1 h2
      rw [h1] at hd
      rw [h2] at he
      simp only [hd, he, Option.getD_some] at hle
      exact hle

/-- What the strikes of a pillar are computed from. -/
theorem pillarStrikes_ok {spot : Option Rat} {smile : List SmileQuote} {p : FxPillar} {ks : List (Option ℝ)} (h : pillarStrikes solve spot smile p = .ok ks) :
    ∃ conv deltas, parseConvention p.conv.convention = some conv ∧ smile.mapM (fun q => q.signedDelta) = some deltas ∧
      gkStrikeFromDelta solve ⟨nanReal spot, p.years, p.rd, p.rf, some p.fwd⟩ conv .forward
        ((p.vols.zip deltas).map (fun q => ⟨nanReal q.1, (q.2 : ℝ)⟩)) = .ok ks := by
  unfold pillarStrikes at h
  split at h
  · rename_i conv deltas h1 h2
    exact ⟨conv, deltas, h1, h2, h⟩
  · cases h

/-- A number that is positive is there. -/
theorem nanReal_pos {v : Option Rat} (h : 0 < nanReal v) : ∃ w, v = some w ∧ 0 < w ∧ nanReal v = (w : ℝ) := by
  cases v with
  | none => simp [nanReal] at h
  | some w => exact ⟨w, rfl, by simpa [nanReal] using h, rfl⟩

/-- A surface with a pillar has a spot rate, and forwards. -/
theorem built_market (hp : FxParts sorts solve x b) {p : FxPillar} (hm : p ∈ b.pillars) :
    (∃ v, b.spot = some v ∧ 0 < v) ∧ 0 < p.years ∧ 0 < p.fwd ∧ fixingPoints b.forward ≠ [] := by
  obtain ⟨i, hi⟩ := List.mem_iff_getElem?.1 hm
  obtain ⟨ks, -, hk⟩ := (mapM_get hp.strikes).2 i p hi
  obtain ⟨_, _, -, -, hgk⟩ := pillarStrikes_ok hk
  obtain ⟨hm, -⟩ := strike_ok hgk
  obtain ⟨v, hv, hv0, -⟩ := nanReal_pos hm.1
  exact ⟨⟨v, hv, hv0⟩, hm.2.1, hm.2.2 _ rfl, built_forward hp ⟨v, hv⟩⟩

/-- **C94.**  A pillar's time is the year fraction from the curve date among those of the pillars in order (the last of them is the last element, which
matters only for the last day of February under 30E/360 ISDA), its forward is read off the forwards that the table has at its expiry, and its rates
are the continuously compounded zero rates of the two curves at its expiry. -/
theorem C94_market (hs : FxSorted sorts) (h : makeFxSurface sorts solve x = .ok b) (i : Nat) (p : FxPillar)
    (hi : b.pillars[i]? = some p) :
    (∃ y, yearFrac [b.curveDate] [p.expiry] x.basis (some [decide (b.pillars.length ≤ i + 1)]) = .ok [y] ∧ p.years = (y : ℝ)) ∧
    (Spec.Plain x.basis p.expiry → ∃ y, yearFrac [b.curveDate] [p.expiry] x.basis none = .ok [y] ∧ p.years = (y : ℝ)) ∧
    (∃ f, ForwardAt (fixingPoints b.callerForward.rows) p.expiry f ∧ p.fwd = (f : ℝ)) ∧
    x.domesticCurve.zeroRates .continuous [p.expiry] = [some p.rd] ∧ x.foreignCurve.zeroRates .continuous [p.expiry] = [some p.rf] := by
  have hparts := makeFxSurface_parts h
  obtain ⟨vols, -, hpil⟩ := hparts.rows
  obtain ⟨hpl, hpa⟩ := fxPillars_rows hpil
  have hil : i < (sorts.pillars vols).length := by rw [← hpl]; exact (List.getElem?_eq_some_iff.1 hi).1
  obtain ⟨p', h1, -, -, -, -, hy, hff, ⟨hd, -⟩, hf, -⟩ := hpa i _ (List.getElem?_eq_getElem hil)
  rw [hi] at h1
  cases h1
  rw [← hpl] at hy
  obtain ⟨f, hf1, hf2, -⟩ := hff.resolve_right (fun hc => (built_market hparts (List.mem_of_getElem? hi)).2.2.2 hc.1)
  refine ⟨hy, fun hb => hy.imp (fun y hy => ⟨by rw [← yearFrac_flag (.inl hb)]; exact hy.1, hy.2⟩), ⟨f, forwardAt_perm ?_ hf1, hf2⟩, hd, hf⟩
  rw [hparts.forwardSorted]
  exact (hs.forward _).1.filterMap _

theorem parse_text {s : Str} {conv : DeltaConvention} (h : parseConvention s = some conv) : s = conventionText conv := by
  unfold parseConvention at h
  split at h
  · cases h; assumption
  split at h
  · cases h; assumption
  split at h
  · cases h; assumption
  split at h
  · cases h; assumption
  · cases h

theorem either_sign {P : ℝ → Prop} {δ : ℝ} (h : (0 < δ ∧ P 1) ∨ (δ < 0 ∧ P (-1))) : P (if 0 < δ then 1 else -1) := by
  rcases h with ⟨h1, h2⟩ | ⟨h1, h2⟩
  · rwa [if_pos h1]
  · rwa [if_neg (not_lt.2 h1.le)]

/-- **C94.**  There is a spot rate, no quote of the smile is missing, and every pillar has, for every quote, a strike whose delta under the convention of the pillar is the quote's delta, at the quote's volatility, the
pillar's time, forward and rates; only a spot delta too large for its discount factor may have none.  (A premium-adjusted put delta of one half is left out.) -/
theorem C94_strikes (hsolve : SolvesStrikes solve) (h : makeFxSurface sorts solve x = .ok b) (i : Nat) (p : FxPillar) (hi : b.pillars[i]? = some p) :
    ∃ s : Rat, b.spot = some s ∧ 0 < s ∧ 0 < p.years ∧ 0 < p.fwd ∧ ∃ conv ks, p.conv.convention = conventionText conv ∧ b.strikes[i]? = some ks ∧
      ∀ (j : Nat) q o, b.smile[j]? = some q → p.vols[j]? = some o → ∃ v : Rat, o = some v ∧ 0 < v ∧ ∃ δ, q.signedDelta = some δ ∧ |δ| ≤ 1 / 2 ∧
        (δ ≠ 0 → (δ = -1 / 2 → conv = .regularSpot ∨ conv = .regularForward) →
          (∃ K, ks[j]? = some (some K) ∧ QuotedStrike conv ⟨(s : ℝ), p.years, p.rd, p.rf, some p.fwd⟩ (v : ℝ) (δ : ℝ) K) ∨
          (ks[j]? = some none ∧ conv = .regularSpot ∧ Real.exp (-p.rf * p.years) ≤ |(δ : ℝ)|)) := by
  have hparts := makeFxSurface_parts h
  obtain ⟨ks, hks, hk⟩ := (mapM_get hparts.strikes).2 i p hi
  obtain ⟨conv, deltas, hconv, hdel, hgk⟩ := pillarStrikes_ok hk
  have hall := fxMapM_some_get hdel
  obtain ⟨hm, hq, hout⟩ := strike_ok hgk
  obtain ⟨s, hs1, hs2, hs3⟩ := nanReal_pos hm.1
  rw [hs3] at hgk
  refine ⟨s, hs1, hs2, hm.2.1, hm.2.2 _ rfl, conv, ks, parse_text hconv, hks, ?_⟩
  intro j q o hj hv
  obtain ⟨δ, hδ1, hδ2⟩ : ∃ δ, deltas[j]? = some δ ∧ q.signedDelta = some δ := by
    have := congrArg (fun l => l[j]?) hall
    simp only [List.getElem?_map, hj, Option.map_some] at this
    cases hx : deltas[j]? with
    | none => rw [hx] at this; cases this
    | some e => rw [hx] at this; simp only [Option.map_some, Option.some.injEq] at this; exact ⟨e, rfl, this⟩
  have hz : (p.vols.zip deltas)[j]? = some (o, δ) := List.getElem?_zip_eq_some.2 ⟨hv, hδ1⟩
  have hqj : ((p.vols.zip deltas).map (fun q : Option Rat × Rat => (⟨nanReal q.1, (q.2 : ℝ)⟩ : DeltaQuote)))[j]? = some ⟨nanReal o, (δ : ℝ)⟩ := by
    rw [List.getElem?_map, hz]; rfl
  obtain ⟨hvp, hlo, hhi⟩ := hq _ (List.mem_of_getElem? hqj)
  simp only at hvp hlo hhi
  obtain ⟨v, hv1, hv2, hv3⟩ := nanReal_pos hvp
  rw [hv3] at hqj
  have hδle : |δ| ≤ 1 / 2 := by
    refine abs_le.2 ⟨?_, ?_⟩
    · have : ((-(1 / 2) : Rat) : ℝ) ≤ (δ : ℝ) := by push_cast; norm_num at hlo ⊢; linarith
      exact_mod_cast this
    · have : (δ : ℝ) ≤ ((1 / 2 : Rat) : ℝ) := by push_cast; norm_num at hhi ⊢; linarith
      exact_mod_cast this
  refine ⟨v, hv1, hv2, δ, hδ2, hδle, fun h0 hneg => ?_⟩
  have h0' : (δ : ℝ) ≠ 0 := by exact_mod_cast h0
  have hhalf : conv ≠ .regularSpot → conv ≠ .regularForward → |(δ : ℝ)| = 0.5 → (δ : ℝ) = 0.5 := by
    intro hc1 hc2 hh
    rcases abs_choice (δ : ℝ) with he | he
    · rw [he] at hh; exact hh
    · rw [he] at hh
      have : (δ : ℝ) = ((-1 / 2 : Rat) : ℝ) := by push_cast; norm_num at hh ⊢; linarith
      rcases hneg (by exact_mod_cast this) with hc | hc
      · exact absurd hc hc1
      · exact absurd hc hc2
  cases conv with
  | regularSpot =>
    by_cases hh : |(δ : ℝ)| = 0.5
    · obtain ⟨K, h1, h2, h3, h4⟩ := C51_atm solve _ _ (.inl rfl) _ _ hgk j _ hqj hh
      exact .inl ⟨K, h1, h2, fun hc => absurd hh hc, fun _ => ⟨0.5, by norm_num, h3, h4⟩⟩
    · obtain ⟨h1, h2⟩ := C51_regular_spot solve _ _ _ _ hgk j _ hqj h0' (fun hc => hh hc.1)
      simp only [Except.ok.injEq] at hout
      have hoj : _ = ks[j]? := congrArg (fun l => l[j]?) hout
      rw [List.getElem?_map, hqj] at hoj
      cases ho : ks[j]? with
      | none => rw [ho] at hoj; cases hoj
      | some o =>
        cases o with
        | some K =>
          obtain ⟨g1, g2⟩ := h1 K ho
          exact .inl ⟨K, rfl, g1, fun _ => either_sign (P := fun c => HasSpotDelta (StrikeMarket.option _ _ K c) (δ : ℝ)) g2, fun hc => absurd hc hh⟩
        | none =>
          refine .inr ⟨rfl, rfl, ?_⟩
          by_contra hlt
          obtain ⟨K, hK⟩ := h2 (not_le.1 hlt)
          rw [hK] at ho
          cases ho
  | regularForward =>
    by_cases hh : |(δ : ℝ)| = 0.5
    · obtain ⟨K, h1, h2, h3, h4⟩ := C51_atm solve _ _ (.inr rfl) _ _ hgk j _ hqj hh
      exact .inl ⟨K, h1, h2, fun hc => absurd hh hc, fun _ => ⟨0.5, by norm_num, h3, h4⟩⟩
    · obtain ⟨K, h1, h2, h3⟩ := C51_regular_forward solve _ _ _ _ hgk j _ hqj h0' (fun hc => hh hc.1)
      exact .inl ⟨K, h1, h2, fun _ => either_sign (P := fun c => HasForwardDelta (StrikeMarket.option _ _ K c) (δ : ℝ)) h3, fun hc => absurd hc hh⟩
  | adjustedSpot =>
    by_cases hh : |(δ : ℝ)| = 0.5
    · obtain ⟨K, d, h1, h2, h3, h4, h5⟩ := C51_adjusted_atm solve _ true _ _ _ hgk j _ hqj (hhalf (by decide) (by decide) hh)
      exact .inl ⟨K, h1, h2, fun hc => absurd hh hc, fun _ => ⟨d, h3, h4, h5⟩⟩
    · obtain ⟨K, h1, h2, h3⟩ := C51_adjusted_partial solve hsolve _ true _ _ _ hgk j _ hqj h0' hh
      exact .inl ⟨K, h1, h2, fun _ => either_sign (P := fun c => HasAdjustedSpotDelta (StrikeMarket.option _ _ K c) (δ : ℝ)) h3, fun hc => absurd hc hh⟩
  | adjustedForward =>
    by_cases hh : |(δ : ℝ)| = 0.5
    · obtain ⟨K, d, h1, h2, h3, h4, h5⟩ := C51_adjusted_atm solve _ false _ _ _ hgk j _ hqj (hhalf (by decide) (by decide) hh)
      exact .inl ⟨K, h1, h2, fun hc => absurd hh hc, fun _ => ⟨d, h3, h4, h5⟩⟩
    · obtain ⟨K, h1, h2, h3⟩ := C51_adjusted_partial solve hsolve _ false _ _ _ hgk j _ hqj h0' hh
      exact .inl ⟨K, h1, h2, fun _ => either_sign (P := fun c => HasAdjustedForwardDelta (StrikeMarket.option _ _ K c) (δ : ℝ)) h3, fun hc => absurd hc hh⟩

theorem fxCurvesOf_at {f : List FxRow} {zd zf : ZeroCurve} {basis : DayCountBasis} {cd : Int} {rows : List VolRow} {out : List FxPillar}
    (hne : fixingPoints f ≠ []) (h : fxPillars f zd zf basis cd rows = .ok out) (hinc : out.Pairwise (fun p q => p.expiry < q.expiry)) {p : FxPillar}
    (hp : p ∈ out) {last : Int} (hlast : (out.map (·.expiry)).max? = some last) :
    (fxCurvesOf f zd zf basis cd last).years p.expiry = p.years ∧ (fxCurvesOf f zd zf basis cd last).fwd p.expiry = p.fwd ∧
    (fxCurvesOf f zd zf basis cd last).rd p.expiry = p.rd ∧ (fxCurvesOf f zd zf basis cd last).rf p.expiry = p.rf := by
  obtain ⟨hpl, hpa⟩ := fxPillars_rows h
  obtain ⟨i, hi⟩ := List.mem_iff_getElem?.1 hp
  have hil : i < rows.length := by rw [← hpl]; exact (List.getElem?_eq_some_iff.1 hi).1
  obtain ⟨p', h1, -, -, -, -, ⟨y, hy1, hy2⟩, hff, ⟨-, hd⟩, -, hf⟩ := hpa i _ (List.getElem?_eq_getElem hil)
  obtain ⟨g, -, hg1, hg2⟩ := hff.resolve_right (fun hc => hne hc.1)
  rw [hi] at h1
  cases h1
  have hflag : decide (p.expiry = last) = decide (rows.length ≤ i + 1) := by
    rw [decide_eq_decide, ← hpl]
    obtain ⟨hio, hie⟩ := List.getElem?_eq_some_iff.1 hi
    rw [List.max?_eq_some_iff] at hlast
    constructor
    · intro he
      by_contra hc
      have h2 : i + 1 < out.length := by omega
      have hlt := List.pairwise_iff_getElem.1 hinc i (i + 1) hio h2 (by omega)
      rw [hie] at hlt
      have := hlast.2 _ (List.mem_map_of_mem (List.getElem_mem h2))
      omega
    · intro hc
      obtain ⟨q, hq, hqe⟩ := List.mem_map.1 hlast.1
      obtain ⟨j, hj, hje⟩ := List.mem_iff_getElem.1 hq
      have h2 := hlast.2 _ (List.mem_map_of_mem hp)
      rcases Nat.lt_or_ge j i with hlt | hge
      · have := List.pairwise_iff_getElem.1 hinc j i hj hio hlt
        rw [hje, hie] at this
        omega
      · have : j = i := by omega
        subst this
        rw [← hie, hje, hqe]
  simp only [fxCurvesOf, hflag, hy1, hg2, hd, hf]
  exact ⟨hy2.symm, hg1.symm, trivial, trivial⟩

/-- Every pillar has one volatility for each quote of the smile. -/
theorem pillar_vols_length (hs : FxSorted sorts) (h : makeFxSurface sorts solve x = .ok b) {p : FxPillar}
    (hp : p ∈ b.pillars) : p.vols.length = b.smile.length := by
  have hparts := makeFxSurface_parts h
  obtain ⟨vols, hv, hpil⟩ := hparts.rows
  obtain ⟨hpl, hpa⟩ := fxPillars_rows hpil
  obtain ⟨i, hi⟩ := List.mem_iff_getElem?.1 hp
  have hil : i < (sorts.pillars vols).length := by rw [← hpl]; exact (List.getElem?_eq_some_iff.1 hi).1
  obtain ⟨p', h1, -, -, h4, -⟩ := hpa i _ (List.getElem?_eq_getElem hil)
  rw [hi] at h1
  cases h1
  have hmem : (sorts.pillars vols)[i] ∈ vols := (hs.pillars vols).1.mem_iff.1 (List.getElem_mem hil)
  rw [h4]
  generalize (sorts.pillars vols)[i] = r at hmem
  unfold volRows at hv
  cases hc : x.quotes.conventions with
  | none => rw [hc] at hv; cases hv
  | some convs =>
    rw [hc] at hv
    simp only at hv
    obtain ⟨rows, -, hv⟩ := fxBind_ok hv
    obtain ⟨qs, hq, hv⟩ := fxBind_ok hv
    simp only [pure, Except.pure, Except.ok.injEq, Prod.mk.injEq] at hv
    obtain ⟨-, hvols⟩ := hv
    rw [← hvols] at hmem
    obtain ⟨z, hz, rfl⟩ := List.mem_map.1 hmem
    have hzq : z.2.2 ∈ qs := by
      obtain ⟨a, c, q⟩ := z
      exact (List.of_mem_zip (List.of_mem_zip hz).2).2
    obtain ⟨k, hk⟩ := List.mem_iff_getElem?.1 hzq
    obtain ⟨hql, hqa⟩ := mapM_get hq
    have hkl : k < (List.range rows.length).length := by rw [← hql]; exact (List.getElem?_eq_some_iff.1 hk).1
    obtain ⟨q', e1, e2⟩ := hqa k _ (List.getElem?_eq_getElem hkl)
    rw [hk] at e1
    cases e1
    have := (mapM_get e2).1
    rw [List.length_map] at this
    exact this

/-- The row of the daily table on a day between the first expiry and the last. -/
theorem smileDaily_row {curves : FxCurves} {pillars : List SmilePillar} {daily : List SmileDay} (h : smileDaily curves pillars = .ok daily)
    (hinc : pillars.Pairwise (fun p q => p.expiry < q.expiry)) {p : SmilePillar} (hp : p ∈ pillars) :
    ∃ day, daily.find? (fun day => day.expiry = p.expiry) = some day ∧ smileDay curves pillars p.expiry = .ok day := by
  have hle : pillars.Pairwise (fun p q => p.expiry ≤ q.expiry) := hinc.imp (fun h => h.le)
  have hne : pillars ≠ [] := List.ne_nil_of_mem hp
  obtain ⟨first, hf⟩ : ∃ p0, pillars.head? = some p0 := ⟨_, List.head?_eq_some_head hne⟩
  obtain ⟨last, hl⟩ : ∃ p0, pillars.getLast? = some p0 := ⟨_, List.getLast?_eq_some_getLast hne⟩
  rw [smileDaily_eq hle hf hl] at h
  obtain ⟨hlen, hrow⟩ := mapM_get h
  have hexp : ∀ d row, smileDay curves pillars d = .ok row → row.expiry = d := by
    intro d row hr
    unfold smileDay at hr
    split at hr
    · split at hr
      · cases hr; rfl
      · cases hr
    · cases hr
  have h1 : first.expiry ≤ p.expiry := head_le hinc hf hp
  have h2 : p.expiry ≤ last.expiry := by
    obtain ⟨i, hi⟩ := List.mem_iff_getElem?.1 hp
    rw [List.getLast?_eq_getElem?] at hl
    rcases Nat.lt_or_ge i (pillars.length - 1) with hlt | hge
    · exact (pairwise_get hinc hi hl hlt).le
    · have : i = pillars.length - 1 := by have := (List.getElem?_eq_some_iff.1 hi).1; omega
      rw [this, hl] at hi
      cases hi
      exact le_rfl
  obtain ⟨row, hr1, hr2⟩ := hrow (p.expiry - first.expiry).toNat p.expiry (daysBetween_get.2 ⟨by omega, by omega⟩)
  cases hfind : daily.find? (fun day => day.expiry = p.expiry) with
  | none =>
    have := List.find?_eq_none.1 hfind row (List.mem_of_getElem? hr1)
    simp [hexp _ _ hr2] at this
  | some day =>
    refine ⟨day, rfl, ?_⟩
    have he : day.expiry = p.expiry := by simpa using List.find?_some hfind
    obtain ⟨k, hk⟩ := List.mem_iff_getElem?.1 (List.mem_of_find?_eq_some hfind)
    have hkl : k < (daysBetween first.expiry last.expiry).length := by rw [← hlen]; exact (List.getElem?_eq_some_iff.1 hk).1
    obtain ⟨day', e1, e2⟩ := hrow k _ (List.getElem?_eq_getElem hkl)
    rw [hk] at e1
    cases e1
    rw [← hexp _ _ e2, he] at e2
    exact e2

/-- **C94.**  On the expiry of a pillar, the strikes the smile is fitted to are those of the pillar, and so are its volatilities, whatever the other pillars. -/
theorem C94_smile_strikes (sv : FxSolvers) (m : SmileMethod) (hs : FxSorted sorts)
    (h : makeFxSurface sorts sv.strike x = .ok b) (hinc : b.pillars.Pairwise (fun p q => p.expiry < q.expiry)) (i : Nat) (p : FxPillar)
    (hi : b.pillars[i]? = some p) :
    ∃ day ks, dayOf (b.surface m) p.expiry = some day ∧ b.strikes[i]? = some ks ∧ dayStrikes (b.surface m) sv day = .ok ks ∧
      ∃ vs : List Rat, p.vols = vs.map some ∧ day.vols = vs.map (fun (v : Rat) => Npf.fin (v : ℝ)) := by
  have hparts := makeFxSurface_parts h
  obtain ⟨rows, -, hpil⟩ := hparts.rows
  have hmem := List.mem_of_getElem? hi
  have hvl := pillar_vols_length hs h hmem
  obtain ⟨last, hlast⟩ : ∃ last, (b.pillars.map (·.expiry)).max? = some last := by
    cases hm : (b.pillars.map (·.expiry)).max? with
    | some l => exact ⟨l, rfl⟩
    | none =>
      rw [List.max?_eq_none_iff, List.map_eq_nil_iff] at hm
      rw [hm] at hmem
      cases hmem
  obtain ⟨c1, c2, c3, c4⟩ := fxCurvesOf_at (built_market hparts hmem).2.2.2 hpil hinc hmem hlast
  obtain ⟨ks, hks, hk⟩ := (mapM_get hparts.strikes).2 i p hi
  obtain ⟨conv, deltas, hconv, hdel, hgk⟩ := pillarStrikes_ok hk
  obtain ⟨hm, hq, -⟩ := strike_ok hgk
  have hdelm : deltas = b.smile.map (fun q => q.signedDelta.getD 0) := by
    have := congrArg (List.map (fun o : Option Rat => o.getD 0)) (fxMapM_some_get hdel)
    simpa [List.map_map, Function.comp_def] using this.symm
  have hvpos : ∀ v ∈ p.vols, 0 < nanReal v := by
    intro v hv
    obtain ⟨j, hj⟩ := List.mem_iff_getElem?.1 hv
    have hjl : j < deltas.length := by rw [hdelm, List.length_map, ← hvl]; exact (List.getElem?_eq_some_iff.1 hj).1
    have hz : (p.vols.zip deltas)[j]? = some (v, deltas[j]) := List.getElem?_zip_eq_some.2 ⟨hj, List.getElem?_eq_getElem hjl⟩
    exact (hq _ (List.mem_map_of_mem (List.mem_of_getElem? hz))).1
  obtain ⟨vs, hvs⟩ : ∃ vs : List Rat, p.vols = vs.map some := by
    refine ⟨p.vols.map (fun o => o.getD 0), ?_⟩
    rw [List.map_map]
    refine (List.map_id p.vols).symm.trans (List.map_congr_left (fun o ho => ?_))
    obtain ⟨w, rfl, -⟩ := nanReal_pos (hvpos o ho)
    rfl
  have hspos : ∀ v ∈ vs, (0 : ℝ) < (v : ℝ) := fun v hv => hvpos (some v) (by rw [hvs]; exact List.mem_map_of_mem hv)
  have hsv : p.smile.vols = vs.map (fun (v : Rat) => some (v : ℝ)) := by
    show p.vols.map _ = _
    rw [hvs, List.map_map]
    rfl
  have hdaily := hparts.daily
  rw [hlast, Option.getD_some] at hdaily
  generalize fxCurvesOf b.forward x.domesticCurve x.foreignCurve x.basis b.curveDate last = curves at c1 c2 c3 c4 hdaily
  have hinc' : (b.pillars.map (·.smile)).Pairwise (fun p q => p.expiry < q.expiry) := List.pairwise_map.2 hinc
  have hsm : p.smile ∈ b.pillars.map (·.smile) := List.mem_map_of_mem hmem
  obtain ⟨hlo, hup⟩ := at_pillar hinc' hsm
  obtain ⟨day, hday, hrow⟩ := smileDaily_row hdaily hinc' hsm
  have hy : (0 : ℝ) < p.years := hm.2.1
  have hse : p.smile.expiry = p.expiry := rfl
  obtain ⟨out, ho, hol, hov⟩ := C46_flat_forward (smileInterpRows curves p.smile p.smile p.expiry) (by
    intro r hr
    obtain ⟨vw, hvw, rfl⟩ := List.mem_map.1 hr
    have hsy : p.smile.years = p.years := rfl
    simp only [hsy, c1]
    exact ⟨hy.le, le_rfl, le_rfl, hy, fun hc => absurd hc (lt_irrefl _)⟩)
  unfold smileDay at hrow
  rw [hlo, hup] at hrow
  simp only [hse] at hrow
  rw [ho] at hrow
  simp only [Except.ok.injEq] at hrow
  have hvols : day.vols = vs.map (fun (v : Rat) => Npf.fin (v : ℝ)) := by
    rw [← hrow]
    simp only
    apply List.ext_getElem?
    intro j
    rw [List.getElem?_map]
    cases hj : vs[j]? with
    | none =>
      rw [List.getElem?_eq_none_iff] at hj
      simp only [Option.map_none, List.getElem?_eq_none_iff, smileVols, List.length_zipWith, List.length_zip, hsv, List.length_map]
      omega
    | some v =>
      have hv1 : p.smile.vols[j]? = some (some (v : ℝ)) := by rw [hsv, List.getElem?_map, hj]; rfl
      have hz : (p.smile.vols.zip p.smile.vols)[j]? = some (some (v : ℝ), some (v : ℝ)) := List.getElem?_zip_eq_some.2 ⟨hv1, hv1⟩
      obtain ⟨w, hw1, hw2⟩ := hov j ⟨⟨p.years, v, p.years, v⟩, curves.years p.expiry⟩ (by
        unfold smileInterpRows
        rw [List.getElem?_map, hz]
        rfl)
      have := hw2.start c1
      simp only at this
      unfold smileVols
      rw [List.getElem?_zipWith, hz, hw1, this, abs_of_pos (hspos v (List.mem_of_getElem? hj))]
      rfl
  refine ⟨day, ks, hday, hks, ?_, vs, hvs, hvols⟩
  unfold dayStrikes
  rw [hvols, ← hgk]
  rw [← hrow]
  simp only [c1, c2, c3, c4, FxPillar.smile, hconv, Option.getD_some, FxBuilt.surface]
  congr 1
  rw [hdelm, hvs]
  simp only [List.zip_map, List.map_map]
  apply List.ext_getElem?
  intro j
  simp only [List.getElem?_map, Function.comp_def]
  cases (vs.zip b.smile)[j]? <;> rfl

/-- **C94.**  What a table must be like to be accepted. -/
theorem C94_accepted (hs : FxSorted sorts) (hcal : x.cal.Ok) (h : makeFxSurface sorts solve x = .ok b) :
    x.forward.hasRate = true ∧ x.forward.hasTenor = true ∧ x.quotes.hasTenor = true ∧ x.quotes.conventions ≠ none ∧ b.pillars ≠ [] ∧
    (∀ r ∈ x.forward.rows ++ x.quotes.rows, ∃ t, r.tenor = some t) ∧
    (∃ r ∈ x.forward.rows, ∃ t, r.tenor = some t ∧ cleanTenor t = "sp".toList) ∧
    (∀ r ∈ b.callerForward.rows, ∃ d, r.rateSet = some d) ∧ (b.callerForward.rows.map (·.rateSet)).Nodup ∧
    (∀ p ∈ b.pillars, (∃ conv, p.conv.convention = conventionText conv) ∧ p.row.rateSet = some p.expiry ∧
      (∃ r ∈ x.domesticCurve.daily, r.date = p.expiry) ∧ ∃ r ∈ x.foreignCurve.daily, r.date = p.expiry) ∧
    b.pillars.Pairwise (fun p q => p.expiry ≤ q.expiry) := by
  have hp := makeFxSurface_parts h
  obtain ⟨hrate, hd⟩ := fxForwardTable_dates hp.forward
  obtain ⟨htn, -, hrows⟩ := fxTableDates_rows hcal hd
  obtain ⟨vols, hv, hpil⟩ := hp.rows
  obtain ⟨hpl, hpa⟩ := fxPillars_rows hpil
  have hq : x.quotes.hasTenor = true ∧ x.quotes.conventions ≠ none ∧ ∀ r ∈ x.quotes.rows, ∃ t, r.tenor = some t := by
    unfold volRows at hv
    cases hc : x.quotes.conventions with
    | none => rw [hc] at hv; cases hv
    | some convs =>
      rw [hc] at hv
      simp only at hv
      obtain ⟨rows, hr, -⟩ := fxBind_ok hv
      obtain ⟨g1, -, g3⟩ := fxTableDates_rows hcal hr
      refine ⟨g1, by simp, fun r hr => ?_⟩
      obtain ⟨i, hi⟩ := List.mem_iff_getElem?.1 hr
      exact (g3 i r hi).1
  obtain ⟨r0, hr0, -, t0, ht0, hc0, -⟩ := C94_spot hs hcal h
  have hfix : (∀ r ∈ b.forward, ∃ d, r.rateSet = some d) ∧ (b.forward.map (·.rateSet)).Nodup := by
    unfold fxPillars at hpil
    cases he : (sorts.pillars vols).mapM (fun r => r.row.rateSet) with
    | none => rw [he] at hpil; cases hpil
    | some expiries =>
      rw [he] at hpil
      simp only at hpil
      obtain ⟨_, -, hpil⟩ := fxBind_ok hpil
      obtain ⟨_, h2, -⟩ := fxBind_ok hpil
      obtain ⟨g1, g2, -⟩ := fxForwardsAt_ok h2
      exact g1
  have hperm : b.forward.Perm b.callerForward.rows := by rw [hp.forwardSorted]; exact (hs.forward _).1
  have hfind : ∀ (z : ZeroCurve) d v, z.zeroRates .continuous [d] = [some v] → ∃ r ∈ z.daily, r.date = d := by
    intro z d v hz
    unfold ZeroCurve.zeroRates ZeroCurve.indexDates at hz
    simp only [List.filter_cons, List.filter_nil] at hz
    by_cases hc : (!natGt (z.daily.map (·.date)).min? (some d) && !natGt (some d) (z.daily.map (·.date)).max?) = true
    · rw [if_pos hc] at hz
      simp only [List.map_cons, List.map_nil, List.cons.injEq, and_true] at hz
      obtain ⟨r, hr, -⟩ := Option.bind_eq_some_iff.1 hz
      exact ⟨r, List.mem_of_find?_eq_some hr, by simpa using List.find?_some hr⟩
    · rw [if_neg hc] at hz
      cases hz
  refine ⟨hrate, htn, hq.1, hq.2.1, ?_, ?_, ⟨r0, hr0, t0, ht0, hc0⟩, ?_, (hperm.map _).nodup_iff.1 hfix.2, ?_, ?_⟩
  · intro hc
    have := hp.daily
    rw [hc] at this
    cases this
  · intro r hr
    rcases List.mem_append.1 hr with hr | hr
    · obtain ⟨i, hi⟩ := List.mem_iff_getElem?.1 hr
      exact (hrows i r hi).1
    · exact hq.2.2 r hr
  · exact fun r hr => hfix.1 r (hperm.mem_iff.2 hr)
  · intro p hpm
    obtain ⟨i, hi⟩ := List.mem_iff_getElem?.1 hpm
    have hil : i < (sorts.pillars vols).length := by rw [← hpl]; exact (List.getElem?_eq_some_iff.1 hi).1
    obtain ⟨p', h1, hrow, -, -, hre, -, -, ⟨hzd, -⟩, hzf, -⟩ := hpa i _ (List.getElem?_eq_getElem hil)
    rw [hi] at h1
    cases h1
    obtain ⟨ks, -, hk⟩ := (mapM_get hp.strikes).2 i p hi
    obtain ⟨conv, -, hconv, -⟩ := pillarStrikes_ok hk
    exact ⟨⟨conv, parse_text hconv⟩, by rw [hrow]; exact hre, hfind _ _ _ hzd, hfind _ _ _ hzf⟩
  · have hda := hp.daily
    unfold smileDaily at hda
    cases hps : (b.pillars.map (·.smile)).map (·.expiry) with
    | nil => rw [hps] at hda; cases hda
    | cons e es =>
      rw [hps] at hda
      simp only at hda
      split at hda
      · cases hda
      · rename_i hc
        rw [not_not, List.pairwise_map] at hc
        exact hc

/-- **C94.**  Defect: a table with a row for `ON` and a row for `SN` (both one day after the curve date) is refused. -/
theorem C94_overnight_and_spot_next (hs : FxSorted sorts) (hcal : x.cal.Ok) (i j : Nat) (r q : FxRow)
    (hi : x.forward.rows[i]? = some r) (hj : x.forward.rows[j]? = some q) (t u : Str) (ht : r.tenor = some t) (hu : q.tenor = some u)
    (ht' : cleanTenor t = "on".toList) (hu' : cleanTenor u = "sn".toList) (hr : r.delivery = none) (hq : q.delivery = none) :
    ∀ b, makeFxSurface sorts solve x ≠ .ok b := by
  intro b h
  have hp := makeFxSurface_parts h
  obtain ⟨-, hd⟩ := fxForwardTable_dates hp.forward
  obtain ⟨-, -, hrows⟩ := fxTableDates_rows hcal hd
  obtain ⟨-, o, ho, hod⟩ := hrows i r hi
  obtain ⟨-, o', ho', hod'⟩ := hrows j q hj
  obtain ⟨-, off, t1, f1, s1, ht1, ho1, hf1, hs1, hfo1, hw1⟩ := hod.2.2.2 hr
  obtain ⟨-, off2, t2, f2, s2, ht2, ho2, hf2, hs2, hfo2, hw2⟩ := hod'.2.2.2 hq
  rw [ht] at ht1
  cases ht1
  rw [hu] at ht2
  cases ht2
  rw [ht'] at ho1
  rw [hu'] at ho2
  have e1 : tenorToDateOffset "on".toList = .ok (.days 1) := by decide
  have e2 : tenorToDateOffset "sn".toList = .ok (.days 1) := by decide
  rw [e1] at ho1
  rw [e2] at ho2
  cases ho1
  cases ho2
  have : f1 = f2 := by
    obtain ⟨p1, p2, p3⟩ := hfo1
    obtain ⟨q1, q2, q3⟩ := hfo2
    rcases lt_trichotomy f1 f2 with hlt | he | hgt
    · have := q3 f1 p1 hlt; rw [p2] at this; cases this
    · exact he
    · have := p3 f2 q1 hgt; rw [q2] at this; cases this
  subst this
  have hij : i ≠ j := by
    intro hc
    subst hc
    rw [hi] at hj
    cases hj
    rw [ht] at hu
    cases hu
    rw [ht'] at hu'
    revert hu'
    decide
  obtain ⟨-, -, -, -, -, -, -, -, hnd, -⟩ := C94_accepted hs hcal h
  have g1 : (b.callerForward.rows.map (·.rateSet))[i]? = some (some f1) := by rw [List.getElem?_map, ho, Option.map_some, hf1]
  have g2 : (b.callerForward.rows.map (·.rateSet))[j]? = some (some f1) := by rw [List.getElem?_map, ho', Option.map_some, hf2]
  exact hij ((List.getElem?_inj (List.getElem?_eq_some_iff.1 g1).1 hnd).1 (g1.trans g2.symm))

/-- **C94.**  A spot offset given with one date is ignored: the offset used is the pair's. -/
theorem C94_offset_ignored (c : Int) (o : Option Int) (hc : x.curveDate = some c) (hn : x.spotDate = none) :
    makeFxSurface sorts solve { x with spotOffset := o } = makeFxSurface sorts solve { x with spotOffset := none } := by
  unfold makeFxSurface
  simp only [hc, hn]
  cases o with
  | none => rfl
  | some o => simp only [(C08_user_offset_ignored _ _ _ o).1]

/-- **C94.**  Defect: both dates are refused unless they are reversed or equal; with an offset as well, always. -/
theorem C94_both_dates (c s : Int) (hc : x.curveDate = some c) (hsd : x.spotDate = some s) (hlt : c < s ∨ x.spotOffset ≠ none) :
    ∃ e, makeFxSurface sorts solve x = .error e := by
  unfold makeFxSurface
  cases hv : validateCcyPair (x.foreign ++ x.domestic) with
  | error e => exact ⟨e, rfl⟩
  | ok names =>
    simp only [hc, hsd]
    cases ho : x.spotOffset with
    | some o => exact ⟨.type, rfl⟩
    | none =>
      rw [ho] at hlt
      simp only [ne_eq, not_true_eq_false, or_false] at hlt
      refine ⟨.assertion, ?_⟩
      show (resolveFxCurveDates names.1 x.cal (some c) none (some s) >>= _) = _
      rw [C08_both_dates_raise _ _ hlt]
      rfl

/-- The exceptions of the first steps, with the pair, the dates and the curve dates in order: a forward table without rates fails an assertion, one
without tenors raises `KeyError`, a missing tenor `TypeError`; a forward table that is read but has no row called spot raises `IndexError`; and quotes with a smile but
without a column of conventions raise `KeyError`. -/
theorem C94_raises (hs : FxSorted sorts) (hcal : x.cal.Ok) (pair : Str) (dc fc : Str) (cd so sd : Int)
    (h1 : validateCcyPair (x.foreign ++ x.domestic) = .ok (pair, dc, fc))
    (h2 : resolveFxCurveDates pair x.cal x.curveDate x.spotOffset x.spotDate = .ok (cd, so, sd))
    (h3 : x.domesticCurve.curveDate = cd) (h4 : x.foreignCurve.curveDate = cd) :
    (x.forward.hasRate = false → makeFxSurface sorts solve x = .error .assertion) ∧
    (x.forward.hasRate = true → x.forward.hasTenor = false → makeFxSurface sorts solve x = .error .key) ∧
    (x.forward.hasRate = true → x.forward.hasTenor = true → (∃ r ∈ x.forward.rows, r.tenor = none) →
      makeFxSurface sorts solve x = .error .type) ∧
    (x.forward.hasRate = true → (∃ table, fxTermStructureHelper sorts.forward x.cal cd so x.forward.hasTenor x.forward.rows = .ok table) →
      (∀ r ∈ x.forward.rows, ∀ t, r.tenor = some t → cleanTenor t ≠ "sp".toList) → makeFxSurface sorts solve x = .error .index) ∧
    (x.forward.hasRate = true → (∃ table, fxTermStructureHelper sorts.forward x.cal cd so x.forward.hasTenor x.forward.rows = .ok table) →
      (∃ r ∈ x.forward.rows, ∃ t, r.tenor = some t ∧ cleanTenor t = "sp".toList) →
      (∃ quotes smile, solveCallPut (cleanVolQuotesColumnNames x.quotes.quotes) = .ok quotes ∧
        getDeltaSmileQuoteDetails sorts.smile (quotes.map (·.1)) = .ok smile) →
      x.quotes.conventions = none → makeFxSurface sorts solve x = .error .key) := by
  have hstart : makeFxSurface sorts solve x = (do
      let forwardRows ← fxForwardTable x.cal cd so x.forward
      let forward := sorts.forward forwardRows
      let spot ← fxSpotRate forward
      let quotes ← solveCallPut (cleanVolQuotesColumnNames x.quotes.quotes)
      let smile ← getDeltaSmileQuoteDetails sorts.smile (quotes.map (·.1))
      let rows ← volRows pair x.cal cd so x.quotes quotes (smile.map (·.name))
      let pillars ← fxPillars forward x.domesticCurve x.foreignCurve x.basis cd (sorts.pillars rows.2)
      let daily ← smileDaily (fxCurvesOf forward x.domesticCurve x.foreignCurve x.basis cd ((pillars.map (·.expiry)).max?.getD cd))
        (pillars.map (·.smile))
      let strikes ← pillars.mapM (pillarStrikes solve spot smile)
      pure ⟨pair, cd, so, sd, spot, smile, forward, pillars, daily, strikes,
        ⟨x.forward.hasRate, x.forward.hasTenor, forwardRows⟩, ⟨x.quotes.hasTenor, rows.1, x.quotes.conventions, quotes⟩⟩) := by
    unfold makeFxSurface
    rw [h1]
    simp only [bind, Except.bind]
    rw [h2]
    simp only [h3, h4, pyAssert, decide_true, if_true]
  have htable : (∃ table, fxTermStructureHelper sorts.forward x.cal cd so x.forward.hasTenor x.forward.rows = .ok table) →
      ∃ rows, fxTableDates x.cal cd so x.forward.hasTenor x.forward.rows = .ok rows := by
    rintro ⟨table, ht⟩
    unfold fxTermStructureHelper at ht
    unfold fxTableDates
    split at ht
    · cases ht
    · obtain ⟨tenors, t1, t2⟩ := fxBind_ok ht
      obtain ⟨out, t3, -⟩ := fxBind_ok t2
      rename_i hn
      rw [if_neg hn, t1]
      exact ⟨out, t3⟩
  refine ⟨?_, ?_, ?_, ?_, ?_⟩
  · intro hr
    rw [hstart]
    simp only [fxForwardTable, hr, if_true]
    rfl
  · intro hr ht
    rw [hstart]
    simp only [fxForwardTable, hr, fxTableDates, ht, if_true]
    rfl
  · intro hr ht hn
    have hm := (C41_exceptions id x.cal cd so x.forward.rows).2.1 hn
    have he : fxTableDates x.cal cd so true x.forward.rows = .error .type := by
      unfold fxTermStructureHelper at hm
      rw [if_neg (by simp)] at hm
      unfold fxTableDates
      rw [if_neg (by simp)]
      cases hq : x.forward.rows.mapM fxRowTenor with
      | error e =>
        rw [hq] at hm
        exact hm
      | ok ts =>
        rw [hq] at hm
        simp only [bind, Except.bind] at hm ⊢
        split at hm
        · rename_i e he
          rw [he]; exact hm
        · cases hm
    rw [hstart]
    simp only [fxForwardTable, hr, ht, he]
    rfl
  · intro hr ht hn
    obtain ⟨rows, hrows⟩ := htable ht
    rw [hstart]
    have hsp : fxSpotRate (sorts.forward rows) = .error .index := by
      unfold fxSpotRate
      cases hf : (sorts.forward rows).find? (fun r => r.tenor = some "sp".toList) with
      | none => rfl
      | some o =>
        exfalso
        have ho := List.mem_of_find?_eq_some hf
        have hot := List.find?_some hf
        obtain ⟨r, hr1, hr2⟩ := fxTableDates_mem hcal hrows ((hs.forward rows).1.mem_iff.1 ho)
        have h5 := hr2.2.1
        simp only [decide_eq_true_eq] at hot
        rw [hot] at h5
        cases hrt : r.tenor with
        | none => rw [hrt] at h5; cases h5
        | some t =>
          rw [hrt] at h5
          simp only [Option.map_some, Option.some.injEq] at h5
          exact hn r hr1 t hrt h5.symm
    simp only [fxForwardTable, hr, hrows, bind, Except.bind, Bool.true_eq_false, if_false, hsp]
  · rintro hr ht ⟨r, hr1, t, hrt, hsp⟩ ⟨quotes, smile, hq, hsm⟩ hc
    obtain ⟨rows, hrows⟩ := htable ht
    obtain ⟨o, ho, hod⟩ := fxTableDates_mem' hcal hrows hr1
    have hsp' : ∃ v, fxSpotRate (sorts.forward rows) = .ok v := by
      unfold fxSpotRate
      cases hf : (sorts.forward rows).find? (fun r => r.tenor = some "sp".toList) with
      | some o => exact ⟨_, rfl⟩
      | none =>
        exfalso
        have := List.find?_eq_none.1 hf o ((hs.forward rows).1.mem_iff.2 ho)
        apply this
        simp only [decide_eq_true_eq]
        rw [hod.2.1, hrt, ← hsp]
        rfl
    obtain ⟨v, hv⟩ := hsp'
    rw [hstart]
    simp only [fxForwardTable, hr, hrows, bind, Except.bind, Bool.true_eq_false, if_false, hv, hq, hsm, volRows, hc]

/-- The deltas and flags that queries read are those of the smile: a call or the at-the-money quote has flag 1, a put −1, with the signed delta of its name. -/
theorem C94_flags (hs : FxSorted sorts) (m : SmileMethod) (h : makeFxSurface sorts solve x = .ok b) (hne : b.pillars ≠ [])
    (j : Nat) (q : SmileQuote) (hj : b.smile[j]? = some q) :
    (b.surface m).flags.length = b.smile.length ∧ (b.surface m).deltas.length = b.smile.length ∧
    (∃ (f : Int) (d : Rat), (f = 1 ∨ f = -1) ∧ q.flag = some f ∧ q.signedDelta = some d ∧
      (b.surface m).flags[j]? = some (f : ℝ) ∧ (b.surface m).deltas[j]? = some (d : ℝ)) ∧
    ∀ k, Names q.name k → Details q k := by
  have hp := makeFxSurface_parts h
  have hsm := hp.smile
  unfold getDeltaSmileQuoteDetails at hsm
  obtain ⟨rows, hr, hsm⟩ := fxBind_ok hsm
  simp only [pure, Except.pure, Except.ok.injEq] at hsm
  have hq : q ∈ rows := by
    have := List.mem_of_getElem? hj
    rw [← hsm] at this
    exact (hs.smile rows).1.mem_iff.1 this
  obtain ⟨i, hi⟩ := List.mem_iff_getElem?.1 hq
  have hname : ∃ n d, smileDelta n = .ok d ∧ q = ⟨n, smileFlag n, d⟩ := by
    obtain ⟨g1, g2⟩ := mapM_get hr
    have hlt := (List.getElem?_eq_some_iff.1 hi).1
    rw [g1] at hlt
    obtain ⟨v, v1, v2⟩ := g2 i _ (List.getElem?_eq_getElem hlt)
    rw [hi] at v1
    cases v1
    cases hd : smileDelta _ with
    | error e => rw [hd] at v2; cases v2
    | ok d =>
      rw [hd] at v2
      simp only [Except.map, Except.ok.injEq] at v2
      exact ⟨_, d, hd, v2.symm⟩
  have hdelta : ∃ d, q.signedDelta = some d := by
    obtain ⟨p, l, hpl⟩ := List.exists_cons_of_ne_nil hne
    have hst := hp.strikes
    obtain ⟨-, g2⟩ := mapM_get hst
    obtain ⟨ks, -, hks⟩ := g2 0 p (by rw [hpl]; rfl)
    obtain ⟨conv, deltas, -, hdel, -⟩ := pillarStrikes_ok hks
    have hmap := fxMapM_some_get hdel
    have h1 : (b.smile.map (fun q => q.signedDelta))[j]? = some q.signedDelta := by rw [List.getElem?_map, hj]; rfl
    rw [hmap, List.getElem?_map] at h1
    cases hdj : deltas[j]? with
    | none => rw [hdj] at h1; cases h1
    | some d =>
      rw [hdj] at h1
      simp only [Option.map_some, Option.some.injEq] at h1
      exact ⟨d, h1.symm⟩
  obtain ⟨n, dd, hn, hqe⟩ := hname
  obtain ⟨d, hd⟩ := hdelta
  have hflag : ∃ f : Int, (f = 1 ∨ f = -1) ∧ q.flag = some f := by
    have hone : ∀ f, smileFlag n = some f → f = 1 ∨ f = -1 := by
      intro f hf
      unfold smileFlag at hf
      split at hf
      · cases hf; exact .inl rfl
      · split at hf
        · cases hf; exact .inr rfl
        · split at hf
          · cases hf; exact .inl rfl
          · cases hf
    have hdn : smileDelta n = .ok (some d) := by rw [hn]; rw [hqe] at hd; simp only at hd; rw [hd]
    by_cases ha : n = "atm_delta_neutral".toList
    · subst ha
      exact ⟨1, .inl rfl, by rw [hqe]; exact smileFlag_atm⟩
    · unfold smileDelta at hdn
      rw [if_neg ha] at hdn
      obtain ⟨k, -, hk⟩ := fxBind_ok hdn
      simp only [pure, Except.pure, Except.ok.injEq] at hk
      cases hf : smileFlag n with
      | none => rw [hf] at hk; cases hk
      | some f => exact ⟨f, hone f hf, by rw [hqe]; exact hf⟩
  obtain ⟨f, hf1, hf⟩ := hflag
  refine ⟨by simp [FxBuilt.surface], by simp [FxBuilt.surface], ⟨f, d, hf1, hf, hd, ?_, ?_⟩, ?_⟩
  · simp only [FxBuilt.surface, List.getElem?_map, hj, Option.map_some, hf, Option.getD_some]
  · simp only [FxBuilt.surface, List.getElem?_map, hj, Option.map_some, hd, Option.getD_some]
  · intro k hk
    have hqn : q.name = n := by rw [hqe]
    rw [hqn] at hk
    obtain ⟨y, hy1, hy2⟩ := row_of_names hk
    rw [hn] at hy1
    cases hy1
    rw [hqe]
    exact hy2

/-- **C94.**  Defect: the constructor writes dates into the caller's tables, and a surface built from them again, at any other curve date, keeps the dates
of the first: forwards and expiries stay where they were. -/
theorem C94_reused_tables (hs : FxSorted sorts) (hcal : x.cal.Ok)
    (hconv : ∀ c, x.quotes.conventions = some c → c.length = x.quotes.rows.length) (h : makeFxSurface sorts solve x = .ok b)
    (x' : FxInputs) (b' : FxBuilt) (hcal' : x'.cal.Ok) (hf : x'.forward = b.callerForward)
    (hq : x'.quotes = b.callerQuotes) (h' : makeFxSurface sorts solve x' = .ok b') :
    b'.callerForward.rows.map (fun r => (r.rateSet, r.delivery, r.value)) = b.callerForward.rows.map (fun r => (r.rateSet, r.delivery, r.value)) ∧
    (b'.pillars.map (fun p => (p.expiry, p.row.delivery))).Perm (b.pillars.map (fun p => (p.expiry, p.row.delivery))) := by
  have hp := makeFxSurface_parts h
  have hp' := makeFxSurface_parts h'
  have keep : ∀ {cal : BusCal} {c s : Int} {r o : FxRow}, (∃ d, r.delivery = some d) → FxDates cal c s r o →
      o.rateSet = r.rateSet ∧ o.delivery = r.delivery ∧ o.value = r.value := by
    rintro cal c s r o ⟨d, hd⟩ hfd
    obtain ⟨g1, g2⟩ := hfd.2.2.1 d hd
    exact ⟨g2, by rw [g1, hd], hfd.1⟩
  constructor
  · obtain ⟨-, hd⟩ := fxForwardTable_dates hp.forward
    obtain ⟨-, hd'⟩ := fxForwardTable_dates hp'.forward
    rw [hf] at hd'
    obtain ⟨-, hl, hr⟩ := fxTableDates_rows hcal' hd'
    apply List.ext_getElem?
    intro i
    rw [List.getElem?_map, List.getElem?_map]
    cases hi : b.callerForward.rows[i]? with
    | none =>
      rw [List.getElem?_eq_none_iff] at hi
      rw [List.getElem?_eq_none_iff.2 (by omega)]
    | some r =>
      obtain ⟨-, o, ho, hod⟩ := hr i r hi
      obtain ⟨r0, -, hr0⟩ := fxTableDates_mem hcal hd (List.mem_of_getElem? hi)
      obtain ⟨g1, g2, g3⟩ := keep (fxDates_delivery hr0) hod
      rw [ho]
      simp [g1, g2, g3]
  · obtain ⟨al, hal1, hal2, hal3, -⟩ := C94_pillars hs hcal hconv h
    have hrows : ∀ (i : Nat) r, x.quotes.rows[i]? = some r → ∃ o, b.callerQuotes.rows[i]? = some o ∧ FxDates x.cal b.curveDate b.spotOffset r o := by
      obtain ⟨vols, hv, -⟩ := hp.rows
      unfold volRows at hv
      cases hc : x.quotes.conventions with
      | none => rw [hc] at hv; cases hv
      | some convs =>
        rw [hc] at hv
        simp only at hv
        obtain ⟨rows, hr, hv⟩ := fxBind_ok hv
        obtain ⟨qs, -, hv⟩ := fxBind_ok hv
        simp only [pure, Except.pure, Except.ok.injEq, Prod.mk.injEq] at hv
        obtain ⟨g1, g2, g3⟩ := fxTableDates_rows hcal hr
        rw [← hv.1]
        exact fun i r hi => (g3 i r hi).2
    have hrl : b.callerQuotes.rows.length = x.quotes.rows.length := by
      obtain ⟨vols, hv, -⟩ := hp.rows
      unfold volRows at hv
      cases hc : x.quotes.conventions with
      | none => rw [hc] at hv; cases hv
      | some convs =>
        rw [hc] at hv
        simp only at hv
        obtain ⟨rows, hr, hv⟩ := fxBind_ok hv
        obtain ⟨qs, -, hv⟩ := fxBind_ok hv
        simp only [pure, Except.pure, Except.ok.injEq, Prod.mk.injEq] at hv
        obtain ⟨g1, g2, g3⟩ := fxTableDates_rows hcal hr
        rw [← hv.1]
        exact g2
    have hcq := hp.callerQuotes
    have hconv' : ∀ c, x'.quotes.conventions = some c → c.length = x'.quotes.rows.length := by
      intro c hc
      rw [hq] at hc ⊢
      rw [hrl]
      rw [hcq] at hc
      exact hconv c hc
    obtain ⟨al', hal1', hal2', hal3', -⟩ := C94_pillars hs hcal' hconv' h'
    refine (hal1'.map _).trans (List.Perm.trans ?_ (hal1.map _).symm)
    have : al'.map (fun p => (p.expiry, p.row.delivery)) = al.map (fun p => (p.expiry, p.row.delivery)) := by
      apply List.ext_getElem?
      intro i
      rw [List.getElem?_map, List.getElem?_map]
      rw [hq] at hal2' hal3'
      cases hi : x.quotes.rows[i]? with
      | none =>
        rw [List.getElem?_eq_none_iff] at hi
        rw [List.getElem?_eq_none_iff.2 (by omega), List.getElem?_eq_none_iff.2 (by omega)]
      | some r =>
        obtain ⟨p, _, hp1, hp2, hp3, -⟩ := hal3 i r hi
        obtain ⟨o, ho, hod⟩ := hrows i r hi
        have := fxDates_unique hp2 hod
        subst this
        obtain ⟨p', _, hq1, hq2, hq3, -⟩ := hal3' i _ ho
        obtain ⟨g1, g2, -⟩ := keep (fxDates_delivery hp2) hq2
        rw [hp1, hq1]
        rw [g1, hp3] at hq3
        simp only [Option.some.injEq] at hq3
        simp [g2, hq3]
    rw [this]

/-- A table used for a surface of 31 January 2024, then for one of 29 February: the one-month forward still delivers in March, not in April. -/
example : fxForwardTable defaultBusCal (mkDate 2024 1 31) 2 ⟨true, true, [⟨some "SP".toList, none, none, some 1⟩, ⟨some "1M".toList, none, none, some 2⟩]⟩ =
      .ok [⟨some "sp".toList, some (mkDate 2024 1 31), some (mkDate 2024 2 2), some 1⟩, ⟨some "1m".toList, some (mkDate 2024 2 29), some (mkDate 2024 3 4), some 2⟩] ∧
    fxForwardTable defaultBusCal (mkDate 2024 2 29) 2 ⟨true, true, [⟨some "SP".toList, none, none, some 1⟩, ⟨some "1M".toList, none, none, some 2⟩]⟩ =
      .ok [⟨some "sp".toList, some (mkDate 2024 2 29), some (mkDate 2024 3 4), some 1⟩, ⟨some "1m".toList, some (mkDate 2024 3 29), some (mkDate 2024 4 2), some 2⟩] ∧
    fxForwardTable defaultBusCal (mkDate 2024 2 29) 2 ⟨true, true, [⟨some "sp".toList, some (mkDate 2024 1 31), some (mkDate 2024 2 2), some 1⟩, ⟨some "1m".toList, some (mkDate 2024 2 29), some (mkDate 2024 3 4), some 2⟩]⟩ =
      .ok [⟨some "sp".toList, some (mkDate 2024 1 31), some (mkDate 2024 2 2), some 1⟩, ⟨some "1m".toList, some (mkDate 2024 2 29), some (mkDate 2024 3 4), some 2⟩] := by
  decide +kernel

/-- A surface of AUD/USD with spot, a one-month and a one-year forward, and one smile. -/
noncomputable def exampleFx : FxInputs where
  domestic := "usd".toList
  foreign := "aud".toList
  forward := ⟨true, true, [⟨some "1Y".toList, none, none, some (3 / 4)⟩, ⟨some "Spot".toList, none, none, some (2 / 3)⟩, ⟨some "1M".toList, none, none, some (7 / 10)⟩]⟩
  domesticCurve := ⟨mkDate 2024 1 31, .act_365, defaultBusCal, [], [⟨mkDate 2024 2 29, 29 / 365, some 0.05, 1⟩]⟩
  foreignCurve := ⟨mkDate 2024 1 31, .act_365, defaultBusCal, [], [⟨mkDate 2024 2 29, 29 / 365, some 0.04, 1⟩]⟩
  quotes := ⟨true, [⟨some "1M".toList, none, none, none⟩], some ["regular_forward".toList], [("atm_delta_neutral".toList, [some (1 / 10)])]⟩
  curveDate := some (mkDate 2024 1 31)
  spotOffset := none
  spotDate := none
  cal := defaultBusCal
  basis := .act_365

theorem fxMapM_single {α β : Type} {f : α → Except Err β} {a : α} {v : β} (h : f a = .ok v) : [a].mapM f = .ok [v] := by
  rw [List.mapM_cons, h]
  rfl

/-- It is constructed, whatever the sort of the smile and the solver. -/
example (s : List SmileQuote → List SmileQuote) (hs : SortsOnRat smileOrder s) (solve : (ℝ → ℝ) → DeltaQuote → Except Err ℝ) :
    ∃ b, makeFxSurface ⟨sortBy (fun r => r.delivery.getD 0), sortBy (fun r => r.row.delivery.getD 0), s⟩ solve exampleFx = .ok b := by
  let fwd : List FxRow := [⟨some "sp".toList, some (mkDate 2024 1 31), some (mkDate 2024 2 2), some (2 / 3)⟩,
    ⟨some "1m".toList, some (mkDate 2024 2 29), some (mkDate 2024 3 4), some (7 / 10)⟩,
    ⟨some "1y".toList, some (mkDate 2025 1 31), some (mkDate 2025 2 4), some (3 / 4)⟩]
  have h1 : validateCcyPair (exampleFx.foreign ++ exampleFx.domestic) = .ok ("audusd".toList, "usd".toList, "aud".toList) := by decide +kernel
  have h2 : resolveFxCurveDates "audusd".toList defaultBusCal (some (mkDate 2024 1 31)) none none = .ok (mkDate 2024 1 31, 2, mkDate 2024 2 2) := by decide +kernel
  have h3 : ∃ r, fxForwardTable defaultBusCal (mkDate 2024 1 31) 2 exampleFx.forward = .ok r ∧ sortBy (fun r => r.delivery.getD 0) r = fwd :=
    ⟨[⟨some "1y".toList, some (mkDate 2025 1 31), some (mkDate 2025 2 4), some (3 / 4)⟩,
      ⟨some "sp".toList, some (mkDate 2024 1 31), some (mkDate 2024 2 2), some (2 / 3)⟩,
      ⟨some "1m".toList, some (mkDate 2024 2 29), some (mkDate 2024 3 4), some (7 / 10)⟩], by decide +kernel, by decide +kernel⟩
  obtain ⟨fr, h3, h3'⟩ := h3
  have h4 : fxSpotRate fwd = .ok (some (2 / 3)) := by decide +kernel
  have h5 : solveCallPut (cleanVolQuotesColumnNames exampleFx.quotes.quotes) = .ok [("atm_delta_neutral".toList, [some (1 / 10)])] := by decide +kernel
  have h6 : getDeltaSmileQuoteDetails s ["atm_delta_neutral".toList] = .ok [⟨"atm_delta_neutral".toList, some 1, some (1 / 2)⟩] := by
    have e : s [⟨"atm_delta_neutral".toList, some 1, some (1 / 2)⟩] = [⟨"atm_delta_neutral".toList, some 1, some (1 / 2)⟩] :=
      List.perm_singleton.1 (hs _).1
    have e0 : getDeltaSmileQuoteDetails id ["atm_delta_neutral".toList] = .ok [⟨"atm_delta_neutral".toList, some 1, some (1 / 2)⟩] := by decide +kernel
    have e1 : getDeltaSmileQuoteDetails s ["atm_delta_neutral".toList] = (getDeltaSmileQuoteDetails id ["atm_delta_neutral".toList]).map s := by
      unfold getDeltaSmileQuoteDetails
      simp only [bind, Except.bind]
      split <;> rfl
    rw [e1, e0, Except.map, e]
  let volRow : VolRow := ⟨⟨some "1m".toList, some (mkDate 2024 2 29), some (mkDate 2024 3 4), none⟩, ⟨"regular_forward".toList, []⟩, [some (1 / 10)]⟩
  have h7 : volRows "audusd".toList defaultBusCal (mkDate 2024 1 31) 2 exampleFx.quotes [("atm_delta_neutral".toList, [some (1 / 10)])] ["atm_delta_neutral".toList] =
      .ok ([volRow.row], [volRow]) := by decide +kernel
  have hr : ∀ z : ZeroCurve, ∀ v y df, z.daily = [⟨mkDate 2024 2 29, y, some v, df⟩] → fxRatesAt z [mkDate 2024 2 29] = .ok [v] := by
    intro z v y df hz
    have : z.zeroRates .continuous [mkDate 2024 2 29] = [some v] := by
      unfold ZeroCurve.zeroRates ZeroCurve.indexDates
      simp [hz, natGt]
    unfold fxRatesAt
    rw [this]
    rfl
  have hy : yearFrac [mkDate 2024 1 31] [mkDate 2024 2 29] .act_365 none = .ok [29 / 365] := by decide +kernel
  have hfw : fxForwardsAt fwd [mkDate 2024 2 29] = .ok [some (7 / 10)] := by decide +kernel
  have hd := hr exampleFx.domesticCurve _ _ _ rfl
  have hf := hr exampleFx.foreignCurve _ _ _ rfl
  let p : FxPillar := ⟨volRow.row, mkDate 2024 2 29, ((29 / 365 : Rat) : ℝ), ((7 / 10 : Rat) : ℝ), 0.05, 0.04, volRow.conv, volRow.vols⟩
  have h8 : fxPillars fwd exampleFx.domesticCurve exampleFx.foreignCurve .act_365 (mkDate 2024 1 31) [volRow] = .ok [p] := by
    unfold fxPillars
    have : [volRow].mapM (fun r => r.row.rateSet) = some [mkDate 2024 2 29] := rfl
    rw [this]
    simp only [hy, hfw, hd, hf, bind, Except.bind]
    rfl
  have h9 : ∃ d, smileDaily (fxCurvesOf fwd exampleFx.domesticCurve exampleFx.foreignCurve .act_365 (mkDate 2024 1 31) (mkDate 2024 2 29)) [p.smile] = .ok [d] := by
    have hyr : (fxCurvesOf fwd exampleFx.domesticCurve exampleFx.foreignCurve .act_365 (mkDate 2024 1 31) (mkDate 2024 2 29)).years (mkDate 2024 2 29) = ((29 / 365 : Rat) : ℝ) := by
      have hy' : yearFrac [mkDate 2024 1 31] [mkDate 2024 2 29] .act_365 (some [decide (mkDate 2024 2 29 = mkDate 2024 2 29)]) = .ok [29 / 365] := by
        rw [yearFrac_flag (.inl (by decide))]
        exact hy
      show (match yearFrac [mkDate 2024 1 31] [mkDate 2024 2 29] .act_365 (some [decide (mkDate 2024 2 29 = mkDate 2024 2 29)]) with
        | .ok [y] => (y : ℝ)
        | _ => 0) = _
      rw [hy']
    generalize fxCurvesOf fwd exampleFx.domesticCurve exampleFx.foreignCurve .act_365 (mkDate 2024 1 31) (mkDate 2024 2 29) = curves at hyr
    rw [smileDaily_eq (p0 := p.smile) (pn := p.smile) (by simp) rfl rfl]
    have hdb : daysBetween p.smile.expiry p.smile.expiry = [p.smile.expiry] := by
      unfold daysBetween
      simp
    rw [hdb]
    obtain ⟨hlo, hup⟩ := at_pillar (pillars := [p.smile]) (by simp) (p := p.smile) (by simp)
    obtain ⟨out, ho, -⟩ := C46_flat_forward (smileInterpRows curves p.smile p.smile p.smile.expiry) (by
      intro r hr
      obtain ⟨vw, hvw, rfl⟩ := List.mem_map.1 hr
      have : curves.years p.smile.expiry = ((29 / 365 : Rat) : ℝ) := hyr
      have hps : p.smile.years = ((29 / 365 : Rat) : ℝ) := rfl
      simp only [this, hps]
      norm_num)
    have hday : smileDay curves [p.smile] p.smile.expiry = .ok ⟨p.smile.expiry, curves.years p.smile.expiry, curves.fwd p.smile.expiry, curves.rd p.smile.expiry, curves.rf p.smile.expiry, p.smile.conv, smileVols p.smile p.smile out⟩ := by
      unfold smileDay
      rw [hlo, hup]
      simp only [ho]
    exact ⟨_, fxMapM_single hday⟩
  obtain ⟨day, h9⟩ := h9
  have h10 : ∃ k, pillarStrikes solve (some (2 / 3)) [⟨"atm_delta_neutral".toList, some 1, some (1 / 2)⟩] p = .ok k := by
    unfold pillarStrikes
    have e1 : parseConvention p.conv.convention = some .regularForward := by decide +kernel
    have e2 : [(⟨"atm_delta_neutral".toList, some 1, some (1 / 2)⟩ : SmileQuote)].mapM (fun q => q.signedDelta) = some [1 / 2] := rfl
    rw [e1, e2]
    simp only
    unfold gkStrikeFromDelta
    rw [if_neg]
    · exact ⟨_, rfl⟩
    · simp only [p, volRow, nanReal, Option.getD_some]
      norm_num
  obtain ⟨ks, h10⟩ := h10
  refine ⟨⟨"audusd".toList, mkDate 2024 1 31, 2, mkDate 2024 2 2, some (2 / 3), [⟨"atm_delta_neutral".toList, some 1, some (1 / 2)⟩], fwd, [p], [day], [ks],
    ⟨true, true, fr⟩, ⟨true, [volRow.row], some ["regular_forward".toList], [("atm_delta_neutral".toList, [some (1 / 10)])]⟩⟩, ?_⟩
  have h2' : resolveFxCurveDates "audusd".toList exampleFx.cal exampleFx.curveDate exampleFx.spotOffset exampleFx.spotDate =
    .ok (mkDate 2024 1 31, 2, mkDate 2024 2 2) := h2
  have ha : pyAssert (decide (mkDate 2024 1 31 = exampleFx.domesticCurve.curveDate)) = .ok () := by decide +kernel
  have hb : pyAssert (decide (mkDate 2024 1 31 = exampleFx.foreignCurve.curveDate)) = .ok () := by decide +kernel
  have h3b : fxForwardTable exampleFx.cal (mkDate 2024 1 31) 2 exampleFx.forward = .ok fr := h3
  have h7' : volRows "audusd".toList exampleFx.cal (mkDate 2024 1 31) 2 exampleFx.quotes [("atm_delta_neutral".toList, [some (1 / 10)])] ["atm_delta_neutral".toList] =
    .ok ([volRow.row], [volRow]) := h7
  have hsort : sortBy (fun r : VolRow => r.row.delivery.getD 0) [volRow] = [volRow] := rfl
  have h8' : fxPillars fwd exampleFx.domesticCurve exampleFx.foreignCurve exampleFx.basis (mkDate 2024 1 31) [volRow] = .ok [p] := h8
  have h9' : smileDaily (fxCurvesOf fwd exampleFx.domesticCurve exampleFx.foreignCurve exampleFx.basis (mkDate 2024 1 31)
    ([p.expiry].max?.getD (mkDate 2024 1 31))) [p.smile] = .ok [day] := h9
  unfold makeFxSurface
  simp only [h1, bind, Except.bind, h2', ha, hb, h3b, h3', h4, h5, List.map_cons, List.map_nil, h6, h7', hsort, h8', h9', fxMapM_single h10]
  rfl
end Frm.Props
