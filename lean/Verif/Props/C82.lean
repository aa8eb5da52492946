import Verif.Props.C65
import Verif.Props.C48
import Verif.Props.C67

/-!
# C82: volatilities and prices read from a surface
-/

namespace Frm
namespace Spec
open Classical

set_option autoImplicit false

/-- The splines pass through their points. -/
def SplinesInterpolate (sv : FxSolvers) : Prop :=
  (∀ k xs ys f, sv.univariate k xs ys = .ok f → ∀ (i : Nat) x y, xs[i]? = some x → ys[i]? = some y → f x = some y) ∧
  (∀ xs ys f, sv.cubic xs ys = .ok f → ∀ (i : Nat) x y, xs[i]? = some x → ys[i]? = some y → f x = some y)

/-- The implied-volatility solvers return roots only. -/
def VolSolversOk (sv : FxSolvers) : Prop := (∀ g, ReturnsRoots (sv.newton g)) ∧ ∀ b, ReturnsRoots (sv.brentq b)

/-- `K` is the strike of the `i`-th quote of an expiry: the one the library computes from the quoted volatilities and deltas, the spot, the
rates and the market forward of that expiry (C51 says what it is). -/
def QuoteStrike (S : FxSurface) (sv : FxSolvers) (day : SmileDay) (i : Nat) (K : ℝ) : Prop :=
  ∃ quotes strikes, quotes.map (fun q => Npf.fin q.vol) = day.vols ∧ quotes.map (·.delta) = S.deltas ∧
    gkStrikeFromDelta sv.strike ⟨S.spot, day.years, day.rd, day.rf, some day.fwd⟩ day.conv .forward quotes = .ok strikes ∧
    strikes[i]? = some (some K)

/-- The option a row of the answer describes, at the market forward. -/
def SurfacePoint.contract (S : FxSurface) (p : SurfacePoint) (vol : ℝ) : GkRow :=
  ⟨S.spot, p.day.years, p.day.rd, p.day.rf, p.cp, p.K, vol, some p.day.fwd⟩

/-- The price the Heston model gives to an option of the surface: at the foreign rate and the domestic rate implied by the market forward. -/
def HestonPriced (S : FxSurface) (m : HestonPricing) (h : Heston) (p : SurfacePoint) (X : ℝ) : Prop :=
  ∃ r, S.spot * Real.exp ((r - p.day.rf) * p.day.years) = p.day.fwd ∧ hestonPrice m h 0 S.spot p.day.years r p.day.rf p.cp p.K = .ok (some X)

end Spec
end Frm

namespace Frm.Props
open Classical

set_option autoImplicit false

open Frm Frm.Spec

theorem firstErr_ok {α : Type} {f : Int → Except Err α} : ∀ {ds : List Int}, firstErr f ds = .ok () → ∀ d ∈ ds, ∃ a, f d = .ok a
  | [], _, d, hd => by cases hd
  | e :: ds, h, d, hd => by
    simp only [firstErr] at h
    cases he : f e with
    | error x => rw [he] at h; cases h
    | ok a =>
      rw [he] at h
      rcases List.mem_cons.1 hd with rfl | hd
      · exact ⟨a, he⟩
      · exact firstErr_ok h d hd

theorem points_spec {S : FxSurface} {sv : FxSolvers} {st : SmileState} (hc : CacheOk S sv st) {ds : List Int} {Ks cps : List ℝ}
    {pts : List SurfacePoint} (h : (interpVolSurface S sv st ds Ks cps).2 = .ok pts) :
    ds.length = Ks.length ∧ ds.length = cps.length ∧ pts.length = ds.length ∧
    ∀ (k : Nat) d K cp, ds[k]? = some d → Ks[k]? = some K → cps[k]? = some cp →
      ∃ day smile v, dayOf S d = some day ∧ solveDay S sv d = .ok smile ∧ fitDay S sv day = .ok smile ∧
        smileVol S sv smile day K cp = .ok v ∧ pts[k]? = some ⟨day, K, cp, v⟩ := by
  rw [interp_fresh hc] at h
  split at h
  · cases h
  · rename_i hl
    have hl1 : ds.length = Ks.length := by by_contra hn; exact hl (Or.inl hn)
    have hl2 : ds.length = cps.length := by by_contra hn; exact hl (Or.inr hn)
    cases he : firstErr (solveDay S sv) ds with
    | error e => rw [he] at h; cases h
    | ok u =>
      rw [he] at h
      simp only at h
      obtain ⟨hlen, hget⟩ := mapM_get h
      refine ⟨hl1, hl2, ?_, ?_⟩
      · rw [hlen]
        simp only [List.length_zip]
        omega
      · intro k d K cp hd hK hcp
        have hz : (ds.zip (Ks.zip cps))[k]? = some (d, K, cp) := by
          rw [List.getElem?_zip_eq_some]
          exact ⟨hd, by rw [List.getElem?_zip_eq_some]; exact ⟨hK, hcp⟩⟩
        obtain ⟨p, hp, hf⟩ := hget k _ hz
        obtain ⟨smile, hs⟩ := firstErr_ok he d (List.mem_of_getElem? hd)
        unfold freshPoint at hf
        simp only [hs] at hf
        cases hday : dayOf S d with
        | none => rw [hday] at hf; cases hf
        | some day =>
          rw [hday] at hf
          simp only at hf
          cases hv : smileVol S sv smile day K cp with
          | error e => rw [hv] at hf; cases hf
          | ok v =>
            rw [hv] at hf
            cases hf
            refine ⟨day, smile, v, rfl, hs, ?_, hv, hp⟩
            unfold solveDay at hs
            rw [hday] at hs
            exact hs

theorem ask_vols {S : FxSurface} {sv : FxSolvers} {st : SmileState} {ds : List Int} {Ks cps : List ℝ} {pts : List SurfacePoint}
    (h : (ask S sv st (.vols ds Ks cps)).2 = .ok (.vols pts)) : (interpVolSurface S sv st ds Ks cps).2 = .ok pts := by
  have h' : ((interpVolSurface S sv st ds Ks cps).2).map SurfaceAnswer.vols = .ok (.vols pts) := h
  cases hi : (interpVolSurface S sv st ds Ks cps).2 with
  | error e => rw [hi] at h'; cases h'
  | ok p => rw [hi] at h'; cases h'; rfl

theorem ask_prices {S : FxSurface} {sv : FxSolvers} {st : SmileState} {ds : List Int} {Ks cps : List ℝ} {vals : List (Option GkValue)}
    (h : (ask S sv st (.prices ds Ks cps)).2 = .ok (.prices vals)) : (priceVanilla S sv st ds Ks cps).2 = .ok vals := by
  have h' : ((priceVanilla S sv st ds Ks cps).2).map SurfaceAnswer.prices = .ok (.prices vals) := h
  cases hi : (priceVanilla S sv st ds Ks cps).2 with
  | error e => rw [hi] at h'; cases h'
  | ok p => rw [hi] at h'; cases h'; rfl

/-- **C82.**  The answer has one row per option asked for, in order, each with the row of the daily table of its expiry, its strike and its
flag.  Arguments of different lengths are refused, and so are dates outside the daily table. -/
theorem C82_rows (S : FxSurface) (sv : FxSolvers) (before : List SurfaceQuery) (ds : List Int) (Ks cps : List ℝ) (pts : List SurfacePoint)
    (h : (ask S sv (history S sv before) (.vols ds Ks cps)).2 = .ok (.vols pts)) :
    ds.length = Ks.length ∧ ds.length = cps.length ∧ pts.length = ds.length ∧
    ∀ (k : Nat) p, pts[k]? = some p → p.day ∈ S.daily ∧ ds[k]? = some p.day.expiry ∧ Ks[k]? = some p.K ∧ cps[k]? = some p.cp := by
  obtain ⟨h1, h2, h3, h4⟩ := points_spec (history_cacheOk S sv before) (ask_vols h)
  refine ⟨h1, h2, h3, fun k p hp => ?_⟩
  have hk : k < ds.length := by rw [← h3]; exact (List.getElem?_eq_some_iff.1 hp).1
  obtain ⟨day, smile, v, hd, -, -, -, hp'⟩ := h4 k _ _ _ (List.getElem?_eq_getElem hk) (List.getElem?_eq_getElem (h1 ▸ hk)) (List.getElem?_eq_getElem (h2 ▸ hk))
  rw [hp] at hp'
  cases hp'
  unfold dayOf at hd
  have hm := List.mem_of_find?_eq_some hd
  have he := List.find?_some hd
  simp only [decide_eq_true_eq] at he
  exact ⟨hm, by rw [he]; exact List.getElem?_eq_getElem hk, List.getElem?_eq_getElem _, List.getElem?_eq_getElem _⟩

/-- **C82.**  A date without a row in the daily table, asked for first, raises `IndexError`; so do too few quotes for a spline, with
`ValueError`: three for the univariate one, four for the cubic one. -/
theorem C82_refused (S : FxSurface) (sv : FxSolvers) (before : List SurfaceQuery) (d : Int) (ds : List Int) (Ks cps : List ℝ)
    (h1 : (d :: ds).length = Ks.length) (h2 : (d :: ds).length = cps.length) :
    ((∀ day ∈ S.daily, day.expiry ≠ d) → (ask S sv (history S sv before) (.vols (d :: ds) Ks cps)).2 = .error .index) ∧
    (∀ day strikes, (∀ e ∈ S.daily, e.expiry = d → e = day) → day ∈ S.daily → day.expiry = d →
      gkStrikeFromDelta sv.strike ⟨S.spot, day.years, day.rd, day.rf, some day.fwd⟩ day.conv .forward
        ((day.vols.zip S.deltas).map (fun p => ⟨volNumber p.1, p.2⟩)) = .ok strikes →
      (S.method = .univariate ∧ day.vols.length < 3) ∨ (S.method = .cubic ∧ day.vols.length < 4) →
      (ask S sv (history S sv before) (.vols (d :: ds) Ks cps)).2 = .error .value) := by
  have key : ∀ e, solveDay S sv d = .error e → (ask S sv (history S sv before) (.vols (d :: ds) Ks cps)).2 = .error e := by
    intro e he
    show ((interpVolSurface S sv (history S sv before) (d :: ds) Ks cps).2).map SurfaceAnswer.vols = _
    rw [interp_fresh (history_cacheOk S sv before), if_neg (by rintro (h | h) <;> contradiction)]
    simp only [firstErr, he]
    rfl
  constructor
  · intro h
    apply key
    have : dayOf S d = none := by
      unfold dayOf
      rw [List.find?_eq_none]
      intro x hx
      simpa using h x hx
    unfold solveDay
    rw [this]
  · intro day strikes huniq hday hexp hs hm
    apply key
    have hd : dayOf S d = some day := by
      cases hf : dayOf S d with
      | none =>
        unfold dayOf at hf
        rw [List.find?_eq_none] at hf
        have := hf day hday
        simp [hexp] at this
      | some e =>
        have hmem := List.mem_of_find?_eq_some hf
        have he := List.find?_some hf
        simp only [decide_eq_true_eq] at he
        rw [huniq e hmem he]
    have hds : dayStrikes S sv day = .ok strikes := hs
    unfold solveDay
    rw [hd]
    unfold fitDay
    rcases hm with ⟨hm, hl⟩ | ⟨hm, hl⟩ <;> simp only [hm, hds, if_pos hl]

theorem mapM_id_get {l : List (Option ℝ)} {out : List ℝ} (h : l.mapM id = some out) {i : Nat} {K : ℝ} (hi : l[i]? = some (some K)) : out[i]? = some K := by
  induction l generalizing out i with
  | nil => simp at hi
  | cons a l ih =>
    simp only [List.mapM_cons, id, Option.bind_eq_bind] at h
    cases a with
    | none => simp at h
    | some x =>
      simp only [Option.bind_some] at h
      cases hm : l.mapM id with
      | none => rw [hm] at h; simp at h
      | some ys =>
        rw [hm] at h
        simp only [Option.bind_some, pure, Option.some.injEq] at h
        subst h
        cases i with
        | zero => simpa using hi
        | succ i => simpa using ih hm (by simpa using hi)

theorem loop_length {solve : (ℝ → ℝ) → DeltaQuote → Except Err ℝ} {m : StrikeMarket} {spot : Bool} :
    ∀ (quotes : List DeltaQuote) (last : Option ℝ) (out : List (Option ℝ)), adjustedLoop solve m spot last quotes = .ok out →
      out.length = quotes.length := by
  intro quotes
  induction quotes with
  | nil => intro last out h; simp only [adjustedLoop, Except.ok.injEq] at h; subst h; rfl
  | cons a as ih =>
    intro last out h
    by_cases h1 : a.delta = 0.5
    · rw [loop_cons_atm h1] at h
      cases hr : adjustedLoop solve m spot last as with
      | error e => rw [hr] at h; cases h
      | ok rest => rw [hr] at h; cases h; simp [ih _ _ hr]
    · by_cases h0 : a.delta = 0
      · rw [adjustedLoop.eq_def] at h
        simp only [if_neg h1, if_pos h0] at h
        cases last with
        | none => cases h
        | some K =>
          simp only [bind, Except.bind] at h
          cases hr : adjustedLoop solve m spot (some K) as with
          | error e => rw [hr] at h; cases h
          | ok rest => rw [hr] at h; cases h; simp [ih _ _ hr]
      · rw [loop_cons_other h1 h0] at h
        cases hs : solve (adjustedDeltaError m spot a) a with
        | error e => rw [hs] at h; cases h
        | ok K =>
          rw [hs] at h
          simp only [Except.bind] at h
          cases hr : adjustedLoop solve m spot (some K) as with
          | error e => rw [hr] at h; cases h
          | ok rest => rw [hr] at h; cases h; simp [ih _ _ hr]

theorem gkStrike_length {solve : (ℝ → ℝ) → DeltaQuote → Except Err ℝ} {m : StrikeMarket} {conv : DeltaConvention} {atm : AtmConvention}
    {quotes : List DeltaQuote} {out : List (Option ℝ)} (h : gkStrikeFromDelta solve m conv atm quotes = .ok out) : out.length = quotes.length := by
  obtain ⟨-, -, ho⟩ := strike_ok h
  have hadj : ∀ spot, adjustedStrikes solve m spot quotes = .ok out → out.length = quotes.length := by
    intro spot hs
    unfold adjustedStrikes at hs
    split at hs
    · exact loop_length _ _ _ hs
    · cases hs; simp
  cases conv with
  | regularSpot => simp only [Except.ok.injEq] at ho; subst ho; simp
  | regularForward => simp only [Except.ok.injEq] at ho; subst ho; simp
  | adjustedSpot => exact hadj _ ho
  | adjustedForward => exact hadj _ ho

theorem quotes_eq {S : FxSurface} {day : SmileDay} {quotes : List DeltaQuote} (h1 : quotes.map (fun q => Npf.fin q.vol) = day.vols)
    (h2 : quotes.map (·.delta) = S.deltas) : (day.vols.zip S.deltas).map (fun p => (⟨volNumber p.1, p.2⟩ : DeltaQuote)) = quotes := by
  rw [← h1, ← h2, List.zip_map', List.map_map]
  conv_rhs => rw [← List.map_id quotes]
  exact List.map_congr_left (fun q _ => rfl)

/-- **C82.**  With either spline the surface returns, at the strike of a quote of an expiry, the volatility of that quote, for calls and for
puts. -/
theorem C82_spline_quotes (S : FxSurface) (sv : FxSolvers) (hsv : SplinesInterpolate sv) (hm : S.method = .univariate ∨ S.method = .cubic)
    (before : List SurfaceQuery) (ds : List Int) (Ks cps : List ℝ) (pts : List SurfacePoint)
    (h : (ask S sv (history S sv before) (.vols ds Ks cps)).2 = .ok (.vols pts)) (k : Nat) (p : SurfacePoint) (hp : pts[k]? = some p)
    (i : Nat) (hK : QuoteStrike S sv p.day i p.K) : some p.vol = p.day.vols[i]? := by
  obtain ⟨h1, h2, h3, h4⟩ := points_spec (history_cacheOk S sv before) (ask_vols h)
  have hk : k < ds.length := by rw [← h3]; exact (List.getElem?_eq_some_iff.1 hp).1
  obtain ⟨day, smile, v, -, -, hfit, hv, hp'⟩ := h4 k _ _ _ (List.getElem?_eq_getElem hk) (List.getElem?_eq_getElem (h1 ▸ hk)) (List.getElem?_eq_getElem (h2 ▸ hk))
  rw [hp] at hp'
  cases hp'
  simp only at hK hv ⊢
  obtain ⟨quotes, strikes, hq1, hq2, hs, hsi⟩ := hK
  have hds : dayStrikes S sv day = .ok strikes := by
    unfold dayStrikes
    rw [quotes_eq hq1 hq2]
    exact hs
  have hlen : i < day.vols.length := by
    have h1 : strikes.length = quotes.length := gkStrike_length hs
    have h2 := (List.getElem?_eq_some_iff.1 hsi).1
    rw [← hq1, List.length_map]
    omega
  have hvi : day.vols[i]? = some (.fin (volNumber day.vols[i])) := by
    rw [List.getElem?_eq_getElem hlen]
    have : ∃ q ∈ quotes, Npf.fin q.vol = day.vols[i] := by
      have hm : day.vols[i] ∈ quotes.map (fun q => Npf.fin q.vol) := by rw [hq1]; exact List.getElem_mem _
      exact List.mem_map.1 hm
    obtain ⟨q, -, hq⟩ := this
    rw [← hq]
    rfl
  have hnum : (day.vols.map volNumber)[i]? = some (volNumber day.vols[i]) := by
    rw [List.getElem?_map, List.getElem?_eq_getElem hlen]
    rfl
  have finish : ∀ f, smile = .spline f → f Ks[k] = some (volNumber day.vols[i]) → some v = day.vols[i]? := by
    intro f hf hfv
    subst hf
    unfold smileVol at hv
    rw [hvi]
    rcases hm with hm | hm <;> simp only [hm, hfv, Except.ok.injEq] at hv <;> rw [hv]
  rcases hm with hm | hm
  · unfold fitDay at hfit
    simp only [hm, hds] at hfit
    split at hfit
    · cases hfit
    · cases hmm : strikes.mapM id with
      | none => rw [hmm] at hfit; cases hfit
      | some xs =>
        rw [hmm] at hfit
        simp only at hfit
        cases hu : sv.univariate (min 3 (max 2 (day.vols.length - 1))) xs (day.vols.map volNumber) with
        | error e => rw [hu] at hfit; cases hfit
        | ok f =>
          rw [hu] at hfit
          cases hfit
          exact finish f rfl (hsv.1 _ _ _ _ hu i _ _ (mapM_id_get hmm hsi) hnum)
  · unfold fitDay at hfit
    simp only [hm, hds] at hfit
    split at hfit
    · cases hfit
    · cases hmm : strikes.mapM id with
      | none => rw [hmm] at hfit; cases hfit
      | some xs =>
        rw [hmm] at hfit
        simp only at hfit
        cases hu : sv.cubic xs (day.vols.map volNumber) with
        | error e => rw [hu] at hfit; cases hfit
        | ok f =>
          rw [hu] at hfit
          cases hfit
          exact finish f rfl (hsv.2 _ _ _ hu i _ _ (mapM_id_get hmm hsi) hnum)

theorem prices_spec {S : FxSurface} {sv : FxSolvers} {st : SmileState} {ds : List Int} {Ks cps : List ℝ} {vals : List (Option GkValue)}
    (h : (priceVanilla S sv st ds Ks cps).2 = .ok vals) :
    ∃ pts, (interpVolSurface S sv st ds Ks cps).2 = .ok pts ∧ vals.length = pts.length ∧
      ∀ (k : Nat) p v, pts[k]? = some p → p.vol = .fin v →
        ∃ val, vals[k]? = some (some val) ∧ garmanKohlhagenPrice [SurfacePoint.contract S p v] = .ok [val] := by
  unfold priceVanilla at h
  cases hi : interpVolSurface S sv st ds Ks cps with
  | mk st' r =>
    rw [hi] at h
    cases r with
    | error e => cases h
    | ok pts =>
      simp only at h
      cases hg : garmanKohlhagenPrice (pts.map (surfaceGkRow S)) with
      | error e => rw [hg] at h; cases h
      | ok values =>
        rw [hg] at h
        simp only [Except.ok.injEq] at h
        subst h
        obtain ⟨hv, hvals⟩ := garmanKohlhagenPrice_ok hg
        refine ⟨pts, rfl, by rw [hvals]; simp, fun k p v hp hvol => ?_⟩
        have hrow : surfaceGkRow S p = SurfacePoint.contract S p v := by
          unfold surfaceGkRow SurfacePoint.contract
          rw [hvol]
          rfl
        have hk : (pts.map (surfaceGkRow S))[k]? = some (SurfacePoint.contract S p v) := by
          rw [List.getElem?_map, hp, Option.map_some, hrow]
        obtain ⟨hval, hvk⟩ := gk_at hg hk
        refine ⟨gkValue (SurfacePoint.contract S p v), ?_, ?_⟩
        · rw [List.getElem?_map, show (pts.zip values)[k]? = some (p, gkValue (SurfacePoint.contract S p v)) by
            rw [List.getElem?_zip_eq_some]; exact ⟨hp, hvk⟩]
          simp only [Option.map_some, hvol]
        · rw [garmanKohlhagenPrice_of (by simpa using hval)]
          rfl

/-- **C82.**  A price is the Garman–Kohlhagen price at the volatility that the surface returns for the same option, at the market forward of its
expiry. -/
theorem C82_prices (S : FxSurface) (sv : FxSolvers) (before : List SurfaceQuery) (ds : List Int) (Ks cps : List ℝ) (vals : List (Option GkValue))
    (h : (ask S sv (history S sv before) (.prices ds Ks cps)).2 = .ok (.prices vals)) :
    ∃ pts, (ask S sv (history S sv before) (.vols ds Ks cps)).2 = .ok (.vols pts) ∧ vals.length = pts.length ∧
      ∀ (k : Nat) p v, pts[k]? = some p → p.vol = .fin v →
        ∃ val, vals[k]? = some (some val) ∧ garmanKohlhagenPrice [SurfacePoint.contract S p v] = .ok [val] := by
  obtain ⟨pts, h1, h2, h3⟩ := prices_spec (ask_prices h)
  refine ⟨pts, ?_, h2, h3⟩
  show ((interpVolSurface S sv (history S sv before) ds Ks cps).2).map SurfaceAnswer.vols = _
  rw [h1]
  rfl

theorem spline_market {S : FxSurface} {sv : FxSolvers} {day : SmileDay} {smile : Smile} (hm : S.method = .univariate ∨ S.method = .cubic)
    (h : fitDay S sv day = .ok smile) : 0 < S.spot ∧ 0 < day.years ∧ 0 < day.fwd := by
  have key : ∀ strikes, dayStrikes S sv day = .ok strikes → 0 < S.spot ∧ 0 < day.years ∧ 0 < day.fwd := by
    intro strikes hs
    obtain ⟨h1, -⟩ := strike_ok hs
    exact ⟨h1.1, h1.2.1, h1.2.2 _ rfl⟩
  cases hs : dayStrikes S sv day with
  | ok strikes => exact key strikes hs
  | error e =>
    unfold fitDay at h
    rcases hm with hm | hm <;> simp only [hm, hs] at h <;> cases h

/-- **C82.**  With either spline, a call and a put with the same expiry and strike get the same volatility, and the difference of their prices is
the foreign discount factor times spot, less the strike in the same proportion to the market forward. -/
theorem C82_parity (S : FxSurface) (sv : FxSolvers) (hm : S.method = .univariate ∨ S.method = .cubic) (before : List SurfaceQuery)
    (ds : List Int) (Ks cps : List ℝ) (pts : List SurfacePoint) (vals : List (Option GkValue))
    (hv : (ask S sv (history S sv before) (.vols ds Ks cps)).2 = .ok (.vols pts))
    (h : (ask S sv (history S sv before) (.prices ds Ks cps)).2 = .ok (.prices vals))
    (k l : Nat) (p q : SurfacePoint) (hk : pts[k]? = some p) (hl : pts[l]? = some q) (he : p.day.expiry = q.day.expiry) (hK : p.K = q.K)
    (hcp : p.cp = 1) (hcq : q.cp = -1) :
    p.vol = q.vol ∧
    ∀ v, p.vol = .fin v → 0 < v → 0 < p.K → ∃ vc vp c pt, vals[k]? = some (some vc) ∧ vals[l]? = some (some vp) ∧ vc.price = some c ∧
      vp.price = some pt ∧ c - pt = S.spot * Real.exp (-p.day.rf * p.day.years) * (1 - p.K / p.day.fwd) := by
  obtain ⟨h1, h2, h3, h4⟩ := points_spec (history_cacheOk S sv before) (ask_vols hv)
  obtain ⟨pts', hv', -, hval⟩ := C82_prices S sv before ds Ks cps vals h
  rw [hv] at hv'
  cases hv'
  have at' : ∀ (k : Nat) p, pts[k]? = some p → ∃ day smile v, dayOf S p.day.expiry = some day ∧ fitDay S sv day = .ok smile ∧
      solveDay S sv p.day.expiry = .ok smile ∧ smileVol S sv smile day p.K p.cp = .ok v ∧ p.vol = v ∧ p.day = day := by
    intro k p hp
    have hkk : k < ds.length := by rw [← h3]; exact (List.getElem?_eq_some_iff.1 hp).1
    obtain ⟨day, smile, v, hd, hs, hf, hvv, hp'⟩ := h4 k _ _ _ (List.getElem?_eq_getElem hkk) (List.getElem?_eq_getElem (h1 ▸ hkk)) (List.getElem?_eq_getElem (h2 ▸ hkk))
    rw [hp] at hp'
    cases hp'
    have hde : day.expiry = ds[k] := by
      unfold dayOf at hd
      simpa using List.find?_some hd
    refine ⟨day, smile, v, ?_, hf, ?_, hvv, rfl, rfl⟩
    · simp only [hde]; exact hd
    · simp only [hde]; exact hs
  obtain ⟨day, smile, v, hd, hf, hs, hvol, hpv, hpd⟩ := at' k p hk
  obtain ⟨day', smile', v', hd', hf', hs', hvol', hqv, hqd⟩ := at' l q hl
  rw [← he, hd] at hd'
  cases hd'
  rw [hf] at hf'
  cases hf'
  have hsame : smileVol S sv smile day p.K p.cp = smileVol S sv smile day q.K q.cp := by
    rw [hK]
    unfold smileVol
    rcases hm with hm | hm <;> rw [hm] <;> cases smile <;> rfl
  rw [hvol, hvol'] at hsame
  have hveq : p.vol = q.vol := by rw [hpv, hqv]; exact Except.ok.inj hsame
  refine ⟨hveq, fun x hx hx0 hK0 => ?_⟩
  obtain ⟨vc, hc1, hc2⟩ := hval k p x hk hx
  obtain ⟨vp, hp1, hp2⟩ := hval l q x hl (hveq ▸ hx)
  obtain ⟨hS, hT, hF⟩ := spline_market hm hf
  rw [← hpd] at hT hF
  have hqp : q.day = p.day := by rw [hpd, hqd]
  have hc0 : SurfacePoint.contract S p x = { SurfacePoint.contract S p x with cp := 1 } := by
    unfold SurfacePoint.contract; rw [hcp]
  have hp0 : SurfacePoint.contract S q x = { SurfacePoint.contract S p x with cp := -1 } := by
    unfold SurfacePoint.contract; rw [hcq, hqp, hK]
  have hvalid : ∀ y ∈ [SurfacePoint.contract S p x, SurfacePoint.contract S q x], gkValid y := by
    intro y hy
    rcases List.mem_cons.1 hy with rfl | hy
    · exact (garmanKohlhagenPrice_ok hc2).1 _ (by simp)
    · rw [List.mem_singleton.1 hy]
      exact (garmanKohlhagenPrice_ok hp2).1 _ (by simp)
  have hboth := garmanKohlhagenPrice_of hvalid
  obtain ⟨-, hc3⟩ := garmanKohlhagenPrice_ok hc2
  obtain ⟨-, hp3⟩ := garmanKohlhagenPrice_ok hp2
  simp only [List.map_cons, List.map_nil, List.cons.injEq, and_true] at hc3 hp3 hboth
  have hadm : FxAdmissible (SurfacePoint.contract S p x) := hvalid _ (by simp)
  obtain ⟨r, hr, -⟩ := domesticRate_exists _ hadm hT
  obtain ⟨wc, wp, c, pt, e1, e2, e3, e4, e5⟩ := C47_parity _ _ hboth 0 1 (SurfacePoint.contract S p x)
    (by rw [List.getElem?_cons_zero]; exact congrArg some hc0)
    (by rw [List.getElem?_cons_succ, List.getElem?_cons_zero]; exact congrArg some hp0) hK0 hx0 r (Or.inr hr)
  simp only [List.getElem?_cons_zero, List.getElem?_cons_succ, Option.some.injEq] at e1 e2
  refine ⟨vc, vp, c, pt, hc1, hp1, by rw [hc3, e1]; exact e3, by rw [hp3, e2]; exact e4, ?_⟩
  rw [e5]
  have hrF : S.spot * Real.exp ((r - p.day.rf) * p.day.years) = p.day.fwd := hr
  show S.spot * Real.exp (-p.day.rf * p.day.years) - p.K * Real.exp (-r * p.day.years) = _
  have hsplit : Real.exp (-p.day.rf * p.day.years) = Real.exp (-r * p.day.years) * Real.exp ((r - p.day.rf) * p.day.years) := by
    rw [← Real.exp_add]; congr 1; ring
  have hFne := hF.ne'
  have : S.spot * Real.exp (-p.day.rf * p.day.years) = Real.exp (-r * p.day.years) * p.day.fwd := by rw [hsplit, ← hrF]; ring
  rw [this]
  field_simp

/-- After a successful query the smiles it used are stored. -/
theorem stored_after {S : FxSurface} {sv : FxSolvers} {st : SmileState} (hc : CacheOk S sv st) {ds : List Int} {Ks cps : List ℝ}
    {pts : List SurfacePoint} (h : (interpVolSurface S sv st ds Ks cps).2 = .ok pts) {d : Int} (hd : d ∈ ds) {smile : Smile}
    (hs : solveDay S sv d = .ok smile) : (interpVolSurface S sv st ds Ks cps).1.get d = some smile := by
  unfold interpVolSurface at h ⊢
  by_cases hl : ds.length ≠ Ks.length ∨ ds.length ≠ cps.length
  · rw [if_pos hl] at h; cases h
  · rw [if_neg hl] at h ⊢
    have hsp := solveSmiles_spec hc ds
    cases he : solveSmiles S sv st ds with
    | mk st' r =>
      rw [he] at h hsp
      cases r with
      | error e => cases h
      | ok u =>
        simp only at h ⊢
        obtain ⟨f, hf⟩ := hsp.all rfl d hd
        have := hsp.cacheOk d f hf
        rw [hs] at this
        cases this
        exact hf

theorem priceVanilla_state (S : FxSurface) (sv : FxSolvers) (st : SmileState) (ds : List Int) (Ks cps : List ℝ) :
    (priceVanilla S sv st ds Ks cps).1 = (interpVolSurface S sv st ds Ks cps).1 := by
  unfold priceVanilla
  cases hi : interpVolSurface S sv st ds Ks cps with
  | mk st' r =>
    cases r with
    | error e => rfl
    | ok pts =>
      simp only
      cases garmanKohlhagenPrice (pts.map (surfaceGkRow S)) <;> rfl

theorem heston_smile {S : FxSurface} {sv : FxSolvers} {day : SmileDay} {m : HestonPricing} (hm : S.method = .heston m) {smile : Smile}
    (h : fitDay S sv day = .ok smile) : ∃ fit s, smile = .heston fit ∧ fit.sse = some s ∧ s < 0.001 ∧
      hestonCalibrate sv m (dayMarket S.spot day) day.conv S.flags S.deltas (day.vols.map volNumber) = .ok fit := by
  unfold fitDay at h
  simp only [hm] at h
  cases hc : hestonCalibrate sv m (dayMarket S.spot day) day.conv S.flags S.deltas (day.vols.map volNumber) with
  | error e => rw [hc] at h; cases h
  | ok fit =>
    rw [hc] at h
    simp only at h
    cases hs : fit.sse with
    | none => rw [hs] at h; cases h
    | some s =>
      rw [hs] at h
      simp only at h
      split at h
      · rename_i hlt
        cases h
        exact ⟨fit, s, rfl, hs, hlt, rfl⟩
      · cases h

/-- **C82.**  With a Heston method the price of an option, wherever a volatility was found, is the price the Heston model stored for its
expiry gives it by that method, at the foreign rate and the domestic rate implied by the market forward. -/
theorem C82_heston_price (S : FxSurface) (sv : FxSolvers) (hsv : VolSolversOk sv) (m : HestonPricing) (hm : S.method = .heston m)
    (before : List SurfaceQuery) (ds : List Int) (Ks cps : List ℝ) (pts : List SurfacePoint) (vals : List (Option GkValue))
    (hv : (ask S sv (history S sv before) (.vols ds Ks cps)).2 = .ok (.vols pts))
    (h : (ask S sv (history S sv before) (.prices ds Ks cps)).2 = .ok (.prices vals))
    (k : Nat) (p : SurfacePoint) (v : ℝ) (hk : pts[k]? = some p) (hp : p.vol = .fin v) :
    ∃ fit val X, (ask S sv (history S sv before) (.prices ds Ks cps)).1.get p.day.expiry = some (.heston fit) ∧
      HestonPriced S m fit.model p X ∧ vals[k]? = some (some val) ∧ val.price = some X := by
  have hc := history_cacheOk S sv before
  obtain ⟨h1, h2, h3, h4⟩ := points_spec hc (ask_vols hv)
  obtain ⟨pts', hv', -, hval⟩ := C82_prices S sv before ds Ks cps vals h
  rw [hv] at hv'
  cases hv'
  obtain ⟨val, hval1, hval2⟩ := hval k p v hk hp
  have hkk : k < ds.length := by rw [← h3]; exact (List.getElem?_eq_some_iff.1 hk).1
  obtain ⟨day, smile, w, hd, hs, hf, hvv, hp'⟩ := h4 k _ _ _ (List.getElem?_eq_getElem hkk) (List.getElem?_eq_getElem (h1 ▸ hkk)) (List.getElem?_eq_getElem (h2 ▸ hkk))
  rw [hk] at hp'
  cases hp'
  have hde : day.expiry = ds[k] := by
    unfold dayOf at hd
    simpa using List.find?_some hd
  obtain ⟨fit, s, rfl, -, -, -⟩ := heston_smile hm hf
  simp only at hp
  subst hp
  obtain ⟨hvalid, hgk⟩ := garmanKohlhagenPrice_ok hval2
  have hadm := hvalid _ (List.mem_singleton.2 rfl)
  simp only [List.map_cons, List.map_nil, List.cons.injEq, and_true] at hgk
  unfold smileVol at hvv
  simp only [hm] at hvv
  cases hX : hestonPrice m fit.model 0 S.spot day.years (basisRate S.spot day) day.rf cps[k] Ks[k] with
  | error e =>
    have : hestonPrice m fit.model 0 (dayMarket S.spot day).S0 (dayMarket S.spot day).tau (dayMarket S.spot day).r (dayMarket S.spot day).q cps[k] Ks[k] = _ := hX
    rw [this] at hvv
    cases hvv
  | ok price =>
    have : hestonPrice m fit.model 0 (dayMarket S.spot day).S0 (dayMarket S.spot day).tau (dayMarket S.spot day).r (dayMarket S.spot day).q cps[k] Ks[k] = _ := hX
    rw [this] at hvv
    simp only at hvv
    cases price with
    | none => simp only [smileImplied] at hvv; cases hvv
    | some X =>
      simp only [smileImplied] at hvv
      cases hg : gkSolveImpliedVol (sv.newton (Real.sqrt fit.model.var0)) sv.brentq
          ⟨(dayMarket S.spot day).S0, (dayMarket S.spot day).tau, (dayMarket S.spot day).r, (dayMarket S.spot day).q, cps[k], Ks[k], 0, none⟩ X with
      | error e => rw [hg] at hvv; cases hvv
      | ok iv =>
        rw [hg] at hvv
        cases iv with
        | inf => cases hvv
        | vol u =>
          simp only [Except.ok.injEq, Npf.fin.injEq] at hvv
          subst hvv
          obtain ⟨hpr, -⟩ := C50_solver _ _ (hsv.1 _) hsv.2 _ _ _ hg
          obtain ⟨val', hv1, hv2⟩ := hpr
          obtain ⟨-, hv3⟩ := garmanKohlhagenPrice_ok hv1
          simp only [List.map_cons, List.map_nil, List.cons.injEq, and_true] at hv3
          have hstate : (ask S sv (history S sv before) (.prices ds Ks cps)).1.get day.expiry = some (.heston fit) := by
            show (priceVanilla S sv (history S sv before) ds Ks cps).1.get day.expiry = _
            rw [priceVanilla_state, hde]
            exact stored_after hc (ask_vols hv) (List.getElem_mem _) hs
          have hT : day.years ≠ 0 := by
            intro h0
            obtain ⟨fit', s', -, -, -, hcal⟩ := heston_smile hm hf
            unfold hestonCalibrate at hcal
            split at hcal
            · cases hcal
            · rename_i hn
              rw [not_not] at hn
              exact hn.2.1.ne' h0
          refine ⟨fit, val, X, hstate, ⟨basisRate S.spot day, ?_, hX⟩, hval1, ?_⟩
          · have hS : 0 < S.spot := hadm.1
            have hF : 0 < day.fwd := hadm.2.2.2 _ rfl
            show S.spot * Real.exp ((Real.log (day.fwd / S.spot) / day.years + day.rf - day.rf) * day.years) = day.fwd
            rw [add_sub_cancel_right, div_mul_cancel₀ _ hT, Real.exp_log (div_pos hF hS), mul_div_cancel₀ _ hS.ne']
          · rw [hgk]
            rw [hv3] at hv2
            have hd1 : gkD1 (SurfacePoint.contract S ⟨day, Ks[k], cps[k], .fin u⟩ u) =
                gkD1 ⟨S.spot, day.years, basisRate S.spot day, day.rf, cps[k], Ks[k], u, none⟩ := by
              unfold gkD1
              rw [if_neg (fun h => hT h.1), if_neg (fun h => hT h.1), if_neg (fun h => hT h.1), if_neg (fun h => hT h.1)]
              rfl
            have hd2 : gkD2 (SurfacePoint.contract S ⟨day, Ks[k], cps[k], .fin u⟩ u) =
                gkD2 ⟨S.spot, day.years, basisRate S.spot day, day.rf, cps[k], Ks[k], u, none⟩ := by
              unfold gkD2
              rw [hd1]
              rfl
            have : gkPrice (SurfacePoint.contract S ⟨day, Ks[k], cps[k], .fin u⟩ u) =
                gkPrice ⟨S.spot, day.years, basisRate S.spot day, day.rf, cps[k], Ks[k], u, none⟩ := by
              unfold gkPrice
              rw [hd1, hd2]
              rfl
            exact this.trans hv2

/-! ### A surface that answers -/

/-- The hypotheses of the theorems are met by the surface of `C65` with splines that return `f`. -/
example (f : ℝ → Option ℝ) : ∃ pts vals,
    (ask sampleSurface (sampleSolvers f) (history sampleSurface (sampleSolvers f) [.smiles [738000]]) (.vols [738000, 738000] [1.2, 1.2] [1, -1])).2 =
      .ok (.vols pts) ∧
    (ask sampleSurface (sampleSolvers f) (history sampleSurface (sampleSolvers f) [.smiles [738000]]) (.prices [738000, 738000] [1.2, 1.2] [1, -1])).2 =
      .ok (.prices vals) := by
  have hc := history_cacheOk sampleSurface (sampleSolvers f) [.smiles [738000]]
  have hi := interp_fresh hc [738000, 738000] [1.2, 1.2] [1, -1]
  have hd : dayOf sampleSurface 738000 = some sampleDay := by simp [dayOf, sampleSurface, sampleDay]
  have hfp : ∀ K cp, ∃ v, freshPoint sampleSurface (sampleSolvers f) 738000 K cp = .ok ⟨sampleDay, K, cp, v⟩ := by
    intro K cp
    unfold freshPoint
    rw [hd, sample_solveDay]
    cases hf : f K with
    | none => exact ⟨.nan, by simp [smileVol, sampleSurface, hf]⟩
    | some v => exact ⟨.fin v, by simp [smileVol, sampleSurface, hf]⟩
  obtain ⟨v1, h1⟩ := hfp 1.2 1
  obtain ⟨v2, h2⟩ := hfp 1.2 (-1)
  rw [if_neg (by simp)] at hi
  simp only [firstErr, sample_solveDay, List.zip_cons_cons, List.zip_nil_right, List.mapM_cons, List.mapM_nil, h1, h2] at hi
  have hi' : (interpVolSurface sampleSurface (sampleSolvers f) (history sampleSurface (sampleSolvers f) [.smiles [738000]]) [738000, 738000] [1.2, 1.2]
      [1, -1]).2 = .ok [⟨sampleDay, 1.2, 1, v1⟩, ⟨sampleDay, 1.2, -1, v2⟩] := hi
  cases e : interpVolSurface sampleSurface (sampleSolvers f) (history sampleSurface (sampleSolvers f) [.smiles [738000]]) [738000, 738000] [1.2, 1.2] [1, -1] with
  | mk st r =>
    rw [e] at hi'
    simp only at hi'
    subst hi'
    have hvalid : ∀ x ∈ [(⟨sampleDay, 1.2, 1, v1⟩ : SurfacePoint), ⟨sampleDay, 1.2, -1, v2⟩].map (surfaceGkRow sampleSurface), gkValid x := by
      intro x hx
      simp only [List.map_cons, List.map_nil, List.mem_cons, List.not_mem_nil, or_false] at hx
      rcases hx with rfl | rfl <;> refine ⟨by norm_num [surfaceGkRow, sampleSurface], by norm_num [surfaceGkRow, sampleDay], ?_, ?_⟩
      · exact Or.inl rfl
      · rintro F hF; cases hF; norm_num [sampleDay]
      · exact Or.inr rfl
      · rintro F hF; cases hF; norm_num [sampleDay]
    have hv : ∃ vals, (priceVanilla sampleSurface (sampleSolvers f) (history sampleSurface (sampleSolvers f) [.smiles [738000]]) [738000, 738000]
        [1.2, 1.2] [1, -1]).2 = .ok vals := by
      unfold priceVanilla
      rw [e]
      simp only [garmanKohlhagenPrice_of hvalid]
      exact ⟨_, rfl⟩
    obtain ⟨vals, hvals⟩ := hv
    refine ⟨_, vals, by simp only [ask, e]; rfl, ?_⟩
    simp only [ask, hvals]
    rfl

end Frm.Props
