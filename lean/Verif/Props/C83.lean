import Verif.Props.C82

/-!
# C83: the Heston model calibrated to a smile, and what the surface returns at the quotes

`C83Inputs` shows a surface and a query that meet all the hypotheses.
-/

namespace Frm
namespace Spec
open Classical

set_option autoImplicit false

/-- `iv` is the implied volatility of a Heston price as the calibration records it: -1 for a negative price, otherwise a volatility that
reprices it, or infinite. -/
def RecordedVol (x : SmileMarket) (cp K : ℝ) (price : Option ℝ) (iv : ImpliedVol) : Prop :=
  (∃ X, price = some X ∧ X < 0 ∧ iv = .vol (-1)) ∨
  (∃ X v, price = some X ∧ 0 ≤ X ∧ iv = .vol v ∧ PricedAt ⟨x.S0, x.tau, x.r, x.q, cp, K, 0, none⟩ v X) ∨
  iv = .inf

/-- The strikes of the quotes, computed without a market forward, at the rates of the calibration. -/
def SmileStrikes (sv : FxSolvers) (x : SmileMarket) (conv : DeltaConvention) (deltas quotes Ks : List ℝ) : Prop :=
  gkStrikeFromDelta sv.strike ⟨x.S0, x.tau, x.r, x.q, none⟩ conv .forward ((quotes.zip deltas).map (fun p => ⟨p.1, p.2⟩)) = .ok (Ks.map some)

/-- `s` is the sum of the squared differences between quotes and volatilities, all of them finite. -/
inductive SumOfSquares : List ℝ → List ImpliedVol → ℝ → Prop
  | nil : SumOfSquares [] [] 0
  | cons {q v s : ℝ} {qs : List ℝ} {ivs : List ImpliedVol} : SumOfSquares qs ivs s → SumOfSquares (q :: qs) (.vol v :: ivs) ((q - v) ^ 2 + s)

end Spec
end Frm

namespace Frm.Props
open Classical

set_option autoImplicit false

open Frm Frm.Spec

theorem mapM_id_some' {ps : List (Option ℝ)} {qs : List ℝ} (h : ps.mapM id = some qs) : ps = qs.map some := by
  induction ps generalizing qs with
  | nil => simp at h; subst h; rfl
  | cons a l ih =>
    simp only [List.mapM_cons, id, Option.bind_eq_bind] at h
    cases a with
    | none => simp at h
    | some x =>
      simp only [Option.bind_some] at h
      cases hm : l.mapM id with
      | none => rw [hm] at h; simp at h
      | some ys =>
        rw [hm] at h
        simp only [Option.bind_some, pure, Option.some.injEq] at h
        subst h
        rw [ih hm]
        rfl

theorem smilePrices_get {m : HestonPricing} {h : Heston} {x : SmileMarket} {cps Ks : List ℝ} {prices : List (Option ℝ)}
    (hp : smilePrices m h x cps Ks = .ok prices) :
    (Ks.length ≤ cps.length ∧ (m = .cosine → cps.length = Ks.length)) ∧
    prices.length = Ks.length ∧ ∀ (i : Nat) cp K, cps[i]? = some cp → Ks[i]? = some K →
      ∃ price, prices[i]? = some price ∧ hestonPrice m h 0 x.S0 x.tau x.r x.q cp K = .ok price := by
  have hgen : (match (cps.zip Ks).mapM (fun o => hestonPrice m h 0 x.S0 x.tau x.r x.q o.1 o.2) with
      | .error e => .error e
      | .ok prices => if cps.length < Ks.length then .error .index else .ok prices) = (.ok prices : Except Err (List (Option ℝ))) → m ≠ .cosine →
      (Ks.length ≤ cps.length ∧ (m = .cosine → cps.length = Ks.length)) ∧
      prices.length = Ks.length ∧ ∀ (i : Nat) cp K, cps[i]? = some cp → Ks[i]? = some K →
        ∃ price, prices[i]? = some price ∧ hestonPrice m h 0 x.S0 x.tau x.r x.q cp K = .ok price := by
    intro hmm hmc
    cases hmm' : (cps.zip Ks).mapM (fun o => hestonPrice m h 0 x.S0 x.tau x.r x.q o.1 o.2) with
    | error e => rw [hmm'] at hmm; cases hmm
    | ok ps =>
      rw [hmm'] at hmm
      simp only at hmm
      split at hmm
      · cases hmm
      · rename_i hlt
        cases hmm
        obtain ⟨hlen, hget⟩ := mapM_get hmm'
        refine ⟨⟨not_lt.1 hlt, fun hc => absurd hc hmc⟩, by rw [hlen, List.length_zip]; omega, fun i cp K hc hK => ?_⟩
        obtain ⟨b, hb, hf⟩ := hget i (cp, K) (by rw [List.getElem?_zip_eq_some]; exact ⟨hc, hK⟩)
        exact ⟨b, hb, hf⟩
  cases m with
  | cosine =>
    simp only [smilePrices, cosPrice] at hp
    by_cases hl : cps.length = Ks.length
    · rw [if_neg (not_not.2 hl)] at hp
      cases hr : cosRange (.heston h (x.r - x.q) x.tau) 10 with
      | error e => rw [hr] at hp; cases hp
      | ok ab =>
        rw [hr] at hp
        simp only [if_true, Except.ok.injEq] at hp
        subst hp
        refine ⟨⟨hl.ge, fun _ => hl⟩, by simp [hl], fun i cp K hc hK => ?_⟩
        rw [List.getElem?_map, show (cps.zip Ks)[i]? = some (cp, K) by rw [List.getElem?_zip_eq_some]; exact ⟨hc, hK⟩]
        refine ⟨_, rfl, ?_⟩
        simp only [hestonPrice, cosPrice, List.length_cons, List.length_nil, ne_eq, not_true_eq_false, if_false, hr, if_true]
        rfl
    · rw [if_pos hl] at hp
      cases hp
  | heston1993 => exact hgen hp (by simp)
  | carrMadanQuadrature => exact hgen hp (by simp)
  | carrMadanFft => exact hgen hp (by simp)
  | lipton => exact hgen hp (by simp)
  | unknown => exact hgen hp (by simp)

theorem smileIv_recorded {sv : FxSolvers} (hsv : VolSolversOk sv) {x : SmileMarket} {guess cp K : ℝ} {price : Option ℝ} {iv : ImpliedVol}
    (h : smileIv sv x guess cp K price = .ok iv) : RecordedVol x cp K price iv := by
  cases price with
  | none =>
    simp only [smileIv, smileImplied, Except.ok.injEq] at h
    exact Or.inr (Or.inr h.symm)
  | some X =>
    simp only [smileIv] at h
    by_cases hX : X < 0
    · rw [if_pos hX, Except.ok.injEq] at h
      exact Or.inl ⟨X, rfl, hX, h.symm⟩
    · rw [if_neg hX] at h
      cases iv with
      | inf => exact Or.inr (Or.inr rfl)
      | vol v => exact Or.inr (Or.inl ⟨X, v, rfl, not_lt.1 hX, rfl, (C50_solver _ _ (hsv.1 _) hsv.2 _ _ _ h).1⟩)

theorem smileSse_sum {quotes : List ℝ} {ivs : List ImpliedVol} (hl : quotes.length = ivs.length) {s : ℝ} :
    smileSse quotes ivs = some s ↔ SumOfSquares quotes ivs s := by
  induction quotes generalizing ivs s with
  | nil =>
    cases ivs with
    | cons v vs => cases hl
    | nil =>
      simp only [smileSse, Option.some.injEq]
      constructor
      · rintro rfl; exact .nil
      · intro h; cases h; rfl
  | cons q qs ih =>
    cases ivs with
    | nil => cases hl
    | cons v vs =>
      have hl' : qs.length = vs.length := by simpa using hl
      cases v with
      | inf =>
        simp only [smileSse, squaredError, Option.bind_none, reduceCtorEq, false_iff]
        intro h; cases h
      | vol v =>
        simp only [smileSse, squaredError, Option.bind_some, Option.map_eq_some_iff]
        constructor
        · rintro ⟨t, ht, rfl⟩
          exact .cons ((ih hl').1 ht)
        · intro h
          cases h with
          | cons hh => exact ⟨_, (ih hl').2 hh, rfl⟩

theorem sum_nonneg {quotes : List ℝ} {ivs : List ImpliedVol} {s : ℝ} (h : SumOfSquares quotes ivs s) : 0 ≤ s := by
  induction h with
  | nil => exact le_rfl
  | cons _ ih => exact add_nonneg (sq_nonneg _) ih

theorem sum_bound {quotes : List ℝ} {ivs : List ImpliedVol} {s : ℝ} (h : SumOfSquares quotes ivs s) :
    ∀ (i : Nat) q, quotes[i]? = some q → ∃ v, ivs[i]? = some (.vol v) ∧ (q - v) ^ 2 ≤ s := by
  induction h with
  | nil => intro i q hq; simp at hq
  | @cons q v s qs ivs hs ih =>
    intro i q' hq
    cases i with
    | zero =>
      simp only [List.getElem?_cons_zero, Option.some.injEq] at hq
      subst hq
      exact ⟨v, rfl, by linarith [sum_nonneg hs]⟩
    | succ i =>
      obtain ⟨w, hw, hle⟩ := ih i q' (by simpa using hq)
      exact ⟨w, by simpa using hw, by linarith [sq_nonneg (q - v)]⟩

/-- **C83.**  Whatever the optimiser does, a calibration that returns has valid parameters, the initial variance of the middle quote and a
mean reversion of 1.5; the volatilities it reports are those of the prices the calibrated model gives to the strikes of the quotes; and the
error it reports is the sum of squared differences, finite exactly when no volatility is infinite.  There were as many deltas as quotes and
no fewer flags; with the cosine method as many flags. -/
theorem C83_calibration (sv : FxSolvers) (hsv : VolSolversOk sv) (m : HestonPricing) (x : SmileMarket) (conv : DeltaConvention)
    (cps deltas quotes : List ℝ) (fit : HestonFit) (h : hestonCalibrate sv m x conv cps deltas quotes = .ok fit) :
    (deltas.length = quotes.length ∧ quotes.length ≤ cps.length ∧ (m = .cosine → cps.length = quotes.length)) ∧
    (∃ mid, quotes[quotes.length / 2]? = some mid ∧ fit.model.var0 = mid ^ 2) ∧ fit.model.kappa = 1.5 ∧ 0 ≤ fit.model.vv ∧ 0 ≤ fit.model.theta ∧
    |fit.model.rho| ≤ 1 ∧
    (∃ Ks, Ks.length = quotes.length ∧ SmileStrikes sv x conv deltas quotes Ks ∧
      ∀ (i : Nat) cp K, cps[i]? = some cp → Ks[i]? = some K → ∃ price iv, hestonPrice m fit.model 0 x.S0 x.tau x.r x.q cp K = .ok price ∧
        fit.ivs[i]? = some iv ∧ RecordedVol x cp K price iv) ∧
    fit.ivs.length = quotes.length ∧ ∀ s, fit.sse = some s ↔ SumOfSquares quotes fit.ivs s := by
  unfold hestonCalibrate at h
  split at h
  · cases h
  · have hmu : m ≠ .unknown := by
      rintro rfl
      cases h
    have h' : (if deltas.length ≠ quotes.length then .error .assertion else match gkStrikeFromDelta sv.strike ⟨x.S0, x.tau, x.r, x.q, none⟩ conv .forward ((quotes.zip deltas).map (fun p => ⟨p.1, p.2⟩)) with
      | .error e => .error e
      | .ok strikes =>
        match strikes.mapM id with
        | none => .error .value
        | some Ks =>
          match quotes[Ks.length / 2]? with
          | none => .error .index
          | some mid =>
            match sv.minimize (fun p => if validParam p then (smileFit sv m x cps Ks quotes (fitModel (mid ^ 2) p)).map (·.2) else .ok none)
                (2 * Real.sqrt (mid ^ 2), 2 * mid ^ 2, 0) with
            | .error e => .error e
            | .ok p =>
              if ¬ validParam p then .error .type
              else
                match smileFit sv m x cps Ks quotes (fitModel (mid ^ 2) p) with
                | .error e => .error e
                | .ok out => .ok ⟨fitModel (mid ^ 2) p, out.1, out.2⟩ : Except Err HestonFit) = .ok fit := by
      cases m <;> first | exact h | exact absurd rfl hmu
    clear h
    by_cases hdl : deltas.length = quotes.length
    swap
    · rw [if_pos hdl] at h'
      cases h'
    rw [if_neg (not_not.2 hdl)] at h'
    cases hst : gkStrikeFromDelta sv.strike ⟨x.S0, x.tau, x.r, x.q, none⟩ conv .forward ((quotes.zip deltas).map (fun p => ⟨p.1, p.2⟩)) with
    | error e => rw [hst] at h'; cases h'
    | ok strikes =>
      rw [hst] at h'
      simp only at h'
      cases hmm : strikes.mapM id with
      | none => rw [hmm] at h'; cases h'
      | some Ks =>
        rw [hmm] at h'
        simp only at h'
        have hKs := mapM_id_some' hmm
        have hlen : Ks.length = quotes.length := by
          have h1 := gkStrike_length hst
          rw [hKs] at h1
          simp only [List.length_map, List.length_zip] at h1
          omega
        cases hmid : quotes[Ks.length / 2]? with
        | none => rw [hmid] at h'; cases h'
        | some mid =>
          rw [hmid] at h'
          simp only at h'
          cases hmin : sv.minimize (fun p => if validParam p then (smileFit sv m x cps Ks quotes (fitModel (mid ^ 2) p)).map (·.2) else .ok none)
                (2 * Real.sqrt (mid ^ 2), 2 * mid ^ 2, 0) with
          | error e => rw [hmin] at h'; cases h'
          | ok p =>
            rw [hmin] at h'
            simp only at h'
            by_cases hv : validParam p
            · rw [if_neg (not_not.2 hv)] at h'
              cases hf : smileFit sv m x cps Ks quotes (fitModel (mid ^ 2) p) with
              | error e => rw [hf] at h'; cases h'
              | ok out =>
                rw [hf] at h'
                cases h'
                unfold smileFit at hf
                cases hp : smilePrices m (fitModel (mid ^ 2) p) x cps Ks with
                | error e => rw [hp] at hf; cases hf
                | ok prices =>
                  rw [hp] at hf
                  simp only at hf
                  cases hi : ((quotes.zip (cps.zip Ks)).zip prices).mapM (fun o => smileIv sv x o.1.1 o.1.2.1 o.1.2.2 o.2) with
                  | error e => rw [hi] at hf; cases hf
                  | ok ivs =>
                    rw [hi] at hf
                    simp only [Except.ok.injEq] at hf
                    subst hf
                    obtain ⟨⟨hcl, hcc⟩, hpl, hpg⟩ := smilePrices_get hp
                    obtain ⟨hil, hig⟩ := mapM_get hi
                    have hil' : ivs.length = quotes.length := by
                      rw [hil]
                      simp only [List.length_zip]
                      omega
                    refine ⟨⟨hdl, hlen ▸ hcl, fun hc => (hcc hc).trans hlen⟩, ⟨mid, by rw [← hlen]; exact hmid, rfl⟩, rfl, hv.1, hv.2.1, hv.2.2, ⟨Ks, hlen, ?_, ?_⟩, hil', fun s => smileSse_sum hil'.symm⟩
                    · show _ = _
                      rw [← hKs]
                      exact hst
                    · intro i cp K hc hK
                      obtain ⟨price, hpr1, hpr2⟩ := hpg i cp K hc hK
                      have hq : i < quotes.length := by rw [← hlen]; exact (List.getElem?_eq_some_iff.1 hK).1
                      obtain ⟨iv, hiv1, hiv2⟩ := hig i ((quotes[i], cp, K), price) (by
                        rw [List.getElem?_zip_eq_some]
                        refine ⟨?_, hpr1⟩
                        rw [List.getElem?_zip_eq_some]
                        refine ⟨List.getElem?_eq_getElem hq, ?_⟩
                        rw [List.getElem?_zip_eq_some]
                        exact ⟨hc, hK⟩)
                      exact ⟨price, iv, hpr2, hiv1, smileIv_recorded hsv hiv2⟩
            · rw [if_pos hv] at h'
              cases h'

/-- The strikes depend on the market only through spot, time, foreign rate and forward. -/
theorem gkStrike_market {solve : (ℝ → ℝ) → DeltaQuote → Except Err ℝ} {S0 tau rd rd' rf F : ℝ} (hF : 0 < F)
    (hr : S0 * Real.exp ((rd' - rf) * tau) = F) (conv : DeltaConvention) (atm : AtmConvention) (quotes : List DeltaQuote) :
    gkStrikeFromDelta solve ⟨S0, tau, rd, rf, some F⟩ conv atm quotes = gkStrikeFromDelta solve ⟨S0, tau, rd', rf, none⟩ conv atm quotes := by
  have hfw : StrikeMarket.forward ⟨S0, tau, rd, rf, some F⟩ = StrikeMarket.forward ⟨S0, tau, rd', rf, none⟩ := hr.symm
  have hreg : ∀ spot, regularStrike ⟨S0, tau, rd, rf, some F⟩ spot atm = regularStrike ⟨S0, tau, rd', rf, none⟩ spot atm := by
    intro spot
    funext q
    unfold regularStrike
    rw [hfw]
  have herr : ∀ spot, adjustedDeltaError ⟨S0, tau, rd, rf, some F⟩ spot = adjustedDeltaError ⟨S0, tau, rd', rf, none⟩ spot := by
    intro spot
    funext q K
    unfold adjustedDeltaError
    rw [hfw]
  have hloop : ∀ spot (qs : List DeltaQuote) last, adjustedLoop solve ⟨S0, tau, rd, rf, some F⟩ spot last qs =
      adjustedLoop solve ⟨S0, tau, rd', rf, none⟩ spot last qs := by
    intro spot qs
    induction qs with
    | nil => intro last; rfl
    | cons q qs ih =>
      intro last
      simp only [adjustedLoop, hfw, herr, ih]
  have hadj : ∀ spot, adjustedStrikes solve ⟨S0, tau, rd, rf, some F⟩ spot quotes = adjustedStrikes solve ⟨S0, tau, rd', rf, none⟩ spot quotes := by
    intro spot
    unfold adjustedStrikes
    rw [hloop, hfw]
  have hguard : (0 < S0 ∧ 0 < tau ∧ ∀ G, some F = some G → 0 < G) ↔ (0 < S0 ∧ 0 < tau ∧ ∀ G, (none : Option ℝ) = some G → 0 < G) := by
    constructor
    · rintro ⟨h1, h2, -⟩; exact ⟨h1, h2, fun G hG => (by cases hG)⟩
    · rintro ⟨h1, h2, -⟩; exact ⟨h1, h2, fun G hG => (by cases hG; exact hF)⟩
  unfold gkStrikeFromDelta
  simp only [hguard, hreg, hadj]

theorem basisRate_spec {spot : ℝ} {day : SmileDay} (hS : 0 < spot) (hF : 0 < day.fwd) (hT : day.years ≠ 0) :
    spot * Real.exp ((basisRate spot day - day.rf) * day.years) = day.fwd := by
  show spot * Real.exp ((Real.log (day.fwd / spot) / day.years + day.rf - day.rf) * day.years) = day.fwd
  rw [add_sub_cancel_right, div_mul_cancel₀ _ hT, Real.exp_log (div_pos hF hS), mul_div_cancel₀ _ hS.ne']

theorem calibrate_valid {sv : FxSolvers} {m : HestonPricing} {x : SmileMarket} {conv : DeltaConvention} {cps deltas quotes : List ℝ} {fit : HestonFit}
    (h : hestonCalibrate sv m x conv cps deltas quotes = .ok fit) : 0 < x.S0 ∧ 0 < x.tau ∧ ∀ cp ∈ cps, cp = -1 ∨ cp = 1 := by
  unfold hestonCalibrate at h
  split at h
  · cases h
  · rename_i hn
    exact not_not.1 hn

theorem map_some_get {Ks : List ℝ} {i : Nat} {K : ℝ} (h : (Ks.map some)[i]? = some (some K)) : Ks[i]? = some K := by
  rw [List.getElem?_map] at h
  cases hk : Ks[i]? with
  | none => rw [hk] at h; cases h
  | some K' => rw [hk] at h; simpa using h

/-- **C83.**  With a Heston method the surface returns, at the strike of a quote and for the type of option quoted, a volatility whose square
distance from the quote is less than 0.001, if the quote itself is at least the root of 0.001 (3.17%). -/
theorem C83_quotes (S : FxSurface) (sv : FxSolvers) (hsv : VolSolversOk sv) (m : HestonPricing) (hm : S.method = .heston m)
    (before : List SurfaceQuery) (ds : List Int) (Ks cps : List ℝ) (pts : List SurfacePoint)
    (h : (ask S sv (history S sv before) (.vols ds Ks cps)).2 = .ok (.vols pts)) (k : Nat) (p : SurfacePoint) (hp : pts[k]? = some p)
    (i : Nat) (hK : QuoteStrike S sv p.day i p.K) (hKpos : 0 < p.K) (hcp : S.flags[i]? = some p.cp) (hF : 0 < p.day.fwd) (q v : ℝ)
    (hq : p.day.vols[i]? = some (.fin q)) (hq0 : 0 ≤ q) (hq2 : 0.001 ≤ q ^ 2) (hv : p.vol = .fin v) : (v - q) ^ 2 < 0.001 := by
  obtain ⟨h1, h2, h3, h4⟩ := points_spec (history_cacheOk S sv before) (ask_vols h)
  have hkk : k < ds.length := by rw [← h3]; exact (List.getElem?_eq_some_iff.1 hp).1
  obtain ⟨day, smile, w, -, -, hf, hvv, hp'⟩ := h4 k _ _ _ (List.getElem?_eq_getElem hkk) (List.getElem?_eq_getElem (h1 ▸ hkk)) (List.getElem?_eq_getElem (h2 ▸ hkk))
  rw [hp] at hp'
  cases hp'
  simp only at hK hKpos hcp hF hq hv
  subst hv
  obtain ⟨fit, s, rfl, hs, hlt, hcal⟩ := heston_smile hm hf
  obtain ⟨hS, hT, hflag⟩ := calibrate_valid hcal
  have hS' : 0 < S.spot := hS
  have hT' : 0 < day.years := hT
  obtain ⟨quotes, strikes, hq1, hq2', hst, hsi⟩ := hK
  have hl1 : (day.vols.map volNumber).length = quotes.length := by rw [List.length_map, ← hq1, List.length_map]
  have hl2 : S.deltas.length = quotes.length := by rw [← hq2', List.length_map]
  obtain ⟨-, -, -, -, -, -, ⟨Ks', hKl, hKs, hiv⟩, -, hsse⟩ := C83_calibration sv hsv m _ _ _ _ _ fit hcal
  have hbasis := basisRate_spec hS' hF hT'.ne'
  have hzip : ((day.vols.map volNumber).zip S.deltas).map (fun p => (⟨p.1, p.2⟩ : DeltaQuote)) = quotes := by
    rw [← quotes_eq hq1 hq2', List.zip_map_left, List.map_map]
    rfl
  have hstr : strikes = Ks'.map some := by
    unfold SmileStrikes at hKs
    rw [hzip] at hKs
    have e : gkStrikeFromDelta sv.strike ⟨S.spot, day.years, day.rd, day.rf, some day.fwd⟩ day.conv .forward quotes = .ok (Ks'.map some) := by
      rw [gkStrike_market hF hbasis]
      exact hKs
    rw [hst] at e
    exact Except.ok.inj e
  subst hstr
  obtain ⟨price, iv, hprice, hivi, hrec⟩ := hiv i _ _ hcp (map_some_get hsi)
  have hqi : (day.vols.map volNumber)[i]? = some q := by
    rw [List.getElem?_map, hq]
    rfl
  obtain ⟨u, hu, hle⟩ := sum_bound ((hsse s).1 hs) i q hqi
  rw [hivi] at hu
  simp only [Option.some.injEq] at hu
  subst hu
  have hclose : (q - u) ^ 2 < 0.001 := lt_of_le_of_lt hle hlt
  have hupos : 0 < u := by
    by_contra hu0
    rw [not_lt] at hu0
    nlinarith
  rcases hrec with ⟨X, -, -, hX⟩ | ⟨X, u', hX1, hX2, hX3, hX4⟩ | hX
  · cases hX
    linarith
  · cases hX3
    unfold smileVol at hvv
    simp only [hm] at hvv
    rw [hprice, hX1] at hvv
    simp only [smileImplied] at hvv
    cases hg : gkSolveImpliedVol (sv.newton (Real.sqrt fit.model.var0)) sv.brentq
        ⟨(dayMarket S.spot day).S0, (dayMarket S.spot day).tau, (dayMarket S.spot day).r, (dayMarket S.spot day).q, cps[k], Ks[k], 0, none⟩ X with
    | error e => rw [hg] at hvv; cases hvv
    | ok r =>
      rw [hg] at hvv
      cases r with
      | inf => cases hvv
      | vol z =>
        simp only [Except.ok.injEq, Npf.fin.injEq] at hvv
        subst hvv
        obtain ⟨hpz, huniq⟩ := C50_solver _ _ (hsv.1 _) hsv.2 _ _ _ hg
        have hadm : FxAdmissible ⟨(dayMarket S.spot day).S0, (dayMarket S.spot day).tau, (dayMarket S.spot day).r, (dayMarket S.spot day).q, cps[k], Ks[k], 0, none⟩ := by
          refine ⟨hS', hT'.le, ?_, fun F hF => (by cases hF)⟩
          rcases hflag _ (List.mem_of_getElem? hcp) with h | h
          · exact Or.inr h
          · exact Or.inl h
        have hex : ∃! w, 0 < w ∧ PricedAt ⟨(dayMarket S.spot day).S0, (dayMarket S.spot day).tau, (dayMarket S.spot day).r, (dayMarket S.spot day).q, cps[k], Ks[k], 0, none⟩ w X := by
          refine ⟨u, ⟨hupos, hX4⟩, ?_⟩
          rintro w ⟨hw0, hw⟩
          obtain ⟨P, hP, hmono, -⟩ := C50_monotone _ hadm hKpos hT'
          exact hmono.injOn hw0 hupos (((hP w hw0 X).1 hw).symm.trans ((hP u hupos X).1 hX4))
        have hlo := ((C50_range _ hadm hKpos hT' _ rfl X).1 hex).1
        obtain ⟨hz0, hz⟩ := huniq hKpos hT' hlo
        have := hz u hupos hX4
        rw [← this]
        nlinarith
  · cases hX

theorem smileSse_none {qs : List ℝ} {vs : List ImpliedVol} (hl : vs.length = qs.length) : smileSse qs vs = none ↔ .inf ∈ vs := by
  induction qs generalizing vs with
  | nil =>
    cases vs with
    | nil => simp [smileSse]
    | cons v vs => cases hl
  | cons q qs ih =>
    cases vs with
    | nil => cases hl
    | cons v vs =>
      have hl' : vs.length = qs.length := by simpa using hl
      cases v with
      | inf => simp [smileSse, squaredError]
      | vol v => simp [smileSse, squaredError, ih hl']

theorem calibrate_sse {sv : FxSolvers} {m : HestonPricing} {x : SmileMarket} {conv : DeltaConvention} {cps deltas quotes : List ℝ}
    {fit : HestonFit} (h : hestonCalibrate sv m x conv cps deltas quotes = .ok fit) (hl : fit.ivs.length = quotes.length) :
    fit.sse = none ↔ .inf ∈ fit.ivs := by
  have key : fit.sse = smileSse quotes fit.ivs := by
    unfold hestonCalibrate at h
    split at h
    · cases h
    · have hmu : m ≠ .unknown := by
        rintro rfl
        cases h
      have h' : ∃ (mid : ℝ) (p : ℝ × ℝ × ℝ) (Ks : List ℝ), (match smileFit sv m x cps Ks quotes (fitModel (mid ^ 2) p) with
                | .error e => .error e
                | .ok out => .ok ⟨fitModel (mid ^ 2) p, out.1, out.2⟩ : Except Err HestonFit) = .ok fit := by
        cases m <;> first
          | exact absurd rfl hmu
          | (simp only at h
             split at h
             · cases h
             split at h
             · cases h
             split at h
             · cases h
             split at h
             · cases h
             split at h
             · cases h
             split at h
             · cases h
             exact ⟨_, _, _, h⟩)
      obtain ⟨mid, p, Ks, h'⟩ := h'
      cases hf : smileFit sv m x cps Ks quotes (fitModel (mid ^ 2) p) with
      | error e => rw [hf] at h'; cases h'
      | ok out =>
        rw [hf] at h'
        cases h'
        unfold smileFit at hf
        cases hp : smilePrices m (fitModel (mid ^ 2) p) x cps Ks with
        | error e => rw [hp] at hf; cases hf
        | ok prices =>
          rw [hp] at hf
          simp only at hf
          cases hi : ((quotes.zip (cps.zip Ks)).zip prices).mapM (fun o => smileIv sv x o.1.1 o.1.2.1 o.1.2.2 o.2) with
          | error e => rw [hi] at hf; cases hf
          | ok ivs =>
            rw [hi] at hf
            simp only [Except.ok.injEq] at hf
            subst hf
            rfl
  rw [key]
  exact smileSse_none hl

/-- **C83.**  What becomes of a calibrated smile.  When no volatility gives back one of the prices of the calibrated model, asking for the
expiry raises `TypeError` (the calibration returned `None`, which is not looked at before it is unpacked); when the sum of squared errors
is finite but not below 0.001 it raises `ValueError`; otherwise it succeeds, and the calibrated model is stored. -/
theorem C83_outcome (S : FxSurface) (sv : FxSolvers) (hsv : VolSolversOk sv) (m : HestonPricing) (hm : S.method = .heston m)
    (before : List SurfaceQuery) (d : Int) (day : SmileDay) (hd : dayOf S d = some day) (fit : HestonFit)
    (hcal : hestonCalibrate sv m (dayMarket S.spot day) day.conv S.flags S.deltas (day.vols.map volNumber) = .ok fit) :
    (.inf ∈ fit.ivs → (ask S sv (history S sv before) (.smiles [d])).2 = .error .type) ∧
    (∀ s, SumOfSquares (day.vols.map volNumber) fit.ivs s →
      (0.001 ≤ s → (ask S sv (history S sv before) (.smiles [d])).2 = .error .value) ∧
      (s < 0.001 → (ask S sv (history S sv before) (.smiles [d])).2 = .ok .done ∧
        (ask S sv (history S sv before) (.smiles [d])).1.get d = some (.heston fit))) := by
  obtain ⟨-, -, -, -, -, -, -, hl, hsse⟩ := C83_calibration sv hsv m _ _ _ _ _ fit hcal
  have hsp := solveSmiles_spec (history_cacheOk S sv before) [d]
  have hres : (ask S sv (history S sv before) (.smiles [d])).2 = (solveDay S sv d).map (fun _ => SurfaceAnswer.done) := by
    simp only [ask]
    rw [hsp.result]
    simp only [firstErr]
    cases solveDay S sv d <;> rfl
  have hday : solveDay S sv d = (match fit.sse with
      | none => .error .type
      | some s => if s < 0.001 then .ok (.heston fit) else .error .value) := by
    unfold solveDay
    rw [hd]
    simp only [fitDay, hm, hcal]
    cases fit.sse <;> rfl
  refine ⟨fun hi => ?_, fun s hs => ⟨fun hle => ?_, fun hlt => ?_⟩⟩
  · rw [hres, hday, (calibrate_sse hcal hl).2 hi]
    rfl
  · rw [hres, hday, (hsse s).2 hs]
    simp only
    rw [if_neg (not_lt.2 hle)]
    rfl
  · have hok : solveDay S sv d = .ok (.heston fit) := by
      rw [hday, (hsse s).2 hs]
      simp only
      rw [if_pos hlt]
    refine ⟨by rw [hres, hok]; rfl, ?_⟩
    have hr : (solveSmiles S sv (history S sv before) [d]).2 = .ok () := by
      rw [hsp.result]
      simp only [firstErr, hok]
    obtain ⟨f, hf⟩ := hsp.all hr d (List.mem_singleton.2 rfl)
    have := hsp.cacheOk d f hf
    rw [hok] at this
    cases this
    exact hf

/-- **C83.**  Deltas of another number than the quotes are refused with `AssertionError`. -/
theorem C83_other_deltas (sv : FxSolvers) (m : HestonPricing) (hm : m ≠ .unknown) (x : SmileMarket) (hx : 0 < x.S0 ∧ 0 < x.tau) (conv : DeltaConvention)
    (cps deltas quotes : List ℝ) (hcp : ∀ cp ∈ cps, cp = -1 ∨ cp = 1) (hl : deltas.length ≠ quotes.length) :
    hestonCalibrate sv m x conv cps deltas quotes = .error .assertion := by
  unfold hestonCalibrate
  rw [if_neg (not_not.2 ⟨hx.1, hx.2, hcp⟩)]
  cases m <;> first | exact absurd rfl hm | (simp only; rw [if_pos hl])

end Frm.Props
