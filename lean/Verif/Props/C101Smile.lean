import Verif.Model.Plots
import Verif.Props.C82
import Verif.Props.C70

/-! # C101 — What the plot of a smile shows -/

namespace Frm
namespace Spec
open Classical

set_option autoImplicit false

/-- The strikes of the quotes of an expiry, all finite (C51 says what they are). -/
def QuoteStrikes (S : FxSurface) (sv : FxSolvers) (day : SmileDay) (Ks : List ℝ) : Prop :=
  gkStrikeFromDelta sv.strike ⟨S.spot, day.years, day.rd, day.rf, some day.fwd⟩ day.conv .forward
    ((day.vols.zip S.deltas).map (fun p => ⟨volNumber p.1, p.2⟩)) = .ok (Ks.map some)

/-- `K` is the strike of the only quote in the column `atm_delta_neutral`. -/
def IsNeutral (names : List Str) (Ks : List ℝ) (K : ℝ) : Prop :=
  ∃ i : Nat, names[i]? = some "atm_delta_neutral".toList ∧ Ks[i]? = some K ∧
    ∀ j : Nat, j < Ks.length → names[j]? = some "atm_delta_neutral".toList → j = i

/-- The factor between the delta of a convention without premium and the forward delta. -/
noncomputable def deltaFactor (day : SmileDay) : ℝ := if day.conv = .regularSpot then Real.exp (-day.rf * day.years) else 1

/-- `d1` at a strike and a volatility. -/
noncomputable def smileD1 (day : SmileDay) (K vol : ℝ) : ℝ :=
  Real.log (day.fwd / K) / (vol * Real.sqrt day.years) + vol * Real.sqrt day.years / 2

/-- The strike of the `i`-th point of the line: a hundred equally spaced ones from the lowest to the neutral one, and a hundred from there to the
highest. -/
noncomputable def lineStrike (lo neutral hi : ℝ) (i : Nat) : ℝ :=
  if i < 100 then lo + i / 99 * (neutral - lo) else neutral + ((i : ℝ) - 100) / 99 * (hi - neutral)

/-- Where a quote belongs on the axis of the figure (puts below 50, the neutral quote at 50, calls above). -/
noncomputable def axisPlace (delta : ℝ) : ℝ := if delta < 0 then 100 * -delta else 100 - 100 * delta

end Spec
end Frm

namespace Frm.Props
open Classical

set_option autoImplicit false

open Frm Frm.Spec

theorem replicate_unique (d : Int) (n : Nat) : uniqueDates (List.replicate (n + 1) d) = [d] := by
  induction n with
  | zero => rfl
  | succ n ih =>
    rw [List.replicate_succ, uniqueDates, ih]
    simp

theorem solve_again {S : FxSurface} {sv : FxSolvers} {st st' : SmileState} (hc : CacheOk S sv st) {d : Int}
    (h : solveSmiles S sv st [d] = (st', .ok ())) (n : Nat) : solveSmiles S sv st' (List.replicate (n + 1) d) = (st', .ok ()) := by
  have hs := solveSmiles_spec hc [d]
  rw [h] at hs
  obtain ⟨f, hf⟩ := hs.all rfl d (by simp)
  unfold solveSmiles
  rw [replicate_unique]
  simp only [solveLoop]
  simp only at hf
  rw [hf]

theorem neutral_spec {names : List Str} {Ks : List ℝ} {K : ℝ} (h : neutralStrike names Ks = .ok K) : IsNeutral names Ks K := by
  unfold neutralStrike at h
  unfold IsNeutral
  generalize "atm_delta_neutral".toList = s at h ⊢
  split at h
  · rename_i p hp
    cases h
    have hmem : p ∈ (names.zip Ks).filter (fun p => p.1 = s) := by rw [hp]; simp
    rw [List.mem_filter] at hmem
    obtain ⟨i, hi⟩ := List.mem_iff_getElem?.1 hmem.1
    have hi' := hi
    rw [List.getElem?_zip_eq_some] at hi
    have hn : p.1 = s := by simpa using hmem.2
    refine ⟨i, by rw [hi.1, hn], hi.2, fun j hj hnj => ?_⟩
    by_contra hne
    have hj' : (names.zip Ks)[j]? = some (s, Ks[j]) := by
      rw [List.getElem?_zip_eq_some]
      exact ⟨hnj, List.getElem?_eq_getElem hj⟩
    have two : ∀ (l : List (Str × ℝ)) (f : Str × ℝ → Bool) (i j : Nat) (a b : Str × ℝ), i < j → l[i]? = some a → l[j]? = some b → f a = true →
        f b = true → 2 ≤ (l.filter f).length := by
      intro l f
      induction l with
      | nil => intro i j a b _ h; simp at h
      | cons x l ih =>
        intro i j a b hij ha hb fa fb
        cases j with
        | zero => omega
        | succ j =>
          cases i with
          | zero =>
            simp only [List.getElem?_cons_zero, Option.some.injEq] at ha
            subst ha
            have hm : b ∈ l.filter f := List.mem_filter.2 ⟨List.mem_of_getElem? (by simpa using hb), fb⟩
            have := List.length_pos_of_mem hm
            rw [List.filter_cons_of_pos fa]
            simp only [List.length_cons]
            omega
          | succ i =>
            have := ih i j a b (by omega) (by simpa using ha) (by simpa using hb) fa fb
            by_cases hx : f x = true
            · rw [List.filter_cons_of_pos hx]; simp only [List.length_cons]; omega
            · rw [List.filter_cons_of_neg hx]; exact this
    have h2 : 2 ≤ ((names.zip Ks).filter (fun p => p.1 = s)).length := by
      rcases Nat.lt_or_gt_of_ne hne with hlt | hlt
      · exact two _ _ j i _ _ hlt hj' hi' (by simp) (by simpa using hn)
      · exact two _ _ i j _ _ hlt hi' hj' (by simpa using hn) (by simp)
    rw [hp] at h2
    simp at h2
  · cases h

theorem plotSmile_ok {S : FxSurface} {names : List Str} {sv : FxSolvers} {st st' : SmileState} {d : Int} {p : SmilePlot}
    (h : plotSmile S names sv st d = (st', .ok p)) :
    ∃ st1 day Ks neutral pts greeks delta, solveSmiles S sv st [d] = (st1, .ok ()) ∧ dayOf S d = some day ∧ QuoteStrikes S sv day Ks ∧
      neutralStrike names Ks = .ok neutral ∧
      interpVolSurface S sv st1 (List.replicate 200 d) (plotStrikes neutral Ks) plotFlags = (st', .ok pts) ∧
      garmanKohlhagenGreeks (pts.map (surfaceGkRow S)) = .ok greeks ∧ plotGreek day.conv = .ok delta ∧
      p = ⟨plotMarks S.deltas day.vols, (pts.zip greeks).zipIdx.map (fun p => plotPoint delta (decide (p.2 < 100)) p.1.1 p.1.2)⟩ := by
  unfold plotSmile at h
  split at h
  · cases h
  · rename_i st1 hs
    split at h
    · cases h
    · rename_i day hd
      split at h
      · cases h
      · rename_i strikes hk
        split at h
        · cases h
        · rename_i Ks hm
          split at h
          · cases h
          · rename_i neutral hn
            split at h
            · cases h
            · rename_i st2 pts hi
              split at h
              · cases h
              · rename_i greeks hg
                split at h
                · cases h
                · rename_i delta hc
                  cases h
                  refine ⟨st1, day, Ks, neutral, pts, greeks, delta, hs, hd, ?_, hn, hi, hg, hc, rfl⟩
                  rw [mapM_id_some] at hm
                  unfold QuoteStrikes
                  rw [← hm]
                  exact hk

theorem plotStrikes_length (n : ℝ) (Ks : List ℝ) : (plotStrikes n Ks).length = 200 := by simp [plotStrikes, npLinspace]

theorem plotStrikes_get (n : ℝ) (Ks : List ℝ) {i : Nat} (hi : i < 200) :
    (plotStrikes n Ks)[i]? = some (lineStrike (Ks.foldl min n) n (Ks.foldl max n) i) := by
  unfold plotStrikes lineStrike npLinspace
  by_cases h : i < 100
  · rw [List.getElem?_append_left (by simpa using h), List.getElem?_map, List.getElem?_range h, if_pos h]
    simp only [Option.map_some, Option.some.injEq]
    norm_num
    ring
  · rw [List.getElem?_append_right (by simpa using h), List.getElem?_map, if_neg h]
    simp only [List.length_map, List.length_range]
    rw [List.getElem?_range (by omega)]
    simp only [Option.map_some, Option.some.injEq]
    rw [Nat.cast_sub (by omega)]
    norm_num
    ring

theorem plotFlags_get {i : Nat} (hi : i < 200) : plotFlags[i]? = some (if i < 100 then (-1 : ℝ) else 1) := by
  unfold plotFlags
  by_cases h : i < 100
  · rw [List.getElem?_append_left (by simpa using h), if_pos h, List.getElem?_replicate, if_pos h]
  · rw [List.getElem?_append_right (by simpa using h), if_neg h, List.getElem?_replicate, if_pos (by simp; omega)]

theorem plotFlags_length : plotFlags.length = 200 := by
  unfold plotFlags
  rw [List.length_append, List.length_replicate, List.length_replicate]

theorem foldl_min_spec (Ks : List ℝ) (n : ℝ) : (Ks.foldl min n = n ∨ Ks.foldl min n ∈ Ks) ∧ Ks.foldl min n ≤ n ∧ ∀ K ∈ Ks, Ks.foldl min n ≤ K := by
  induction Ks generalizing n with
  | nil => simp
  | cons K Ks ih =>
    simp only [List.foldl_cons]
    obtain ⟨h1, h2, h3⟩ := ih (min n K)
    refine ⟨?_, h2.trans (min_le_left _ _), ?_⟩
    · rcases h1 with h1 | h1
      · rcases min_choice n K with h | h
        · left; rw [h1, h]
        · right; rw [h1, h]; simp
      · right; exact List.mem_cons_of_mem _ h1
    · intro x hx
      rcases List.mem_cons.1 hx with rfl | hx
      · exact h2.trans (min_le_right _ _)
      · exact h3 x hx

theorem foldl_max_spec (Ks : List ℝ) (n : ℝ) : (Ks.foldl max n = n ∨ Ks.foldl max n ∈ Ks) ∧ n ≤ Ks.foldl max n ∧ ∀ K ∈ Ks, K ≤ Ks.foldl max n := by
  induction Ks generalizing n with
  | nil => simp
  | cons K Ks ih =>
    simp only [List.foldl_cons]
    obtain ⟨h1, h2, h3⟩ := ih (max n K)
    refine ⟨?_, (le_max_left _ _).trans h2, ?_⟩
    · rcases h1 with h1 | h1
      · rcases max_choice n K with h | h
        · left; rw [h1, h]
        · right; rw [h1, h]; simp
      · right; exact List.mem_cons_of_mem _ h1
    · intro x hx
      rcases List.mem_cons.1 hx with rfl | hx
      · exact (le_max_right _ _).trans h2
      · exact h3 x hx

/-- The strikes of quotes without premium are positive. -/
theorem regular_strikes_pos {S : FxSurface} {sv : FxSolvers} {day : SmileDay} {Ks : List ℝ} (h : QuoteStrikes S sv day Ks)
    (hc : day.conv = .regularSpot ∨ day.conv = .regularForward) : ∀ K ∈ Ks, 0 < K := by
  obtain ⟨hm, -, ho⟩ := strike_ok h
  have hF := forward_pos hm
  have pos : ∀ spot q K, regularStrike ⟨S.spot, day.years, day.rd, day.rf, some day.fwd⟩ spot .forward q = some K → 0 < K := by
    intro spot q K hK
    unfold regularStrike at hK
    simp only at hK
    split at hK
    · cases hK; exact mul_pos hF (Real.exp_pos _)
    · split at hK
      · cases hK; exact mul_pos hF (Real.exp_pos _)
      · cases hK
  have key : ∀ spot, ((day.vols.zip S.deltas).map (fun p => (⟨volNumber p.1, p.2⟩ : DeltaQuote))).map
      (regularStrike ⟨S.spot, day.years, day.rd, day.rf, some day.fwd⟩ spot .forward) = Ks.map some → ∀ K ∈ Ks, 0 < K := by
    intro spot he K hK
    have : some K ∈ Ks.map some := List.mem_map.2 ⟨K, hK, rfl⟩
    rw [← he] at this
    obtain ⟨q, -, hq⟩ := List.mem_map.1 this
    exact pos spot q K hq
  rcases hc with hc | hc <;> rw [hc] at ho <;> simp only [Except.ok.injEq] at ho
  · exact key true ho
  · exact key false ho

theorem lineStrike_pos {lo n hi : ℝ} (h0 : 0 < lo) (h1 : lo ≤ n) (h2 : n ≤ hi) {i : Nat} : 0 < lineStrike lo n hi i := by
  unfold lineStrike
  split
  · have : (0 : ℝ) ≤ i / 99 * (n - lo) := mul_nonneg (by positivity) (by linarith)
    linarith
  · rename_i h
    have h3 : (100 : ℝ) ≤ i := by exact_mod_cast (not_lt.1 h)
    have : (0 : ℝ) ≤ ((i : ℝ) - 100) / 99 * (hi - n) := mul_nonneg (div_nonneg (by linarith) (by norm_num)) (by linarith)
    linarith

/-- The greeks of an option at the market forward. -/
theorem surface_greeks {S : FxSurface} {day : SmileDay} (hS : 0 < S.spot) (ht : 0 < day.years) (hF : 0 < day.fwd) {K vol cp : ℝ} (hK : 0 < K)
    (hv : vol ≠ 0) : ∃ g, gkGreeks ⟨S.spot, day.years, day.rd, day.rf, cp, K, vol, some day.fwd⟩ = g ∧
      g.spotDelta = some (cp * Real.exp (-day.rf * day.years) * normCdf (cp * smileD1 day K vol)) ∧
      g.forwardDelta = some (cp * normCdf (cp * smileD1 day K vol)) := by
  have hm : MarketOk ⟨S.spot, day.years, day.rd, day.rf, some day.fwd⟩ := ⟨hS, ht, by rintro F hF'; cases hF'; exact hF⟩
  have hr := option_ratio hm (vol := vol) (cp := cp) hK
  simp only at hr
  have e1 := gk_d1 (x := ⟨S.spot, day.years, day.rd, day.rf, cp, K, vol, some day.fwd⟩) hS hK ht hv
  have e2 := gk_d2 (x := ⟨S.spot, day.years, day.rd, day.rf, cp, K, vol, some day.fwd⟩) hS hK ht hv
  have hd1 : bD1 (S.spot * Real.exp (-day.rf * day.years))
      (K * Real.exp (-gkRate ⟨S.spot, day.years, day.rd, day.rf, cp, K, vol, some day.fwd⟩ * day.years)) (vol * Real.sqrt day.years)
      = smileD1 day K vol := by
    unfold bD1 smileD1
    rw [show S.spot * Real.exp (-day.rf * day.years) /
      (K * Real.exp (-gkRate ⟨S.spot, day.years, day.rd, day.rf, cp, K, vol, some day.fwd⟩ * day.years)) = day.fwd / K from hr]
  simp only at e1 e2
  rw [hd1] at e1
  refine ⟨_, rfl, ?_, ?_⟩ <;> unfold gkGreeks <;> simp only [e1] <;> rfl

theorem line_spec (S : FxSurface) (names : List Str) (sv : FxSolvers) (before : List SurfaceQuery) (d : Int) (st' : SmileState)
    (p : SmilePlot) (h : plotSmile S names sv (history S sv before) d = (st', .ok p)) :
    ∃ day Ks lo neutral hi, dayOf S d = some day ∧ day ∈ S.daily ∧ day.expiry = d ∧ (day.conv = .regularSpot ∨ day.conv = .regularForward) ∧
      QuoteStrikes S sv day Ks ∧ IsNeutral names Ks neutral ∧ lo ∈ Ks ∧ hi ∈ Ks ∧ (∀ K ∈ Ks, 0 < lo ∧ lo ≤ K ∧ K ≤ hi) ∧ p.line.length = 200 ∧
      ∀ i < 200, ∃ v x, p.line[i]? = some (x, v) ∧
        (ask S sv .fresh (.vols [d] [lineStrike lo neutral hi i] [if i < 100 then -1 else 1])).2 =
          .ok (.vols [⟨day, lineStrike lo neutral hi i, if i < 100 then -1 else 1, v⟩]) ∧
        (∀ vol, v = .fin vol → vol ≠ 0 →
          x = some (if i < 100 then 100 * (deltaFactor day * normCdf (-smileD1 day (lineStrike lo neutral hi i) vol))
            else 100 - 100 * (deltaFactor day * normCdf (smileD1 day (lineStrike lo neutral hi i) vol)))) ∧
        ((∀ vol, v ≠ .fin vol) → x = none) := by
  have hc0 := history_cacheOk S sv before
  obtain ⟨st1, day, Ks, n, pts, greeks, delta, hs, hd, hK, hn, hi, hg, hcv, rfl⟩ := plotSmile_ok h
  have hc1 : CacheOk S sv st1 := by
    have := (solveSmiles_spec hc0 [d]).cacheOk
    rwa [hs] at this
  have hi2 : (interpVolSurface S sv st1 (List.replicate 200 d) (plotStrikes n Ks) plotFlags).2 = .ok pts := by rw [hi]
  obtain ⟨-, -, hlen, hget⟩ := points_spec hc1 hi2
  rw [List.length_replicate] at hlen
  have hconv : day.conv = .regularSpot ∨ day.conv = .regularForward := by
    unfold plotGreek at hcv
    split at hcv
    · left; assumption
    · right; assumption
    · cases hcv
  have hday := List.mem_of_find?_eq_some hd
  have hexp := List.find?_some hd
  simp only [decide_eq_true_eq] at hexp
  have hneu := neutral_spec hn
  have hnm : n ∈ Ks := by
    obtain ⟨i, -, hi, -⟩ := hneu
    exact List.mem_of_getElem? hi
  have hpos := regular_strikes_pos hK hconv
  obtain ⟨l1, l2, l3⟩ := foldl_min_spec Ks n
  obtain ⟨u1, u2, u3⟩ := foldl_max_spec Ks n
  have hlm : Ks.foldl min n ∈ Ks := by rcases l1 with e | e; rw [e]; exact hnm; exact e
  have hum : Ks.foldl max n ∈ Ks := by rcases u1 with e | e; rw [e]; exact hnm; exact e
  obtain ⟨hmk, -⟩ := strike_ok hK
  have hgr : greeks = (pts.map (surfaceGkRow S)).map gkGreeks := by
    unfold garmanKohlhagenGreeks at hg
    split at hg
    · cases hg
    · cases hg; rfl
  refine ⟨day, Ks, Ks.foldl min n, n, Ks.foldl max n, hd, hday, hexp, hconv, hK, hneu, hlm, hum,
    fun K hk => ⟨hpos _ hlm, l3 K hk, u3 K hk⟩, ?_, fun i hi' => ?_⟩
  · simp only [List.length_map, List.length_zipIdx, List.length_zip, hgr, hlen]
    rfl
  · obtain ⟨day', smile, v, hd', hsd, hfit, hvol, hp⟩ := hget i d _ _ (by rw [List.getElem?_replicate, if_pos hi']) (plotStrikes_get n Ks hi')
      (plotFlags_get hi')
    rw [hd] at hd'
    cases hd'
    have hpt : (pts.zip greeks)[i]? = some (⟨day, lineStrike (Ks.foldl min n) n (Ks.foldl max n) i, if i < 100 then (-1 : ℝ) else 1, v⟩,
        gkGreeks (surfaceGkRow S ⟨day, lineStrike (Ks.foldl min n) n (Ks.foldl max n) i, if i < 100 then (-1 : ℝ) else 1, v⟩)) := by
      rw [List.getElem?_zip_eq_some]
      refine ⟨hp, ?_⟩
      rw [hgr, List.getElem?_map, List.getElem?_map, hp]
      rfl
    refine ⟨v, (plotPoint delta (decide (i < 100)) ⟨day, lineStrike (Ks.foldl min n) n (Ks.foldl max n) i, if i < 100 then (-1 : ℝ) else 1, v⟩
      (gkGreeks (surfaceGkRow S ⟨day, lineStrike (Ks.foldl min n) n (Ks.foldl max n) i, if i < 100 then (-1 : ℝ) else 1, v⟩))).1, ?_, ?_, ?_, ?_⟩
    · simp only [List.getElem?_map, List.getElem?_zipIdx, hpt, Option.map_some, Nat.zero_add]
      rfl
    · show ((interpVolSurface S sv .fresh _ _ _).2).map SurfaceAnswer.vols = _
      rw [interp_fresh (fresh_cacheOk S sv), if_neg (by simp)]
      simp only [firstErr, hsd, List.zip_cons_cons, List.zip_nil_right, List.mapM_cons, List.mapM_nil, freshPoint, hd, hvol]
      rfl
    · intro vol hv hv0
      subst hv
      obtain ⟨g, hgg, hg1, hg2⟩ := surface_greeks (S := S) (day := day) (vol := vol) (cp := if i < 100 then (-1 : ℝ) else 1) hmk.1 hmk.2.1 (hmk.2.2 _ rfl)
        (lineStrike_pos (i := i) (hpos _ hlm) l2 u2) hv0
      simp only [plotPoint, surfaceGkRow, volNumber, hgg]
      have hdel : delta g = some ((if i < 100 then (-1 : ℝ) else 1) * (deltaFactor day * normCdf ((if i < 100 then (-1 : ℝ) else 1) *
          smileD1 day (lineStrike (Ks.foldl min n) n (Ks.foldl max n) i) vol))) := by
        unfold deltaFactor
        rcases hconv with hc | hc <;> rw [hc] at hcv <;> cases hcv
        · rw [if_pos hc, hg1, mul_assoc]
        · rw [if_neg (c := day.conv = .regularSpot) (by rw [hc]; simp), hg2, one_mul]
      have hfac : 0 < deltaFactor day := by unfold deltaFactor; split; exact Real.exp_pos _; norm_num
      rw [hdel]
      simp only [Option.map_some, Option.some.injEq, plotDelta]
      by_cases hlt : i < 100
      · simp only [hlt, if_true, decide_true]
        have := mul_pos hfac (normCdf_pos (-1 * smileD1 day (lineStrike (Ks.foldl min n) n (Ks.foldl max n) i) vol))
        rw [abs_of_neg (by linarith)]
        rw [neg_one_mul]
        ring_nf
      · simp only [hlt, if_false, decide_false, Bool.false_eq_true]
        rw [one_mul, one_mul]
        ring
    · intro hv
      cases v with
      | fin v => exact absurd rfl (hv v)
      | _ => rfl

/-- **C101.**  The figure of a smile that is drawn: the convention is one without premium; the line has two hundred points, a hundred puts with
strikes equally spaced from the lowest quoted one to the neutral one and a hundred calls from there to the highest; the height of a point is the
volatility the surface returns for that option; and where that is a number other than zero its place is a hundred times the absolute delta of the
put, or a hundred less a hundred times the delta of the call (spot deltas are discounted at the foreign rate).  Points without a volatility have
no place. -/
theorem C101_smile_line (S : FxSurface) (names : List Str) (sv : FxSolvers) (before : List SurfaceQuery) (d : Int) (st' : SmileState)
    (p : SmilePlot) (h : plotSmile S names sv (history S sv before) d = (st', .ok p)) :
    ∃ day Ks lo neutral hi, day ∈ S.daily ∧ day.expiry = d ∧ (day.conv = .regularSpot ∨ day.conv = .regularForward) ∧
      QuoteStrikes S sv day Ks ∧ IsNeutral names Ks neutral ∧ lo ∈ Ks ∧ hi ∈ Ks ∧ (∀ K ∈ Ks, 0 < lo ∧ lo ≤ K ∧ K ≤ hi) ∧ p.line.length = 200 ∧
      ∀ i < 200, ∃ v x, p.line[i]? = some (x, v) ∧
        (ask S sv .fresh (.vols [d] [lineStrike lo neutral hi i] [if i < 100 then -1 else 1])).2 =
          .ok (.vols [⟨day, lineStrike lo neutral hi i, if i < 100 then -1 else 1, v⟩]) ∧
        (∀ vol, v = .fin vol → vol ≠ 0 →
          x = some (if i < 100 then 100 * (deltaFactor day * normCdf (-smileD1 day (lineStrike lo neutral hi i) vol))
            else 100 - 100 * (deltaFactor day * normCdf (smileD1 day (lineStrike lo neutral hi i) vol)))) ∧
        ((∀ vol, v ≠ .fin vol) → x = none) := by
  obtain ⟨day, Ks, lo, n, hi, -, h⟩ := line_spec S names sv before d st' p h
  exact ⟨day, Ks, lo, n, hi, h⟩

/-- The market that the Heston calibration uses has the forward of the expiry. -/
theorem basis_forward {S : FxSurface} {day : SmileDay} (hS : 0 < S.spot) (ht : 0 < day.years) (hF : 0 < day.fwd) :
    (⟨S.spot, day.years, basisRate S.spot day, day.rf, none⟩ : StrikeMarket).forward = day.fwd := by
  show S.spot * Real.exp ((basisRate S.spot day - day.rf) * day.years) = day.fwd
  unfold basisRate
  have e : (Real.log (day.fwd / S.spot) / day.years + day.rf - day.rf) * day.years = Real.log (day.fwd / S.spot) := by
    have := ht.ne'
    field_simp
    ring
  rw [e, Real.exp_log (div_pos hF hS)]
  exact mul_div_cancel₀ _ hS.ne'

theorem adjustedLoop_congr {solve : (ℝ → ℝ) → DeltaQuote → Except Err ℝ} {m m' : StrikeMarket} {spot : Bool} (h1 : m.forward = m'.forward)
    (h2 : m.tau = m'.tau) (h3 : m.rf = m'.rf) : ∀ (quotes : List DeltaQuote) (last : Option ℝ),
      adjustedLoop solve m spot last quotes = adjustedLoop solve m' spot last quotes := by
  have he : ∀ q, adjustedDeltaError m spot q = adjustedDeltaError m' spot q := by
    intro q
    funext K
    unfold adjustedDeltaError
    rw [h1, h2, h3]
  intro quotes
  induction quotes with
  | nil => intro last; rfl
  | cons q qs ih =>
    intro last
    rw [adjustedLoop.eq_def, adjustedLoop.eq_def solve m']
    simp only [he, ih, h1, h2]

theorem gkStrike_congr {solve : (ℝ → ℝ) → DeltaQuote → Except Err ℝ} {m m' : StrikeMarket} {conv : DeltaConvention} {quotes : List DeltaQuote}
    {out : List (Option ℝ)} (h1 : m.forward = m'.forward) (h2 : m.tau = m'.tau) (h3 : m.rf = m'.rf) (hm : MarketOk m)
    (h : gkStrikeFromDelta solve m' conv .forward quotes = .ok out) : gkStrikeFromDelta solve m conv .forward quotes = .ok out := by
  obtain ⟨-, hq, ho⟩ := strike_ok h
  have hr : ∀ spot, regularStrike m spot .forward = regularStrike m' spot .forward := by
    intro spot
    funext q
    unfold regularStrike
    rw [h1, h2, h3]
  have ha : ∀ spot, adjustedStrikes solve m spot quotes = adjustedStrikes solve m' spot quotes := by
    intro spot
    unfold adjustedStrikes
    simp only [adjustedLoop_congr h1 h2 h3, h1, h2]
  unfold gkStrikeFromDelta
  rw [if_neg]
  · rw [← ho]
    cases conv <;> simp only [hr, ha]
  · rintro (hc | ⟨q, hqm, hc⟩)
    · exact hc hm
    · exact hc (hq q hqm)

/-- A smile that was solved goes through finite strikes only. -/
theorem solved_strikes {S : FxSurface} {sv : FxSolvers} {day : SmileDay} {smile : Smile} (h : fitDay S sv day = .ok smile)
    {strikes : List (Option ℝ)} (hs : dayStrikes S sv day = .ok strikes) : ∃ Ks : List ℝ, strikes = Ks.map some := by
  have key : ∀ {Ks}, strikes.mapM id = some Ks → ∃ Ks : List ℝ, strikes = Ks.map some := fun hm => ⟨_, (mapM_id_some _ _).1 hm⟩
  unfold fitDay at h
  cases hm : S.method with
  | univariate =>
    simp only [hm, hs] at h
    split at h
    · cases h
    · cases hk : strikes.mapM id with
      | none => rw [hk] at h; cases h
      | some Ks => exact key hk
  | cubic =>
    simp only [hm, hs] at h
    split at h
    · cases h
    · cases hk : strikes.mapM id with
      | none => rw [hk] at h; cases h
      | some Ks => exact key hk
  | heston m =>
    obtain ⟨hmk, -, -⟩ := strike_ok hs
    have hq : (day.vols.map volNumber).zip S.deltas = (day.vols.zip S.deltas).map (fun p => (volNumber p.1, p.2)) := by
      rw [List.zip_map_left]
      rfl
    have hb : gkStrikeFromDelta sv.strike ⟨S.spot, day.years, basisRate S.spot day, day.rf, none⟩ day.conv .forward
        (((day.vols.map volNumber).zip S.deltas).map (fun p => ⟨p.1, p.2⟩)) = .ok strikes := by
      rw [hq, List.map_map]
      exact gkStrike_congr (m' := ⟨S.spot, day.years, day.rd, day.rf, some day.fwd⟩) (basis_forward hmk.1 hmk.2.1 (hmk.2.2 _ rfl)) rfl rfl ⟨hmk.1, hmk.2.1, by rintro F hF; cases hF⟩ hs
    simp only [hm] at h
    cases hcal : hestonCalibrate sv m (dayMarket S.spot day) day.conv S.flags S.deltas (day.vols.map volNumber) with
    | error e => rw [hcal] at h; cases h
    | ok fit =>
      unfold hestonCalibrate at hcal
      split at hcal
      · cases hcal
      · have hb' : gkStrikeFromDelta sv.strike ⟨(dayMarket S.spot day).S0, (dayMarket S.spot day).tau, (dayMarket S.spot day).r,
          (dayMarket S.spot day).q, none⟩ day.conv .forward (((day.vols.map volNumber).zip S.deltas).map (fun p => ⟨p.1, p.2⟩)) = .ok strikes := hb
        cases m <;> simp only [hb'] at hcal <;> first
          | (cases hcal)
          | (split at hcal
             · cases hcal
             cases hk : strikes.mapM id with
            | none => rw [hk] at hcal; cases hcal
            | some Ks => exact key hk)

theorem dayOf_none {S : FxSurface} {d : Int} (h : ∀ day ∈ S.daily, day.expiry ≠ d) : dayOf S d = none := by
  unfold dayOf
  rw [List.find?_eq_none]
  intro x hx
  simpa using h x hx

theorem solve_one {S : FxSurface} {sv : FxSolvers} {st : SmileState} (hc : CacheOk S sv st) (d : Int) :
    (solveSmiles S sv st [d]).2 = (solveDay S sv d).map (fun _ => ()) := by
  rw [(solveSmiles_spec hc [d]).result]
  simp only [firstErr]
  cases solveDay S sv d <;> rfl

theorem plot_solved {S : FxSurface} {sv : FxSolvers} {st : SmileState} (hc : CacheOk S sv st) {names : List Str} {d : Int} {day : SmileDay}
    {smile : Smile} (hd : dayOf S d = some day) (hs : fitDay S sv day = .ok smile) :
    plotSmile S names sv st d = ((solveSmiles S sv st [d]).1,
      match dayStrikes S sv day with
      | .error e => .error e
      | .ok strikes =>
        match strikes.mapM id with
        | none => .error .value
        | some Ks =>
          match neutralStrike names Ks with
          | .error e => .error e
          | .ok neutral =>
            match (interpVolSurface S sv .fresh (List.replicate 200 d) (plotStrikes neutral Ks) plotFlags).2 with
            | .error e => .error e
            | .ok points =>
              match garmanKohlhagenGreeks (points.map (surfaceGkRow S)) with
              | .error e => .error e
              | .ok greeks =>
                match plotGreek day.conv with
                | .error e => .error e
                | .ok delta => .ok ⟨plotMarks S.deltas day.vols,
                    (points.zip greeks).zipIdx.map (fun p => plotPoint delta (decide (p.2 < 100)) p.1.1 p.1.2)⟩) := by
  have hsd : solveDay S sv d = .ok smile := by unfold solveDay; rw [hd]; exact hs
  have h1 := solve_one hc d
  rw [hsd] at h1
  cases hx : solveSmiles S sv st [d] with
  | mk st1 r =>
    rw [hx] at h1
    have h1' : r = .ok () := h1
    subst h1'
    have hc1 : CacheOk S sv st1 := by
      have := (solveSmiles_spec hc [d]).cacheOk
      rwa [hx] at this
    unfold plotSmile
    rw [hx]
    simp only [hd]
    cases dayStrikes S sv day with
    | error e => rfl
    | ok strikes =>
      simp only
      cases strikes.mapM id with
      | none => rfl
      | some Ks =>
        simp only
        cases neutralStrike names Ks with
        | error e => rfl
        | ok n =>
          simp only
          have hst : (interpVolSurface S sv st1 (List.replicate 200 d) (plotStrikes n Ks) plotFlags).1 = st1 := by
            unfold interpVolSurface
            rw [if_neg (by rw [plotStrikes_length, plotFlags_length, List.length_replicate]; simp), solve_again hc hx 199]
          have hr : (interpVolSurface S sv st1 (List.replicate 200 d) (plotStrikes n Ks) plotFlags).2 =
              (interpVolSurface S sv .fresh (List.replicate 200 d) (plotStrikes n Ks) plotFlags).2 := by
            rw [interp_fresh hc1, interp_fresh (fresh_cacheOk S sv)]
          cases hi : interpVolSurface S sv st1 (List.replicate 200 d) (plotStrikes n Ks) plotFlags with
          | mk st2 r2 =>
            rw [hi] at hst hr
            simp only at hst hr
            subst hst
            rw [← hr]
            cases r2 with
            | error e => rfl
            | ok points =>
              simp only
              cases garmanKohlhagenGreeks (points.map (surfaceGkRow S)) with
              | error e => rfl
              | ok greeks =>
                simp only
                cases plotGreek day.conv <;> rfl

theorem plot_unsolved {S : FxSurface} {sv : FxSolvers} {st : SmileState} (hc : CacheOk S sv st) {names : List Str} {d : Int} {e : Err}
    (hs : solveDay S sv d = .error e) : plotSmile S names sv st d = ((solveSmiles S sv st [d]).1, .error e) := by
  have h1 := solve_one hc d
  rw [hs] at h1
  cases hx : solveSmiles S sv st [d] with
  | mk st1 r =>
    rw [hx] at h1
    have h1' : r = .error e := h1
    subst h1'
    unfold plotSmile
    rw [hx]

/-- **C101.**  Drawing a smile, whether or not it succeeds, leaves the surface as solving the smile of the expiry does; and what it draws or raises
does not depend on what the surface was asked before. -/
theorem C101_smile_state (S : FxSurface) (names : List Str) (sv : FxSolvers) (before : List SurfaceQuery) (d : Int) :
    (plotSmile S names sv (history S sv before) d).1 = (ask S sv (history S sv before) (.smiles [d])).1 ∧
    (plotSmile S names sv (history S sv before) d).2 = (plotSmile S names sv .fresh d).2 := by
  have hc := history_cacheOk S sv before
  have hf := fresh_cacheOk S sv
  cases hs : solveDay S sv d with
  | error e => rw [plot_unsolved hc hs, plot_unsolved hf hs]; exact ⟨rfl, rfl⟩
  | ok smile =>
    cases hd : dayOf S d with
    | none => unfold solveDay at hs; rw [hd] at hs; cases hs
    | some day =>
      have hfit : fitDay S sv day = .ok smile := by unfold solveDay at hs; rw [hd] at hs; exact hs
      rw [plot_solved hc hd hfit, plot_solved hf hd hfit]
      exact ⟨rfl, rfl⟩

/-- **C101.**  A date without a row in the daily table raises `IndexError`, and a smile that cannot be solved raises what solving it raises.  Once
the smile is solved its strikes are finite, if there are any; without exactly one quote in the column `atm_delta_neutral` the plot then raises
`ValueError`.  A smile quoted with premium-adjusted deltas is never drawn: where everything else succeeds, so that the two hundred options can be
priced, it raises `NameError`. -/
theorem C101_smile_refused (S : FxSurface) (names : List Str) (sv : FxSolvers) (before : List SurfaceQuery) (d : Int) :
    ((∀ day ∈ S.daily, day.expiry ≠ d) → (plotSmile S names sv (history S sv before) d).2 = .error .index) ∧
    (∀ e, (ask S sv .fresh (.smiles [d])).2 = .error e → (plotSmile S names sv (history S sv before) d).2 = .error e) ∧
    (∀ day strikes, dayOf S d = some day → (ask S sv .fresh (.smiles [d])).2 = .ok .done →
      gkStrikeFromDelta sv.strike ⟨S.spot, day.years, day.rd, day.rf, some day.fwd⟩ day.conv .forward
        ((day.vols.zip S.deltas).map (fun p => ⟨volNumber p.1, p.2⟩)) = .ok strikes →
      ∃ Ks : List ℝ, strikes = Ks.map some ∧
        ((∀ K, ¬ IsNeutral names Ks K) → (plotSmile S names sv (history S sv before) d).2 = .error .value) ∧
        (day.conv = .adjustedSpot ∨ day.conv = .adjustedForward →
          ∀ n lo hi vals, neutralStrike names Ks = .ok n → lo = Ks.foldl min n → hi = Ks.foldl max n →
            (ask S sv .fresh (.prices (List.replicate 200 d) ((List.range 200).map (lineStrike lo n hi))
              ((List.range 200).map (fun i => if i < 100 then -1 else 1)))).2 = .ok (.prices vals) →
            (plotSmile S names sv (history S sv before) d).2 = .error .name)) ∧
    (∀ day p, dayOf S d = some day → day.conv = .adjustedSpot ∨ day.conv = .adjustedForward →
      (plotSmile S names sv (history S sv before) d).2 ≠ .ok p) := by
  have hc := history_cacheOk S sv before
  have hask : (ask S sv .fresh (.smiles [d])).2 = (solveDay S sv d).map (fun _ => SurfaceAnswer.done) := by
    show ((solveSmiles S sv .fresh [d]).2).map _ = _
    rw [solve_one (fresh_cacheOk S sv)]
    cases solveDay S sv d <;> rfl
  refine ⟨fun h => ?_, fun e he => ?_, fun day strikes hd hs hk => ?_, fun day p hd ha hp => ?_⟩
  · have hs : solveDay S sv d = .error .index := by unfold solveDay; rw [dayOf_none h]
    rw [plot_unsolved hc hs]
  · rw [hask] at he
    cases hs : solveDay S sv d with
    | error e' => rw [hs] at he; cases he; rw [plot_unsolved hc hs]
    | ok f => rw [hs] at he; cases he
  · rw [hask] at hs
    cases hsd : solveDay S sv d with
    | error e => rw [hsd] at hs; cases hs
    | ok smile =>
      have hfit : fitDay S sv day = .ok smile := by unfold solveDay at hsd; rw [hd] at hsd; exact hsd
      have hds : dayStrikes S sv day = .ok strikes := hk
      obtain ⟨Ks, rfl⟩ := solved_strikes hfit hds
      refine ⟨Ks, rfl, fun hn => ?_, fun ha n lo hi vals hn hlo hhi hv => ?_⟩
      · rw [plot_solved hc hd hfit]
        simp only [hds, (mapM_id_some _ _).2 rfl]
        cases hne : neutralStrike names Ks with
        | ok n => exact absurd (neutral_spec hne) (hn n)
        | error e =>
          unfold neutralStrike at hne
          split at hne
          · cases hne
          · cases hne; rfl
      · rw [plot_solved hc hd hfit]
        simp only [hds, (mapM_id_some _ _).2 rfl, hn]
        have e1 : (List.range 200).map (lineStrike lo n hi) = plotStrikes n Ks := by
          apply List.ext_getElem?
          intro i
          by_cases h : i < 200
          · rw [plotStrikes_get n Ks h, List.getElem?_map, List.getElem?_range h, hlo, hhi]; rfl
          · rw [List.getElem?_eq_none (by simpa using h), List.getElem?_eq_none (by rw [plotStrikes_length]; omega)]
        have e2 : (List.range 200).map (fun i => if i < 100 then (-1 : ℝ) else 1) = plotFlags := by
          apply List.ext_getElem?
          intro i
          by_cases h : i < 200
          · rw [plotFlags_get h, List.getElem?_map, List.getElem?_range h]; rfl
          · rw [List.getElem?_eq_none (by simpa using h), List.getElem?_eq_none (by rw [plotFlags_length]; omega)]
        rw [e1, e2] at hv
        have hv' := ask_prices hv
        unfold priceVanilla at hv'
        cases hi' : interpVolSurface S sv .fresh (List.replicate 200 d) (plotStrikes n Ks) plotFlags with
        | mk st2 r2 =>
          rw [hi'] at hv'
          cases r2 with
          | error e => cases hv'
          | ok pts =>
            simp only at hv' ⊢
            cases hg : garmanKohlhagenPrice (pts.map (surfaceGkRow S)) with
            | error e => rw [hg] at hv'; cases hv'
            | ok vs =>
              obtain ⟨hval, -⟩ := garmanKohlhagenPrice_ok hg
              unfold garmanKohlhagenGreeks
              rw [if_neg (by push Not; exact hval)]
              simp only
              rcases ha with ha | ha <;> rw [ha] <;> rfl
  · cases hx : plotSmile S names sv (history S sv before) d with
    | mk st' r =>
      rw [hx] at hp
      simp only at hp
      subst hp
      obtain ⟨-, day', -, -, -, -, delta, -, hd', -, -, -, -, hcv, -⟩ := plotSmile_ok hx
      rw [hd] at hd'
      cases hd'
      rcases ha with ha | ha <;> rw [ha] at hcv <;> cases hcv

theorem marks_spec (S : FxSurface) (names : List Str) (sv : FxSolvers) (before : List SurfaceQuery) (d : Int) (st' : SmileState) (p : SmilePlot)
    (h : plotSmile S names sv (history S sv before) d = (st', .ok p)) :
    ∃ day, dayOf S d = some day ∧ day ∈ S.daily ∧ day.expiry = d ∧ p.marks.length = min S.deltas.length day.vols.length ∧
      ∀ (i : Nat) δ v, S.deltas[i]? = some δ → day.vols[i]? = some v →
        p.marks[i]? = some (if i < S.deltas.length / 2 then 100 * |δ| else 100 - 100 * δ, v) := by
  obtain ⟨st1, day, Ks, n, pts, greeks, delta, hs, hd, hK, hn, hi, hg, hcv, rfl⟩ := plotSmile_ok h
  have hday := List.mem_of_find?_eq_some hd
  have hexp := List.find?_some hd
  simp only [decide_eq_true_eq] at hexp
  refine ⟨day, hd, hday, hexp, by simp [plotMarks], fun i δ v hδ hv => ?_⟩
  unfold plotMarks
  rw [List.getElem?_zip_eq_some]
  refine ⟨?_, hv⟩
  rw [List.getElem?_map, List.getElem?_zipIdx, hδ]
  simp only [Option.map_some, Nat.zero_add, Option.some.injEq, plotDelta]
  by_cases hlt : i < S.deltas.length / 2
  · simp [hlt]
  · simp only [hlt, decide_false, Bool.false_eq_true, if_false]
    ring

/-- **C101.**  The marks of a figure that is drawn are one per quote, at the quoted volatility; the first half of the quotes (rounded down) is drawn
as if they were puts and the rest as if they were calls. -/
theorem C101_marks (S : FxSurface) (names : List Str) (sv : FxSolvers) (before : List SurfaceQuery) (d : Int) (st' : SmileState) (p : SmilePlot)
    (h : plotSmile S names sv (history S sv before) d = (st', .ok p)) :
    ∃ day ∈ S.daily, day.expiry = d ∧ p.marks.length = min S.deltas.length day.vols.length ∧
      ∀ (i : Nat) δ v, S.deltas[i]? = some δ → day.vols[i]? = some v →
        p.marks[i]? = some (if i < S.deltas.length / 2 then 100 * |δ| else 100 - 100 * δ, v) := by
  obtain ⟨day, -, hday, h⟩ := marks_spec S names sv before d st' p h
  exact ⟨day, hday, h⟩

/-- **C101.**  With quotes for puts, the neutral one and calls, in that order, all marks are where they belong exactly when there is at most one put
more than there are calls, and at most two calls more than there are puts.  A put that is drawn among the calls lies beyond the end of the axis, and a
call that is drawn among the puts lies below 50. -/
theorem C101_marks_places (S : FxSurface) (names : List Str) (sv : FxSolvers) (before : List SurfaceQuery) (d : Int) (st' : SmileState)
    (p : SmilePlot) (h : plotSmile S names sv (history S sv before) d = (st', .ok p)) (puts calls : List ℝ)
    (hq : S.deltas = puts ++ 0.5 :: calls) (hp : ∀ δ ∈ puts, δ < 0) (hc : ∀ δ ∈ calls, 0 < δ ∧ δ < 0.5)
    (hl : ∀ day ∈ S.daily, day.vols.length = S.deltas.length) :
    ((∀ (i : Nat) δ, S.deltas[i]? = some δ → ∃ v, p.marks[i]? = some (axisPlace δ, v)) ↔
      puts.length ≤ calls.length + 1 ∧ calls.length ≤ puts.length + 2) ∧
    ∀ (i : Nat) δ x v, S.deltas[i]? = some δ → p.marks[i]? = some (x, v) → x ≠ axisPlace δ → (δ < 0 ∧ 100 < x) ∨ (0 < δ ∧ x < 50) := by
  obtain ⟨day, hday, -, hml, hm⟩ := C101_marks S names sv before d st' p h
  have hvl := hl day hday
  have hlen : S.deltas.length = puts.length + calls.length + 1 := by rw [hq]; simp; omega
  have at' : ∀ (i : Nat) δ, S.deltas[i]? = some δ → ∃ v, p.marks[i]? = some (if i < S.deltas.length / 2 then 100 * |δ| else 100 - 100 * δ, v) := by
    intro i δ hδ
    have hi : i < day.vols.length := by rw [hvl]; exact (List.getElem?_eq_some_iff.1 hδ).1
    exact ⟨_, hm i δ _ hδ (List.getElem?_eq_getElem hi)⟩
  have sort : ∀ (i : Nat) δ, S.deltas[i]? = some δ → (i < puts.length ∧ δ < 0) ∨ (i = puts.length ∧ δ = 0.5) ∨ (puts.length < i ∧ 0 < δ ∧ δ < 0.5) := by
    intro i δ hδ
    rw [hq] at hδ
    by_cases hlt : i < puts.length
    · rw [List.getElem?_append_left hlt] at hδ
      exact Or.inl ⟨hlt, hp δ (List.mem_of_getElem? hδ)⟩
    · rw [List.getElem?_append_right (by omega)] at hδ
      obtain ⟨k, hk⟩ : ∃ k, i - puts.length = k := ⟨_, rfl⟩
      rw [hk] at hδ
      cases k with
      | zero => simp at hδ; right; left; exact ⟨by omega, by rw [← hδ]⟩
      | succ k => right; right; exact ⟨by omega, hc δ (List.mem_of_getElem? (by simpa using hδ))⟩
  have place : ∀ (i : Nat) δ, S.deltas[i]? = some δ →
      ((if i < S.deltas.length / 2 then 100 * |δ| else 100 - 100 * δ) = axisPlace δ ↔
        (i < puts.length → i < S.deltas.length / 2) ∧ (puts.length < i → S.deltas.length / 2 ≤ i)) ∧
      ((if i < S.deltas.length / 2 then 100 * |δ| else 100 - 100 * δ) ≠ axisPlace δ →
        (δ < 0 ∧ 100 < (if i < S.deltas.length / 2 then 100 * |δ| else 100 - 100 * δ)) ∨
        (0 < δ ∧ (if i < S.deltas.length / 2 then 100 * |δ| else 100 - 100 * δ) < 50)) := by
    intro i δ hδ
    unfold axisPlace
    rcases sort i δ hδ with ⟨h1, h2⟩ | ⟨h1, h2⟩ | ⟨h1, h2, h3⟩
    · rw [if_pos h2, abs_of_neg h2]
      by_cases hx : i < S.deltas.length / 2
      · simp only [if_pos hx, ne_eq, not_true_eq_false, false_imp_iff, and_true, true_iff]
        exact ⟨fun _ => hx, fun h => by omega⟩
      · simp only [if_neg hx]
        refine ⟨⟨fun he => by exfalso; linarith, fun he => absurd (he.1 h1) hx⟩, fun _ => Or.inl ⟨h2, by linarith⟩⟩
    · have e : ¬ δ < 0 := by rw [h2]; norm_num
      rw [if_neg e]
      have e2 : (if i < S.deltas.length / 2 then 100 * |δ| else 100 - 100 * δ) = 100 - 100 * δ := by
        split
        · rw [h2]; norm_num [abs_of_pos]
        · rfl
      rw [e2]
      exact ⟨⟨fun _ => ⟨fun h => by omega, fun h => by omega⟩, fun _ => rfl⟩, fun hne => absurd rfl hne⟩
    · rw [if_neg (not_lt.2 h2.le), abs_of_pos h2]
      by_cases hx : i < S.deltas.length / 2
      · simp only [if_pos hx]
        norm_num at h3
        refine ⟨⟨fun he => by exfalso; linarith, fun he => absurd (he.2 h1) (by omega)⟩, fun _ => Or.inr ⟨h2, by linarith⟩⟩
      · simp only [if_neg hx, ne_eq, not_true_eq_false, false_imp_iff, and_true, true_iff]
        exact ⟨fun h => by omega, fun _ => by omega⟩
  refine ⟨⟨fun hall => ?_, fun hcnt i δ hδ => ?_⟩, fun i δ x v hδ hx hne => ?_⟩
  · have use : ∀ i < S.deltas.length, (i < puts.length → i < S.deltas.length / 2) ∧ (puts.length < i → S.deltas.length / 2 ≤ i) := by
      intro i hi
      have hδ := List.getElem?_eq_getElem hi
      obtain ⟨v, hv⟩ := hall i _ hδ
      obtain ⟨v', hv'⟩ := at' i _ hδ
      rw [hv'] at hv
      simp only [Option.some.injEq, Prod.mk.injEq] at hv
      exact ((place i _ hδ).1).1 hv.1
    constructor
    · by_contra hcon
      have := (use (puts.length - 1) (by omega)).1 (by omega)
      omega
    · by_contra hcon
      have := (use (puts.length + 1) (by omega)).2 (by omega)
      omega
  · obtain ⟨v, hv⟩ := at' i δ hδ
    have hi := (List.getElem?_eq_some_iff.1 hδ).1
    have := ((place i δ hδ).1).2 ⟨fun h => by omega, fun h => by omega⟩
    rw [this] at hv
    exact ⟨v, hv⟩
  · obtain ⟨v', hv'⟩ := at' i δ hδ
    rw [hx] at hv'
    simp only [Option.some.injEq, Prod.mk.injEq] at hv'
    rw [hv'.1] at hne ⊢
    exact (place i δ hδ).2 hne

/-- The quotes of an expiry that has strikes: all volatilities are numbers. -/
theorem quotes_fin {S : FxSurface} {sv : FxSolvers} {day : SmileDay} {Ks : List ℝ} (h : QuoteStrikes S sv day Ks)
    (hl : day.vols.length = S.deltas.length) :
    ∃ quotes : List DeltaQuote, quotes.map (fun q => Npf.fin q.vol) = day.vols ∧ quotes.map (·.delta) = S.deltas ∧ (∀ q ∈ quotes, 0 < q.vol) ∧
      (day.vols.zip S.deltas).map (fun p => (⟨volNumber p.1, p.2⟩ : DeltaQuote)) = quotes := by
  obtain ⟨-, hq, -⟩ := strike_ok h
  refine ⟨_, ?_, ?_, fun q hqm => (hq q hqm).1, rfl⟩
  · rw [List.map_map]
    have : (day.vols.zip S.deltas).map ((fun q : DeltaQuote => Npf.fin q.vol) ∘ fun p => (⟨volNumber p.1, p.2⟩ : DeltaQuote)) =
        (day.vols.zip S.deltas).map Prod.fst := by
      refine List.map_congr_left (fun p hp => ?_)
      have hv := (hq _ (List.mem_map.2 ⟨p, hp, rfl⟩)).1
      simp only [Function.comp]
      cases e : p.1 with
      | fin v => rfl
      | _ => rw [e] at hv; simp only [volNumber] at hv; exact absurd hv (lt_irrefl _)
    rw [this, List.map_fst_zip (by omega)]
  · rw [List.map_map]
    exact List.map_snd_zip (by omega)

/-- **C101.**  With either spline the two halves of the line meet the neutral quote at its volatility, but under spot deltas not at its place: the
mark is at 50, the puts end at 50 times the foreign discount factor and the calls begin at 100 less that.  Under forward deltas both are at 50. -/
theorem C101_smile_neutral (S : FxSurface) (names : List Str) (sv : FxSolvers) (hsv : SplinesInterpolate sv)
    (hm : S.method = .univariate ∨ S.method = .cubic) (before : List SurfaceQuery) (d : Int) (st' : SmileState) (p : SmilePlot)
    (h : plotSmile S names sv (history S sv before) d = (st', .ok p)) (hl : ∀ day ∈ S.daily, day.vols.length = S.deltas.length)
    (hq : ∀ i : Nat, names[i]? = some "atm_delta_neutral".toList → S.deltas[i]? = some 0.5) :
    ∃ day ∈ S.daily, day.expiry = d ∧ ∃ (i : Nat) (vol : ℝ), names[i]? = some "atm_delta_neutral".toList ∧ day.vols[i]? = some (.fin vol) ∧ 0 < vol ∧
      p.marks[i]? = some (50, .fin vol) ∧ p.line[99]? = some (some (50 * deltaFactor day), .fin vol) ∧
      p.line[100]? = some (some (100 - 50 * deltaFactor day), .fin vol) := by
  obtain ⟨day, Ks, lo, n, hi, hd, hday, hexp, hconv, hK, ⟨i, hn1, hn2, -⟩, -, -, -, -, hpt⟩ := line_spec S names sv before d st' p h
  obtain ⟨quotes, hq1, hq2, hq3, hq4⟩ := quotes_fin hK (hl day hday)
  have hδ := hq i hn1
  have hKi : QuoteStrike S sv day i n := by
    refine ⟨quotes, Ks.map some, hq1, hq2, ?_, by rw [List.getElem?_map, hn2]; rfl⟩
    have := hK
    unfold QuoteStrikes at this
    rwa [hq4] at this
  obtain ⟨q, hqi, hqd⟩ : ∃ q, quotes[i]? = some q ∧ q.delta = 0.5 := by
    rw [← hq2, List.getElem?_map] at hδ
    cases e : quotes[i]? with
    | none => rw [e] at hδ; cases hδ
    | some q => rw [e] at hδ; simp only [Option.map_some, Option.some.injEq] at hδ; exact ⟨q, rfl, hδ⟩
  have hvi : day.vols[i]? = some (.fin q.vol) := by rw [← hq1, List.getElem?_map, hqi]; rfl
  have hvp := hq3 q (List.mem_of_getElem? hqi)
  obtain ⟨hmk, -, ho⟩ := strike_ok hK
  have hF := forward_pos hmk
  have hn : n = day.fwd * Real.exp (0.5 * q.vol ^ 2 * day.years) := by
    have hr : ∀ spot, regularStrike ⟨S.spot, day.years, day.rd, day.rf, some day.fwd⟩ spot .forward q =
        some (day.fwd * Real.exp (0.5 * q.vol ^ 2 * day.years)) := by
      intro spot
      unfold regularStrike
      simp only [hqd]
      rw [if_pos ⟨by norm_num [abs_of_pos], trivial⟩]
      rfl
    have key : ∀ spot, quotes.map (regularStrike ⟨S.spot, day.years, day.rd, day.rf, some day.fwd⟩ spot .forward) = Ks.map some →
        n = day.fwd * Real.exp (0.5 * q.vol ^ 2 * day.years) := by
      intro spot he
      have h1 : (Ks.map some)[i]? = some (some n) := by rw [List.getElem?_map, hn2]; rfl
      rw [← he, List.getElem?_map, hqi, Option.map_some, hr] at h1
      simpa using h1.symm
    rw [hq4] at ho
    rcases hconv with hc | hc <;> rw [hc] at ho <;> simp only [Except.ok.injEq] at ho
    · exact key true ho
    · exact key false ho
  have hd1 : smileD1 day n q.vol = 0 := by
    have hs : q.vol * Real.sqrt day.years ≠ 0 := (mul_pos hvp (Real.sqrt_pos.2 hmk.2.1)).ne'
    have hFd : 0 < day.fwd := hmk.2.2 _ rfl
    have := strike_d1 (F := day.fwd) (z := 0) hFd hs
    unfold smileD1
    rw [hn]
    rw [sq_s hmk.2.1.le] at this
    have e : -0 * (q.vol * Real.sqrt day.years) + q.vol ^ 2 * day.years / 2 = 0.5 * q.vol ^ 2 * day.years := by ring
    simp only at this
    rwa [e] at this
  have hat : ∀ j < 200, lineStrike lo n hi j = n → ∃ x, p.line[j]? = some (x, .fin q.vol) ∧
      x = some (if j < 100 then 100 * (deltaFactor day * (1 / 2)) else 100 - 100 * (deltaFactor day * (1 / 2))) := by
    intro j hj hjn
    obtain ⟨v, x, hx, ha, hx1, -⟩ := hpt j hj
    rw [hjn] at ha hx1
    have hv := C82_spline_quotes S sv hsv hm [] [d] [n] _ _ ha 0 _ rfl i hKi
    rw [hvi] at hv
    simp only [Option.some.injEq] at hv
    subst hv
    refine ⟨x, hx, ?_⟩
    rw [hx1 q.vol rfl hvp.ne', hd1, neg_zero, normCdf_zero]
  obtain ⟨x1, h1, e1⟩ := hat 99 (by norm_num) (by unfold lineStrike; norm_num)
  obtain ⟨x2, h2, e2⟩ := hat 100 (by norm_num) (by unfold lineStrike; norm_num)
  refine ⟨day, hday, hexp, i, q.vol, hn1, hvi, hvp, ?_, ?_, ?_⟩
  · obtain ⟨day', hd', -, -, -, hmark⟩ := marks_spec S names sv before d st' p h
    rw [hd] at hd'
    cases hd'
    rw [hmark i _ _ hδ hvi]
    have : (if i < S.deltas.length / 2 then 100 * |(0.5 : ℝ)| else 100 - 100 * 0.5) = 50 := by split <;> norm_num [abs_of_pos]
    rw [this]
  · rw [h1, e1, if_pos (by norm_num)]
    congr 3
    ring
  · rw [h2, e2, if_neg (by norm_num)]
    congr 3
    ring

theorem firstErr_of {α : Type} {f : Int → Except Err α} : ∀ {ds : List Int}, (∀ d ∈ ds, ∃ a, f d = .ok a) → firstErr f ds = .ok ()
  | [], _ => rfl
  | d :: ds, h => by
    obtain ⟨a, ha⟩ := h d List.mem_cons_self
    simp only [firstErr, ha]
    exact firstErr_of (fun e he => h e (List.mem_cons_of_mem _ he))

theorem mapM_ok_of {α β : Type} {f : α → Except Err β} : ∀ {l : List α}, (∀ x ∈ l, ∃ y, f x = .ok y) → ∃ out, l.mapM f = .ok out
  | [], _ => ⟨[], rfl⟩
  | a :: l, h => by
    obtain ⟨y, hy⟩ := h a List.mem_cons_self
    obtain ⟨ys, hys⟩ := mapM_ok_of (fun x hx => h x (List.mem_cons_of_mem _ hx))
    refine ⟨y :: ys, ?_⟩
    simp only [List.mapM_cons, hy, hys]
    rfl

theorem neutral_of {names : List Str} {Ks : List ℝ} {K : ℝ} (h : IsNeutral names Ks K) : neutralStrike names Ks = .ok K := by
  obtain ⟨i, h1, h2, h3⟩ := h
  unfold neutralStrike
  generalize "atm_delta_neutral".toList = s at h1 h3 ⊢
  have key : ∀ (names : List Str) (Ks : List ℝ) (i : Nat), names[i]? = some s → Ks[i]? = some K →
      (∀ j : Nat, j < Ks.length → names[j]? = some s → j = i) → (names.zip Ks).filter (fun p => p.1 = s) = [(s, K)] := by
    intro names
    induction names with
    | nil => intro Ks i h; simp at h
    | cons a names ih =>
      intro Ks i h1 h2 h3
      cases Ks with
      | nil => simp at h2
      | cons k Ks =>
        cases i with
        | zero =>
          simp only [List.getElem?_cons_zero, Option.some.injEq] at h1 h2
          subst h1 h2
          rw [List.zip_cons_cons, List.filter_cons_of_pos (by simp)]
          congr 1
          rw [List.filter_eq_nil_iff]
          intro p hp
          obtain ⟨j, hj⟩ := List.mem_iff_getElem?.1 hp
          rw [List.getElem?_zip_eq_some] at hj
          intro hps
          have := h3 (j + 1) (by simpa using (List.getElem?_eq_some_iff.1 hj.2).1) (by
            rw [List.getElem?_cons_succ, hj.1]
            simpa using hps)
          omega
        | succ i =>
          have hne : a ≠ s := by
            intro he
            have := h3 0 (by simp) (by simp [he])
            omega
          rw [List.zip_cons_cons, List.filter_cons_of_neg (by simpa using hne)]
          exact ih Ks i (by simpa using h1) (by simpa using h2) (fun j hj hn => by
            have := h3 (j + 1) (by simpa using hj) (by simpa using hn)
            omega)
  rw [key names Ks i h1 h2 h3]

/-- **C101.**  With either spline the figure is drawn exactly when the smile can be solved, one quote is in the column `atm_delta_neutral`, and the
deltas are not premium-adjusted. -/
theorem C101_smile_drawn (S : FxSurface) (names : List Str) (sv : FxSolvers) (hm : S.method = .univariate ∨ S.method = .cubic)
    (before : List SurfaceQuery) (d : Int) :
    (∃ p, (plotSmile S names sv (history S sv before) d).2 = .ok p) ↔
      (ask S sv .fresh (.smiles [d])).2 = .ok .done ∧ ∃ day Ks n, dayOf S d = some day ∧
        (day.conv = .regularSpot ∨ day.conv = .regularForward) ∧ QuoteStrikes S sv day Ks ∧ IsNeutral names Ks n := by
  have hc := history_cacheOk S sv before
  have hask : (ask S sv .fresh (.smiles [d])).2 = (solveDay S sv d).map (fun _ => SurfaceAnswer.done) := by
    show ((solveSmiles S sv .fresh [d]).2).map _ = _
    rw [solve_one (fresh_cacheOk S sv)]
    cases solveDay S sv d <;> rfl
  constructor
  · rintro ⟨p, hp⟩
    cases hx : plotSmile S names sv (history S sv before) d with
    | mk st' r =>
      rw [hx] at hp
      simp only at hp
      subst hp
      obtain ⟨st1, day, Ks, n, pts, greeks, delta, hs, hd, hK, hn, hi, hg, hcv, rfl⟩ := plotSmile_ok hx
      obtain ⟨day', _, _, _, _, hd', -, -, hconv, -⟩ := line_spec S names sv before d st' _ hx
      rw [hd] at hd'
      cases hd'
      refine ⟨?_, day, Ks, n, hd, hconv, hK, neutral_spec hn⟩
      have := solve_one hc d
      rw [hs] at this
      rw [hask]
      cases hsd : solveDay S sv d with
      | error e => rw [hsd] at this; cases this
      | ok f => rfl
  · rintro ⟨hs, day, Ks, n, hd, hconv, hK, hn⟩
    rw [hask] at hs
    cases hsd : solveDay S sv d with
    | error e => rw [hsd] at hs; cases hs
    | ok smile =>
      have hfit : fitDay S sv day = .ok smile := by unfold solveDay at hsd; rw [hd] at hsd; exact hsd
      have hds : dayStrikes S sv day = .ok (Ks.map some) := hK
      obtain ⟨f, rfl⟩ : ∃ f, smile = .spline f := by
        have hfit' := hfit
        unfold fitDay at hfit'
        have conv : ∀ (x : Except Err (ℝ → Option ℝ)) sm, x.map Smile.spline = .ok sm → ∃ f, sm = .spline f := by
          intro x sm hx
          cases x with
          | error e => cases hx
          | ok f => cases hx; exact ⟨f, rfl⟩
        rcases hm with hm | hm <;> simp only [hm, hds, (mapM_id_some _ _).2 rfl] at hfit' <;> split at hfit'
        · cases hfit'
        · exact conv _ _ hfit'
        · cases hfit'
        · exact conv _ _ hfit'
      have hsv : ∀ K cp, ∃ v, smileVol S sv (.spline f) day K cp = .ok v := by
        intro K cp
        unfold smileVol
        rcases hm with hm | hm <;> simp only [hm] <;> cases f K <;> exact ⟨_, rfl⟩
      rw [plot_solved hc hd hfit]
      simp only [hds, (mapM_id_some _ _).2 rfl, neutral_of hn]
      obtain ⟨pts, hpts⟩ : ∃ pts, (interpVolSurface S sv .fresh (List.replicate 200 d) (plotStrikes n Ks) plotFlags).2 = .ok pts := by
        rw [interp_fresh (fresh_cacheOk S sv), if_neg (by rw [plotStrikes_length, plotFlags_length, List.length_replicate]; simp),
          firstErr_of (fun e he => ⟨.spline f, by rw [List.eq_of_mem_replicate he]; exact hsd⟩)]
        refine mapM_ok_of (fun o ho => ?_)
        have ho1 : o.1 = d := List.eq_of_mem_replicate (List.of_mem_zip (show (o.1, o.2) ∈ _ from ho)).1
        obtain ⟨v, hv⟩ := hsv o.2.1 o.2.2
        unfold freshPoint
        rw [ho1, hd, hsd]
        simp only [hv]
        exact ⟨_, rfl⟩
      obtain ⟨-, -, hlen, hget⟩ := points_spec (fresh_cacheOk S sv) hpts
      obtain ⟨hmk, -, -⟩ := strike_ok hK
      have hvalid : ∀ x ∈ pts.map (surfaceGkRow S), gkValid x := by
        intro x hx
        obtain ⟨q, hq, rfl⟩ := List.mem_map.1 hx
        obtain ⟨k, hk⟩ := List.mem_iff_getElem?.1 hq
        have hk2 : k < 200 := by
          have := (List.getElem?_eq_some_iff.1 hk).1
          rwa [hlen, List.length_replicate] at this
        obtain ⟨day', smile, v, hd', -, -, -, hp⟩ := hget k d _ _ (by rw [List.getElem?_replicate, if_pos hk2]) (plotStrikes_get n Ks hk2) (plotFlags_get hk2)
        rw [hd] at hd'
        cases hd'
        rw [hk] at hp
        cases hp
        refine ⟨hmk.1, hmk.2.1.le, ?_, hmk.2.2⟩
        show (if k < 100 then (-1 : ℝ) else 1) = 1 ∨ (if k < 100 then (-1 : ℝ) else 1) = -1
        split
        · exact Or.inr rfl
        · exact Or.inl rfl
      rw [hpts]
      simp only
      unfold garmanKohlhagenGreeks
      rw [if_neg (by push Not; exact hvalid)]
      rcases hconv with hcv | hcv <;> rw [hcv] <;> exact ⟨_, rfl⟩

/-! ### A smile that is drawn -/

/-- Splines that pass through their points, where that is possible, and are `nan` elsewhere. -/
noncomputable def throughPoints (xs ys : List ℝ) : Except Err (ℝ → Option ℝ) :=
  if ∀ (i j : Nat) x y y', xs[i]? = some x → ys[i]? = some y → xs[j]? = some x → ys[j]? = some y' → y = y' then
    .ok (fun x => if h : ∃ y, ∃ i : Nat, xs[i]? = some x ∧ ys[i]? = some y then some h.choose else none)
  else .error .value

/-- Solvers with those splines. -/
noncomputable def throughSolvers : FxSolvers :=
  ⟨fun _ _ => .error .runtime, fun _ _ => .error .value, fun _ _ => .error .value, fun _ _ => .error .value, fun _ => throughPoints, throughPoints⟩

theorem through_interpolate : SplinesInterpolate throughSolvers := by
  have key : ∀ xs ys f, throughPoints xs ys = .ok f → ∀ (i : Nat) x y, xs[i]? = some x → ys[i]? = some y → f x = some y := by
    intro xs ys f hf i x y hx hy
    unfold throughPoints at hf
    split at hf
    · rename_i hfun
      cases hf
      have h : ∃ y, ∃ i : Nat, xs[i]? = some x ∧ ys[i]? = some y := ⟨y, i, hx, hy⟩
      simp only [dif_pos h]
      obtain ⟨j, hj1, hj2⟩ := h.choose_spec
      rw [hfun i j x y _ hx hy hj1 hj2]
    · cases hf
  exact ⟨fun _ => key, key⟩

/-- An expiry in a year with three quotes at the same volatility. -/
noncomputable def flatDay : SmileDay := ⟨738000, 1, 1.1, 0.03, 0.02, .regularForward, [.fin 0.1, .fin 0.1, .fin 0.1]⟩

/-- A surface with that expiry. -/
noncomputable def flatSurface : FxSurface := ⟨1.1, [-0.25, 0.5, 0.25], [-1, 1, 1], [flatDay], .univariate⟩

/-- The names of its quotes. -/
def flatNames : List Str := ["25_delta_put".toList, "atm_delta_neutral".toList, "25_delta_call".toList]

/-- The smile of that surface is drawn: the hypotheses of the theorems are met. -/
example : (∃ st p, plotSmile flatSurface flatNames throughSolvers (history flatSurface throughSolvers []) 738000 = (st, .ok p)) ∧
    SplinesInterpolate throughSolvers ∧ (∀ day ∈ flatSurface.daily, day.vols.length = flatSurface.deltas.length) ∧
    (∀ i : Nat, flatNames[i]? = some "atm_delta_neutral".toList → flatSurface.deltas[i]? = some 0.5) ∧
    flatSurface.deltas = [-0.25] ++ 0.5 :: [0.25] := by
  refine ⟨?_, through_interpolate, ?_, ?_, rfl⟩
  · have hd : dayOf flatSurface 738000 = some flatDay := by simp [dayOf, flatSurface, flatDay]
    have hq : ∀ q ∈ (flatDay.vols.zip flatSurface.deltas).map (fun p => (⟨volNumber p.1, p.2⟩ : DeltaQuote)),
        0 < q.vol ∧ -0.5 ≤ q.delta ∧ q.delta ≤ 0.5 ∧ q.delta ≠ 0 ∧ |q.delta| < 1 := by
      simp only [flatDay, flatSurface, List.zip_cons_cons, List.zip_nil_right, List.map_cons, List.map_nil, volNumber, List.mem_cons,
        List.not_mem_nil, or_false]
      rintro q (rfl | rfl | rfl) <;> norm_num [abs_lt]
    obtain ⟨Ks, hl, hK⟩ := forward_strikes ⟨flatSurface.spot, flatDay.years, flatDay.rd, flatDay.rf, some flatDay.fwd⟩ _
      (fun q hqm => (hq q hqm).2.2.2)
    have hs : QuoteStrikes flatSurface throughSolvers flatDay Ks := by
      unfold QuoteStrikes gkStrikeFromDelta
      rw [if_neg]
      · rw [← (mapM_id_some _ _).1 hK]
        rfl
      · rintro (h | ⟨q, hqm, h⟩)
        · apply h
          refine ⟨by norm_num [flatSurface], by norm_num [flatDay], ?_⟩
          rintro F hF
          cases hF
          norm_num [flatDay]
        · exact h ⟨(hq q hqm).1, (hq q hqm).2.1, (hq q hqm).2.2.1⟩
    have hs' : dayStrikes flatSurface throughSolvers flatDay = .ok (Ks.map some) := hs
    have hl3 : Ks.length = 3 := by rw [hl]; simp [flatDay, flatSurface]
    have hfit : ∃ smile, fitDay flatSurface throughSolvers flatDay = .ok smile := by
      simp only [fitDay]
      rw [show flatSurface.method = .univariate from rfl]
      simp only [hs', (mapM_id_some _ _).2 rfl]
      rw [if_neg (by simp [flatDay])]
      show ∃ smile, (throughPoints Ks (flatDay.vols.map volNumber)).map Smile.spline = .ok smile
      unfold throughPoints
      rw [if_pos]
      · exact ⟨_, rfl⟩
      · intro i j x y y' _ h1 _ h2
        have hy : ∀ y, y ∈ flatDay.vols.map volNumber → y = 0.1 := by simp [flatDay, volNumber]
        rw [hy y (List.mem_of_getElem? h1), hy y' (List.mem_of_getElem? h2)]
    obtain ⟨smile, hfit⟩ := hfit
    have hdraw := (C101_smile_drawn flatSurface flatNames throughSolvers (Or.inl rfl) [] 738000).2 ⟨by
      show ((solveSmiles flatSurface throughSolvers .fresh [738000]).2).map _ = _
      rw [solve_one (fresh_cacheOk _ _)]
      unfold solveDay
      rw [hd]
      simp only [hfit]
      rfl, flatDay, Ks, Ks[1], hd, Or.inr rfl, hs, 1, rfl, List.getElem?_eq_getElem (by omega), by
      intro j hj hn
      rw [hl3] at hj
      have : j = 0 ∨ j = 1 ∨ j = 2 := by omega
      rcases this with rfl | rfl | rfl
      · exact absurd hn (by decide)
      · rfl
      · exact absurd hn (by decide)⟩
    obtain ⟨p, hp⟩ := hdraw
    exact ⟨_, p, Prod.ext rfl hp⟩
  · simp [flatSurface, flatDay]
  · intro i hi
    have hlt : i < 3 := (List.getElem?_eq_some_iff.1 hi).1
    have : i = 0 ∨ i = 1 ∨ i = 2 := by omega
    rcases this with rfl | rfl | rfl
    · exact absurd hi (by decide)
    · simp [flatSurface]
    · exact absurd hi (by decide)

end Frm.Props
