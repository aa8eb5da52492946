import Verif.Model.OptionletPricing
import Verif.Proofs.Sort
import Verif.Proofs.ZeroCurve
import Verif.Props.C33
import Verif.Props.C67

/-! # Lemmas about strips of optionlets -/

namespace Frm
open Classical Frm.Props Frm.Spec

set_option autoImplicit false

theorem bindOk {α β : Type} {x : Except Err α} {f : α → Except Err β} {b : β} (h : x.bind f = .ok b) : ∃ a, x = .ok a ∧ f a = .ok b := by
  cases x with
  | error e => cases h
  | ok a => exact ⟨a, rfl, h⟩

theorem sameShape_same {s e : List Int} (h : s.length = e.length) : sameShape s e = (s, e) := by
  match s, e, h with
  | [], [], _ => rfl
  | [x], [y], _ => rfl
  | x :: y :: l, z :: w :: m, _ => rfl

theorem yearFrac_same {s e : List Int} {b : DayCountBasis} (hl : s.length = e.length) {r : List Rat}
    (h : yearFrac s e b none = .ok r) : r.length = s.length ∧
      ∀ (i : Nat) (x y : Int), s[i]? = some x → e[i]? = some y →
        ∃ q, yearFrac [x] [y] b (some [decide (s.length ≤ i + 1)]) = .ok [q] ∧ r[i]? = some q := by
  constructor
  · rw [yearFrac_length h, sameShape_same hl]
    simp [hl]
  · intro i x y hx hy
    obtain ⟨-, q, hq, hr⟩ := yearFrac_get_flag h (by rw [sameShape_same hl]; exact hx) (by rw [sameShape_same hl]; exact hy)
    rw [sameShape_same hl] at hq
    simp only [← hl] at hq
    exact ⟨q, hq, hr⟩

theorem yearFrac_since {cd : Int} {e : List Int} {b : DayCountBasis} (he : e ≠ []) {r : List Rat}
    (h : yearFrac [cd] e b none = .ok r) : r.length = e.length ∧
      ∀ (i : Nat) (y : Int), e[i]? = some y →
        ∃ q, yearFrac [cd] [y] b (some [decide (e.length ≤ i + 1)]) = .ok [q] ∧ r[i]? = some q := by
  refine ⟨by rw [yearFrac_length h, sameShape_lengths he], fun i y hy => ?_⟩
  obtain ⟨h1, h2⟩ := sameShape_left e cd i y hy
  obtain ⟨-, q, hq, hr⟩ := yearFrac_get_flag h h1 h2
  have : (sameShape [cd] e).2 = e := by
    match e, he with
    | [a], _ => rfl
    | a :: c :: l, _ => rfl
  rw [this] at hq
  exact ⟨q, hq, hr⟩

theorem forwardRates_length {z : ZeroCurve} {s e : List Int} {F : List (Option ℝ)}
    (h : z.forwardRates s e .simple = .ok F) : F.length = s.length := by
  unfold ZeroCurve.forwardRates at h
  simp only [bind] at h
  obtain ⟨u, hu, h⟩ := bindOk h
  have hl : s.length = e.length := by
    unfold pyAssert at hu
    split at hu
    · exact of_decide_eq_true ‹_›
    · cases hu
  obtain ⟨-, -, h⟩ := bindOk h
  obtain ⟨-, -, h⟩ := bindOk h
  unfold ratioRates at h
  simp only [bind] at h
  obtain ⟨dts, hd, h⟩ := bindOk h
  obtain ⟨ratio, -, h⟩ := bindOk h
  obtain ⟨rows, -, h⟩ := bindOk h
  by_cases hr : rows.length ≠ dts.length
  · rw [if_pos hr] at h; cases h
  · rw [if_neg hr] at h
    cases h
    rw [List.length_map, not_not.1 hr, (yearFrac_same hl hd).1]

theorem interpolateSabr_ok {roots : List ℝ → List ℂ} {o : OptionletCurve} {rows : List StripRow} {out : List SmileAt}
    (h : interpolateSabr roots o rows = .ok out) : ∃ F taus, o.zero.forwardRates (rows.map (·.start)) (rows.map (·.finish)) .simple = .ok F ∧
      yearFrac [o.curveDate] (rows.map (·.start)) o.basis none = .ok taus ∧ rows ≠ [] ∧ (rows.map (·.start)).Nodup ∧
      ((rows.map (·.start)).zip (F.zip taus)).mapM (fun p => smileAt roots o p.1 p.2.1 (p.2.2 : ℝ)) = .ok out := by
  unfold interpolateSabr at h
  simp only [bind] at h
  obtain ⟨F, hF, h⟩ := bindOk h
  obtain ⟨taus, ht, h⟩ := bindOk h
  by_cases hc : rows = [] ∨ ¬ (rows.map (·.start)).Nodup
  · rw [if_pos hc] at h; cases h
  · rw [if_neg hc] at h
    push Not at hc
    exact ⟨F, taus, hF, ht, hc.1, hc.2, h⟩

theorem interpolateSabr_get {roots : List ℝ → List ℂ} {o : OptionletCurve} {rows : List StripRow} {out : List SmileAt}
    (h : interpolateSabr roots o rows = .ok out) : out.length = rows.length ∧
      ∃ F, o.zero.forwardRates (rows.map (·.start)) (rows.map (·.finish)) .simple = .ok F ∧
      ∀ (i : Nat) (r : StripRow), rows[i]? = some r → ∃ s q, out[i]? = some s ∧ yearFrac [o.curveDate] [r.start] o.basis (some [decide (rows.length ≤ i + 1)]) = .ok [q] ∧
        ∃ f, F[i]? = some f ∧ smileAt roots o r.start f (q : ℝ) = .ok s := by
  obtain ⟨F, taus, hF, ht, hne, -, hm⟩ := interpolateSabr_ok h
  have hFl := forwardRates_length hF
  have htl := yearFrac_since (by simpa using hne) ht
  have hg := mapM_get hm
  rw [List.length_map] at hFl
  have htl1 := htl.1
  rw [List.length_map] at htl1
  refine ⟨by rw [hg.1]; simp [hFl, htl1], F, hF, fun i r hr => ?_⟩
  have hi : i < rows.length := (List.getElem?_eq_some_iff.1 hr).1
  have hs : (rows.map (·.start))[i]? = some r.start := by rw [List.getElem?_map, hr]; rfl
  obtain ⟨q, hq, hqi⟩ := htl.2 i r.start hs
  rw [List.length_map] at hq
  obtain ⟨f, hf⟩ : ∃ f, F[i]? = some f := ⟨_, List.getElem?_eq_getElem (by omega)⟩
  obtain ⟨s, hs1, hs2⟩ := hg.2 i (r.start, f, q) (List.getElem?_zip_eq_some.2 ⟨hs, List.getElem?_zip_eq_some.2 ⟨hf, hqi⟩⟩)
  exact ⟨s, q, hs1, hq, f, hf, hs2⟩

theorem smileAt_ok {roots : List ℝ → List ℂ} {o : OptionletCurve} {start : Int} {F : Option ℝ} {tau : ℝ} {s : SmileAt}
    (h : smileAt roots o start F tau = .ok s) : s.start = start ∧ s.expiryYears = tau ∧ F = some s.F ∧ 0 < tau ∧
      interpolatedColumn o.pillars (·.volN) start = some s.volN ∧ interpolatedColumn o.pillars (·.beta) start = some s.beta ∧
      interpolatedColumn o.pillars (·.rho) start = some s.rho ∧ interpolatedColumn o.pillars (·.volvol) start = some s.volvol ∧
      normalVolAtmToSlnAtm s.F tau s.volN o.shift = .fin s.volSln ∧
      solveAlpha roots tau s.F s.beta s.rho s.volvol s.volSln o.shift = .ok s.alpha := by
  unfold smileAt at h
  split at h
  · rename_i F n b r v h1 h2 h3 h4
    by_cases ht : 0 < tau
    · split at h
      · rename_i sv hsv
        cases ha : solveAlpha roots tau F b r v sv o.shift with
        | error e => rw [ha] at h; cases h
        | ok a =>
          rw [ha] at h
          cases h
          exact ⟨rfl, rfl, rfl, ht, h1, h2, h3, h4, hsv, ha⟩
      · cases h
    · have : normalVolAtmToSlnAtm F tau n o.shift = .nan := by
        unfold normalVolAtmToSlnAtm
        rw [if_pos (.inl (not_lt.1 ht))]
      rw [this] at h
      cases h
  · cases h

theorem smileAt_defined {roots : List ℝ → List ℂ} {o : OptionletCurve} {start : Int} {tau F n b r v sv a : ℝ}
    (h1 : interpolatedColumn o.pillars (·.volN) start = some n) (h2 : interpolatedColumn o.pillars (·.beta) start = some b)
    (h3 : interpolatedColumn o.pillars (·.rho) start = some r) (h4 : interpolatedColumn o.pillars (·.volvol) start = some v)
    (h5 : normalVolAtmToSlnAtm F tau n o.shift = .fin sv) (h6 : solveAlpha roots tau F b r v sv o.shift = .ok a) :
    smileAt roots o start (some F) tau = .ok ⟨start, tau, F, n, sv, a, b, r, v⟩ := by
  unfold smileAt
  rw [h1, h2, h3, h4]
  simp only
  rw [h5]
  simp only
  rw [h6]
  rfl

theorem validateStrike_iff (K : StrikeArg) (cp : FlagArg) (n : Nat) : validateStrike K cp n = .ok () ↔
    (∃ k i, K = .number k ∧ cp = .int i ∧ (i = -1 ∨ i = 1)) ∨
    (∃ k c, K = .array k ∧ cp = .array c ∧ k.length = n ∧ c.length = n ∧ ∀ v ∈ c, v = -1 ∨ v = 1) := by
  unfold validateStrike pyAssert
  cases K with
  | other => simp [bind, Except.bind]
  | number k =>
    cases cp with
    | other => simp [bind, Except.bind, pure, Except.pure]
    | int i => by_cases h : i = -1 ∨ i = 1 <;> simp [bind, Except.bind, pure, Except.pure, h]
    | array c =>
      by_cases h1 : c.length = n <;> simp [bind, Except.bind, pure, Except.pure, h1]
      split <;> simp
  | array k =>
    by_cases h0 : k.length = n
    · cases cp with
      | other => simp [bind, Except.bind, pure, Except.pure, h0]
      | int i => by_cases h : i = -1 ∨ i = 1 <;> simp [bind, Except.bind, pure, Except.pure, h, h0]
      | array c =>
        by_cases h1 : c.length = n
        · by_cases h2 : ∀ v ∈ c, v = -1 ∨ v = 1
          · have : (c.all (fun v => decide (v = -1 ∨ v = 1))) = true := List.all_eq_true.2 (fun v hv => decide_eq_true (h2 v hv))
            simp only [h0, h1, this, bind, Except.bind, pure, Except.pure, decide_true, if_true, true_iff]
            exact Or.inr ⟨k, c, rfl, rfl, h0, h1, h2⟩
          · have : (c.all (fun v => decide (v = -1 ∨ v = 1))) = false := by
              rw [← Bool.not_eq_true]
              intro hc
              exact h2 (fun v hv => of_decide_eq_true (List.all_eq_true.1 hc v hv))
            simp only [h0, h1, this, bind, Except.bind, pure, Except.pure, decide_true, if_true, Bool.false_eq_true, if_false, reduceCtorEq, false_iff]
            rintro (⟨k', i, hk, -⟩ | ⟨k', c', hk, hc, -, -, ha⟩)
            · cases hk
            · cases hc; exact h2 ha
        · simp [bind, Except.bind, pure, Except.pure, h0, h1]
    · simp [bind, Except.bind, h0]

theorem pyAssert_error {b : Bool} {e : Err} (h : pyAssert b = .error e) : e = .assertion := by
  unfold pyAssert at h
  split at h <;> cases h
  rfl

theorem bindError {α β : Type} {x : Except Err α} {f : α → Except Err β} {e : Err} (h : x.bind f = .error e) :
    x = .error e ∨ ∃ a, x = .ok a ∧ f a = .error e := by
  cases x with
  | error e' => cases h; exact Or.inl rfl
  | ok a => exact Or.inr ⟨a, rfl, h⟩

theorem validateStrike_error {K : StrikeArg} {cp : FlagArg} {n : Nat} {e : Err} (h : validateStrike K cp n = .error e) : e = .assertion := by
  unfold validateStrike at h
  simp only [bind, pure] at h
  cases K <;> cases cp <;> simp only [Except.pure] at h <;>
    repeat' first
      | exact pyAssert_error h
      | (cases h; rfl)
      | (cases h; done)
      | (rcases bindError h with h | ⟨_, _, h⟩)

theorem column_length {K : StrikeArg} {cp : FlagArg} {n : Nat} (h : validateStrike K cp n = .ok ()) :
    (K.column n).length = n ∧ (cp.column n).length = n := by
  rcases (validateStrike_iff K cp n).1 h with ⟨k, i, rfl, rfl, -⟩ | ⟨k, c, rfl, rfl, h1, h2, -⟩
  · simp [StrikeArg.column, FlagArg.column]
  · simp [StrikeArg.column, FlagArg.column, h1, h2]

/-- The strikes handed to the smile. -/
noncomputable def StrikeArg.handed (K : StrikeArg) (n : Nat) : StripVol → List ℝ
  | .termStructure => match K with | .number k => [k] | _ => K.column n
  | _ => K.column n

theorem overrideColumn_get {n : Nat} {v l : List ℝ} (h : overrideColumn n v = .ok l) : l.length = n ∧
    ∀ i < n, ∃ x, l[i]? = some x ∧ (v = [x] ∨ (v.length = n ∧ v[i]? = some x)) := by
  unfold overrideColumn at h
  split at h
  · rename_i x
    cases h
    exact ⟨by simp, fun i hi => ⟨x, by rw [List.getElem?_replicate, if_pos hi], Or.inl rfl⟩⟩
  · by_cases hl : v.length = n
    · rw [if_pos hl] at h
      cases h
      exact ⟨hl, fun i hi => ⟨v[i], List.getElem?_eq_getElem (by omega), Or.inr ⟨hl, List.getElem?_eq_getElem (by omega)⟩⟩⟩
    · rw [if_neg hl] at h; cases h

theorem calcSabrVols_get {smiles : List SabrSmile} {strikes : List ℝ} {shift : ℝ} {out : List (Option ℝ)}
    (hl : smiles.length = strikes.length ∨ ∃ k, strikes = [k]) (h : calcSabrVols smiles strikes shift = .ok out) :
    out.length = smiles.length ∧ ∀ (i : Nat) s, smiles[i]? = some s →
      ∃ k, (strikes = [k] ∨ strikes[i]? = some k) ∧ out[i]? = some (sabrVol shift (sabrRow s k)) := by
  unfold calcSabrVols at h
  by_cases h1 : 1 < strikes.length ∧ ¬ (smiles.length = strikes.length ∨ smiles.length = 1)
  · rw [if_pos h1] at h; cases h
  · rw [if_neg h1] at h
    by_cases h2 : smiles.length = strikes.length
    · rw [if_pos h2] at h
      cases h
      refine ⟨by simp [h2], fun i s hs => ?_⟩
      have hi : i < smiles.length := (List.getElem?_eq_some_iff.1 hs).1
      refine ⟨strikes[i], Or.inr (List.getElem?_eq_getElem (by omega)), ?_⟩
      rw [List.getElem?_zipWith, hs, List.getElem?_eq_getElem (by omega)]
    · rw [if_neg h2] at h
      rcases hl with hl | ⟨k, rfl⟩
      · exact absurd hl h2
      · cases h
        refine ⟨by simp, fun i s hs => ⟨k, Or.inl rfl, ?_⟩⟩
        rw [List.getElem?_map, hs]
        rfl

theorem discountFactors_get {z : ZeroCurve} {dates : List Int} (h : (z.discountFactors dates).length = dates.length) (i : Nat) (d : Int)
    (hd : dates[i]? = some d) : ∃ x, (z.discountFactors dates)[i]? = some x ∧ z.discountFactors [d] = [x] := by
  unfold ZeroCurve.discountFactors ZeroCurve.indexDates at *
  simp only [List.length_map] at h
  have hall := List.length_filter_eq_length_iff.1 h
  have hf := List.filter_eq_self.2 hall
  have hm : d ∈ dates := List.mem_of_getElem? hd
  simp only
  rw [hf]
  refine ⟨_, by rw [List.getElem?_map, List.getElem?_map, hd]; rfl, ?_⟩
  rw [List.filter_eq_self.2 (fun a ha => by rw [List.mem_singleton] at ha; subst ha; exact hall _ hm)]
  rfl

/-- Everything known of a strip that was priced. -/
theorem priceOptionlets_ok {roots : List ℝ → List ℂ} {o : OptionletCurve} {rows : List StripRow} {K : StrikeArg} {cp : FlagArg}
    {basis : DayCountBasis} {vol : StripVol} {out : List PricedOptionlet} (h : priceOptionlets roots o rows K cp basis vol = .ok out) :
    ∃ fractions smiles vols, yearFrac (rows.map (·.start)) (rows.map (·.finish)) basis none = .ok fractions ∧
      validateStrike K cp rows.length = .ok () ∧ interpolateSabr roots o rows = .ok smiles ∧
      stripVols o smiles (K.handed rows.length vol) vol = .ok vols ∧
      (o.zero.discountFactors (rows.map (·.payment))).length = rows.length ∧
      out = ((smiles.zip ((K.column rows.length).zip (cp.column rows.length))).zip
        (vols.zip ((fractions.zip (o.zero.discountFactors (rows.map (·.payment)))).map (fun p => p.2.map (fun d => (p.1 : ℝ) * d))))).map
        (fun p => priceOptionletRow o.shift (match vol with | .normal _ => true | _ => false) p.1.1 p.1.2.1 p.1.2.2 p.2.1 p.2.2) := by
  unfold priceOptionlets at h
  simp only [bind] at h
  obtain ⟨fr, hfr, h⟩ := bindOk h
  obtain ⟨u, hu, h⟩ := bindOk h
  obtain ⟨sm, hsm, h⟩ := bindOk h
  obtain ⟨vs, hvs, h⟩ := bindOk h
  by_cases hd : (o.zero.discountFactors (rows.map (·.payment))).length ≠ rows.length
  · rw [if_pos hd] at h; cases h
  · rw [if_neg hd] at h
    cases h
    refine ⟨fr, sm, vs, hfr, hu, hsm, ?_, not_not.1 hd, rfl⟩
    rw [← hvs]
    congr 1
    cases vol <;> cases K <;> rfl

end Frm
