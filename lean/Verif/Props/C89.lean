import Verif.Proofs.OptionletPricing
import Verif.Props.C35
import Verif.Props.C55
import Verif.Props.C56
import Verif.Props.C70

/-!
# C89: a strip of optionlets

The strip is priced row by row: the forward from the zero curve, the smile interpolated between the stored dates, the volatility of the
strike from the smile or the one given, the annuity from the year fraction and the discount factor.
-/

namespace Frm
namespace Spec

set_option autoImplicit false

/-- Strikes and flags as the pricing methods want them: both single, the flag plus or minus one; or one of each for every row. -/
def GoodStrikes (n : Nat) (K : StrikeArg) (cp : FlagArg) : Prop :=
  (∃ k, K = .number k ∧ (cp = .int (-1) ∨ cp = .int 1)) ∨
  (∃ k c, K = .array k ∧ cp = .array c ∧ k.length = n ∧ c.length = n ∧ ∀ v ∈ c, v = -1 ∨ v = 1)

/-- The strike of row `i`. -/
def StrikeOf (i : Nat) (k : ℝ) : StrikeArg → Prop
  | .number x => k = x
  | .array l => l[i]? = some k
  | .other => False

/-- The flag of row `i`. -/
def FlagOf (i : Nat) (c : ℝ) : FlagArg → Prop
  | .int n => c = n
  | .array l => l[i]? = some c
  | .other => False

/-- The year fraction from `s` to `e`. -/
def Years (b : DayCountBasis) (s e : Int) (y : ℝ) : Prop := ∃ q, yearFrac [s] [e] b none = .ok [q] ∧ y = q

/-- The year fraction from `s` to `e` as one element of a batch, `final` telling whether it is the last: the same as `Years`, except on the
last day of February under 30E/360 ISDA, which the day count takes for a 30th only when it is not the last. -/
def YearsIn (b : DayCountBasis) (s e : Int) (final : Bool) (y : ℝ) : Prop :=
  (∃ q, yearFrac [s] [e] b (some [final]) = .ok [q] ∧ y = q) ∧ (Spec.Plain b e → Years b s e y)

/-- The volatility given for row `i` of `n`: one for all, or its own. -/
def GivenVol (n i : Nat) (l : List ℝ) (v : Option ℝ) : Prop := ∃ x, v = some x ∧ (l = [x] ∨ (l.length = n ∧ l[i]? = some x))

/-- The volatility of a result, row `i` of `n`: read off its smile at its strike, or given. -/
def VolOf (shift : ℝ) (n i : Nat) (p : PricedOptionlet) : StripVol → Prop
  | .termStructure => calcSabrVols [(p.smile.expiryYears, p.smile.F, p.smile.alpha, p.smile.beta, p.smile.rho, p.smile.volvol)] [p.K]
      shift = .ok [p.vol]
  | .sln l => GivenVol n i l p.vol
  | .normal l => GivenVol n i l p.vol

/-- The values of a result are those of the pricing formula with volatility `v` and annuity `a`. -/
def ValueOf (shift : ℝ) (p : PricedOptionlet) (v a : ℝ) : StripVol → Prop
  | .normal _ => bachelierPrice [⟨p.smile.F, p.smile.expiryYears, p.cp, p.K, v, a⟩] = [p.value]
  | _ => black76Price [⟨p.smile.F, p.smile.expiryYears, p.cp, p.K, v, shift, a⟩] = [p.value]

/-- Delta and vega of a result are those of the pricing formula with volatility `v` and annuity `a`. -/
def GreeksOf (shift : ℝ) (p : PricedOptionlet) (v a : ℝ) : StripVol → Prop
  | .normal _ => ∃ g, bachelierGreeks [⟨p.smile.F, p.smile.expiryYears, p.cp, p.K, v, a⟩] = [g] ∧ p.delta = g.delta ∧ p.vega = g.vega
  | _ => black76Greeks [⟨p.smile.F, p.smile.expiryYears, p.cp, p.K, v, shift, a⟩] = [⟨p.delta, p.vega⟩]

/-- Stored smiles with increasing dates. -/
def InOrder (l : List StoredSmile) : Prop := l.Pairwise (fun p q => p.start < q.start)

/-- `x` is the column's value at the date: the stored one on a stored date, on the straight line between two neighbouring dates, the last one
after the last date. -/
def OnStoredLine (l : List StoredSmile) (column : StoredSmile → ℝ) (d : Int) (x : ℝ) : Prop :=
  (∃ p ∈ l, p.start = d ∧ x = column p) ∨
  (∃ pre p q post, l = pre ++ p :: q :: post ∧ p.start < d ∧ d < q.start ∧
    (x - column p) * ((q.start : ℝ) - p.start) = (column q - column p) * ((d : ℝ) - p.start)) ∨
  (∃ p, l.getLast? = some p ∧ p.start < d ∧ x = column p)

/-- A result that the pricing formulas cover: a positive volatility and time, an annuity and, for lognormal volatilities, a positive shifted
forward and strike. -/
def Covered (shift : ℝ) (vol : StripVol) (p : PricedOptionlet) : Prop :=
  0 < p.smile.expiryYears ∧ (∃ v, p.vol = some v ∧ 0 < v) ∧ (∃ a, p.annuity = some a) ∧
  ((∃ l, vol = .normal l) ∨ (0 < p.smile.F + shift ∧ 0 < p.K + shift))

end Spec
end Frm

namespace Frm.Props
open Classical Set

set_option autoImplicit false

open Frm Frm.Spec

theorem goodStrikes_iff (n : Nat) (K : StrikeArg) (cp : FlagArg) : GoodStrikes n K cp ↔ validateStrike K cp n = .ok () := by
  rw [validateStrike_iff]
  unfold GoodStrikes
  refine or_congr ⟨?_, ?_⟩ Iff.rfl
  · rintro ⟨k, rfl, rfl | rfl⟩
    · exact ⟨k, -1, rfl, rfl, Or.inl rfl⟩
    · exact ⟨k, 1, rfl, rfl, Or.inr rfl⟩
  · rintro ⟨k, i, rfl, rfl, rfl | rfl⟩
    · exact ⟨k, rfl, Or.inl rfl⟩
    · exact ⟨k, rfl, Or.inr rfl⟩

/-- Strikes and flags of the wrong kind, number or value are refused with `AssertionError`, whatever the curve, whenever the year fractions
of the schedule can be computed; a strip that is priced has good ones. -/
theorem C89_strikes (roots : List ℝ → List ℂ) (o : OptionletCurve) (rows : List StripRow) (K : StrikeArg) (cp : FlagArg)
    (basis : DayCountBasis) (vol : StripVol) :
    (∀ f, yearFrac (rows.map (·.start)) (rows.map (·.finish)) basis none = .ok f → ¬ GoodStrikes rows.length K cp →
      priceOptionlets roots o rows K cp basis vol = .error .assertion) ∧
    (∀ out, priceOptionlets roots o rows K cp basis vol = .ok out → GoodStrikes rows.length K cp) := by
  constructor
  · intro f hf hbad
    rw [goodStrikes_iff] at hbad
    unfold priceOptionlets
    rw [hf]
    simp only [bind, Except.bind]
    cases hv : validateStrike K cp rows.length with
    | ok u => exact absurd hv hbad
    | error e => rw [validateStrike_error hv]
  · intro out h
    obtain ⟨_, _, _, -, hv, -⟩ := priceOptionlets_ok h
    exact (goodStrikes_iff _ _ _).2 hv

theorem strikeOf_column {n i : Nat} {k : ℝ} {K : StrikeArg} (h : (K.column n)[i]? = some k) : StrikeOf i k K := by
  cases K with
  | number x =>
    simp only [StrikeArg.column, List.getElem?_replicate] at h
    split at h <;> cases h
    rfl
  | array l => exact h
  | other => cases h

theorem flagOf_column {n i : Nat} {c : ℝ} {cp : FlagArg} (h : (cp.column n)[i]? = some c) : FlagOf i c cp := by
  cases cp with
  | int x =>
    simp only [FlagArg.column, List.getElem?_replicate] at h
    split at h <;> cases h
    rfl
  | array l => exact h
  | other => cases h

/-- The volatility column. -/
def RowVol (shift : ℝ) (n i : Nat) (s : SmileAt) (k : ℝ) (v : Option ℝ) : StripVol → Prop
  | .termStructure => v = sabrVol shift (sabrRow (s.expiryYears, s.F, s.alpha, s.beta, s.rho, s.volvol) k)
  | .sln l => GivenVol n i l v
  | .normal l => GivenVol n i l v

/-- Whether the normal model is used. -/
def StripVol.isNormal : StripVol → Bool
  | .normal _ => true
  | _ => false

theorem stripVols_get {o : OptionletCurve} {smiles : List SmileAt} {K : StrikeArg} {vol : StripVol} {vols : List (Option ℝ)}
    (hK : (K.column smiles.length).length = smiles.length) (h : stripVols o smiles (K.handed smiles.length vol) vol = .ok vols) :
    vols.length = smiles.length ∧ ∀ (i : Nat) s k, smiles[i]? = some s → (K.column smiles.length)[i]? = some k → ∃ v, vols[i]? = some v ∧
      RowVol o.shift smiles.length i s k v vol := by
  have hover : ∀ l : List ℝ, (overrideColumn smiles.length l).map (fun l => l.map some) = .ok vols → vols.length = smiles.length ∧
      ∀ i < smiles.length, ∃ v, vols[i]? = some v ∧ ∃ x, v = some x ∧ (l = [x] ∨ (l.length = smiles.length ∧ l[i]? = some x)) := by
    intro l hl
    cases hc : overrideColumn smiles.length l with
    | error e => rw [hc] at hl; cases hl
    | ok m =>
      rw [hc] at hl
      cases hl
      have hg := overrideColumn_get hc
      refine ⟨by rw [List.length_map, hg.1], fun i hi => ?_⟩
      obtain ⟨x, hx, hl⟩ := hg.2 i hi
      exact ⟨some x, by rw [List.getElem?_map, hx]; rfl, x, rfl, hl⟩
  cases vol with
  | sln l =>
    obtain ⟨h1, h2⟩ := hover l h
    exact ⟨h1, fun i s k hs _ => h2 i (List.getElem?_eq_some_iff.1 hs).1⟩
  | normal l =>
    obtain ⟨h1, h2⟩ := hover l h
    exact ⟨h1, fun i s k hs _ => h2 i (List.getElem?_eq_some_iff.1 hs).1⟩
  | termStructure =>
    unfold stripVols at h
    have hl : (smiles.map (fun s => (s.expiryYears, s.F, s.alpha, s.beta, s.rho, s.volvol))).length =
        (K.handed smiles.length .termStructure).length ∨ ∃ k, K.handed smiles.length .termStructure = [k] := by
      cases K with
      | number k => exact Or.inr ⟨k, rfl⟩
      | array l => left; rw [List.length_map]; exact hK.symm
      | other => left; rw [List.length_map]; exact hK.symm
    obtain ⟨h1, h2⟩ := calcSabrVols_get hl h
    rw [List.length_map] at h1
    refine ⟨h1, fun i s k hs hk => ?_⟩
    obtain ⟨k', hk', ho⟩ := h2 i (s.expiryYears, s.F, s.alpha, s.beta, s.rho, s.volvol) (by rw [List.getElem?_map, hs]; rfl)
    refine ⟨_, ho, ?_⟩
    have : k' = k := by
      cases K with
      | number x =>
        have e := strikeOf_column hk
        rcases hk' with hk' | hk'
        · simp only [StrikeArg.handed, List.cons.injEq, and_true] at hk'
          rw [← hk', e]
        · simp only [StrikeArg.handed] at hk'
          have := List.mem_of_getElem? hk'
          rw [List.mem_singleton] at this
          rw [this, e]
      | array l =>
        rcases hk' with hk' | hk'
        · simp only [StrikeArg.handed, StrikeArg.column] at hk' hk
          rw [hk'] at hk
          have := List.mem_of_getElem? hk
          rw [List.mem_singleton] at this
          exact this.symm
        · simp only [StrikeArg.handed, StrikeArg.column] at hk' hk
          rw [hk] at hk'
          exact (Option.some.inj hk').symm
      | other => cases hk
    rw [this]
    rfl

/-- All about a priced row. -/
theorem priced_row {roots : List ℝ → List ℂ} {o : OptionletCurve} {rows : List StripRow} {K : StrikeArg} {cp : FlagArg}
    {basis : DayCountBasis} {vol : StripVol} {out : List PricedOptionlet}
    (h : priceOptionlets roots o rows K cp basis vol = .ok out) :
    out.length = rows.length ∧ ∃ F, o.zero.forwardRates (rows.map (·.start)) (rows.map (·.finish)) .simple = .ok F ∧
    ∀ (i : Nat) r, rows[i]? = some r → ∃ s k c v q df f t,
      out[i]? = some (priceOptionletRow o.shift (StripVol.isNormal vol) s k c v (df.map (fun d => (q : ℝ) * d))) ∧
      StrikeOf i k K ∧ FlagOf i c cp ∧ yearFrac [r.start] [r.finish] basis (some [decide (rows.length ≤ i + 1)]) = .ok [q] ∧ o.zero.discountFactors [r.payment] = [df] ∧
      F[i]? = some f ∧ yearFrac [o.curveDate] [r.start] o.basis (some [decide (rows.length ≤ i + 1)]) = .ok [t] ∧ smileAt roots o r.start f (t : ℝ) = .ok s ∧
      RowVol o.shift rows.length i s k v vol := by
  obtain ⟨fr, sm, vs, hfr, hv, hsm, hvs, hd, rfl⟩ := priceOptionlets_ok h
  obtain ⟨hsl, F, hF, hrow⟩ := interpolateSabr_get hsm
  obtain ⟨hKl, hcl⟩ := column_length hv
  obtain ⟨hfl, hfg⟩ := yearFrac_same (by simp) hfr
  rw [List.length_map] at hfl
  rw [← hsl] at hvs hKl
  obtain ⟨hvl, hvg⟩ := stripVols_get hKl hvs
  rw [hsl] at hvs hKl hvg hvl
  refine ⟨by simp [hsl, hKl, hcl, hvl, hfl, hd], F, hF, fun i r hr => ?_⟩
  have hi : i < rows.length := (List.getElem?_eq_some_iff.1 hr).1
  obtain ⟨s, t, hs, ht, f, hf, hsm⟩ := hrow i r hr
  obtain ⟨k, hk⟩ : ∃ k, (K.column rows.length)[i]? = some k := ⟨_, List.getElem?_eq_getElem (by omega)⟩
  obtain ⟨c, hc⟩ : ∃ c, (cp.column rows.length)[i]? = some c := ⟨_, List.getElem?_eq_getElem (by omega)⟩
  obtain ⟨v, hvi, hvv⟩ := hvg i s k hs hk
  obtain ⟨q, hq, hqi⟩ := hfg i r.start r.finish (by rw [List.getElem?_map, hr]; rfl) (by rw [List.getElem?_map, hr]; rfl)
  rw [List.length_map] at hq
  obtain ⟨df, hdi, hdf⟩ := discountFactors_get (z := o.zero) (dates := rows.map (·.payment)) (by rw [hd]; simp) i r.payment
    (by rw [List.getElem?_map, hr]; rfl)
  refine ⟨s, k, c, v, q, df, f, t, ?_, strikeOf_column hk, flagOf_column hc, hq, hdf, hf, ht, hsm, hvv⟩
  have e1 : (fr.zip (o.zero.discountFactors (rows.map (·.payment))))[i]? = some (q, df) := List.getElem?_zip_eq_some.2 ⟨hqi, hdi⟩
  have e2 : ((fr.zip (o.zero.discountFactors (rows.map (·.payment)))).map (fun p => p.2.map (fun d => (p.1 : ℝ) * d)))[i]? =
      some (df.map (fun d => (q : ℝ) * d)) := by
    rw [List.getElem?_map, e1]
    rfl
  have e3 : (sm.zip ((K.column rows.length).zip (cp.column rows.length)))[i]? = some (s, k, c) :=
    List.getElem?_zip_eq_some.2 ⟨hs, List.getElem?_zip_eq_some.2 ⟨hk, hc⟩⟩
  have e4 := List.getElem?_zip_eq_some (z := ((s, k, c), (v, df.map (fun d => (q : ℝ) * d)))).2
    ⟨e3, List.getElem?_zip_eq_some (z := (v, df.map (fun d => (q : ℝ) * d))).2 ⟨hvi, e2⟩⟩
  rw [List.getElem?_map, e4]
  cases vol <;> rfl

/-- One result for each row of the schedule, in order: its start, strike, flag, time to expiry, forward and annuity (the year fraction of the
period under the given basis times the discount factor of the payment date). -/
theorem C89_rows (roots : List ℝ → List ℂ) (o : OptionletCurve) (rows : List StripRow) (K : StrikeArg) (cp : FlagArg)
    (basis : DayCountBasis) (vol : StripVol) (out : List PricedOptionlet)
    (h : priceOptionlets roots o rows K cp basis vol = .ok out) :
    out.length = rows.length ∧ ∃ F, o.zero.forwardRates (rows.map (·.start)) (rows.map (·.finish)) .simple = .ok F ∧
    ∀ (i : Nat) r, rows[i]? = some r → ∃ p, out[i]? = some p ∧ p.smile.start = r.start ∧ StrikeOf i p.K K ∧ FlagOf i p.cp cp ∧
      F[i]? = some (some p.smile.F) ∧ YearsIn o.basis o.curveDate r.start (decide (rows.length ≤ i + 1)) p.smile.expiryYears ∧ 0 < p.smile.expiryYears ∧
      ∃ y df, YearsIn basis r.start r.finish (decide (rows.length ≤ i + 1)) y ∧ o.zero.discountFactors [r.payment] = [df] ∧ p.annuity = df.map (y * ·) := by
  obtain ⟨hl, F, hF, hrow⟩ := priced_row h
  refine ⟨hl, F, hF, fun i r hr => ?_⟩
  obtain ⟨s, k, c, v, q, df, f, t, ho, hk, hc, hq, hdf, hf, ht, hs, -⟩ := hrow i r hr
  obtain ⟨h1, h2, h3, h4, -⟩ := smileAt_ok hs
  subst h3
  exact ⟨_, ho, h1, hk, hc, hf, ⟨⟨t, ht, h2⟩, fun hb => ⟨t, by rw [← yearFrac_flag (.inl hb)]; exact ht, h2⟩⟩,
    h2 ▸ h4, q, df, ⟨⟨q, hq, rfl⟩, fun hb => ⟨q, by rw [← yearFrac_flag (.inl hb)]; exact hq, rfl⟩⟩, hdf, rfl⟩

/-- The volatility of a row: read off its smile at its strike, or the one given for all rows, or the one given for it. -/
theorem C89_vols (roots : List ℝ → List ℂ) (o : OptionletCurve) (rows : List StripRow) (K : StrikeArg) (cp : FlagArg)
    (basis : DayCountBasis) (vol : StripVol) (out : List PricedOptionlet)
    (h : priceOptionlets roots o rows K cp basis vol = .ok out)
    (i : Nat) (p : PricedOptionlet) (hp : out[i]? = some p) :
    VolOf o.shift rows.length i p vol := by
  obtain ⟨hl, F, hF, hrow⟩ := priced_row h
  have hi : i < rows.length := by rw [← hl]; exact (List.getElem?_eq_some_iff.1 hp).1
  obtain ⟨s, k, c, v, q, df, f, t, ho, -, -, -, -, -, -, -, hv⟩ := hrow i rows[i] (List.getElem?_eq_getElem hi)
  rw [hp] at ho
  cases ho
  cases vol with
  | termStructure =>
    show calcSabrVols [(s.expiryYears, s.F, s.alpha, s.beta, s.rho, s.volvol)] [k] o.shift = .ok [v]
    rw [show v = _ from hv]
    unfold calcSabrVols
    simp
  | sln l => exact hv
  | normal l => exact hv

/-- The values of a row are those of the Black-76 formula, or of the Bachelier formula for a normal volatility, and the forward price times
the annuity is the price. -/
theorem C89_prices (roots : List ℝ → List ℂ) (o : OptionletCurve) (rows : List StripRow) (K : StrikeArg) (cp : FlagArg)
    (basis : DayCountBasis) (vol : StripVol) (out : List PricedOptionlet)
    (h : priceOptionlets roots o rows K cp basis vol = .ok out)
    (i : Nat) (p : PricedOptionlet) (hp : out[i]? = some p) :
    (∀ v a, p.vol = some v → p.annuity = some a → ValueOf o.shift p v a vol) ∧
    (p.vol = none ∨ p.annuity = none → p.value.price = none) ∧
    ∀ a X, p.annuity = some a → a ≠ 0 → p.value.price = some X → ∃ x, p.forwardPrice = some x ∧ a * x = X := by
  obtain ⟨hl, F, hF, hrow⟩ := priced_row h
  have hi : i < rows.length := by rw [← hl]; exact (List.getElem?_eq_some_iff.1 hp).1
  obtain ⟨s, k, c, v, q, df, f, t, ho, -⟩ := hrow i rows[i] (List.getElem?_eq_getElem hi)
  rw [hp] at ho
  cases ho
  refine ⟨fun v' a hv ha => ?_, fun hn => ?_, fun a X ha h0 hX => ?_⟩
  · have hv' : v = some v' := hv
    have ha' : df.map (fun d => (q : ℝ) * d) = some a := ha
    subst hv'
    rw [ha']
    cases vol <;> rfl
  · unfold priceOptionletRow
    rcases hn with hn | hn
    · have : v = none := hn
      subst this
      rfl
    · have : df.map (fun d => (q : ℝ) * d) = none := hn
      rw [this]
      cases v <;> rfl
  · have ha' : df.map (fun d => (q : ℝ) * d) = some a := ha
    rw [ha'] at hX ⊢
    refine ⟨X / a, ?_, by field_simp⟩
    have e : ∀ w, priceOptionletRow o.shift w s k c v (some a) =
        ⟨s, k, c, v, some a, (priceOptionletRow o.shift w s k c v (some a)).value,
          (priceOptionletRow o.shift w s k c v (some a)).delta, (priceOptionletRow o.shift w s k c v (some a)).vega,
          npDiv (priceOptionletRow o.shift w s k c v (some a)).value.price a⟩ := fun w => rfl
    rw [e]
    simp only
    rw [hX]
    unfold npDiv
    rw [if_neg h0]
    rfl

/-- Delta and vega of a row are those of the formula that prices it.  Without a volatility or an annuity both are `nan`, and so is the time
value, but not the intrinsic value, which is not multiplied by the annuity. -/
theorem C89_greeks (roots : List ℝ → List ℂ) (o : OptionletCurve) (rows : List StripRow) (K : StrikeArg) (cp : FlagArg)
    (basis : DayCountBasis) (vol : StripVol) (out : List PricedOptionlet)
    (h : priceOptionlets roots o rows K cp basis vol = .ok out)
    (i : Nat) (p : PricedOptionlet) (hp : out[i]? = some p) :
    (∀ v a, p.vol = some v → p.annuity = some a → GreeksOf o.shift p v a vol) ∧
    (p.vol = none ∨ p.annuity = none → p.delta = none ∧ p.vega = none ∧ p.value.time = none) ∧
    p.value.intrinsic = some (max 0 (p.cp * (p.smile.F - p.K))) := by
  obtain ⟨hl, F, hF, hrow⟩ := priced_row h
  have hi : i < rows.length := by rw [← hl]; exact (List.getElem?_eq_some_iff.1 hp).1
  obtain ⟨s, k, c, v, q, df, f, t, ho, -, -, -, -, -, -, hsm, -⟩ := hrow i rows[i] (List.getElem?_eq_getElem hi)
  have ht : 0 < s.expiryYears := by
    have := smileAt_ok hsm
    rw [this.2.1]
    exact this.2.2.2.1
  rw [hp] at ho
  cases ho
  refine ⟨fun v' a hv ha => ?_, fun hn => ?_, ?_⟩
  · have hv' : v = some v' := hv
    have ha' : df.map (fun d => (q : ℝ) * d) = some a := ha
    subst hv'
    rw [ha']
    cases vol
    · rfl
    · rfl
    · exact ⟨_, rfl, rfl, rfl⟩
  · unfold priceOptionletRow
    rcases hn with hn | hn
    · have : v = none := hn
      subst this
      exact ⟨rfl, rfl, rfl⟩
    · have : df.map (fun d => (q : ℝ) * d) = none := hn
      rw [this]
      cases v <;> exact ⟨rfl, rfl, rfl⟩
  · unfold priceOptionletRow
    cases v with
    | none => exact if_pos ht
    | some v =>
      cases df.map (fun d => (q : ℝ) * d) with
      | none => exact if_pos ht
      | some a =>
        cases vol
        · show b76Intrinsic _ = _
          unfold b76Intrinsic
          simp only
          rw [if_pos ht, add_sub_add_right_eq_sub]
        · show b76Intrinsic _ = _
          unfold b76Intrinsic
          simp only
          rw [if_pos ht, add_sub_add_right_eq_sub]
        · show bachIntrinsic _ = _
          unfold bachIntrinsic
          simp only
          rw [if_pos ht]

theorem sortBy_inOrder {l : List StoredSmile} (h : InOrder l) : sortBy StoredSmile.start l = l := by
  unfold InOrder at h
  induction l with
  | nil => rfl
  | cons a l ih =>
    rw [List.pairwise_cons] at h
    rw [sortBy, ih h.2]
    cases l with
    | nil => rfl
    | cons b l => rw [insertBy, if_pos (h.1 b (by simp)).le]

theorem onStoredLine_cons {p q : StoredSmile} {rest : List StoredSmile} {column : StoredSmile → ℝ} {d : Int} {x : ℝ}
    (h : OnStoredLine (q :: rest) column d x) : OnStoredLine (p :: q :: rest) column d x := by
  rcases h with ⟨r, hr, h⟩ | ⟨pre, a, b, post, e, h⟩ | ⟨r, hr, h⟩
  · exact Or.inl ⟨r, List.mem_cons_of_mem _ hr, h⟩
  · exact Or.inr (Or.inl ⟨p :: pre, a, b, post, by rw [e]; rfl, h⟩)
  · exact Or.inr (Or.inr ⟨r, by rw [List.getLast?_cons_cons]; exact hr, h⟩)

theorem npInterp_onStoredLine (column : StoredSmile → ℝ) (d : Int) (p : StoredSmile) (rest : List StoredSmile)
    (hs : InOrder (p :: rest)) (hd : p.start ≤ d) :
    OnStoredLine (p :: rest) column d (npInterp (d : ℝ) ((p :: rest).map (fun r => ((r.start : ℝ), column r)))) := by
  induction rest generalizing p with
  | nil =>
    rcases hd.eq_or_lt with he | hlt
    · exact Or.inl ⟨p, by simp, he, rfl⟩
    · exact Or.inr (Or.inr ⟨p, rfl, hlt, rfl⟩)
  | cons q rest ih =>
    have hs' := List.pairwise_cons.1 hs
    have hpq : p.start < q.start := hs'.1 q (by simp)
    have hd' : ((p.start : Int) : ℝ) ≤ (d : ℝ) := by exact_mod_cast hd
    by_cases hq : q.start ≤ d
    · have hq' : ((q.start : Int) : ℝ) ≤ (d : ℝ) := by exact_mod_cast hq
      simp only [List.map_cons]
      rw [npInterp_cons_ge hd' hq']
      exact onStoredLine_cons (ih q hs'.2 hq)
    · push Not at hq
      have hq' : (d : ℝ) < ((q.start : Int) : ℝ) := by exact_mod_cast hq
      simp only [List.map_cons]
      rw [npInterp, if_neg (not_lt.2 hd'), if_pos hq']
      simp only
      rcases hd.eq_or_lt with he | hlt
      · refine Or.inl ⟨p, by simp, he, ?_⟩
        rw [he]
        ring
      · refine Or.inr (Or.inl ⟨[], p, q, rest, rfl, hlt, hq, ?_⟩)
        have : ((q.start : Int) : ℝ) - ((p.start : Int) : ℝ) ≠ 0 := by
          have : ((p.start : Int) : ℝ) < ((q.start : Int) : ℝ) := by exact_mod_cast hpq
          linarith
        field_simp
        ring

theorem interpolatedColumn_line {l : List StoredSmile} (hs : InOrder l) {column : StoredSmile → ℝ} {d : Int} {x : ℝ}
    (h : interpolatedColumn l column d = some x) : OnStoredLine l column d x := by
  unfold interpolatedColumn at h
  rw [sortBy_inOrder hs] at h
  cases l with
  | nil => cases h
  | cons p rest =>
    simp only at h
    by_cases hd : d < p.start
    · rw [if_pos hd] at h; cases h
    · rw [if_neg hd] at h
      cases h
      exact npInterp_onStoredLine column d p rest hs (by omega)

theorem interpolatedColumn_before {l : List StoredSmile} {column : StoredSmile → ℝ} {d : Int} (h : ∀ p ∈ l, d < p.start) :
    interpolatedColumn l column d = none := by
  unfold interpolatedColumn
  cases hs : sortBy StoredSmile.start l with
  | nil => rfl
  | cons p rest =>
    have : p ∈ l := (mem_sortBy StoredSmile.start l p).1 (by rw [hs]; simp)
    simp only
    rw [if_pos (h p this)]

/-- The smile of a row is on the straight lines between the stored smiles: the stored one on a stored date, the last one after the last
date. -/
theorem C89_interpolated (roots : List ℝ → List ℂ) (o : OptionletCurve) (rows : List StripRow) (K : StrikeArg) (cp : FlagArg)
    (basis : DayCountBasis) (vol : StripVol) (out : List PricedOptionlet)
    (hs : InOrder o.pillars)
    (h : priceOptionlets roots o rows K cp basis vol = .ok out) (p : PricedOptionlet) (hp : p ∈ out) :
    OnStoredLine o.pillars (·.volN) p.smile.start p.smile.volN ∧ OnStoredLine o.pillars (·.beta) p.smile.start p.smile.beta ∧
    OnStoredLine o.pillars (·.rho) p.smile.start p.smile.rho ∧ OnStoredLine o.pillars (·.volvol) p.smile.start p.smile.volvol := by
  obtain ⟨i, hi, rfl⟩ := List.mem_iff_getElem.1 hp
  obtain ⟨hl, F, hF, hrow⟩ := priced_row h
  obtain ⟨s, k, c, v, q, df, f, t, ho, -, -, -, -, -, -, hsm, -⟩ := hrow i _ (List.getElem?_eq_getElem (by omega))
  rw [List.getElem?_eq_getElem hi] at ho
  rw [Option.some.inj ho]
  show OnStoredLine o.pillars (·.volN) s.start s.volN ∧ OnStoredLine o.pillars (·.beta) s.start s.beta ∧
    OnStoredLine o.pillars (·.rho) s.start s.rho ∧ OnStoredLine o.pillars (·.volvol) s.start s.volvol
  obtain ⟨h1, -, -, -, h5, h6, h7, h8, -⟩ := smileAt_ok hsm
  rw [h1]
  exact ⟨interpolatedColumn_line hs h5, interpolatedColumn_line hs h6, interpolatedColumn_line hs h7, interpolatedColumn_line hs h8⟩

theorem onStoredLine_within {l : List StoredSmile} {column : StoredSmile → ℝ} {d : Int} {x lo hi : ℝ}
    (hb : ∀ p ∈ l, lo ≤ column p ∧ column p ≤ hi) (h : OnStoredLine l column d x) : lo ≤ x ∧ x ≤ hi := by
  rcases h with ⟨p, hp, -, rfl⟩ | ⟨pre, p, q, post, rfl, h1, h2, he⟩ | ⟨p, hp, -, rfl⟩
  · exact hb p hp
  · have hp := hb p (by simp)
    have hq := hb q (by simp)
    have h1' : ((p.start : Int) : ℝ) < (d : ℝ) := by exact_mod_cast h1
    have h2' : (d : ℝ) < ((q.start : Int) : ℝ) := by exact_mod_cast h2
    have hw : 0 < ((q.start : Int) : ℝ) - ((p.start : Int) : ℝ) := by linarith
    have e : x * (((q.start : Int) : ℝ) - ((p.start : Int) : ℝ)) =
        column p * (((q.start : Int) : ℝ) - d) + column q * ((d : ℝ) - ((p.start : Int) : ℝ)) := by linear_combination he
    constructor
    · refine le_of_mul_le_mul_right ?_ hw
      rw [e]
      have a1 := mul_le_mul_of_nonneg_right hp.1 (by linarith : 0 ≤ ((q.start : Int) : ℝ) - d)
      have a2 := mul_le_mul_of_nonneg_right hq.1 (by linarith : 0 ≤ (d : ℝ) - ((p.start : Int) : ℝ))
      linarith
    · refine le_of_mul_le_mul_right ?_ hw
      rw [e]
      have a1 := mul_le_mul_of_nonneg_right hp.2 (by linarith : 0 ≤ ((q.start : Int) : ℝ) - d)
      have a2 := mul_le_mul_of_nonneg_right hq.2 (by linarith : 0 ≤ (d : ℝ) - ((p.start : Int) : ℝ))
      linarith
  · exact hb p (List.mem_of_getLast? hp)

/-- Interpolation keeps the parameters admissible: if all stored betas are in [0, 1], correlations in [-1, 1], and volatilities not negative,
so are those of every row. -/
theorem C89_admissible (roots : List ℝ → List ℂ) (o : OptionletCurve) (rows : List StripRow) (K : StrikeArg) (cp : FlagArg)
    (basis : DayCountBasis) (vol : StripVol) (out : List PricedOptionlet)
    (hs : InOrder o.pillars)
    (hp : ∀ p ∈ o.pillars, 0 ≤ p.beta ∧ p.beta ≤ 1 ∧ -1 ≤ p.rho ∧ p.rho ≤ 1 ∧ 0 ≤ p.volvol ∧ 0 < p.volN)
    (h : priceOptionlets roots o rows K cp basis vol = .ok out) (p : PricedOptionlet) (hm : p ∈ out) :
    0 ≤ p.smile.beta ∧ p.smile.beta ≤ 1 ∧ -1 ≤ p.smile.rho ∧ p.smile.rho ≤ 1 ∧ 0 ≤ p.smile.volvol ∧ 0 < p.smile.volN := by
  obtain ⟨h1, h2, h3, h4⟩ := C89_interpolated roots o rows K cp basis vol out hs h p hm
  have b2 := onStoredLine_within (lo := 0) (hi := 1) (fun q hq => ⟨(hp q hq).1, (hp q hq).2.1⟩) h2
  have b3 := onStoredLine_within (lo := -1) (hi := 1) (fun q hq => ⟨(hp q hq).2.2.1, (hp q hq).2.2.2.1⟩) h3
  have bound : ∀ (column : StoredSmile → ℝ) (l : List StoredSmile), ∃ M, ∀ q ∈ l, column q ≤ M := by
    intro column l
    induction l with
    | nil => exact ⟨0, by simp⟩
    | cons a l ih =>
      obtain ⟨M, hM⟩ := ih
      refine ⟨max (column a) M, fun q hq => ?_⟩
      rcases List.mem_cons.1 hq with rfl | hq
      · exact le_max_left _ _
      · exact (hM q hq).trans (le_max_right _ _)
  obtain ⟨M, hM⟩ := bound (·.volvol) o.pillars
  have b4 := onStoredLine_within (lo := 0) (hi := M) (fun q hq => ⟨(hp q hq).2.2.2.2.1, hM q hq⟩) h4
  obtain ⟨N, hN⟩ := bound (·.volN) o.pillars
  obtain ⟨m, hm0, hm1⟩ : ∃ m, 0 < m ∧ ∀ q ∈ o.pillars, m ≤ q.volN := by
    have hv : ∀ q ∈ o.pillars, 0 < q.volN := fun q hq => (hp q hq).2.2.2.2.2
    generalize o.pillars = l at hv
    induction l with
    | nil => exact ⟨1, one_pos, by simp⟩
    | cons a l ih =>
      obtain ⟨m, hm0, hm1⟩ := ih (fun q hq => hv q (List.mem_cons_of_mem _ hq))
      refine ⟨min a.volN m, lt_min (hv a (by simp)) hm0, fun q hq => ?_⟩
      rcases List.mem_cons.1 hq with rfl | hq
      · exact min_le_left _ _
      · exact (min_le_right _ _).trans (hm1 q hq)
  have b1 := onStoredLine_within (lo := m) (hi := N) (fun q hq => ⟨hm1 q hq, hN q hq⟩) h1
  exact ⟨b2.1, b2.2, b3.1, b3.2, b4.1, lt_of_lt_of_le hm0 b1.1⟩

/-- A strip is refused, even with volatilities given, if a row starts before the first stored date, or on the curve date, or when another
does, or if there is no row. -/
theorem C89_refused (roots : List ℝ → List ℂ) (o : OptionletCurve) (rows : List StripRow) (K : StrikeArg) (cp : FlagArg)
    (basis : DayCountBasis) (vol : StripVol)
    (hbad : (∃ r ∈ rows, ∀ p ∈ o.pillars, r.start < p.start) ∨ (Spec.Plain o.basis o.curveDate ∧ ∃ r ∈ rows, r.start = o.curveDate) ∨
      ¬ (rows.map (·.start)).Nodup ∨ rows = []) (out : List PricedOptionlet) : priceOptionlets roots o rows K cp basis vol ≠ .ok out := by
  intro h
  have hsm : ∀ r ∈ rows, ∃ s f t, (Spec.Plain o.basis r.start → yearFrac [o.curveDate] [r.start] o.basis none = .ok [t]) ∧
      smileAt roots o r.start f ((t : Rat) : ℝ) = .ok s := by
    intro r hr
    obtain ⟨i, hi, rfl⟩ := List.mem_iff_getElem.1 hr
    obtain ⟨hl, F, hF, hrow⟩ := priced_row h
    obtain ⟨s, k, c, v, q, df, f, t, -, -, -, -, -, -, ht, hsm, -⟩ := hrow i _ (List.getElem?_eq_getElem hi)
    exact ⟨s, f, t, fun hb => by rw [← yearFrac_flag (.inl hb)]; exact ht, hsm⟩
  obtain ⟨fr, sm, vs, -, -, hi, -⟩ := priceOptionlets_ok h
  obtain ⟨F, taus, -, -, hne, hnd, -⟩ := interpolateSabr_ok hi
  rcases hbad with ⟨r, hr, hall⟩ | ⟨hb, r, hr, he⟩ | hdup | hnil
  · obtain ⟨s, f, t, -, hs⟩ := hsm r hr
    have := (smileAt_ok hs).2.2.2.2.1
    rw [interpolatedColumn_before hall] at this
    cases this
  · obtain ⟨s, f, t, ht, hs⟩ := hsm r hr
    replace ht := ht (he ▸ hb)
    rw [he, yearFrac_self hb] at ht
    have : t = 0 := by
      simp only [Except.ok.injEq, List.cons.injEq, and_true] at ht
      exact ht.symm
    exact (smileAt_ok hs).2.2.2.1.ne' (by rw [this]; norm_num)
  · exact hdup hnd
  · exact hne hnil

theorem flag_cases {n i : Nat} {c : ℝ} {K : StrikeArg} {cp : FlagArg} (h : GoodStrikes n K cp) (hc : FlagOf i c cp) : c = 1 ∨ c = -1 := by
  rcases h with ⟨k, -, rfl | rfl⟩ | ⟨k, l, -, rfl, -, -, hl⟩
  · exact Or.inr (by simpa [FlagOf] using hc)
  · exact Or.inl (by simpa [FlagOf] using hc)
  · exact (hl c (List.mem_of_getElem? hc)).symm

theorem normalToSln_facts {F tau n shift v : ℝ} (hF : 0 < F + shift) (ht : 0 < tau) (hn : 0 < n)
    (h : normalVolAtmToSlnAtm F tau n shift = .fin v) : n * Real.sqrt tau * normPdf 0 < F + shift := by
  have e2 : (2.0 : ℝ) = 2 := by norm_num
  by_contra hge
  push Not at hge
  have h1 : 1 ≤ (n * Real.sqrt tau * normPdf 0 + (F + shift)) / (2.0 * (F + shift)) := by
    rw [e2, one_le_div (by linarith)]
    linarith
  unfold normalVolAtmToSlnAtm normPpf at h
  have hno : ¬ ∃ x, normCdf x = (n * Real.sqrt tau * normPdf 0 + (F + shift)) / (2.0 * (F + shift)) := by
    rintro ⟨x, hx⟩
    have := normCdf_lt_one x
    linarith
  rw [if_neg (by rintro (h | h) <;> linarith), dif_neg hno] at h
  by_cases h0 : (n * Real.sqrt tau * normPdf 0 + (F + shift)) / (2.0 * (F + shift)) = 0
  · rw [if_pos h0] at h; cases h
  · rw [if_neg h0] at h
    by_cases h1' : (n * Real.sqrt tau * normPdf 0 + (F + shift)) / (2.0 * (F + shift)) = 1
    · rw [if_pos h1'] at h; cases h
    · rw [if_neg h1'] at h; cases h

/-- At the money the interpolated normal volatility prices the row: priced from the smile, an optionlet struck at its forward has the
Bachelier price with the interpolated at-the-money normal volatility. -/
theorem C89_at_the_money (roots : List ℝ → List ℂ) (hr : ExactRoots roots) (o : OptionletCurve) (rows : List StripRow) (K : StrikeArg)
    (cp : FlagArg) (basis : DayCountBasis) (out : List PricedOptionlet)
    (h : priceOptionlets roots o rows K cp basis .termStructure = .ok out) (p : PricedOptionlet) (hp : p ∈ out) (hK : p.K = p.smile.F)
    (hF : 0 < p.smile.F + o.shift) (hn : 0 < p.smile.volN) (a : ℝ) (ha : p.annuity = some a) :
    p.vol = some p.smile.volSln ∧ ∃ X, p.value.price = some X ∧
      BachPriced ⟨p.smile.F, p.smile.expiryYears, p.cp, p.smile.F, p.smile.volN, a⟩ X := by
  obtain ⟨i, hi, rfl⟩ := List.mem_iff_getElem.1 hp
  have hget := List.getElem?_eq_getElem hi
  have hval := (C89_prices roots o rows K cp basis .termStructure out h i _ hget).1
  have hvol := C89_vols roots o rows K cp basis .termStructure out h i _ hget
  have hgood := (C89_strikes roots o rows K cp basis .termStructure).2 out h
  obtain ⟨hl, F, hFs, hrow⟩ := priced_row h
  obtain ⟨s, k, c, v, q, df, f, t, ho, -, hc, -, -, -, -, hsm, -⟩ := hrow i _ (List.getElem?_eq_getElem (by omega))
  rw [hget] at ho
  have hs : out[i].smile = s := by rw [Option.some.inj ho]; rfl
  have hcp : out[i].cp = c := by rw [Option.some.inj ho]; rfl
  have hflag : out[i].cp = 1 ∨ out[i].cp = -1 := by rw [hcp]; exact flag_cases hgood hc
  obtain ⟨-, h2, -, ht, -, -, -, -, h9, h10⟩ := smileAt_ok hsm
  rw [← hs] at h2 h9 h10
  rw [← h2] at h9 h10 ht
  have hlt := normalToSln_facts hF ht hn h9
  obtain ⟨w, hw, hw0, hback⟩ := C55_round_trip_normal (fun _ _ => .ret 0 true) (fun _ _ => .ret 0 true) _ _ _ _ hF ht hn hlt
  rw [h9] at hw
  cases hw
  have hcons := (C56_consistent roots hr _ _ _ _ _ _ _ _ hF hw0 h10).1
  unfold VolOf at hvol
  rw [hK, hcons] at hvol
  have hv : out[i].vol = some out[i].smile.volSln := by
    simp only [Except.ok.injEq, List.cons.injEq, and_true] at hvol
    exact hvol.symm
  refine ⟨hv, ?_⟩
  have hpr := hval _ a hv ha
  unfold ValueOf at hpr
  rw [hK] at hpr
  obtain ⟨X, hX, -⟩ := C52_price ⟨out[i].smile.F, out[i].smile.expiryYears, out[i].cp, out[i].smile.F, out[i].smile.volSln, o.shift, a⟩
    ⟨hF, hF, ht, hw0, hflag⟩
  have hX' := hX
  obtain ⟨val, hval', hXv⟩ := hX
  rw [hpr] at hval'
  cases hval'
  refine ⟨X, hXv, ?_⟩
  obtain ⟨n, hn1, -, hsame, -⟩ := C55_same_price (fun _ _ => .ret 0 true) (fun _ _ => .ret 0 true) out[i].smile.F out[i].smile.expiryYears out[i].smile.volSln
    o.shift hF ht hw0
  rw [hback] at hn1
  cases hn1
  exact hsame _ a X hflag hX'

/-- Delta and vega of a covered row are sensitivities of its price: delta is its derivative in the forward, vega its change for one
percentage point of lognormal volatility or one basis point of normal volatility, to first order. -/
theorem C89_sensitivities (roots : List ℝ → List ℂ) (o : OptionletCurve) (rows : List StripRow) (K : StrikeArg) (cp : FlagArg)
    (basis : DayCountBasis) (vol : StripVol) (out : List PricedOptionlet)
    (h : priceOptionlets roots o rows K cp basis vol = .ok out) (p : PricedOptionlet) (hp : p ∈ out) (hc : Covered o.shift vol p)
    (v a : ℝ) (hv : p.vol = some v) (ha : p.annuity = some a) :
    (∀ l, vol = .normal l → ∀ P Q,
      BachPricesAs (fun F => ⟨F, p.smile.expiryYears, p.cp, p.K, v, a⟩) univ P →
      BachPricesAs (fun v => ⟨p.smile.F, p.smile.expiryYears, p.cp, p.K, v, a⟩) (Ioi 0) Q →
      ∃ δ D, p.delta = some δ ∧ HasDerivAt P δ p.smile.F ∧ p.vega = some (0.0001 * D) ∧ HasDerivAt Q D v) ∧
    ((∀ l, vol ≠ .normal l) → ∀ P Q,
      B76PricesAs (fun F => ⟨F, p.smile.expiryYears, p.cp, p.K, v, o.shift, a⟩) (Ioi (-o.shift)) P →
      B76PricesAs (fun v => ⟨p.smile.F, p.smile.expiryYears, p.cp, p.K, v, o.shift, a⟩) (Ioi 0) Q →
      ∃ δ D, p.delta = some δ ∧ HasDerivAt P δ p.smile.F ∧ p.vega = some (0.01 * D) ∧ HasDerivAt Q D v) := by
  obtain ⟨i, hi, rfl⟩ := List.mem_iff_getElem.1 hp
  have hget := List.getElem?_eq_getElem hi
  have hg := (C89_greeks roots o rows K cp basis vol out h i _ hget).1 v a hv ha
  have hgood := (C89_strikes roots o rows K cp basis vol).2 out h
  obtain ⟨hl, Fs, -, hrow⟩ := C89_rows roots o rows K cp basis vol out h
  obtain ⟨q, hq, -, -, hflag, -⟩ := hrow i _ (List.getElem?_eq_getElem (by omega))
  rw [hget] at hq
  obtain rfl := Option.some.inj hq
  have hcp := flag_cases hgood hflag
  obtain ⟨ht, ⟨v', hv', hv0⟩, -, hcase⟩ := hc
  rw [hv] at hv'
  obtain rfl := Option.some.inj hv'
  constructor
  · rintro l rfl P Q hP hQ
    obtain ⟨g, hg1, hg2, hg3⟩ := hg
    obtain ⟨g1, δ, e1, e2, e3⟩ := C53_delta ⟨out[i].smile.F, out[i].smile.expiryYears, out[i].cp, out[i].K, v, a⟩ ⟨ht, hv0, hcp⟩ P hP
    obtain ⟨g2, D, f1, f2, f3⟩ := C53_vega ⟨out[i].smile.F, out[i].smile.expiryYears, out[i].cp, out[i].K, v, a⟩ ⟨ht, hv0, hcp⟩ Q hQ
    rw [hg1] at e1 f1
    cases e1
    cases f1
    exact ⟨δ, D, hg2.trans e2, e3, hg3.trans f3, f2⟩
  · intro hno P Q hP hQ
    have hpos : 0 < out[i].smile.F + o.shift ∧ 0 < out[i].K + o.shift := by
      rcases hcase with ⟨l, hl⟩ | hpos
      · exact absurd hl (hno l)
      · exact hpos
    have hg' : black76Greeks [⟨out[i].smile.F, out[i].smile.expiryYears, out[i].cp, out[i].K, v, o.shift, a⟩] =
        [⟨out[i].delta, out[i].vega⟩] := by
      cases vol with
      | termStructure => exact hg
      | sln l => exact hg
      | normal l => exact absurd rfl (hno l)
    obtain ⟨g1, δ, e1, e2, e3⟩ := C52_delta ⟨out[i].smile.F, out[i].smile.expiryYears, out[i].cp, out[i].K, v, o.shift, a⟩
      ⟨hpos.1, hpos.2, ht, hv0, hcp⟩ P hP
    obtain ⟨g2, D, f1, f2, f3⟩ := C52_vega ⟨out[i].smile.F, out[i].smile.expiryYears, out[i].cp, out[i].K, v, o.shift, a⟩
      ⟨hpos.1, hpos.2, ht, hv0, hcp⟩ Q hQ
    rw [hg'] at e1 f1
    cases e1
    cases f1
    exact ⟨δ, D, e2, e3, f3, f2⟩

/-- The same strip with other flags. -/
theorem other_flags {roots : List ℝ → List ℂ} {o : OptionletCurve} {rows : List StripRow} {K : StrikeArg} {c c' : Int}
    {basis : DayCountBasis} {vol : StripVol} {out out' : List PricedOptionlet}
    (h : priceOptionlets roots o rows K (.int c) basis vol = .ok out) (h' : priceOptionlets roots o rows K (.int c') basis vol = .ok out') :
    out' = out.map (fun p => priceOptionletRow o.shift (StripVol.isNormal vol) p.smile p.K (c' : ℝ) p.vol p.annuity) := by
  obtain ⟨fr, sm, vs, h1, -, h3, h4, -, rfl⟩ := priceOptionlets_ok h
  obtain ⟨fr', sm', vs', h1', -, h3', h4', -, rfl⟩ := priceOptionlets_ok h'
  rw [h1] at h1'
  cases h1'
  rw [h3] at h3'
  cases h3'
  rw [h4] at h4'
  cases h4'
  have e : (match vol with | .normal _ => true | _ => false) = StripVol.isNormal vol := by cases vol <;> rfl
  rw [List.map_map]
  refine List.ext_getElem (by simp [FlagArg.column]) (fun i hi hi' => ?_)
  simp only [List.getElem_map, List.getElem_zip, Function.comp_apply, FlagArg.column, List.getElem_replicate]
  cases vol <;> rfl

theorem own_flags {roots : List ℝ → List ℂ} {o : OptionletCurve} {rows : List StripRow} {K : StrikeArg} {cp : FlagArg}
    {basis : DayCountBasis} {vol : StripVol} {out : List PricedOptionlet} (h : priceOptionlets roots o rows K cp basis vol = .ok out)
    (p : PricedOptionlet) (hp : p ∈ out) : p = priceOptionletRow o.shift (StripVol.isNormal vol) p.smile p.K p.cp p.vol p.annuity := by
  obtain ⟨fr, sm, vs, -, -, -, -, -, rfl⟩ := priceOptionlets_ok h
  obtain ⟨x, -, rfl⟩ := List.mem_map.1 hp
  cases vol <;> rfl

theorem row_parity {shift : ℝ} {vol : StripVol} {p : PricedOptionlet} (h : Covered shift vol p) {a : ℝ} (ha : p.annuity = some a) :
    ∃ C P, (priceOptionletRow shift (StripVol.isNormal vol) p.smile p.K 1 p.vol p.annuity).value.price = some C ∧
      (priceOptionletRow shift (StripVol.isNormal vol) p.smile p.K (-1) p.vol p.annuity).value.price = some P ∧
      C - P = a * (p.smile.F - p.K) := by
  obtain ⟨ht, ⟨v, hv, hv0⟩, -, hcase⟩ := h
  rw [hv, ha]
  by_cases hn : StripVol.isNormal vol = true
  · rw [hn]
    obtain ⟨C, hC, -⟩ := C53_price ⟨p.smile.F, p.smile.expiryYears, 1, p.K, v, a⟩ ⟨ht, hv0, Or.inl rfl⟩
    obtain ⟨P, hP, -⟩ := C53_price ⟨p.smile.F, p.smile.expiryYears, -1, p.K, v, a⟩ ⟨ht, hv0, Or.inr rfl⟩
    refine ⟨C, P, (bachPriced_iff _ _).1 hC, (bachPriced_iff _ _).1 hP, ?_⟩
    exact C53_parity ⟨p.smile.F, p.smile.expiryYears, 1, p.K, v, a⟩ ⟨ht, hv0, Or.inl rfl⟩ C P hC hP
  · have hpos : 0 < p.smile.F + shift ∧ 0 < p.K + shift := by
      rcases hcase with ⟨l, rfl⟩ | hpos
      · exact absurd rfl hn
      · exact hpos
    rw [Bool.not_eq_true] at hn
    rw [hn]
    obtain ⟨C, hC, -⟩ := C52_price ⟨p.smile.F, p.smile.expiryYears, 1, p.K, v, shift, a⟩ ⟨hpos.1, hpos.2, ht, hv0, Or.inl rfl⟩
    obtain ⟨P, hP, -⟩ := C52_price ⟨p.smile.F, p.smile.expiryYears, -1, p.K, v, shift, a⟩ ⟨hpos.1, hpos.2, ht, hv0, Or.inr rfl⟩
    refine ⟨C, P, (b76Priced_iff _ _).1 hC, (b76Priced_iff _ _).1 hP, ?_⟩
    exact C52_parity ⟨p.smile.F, p.smile.expiryYears, 1, p.K, v, shift, a⟩ ⟨hpos.1, hpos.2, ht, hv0, Or.inl rfl⟩ C P hC hP

/-- A cap less the floor with the same strike is the strip of forward payments: the totals differ by the sum of the annuities times forward
less strike. -/
theorem C89_parity (roots : List ℝ → List ℂ) (o : OptionletCurve) (rows : List StripRow) (k : ℝ) (basis : DayCountBasis) (vol : StripVol)
    (caps floors : List PricedOptionlet) (hc : priceOptionlets roots o rows (.number k) (.int 1) basis vol = .ok caps)
    (hf : priceOptionlets roots o rows (.number k) (.int (-1)) basis vol = .ok floors) (hg : ∀ p ∈ caps, Covered o.shift vol p) :
    stripTotal caps - stripTotal floors = (caps.map (fun p => p.annuity.getD 0 * (p.smile.F - k))).sum := by
  have e := other_flags hc hf
  have hcp : ∀ p ∈ caps, p.cp = 1 ∧ p.K = k := by
    intro p hp
    obtain ⟨fr, sm, vs, -, -, -, -, -, rfl⟩ := priceOptionlets_ok hc
    obtain ⟨x, hx, rfl⟩ := List.mem_map.1 hp
    have h1 := (List.of_mem_zip (List.of_mem_zip (a := x.1) (b := x.2) hx).1).2
    have h2 := List.of_mem_zip h1
    have hk : x.1.2.1 = k := List.eq_of_mem_replicate h2.1
    have hc1 : x.1.2.2 = ((1 : Int) : ℝ) := List.eq_of_mem_replicate h2.2
    exact ⟨hc1.trans (by norm_num), hk⟩
  have hown := fun p hp => own_flags hc p hp
  rw [e]
  clear e hc hf
  unfold stripTotal
  induction caps with
  | nil => simp
  | cons p l ih =>
    have ih' := ih (fun q hq => hg q (List.mem_cons_of_mem _ hq)) (fun q hq => hcp q (List.mem_cons_of_mem _ hq))
      (fun q hq => hown q (List.mem_cons_of_mem _ hq))
    obtain ⟨a, ha⟩ := (hg p (by simp)).2.2.1
    obtain ⟨C, P, hC, hP, hCP⟩ := row_parity (hg p (by simp)) ha
    have h1 : p.value.price = some C := by
      rw [hown p (by simp), (hcp p (by simp)).1]
      exact hC
    have h2 : (priceOptionletRow o.shift (StripVol.isNormal vol) p.smile p.K (((-1 : Int)) : ℝ) p.vol p.annuity).value.price = some P := by
      rw [← hP]
      norm_num
    rw [List.map_cons, List.filterMap_cons_some (f := fun p : PricedOptionlet => p.value.price) h1,
      List.filterMap_cons_some (f := fun p : PricedOptionlet => p.value.price) h2, List.sum_cons, List.sum_cons, List.map_cons, List.sum_cons,
      ← ih', ha, Option.getD_some]
    rw [(hcp p (by simp)).2] at hCP
    linarith

theorem givenVol_unique {n i : Nat} {l : List ℝ} {v v' : Option ℝ} (hi : i < n) (h : GivenVol n i l v) (h' : GivenVol n i l v') : v = v' := by
  obtain ⟨x, rfl, hx⟩ := h
  obtain ⟨y, rfl, hy⟩ := h'
  rcases hx with rfl | ⟨hl, hx⟩ <;> rcases hy with hy | ⟨hl', hy⟩
  · cases hy; rfl
  · have : i = 0 := by simp at hl'; omega
    subst this
    simpa using hy
  · subst hy
    have : i = 0 := by simp at hl; omega
    subst this
    rw [← hx]
    rfl
  · rw [← hx, ← hy]

/-- Prices from given volatilities do not depend on the stored smiles, though the smiles must allow an interpolation (`C89_refused`). -/
theorem C89_given_vols (roots : List ℝ → List ℂ) (o : OptionletCurve) (pillars : List StoredSmile) (rows : List StripRow) (K : StrikeArg)
    (cp : FlagArg) (basis : DayCountBasis) (vol : StripVol) (hvol : vol ≠ .termStructure)
    (out out' : List PricedOptionlet)
    (h : priceOptionlets roots o rows K cp basis vol = .ok out)
    (h' : priceOptionlets roots { o with pillars := pillars } rows K cp basis vol = .ok out') :
    out.map (fun p => (p.value, p.delta, p.vega, p.forwardPrice)) = out'.map (fun p => (p.value, p.delta, p.vega, p.forwardPrice)) := by
  obtain ⟨hl, F, hF, hrow⟩ := priced_row h
  obtain ⟨hl', F', hF', hrow'⟩ := priced_row (o := { o with pillars := pillars }) h'
  have e : o.zero.forwardRates (rows.map (·.start)) (rows.map (·.finish)) .simple = .ok F' := hF'
  rw [hF] at e
  cases e
  refine List.ext_getElem (by simp [hl, hl']) (fun i hi hi' => ?_)
  rw [List.length_map] at hi hi'
  have hr : i < rows.length := by omega
  obtain ⟨s, k, c, v, q, df, f, t, ho, hk, hc, hq, hdf, hf, ht, hsm, hv⟩ := hrow i _ (List.getElem?_eq_getElem hr)
  obtain ⟨s', k', c', v', q', df', f', t', ho', hk', hc', hq', hdf', hf', ht', hsm', hv'⟩ := hrow' i _ (List.getElem?_eq_getElem hr)
  have e1 : k = k' := by
    cases K with
    | number x => exact (show k = x from hk).trans (show k' = x from hk').symm
    | array l => exact Option.some.inj ((show l[i]? = some k from hk).symm.trans hk')
    | other => cases hk
  have e2 : c = c' := by
    cases cp with
    | int x => exact (show c = x from hc).trans (show c' = x from hc').symm
    | array l => exact Option.some.inj ((show l[i]? = some c from hc).symm.trans hc')
    | other => cases hc
  have e3 : v = v' := by
    cases vol with
    | termStructure => exact absurd rfl hvol
    | sln l => exact givenVol_unique hr hv hv'
    | normal l => exact givenVol_unique hr hv hv'
  rw [hq] at hq'
  cases hq'
  have e4 : [df] = [df'] := hdf.symm.trans hdf'
  cases e4
  rw [hf] at hf'
  cases hf'
  have e5 : Except.ok [t] = Except.ok [t'] := ht.symm.trans ht'
  cases e5
  subst e1 e2 e3
  have a1 := smileAt_ok hsm
  have a2 := smileAt_ok hsm'
  have e6 : s.F = s'.F := Option.some.inj (a1.2.2.1.symm.trans a2.2.2.1)
  have e7 : s.expiryYears = s'.expiryYears := a1.2.1.trans a2.2.1.symm
  rw [List.getElem_map, List.getElem_map]
  rw [List.getElem?_eq_getElem hi] at ho
  rw [List.getElem?_eq_getElem hi'] at ho'
  rw [Option.some.inj ho, Option.some.inj ho']
  unfold priceOptionletRow nanValue
  rw [e6, e7]

/-- The strip priced with one volatility for all rows. -/
theorem flat_strip {roots : List ℝ → List ℂ} {o : OptionletCurve} {rows : List StripRow} {K : StrikeArg} {cp : FlagArg}
    {basis : DayCountBasis} {vol : StripVol} {out : List PricedOptionlet}
    (h : priceOptionlets roots o rows K cp basis vol = .ok out) (hvl : ∀ vs sm,
      interpolateSabr roots o rows = .ok sm → stripVols o sm (K.handed rows.length vol) vol = .ok vs → vs.length = rows.length) (w : ℝ)
    (flat : StripVol) (hflat : flat = .sln [w] ∨ flat = .normal [w]) :
    priceOptionlets roots o rows K cp basis flat =
      .ok (out.map (fun p => priceOptionletRow o.shift (StripVol.isNormal flat) p.smile p.K p.cp (some w) p.annuity)) := by
  obtain ⟨fr, sm, vs, h1, h2, h3, h4, h5, rfl⟩ := priceOptionlets_ok h
  have hsl := (interpolateSabr_get h3).1
  have hvs := hvl vs sm h3 h4
  have hv : ∀ strikes, stripVols o sm strikes flat = .ok (List.replicate rows.length (some w)) := by
    intro strikes
    rcases hflat with rfl | rfl
    · simp [stripVols, overrideColumn, Except.map, hsl]
    · simp [stripVols, overrideColumn, Except.map, hsl]
  unfold priceOptionlets
  rw [h1, h2, h3]
  simp only [bind, Except.bind, hv]
  rw [if_neg (not_not.2 h5)]
  simp only [pure, Except.pure, Except.ok.injEq, List.map_map]
  refine List.ext_getElem (by simp [hvs]) (fun i hi hi' => ?_)
  simp only [List.getElem_map, List.getElem_zip, Function.comp_apply, List.getElem_replicate]
  rcases hflat with rfl | rfl <;> rfl

theorem mapM_annuity {out : List PricedOptionlet} {as : List ℝ} (h : out.mapM (·.annuity) = some as) : out.map (·.annuity) = as.map some := by
  induction out generalizing as with
  | nil => simp only [List.mapM_nil, pure] at h; cases h; rfl
  | cons p l ih =>
    rw [List.mapM_cons] at h
    cases hp : p.annuity with
    | none => rw [hp] at h; cases h
    | some a =>
      cases hl : l.mapM (·.annuity) with
      | none => rw [hp, hl] at h; cases h
      | some bs =>
        rw [hp, hl] at h
        cases h
        rw [List.map_cons, hp, ih hl]
        rfl

theorem matches_total {l : List PricedOptionlet} {X : ℝ} (h : Matches (l.map (fun p => p.value.price)) X) :
    |stripTotal l - X| < 0.00001 * |X| := by
  obtain ⟨ps, hps, hlt⟩ := h
  have : l.filterMap (fun p => p.value.price) = ps := by
    have e : l.filterMap (fun p => p.value.price) = (l.map (fun p => p.value.price)).filterMap id := by
      rw [List.filterMap_map]
      rfl
    rw [e, hps, List.filterMap_map]
    simp
  unfold stripTotal
  rw [this]
  exact hlt

/-- A fallback minimisation that reports success is believed, whatever the volatility it ends with. -/
theorem C89_trusts_success (o : OptionletCurve) (out : List PricedOptionlet) (v w : ℝ) :
    equivalentFlatVols (fun _ _ => .fail .runtime) (fun _ _ => .ret v true) (fun _ _ => .fail .runtime) (fun _ _ => .ret w true) o out =
      .ok (v, w) := by
  unfold equivalentFlatVols
  split
  · simp [solveVol, Search.run, solveVol.fallback, Except.bind, Except.map]
  · simp [black76SolveImpliedVol, bachelierSolveImpliedVol, solveVol, Search.run, solveVol.fallback, Except.bind, Except.map]

/-- The equivalent flat volatilities: pricing the strip again with either of them succeeds, and gives the same total within a relative 1e-5
unless a fallback minimisation returned it and reported success.  Missing: the total in that case. -/
theorem C89_equivalent_partial (brent lbfgs brentN lbfgsN : Method) (roots : List ℝ → List ℂ) (o : OptionletCurve) (rows : List StripRow)
    (K : StrikeArg) (cp : FlagArg) (basis : DayCountBasis) (out : List PricedOptionlet)
    (h : priceOptionlets roots o rows K cp basis .termStructure = .ok out)
    (ha : ∀ p ∈ out, p.annuity ≠ none) (vSln vN : ℝ) (he : equivalentFlatVols brent lbfgs brentN lbfgsN o out = .ok (vSln, vN)) :
    (∃ flat, priceOptionlets roots o rows K cp basis (.sln [vSln]) = .ok flat ∧
      (|stripTotal flat - stripTotal out| < 0.00001 * |stripTotal out| ∨ ∃ sq, ReportsSuccess sq vSln (lbfgs (seriesMean (out.map (·.vol))) volSlnBounds))) ∧
    (∃ flat, priceOptionlets roots o rows K cp basis (.normal [vN]) = .ok flat ∧
      (|stripTotal flat - stripTotal out| < 0.00001 * |stripTotal out| ∨ ∃ sq, ReportsSuccess sq vN (lbfgsN (seriesMean (out.map (fun p => some p.smile.volN))) volNBounds))) := by
  have hvl : ∀ vs sm, interpolateSabr roots o rows = .ok sm →
      stripVols o sm (K.handed rows.length .termStructure) .termStructure = .ok vs → vs.length = rows.length := by
    intro vs sm h3 h4
    obtain ⟨_, _, _, -, h2, -⟩ := priceOptionlets_ok h
    have hsl := (interpolateSabr_get h3).1
    have hK := (column_length h2).1
    rw [← hsl] at h4 hK
    rw [(stripVols_get hK h4).1, hsl]
  obtain ⟨as, has⟩ : ∃ as, out.mapM (·.annuity) = some as := by
    clear he hvl h
    induction out with
    | nil => exact ⟨[], rfl⟩
    | cons p l ih =>
      obtain ⟨as, has⟩ := ih (fun q hq => ha q (List.mem_cons_of_mem _ hq))
      cases hp : p.annuity with
      | none => exact absurd hp (ha p (by simp))
      | some a => exact ⟨a :: as, by rw [List.mapM_cons, hp, has]; rfl⟩
  have hann := mapM_annuity has
  unfold equivalentFlatVols at he
  rw [has] at he
  simp only at he
  obtain ⟨x, hx, he⟩ := bindOk he
  cases hy : bachelierSolveImpliedVol brentN lbfgsN
      ((out.zip as).map (fun p => ⟨p.1.smile.F, p.1.smile.expiryYears, p.1.cp, p.1.K, 0, p.2⟩)) (stripTotal out)
      (seriesMean (out.map (fun p => some p.smile.volN))) with
  | error e => rw [hy] at he; cases he
  | ok y =>
    rw [hy] at he
    cases he
    refine ⟨⟨_, flat_strip h hvl vSln _ (Or.inl rfl), ?_⟩, ⟨_, flat_strip h hvl vN _ (Or.inr rfl), ?_⟩⟩
    · rcases C70_black_partial _ _ _ _ _ _ hx with hr | hs
      · refine Or.inl (matches_total ?_)
        have e : (black76Price (((out.zip as).map (fun p => (⟨p.1.smile.F, p.1.smile.expiryYears, p.1.cp, p.1.K, 0, o.shift, p.2⟩ : B76Row))).map
            (fun x => { x with vol := vSln }))).map (·.price) =
            (out.map (fun p => priceOptionletRow o.shift (StripVol.isNormal (.sln [vSln])) p.smile p.K p.cp (some vSln) p.annuity)).map
              (fun p => p.value.price) := by
          have hlen : as.length = out.length := by have := congrArg List.length hann; simpa using this.symm
          unfold black76Price
          refine List.ext_getElem (by simp [hlen]) (fun i hi hi' => ?_)
          have hi2 : i < out.length := by simpa using hi'
          have hai : out[i].annuity = some (as[i]'(by omega)) := by
            have := congrArg (fun l => l[i]?) hann
            simp only [List.getElem?_map, List.getElem?_eq_getElem hi2, List.getElem?_eq_getElem (show i < as.length by omega),
              Option.map_some, Option.some.injEq] at this
            exact this
          simp only [List.getElem_map, List.getElem_zip, hai]
          rfl
        unfold B76Reprices at hr
        rw [e] at hr
        exact hr
      · exact Or.inr hs
    · rcases C70_bachelier_partial _ _ _ _ _ _ hy with hr | hs
      · refine Or.inl (matches_total ?_)
        have e : (bachelierPrice (((out.zip as).map (fun p => (⟨p.1.smile.F, p.1.smile.expiryYears, p.1.cp, p.1.K, 0, p.2⟩ : BachRow))).map
            (fun x => { x with vol := vN }))).map (·.price) =
            (out.map (fun p => priceOptionletRow o.shift (StripVol.isNormal (.normal [vN])) p.smile p.K p.cp (some vN) p.annuity)).map
              (fun p => p.value.price) := by
          have hlen : as.length = out.length := by have := congrArg List.length hann; simpa using this.symm
          unfold bachelierPrice
          refine List.ext_getElem (by simp [hlen]) (fun i hi hi' => ?_)
          have hi2 : i < out.length := by simpa using hi'
          have hai : out[i].annuity = some (as[i]'(by omega)) := by
            have := congrArg (fun l => l[i]?) hann
            simp only [List.getElem?_map, List.getElem?_eq_getElem hi2, List.getElem?_eq_getElem (show i < as.length by omega),
              Option.map_some, Option.some.injEq] at this
            exact this
          simp only [List.getElem_map, List.getElem_zip, hai]
          rfl
        unfold BachReprices at hr
        rw [e] at hr
        exact hr
      · exact Or.inr hs

/-- Two stored smiles, at 100 and 465 days. -/
noncomputable def sampleSmiles89 : List StoredSmile := [⟨100, 0.01, 0.5, -0.2, 0.3⟩, ⟨465, 0.02, 0.5, 0.1, 0.4⟩]

theorem sample_column (column : StoredSmile → ℝ) : ∃ x, interpolatedColumn sampleSmiles89 column 365 = some x ∧
    ∀ lo hi, (∀ p ∈ sampleSmiles89, lo ≤ column p ∧ column p ≤ hi) → lo ≤ x ∧ x ≤ hi := by
  have hs : InOrder sampleSmiles89 := by
    unfold InOrder sampleSmiles89
    simp
  have : ∃ x, interpolatedColumn sampleSmiles89 column 365 = some x := by
    unfold interpolatedColumn
    rw [sortBy_inOrder hs]
    unfold sampleSmiles89
    exact ⟨_, if_neg (by norm_num)⟩
  obtain ⟨x, hx⟩ := this
  exact ⟨x, hx, fun lo hi hb => onStoredLine_within hb (interpolatedColumn_line hs hx)⟩

/-- A cap and a floor of one period on the sample curve of C35, struck at the forward: both are priced, and the theorems above apply. -/
theorem sampleStrip : ∃ roots o F, ExactRoots roots ∧ (InOrder o.pillars ∧
      makeZeroCurve 0 { date := some [365, 730], discountFactor := some [0.98, 0.95] } none .act_365 defaultBusCal = .ok o.zero) ∧
    0 < F + o.shift ∧ ∀ c : Int, c = 1 ∨ c = -1 → ∃ p, priceOptionlets roots o [⟨365, 730, 730⟩] (.number F) (.int c) .act_365 .termStructure =
      .ok [p] ∧ p.K = p.smile.F ∧ p.smile.F = F ∧ p.smile.expiryYears = 1 ∧ 0 < p.smile.volN ∧ p.annuity = some 0.95 := by
  obtain ⟨roots, hr⟩ := exactRoots_exists
  obtain ⟨z, hzc⟩ := sampleCurve defaultBusCal
  obtain ⟨-, hrange, h730⟩ := sampleCurve_facts hzc
  have hpos : ∀ v ∈ ([0.98, 0.95] : List ℝ), 0 < v := by
    intro v hv
    simp only [List.mem_cons, List.not_mem_nil, or_false] at hv
    rcases hv with rfl | rfl <;> norm_num
  have h365 : z.discountFactors [365] = [some 0.98] :=
    C35_reproduces_quotes 0 [365, 730] [0.98, 0.95] none .act_365 (.inr (.inl rfl)) _ z rfl (by decide) (by decide) hpos hzc 0 365 0.98 rfl rfl
  obtain ⟨-, hcd, hbasis, -⟩ := makeZeroCurve_ok hzc
  have hy : yearFrac [365] [730] .act_365 none = .ok [1] := by decide +kernel
  have hy0 : yearFrac [0] [365] .act_365 none = .ok [1] := by decide +kernel
  let o : OptionletCurve := ⟨0, .act_365, z, 0.01, sampleSmiles89⟩
  obtain ⟨n, hn, hnb⟩ := sample_column (·.volN)
  obtain ⟨b, hb, hbb⟩ := sample_column (·.beta)
  obtain ⟨r, hr', -⟩ := sample_column (·.rho)
  obtain ⟨v, hv, -⟩ := sample_column (·.volvol)
  have hn1 := hnb 0.01 0.02 (by simp [sampleSmiles89]; norm_num)
  have hb1 := hbb 0.5 0.5 (by simp [sampleSmiles89])
  have hF : ∃ F : ℝ, z.forwardRates [365] [730] .simple = .ok [some F] ∧ 0.03 < F := by
    refine ⟨(0.98 / 0.95 - 1) / 1, ?_, by norm_num⟩
    unfold ZeroCurve.forwardRates
    simp only [bind, pyAssert, hcd]
    have : ratioRates z [365] [730] .simple = .ok [some ((0.98 / 0.95 - 1) / 1)] := by
      unfold ratioRates
      rw [hbasis, hy, h365, h730]
      simp [bind, Except.bind, npBroadcast, forwardRate]
    simpa [Except.bind] using this
  obtain ⟨F, hF, hF3⟩ := hF
  have hFs : 0 < F + o.shift := by show (0 : ℝ) < F + 0.01; linarith
  have hlt : n * Real.sqrt 1 * normPdf 0 < F + o.shift := by
    rw [Real.sqrt_one, mul_one]
    show _ < F + 0.01
    have := normPdf_zero_lt_one
    have := normPdf_pos 0
    nlinarith
  obtain ⟨sv, hsv, hsv0, -⟩ := C55_round_trip_normal (fun _ _ => .ret 0 true) (fun _ _ => .ret 0 true) F 1 n o.shift hFs one_pos (by linarith) hlt
  obtain ⟨a, ha⟩ := C56_exists_partial roots hr 1 F b r v sv o.shift hFs hsv0 one_pos (by have := hb1.1; have := hb1.2; norm_num at *; linarith)
  have hsm : smileAt roots o 365 (some F) 1 = .ok ⟨365, 1, F, n, sv, a, b, r, v⟩ := smileAt_defined hn hb hr' hv hsv ha
  refine ⟨roots, o, F, hr, ⟨by show InOrder sampleSmiles89; simp [InOrder, sampleSmiles89], hzc⟩,
    hFs, fun c hc => ?_⟩
  have hvs : validateStrike (.number F) (.int c) 1 = .ok () := (validateStrike_iff _ _ _).2 (Or.inl ⟨F, c, rfl, rfl, hc.symm⟩)
  have hin : interpolateSabr roots o [⟨365, 730, 730⟩] = .ok [⟨365, 1, F, n, sv, a, b, r, v⟩] := by
    unfold interpolateSabr
    simp only [List.map_cons, List.map_nil]
    show ((z.forwardRates [365] [730] .simple).bind fun Fs => (yearFrac [0] [365] .act_365 none).bind _) = _
    rw [hF, hy0]
    simp only [Except.bind, List.zip_cons_cons, List.zip_nil_right, List.mapM_cons, List.mapM_nil, bind]
    rw [if_neg (by simp)]
    simp only [Rat.cast_one, hsm]
    rfl
  have hd : o.zero.discountFactors [730] = [some 0.95] := h730
  unfold priceOptionlets
  simp only [List.map_cons, List.map_nil, List.length_singleton, bind, Except.bind, hy, hvs, hin, stripVols, hd]
  rw [show calcSabrVols _ [F] o.shift = .ok [sabrVol o.shift (sabrRow (1, F, a, b, r, v) F)] from rfl]
  refine ⟨_, rfl, rfl, rfl, rfl, by show 0 < n; linarith, ?_⟩
  show (some (0.95 : ℝ)).map (fun d => ((1 : Rat) : ℝ) * d) = some 0.95
  norm_num

/-- The cap and the floor of the sample are covered, so parity, at-the-money pricing and the interpolation theorem apply to them. -/
theorem sampleCapFloor : ∃ roots o F caps floors, priceOptionlets roots o [⟨365, 730, 730⟩] (.number F) (.int 1) .act_365 .termStructure = .ok caps ∧
    priceOptionlets roots o [⟨365, 730, 730⟩] (.number F) (.int (-1)) .act_365 .termStructure = .ok floors ∧
    caps ≠ [] ∧ (∀ p ∈ caps, Covered o.shift .termStructure p ∧ p.annuity = some 0.95) ∧ stripTotal caps - stripTotal floors = 0 ∧
    makeZeroCurve 0 { date := some [365, 730], discountFactor := some [0.98, 0.95] } none .act_365 defaultBusCal = .ok o.zero := by
  obtain ⟨roots, o, F, hr, ⟨-, hzc⟩, hF, hc⟩ := sampleStrip
  obtain ⟨p, hp, hK, hpF, hpt, hpn, hpa⟩ := hc 1 (Or.inl rfl)
  obtain ⟨q, hq, -⟩ := hc (-1) (Or.inr rfl)
  have hFp : 0 < p.smile.F + o.shift := by rw [hpF]; exact hF
  obtain ⟨hv, -⟩ := C89_at_the_money roots hr o _ _ _ _ _ hp p (by simp) hK hFp hpn _ hpa
  have hsv : 0 < p.smile.volSln := by
    obtain ⟨-, Fs, -, hrow⟩ := priced_row hp
    obtain ⟨s, k, c, v, q, df, f, t, ho, -, -, -, -, -, -, hsm, -⟩ := hrow 0 _ rfl
    have hs : p.smile = s := by
      simp only [List.getElem?_cons_zero, Option.some.injEq] at ho
      rw [ho]
      rfl
    obtain ⟨-, h2, -, -, -, -, -, -, h9, -⟩ := smileAt_ok hsm
    rw [← hs] at h2 h9
    rw [← h2] at h9
    have ht : 0 < p.smile.expiryYears := by rw [hpt]; norm_num
    obtain ⟨w, hw, hw0, -⟩ := C55_round_trip_normal (fun _ _ => .ret 0 true) (fun _ _ => .ret 0 true) _ _ _ _ hFp ht hpn (normalToSln_facts hFp ht hpn h9)
    rw [h9] at hw
    cases hw
    exact hw0
  have hcov : ∀ x ∈ [p], Covered o.shift .termStructure x := by
    intro x hx
    rw [List.mem_singleton] at hx
    subst hx
    exact ⟨by rw [hpt]; norm_num, ⟨_, hv, hsv⟩, ⟨_, hpa⟩, Or.inr ⟨hFp, by rw [hK]; exact hFp⟩⟩
  refine ⟨roots, o, F, [p], [q], hp, hq, by simp, fun x hx => ⟨hcov x hx, by rw [List.mem_singleton] at hx; rw [hx, hpa]⟩, ?_, hzc⟩
  rw [C89_parity roots o _ F .act_365 .termStructure [p] [q] hp hq hcov]
  simp [hpF]

theorem solveVol_answers (err : ℝ → Npf) : solveVol (.ret 0 true) (.ret 0 true) err = .ok 0 := by
  unfold solveVol
  simp only [Search.run]
  by_cases h : within 0.00001 (err 0)
  · rw [if_pos h]
  · rw [if_neg h]
    simp [solveVol.fallback, Search.run]

/-- Equivalent flat volatilities are found for the sample strip when the methods report success. -/
example : ∃ roots o F caps, priceOptionlets roots o [⟨365, 730, 730⟩] (.number F) (.int 1) .act_365 .termStructure = .ok caps ∧ caps ≠ [] ∧
    (∀ p ∈ caps, p.annuity ≠ none) ∧
    equivalentFlatVols (fun _ _ => .ret 0 true) (fun _ _ => .ret 0 true) (fun _ _ => .ret 0 true) (fun _ _ => .ret 0 true) o caps = .ok (0, 0) := by
  obtain ⟨roots, o, F, hr, -, hF, hc⟩ := sampleStrip
  obtain ⟨p, hp, hK, hpF, hpt, hpn, hpa⟩ := hc 1 (Or.inl rfl)
  refine ⟨roots, o, F, [p], hp, by simp, by simp [hpa], ?_⟩
  unfold equivalentFlatVols
  rw [List.mapM_cons, hpa]
  simp only [List.mapM_nil, pure, bind, Option.bind]
  unfold black76SolveImpliedVol bachelierSolveImpliedVol
  rw [solveVol_answers]
  simp only [Except.bind, solveVol_answers]
  rfl

/-- Where the searches for the equivalent flat volatilities start: at the means of the optionlets' volatilities, `nan` left out.  Searches
that stop there return these. -/
theorem C89_flat_start (o : OptionletCurve) (out : List PricedOptionlet) (known : List ℝ) (hk : known = out.filterMap (·.vol))
    (hne : known ≠ []) :
    equivalentFlatVols (fun _ _ => .fail .runtime) (fun x0 _ => match x0 with | .fin x => .ret x true | _ => .fail .value)
      (fun _ _ => .fail .runtime) (fun x0 _ => match x0 with | .fin x => .ret x true | _ => .fail .value) o out =
      .ok (known.sum / known.length, (out.map (·.smile.volN)).sum / out.length) := by
  have hout : out ≠ [] := by rintro rfl; exact hne hk
  have h1 : ((known.length : ℕ) : ℝ) ≠ 0 := by
    rw [Nat.cast_ne_zero]; exact fun h => hne (List.length_eq_zero_iff.1 h)
  have h2 : ((out.length : ℕ) : ℝ) ≠ 0 := by
    rw [Nat.cast_ne_zero]; exact fun h => hout (List.length_eq_zero_iff.1 h)
  have e1 : seriesMean (out.map (·.vol)) = .fin (known.sum / known.length) := by
    unfold seriesMean
    rw [List.filterMap_map, show (id ∘ fun p : PricedOptionlet => p.vol) = fun p => p.vol from rfl, ← hk]
    simp [Npf.divide, h1]
  have e2 : seriesMean (out.map (fun p => some p.smile.volN)) = .fin ((out.map (·.smile.volN)).sum / out.length) := by
    have : (out.map (fun p => some p.smile.volN)).filterMap id = out.map (·.smile.volN) := by
      rw [List.filterMap_map]
      exact List.filterMap_eq_map (f := fun p : PricedOptionlet => p.smile.volN) ▸ rfl
    unfold seriesMean
    rw [this, List.length_map]
    simp [Npf.divide, h2]
  unfold equivalentFlatVols
  rw [e1, e2]
  split
  · simp [solveVol, Search.run, solveVol.fallback, Except.bind, Except.map]
  · simp [black76SolveImpliedVol, bachelierSolveImpliedVol, solveVol, Search.run, solveVol.fallback, Except.bind, Except.map]

end Frm.Props
