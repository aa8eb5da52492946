import Verif.Props.C89
import Verif.Props.C109Floater

/-! # C89 — A cap less a floor is a swap -/

namespace Frm
open Spec

set_option autoImplicit false

/-- A sum of differences over two lists of one length. -/
theorem zipWith_less (k : ℝ) (w : Int × Int → ℝ) : ∀ (rates : List ℝ) (ps : List (Int × Int)), rates.length = ps.length →
    (List.zipWith (fun x p => (x - k) * w p) rates ps).sum =
      (List.zipWith (fun x p => x * w p) rates ps).sum - k * (ps.map w).sum
  | [], [], _ => by simp
  | x :: rates, p :: ps, h => by
    simp only [List.zipWith_cons_cons, List.sum_cons, List.map_cons]
    rw [zipWith_less k w rates ps (by simpa using h)]
    ring

end Frm

namespace Frm.Props
open Spec

set_option autoImplicit false

/-- **C89** A cap less the floor with the same strike is a swap.  For consecutive periods paid at their ends, and accruals counted as on the
curve, the totals differ by what a floating leg is worth on the curve (the discount factor of the first start less that of the last end)
less the strike times the annuity of the fixed leg. -/
theorem C89_swap (roots : List ℝ → List ℂ) (o : OptionletCurve) (d0 : Int) (ends : List Int) (k : ℝ) (basis : DayCountBasis) (vol : StripVol)
    {cd : Int} {cal : BusCal} (hz : IsCurve cd basis cal o.zero) (hne : ends ≠ []) (hlt : (d0 :: ends).Pairwise (· < ·))
    (hin : ∀ d ∈ d0 :: ends, InRange o.zero d) (hpl : ∀ e ∈ ends, Plain basis e)
    (hdt : ∀ (i : Nat) (s e : Int), (d0 :: ends)[i]? = some s → ends[i]? = some e → yearsFrom basis s e ≠ 0)
    (D : Int → ℝ) (hD : ∀ d ∈ d0 :: ends, o.zero.discountFactors [d] = [some (D d)]) (caps floors : List PricedOptionlet)
    (hc : priceOptionlets roots o (((d0 :: ends).dropLast.zip ends).map (fun p => ⟨p.1, p.2, p.2⟩)) (.number k) (.int 1) basis vol = .ok caps)
    (hf : priceOptionlets roots o (((d0 :: ends).dropLast.zip ends).map (fun p => ⟨p.1, p.2, p.2⟩)) (.number k) (.int (-1)) basis vol
      = .ok floors) (hg : ∀ p ∈ caps, Covered o.shift vol p) :
    stripTotal caps - stripTotal floors = D d0 - D (ends.getLast hne) -
      k * (((d0 :: ends).dropLast.zip ends).map (fun p => yearsFrom basis p.1 p.2 * D p.2)).sum := by
  have hpl' : ((d0 :: ends).dropLast.zip ends).length = ends.length := by simp
  have hpair : ∀ (i : Nat) (s e : Int), (d0 :: ends)[i]? = some s → ends[i]? = some e →
      ((d0 :: ends).dropLast.zip ends)[i]? = some (s, e) := by
    intro i s e hs he
    have hi : i < ends.length := (List.getElem?_eq_some_iff.mp he).1
    refine List.getElem?_zip_eq_some.mpr ⟨?_, he⟩
    rw [List.getElem?_dropLast, if_pos (by simpa using hi)]
    exact hs
  have hfst : (((d0 :: ends).dropLast.zip ends).map (fun p => (⟨p.1, p.2, p.2⟩ : StripRow))).map (·.start) = (d0 :: ends).dropLast := by
    rw [List.map_map]
    exact List.map_fst_zip (by simp)
  have hsnd : (((d0 :: ends).dropLast.zip ends).map (fun p => (⟨p.1, p.2, p.2⟩ : StripRow))).map (·.finish) = ends := by
    rw [List.map_map]
    exact List.map_snd_zip (by simp)
  obtain ⟨hcl, F, hF, hrow⟩ := C89_rows roots o _ _ _ basis vol caps hc
  rw [hfst, hsnd] at hF
  have hcl' : caps.length = ends.length := by rw [hcl, List.length_map, hpl']
  have hpos : ∀ p ∈ (d0 :: ends).dropLast.zip ends, p.1 ≤ p.2 := by
    intro p hp
    obtain ⟨i, hi⟩ := List.mem_iff_getElem?.mp hp
    obtain ⟨h1, h2⟩ := List.getElem?_zip_eq_some.mp hi
    rw [List.getElem?_dropLast] at h1
    split at h1
    · have he' : (d0 :: ends)[i + 1]? = some p.2 := by simpa using h2
      obtain ⟨g1, e1⟩ := List.getElem?_eq_some_iff.mp h1
      obtain ⟨g2, e2⟩ := List.getElem?_eq_some_iff.mp he'
      rw [← e1, ← e2]
      exact (List.pairwise_iff_getElem.mp hlt i (i + 1) g1 g2 (by omega)).le
    · cases h1
  obtain ⟨F', hF', -, hgrow⟩ := C36_reproduces hz (d0 :: ends).dropLast ends (by simp)
    (fun d hd => hin d (List.mem_of_mem_dropLast hd)) (fun d hd => hin d (List.mem_cons_of_mem _ hd)) hpos .simple (by simp)
  rw [hF] at hF'
  cases hF'
  have key : ∀ (i : Nat) (s e : Int), (d0 :: ends)[i]? = some s → ends[i]? = some e → ∃ p, caps[i]? = some p ∧
      p.annuity = some (yearsFrom basis s e * D e) ∧ (1 + p.smile.F * yearsFrom basis s e) * D e = D s := by
    intro i s e hs he
    have hpi := hpair i s e hs he
    obtain ⟨p, hp, -, -, -, hFp, -, -, y, df, hy, hdf, hann⟩ := hrow i ⟨s, e, e⟩ (by rw [List.getElem?_map, hpi]; rfl)
    obtain ⟨q, hq, hyq⟩ := hy.2 (hpl e (List.mem_of_getElem? he))
    have hye := yearsFrom_eq hq
    rw [hD e (List.mem_cons_of_mem _ (List.mem_of_getElem? he))] at hdf
    simp only [List.cons.injEq, and_true] at hdf
    refine ⟨p, hp, ?_, ?_⟩
    · rw [hann, ← hdf, hye, ← hyq]
      rfl
    · obtain ⟨dt, a, b, -, hdt', ha, hb, hx⟩ := hgrow i s e (by
        have hi : i < ends.length := (List.getElem?_eq_some_iff.mp he).1
        rw [List.getElem?_dropLast, if_pos (by simpa using hi)]
        exact hs) he
      have hdt' := hdt' (hpl e (List.mem_of_getElem? he))
      have hd := hdt i s e hs he
      rw [yearsFrom_eq hdt'] at hd ⊢
      obtain ⟨x, hxi, hgr⟩ := hx hd
      rw [hFp] at hxi
      simp only [Option.some.injEq] at hxi
      subst hxi
      rw [hD s (List.mem_of_getElem? hs)] at ha
      rw [hD e (List.mem_cons_of_mem _ (List.mem_of_getElem? he))] at hb
      simp only [List.cons.injEq, Option.some.injEq, and_true] at ha hb
      have hbpos : 0 < b := by
        have hine := hin e (List.mem_cons_of_mem _ (List.mem_of_getElem? he))
        have h1 := discountFactors_all hz (dates := [e]) (by simpa using hine)
        rw [hD e (List.mem_cons_of_mem _ (List.mem_of_getElem? he))] at h1
        simp only [List.map_cons, List.map_nil, List.cons.injEq, Option.some.injEq, and_true] at h1
        rw [← hb, h1]
        exact dfOf_pos hz hine
      have hgr' : 1 + p.smile.F * dt = a / b := hgr
      rw [hgr', ha, hb]
      field_simp
  rw [C89_parity roots o _ k basis vol caps floors hc hf hg]
  have hlist : caps.map (fun p => p.annuity.getD 0 * (p.smile.F - k)) =
      List.zipWith (fun x p => (x - k) * (yearsFrom basis p.1 p.2 * D p.2)) (caps.map (·.smile.F)) ((d0 :: ends).dropLast.zip ends) := by
    refine List.ext_getElem? ?_
    intro i
    rw [List.getElem?_map, List.getElem?_zipWith, List.getElem?_map]
    by_cases hi : i < ends.length
    · have hi' : i < (d0 :: ends).length := by
        rw [List.length_cons]
        omega
      obtain ⟨p, hp, hann, -⟩ := key i _ _ (List.getElem?_eq_getElem hi') (List.getElem?_eq_getElem hi)
      rw [hp, hpair i _ _ (List.getElem?_eq_getElem hi') (List.getElem?_eq_getElem hi)]
      simp only [Option.map_some, hann, Option.getD_some, Option.some.injEq]
      ring
    · rw [List.getElem?_eq_none (by omega)]
      simp
  rw [hlist, zipWith_less k (fun p => yearsFrom basis p.1 p.2 * D p.2) _ _ (by simp [hcl'])]
  have := floater_sum D (yearsFrom basis) ends d0 (caps.map (·.smile.F)) (by simp [hcl']) (fun i s e hs he => by
    obtain ⟨p, hp, -, hx⟩ := key i s e hs he
    exact ⟨p.smile.F, by rw [List.getElem?_map, hp]; rfl, hx⟩)
  rw [List.getLast?_eq_some_getLast hne, Option.getD_some] at this
  rw [← this]
  congr 2
  simp only [mul_assoc]

/-- **C89** A strip is worth more than its rows exercised today: the total exceeds the sum of annuities times what each row is in the money. -/
theorem C89_intrinsic (roots : List ℝ → List ℂ) (o : OptionletCurve) (rows : List StripRow) (K : StrikeArg) (cp : FlagArg)
    (basis : DayCountBasis) (vol : StripVol) (out : List PricedOptionlet) (h : priceOptionlets roots o rows K cp basis vol = .ok out)
    (hne : out ≠ []) (hg : ∀ p ∈ out, Covered o.shift vol p) (hcp : ∀ p ∈ out, p.cp = 1 ∨ p.cp = -1)
    (ha : ∀ p ∈ out, ∀ a, p.annuity = some a → 0 < a) :
    (out.map (fun p => p.annuity.getD 0 * max 0 (p.cp * (p.smile.F - p.K)))).sum < stripTotal out := by
  have hrow : ∀ p ∈ out, ∃ X, p.value.price = some X ∧ p.annuity.getD 0 * max 0 (p.cp * (p.smile.F - p.K)) < X := by
    intro p hp
    obtain ⟨i, hi⟩ := List.getElem?_of_mem hp
    obtain ⟨ht, ⟨v, hv, hv0⟩, ⟨a, hpa⟩, hcase⟩ := hg p hp
    have hval := (C89_prices roots o rows K cp basis vol out h i p hi).1 v a hv hpa
    have ha0 := ha p hp a hpa
    rw [hpa, Option.getD_some]
    have black : 0 < p.smile.F + o.shift ∧ 0 < p.K + o.shift →
        black76Price [⟨p.smile.F, p.smile.expiryYears, p.cp, p.K, v, o.shift, a⟩] = [p.value] →
        ∃ X, p.value.price = some X ∧ a * max 0 (p.cp * (p.smile.F - p.K)) < X := by
      intro hpos hval
      have hx : LognormalOption ⟨p.smile.F, p.smile.expiryYears, p.cp, p.K, v, o.shift, a⟩ := ⟨hpos.1, hpos.2, ht, hv0, hcp p hp⟩
      obtain ⟨X, hX, -⟩ := C52_price _ hx
      obtain ⟨w, hw, hwX⟩ := id hX
      rw [hval] at hw
      cases hw
      exact ⟨X, hwX, (C52_bounds _ hx ha0 X hX).1⟩
    cases vol with
    | normal l =>
      have hx : NormalOption ⟨p.smile.F, p.smile.expiryYears, p.cp, p.K, v, a⟩ := ⟨ht, hv0, hcp p hp⟩
      obtain ⟨X, hX, -⟩ := C53_price _ hx
      obtain ⟨w, hw, hwX⟩ := id hX
      rw [show bachelierPrice [⟨p.smile.F, p.smile.expiryYears, p.cp, p.K, v, a⟩] = [p.value] from hval] at hw
      cases hw
      exact ⟨X, hwX, (C53_bounds _ hx ha0 X hX).1⟩
    | termStructure => exact black (hcase.resolve_left (by rintro ⟨l, hl⟩; cases hl)) hval
    | sln l => exact black (hcase.resolve_left (by rintro ⟨l, hl⟩; cases hl)) hval
  clear h hg hcp ha
  unfold stripTotal
  induction out with
  | nil => exact absurd rfl hne
  | cons p l ih =>
    obtain ⟨X, hX, hlt⟩ := hrow p (by simp)
    rw [List.map_cons, List.sum_cons, List.filterMap_cons_some (f := fun p : PricedOptionlet => p.value.price) hX, List.sum_cons]
    rcases l with _ | ⟨q, l⟩
    · simpa using hlt
    · exact add_lt_add hlt (ih (by simp) (fun r hr => hrow r (List.mem_cons_of_mem _ hr)))

/-- **C89** Asking for the smiles of a schedule whose first period has already begun on the curve date, or whose first forward rate is minus
the shift, raises `ValueError`: no lognormal volatility has the price of the normal one. -/
theorem C89_no_smile (roots : List ℝ → List ℂ) (o : OptionletCurve) (r : StripRow) (rows : List StripRow) (f : Option ℝ) (fs : List (Option ℝ))
    (t : Rat) (ts : List Rat)
    (hF : o.zero.forwardRates ((r :: rows).map (·.start)) ((r :: rows).map (·.finish)) .simple = .ok (f :: fs))
    (ht : yearFrac [o.curveDate] ((r :: rows).map (·.start)) o.basis none = .ok (t :: ts))
    (hbad : t ≤ 0 ∨ f = some (-o.shift)) : interpolateSabr roots o (r :: rows) = .error .value := by
  have hs : smileAt roots o r.start f (t : ℝ) = .error .value := by
    unfold smileAt
    split
    · rename_i F n b q v h1 h2 h3 h4
      have : normalVolAtmToSlnAtm F (t : ℝ) n o.shift = .nan := by
        unfold normalVolAtmToSlnAtm
        rw [if_pos]
        rcases hbad with h | h
        · exact .inl (by exact_mod_cast h)
        · right
          cases h
          ring
      rw [this]
    · rfl
  unfold interpolateSabr
  rw [hF, ht]
  simp only [bind, Except.bind]
  by_cases hn : r :: rows = [] ∨ ¬ ((r :: rows).map (·.start)).Nodup
  · rw [if_pos hn]
  · rw [if_neg hn, List.map_cons, List.zip_cons_cons, List.zip_cons_cons, List.mapM_cons, hs]
    rfl

/-- A cap and a floor from year one to year two, struck at the forward rate. -/
example : ∃ roots o F caps floors, priceOptionlets roots o [⟨365, 730, 730⟩] (.number F) (.int 1) .act_365 .termStructure = .ok caps ∧
    priceOptionlets roots o [⟨365, 730, 730⟩] (.number F) (.int (-1)) .act_365 .termStructure = .ok floors ∧ caps ≠ [] ∧
    stripTotal caps - stripTotal floors = 0.98 - 0.95 - F * 0.95 ∧ F * 0.95 = 0.98 - 0.95 := by
  obtain ⟨roots, o, F, caps, floors, hc, hf, hne, hcov, h0, hz⟩ := sampleCapFloor
  obtain ⟨-, hr, h730⟩ := sampleCurve_facts hz
  have hb : ActBasis .act_365 := .inr (.inl rfl)
  have h365 : o.zero.discountFactors [365] = [some 0.98] := C35_reproduces_quotes 0 [365, 730] [0.98, 0.95] none .act_365 hb _ _
    rfl (by decide) (by decide) (by
      intro v hv
      simp only [List.mem_cons, List.not_mem_nil, or_false] at hv
      rcases hv with rfl | rfl <;> norm_num) hz 0 365 0.98 rfl rfl
  have y2 : yearsFrom .act_365 365 730 = 1 := by
    rw [yearsFrom_eq (by decide +kernel : yearFrac [365] [730] .act_365 none = .ok [(1 : Rat)])]; norm_num
  have h := C89_swap roots o 365 [730] F .act_365 .termStructure (.linear hz) (by simp) (by decide)
    (by
      intro d hd
      rw [hr]
      simp only [List.mem_cons, List.not_mem_nil, or_false] at hd
      omega) (fun e _ => actBasis_plain hb e) (by
      intro i s e hs he
      match i, hs, he with
      | 0, hs, he => cases hs; cases he; rw [y2]; norm_num)
    (fun d => if d = 365 then 0.98 else 0.95) (by
      intro d hd
      simp only [List.mem_cons, List.not_mem_nil, or_false] at hd
      rcases hd with rfl | rfl
      · simpa using h365
      · simpa using h730) caps floors hc hf (fun p hp => (hcov p hp).1)
  have h' : stripTotal caps - stripTotal floors = 0.98 - 0.95 - F * 0.95 := by
    rw [h]
    simp [y2]
  exact ⟨roots, o, F, caps, floors, hc, hf, hne, h', by linarith⟩

/-- That cap, struck at the forward rate, is worth something. -/
example : ∃ roots o F caps, priceOptionlets roots o [⟨365, 730, 730⟩] (.number F) (.int 1) .act_365 .termStructure = .ok caps ∧
    caps ≠ [] ∧ 0 < stripTotal caps := by
  obtain ⟨roots, o, F, caps, floors, hc, -, hne, hcov, -, -⟩ := sampleCapFloor
  refine ⟨roots, o, F, caps, hc, hne, lt_of_le_of_lt (List.sum_nonneg ?_) (C89_intrinsic roots o _ _ _ _ _ caps hc hne
    (fun p hp => (hcov p hp).1) ?_ ?_)⟩
  · intro x hx
    obtain ⟨p, hp, rfl⟩ := List.mem_map.1 hx
    rw [(hcov p hp).2, Option.getD_some]
    exact mul_nonneg (by norm_num) (le_max_left _ _)
  · intro p hp
    obtain ⟨hl, F', -, hrow⟩ := C89_rows roots o _ _ _ _ _ caps hc
    obtain ⟨i, hi⟩ := List.getElem?_of_mem hp
    have hil : i < 1 := by
      have := (List.getElem?_eq_some_iff.1 hi).1
      simpa [hl] using this
    obtain rfl : i = 0 := by omega
    obtain ⟨q, hq, -, -, hflag, -⟩ := hrow 0 _ rfl
    rw [hi] at hq
    cases hq
    exact .inl (by simpa [FlagOf] using hflag)
  · intro p hp a hpa
    rw [(hcov p hp).2] at hpa
    cases hpa
    norm_num

/-- The schedule of that cap, with smiles for a shift that makes the shifted forward rate zero. -/
example : ∃ roots o, interpolateSabr roots o [⟨365, 730, 730⟩] = .error .value ∧ ∃ F, o.zero.forwardRates [365] [730] .simple = .ok [some F] := by
  obtain ⟨roots, o, F, caps, floors, hc, -⟩ := sampleCapFloor
  obtain ⟨fr, sm, vs, -, -, hi, -⟩ := priceOptionlets_ok hc
  obtain ⟨Fs, taus, hF, ht, -, -, hl⟩ := interpolateSabr_ok hi
  obtain ⟨-, F', hF', hrow⟩ := C89_rows roots o _ _ _ _ _ caps hc
  obtain ⟨p, -, -, -, -, hf, -⟩ := hrow 0 _ rfl
  rw [hF] at hF'
  cases hF'
  have hFl := forwardRates_length hF
  have htl := yearFrac_length ht
  simp only [List.map_cons, List.map_nil, List.length_cons, List.length_nil] at hFl htl
  match Fs, taus, hFl, htl, hf, hF, ht with
  | [g], [t], _, _, hf, hF, ht =>
    cases hf
    refine ⟨roots, { o with shift := -p.smile.F }, ?_, p.smile.F, hF⟩
    exact C89_no_smile roots { o with shift := -p.smile.F } ⟨365, 730, 730⟩ [] _ [] t [] hF ht (.inr (by simp))

end Frm.Props
