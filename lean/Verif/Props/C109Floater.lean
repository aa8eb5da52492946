import Verif.Props.C109
import Verif.Props.C38

/-! # C109 — A floating leg on the fixings of a curve -/

namespace Frm
open Spec

set_option autoImplicit false

/-- Growth factors that are quotients of discount factors make the discounted interest of consecutive periods collapse. -/
theorem floater_sum (D : Int → ℝ) (Y : Int → Int → ℝ) (ends : List Int) : ∀ (d0 : Int) (rates : List ℝ),
    rates.length = ends.length →
    (∀ (i : Nat) (s e : Int), (d0 :: ends)[i]? = some s → ends[i]? = some e → ∃ x, rates[i]? = some x ∧ (1 + x * Y s e) * D e = D s) →
    (List.zipWith (fun x (p : Int × Int) => x * Y p.1 p.2 * D p.2) rates ((d0 :: ends).dropLast.zip ends)).sum =
      D d0 - D (ends.getLast?.getD d0) := by
  induction ends with
  | nil => intro d0 rates h _; cases rates <;> simp
  | cons e ends ih =>
    intro d0 rates hl hg
    match rates, hl with
    | x :: rates, hl =>
      have h1 := ih e rates (by simpa using hl) (fun i s e' hs he => by
        obtain ⟨y, hy, hyy⟩ := hg (i + 1) s e' (by simpa using hs) (by simpa using he)
        exact ⟨y, by simpa using hy, hyy⟩)
      obtain ⟨y, hy, hyy⟩ := hg 0 d0 e rfl rfl
      have hxy : x = y := by simpa using hy
      subst hxy
      have hlast : ((e :: ends).getLast?.getD d0) = ends.getLast?.getD e := by
        cases ends with
        | nil => rfl
        | cons a l => simp [List.getLast?_cons]
      rw [hlast, List.dropLast_cons_of_ne_nil (by simp), List.zip_cons_cons, List.zipWith_cons_cons, List.sum_cons, h1]
      simp only
      linarith

end Frm

namespace Frm.Props
open Spec

set_option autoImplicit false

/-- **C109** The rates of consecutive future periods, paid on their accruals at the periods' ends and discounted with the curve, are worth
the discount factor of the first start less that of the last end: a floating leg is worth its notional invested at the start and
returned at the end. -/
theorem C109_floater {cd : Int} {basis : DayCountBasis} {cal : BusCal} {z : ZeroCurve} (h : IsCurve cd basis cal z)
    (fixings : List (Int × Rat)) (hone : OnePerDate fixings) (d0 : Int) (ends : List Int) (hne : ends ≠ [])
    (hlt : (d0 :: ends).Pairwise (· < ·)) (hcd : cd ≤ d0) (hin : ∀ d ∈ d0 :: ends, InRange z d) (hpl : ∀ e ∈ ends, Plain basis e)
    (hdt : ∀ (i : Nat) (s e : Int), (d0 :: ends)[i]? = some s → ends[i]? = some e → yearsFrom basis s e ≠ 0)
    (D : Int → ℝ) (hD : ∀ d ∈ d0 :: ends, z.discountFactors [d] = [some (D d)]) (r : List (Option ℝ))
    (hr : rfrGetFixingsOn z fixings (d0 :: ends).dropLast ends .dailyCompounded = .ok r) :
    ∃ rates : List ℝ, r = rates.map some ∧
      (List.zipWith (fun x (p : Int × Int) => x * yearsFrom basis p.1 p.2 * D p.2) rates ((d0 :: ends).dropLast.zip ends)).sum =
        D d0 - D (ends.getLast hne) := by
  have hlen : ends.length = (d0 :: ends).dropLast.length := by simp
  have hst : ∀ (i : Nat) (s : Int), (d0 :: ends).dropLast[i]? = some s → (d0 :: ends)[i]? = some s := by
    intro i s hs
    rw [List.getElem?_dropLast] at hs
    split at hs
    · exact hs
    · cases hs
  have hpos : ∀ (i : Nat) (s e : Int), (d0 :: ends)[i]? = some s → ends[i]? = some e → s < e := by
    intro i s e hs he
    have he' : (d0 :: ends)[i + 1]? = some e := by simpa using he
    obtain ⟨h1, rfl⟩ := List.getElem?_eq_some_iff.mp hs
    obtain ⟨h2, rfl⟩ := List.getElem?_eq_some_iff.mp he'
    exact List.pairwise_iff_getElem.mp hlt i (i + 1) h1 h2 (by omega)
  obtain ⟨hrl, hp⟩ := C109_period_partial h fixings hone (d0 :: ends).dropLast ends hlen (fun i s e hs he => hpos i s e (hst i s hs) he)
    (fun e he _ => hin e (List.mem_cons_of_mem _ he)) _ r hr
  have hrow : ∀ (i : Nat) (s e : Int), (d0 :: ends)[i]? = some s → ends[i]? = some e →
      ∃ x, r[i]? = some (some x) ∧ (1 + x * yearsFrom basis s e) * D e = D s := by
    intro i s e hs he
    have hi : i < ends.length := (List.getElem?_eq_some_iff.mp he).1
    have hs' : (d0 :: ends).dropLast[i]? = some s := by
      rw [List.getElem?_dropLast, if_pos (by simpa using hi)]
      exact hs
    obtain ⟨x, hx, -, h2, -⟩ := hp i s e hs' he
    have hcs : cd ≤ s := by
      have hm := List.mem_of_getElem? hs
      rcases List.mem_cons.mp hm with rfl | hm
      · exact hcd
      · exact hcd.trans ((List.pairwise_cons.mp hlt).1 s hm).le
    obtain ⟨last, -, dt, hy, hg⟩ := h2 hcs
    rw [(curve_ok h).2.1, yearFrac_flag (.inl (hpl e (List.mem_of_getElem? he)))] at hy
    have hye := yearsFrom_eq hy
    have hd := hdt i s e hs he
    rw [hye] at hd ⊢
    obtain ⟨y, hxy, a, b, ha, hb, hb0, hab⟩ := hg (by exact_mod_cast hd)
    rw [hD s (List.mem_of_getElem? hs)] at ha
    rw [hD e (List.mem_cons_of_mem _ (List.mem_of_getElem? he))] at hb
    simp only [List.cons.injEq, Option.some.injEq, and_true] at ha hb
    refine ⟨y, by rw [hx, hxy], ?_⟩
    rw [hab, ha, hb]
    field_simp
  obtain ⟨rates, hrates⟩ : ∃ rates : List ℝ, r = rates.map some := by
    refine ⟨r.map (fun x => x.getD 0), ?_⟩
    rw [List.map_map]
    refine (List.map_id r).symm.trans (List.map_congr_left ?_)
    intro x hx
    obtain ⟨i, hi⟩ := List.mem_iff_getElem?.mp hx
    have hil : i < ends.length := by
      have := (List.getElem?_eq_some_iff.mp hi).1
      rw [hrl, ← hlen] at this
      exact this
    have hil' : i < (d0 :: ends).length := by
      rw [List.length_cons]
      omega
    obtain ⟨w, hw, -⟩ := hrow i _ _ (List.getElem?_eq_getElem hil') (List.getElem?_eq_getElem hil)
    rw [hi] at hw
    cases hw
    rfl
  refine ⟨rates, hrates, ?_⟩
  have := floater_sum D (yearsFrom basis) ends d0 rates (by
      have := congrArg List.length hrates
      simp at this
      simp [hrl] at this
      omega) (fun i s e hs he => by
      obtain ⟨x, hx, hxx⟩ := hrow i s e hs he
      refine ⟨x, ?_, hxx⟩
      rw [hrates, List.getElem?_map, Option.map_eq_some_iff] at hx
      obtain ⟨y, hy, he⟩ := hx
      rw [hy]
      exact he)
  rw [this, List.getLast?_eq_some_getLast hne]
  rfl

/-- Two yearly periods on a curve with discount factors 0.98 after one year and 0.95 after two. -/
example (cal : BusCal) (fixings : List (Int × Rat)) (hone : OnePerDate fixings) : ∃ (z : ZeroCurve) (x y : ℝ),
    makeZeroCurve 0 { date := some [365, 730], discountFactor := some [0.98, 0.95] } none .act_365 cal = .ok z ∧
    rfrGetFixingsOn z fixings [0, 365] [365, 730] .dailyCompounded = .ok [some x, some y] ∧ x * 0.98 + y * 0.95 = 1 - 0.95 := by
  obtain ⟨z, hz⟩ := sampleCurve cal
  obtain ⟨hg, hr, h730⟩ := sampleCurve_facts hz
  have hin : ∀ d ∈ [(0 : Int), 365, 730], InRange z d := by
    intro d hd
    rw [hr]
    simp only [List.mem_cons, List.not_mem_nil, or_false] at hd
    omega
  have h365 : z.discountFactors [365] = [some 0.98] := C35_reproduces_quotes 0 [365, 730] [0.98, 0.95] none .act_365 (.inr (.inl rfl)) cal z
    rfl (by decide) (by decide) (by
      intro v hv
      simp only [List.mem_cons, List.not_mem_nil, or_false] at hv
      rcases hv with rfl | rfl <;> norm_num) hz 0 365 0.98 rfl rfl
  have h0 : z.discountFactors [0] = [some 1] := C35_unit_at_curve_date hz (actBasis_plain (.inr (.inl rfl)) 0) hg (hin 0 (by simp))
  obtain ⟨r, hres⟩ := (C109_answered_partial (.linear hz) fixings [0, 365] [365, 730] rfl (by simp)
    (fun e he _ => hin e (List.mem_cons_of_mem _ he)) .dailyCompounded).mpr ⟨.inl (by decide), .inl (by decide)⟩
  have y1 : yearsFrom .act_365 0 365 = 1 := by
    rw [yearsFrom_eq (by decide +kernel : yearFrac [0] [365] .act_365 none = .ok [(1 : Rat)])]; norm_num
  have y2 : yearsFrom .act_365 365 730 = 1 := by
    rw [yearsFrom_eq (by decide +kernel : yearFrac [365] [730] .act_365 none = .ok [(1 : Rat)])]; norm_num
  obtain ⟨rates, hrates, hsum⟩ := C109_floater (.linear hz) fixings hone 0 [365, 730] (by simp) (by decide) (le_refl _) hin
    (fun e _ => actBasis_plain (.inr (.inl rfl)) e) (by
      intro i s e hs he
      match i, hs, he with
      | 0, hs, he => cases hs; cases he; rw [y1]; norm_num
      | 1, hs, he => cases hs; cases he; rw [y2]; norm_num)
    (fun d => if d = 0 then 1 else if d = 365 then 0.98 else 0.95) (by
      intro d hd
      simp only [List.mem_cons, List.not_mem_nil, or_false] at hd
      rcases hd with rfl | rfl | rfl
      · simpa using h0
      · simpa using h365
      · simpa using h730) r hres
  have hl : r.length = 2 := (C109_period_partial (.linear hz) fixings hone [0, 365] [365, 730] rfl (by
      intro i s e hs he
      match i, hs, he with
      | 0, hs, he => cases hs; cases he; norm_num
      | 1, hs, he => cases hs; cases he; norm_num) (fun e he _ => hin e (List.mem_cons_of_mem _ he)) _ r hres).1
  subst hrates
  match rates, hl, hsum, hres with
  | [x, y], _, hsum, hres =>
    refine ⟨z, x, y, hz, hres, ?_⟩
    simpa [y1, y2] using hsum

/-- **C109** The same leg once running: the first period began before the curve date, its fixings so far being worth the rate `past`.
The leg is worth what they have grown a deposit to, less the discount factor of the last end. -/
theorem C109_running_floater {cd : Int} {basis : DayCountBasis} {cal : BusCal} {z : ZeroCurve} (h : IsCurve cd basis cal z)
    (fixings : List (Int × Rat)) (hone : OnePerDate fixings) (s0 e0 : Int) (ends : List Int) (hs0 : s0 < cd) (he0 : cd < e0)
    (hlt : (e0 :: ends).Pairwise (· < ·)) (hin : ∀ d ∈ e0 :: ends, InRange z d) (hpl : ∀ e ∈ cd :: e0 :: ends, Plain basis e)
    (hdt : ∀ (i : Nat) (s e : Int), (e0 :: ends)[i]? = some s → ends[i]? = some e → yearsFrom basis s e ≠ 0)
    (hdt0 : yearsFrom basis cd e0 ≠ 0) (hdt1 : yearsFrom basis s0 cd + yearsFrom basis cd e0 ≠ 0)
    (D : Int → ℝ) (hD : ∀ d ∈ cd :: e0 :: ends, z.discountFactors [d] = [some (D d)]) (r : List (Option ℝ))
    (hr : rfrGetFixingsOn z fixings (s0 :: e0 :: ends).dropLast (e0 :: ends) .dailyCompounded = .ok r) (past : Rat)
    (hp : ownRate basis fixings .dailyCompounded s0 cd = some past) :
    ∃ (x : ℝ) (rates : List ℝ), r = some x :: rates.map some ∧
      x * (yearsFrom basis s0 cd + yearsFrom basis cd e0) * D e0 +
        (List.zipWith (fun x (p : Int × Int) => x * yearsFrom basis p.1 p.2 * D p.2) rates ((e0 :: ends).dropLast.zip ends)).sum =
        (1 + yearsFrom basis s0 cd * past) * D cd - D (ends.getLast?.getD e0) := by
  have hlen : (e0 :: ends).length = (s0 :: e0 :: ends).dropLast.length := by simp
  have hlt' : (s0 :: e0 :: ends).Pairwise (· < ·) := by
    refine List.pairwise_cons.mpr ⟨?_, hlt⟩
    intro d hd
    rcases List.mem_cons.mp hd with rfl | hd
    · omega
    · have := (List.pairwise_cons.mp hlt).1 d hd
      omega
  have hst : ∀ (i : Nat) (s : Int), (s0 :: e0 :: ends).dropLast[i]? = some s → (s0 :: e0 :: ends)[i]? = some s := by
    intro i s hs
    rw [List.getElem?_dropLast] at hs
    split at hs
    · exact hs
    · cases hs
  have hpos : ∀ (i : Nat) (s e : Int), (s0 :: e0 :: ends).dropLast[i]? = some s → (e0 :: ends)[i]? = some e → s < e := by
    intro i s e hs he
    have he' : (s0 :: e0 :: ends)[i + 1]? = some e := by simpa using he
    obtain ⟨h1, rfl⟩ := List.getElem?_eq_some_iff.mp (hst i s hs)
    obtain ⟨h2, rfl⟩ := List.getElem?_eq_some_iff.mp he'
    exact List.pairwise_iff_getElem.mp hlt' i (i + 1) h1 h2 (by omega)
  obtain ⟨hrl, hper⟩ := C109_period_partial h fixings hone _ (e0 :: ends) hlen hpos (fun e he _ => hin e he) _ r hr
  obtain ⟨last, hy, fy, -, y1, y2, hfirst⟩ := C109_straddling_partial h fixings hone _ (e0 :: ends) hlen hpos (fun e he _ => hin e he) r hr 0
    s0 e0 (by simp) rfl hs0 he0 past hp
  rw [yearFrac_flag (.inl (hpl cd (by simp)))] at y1
  rw [yearFrac_flag (.inl (hpl e0 (by simp)))] at y2
  rw [yearsFrom_eq y1, yearsFrom_eq y2] at hdt1
  rw [yearsFrom_eq y2] at hdt0
  obtain ⟨x, a, b, hx, ha, hb, hab⟩ := hfirst (by exact_mod_cast hdt0) (by exact_mod_cast hdt1)
  rw [hD cd (by simp)] at ha
  rw [hD e0 (by simp)] at hb
  simp only [List.cons.injEq, Option.some.injEq, and_true] at ha hb
  have hrow : ∀ (i : Nat) (s e : Int), (e0 :: ends)[i]? = some s → ends[i]? = some e →
      ∃ x, r[i + 1]? = some (some x) ∧ (1 + x * yearsFrom basis s e) * D e = D s := by
    intro i s e hs he
    have hi : i < ends.length := (List.getElem?_eq_some_iff.mp he).1
    have hs' : (s0 :: e0 :: ends).dropLast[i + 1]? = some s := by
      rw [List.getElem?_dropLast, if_pos (by simpa using hi)]
      simpa using hs
    have he' : (e0 :: ends)[i + 1]? = some e := by simpa using he
    obtain ⟨x, hx, -, h2, -⟩ := hper (i + 1) s e hs' he'
    have hcs : cd ≤ s := by
      have hm := List.mem_of_getElem? hs
      rcases List.mem_cons.mp hm with rfl | hm
      · exact he0.le
      · exact he0.le.trans ((List.pairwise_cons.mp hlt).1 s hm).le
    obtain ⟨last, -, dt, hy, hg⟩ := h2 hcs
    have hme : e ∈ cd :: e0 :: ends := List.mem_cons_of_mem _ (List.mem_of_getElem? he')
    rw [(curve_ok h).2.1, yearFrac_flag (.inl (hpl e hme))] at hy
    have hye := yearsFrom_eq hy
    have hd := hdt i s e hs he
    rw [hye] at hd ⊢
    obtain ⟨y, hxy, a, b, ha, hb, hb0, hab⟩ := hg (by exact_mod_cast hd)
    rw [hD s (List.mem_cons_of_mem _ (List.mem_of_getElem? hs))] at ha
    rw [hD e hme] at hb
    simp only [List.cons.injEq, Option.some.injEq, and_true] at ha hb
    refine ⟨y, by rw [hx, hxy], ?_⟩
    rw [hab, ha, hb]
    field_simp
  match r, hrl, hx, hrow with
  | r0 :: r, hrl, hx, hrow =>
    have hr0 : r0 = some x := by simpa using hx
    have hrl' : r.length = ends.length := by simpa using hrl
    have hrates : r = (r.map (fun x => x.getD 0)).map some := by
      rw [List.map_map]
      refine (List.map_id r).symm.trans (List.map_congr_left ?_)
      intro x hx
      obtain ⟨i, hi⟩ := List.mem_iff_getElem?.mp hx
      have hil : i < ends.length := by
        have := (List.getElem?_eq_some_iff.mp hi).1
        omega
      have hil' : i < (e0 :: ends).length := by
        rw [List.length_cons]
        omega
      obtain ⟨w, hw, -⟩ := hrow i _ _ (List.getElem?_eq_getElem hil') (List.getElem?_eq_getElem hil)
      rw [List.getElem?_cons_succ, hi] at hw
      cases hw
      rfl
    refine ⟨x, r.map (fun x => x.getD 0), by rw [hr0, ← hrates], ?_⟩
    rw [floater_sum D (yearsFrom basis) ends e0 (r.map (fun x => x.getD 0)) (by simpa using hrl') (fun i s e hs he => by
      obtain ⟨w, hw, hww⟩ := hrow i s e hs he
      rw [List.getElem?_cons_succ] at hw
      exact ⟨w, by rw [List.getElem?_map, hw]; rfl, hww⟩), yearsFrom_eq y1, yearsFrom_eq y2]
    rw [← ha, ← hb] at hab
    push_cast at hab
    linarith

/-- A leg in its first period, which began one day before the curve date with a fixing of 2%. -/
example (cal : BusCal) : ∃ (z : ZeroCurve) (x y : ℝ),
    makeZeroCurve 0 { date := some [365, 730], discountFactor := some [0.98, 0.95] } none .act_365 cal = .ok z ∧
    rfrGetFixingsOn z sampleFixings [-1, 365] [365, 730] .dailyCompounded = .ok [some x, some y] ∧
    x * (1 / 365 + 1) * 0.98 + y * 0.95 = (1 + 1 / 365 * 0.02) - 0.95 := by
  obtain ⟨z, hz⟩ := sampleCurve cal
  obtain ⟨hg, hr, h730⟩ := sampleCurve_facts hz
  have hb : ActBasis .act_365 := .inr (.inl rfl)
  have hin : ∀ d ∈ [(0 : Int), 365, 730], InRange z d := by
    intro d hd
    rw [hr]
    simp only [List.mem_cons, List.not_mem_nil, or_false] at hd
    omega
  have h365 : z.discountFactors [365] = [some 0.98] := C35_reproduces_quotes 0 [365, 730] [0.98, 0.95] none .act_365 hb cal z
    rfl (by decide) (by decide) (by
      intro v hv
      simp only [List.mem_cons, List.not_mem_nil, or_false] at hv
      rcases hv with rfl | rfl <;> norm_num) hz 0 365 0.98 rfl rfl
  have h0 : z.discountFactors [0] = [some 1] := C35_unit_at_curve_date hz (actBasis_plain hb 0) hg (hin 0 (by simp))
  have hone : OnePerDate sampleFixings := by simp [OnePerDate, sampleFixings]
  have hin' : ∀ e ∈ [(365 : Int), 730], (0 : Int) < e → InRange z e := fun e he _ => hin e (List.mem_cons_of_mem _ he)
  have q : ∀ a b, (getCouponRates .act_365 sampleFixings a b .dailyCompounded).isOk = true →
      ∃ v, getCouponRates .act_365 sampleFixings a b .dailyCompounded = .ok v := by
    intro a b hab
    cases hh : getCouponRates .act_365 sampleFixings a b .dailyCompounded with
    | error e => rw [hh] at hab; cases hab
    | ok v => exact ⟨v, rfl⟩
  obtain ⟨r, hres⟩ := (C109_answered_partial (.linear hz) sampleFixings [-1, 365] [365, 730] rfl (by decide) hin' .dailyCompounded).mpr
    ⟨.inl (by decide), .inr (q _ _ (by decide +kernel))⟩
  have y0 : yearsFrom .act_365 (-1) 0 = 1 / 365 := by
    rw [yearsFrom_eq (by decide +kernel : yearFrac [-1] [0] .act_365 none = .ok [(1 / 365 : Rat)])]; norm_num
  have y1 : yearsFrom .act_365 0 365 = 1 := by
    rw [yearsFrom_eq (by decide +kernel : yearFrac [0] [365] .act_365 none = .ok [(1 : Rat)])]; norm_num
  have y2 : yearsFrom .act_365 365 730 = 1 := by
    rw [yearsFrom_eq (by decide +kernel : yearFrac [365] [730] .act_365 none = .ok [(1 : Rat)])]; norm_num
  have hp : ownRate .act_365 sampleFixings .dailyCompounded (-1) 0 = some (2 / 100) := by decide +kernel
  obtain ⟨x, rates, hrates, hsum⟩ := C109_running_floater (.linear hz) sampleFixings hone (-1) 365 [730] (by decide) (by decide) (by decide)
    (fun d hd => hin d (List.mem_cons_of_mem _ hd)) (fun e _ => actBasis_plain hb e) (by
      intro i s e hs he
      match i, hs, he with
      | 0, hs, he => cases hs; cases he; rw [y2]; norm_num) (by rw [y1]; norm_num) (by rw [y0, y1]; norm_num)
    (fun d => if d = 0 then 1 else if d = 365 then 0.98 else 0.95) (by
      intro d hd
      simp only [List.mem_cons, List.not_mem_nil, or_false] at hd
      rcases hd with rfl | rfl | rfl
      · simpa using h0
      · simpa using h365
      · simpa using h730) r hres _ hp
  have hl : r.length = 2 := (C109_period_partial (.linear hz) sampleFixings hone [-1, 365] [365, 730] rfl (by
      intro i s e hs he
      match i, hs, he with
      | 0, hs, he => cases hs; cases he; norm_num
      | 1, hs, he => cases hs; cases he; norm_num) hin' _ r hres).1
  subst hrates
  match rates, hl, hsum, hres with
  | [y], _, hsum, hres =>
    refine ⟨z, x, y, hz, hres, ?_⟩
    simp only [y0, y1, y2, List.dropLast, List.zip_cons_cons, List.zip_nil_right, List.zipWith_cons_cons, List.zipWith_nil_right,
      List.sum_cons, List.sum_nil, List.getLast?_singleton, Option.getD_some] at hsum
    norm_num at hsum ⊢
    linarith

end Frm.Props
