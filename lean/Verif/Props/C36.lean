import Mathlib.Algebra.BigOperators.Group.Finset.Basic
import Verif.Props.C37
import Verif.Props.C21

/-! # C36 — Forward rates are consistent with discount factors -/

namespace Frm
open Spec

set_option autoImplicit false

theorem yearFrac_same_flag {S E : List Int} {b : DayCountBasis} {r : List Rat}
    (h : yearFrac S E b none = .ok r) (hl : S.length = E.length) :
    r.length = S.length ∧ ∀ (k : Nat) (s e : Int), S[k]? = some s → E[k]? = some e →
      ∃ y, yearFrac [s] [e] b (some [decide (S.length ≤ k + 1)]) = .ok [y] ∧
        (Plain b e → yearFrac [s] [e] b none = .ok [y]) ∧ r[k]? = some y := by
  have hs : sameShape S E = (S, E) := by
    match S, E, hl with
    | [], [], _ => rfl
    | [a], [b], _ => rfl
    | a :: b :: S, c :: d :: E, _ => rfl
  refine ⟨by rw [yearFrac_length h, hs]; simp [hl], ?_⟩
  intro k s e hks hke
  obtain ⟨-, y, hy, hr⟩ := yearFrac_get_flag h (by rw [hs]; exact hks) (by rw [hs]; exact hke)
  rw [hs] at hy
  simp only [← hl] at hy
  exact ⟨y, hy, fun hb => by rw [← hy, yearFrac_flag (.inl hb)], hr⟩

theorem yearFrac_same_length {S E : List Int} {b : DayCountBasis} {r : List Rat}
    (h : yearFrac S E b none = .ok r) (hl : S.length = E.length) :
    r.length = S.length ∧ ∀ (k : Nat) (s e : Int), Plain b e → S[k]? = some s → E[k]? = some e →
      ∃ y, yearFrac [s] [e] b none = .ok [y] ∧ r[k]? = some y := by
  obtain ⟨h1, h2⟩ := yearFrac_same_flag h hl
  refine ⟨h1, fun k s e hb hs he => ?_⟩
  obtain ⟨y, -, hy, hr⟩ := h2 k s e hs he
  exact ⟨y, hy hb, hr⟩

theorem yearFrac_ok {S E : List Int} {b : DayCountBasis} (hl : S.length = E.length)
    (ho : ∀ p ∈ S.zip E, p.1 ≤ p.2) : ∃ r, yearFrac S E b none = .ok r := by
  have hs : sameShape S E = (S, E) := by
    match S, E, hl with
    | [], [], _ => rfl
    | [a], [b], _ => rfl
    | a :: b :: S, c :: d :: E, _ => rfl
  have hc : checkOrder S E = .ok () := by
    unfold checkOrder
    rw [if_neg (by simpa using hl)]
    have : ((S.zip E).all (fun p => decide (p.1 ≤ p.2))) = true := by
      rw [List.all_eq_true]; intro p hp; simpa using ho p hp
    rw [this]; rfl
  unfold yearFrac dayCount
  cases b <;> simp only [hs, hc, Except.map] <;> exact ⟨_, rfl⟩

theorem inRange_convex {z : ZeroCurve} {a b d : Int} (ha : InRange z a) (hb : InRange z b) (h1 : a ≤ d) (h2 : d ≤ b) :
    InRange z d := by
  obtain ⟨r, hr, hle⟩ := hb.2
  have := ha.1
  exact ⟨by omega, r, hr, by omega⟩

theorem dateRange_tail {lo hi : Int} (h : lo ≤ hi) :
    (dateRange lo hi).dropLast = dateRange lo (hi - 1) ∧ (dateRange lo hi).tail = (dateRange lo (hi - 1)).map (· + 1) := by
  have h1 : dateRange lo hi = dateRange lo (hi - 1) ++ [hi] := by
    rw [dateRange_append (m := hi) h (by omega)]
    congr 1
    simp [dateRange]
  have h2 : dateRange lo hi = lo :: (dateRange lo (hi - 1)).map (· + 1) := by
    rw [dateRange_append (m := lo + 1) (by omega) (by omega)]
    have e1 : dateRange lo (lo + 1 - 1) = [lo] := by simp [dateRange]
    have e2 : dateRange (lo + 1) hi = (dateRange lo (hi - 1)).map (· + 1) := by
      unfold dateRange
      rw [List.map_map]
      have : (hi - (lo + 1) + 1).toNat = (hi - 1 - lo + 1).toNat := by omega
      rw [this]
      apply List.map_congr_left
      intro i _
      simp only [Function.comp]; omega
    rw [e1, e2]; rfl
  exact ⟨by rw [h1]; simp, by rw [h2]; rfl⟩

theorem dateRange_filter {lo hi s e : Int} (h1 : lo ≤ s) (h2 : s ≤ e) (h3 : e ≤ hi) :
    (dateRange lo (hi - 1)).filter (fun d => decide (s ≤ d) && decide (d < e)) = dateRange s (e - 1) := by
  rw [dateRange_append (m := s) (s := lo) h1 (by omega), dateRange_append (m := e) (s := s) h2 (by omega),
    List.filter_append, List.filter_append]
  have a1 : (dateRange lo (s - 1)).filter (fun d => decide (s ≤ d) && decide (d < e)) = [] := by
    rw [List.filter_eq_nil_iff]
    intro d hd
    have := mem_dateRange.mp hd
    simp only [Bool.and_eq_true, decide_eq_true_eq]; omega
  have a2 : (dateRange s (e - 1)).filter (fun d => decide (s ≤ d) && decide (d < e)) = dateRange s (e - 1) := by
    rw [List.filter_eq_self]
    intro d hd
    have := mem_dateRange.mp hd
    simp only [Bool.and_eq_true, decide_eq_true_eq]; omega
  have a3 : (dateRange e (hi - 1)).filter (fun d => decide (s ≤ d) && decide (d < e)) = [] := by
    rw [List.filter_eq_nil_iff]
    intro d hd
    have := mem_dateRange.mp hd
    simp only [Bool.and_eq_true, decide_eq_true_eq]; omega
  rw [a1, a2, a3]; simp

end Frm

namespace Frm.Props
open Spec

set_option autoImplicit false

section
variable {cd : Int} {basis : DayCountBasis} {cal : BusCal} {z : ZeroCurve}

/-- What a rate `x` means over a year fraction `dt`: the growth factor it stands for. -/
noncomputable def growth (t : ForwardRateType) (dt x : ℝ) : ℝ :=
  match t with
  | .continuous => Real.exp (x * dt)
  | .annual => (1 + x) ^ dt
  | _ => 1 + x * dt

theorem forwardRates_ok (h : IsCurve cd basis cal z)
    {starts ends : List Int} (hl : starts.length = ends.length) (hs : ∀ d ∈ starts, InRange z d)
    (ho : ∀ p ∈ starts.zip ends, p.1 ≤ p.2) (t : ForwardRateType) :
    z.forwardRates starts ends t = match t with
      | .weightedAverage => averageRates z starts ends false
      | .simpleAverage => averageRates z starts ends true
      | t => ratioRates z starts ends t := by
  unfold ZeroCurve.forwardRates
  have h1 : (starts.all (fun s => decide (z.curveDate ≤ s))) = true := by
    rw [List.all_eq_true]; intro d hd; simpa using (hs d hd).1
  have h2 : ((starts.zip ends).all (fun p => decide (p.1 ≤ p.2))) = true := by
    rw [List.all_eq_true]; intro d hd; simpa using ho d hd
  rw [h1, h2]
  simp only [hl, decide_true, pyAssert, if_true, bind, Except.bind]
  cases t <;> rfl

/-- Every forward rate of the non-averaging types, compounded over the year fraction of its period, gives the quotient of
the discount factors of the start and the end.  The year fraction is that of the period alone, but for periods ending on
the last day of February under 30E/360 ISDA, where the last period of the request counts as ending on a termination
date. -/
theorem C36_reproduces (h : IsCurve cd basis cal z)
    (starts ends : List Int) (hl : starts.length = ends.length) (hs : ∀ d ∈ starts, InRange z d)
    (he : ∀ d ∈ ends, InRange z d) (ho : ∀ p ∈ starts.zip ends, p.1 ≤ p.2) (t : ForwardRateType)
    (ht : t ≠ .weightedAverage ∧ t ≠ .simpleAverage) :
    ∃ r, z.forwardRates starts ends t = .ok r ∧
    r.length = starts.length ∧ ∀ (i : Nat) (s e : Int), starts[i]? = some s → ends[i]? = some e →
      ∃ (dt : Rat) (a b : ℝ), yearFrac [s] [e] basis (some [decide (starts.length ≤ i + 1)]) = .ok [dt] ∧
        (Plain basis e → yearFrac [s] [e] basis none = .ok [dt]) ∧ z.discountFactors [s] = [some a] ∧
        z.discountFactors [e] = [some b] ∧
        ((dt : ℝ) ≠ 0 → ∃ x : ℝ, r[i]? = some (some x) ∧ growth t dt x = a / b) := by
  obtain ⟨hcd, hzb, -⟩ := curve_ok h
  have hmt : z.forwardRates starts ends t = ratioRates z starts ends t := by
    rw [forwardRates_ok h hl hs ho]
    cases t <;> first | rfl | exact absurd rfl ht.1 | exact absurd rfl ht.2
  rw [hmt]
  obtain ⟨dts, hy⟩ := yearFrac_ok (b := basis) hl ho
  obtain ⟨hdl, hdg⟩ := yearFrac_same_flag hy hl
  have hb1 : npBroadcast (starts.map (fun d => some (dfOf z d))) (ends.map (fun d => some (dfOf z d))) =
      .ok ((starts.map (fun d => some (dfOf z d))).zip (ends.map (fun d => some (dfOf z d)))) := by
    unfold npBroadcast
    rw [if_pos (by simp [hl])]
  have hb2 : npBroadcast dts ((starts.map (fun d => some (dfOf z d))).zip (ends.map (fun d => some (dfOf z d)))) =
      .ok (dts.zip ((starts.map (fun d => some (dfOf z d))).zip (ends.map (fun d => some (dfOf z d))))) := by
    unfold npBroadcast
    rw [if_pos (by simp [hl, hdl])]
  unfold ratioRates
  rw [hzb, discountFactors_all h hs, discountFactors_all h he]
  simp only [hy, hb1, hb2, bind, Except.bind]
  rw [if_neg (by simp [hl, hdl])]
  refine ⟨_, rfl, ?_⟩
  · refine ⟨by simp [hl, hdl], ?_⟩
    intro i s e hsi hei
    obtain ⟨dt, hdt, hdt', hdi⟩ := hdg i s e hsi hei
    have hsm := hs s (List.mem_of_getElem? hsi)
    have hem := he e (List.mem_of_getElem? hei)
    have pa := dfOf_pos h hsm
    have pb := dfOf_pos h hem
    refine ⟨dt, dfOf z s, dfOf z e, hdt, hdt', ?_, ?_, ?_⟩
    · rw [discountFactors_all h (by simpa using hsm)]; rfl
    · rw [discountFactors_all h (by simpa using hem)]; rfl
    · intro hne
      have hz : (dts.zip ((starts.map (fun d => some (dfOf z d))).zip (ends.map (fun d => some (dfOf z d)))))[i]? =
          some (dt, some (dfOf z s), some (dfOf z e)) :=
        List.getElem?_zip_eq_some.mpr ⟨hdi, List.getElem?_zip_eq_some.mpr ⟨by simp [hsi], by simp [hei]⟩⟩
      simp only [List.getElem?_map, hz, Option.map_some]
      unfold forwardRate
      simp only [if_neg hne]
      cases t
      case weightedAverage => exact absurd rfl ht.1
      case simpleAverage => exact absurd rfl ht.2
      case continuous =>
        refine ⟨_, rfl, ?_⟩
        unfold growth
        simp only
        have : 1 / (dt : ℝ) * (Real.log (dfOf z s) - Real.log (dfOf z e)) * dt =
          Real.log (dfOf z s) - Real.log (dfOf z e) := by field_simp
        rw [this, ← Real.log_div pa.ne' pb.ne', Real.exp_log (div_pos pa pb)]
      case annual =>
        refine ⟨_, rfl, ?_⟩
        unfold growth
        simp only
        rw [add_sub_cancel, ← Real.rpow_mul (div_pos pa pb).le]
        have : 1 / (dt : ℝ) * dt = 1 := by field_simp
        rw [this, Real.rpow_one]
      all_goals
        refine ⟨_, rfl, ?_⟩
        unfold growth
        simp only
        field_simp
        ring

/-- Forwards over adjacent periods chain to the forward over their union. -/
theorem C36_chain (h : IsCurve cd basis cal z) (s m e : Int) (hbm : Plain basis m) (hbe : Plain basis e)
    (hs : InRange z s) (hm : InRange z m) (he : InRange z e) (t : ForwardRateType)
    (ht : t ≠ .weightedAverage ∧ t ≠ .simpleAverage) (hsm : s ≤ m) (hme : m ≤ e) :
    ∃ r, z.forwardRates [s, m, s] [m, e, e] t = .ok r ∧
    ∃ dt1 dt2 dt : Rat, yearFrac [s] [m] basis none = .ok [dt1] ∧ yearFrac [m] [e] basis none = .ok [dt2] ∧
      yearFrac [s] [e] basis none = .ok [dt] ∧
      ((dt1 : ℝ) ≠ 0 → (dt2 : ℝ) ≠ 0 → (dt : ℝ) ≠ 0 → ∃ x1 x2 x : ℝ, r = [some x1, some x2, some x] ∧
        growth t dt1 x1 * growth t dt2 x2 = growth t dt x) := by
  obtain ⟨r, hr, hl, hg⟩ := C36_reproduces h [s, m, s] [m, e, e] rfl (by simp [hs, hm]) (by simp [hm, he])
    (by simp; omega) t ht
  refine ⟨r, hr, ?_⟩
  obtain ⟨dt1, a1, b1, -, hy1, ha1, hb1, hx1⟩ := hg 0 s m rfl rfl
  obtain ⟨dt2, a2, b2, -, hy2, ha2, hb2, hx2⟩ := hg 1 m e rfl rfl
  obtain ⟨dt, a, b, -, hy, ha, hb', hx⟩ := hg 2 s e rfl rfl
  refine ⟨dt1, dt2, dt, hy1 hbm, hy2 hbe, hy hbe, ?_⟩
  intro n1 n2 n3
  obtain ⟨x1, g1, k1⟩ := hx1 n1
  obtain ⟨x2, g2, k2⟩ := hx2 n2
  obtain ⟨x, g3, k3⟩ := hx n3
  refine ⟨x1, x2, x, ?_, ?_⟩
  · match r, hl with
    | [p, q, w], _ =>
      simp only [List.getElem?_cons_zero, List.getElem?_cons_succ, Option.some.injEq] at g1 g2 g3
      rw [g1, g2, g3]
  · have p2 : 0 < a2 := by
      have := dfOf_pos h hm
      rw [discountFactors_all h (by simpa using hm)] at ha2
      simp only [List.map_cons, List.map_nil, List.cons.injEq, Option.some.injEq, and_true] at ha2
      rw [← ha2]; exact this
    rw [k1, k2, k3]
    rw [ha1] at ha
    rw [hb1] at ha2
    rw [hb2] at hb'
    simp only [List.cons.injEq, Option.some.injEq, and_true] at ha ha2 hb'
    rw [ha, ha2, hb']
    have := p2.ne'
    field_simp

/-- The averaging types: the mean, over the days of the period (all of them, or the business days only), of the overnight
rates that reproduce the quotient of consecutive discount factors. -/
theorem C36_averages (h : IsCurve cd basis cal z) (n : Int)
    (hn : basis.daysPerYear = some n)
    (starts ends : List Int) (hne : starts ≠ []) (hl : starts.length = ends.length) (hs : ∀ d ∈ starts, InRange z d)
    (he : ∀ d ∈ ends, InRange z d) (ho : ∀ p ∈ starts.zip ends, p.1 ≤ p.2) (t : ForwardRateType)
    (ht : t = .weightedAverage ∨ t = .simpleAverage) :
    ∃ r, z.forwardRates starts ends t = .ok r ∧
    r.length = starts.length ∧ ∀ (i : Nat) (s e : Int), starts[i]? = some s → ends[i]? = some e →
      ∀ f : Int → ℝ, (∀ d, s ≤ d → d < e → ∀ a b : ℝ, z.discountFactors [d] = [some a] →
        z.discountFactors [d + 1] = [some b] → 1 + f d / n = a / b) →
      ∀ days : List Int, days = (if t = .weightedAverage then dateRange s (e - 1)
        else (dateRange s (e - 1)).filter (isBusDay cal)) →
      r[i]? = some (if days = [] then none else some ((days.map f).sum / days.length)) := by
  obtain ⟨hcd, hzb, hzc, -⟩ := curve_ok h
  have hn0 : (n : ℝ) ≠ 0 := by
    cases basis <;> simp only [DayCountBasis.daysPerYear, Option.some.injEq, reduceCtorEq] at hn <;> subst hn <;> norm_num
  rw [forwardRates_ok h hl hs ho]
  have key : ∀ bo : Bool, ∃ r, averageRates z starts ends bo = .ok r ∧ r.length = starts.length ∧
      ∀ (i : Nat) (s e : Int), starts[i]? = some s → ends[i]? = some e →
      ∀ f : Int → ℝ, (∀ d, s ≤ d → d < e → ∀ a b : ℝ, z.discountFactors [d] = [some a] →
        z.discountFactors [d + 1] = [some b] → 1 + f d / n = a / b) →
      ∀ days : List Int, days = ((dateRange s (e - 1)).filter (fun d => !bo || isBusDay cal d)) →
      r[i]? = some (if days = [] then none else some ((days.map f).sum / days.length)) := by
    intro bo
    obtain ⟨lo, hlo⟩ : ∃ lo, starts.min? = some lo := by
      cases hh : starts.min? with
      | none => exact absurd (List.min?_eq_none_iff.mp hh) hne
      | some lo => exact ⟨lo, rfl⟩
    obtain ⟨hi, hhi⟩ : ∃ hi, ends.max? = some hi := by
      cases hh : ends.max? with
      | none =>
        have := List.max?_eq_none_iff.mp hh
        subst this
        exact absurd (List.length_eq_zero_iff.mp hl) hne
      | some lo => exact ⟨lo, rfl⟩
    obtain ⟨lom, lole⟩ := List.min?_eq_some_iff.mp hlo
    obtain ⟨him, hile⟩ := List.max?_eq_some_iff.mp hhi
    have hlohi : lo ≤ hi := by
      obtain ⟨k, hk, hkl⟩ := List.mem_iff_getElem.mp lom
      have hk' : k < ends.length := by omega
      have := ho (starts[k], ends[k]) (List.mem_iff_getElem.mpr ⟨k, by simp [hk, hk'], by simp⟩)
      have h2 := hile ends[k] (List.getElem_mem hk')
      simp only at this
      omega
    have hdr : ∀ d ∈ dateRange lo hi, InRange z d := by
      intro d hd
      have := mem_dateRange.mp hd
      exact inRange_convex (hs lo lom) (he hi him) this.1 this.2
    unfold averageRates
    simp only [hlo, hhi, discountFactors_all h hdr]
    rw [if_neg (by simp)]
    refine ⟨_, rfl, by simp [hl], ?_⟩
    intro i s e hsi hei f hf days hdays
    have hsm := List.mem_of_getElem? hsi
    have hem := List.mem_of_getElem? hei
    have hse : s ≤ e := by
      have := ho (s, e) (List.mem_of_getElem? (i := i) (List.getElem?_zip_eq_some.mpr ⟨hsi, hei⟩))
      simpa using this
    have hz : (starts.zip ends)[i]? = some (s, e) := List.getElem?_zip_eq_some.mpr ⟨hsi, hei⟩
    simp only [List.getElem?_map, hz, Option.map_some, Option.some.injEq]
    obtain ⟨t1, t2⟩ := dateRange_tail hlohi
    rw [← List.map_dropLast, ← List.map_tail, t1, t2, List.map_map, List.zip_map', List.map_map]
    have hzip : ∀ (g : Int → Option ℝ) (L : List Int), L.zip (L.map g) = L.map (fun d => (d, g d)) := by
      intro g L
      induction L with
      | nil => rfl
      | cons a L ih => simp [ih]
    rw [hzip]
    simp only [Function.comp, hzb, hn]
    rw [List.filter_map, List.filterMap_map]
    have hfil : (dateRange lo (hi - 1)).filter ((fun r : Int × Option ℝ => decide (s ≤ r.1) && decide (r.1 < e) &&
        (!bo || isBusDay z.cal r.1)) ∘ fun d => (d, some ((dfOf z d / dfOf z (d + 1) - 1) * (n : ℝ)))) = days := by
      rw [hdays, ← dateRange_filter (lole s hsm) hse (hile e hem), List.filter_filter]
      apply List.filter_congr
      intro d _
      simp only [Function.comp, hzc]
      rw [Bool.and_comm]
    rw [hfil]
    have hvals : List.filterMap ((fun x : Int × Option ℝ => x.2) ∘ fun d =>
        (d, some ((dfOf z d / dfOf z (d + 1) - 1) * (n : ℝ)))) days = days.map f := by
      rw [show ((fun x : Int × Option ℝ => x.2) ∘ fun d => (d, some ((dfOf z d / dfOf z (d + 1) - 1) * (n : ℝ)))) =
        (fun d => some ((dfOf z d / dfOf z (d + 1) - 1) * (n : ℝ))) from rfl, List.filterMap_eq_map']
      apply List.map_congr_left
      intro d hd
      rw [hdays] at hd
      have hd := mem_dateRange.mp (List.mem_filter.mp hd).1
      have i1 : InRange z d := inRange_convex (hs s hsm) (he e hem) (by omega) (by omega)
      have i2 : InRange z (d + 1) := inRange_convex (hs s hsm) (he e hem) (by omega) (by omega)
      have := hf d (by omega) (by omega) (dfOf z d) (dfOf z (d + 1)) (by rw [discountFactors_all h (by simpa using i1)]; rfl)
        (by rw [discountFactors_all h (by simpa using i2)]; rfl)
      rw [← this]
      field_simp
      ring
    rw [hvals]
    simp only [List.map_eq_nil_iff, List.length_map]
  rcases ht with rfl | rfl
  · obtain ⟨r, h1, h2, h3⟩ := key false
    refine ⟨r, h1, h2, ?_⟩
    intro i s e hsi hei f hf days hdays
    exact h3 i s e hsi hei f hf days (by rw [hdays]; simp)
  · obtain ⟨r, h1, h2, h3⟩ := key true
    refine ⟨r, h1, h2, ?_⟩
    intro i s e hsi hei f hf days hdays
    exact h3 i s e hsi hei f hf days (by rw [hdays]; simp)

/-- Consistency of the averaging types with the discount factors: compounding the overnight rates over the days of the
period gives the quotient of the discount factors of its ends. -/
theorem C36_overnight_compounds (h : IsCurve cd basis cal z) (n : Int)
    (s e : Int) (hse : s ≤ e) (hs : InRange z s) (he : InRange z e) (f : Int → ℝ)
    (hf : ∀ d, s ≤ d → d < e → ∀ a b : ℝ, z.discountFactors [d] = [some a] → z.discountFactors [d + 1] = [some b] →
      1 + f d / n = a / b) :
    ∃ a b : ℝ, z.discountFactors [s] = [some a] ∧ z.discountFactors [e] = [some b] ∧
      ((dateRange s (e - 1)).map (fun d => 1 + f d / n)).prod = a / b := by
  refine ⟨dfOf z s, dfOf z e, by rw [discountFactors_all h (by simpa using hs)]; rfl,
    by rw [discountFactors_all h (by simpa using he)]; rfl, ?_⟩
  obtain ⟨k, rfl⟩ : ∃ k : Nat, e = s + k := ⟨(e - s).toNat, by omega⟩
  clear hse
  induction k with
  | zero =>
    have := (dfOf_pos h hs).ne'
    simp [dateRange, this]
  | succ k ih =>
    have ik : InRange z (s + k) := inRange_convex hs he (by omega) (by push_cast; omega)
    have hsum : s + ((k + 1 : Nat) : Int) = s + k + 1 := by push_cast; ring
    rw [hsum] at he ⊢
    rw [dateRange_append (m := s + k) (by omega) (by omega), List.map_append, List.prod_append,
      ih ik (fun d h1 h2 => hf d h1 (by push_cast; omega))]
    have e1 : dateRange (s + k) (s + k + 1 - 1) = [s + k] := by simp [dateRange]
    rw [e1, List.map_cons, List.map_nil, List.prod_cons, List.prod_nil, mul_one,
      hf (s + k) (by omega) (by push_cast; omega) (dfOf z (s + k)) (dfOf z (s + k + 1))
        (by rw [discountFactors_all h (by simpa using ik)]; rfl)
        (by rw [discountFactors_all h (by simpa using he)]; rfl)]
    have := (dfOf_pos h ik).ne'
    field_simp

/-- Zero rates stand for the curve's discount factors, in every compounding convention. -/
theorem C36_zero_rates (h : IsCurve cd basis cal z) (f : CompoundingFreq)
    (d : Int) (hb : Plain basis d) (hd : InRange z d) (t : Rat) (ht : yearFrac [cd] [d] basis none = .ok [t]) (hpos : 0 < t) :
    ∃ x v : ℝ, z.zeroRates f [d] = [some x] ∧ z.discountFactors [d] = [some v] ∧ f.discountFactor (t : ℝ) x = v := by
  obtain ⟨-, -, -, last, hle, hdates, hrow⟩ := curve_ok h
  have hr := (curve_inRange h hle hdates d).mp hd
  obtain ⟨y, row, -, hy, hf, hyears, hvpos, hcc⟩ := hrow d hr.1 hr.2
  replace hy := hy hb
  rw [ht] at hy
  simp only [Except.ok.injEq, List.cons.injEq, and_true] at hy
  subst hy
  have htpos : (0 : ℝ) < t := by exact_mod_cast hpos
  have hidx : z.indexDates [d] = [some row] := by
    rw [curve_indexDates hle hdates]
    simp only [hr.1, hr.2, decide_true, Bool.and_self, List.filter_cons, if_true, List.filter_nil, List.map_cons,
      List.map_nil, hf]
  have hdf : z.discountFactors [d] = [some row.discountFactor] := by
    unfold ZeroCurve.discountFactors; rw [hidx]; rfl
  by_cases hc : f = .continuous
  · subst hc
    refine ⟨-Real.log row.discountFactor / t, _, ?_, hdf, ?_⟩
    · unfold ZeroCurve.zeroRates
      rw [hidx]
      simp [hcc htpos.ne']
    · simp only [CompoundingFreq.discountFactor]
      have : -(-Real.log row.discountFactor / (t : ℝ)) * t = Real.log row.discountFactor := by
        have := htpos.ne'
        field_simp
      rw [this, Real.exp_log hvpos]
  · refine ⟨f.zeroRate t row.discountFactor, _, ?_, hdf, ?_⟩
    · unfold ZeroCurve.zeroRates
      rw [hidx]
      simp [hc, hyears, htpos.ne']
    · exact (C21_factor_round_trip f htpos hvpos).1

end

/-- The hypotheses are met by the sample curve and adjacent periods. -/
example (cal : BusCal) : ∃ z, makeZeroCurve 0 { date := some [365, 730], discountFactor := some [0.98, 0.95] } none .act_365
    cal = .ok z ∧ InRange z 100 ∧ InRange z 200 ∧ InRange z 700 ∧ DayCountBasis.act_365.daysPerYear = some 365 ∧
    yearFrac [100] [200] .act_365 none = .ok [100 / 365] := by
  obtain ⟨z, hz⟩ := sampleCurve cal
  obtain ⟨-, hr, -⟩ := sampleCurve_facts hz
  exact ⟨z, hz, (hr 100).mpr (by omega), (hr 200).mpr (by omega), (hr 700).mpr (by omega), rfl, by decide +kernel⟩

end Frm.Props
