import Verif.Props.C36
import Verif.Spec.SwapCurve

/-! # C109 — The fixings of an RFR swap curve reproduce its zero curve -/

namespace Frm
open Spec

set_option autoImplicit false

theorem gather_zip (m : List Bool) (starts ends : List Int) :
    (gather m starts).zip (gather m ends) = gather m (starts.zip ends) := by
  induction m generalizing starts ends with
  | nil => simp [gather]
  | cons b m ih =>
    cases starts with
    | nil => cases b <;> simp [gather]
    | cons s starts =>
      cases ends with
      | nil => cases b <;> simp [gather]
      | cons e ends => cases b <;> simp [gather, ih]

theorem gather_map_filter {α : Type} (p : α → Bool) (l : List α) : gather (l.map p) l = l.filter p := by
  induction l with
  | nil => rfl
  | cons a l ih => cases h : p a <;> simp [gather, h, ih]

theorem gather_periods (p : Int × Int → Bool) (starts ends : List Int) (hl : ends.length = starts.length) :
    gather ((starts.zip ends).map p) starts = ((starts.zip ends).filter p).map (·.1) ∧
    gather ((starts.zip ends).map p) ends = ((starts.zip ends).filter p).map (·.2) := by
  have hm : ((starts.zip ends).map p).length = starts.length := by simp [hl]
  have hz := gather_zip ((starts.zip ends).map p) starts ends
  rw [gather_map_filter] at hz
  have hs := gather_same ((starts.zip ends).map p) starts ends hm hl
  rw [← hz]
  constructor
  · exact (List.map_fst_zip (by omega)).symm
  · exact (List.map_snd_zip (by omega)).symm

theorem zip_map_left (f : Int → Bool) (starts ends : List Int) (hl : ends.length = starts.length) :
    starts.map f = (starts.zip ends).map (fun p => f p.1) := by
  conv_lhs => rw [← List.map_fst_zip (l₁ := starts) (l₂ := ends) (by omega)]
  rw [List.map_map]; rfl

theorem zip_map_right (f : Int → Bool) (starts ends : List Int) (hl : ends.length = starts.length) :
    ends.map f = (starts.zip ends).map (fun p => f p.2) := by
  conv_lhs => rw [← List.map_snd_zip (l₁ := starts) (l₂ := ends) (by omega)]
  rw [List.map_map]; rfl

theorem maskedBlock_rest {α : Type} {mask : List Bool} {starts ends : List Int} {out out' : List α}
    {rates : List Int → List Int → Except Err (List α)} (h : maskedBlock mask starts ends out rates = .ok out') :
    out'.length = out.length ∧ ∀ i : Nat, mask[i]? = some false → out'[i]? = out[i]? := by
  unfold maskedBlock at h
  split at h
  · cases hr : rates (gather mask starts) (gather mask ends) with
    | error _ => rw [hr] at h; cases h
    | ok v =>
      rw [hr] at h
      simp only [Except.map, Except.ok.injEq] at h
      rw [← h]
      exact ⟨maskedSet_length mask out v, fun i hi => maskedSet_false mask out v i hi⟩
  · simp only [Except.ok.injEq] at h
    rw [← h]
    exact ⟨rfl, fun _ _ => rfl⟩

theorem gather_pairs (mask : List Bool) (starts ends : List Int) (p : Int × Int)
    (hp : p ∈ (gather mask starts).zip (gather mask ends)) :
    ∃ i : Nat, mask[i]? = some true ∧ starts[i]? = some p.1 ∧ ends[i]? = some p.2 := by
  rw [gather_zip] at hp
  obtain ⟨k, hk⟩ := List.getElem?_of_mem hp
  obtain ⟨i, hm, hi⟩ := gather_index _ _ _ _ hk
  exact ⟨i, hm, List.getElem?_zip_eq_some.mp hi⟩

theorem mem_of_zip_left {S E : List Int} (hl : S.length = E.length) {s : Int} (hs : s ∈ S) : ∃ e, (s, e) ∈ S.zip E := by
  obtain ⟨k, hk, hks⟩ := List.mem_iff_getElem.mp hs
  exact ⟨E[k], List.mem_iff_getElem.mpr ⟨k, by simp; omega, by simp [hks]⟩⟩

theorem mem_of_zip_right {S E : List Int} (hl : S.length = E.length) {e : Int} (he : e ∈ E) : ∃ s, (s, e) ∈ S.zip E := by
  obtain ⟨k, hk, hks⟩ := List.mem_iff_getElem.mp he
  exact ⟨S[k], List.mem_iff_getElem.mpr ⟨k, by simp; omega, by simp [hks]⟩⟩

theorem maskedBlock_ok_iff {α : Type} (p : Int × Int → Bool) (starts ends : List Int) (hl : ends.length = starts.length)
    (out : List α) (rates : List Int → List Int → Except Err (List α)) :
    (∃ out', maskedBlock ((starts.zip ends).map p) starts ends out rates = .ok out') ↔
      (starts.zip ends).filter p = [] ∨
        ∃ v, rates (((starts.zip ends).filter p).map (·.1)) (((starts.zip ends).filter p).map (·.2)) = .ok v := by
  obtain ⟨g1, g2⟩ := gather_periods p starts ends hl
  unfold maskedBlock
  rw [g1, g2]
  by_cases ha : ((starts.zip ends).map p).any id = true
  · rw [if_pos ha]
    have hne : (starts.zip ends).filter p ≠ [] := by
      intro hc
      rw [List.filter_eq_nil_iff] at hc
      rw [List.any_map, List.any_eq_true] at ha
      obtain ⟨x, hx, hpx⟩ := ha
      exact hc x hx hpx
    simp only [hne, false_or]
    cases rates (((starts.zip ends).filter p).map (·.1)) (((starts.zip ends).filter p).map (·.2)) with
    | error e => simp [Except.map]
    | ok v => simp [Except.map]
  · rw [if_neg ha]
    have he : (starts.zip ends).filter p = [] := by
      rw [List.filter_eq_nil_iff]
      intro x hx hpx
      exact ha (by rw [List.any_map, List.any_eq_true]; exact ⟨x, hx, hpx⟩)
    simp [he]

theorem yearFrac_right_ok {S : List Int} {cd : Int} {b : DayCountBasis} (hne : S ≠ []) (h : ∀ s ∈ S, s ≤ cd) :
    ∃ r, yearFrac S [cd] b none = .ok r := by
  obtain ⟨r, hr⟩ := yearFrac_ok (S := S) (E := List.replicate S.length cd) (b := b) (by simp) (by
    intro p hp
    have q := List.of_mem_zip hp
    rw [List.eq_of_mem_replicate q.2]
    exact h _ q.1)
  refine ⟨r, ?_⟩
  rw [← hr]
  unfold yearFrac dayCount
  match S, hne with
  | [x], _ => rfl
  | x :: y :: l, _ => rfl

theorem yearFrac_left_ok {E : List Int} {cd : Int} {b : DayCountBasis} (hne : E ≠ []) (h : ∀ e ∈ E, cd ≤ e) :
    ∃ r, yearFrac [cd] E b none = .ok r := by
  obtain ⟨r, hr⟩ := yearFrac_ok (S := List.replicate E.length cd) (E := E) (b := b) (by simp) (by
    intro p hp
    have q := List.of_mem_zip hp
    rw [List.eq_of_mem_replicate q.1]
    exact h _ q.2)
  refine ⟨r, ?_⟩
  rw [← hr]
  unfold yearFrac dayCount
  match E, hne with
  | [x], _ => rfl
  | x :: y :: l, _ => rfl

section
variable {cd : Int} {basis : DayCountBasis} {cal : BusCal} {z : ZeroCurve}

theorem averageRates_none (h : IsCurve cd basis cal z) (hn : basis.daysPerYear = none)
    (starts ends : List Int) (hne : starts ≠ []) (hl : starts.length = ends.length) (hs : ∀ d ∈ starts, InRange z d)
    (he : ∀ d ∈ ends, InRange z d) (bo : Bool) :
    averageRates z starts ends bo = .ok ((starts.zip ends).map (fun _ => none)) := by
  obtain ⟨hcd, hzb, hzc, -⟩ := curve_ok h
  unfold averageRates
  cases hlo : starts.min? with
  | none => exact absurd (List.min?_eq_none_iff.mp hlo) hne
  | some lo =>
  cases hhi : ends.max? with
  | none =>
    have := List.max?_eq_none_iff.mp hhi
    subst this
    exact absurd (List.length_eq_zero_iff.mp hl) hne
  | some hi =>
  have lom := (List.min?_eq_some_iff.mp hlo).1
  have him := (List.max?_eq_some_iff.mp hhi).1
  have hdr : ∀ d ∈ dateRange lo hi, InRange z d := by
    intro d hd
    have := mem_dateRange.mp hd
    exact inRange_convex (hs lo lom) (he hi him) this.1 this.2
  simp only [discountFactors_all h hdr]
  rw [if_neg (by simp)]
  congr 1
  apply List.map_congr_left
  intro p _
  have hnil : ∀ (l : List (Int × Option ℝ)), (∀ r ∈ l, r.2 = none) → l.filterMap (·.2) = [] := by
    intro l hl
    rw [List.filterMap_eq_nil_iff]
    exact hl
  have key : ∀ (L : List (Int × Option ℝ)) (q : Int × Option ℝ → Bool), (∀ r ∈ L, r.2 = none) →
      (L.filter q).filterMap (·.2) = [] := fun L q hL => hnil _ (fun r hr => hL r (List.mem_filter.mp hr).1)
  refine if_pos (key _ _ ?_)
  intro r hr
  have := (List.of_mem_zip hr).2
  obtain ⟨q, -, hq⟩ := List.mem_map.mp this
  rw [← hq, hzb, hn]
  split <;> first | rfl | simp_all

theorem forwardRates_avg (h : IsCurve cd basis cal z) {S E : List Int}
    (hl : S.length = E.length) (hs : ∀ d ∈ S, InRange z d) (ho : ∀ p ∈ S.zip E, p.1 ≤ p.2) :
    z.forwardRates S E RFRFixingCalcMethod.weightedAverage.forwardType = averageRates z S E false ∧
    z.forwardRates S E RFRFixingCalcMethod.simpleAverage.forwardType = averageRates z S E true :=
  ⟨Props.forwardRates_ok h hl hs ho .weightedAverage, Props.forwardRates_ok h hl hs ho .simpleAverage⟩

/-- The curve's answer to a batch of periods within its table. -/
theorem forwardBatch (h : IsCurve cd basis cal z) (m : RFRFixingCalcMethod)
    (S E : List Int) (hne : S ≠ []) (hl : S.length = E.length) (hs : ∀ d ∈ S, InRange z d)
    (he : ∀ d ∈ E, InRange z d) (ho : ∀ p ∈ S.zip E, p.1 ≤ p.2) :
    ∃ v, z.forwardRates S E m.forwardType = .ok v ∧ v.length = S.length ∧ ∀ (k : Nat) (s e : Int), S[k]? = some s → E[k]? = some e →
      ∃ x, v[k]? = some x ∧ CurveRate z m (decide (S.length ≤ k + 1)) s e x := by
  obtain ⟨hcd, hzb, hzc, -⟩ := curve_ok h
  cases m with
  | dailyCompounded =>
    obtain ⟨v, hv, hvl, hvi⟩ := Props.C36_reproduces h S E hl hs he ho .dailyCompounded ⟨by simp, by simp⟩
    refine ⟨v, hv, hvl, ?_⟩
    intro k s e hsk hek
    obtain ⟨dt, a, b, hdt, -, ha, hb, hx⟩ := hvi k s e hsk hek
    have hk : k < v.length := by rw [hvl]; exact (List.getElem?_eq_some_iff.mp hsk).1
    refine ⟨v[k], List.getElem?_eq_getElem hk, ?_⟩
    refine ⟨dt, by rw [hzb]; exact hdt, fun hne => ?_⟩
    obtain ⟨y, hy, hg⟩ := hx (by exact_mod_cast hne)
    refine ⟨y, ?_, a, b, ha, hb, ?_, hg⟩
    · rw [List.getElem?_eq_getElem hk] at hy
      exact Option.some.inj hy
    · have hp := dfOf_pos h (he e (List.mem_of_getElem? hek))
      rw [discountFactors_all h (by simpa using he e (List.mem_of_getElem? hek))] at hb
      simp only [List.map_cons, List.map_nil, List.cons.injEq, Option.some.injEq, and_true] at hb
      rw [← hb]; exact hp
  | weightedAverage =>
    cases hn : basis.daysPerYear with
    | none =>
      refine ⟨_, (forwardRates_avg h hl hs ho).1.trans (averageRates_none h hn S E hne hl hs he _), by simp [hl], ?_⟩
      intro k s e hsk hek
      have hk := (List.getElem?_eq_some_iff.mp hsk).1
      refine ⟨none, by simp [hl] at hk ⊢; exact List.getElem?_replicate_of_lt (by omega), ?_⟩
      simp only [CurveRate, hzb, hn]
    | some n =>
      obtain ⟨v, hv, hvl, hvi⟩ := Props.C36_averages h n hn S E hne hl hs he ho .weightedAverage (.inl rfl)
      refine ⟨v, hv, hvl, ?_⟩
      intro k s e hsk hek
      have hk : k < v.length := by rw [hvl]; exact (List.getElem?_eq_some_iff.mp hsk).1
      refine ⟨v[k], List.getElem?_eq_getElem hk, ?_⟩
      simp only [CurveRate, hzb, hn]
      intro f hf days hd
      have := hvi k s e hsk hek f hf days (by simpa using hd)
      rw [List.getElem?_eq_getElem hk] at this
      exact Option.some.inj this
  | simpleAverage =>
    cases hn : basis.daysPerYear with
    | none =>
      refine ⟨_, (forwardRates_avg h hl hs ho).2.trans (averageRates_none h hn S E hne hl hs he _), by simp [hl], ?_⟩
      intro k s e hsk hek
      have hk := (List.getElem?_eq_some_iff.mp hsk).1
      refine ⟨none, by simp [hl] at hk ⊢; exact List.getElem?_replicate_of_lt (by omega), ?_⟩
      simp only [CurveRate, hzb, hn]
    | some n =>
      obtain ⟨v, hv, hvl, hvi⟩ := Props.C36_averages h n hn S E hne hl hs he ho .simpleAverage (.inr rfl)
      refine ⟨v, hv, hvl, ?_⟩
      intro k s e hsk hek
      have hk : k < v.length := by rw [hvl]; exact (List.getElem?_eq_some_iff.mp hsk).1
      refine ⟨v[k], List.getElem?_eq_getElem hk, ?_⟩
      simp only [CurveRate, hzb, hn, hzc]
      intro f hf days hd
      have := hvi k s e hsk hek f hf days (by simpa using hd)
      rw [List.getElem?_eq_getElem hk] at this
      exact Option.some.inj this

end
end Frm

namespace Frm.Props
open Spec

set_option autoImplicit false

section
variable {cd : Int} {basis : DayCountBasis} {cal : BusCal} {z : ZeroCurve}

/-- Every period whose end is within the curve's table gets its rate from the right place: past periods from the fixings,
future ones from the curve, and a straddling one compounds the fixings up to the curve date with the curve after it. -/
theorem C109_period_partial (h : IsCurve cd basis cal z) (fixings : List (Int × Rat)) (hone : OnePerDate fixings)
    (starts ends : List Int) (hlen : ends.length = starts.length)
    (hpos : ∀ (i : Nat) (s e : Int), starts[i]? = some s → ends[i]? = some e → s < e)
    (hin : ∀ e ∈ ends, cd < e → InRange z e) (method : RFRFixingCalcMethod) (r : List (Option ℝ))
    (hr : rfrGetFixingsOn z fixings starts ends method = .ok r) :
    r.length = starts.length ∧ ∀ (i : Nat) (s e : Int), starts[i]? = some s → ends[i]? = some e →
      ∃ x, r[i]? = some x ∧
        (e ≤ cd → x = (ownRate basis fixings method s e).map (fun (y : Rat) => (y : ℝ))) ∧
        (cd ≤ s → ∃ last : Bool, (last = true ↔ FinalRequest (fun s _ => cd ≤ s) starts ends i) ∧ CurveRate z method last s e x) ∧
        (s < cd → cd < e → ∃ (last : Bool) (hy fy : Rat) (f' : Option ℝ),
          (last = true ↔ FinalRequest (fun s e => s < cd ∧ cd < e) starts ends i) ∧
          yearFrac [s] [cd] basis (some [last]) = .ok [hy] ∧ yearFrac [cd] [e] basis (some [last]) = .ok [fy] ∧
          CurveRate z method last cd e f' ∧
          ((ownRate basis fixings method s cd = none ∨ f' = none) → x = none) ∧
          ∀ h f, ownRate basis fixings method s cd = some h → f' = some f → hy + fy ≠ 0 →
            ∃ y : ℝ, x = some y ∧ 1 + ((hy + fy : Rat) : ℝ) * y = (1 + (hy : ℝ) * h) * (1 + (fy : ℝ) * f)) := by
  obtain ⟨hcd, hzb, hzc, -⟩ := curve_ok h
  unfold rfrGetFixingsOn at hr
  simp only [bind, Except.bind, hcd, hzb] at hr
  set m1 := starts.map (fun s => decide (cd ≤ s)) with hm1
  set m2 := ends.map (fun e => decide (e ≤ cd)) with hm2
  set m3 := (starts.zip ends).map (fun p => decide (p.1 < cd) && decide (cd < p.2)) with hm3
  cases h1 : maskedBlock m1 starts ends (List.replicate starts.length none) (fun s e => z.forwardRates s e method.forwardType) with
  | error _ => rw [h1] at hr; cases hr
  | ok out1 =>
  rw [h1] at hr
  simp only at hr
  cases h2 : maskedBlock m2 starts ends out1 (fun s e => (getCouponRates basis fixings s e method).map
      (fun l => l.map (fun x => x.map (fun (y : Rat) => (y : ℝ))))) with
  | error _ => rw [h2] at hr; cases hr
  | ok out2 =>
  rw [h2] at hr
  simp only at hr
  have l1 : m1.length = starts.length := by simp [hm1]
  have l2 : m2.length = starts.length := by simp [hm2, hlen]
  have l3 : m3.length = starts.length := by simp [hm3, hlen]
  obtain ⟨k1, n1⟩ := maskedBlock_rest h1
  obtain ⟨k2, g2⟩ := maskedBlock_get (P := fun s e x => x = (ownRate basis fixings method s e).map (fun (y : Rat) => (y : ℝ)))
    h2 l2 hlen (by simpa using k1) (by
      intro v hv k s e hs he
      cases hv' : getCouponRates basis fixings (gather m2 starts) (gather m2 ends) method with
      | error _ => rw [hv'] at hv; cases hv
      | ok w =>
        rw [hv'] at hv
        simp only [Except.map, Except.ok.injEq] at hv
        refine ⟨_, ?_, rfl⟩
        rw [← hv, List.getElem?_map, getCouponRates_own hone _ _ w hv' k s e hs he]
        rfl)
  obtain ⟨k3, g3⟩ := maskedBlock_rest hr
  refine ⟨k3.trans k2, ?_⟩
  intro i s e hs he
  have hse := hpos i s e hs he
  have v1 : ∀ (j : Nat) (s : Int), starts[j]? = some s → m1[j]? = some (decide (cd ≤ s)) := by
    intro j s hs; simp only [hm1, List.getElem?_map, hs, Option.map_some]
  have v2 : m2[i]? = some (decide (e ≤ cd)) := by simp only [hm2, List.getElem?_map, he, Option.map_some]
  have v3 : ∀ (j : Nat) (s e : Int), starts[j]? = some s → ends[j]? = some e →
      m3[j]? = some (decide (s < cd) && decide (cd < e)) := by
    intro j s e hs he
    have : (starts.zip ends)[j]? = some (s, e) := List.getElem?_zip_eq_some.mpr ⟨hs, he⟩
    simp only [hm3, List.getElem?_map, this, Option.map_some]
  by_cases c2 : e ≤ cd
  · have n3 : m3[i]? = some false := by rw [v3 i s e hs he]; simp; omega
    obtain ⟨x, hx, hP⟩ := (g2 i s e hs he).1 (by rw [v2]; simp [c2])
    exact ⟨x, by rw [g3 i n3, hx], fun _ => hP, fun hc => by omega, fun _ hc => by omega⟩
  · have n2 : m2[i]? = some false := by rw [v2]; simp; omega
    by_cases c1 : cd ≤ s
    · have n3 : m3[i]? = some false := by rw [v3 i s e hs he]; simp; omega
      have y1 : m1[i]? = some true := by rw [v1 i s hs]; simp [c1]
      obtain ⟨v, k, hv, hsk, hek, hvx, hlast⟩ := maskedBlock_pos h1 l1 hlen (by simp) i s e hs he y1
      set S := gather m1 starts
      set E := gather m1 ends
      have hSE : S.length = E.length := gather_same m1 starts ends l1 hlen
      have hpair : ∀ p ∈ S.zip E, cd ≤ p.1 ∧ p.1 < p.2 ∧ InRange z p.2 := by
        intro p hp
        obtain ⟨j, hmj, hsj, hej⟩ := gather_pairs m1 starts ends p hp
        rw [v1 j _ hsj] at hmj
        simp only [Option.some.injEq, decide_eq_true_eq] at hmj
        have := hpos j _ _ hsj hej
        exact ⟨hmj, this, hin _ (List.mem_of_getElem? hej) (by omega)⟩
      obtain ⟨v', hv', -, hc⟩ := forwardBatch h method S E (by intro hc; rw [hc] at hsk; simp at hsk) hSE
        (fun d hd => by
          obtain ⟨d', hd'⟩ := mem_of_zip_left hSE hd
          obtain ⟨q1, q2, q3, r, hr, hle⟩ := hpair _ hd'
          exact ⟨by omega, r, hr, by omega⟩)
        (fun d hd => by
          obtain ⟨d', hd'⟩ := mem_of_zip_right hSE hd
          exact (hpair _ hd').2.2)
        (fun p hp => by have := hpair p hp; omega)
      have : v' = v := by
        have := hv'.symm.trans hv
        exact Except.ok.inj this
      subst this
      obtain ⟨x, hx, hcr⟩ := hc k s e hsk hek
      refine ⟨x, by rw [g3 i n3, (g2 i s e hs he).2 n2, hvx x hx], fun hc => by omega,
        fun _ => ⟨_, ?_, hcr⟩, fun hc => by omega⟩
      rw [decide_eq_true_eq, hlast]
      constructor
      · intro hj j s' e' hij hs' he' hc
        exact hj j hij (by rw [v1 j s' hs']; simp [hc])
      · intro hj j hij hm
        have hjl : j < starts.length := by
          have := (List.getElem?_eq_some_iff.mp hm).1
          omega
        have hs' := List.getElem?_eq_getElem hjl
        have he' := List.getElem?_eq_getElem (l := ends) (i := j) (by omega)
        rw [v1 j _ hs'] at hm
        simp only [Option.some.injEq, decide_eq_true_eq] at hm
        exact hj j _ _ hij hs' he' hm
    · have y3 : m3[i]? = some true := by rw [v3 i s e hs he]; simp; omega
      obtain ⟨v, k, hv, hsk, hek, hvx, hlast⟩ := maskedBlock_pos hr l3 hlen k2 i s e hs he y3
      set S := gather m3 starts
      set E := gather m3 ends
      have hSE : S.length = E.length := gather_same m3 starts ends l3 hlen
      have hpair : ∀ p ∈ S.zip E, cd < p.2 ∧ InRange z p.2 := by
        intro p hp
        obtain ⟨j, hmj, hsj, hej⟩ := gather_pairs m3 starts ends p hp
        rw [v3 j _ _ hsj hej] at hmj
        simp only [Option.some.injEq, Bool.and_eq_true, decide_eq_true_eq] at hmj
        exact ⟨hmj.2, hin _ (List.mem_of_getElem? hej) hmj.2⟩
      have hEr : ∀ d ∈ E, cd < d ∧ InRange z d := fun d hd => by
        obtain ⟨d', hd'⟩ := mem_of_zip_right hSE hd
        exact hpair _ hd'
      have hcdr : InRange z cd := by
        obtain ⟨q1, q2, r, hr, hle⟩ := hEr e (List.mem_of_getElem? hek)
        exact ⟨by omega, r, hr, by omega⟩
      have hk : k < S.length := (List.getElem?_eq_some_iff.mp hsk).1
      have hrl : (List.replicate S.length cd).length = E.length := by simp [hSE]
      obtain ⟨fl, ffv, -, hc⟩ := forwardBatch h method (List.replicate S.length cd) E
        (by intro hc; have := congrArg List.length hc; simp at this; rw [this] at hk; simp at hk) hrl
        (fun d hd => by rw [List.eq_of_mem_replicate hd]; exact hcdr) (fun d hd => (hEr d hd).2)
        (fun p hp => by
          have q := List.of_mem_zip hp
          have := List.eq_of_mem_replicate q.1
          have := (hEr _ q.2).1
          omega)
      simp only [crossoverOn, bind, Except.bind, hcd, hzb] at hv
      cases hyv : yearFrac S [cd] basis none with
      | error _ => rw [hyv] at hv; cases hv
      | ok hyl =>
      rw [hyv] at hv
      simp only at hv
      cases fyv : yearFrac [cd] E basis none with
      | error _ => rw [fyv] at hv; cases hv
      | ok fyl =>
      rw [fyv] at hv
      simp only at hv
      cases hhv : getCouponRates basis fixings S (List.replicate S.length cd) method with
      | error _ => rw [hhv] at hv; cases hv
      | ok hl =>
      rw [hhv] at hv
      simp only [ffv, pure, Except.pure, Except.ok.injEq] at hv
      have hcdk : (List.replicate S.length cd)[k]? = some cd := by rw [List.getElem?_replicate, if_pos hk]
      obtain ⟨-, hy, ehy, ghy⟩ := yearFrac_get_flag hyv (sameShape_right S cd k s hsk).1 (sameShape_right S cd k s hsk).2
      obtain ⟨-, fy, efy, gfy⟩ := yearFrac_get_flag fyv (sameShape_left E cd k e hek).1 (sameShape_left E cd k e hek).2
      rw [sameShape_right_length S cd (by intro hc; rw [hc] at hk; cases hk)] at ehy
      rw [sameShape_left_length, ← hSE] at efy
      have gh := getCouponRates_own hone _ _ hl hhv k s cd hsk hcdk
      obtain ⟨f', gf, hFf⟩ := hc k cd e hcdk hek
      rw [List.length_replicate] at hFf
      have gz : ((hyl.zip hl).zip (fyl.zip fl))[k]? = some ((hy, ownRate basis fixings method s cd), (fy, f')) :=
        List.getElem?_zip_eq_some.mpr ⟨List.getElem?_zip_eq_some.mpr ⟨ghy, gh⟩, List.getElem?_zip_eq_some.mpr ⟨gfy, gf⟩⟩
      refine ⟨crossoverOnRate hy (ownRate basis fixings method s cd) fy f', ?_, fun hc => by omega, fun hc => by omega,
        fun _ _ => ⟨_, hy, fy, f', ?_, ehy, efy, hFf, ?_, ?_⟩⟩
      · apply hvx
        rw [← hv]
        simp only [List.getElem?_map, gz, Option.map_some]
      · rw [decide_eq_true_eq, hlast]
        constructor
        · intro hj j s' e' hij hs' he' hc
          exact hj j hij (by rw [v3 j s' e' hs' he']; simp [hc.1, hc.2])
        · intro hj j hij hm
          have hjl : j < starts.length := by
            have := (List.getElem?_eq_some_iff.mp hm).1
            omega
          have hs' := List.getElem?_eq_getElem hjl
          have he' := List.getElem?_eq_getElem (l := ends) (i := j) (by omega)
          rw [v3 j _ _ hs' he'] at hm
          simp only [Option.some.injEq, Bool.and_eq_true, decide_eq_true_eq] at hm
          exact hj j _ _ hij hs' he' hm
      · rintro (hn | hn) <;> rw [hn]
        · rfl
        · cases ownRate basis fixings method s cd <;> rfl
      · intro h f hH hFF hne
        rw [hH, hFF]
        refine ⟨_, rfl, ?_⟩
        have hne' : (hy : ℝ) + fy ≠ 0 := by exact_mod_cast hne
        push_cast
        field_simp
        ring

/-- Daily compounding: the growth over a straddling period is the growth of the fixings up to the curve date times the
quotient of the discount factors of the curve date and the period's end. -/
theorem C109_straddling_partial (h : IsCurve cd basis cal z) (fixings : List (Int × Rat)) (hone : OnePerDate fixings)
    (starts ends : List Int) (hlen : ends.length = starts.length)
    (hpos : ∀ (i : Nat) (s e : Int), starts[i]? = some s → ends[i]? = some e → s < e)
    (hin : ∀ e ∈ ends, cd < e → InRange z e) (r : List (Option ℝ))
    (hr : rfrGetFixingsOn z fixings starts ends .dailyCompounded = .ok r) (i : Nat) (s e : Int) (hs : starts[i]? = some s)
    (he : ends[i]? = some e) (h1 : s < cd) (h2 : cd < e) (past : Rat)
    (hp : ownRate basis fixings .dailyCompounded s cd = some past) :
    ∃ (last : Bool) (hy fy : Rat), (last = true ↔ FinalRequest (fun s e => s < cd ∧ cd < e) starts ends i) ∧
      yearFrac [s] [cd] basis (some [last]) = .ok [hy] ∧ yearFrac [cd] [e] basis (some [last]) = .ok [fy] ∧
      (fy ≠ 0 → hy + fy ≠ 0 → ∃ y a b : ℝ, r[i]? = some (some y) ∧ z.discountFactors [cd] = [some a] ∧ z.discountFactors [e] = [some b] ∧
        (1 + ((hy + fy : Rat) : ℝ) * y) * b = (1 + (hy : ℝ) * past) * a) := by
  obtain ⟨x, hx, -, -, h3⟩ := (C109_period_partial h fixings hone starts ends hlen hpos hin _ r hr).2 i s e hs he
  obtain ⟨last, hy, fy, f', hl, e1, e2, ⟨dt, hdt, hcr⟩, -, hfin⟩ := h3 h1 h2
  have hzb := (curve_ok h).2.1
  rw [hzb, e2] at hdt
  simp only [Except.ok.injEq, List.cons.injEq, and_true] at hdt
  subst hdt
  refine ⟨last, hy, fy, hl, e1, e2, fun n1 n2 => ?_⟩
  obtain ⟨f, hf, a, b, ha, hb, hb0, hg⟩ := hcr n1
  obtain ⟨y, hy', hgr⟩ := hfin past f hp hf n2
  refine ⟨y, a, b, by rw [hx, hy'], ha, hb, ?_⟩
  rw [hgr, mul_comm (fy : ℝ) f, hg]
  field_simp

/-- The call is answered exactly when the fixings cover the past periods and, up to the curve date, the straddling ones. -/
theorem C109_answered_partial (h : IsCurve cd basis cal z) (fixings : List (Int × Rat))
    (starts ends : List Int) (hlen : ends.length = starts.length) (hpos : ∀ p ∈ starts.zip ends, p.1 < p.2)
    (hin : ∀ e ∈ ends, cd < e → InRange z e) (method : RFRFixingCalcMethod) :
    (∃ r, rfrGetFixingsOn z fixings starts ends method = .ok r) ↔
      (pastPeriods cd (starts.zip ends) = [] ∨ ∃ v, getCouponRates basis fixings ((pastPeriods cd (starts.zip ends)).map (·.1))
        ((pastPeriods cd (starts.zip ends)).map (·.2)) method = .ok v) ∧
      (straddlingPeriods cd (starts.zip ends) = [] ∨ ∃ v, getCouponRates basis fixings
        ((straddlingPeriods cd (starts.zip ends)).map (·.1)) ((straddlingPeriods cd (starts.zip ends)).map (fun _ => cd)) method = .ok v) := by
  obtain ⟨hcd, hzb, hzc, -⟩ := curve_ok h
  have hmem : ∀ p ∈ starts.zip ends, cd < p.2 → InRange z p.2 := fun p hp hc => hin _ (List.of_mem_zip hp).2 hc
  have b1 : ∃ out1, maskedBlock (starts.map (fun s => decide (cd ≤ s))) starts ends (List.replicate starts.length none)
      (fun s e => z.forwardRates s e method.forwardType) = .ok out1 := by
    rw [zip_map_left _ starts ends hlen, maskedBlock_ok_iff _ _ _ hlen]
    by_cases he : (starts.zip ends).filter (fun p => decide (cd ≤ p.1)) = []
    · exact .inl he
    · right
      have hf : ∀ p ∈ (starts.zip ends).filter (fun p => decide (cd ≤ p.1)), cd ≤ p.1 ∧ p.1 < p.2 ∧ InRange z p.2 := by
        intro p hp
        obtain ⟨q1, q2⟩ := List.mem_filter.mp hp
        have := hpos p q1
        have q2 : cd ≤ p.1 := by simpa using q2
        exact ⟨q2, this, hmem p q1 (by omega)⟩
      obtain ⟨v, hv, -⟩ := forwardBatch h method (((starts.zip ends).filter (fun p => decide (cd ≤ p.1))).map (·.1))
        (((starts.zip ends).filter (fun p => decide (cd ≤ p.1))).map (·.2)) (by simpa using he) (by simp)
        (by
          intro d hd
          obtain ⟨p, hp, rfl⟩ := List.mem_map.mp hd
          obtain ⟨q1, q2, q3, r, hr, hle⟩ := hf p hp
          exact ⟨by omega, r, hr, by omega⟩)
        (by
          intro d hd
          obtain ⟨p, hp, rfl⟩ := List.mem_map.mp hd
          exact (hf p hp).2.2)
        (by
          intro p hp
          rw [List.zip_map'] at hp
          obtain ⟨q, hq, rfl⟩ := List.mem_map.mp hp
          have := hf q hq
          simp only
          omega)
      exact ⟨v, hv⟩
  have b3 : ∀ out2 : List (Option ℝ), (∃ r, maskedBlock ((starts.zip ends).map (fun p => decide (p.1 < cd) && decide (cd < p.2))) starts ends
      out2 (crossoverOn z fixings method) = .ok r) ↔ (straddlingPeriods cd (starts.zip ends) = [] ∨ ∃ v, getCouponRates basis fixings
        ((straddlingPeriods cd (starts.zip ends)).map (·.1)) ((straddlingPeriods cd (starts.zip ends)).map (fun _ => cd)) method = .ok v) := by
    intro out2
    rw [maskedBlock_ok_iff _ _ _ hlen]
    have hfe : (starts.zip ends).filter (fun p => decide (p.1 < cd) && decide (cd < p.2)) = straddlingPeriods cd (starts.zip ends) := by
      unfold straddlingPeriods
      apply List.filter_congr
      intro p _
      simp
    rw [hfe]
    set L := straddlingPeriods cd (starts.zip ends) with hL
    have hf : ∀ p ∈ L, p.1 < cd ∧ cd < p.2 ∧ InRange z p.2 := by
      intro p hp
      obtain ⟨q1, q2⟩ := List.mem_filter.mp hp
      have q2 : p.1 < cd ∧ cd < p.2 := by simpa using q2
      exact ⟨q2.1, q2.2, hmem p q1 q2.2⟩
    by_cases he : L = []
    · simp [he]
    · simp only [he, false_or]
      obtain ⟨p0, hp0⟩ := List.exists_mem_of_ne_nil L he
      have hcdr : InRange z cd := by
        obtain ⟨q1, q2, q3, r, hr, hle⟩ := hf p0 hp0
        exact ⟨by omega, r, hr, by omega⟩
      obtain ⟨hy, ehy⟩ := yearFrac_right_ok (S := L.map (·.1)) (cd := cd) (b := basis) (by simpa using he) (by
        intro d hd
        obtain ⟨p, hp, rfl⟩ := List.mem_map.mp hd
        exact (hf p hp).1.le)
      obtain ⟨fy, efy⟩ := yearFrac_left_ok (E := L.map (·.2)) (cd := cd) (b := basis) (by simpa using he) (by
        intro d hd
        obtain ⟨p, hp, rfl⟩ := List.mem_map.mp hd
        exact (hf p hp).2.1.le)
      have hrep : List.replicate (L.map (·.1)).length cd = L.map (fun _ => cd) := by
        rw [List.length_map, List.map_const']
      obtain ⟨f, hfw, -⟩ := forwardBatch h method (L.map (fun _ => cd)) (L.map (·.2)) (by simpa using he) (by simp)
        (by
          intro d hd
          obtain ⟨p, hp, rfl⟩ := List.mem_map.mp hd
          exact hcdr)
        (by
          intro d hd
          obtain ⟨p, hp, rfl⟩ := List.mem_map.mp hd
          exact (hf p hp).2.2)
        (by
          intro p hp
          rw [List.zip_map'] at hp
          obtain ⟨q, hq, rfl⟩ := List.mem_map.mp hp
          exact (hf q hq).2.1.le)
      unfold crossoverOn
      simp only [hcd, hzb, ehy, efy, hrep, bind, Except.bind]
      cases getCouponRates basis fixings (L.map (·.1)) (L.map (fun _ => cd)) method with
      | error e => simp
      | ok v =>
        simp only [hfw, pure, Except.pure]
        exact ⟨fun _ => ⟨v, rfl⟩, fun _ => ⟨_, rfl⟩⟩
  have b2 : ∀ out1 : List (Option ℝ), (∃ r, maskedBlock (ends.map (fun e => decide (e ≤ cd))) starts ends out1
      (fun s e => (getCouponRates basis fixings s e method).map (fun l => l.map (fun x => x.map (fun (y : Rat) => (y : ℝ))))) = .ok r) ↔
      (pastPeriods cd (starts.zip ends) = [] ∨ ∃ v, getCouponRates basis fixings ((pastPeriods cd (starts.zip ends)).map (·.1))
        ((pastPeriods cd (starts.zip ends)).map (·.2)) method = .ok v) := by
    intro out1
    rw [zip_map_right _ starts ends hlen, maskedBlock_ok_iff _ _ _ hlen]
    unfold pastPeriods
    refine or_congr Iff.rfl ?_
    cases getCouponRates basis fixings (((starts.zip ends).filter (fun p => decide (p.2 ≤ cd))).map (·.1))
      (((starts.zip ends).filter (fun p => decide (p.2 ≤ cd))).map (·.2)) method with
    | error e => simp [Except.map]
    | ok v => simp [Except.map]
  obtain ⟨out1, hb1⟩ := b1
  unfold rfrGetFixingsOn
  simp only [hcd, hzb, hb1, bind, Except.bind]
  constructor
  · rintro ⟨r, hr⟩
    cases hb2 : maskedBlock (ends.map (fun e => decide (e ≤ cd))) starts ends out1
      (fun s e => (getCouponRates basis fixings s e method).map (fun l => l.map (fun x => x.map (fun (y : Rat) => (y : ℝ))))) with
    | error _ => rw [hb2] at hr; cases hr
    | ok out2 =>
      rw [hb2] at hr
      exact ⟨(b2 out1).mp ⟨out2, hb2⟩, (b3 out2).mp ⟨r, hr⟩⟩
  · rintro ⟨q1, q2⟩
    obtain ⟨out2, hb2⟩ := (b2 out1).mpr q1
    rw [hb2]
    exact (b3 out2).mpr q2

/-- Defect: a future period ending after the curve's table raises no error when another future period precedes it; it gets the
rate of a period ending when that other one does. -/
theorem C109_borrowed (h : IsCurve cd basis cal z) (fixings : List (Int × Rat))
    (s1 s2 e1 e2 : Int) (hb : Plain basis e1) (h1 : s1 < e1) (h2 : s2 < e2) (hs1 : InRange z s1) (hs2 : InRange z s2)
    (he1 : InRange z e1) (he2 : ¬ InRange z e2) : ∃ t1 t2 : Rat, yearFrac [s1] [e1] basis none = .ok [t1] ∧
      yearFrac [s2] [e2] basis none = .ok [t2] ∧
      rfrGetFixingsOn z fixings [s1, s2] [e1, e2] .dailyCompounded = .ok [forwardRate .dailyCompounded t1 (dfOf z s1) (dfOf z e1),
        forwardRate .dailyCompounded t2 (dfOf z s2) (dfOf z e1)] := by
  obtain ⟨t1, t2, y1, y2, hf⟩ := C37_borrowed_factor h s1 s2 e1 e2 hb h1.le h2.le hs1 hs2 he1 he2
  refine ⟨t1, t2, y1, y2, ?_⟩
  have hf' : z.forwardRates [s1, s2] [e1, e2] .dailyCompounded = z.forwardRates [s1, s2] [e1, e2] .simple := rfl
  have a1 := hs1.1
  have a2 := hs2.1
  have n1 : ¬ e1 ≤ z.curveDate := by omega
  have n2 : ¬ e2 ≤ z.curveDate := by omega
  have n3 : ¬ s1 < z.curveDate := by omega
  have n4 : ¬ s2 < z.curveDate := by omega
  unfold rfrGetFixingsOn
  simp [maskedBlock, gather, maskedSet, a1, a2, n1, n2, n3, n4, RFRFixingCalcMethod.forwardType, hf', hf, Except.map, bind, Except.bind]
  exact ⟨rfl, rfl⟩

/-- Alone, a future period ending after the curve's table is refused. -/
theorem C109_alone_refused (h : IsCurve cd basis cal z) (fixings : List (Int × Rat)) (s e : Int) (hse : s < e)
    (hs : InRange z s) (he : ¬ InRange z e) (method : RFRFixingCalcMethod) :
    rfrGetFixingsOn z fixings [s] [e] method = .error .value := by
  classical
  obtain ⟨hcd, hzb, -⟩ := curve_ok h
  have hf : z.forwardRates [s] [e] method.forwardType = .error .value := by
    rw [forwardRates_ok h (starts := [s]) (ends := [e]) rfl (by simpa using hs) (by simpa using hse.le)]
    have ha : ∀ bo, averageRates z [s] [e] bo = .error .value := by
      intro bo
      unfold averageRates
      simp only [List.min?_singleton, List.max?_singleton]
      rw [if_pos]
      rw [discountFactors_eq h, List.length_map]
      have hmem : e ∈ dateRange s e := mem_dateRange.mpr ⟨hse.le, le_refl _⟩
      have := List.length_filter_lt_length_iff_exists (l := dateRange s e) (p := fun d => decide (InRange z d)) |>.mpr ⟨e, hmem, by simpa using he⟩
      omega
    have hd : ratioRates z [s] [e] .dailyCompounded = .error .value := by
      obtain ⟨r, hr⟩ := yearFrac_ok (S := [s]) (E := [e]) (b := z.basis) rfl (by simpa using hse.le)
      have hl := (yearFrac_same_length hr rfl).1
      unfold ratioRates
      simp only [hr, discountFactors_eq h, List.filter_cons, hs, he, decide_true, decide_false, if_true, List.filter_nil, List.map_cons,
        List.map_nil, bind, Except.bind, npBroadcast]
      match r, hl with
      | [x], _ => simp
    cases method
    · exact hd
    · exact ha _
    · exact ha _
  have a1 := hs.1
  unfold rfrGetFixingsOn
  simp [maskedBlock, gather, a1, hf, Except.map, bind, Except.bind]

end

/-- The fixings of the example below. -/
def sampleFixings : List (Int × Rat) := [(-2, 1 / 100), (-1, 2 / 100)]

/-- A past, a straddling and a future period: the call is answered. -/
example (cal : BusCal) : ∃ z, makeZeroCurve 0 { date := some [365, 730], discountFactor := some [0.98, 0.95] } none .act_365
    cal = .ok z ∧ OnePerDate sampleFixings ∧
    (∀ e ∈ [(0 : Int), 365, 730], (0 : Int) < e → InRange z e) ∧
    ∃ r, rfrGetFixingsOn z sampleFixings [-2, -1, 365] [0, 365, 730] .dailyCompounded = .ok r := by
  obtain ⟨z, hz⟩ := sampleCurve cal
  obtain ⟨-, hr, -⟩ := sampleCurve_facts hz
  have hin : ∀ e ∈ [(0 : Int), 365, 730], (0 : Int) < e → InRange z e := by
    intro e he _
    simp only [List.mem_cons, List.not_mem_nil, or_false] at he
    exact (hr e).mpr (by omega)
  refine ⟨z, hz, by simp [OnePerDate, sampleFixings], hin, ?_⟩
  rw [C109_answered_partial (.linear hz) sampleFixings [-2, -1, 365] [0, 365, 730] rfl (by decide) hin]
  have q : ∀ a b, (getCouponRates .act_365 sampleFixings a b .dailyCompounded).isOk = true →
      ∃ v, getCouponRates .act_365 sampleFixings a b .dailyCompounded = .ok v := by
    intro a b hab
    cases hh : getCouponRates .act_365 sampleFixings a b .dailyCompounded with
    | error e => rw [hh] at hab; cases hab
    | ok v => exact ⟨v, rfl⟩
  exact ⟨.inr (q _ _ (by decide +kernel)), .inr (q _ _ (by decide +kernel))⟩

/-- The property fails: of two future periods the second ends after the table, and is given a rate at which a deposit grows as
much as up to the first period's end. -/
theorem C109_fails (cal : BusCal) (fixings : List (Int × Rat)) :
    ∃ z, makeZeroCurve 0 { date := some [365, 730], discountFactor := some [0.98, 0.95] } none .act_365 cal = .ok z ∧ ¬ InRange z 1095 ∧
      rfrGetFixingsOn z fixings [365, 365] [730, 1095] .dailyCompounded =
        .ok [some (0.98 / 0.95 - 1), some (1 / 2 * (0.98 / 0.95 - 1))] := by
  obtain ⟨z, hz⟩ := sampleCurve cal
  obtain ⟨-, hr, -⟩ := sampleCurve_facts hz
  have hn : ¬ InRange z 1095 := fun h => by have := (hr _).mp h; omega
  refine ⟨z, hz, hn, ?_⟩
  obtain ⟨t1, t2, y1, y2, hf⟩ := C109_borrowed (.linear hz) fixings 365 365 730 1095 (fun h => by cases h) (by decide) (by decide)
    ((hr _).mpr (by omega)) ((hr _).mpr (by omega)) ((hr _).mpr (by omega)) hn
  have e1 : yearFrac [365] [730] .act_365 none = .ok [(1 : Rat)] := by decide +kernel
  have e2 : yearFrac [365] [1095] .act_365 none = .ok [(2 : Rat)] := by decide +kernel
  rw [e1] at y1
  rw [e2] at y2
  simp only [Except.ok.injEq, List.cons.injEq, and_true] at y1 y2
  subst y1 y2
  have hpos : ∀ v ∈ ([0.98, 0.95] : List ℝ), 0 < v := by
    intro v hv
    simp only [List.mem_cons, List.not_mem_nil, or_false] at hv
    rcases hv with rfl | rfl <;> norm_num
  have f1 := C35_reproduces_quotes 0 [365, 730] [0.98, 0.95] none .act_365 (.inr (.inl rfl)) cal z rfl (by decide)
    (by decide) hpos hz 0 365 0.98 rfl rfl
  have f2 := C35_reproduces_quotes 0 [365, 730] [0.98, 0.95] none .act_365 (.inr (.inl rfl)) cal z rfl (by decide)
    (by decide) hpos hz 1 730 0.95 rfl rfl
  rw [discountFactors_all (.linear hz) (by simpa using (hr _).mpr (by omega))] at f1 f2
  simp only [List.map_cons, List.map_nil, List.cons.injEq, Option.some.injEq, and_true] at f1 f2
  rw [hf, f1, f2]
  simp only [forwardRate]
  rw [if_neg (by norm_num), if_neg (by norm_num)]
  push_cast
  norm_num

end Frm.Props
