import Mathlib.Algebra.BigOperators.Group.List.Basic
import Verif.Proofs.Fixings

/-! # C31 — RFR coupons compound every calendar day of the period -/

namespace Frm
open Spec

set_option autoImplicit false

theorem dateRange_sorted (s e : Int) : (dateRange s e).Pairwise (· ≤ ·) := by
  unfold dateRange
  rw [List.pairwise_map]
  exact (List.pairwise_lt_range).imp (fun h => by omega)

theorem mem_dateRange {s e d : Int} : d ∈ dateRange s e ↔ s ≤ d ∧ d ≤ e := by
  unfold dateRange
  simp only [List.mem_map, List.mem_range]
  constructor
  · rintro ⟨i, hi, rfl⟩; omega
  · rintro ⟨h1, h2⟩; exact ⟨(d - s).toNat, by omega, by omega⟩

theorem dateRange_length (s e : Int) : (dateRange s e).length = (e - s + 1).toNat := by simp [dateRange]

theorem dayProduct_eq (g : Int → Rat) (s : Int) (n : Nat) :
    ((List.range n).map (fun (i : Nat) => g (s + i))).prod = dayProduct g s n := by
  induction n with
  | zero => rfl
  | succ n ih => rw [List.range_succ, List.map_append, List.prod_append, ih]; simp [dayProduct]

theorem dayTotal_eq (g : Int → Rat) (s : Int) (n : Nat) :
    ((List.range n).map (fun (i : Nat) => g (s + i))).sum = dayTotal g s n := by
  induction n with
  | zero => rfl
  | succ n ih => rw [List.range_succ, List.map_append, List.sum_append, ih]; simp [dayTotal]

theorem filterMap_map_getD (l : List Int) (g : Int → Option Rat) (h : ∀ d ∈ l, (g d).isSome) :
    (l.map g).filterMap id = l.map (fun d => (g d).getD 0) := by
  induction l with
  | nil => rfl
  | cons d l ih =>
    have hd := h d (by simp)
    have ih := ih (fun d hd => h d (by simp [hd]))
    obtain ⟨x, hx⟩ := Option.isSome_iff_exists.mp hd
    have e1 : List.filterMap id (g d :: l.map g) = x :: List.filterMap id (l.map g) := by
      rw [hx]; exact List.filterMap_cons_some (f := id) rfl
    rw [List.map_cons, e1, ih, List.map_cons, hx]
    rfl

/-- The fixings of the window of one period, in date order. -/
def windowOf (fixings : List (Int × Rat)) (starts ends : List Int) (s e : Int) : List (Int × Rat) :=
  (applicableFixings fixings starts ends).filter (fun f => decide (s ≤ f.1) && decide (f.1 ≤ e - 1))

theorem natLe_min (l : List Int) {a x : Int} (h : a ∈ l) (hx : a ≤ x) : natLe l.min? (some x) = true := by
  cases hm : l.min? with
  | none => rw [List.min?_eq_none_iff] at hm; subst hm; cases h
  | some m =>
    have := (List.min?_eq_some_iff.mp hm).2 a h
    simp only [natLe, decide_eq_true_eq]; omega

theorem natLe_max (l : List Int) {a x : Int} (h : a ∈ l) (hx : x ≤ a) : natLe (some x) l.max? = true := by
  cases hm : l.max? with
  | none => rw [List.max?_eq_none_iff] at hm; subst hm; cases h
  | some m =>
    have := (List.max?_eq_some_iff.mp hm).2 a h
    simp only [natLe, decide_eq_true_eq]; omega

theorem mem_windowOf {fixings : List (Int × Rat)} {starts ends : List Int} {s e : Int} (hs : s ∈ starts) (he : e ∈ ends)
    (p : Int × Rat) : p ∈ windowOf fixings starts ends s e ↔ p ∈ fixings ∧ s ≤ p.1 ∧ p.1 < e := by
  unfold windowOf applicableFixings
  simp only [List.mem_filter, mem_sortBy, Bool.and_eq_true, decide_eq_true_eq]
  constructor
  · rintro ⟨⟨h, -⟩, h1, h2⟩; exact ⟨h, h1, by omega⟩
  · rintro ⟨h, h1, h2⟩
    refine ⟨⟨h, natLe_min starts hs h1, natLe_max _ (List.mem_map_of_mem he) (by omega)⟩, h1, by omega⟩

theorem windowOf_sorted (fixings : List (Int × Rat)) (starts ends : List Int) (s e : Int) :
    ((windowOf fixings starts ends s e).map (·.1)).Pairwise (· ≤ ·) := by
  rw [List.pairwise_map]
  exact (sortBy_sorted _ _).filter _

theorem windowOf_perm {fixings : List (Int × Rat)} {starts ends : List Int} {s e : Int} (hs : s ∈ starts) (he : e ∈ ends) :
    (windowOf fixings starts ends s e).Perm (fixings.filter (fun f => decide (s ≤ f.1) && decide (f.1 < e))) := by
  unfold windowOf applicableFixings
  refine ((sortBy_perm _ _).filter _).trans ?_
  rw [List.filter_filter]
  apply List.Perm.of_eq
  apply List.filter_congr
  intro p _
  rw [Bool.eq_iff_iff]
  simp only [Bool.and_eq_true, decide_eq_true_eq]
  constructor
  · rintro ⟨⟨h1, h2⟩, -⟩; exact ⟨h1, by omega⟩
  · rintro ⟨h1, h2⟩
    exact ⟨⟨h1, by omega⟩, natLe_min starts hs h1, natLe_max _ (List.mem_map_of_mem he) (by omega)⟩

/-- On a day of a period whose first day has a fixing, the windowed lookup finds the latest fixing of the table. -/
theorem latest_of_window {fixings : List (Int × Rat)} {starts ends : List Int} {s e : Int} (hs : s ∈ starts)
    (he : e ∈ ends) {x0 : Rat} (h0 : (s, x0) ∈ fixings) {d : Int} (h1 : s ≤ d) (h2 : d < e) :
    ∃ x, (asofAdvance d (windowOf fixings starts ends s e) none).2 = some x ∧ Latest fixings d x := by
  have hsorted := windowOf_sorted fixings starts ends s e
  have has := asof_none hsorted d
  cases hx : (asofAdvance d (windowOf fixings starts ends s e) none).2 with
  | none =>
    rw [hx] at has
    have := has (s, x0) ((mem_windowOf hs he _).mpr ⟨h0, by simp, by simp; omega⟩)
    simp only at this
    omega
  | some x =>
    rw [hx] at has
    obtain ⟨pre, t, post, hw, ht, hpost⟩ := has
    refine ⟨x, rfl, t, ?_, ht, ?_⟩
    · exact ((mem_windowOf hs he (t, x)).mp (by rw [hw]; simp)).1
    · intro p hp hpd
      have hts := ((mem_windowOf hs he (t, x)).mp (by rw [hw]; simp)).2.1
      by_cases hps : s ≤ p.1
      · have hmem := (mem_windowOf hs he p).mpr ⟨hp, hps, by omega⟩
        rw [hw] at hmem hsorted
        rw [List.pairwise_map, List.pairwise_append] at hsorted
        rcases List.mem_append.mp hmem with h | h
        · exact hsorted.2.2 p h (t, x) (by simp)
        · rcases List.mem_cons.mp h with h | h
          · rw [h]
          · have := hpost p h; omega
      · simp only at hts; omega

end Frm

namespace Frm.Props
open Spec

set_option autoImplicit false

/-- Shape of a successful call: one rate per period, each computed from the fixings of its own window. -/
theorem getCouponRates_get {basis : DayCountBasis} {fixings : List (Int × Rat)} {starts ends : List Int}
    {method : RFRFixingCalcMethod} {r : List NRat} (h : getCouponRates basis fixings starts ends method = .ok r)
    {i : Nat} {s e : Int} (hs : starts[i]? = some s) (he : ends[i]? = some e) :
    r[i]? = some (calculateCouponRate basis.daysPerYear s (e - 1) (applicableFixings fixings starts ends) method) := by
  unfold getCouponRates at h
  simp only at h
  split at h
  · cases h
  · simp only [Except.ok.injEq] at h
    subst h
    have hz : (starts.zip (ends.map (· - 1)))[i]? = some (s, e - 1) :=
      List.getElem?_zip_eq_some.mpr ⟨hs, by simp only [List.getElem?_map, he, Option.map_some]⟩
    simp only [List.getElem?_map, hz, Option.map_some]

/-- Daily compounding, for a period whose first day has a fixing: the annualised product over all calendar days of the
period of one plus the fixing in force over the days per year. -/
theorem C31_daily_compounded (basis : DayCountBasis) (n : Int) (hb : basis.daysPerYear = some n)
    (fixings : List (Int × Rat)) (starts ends : List Int) (r : List NRat)
    (h : getCouponRates basis fixings starts ends .dailyCompounded = .ok r) (i : Nat) (s e : Int)
    (hs : starts[i]? = some s) (he : ends[i]? = some e) (hse : s < e) (x0 : Rat) (h0 : (s, x0) ∈ fixings) :
    ∃ f : Int → Rat, (∀ d, s ≤ d → d < e → Latest fixings d (f d)) ∧
      r[i]? = some (some ((dayProduct (fun d => 1 + f d / n) s (e - s).toNat - 1) * n / ((e - s : Int) : Rat))) := by
  have hsm := List.mem_of_getElem? hs
  have hem := List.mem_of_getElem? he
  let w := windowOf fixings starts ends s e
  refine ⟨fun d => ((asofAdvance d w none).2).getD 0, ?_, ?_⟩
  · intro d h1 h2
    obtain ⟨x, hx, hl⟩ := latest_of_window hsm hem h0 h1 h2
    simp only [w, hx, Option.getD_some]
    exact hl
  · rw [getCouponRates_get h hs he]
    unfold calculateCouponRate
    simp only [hb]
    have hne : dateRange s (e - 1) ≠ [] := by
      intro hc
      have := dateRange_length s (e - 1)
      rw [hc] at this
      simp only [List.length_nil] at this
      omega
    rw [if_neg hne]
    have hw : (applicableFixings fixings starts ends).filter (fun f => decide (s ≤ f.1) && decide (f.1 ≤ e - 1)) = w := rfl
    rw [hw, asofLoop_eq _ _ _ (dateRange_sorted s (e - 1))]
    rw [filterMap_map_getD _ (fun d => (asofAdvance d w none).2) (by
      intro d hd
      obtain ⟨h1, h2⟩ := mem_dateRange.mp hd
      obtain ⟨x, hx, -⟩ := latest_of_window hsm hem h0 h1 (by omega)
      simp only [w, hx, Option.isSome_some])]
    rw [List.map_map, dateRange_length]
    have e1 : (e - 1 - s + 1).toNat = (e - s).toNat := by congr 1; omega
    have e2 : (((e - s).toNat : Nat) : Rat) = ((e - s : Int) : Rat) := by
      have : (((e - s).toNat : Nat) : Int) = e - s := by omega
      exact_mod_cast this
    rw [e1, e2]
    unfold dateRange
    rw [e1, List.map_map]
    congr 5
    exact dayProduct_eq (fun d => 1 + ((asofAdvance d w none).2).getD 0 / (n : Rat)) s (e - s).toNat

/-- The weighted average: the mean over all calendar days of the fixing in force. -/
theorem C31_weighted_average (basis : DayCountBasis) (fixings : List (Int × Rat)) (starts ends : List Int)
    (r : List NRat) (h : getCouponRates basis fixings starts ends .weightedAverage = .ok r) (i : Nat) (s e : Int)
    (hs : starts[i]? = some s) (he : ends[i]? = some e) (hse : s < e) (x0 : Rat) (h0 : (s, x0) ∈ fixings) :
    ∃ f : Int → Rat, (∀ d, s ≤ d → d < e → Latest fixings d (f d)) ∧
      r[i]? = some (some (dayTotal f s (e - s).toNat / ((e - s : Int) : Rat))) := by
  have hsm := List.mem_of_getElem? hs
  have hem := List.mem_of_getElem? he
  let w := windowOf fixings starts ends s e
  refine ⟨fun d => ((asofAdvance d w none).2).getD 0, ?_, ?_⟩
  · intro d h1 h2
    obtain ⟨x, hx, hl⟩ := latest_of_window hsm hem h0 h1 h2
    simp only [w, hx, Option.getD_some]
    exact hl
  · rw [getCouponRates_get h hs he]
    unfold calculateCouponRate
    simp only
    have hw : (applicableFixings fixings starts ends).filter (fun f => decide (s ≤ f.1) && decide (f.1 ≤ e - 1)) = w := rfl
    rw [hw, asofLoop_eq _ _ _ (dateRange_sorted s (e - 1))]
    rw [filterMap_map_getD _ (fun d => (asofAdvance d w none).2) (by
      intro d hd
      obtain ⟨h1, h2⟩ := mem_dateRange.mp hd
      obtain ⟨x, hx, -⟩ := latest_of_window hsm hem h0 h1 (by omega)
      simp only [w, hx, Option.isSome_some])]
    have e1 : (e - 1 - s + 1).toNat = (e - s).toNat := by congr 1; omega
    have e2 : (((e - s).toNat : Nat) : Rat) = ((e - s : Int) : Rat) := by
      have : (((e - s).toNat : Nat) : Int) = e - s := by omega
      exact_mod_cast this
    unfold meanOf
    have hne : (dateRange s (e - 1)).map (fun d => ((asofAdvance d w none).2).getD 0) ≠ [] := by
      intro hc
      have := congrArg List.length hc
      rw [List.length_map, dateRange_length] at this
      simp only [List.length_nil] at this
      omega
    rw [if_neg hne, List.length_map, dateRange_length, e1, e2]
    unfold dateRange
    rw [e1, List.map_map]
    congr 3
    exact dayTotal_eq (fun d => ((asofAdvance d w none).2).getD 0) s (e - s).toNat

/-- The simple average: the mean of the fixings published in the period; `nan` if there is none. -/
theorem C31_simple_average (basis : DayCountBasis) (fixings : List (Int × Rat)) (starts ends : List Int)
    (r : List NRat) (h : getCouponRates basis fixings starts ends .simpleAverage = .ok r) (i : Nat) (s e : Int)
    (hs : starts[i]? = some s) (he : ends[i]? = some e) :
    let published := fixings.filter (fun f => decide (s ≤ f.1) && decide (f.1 < e))
    r[i]? = some (if published = [] then none else some ((published.map (·.2)).sum / published.length)) := by
  have hsm := List.mem_of_getElem? hs
  have hem := List.mem_of_getElem? he
  intro published
  have hp : (windowOf fixings starts ends s e).Perm published := windowOf_perm hsm hem
  rw [getCouponRates_get h hs he]
  unfold calculateCouponRate
  simp only
  have hw : (applicableFixings fixings starts ends).filter (fun f => decide (s ≤ f.1) && decide (f.1 ≤ e - 1)) =
      windowOf fixings starts ends s e := rfl
  rw [hw]
  unfold meanOf
  by_cases hpub : published = []
  · rw [if_pos hpub, if_pos (by rw [List.map_eq_nil_iff]; exact List.perm_nil.mp (hpub ▸ hp))]
  · rw [if_neg hpub, if_neg (by
      rw [List.map_eq_nil_iff]; intro hc; exact hpub (List.nil_perm.mp (hc ▸ hp)))]
    rw [List.length_map, hp.length_eq, (hp.map _).sum_eq]

/-- A constant fixing is its own weighted and simple average, and compounds as a power. -/
theorem C31_constant (basis : DayCountBasis) (n : Int) (hb : basis.daysPerYear = some n) (c : Rat)
    (fixings : List (Int × Rat)) (hc : ∀ p ∈ fixings, p.2 = c) (starts ends : List Int)
    (method : RFRFixingCalcMethod) (r : List NRat) (h : getCouponRates basis fixings starts ends method = .ok r)
    (i : Nat) (s e : Int) (hs : starts[i]? = some s) (he : ends[i]? = some e) (hse : s < e) (x0 : Rat)
    (h0 : (s, x0) ∈ fixings) :
    r[i]? = some (some (match method with
      | .dailyCompounded => ((1 + c / n) ^ (e - s).toNat - 1) * n / ((e - s : Int) : Rat)
      | .weightedAverage => c
      | .simpleAverage => c)) := by
  cases method with
  | dailyCompounded =>
    obtain ⟨f, hf, hr⟩ := C31_daily_compounded basis n hb fixings starts ends r h i s e hs he hse x0 h0
    rw [hr]
    have : ∀ k : Nat, k ≤ (e - s).toNat → dayProduct (fun d => 1 + f d / n) s k = (1 + c / n) ^ k := by
      intro k
      induction k with
      | zero => intro _; simp [dayProduct]
      | succ k ih =>
        intro hk
        obtain ⟨t, ht, -⟩ := hf (s + k) (by omega) (by omega)
        have hfc : f (s + k) = c := hc _ ht
        rw [dayProduct, ih (by omega), pow_succ, hfc]
    rw [this _ (le_refl _)]
  | weightedAverage =>
    obtain ⟨f, hf, hr⟩ := C31_weighted_average basis fixings starts ends r h i s e hs he hse x0 h0
    rw [hr]
    have : ∀ k : Nat, k ≤ (e - s).toNat → dayTotal f s k = k * c := by
      intro k
      induction k with
      | zero => intro _; simp [dayTotal]
      | succ k ih =>
        intro hk
        obtain ⟨t, ht, -⟩ := hf (s + k) (by omega) (by omega)
        have hfc : f (s + k) = c := hc _ ht
        rw [dayTotal, ih (by omega), hfc]
        push_cast; ring
    rw [this _ (le_refl _)]
    have e2 : (((e - s).toNat : Nat) : Rat) = ((e - s : Int) : Rat) := by
      have : (((e - s).toNat : Nat) : Int) = e - s := by omega
      exact_mod_cast this
    have hpos : ((e - s : Int) : Rat) ≠ 0 := by
      have : e - s ≠ 0 := by omega
      exact_mod_cast this
    rw [e2, mul_comm, mul_div_assoc, div_self hpos, mul_one]
  | simpleAverage =>
    have hr := C31_simple_average basis fixings starts ends r h i s e hs he
    simp only at hr
    have hmem : (s, x0) ∈ fixings.filter (fun f => decide (s ≤ f.1) && decide (f.1 < e)) := by
      simp [List.mem_filter, h0, hse]
    have hne : fixings.filter (fun f => decide (s ≤ f.1) && decide (f.1 < e)) ≠ [] := List.ne_nil_of_mem hmem
    rw [if_neg hne] at hr
    rw [hr]
    have : ∀ l : List (Int × Rat), (∀ p ∈ l, p.2 = c) → (l.map (·.2)).sum = l.length * c := by
      intro l
      induction l with
      | nil => intro _; simp
      | cons p l ih =>
        intro hl
        rw [List.map_cons, List.sum_cons, hl p (by simp), ih (fun q hq => hl q (by simp [hq])), List.length_cons]
        push_cast; ring
    rw [this _ (fun p hp => hc p (List.mem_filter.mp hp).1)]
    have hpos : (((fixings.filter (fun f => decide (s ≤ f.1) && decide (f.1 < e))).length : Nat) : Rat) ≠ 0 := by
      have := List.length_pos_iff.mpr hne
      exact_mod_cast this.ne'
    rw [mul_comm, mul_div_assoc, div_self hpos, mul_one]

/-- Friday, Saturday, Sunday and Monday, with fixings on Friday and Monday only. -/
example : getCouponRates .act_360 [(8, 36 / 100), (5, 18 / 100)] [5] [9] .dailyCompounded =
      .ok [some (((1 + 5 / 10000) ^ 3 * (1 + 1 / 1000) - 1) * 360 / 4)] ∧
    getCouponRates .act_360 [(8, 36 / 100), (5, 18 / 100)] [5] [9] .weightedAverage = .ok [some (9 / 40)] ∧
    getCouponRates .act_360 [(8, 36 / 100), (5, 18 / 100)] [5] [9] .simpleAverage = .ok [some (27 / 100)] := by
  decide +kernel

end Frm.Props
