import Verif.Props.C31

/-! # C32 — Periods without fixing data -/

namespace Frm
open Spec

set_option autoImplicit false

theorem dateRange_append {s m e : Int} (h1 : s ≤ m) (h2 : m ≤ e + 1) :
    dateRange s e = dateRange s (m - 1) ++ dateRange m e := by
  unfold dateRange
  have : (e - s + 1).toNat = (m - 1 - s + 1).toNat + (e - m + 1).toNat := by omega
  rw [this, List.range_add, List.map_append, List.map_map]
  congr 1
  apply List.map_congr_left
  intro i _
  simp only [Function.comp]
  omega

/-- The fixings the coverage check looks at. -/
theorem mem_applicable {fixings : List (Int × Rat)} {starts ends : List Int} {a z : Int} (ha : starts.min? = some a)
    (hz : ends.max? = some z) (p : Int × Rat) :
    p ∈ applicableFixings fixings starts ends ↔ p ∈ fixings ∧ a ≤ p.1 ∧ p.1 < z := by
  have hz' : (ends.map (· - 1)).max? = some (z - 1) := by
    rw [List.max?_eq_some_iff]
    obtain ⟨h1, h2⟩ := List.max?_eq_some_iff.mp hz
    refine ⟨List.mem_map_of_mem h1, ?_⟩
    intro b hb
    obtain ⟨c, hc, rfl⟩ := List.mem_map.mp hb
    have := h2 c hc
    omega
  unfold applicableFixings
  simp only [mem_sortBy, List.mem_filter, ha, hz', natLe, Bool.and_eq_true, decide_eq_true_eq]
  constructor
  · rintro ⟨h, h1, h2⟩; exact ⟨h, h1, by omega⟩
  · rintro ⟨h, h1, h2⟩; exact ⟨h, h1, by omega⟩

end Frm

namespace Frm.Props
open Spec

set_option autoImplicit false

/-- Exactly when the call raises: some fixing lies between the first start and the last end, but either none of these is
on the very last day, or all of these are after the earliest period's last day. -/
theorem C32_raises_iff_partial (basis : DayCountBasis) (fixings : List (Int × Rat)) (starts ends : List Int)
    (method : RFRFixingCalcMethod) (a y z : Int) (ha : starts.min? = some a) (hy : ends.min? = some y)
    (hz : ends.max? = some z) :
    getCouponRates basis fixings starts ends method = .error .value ↔
      (∃ p ∈ fixings, a ≤ p.1 ∧ p.1 < z) ∧
      ((∀ p ∈ fixings, a ≤ p.1 → p.1 < z → p.1 < z - 1) ∨ (∀ p ∈ fixings, a ≤ p.1 → p.1 < z → y - 1 < p.1)) := by
  have hz' : (ends.map (· - 1)).max? = some (z - 1) := by
    rw [List.max?_eq_some_iff]
    obtain ⟨h1, h2⟩ := List.max?_eq_some_iff.mp hz
    refine ⟨List.mem_map_of_mem h1, ?_⟩
    intro b hb
    obtain ⟨c, hc, rfl⟩ := List.mem_map.mp hb
    have := h2 c hc
    omega
  have hy' : (ends.map (· - 1)).min? = some (y - 1) := by
    rw [List.min?_eq_some_iff]
    obtain ⟨h1, h2⟩ := List.min?_eq_some_iff.mp hy
    refine ⟨List.mem_map_of_mem h1, ?_⟩
    intro b hb
    obtain ⟨c, hc, rfl⟩ := List.mem_map.mp hb
    have := h2 c hc
    omega
  unfold getCouponRates
  simp only [hz', hy']
  by_cases hemp : applicableFixings fixings starts ends = []
  · have h1 : ¬ ∃ p ∈ fixings, a ≤ p.1 ∧ p.1 < z := by
      rintro ⟨p, hp, h⟩
      have := (mem_applicable ha hz p).mpr ⟨hp, h⟩
      rw [hemp] at this
      cases this
    simp [hemp, natGt, h1]
  · obtain ⟨q, hq⟩ := List.exists_mem_of_ne_nil _ hemp
    have h1 : ∃ p ∈ fixings, a ≤ p.1 ∧ p.1 < z :=
      ⟨q, ((mem_applicable ha hz q).mp hq).1, ((mem_applicable ha hz q).mp hq).2⟩
    have hne : (applicableFixings fixings starts ends).map (·.1) ≠ [] := by simpa using hemp
    obtain ⟨mx, hmx⟩ : ∃ m, ((applicableFixings fixings starts ends).map (·.1)).max? = some m := by
      rw [← Option.isSome_iff_exists]; simpa using hne
    obtain ⟨mn, hmn⟩ : ∃ m, ((applicableFixings fixings starts ends).map (·.1)).min? = some m := by
      rw [← Option.isSome_iff_exists]; simpa using hne
    obtain ⟨hx1, hx2⟩ := List.max?_eq_some_iff.mp hmx
    obtain ⟨hn1, hn2⟩ := List.min?_eq_some_iff.mp hmn
    obtain ⟨px, hpx, hpx'⟩ := List.mem_map.mp hx1
    obtain ⟨pn, hpn, hpn'⟩ := List.mem_map.mp hn1
    have kx := (mem_applicable ha hz px).mp hpx
    have kn := (mem_applicable ha hz pn).mp hpn
    have e1 : (∀ p ∈ fixings, a ≤ p.1 → p.1 < z → p.1 < z - 1) ↔ mx < z - 1 := by
      constructor
      · intro h; have := h px kx.1 kx.2.1 kx.2.2; omega
      · intro h p hp h1 h2
        have := hx2 p.1 (List.mem_map_of_mem ((mem_applicable ha hz p).mpr ⟨hp, h1, h2⟩))
        omega
    have e2 : (∀ p ∈ fixings, a ≤ p.1 → p.1 < z → y - 1 < p.1) ↔ y - 1 < mn := by
      constructor
      · intro h; have := h pn kn.1 kn.2.1 kn.2.2; omega
      · intro h p hp h1 h2
        have := hn2 p.1 (List.mem_map_of_mem ((mem_applicable ha hz p).mpr ⟨hp, h1, h2⟩))
        omega
    rw [e1, e2]
    simp only [hmx, hmn, natGt, Bool.or_eq_true, decide_eq_true_eq]
    constructor
    · intro h
      refine ⟨h1, ?_⟩
      by_contra hc
      rw [if_neg hc] at h
      cases h
    · rintro ⟨-, h⟩
      rw [if_pos h]

/-- In particular a missing fixing on the very last day is rejected (as long as there is any fixing at all). -/
theorem C32_end_partial (basis : DayCountBasis) (fixings : List (Int × Rat)) (starts ends : List Int)
    (method : RFRFixingCalcMethod) (a z : Int) (ha : starts.min? = some a) (hz : ends.max? = some z)
    (hsome : ∃ p ∈ fixings, a ≤ p.1 ∧ p.1 < z) (hlast : ∀ p ∈ fixings, p.1 ≠ z - 1) :
    getCouponRates basis fixings starts ends method = .error .value := by
  obtain ⟨y, hy⟩ : ∃ y, ends.min? = some y := by
    rw [← Option.isSome_iff_exists]
    have : ends ≠ [] := by rintro rfl; cases hz
    simpa using this
  rw [C32_raises_iff_partial basis fixings starts ends method a y z ha hy hz]
  refine ⟨hsome, .inl ?_⟩
  intro p hp _ h2
  have := hlast p hp
  omega

/-- Defect: without a single fixing between the first start and the last end nothing is raised; the compounded rate of
every period is zero. -/
theorem C32_no_fixings (basis : DayCountBasis) (n : Int) (hb : basis.daysPerYear = some n) (fixings : List (Int × Rat))
    (starts ends : List Int) (a z : Int) (ha : starts.min? = some a) (hz : ends.max? = some z)
    (hnone : ∀ p ∈ fixings, ¬(a ≤ p.1 ∧ p.1 < z)) :
    ∃ r, getCouponRates basis fixings starts ends .dailyCompounded = .ok r ∧
      ∀ (i : Nat) (s e : Int), starts[i]? = some s → ends[i]? = some e → s < e → r[i]? = some (some 0) := by
  have hemp : applicableFixings fixings starts ends = [] := by
    rw [List.eq_nil_iff_forall_not_mem]
    intro p hp
    have := (mem_applicable ha hz p).mp hp
    exact hnone p this.1 this.2
  have hok : ∃ r, getCouponRates basis fixings starts ends .dailyCompounded = .ok r := by
    unfold getCouponRates
    simp [hemp, natGt]
  obtain ⟨r, hr⟩ := hok
  refine ⟨r, hr, ?_⟩
  intro i s e hs he hse
  rw [getCouponRates_get hr hs he, hemp]
  unfold calculateCouponRate
  have hne : dateRange s (e - 1) ≠ [] := by
    intro hc
    have := dateRange_length s (e - 1)
    rw [hc] at this
    simp only [List.length_nil] at this
    omega
  simp only [hb, if_neg hne, List.filter_nil]
  rw [asofLoop_eq _ _ _ (dateRange_sorted _ _)]
  have : List.filterMap id ((dateRange s (e - 1)).map (fun d => (asofAdvance d ([] : List (Int × Rat)) none).2)) = [] := by
    rw [List.filterMap_eq_nil_iff]
    intro x hx
    obtain ⟨d, -, rfl⟩ := List.mem_map.mp hx
    rfl
  rw [this]
  simp

/-- Defect: the days of a period before its first own fixing are silently left out of the product, yet counted in the
number of days, whatever fixings precede the period. -/
theorem C32_leading_days_omitted (basis : DayCountBasis) (n : Int) (hb : basis.daysPerYear = some n)
    (fixings : List (Int × Rat)) (starts ends : List Int) (r : List NRat)
    (h : getCouponRates basis fixings starts ends .dailyCompounded = .ok r) (i : Nat) (s e t0 : Int)
    (hs : starts[i]? = some s) (he : ends[i]? = some e) (ht : s ≤ t0) (hte : t0 < e) (x0 : Rat)
    (h0 : (t0, x0) ∈ fixings) (hgap : ∀ p ∈ fixings, s ≤ p.1 → t0 ≤ p.1) :
    ∃ f : Int → Rat, (∀ d, t0 ≤ d → d < e → Latest fixings d (f d)) ∧
      r[i]? = some (some ((dayProduct (fun d => 1 + f d / n) t0 (e - t0).toNat - 1) * n / ((e - s : Int) : Rat))) := by
  have hsm := List.mem_of_getElem? hs
  have hem := List.mem_of_getElem? he
  let w := windowOf fixings starts ends s e
  have hlat : ∀ d, t0 ≤ d → d < e → ∃ x, (asofAdvance d w none).2 = some x ∧ Latest fixings d x := by
    intro d h1 h2
    have hsorted := windowOf_sorted fixings starts ends s e
    have has := asof_none hsorted d
    cases hx : (asofAdvance d (windowOf fixings starts ends s e) none).2 with
    | none =>
      rw [hx] at has
      have := has (t0, x0) ((mem_windowOf hsm hem _).mpr ⟨h0, ht, hte⟩)
      simp only at this
      omega
    | some x =>
      rw [hx] at has
      obtain ⟨pre, t, post, hw, htd, hpost⟩ := has
      refine ⟨x, rfl, t, ?_, htd, ?_⟩
      · exact ((mem_windowOf hsm hem (t, x)).mp (by rw [hw]; simp)).1
      · intro p hp hpd
        have hts := ((mem_windowOf hsm hem (t, x)).mp (by rw [hw]; simp)).2.1
        by_cases hps : s ≤ p.1
        · have hmem := (mem_windowOf hsm hem p).mpr ⟨hp, hps, by omega⟩
          rw [hw] at hmem hsorted
          rw [List.pairwise_map, List.pairwise_append] at hsorted
          rcases List.mem_append.mp hmem with h | h
          · exact hsorted.2.2 p h (t, x) (by simp)
          · rcases List.mem_cons.mp h with h | h
            · rw [h]
            · have := hpost p h; omega
        · simp only at hts; omega
  have hnone : ∀ d, d < t0 → (asofAdvance d w none).2 = none := by
    intro d hd
    apply asofAdvance_snd_of_later
    intro p hp
    have := (mem_windowOf hsm hem p).mp hp
    have := hgap p this.1 this.2.1
    omega
  refine ⟨fun d => ((asofAdvance d w none).2).getD 0, ?_, ?_⟩
  · intro d h1 h2
    obtain ⟨x, hx, hl⟩ := hlat d h1 h2
    simp only [hx, Option.getD_some]
    exact hl
  · rw [getCouponRates_get h hs he]
    unfold calculateCouponRate
    simp only [hb]
    have hne : dateRange s (e - 1) ≠ [] := by
      intro hc
      have := dateRange_length s (e - 1)
      rw [hc] at this
      simp only [List.length_nil] at this
      omega
    rw [if_neg hne]
    have hw : (applicableFixings fixings starts ends).filter (fun f => decide (s ≤ f.1) && decide (f.1 ≤ e - 1)) = w := rfl
    rw [hw, asofLoop_eq _ _ _ (dateRange_sorted s (e - 1)), dateRange_length]
    have hv : List.filterMap id ((dateRange s (e - 1)).map (fun d => (asofAdvance d w none).2)) =
        (dateRange t0 (e - 1)).map (fun d => ((asofAdvance d w none).2).getD 0) := by
      rw [dateRange_append ht (by omega), List.map_append, List.filterMap_append]
      have : List.filterMap id ((dateRange s (t0 - 1)).map (fun d => (asofAdvance d w none).2)) = [] := by
        rw [List.filterMap_eq_nil_iff]
        intro x hx
        obtain ⟨d, hd, rfl⟩ := List.mem_map.mp hx
        exact hnone d (by have := mem_dateRange.mp hd; omega)
      rw [this, List.nil_append]
      apply filterMap_map_getD _ (fun d => (asofAdvance d w none).2)
      intro d hd
      obtain ⟨h1, h2⟩ := mem_dateRange.mp hd
      obtain ⟨x, hx, -⟩ := hlat d h1 (by omega)
      rw [hx]; rfl
    rw [hv, List.map_map]
    have e1 : (e - 1 - s + 1).toNat = (e - s).toNat := by congr 1; omega
    have e3 : (e - 1 - t0 + 1).toNat = (e - t0).toNat := by congr 1; omega
    have e2 : (((e - s).toNat : Nat) : Rat) = ((e - s : Int) : Rat) := by
      have : (((e - s).toNat : Nat) : Int) = e - s := by omega
      exact_mod_cast this
    rw [e1, e2]
    unfold dateRange
    rw [e3, List.map_map]
    congr 5
    exact dayProduct_eq (fun d => 1 + ((asofAdvance d w none).2).getD 0 / (n : Rat)) t0 (e - t0).toNat

/-- The property fails at the beginning of a period: with a fixing on day 8 only, the period [5, 9) is accepted and the
three uncovered days earn nothing. -/
theorem C32_fails_start :
    getCouponRates .act_360 [(8, 36 / 100)] [5] [9] .dailyCompounded = .ok [some (36 / 100 / 4)] := by decide +kernel

/-- It fails without any fixing: the period [5, 9) gets the rate zero. -/
theorem C32_fails_empty : getCouponRates .act_360 [(20, 36 / 100)] [5] [9] .dailyCompounded = .ok [some 0] := by
  decide +kernel

/-- A covered period is rejected: Friday to Monday with Friday's fixing, which is in force over the weekend. -/
theorem C32_rejects_covered :
    getCouponRates .act_360 [(5, 36 / 100), (8, 36 / 100)] [5] [8] .dailyCompounded = .error .value := by decide +kernel

/-- Hypotheses of `C32_raises_iff_partial` and `C32_end_partial`. -/
example : ([5, 7] : List Int).min? = some 5 ∧ ([7, 9] : List Int).min? = some 7 ∧ ([7, 9] : List Int).max? = some 9 ∧
    (∃ p ∈ [((6 : Int), (1 : Rat))], 5 ≤ p.1 ∧ p.1 < 9) ∧ ∀ p ∈ [((6 : Int), (1 : Rat))], p.1 ≠ 9 - 1 := by
  refine ⟨rfl, rfl, rfl, ⟨(6, 1), by simp, by omega, by omega⟩, ?_⟩
  intro p hp
  simp only [List.mem_singleton] at hp
  rw [hp]
  decide

end Frm.Props
