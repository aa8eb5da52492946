import Mathlib.Tactic.FieldSimp
import Mathlib.Tactic.Ring
import Verif.Props.C32
import Verif.Props.C11

/-! # C33 — RFR swap-curve fixings -/

namespace Frm
open Spec

set_option autoImplicit false

/-- Writing through a mask: selected positions get the value computed for them, others are kept. -/
theorem maskedSet_get {α : Type} (P : Int → Int → α → Prop) (mask : List Bool) (starts ends : List Int) (out v : List α)
    (h1 : mask.length = starts.length) (h2 : ends.length = starts.length) (h3 : out.length = starts.length)
    (hv : ∀ (k : Nat) (s e : Int), (gather mask starts)[k]? = some s → (gather mask ends)[k]? = some e →
      ∃ x, v[k]? = some x ∧ P s e x) (i : Nat) (s e : Int) (hs : starts[i]? = some s) (he : ends[i]? = some e) :
    (mask[i]? = some true → ∃ x, (maskedSet mask out v)[i]? = some x ∧ P s e x) ∧
    (mask[i]? = some false → (maskedSet mask out v)[i]? = out[i]?) := by
  induction mask generalizing starts ends out v i with
  | nil => simp
  | cons b mask ih =>
    cases starts with
    | nil => simp at h1
    | cons s0 starts =>
    cases ends with
    | nil => simp at h2
    | cons e0 ends =>
    cases out with
    | nil => simp at h3
    | cons o out =>
    simp only [List.length_cons, Nat.add_right_cancel_iff] at h1 h2 h3
    cases b with
    | true =>
      obtain ⟨x0, hx0, hP0⟩ := hv 0 s0 e0 rfl rfl
      cases v with
      | nil => simp at hx0
      | cons x v =>
      simp only [List.getElem?_cons_zero, Option.some.injEq] at hx0
      subst hx0
      cases i with
      | zero =>
        simp only [List.getElem?_cons_zero, Option.some.injEq] at hs he
        subst hs he
        exact ⟨fun _ => ⟨x, rfl, hP0⟩, fun h => by simp at h⟩
      | succ i =>
        simp only [List.getElem?_cons_succ] at hs he
        have := ih starts ends out v h1 h2 h3 (fun k s e hs he => hv (k + 1) s e hs he) i hs he
        simpa [maskedSet] using this
    | false =>
      cases i with
      | zero =>
        refine ⟨fun h => by simp at h, fun _ => by simp [maskedSet]⟩
      | succ i =>
        simp only [List.getElem?_cons_succ] at hs he
        have := ih starts ends out v h1 h2 h3 (fun k s e hs he => hv k s e hs he) i hs he
        simpa [maskedSet] using this

/-- The position in the batch of a selected entry, which value it gets, and when it is the last of the batch. -/
theorem maskedSet_pos {α : Type} (mask : List Bool) (starts ends : List Int) (out v : List α)
    (h1 : mask.length = starts.length) (h2 : ends.length = starts.length) (h3 : out.length = starts.length)
    (i : Nat) (s e : Int) (hs : starts[i]? = some s) (he : ends[i]? = some e) (hm : mask[i]? = some true) :
    ∃ k, (gather mask starts)[k]? = some s ∧ (gather mask ends)[k]? = some e ∧
      (∀ x, v[k]? = some x → (maskedSet mask out v)[i]? = some x) ∧
      ((gather mask starts).length ≤ k + 1 ↔ ∀ j : Nat, i < j → mask[j]? ≠ some true) := by
  induction mask generalizing starts ends out v i with
  | nil => simp at hm
  | cons b mask ih =>
    cases starts with
    | nil => simp at h1
    | cons s0 starts =>
    cases ends with
    | nil => simp at h2
    | cons e0 ends =>
    cases out with
    | nil => simp at h3
    | cons o out =>
    simp only [List.length_cons, Nat.add_right_cancel_iff] at h1 h2 h3
    have shift : ∀ i : Nat, (∀ j, i + 1 < j → (b :: mask)[j]? ≠ some true) ↔ ∀ j, i < j → mask[j]? ≠ some true := by
      intro i
      constructor
      · intro h j hj; simpa using h (j + 1) (by omega)
      · intro h j hj
        cases j with
        | zero => omega
        | succ j => simpa using h j (by omega)
    cases i with
    | zero =>
      simp only [List.getElem?_cons_zero, Option.some.injEq] at hs he hm
      subst hs he hm
      refine ⟨0, rfl, rfl, ?_, ?_⟩
      · intro x hx
        cases v with
        | nil => simp at hx
        | cons y v => simpa [maskedSet] using hx
      · simp only [gather, List.length_cons]
        have hlen : (gather mask starts).length = 0 ↔ ∀ j : Nat, mask[j]? ≠ some true := by
          clear ih shift h2 h3
          induction mask generalizing starts with
          | nil => cases starts <;> simp [gather]
          | cons c mask ih =>
            cases starts with
            | nil => simp at h1
            | cons s starts =>
              simp only [List.length_cons, Nat.add_right_cancel_iff] at h1
              cases c with
              | true => simp only [gather, List.length_cons]; exact ⟨fun h => by omega, fun h => absurd rfl (h 0)⟩
              | false =>
                simp only [gather]
                rw [ih starts h1]
                constructor
                · intro h j; cases j <;> simp [h]
                · intro h j; simpa using h (j + 1)
        constructor
        · intro h j hj
          cases j with
          | zero => omega
          | succ j => simpa using hlen.mp (by omega) j
        · intro h
          have := hlen.mpr (fun j => by simpa using h (j + 1) (by omega))
          omega
    | succ i =>
      simp only [List.getElem?_cons_succ] at hs he hm
      cases b with
      | true =>
        cases v with
        | nil =>
          obtain ⟨k, k1, k2, -, k4⟩ := ih starts ends out [] h1 h2 h3 i hs he hm
          refine ⟨k + 1, by simpa [gather] using k1, by simpa [gather] using k2, by simp, ?_⟩
          rw [shift, ← k4]; simp [gather]
        | cons y v =>
          obtain ⟨k, k1, k2, k3, k4⟩ := ih starts ends out v h1 h2 h3 i hs he hm
          refine ⟨k + 1, by simpa [gather] using k1, by simpa [gather] using k2, ?_, ?_⟩
          · intro x hx; simpa [maskedSet] using k3 x (by simpa using hx)
          · rw [shift, ← k4]; simp [gather]
      | false =>
        obtain ⟨k, k1, k2, k3, k4⟩ := ih starts ends out v h1 h2 h3 i hs he hm
        refine ⟨k, by simpa [gather] using k1, by simpa [gather] using k2, ?_, ?_⟩
        · intro x hx; simpa [maskedSet] using k3 x hx
        · rw [shift, ← k4]; simp [gather]

theorem maskedSet_length {α : Type} (mask : List Bool) (out v : List α) : (maskedSet mask out v).length = out.length := by
  induction mask generalizing out v with
  | nil => cases out <;> cases v <;> rfl
  | cons b mask ih =>
    cases out with
    | nil => cases b <;> rfl
    | cons o out =>
      cases b with
      | true => cases v with
        | nil => rfl
        | cons x v => simp [maskedSet, ih]
      | false => simp [maskedSet, ih]

theorem maskedBlock_get {α : Type} {P : Int → Int → α → Prop} {mask : List Bool} {starts ends : List Int} {out out' : List α}
    {rates : List Int → List Int → Except Err (List α)} (h : maskedBlock mask starts ends out rates = .ok out')
    (h1 : mask.length = starts.length) (h2 : ends.length = starts.length) (h3 : out.length = starts.length)
    (hv : ∀ v, rates (gather mask starts) (gather mask ends) = .ok v → ∀ (k : Nat) (s e : Int),
      (gather mask starts)[k]? = some s → (gather mask ends)[k]? = some e → ∃ x, v[k]? = some x ∧ P s e x) :
    out'.length = starts.length ∧ ∀ (i : Nat) (s e : Int), starts[i]? = some s → ends[i]? = some e →
      (mask[i]? = some true → ∃ x, out'[i]? = some x ∧ P s e x) ∧ (mask[i]? = some false → out'[i]? = out[i]?) := by
  unfold maskedBlock at h
  by_cases ha : mask.any id = true
  · rw [if_pos ha] at h
    cases hr : rates (gather mask starts) (gather mask ends) with
    | error _ => rw [hr] at h; cases h
    | ok v =>
      rw [hr] at h
      simp only [Except.map, Except.ok.injEq] at h
      subst h
      refine ⟨by rw [maskedSet_length, h3], ?_⟩
      intro i s e hs he
      exact maskedSet_get P mask starts ends out v h1 h2 h3 (hv v hr) i s e hs he
  · rw [if_neg ha] at h
    simp only [Except.ok.injEq] at h
    subst h
    refine ⟨h3, ?_⟩
    intro i s e _ _
    refine ⟨?_, fun _ => rfl⟩
    intro hm
    exfalso
    apply ha
    rw [List.any_eq_true]
    exact ⟨true, List.mem_of_getElem? hm, rfl⟩

theorem maskedBlock_pos {α : Type} {mask : List Bool} {starts ends : List Int} {out out' : List α}
    {rates : List Int → List Int → Except Err (List α)} (h : maskedBlock mask starts ends out rates = .ok out')
    (h1 : mask.length = starts.length) (h2 : ends.length = starts.length) (h3 : out.length = starts.length)
    (i : Nat) (s e : Int) (hs : starts[i]? = some s) (he : ends[i]? = some e) (hm : mask[i]? = some true) :
    ∃ v k, rates (gather mask starts) (gather mask ends) = .ok v ∧ (gather mask starts)[k]? = some s ∧
      (gather mask ends)[k]? = some e ∧ (∀ x, v[k]? = some x → out'[i]? = some x) ∧
      ((gather mask starts).length ≤ k + 1 ↔ ∀ j : Nat, i < j → mask[j]? ≠ some true) := by
  unfold maskedBlock at h
  rw [if_pos (List.any_eq_true.mpr ⟨true, List.mem_of_getElem? hm, rfl⟩)] at h
  cases hr : rates (gather mask starts) (gather mask ends) with
  | error _ => rw [hr] at h; cases h
  | ok v =>
    rw [hr] at h
    simp only [Except.map, Except.ok.injEq] at h
    subst h
    obtain ⟨k, k1, k2, k3, k4⟩ := maskedSet_pos mask starts ends out v h1 h2 h3 i s e hs he hm
    exact ⟨v, k, rfl, k1, k2, k3, k4⟩

theorem gather_same (mask : List Bool) (starts ends : List Int) (h1 : mask.length = starts.length)
    (h2 : ends.length = starts.length) : (gather mask starts).length = (gather mask ends).length := by
  induction mask generalizing starts ends with
  | nil => cases starts <;> cases ends <;> simp_all [gather]
  | cons b mask ih =>
    cases starts with
    | nil => simp at h1
    | cons s starts =>
      cases ends with
      | nil => simp at h2
      | cons e ends =>
        simp only [List.length_cons, Nat.add_right_cancel_iff] at h1 h2
        cases b <;> simp [gather, ih starts ends h1 h2]

theorem gather_index {α : Type} (mask : List Bool) (l : List α) (k : Nat) (x : α) (h : (gather mask l)[k]? = some x) :
    ∃ i : Nat, mask[i]? = some true ∧ l[i]? = some x := by
  induction mask generalizing l k with
  | nil => cases l <;> simp [gather] at h
  | cons b mask ih =>
    cases l with
    | nil => cases b <;> simp [gather] at h
    | cons y l =>
      cases b with
      | true =>
        cases k with
        | zero => exact ⟨0, rfl, by simpa [gather] using h⟩
        | succ k =>
          obtain ⟨i, h1, h2⟩ := ih l k (by simpa [gather] using h)
          exact ⟨i + 1, h1, h2⟩
      | false =>
        obtain ⟨i, h1, h2⟩ := ih l k (by simpa [gather] using h)
        exact ⟨i + 1, h1, h2⟩

/-! ### Batch independence of the historical rates -/

/-- The rate of one period, from the fixings of its own days. -/
def ownRate (basis : DayCountBasis) (fixings : List (Int × Rat)) (method : RFRFixingCalcMethod) (s e : Int) : NRat :=
  calculateCouponRate basis.daysPerYear s (e - 1) (sortBy (·.1) fixings) method

theorem calculateCouponRate_congr (n : Option Int) (s e : Int) (f g : List (Int × Rat)) (m : RFRFixingCalcMethod)
    (h : f.filter (fun f => decide (s ≤ f.1) && decide (f.1 ≤ e)) = g.filter (fun f => decide (s ≤ f.1) && decide (f.1 ≤ e))) :
    calculateCouponRate n s e f m = calculateCouponRate n s e g m := by
  unfold calculateCouponRate
  rw [h]

theorem sorted_unique {a b : List (Int × Rat)} (hp : a.Perm b) (ha : a.Pairwise (fun x y => x.1 ≤ y.1))
    (hb : b.Pairwise (fun x y => x.1 ≤ y.1)) (hone : OnePerDate a) : a = b := by
  refine List.Perm.eq_of_pairwise (le := fun x y => x.1 ≤ y.1) ?_ ha hb hp
  intro x y hx hy h1 h2
  have hy' : y ∈ a := hp.symm.subset hy
  by_contra hne
  have : ∀ x ∈ a, ∀ y ∈ a, x ≠ y → x.1 ≠ y.1 := by
    have h1 : a.Pairwise (fun x y => x ≠ y → x.1 ≠ y.1) :=
      List.Pairwise.imp (R := fun (x y : Int × Rat) => x.1 ≠ y.1) (by intro x y h _; exact h) hone
    have h2 : a.Pairwise (flip (fun x y => x ≠ y → x.1 ≠ y.1)) :=
      List.Pairwise.imp (R := fun (x y : Int × Rat) => x.1 ≠ y.1) (by intro x y h _ hc; exact h hc.symm) hone
    intro x hx y hy hxy
    exact List.Pairwise.forall_of_forall_of_flip (R := fun x y => x ≠ y → x.1 ≠ y.1) (fun x _ h => absurd rfl h)
      h1 h2 hx hy hxy
  exact this x hx y hy' hne (by omega)

theorem onePerDate_perm {a b : List (Int × Rat)} (h : OnePerDate a) (hp : a.Perm b) : OnePerDate b :=
  hp.pairwise h (fun h hc => h hc.symm)

theorem getCouponRates_own {basis : DayCountBasis} {fixings : List (Int × Rat)} {method : RFRFixingCalcMethod}
    (hone : OnePerDate fixings) :
    PeriodByPeriod (fun s e => getCouponRates basis fixings s e method) (ownRate basis fixings method) := by
  intro S E v h k s e hs he
  rw [Props.getCouponRates_get h hs he]
  unfold ownRate
  congr 1
  apply calculateCouponRate_congr
  have hsm := List.mem_of_getElem? hs
  have hem := List.mem_of_getElem? he
  have hw := windowOf_perm (fixings := fixings) hsm hem
  change windowOf fixings S E s e = _
  have hp : (windowOf fixings S E s e).Perm
      ((sortBy (·.1) fixings).filter (fun f => decide (s ≤ f.1) && decide (f.1 ≤ e - 1))) := by
    refine hw.trans ?_
    refine (List.Perm.of_eq ?_).trans ((sortBy_perm (·.1) fixings).symm.filter _)
    apply List.filter_congr
    intro p _
    rw [Bool.eq_iff_iff]
    simp only [Bool.and_eq_true, decide_eq_true_eq]
    omega
  refine sorted_unique hp (List.pairwise_map.mp (windowOf_sorted fixings S E s e)) ((sortBy_sorted _ _).filter _) ?_
  have : OnePerDate (fixings.filter (fun f => decide (s ≤ f.1) && decide (f.1 < e))) := hone.filter _
  exact onePerDate_perm this hw.symm

/-! ### Year fractions against one date -/

/-- One pair of a batch: the last one ends on the termination date. -/
theorem yearFrac_get_flag {S E : List Int} {b : DayCountBasis} {r : List Rat}
    (h : yearFrac S E b none = .ok r) {k : Nat} {s e : Int} (hs : (sameShape S E).1[k]? = some s)
    (he : (sameShape S E).2[k]? = some e) : s ≤ e ∧
      ∃ y, yearFrac [s] [e] b (some [decide ((sameShape S E).2.length ≤ k + 1)]) = .ok [y] ∧ r[k]? = some y := by
  have hz : ((sameShape S E).1.zip (sameShape S E).2)[k]? = some (s, e) := List.getElem?_zip_eq_some.mpr ⟨hs, he⟩
  have hord : checkOrder (sameShape S E).1 (sameShape S E).2 = .ok () → s ≤ e := by
    intro hc
    unfold checkOrder pyAssert at hc
    split at hc
    · cases hc
    · split at hc
      · rename_i hall
        have := List.all_eq_true.mp hall (s, e) (List.mem_of_getElem? hz)
        simpa using this
      · cases hc
  cases hc : checkOrder (sameShape S E).1 (sameShape S E).2 with
  | error err =>
    exfalso
    unfold yearFrac dayCount at h
    cases b <;> simp [hc, Except.map] at h
  | ok u =>
    cases u
    have hse := hord hc
    refine ⟨hse, ?_⟩
    have hk : k < (sameShape S E).2.length := (List.getElem?_eq_some_iff.mp he).1
    have hfl : (defaultTermination (sameShape S E).2.length)[k]? = some (decide ((sameShape S E).2.length ≤ k + 1)) := by
      unfold defaultTermination
      rw [List.getElem?_map, List.getElem?_range hk]
      simp only [Option.map_some, Option.some.injEq]
      rw [Bool.eq_iff_iff]
      simp
    unfold yearFrac dayCount at h
    unfold yearFrac dayCount
    rw [sameShape_single]
    simp only [checkOrder_single, if_pos hse]
    cases b <;> simp only [hc, Except.map, Except.ok.injEq] at h ⊢ <;> subst h
    case b30E_360_ISDA =>
      have : (((sameShape S E).1.zip (sameShape S E).2).zip (defaultTermination (sameShape S E).2.length))[k]? =
          some ((s, e), decide ((sameShape S E).2.length ≤ k + 1)) := List.getElem?_zip_eq_some.mpr ⟨hz, hfl⟩
      simp only [List.getElem?_map, this, Option.map_some, List.zip_cons_cons, List.zip_nil_right, List.map_cons,
        List.map_nil]
      exact ⟨_, rfl, rfl⟩
    all_goals
      simp only [List.getElem?_map, hz, Option.map_some, List.zip_cons_cons, List.zip_nil_right, List.map_cons,
        List.map_nil]
      exact ⟨_, rfl, rfl⟩

/-- The flag matters only for the last day of February under 30E/360 ISDA. -/
theorem yearFrac_flag {b : DayCountBasis} {s e : Int} {t : Bool} (hb : Plain b e ∨ t = true) :
    yearFrac [s] [e] b (some [t]) = yearFrac [s] [e] b none := by
  unfold yearFrac dayCount
  cases b <;> try rfl
  simp only [sameShape_single, checkOrder_single]
  by_cases hse : s ≤ e
  · rw [if_pos hse]
    simp only [Except.map, List.length_cons, List.length_nil, defaultTermination, Nat.zero_add, Nat.sub_self, List.range_one,
      List.map_cons, List.map_nil, List.zip_cons_cons, List.zip_nil_right, Nat.lt_irrefl, decide_false, Bool.not_false]
    rcases hb with hb | rfl
    · have : isLastDayOfFeb e = false := by
        rw [Bool.eq_false_iff]
        exact fun hc => hb rfl ((isLastDayOfFeb_iff e).mp hc)
      unfold count30E_360_ISDA
      simp only [this, Bool.false_and, Bool.or_false]
    · rfl
  · rw [if_neg hse]

theorem yearFrac_get {S E : List Int} {b : DayCountBasis} {r : List Rat}
    (h : yearFrac S E b none = .ok r) {k : Nat} {s e : Int} (hb : Plain b e) (hs : (sameShape S E).1[k]? = some s)
    (he : (sameShape S E).2[k]? = some e) : ∃ y, yearFrac [s] [e] b none = .ok [y] ∧ r[k]? = some y := by
  obtain ⟨-, y, hy, hr⟩ := yearFrac_get_flag h hs he
  exact ⟨y, by rw [← hy, yearFrac_flag (.inl hb)], hr⟩

theorem sameShape_right (S : List Int) (c : Int) (k : Nat) (s : Int) (hs : S[k]? = some s) :
    (sameShape S [c]).1[k]? = some s ∧ (sameShape S [c]).2[k]? = some c := by
  match S, hs with
  | [], hs => simp at hs
  | [x], hs =>
    cases k with
    | zero => simpa [sameShape] using hs
    | succ k => simp at hs
  | x :: y :: l, hs =>
    have hk : k < (x :: y :: l).length := (List.getElem?_eq_some_iff.mp hs).1
    refine ⟨hs, ?_⟩
    change (List.replicate (x :: y :: l).length c)[k]? = some c
    rw [List.getElem?_replicate, if_pos hk]

theorem sameShape_left (E : List Int) (c : Int) (k : Nat) (e : Int) (he : E[k]? = some e) :
    (sameShape [c] E).1[k]? = some c ∧ (sameShape [c] E).2[k]? = some e := by
  match E, he with
  | [], he => simp at he
  | [x], he =>
    cases k with
    | zero => simpa [sameShape] using he
    | succ k => simp at he
  | x :: y :: l, he =>
    have hk : k < (x :: y :: l).length := (List.getElem?_eq_some_iff.mp he).1
    refine ⟨?_, he⟩
    change (List.replicate (x :: y :: l).length c)[k]? = some c
    rw [List.getElem?_replicate, if_pos hk]

theorem sameShape_right_length (S : List Int) (c : Int) (h : S ≠ []) : (sameShape S [c]).2.length = S.length := by
  match S with
  | [] => exact absurd rfl h
  | [x] => rfl
  | x :: y :: l => simp [sameShape]

theorem sameShape_left_length (E : List Int) (c : Int) : (sameShape [c] E).2.length = E.length := by
  match E with
  | [] => rfl
  | [x] => rfl
  | x :: y :: l => rfl

theorem maskedSet_false {α : Type} (mask : List Bool) (out v : List α) (i : Nat) (h : mask[i]? = some false) :
    (maskedSet mask out v)[i]? = out[i]? := by
  induction mask generalizing out v i with
  | nil => simp at h
  | cons b mask ih =>
    cases out with
    | nil => cases b <;> rfl
    | cons o out =>
      cases i with
      | zero =>
        simp only [List.getElem?_cons_zero, Option.some.injEq] at h
        subst h
        rfl
      | succ i =>
        simp only [List.getElem?_cons_succ] at h
        cases b with
        | true =>
          cases v with
          | nil => rfl
          | cons x v => simpa [maskedSet] using ih out v i h
        | false => simpa [maskedSet] using ih out v i h

end Frm

namespace Frm.Props
open Spec

set_option autoImplicit false

/-- What a period's rate must be, given its historical rate `H`, forward rate `F` and curve date. -/
def RfrRate (basis : DayCountBasis) (curveDate : Int) (H F : Int → Int → NRat) (s e : Int) (x : NRat) : Prop :=
  (e ≤ curveDate → x = H s e) ∧
  (curveDate ≤ s → x = F s e) ∧
  (s < curveDate → curveDate < e → ∃ hy fy, yearFrac [s] [curveDate] basis none = .ok [hy] ∧
    yearFrac [curveDate] [e] basis none = .ok [fy] ∧
    ∀ h f, H s curveDate = some h → F curveDate e = some f → hy + fy ≠ 0 →
      ∃ y, x = some y ∧ 1 + (hy + fy) * y = (1 + hy * h) * (1 + fy * f))

/-- The crossover rate accrues, over the whole period, the historical accrual compounded with the forward accrual. -/
theorem C33_crossover (hy h fy f : Rat) (hne : hy + fy ≠ 0) :
    1 + (hy + fy) * crossoverRate hy h fy f = (1 + hy * h) * (1 + fy * f) := by
  unfold crossoverRate
  field_simp
  ring

/-- The straddling period number `i` is the last one of the call. -/
def LastStraddling (curveDate : Int) (starts ends : List Int) (i : Nat) : Prop :=
  ∀ (j : Nat) (s e : Int), i < j → starts[j]? = some s → ends[j]? = some e → ¬ (s < curveDate ∧ curveDate < e)

/-- Every period of positive length gets exactly one of the three rates, decided by its position relative to the curve
date.  For every basis and every forward curve, even one whose rates depend on the other periods of the call (`F` says what
they can be).  The last straddling period counts as ending on a termination date, which matters for the last day of February
under 30E/360 ISDA only. -/
theorem C33_partition_any (basis : DayCountBasis) (curveDate : Int)
    (forward : List Int → List Int → Except Err (List NRat)) (F : Int → Int → NRat → Prop)
    (hF : ∀ (S E : List Int) (v : List NRat), forward S E = .ok v →
      ∀ (k : Nat) (s e : Int), S[k]? = some s → E[k]? = some e → ∃ x, v[k]? = some x ∧ F s e x)
    (fixings : List (Int × Rat)) (hone : OnePerDate fixings) (starts ends : List Int) (hlen : ends.length = starts.length)
    (hpos : ∀ (i : Nat) (s e : Int), starts[i]? = some s → ends[i]? = some e → s < e)
    (method : RFRFixingCalcMethod) (r : List NRat)
    (h : rfrGetFixings basis curveDate forward fixings starts ends method = .ok r) :
    r.length = starts.length ∧ ∀ (i : Nat) (s e : Int), starts[i]? = some s → ends[i]? = some e →
      ∃ x, r[i]? = some x ∧
        (e ≤ curveDate → x = ownRate basis fixings method s e) ∧
        (curveDate ≤ s → F s e x) ∧
        (s < curveDate → curveDate < e → ∃ (last : Bool) (hy fy : Rat) (f' : NRat),
          (last = true ↔ LastStraddling curveDate starts ends i) ∧
          yearFrac [s] [curveDate] basis (some [last]) = .ok [hy] ∧
          yearFrac [curveDate] [e] basis (some [last]) = .ok [fy] ∧ F curveDate e f' ∧
          x = crossoverRateN hy (ownRate basis fixings method s curveDate) fy f' ∧
          ∀ h f, ownRate basis fixings method s curveDate = some h → f' = some f → hy + fy ≠ 0 →
            ∃ y, x = some y ∧ 1 + (hy + fy) * y = (1 + hy * h) * (1 + fy * f)) := by
  unfold rfrGetFixings at h
  simp only [bind, Except.bind] at h
  set m1 := starts.map (fun s => decide (curveDate ≤ s)) with hm1
  set m2 := ends.map (fun e => decide (e ≤ curveDate)) with hm2
  set m3 := (starts.zip ends).map (fun p => decide (p.1 < curveDate) && decide (curveDate < p.2)) with hm3
  cases h1 : maskedBlock m1 starts ends (List.replicate starts.length none) forward with
  | error _ => rw [h1] at h; cases h
  | ok out1 =>
  rw [h1] at h
  simp only at h
  cases h2 : maskedBlock m2 starts ends out1 (fun s e => getCouponRates basis fixings s e method) with
  | error _ => rw [h2] at h; cases h
  | ok out2 =>
  rw [h2] at h
  simp only at h
  have l1 : m1.length = starts.length := by simp [hm1]
  have l2 : m2.length = starts.length := by simp [hm2, hlen]
  have l3 : m3.length = starts.length := by simp [hm3, hlen]
  obtain ⟨k1, g1⟩ := maskedBlock_get (P := F) h1 l1 hlen (by simp) (fun v hv k s e hs he => hF _ _ v hv k s e hs he)
  obtain ⟨k2, g2⟩ := maskedBlock_get (P := fun s e x => x = ownRate basis fixings method s e) h2 l2 hlen k1
    (fun v hv k s e hs he => ⟨_, getCouponRates_own hone _ _ v hv k s e hs he, rfl⟩)
  have k3 : r.length = starts.length := by
    unfold maskedBlock at h
    split at h
    · beta_reduce at h
      cases hr : crossoverCouponRates basis curveDate forward fixings (gather m3 starts) (gather m3 ends) method with
      | error _ => rw [hr] at h; cases h
      | ok v =>
        rw [hr] at h
        simp only [Except.map, Except.ok.injEq] at h
        rw [← h, maskedSet_length, k2]
    · simp only [Except.ok.injEq] at h
      rw [← h, k2]
  have g3 : ∀ i : Nat, m3[i]? = some false → r[i]? = out2[i]? := by
    intro i hi
    unfold maskedBlock at h
    split at h
    · beta_reduce at h
      cases hr : crossoverCouponRates basis curveDate forward fixings (gather m3 starts) (gather m3 ends) method with
      | error _ => rw [hr] at h; cases h
      | ok v =>
        rw [hr] at h
        simp only [Except.map, Except.ok.injEq] at h
        rw [← h]
        exact maskedSet_false m3 out2 v i hi
    · simp only [Except.ok.injEq] at h
      rw [← h]
  refine ⟨k3, ?_⟩
  intro i s e hs he
  have hse := hpos i s e hs he
  have v1 : m1[i]? = some (decide (curveDate ≤ s)) := by simp only [hm1, List.getElem?_map, hs, Option.map_some]
  have v2 : m2[i]? = some (decide (e ≤ curveDate)) := by simp only [hm2, List.getElem?_map, he, Option.map_some]
  have v3 : ∀ (j : Nat) (s e : Int), starts[j]? = some s → ends[j]? = some e →
      m3[j]? = some (decide (s < curveDate) && decide (curveDate < e)) := by
    intro j s e hs he
    have : (starts.zip ends)[j]? = some (s, e) := List.getElem?_zip_eq_some.mpr ⟨hs, he⟩
    simp only [hm3, List.getElem?_map, this, Option.map_some]
  by_cases c2 : e ≤ curveDate
  · have n3 : m3[i]? = some false := by rw [v3 i s e hs he]; simp; omega
    obtain ⟨x, hx, hP⟩ := (g2 i s e hs he).1 (by rw [v2]; simp [c2])
    refine ⟨x, by rw [g3 i n3, hx], fun _ => hP, fun hc => by omega, fun _ hc => by omega⟩
  · have n2 : m2[i]? = some false := by rw [v2]; simp; omega
    by_cases c1 : curveDate ≤ s
    · have n3 : m3[i]? = some false := by rw [v3 i s e hs he]; simp; omega
      obtain ⟨x, hx, hP⟩ := (g1 i s e hs he).1 (by rw [v1]; simp [c1])
      refine ⟨x, by rw [g3 i n3, (g2 i s e hs he).2 n2, hx], fun hc => by omega, fun _ => hP,
        fun hc => by omega⟩
    · have y3 : m3[i]? = some true := by rw [v3 i s e hs he]; simp; omega
      obtain ⟨v, k, hv, hsk, hek, hvx, hlast⟩ := maskedBlock_pos h l3 hlen k2 i s e hs he y3
      set S := gather m3 starts
      set E := gather m3 ends
      have hSE : S.length = E.length := gather_same m3 starts ends l3 hlen
      simp only [crossoverCouponRates, bind, Except.bind] at hv
      cases hyv : yearFrac S [curveDate] basis none with
      | error _ => rw [hyv] at hv; cases hv
      | ok hyl =>
      rw [hyv] at hv
      simp only at hv
      cases fyv : yearFrac [curveDate] E basis none with
      | error _ => rw [fyv] at hv; cases hv
      | ok fyl =>
      rw [fyv] at hv
      simp only at hv
      cases hhv : getCouponRates basis fixings S (List.replicate S.length curveDate) method with
      | error _ => rw [hhv] at hv; cases hv
      | ok hl =>
      rw [hhv] at hv
      simp only at hv
      cases ffv : forward (List.replicate S.length curveDate) E with
      | error _ => rw [ffv] at hv; cases hv
      | ok fl =>
      rw [ffv] at hv
      simp only [pure, Except.pure, Except.ok.injEq] at hv
      have hk : k < S.length := (List.getElem?_eq_some_iff.mp hsk).1
      have hcd : (List.replicate S.length curveDate)[k]? = some curveDate := by
        rw [List.getElem?_replicate, if_pos hk]
      obtain ⟨-, hy, ehy, ghy⟩ := yearFrac_get_flag hyv (sameShape_right S curveDate k s hsk).1
        (sameShape_right S curveDate k s hsk).2
      obtain ⟨-, fy, efy, gfy⟩ := yearFrac_get_flag fyv (sameShape_left E curveDate k e hek).1
        (sameShape_left E curveDate k e hek).2
      rw [sameShape_right_length S curveDate (by intro hc; rw [hc] at hk; cases hk)] at ehy
      rw [sameShape_left_length, ← hSE] at efy
      have gh := getCouponRates_own hone _ _ hl hhv k s curveDate hsk hcd
      obtain ⟨f', gf, hFf⟩ := hF _ _ fl ffv k curveDate e hcd hek
      have gz : ((hyl.zip hl).zip (fyl.zip fl))[k]? =
          some ((hy, ownRate basis fixings method s curveDate), (fy, f')) :=
        List.getElem?_zip_eq_some.mpr ⟨List.getElem?_zip_eq_some.mpr ⟨ghy, gh⟩, List.getElem?_zip_eq_some.mpr ⟨gfy, gf⟩⟩
      refine ⟨crossoverRateN hy (ownRate basis fixings method s curveDate) fy f', ?_, fun hc => by omega, fun hc => by omega,
        fun _ _ => ⟨_, hy, fy, f', ?_, ehy, efy, hFf, rfl, ?_⟩⟩
      · apply hvx
        rw [← hv]
        simp only [List.getElem?_map, gz, Option.map_some]
      · rw [decide_eq_true_eq, hlast]
        constructor
        · intro hj j s' e' hij hs' he' hc
          exact hj j hij (by rw [v3 j s' e' hs' he']; simp [hc.1, hc.2])
        · intro hj j hij hm
          have hjl : j < starts.length := by
            have := (List.getElem?_eq_some_iff.mp hm).1
            omega
          have hs' := List.getElem?_eq_getElem hjl
          have he' := List.getElem?_eq_getElem (l := ends) (i := j) (by omega)
          rw [v3 j _ _ hs' he'] at hm
          simp only [Option.some.injEq, Bool.and_eq_true, decide_eq_true_eq] at hm
          exact hj j _ _ hij hs' he' hm
      · intro h f hH hFF hne
        rw [hH, hFF]
        exact ⟨crossoverRate hy h fy f, rfl, C33_crossover hy h fy f hne⟩

/-- The same for a forward curve whose rates do not depend on the other periods of the call, and dates around the curve
date other than the last day of February under 30E/360 ISDA: the year fractions are those of the parts alone. -/
theorem C33_partition (basis : DayCountBasis) (curveDate : Int) (hbasis : Plain basis curveDate)
    (forward : List Int → List Int → Except Err (List NRat)) (F : Int → Int → NRat) (hF : PeriodByPeriod forward F)
    (fixings : List (Int × Rat)) (hone : OnePerDate fixings) (starts ends : List Int) (hlen : ends.length = starts.length)
    (hpos : ∀ (i : Nat) (s e : Int), starts[i]? = some s → ends[i]? = some e → s < e)
    (hends : ∀ (i : Nat) (s e : Int), starts[i]? = some s → ends[i]? = some e → s < curveDate → curveDate < e → Plain basis e)
    (method : RFRFixingCalcMethod) (r : List NRat)
    (h : rfrGetFixings basis curveDate forward fixings starts ends method = .ok r) :
    r.length = starts.length ∧ ∀ (i : Nat) (s e : Int), starts[i]? = some s → ends[i]? = some e →
      ∃ x, r[i]? = some x ∧ RfrRate basis curveDate (ownRate basis fixings method) F s e x := by
  obtain ⟨hl, hall⟩ := C33_partition_any basis curveDate forward (fun s e x => x = F s e)
    (fun S E v hv k s e hs he => ⟨F s e, hF S E v hv k s e hs he, rfl⟩) fixings hone starts ends hlen hpos method r h
  refine ⟨hl, ?_⟩
  intro i s e hs he
  obtain ⟨x, hx, p1, p2, p3⟩ := hall i s e hs he
  refine ⟨x, hx, p1, p2, ?_⟩
  intro c1 c2
  obtain ⟨last, hy, fy, f', -, ehy, efy, hf', -, hc⟩ := p3 c1 c2
  rw [yearFrac_flag (.inl hbasis)] at ehy
  rw [yearFrac_flag (.inl (hends i s e hs he c1 c2))] at efy
  refine ⟨hy, fy, ehy, efy, ?_⟩
  intro h f hH hFF hne
  exact hc h f hH (hf'.trans hFF) hne

/-- The historical rate of the partition does not depend on the other periods of the call: it is what the call on the
period alone returns, when that is accepted. -/
theorem C33_historical_alone (basis : DayCountBasis) (fixings : List (Int × Rat)) (hone : OnePerDate fixings)
    (method : RFRFixingCalcMethod) (s e : Int) (r : List NRat)
    (h : getCouponRates basis fixings [s] [e] method = .ok r) : r[0]? = some (ownRate basis fixings method s e) :=
  getCouponRates_own hone _ _ r h 0 s e rfl rfl

/-- Defect: under 30E/360 ISDA the same straddling period ending on the last day of February, asked for twice in one call, gets two
different rates: only the last one counts as ending on a termination date. -/
theorem C33_february :
    ∃ a b : Rat, a ≠ b ∧ rfrGetFixings .b30E_360_ISDA (mkDate 2023 2 3) (fun s _ => .ok (s.map (fun _ => some (2 / 100))))
      [(mkDate 2023 2 1, 36 / 100), (mkDate 2023 2 2, 36 / 100)] [mkDate 2023 2 1, mkDate 2023 2 1]
      [mkDate 2023 2 28, mkDate 2023 2 28] .weightedAverage = .ok [some a, some b] := by
  refine ⟨crossoverRate (2 / 360) (36 / 100) (27 / 360) (2 / 100), crossoverRate (2 / 360) (36 / 100) (25 / 360) (2 / 100), ?_, ?_⟩ <;>
    decide +kernel

/-- Past, straddling and future periods in one call, with a flat forward curve. -/
example : rfrGetFixings .act_360 10 (fun s _ => .ok (s.map (fun _ => some (36 / 100))))
    [(5, 36 / 100), (6, 36 / 100), (7, 36 / 100), (8, 36 / 100), (9, 36 / 100)] [5, 6, 10, 12, 8] [8, 10, 12, 20, 14]
    .weightedAverage = .ok [some (36 / 100), some (36 / 100), some (36 / 100), some (36 / 100),
      some ((2 / 360 * (36 / 100) + (1 + 2 / 360 * (36 / 100)) * (4 / 360) * (36 / 100)) / (2 / 360 + 4 / 360))] := by
  decide +kernel

/-- A flat curve is computed period by period. -/
example : PeriodByPeriod (fun s _ => .ok (s.map (fun _ => some (36 / 100 : Rat)))) (fun _ _ => some (36 / 100)) := by
  intro S E v hv k s e hs he
  simp only [Except.ok.injEq] at hv
  subst hv
  simp only [List.getElem?_map, hs, Option.map_some]

end Frm.Props
