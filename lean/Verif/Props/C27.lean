import Verif.Props.C24

/-! # C27 — Bucketing partitions the flows to come -/

namespace Frm
open Spec

set_option autoImplicit false

theorem nsum_filter_total (flows : List (Option Int × NRat)) (p : Option Int → Bool) (P : Int → Prop) [DecidablePred P]
    (h0 : p none = false) (h : ∀ d, p (some d) = decide (P d)) :
    nsum ((flows.filter (fun f => p f.1)).map (·.2)) = total P flows := by
  induction flows with
  | nil => rfl
  | cons f flows ih =>
    obtain ⟨d, x⟩ := f
    cases d with
    | none => rw [List.filter_cons_of_neg (by simp [h0]), ih]; cases x <;> rfl
    | some d =>
      by_cases hP : P d
      · rw [List.filter_cons_of_pos (by simp [h, hP])]
        cases x with
        | none => rw [List.map_cons, nsum_none, ih]; rfl
        | some x => rw [List.map_cons, nsum_some, ih, total, if_pos hP]
      · rw [List.filter_cons_of_neg (by simp [h, hP]), ih]
        cases x with
        | none => rfl
        | some x => rw [total, if_neg hP, zero_add]

theorem total_congr {P Q : Int → Prop} [DecidablePred P] [DecidablePred Q] (h : ∀ d, P d ↔ Q d)
    (flows : List (Option Int × NRat)) : total P flows = total Q flows := by
  induction flows with
  | nil => rfl
  | cons f flows ih =>
    obtain ⟨d, x⟩ := f
    cases d <;> cases x <;> simp only [total, ih, h]

theorem total_split {P Q R : Int → Prop} [DecidablePred P] [DecidablePred Q] [DecidablePred R]
    (h : ∀ d, P d ↔ Q d ∨ R d) (hd : ∀ d, ¬(Q d ∧ R d)) (flows : List (Option Int × NRat)) :
    total P flows = total Q flows + total R flows := by
  induction flows with
  | nil => simp [total]
  | cons f flows ih =>
    obtain ⟨d, x⟩ := f
    cases d with
    | none => cases x <;> simp only [total, ih]
    | some d =>
      cases x with
      | none => simp only [total, ih]
      | some x =>
        simp only [total, ih]
        by_cases hq : Q d
        · have hr : ¬ R d := fun hr => hd d ⟨hq, hr⟩
          rw [if_pos ((h d).mpr (.inl hq)), if_pos hq, if_neg hr]; ring
        · by_cases hr : R d
          · rw [if_pos ((h d).mpr (.inr hr)), if_neg hq, if_pos hr]; ring
          · rw [if_neg (fun hp => (h d).mp hp |>.elim hq hr), if_neg hq, if_neg hr]; ring

theorem lower_toCome (S : Settings) (d : Int) :
    (if S.includeOnValueDate then decide (S.valueDate ≤ d) else decide (S.valueDate < d)) = decide (ToCome S d) := by
  rw [Bool.eq_iff_iff]
  by_cases hi : S.includeOnValueDate = true
  · simp only [hi, if_true, decide_eq_true_eq, ToCome, true_and]; omega
  · simp [hi, ToCome]

theorem pillar_strict (d : Int) {a b : Int} (h : a < b) : addMonths d (12 * a) < addMonths d (12 * b) :=
  addMonths_strict (by omega)

/-- The loop entry by entry. -/
theorem bucketLoop_get (S : Settings) (flows : List (Option Int × NRat)) (buckets : List Int) :
    ∀ (lower : Option Int → Bool) (P : Int → Prop) [DecidablePred P], (lower none = false) →
      (∀ d, lower (some d) = decide (P d)) → ∀ (i : Nat) (hi : i < buckets.length),
      (bucketLoop S flows lower buckets)[i]? = some (total (fun d =>
        (if i = 0 then P d else addMonths S.valueDate (12 * buckets[i-1]) ≤ d) ∧
          d < addMonths S.valueDate (12 * buckets[i])) flows) := by
  induction buckets with
  | nil => intro _ _ _ _ _ i hi; cases hi
  | cons v vs ih =>
    intro lower P _ h0 h i hi
    cases i with
    | zero =>
      simp only [bucketLoop, List.getElem?_cons_zero, Option.some.injEq, if_true, List.getElem_cons_zero]
      apply nsum_filter_total flows (fun f => lower f && f.any (fun d => decide (d < addMonths S.valueDate (12 * v))))
      · simp
      · intro d; simp [h]
    | succ i =>
      simp only [bucketLoop, List.getElem?_cons_succ]
      rw [ih (fun d => d.any (fun x => decide (addMonths S.valueDate (12 * v) ≤ x)))
        (fun d => addMonths S.valueDate (12 * v) ≤ d) (by simp) (by simp) i (by simpa using hi)]
      congr 1
      apply total_congr
      intro d
      cases i with
      | zero => simp
      | succ i => simp

theorem bucketLoop_length (S : Settings) (flows : List (Option Int × NRat)) (buckets : List Int) :
    ∀ lower, (bucketLoop S flows lower buckets).length = buckets.length := by
  induction buckets with
  | nil => intro _; rfl
  | cons v vs ih => intro lower; simp [bucketLoop, ih]

/-- The loop sums to everything from the lower mask up to the last pillar, when pillars increase. -/
theorem bucketLoop_sum (S : Settings) (flows : List (Option Int × NRat)) (buckets : List Int) :
    ∀ (lower : Option Int → Bool) (P : Int → Prop) [DecidablePred P] (v : Int), lower none = false →
      (∀ d, lower (some d) = decide (P d)) → buckets.Pairwise (· < ·) → buckets.getLast? = some v →
      (∀ w ∈ buckets, ∀ d, addMonths S.valueDate (12 * w) ≤ d → P d) →
      (bucketLoop S flows lower buckets).sum + total (fun d => addMonths S.valueDate (12 * v) ≤ d) flows =
        total P flows := by
  induction buckets with
  | nil => intro _ _ _ _ _ _ _ h; cases h
  | cons w ws ih =>
    intro lower P _ v h0 h hp hv hP
    have hfirst : nsum ((flows.filter (fun f => lower f.1 &&
        f.1.any (fun d => decide (d < addMonths S.valueDate (12 * w))))).map (·.2)) =
        total (fun d => P d ∧ d < addMonths S.valueDate (12 * w)) flows := by
      apply nsum_filter_total flows (fun f => lower f && f.any (fun d => decide (d < addMonths S.valueDate (12 * w))))
      · simp
      · intro d; simp [h]
    simp only [bucketLoop, List.sum_cons, hfirst]
    cases ws with
    | nil =>
      simp only [List.getLast?_singleton, Option.some.injEq] at hv
      subst hv
      simp only [bucketLoop, List.sum_nil, add_zero]
      symm
      apply total_split
      · intro d
        constructor
        · intro hd
          by_cases hl : d < addMonths S.valueDate (12 * w)
          · exact .inl ⟨hd, hl⟩
          · exact .inr (by omega)
        · rintro (⟨hd, -⟩ | hd)
          · exact hd
          · exact hP w (by simp) d hd
      · intro d; omega
    | cons w2 ws =>
      rw [List.getLast?_cons_cons] at hv
      have hp' := List.pairwise_cons.mp hp
      have := ih (fun d => d.any (fun x => decide (addMonths S.valueDate (12 * w) ≤ x)))
        (fun d => addMonths S.valueDate (12 * w) ≤ d) v (by simp) (by simp) hp'.2 hv (by
          intro u hu d hd
          have := pillar_strict S.valueDate (hp'.1 u hu)
          omega)
      rw [add_assoc, this]
      symm
      apply total_split
      · intro d
        constructor
        · intro hd
          by_cases hl : d < addMonths S.valueDate (12 * w)
          · exact .inl ⟨hd, hl⟩
          · exact .inr (by omega)
        · rintro (⟨hd, -⟩ | hd)
          · exact hd
          · exact hP w (by simp) d hd
      · intro d; omega

end Frm

namespace Frm.Props
open Spec

set_option autoImplicit false

/-- The date `v` years after the value date. -/
def pillar (S : Settings) (v : Int) : Int := addMonths S.valueDate (12 * v)

/-- The interval of dates that bucket number `i` is to cover: from the previous pillar (the value date for the first
one) up to, not including, its own pillar; the last one is open-ended. -/
def InBucket (S : Settings) (buckets : List Int) (i : Nat) (d : Int) : Prop :=
  (match i with
    | 0 => ToCome S d
    | j + 1 => ∀ v, buckets[j]? = some v → pillar S v ≤ d) ∧
  (∀ v, buckets[i]? = some v → d < pillar S v)

noncomputable instance (S : Settings) (buckets : List Int) (i : Nat) (d : Int) : Decidable (InBucket S buckets i d) :=
  Classical.propDecidable _

/-- Every bucket's total is the total of the flows dated in its interval. -/
theorem C27_buckets (S : Settings) (flows : List (Option Int × NRat)) (buckets : List Int) (hb : buckets ≠ []) :
    ∃ sums, bucketPayments S flows buckets = .ok sums ∧ sums.length = buckets.length + 1 ∧
      ∀ i, i ≤ buckets.length → sums[i]? = some (total (InBucket S buckets i) flows) := by
  obtain ⟨v, hv⟩ : ∃ v, buckets.getLast? = some v := by
    rw [← Option.isSome_iff_exists]
    simpa using hb
  unfold bucketPayments
  simp only [hv]
  refine ⟨_, rfl, by simp [bucketLoop_length], ?_⟩
  intro i hi
  have hlow : ∀ d, (fun d : Option Int => d.any (fun x =>
      if S.includeOnValueDate then decide (S.valueDate ≤ x) else decide (S.valueDate < x))) (some d) =
      decide (ToCome S d) := fun d => by
    simp only [Option.any_some]; exact lower_toCome S d
  rcases Nat.lt_or_eq_of_le hi with h | h
  · rw [List.getElem?_append_left (by rw [bucketLoop_length]; exact h)]
    rw [bucketLoop_get S flows buckets _ (ToCome S) (by simp) hlow i h]
    congr 1
    apply total_congr
    intro d
    unfold InBucket pillar
    cases i with
    | zero => simp [h]
    | succ i =>
      have h' : i < buckets.length := by omega
      simp [h, h']
  · rw [List.getElem?_append_right (by rw [bucketLoop_length]; omega), bucketLoop_length, h, Nat.sub_self]
    simp only [List.getElem?_cons_zero, Option.some.injEq]
    rw [nsum_filter_total flows (fun f => f.any (fun d => decide (addMonths S.valueDate (12 * v) ≤ d)))
      (fun d => addMonths S.valueDate (12 * v) ≤ d) (by simp) (by simp)]
    apply total_congr
    intro d
    unfold InBucket pillar
    cases hl : buckets.length with
    | zero => rw [List.length_eq_zero_iff] at hl; exact absurd hl hb
    | succ n =>
      rw [List.getLast?_eq_getElem?, hl, Nat.add_sub_cancel] at hv
      simp [hv, ← hl]

/-- For increasing positive pillars every date still to come is in exactly one bucket, and no other date is in any. -/
theorem C27_partition (S : Settings) (buckets : List Int) (hi : buckets.Pairwise (· < ·))
    (hpos : ∀ v ∈ buckets, 0 < v) (d : Int) :
    (ToCome S d → ∃ i, (i ≤ buckets.length ∧ InBucket S buckets i d) ∧
      ∀ j, j ≤ buckets.length → InBucket S buckets j d → j = i) ∧
    (∀ i, i ≤ buckets.length → InBucket S buckets i d → ToCome S d) := by
  have hzero : addMonths S.valueDate 0 = S.valueDate := addMonths_zero _
  have hp : ∀ v ∈ buckets, S.valueDate < pillar S v := by
    intro v hv
    have := pillar_strict S.valueDate (hpos v hv)
    simpa [hzero, pillar] using this
  have hmono : ∀ i j (hij : i < j) (hj : j < buckets.length), pillar S (buckets[i]'(by omega)) < pillar S buckets[j] := by
    intro i j hij hj
    exact pillar_strict S.valueDate (List.pairwise_iff_getElem.mp hi i j (by omega) hj hij)
  constructor
  · intro htc
    -- the number of pillars at or before `d`
    have hex : ∃ i, i ≤ buckets.length ∧ (∀ j (hj : j < buckets.length), j < i → pillar S buckets[j] ≤ d) ∧
        (∀ (h : i < buckets.length), d < pillar S buckets[i]) := by
      by_contra hno
      push Not at hno
      have hall : ∀ i, i ≤ buckets.length → ∀ j (hj : j < buckets.length), j < i → pillar S buckets[j] ≤ d := by
        intro i
        induction i with
        | zero => intro _ j _ h; omega
        | succ i ih =>
          intro hle j hj hji
          rcases Nat.lt_or_eq_of_le (Nat.lt_succ_iff.mp hji) with h | h
          · exact ih (by omega) j hj h
          · subst h
            obtain ⟨h1, h2⟩ := hno j (by omega) (fun k hk hkj => ih (by omega) k hk hkj)
            exact h2
      obtain ⟨h1, -⟩ := hno buckets.length (le_refl _) (fun j hj _ => hall buckets.length (le_refl _) j hj hj)
      omega
    obtain ⟨i, hile, hlow, hup⟩ := hex
    refine ⟨i, ⟨hile, ?_, ?_⟩, ?_⟩
    · cases i with
      | zero => exact htc
      | succ i =>
        intro v hv
        obtain ⟨hlt, rfl⟩ := List.getElem?_eq_some_iff.mp hv
        exact hlow i hlt (by omega)
    · intro v hv
      obtain ⟨hlt, rfl⟩ := List.getElem?_eq_some_iff.mp hv
      exact hup hlt
    · intro j hjle hj
      by_contra hne
      rcases Nat.lt_or_gt_of_ne hne with h | h
      · have hjlt : j < buckets.length := by omega
        have h1 := hj.2 buckets[j] (List.getElem?_eq_getElem hjlt)
        have h2 := hlow j hjlt h
        omega
      · obtain ⟨k, rfl⟩ : ∃ k, j = k + 1 := ⟨j - 1, by omega⟩
        have hk : k < buckets.length := by omega
        have h1 := hj.1 buckets[k] (List.getElem?_eq_getElem hk)
        have hilt : i < buckets.length := by omega
        have h2 := hup hilt
        rcases Nat.lt_or_eq_of_le (Nat.lt_succ_iff.mp h) with h3 | h3
        · have := hmono i k h3 hk
          omega
        · subst h3
          omega
  · intro i hile hin
    cases i with
    | zero => exact hin.1
    | succ i =>
      have hlt : i < buckets.length := by omega
      have h1 := hin.1 buckets[i] (List.getElem?_eq_getElem hlt)
      have h2 := hp buckets[i] (List.getElem_mem hlt)
      exact .inl (by omega)

/-- For increasing positive pillars the bucket totals add up to the total of the flows still to come. -/
theorem C27_total (S : Settings) (flows : List (Option Int × NRat)) (buckets : List Int) (hb : buckets ≠ [])
    (hi : buckets.Pairwise (· < ·)) (hpos : ∀ v ∈ buckets, 0 < v) (sums : List Rat)
    (h : bucketPayments S flows buckets = .ok sums) : sums.sum = total (ToCome S) flows := by
  obtain ⟨v, hv⟩ : ∃ v, buckets.getLast? = some v := by
    rw [← Option.isSome_iff_exists]
    simpa using hb
  unfold bucketPayments at h
  simp only [hv, Except.ok.injEq] at h
  subst h
  have hlow : ∀ d, (fun d : Option Int => d.any (fun x =>
      if S.includeOnValueDate then decide (S.valueDate ≤ x) else decide (S.valueDate < x))) (some d) =
      decide (ToCome S d) := fun d => by
    simp only [Option.any_some]; exact lower_toCome S d
  rw [List.sum_append, List.sum_singleton,
    nsum_filter_total flows (fun f => f.any (fun d => decide (addMonths S.valueDate (12 * v) ≤ d)))
      (fun d => addMonths S.valueDate (12 * v) ≤ d) (by simp) (by simp)]
  refine bucketLoop_sum S flows buckets _ (ToCome S) v (by simp) hlow hi hv ?_
  intro w hw d hd
  have := pillar_strict S.valueDate (hpos w hw)
  rw [show (12 : Int) * 0 = 0 by norm_num, addMonths_zero] at this
  exact .inl (by omega)

/-- Defect: when the first pillar is the value date or lies before it, flows already settled are counted: the bucket totals add
up to the total of all flows on or after the first pillar, past ones included. -/
theorem C27_past_pillar (S : Settings) (flows : List (Option Int × NRat)) (v0 : Int) (vs : List Int)
    (hi : (v0 :: vs).Pairwise (· < ·)) (h0 : v0 ≤ 0) (sums : List Rat)
    (h : bucketPayments S flows (v0 :: vs) = .ok sums) : sums.sum = total (fun d => pillar S v0 ≤ d) flows := by
  obtain ⟨v, hv⟩ : ∃ v, (v0 :: vs).getLast? = some v := by
    rw [← Option.isSome_iff_exists]
    simp
  unfold bucketPayments at h
  simp only [hv, Except.ok.injEq] at h
  subst h
  have hp0 : pillar S v0 ≤ S.valueDate := by
    rcases Int.lt_or_eq_of_le h0 with h | h
    · have := pillar_strict S.valueDate h
      rw [show (12 : Int) * 0 = 0 by norm_num, addMonths_zero] at this
      unfold pillar; omega
    · subst h
      unfold pillar
      rw [show (12 : Int) * 0 = 0 by norm_num, addMonths_zero]
  have hempty : ∀ (lower : Option Int → Bool) (P : Int → Prop) [DecidablePred P], lower none = false →
      (∀ d, lower (some d) = decide (P d)) → (∀ d, P d → pillar S v0 ≤ d) →
      bucketLoop S flows lower (v0 :: vs) = 0 :: bucketLoop S flows
        (fun d => d.any (fun x => decide (addMonths S.valueDate (12 * v0) ≤ x))) vs := by
    intro lower P _ hn hl hP
    simp only [bucketLoop, List.cons.injEq, and_true]
    rw [nsum_filter_total flows (fun f => lower f && f.any (fun d => decide (d < addMonths S.valueDate (12 * v0))))
      (fun _ => False) (by simp) (by
        intro d
        simp only [hl, Option.any_some, decide_false, Bool.and_eq_false_imp, decide_eq_true_eq, decide_eq_false_iff_not]
        intro hd
        have := hP d hd
        unfold pillar at this
        omega)]
    induction flows with
    | nil => rfl
    | cons f flows ih =>
      obtain ⟨d, x⟩ := f
      cases d <;> cases x <;> simp [total, ih]
  have hlow : ∀ d, (fun d : Option Int => d.any (fun x =>
      if S.includeOnValueDate then decide (S.valueDate ≤ x) else decide (S.valueDate < x))) (some d) =
      decide (ToCome S d) := fun d => by
    simp only [Option.any_some]; exact lower_toCome S d
  rw [List.sum_append, List.sum_singleton,
    nsum_filter_total flows (fun f => f.any (fun d => decide (addMonths S.valueDate (12 * v) ≤ d)))
      (fun d => addMonths S.valueDate (12 * v) ≤ d) (by simp) (by simp),
    hempty _ (ToCome S) (by simp) hlow (fun d hd => by unfold ToCome at hd; omega),
    ← hempty (fun d => d.any (fun x => decide (pillar S v0 ≤ x))) (fun d => pillar S v0 ≤ d) (by simp) (by simp) (fun _ h => h)]
  refine bucketLoop_sum S flows (v0 :: vs) _ (fun d => pillar S v0 ≤ d) v (by simp) (by simp) hi hv ?_
  intro w hw d hd
  rcases List.mem_cons.mp hw with rfl | hw
  · exact hd
  · have := pillar_strict S.valueDate ((List.pairwise_cons.mp hi).1 w hw)
    unfold pillar; omega

/-- A flow of 50 paid a month before the value date is counted with pillars of −1, 0 and 1 years. -/
example : bucketPayments { valueDate := 738000, includeOnValueDate := false, limitAccrued := false }
    [(some 737970, some 50), (some 738001, some 5)] [-1, 0, 1] = .ok [0, 50, 5, 0] := by decide +kernel

/-- Without buckets the call raises. -/
theorem C27_no_buckets (S : Settings) (flows : List (Option Int × NRat)) : bucketPayments S flows [] = .error .name := rfl

example : ([1, 2, 3, 5] : List Int) ≠ [] ∧ ([1, 2, 3, 5] : List Int).Pairwise (· < ·) ∧ ∀ v ∈ ([1, 2, 3, 5] : List Int), 0 < v := by
  decide

/-- Two flows, one exactly on the first pillar: it belongs to the second bucket. -/
example : bucketPayments { valueDate := 738000, includeOnValueDate := false, limitAccrued := false }
    [(some (addMonths 738000 12), some 7), (some 738001, some 5), (none, some 100), (some 738000, some 50)] [1, 2] =
    .ok [5, 7, 0] := by decide +kernel

end Frm.Props
