import Verif.Proofs.Months

namespace Frm
open Spec

/-! ## Modified rolls -/

theorem following_lt_300 {cal : BusCal} (h : cal.Ok) (hg : NoYearLongClosure cal) (d : Int) :
    following cal d < d + 300 := by
  obtain ⟨b, h1, h2, h3⟩ := hg d
  have := following_le_bus h h1 h3; omega

theorem preceding_gt_300 {cal : BusCal} (h : cal.Ok) (hg : NoYearLongClosure cal) (d : Int) :
    d < preceding cal d + 300 := by
  obtain ⟨b, h1, h2, h3⟩ := hg (d - 299)
  have := preceding_ge_bus h (d := d) (b := b) (by omega) h3; omega

/-- The roll as a total function (the four real conventions). -/
def rollFn (cal : BusCal) (r : RollConv) (d : Int) : Int :=
  match r with
  | .unadjusted => d
  | .following => following cal d
  | .preceding => preceding cal d
  | .modifiedFollowing => if sameMonthNumber d (following cal d) then following cal d else preceding cal d
  | .modifiedPreceding => if sameMonthNumber d (preceding cal d) then preceding cal d else following cal d

theorem rollDate_eq {cal : BusCal} {r : RollConv} (hr : r ≠ .unadjusted) (d : Int) :
    rollDate cal r d = .ok (rollFn cal r d) := by
  cases r <;> simp [rollDate, rollFn] at * 

theorem rollFn_bus {cal : BusCal} (h : cal.Ok) {r : RollConv} (hr : r ≠ .unadjusted) (d : Int) :
    isBusDay cal (rollFn cal r d) = true := by
  cases r with
  | unadjusted => exact absurd rfl hr
  | following => exact following_bus h d
  | preceding => exact preceding_bus h d
  | modifiedFollowing => 
    unfold rollFn; simp only; split
    · exact following_bus h d
    · exact preceding_bus h d
  | modifiedPreceding => 
    unfold rollFn; simp only; split
    · exact preceding_bus h d
    · exact following_bus h d

theorem rollFn_of_bus {cal : BusCal} (h : cal.Ok) {r : RollConv} {d : Int} (hb : isBusDay cal d = true) :
    rollFn cal r d = d := by
  cases r <;> simp [rollFn, following_of_bus h hb, preceding_of_bus h hb]

theorem modFollowing_mono {cal : BusCal} (h : cal.Ok) (hg : NoYearLongClosure cal) {a b : Int} (hab : a ≤ b) :
    rollFn cal .modifiedFollowing a ≤ rollFn cal .modifiedFollowing b := by
  unfold rollFn; simp only
  have fa := following_ge h a
  have fb := following_ge h b
  have pa := preceding_le h a
  have pb := preceding_le h b
  have ia := sameMonthNumber_iff fa (following_lt_300 h hg a)
  have ib := sameMonthNumber_iff fb (following_lt_300 h hg b)
  split <;> split
  · exact following_mono h hab
  · rename_i h1 h2
    rcases Int.lt_or_le b (following cal a) with hlt | hle
    · exfalso
      have e : following cal b = following cal a := by
        have := following_le_bus h (d := b) (b := following cal a) (by omega) (following_bus h a)
        have := following_mono h hab
        omega
      apply h2
      rw [ib, e]
      have s := ia.mp h1
      exact sameMonth_trans (sameMonth_symm (sameMonth_between s hab (by omega))) s
    · exact preceding_ge_bus h hle (following_bus h a)
  · omega
  · exact preceding_mono h hab

theorem sameMonthNumber_comm (a b : Int) : sameMonthNumber a b = sameMonthNumber b a := by
  unfold sameMonthNumber; exact decide_eq_decide.mpr eq_comm

theorem modPreceding_mono {cal : BusCal} (h : cal.Ok) (hg : NoYearLongClosure cal) {a b : Int} (hab : a ≤ b) :
    rollFn cal .modifiedPreceding a ≤ rollFn cal .modifiedPreceding b := by
  unfold rollFn; simp only
  have fa := following_ge h a
  have fb := following_ge h b
  have pa := preceding_le h a
  have pb := preceding_le h b
  have ia := sameMonthNumber_iff pa (preceding_gt_300 h hg a)
  have ib := sameMonthNumber_iff pb (preceding_gt_300 h hg b)
  rw [sameMonthNumber_comm] at ia ib
  split <;> split
  · exact preceding_mono h hab
  · omega
  · rename_i h1 h2
    rcases Int.lt_or_le (preceding cal b) a with hlt | hle
    · exfalso
      have e : preceding cal a = preceding cal b := by
        have := preceding_ge_bus h (d := a) (b := preceding cal b) (by omega) (preceding_bus h b)
        have := preceding_mono h hab
        omega
      apply h1
      rw [ia, e]
      have s := ib.mp h2
      exact sameMonth_between s (by omega) hab
    · exact following_le_bus h hle (preceding_bus h b)
  · exact following_mono h hab

theorem rollFn_mono {cal : BusCal} (h : cal.Ok) (hg : NoYearLongClosure cal) {r : RollConv} {a b : Int}
    (hab : a ≤ b) : rollFn cal r a ≤ rollFn cal r b := by
  cases r with
  | unadjusted => exact hab
  | following => exact following_mono h hab
  | preceding => exact preceding_mono h hab
  | modifiedFollowing => exact modFollowing_mono h hg hab
  | modifiedPreceding => exact modPreceding_mono h hg hab

/-! ## Counting business days -/

theorem busDaysIn_add (cal : BusCal) (a : Int) (m n : Nat) :
    busDaysIn cal a (m + n) = busDaysIn cal a m + busDaysIn cal (a + m) n := by
  induction n with
  | zero => simp [busDaysIn]
  | succ n ih =>
    rw [Nat.add_succ]
    simp only [busDaysIn]
    rw [ih]
    have : a + ((m + n : Nat) : Int) + 1 = a + (m : Int) + (n : Int) + 1 := by push_cast; omega
    rw [this]; omega

theorem busDaysBetween_add (cal : BusCal) {a b c : Int} (h1 : a ≤ b) (h2 : b ≤ c) :
    busDaysBetween cal a c = busDaysBetween cal a b + busDaysBetween cal b c := by
  unfold busDaysBetween
  have : (c - a).toNat = (b - a).toNat + (c - b).toNat := by omega
  rw [this, busDaysIn_add]
  have : a + ((b - a).toNat : Int) = b := by omega
  rw [this]

theorem busDaysBetween_self (cal : BusCal) (a : Int) : busDaysBetween cal a a = 0 := by
  unfold busDaysBetween; simp [busDaysIn]

theorem busDaysIn_zero_of (cal : BusCal) (a : Int) (n : Nat)
    (h : ∀ x, a < x → x ≤ a + n → isBusDay cal x = false) : busDaysIn cal a n = 0 := by
  induction n with
  | zero => rfl
  | succ n ih =>
    simp only [busDaysIn]
    rw [ih (fun x h1 h2 => h x h1 (by push_cast; omega)), h (a + n + 1) (by omega) (by push_cast; omega)]
    simp

theorem busDaysBetween_next {cal : BusCal} (h : cal.Ok) (a : Int) :
    busDaysBetween cal a (nextBusDay cal a) = 1 := by
  obtain ⟨h1, h2, h3⟩ := following_spec h (a + 1)
  unfold nextBusDay busDaysBetween
  have hn : (following cal (a + 1) - a).toNat = (following cal (a + 1) - a - 1).toNat + 1 := by omega
  rw [hn]
  simp only [busDaysIn]
  rw [busDaysIn_zero_of cal a _ (fun x a1 a2 => h3 x (by omega) (by omega))]
  have : a + ((following cal (a + 1) - a - 1).toNat : Int) + 1 = following cal (a + 1) := by omega
  rw [this, h2]; simp

theorem busDaysBetween_prev {cal : BusCal} (h : cal.Ok) {a : Int} (ha : isBusDay cal a = true) :
    busDaysBetween cal (prevBusDay cal a) a = 1 := by
  obtain ⟨h1, h2, h3⟩ := preceding_spec h (a - 1)
  have : nextBusDay cal (prevBusDay cal a) = a := by
    unfold nextBusDay prevBusDay
    rw [following_eq_iff h]
    exact ⟨by omega, ha, fun x a1 a2 => h3 x (by omega) (by omega)⟩
  have hh := busDaysBetween_next h (prevBusDay cal a)
  rwa [this] at hh

theorem nextBusDay_gt {cal : BusCal} (h : cal.Ok) (a : Int) : a < nextBusDay cal a := by
  have := following_ge h (a + 1); unfold nextBusDay; omega

theorem prevBusDay_lt {cal : BusCal} (h : cal.Ok) (a : Int) : prevBusDay cal a < a := by
  have := preceding_le h (a - 1); unfold prevBusDay; omega

theorem next_prev {cal : BusCal} (h : cal.Ok) {a : Int} (ha : isBusDay cal a = true) :
    nextBusDay cal (prevBusDay cal a) = a := by
  obtain ⟨h1, h2, h3⟩ := preceding_spec h (a - 1)
  unfold nextBusDay prevBusDay
  rw [following_eq_iff h]
  exact ⟨by omega, ha, fun x a1 a2 => h3 x (by omega) (by omega)⟩

theorem prev_next {cal : BusCal} (h : cal.Ok) {a : Int} (ha : isBusDay cal a = true) :
    prevBusDay cal (nextBusDay cal a) = a := by
  obtain ⟨h1, h2, h3⟩ := following_spec h (a + 1)
  unfold nextBusDay prevBusDay
  rw [preceding_eq_iff h]
  exact ⟨by omega, ha, fun x a1 a2 => h3 x (by omega) (by omega)⟩

theorem iter_succ' {α : Type _} (f : α → α) (n : Nat) (a : α) : iter f (n + 1) a = f (iter f n a) := by
  induction n generalizing a with
  | zero => rfl
  | succ n ih => rw [iter, ih, iter]

theorem iter_add {α : Type _} (f : α → α) (m n : Nat) (a : α) : iter f (m + n) a = iter f n (iter f m a) := by
  induction m generalizing a with
  | zero => simp [iter]
  | succ m ih => rw [Nat.succ_add, iter, ih, iter]

theorem iter_next_spec {cal : BusCal} (h : cal.Ok) (n : Nat) {a : Int} (ha : isBusDay cal a = true) :
    isBusDay cal (iter (nextBusDay cal) n a) = true ∧ a ≤ iter (nextBusDay cal) n a ∧
    busDaysBetween cal a (iter (nextBusDay cal) n a) = n := by
  induction n with
  | zero => exact ⟨ha, Int.le_refl _, busDaysBetween_self cal a⟩
  | succ n ih =>
    obtain ⟨i1, i2, i3⟩ := ih
    rw [iter_succ']
    have hg := nextBusDay_gt h (iter (nextBusDay cal) n a)
    refine ⟨following_bus h _, by omega, ?_⟩
    rw [busDaysBetween_add cal i2 (by omega), i3, busDaysBetween_next h]

theorem iter_prev_spec {cal : BusCal} (h : cal.Ok) (n : Nat) {a : Int} (ha : isBusDay cal a = true) :
    isBusDay cal (iter (prevBusDay cal) n a) = true ∧ iter (prevBusDay cal) n a ≤ a ∧
    busDaysBetween cal (iter (prevBusDay cal) n a) a = n := by
  induction n with
  | zero => exact ⟨ha, Int.le_refl _, busDaysBetween_self cal a⟩
  | succ n ih =>
    obtain ⟨i1, i2, i3⟩ := ih
    rw [iter_succ']
    have hg := prevBusDay_lt h (iter (prevBusDay cal) n a)
    refine ⟨preceding_bus h _, by omega, ?_⟩
    rw [busDaysBetween_add cal (a := prevBusDay cal _) (b := iter (prevBusDay cal) n a) (by omega) i2, i3,
      busDaysBetween_prev h i1]
    omega

theorem busDaysIn_pos_of {cal : BusCal} {a b : Int} (hlt : a < b) (hb : isBusDay cal b = true) :
    1 ≤ busDaysBetween cal a b := by
  unfold busDaysBetween
  have : (b - a).toNat = (b - a - 1).toNat + 1 := by omega
  rw [this]; simp only [busDaysIn]
  have : a + ((b - a - 1).toNat : Int) + 1 = b := by omega
  rw [this, hb]; simp

/-- A business day at or after `a` is determined by the number of business days passed. -/
theorem busDay_unique_fwd {cal : BusCal} {a x y : Int} (hx : isBusDay cal x = true) (hy : isBusDay cal y = true)
    (h1 : a ≤ x) (h2 : a ≤ y) (hc : busDaysBetween cal a x = busDaysBetween cal a y) : x = y := by
  rcases Int.lt_trichotomy x y with h | h | h
  · have := busDaysBetween_add cal h1 (by omega : x ≤ y)
    have := busDaysIn_pos_of h hy
    omega
  · exact h
  · have := busDaysBetween_add cal h2 (by omega : y ≤ x)
    have := busDaysIn_pos_of h hx
    omega

theorem stepBusDays_bus {cal : BusCal} (h : cal.Ok) {a : Int} (ha : isBusDay cal a = true) (n : Int) :
    isBusDay cal (stepBusDays cal a n) = true := by
  unfold stepBusDays; split
  · exact (iter_next_spec h _ ha).1
  · exact (iter_prev_spec h _ ha).1

theorem iter_next_prev {cal : BusCal} (h : cal.Ok) (n : Nat) {a : Int} (ha : isBusDay cal a = true) :
    iter (prevBusDay cal) n (iter (nextBusDay cal) n a) = a := by
  induction n generalizing a with
  | zero => rfl
  | succ n ih =>
    rw [iter_succ' (nextBusDay cal), iter, prev_next h (iter_next_spec h n ha).1, ih ha]

theorem iter_prev_next {cal : BusCal} (h : cal.Ok) (n : Nat) {a : Int} (ha : isBusDay cal a = true) :
    iter (nextBusDay cal) n (iter (prevBusDay cal) n a) = a := by
  induction n generalizing a with
  | zero => rfl
  | succ n ih =>
    rw [iter_succ' (prevBusDay cal), iter, next_prev h (iter_prev_spec h n ha).1, ih ha]

theorem stepBusDays_neg {cal : BusCal} (h : cal.Ok) (n : Int) {a : Int} (ha : isBusDay cal a = true) :
    stepBusDays cal (stepBusDays cal a n) (-n) = a := by
  unfold stepBusDays
  by_cases h0 : 0 ≤ n
  · rw [if_pos h0]
    by_cases h1 : 0 ≤ -n
    · have : n = 0 := by omega
      subst this; rfl
    · rw [if_neg h1, Int.neg_neg]; exact iter_next_prev h _ ha
  · rw [if_neg h0, if_pos (by omega)]; exact iter_prev_next h _ ha

theorem stepBusDays_succ {cal : BusCal} (h : cal.Ok) {a : Int} (ha : isBusDay cal a = true) (n : Int) :
    stepBusDays cal a (n + 1) = nextBusDay cal (stepBusDays cal a n) := by
  unfold stepBusDays
  by_cases h0 : 0 ≤ n
  · rw [if_pos h0, if_pos (by omega)]
    have : (n + 1).toNat = n.toNat + 1 := by omega
    rw [this, iter_succ']
  · rw [if_neg h0]
    have e : (-n).toNat = (-(n + 1)).toNat + 1 := by omega
    rw [e, iter_succ', next_prev h (iter_prev_spec h _ ha).1]
    by_cases h1 : 0 ≤ n + 1
    · have : n = -1 := by omega
      subst this; rfl
    · rw [if_neg h1]

theorem stepBusDays_pred {cal : BusCal} (h : cal.Ok) {a : Int} (ha : isBusDay cal a = true) (n : Int) :
    stepBusDays cal a (n - 1) = prevBusDay cal (stepBusDays cal a n) := by
  have := stepBusDays_succ h ha (n - 1)
  rw [Int.sub_add_cancel] at this
  rw [this, prev_next h (stepBusDays_bus h ha _)]

theorem stepBusDays_add {cal : BusCal} (h : cal.Ok) {a : Int} (ha : isBusDay cal a = true) (m n : Int) :
    stepBusDays cal (stepBusDays cal a m) n = stepBusDays cal a (m + n) := by
  have hb := stepBusDays_bus h ha m
  have fwd : ∀ k : Nat, stepBusDays cal (stepBusDays cal a m) k = stepBusDays cal a (m + k) := by
    intro k
    induction k with
    | zero => simp [stepBusDays, iter]
    | succ k ih =>
      push_cast
      rw [stepBusDays_succ h hb, ih, ← Int.add_assoc, stepBusDays_succ h ha]
  have bwd : ∀ k : Nat, stepBusDays cal (stepBusDays cal a m) (-k) = stepBusDays cal a (m + -k) := by
    intro k
    induction k with
    | zero => simp [stepBusDays, iter]
    | succ k ih =>
      have e1 : (-((k + 1 : Nat) : Int)) = -(k : Int) - 1 := by push_cast; omega
      have e2 : m + (-(k : Int) - 1) = (m + -(k : Int)) - 1 := by omega
      rw [e1, stepBusDays_pred h hb, ih, e2, stepBusDays_pred h ha]
  by_cases h0 : 0 ≤ n
  · have := fwd n.toNat
    rwa [Int.toNat_of_nonneg h0] at this
  · have := bwd (-n).toNat
    rw [Int.toNat_of_nonneg (by omega), Int.neg_neg] at this
    exact this

theorem busDay_unique_bwd {cal : BusCal} {a x y : Int} (hx : isBusDay cal x = true) (hy : isBusDay cal y = true)
    (h1 : x ≤ a) (h2 : y ≤ a) (hc : busDaysBetween cal x a = busDaysBetween cal y a) : x = y := by
  rcases Int.lt_trichotomy x y with h | h | h
  · have := busDaysBetween_add cal (by omega : x ≤ y) h2
    have := busDaysIn_pos_of h hy
    omega
  · exact h
  · have := busDaysBetween_add cal (by omega : y ≤ x) h1
    have := busDaysIn_pos_of h hx
    omega

end Frm
