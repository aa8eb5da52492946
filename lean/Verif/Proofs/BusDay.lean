import Verif.Model.BusDay
import Verif.Spec.BusDay
import Verif.Proofs.Date

namespace Frm
open Spec

theorem weekday_add_seven (d k : Int) : weekdayFin (d + 7 * k) = weekdayFin d := by
  unfold weekdayFin weekday
  apply Fin.ext; simp only; omega

theorem exists_weekday (d : Int) (w : Fin 7) : ∃ o : Int, 0 ≤ o ∧ o < 7 ∧ weekdayFin (d + o) = w := by
  refine ⟨((w.val : Int) - weekday d) % 7, by omega, by omega, ?_⟩
  unfold weekdayFin weekday
  apply Fin.ext
  have := w.isLt
  simp only; omega

/-- Pigeonhole: some day in any stretch of `7 * (number of holidays + 1)` days is a business day. -/
theorem exists_busDay {cal : BusCal} (h : cal.Ok) (d : Int) :
    ∃ b, d ≤ b ∧ b < d + rollFuel cal ∧ isBusDay cal b = true := by
  obtain ⟨w, hw⟩ := h
  obtain ⟨o, ho1, ho2, ho⟩ := exists_weekday d w
  let f : Nat → Int := fun j => d + o + 7 * (j : Int)
  by_cases hex : ∃ j, j < cal.holidays.length + 1 ∧ ¬ (f j ∈ cal.holidays)
  · obtain ⟨j, hj, hn⟩ := hex
    refine ⟨f j, ?_, ?_, ?_⟩
    · simp only [f]; omega
    · simp only [f, rollFuel]; omega
    · unfold isBusDay
      have : weekdayFin (f j) = w := by simp only [f]; rw [weekday_add_seven, ho]
      rw [this, hw]; simp [hn]
  · exfalso
    have hall : ∀ j, j < cal.holidays.length + 1 → f j ∈ cal.holidays := by
      intro j hj; exact Classical.byContradiction fun hc => hex ⟨j, hj, hc⟩
    have hnd : ((List.range (cal.holidays.length + 1)).map f).Nodup := by
      rw [List.nodup_iff_pairwise_ne, List.pairwise_map]
      refine List.Pairwise.imp ?_ (List.nodup_range (n := cal.holidays.length + 1))
      intro a b hab; simp only [f]; omega
    have hsub : (List.range (cal.holidays.length + 1)).map f ⊆ cal.holidays := by
      intro x hx
      obtain ⟨j, hj, rfl⟩ := List.mem_map.mp hx
      exact hall j (List.mem_range.mp hj)
    have := List.Nodup.length_le_of_subset hnd hsub
    simp at this; omega

theorem scanFwd_spec {cal : BusCal} : ∀ (k : Nat) (d : Int),
    (∃ b, d ≤ b ∧ b < d + k ∧ isBusDay cal b = true) → FirstOnOrAfter cal d (scanFwd cal k d) := by
  intro k
  induction k with
  | zero => rintro d ⟨b, h1, h2, _⟩; exfalso; simp at h2; omega
  | succ k ih =>
    rintro d ⟨b, h1, h2, h3⟩
    unfold scanFwd
    by_cases hd : isBusDay cal d = true
    · rw [if_pos hd]; exact ⟨Int.le_refl _, hd, fun x a b => by omega⟩
    · rw [if_neg hd]
      have hne : b ≠ d := by intro e; subst e; exact hd h3
      obtain ⟨a1, a2, a3⟩ := ih (d + 1) ⟨b, by omega, by push_cast at h2; omega, h3⟩
      refine ⟨by omega, a2, fun x h4 h5 => ?_⟩
      by_cases hx : x = d
      · subst hx; simpa using hd
      · exact a3 x (by omega) h5

theorem scanBwd_spec {cal : BusCal} : ∀ (k : Nat) (d : Int),
    (∃ b, b ≤ d ∧ d < b + k ∧ isBusDay cal b = true) → LastOnOrBefore cal d (scanBwd cal k d) := by
  intro k
  induction k with
  | zero => rintro d ⟨b, h1, h2, _⟩; exfalso; simp at h2; omega
  | succ k ih =>
    rintro d ⟨b, h1, h2, h3⟩
    unfold scanBwd
    by_cases hd : isBusDay cal d = true
    · rw [if_pos hd]; exact ⟨Int.le_refl _, hd, fun x a b => by omega⟩
    · rw [if_neg hd]
      have hne : b ≠ d := by intro e; subst e; exact hd h3
      obtain ⟨a1, a2, a3⟩ := ih (d - 1) ⟨b, by omega, by push_cast at h2; omega, h3⟩
      refine ⟨by omega, a2, fun x h4 h5 => ?_⟩
      by_cases hx : x = d
      · subst hx; simpa using hd
      · exact a3 x h4 (by omega)

theorem following_spec {cal : BusCal} (h : cal.Ok) (d : Int) : FirstOnOrAfter cal d (following cal d) :=
  scanFwd_spec _ _ (exists_busDay h d)

theorem preceding_spec {cal : BusCal} (h : cal.Ok) (d : Int) : LastOnOrBefore cal d (preceding cal d) := by
  apply scanBwd_spec
  obtain ⟨b, h1, h2, h3⟩ := exists_busDay h (d - rollFuel cal + 1)
  exact ⟨b, by omega, by omega, h3⟩

theorem firstOnOrAfter_unique {cal : BusCal} {d a b : Int} (ha : FirstOnOrAfter cal d a)
    (hb : FirstOnOrAfter cal d b) : a = b := by
  obtain ⟨a1, a2, a3⟩ := ha
  obtain ⟨b1, b2, b3⟩ := hb
  rcases Int.lt_trichotomy a b with h | h | h
  · have := b3 a a1 h; rw [a2] at this; cases this
  · exact h
  · have := a3 b b1 h; rw [b2] at this; cases this

theorem lastOnOrBefore_unique {cal : BusCal} {d a b : Int} (ha : LastOnOrBefore cal d a)
    (hb : LastOnOrBefore cal d b) : a = b := by
  obtain ⟨a1, a2, a3⟩ := ha
  obtain ⟨b1, b2, b3⟩ := hb
  rcases Int.lt_trichotomy a b with h | h | h
  · have := a3 b h b1; rw [b2] at this; cases this
  · exact h
  · have := b3 a h a1; rw [a2] at this; cases this

theorem following_eq_iff {cal : BusCal} (h : cal.Ok) {d r : Int} :
    following cal d = r ↔ FirstOnOrAfter cal d r :=
  ⟨fun e => e ▸ following_spec h d, fun hr => firstOnOrAfter_unique (following_spec h d) hr⟩

theorem preceding_eq_iff {cal : BusCal} (h : cal.Ok) {d r : Int} :
    preceding cal d = r ↔ LastOnOrBefore cal d r :=
  ⟨fun e => e ▸ preceding_spec h d, fun hr => lastOnOrBefore_unique (preceding_spec h d) hr⟩

theorem following_ge {cal : BusCal} (h : cal.Ok) (d : Int) : d ≤ following cal d := (following_spec h d).1
theorem following_bus {cal : BusCal} (h : cal.Ok) (d : Int) : isBusDay cal (following cal d) = true :=
  (following_spec h d).2.1
theorem preceding_le {cal : BusCal} (h : cal.Ok) (d : Int) : preceding cal d ≤ d := (preceding_spec h d).1
theorem preceding_bus {cal : BusCal} (h : cal.Ok) (d : Int) : isBusDay cal (preceding cal d) = true :=
  (preceding_spec h d).2.1

theorem following_of_bus {cal : BusCal} (h : cal.Ok) {d : Int} (hb : isBusDay cal d = true) :
    following cal d = d :=
  (following_eq_iff h).mpr ⟨Int.le_refl _, hb, fun x a b => by omega⟩

theorem preceding_of_bus {cal : BusCal} (h : cal.Ok) {d : Int} (hb : isBusDay cal d = true) :
    preceding cal d = d :=
  (preceding_eq_iff h).mpr ⟨Int.le_refl _, hb, fun x a b => by omega⟩

/-- The following roll never passes a business day. -/
theorem following_le_bus {cal : BusCal} (h : cal.Ok) {d b : Int} (hdb : d ≤ b) (hb : isBusDay cal b = true) :
    following cal d ≤ b := by
  obtain ⟨a1, a2, a3⟩ := following_spec h d
  rcases Int.lt_or_le b (following cal d) with hlt | hle
  · have := a3 b hdb hlt; rw [hb] at this; cases this
  · exact hle

theorem preceding_ge_bus {cal : BusCal} (h : cal.Ok) {d b : Int} (hdb : b ≤ d) (hb : isBusDay cal b = true) :
    b ≤ preceding cal d := by
  obtain ⟨a1, a2, a3⟩ := preceding_spec h d
  rcases Int.lt_or_le (preceding cal d) b with hlt | hle
  · have := a3 b hlt hdb; rw [hb] at this; cases this
  · exact hle

theorem following_mono {cal : BusCal} (h : cal.Ok) {a b : Int} (hab : a ≤ b) :
    following cal a ≤ following cal b :=
  following_le_bus h (Int.le_trans hab (following_ge h b)) (following_bus h b)

theorem preceding_mono {cal : BusCal} (h : cal.Ok) {a b : Int} (hab : a ≤ b) :
    preceding cal a ≤ preceding cal b :=
  preceding_ge_bus h (Int.le_trans (preceding_le h a) hab) (preceding_bus h a)

/-! ## Months and order -/

/-- Months counted from year 0. -/
def monthIndex (n : Int) : Int := 12 * (toCivil n).year + (toCivil n).month - 1

theorem ofCivil_lt_of_monthIndex {c c' : Civil} (h : c.Valid) (h' : c'.Valid)
    (hlt : 12 * c.year + c.month < 12 * c'.year + c'.month) : ofCivil c < ofCivil c' := by
  obtain ⟨a1, a2, a3, a4⟩ := h
  obtain ⟨b1, b2, b3, b4⟩ := h'
  unfold ofCivil
  rcases Int.lt_or_le c.year c'.year with hy | hy
  · have hm := daysBeforeYear_mono (a := c.year + 1) (b := c'.year) (by omega)
    rw [daysBeforeYear_succ] at hm
    have h1 := daysBeforeMonth_bound c.year c.month a1 a2
    have h2 := daysBeforeMonth_bound c'.year c'.month b1 b2
    omega
  · have : c.year = c'.year := by omega
    have := daysBeforeMonth_lt (y := c.year) a1 (show c.month < c'.month by omega) b2
    rw [← ‹c.year = c'.year›]
    omega

theorem lt_of_monthIndex_lt {a b : Int} (h : monthIndex a < monthIndex b) : a < b := by
  have := ofCivil_lt_of_monthIndex (toCivil_valid a) (toCivil_valid b) (by unfold monthIndex at h; omega)
  rwa [ofCivil_toCivil, ofCivil_toCivil] at this

theorem monthIndex_mono {a b : Int} (h : a ≤ b) : monthIndex a ≤ monthIndex b := by
  rcases Int.lt_or_le (monthIndex b) (monthIndex a) with hlt | hle
  · have := lt_of_monthIndex_lt hlt; omega
  · exact hle

theorem sameMonth_iff (a b : Int) : SameMonth a b ↔ monthIndex a = monthIndex b := by
  have ha := toCivil_valid a
  have hb := toCivil_valid b
  obtain ⟨a1, a2, _, _⟩ := ha
  obtain ⟨b1, b2, _, _⟩ := hb
  unfold SameMonth monthIndex
  omega

theorem sameMonth_between {a x b : Int} (h : SameMonth a b) (h1 : a ≤ x) (h2 : x ≤ b) : SameMonth a x := by
  rw [sameMonth_iff] at *
  have := monthIndex_mono h1
  have := monthIndex_mono h2
  omega

theorem sameMonth_symm {a b : Int} (h : SameMonth a b) : SameMonth b a := ⟨h.1.symm, h.2.symm⟩
theorem sameMonth_trans {a b c : Int} (h : SameMonth a b) (h' : SameMonth b c) : SameMonth a c :=
  ⟨h.1.trans h'.1, h.2.trans h'.2⟩
theorem sameMonth_refl (a : Int) : SameMonth a a := ⟨rfl, rfl⟩

/-- Two dates less than 300 days apart with the same month number are in the same month. -/
theorem sameMonthNumber_iff {a b : Int} (h1 : a ≤ b) (h2 : b < a + 300) :
    sameMonthNumber a b = true ↔ SameMonth a b := by
  unfold sameMonthNumber SameMonth
  simp only [decide_eq_true_eq]
  constructor
  · intro h
    refine ⟨?_, h⟩
    have ha := toCivil_valid a
    have hb := toCivil_valid b
    have ea := ofCivil_toCivil a
    have eb := ofCivil_toCivil b
    obtain ⟨a1, a2, a3, a4⟩ := ha
    obtain ⟨b1, b2, b3, b4⟩ := hb
    have hm := monthIndex_mono h1
    unfold monthIndex at hm
    rcases Int.lt_or_le (toCivil a).year (toCivil b).year with hy | hy
    · exfalso
      unfold ofCivil at ea eb
      have hg := daysBeforeYear_lt hy
      rw [h] at ea
      have hbb := daysInMonth_bounds (toCivil a).year (toCivil b).month
      have hle : daysBeforeMonth (toCivil a).year (toCivil b).month ≤
          daysBeforeMonth (toCivil b).year (toCivil b).month + 1 := by
        unfold daysBeforeMonth
        have : ∀ p : Prop, ∀ [Decidable p], (if p then (1:Int) else 0) ≤ 1 := by intro p _; split <;> omega
        have h0 : ∀ p : Prop, ∀ [Decidable p], 0 ≤ (if p then (1:Int) else 0) := by intro p _; split <;> omega
        have x1 := this ((toCivil b).month > 2 ∧ isLeap (toCivil a).year = true)
        have x2 := h0 ((toCivil b).month > 2 ∧ isLeap (toCivil b).year = true)
        omega
      have := daysInMonth_bounds (toCivil a).year (toCivil a).month
      omega
    · omega
  · exact fun h => h.2

end Frm
