import Verif.Proofs.Workday

/-! # C04 — Business-day rolling -/

namespace Frm.Props
open Spec

/-- `following` is the first business day on or after, `preceding` the last on or before (and both exist). -/
theorem C04_following_preceding {cal : BusCal} (h : cal.Ok) (d : Int) :
    (∀ r, rollDate cal .following d = .ok r ↔ FirstOnOrAfter cal d r) ∧
    (∀ r, rollDate cal .preceding d = .ok r ↔ LastOnOrBefore cal d r) := by
  constructor
  · intro r; simp only [rollDate, Except.ok.injEq]; exact following_eq_iff h
  · intro r; simp only [rollDate, Except.ok.injEq]; exact preceding_eq_iff h

/-- The modified conventions: the primary direction unless it leaves the calendar month, else the other one.
numpy compares month *numbers*; on calendars whose closures never last a year this is the calendar month. -/
theorem C04_modified {cal : BusCal} (h : cal.Ok) (hg : NoYearLongClosure cal) (d f p : Int)
    (hf : FirstOnOrAfter cal d f) (hp : LastOnOrBefore cal d p) :
    (SameMonth d f → rollDate cal .modifiedFollowing d = .ok f) ∧
    (¬ SameMonth d f → rollDate cal .modifiedFollowing d = .ok p) ∧
    (SameMonth d p → rollDate cal .modifiedPreceding d = .ok p) ∧
    (¬ SameMonth d p → rollDate cal .modifiedPreceding d = .ok f) := by
  have ef := (following_eq_iff h).mpr hf
  have ep := (preceding_eq_iff h).mpr hp
  have i1 := sameMonthNumber_iff (following_ge h d) (following_lt_300 h hg d)
  have i2 := sameMonthNumber_iff (preceding_le h d) (preceding_gt_300 h hg d)
  rw [sameMonthNumber_comm] at i2
  rw [ef] at i1; rw [ep] at i2
  have i2' : sameMonthNumber d p = true ↔ SameMonth d p := i2.trans ⟨sameMonth_symm, sameMonth_symm⟩
  refine ⟨fun s => ?_, fun s => ?_, fun s => ?_, fun s => ?_⟩ <;>
    simp only [rollDate, ef, ep, Except.ok.injEq]
  · rw [if_pos (i1.mpr s)]
  · rw [if_neg (fun hh => s (i1.mp hh))]
  · rw [if_pos (i2'.mpr s)]
  · rw [if_neg (fun hh => s (i2'.mp hh))]

/-- Without the assumption on closures: what numpy's month-number test does for every calendar. -/
theorem C04_modified_raw {cal : BusCal} (h : cal.Ok) (d f p : Int)
    (hf : FirstOnOrAfter cal d f) (hp : LastOnOrBefore cal d p) :
    rollDate cal .modifiedFollowing d = .ok (if (toCivil d).month = (toCivil f).month then f else p) ∧
    rollDate cal .modifiedPreceding d = .ok (if (toCivil d).month = (toCivil p).month then p else f) := by
  have ef := (following_eq_iff h).mpr hf
  have ep := (preceding_eq_iff h).mpr hp
  simp only [rollDate, ef, ep, sameMonthNumber, decide_eq_true_eq, and_self]

/-- Every convention returns a business day, leaves business days alone, and rolling twice is rolling once. -/
theorem C04_business_day_idempotent {cal : BusCal} (h : cal.Ok) {r : RollConv} (hr : r ≠ .unadjusted) (d : Int) :
    ∃ x, rollDate cal r d = .ok x ∧ isBusDay cal x = true ∧ rollDate cal r x = .ok x ∧
      (isBusDay cal d = true → x = d) := by
  refine ⟨rollFn cal r d, rollDate_eq hr d, rollFn_bus h hr d, ?_, fun hb => rollFn_of_bus h hb⟩
  rw [rollDate_eq hr, rollFn_of_bus h (rollFn_bus h hr d)]

/-- Every convention is monotone in the date. -/
theorem C04_monotone {cal : BusCal} (h : cal.Ok) (hg : NoYearLongClosure cal) {r : RollConv} {a b x y : Int}
    (hab : a ≤ b) (hx : rollDate cal r a = .ok x) (hy : rollDate cal r b = .ok y) : x ≤ y := by
  have hr : r ≠ .unadjusted := by
    intro e; subst e; simp [rollDate] at hx
  rw [rollDate_eq hr, Except.ok.injEq] at hx hy
  subst hx hy
  exact rollFn_mono h hg hab

/-- The two unmodified conventions are monotone on every calendar. -/
theorem C04_monotone_unmodified {cal : BusCal} (h : cal.Ok) {a b : Int} (hab : a ≤ b) :
    following cal a ≤ following cal b ∧ preceding cal a ≤ preceding cal b :=
  ⟨following_mono h hab, preceding_mono h hab⟩

/-- `RollConv.UNADJUSTED` is not a numpy roll: asking for it raises `ValueError` whatever the date. -/
theorem C04_unadjusted_raises (cal : BusCal) (d : Int) : rollDate cal .unadjusted d = .error .value := rfl

/-! A Monday-to-Friday calendar with Christmas closed meets the hypotheses. -/

def weekdaysXmas : BusCal :=
  { weekmask := fun w => decide (w.val < 5), holidays := [mkDate 2024 12 25, mkDate 2024 12 26] }

theorem weekdaysXmas_ok : weekdaysXmas.Ok := ⟨0, by decide⟩

theorem weekdaysXmas_gap : NoYearLongClosure weekdaysXmas := by
  intro d
  -- the two closed dates are not Mondays, so the next Monday is open
  have key : ∀ x, weekday x = 0 → x ≠ mkDate 2024 12 25 → x ≠ mkDate 2024 12 26 → isBusDay weekdaysXmas x = true := by
    intro x hw h1 h2
    have hw' : weekdayFin x = 0 := by
      apply Fin.ext; simp [weekdayFin, hw]
    simp [isBusDay, weekdaysXmas, hw', h1, h2]
  let x := d + (-(d + 6)) % 7
  have hx : weekday x = 0 := by unfold weekday; simp only [x]; omega
  refine ⟨x, by simp only [x]; omega, by simp only [x]; omega, key x hx ?_ ?_⟩
  · intro e; rw [e] at hx; revert hx; decide +kernel
  · intro e; rw [e] at hx; revert hx; decide +kernel

example : rollDate weekdaysXmas .following (mkDate 2024 12 25) = .ok (mkDate 2024 12 27) := by decide +kernel
example : rollDate weekdaysXmas .modifiedFollowing (mkDate 2024 11 30) = .ok (mkDate 2024 11 29) := by decide +kernel

/-! ### The assumption on closures is needed -/

/-- Every weekday open, but closed from 5 January 2023 to 3 January 2024. -/
def closedFor2023 : BusCal :=
  { weekmask := fun _ => true, holidays := (List.range 364).map (fun i : Nat => 738525 + (i : Int)) }

theorem closedFor2023_open (x : Int) : isBusDay closedFor2023 x = true ↔ x < 738525 ∨ 738889 ≤ x := by
  have hm : x ∈ closedFor2023.holidays ↔ 738525 ≤ x ∧ x < 738889 := by
    simp only [closedFor2023, List.mem_map, List.mem_range]
    constructor
    · rintro ⟨i, hi, rfl⟩; omega
    · rintro ⟨h1, h2⟩; exact ⟨(x - 738525).toNat, by omega, by omega⟩
  have hw : closedFor2023.weekmask (weekdayFin x) = true := rfl
  simp only [isBusDay, hw, Bool.true_and, Bool.not_eq_true', List.contains_eq_mem, decide_eq_false_iff_not, hm]
  omega

theorem closedFor2023_shut (x : Int) (h1 : 738525 ≤ x) (h2 : x < 738889) : isBusDay closedFor2023 x = false := by
  rw [Bool.eq_false_iff, Ne, closedFor2023_open]; omega

/-- A market closed for a whole year: numpy's test of the month *number* takes 4 January 2024 to be in the month of
5 January 2023, so a modified-following date moves by a year, and a later date (5 February 2023) rolls to an earlier
one (4 January 2023): neither the month rule nor monotonicity survives. -/
theorem C04_year_long_closure :
    closedFor2023.Ok ∧
    rollDate closedFor2023 .modifiedFollowing (mkDate 2023 1 5) = .ok (mkDate 2024 1 4) ∧
    ¬ SameMonth (mkDate 2023 1 5) (mkDate 2024 1 4) ∧
    rollDate closedFor2023 .modifiedFollowing (mkDate 2023 2 5) = .ok (mkDate 2023 1 4) ∧
    mkDate 2023 1 5 < mkDate 2023 2 5 ∧ mkDate 2023 1 4 < mkDate 2024 1 4 := by
  have ok : closedFor2023.Ok := ⟨0, rfl⟩
  have e1 : mkDate 2023 1 5 = 738525 := by decide +kernel
  have e2 : mkDate 2024 1 4 = 738889 := by decide +kernel
  have e3 : mkDate 2023 2 5 = 738556 := by decide +kernel
  have e4 : mkDate 2023 1 4 = 738524 := by decide +kernel
  have first : ∀ d : Int, 738525 ≤ d → d ≤ 738889 → FirstOnOrAfter closedFor2023 d 738889 := fun d h1 h2 =>
    ⟨h2, (closedFor2023_open _).mpr (by omega), fun x hx hx' => closedFor2023_shut x (by omega) hx'⟩
  have last : ∀ d : Int, 738524 ≤ d → d < 738889 → LastOnOrBefore closedFor2023 d 738524 := fun d h1 h2 =>
    ⟨h1, (closedFor2023_open _).mpr (by omega), fun x hx hx' => closedFor2023_shut x (by omega) (by omega)⟩
  have r1 := (C04_modified_raw ok _ _ _ (first 738525 (by omega) (by omega)) (last 738525 (by omega) (by omega))).1
  have r2 := (C04_modified_raw ok _ _ _ (first 738556 (by omega) (by omega)) (last 738556 (by omega) (by omega))).1
  rw [e1, e2, e3, e4]
  refine ⟨ok, ?_, ?_, ?_, by omega, by omega⟩
  · rw [r1, if_pos (by decide +kernel)]
  · unfold SameMonth; decide +kernel
  · rw [r2, if_neg (by decide +kernel)]

end Frm.Props
