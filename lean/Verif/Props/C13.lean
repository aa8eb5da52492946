import Verif.Proofs.ScheduleBuilt
import Verif.Props.C12

/-! # C13 — Schedules are ordered -/

namespace Frm
open Spec

theorem built_pairwise {a : ScheduleArgs} {R : Int → Int → Prop} (hlt : ∀ x y, x < y → R x y)
    (htr : ∀ x y z, R x y → R y z → R x z) (hv : validateSchedule a = .ok ())
    (HF : ∀ s m, s = a.startDate ∨ a.firstPeriodEnd = some s → FwdMid a.toGenParams s a.endDate m →
      (s :: (m ++ [a.endDate])).Pairwise R)
    (HB : ∀ s e m, e = a.endDate ∨ a.lastPeriodStart = some e → BwdMid a.toGenParams s e m →
      (s :: (m ++ [e])).Pairwise R)
    {mid : List Int} (hb : Built a mid) : (a.startDate :: (mid ++ [a.endDate])).Pairwise R := by
  obtain ⟨v1, v2, v3⟩ := validate_ok hv
  have sub : ∀ {l l' : List Int}, l.Sublist l' →
      (a.startDate :: (l ++ [a.endDate])).Sublist (a.startDate :: (l' ++ [a.endDate])) := fun h =>
    (h.append (List.Sublist.refl _)).cons_cons _
  have consR : ∀ {f : Int} {l : List Int}, R a.startDate f → (f :: l).Pairwise R →
      (a.startDate :: f :: l).Pairwise R := by
    intro f l h1 h2
    rw [List.pairwise_cons]
    refine ⟨?_, h2⟩
    intro x hx
    simp only [List.mem_cons] at hx
    rcases hx with rfl | hx
    · exact h1
    · exact htr _ _ _ h1 ((List.pairwise_cons.mp h2).1 x hx)
  have snocR : ∀ {l : List Int} {z : Int}, R z a.endDate → (l ++ [z]).Pairwise R →
      ((l ++ [z]) ++ [a.endDate]).Pairwise R := by
    intro l z h1 h2
    rw [List.pairwise_append]
    refine ⟨h2, by simp, ?_⟩
    intro x hx y hy
    simp only [List.mem_singleton] at hy; subst hy
    rw [List.pairwise_append] at h2
    simp only [List.mem_append, List.mem_singleton] at hx
    rcases hx with hx | rfl
    · exact htr _ _ _ (h2.2.2 x hx z (by simp)) h1
    · exact h1
  cases hb with
  | one => simpa using hlt _ _ v1
  | two f hf hl =>
    have h1 := v2 f hf; have h2 := v3 f hl
    exact consR (hlt _ _ h1.1) (by simpa using hlt _ _ h2.2)
  | fwd hm hs => exact (HF _ _ (Or.inl rfl) hm).sublist (sub hs)
  | bwd hm hs => exact (HB _ _ _ (Or.inl rfl) hm).sublist (sub hs)
  | both hf hl hm =>
    have h1 := v2 _ hf; have h2 := v3 _ hl
    have := snocR (l := _ :: _) (hlt _ _ h2.2) (HB _ _ _ (Or.inr hl) hm)
    exact consR (hlt _ _ h1.1) (by simpa using this)
  | first hf hm hs =>
    have h1 := v2 _ hf
    exact (consR (hlt _ _ h1.1) (HF _ _ (Or.inr hf) hm)).sublist (sub hs)
  | last hl hm hs =>
    have h2 := v3 _ hl
    have := snocR (l := _ :: _) (hlt _ _ h2.2) (HB _ _ _ (Or.inr hl) hm)
    exact this.sublist (sub hs)

/-! ## Weak order without day roll -/

theorem grid_mono {p : GenParams} (h : p.cal.Ok) (hg : NoYearLongClosure p.cal) (hd : p.dayRoll = .unadjusted)
    (anchor : Int) {i j : Int} (hij : i ≤ j) : gridFn p anchor i ≤ gridFn p anchor j := by
  unfold gridFn; rw [hd]; exact rollFn_mono h hg (moved_mono anchor hij)

theorem fwd_weak {p : GenParams} (h : p.cal.Ok) (hg : NoYearLongClosure p.cal) (hd : p.dayRoll = .unadjusted)
    {s e : Int} {m : List Int} (hm : FwdMid p s e m) (hs : ∀ x, RollsTo p.cal p.rollConv s x → s ≤ x) :
    (s :: (m ++ [e])).Pairwise (· ≤ ·) := by
  obtain ⟨h1, h2, h3, hi⟩ := hm
  have hs' := hs _ ((rollsTo_rollFn h h3 s _).mpr rfl)
  apply pairwise_ends (by omega)
  · intro x hx
    obtain ⟨k, rfl, _⟩ := interior_mem hi hx
    have := grid_mono h hg hd s (i := 0) (j := ((k + 1 : Nat) : Int)) (by omega)
    rw [show gridFn p s 0 = rollFn p.cal p.rollConv s by unfold gridFn; rw [hd, moved_zero]; rfl] at this
    omega
  · intro x hx
    obtain ⟨k, rfl, hgo⟩ := interior_mem hi hx
    simp only [decide_eq_true_eq] at hgo; omega
  · exact interior_pairwise hi (fun i j hij => grid_mono h hg hd s (by omega))

theorem bwd_weak {p : GenParams} (h : p.cal.Ok) (hg : NoYearLongClosure p.cal) (hd : p.dayRoll = .unadjusted)
    {s e : Int} {m : List Int} (hm : BwdMid p s e m) (he : ∀ x, RollsTo p.cal p.rollConv e x → x ≤ e) :
    (s :: (m ++ [e])).Pairwise (· ≤ ·) := by
  obtain ⟨h1, h2, h3, hi⟩ := hm
  have he' := he _ ((rollsTo_rollFn h h3 e _).mpr rfl)
  apply pairwise_ends (by omega)
  · intro x hx
    obtain ⟨k, rfl, hgo⟩ := interior_mem hi (List.mem_reverse.mpr hx)
    simp only [decide_eq_true_eq] at hgo; omega
  · intro x hx
    obtain ⟨k, rfl, _⟩ := interior_mem hi (List.mem_reverse.mpr hx)
    have := grid_mono h hg hd e (i := -((k + 1 : Nat) : Int)) (j := 0) (by omega)
    rw [show gridFn p e 0 = rollFn p.cal p.rollConv e by unfold gridFn; rw [hd, moved_zero]; rfl] at this
    omega
  · rw [← List.reverse_reverse m, List.pairwise_reverse]
    exact interior_pairwise hi (fun i j hij => grid_mono h hg hd e (by omega))

/-! ## Strict order for month-based frequencies -/

theorem gap_of_everyMonth {cal : BusCal} (hb : BusDayEveryMonth cal) : NoYearLongClosure cal := by
  intro d
  obtain ⟨b, h1, h2⟩ := hb (addMonths d 1)
  have hm := monthIndex_addMonths d 1
  have hm' := (sameMonth_iff _ _).mp h1
  refine ⟨b, ?_, ?_, h2⟩
  · exact Int.le_of_lt (lt_of_monthIndex_lt (by omega))
  · have c1 := sameMonth_close h1
    -- `addMonths d 1` is at most 62 days after `d`
    have : addMonths d 1 ≤ d + 62 := by
      rcases Int.lt_or_le (d + 62) (addMonths d 1) with hlt | hle
      · exfalso
        have e1 : SameMonth d (addMonths (addMonths d 1) (-1)) := by
          rw [sameMonth_iff, monthIndex_addMonths, hm]; omega
        -- both month ends: the end of `d`'s month is within 30 days, the start of the next month follows it
        obtain ⟨m1, m2, m3⟩ := monthEnd_spec d
        have c2 := sameMonth_close ((sameMonth_iff d (monthEnd d)).mpr m2.symm)
        have hs : monthIndex (monthEnd d + 1) = monthIndex d + 1 := by
          have hv := toCivil_valid d
          have hsame := (sameMonth_iff d (monthEnd d)).mpr m2.symm
          have := toCivil_succ (monthEnd d)
          unfold monthIndex at *
          rw [this]
          unfold Spec.nextDay
          have hl := monthLength_eq (toCivil (monthEnd d)).year (toCivil (monthEnd d)).month
            (toCivil_valid (monthEnd d)).1 (toCivil_valid (monthEnd d)).2.1
          have hday : ¬ (toCivil (monthEnd d)).day < monthLength (toCivil (monthEnd d)).year (toCivil (monthEnd d)).month := by
            rw [hl, m3, hsame.1, hsame.2]; omega
          rw [if_neg hday]
          have hb2 := (toCivil_valid (monthEnd d)).2.1
          split <;> simp only <;> omega
        have c3 := sameMonth_close ((sameMonth_iff (monthEnd d + 1) (addMonths d 1)).mpr (by omega))
        omega
      · exact hle
    omega

theorem rollFn_sameMonth {cal : BusCal} (h : cal.Ok) (hb : BusDayEveryMonth cal) {r : RollConv}
    (hr : r = .modifiedFollowing ∨ r = .modifiedPreceding) (d : Int) : SameMonth d (rollFn cal r d) := by
  have hg := gap_of_everyMonth hb
  obtain ⟨b, b1, b2⟩ := hb d
  have i1 := sameMonthNumber_iff (following_ge h d) (following_lt_300 h hg d)
  have i2 := sameMonthNumber_iff (preceding_le h d) (preceding_gt_300 h hg d)
  rw [sameMonthNumber_comm] at i2
  have fge := following_ge h d
  have ple := preceding_le h d
  rcases Int.le_total d b with hdb | hdb
  · -- the following roll stays in the month
    have hf := following_le_bus h hdb b2
    have sf := sameMonth_between b1 fge hf
    rcases hr with rfl | rfl
    · simp only [rollFn]; rw [if_pos (i1.mpr sf)]; exact sf
    · simp only [rollFn]
      by_cases hp : sameMonthNumber d (preceding cal d) = true
      · rw [if_pos hp]; exact sameMonth_symm (i2.mp hp)
      · rw [if_neg hp]; exact sf
  · have hp := preceding_ge_bus h hdb b2
    have sp := sameMonth_between (sameMonth_symm b1) hp ple
    have sp' : SameMonth (preceding cal d) d := sameMonth_trans (sameMonth_symm sp) (sameMonth_symm b1)
    rcases hr with rfl | rfl
    · simp only [rollFn]
      by_cases hf : sameMonthNumber d (following cal d) = true
      · rw [if_pos hf]; exact i1.mp hf
      · rw [if_neg hf]; exact sameMonth_symm sp'
    · simp only [rollFn]; rw [if_pos (i2.mpr sp')]; exact sameMonth_symm sp'

theorem monthIndex_moved {f : PeriodFreq} (hf : MonthBased f) (d : Int) {i j : Int} (hij : i < j) :
    monthIndex (moved f d i) < monthIndex (moved f d j) := by
  rcases hf with rfl | rfl | rfl | rfl <;> simp only [moved, monthIndex_addMonths] <;> omega

theorem grid_strict {p : GenParams} (h : p.cal.Ok) (hb : BusDayEveryMonth p.cal)
    (hr : p.rollConv = .modifiedFollowing ∨ p.rollConv = .modifiedPreceding) (hf : MonthBased p.freq)
    (anchor : Int) {i j : Int} (hij : i < j) :
    monthIndex (gridFn p anchor i) = monthIndex (moved p.freq anchor i) ∧ gridFn p anchor i < gridFn p anchor j := by
  have key : ∀ k, monthIndex (gridFn p anchor k) = monthIndex (moved p.freq anchor k) := by
    intro k
    have h1 := applyDayRoll_sameMonth p.dayRoll (moved p.freq anchor k)
    have h2 := rollFn_sameMonth h hb hr (applyDayRoll p.dayRoll (moved p.freq anchor k))
    exact ((sameMonth_iff _ _).mp (sameMonth_trans h1 h2)).symm
  refine ⟨key i, ?_⟩
  apply lt_of_monthIndex_lt
  rw [key, key]; exact monthIndex_moved hf anchor hij

theorem fwd_strict {p : GenParams} (h : p.cal.Ok) (hb : BusDayEveryMonth p.cal)
    (hr : p.rollConv = .modifiedFollowing ∨ p.rollConv = .modifiedPreceding) (hf : MonthBased p.freq)
    {s e : Int} {m : List Int} (hm : FwdMid p s e m) : (s :: (m ++ [e])).Pairwise (· < ·) := by
  obtain ⟨h1, h2, h3, hi⟩ := hm
  apply pairwise_ends h1
  · intro x hx
    obtain ⟨k, rfl, _⟩ := interior_mem hi hx
    apply lt_of_monthIndex_lt
    have := monthIndex_moved hf s (i := 0) (j := ((k + 1 : Nat) : Int)) (by omega)
    rw [moved_zero] at this
    have := (grid_strict h hb hr hf s (i := ((k + 1 : Nat) : Int)) (j := ((k + 1 : Nat) : Int) + 1) (by omega)).1
    omega
  · intro x hx
    obtain ⟨k, rfl, hgo⟩ := interior_mem hi hx
    simpa only [decide_eq_true_eq] using hgo
  · exact interior_pairwise hi (fun i j hij => (grid_strict h hb hr hf s (by omega)).2)

theorem bwd_strict {p : GenParams} (h : p.cal.Ok) (hb : BusDayEveryMonth p.cal)
    (hr : p.rollConv = .modifiedFollowing ∨ p.rollConv = .modifiedPreceding) (hf : MonthBased p.freq)
    {s e : Int} {m : List Int} (hm : BwdMid p s e m) : (s :: (m ++ [e])).Pairwise (· < ·) := by
  obtain ⟨h1, h2, h3, hi⟩ := hm
  apply pairwise_ends h1
  · intro x hx
    obtain ⟨k, rfl, hgo⟩ := interior_mem hi (List.mem_reverse.mpr hx)
    simpa only [decide_eq_true_eq] using hgo
  · intro x hx
    obtain ⟨k, rfl, _⟩ := interior_mem hi (List.mem_reverse.mpr hx)
    apply lt_of_monthIndex_lt
    have := monthIndex_moved hf e (i := -((k + 1 : Nat) : Int)) (j := 0) (by omega)
    rw [moved_zero] at this
    have := (grid_strict h hb hr hf e (i := -((k + 1 : Nat) : Int)) (j := 0) (by omega)).1
    omega
  · rw [← List.reverse_reverse m, List.pairwise_reverse]
    exact interior_pairwise hi (fun i j hij => (grid_strict h hb hr hf e (by omega)).2)

end Frm

namespace Frm.Props
open Spec

/-- Without a day roll, and when the dates the generation is anchored on do not themselves roll outwards (business
days never do; on `following` no start does, on `preceding` no end does), every period has `start ≤ end`, and all
dates lie within the trade — for every frequency, stub setting and explicit stub date. -/
theorem C13_ordered {a : ScheduleArgs} (h : a.cal.Ok) (hg : NoYearLongClosure a.cal) (hu : a.rollUser = false)
    (hd : a.dayRoll = .unadjusted)
    (hs : ∀ d, d = a.startDate ∨ a.firstPeriodEnd = some d → ∀ x, RollsTo a.cal a.rollConv d x → d ≤ x)
    (he : ∀ d, d = a.endDate ∨ a.lastPeriodStart = some d → ∀ x, RollsTo a.cal a.rollConv d x → x ≤ d)
    {ps : List (Int × Int)} (hps : makeSchedule a = .ok ps) :
    ∀ p ∈ ps, a.startDate ≤ p.1 ∧ p.1 ≤ p.2 ∧ p.2 ≤ a.endDate := by
  obtain ⟨hv, mid, rfl, hb⟩ := built_of_ok h hu hps
  have hp := built_pairwise (R := (· ≤ ·)) (fun _ _ h => Int.le_of_lt h) (fun _ _ _ => Int.le_trans) hv
    (fun s m hsm hm => fwd_weak h hg hd hm (hs s hsm)) (fun s e m hem hm => bwd_weak h hg hd hm (he e hem)) hb
  intro p hmem
  have h1 := mem_periodsOf hp hmem
  obtain ⟨h2, h3⟩ := mem_periodsOf_dates hmem
  rw [List.pairwise_cons, List.pairwise_append] at hp
  obtain ⟨p1, _, _, p2⟩ := hp
  refine ⟨?_, h1, ?_⟩
  · rcases h2 with h2 | h2
    · omega
    · exact p1 _ (by simp [h2])
  · rcases h3 with h3 | h3
    · omega
    · exact p2 _ h3 _ (by simp)

/-- Monthly or longer frequencies with a modified roll, on a calendar with a business day in every month: all
periods have positive length and all interior dates lie strictly inside the trade — with any day roll, stub setting
and explicit stub date. -/
theorem C13_strict {a : ScheduleArgs} (h : a.cal.Ok) (hb : BusDayEveryMonth a.cal) (hu : a.rollUser = false)
    (hf : MonthBased a.freq) (hr : a.rollConv = .modifiedFollowing ∨ a.rollConv = .modifiedPreceding)
    {ps : List (Int × Int)} (hps : makeSchedule a = .ok ps) :
    (∀ p ∈ ps, p.1 < p.2) ∧ (∀ x ∈ boundaries ps, a.startDate < x ∧ x < a.endDate) ∧
      (boundaries ps).Pairwise (· < ·) := by
  obtain ⟨hv, mid, rfl, hbu⟩ := built_of_ok h hu hps
  have hp := built_pairwise (R := (· < ·)) (fun _ _ h => h) (fun _ _ _ => Int.lt_trans) hv
    (fun s m hsm hm => fwd_strict h hb hr hf hm) (fun s e m hem hm => bwd_strict h hb hr hf hm) hbu
  refine ⟨fun p hmem => mem_periodsOf hp hmem, ?_, ?_⟩
  all_goals
    rw [boundaries_periodsOf]
    rw [List.pairwise_cons, List.pairwise_append] at hp
    obtain ⟨p1, p0, _, p2⟩ := hp
  · intro x hx; exact ⟨p1 x (by simp [hx]), p2 x hx _ (by simp)⟩
  · exact p0

/-- A following roll never moves a date back, a preceding roll never forward, and business days stay: the two
anchoring hypotheses of `C13_ordered` in the usual cases. -/
theorem C13_anchors {cal : BusCal} (h : cal.Ok) {r : RollConv} (d x : Int) (hx : RollsTo cal r d x) :
    (r = .following → d ≤ x) ∧ (r = .preceding → x ≤ d) ∧ (isBusDay cal d = true → x = d) := by
  have hr : r ≠ .unadjusted := by rintro rfl; exact hx
  rw [rollsTo_rollFn h hr] at hx
  subst hx
  refine ⟨?_, ?_, fun hb => rollFn_of_bus h hb⟩
  · rintro rfl; exact following_ge h d
  · rintro rfl; exact preceding_le h d

/-- A daily schedule over a weekend contains zero-length periods: strictness fails without the monthly frequency. -/
theorem C13_daily_repeats :
    makeSchedule { sampleArgs with freq := .daily, rollConv := .following, startDate := mkDate 2024 3 1, endDate := mkDate 2024 3 5, firstPeriodEnd := none, lastStub := .short } =
    .ok [(mkDate 2024 3 1, mkDate 2024 3 4), (mkDate 2024 3 4, mkDate 2024 3 4),
      (mkDate 2024 3 4, mkDate 2024 3 4), (mkDate 2024 3 4, mkDate 2024 3 5)] := by decide +kernel

/-- A day roll on a weekly schedule produces a period that ends before it starts: even weak order fails with a day
roll on frequencies shorter than a month. -/
theorem C13_weekly_dayroll_inverted :
    ∃ ps, makeSchedule { sampleArgs with freq := .weekly, dayRoll := .day 0, startDate := mkDate 2024 3 5, endDate := mkDate 2024 3 28, firstPeriodEnd := none, lastStub := .short } = .ok ps ∧
      ps.head? = some (mkDate 2024 3 5, mkDate 2024 3 1) :=
  ⟨[(mkDate 2024 3 5, mkDate 2024 3 1), (mkDate 2024 3 1, mkDate 2024 3 1), (mkDate 2024 3 1, mkDate 2024 3 1),
    (mkDate 2024 3 1, mkDate 2024 3 28)], by decide +kernel, rfl⟩

theorem weekdaysXmas_everyMonth : BusDayEveryMonth weekdaysXmas := by
  intro d
  obtain ⟨h1, h2, h3, h4⟩ := toCivil_valid d
  have hb := daysInMonth_bounds (toCivil d).year (toCivil d).month
  let f := mkDate (toCivil d).year (toCivil d).month 1
  let j := (-(f + 6)) % 7
  have hj : 0 ≤ j ∧ j < 7 := by simp only [j]; omega
  have hx : f + j = mkDate (toCivil d).year (toCivil d).month (1 + j) := by
    simp only [f, mkDate, ofCivil]; omega
  have hc := mkDate_valid_civil (toCivil d).year (toCivil d).month (1 + j) h1 h2 (by omega) (by omega)
  refine ⟨f + j, ⟨by rw [hx, hc], by rw [hx, hc]⟩, ?_⟩
  have hw : weekday (f + j) = 0 := by unfold weekday; simp only [j]; omega
  have hw' : weekdayFin (f + j) = 0 := by apply Fin.ext; simp [weekdayFin, hw]
  have n1 : f + j ≠ mkDate 2024 12 25 := by intro e; rw [e] at hw; revert hw; decide +kernel
  have n2 : f + j ≠ mkDate 2024 12 26 := by intro e; rw [e] at hw; revert hw; decide +kernel
  simp [isBusDay, weekdaysXmas, hw', n1, n2]

/-- The sample schedule meets the hypotheses of `C13_strict`. -/
example : sampleArgs.cal.Ok ∧ BusDayEveryMonth sampleArgs.cal ∧ sampleArgs.rollUser = false ∧
    MonthBased sampleArgs.freq ∧ returns (makeSchedule sampleArgs) :=
  ⟨weekdaysXmas_ok, weekdaysXmas_everyMonth, rfl, Or.inr (Or.inl rfl),
   ⟨[(mkDate 2024 1 10, mkDate 2024 2 17), (mkDate 2024 2 17, mkDate 2024 5 17),
    (mkDate 2024 5 17, mkDate 2024 8 19), (mkDate 2024 8 19, mkDate 2024 11 18),
    (mkDate 2024 11 18, mkDate 2024 12 10)], by decide +kernel⟩⟩

/-- A weekly backward schedule between business days meets those of `C13_ordered`. -/
example : isBusDay weekdaysXmas (mkDate 2024 12 18) = true ∧ isBusDay weekdaysXmas (mkDate 2025 1 8) = true ∧
    makeSchedule { sampleArgs with freq := .weekly, startDate := mkDate 2024 12 18, endDate := mkDate 2025 1 8, firstPeriodEnd := none } =
    .ok [(mkDate 2024 12 18, mkDate 2024 12 27), (mkDate 2024 12 27, mkDate 2025 1 1),
      (mkDate 2025 1 1, mkDate 2025 1 8)] := by decide +kernel

end Frm.Props
