import Verif.Props.C09

/-! # C10 — 30/360 day counts -/

namespace Frm.Props
open Spec

/-- 30/360 ("bond basis"): D1 = 30 for the 31st; D2 = 30 for the 31st when the start day is 30 or 31. -/
theorem C10_30_360 (s e : Int) :
    count30_360 s e = thirty360 (toCivil s) (toCivil e)
      (if (toCivil s).day = 31 then 30 else (toCivil s).day)
      (if (toCivil e).day = 31 ∧ ((toCivil s).day = 30 ∨ (toCivil s).day = 31) then 30 else (toCivil e).day) := by
  unfold count30_360 thirty360
  simp only
  split <;> split <;> split <;> omega

/-- 30E/360: both 31sts become 30. -/
theorem C10_30E_360 (s e : Int) :
    count30E_360 s e = thirty360 (toCivil s) (toCivil e)
      (if (toCivil s).day = 31 then 30 else (toCivil s).day)
      (if (toCivil e).day = 31 then 30 else (toCivil e).day) := by
  unfold count30E_360 thirty360
  simp only; omega

/-- 30E/360 (ISDA): as 30E/360, and the last day of February becomes 30, except an end date that is the termination
date. -/
theorem C10_30E_360_ISDA (s e : Int) (term : Bool) :
    count30E_360_ISDA s e term = thirty360 (toCivil s) (toCivil e)
      (if (toCivil s).day = 31 ∨ LastOfFeb (toCivil s) then 30 else (toCivil s).day)
      (if (toCivil e).day = 31 ∨ (LastOfFeb (toCivil e) ∧ term = false) then 30 else (toCivil e).day) := by
  unfold count30E_360_ISDA thirty360
  simp only [Bool.or_eq_true, Bool.and_eq_true, decide_eq_true_eq, isLastDayOfFeb_iff, Bool.not_eq_true']
  omega

/-- The vector call returns one count per pair; for ISDA only the last end date is the termination date unless flags are
passed. -/
theorem C10_vector {s e : List Int}
    (hl : s.length = e.length) (ho : ∀ i (hs : i < s.length) (he : i < e.length), s[i] ≤ e[i]) :
    (∃ r, dayCount s e .b30_360 none = .ok r ∧ Pairwise₂ count30_360 s e r) ∧
    (∃ r, dayCount s e .b30E_360 none = .ok r ∧ Pairwise₂ count30E_360 s e r) ∧
    (∃ r, dayCount s e .b30E_360_ISDA none = .ok r ∧ r.length = s.length ∧
      ∀ i (hs : i < s.length) (he : i < e.length) (hr : i < r.length),
        r[i] = count30E_360_ISDA s[i] e[i] (decide (i + 1 = s.length))) ∧
    (∀ f : List Bool, f.length = s.length → ∃ r, dayCount s e .b30E_360_ISDA (some f) = .ok r ∧ r.length = s.length ∧
      ∀ i (hs : i < s.length) (he : i < e.length) (hr : i < r.length) (hf : i < f.length),
        r[i] = count30E_360_ISDA s[i] e[i] f[i]) := by
  refine ⟨⟨_, ?_, pairwise_zip_map count30_360 hl⟩, ⟨_, ?_, pairwise_zip_map count30E_360 hl⟩, ?_, ?_⟩
  · unfold dayCount; rw [sameShape_eq_length hl]; simp only [checkOrder_ok hl ho]
  · unfold dayCount; rw [sameShape_eq_length hl]; simp only [checkOrder_ok hl ho]
  · refine ⟨((s.zip e).zip (defaultTermination e.length)).map (fun p => count30E_360_ISDA p.1.1 p.1.2 p.2), ?_, ?_, ?_⟩
    · unfold dayCount; rw [sameShape_eq_length hl]; simp only [checkOrder_ok hl ho]
    · simp [defaultTermination, hl]
    · intro i hs he hr
      simp only [List.getElem_map, List.getElem_zip, defaultTermination, List.getElem_range]
      congr 1
      rw [Bool.eq_iff_iff]
      simp only [Bool.not_eq_true', decide_eq_false_iff_not, decide_eq_true_eq]
      omega
  · intro f hf
    refine ⟨((s.zip e).zip f).map (fun p => count30E_360_ISDA p.1.1 p.1.2 p.2), ?_, ?_, ?_⟩
    · unfold dayCount; rw [sameShape_eq_length hl]; simp only [checkOrder_ok hl ho]
    · simp [hl, hf]
    · intro i hs he hr hfi
      simp

/-- A scalar termination flag with several periods silently truncates the ISDA result to one element. -/
theorem C10_scalar_flag_truncates {s e : List Int} (flag : Bool)
    (hl : s.length = e.length) (h2 : 2 ≤ s.length)
    (ho : ∀ i (hs : i < s.length) (he : i < e.length), s[i] ≤ e[i]) :
    ∃ r, dayCount s e .b30E_360_ISDA (some [flag]) = .ok r ∧ r.length = 1 ∧ r.length ≠ s.length := by
  refine ⟨((s.zip e).zip [flag]).map (fun p => count30E_360_ISDA p.1.1 p.1.2 p.2), ?_, ?_, ?_⟩
  · unfold dayCount; rw [sameShape_eq_length hl]; simp only [checkOrder_ok hl ho]
  · simp; omega
  · simp; omega

/-- `k` whole months from a day that exists in every month count `30k` days: on 30/360 and 30E/360 from days up to 28,
on ISDA up to 27 (the 28th may be the last day of February). -/
theorem C10_whole_months (s k : Int) (term : Bool) :
    ((toCivil s).day ≤ 28 →
      count30_360 s (addMonths s k) = 30 * k ∧ count30E_360 s (addMonths s k) = 30 * k) ∧
    ((toCivil s).day ≤ 27 → count30E_360_ISDA s (addMonths s k) term = 30 * k) := by
  have hm := monthIndex_addMonths s k
  have hd := day_addMonths s k
  have hb := daysInMonth_bounds (toCivil (addMonths s k)).year (toCivil (addMonths s k)).month
  unfold monthIndex at hm
  constructor
  · intro h
    have hd' : (toCivil (addMonths s k)).day = (toCivil s).day := by omega
    constructor
    · rw [C10_30_360]; unfold thirty360; rw [hd']
      rw [if_neg (by omega), if_neg (by omega)]; omega
    · rw [C10_30E_360]; unfold thirty360; rw [hd']
      rw [if_neg (by omega)]; omega
  · intro h
    have hd' : (toCivil (addMonths s k)).day = (toCivil s).day := by omega
    rw [C10_30E_360_ISDA]; unfold thirty360
    have n1 : ¬ LastOfFeb (toCivil s) := by
      rintro ⟨_, h2⟩; split at h2 <;> omega
    have n2 : ¬ LastOfFeb (toCivil (addMonths s k)) := by
      rintro ⟨_, h2⟩; split at h2 <;> omega
    simp only [n1, n2, false_and, or_false, hd']
    omega

/-- A full year counts 360 days, from every date except 29 February. -/
theorem C10_full_year (s : Int) (h : ¬ ((toCivil s).month = 2 ∧ (toCivil s).day = 29)) :
    count30_360 s (addMonths s 12) = 360 ∧ count30E_360 s (addMonths s 12) = 360 := by
  have hm := monthIndex_addMonths s 12
  have hd := day_addMonths s 12
  obtain ⟨v1, v2, v3, v4⟩ := toCivil_valid s
  obtain ⟨w1, w2, w3, w4⟩ := toCivil_valid (addMonths s 12)
  unfold monthIndex at hm
  have hmon : (toCivil (addMonths s 12)).month = (toCivil s).month := by omega
  have hyr : (toCivil (addMonths s 12)).year = (toCivil s).year + 1 := by omega
  have hday : (toCivil (addMonths s 12)).day = (toCivil s).day := by
    rw [hd, hmon, hyr]
    have : (toCivil s).day ≤ daysInMonth ((toCivil s).year + 1) (toCivil s).month := by
      unfold daysInMonth at v4 ⊢
      split
      · rename_i h2
        rw [if_pos h2] at v4
        have : (toCivil s).day ≠ 29 := fun hh => h ⟨h2, hh⟩
        split at v4 <;> split <;> omega
      · rename_i h2
        rw [if_neg h2] at v4
        exact v4
    omega
  constructor
  · rw [C10_30_360]; unfold thirty360; rw [hmon, hyr, hday]
    split <;> split <;> omega
  · rw [C10_30E_360]; unfold thirty360; rw [hmon, hyr, hday]
    omega

/-- Never negative for ordered dates (30/360 and 30E/360 always; ISDA when the end date is not a February termination
date). -/
theorem C10_nonneg {s e : Int} (h : s ≤ e) :
    0 ≤ count30_360 s e ∧ 0 ≤ count30E_360 s e ∧ 0 ≤ count30E_360_ISDA s e false ∧
    (¬ LastOfFeb (toCivil e) → 0 ≤ count30E_360_ISDA s e true) := by
  have ho := civil_order h
  obtain ⟨v1, v2, v3, v4⟩ := toCivil_valid s
  obtain ⟨w1, w2, w3, w4⟩ := toCivil_valid e
  have b1 := daysInMonth_bounds (toCivil s).year (toCivil s).month
  have b2 := daysInMonth_bounds (toCivil e).year (toCivil e).month
  refine ⟨?_, ?_, ?_, ?_⟩
  · rw [C10_30_360]; unfold thirty360
    split <;> split <;> omega
  · rw [C10_30E_360]; unfold thirty360
    split <;> split <;> omega
  · rw [C10_30E_360_ISDA]; unfold thirty360
    simp only [and_true]
    rcases ho with ⟨h1, h2, h3⟩ | h1
    · by_cases hf : LastOfFeb (toCivil s)
      · have hd : LastOfFeb (toCivil e) := by
          refine ⟨by rw [← h2]; exact hf.1, ?_⟩
          have hml := monthLength_eq (toCivil e).year 2 (by omega) (by omega)
          rw [← h2, hf.1, ← hml] at w4
          have := hf.2
          rw [h1] at this
          have e1 : monthLength (toCivil e).year 2 = if Leap (toCivil e).year then 29 else 28 := rfl
          omega
        rw [if_pos (Or.inr hf), if_pos (Or.inr hd)]; omega
      · simp only [hf, or_false]
        split <;> split <;> omega
    · split <;> split <;> omega
  · intro hne
    rw [C10_30E_360_ISDA]; unfold thirty360
    rcases ho with ⟨h1, h2, h3⟩ | h1
    · have hf : ¬ LastOfFeb (toCivil s) := by
        intro hf
        apply hne
        refine ⟨by rw [← h2]; exact hf.1, ?_⟩
        have hml := monthLength_eq (toCivil e).year 2 (by omega) (by omega)
        rw [← h2, hf.1, ← hml] at w4
        have := hf.2
        rw [h1] at this
        have e1 : monthLength (toCivil e).year 2 = if Leap (toCivil e).year then 29 else 28 := rfl
        omega
      simp only [hf, hne, or_false, false_and]
      split <;> split <;> omega
    · split <;> split <;> omega

/-- The exception is real: a zero-length period on a February termination date counts −2. -/
theorem C10_isda_negative : ∃ d, count30E_360_ISDA d d true = -2 :=
  ⟨mkDate 2023 2 28, by decide +kernel⟩

/-- Splitting a period is additive: 30E/360 at every date; ISDA at every date that is not flagged as termination;
30/360 at a date with day at most 28, unless the period runs from a 30th/31st to a 31st. -/
theorem C10_additive (a b c : Int) (term : Bool) :
    count30E_360 a b + count30E_360 b c = count30E_360 a c ∧
    count30E_360_ISDA a b false + count30E_360_ISDA b c term = count30E_360_ISDA a c term ∧
    ((toCivil b).day ≤ 28 → ((toCivil a).day < 30 ∨ (toCivil c).day ≠ 31) →
      count30_360 a b + count30_360 b c = count30_360 a c) := by
  refine ⟨?_, ?_, ?_⟩
  · simp only [C10_30E_360, thirty360]; omega
  · simp only [C10_30E_360_ISDA, thirty360, and_true]
    omega
  · intro h1 h2
    simp only [C10_30_360, thirty360]
    rw [if_neg (by omega : ¬ ((toCivil b).day = 31 ∧ _)), if_neg (by omega : ¬ (toCivil b).day = 31)]
    rw [if_neg (by omega : ¬ ((toCivil c).day = 31 ∧ ((toCivil b).day = 30 ∨ (toCivil b).day = 31)))]
    split <;> split <;> omega

/-- The restriction for 30/360 is needed: 30 January – 15 February – 31 March loses a day. -/
theorem C10_bond_basis_not_additive :
    ∃ a b c, a ≤ b ∧ b ≤ c ∧ (toCivil b).day ≤ 28 ∧ count30_360 a b + count30_360 b c ≠ count30_360 a c :=
  ⟨mkDate 2023 1 30, mkDate 2023 2 15, mkDate 2023 3 31, by decide +kernel⟩

example : dayCount [mkDate 2023 1 31] [mkDate 2023 2 28] .b30E_360_ISDA (some [false]) = .ok [30] := by decide +kernel
example : dayCount [mkDate 2023 1 31] [mkDate 2023 2 28] .b30_360 none = .ok [28] := by decide +kernel
example : (toCivil (mkDate 2023 1 27)).day ≤ 27 := by decide +kernel

end Frm.Props
