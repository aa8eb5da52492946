import Verif.Props.C36
import Verif.Props.C10

/-!
# C36: periods that end with February, under 30E/360 ISDA
-/

namespace Frm.Props
open Spec
set_option autoImplicit false
section
variable {cd : Int} {c : PillarColumns} {freq : Option CompoundingFreq} {cal : BusCal} {z : ZeroCurve}

theorem isda_single {s e : Int} (h : s ≤ e) (t : Bool) :
    yearFrac [s] [e] .b30E_360_ISDA (some [t]) = .ok [(count30E_360_ISDA s e t : Rat) / 360] := by
  unfold yearFrac dayCount
  simp only [sameShape_single, checkOrder_single, if_pos h]
  rfl

theorem isda_february {s e : Int} (h : s < e) (hf : LastOfFeb (toCivil e)) :
    0 < count30E_360_ISDA s e true ∧ count30E_360_ISDA s e true < count30E_360_ISDA s e false := by
  have ho := civil_order h.le
  have hv := toCivil_valid s
  have hd := daysInMonth_bounds (toCivil s).year (toCivil s).month
  obtain ⟨v1, v2, v3, v4⟩ := hv
  obtain ⟨hm, hday⟩ := hf
  have hne : toCivil s ≠ toCivil e := fun hc => by
    have := congrArg ofCivil hc
    rw [ofCivil_toCivil, ofCivil_toCivil] at this
    omega
  rw [C10_30E_360_ISDA, C10_30E_360_ISDA]
  unfold thirty360
  have hF : LastOfFeb (toCivil e) := ⟨hm, hday⟩
  have hday' : (toCivil e).day = 28 ∨ (toCivil e).day = 29 := by
    rw [hday]
    split <;> simp
  have h31 : (toCivil e).day ≠ 31 := by omega
  simp only [hF, h31, false_or, true_and, if_true, Bool.true_eq_false, if_false]
  have hd1 : (if (toCivil s).day = 31 ∨ LastOfFeb (toCivil s) then 30 else (toCivil s).day) ≤ 30 := by
    split <;> omega
  rcases ho with ⟨hy, hm', hle⟩ | hlt
  · have hlt : (toCivil s).day < (toCivil e).day := by
      rcases hle.lt_or_eq with hlt | heq
      · exact hlt
      · refine absurd ?_ hne
        generalize toCivil s = u at hy hm' heq
        generalize toCivil e = w at hy hm' heq
        cases u
        cases w
        simp_all
    have hns : ¬ ((toCivil s).day = 31 ∨ LastOfFeb (toCivil s)) := by
      rintro (hc | ⟨-, hc⟩)
      · omega
      · rw [hy, ← hday] at hc
        omega
    rw [if_neg hns]
    omega
  · omega

/-- **C36.**  Defect: under 30E/360 ISDA the forward rate of a period that ends on the last day of February depends on whether it is the last
of the periods asked for, because the day count takes the last one for the termination date. -/
theorem C36_february (h : IsCurve cd .b30E_360_ISDA cal z) (s e s' e' : Int) (hs : InRange z s) (he : InRange z e)
    (hs' : InRange z s') (he' : InRange z e') (hse : s < e) (hse' : s' ≤ e') (hf : LastOfFeb (toCivil e)) (a b : ℝ)
    (ha : z.discountFactors [s] = [some a]) (hb : z.discountFactors [e] = [some b]) (hab : a ≠ b) :
    ∃ (x y : ℝ) (w : Option ℝ), z.forwardRates [s] [e] .simple = .ok [some x] ∧ z.forwardRates [s, s'] [e, e'] .simple = .ok [some y, w] ∧ x ≠ y := by
  obtain ⟨h0, h1⟩ := isda_february hse hf
  obtain ⟨l, hl, hll, hlg⟩ := C36_reproduces h [s] [e] rfl (by simpa using hs) (by simpa using he) (by simpa using hse.le) .simple (by simp)
  obtain ⟨m, hm, hml, hmg⟩ := C36_reproduces h [s, s'] [e, e'] rfl (by simpa using ⟨hs, hs'⟩) (by simpa using ⟨he, he'⟩)
    (by simpa using ⟨hse.le, hse'⟩) .simple (by simp)
  obtain ⟨dt, a1, b1, hdt, -, ha1, hb1, hx⟩ := hlg 0 s e rfl rfl
  obtain ⟨du, a2, b2, hdu, -, ha2, hb2, hy⟩ := hmg 0 s e rfl rfl
  rw [ha] at ha1 ha2
  rw [hb] at hb1 hb2
  cases ha1; cases ha2; cases hb1; cases hb2
  have e1 : (dt : ℝ) = (count30E_360_ISDA s e true : ℝ) / 360 := by
    have := (isda_single hse.le true).symm.trans hdt
    simp only [Except.ok.injEq, List.cons.injEq, and_true] at this
    rw [← this]; push_cast; rfl
  have e2 : (du : ℝ) = (count30E_360_ISDA s e false : ℝ) / 360 := by
    have := (isda_single hse.le false).symm.trans hdu
    simp only [Except.ok.injEq, List.cons.injEq, and_true] at this
    rw [← this]; push_cast; rfl
  have c0 : (0 : ℝ) < count30E_360_ISDA s e true := by exact_mod_cast h0
  have c1 : (count30E_360_ISDA s e true : ℝ) < count30E_360_ISDA s e false := by exact_mod_cast h1
  obtain ⟨x, hx1, hx2⟩ := hx (by rw [e1]; positivity)
  obtain ⟨y, hy1, hy2⟩ := hy (by rw [e2]; have := c0.trans c1; positivity)
  match l, hll, m, hml with
  | [p], _, [q, w], _ =>
    simp only [List.getElem?_cons_zero, Option.some.injEq] at hx1 hy1
    subst hx1 hy1
    refine ⟨x, y, w, hl, hm, ?_⟩
    rintro rfl
    simp only [growth] at hx2 hy2
    have hz : x * ((dt : ℝ) - du) = 0 := by linarith
    rcases mul_eq_zero.1 hz with h2 | h2
    · rw [h2, zero_mul, add_zero] at hx2
      have hb0 : b ≠ 0 := by
        rintro rfl
        simp at hx2
      rw [eq_comm, div_eq_one_iff_eq hb0] at hx2
      exact hab hx2
    · rw [e1, e2] at h2
      linarith
end

/-- The year from 31 January 2024 on 30E/360 ISDA, one factor quoted: the month to 29 February has another rate alone than before another period. -/
example (cal : BusCal) : ∃ z, makeZeroCurve (mkDate 2024 1 31) { date := some [mkDate 2025 1 31], discountFactor := some [0.97] }
    none .b30E_360_ISDA cal = .ok z ∧ ∃ (x y : ℝ) (w : Option ℝ),
      z.forwardRates [mkDate 2024 1 31] [mkDate 2024 2 29] .simple = .ok [some x] ∧
      z.forwardRates [mkDate 2024 1 31, mkDate 2024 2 29] [mkDate 2024 2 29, mkDate 2024 3 31] .simple = .ok [some y, w] ∧ x ≠ y := by
  have hyf : yearFrac [mkDate 2024 1 31] [mkDate 2025 1 31] .b30E_360_ISDA none = .ok [1] := by decide +kernel
  have hpp : processPillars cal .b30E_360_ISDA (mkDate 2024 1 31) none { date := some [mkDate 2025 1 31], discountFactor := some [0.97] } =
      .ok [{ date := some (mkDate 2024 1 31), years := 0, discountFactor := 1 },
        { date := some (mkDate 2025 1 31), years := 1, discountFactor := 0.97 }] := by
    unfold processPillars
    have hc : chooseColumns { date := some [mkDate 2025 1 31], discountFactor := some [0.97] } =
      .ok (.date [mkDate 2025 1 31], .discountFactor [0.97]) := rfl
    simp only [hc, bind, Except.bind, pillarTimes, hyf, Except.map, pillarValues, List.map_cons, List.map_nil,
      List.zip_cons_cons, List.zip_nil_right, List.insertionSort, List.foldr, List.orderedInsert]
    norm_num
  have hlast : lastDay .b30E_360_ISDA (mkDate 2024 1 31) [{ date := some (mkDate 2024 1 31), years := 0, discountFactor := 1 },
      { date := some (mkDate 2025 1 31), years := 1, discountFactor := 0.97 }] = .ok (mkDate 2025 1 31) := rfl
  obtain ⟨ys, hys⟩ : ∃ ys, yearFrac [mkDate 2024 1 31] (dateRange (mkDate 2024 1 31) (mkDate 2025 1 31)) .b30E_360_ISDA none = .ok ys := by
    have : (yearFrac [mkDate 2024 1 31] (dateRange (mkDate 2024 1 31) (mkDate 2025 1 31)) .b30E_360_ISDA none).isOk = true := by decide +kernel
    cases hh : yearFrac [mkDate 2024 1 31] (dateRange (mkDate 2024 1 31) (mkDate 2025 1 31)) .b30E_360_ISDA none with
    | error e => rw [hh] at this; cases this
    | ok ys => exact ⟨ys, rfl⟩
  obtain ⟨z, hz, hzp⟩ : ∃ z, makeZeroCurve (mkDate 2024 1 31) { date := some [mkDate 2025 1 31], discountFactor := some [0.97] }
      none .b30E_360_ISDA cal = .ok z ∧ z.pillars = [{ date := some (mkDate 2024 1 31), years := 0, discountFactor := 1 },
        { date := some (mkDate 2025 1 31), years := 1, discountFactor := 0.97 }] := by
    unfold makeZeroCurve
    simp only [hpp, bind, Except.bind, setupDaily, hlast, hys]
    exact ⟨_, rfl, rfl⟩
  have hin := fun d => inRange_iff hz (last := mkDate 2025 1 31) (by rw [hzp]; rfl) d
  have hpts : points z = [(0, 1), (1, 0.97)] := by
    unfold points
    rw [hzp]
    rfl
  have hg : GoodPillars (points z) := by
    rw [hpts]
    refine ⟨by simp, ?_⟩
    simp only [List.mem_cons, List.not_mem_nil, or_false]
    rintro p (rfl | rfl) <;> norm_num
  have i0 : InRange z (mkDate 2024 1 31) := (hin _).2 (by decide)
  have i1 : InRange z (mkDate 2024 2 29) := (hin _).2 (by decide)
  have i2 : InRange z (mkDate 2024 3 31) := (hin _).2 (by decide)
  have i3 : InRange z (mkDate 2024 4 1) := (hin _).2 (by decide)
  have ha := (C35_february hz hg (mkDate 2024 1 31) i0 false (by
    refine ⟨fun hc => Bool.noConfusion hc, fun hc => ?_⟩
    exact absurd (hc _ i3) (by decide)) 0 (by decide +kernel)).1 1 (by rw [hpts]; simp)
  obtain ⟨b, hb, hb0, hb1⟩ := (C35_february hz hg (mkDate 2024 2 29) i1 false (by
    refine ⟨fun hc => Bool.noConfusion hc, fun hc => ?_⟩
    exact absurd (hc _ i3) (by decide)) (1 / 12) (by decide +kernel)).2 (0, 1) (1, 0.97) ⟨[], [], by rw [hpts]; rfl⟩
      (by norm_num) (by norm_num)
  refine ⟨z, hz, C36_february (.linear hz) _ _ _ _ i0 i1 i1 i2 (by decide) (by decide) (by decide) 1 b ha hb ?_⟩
  rintro rfl
  norm_num at hb1
end Frm.Props
