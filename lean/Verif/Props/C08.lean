import Verif.Model.Tenor
import Verif.Props.C05
import Verif.Props.C07

/-! # C08 — FX curve and spot dates -/

namespace Frm
open Spec

theorem stepBusDays_count {cal : BusCal} (h : cal.Ok) {a : Int} (ha : isBusDay cal a = true) (n : Nat) :
    a ≤ stepBusDays cal a n ∧ busDaysBetween cal a (stepBusDays cal a n) = n := by
  have := iter_next_spec h n ha
  unfold stepBusDays; rw [if_pos (by omega)]
  simp only [Int.toNat_natCast]
  exact ⟨this.2.1, this.2.2⟩

theorem getFxSpotDayOffset_nonneg {p : Str} {o : Int} (h : getFxSpotDayOffset p = some o) : o = 1 ∨ o = 2 := by
  unfold getFxSpotDayOffset at h
  split at h
  · split at h
    · left; simpa using h.symm
    · right; simpa using h.symm
  · cases h

end Frm

namespace Frm.Props
open Spec

/-- From the curve date: the curve date is returned unchanged, the offset is the market lag, and the spot date is the
business day exactly that many business days after the first business day on or after the curve date. -/
theorem C08_from_curve_date {cal : BusCal} (h : cal.Ok) {pair : Str} (hp : pair.length = 6) (c : Int) (u : Option Int) :
    ∃ lag s r, getFxSpotDayOffset pair = some lag ∧ resolveFxCurveDates pair cal (some c) u none = .ok (c, lag, s) ∧
      FirstOnOrAfter cal c r ∧ r < s ∧ isBusDay cal s = true ∧ (busDaysBetween cal r s : Int) = lag := by
  obtain ⟨lag, hl⟩ : ∃ lag, getFxSpotDayOffset pair = some lag := by
    unfold getFxSpotDayOffset; rw [if_pos hp]; split <;> exact ⟨_, rfl⟩
  have hpos := getFxSpotDayOffset_nonneg hl
  have hb := following_bus h c
  obtain ⟨n, rfl⟩ : ∃ n : Nat, lag = n := ⟨lag.toNat, by omega⟩
  obtain ⟨s1, s2⟩ := stepBusDays_count h hb n
  refine ⟨n, stepBusDays cal (following cal c) n, following cal c, hl, ?_, following_spec h c, ?_,
    stepBusDays_bus h hb n, by rw [s2]⟩
  · unfold resolveFxCurveDates
    cases u <;> simp [hl, busdayOffset, rollDate] <;> rfl
  · rcases Int.lt_or_eq_of_le s1 with hlt | heq
    · exact hlt
    · rw [← heq, busDaysBetween_self] at s2; omega

/-- From the spot date: the curve date is the business day exactly the lag before the last business day on or before the
spot date. -/
theorem C08_from_spot_date {cal : BusCal} (h : cal.Ok) {pair : Str} (hp : pair.length = 6) (s : Int) (u : Option Int) :
    ∃ lag c r, getFxSpotDayOffset pair = some lag ∧ resolveFxCurveDates pair cal none u (some s) = .ok (c, lag, s) ∧
      LastOnOrBefore cal s r ∧ c < r ∧ isBusDay cal c = true ∧ (busDaysBetween cal c r : Int) = lag := by
  obtain ⟨lag, hl⟩ : ∃ lag, getFxSpotDayOffset pair = some lag := by
    unfold getFxSpotDayOffset; rw [if_pos hp]; split <;> exact ⟨_, rfl⟩
  have hpos := getFxSpotDayOffset_nonneg hl
  have hb := preceding_bus h s
  obtain ⟨n, rfl⟩ : ∃ n : Nat, lag = n := ⟨lag.toNat, by omega⟩
  have hi := iter_prev_spec h n hb
  have hstep : stepBusDays cal (preceding cal s) (-n) = iter (prevBusDay cal) n (preceding cal s) := by
    unfold stepBusDays; rw [if_neg (by omega), Int.neg_neg, Int.toNat_natCast]
  refine ⟨n, stepBusDays cal (preceding cal s) (-n), preceding cal s, hl, ?_, preceding_spec h s, ?_,
    stepBusDays_bus h hb _, by rw [hstep, hi.2.2]⟩
  · unfold resolveFxCurveDates
    cases u <;> simp [hl, busdayOffset, rollDate] <;> rfl
  · rw [hstep]
    rcases Int.lt_or_eq_of_le hi.2.1 with hlt | heq
    · exact hlt
    · have := hi.2.2; rw [heq, busDaysBetween_self] at this; omega

/-- Resolving from a business curve date and then from the resulting spot date returns the same triple, and conversely. -/
theorem C08_round_trip {cal : BusCal} (h : cal.Ok) {pair : Str} {x y z : Int} :
    (isBusDay cal x = true → resolveFxCurveDates pair cal (some x) none none = .ok (x, y, z) →
      resolveFxCurveDates pair cal none none (some z) = .ok (x, y, z)) ∧
    (isBusDay cal z = true → resolveFxCurveDates pair cal none none (some z) = .ok (x, y, z) →
      resolveFxCurveDates pair cal (some x) none none = .ok (x, y, z)) := by
  cases hl : getFxSpotDayOffset pair with
  | none =>
    constructor <;> intro _ hr <;> simp [resolveFxCurveDates, hl] at hr <;> cases hr
  | some lag =>
    constructor
    · intro hb hr
      have hr' : (Except.ok (x, lag, stepBusDays cal (following cal x) lag) : Except Err _) = .ok (x, y, z) := by
        rw [← hr]; simp [resolveFxCurveDates, hl, busdayOffset, rollDate]; rfl
      simp only [Except.ok.injEq, Prod.mk.injEq, true_and] at hr'
      obtain ⟨rfl, rfl⟩ := hr'
      rw [following_of_bus h hb]
      have hz := stepBusDays_bus h hb lag
      have : resolveFxCurveDates pair cal none none (some (stepBusDays cal x lag)) =
          .ok (stepBusDays cal (preceding cal (stepBusDays cal x lag)) (-lag), lag, stepBusDays cal x lag) := by
        simp [resolveFxCurveDates, hl, busdayOffset, rollDate]; rfl
      rw [this, preceding_of_bus h hz, stepBusDays_neg h lag hb]
    · intro hb hr
      have hr' : (Except.ok (stepBusDays cal (preceding cal z) (-lag), lag, z) : Except Err _) = .ok (x, y, z) := by
        rw [← hr]; simp [resolveFxCurveDates, hl, busdayOffset, rollDate]; rfl
      simp only [Except.ok.injEq, Prod.mk.injEq, and_true] at hr'
      obtain ⟨rfl, rfl⟩ := hr'
      rw [preceding_of_bus h hb]
      have hz := stepBusDays_bus h hb (-lag)
      have : resolveFxCurveDates pair cal (some (stepBusDays cal z (-lag))) none none =
          .ok (stepBusDays cal z (-lag), lag, stepBusDays cal (following cal (stepBusDays cal z (-lag))) lag) := by
        simp [resolveFxCurveDates, hl, busdayOffset, rollDate]; rfl
      rw [this, following_of_bus h hz]
      have := stepBusDays_neg h (-lag) hb
      rw [Int.neg_neg] at this
      rw [this]

/-- A spot offset supplied together with a single date is ignored. -/
theorem C08_user_offset_ignored (pair : Str) (cal : BusCal) (d o : Int) :
    resolveFxCurveDates pair cal (some d) (some o) none = resolveFxCurveDates pair cal (some d) none none ∧
    resolveFxCurveDates pair cal none (some o) (some d) = resolveFxCurveDates pair cal none none (some d) :=
  ⟨rfl, rfl⟩

/-- Neither date: the call raises. -/
theorem C08_no_dates (pair : Str) (cal : BusCal) (u : Option Int) :
    resolveFxCurveDates pair cal none u none = .error .attribute := by
  cases u <;> rfl

/-- Both dates and no offset: the normal situation, curve date before spot date, always raises `AssertionError`
(the assertion in `calc_implied_business_day_offset` has the order reversed). -/
theorem C08_both_dates_raise (pair : Str) (cal : BusCal) {c s : Int} (hlt : c < s) :
    resolveFxCurveDates pair cal (some c) none (some s) = .error .assertion := by
  have : ¬ c ≥ s := by omega
  simp [resolveFxCurveDates, calcImpliedBusinessDayOffset, pyAssert, this]
  rfl

/-- Both dates and no offset: whenever the call returns, it reports offset 0 (so the reported offset is the number of
business days between them only when there are none). -/
theorem C08_both_dates_partial (pair : Str) (cal : BusCal) {c s x y z : Int}
    (hr : resolveFxCurveDates pair cal (some c) none (some s) = .ok (x, y, z)) :
    x = c ∧ z = s ∧ y = 0 ∧ s ≤ c ∧ (busDaysBetween cal c s : Int) = y := by
  by_cases hlt : c < s
  · rw [C08_both_dates_raise pair cal hlt] at hr; cases hr
  · have hge : c ≥ s := by omega
    have e : (s - c).toNat = 0 := by omega
    have : resolveFxCurveDates pair cal (some c) none (some s) = .ok (c, 0, s) := by
      simp [resolveFxCurveDates, calcImpliedBusinessDayOffset, pyAssert, hge, e, impliedOffsetLoop]
      rfl
    rw [this] at hr
    simp only [Except.ok.injEq, Prod.mk.injEq] at hr
    obtain ⟨rfl, rfl, rfl⟩ := hr
    refine ⟨rfl, rfl, rfl, hge, ?_⟩
    unfold busDaysBetween; rw [e]; rfl

/-- Both dates and an offset: always `TypeError` (wrong keyword), consistent or not. -/
theorem C08_all_three_raise (pair : Str) (cal : BusCal) (c s o : Int) :
    resolveFxCurveDates pair cal (some c) (some o) (some s) = .error .type := rfl

example : resolveFxCurveDates "audusd".toList weekdaysXmas (some (mkDate 2024 12 24)) none none =
    .ok (mkDate 2024 12 24, 2, mkDate 2024 12 30) := by decide +kernel
example : resolveFxCurveDates "usdcad".toList weekdaysXmas none none (some (mkDate 2024 12 27)) =
    .ok (mkDate 2024 12 24, 1, mkDate 2024 12 27) := by decide +kernel

end Frm.Props
