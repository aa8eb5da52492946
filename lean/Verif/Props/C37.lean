import Verif.Props.C35
import Verif.Proofs.CurveObject

/-! # C37 — Curve lookups return one value per requested date -/

namespace Frm
open Spec

set_option autoImplicit false

section
variable {cd : Int} {basis : DayCountBasis} {cal : BusCal} {z : ZeroCurve}

/-- The discount factor of a date of the table. -/
noncomputable def dfOf (z : ZeroCurve) (d : Int) : ℝ := ((z.daily.find? (fun r => r.date == d)).map (·.discountFactor)).getD 0

open Classical in
/-- Dates outside the table disappear; the others get one value each. -/
theorem discountFactors_eq (h : IsCurve cd basis cal z)
    (dates : List Int) :
    z.discountFactors dates = (dates.filter (fun d => decide (InRange z d))).map (fun d => some (dfOf z d)) := by
  obtain ⟨-, -, -, last, hle, hdates, hrow⟩ := curve_ok h
  unfold ZeroCurve.discountFactors
  rw [curve_indexDates hle hdates, List.map_map]
  have : dates.filter (fun d => decide (cd ≤ d) && decide (d ≤ last)) = dates.filter (fun d => decide (InRange z d)) := by
    apply List.filter_congr
    intro d _
    rw [Bool.eq_iff_iff]
    simp only [Bool.and_eq_true, decide_eq_true_eq]
    exact (curve_inRange h hle hdates d).symm
  rw [this]
  apply List.map_congr_left
  intro d hd
  have hd := (curve_inRange h hle hdates d).mp (of_decide_eq_true (List.mem_filter.mp hd).2)
  obtain ⟨y, r, -, -, hf, -⟩ := hrow d hd.1 hd.2
  simp only [Function.comp, hf, Option.map_some, dfOf, Option.getD_some]

theorem discountFactors_all (h : IsCurve cd basis cal z)
    {dates : List Int} (hd : ∀ d ∈ dates, InRange z d) : z.discountFactors dates = dates.map (fun d => some (dfOf z d)) := by
  classical
  rw [discountFactors_eq h]
  congr 1
  rw [List.filter_eq_self]
  intro d hdm
  simpa using hd d hdm

theorem dfOf_pos (h : IsCurve cd basis cal z) {d : Int}
    (hd : InRange z d) : 0 < dfOf z d := by
  obtain ⟨-, -, -, last, hle, hdates, hrow⟩ := curve_ok h
  have hr := (curve_inRange h hle hdates d).mp hd
  obtain ⟨y, r, -, -, hf, -, hpos, -⟩ := hrow d hr.1 hr.2
  simpa [dfOf, hf] using hpos

end
end Frm

namespace Frm.Props
open Spec

set_option autoImplicit false

section
variable {cd : Int} {basis : DayCountBasis} {cal : BusCal} {z : ZeroCurve}

/-- Requests within the table: one value per date, in the order requested, each the value of that date alone. -/
theorem C37_in_range_partial (h : IsCurve cd basis cal z)
    (dates : List Int) (hd : ∀ d ∈ dates, InRange z d) :
    (z.discountFactors dates).length = dates.length ∧ ∀ (i : Nat) (d : Int), dates[i]? = some d →
      ∃ v : ℝ, z.discountFactors [d] = [some v] ∧ (z.discountFactors dates)[i]? = some (some v) := by
  rw [discountFactors_all h hd]
  refine ⟨by simp, ?_⟩
  intro i d hi
  refine ⟨dfOf z d, ?_, by simp [hi]⟩
  rw [discountFactors_all h (by simpa using hd d (List.mem_of_getElem? hi))]
  rfl

/-- A single date outside the table raises `IndexError`; inside, it is accepted. -/
theorem C37_single_date (h : IsCurve cd basis cal z) (d : Int) :
    (InRange z d ↔ ∃ v : ℝ, z.discountFactor d = .ok (some v)) ∧ (¬ InRange z d ↔ z.discountFactor d = .error .index) := by
  classical
  have hin : InRange z d → ∃ v : ℝ, z.discountFactor d = .ok (some v) := by
    intro hd
    refine ⟨dfOf z d, ?_⟩
    unfold ZeroCurve.discountFactor
    rw [discountFactors_all h (by simpa using hd)]
    rfl
  have hout : ¬ InRange z d → z.discountFactor d = .error .index := by
    intro hd
    unfold ZeroCurve.discountFactor
    rw [discountFactors_eq h]
    simp [hd]
  refine ⟨⟨hin, ?_⟩, ⟨hout, ?_⟩⟩
  · rintro ⟨v, hv⟩
    by_contra hd
    rw [hout hd] at hv; cases hv
  · intro he hd
    obtain ⟨v, hv⟩ := hin hd
    rw [hv] at he; cases he

/-- Defect: vector requests outside the table are silently dropped, so the remaining values move to other positions:
the result is that of the request without those dates. -/
theorem C37_dropped (h : IsCurve cd basis cal z)
    (pre post : List Int) (d : Int) (hd : ¬ InRange z d) :
    z.discountFactors (pre ++ d :: post) = z.discountFactors (pre ++ post) := by
  classical
  rw [discountFactors_eq h, discountFactors_eq h]
  simp [List.filter_append, List.filter_cons, hd]

/-- The day before the curve date is outside every curve: the property fails for every curve. -/
theorem C37_fails (h : IsCurve cd basis cal z) :
    z.discountFactors [cd - 1] = [] := by
  classical
  have hcd := (curve_ok h).1
  rw [discountFactors_eq h]
  have : ¬ InRange z (cd - 1) := by intro hr; have := hr.1; omega
  simp [this]

/-- Defect: two forward rates, the second period ending after the table.  No error is raised; the second rate is computed
with the discount factor of the first period's end. -/
theorem C37_borrowed_factor (h : IsCurve cd basis cal z)
    (s1 s2 e1 e2 : Int) (hb : Plain basis e1) (h1 : s1 ≤ e1) (h2 : s2 ≤ e2) (hs1 : InRange z s1) (hs2 : InRange z s2) (he1 : InRange z e1)
    (he2 : ¬ InRange z e2) : ∃ t1 t2 : Rat, yearFrac [s1] [e1] basis none = .ok [t1] ∧
      yearFrac [s2] [e2] basis none = .ok [t2] ∧
      z.forwardRates [s1, s2] [e1, e2] .simple = .ok [forwardRate .simple t1 (dfOf z s1) (dfOf z e1),
        forwardRate .simple t2 (dfOf z s2) (dfOf z e1)] := by
  classical
  obtain ⟨hcd, hzb, -⟩ := curve_ok h
  have hy : ∃ y1 y2, yearFrac [s1, s2] [e1, e2] basis none = .ok [y1, y2] := by
    have hc : checkOrder [s1, s2] [e1, e2] = .ok () := by simp [checkOrder, pyAssert, h1, h2]
    unfold yearFrac dayCount
    have hs : sameShape [s1, s2] [e1, e2] = ([s1, s2], [e1, e2]) := rfl
    rw [hs]
    cases basis <;> simp [hc, Except.map, defaultTermination, List.range_succ]
  obtain ⟨y1, y2, hy⟩ := hy
  have hy1 := yearFrac_get hy hb (k := 0) (s := s1) (e := e1) rfl rfl
  have hy2 : ∃ y, yearFrac [s2] [e2] basis none = .ok [y] ∧ [y1, y2][1]? = some y := by
    obtain ⟨-, y, hy', hr⟩ := yearFrac_get_flag hy (k := 1) (s := s2) (e := e2) rfl rfl
    exact ⟨y, by rw [← hy']; exact (yearFrac_flag (.inr rfl)).symm, hr⟩
  obtain ⟨t1, ht1, ht1'⟩ := hy1
  obtain ⟨t2, ht2, ht2'⟩ := hy2
  simp only [List.getElem?_cons_zero, List.getElem?_cons_succ, Option.some.injEq] at ht1' ht2'
  subst ht1' ht2'
  refine ⟨y1, y2, ht1, ht2, ?_⟩
  have d1 : z.discountFactors [s1, s2] = [some (dfOf z s1), some (dfOf z s2)] :=
    discountFactors_all h (by simp [hs1, hs2])
  have d2 : z.discountFactors [e1, e2] = [some (dfOf z e1)] := by
    rw [discountFactors_eq h]
    simp [he1, he2]
  have a1 := hs1.1
  have a2 := hs2.1
  unfold ZeroCurve.forwardRates ratioRates
  simp only [hzb, hy, d1, d2, bind, Except.bind, pyAssert, List.length_cons, List.length_nil, decide_true, if_true,
    List.all_cons, List.all_nil, a1, a2, Bool.and_self, List.zip_cons_cons, List.zip_nil_right, h1, h2, npBroadcast]
  simp

/-- Defect: looking up by years always raises under linear interpolation. -/
theorem C37_years_raise (z : ZeroCurve) (l : List ℝ) : z.indexDailyData { years := some l } = .error .value := rfl

end

/-- Exactly one of the three keyword arguments must be given. -/
theorem C37_one_argument (z : ZeroCurve) (a : LookupArgs) (r : List (Option DailyRow)) (h : z.indexDailyData a = .ok r) :
    (a.dates.isSome ∧ a.days = none ∨ a.dates = none ∧ a.days.isSome) ∧ a.years = none := by
  unfold ZeroCurve.indexDailyData at h
  split at h <;> simp_all

end Frm.Props
