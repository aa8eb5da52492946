import Verif.Props.C10

/-! # C11 — Year fractions -/

namespace Frm.Props
open Spec

/-- Fixed-denominator bases: the day count over 360, 365 or 366. -/
theorem C11_fixed_denominator (b : DayCountBasis) (dpy : Int)
    (hb : (b, dpy) ∈ [(DayCountBasis.b30_360, 360), (.b30E_360, 360), (.b30E_360_ISDA, 360), (.act_360, 360),
      (.act_365, 365), (.act_366, 366)])
    (flag : Option (List Bool)) {s e : List Int} {r : List Int} (h : dayCount s e b flag = .ok r) :
    yearFrac s e b flag = .ok (r.map (fun (n : Int) => (n : Rat) / dpy)) ∧ b.daysPerYear = some dpy := by
  simp only [List.mem_cons, Prod.mk.injEq, List.not_mem_nil, or_false] at hb
  rcases hb with ⟨rfl, rfl⟩ | ⟨rfl, rfl⟩ | ⟨rfl, rfl⟩ | ⟨rfl, rfl⟩ | ⟨rfl, rfl⟩ | ⟨rfl, rfl⟩ <;>
    (refine ⟨?_, rfl⟩; unfold yearFrac; rw [h]; simp [Except.map])

/-- A year fraction exists exactly when the day count does. -/
theorem C11_errors (b : DayCountBasis) (flag : Option (List Bool)) (s e : List Int) (err : Err) :
    yearFrac s e b flag = .error err ↔ dayCount s e b flag = .error err := by
  unfold yearFrac
  cases b
  case act_act =>
    unfold dayCount
    simp only
    cases checkOrder (sameShape s e).1 (sameShape s e).2 <;> simp
  all_goals
    simp only
    cases dayCount s e _ flag <;> simp [Except.map]

/-- ACT/ACT is the sum over the elapsed days of one over the length of the day's calendar year. -/
theorem C11_act_act_day_weighted {s e : Int} (h : s ≤ e) :
    yearFrac [s] [e] .act_act none = .ok [daySum s (e - s).toNat] := by
  unfold yearFrac
  rw [sameShape_single]
  simp only [checkOrder_single, if_pos h]
  simp only [List.zip_cons_cons, List.zip_nil_right, List.map_cons, List.map_nil]
  rw [yearFracActAct_eq, daySum_eq]
  have : s + ((e - s).toNat : Int) = e := by omega
  rw [this]

/-- The vector call, pair by pair. -/
theorem C11_act_act_vector {s e : List Int} (hl : s.length = e.length)
    (ho : ∀ i (hs : i < s.length) (he : i < e.length), s[i] ≤ e[i]) :
    ∃ r, yearFrac s e .act_act none = .ok r ∧ Pairwise₂ (fun a z => daySum a (z - a).toNat) s e r := by
  refine ⟨(s.zip e).map (fun p => yearFracActAct p.1 p.2), ?_, ?_, ?_⟩
  · unfold yearFrac; rw [sameShape_eq_length hl]; simp only [checkOrder_ok hl ho]
  · simp [hl]
  · intro i hs he hr
    simp only [List.getElem_map, List.getElem_zip]
    rw [yearFracActAct_eq, daySum_eq]
    have := ho i hs he
    have : s[i] + ((e[i] - s[i]).toNat : Int) = e[i] := by omega
    rw [this]

/-- Additive over adjacent periods. -/
theorem C11_additive {x y z : Int} (h1 : x ≤ y) (h2 : y ≤ z) :
    ∃ p q, yearFrac [x] [y] .act_act none = .ok [p] ∧ yearFrac [y] [z] .act_act none = .ok [q] ∧
      yearFrac [x] [z] .act_act none = .ok [p + q] := by
  refine ⟨_, _, C11_act_act_day_weighted h1, C11_act_act_day_weighted h2, ?_⟩
  rw [C11_act_act_day_weighted (by omega : x ≤ z)]
  congr 2
  rw [daySum_eq, daySum_eq, daySum_eq]
  have e1 : x + ((y - x).toNat : Int) = y := by omega
  have e2 : y + ((z - y).toNat : Int) = z := by omega
  have e3 : x + ((z - x).toNat : Int) = z := by omega
  rw [e1, e2, e3]; ring

/-- Zero for an empty period, positive otherwise, strictly increasing in the end date. -/
theorem C11_strictly_increasing {s e e' : Int} (h : s ≤ e) (h' : e < e') :
    ∃ p q, yearFrac [s] [e] .act_act none = .ok [p] ∧ yearFrac [s] [e'] .act_act none = .ok [q] ∧ 0 ≤ p ∧ p < q := by
  obtain ⟨p, q, hp, hq, hpq⟩ := C11_additive h (by omega : e ≤ e')
  refine ⟨p, p + q, hp, hpq, ?_, ?_⟩
  · rw [C11_act_act_day_weighted h] at hp
    simp only [Except.ok.injEq, List.cons.injEq, and_true] at hp
    rw [← hp]
    cases (e - s).toNat with
    | zero => simp [daySum]
    | succ n => exact (daySum_pos s n).le
  · rw [C11_act_act_day_weighted (by omega : e ≤ e')] at hq
    simp only [Except.ok.injEq, List.cons.injEq, and_true] at hq
    have : (e' - e).toNat = ((e' - e).toNat - 1) + 1 := by omega
    have hpos := daySum_pos e ((e' - e).toNat - 1)
    rw [← this, hq] at hpos
    linarith

/-- Between the firsts of January of two years: exactly the number of years. -/
theorem C11_whole_years {y : Int} (n : Nat) :
    yearFrac [mkDate y 1 1] [mkDate (y + n) 1 1] .act_act none = .ok [(n : Rat)] := by
  have v : ∀ x : Int, (toCivil (mkDate x 1 1)).year = x ∧ toCivil (mkDate x 1 1) = ⟨x, 1, 1⟩ := by
    intro x
    have := mkDate_valid_civil x 1 1 (by omega) (by omega) (by omega) (by have := daysInMonth_bounds x 1; omega)
    exact ⟨by rw [this], this⟩
  have hle : mkDate y 1 1 ≤ mkDate (y + n) 1 1 := by
    rw [jan1_eq, jan1_eq]
    have := daysBeforeYear_mono (by omega : y ≤ y + n)
    omega
  unfold yearFrac
  rw [sameShape_single]
  simp only [checkOrder_single, if_pos hle, List.zip_cons_cons, List.zip_nil_right, List.map_cons, List.map_nil]
  rw [yearFracActAct_eq]
  unfold actActPos
  rw [(v _).1, (v _).1]
  simp

example : yearFrac [mkDate 2023 7 1] [mkDate 2025 7 1] .act_act none = .ok [2] := by decide +kernel
example : yearFrac [mkDate 2024 1 1] [mkDate 2024 7 1] .act_act none = .ok [182 / 366] := by decide +kernel

end Frm.Props
