import Verif.Model.Hw1f
import Verif.Proofs.Expectation
import Mathlib.Analysis.SpecialFunctions.Integrals.Basic

/-! # The Hull–White bond function -/

namespace Frm
open MeasureTheory Set Filter Topology Classical

set_option autoImplicit false

theorem hwB_eq {a t1 t2 : ℝ} (ha : 1e-8 ≤ a) : hwB a t1 t2 = (1 - Real.exp (-a * (t2 - t1))) / a := by
  unfold hwB
  rw [if_neg (not_lt.2 ha)]
  ring

theorem hwB_small {a t1 t2 : ℝ} (ha : a < 1e-8) : hwB a t1 t2 = t2 - t1 := by
  unfold hwB
  rw [if_pos ha]

theorem alpha_pos {a : ℝ} (ha : 1e-8 ≤ a) : 0 < a := lt_of_lt_of_le (by norm_num) ha

theorem integral_exp_neg {a d : ℝ} (ha : a ≠ 0) : ∫ u in (0 : ℝ)..d, Real.exp (-a * u) = (1 - Real.exp (-a * d)) / a := by
  have h : ∀ u ∈ uIcc (0 : ℝ) d, HasDerivAt (fun u => -Real.exp (-a * u) / a) (Real.exp (-a * u)) u := by
    intro u _
    have h1 : HasDerivAt (fun u : ℝ => -a * u) (-a) u := by simpa using (hasDerivAt_id u).const_mul (-a)
    refine ((h1.exp.neg).div_const a).congr_deriv ?_
    field_simp
  rw [intervalIntegral.integral_eq_sub_of_hasDerivAt h (by apply Continuous.intervalIntegrable; fun_prop)]
  simp
  field_simp
  ring

/-- The derivative of the bond function in the first time. -/
theorem hwB_hasDerivAt {a T : ℝ} (ha : 1e-8 ≤ a) (t : ℝ) : HasDerivAt (fun t => hwB a t T) (a * hwB a t T - 1) t := by
  have e : (fun t => hwB a t T) = fun t => (1 - Real.exp (-a * (T - t))) / a := by funext t; exact hwB_eq ha
  have hp := alpha_pos ha
  rw [e, hwB_eq ha]
  have h1 : HasDerivAt (fun t : ℝ => -a * (T - t)) a t := by
    simpa using ((hasDerivAt_id t).const_sub T).const_mul (-a)
  refine ((h1.exp.const_sub 1).div_const a).congr_deriv ?_
  field_simp
  ring

theorem hwB_continuous (a T : ℝ) : Continuous (fun t => hwB a t T) := by
  by_cases ha : a < 1e-8
  · have : (fun t => hwB a t T) = fun t => T - t := by funext t; exact hwB_small ha
    rw [this]; fun_prop
  · have : (fun t => hwB a t T) = fun t => (1 - Real.exp (-a * (T - t))) / a := by funext t; exact hwB_eq (not_lt.1 ha)
    rw [this]; fun_prop

theorem hwB_self (a t : ℝ) : hwB a t t = 0 := by unfold hwB; simp

theorem hwB_strictMono (a t1 : ℝ) : StrictMono (hwB a t1) := by
  intro x y h
  by_cases ha : a < 1e-8
  · rw [hwB_small ha, hwB_small ha]; linarith
  · have ha' := not_lt.1 ha
    rw [hwB_eq ha', hwB_eq ha']
    have hp := alpha_pos ha'
    apply div_lt_div_of_pos_right _ hp
    have : Real.exp (-a * (y - t1)) < Real.exp (-a * (x - t1)) := by
      apply Real.exp_lt_exp.2; nlinarith
    linarith

theorem hwB_pos {a t1 t2 : ℝ} (h : t1 < t2) : 0 < hwB a t1 t2 := by
  have := hwB_strictMono a t1 h
  rwa [hwB_self] at this

theorem hwB_le {a t1 t2 : ℝ} : hwB a t1 t2 ≤ t2 - t1 := by
  by_cases ha : a < 1e-8
  · rw [hwB_small ha]
  · have ha' := not_lt.1 ha
    have hp := alpha_pos ha'
    rw [hwB_eq ha', div_le_iff₀ hp]
    have := Real.add_one_le_exp (-a * (t2 - t1))
    linarith

end Frm
