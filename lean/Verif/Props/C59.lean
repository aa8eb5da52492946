import Verif.Model.MonteCarlo
import Mathlib.Algebra.BigOperators.Group.Finset.Basic
import Mathlib.Algebra.BigOperators.Intervals
import Mathlib.Tactic.Linarith
import Mathlib.Tactic.NormNum
import Mathlib.Tactic.Tauto

/-!
# C59: geometric Brownian motion paths

With one variable the paths are right.  With several variables the parameters are broadcast along the simulations instead of the
variables: the call is refused unless there are as many simulations as variables, and then simulation `s` of every variable uses the
parameters of variable `s`.
-/

namespace Frm
namespace Spec

set_option autoImplicit false

/-- The growth over step `i`: `(mu - vol²/2) dt + vol √dt z`. -/
noncomputable def gbmIncrement (mu vol dt z : ℝ) : ℝ := (mu - vol ^ 2 / 2) * dt + vol * Real.sqrt dt * z

/-- The arguments describe `steps ≥ 2` steps of `m` variables: initial prices in one row; drifts and volatilities one row per step. -/
def GbmShapes (initial drift vol : Grid) (dt : List ℝ) (z : Cube) (steps m : Nat) : Prop :=
  dt.length = steps ∧ z.steps = steps ∧ z.vars = m ∧ initial.rows = 1 ∧ initial.cols = m ∧
    drift.rows = steps ∧ drift.cols = m ∧ vol.rows = steps ∧ vol.cols = m

end Spec
end Frm

namespace Frm.Props

set_option autoImplicit false

open Frm Frm.Spec

theorem gbmPath_eq (m : Nat) (initial : Nat → ℝ) (drift vol : Nat → Nat → ℝ) (dt : Nat → ℝ) (z : Nat → Nat → Nat → ℝ) (t v s : Nat)
    (hpos : ∀ i < t, 0 ≤ dt i) :
    gbmPath m initial drift vol dt z t v s = some (initial (bcastIndex m s) *
      Real.exp ((Finset.range t).sum (fun i => gbmIncrement (drift i (bcastIndex m s)) (vol i (bcastIndex m s)) (dt i) (z i v s)))) := by
  induction t with
  | zero => simp [gbmPath]
  | succ t ih =>
    rw [gbmPath, if_neg (not_lt.2 (hpos t (Nat.lt_succ_self t))), ih (fun i hi => hpos i (by omega)), Finset.sum_range_succ, Option.map_some,
      mul_assoc, ← Real.exp_add]
    congr 3
    simp only [gbmIncrement]
    rw [add_right_inj]
    ring

theorem gbmPath_nan (m : Nat) (initial : Nat → ℝ) (drift vol : Nat → Nat → ℝ) (dt : Nat → ℝ) (z : Nat → Nat → Nat → ℝ) (t v s : Nat)
    (hneg : ∃ i < t, dt i < 0) : gbmPath m initial drift vol dt z t v s = none := by
  induction t with
  | zero => obtain ⟨i, hi, -⟩ := hneg; omega
  | succ t ih =>
    rw [gbmPath]
    by_cases h : dt t < 0
    · rw [if_pos h]
    · obtain ⟨i, hi, hd⟩ := hneg
      have hit : i ≠ t := by rintro rfl; exact h hd
      rw [if_neg h, ih ⟨i, by omega, hd⟩, Option.map_none]

theorem gbm_one {initial drift vol : Grid} {dt : List ℝ} {z : Cube} {steps : Nat} (h1 : dt.length = steps) (h2 : z.steps = steps)
    (h3 : z.vars = 1) (h4 : initial.rows = 1) (h5 : initial.cols = 1) (h6 : (columnOf drift).rows = steps) (h7 : (columnOf drift).cols = 1)
    (h8 : (columnOf vol).rows = steps) (h9 : (columnOf vol).cols = 1) :
    simulateGbm initial drift vol dt z = .ok ⟨steps + 1, 1, z.sims,
      gbmPath 1 (initial.get 0) (columnOf drift).get (columnOf vol).get (fun i => dt.getD i 0) z.get⟩ := by
  unfold simulateGbm
  simp only
  rw [if_neg, if_neg, if_pos (Or.inl h5), h5, h2, h3]
  · rintro (h | h | h)
    · exact h (h5.trans h7.symm)
    · exact h (h5.trans h9.symm)
    · exact h (h5.trans h3.symm)
  · rintro (h | h | h | h)
    · exact h (h1.trans h6.symm)
    · exact h (h1.trans h8.symm)
    · exact h (h1.trans h2.symm)
    · exact h h4

/-- One variable, its drift and volatility given per step as a row: the result has one more row than steps; every path starts at the initial
price, and its ratio to the initial price is the exponential of the sum of its increments, so positive prices stay positive.  After a step of
negative length the prices are `nan`.  Missing for the full property: several variables. -/
theorem C59_one_partial (initial drift vol : Grid) (dt : List ℝ) (z : Cube) (n : Nat) (hdt : dt.length = n) (hz : z.steps = n) (hv : z.vars = 1)
    (hi : initial.rows = 1 ∧ initial.cols = 1) (hd : drift.rows = 1 ∧ drift.cols = n) (hw : vol.rows = 1 ∧ vol.cols = n) :
    ∃ x, simulateGbm initial drift vol dt z = .ok x ∧ x.steps = n + 1 ∧ x.vars = 1 ∧ x.sims = z.sims ∧
      (∀ s, x.get 0 0 s = some (initial.get 0 0)) ∧
      (∀ t s, (∃ i < t, dt.getD i 0 < 0) → x.get t 0 s = none) ∧
      ∀ t s, (∀ i < t, 0 ≤ dt.getD i 0) → ∃ S, x.get t 0 s = some S ∧ S = initial.get 0 0 *
          Real.exp ((Finset.range t).sum (fun i => gbmIncrement (drift.get 0 i) (vol.get 0 i) (dt.getD i 0) (z.get i 0 s))) ∧
        (0 < initial.get 0 0 → 0 < S ∧ Real.log S = Real.log (initial.get 0 0) +
          (Finset.range t).sum (fun i => gbmIncrement (drift.get 0 i) (vol.get 0 i) (dt.getD i 0) (z.get i 0 s))) := by
  have cd : columnOf drift = ⟨drift.cols, 1, fun i _ => drift.get 0 i⟩ := by unfold columnOf; rw [if_pos hd.1]
  have cw : columnOf vol = ⟨vol.cols, 1, fun i _ => vol.get 0 i⟩ := by unfold columnOf; rw [if_pos hw.1]
  have hok := gbm_one (drift := drift) (vol := vol) hdt hz hv hi.1 hi.2 (by rw [cd]; exact hd.2) (by rw [cd]) (by rw [cw]; exact hw.2) (by rw [cw])
  refine ⟨_, hok, rfl, rfl, rfl, ?_, fun t s hneg => gbmPath_nan _ _ _ _ _ _ t 0 s hneg, fun t s hpos => ⟨_, ?_, rfl, fun h0 => ?_⟩⟩
  · intro s
    simp [gbmPath, bcastIndex]
  · show gbmPath _ _ _ _ _ _ t 0 s = _
    rw [gbmPath_eq _ _ _ _ _ _ _ _ _ hpos, cd, cw]
    rfl
  · refine ⟨mul_pos h0 (Real.exp_pos _), ?_⟩
    rw [Real.log_mul h0.ne' (Real.exp_pos _).ne', Real.log_exp]

/-- The same when drift and volatility are given as a column of at least two steps. -/
theorem C59_column_partial (initial drift vol : Grid) (dt : List ℝ) (z : Cube) (n : Nat) (hn : 2 ≤ n) (hs : GbmShapes initial drift vol dt z n 1) :
    ∃ x, simulateGbm initial drift vol dt z = .ok x ∧ x.steps = n + 1 ∧ x.vars = 1 ∧ x.sims = z.sims ∧
      (∀ t s, (∃ i < t, dt.getD i 0 < 0) → x.get t 0 s = none) ∧
      ∀ t s, (∀ i < t, 0 ≤ dt.getD i 0) → x.get t 0 s = some (initial.get 0 0 *
        Real.exp ((Finset.range t).sum (fun i => gbmIncrement (drift.get i 0) (vol.get i 0) (dt.getD i 0) (z.get i 0 s)))) := by
  obtain ⟨h1, h2, h3, h4, h5, h6, h7, h8, h9⟩ := hs
  have cd : columnOf drift = drift := by unfold columnOf; rw [if_neg (by omega)]
  have cw : columnOf vol = vol := by unfold columnOf; rw [if_neg (by omega)]
  have hok := gbm_one (drift := drift) (vol := vol) h1 h2 h3 h4 h5 (by rw [cd]; exact h6) (by rw [cd]; exact h7) (by rw [cw]; exact h8)
    (by rw [cw]; exact h9)
  refine ⟨_, hok, rfl, rfl, rfl, fun t s hneg => gbmPath_nan _ _ _ _ _ _ t 0 s hneg, fun t s hpos => ?_⟩
  simp only
  rw [gbmPath_eq _ _ _ _ _ _ _ _ _ hpos, cd, cw]
  rfl

/-- Several variables: refused with `ValueError` unless there are exactly as many simulations as variables. -/
theorem C59_many_refused (initial drift vol : Grid) (dt : List ℝ) (z : Cube) (n m : Nat) (hn : 2 ≤ n) (hm : 2 ≤ m)
    (hs : GbmShapes initial drift vol dt z n m) (hne : z.sims ≠ m) : simulateGbm initial drift vol dt z = .error .value := by
  obtain ⟨h1, h2, h3, h4, h5, h6, h7, h8, h9⟩ := hs
  have cd : columnOf drift = drift := by unfold columnOf; rw [if_neg (by omega)]
  have cw : columnOf vol = vol := by unfold columnOf; rw [if_neg (by omega)]
  unfold simulateGbm
  simp only [cd, cw]
  rw [if_neg (by omega), if_neg (by omega), if_neg (by omega)]

/-- And with as many simulations as variables, simulation `s` of every variable `v` uses the initial price, drifts and volatilities of variable
`s`. -/
theorem C59_many_mixed (initial drift vol : Grid) (dt : List ℝ) (z : Cube) (n m : Nat) (hn : 2 ≤ n) (hm : 2 ≤ m)
    (hs : GbmShapes initial drift vol dt z n m) (heq : z.sims = m) :
    ∃ x, simulateGbm initial drift vol dt z = .ok x ∧ (∀ t v s, (∃ i < t, dt.getD i 0 < 0) → x.get t v s = none) ∧
      ∀ t v s, (∀ i < t, 0 ≤ dt.getD i 0) → x.get t v s = some (initial.get 0 s *
      Real.exp ((Finset.range t).sum (fun i => gbmIncrement (drift.get i s) (vol.get i s) (dt.getD i 0) (z.get i v s)))) := by
  obtain ⟨h1, h2, h3, h4, h5, h6, h7, h8, h9⟩ := hs
  have cd : columnOf drift = drift := by unfold columnOf; rw [if_neg (by omega)]
  have cw : columnOf vol = vol := by unfold columnOf; rw [if_neg (by omega)]
  unfold simulateGbm
  simp only [cd, cw]
  rw [if_neg (by omega), if_neg (by omega), if_pos (by omega)]
  refine ⟨_, rfl, fun t v s hneg => gbmPath_nan _ _ _ _ _ _ t v s hneg, fun t v s hpos => ?_⟩
  simp only
  rw [gbmPath_eq _ _ _ _ _ _ _ _ _ hpos, h5]
  have hb : bcastIndex m s = s := by unfold bcastIndex; rw [if_neg (by omega)]
  rw [hb]

/-- Several variables over a single step: refused with `AssertionError`, because the row of parameters is turned into a column. -/
theorem C59_many_one_step (initial drift vol : Grid) (dt : List ℝ) (z : Cube) (m : Nat) (hm : 2 ≤ m)
    (hs : GbmShapes initial drift vol dt z 1 m) : simulateGbm initial drift vol dt z = .error .assertion := by
  obtain ⟨h1, h2, h3, h4, h5, h6, h7, h8, h9⟩ := hs
  have cd : columnOf drift = ⟨drift.cols, 1, fun i _ => drift.get 0 i⟩ := by unfold columnOf; rw [if_pos h6]
  unfold simulateGbm
  simp only [cd]
  rw [if_pos (by omega)]

/-- Mismatched shapes are refused with `AssertionError`: step lengths against drifts or draws, initial prices against draws. -/
theorem C59_shapes (initial drift vol : Grid) (dt : List ℝ) (z : Cube)
    (h : dt.length ≠ z.steps ∨ initial.rows ≠ 1 ∨ initial.cols ≠ z.vars ∨
      (2 ≤ drift.rows ∧ (drift.rows ≠ dt.length ∨ drift.cols ≠ initial.cols)) ∨ (drift.rows = 1 ∧ (drift.cols ≠ dt.length ∨ initial.cols ≠ 1)) ∨
      (2 ≤ vol.rows ∧ (vol.rows ≠ dt.length ∨ vol.cols ≠ initial.cols)) ∨ (vol.rows = 1 ∧ (vol.cols ≠ dt.length ∨ initial.cols ≠ 1))) :
    simulateGbm initial drift vol dt z = .error .assertion := by
  have hdr : ∀ g : Grid, 2 ≤ g.rows → columnOf g = g := fun g hg => by unfold columnOf; rw [if_neg (by omega)]
  have hdo : ∀ g : Grid, g.rows = 1 → columnOf g = ⟨g.cols, 1, fun i _ => g.get 0 i⟩ := fun g hg => by unfold columnOf; rw [if_pos hg]
  unfold simulateGbm
  simp only
  by_cases h1 : dt.length ≠ (columnOf drift).rows ∨ dt.length ≠ (columnOf vol).rows ∨ dt.length ≠ z.steps ∨ initial.rows ≠ 1
  · rw [if_pos h1]
  · rw [if_neg h1]
    by_cases h2 : initial.cols ≠ (columnOf drift).cols ∨ initial.cols ≠ (columnOf vol).cols ∨ initial.cols ≠ z.vars
    · rw [if_pos h2]
    · exfalso
      simp only [not_or, ne_eq, not_not] at h1 h2
      rcases h with h | h | h | ⟨hr, h⟩ | ⟨hr, h⟩ | ⟨hr, h⟩ | ⟨hr, h⟩
      · exact h h1.2.2.1
      · exact h h1.2.2.2
      · exact h h2.2.2
      · rw [hdr _ hr] at h1 h2
        omega
      · rw [hdo _ hr] at h1 h2
        simp only at h1 h2
        omega
      · rw [hdr _ hr] at h1 h2
        omega
      · rw [hdo _ hr] at h1 h2
        simp only at h1 h2
        omega

/-- The four steps of the module's own example meet the hypotheses. -/
example : ∃ (initial drift vol : Grid) (dt : List ℝ) (z : Cube), dt.length = 4 ∧ z.steps = 4 ∧ z.vars = 1 ∧ (initial.rows = 1 ∧ initial.cols = 1) ∧
    (drift.rows = 1 ∧ drift.cols = 4) ∧ (vol.rows = 1 ∧ vol.cols = 4) ∧ 0 < initial.get 0 0 :=
  ⟨⟨1, 1, fun _ _ => 0.6629⟩, ⟨1, 4, fun _ i => [0.0095, 0.0055, -0.0002, -0.0034].getD i 0⟩, ⟨1, 4, fun _ i => [0.0973, 0.101, 0.0975, 0.1097].getD i 0⟩,
    [0.5, 0.5, 0.5, 0.5], ⟨4, 1, 1000000, fun _ _ _ => 0⟩, rfl, rfl, rfl, ⟨rfl, rfl⟩, ⟨rfl, rfl⟩, ⟨rfl, rfl⟩, by norm_num⟩

/-- Two variables, three steps, five simulations. -/
example : GbmShapes ⟨1, 2, fun _ _ => 1⟩ ⟨3, 2, fun _ _ => 0⟩ ⟨3, 2, fun _ _ => 0.1⟩ [1, 1, 1] ⟨3, 2, 5, fun _ _ _ => 0⟩ 3 2 :=
  ⟨rfl, rfl, rfl, rfl, rfl, rfl, rfl, rfl, rfl⟩

end Frm.Props
