import Verif.Model.MonteCarlo
import Mathlib.Algebra.BigOperators.Group.Finset.Basic
import Mathlib.Algebra.BigOperators.Intervals
import Mathlib.Tactic.Linarith
import Mathlib.Tactic.NormNum

/-!
# C57: antithetic sampling

For an even number of simulations every draw is paired with its negative.  For an odd number the result is one simulation short and the
pairing is broken.
-/

namespace Frm.Props

set_option autoImplicit false

open Frm

/-- Which requests are refused, and how. -/
theorem C57_refused (gen : Generator) (steps vars sims : Int) (antithetic : Bool) (seed : Nat) :
    (generateRandNbs gen steps vars sims antithetic seed = .error .assertion ↔ steps < 1 ∨ vars < 1 ∨ sims < 1) ∧
    (generateRandNbs gen steps vars sims antithetic seed = .error .value ↔
      (1 ≤ steps ∧ 1 ≤ vars ∧ 1 ≤ sims) ∧ (100000000 < steps * sims ∨ (antithetic = true ∧ sims = 1))) ∧
    ∀ e, generateRandNbs gen steps vars sims antithetic seed = .error e → e = .assertion ∨ e = .value := by
  unfold generateRandNbs maxSimulationsPerLoop
  by_cases h1 : ¬ 1 ≤ steps ∨ ¬ 1 ≤ vars ∨ ¬ 1 ≤ sims
  · rw [if_pos h1]
    refine ⟨⟨fun _ => by omega, fun _ => rfl⟩, ⟨fun h => (by cases h), fun h => by omega⟩, fun e h => by cases h; exact Or.inl rfl⟩
  · rw [if_neg h1]
    by_cases h2 : ((100000000 : Nat) : Int) < steps * sims
    · rw [if_pos h2]
      refine ⟨⟨fun h => (by cases h), fun h => by omega⟩, ⟨fun _ => ⟨by omega, Or.inl (by exact_mod_cast h2)⟩, fun _ => rfl⟩, fun e h => by cases h; exact Or.inr rfl⟩
    · rw [if_neg h2]
      have h2' : ¬ (100000000 : Int) < steps * sims := by exact_mod_cast h2
      by_cases h3 : antithetic = true ∧ sims = 1
      · rw [if_pos h3]
        refine ⟨⟨fun h => (by cases h), fun h => by omega⟩, ⟨fun _ => ⟨by omega, Or.inr h3⟩, fun _ => rfl⟩, fun e h => by cases h; exact Or.inr rfl⟩
      · rw [if_neg h3]
        have key : ∀ e, (if antithetic = true then (.ok ⟨steps.toNat, vars.toNat, 2 * (sims.toNat / 2), fun i v j =>
            concatSims (sims.toNat - sims.toNat / 2) (gen seed steps.toNat vars.toNat (sims.toNat - sims.toNat / 2))
              (fun i v s => -1 * gen seed steps.toNat vars.toNat (sims.toNat - sims.toNat / 2) i v s) i v (pairIndex (sims.toNat / 2) j)⟩ : Except Err Cube)
            else .ok ⟨steps.toNat, vars.toNat, sims.toNat, gen seed steps.toNat vars.toNat sims.toNat⟩) ≠ .error e := by
          intro e h
          split at h <;> cases h
        refine ⟨⟨fun h => absurd h (key _), fun h => by omega⟩, ⟨fun h => absurd h (key _), ?_⟩, fun e h => absurd h (key e)⟩
        rintro ⟨-, h | h⟩
        · exact absurd h h2'
        · exact absurd h h3

/-- Without antithetic variates the result is the generator's draw, of the requested shape. -/
theorem C57_plain (gen : Generator) (steps vars sims : Nat) (seed : Nat) (h1 : 1 ≤ steps) (h2 : 1 ≤ vars) (h3 : 1 ≤ sims)
    (hmax : steps * sims ≤ 100000000) :
    generateRandNbs gen steps vars sims false seed = .ok ⟨steps, vars, sims, gen seed steps vars sims⟩ := by
  unfold generateRandNbs maxSimulationsPerLoop
  have hm : ¬ ((100000000 : Nat) : Int) < (steps : Int) * (sims : Int) := by
    have : (steps : Int) * (sims : Int) ≤ 100000000 := by exact_mod_cast hmax
    push_cast
    omega
  rw [if_neg (by omega), if_neg hm, if_neg (by simp), if_neg (by simp)]
  rfl

theorem anti_ok (gen : Generator) (steps vars sims : Nat) (seed : Nat) (h1 : 1 ≤ steps) (h2 : 1 ≤ vars) (h3 : 2 ≤ sims)
    (hmax : steps * sims ≤ 100000000) :
    generateRandNbs gen steps vars sims true seed = .ok ⟨steps, vars, 2 * (sims / 2), fun i v j =>
      concatSims (sims - sims / 2) (gen seed steps vars (sims - sims / 2)) (fun i v s => -1 * gen seed steps vars (sims - sims / 2) i v s) i v
        (pairIndex (sims / 2) j)⟩ := by
  unfold generateRandNbs maxSimulationsPerLoop
  have hm : ¬ ((100000000 : Nat) : Int) < (steps : Int) * (sims : Int) := by
    have : (steps : Int) * (sims : Int) ≤ 100000000 := by exact_mod_cast hmax
    push_cast
    omega
  rw [if_neg (by omega), if_neg hm, if_neg (by rintro ⟨-, h⟩; omega), if_pos rfl]
  rfl

theorem pair_even (p k : Nat) : pairIndex p (2 * k) = k := by
  unfold pairIndex
  rw [if_pos (by omega)]
  omega

theorem pair_odd (p k : Nat) : pairIndex p (2 * k + 1) = k + p := by
  unfold pairIndex
  rw [if_neg (by omega)]
  omega

/-- An even number of simulations: the result has the requested shape, simulation `2k` is the generator's draw `k`, simulation `2k+1` is its
negative, for every step and variable, so the simulations add up to zero.  Missing for the full property: odd numbers of simulations. -/
theorem C57_pairs_partial (gen : Generator) (steps vars p : Nat) (seed : Nat) (h1 : 1 ≤ steps) (h2 : 1 ≤ vars) (h3 : 1 ≤ p)
    (hmax : steps * (2 * p) ≤ 100000000) :
    ∃ r, generateRandNbs gen steps vars (2 * p : Nat) true seed = .ok r ∧ r.steps = steps ∧ r.vars = vars ∧ r.sims = 2 * p ∧
      (∀ i v k, k < p → r.get i v (2 * k) = gen seed steps vars p i v k ∧ r.get i v (2 * k + 1) = -r.get i v (2 * k)) ∧
      ∀ i v, (Finset.range r.sims).sum (fun s => r.get i v s) = 0 := by
  have e1 : 2 * p / 2 = p := by omega
  have e2 : 2 * p - p = p := by omega
  have hval : ∀ i v k, k < p →
      concatSims p (gen seed steps vars p) (fun i v s => -1 * gen seed steps vars p i v s) i v (pairIndex p (2 * k)) = gen seed steps vars p i v k ∧
      concatSims p (gen seed steps vars p) (fun i v s => -1 * gen seed steps vars p i v s) i v (pairIndex p (2 * k + 1)) = -gen seed steps vars p i v k := by
    intro i v k hk
    unfold concatSims
    rw [pair_even, pair_odd, if_pos hk, if_neg (by omega), Nat.add_sub_cancel]
    exact ⟨rfl, by ring⟩
  refine ⟨_, anti_ok gen steps vars (2 * p) seed h1 h2 (by omega) hmax, rfl, rfl, ?_, ?_, ?_⟩
  · show 2 * (2 * p / 2) = 2 * p
    rw [e1]
  · intro i v k hk
    simp only [e1, e2]
    rw [(hval i v k hk).1, (hval i v k hk).2]
    exact ⟨rfl, rfl⟩
  · intro i v
    simp only [e1, e2]
    have hsum : ∀ q, q ≤ p → (Finset.range (2 * q)).sum (fun s => concatSims p (gen seed steps vars p)
        (fun i v s => -1 * gen seed steps vars p i v s) i v (pairIndex p s)) = 0 := by
      intro q
      induction q with
      | zero => intro _; simp
      | succ q ih =>
        intro hq
        rw [show 2 * (q + 1) = 2 * q + 1 + 1 by ring, Finset.sum_range_succ, Finset.sum_range_succ, ih (by omega),
          (hval i v q (by omega)).1, (hval i v q (by omega)).2]
        ring
    exact hsum p (le_refl p)

/-- An odd number `2p+1` of simulations: only `2p` are returned.  Simulation `2k` is draw `k`, but simulation 1 is draw `p`, never negated,
and simulation `2k+3` is the negative of draw `k` rather than of draw `k+1`. -/
theorem C57_odd (gen : Generator) (steps vars p : Nat) (seed : Nat) (h1 : 1 ≤ steps) (h2 : 1 ≤ vars) (h3 : 1 ≤ p)
    (hmax : steps * (2 * p + 1) ≤ 100000000) :
    ∃ r, generateRandNbs gen steps vars (2 * p + 1 : Nat) true seed = .ok r ∧ r.sims = 2 * p ∧
      (∀ i v k, k < p → r.get i v (2 * k) = gen seed steps vars (p + 1) i v k) ∧
      (∀ i v, r.get i v 1 = gen seed steps vars (p + 1) i v p) ∧
      (∀ i v k, k + 1 < p → r.get i v (2 * k + 3) = -gen seed steps vars (p + 1) i v k) := by
  have e1 : (2 * p + 1) / 2 = p := by omega
  have e2 : 2 * p + 1 - p = p + 1 := by omega
  refine ⟨_, anti_ok gen steps vars (2 * p + 1) seed h1 h2 (by omega) hmax, ?_, ?_, ?_, ?_⟩
  · show 2 * ((2 * p + 1) / 2) = 2 * p
    rw [e1]
  · intro i v k hk
    simp only [e1, e2]
    unfold concatSims
    rw [pair_even, if_pos (by omega)]
  · intro i v
    simp only [e1, e2]
    unfold concatSims
    rw [show (1 : Nat) = 2 * 0 + 1 by rfl, pair_odd, if_pos (by omega)]
    simp only [Nat.zero_add]
  · intro i v k hk
    simp only [e1, e2]
    unfold concatSims
    rw [show 2 * k + 3 = 2 * (k + 1) + 1 by ring, pair_odd, if_neg (by omega), show k + 1 + p - (p + 1) = k by omega]
    ring

/-- So the full property fails: with three simulations and draws `1, 1` the sum over simulations is not zero. -/
theorem C57_odd_sum : ∃ r, generateRandNbs (fun _ _ _ _ _ _ _ => 1) 1 1 3 true 0 = .ok r ∧ r.sims = 2 ∧
    (Finset.range r.sims).sum (fun s => r.get 0 0 s) = 2 := by
  obtain ⟨r, hr, hs, h0, h1, -⟩ := C57_odd (fun _ _ _ _ _ _ _ => (1 : ℝ)) 1 1 1 0 (by norm_num) (by norm_num) (by norm_num) (by norm_num)
  refine ⟨r, hr, hs, ?_⟩
  rw [hs, show 2 * 1 = 2 by rfl, Finset.sum_range_succ, Finset.sum_range_succ, Finset.sum_range_zero, h1 0 0, h0 0 0 0 (by norm_num)]
  norm_num

/-- A year of daily steps with ten thousand simulations is within the limits. -/
example : 1 ≤ 365 ∧ 1 ≤ 2 ∧ 1 ≤ 5000 ∧ 365 * (2 * 5000) ≤ 100000000 := by norm_num

end Frm.Props
