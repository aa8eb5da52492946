import Verif.Props.C57
import Mathlib.Tactic.Ring
import Mathlib.Tactic.FieldSimp

/-!
# C60: batched Clewlow–Strickland simulation
-/

namespace Frm
namespace Spec

set_option autoImplicit false

/-- The number of simulations per pass: all of them, or as many as the limit of 10^8 random numbers allows. -/
def batchSize (sims steps : Nat) : Nat := min sims (100000000 / steps)

/-- `x` is a log-spot path of the discretised one-factor model driven by the draws `z`: it starts at the forward curve and moves by the
slope of the forward curve, mean reversion towards it, the convexity correction and the shock. -/
def FollowsModel (lnF : Nat → ℝ) (dt a sigma : ℝ) (z : Nat → ℝ) (n : Nat) (x : Nat → ℝ) : Prop :=
  x 0 = lnF 0 ∧ ∀ i, i < n → x (i + 1) - x i =
    (lnF (i + 1) - lnF i) + a * (lnF i - x i) * dt - sigma ^ 2 / 4 * (1 + Real.exp (-(2 * a * (i * dt)))) * dt + sigma * Real.sqrt dt * z i

end Spec
end Frm

namespace Frm.Props

set_option autoImplicit false

open Frm Frm.Spec

/-- The value in column `c` after the passes `j, j+1, …, j+k-1`: the path of the last pass covering the column, or what was there. -/
theorem csLoop_spec (gen : Generator) (lnF : Nat → ℝ) (segments steps per sims : Nat) (a sigma : ℝ) (h1 : 1 ≤ steps) (hp : 1 ≤ per)
    (hmax : steps * per ≤ 100000000) (k : Nat) : ∀ (j : Nat) (out : Nat → Nat → ℝ), ∃ res,
      csLoop gen lnF segments steps per sims a sigma k j out = .ok res ∧
      ∀ t c, c < sims → (j * per ≤ c → c < (j + k) * per →
          res t c = Real.exp (csLogPath lnF (1 / segments) a sigma (fun i => gen (c / per) steps 1 per i 0 (c % per)) (t * segments))) ∧
        (c < j * per ∨ (j + k) * per ≤ c → res t c = out t c) := by
  induction k with
  | zero =>
    intro j out
    refine ⟨out, rfl, fun t c hc => ⟨fun h2 h3 => ?_, fun _ => rfl⟩⟩
    simp only [Nat.add_zero] at h3
    omega
  | succ k ih =>
    intro j out
    rw [csLoop]
    have hgen := C57_plain gen steps 1 per j h1 (le_refl 1) hp hmax
    have hpass : csPass gen lnF segments steps per sims a sigma j out = .ok (writeColumns out (j * per) (min ((j + 1) * per) sims)
        (fun t c => Real.exp (csLogPath lnF (1 / segments) a sigma (fun i => gen j steps 1 per i 0 c) (t * segments)))) := by
      unfold csPass
      have : generateRandNbs gen (steps : Int) 1 (per : Int) false j = .ok ⟨steps, 1, per, gen j steps 1 per⟩ := hgen
      rw [this]
    rw [hpass]
    obtain ⟨res, hres, hspec⟩ := ih (j + 1) (writeColumns out (j * per) (min ((j + 1) * per) sims)
        (fun t c => Real.exp (csLogPath lnF (1 / segments) a sigma (fun i => gen j steps 1 per i 0 c) (t * segments))))
    refine ⟨res, hres, fun t c hc => ?_⟩
    obtain ⟨hin, hout⟩ := hspec t c hc
    have e : j + 1 + k = j + (k + 1) := by omega
    rw [e] at hin hout
    constructor
    · intro h2 h3
      by_cases hlt : (j + 1) * per ≤ c
      · exact hin hlt h3
      · rw [hout (Or.inl (not_le.1 hlt))]
        unfold writeColumns
        have hlt' := not_le.1 hlt
        rw [if_pos ⟨h2, lt_min hlt' hc⟩]
        have hdiv : c / per = j := by
          apply Nat.div_eq_of_lt_le
          · exact h2
          · exact hlt'
        have hmod : c % per = c - j * per := by
          have := Nat.div_add_mod c per
          rw [hdiv] at this
          rw [Nat.mul_comm per j] at this
          omega
        rw [hdiv, hmod]
    · intro h
      have hjk : (j + 1) * per ≤ (j + (k + 1)) * per := Nat.mul_le_mul_right per (by omega)
      have hj1 : j * per ≤ (j + 1) * per := Nat.mul_le_mul_right per (by omega)
      have hw : res t c = writeColumns out (j * per) (min ((j + 1) * per) sims)
        (fun t c => Real.exp (csLogPath lnF (1 / segments) a sigma (fun i => gen j steps 1 per i 0 c) (t * segments))) t c := by
        rcases h with h | h
        · exact hout (Or.inl (lt_of_lt_of_le h hj1))
        · exact hout (Or.inr h)
      rw [hw]
      unfold writeColumns
      rw [if_neg]
      rintro ⟨h2, h3⟩
      have h4 := lt_of_lt_of_le h3 (min_le_left _ _)
      rcases h with h | h
      · omega
      · omega

theorem log_path_follows (lnF : Nat → ℝ) (dt a sigma : ℝ) (hdt : dt ≠ 0) (z : Nat → ℝ) (n : Nat) :
    FollowsModel lnF dt a sigma z n (csLogPath lnF dt a sigma z) := by
  refine ⟨rfl, fun i _ => ?_⟩
  rw [csLogPath]
  rw [show (-2 : ℝ) * a * (i * dt) = -(2 * a * (i * dt)) by ring, show (-0.25 : ℝ) = -(1 / 4) by norm_num]
  generalize Real.exp (-(2 * a * (i * dt))) = E
  generalize csLogPath lnF dt a sigma z i = x
  field_simp
  ring

/-- Every simulation is computed exactly once, whatever the number of passes: column `c` is the path of column `c mod batch` of pass
`c / batch`, whose draws come from the generator seeded with the number of the pass, and no pass draws more than the limit. -/
theorem C60_columns (gen : Generator) (forward : Nat → ℝ) (sims segments horizon : Nat) (a sigma : ℝ) (hn : 1 ≤ sims) (hs : 1 ≤ segments)
    (hT : 1 ≤ horizon) (hmax : horizon * segments ≤ 100000000) :
    ∃ r, csSimulate gen forward sims segments horizon a sigma = .ok r ∧ r.rows = horizon + 1 ∧ r.cols = sims ∧
      1 ≤ batchSize sims (horizon * segments) ∧ horizon * segments * batchSize sims (horizon * segments) ≤ 100000000 ∧
      ∀ c, c < sims → ∃ x : Nat → ℝ,
        FollowsModel (fun i => Real.log (forward i)) (1 / segments) a sigma
          (fun i => gen (c / batchSize sims (horizon * segments)) (horizon * segments) 1 (batchSize sims (horizon * segments)) i 0
            (c % batchSize sims (horizon * segments))) (horizon * segments) x ∧
        ∀ t, t ≤ horizon → r.get t c = Real.exp (x (t * segments)) := by
  have hst : 1 ≤ horizon * segments := Nat.one_le_iff_ne_zero.2 (Nat.mul_ne_zero (by omega) (by omega))
  have hb : 1 ≤ batchSize sims (horizon * segments) := by
    unfold batchSize
    refine le_min hn ?_
    exact (Nat.one_le_div_iff (by omega)).2 hmax
  have hlim : horizon * segments * batchSize sims (horizon * segments) ≤ 100000000 := by
    unfold batchSize
    exact le_trans (Nat.mul_le_mul_left _ (min_le_right _ _)) (Nat.mul_div_le _ _)
  have e : min sims (maxSimulationsPerLoop / (horizon * segments)) = batchSize sims (horizon * segments) := rfl
  obtain ⟨res, hres, hspec⟩ := csLoop_spec gen (fun i => Real.log (forward i)) segments (horizon * segments) (batchSize sims (horizon * segments)) sims
    a sigma hst hb hlim ((sims + batchSize sims (horizon * segments) - 1) / batchSize sims (horizon * segments)) 0 (fun _ _ => 0)
  refine ⟨⟨horizon + 1, sims, res⟩, ?_, rfl, rfl, hb, hlim, fun c hc => ⟨_, log_path_follows _ _ a sigma ?_ _ _, fun t _ => ?_⟩⟩
  · unfold csSimulate
    simp only [e]
    rw [if_neg (by omega), if_neg (by omega), hres]
  · have : (segments : ℝ) ≠ 0 := by
      exact_mod_cast (by omega : segments ≠ 0)
    exact one_div_ne_zero this
  · refine (hspec t c hc).1 (by omega) ?_
    rw [Nat.zero_add]
    generalize batchSize sims (horizon * segments) = p at hb
    have h1 := Nat.div_add_mod (sims + p - 1) p
    have h2 := Nat.mod_lt (sims + p - 1) (by omega : p > 0)
    rw [Nat.mul_comm] at h1
    omega

/-- The passes partition the simulations: each simulation lies in the columns of exactly one pass, the passes are in order, and none is
empty. -/
theorem C60_partition (sims per : Nat) (hp : 1 ≤ per) (c : Nat) (hc : c < sims) :
    (∃! j, j < (sims + per - 1) / per ∧ j * per ≤ c ∧ c < min ((j + 1) * per) sims) ∧
    ∀ j, j < (sims + per - 1) / per → j * per < min ((j + 1) * per) sims ∧ min ((j + 1) * per) sims - j * per ≤ per := by
  have hceil : ∀ j, j < (sims + per - 1) / per ↔ j * per < sims := by
    intro j
    have h1 := Nat.div_add_mod (sims + per - 1) per
    have h2 := Nat.mod_lt (sims + per - 1) (by omega : per > 0)
    generalize (sims + per - 1) / per = q at h1
    generalize (sims + per - 1) % per = r at h1 h2
    constructor
    · intro hj
      have : per * (j + 1) ≤ per * q := Nat.mul_le_mul_left per hj
      rw [Nat.mul_add, Nat.mul_one, Nat.mul_comm] at this
      omega
    · intro hj
      by_contra hcon
      have : per * q ≤ per * j := Nat.mul_le_mul_left per (by omega)
      rw [Nat.mul_comm per j] at this
      omega
  have hdm := Nat.div_add_mod c per
  have hml := Nat.mod_lt c (by omega : per > 0)
  rw [Nat.mul_comm] at hdm
  constructor
  · refine ⟨c / per, ⟨(hceil _).2 (by omega), by omega, lt_min ?_ hc⟩, ?_⟩
    · rw [Nat.add_mul, Nat.one_mul]; omega
    · rintro j ⟨-, h1, h2⟩
      symm
      apply Nat.div_eq_of_lt_le h1
      exact lt_of_lt_of_le h2 (min_le_left _ _)
  · intro j hj
    have := (hceil j).1 hj
    rw [Nat.add_mul, Nat.one_mul]
    constructor
    · exact lt_min (by omega) this
    · have := min_le_left (j * per + per) sims
      omega

/-- Nothing can be simulated with no simulations, no step, or more steps than the limit: `ZeroDivisionError`. -/
theorem C60_refused (gen : Generator) (forward : Nat → ℝ) (sims segments horizon : Nat) (a sigma : ℝ) :
    (∃ r, csSimulate gen forward sims segments horizon a sigma = .ok r) ∨ csSimulate gen forward sims segments horizon a sigma = .error .zeroDiv ∧
      (sims = 0 ∨ segments = 0 ∨ horizon = 0 ∨ 100000000 < horizon * segments) := by
  by_cases h : 1 ≤ sims ∧ 1 ≤ segments ∧ 1 ≤ horizon ∧ horizon * segments ≤ 100000000
  · obtain ⟨r, hr, -⟩ := C60_columns gen forward sims segments horizon a sigma h.1 h.2.1 h.2.2.1 h.2.2.2
    exact Or.inl ⟨r, hr⟩
  · right
    refine ⟨?_, by omega⟩
    unfold csSimulate
    simp only
    by_cases h0 : segments = 0 ∨ horizon * segments = 0
    · rw [if_pos h0]
    · rw [if_neg h0, if_pos]
      simp only [not_or] at h0
      have hh : horizon ≠ 0 := by
        rintro rfl
        simp at h0
      by_cases hs : sims = 0
      · rw [hs]; simp
      · have hgt : 100000000 < horizon * segments := by omega
        have : maxSimulationsPerLoop / (horizon * segments) = 0 := Nat.div_eq_of_lt hgt
        rw [this]
        simp

/-- Simulated prices are positive, and every path starts at the forward curve's first price. -/
theorem C60_positive (gen : Generator) (forward : Nat → ℝ) (sims segments horizon : Nat) (a sigma : ℝ) (hn : 1 ≤ sims) (hs : 1 ≤ segments)
    (hT : 1 ≤ horizon) (hmax : horizon * segments ≤ 100000000) (hF : 0 < forward 0) (r : Grid)
    (hr : csSimulate gen forward sims segments horizon a sigma = .ok r) (c : Nat) (hc : c < sims) :
    r.get 0 c = forward 0 ∧ ∀ t, t ≤ horizon → 0 < r.get t c := by
  obtain ⟨r', hr', -, -, -, -, hspec⟩ := C60_columns gen forward sims segments horizon a sigma hn hs hT hmax
  rw [hr] at hr'
  cases hr'
  obtain ⟨x, hx, hval⟩ := hspec c hc
  refine ⟨?_, fun t ht => by rw [hval t ht]; exact Real.exp_pos _⟩
  rw [hval 0 (by omega), Nat.zero_mul, hx.1, Real.exp_log hF]

/-- Without volatility every path is the forward curve. -/
theorem C60_no_volatility (gen : Generator) (forward : Nat → ℝ) (sims segments horizon : Nat) (a : ℝ) (hn : 1 ≤ sims) (hs : 1 ≤ segments)
    (hT : 1 ≤ horizon) (hmax : horizon * segments ≤ 100000000) (hF : ∀ i, 0 < forward i) (r : Grid)
    (hr : csSimulate gen forward sims segments horizon a 0 = .ok r) (c : Nat) (hc : c < sims) (t : Nat) (ht : t ≤ horizon) :
    r.get t c = forward (t * segments) := by
  obtain ⟨r', hr', -, -, -, -, hspec⟩ := C60_columns gen forward sims segments horizon a 0 hn hs hT hmax
  rw [hr] at hr'
  cases hr'
  obtain ⟨x, ⟨h0, hstep⟩, hval⟩ := hspec c hc
  have key : ∀ i, i ≤ horizon * segments → x i = Real.log (forward i) := by
    intro i
    induction i with
    | zero => intro _; exact h0
    | succ i ih =>
      intro hi
      have h1 := hstep i (by omega)
      rw [ih (by omega)] at h1
      simp only [sub_self, mul_zero, zero_mul] at h1
      norm_num at h1
      linarith
  rw [hval t ht, key _ (Nat.mul_le_mul_right segments ht), Real.exp_log (hF _)]

/-- A year of quarter-day steps and a million paths needs fifteen passes. -/
example : 365 * 4 ≤ 100000000 ∧ batchSize 1000000 (365 * 4) = 68493 ∧ (1000000 + 68493 - 1) / 68493 = 15 := by decide

end Frm.Props
