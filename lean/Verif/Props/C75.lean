import Verif.Props.C57
import Verif.Props.C73

/-!
# C75: Hull–White simulation
-/

namespace Frm
namespace Spec

set_option autoImplicit false

/-- The drift the simulation uses: that of a curve which is flat at the initial short rate. -/
noncomputable def flatDrift (m : HullWhite) (t : ℝ) : ℝ := m.alpha * m.r0 + m.vol ^ 2 / (2 * m.alpha) * (1 - Real.exp (-2 * m.alpha * t))

/-- The rates of simulation `s` follow the scheme `f`: the step from `k` to `k + 1` applies `f` to the rate, the draw, and the dates of
the step, for the draws `z`. -/
def Follows (x : HwSimulation) (z : Cube) (f : ℝ → ℝ → ℝ → ℝ → ℝ) : Prop :=
  ∀ k s, k < x.steps → s < x.sims → x.rate (k + 1) s = f (x.years k) (x.years (k + 1)) (x.rate k s) (z.get k 0 s)

end Spec
end Frm

namespace Frm.Props
open Classical

set_option autoImplicit false

open Frm Frm.Spec

theorem hwSimulate_ok {gen : Generator} {m : HullWhite} {tau : ℝ} {steps sims : Int} {anti : Bool} {seed : Nat} {method : HwMethod}
    {x : HwSimulation} (h : hwSimulate gen m tau steps sims anti seed method = .ok x) :
    ∃ z, generateRandNbs gen steps 1 sims anti seed = .ok z ∧ m.alpha ≠ 0 ∧ 1 ≤ steps ∧ 1 ≤ sims ∧ (method ≠ .other → z.sims = sims.toNat) ∧
      x = ⟨steps.toNat, sims.toNat, fun k => k * (tau / steps),
        fun k s => hwPath method m.alpha m.vol m.r0 (tau / steps) (fun i => flatDrift m (i * (tau / steps))) (fun i => z.get i 0 s) k,
        fun k s => Real.exp (-hwIntegral (fun i => hwPath method m.alpha m.vol m.r0 (tau / steps) (fun i => flatDrift m (i * (tau / steps)))
          (fun i => z.get i 0 s) i) (tau / steps) k),
        fun k s => if k * (tau / steps) = 0 then none else some (-1 * Real.log (Real.exp (-hwIntegral (fun i => hwPath method m.alpha m.vol m.r0
          (tau / steps) (fun i => flatDrift m (i * (tau / steps))) (fun i => z.get i 0 s) i) (tau / steps) k)) / (k * (tau / steps)))⟩ := by
  unfold hwSimulate at h
  cases hz : generateRandNbs gen steps 1 sims anti seed with
  | error e => rw [hz] at h; cases h
  | ok z =>
    rw [hz] at h
    simp only at h
    by_cases ha : m.alpha = 0
    · rw [if_pos ha] at h; cases h
    · rw [if_neg ha] at h
      by_cases hs : z.sims ≠ sims.toNat ∧ method ≠ .other
      · rw [if_pos hs] at h; cases h
      · rw [if_neg hs] at h
        have hpos : 1 ≤ steps ∧ 1 ≤ sims := by
          unfold generateRandNbs at hz
          by_cases hc : ¬ 1 ≤ steps ∨ ¬ 1 ≤ (1 : Int) ∨ ¬ 1 ≤ sims
          · rw [if_pos hc] at hz; cases hz
          · omega
        refine ⟨z, rfl, ha, hpos.1, hpos.2, fun hm => ?_, (Except.ok.inj h).symm⟩
        by_contra hc
        exact hs ⟨hc, hm⟩

/-- Simulations that are refused: no steps, no paths, too many of them, a single antithetic path, no mean reversion, and — with a
recognised method — an odd number of antithetic paths.  All others succeed. -/
theorem C75_accepts (gen : Generator) (m : HullWhite) (tau : ℝ) (steps sims : Int) (anti : Bool) (seed : Nat) (method : HwMethod) :
    (∃ x, hwSimulate gen m tau steps sims anti seed method = .ok x) ↔
      1 ≤ steps ∧ 1 ≤ sims ∧ steps * sims ≤ 100000000 ∧ m.alpha ≠ 0 ∧
      (anti = true → 2 ≤ sims ∧ (method ≠ .other → 2 ∣ sims)) := by
  by_cases h1 : ¬ 1 ≤ steps ∨ ¬ 1 ≤ (1 : Int) ∨ ¬ 1 ≤ sims
  · constructor
    · rintro ⟨x, hx⟩
      obtain ⟨z, hz, -⟩ := hwSimulate_ok hx
      unfold generateRandNbs at hz
      rw [if_pos h1] at hz
      cases hz
    · rintro ⟨a, b, -⟩
      omega
  by_cases h2 : ((maxSimulationsPerLoop : Nat) : Int) < steps * sims
  · constructor
    · rintro ⟨x, hx⟩
      obtain ⟨z, hz, -⟩ := hwSimulate_ok hx
      unfold generateRandNbs at hz
      rw [if_neg h1, if_pos h2] at hz
      cases hz
    · rintro ⟨-, -, b, -⟩
      have : ((maxSimulationsPerLoop : Nat) : Int) = 100000000 := rfl
      omega
  have h2' : steps * sims ≤ 100000000 := by
    have : ((maxSimulationsPerLoop : Nat) : Int) = 100000000 := rfl
    omega
  obtain ⟨n, rfl⟩ : ∃ n : Nat, steps = n := ⟨steps.toNat, by omega⟩
  obtain ⟨s, rfl⟩ : ∃ n : Nat, sims = n := ⟨sims.toNat, by omega⟩
  have hn : 1 ≤ n := by omega
  have hs : 1 ≤ s := by omega
  have h2'' : n * s ≤ 100000000 := by exact_mod_cast h2'
  cases anti with
  | false =>
    have hz : generateRandNbs gen n 1 s false seed = .ok ⟨n, 1, s, gen seed n 1 s⟩ := by
      unfold generateRandNbs
      rw [if_neg h1, if_neg h2, if_neg (by simp), if_neg (by simp)]
      rfl
    by_cases ha : m.alpha = 0
    · constructor
      · rintro ⟨x, hx⟩
        obtain ⟨z, -, hc, -⟩ := hwSimulate_ok hx
        exact absurd ha hc
      · rintro ⟨-, -, -, hc, -⟩
        exact absurd ha hc
    · constructor
      · intro _
        exact ⟨by omega, by omega, h2', ha, by simp⟩
      · intro _
        unfold hwSimulate
        rw [hz]
        simp only
        rw [if_neg ha, if_neg (by simp)]
        exact ⟨_, rfl⟩
  | true =>
    by_cases h3 : s = 1
    · subst h3
      constructor
      · rintro ⟨x, hx⟩
        obtain ⟨z, hz, -⟩ := hwSimulate_ok hx
        unfold generateRandNbs at hz
        rw [if_neg h1, if_neg h2, if_pos ⟨rfl, rfl⟩] at hz
        cases hz
      · rintro ⟨-, -, -, -, hc⟩
        have := (hc rfl).1
        omega
    · have hz := anti_ok gen n 1 s seed hn (le_refl 1) (by omega) h2''
      constructor
      · rintro ⟨x, hx⟩
        obtain ⟨z, hz', ha, -, -, hm, -⟩ := hwSimulate_ok hx
        refine ⟨by omega, by omega, h2', ha, fun _ => ⟨by omega, fun hmm => ?_⟩⟩
        have := hm hmm
        have e : generateRandNbs gen (n : Int) 1 (s : Int) true seed = generateRandNbs gen (n : Int) ((1 : Nat) : Int) (s : Int) true seed := rfl
        rw [e, hz] at hz'
        rw [← Except.ok.inj hz'] at this
        simp only [Int.toNat_natCast] at this
        omega
      · rintro ⟨-, -, -, ha, hc⟩
        unfold hwSimulate
        have e : generateRandNbs gen (n : Int) 1 (s : Int) true seed = generateRandNbs gen (n : Int) ((1 : Nat) : Int) (s : Int) true seed := rfl
        rw [e, hz]
        simp only
        rw [if_neg ha, if_neg]
        · exact ⟨_, rfl⟩
        · rintro ⟨hne, hm⟩
          apply hne
          have := (hc rfl).2 hm
          simp only [Int.toNat_natCast]
          omega

/-- The shape of a simulation: the requested numbers of steps and paths, a uniform grid of times from zero to the horizon, every path
starting at the initial short rate with a discount factor of one. -/
theorem C75_shape (gen : Generator) (m : HullWhite) (tau : ℝ) (steps sims : Int) (anti : Bool) (seed : Nat) (method : HwMethod)
    (x : HwSimulation) (h : hwSimulate gen m tau steps sims anti seed method = .ok x) :
    x.steps = steps.toNat ∧ x.sims = sims.toNat ∧ x.years 0 = 0 ∧ x.years x.steps = tau ∧
      (∀ k, x.years (k + 1) - x.years k = tau / steps) ∧ ∀ s, x.rate 0 s = m.r0 ∧ x.discount 0 s = 1 := by
  obtain ⟨z, -, -, h1, -, -, rfl⟩ := hwSimulate_ok h
  have hs : (steps : ℝ) ≠ 0 := by
    have : steps ≠ 0 := by omega
    exact_mod_cast this
  refine ⟨rfl, rfl, by simp, ?_, fun k => ?_, fun s => ⟨rfl, ?_⟩⟩
  · simp only
    have : ((steps.toNat : Nat) : ℝ) = steps := by
      have : ((steps.toNat : Nat) : Int) = steps := Int.toNat_of_nonneg (by omega)
      exact_mod_cast congrArg (Int.cast (R := ℝ)) this
    rw [this]
    field_simp
  · push_cast
    ring
  · simp [hwIntegral]

/-- Discount factors along a path are positive and accumulate the trapezium of the rates over each step; a zero rate compounds back to
the discount factor at every time but zero, where there is none; likewise for the average discount factor. -/
theorem C75_discount (gen : Generator) (m : HullWhite) (tau : ℝ) (steps sims : Int) (anti : Bool) (seed : Nat) (method : HwMethod)
    (x : HwSimulation) (h : hwSimulate gen m tau steps sims anti seed method = .ok x) :
    (∀ k s, 0 < x.discount k s ∧
      x.discount (k + 1) s = x.discount k s * Real.exp (-((x.years (k + 1) - x.years k) * ((x.rate k s + x.rate (k + 1) s) / 2))) ∧
      (x.years k = 0 → x.zeroRate k s = none) ∧
      (x.years k ≠ 0 → ∃ r, x.zeroRate k s = some r ∧ Real.exp (-r * x.years k) = x.discount k s)) ∧
    ∀ k, x.meanDiscount k * x.sims = ∑ s ∈ Finset.range x.sims, x.discount k s ∧
      (x.years k = 0 → x.meanZeroRate k = none) ∧
      (x.years k ≠ 0 → ∃ r, x.meanZeroRate k = some r ∧ Real.exp (-r * x.years k) = x.meanDiscount k) := by
  obtain ⟨z, -, -, h1, h2, -, hx⟩ := hwSimulate_ok h
  have hS : x.sims ≠ 0 := by rw [hx]; show sims.toNat ≠ 0; omega
  constructor
  · intro k s
    subst hx
    refine ⟨Real.exp_pos _, ?_, fun hk => if_pos hk, fun hk => ⟨_, if_neg hk, ?_⟩⟩
    · simp only
      rw [hwIntegral, neg_add, Real.exp_add]
      congr 2
      push_cast
      ring
    · simp only at hk ⊢
      rw [Real.log_exp]
      congr 1
      generalize hwIntegral _ _ _ = I
      generalize (k : ℝ) * (tau / steps) = y at hk
      field_simp
  · intro k
    have hpos : 0 < x.meanDiscount k := by
      unfold HwSimulation.meanDiscount
      apply div_pos
      · apply Finset.sum_pos
        · intro s _
          rw [hx]
          exact Real.exp_pos _
        · exact Finset.nonempty_range_iff.2 hS
      · exact_mod_cast Nat.pos_of_ne_zero hS
    refine ⟨?_, fun hk => if_pos hk, fun hk => ⟨_, if_neg hk, ?_⟩⟩
    · unfold HwSimulation.meanDiscount
      have : (x.sims : ℝ) ≠ 0 := by exact_mod_cast hS
      field_simp
    · rw [show -(-1 * Real.log (x.meanDiscount k) / x.years k) * x.years k = Real.log (x.meanDiscount k) by field_simp, Real.exp_log hpos]

/-- The Euler scheme: `R(t + Δt) = R + (θ(t) - α R) Δt + σ √Δt z`. -/
theorem C75_euler (gen : Generator) (m : HullWhite) (tau : ℝ) (steps sims : Int) (anti : Bool) (seed : Nat)
    (x : HwSimulation) (h : hwSimulate gen m tau steps sims anti seed .euler = .ok x) :
    ∃ z, generateRandNbs gen steps 1 sims anti seed = .ok z ∧ z.sims = x.sims ∧
      Follows x z (fun t u R z => R + (flatDrift m t - m.alpha * R) * (u - t) + m.vol * Real.sqrt (u - t) * z) := by
  obtain ⟨z, hz, -, h1, h2, hm, rfl⟩ := hwSimulate_ok h
  refine ⟨z, hz, hm (fun hc => by cases hc), fun k s _ _ => ?_⟩
  simp only [hwPath, hwStep]
  have e : ((k + 1 : Nat) : ℝ) * (tau / steps) - k * (tau / steps) = tau / steps := by push_cast; ring
  rw [e]

/-- The Runge–Kutta scheme: the decay over a step is the Taylor polynomial of order four of the exponential, the drift being frozen at the
beginning of the step. -/
theorem C75_rk4 (gen : Generator) (m : HullWhite) (tau : ℝ) (steps sims : Int) (anti : Bool) (seed : Nat)
    (x : HwSimulation) (h : hwSimulate gen m tau steps sims anti seed .rk4 = .ok x) :
    ∃ z, generateRandNbs gen steps 1 sims anti seed = .ok z ∧ z.sims = x.sims ∧
      Follows x z (fun t u R z =>
        let a := m.alpha * (u - t)
        let decay := ∑ j ∈ Finset.range 5, (-a) ^ j / (Nat.factorial j : ℝ)
        decay * R + (1 - decay) * (flatDrift m t / m.alpha) + m.vol * Real.sqrt (u - t) * z) := by
  obtain ⟨z, hz, ha, h1, h2, hm, rfl⟩ := hwSimulate_ok h
  refine ⟨z, hz, hm (fun hc => by cases hc), fun k s _ _ => ?_⟩
  simp only [hwPath, hwStep]
  have e : ((k + 1 : Nat) : ℝ) * (tau / steps) - k * (tau / steps) = tau / steps := by push_cast; ring
  rw [e]
  simp only [Finset.sum_range_succ, Finset.sum_range_zero, Nat.factorial]
  generalize tau / (steps : ℝ) = d
  generalize flatDrift m (k * d) = th
  generalize hwPath HwMethod.rk4 m.alpha m.vol m.r0 d _ _ k = R
  push_cast
  field_simp
  ring

/-- The exact scheme: the rate decays exponentially, the drift is integrated against the decay along the line between its values at the
ends of the step, and the draw is scaled so that its variance is the integral of the decayed variance rate. -/
theorem C75_exact (gen : Generator) (m : HullWhite) (tau : ℝ) (ht : 0 < tau) (steps sims : Int) (anti : Bool) (seed : Nat)
    (x : HwSimulation) (h : hwSimulate gen m tau steps sims anti seed .exact = .ok x) :
    ∃ z, generateRandNbs gen steps 1 sims anti seed = .ok z ∧ z.sims = x.sims ∧
      ∀ k, k < x.steps → ∃ slope sd : ℝ,
        flatDrift m (x.years k) + slope * (x.years (k + 1) - x.years k) = flatDrift m (x.years (k + 1)) ∧ 0 ≤ sd ∧
        sd ^ 2 = (∫ s in (x.years k)..(x.years (k + 1)), m.vol ^ 2 * Real.exp (-2 * m.alpha * (x.years (k + 1) - s))) ∧
        ∀ s, s < x.sims → x.rate (k + 1) s = x.rate k s * Real.exp (-m.alpha * (x.years (k + 1) - x.years k)) +
          (∫ s in (x.years k)..(x.years (k + 1)), (flatDrift m (x.years k) + slope * (s - x.years k)) *
            Real.exp (-m.alpha * (x.years (k + 1) - s))) + sd * z.get k 0 s := by
  obtain ⟨z, hz, ha, h1, h2, hm, rfl⟩ := hwSimulate_ok h
  refine ⟨z, hz, hm (fun hc => by cases hc), fun k _ => ?_⟩
  have hs : (0 : ℝ) < steps := by
    have : 0 < steps := by omega
    exact_mod_cast this
  have hd : 0 < tau / (steps : ℝ) := div_pos ht hs
  simp only [hwPath, hwStep]
  have e : ((k + 1 : Nat) : ℝ) = (k : ℝ) + 1 := by push_cast; ring
  rw [e]
  generalize tau / (steps : ℝ) = d at hd
  have e2 : ((k : ℝ) + 1) * d - k * d = d := by ring
  rw [e2]
  refine ⟨(flatDrift m ((k + 1) * d) - flatDrift m (k * d)) / d, Real.sqrt ((m.vol ^ 2 / (2 * m.alpha)) * (1 - Real.exp (-2 * m.alpha * d))),
    by field_simp; ring, Real.sqrt_nonneg _, ?_, fun s _ => ?_⟩
  · have hv : 0 ≤ (m.vol ^ 2 / (2 * m.alpha)) * (1 - Real.exp (-2 * m.alpha * d)) := by
      rcases lt_or_gt_of_ne ha with hn | hp
      · apply mul_nonneg_of_nonpos_of_nonpos
        · exact div_nonpos_of_nonneg_of_nonpos (sq_nonneg _) (by linarith)
        · have : 1 ≤ Real.exp (-2 * m.alpha * d) := Real.one_le_exp (by nlinarith)
          linarith
      · apply mul_nonneg
        · positivity
        · have : Real.exp (-2 * m.alpha * d) ≤ 1 := Real.exp_le_one_iff.2 (by nlinarith)
          linarith
    rw [Real.sq_sqrt hv, intervalIntegral.integral_const_mul]
    have hi : (∫ s in ((k : ℝ) * d)..((k + 1) * d), Real.exp (-2 * m.alpha * ((k + 1) * d - s))) =
        ∫ u in (0 : ℝ)..d, Real.exp (-(2 * m.alpha) * u) := by
      rw [intervalIntegral.integral_comp_sub_left (fun u => Real.exp (-2 * m.alpha * u)) ((k + 1) * d)]
      rw [sub_self, e2]
      simp only [neg_mul]
    rw [hi, integral_exp_neg (by simpa using ha), show -(2 * m.alpha) * d = -2 * m.alpha * d by ring]
    field_simp
  · congr 2
    apply intervalIntegral.integral_congr
    intro u _
    simp only
    congr 1
    field_simp

theorem hwStep_affine (method : HwMethod) (hm : method ≠ .other) (alpha sigma dt : ℝ) (th : Nat → ℝ) (i : Nat) :
    ∃ a b c : ℝ, ∀ R z, hwStep method alpha sigma dt th i R z = a * R + b + c * z := by
  cases method with
  | euler => exact ⟨1 - alpha * dt, th i * dt, sigma * Real.sqrt dt, fun R z => by simp only [hwStep]; ring⟩
  | rk4 =>
    refine ⟨1 + (-(dt * alpha)) + (dt * alpha) ^ 2 / 2 - (dt * alpha) ^ 3 / 6 + (dt * alpha) ^ 4 / 24,
      hwStep .rk4 alpha sigma dt th i 0 0, sigma * Real.sqrt dt, fun R z => ?_⟩
    simp only [hwStep]
    ring
  | exact => exact ⟨Real.exp (-alpha * dt), _, _, fun R z => by simp only [hwStep]; rw [mul_comm R]⟩
  | other => exact absurd rfl hm

/-- Antithetic paths come in neighbouring pairs, and the two rates of a pair average, at every time, to the same curve, which starts at
the initial short rate and depends neither on the draws nor on their number. -/
theorem C75_antithetic (m : HullWhite) (tau : ℝ) (steps : Int) (method : HwMethod) (hm : method ≠ .other) :
    ∃ centre : Nat → ℝ, centre 0 = m.r0 ∧ ∀ (gen : Generator) (sims : Int) (seed : Nat) (x : HwSimulation),
      hwSimulate gen m tau steps sims true seed method = .ok x → ∀ k j, 2 * j + 1 < x.sims →
        (x.rate k (2 * j) + x.rate k (2 * j + 1)) / 2 = centre k := by
  refine ⟨fun k => hwPath method m.alpha m.vol m.r0 (tau / steps) (fun i => flatDrift m (i * (tau / steps))) (fun _ => 0) k, rfl, ?_⟩
  intro gen sims seed x h k j hj
  have hacc := (C75_accepts gen m tau steps sims true seed method).1 ⟨x, h⟩
  obtain ⟨z, hz, -, h1, h2, hms, rfl⟩ := hwSimulate_ok h
  simp only at hj ⊢
  obtain ⟨p, hp⟩ := (hacc.2.2.2.2 rfl).2 hm
  obtain ⟨n, rfl⟩ : ∃ n : Nat, steps = n := ⟨steps.toNat, by omega⟩
  obtain ⟨q, rfl⟩ : ∃ q : Nat, p = q := ⟨p.toNat, by omega⟩
  have hs : sims = ((2 * q : Nat) : Int) := by push_cast; omega
  subst hs
  have hmax : n * (2 * q) ≤ 100000000 := by exact_mod_cast hacc.2.2.1
  obtain ⟨r, hr, -, -, -, hpair, -⟩ := C57_pairs_partial gen n 1 q seed (by omega) (le_refl 1) (by omega) hmax
  have hzr : z = r := Except.ok.inj (hz.symm.trans hr)
  subst hzr
  have hneg : ∀ i, z.get i 0 (2 * j + 1) = -z.get i 0 (2 * j) := fun i => (hpair i 0 j (by omega)).2
  induction k with
  | zero => simp [hwPath]
  | succ k ih =>
    obtain ⟨a, b, c, habc⟩ := hwStep_affine method hm m.alpha m.vol (tau / (n : ℝ)) (fun i => flatDrift m (i * (tau / n))) k
    simp only [hwPath]
    have e : ((n : Int) : ℝ) = (n : ℝ) := by simp
    rw [e] at ih ⊢
    rw [habc, habc, habc, hneg, ← ih]
    ring

/-- Without volatility all rates stay at the initial short rate, in every scheme, and the discount factors are those of that flat rate. -/
theorem C75_no_volatility (gen : Generator) (m : HullWhite) (hv : m.vol = 0) (tau : ℝ) (steps sims : Int) (anti : Bool)
    (seed : Nat) (method : HwMethod) (hm : method ≠ .other) (x : HwSimulation) (h : hwSimulate gen m tau steps sims anti seed method = .ok x) :
    ∀ k s, x.rate k s = m.r0 ∧ x.discount k s = Real.exp (-m.r0 * x.years k) := by
  obtain ⟨z, hz, ha, h1, h2, -, rfl⟩ := hwSimulate_ok h
  have hth : ∀ t, flatDrift m t = m.alpha * m.r0 := by intro t; unfold flatDrift; rw [hv]; ring
  have hR : ∀ k s, hwPath method m.alpha m.vol m.r0 (tau / steps) (fun i => flatDrift m (i * (tau / steps))) (fun i => z.get i 0 s) k = m.r0 := by
    intro k s
    induction k with
    | zero => rfl
    | succ k ih =>
      rw [hwPath, ih]
      cases method with
      | euler => simp only [hwStep, hth, hv]; ring
      | rk4 => simp only [hwStep, hth, hv]; ring
      | exact =>
        simp only [hwStep, hth, hv]
        generalize tau / (steps : ℝ) = d
        have e1 : ∀ s : ℝ, (m.alpha * m.r0 + (m.alpha * m.r0 - m.alpha * m.r0) * ((s - k * d) / d)) *
            Real.exp (-m.alpha * ((k + 1) * d - s)) = m.alpha * m.r0 * Real.exp (-m.alpha * ((k + 1) * d - s)) := by intro s; ring
        simp only [e1]
        rw [intervalIntegral.integral_const_mul,
          intervalIntegral.integral_comp_sub_left (fun u => Real.exp (-m.alpha * u)) (((k : ℝ) + 1) * d), sub_self,
          show ((k : ℝ) + 1) * d - k * d = d by ring, integral_exp_neg ha]
        simp only [ne_eq, OfNat.ofNat_ne_zero, not_false_eq_true, zero_pow, zero_div, zero_mul, Real.sqrt_zero]
        field_simp
        ring
      | other => exact absurd rfl hm
  intro k s
  refine ⟨hR k s, ?_⟩
  simp only [hR]
  congr 1
  generalize tau / (steps : ℝ) = d
  induction k with
  | zero => simp [hwIntegral]
  | succ k ih =>
    rw [hwIntegral, neg_add, ih]
    push_cast
    ring

/-- The curve plays no part: two models with the same mean reversion, volatility and initial short rate simulate the same rates and
discount factors whatever their curves.  So the average discount factors cannot follow the curve unless it is the flat one above. -/
theorem C75_ignores_curve (gen : Generator) (m1 m2 : HullWhite) (ha : m1.alpha = m2.alpha) (hv : m1.vol = m2.vol) (hr : m1.r0 = m2.r0)
    (tau : ℝ) (steps sims : Int) (anti : Bool) (seed : Nat) (method : HwMethod) :
    hwSimulate gen m1 tau steps sims anti seed method = hwSimulate gen m2 tau steps sims anti seed method := by
  unfold hwSimulate
  rw [ha, hv, hr]

/-- A method that is not recognised is not refused: all rates after the first are zero. -/
theorem C75_unknown_method (gen : Generator) (m : HullWhite) (tau : ℝ) (steps sims : Int) (anti : Bool) (seed : Nat) (x : HwSimulation)
    (h : hwSimulate gen m tau steps sims anti seed .other = .ok x) : ∀ k s, x.rate (k + 1) s = 0 := by
  obtain ⟨z, -, -, -, -, -, rfl⟩ := hwSimulate_ok h
  intro k s
  rfl

/-- Simulations exist: twelve steps of four antithetic paths of the flat example. -/
example (gen : Generator) (seed : Nat) (method : HwMethod) : ∃ x, hwSimulate gen flatHw 1 12 4 true seed method = .ok x := by
  rw [C75_accepts]
  refine ⟨by norm_num, by norm_num, by norm_num, ?_, fun _ => ⟨by norm_num, fun _ => by norm_num⟩⟩
  norm_num [flatHw]

end Frm.Props
