import Verif.Props.C47
import Verif.Props.C52
import Verif.Props.C53
import Verif.Proofs.Expectation

/-!
# C72: option prices are expected payoffs

The expectation is that of Mathlib's standard normal distribution, `gaussianReal 0 1`.
-/

namespace Frm
namespace Spec
open MeasureTheory ProbabilityTheory

set_option autoImplicit false

/-- The mean of `f Z` for a standard normal variable `Z`. -/
noncomputable def normalMean (f : ℝ → ℝ) : ℝ := ∫ z, f z ∂(gaussianReal 0 1)

/-- What an option with flag `cp` and strike `K` pays when the underlying ends at `S`. -/
noncomputable def optionPayoff (cp K S : ℝ) : ℝ := max 0 (cp * (S - K))

/-- The spot after `t` years when it drifts at `m` with volatility `v` and the driving normal variable is `z`. -/
noncomputable def lognormalSpot (S m v t z : ℝ) : ℝ := S * Real.exp ((m - v ^ 2 / 2) * t + v * Real.sqrt t * z)

end Spec
end Frm

namespace Frm.Props
open Classical MeasureTheory ProbabilityTheory

set_option autoImplicit false

open Frm Frm.Spec

/-- Garman–Kohlhagen: the mean payoff on a lognormal spot drifting at the domestic less the foreign rate, discounted at the domestic
rate. -/
theorem C72_garman_kohlhagen (rows : List GkRow) (out : List GkValue) (h : garmanKohlhagenPrice rows = .ok out) (i : Nat) (x : GkRow)
    (hi : rows[i]? = some x) (hK : 0 < x.K) (hv : 0 < x.vol) (ht : 0 < x.tau) (r : ℝ) (hr : DomesticRate x r) :
    ∃ v, out[i]? = some v ∧
      v.price = some (Real.exp (-r * x.tau) * normalMean (fun z => optionPayoff x.cp x.K (lognormalSpot x.S0 (r - x.rf) x.vol x.tau z))) := by
  obtain ⟨vi, oi⟩ := gk_at h hi
  have hr' := domesticRate_eq vi.1 ht.ne' hr
  refine ⟨_, oi, ?_⟩
  show gkPrice x = _
  have hst : 0 < Real.sqrt x.tau := Real.sqrt_pos.2 ht
  rw [gkPrice_eq vi.1 hK ht hv.ne', hr',
    ← black_expect (mul_pos vi.1 (Real.exp_pos _)) (mul_pos hK (Real.exp_pos _)) (mul_pos hv hst) vi.2.2.1]
  unfold normalMean optionPayoff lognormalSpot
  rw [← integral_const_mul]
  congr 2
  funext z
  rw [mul_max_of_nonneg _ _ (Real.exp_pos _).le, mul_zero]
  congr 1
  have e : x.S0 * Real.exp (-x.rf * x.tau) * Real.exp (x.vol * Real.sqrt x.tau * z - (x.vol * Real.sqrt x.tau) ^ 2 / 2) =
      Real.exp (-r * x.tau) * (x.S0 * Real.exp ((r - x.rf - x.vol ^ 2 / 2) * x.tau + x.vol * Real.sqrt x.tau * z)) := by
    rw [mul_assoc, ← Real.exp_add, mul_left_comm, ← Real.exp_add]
    congr 2
    rw [mul_pow, Real.sq_sqrt ht.le]
    ring
  rw [e]
  ring

example : ∃ out, garmanKohlhagenPrice [⟨2, 1, 0.03, 0.01, -1, 2.1, 0.1, none⟩] = .ok out ∧
    DomesticRate ⟨2, 1, 0.03, 0.01, -1, 2.1, 0.1, none⟩ 0.03 := by
  rcases C47_accepts [⟨2, 1, 0.03, 0.01, -1, 2.1, 0.1, none⟩] with ⟨_, out, h, _⟩ | ⟨⟨x, hx, hn⟩, _⟩
  · exact ⟨out, h, rfl⟩
  · rw [List.mem_singleton] at hx
    subst hx
    exact absurd ⟨by norm_num, by norm_num, Or.inr rfl, by simp⟩ hn

/-- Black-76: the annuity times the mean payoff on a driftless lognormal shifted forward. -/
theorem C72_black76 (x : B76Row) (h : LognormalOption x) :
    B76Priced x (x.annuity * normalMean (fun z => optionPayoff x.cp x.K (lognormalSpot (x.F + x.shift) 0 x.vol x.tau z - x.shift))) := by
  rw [b76Priced_black h, ← black_expect h.1 h.2.1 (mul_pos h.2.2.2.1 (Real.sqrt_pos.2 h.2.2.1)) h.2.2.2.2]
  unfold normalMean optionPayoff lognormalSpot
  congr 2
  funext z
  have e : x.vol * Real.sqrt x.tau * z - (x.vol * Real.sqrt x.tau) ^ 2 / 2 =
      (0 - x.vol ^ 2 / 2) * x.tau + x.vol * Real.sqrt x.tau * z := by
    rw [mul_pow, Real.sq_sqrt h.2.2.1.le]
    ring
  rw [e]
  ring_nf

example : LognormalOption ⟨0.03, 2, -1, 0.04, 0.2, 0.01, 1.9⟩ := by
  refine ⟨?_, ?_, ?_, ?_, Or.inr rfl⟩ <;> norm_num

/-- Bachelier: the annuity times the mean payoff on a driftless normal forward. -/
theorem C72_bachelier (x : BachRow) (h : NormalOption x) :
    BachPriced x (x.annuity * normalMean (fun z => optionPayoff x.cp x.K (x.F + x.vol * Real.sqrt x.tau * z))) := by
  rw [bachPriced_eq h, ← bach_expect (mul_pos h.2.1 (Real.sqrt_pos.2 h.1)) h.2.2]
  unfold normalMean optionPayoff
  congr 2
  funext z
  ring_nf

example : NormalOption ⟨-0.01, 2, 1, 0.04, 0.006, 1.9⟩ := by
  refine ⟨?_, ?_, Or.inl rfl⟩ <;> norm_num

end Frm.Props
