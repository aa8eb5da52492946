import Verif.Model.NormalVolApprox
import Verif.Proofs.Taylor
import Verif.Props.C55

/-!
# C92: the closed-form normal volatility
-/

namespace Frm.Props
open Classical

set_option autoImplicit false

open Frm Frm.Taylor

/-- The denominator of the formula. -/
noncomputable def anDen (L s : ℝ) : ℝ := 1 + (1 / 24) * (1 - (1 / 120) * L ^ 2) * s ^ 2 + (1 / 5760) * s ^ 4

theorem analytical_eq {F tau K vol shift : ℝ} (ht : 0 ≤ tau) (hF : 0 < F + shift) (hK : 0 < K + shift) :
    slnToNormalAnalytical F tau K vol shift = .ok (Npf.divide
      (vol * Real.sqrt ((F + shift) * (K + shift)) * (1 + Real.log ((F + shift) / (K + shift)) ^ 2 / 24 + Real.log ((F + shift) / (K + shift)) ^ 4 / 1920))
      (anDen (Real.log ((F + shift) / (K + shift))) (vol * Real.sqrt tau))) := by
  unfold slnToNormalAnalytical anDen
  simp only
  rw [if_neg hK.ne', if_neg (not_le.2 (div_pos hF hK))]
  have e2 : (vol * Real.sqrt tau) ^ 2 = vol ^ 2 * tau := by rw [mul_pow, Real.sq_sqrt ht]
  have e4 : (vol * Real.sqrt tau) ^ 4 = vol ^ 4 * tau ^ 2 := by
    rw [show (vol * Real.sqrt tau) ^ 4 = ((vol * Real.sqrt tau) ^ 2) ^ 2 by ring, e2]; ring
  rw [e2, e4]
  congr 2 <;> ring

/-! ## The properties -/

/-- What is refused: a strike at minus the shift raises `ZeroDivisionError`; a forward and a strike not strictly on the same side of minus the shift give `nan`. -/
theorem C92_refused (F tau K vol shift : ℝ) :
    (K + shift = 0 → slnToNormalAnalytical F tau K vol shift = .error .zeroDiv) ∧
    (K + shift ≠ 0 → (F + shift) / (K + shift) ≤ 0 → slnToNormalAnalytical F tau K vol shift = .ok .nan) := by
  refine ⟨fun h => ?_, fun h h' => ?_⟩
  · unfold slnToNormalAnalytical
    simp [h]
  · unfold slnToNormalAnalytical
    simp only
    rw [if_neg h, if_pos h']

/-- Only the shifted forward and strike matter. -/
theorem C92_shift (F tau K vol shift : ℝ) :
    slnToNormalAnalytical F tau K vol shift = slnToNormalAnalytical (F + shift) tau (K + shift) vol 0 := by
  unfold slnToNormalAnalytical
  simp only [add_zero]

/-- A forward and a strike below minus the shift are not refused: they are taken for their mirror images. -/
theorem C92_negative_accepted {F tau K vol : ℝ} (hF : F < 0) (hK : K < 0) :
    slnToNormalAnalytical F tau K vol 0 = slnToNormalAnalytical (-F) tau (-K) vol 0 ∧
    slnToNormalAnalytical F tau K vol 0 ≠ .ok .nan := by
  have hq : 0 < F / K := div_pos_of_neg_of_neg hF hK
  refine ⟨?_, ?_⟩
  · unfold slnToNormalAnalytical
    simp only [add_zero, neg_div_neg_eq, neg_mul_neg, neg_eq_zero]
  · unfold slnToNormalAnalytical
    simp only [add_zero]
    rw [if_neg hK.ne, if_neg (not_le.2 hq)]
    unfold Npf.divide
    split_ifs with h1 h2 h3 <;> simp only [ne_eq, Except.ok.injEq, reduceCtorEq, not_false_eq_true, not_true_eq_false]
    -- a zero numerator over a zero denominator would need a zero volatility, and then the denominator is one
    rw [not_lt] at h2 h3
    rw [not_not] at h1
    have hz := le_antisymm h2 h3
    have hpos : 0 < Real.sqrt (F * K) * (1 + 1 / 24 * Real.log (F / K) ^ 2 + 1 / 1920 * Real.log (F / K) ^ 4) := by
      have : 0 < Real.sqrt (F * K) := Real.sqrt_pos.2 (mul_pos_of_neg_of_neg hF hK)
      positivity
    rw [mul_assoc] at hz
    have hv : vol = 0 := (mul_eq_zero.1 hz).resolve_right hpos.ne'
    rw [hv] at h1
    norm_num at h1

/-- Forward and strike play the same part. -/
theorem C92_symmetric {F tau K vol shift : ℝ} (hF : F + shift ≠ 0) (hK : K + shift ≠ 0) :
    slnToNormalAnalytical F tau K vol shift = slnToNormalAnalytical K tau F vol shift := by
  unfold slnToNormalAnalytical
  simp only
  rw [if_neg hF, if_neg hK]
  have hl : Real.log ((F + shift) / (K + shift)) = - Real.log ((K + shift) / (F + shift)) := by rw [← Real.log_inv, inv_div]
  by_cases h : (F + shift) / (K + shift) ≤ 0
  · rw [if_pos h, if_pos]
    rw [← inv_div]
    exact inv_nonpos.2 h
  · rw [if_neg h, if_neg, hl, mul_comm (K + shift)]
    · simp only [even_two, Even.neg_pow, show ∀ x : ℝ, (-x) ^ 4 = x ^ 4 from fun x => by ring]
    · rw [not_le] at h ⊢
      rw [← inv_div]
      exact inv_pos.2 h

/-- The volatility is in units of the forward. -/
theorem C92_scale {F tau K vol c x : ℝ} (hc : 0 < c) (hF : 0 < F) (hK : 0 < K) (ht : 0 ≤ tau)
    (h : slnToNormalAnalytical F tau K vol 0 = .ok (.fin x)) : slnToNormalAnalytical (c * F) tau (c * K) vol 0 = .ok (.fin (c * x)) := by
  rw [analytical_eq ht (by linarith) (by linarith)] at h
  rw [analytical_eq ht (by have := mul_pos hc hF; linarith) (by have := mul_pos hc hK; linarith)]
  simp only [add_zero] at h ⊢
  have e1 : c * F / (c * K) = F / K := by field_simp
  have e2 : Real.sqrt (c * F * (c * K)) = c * Real.sqrt (F * K) := by
    rw [show c * F * (c * K) = c ^ 2 * (F * K) by ring, Real.sqrt_mul (by positivity), Real.sqrt_sq hc.le]
  rw [e1, e2]
  unfold Npf.divide at h ⊢
  by_cases hd : anDen (Real.log (F / K)) (vol * Real.sqrt tau) ≠ 0
  · rw [if_pos hd] at h ⊢
    simp only [Except.ok.injEq, Npf.fin.injEq] at h ⊢
    rw [← h]
    ring
  · rw [if_neg hd] at h
    split_ifs at h <;> simp at h

/-- Positive volatilities stay positive unless forward and strike are more than `e^10.95` apart. -/
theorem C92_positive {F tau K vol shift : ℝ} (hF : 0 < F + shift) (hK : 0 < K + shift) (ht : 0 ≤ tau) (hv : 0 < vol)
    (hL : Real.log ((F + shift) / (K + shift)) ^ 2 ≤ 120) : ∃ x, slnToNormalAnalytical F tau K vol shift = .ok (.fin x) ∧ 0 < x := by
  rw [analytical_eq ht hF hK]
  set L := Real.log ((F + shift) / (K + shift))
  have hd : 0 < anDen L (vol * Real.sqrt tau) := by
    unfold anDen
    have h1 : 0 ≤ 1 - (1 / 120) * L ^ 2 := by linarith
    have : 0 ≤ (1 / 24) * (1 - (1 / 120) * L ^ 2) * (vol * Real.sqrt tau) ^ 2 := by positivity
    have : 0 ≤ (1 / 5760) * (vol * Real.sqrt tau) ^ 4 := by positivity
    linarith
  unfold Npf.divide
  rw [if_pos hd.ne']
  refine ⟨_, rfl, ?_⟩
  have : 0 < Real.sqrt ((F + shift) * (K + shift)) := Real.sqrt_pos.2 (mul_pos hF hK)
  positivity

/-- Beyond, the "volatility" can be negative. -/
theorem C92_can_be_negative : ∃ F tau K vol x : ℝ, 0 < F ∧ 0 < K ∧ 0 < tau ∧ 0 < vol ∧ slnToNormalAnalytical F tau K vol 0 = .ok (.fin x) ∧ x < 0 := by
  have hl : Real.log ((Real.exp 24 + 0) / (1 + 0)) = 24 := by rw [add_zero, add_zero, div_one, Real.log_exp]
  have hd : anDen 24 (1 * Real.sqrt 12) < 0 := by
    unfold anDen
    rw [one_mul, Real.sq_sqrt (by norm_num), show Real.sqrt 12 ^ 4 = (Real.sqrt 12 ^ 2) ^ 2 by ring, Real.sq_sqrt (by norm_num)]
    norm_num
  have hn : 0 < 1 * Real.sqrt ((Real.exp 24 + 0) * (1 + 0)) * (1 + 24 ^ 2 / 24 + 24 ^ 4 / 1920) := by
    have : 0 < Real.sqrt ((Real.exp 24 + 0) * (1 + 0)) := Real.sqrt_pos.2 (by have := Real.exp_pos 24; linarith)
    positivity
  refine ⟨Real.exp 24, 12, 1, 1, 1 * Real.sqrt ((Real.exp 24 + 0) * (1 + 0)) * (1 + 24 ^ 2 / 24 + 24 ^ 4 / 1920) / anDen 24 (1 * Real.sqrt 12),
    Real.exp_pos _, one_pos, by norm_num, one_pos, ?_, div_neg_of_pos_of_neg hn hd⟩
  rw [analytical_eq (by norm_num) (by have := Real.exp_pos 24; linarith) (by norm_num), hl]
  unfold Npf.divide
  rw [if_pos hd.ne]

/-- At the money: the closed form is within `F σ (s⁶ / 17280 + s⁸ / 3686400)` of the normal volatility with the same price (`C55_same_price`), where `s = σ √τ`. -/
theorem C92_at_the_money (brent lbfgs : Method) {F tau vol shift : ℝ} (hF : 0 < F + shift) (ht : 0 < tau) (hv : 0 < vol) :
    ∃ exact approx, black76SlnToNormalVol brent lbfgs F tau F vol shift = .ok (.fin exact) ∧
      slnToNormalAnalytical F tau F vol shift = .ok (.fin approx) ∧
      |approx - exact| ≤ (F + shift) * vol * ((vol * Real.sqrt tau) ^ 6 / 17280 + (vol * Real.sqrt tau) ^ 8 / 3686400) := by
  have hlog : Real.log ((F + shift) / (F + shift)) = 0 := by rw [div_self hF.ne', Real.log_one]
  have hsq : 0 < Real.sqrt tau := Real.sqrt_pos.2 ht
  set s := vol * Real.sqrt tau with hs
  have hs0 : 0 < s := mul_pos hv hsq
  have hd : 1 ≤ anDen 0 s := by
    unfold anDen
    have : 0 ≤ s ^ 2 := by positivity
    have : 0 ≤ s ^ 4 := by positivity
    nlinarith
  refine ⟨_, (F + shift) * vol / anDen 0 s, slnToNormal_atm brent lbfgs ht, ?_, ?_⟩
  · rw [analytical_eq ht.le hF hF, hlog]
    unfold Npf.divide
    rw [if_pos (by linarith), Real.sqrt_mul_self hF.le]
    congr 2
    norm_num
    ring
  · have hexact : (2 * (F + shift) * normCdf (s / 2) - (F + shift)) / (Real.sqrt tau * normPdf 0) = (F + shift) * vol * (2 * halfMass (s / 2) / s) := by
      unfold halfMass
      have := normPdf_pos 0
      rw [hs]
      field_simp
    rw [hexact]
    have h1 := halfMass_le (show 0 ≤ s / 2 by positivity)
    have h2 := halfMass_ge (show 0 ≤ s / 2 by positivity)
    set R := 2 * halfMass (s / 2) / s with hR
    have hup : R ≤ 1 - s ^ 2 / 24 + s ^ 4 / 640 := by
      rw [hR, div_le_iff₀ hs0]
      nlinarith
    have hlo : 1 - s ^ 2 / 24 + s ^ 4 / 640 - s ^ 6 / 21504 ≤ R := by
      rw [hR, le_div_iff₀ hs0]
      nlinarith
    have hA : 1 / anDen 0 s = 1 - s ^ 2 / 24 + s ^ 4 / 640 - (s ^ 6 / 17280 + s ^ 8 / 3686400) / anDen 0 s := by
      have hne : anDen 0 s ≠ 0 := by linarith
      field_simp
      unfold anDen
      ring
    have h6 : 0 ≤ s ^ 6 := by positivity
    have h8 : 0 ≤ s ^ 8 := by positivity
    have hq : (s ^ 6 / 17280 + s ^ 8 / 3686400) / anDen 0 s ≤ s ^ 6 / 17280 + s ^ 8 / 3686400 := div_le_self (by positivity) hd
    have hq0 : 0 ≤ (s ^ 6 / 17280 + s ^ 8 / 3686400) / anDen 0 s := by positivity
    have e : (F + shift) * vol / anDen 0 s - (F + shift) * vol * R = (F + shift) * vol * (1 / anDen 0 s - R) := by ring
    rw [e, abs_mul, abs_of_pos (mul_pos hF hv)]
    refine mul_le_mul_of_nonneg_left ?_ (mul_pos hF hv).le
    rw [abs_le]
    constructor <;> linarith

/-- For a volatility of 20% over a year the bound is less than `4·10⁻⁹` of the lognormal volatility's price scale. -/
example : ((0.2 : ℝ) ^ 6 / 17280 + 0.2 ^ 8 / 3686400) < 4e-9 := by norm_num

/-- Away from the money: the factor that replaces `(F - K) / log (F / K)` is below it, by no more than `√(F K) L⁶ cosh (L/2) / 322560` where `L = |log (F / K)|`. -/
theorem C92_moneyness {F K : ℝ} (hK : 0 < K) (hFK : K < F) :
    Real.sqrt (F * K) * (1 + Real.log (F / K) ^ 2 / 24 + Real.log (F / K) ^ 4 / 1920) ≤ (F - K) / Real.log (F / K) ∧
    (F - K) / Real.log (F / K) ≤ Real.sqrt (F * K) * (1 + Real.log (F / K) ^ 2 / 24 + Real.log (F / K) ^ 4 / 1920 +
      Real.log (F / K) ^ 6 / 322560 * Real.cosh (Real.log (F / K) / 2)) := by
  have hF : 0 < F := hK.trans hFK
  have hL : 0 < Real.log (F / K) := Real.log_pos ((one_lt_div hK).2 hFK)
  set L := Real.log (F / K) with hLdef
  have hs : 0 < Real.sqrt (F * K) := Real.sqrt_pos.2 (mul_pos hF hK)
  have hFe : F = Real.sqrt (F * K) * Real.exp (L / 2) := by
    have h1 : Real.exp (L / 2) = Real.sqrt (F / K) := by
      rw [Real.exp_half, hLdef, Real.exp_log (div_pos hF hK)]
    rw [h1, ← Real.sqrt_mul (mul_pos hF hK).le, show F * K * (F / K) = F ^ 2 by field_simp, Real.sqrt_sq hF.le]
  have hKe : K = Real.sqrt (F * K) * Real.exp (-(L / 2)) := by
    have h1 : Real.exp (-(L / 2)) = Real.sqrt (K / F) := by
      rw [show -(L / 2) = (-L) / 2 by ring, Real.exp_half, hLdef, ← Real.log_inv, inv_div, Real.exp_log (div_pos hK hF)]
    rw [h1, ← Real.sqrt_mul (mul_pos hF hK).le, show F * K * (K / F) = K ^ 2 by field_simp, Real.sqrt_sq hK.le]
  have hdiff : F - K = Real.sqrt (F * K) * (2 * Real.sinh (L / 2)) := by
    rw [Real.sinh_eq]
    nlinarith [hFe, hKe]
  have h5 := sinh_ge5 (show 0 ≤ L / 2 by positivity)
  have h7 := sinh_le7 (Y := L / 2) (L / 2) (by positivity) le_rfl
  constructor
  · rw [le_div_iff₀ hL, hdiff, mul_assoc]
    refine mul_le_mul_of_nonneg_left ?_ hs.le
    nlinarith
  · rw [div_le_iff₀ hL, hdiff, mul_assoc]
    refine mul_le_mul_of_nonneg_left ?_ hs.le
    nlinarith

end Frm.Props
