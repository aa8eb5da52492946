import Verif.Model.GarmanKohlhagen
import Verif.Proofs.BlackFormula

namespace Frm
open Classical

set_option autoImplicit false

theorem log_assets {S K q r t : ℝ} (hS : 0 < S) (hK : 0 < K) :
    Real.log (S * Real.exp (-q * t) / (K * Real.exp (-r * t))) = Real.log (S / K) + (r - q) * t := by
  rw [Real.log_div (mul_pos hS (Real.exp_pos _)).ne' (mul_pos hK (Real.exp_pos _)).ne', Real.log_mul hS.ne' (Real.exp_pos _).ne',
    Real.log_mul hK.ne' (Real.exp_pos _).ne', Real.log_exp, Real.log_exp, Real.log_div hS.ne' hK.ne']
  ring

/-- The price of a row with positive spot, strike and time, and non-zero volatility, is the Black formula. -/
theorem gk_d1 {x : GkRow} (hS : 0 < x.S0) (hK : 0 < x.K) (ht : 0 < x.tau) (hv : x.vol ≠ 0) :
    gkD1 x = .fin (bD1 (x.S0 * Real.exp (-x.rf * x.tau)) (x.K * Real.exp (-gkRate x * x.tau)) (x.vol * Real.sqrt x.tau)) := by
  have hst : 0 < Real.sqrt x.tau := Real.sqrt_pos.2 ht
  have hs : x.vol * Real.sqrt x.tau ≠ 0 := mul_ne_zero hv hst.ne'
  unfold gkD1
  rw [if_neg (fun h => ht.ne' h.1), if_neg (fun h => ht.ne' h.1)]
  have e1 : Npf.divide x.S0 x.K = .fin (x.S0 / x.K) := by unfold Npf.divide; rw [if_pos hK.ne']
  have e2 : (Npf.fin (x.S0 / x.K)).log = .fin (Real.log (x.S0 / x.K)) := by
    show (if 0 < x.S0 / x.K then _ else _) = _
    rw [if_pos (div_pos hS hK)]
  rw [e1, e2]
  show Npf.divide _ _ = _
  unfold Npf.divide
  rw [if_pos hs]
  congr 1
  unfold bD1
  rw [log_assets hS hK]
  have hsq : x.vol ^ 2 * x.tau = (x.vol * Real.sqrt x.tau) ^ 2 := by rw [mul_pow, Real.sq_sqrt ht.le]
  have : Real.log (x.S0 / x.K) + (gkRate x - x.rf + 0.5 * x.vol ^ 2) * x.tau
      = Real.log (x.S0 / x.K) + (gkRate x - x.rf) * x.tau + 0.5 * (x.vol * Real.sqrt x.tau) ^ 2 := by rw [← hsq]; ring
  rw [this, add_div]
  congr 1
  rw [pow_two, mul_div_assoc, mul_div_assoc, div_self hs]
  norm_num
  ring

theorem gk_d2 {x : GkRow} (hS : 0 < x.S0) (hK : 0 < x.K) (ht : 0 < x.tau) (hv : x.vol ≠ 0) :
    gkD2 x = .fin (bD2 (x.S0 * Real.exp (-x.rf * x.tau)) (x.K * Real.exp (-gkRate x * x.tau)) (x.vol * Real.sqrt x.tau)) := by
  unfold gkD2
  rw [gk_d1 hS hK ht hv]
  show Npf.fin (_ + -_) = _
  rw [← sub_eq_add_neg]
  rfl

theorem gkPrice_eq {x : GkRow} (hS : 0 < x.S0) (hK : 0 < x.K) (ht : 0 < x.tau) (hv : x.vol ≠ 0) :
    gkPrice x = some (blackF x.cp (x.S0 * Real.exp (-x.rf * x.tau)) (x.K * Real.exp (-gkRate x * x.tau)) (x.vol * Real.sqrt x.tau)) := by
  unfold gkPrice
  rw [if_neg ht.ne', gk_d1 hS hK ht hv, gk_d2 hS hK ht hv]
  rfl

theorem gkPrice_expiry {x : GkRow} (ht : x.tau = 0) : gkPrice x = some (max 0 (x.cp * (x.S0 - x.K))) := by
  unfold gkPrice
  rw [if_pos ht]

theorem garmanKohlhagenPrice_ok {rows : List GkRow} {out : List GkValue} (h : garmanKohlhagenPrice rows = .ok out) :
    (∀ x ∈ rows, gkValid x) ∧ out = rows.map gkValue := by
  unfold garmanKohlhagenPrice at h
  by_cases hb : ∃ x ∈ rows, ¬ gkValid x
  · rw [if_pos hb] at h; cases h
  · rw [if_neg hb] at h
    push Not at hb
    refine ⟨hb, ?_⟩
    simp only [Bool.false_eq_true, if_false] at h
    exact (Except.ok.inj h).symm

theorem garmanKohlhagenPrice_of {rows : List GkRow} (h : ∀ x ∈ rows, gkValid x) : garmanKohlhagenPrice rows = .ok (rows.map gkValue) := by
  unfold garmanKohlhagenPrice
  rw [if_neg (by push Not; exact h)]
  simp

/-- The domestic rate consistent with a forward is the one the code uses. -/
theorem gkRate_unique {x : GkRow} {F r : ℝ} (hS : 0 < x.S0) (ht : x.tau ≠ 0) (hf : x.fwd = some F)
    (h : x.S0 * Real.exp ((r - x.rf) * x.tau) = F) : gkRate x = r := by
  unfold gkRate
  rw [hf]
  simp only
  rw [← h, mul_div_cancel_left₀ _ hS.ne', Real.log_exp]
  field_simp
  ring

end Frm
