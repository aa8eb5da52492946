import Verif.Props.C52
import Verif.Props.C53

/-!
# C55: at-the-money volatility conversion
-/

namespace Frm.Props
open Classical Set

set_option autoImplicit false

open Frm Frm.Spec

theorem black_atm {A s : ℝ} (hA : 0 < A) (hs : s ≠ 0) : blackF 1 A A s = 2 * A * normCdf (s / 2) - A := by
  have h1 : bD1 A A s = s / 2 := by unfold bD1; rw [div_self hA.ne', Real.log_one, zero_div, zero_add]
  have h2 : bD2 A A s = -(s / 2) := by unfold bD2; rw [h1]; ring
  unfold blackF
  rw [h1, h2]
  simp only [one_mul, normCdf_neg]
  ring

theorem bach_atm (s : ℝ) : bachF 1 0 s = s * normPdf 0 := by
  unfold bachF
  simp

theorem slnToNormal_atm (brent lbfgs : Method) {F tau vol shift : ℝ} (ht : 0 < tau) :
    black76SlnToNormalVol brent lbfgs F tau F vol shift =
      .ok (.fin ((2 * (F + shift) * normCdf (vol * Real.sqrt tau / 2) - (F + shift)) / (Real.sqrt tau * normPdf 0))) := by
  unfold black76SlnToNormalVol
  rw [if_pos (by rw [sub_self, abs_zero]; norm_num)]
  unfold Npf.divide
  rw [if_neg (not_lt.2 ht.le), if_pos (mul_pos (Real.sqrt_pos.2 ht) (normPdf_pos 0)).ne']
  norm_num

/-- At the money the conversion gives a positive normal volatility whose Bachelier price is the Black-76 price, for calls and
puts and every annuity factor; no other normal volatility gives that price. -/
theorem C55_same_price (brent lbfgs : Method) (F tau vol shift : ℝ) (hF : 0 < F + shift) (ht : 0 < tau) (hv : 0 < vol) :
    ∃ n, black76SlnToNormalVol brent lbfgs F tau F vol shift = .ok (.fin n) ∧ 0 < n ∧
      (∀ cp a X, (cp = 1 ∨ cp = -1) → B76Priced ⟨F, tau, cp, F, vol, shift, a⟩ X → BachPriced ⟨F, tau, cp, F, n, a⟩ X) ∧
      ∀ w X, 0 < w → B76Priced ⟨F, tau, 1, F, vol, shift, 1⟩ X → BachPriced ⟨F, tau, 1, F, w, 1⟩ X → w = n := by
  have hst := Real.sqrt_pos.2 ht
  have hs : 0 < vol * Real.sqrt tau := mul_pos hv hst
  have hp0 := normPdf_pos 0
  have hhalf : (1 : ℝ) / 2 < normCdf (vol * Real.sqrt tau / 2) := by
    rw [← normCdf_zero]
    exact normCdf_strictMono (by linarith)
  have hn : 0 < (2 * (F + shift) * normCdf (vol * Real.sqrt tau / 2) - (F + shift)) / (Real.sqrt tau * normPdf 0) := by
    apply div_pos _ (mul_pos hst hp0)
    nlinarith
  have hmul : (2 * (F + shift) * normCdf (vol * Real.sqrt tau / 2) - (F + shift)) / (Real.sqrt tau * normPdf 0) * Real.sqrt tau * normPdf 0
      = 2 * (F + shift) * normCdf (vol * Real.sqrt tau / 2) - (F + shift) := by
    have := hst.ne'
    have := hp0.ne'
    field_simp
  have hcall : ∀ {cp}, (cp = 1 ∨ cp = -1) → blackF cp (F + shift) (F + shift) (vol * Real.sqrt tau) = 2 * (F + shift) * normCdf (vol * Real.sqrt tau / 2) - (F + shift) := by
    rintro cp (rfl | rfl)
    · exact black_atm hF hs.ne'
    · have := black_parity (F + shift) (F + shift) (vol * Real.sqrt tau)
      rw [black_atm hF hs.ne'] at this
      linarith
  have hbach : ∀ {cp} (s : ℝ), (cp = 1 ∨ cp = -1) → bachF cp 0 s = s * normPdf 0 := by
    rintro cp s (rfl | rfl)
    · exact bach_atm s
    · have := bach_parity 0 s
      rw [bach_atm] at this
      linarith
  refine ⟨_, slnToNormal_atm brent lbfgs ht, hn, ?_, ?_⟩
  · intro cp a X hcp hX
    rw [b76Priced_black (x := ⟨F, tau, cp, F, vol, shift, a⟩) ⟨hF, hF, ht, hv, hcp⟩] at hX
    rw [bachPriced_eq (x := ⟨F, tau, cp, F, _, a⟩) ⟨ht, hn, hcp⟩, hX]
    simp only [sub_self]
    rw [hcall hcp, hbach _ hcp, hmul]
  · intro w X hw hX hX'
    rw [b76Priced_black (x := ⟨F, tau, 1, F, vol, shift, 1⟩) ⟨hF, hF, ht, hv, Or.inl rfl⟩] at hX
    rw [bachPriced_eq (x := ⟨F, tau, 1, F, w, 1⟩) ⟨ht, hw, Or.inl rfl⟩] at hX'
    simp only [sub_self, one_mul] at hX hX'
    rw [hcall (Or.inl rfl)] at hX
    rw [bach_atm] at hX'
    rw [eq_div_iff (mul_pos hst hp0).ne']
    linarith

/-- Converting an at-the-money log-normal volatility to a normal one and back returns it. -/
theorem C55_round_trip (brent lbfgs : Method) (F tau vol shift : ℝ) (hF : 0 < F + shift) (ht : 0 < tau) :
    ∃ n, black76SlnToNormalVol brent lbfgs F tau F vol shift = .ok (.fin n) ∧ normalVolAtmToSlnAtm F tau n shift = .fin vol := by
  have hst := Real.sqrt_pos.2 ht
  have hp0 := normPdf_pos 0
  refine ⟨_, slnToNormal_atm brent lbfgs ht, ?_⟩
  have e : ((2 * (F + shift) * normCdf (vol * Real.sqrt tau / 2) - (F + shift)) / (Real.sqrt tau * normPdf 0) * Real.sqrt tau * normPdf 0
      + (F + shift)) / (2.0 * (F + shift)) = normCdf (vol * Real.sqrt tau / 2) := by
    have := hst.ne'
    have := hp0.ne'
    have := hF.ne'
    norm_num
    field_simp
    ring
  unfold normalVolAtmToSlnAtm
  rw [if_neg (by rintro (h | h) <;> linarith), e]
  have hz : normPpf (normCdf (vol * Real.sqrt tau / 2)) = .fin (vol * Real.sqrt tau / 2) := by
    unfold normPpf
    have hx : ∃ x, normCdf x = normCdf (vol * Real.sqrt tau / 2) := ⟨_, rfl⟩
    rw [dif_pos hx]
    congr 1
    exact normCdf_strictMono.injective hx.choose_spec
  rw [hz]
  simp only [Npf.fin.injEq]
  norm_num
  field_simp

/-- Converting an at-the-money normal volatility to a log-normal one and back returns it, whenever there is a log-normal volatility:
when the Bachelier price is below the shifted forward. -/
theorem C55_round_trip_normal (brent lbfgs : Method) (F tau n shift : ℝ) (hF : 0 < F + shift) (ht : 0 < tau) (hn : 0 < n)
    (hlt : n * Real.sqrt tau * normPdf 0 < F + shift) :
    ∃ v, normalVolAtmToSlnAtm F tau n shift = .fin v ∧ 0 < v ∧ black76SlnToNormalVol brent lbfgs F tau F v shift = .ok (.fin n) := by
  have hst := Real.sqrt_pos.2 ht
  have hp0 := normPdf_pos 0
  have hpos : 0 < n * Real.sqrt tau * normPdf 0 := mul_pos (mul_pos hn hst) hp0
  have e2 : (2.0 : ℝ) = 2 := by norm_num
  have h0 : 1 / 2 < (n * Real.sqrt tau * normPdf 0 + (F + shift)) / (2.0 * (F + shift)) := by
    rw [e2, lt_div_iff₀ (by linarith)]; linarith
  have h1 : (n * Real.sqrt tau * normPdf 0 + (F + shift)) / (2.0 * (F + shift)) < 1 := by
    rw [e2, div_lt_one (by linarith)]; linarith
  obtain ⟨z, hz⟩ : ∃ z, normPpf ((n * Real.sqrt tau * normPdf 0 + (F + shift)) / (2.0 * (F + shift))) = .fin z := by
    unfold normPpf
    rw [dif_pos (normCdf_surj (by linarith) h1)]
    exact ⟨_, rfl⟩
  have hcz : normCdf z = (n * Real.sqrt tau * normPdf 0 + (F + shift)) / (2.0 * (F + shift)) := by
    unfold normPpf at hz
    have hx := normCdf_surj (by linarith) h1
    rw [dif_pos hx] at hz
    cases hz
    exact hx.choose_spec
  have hz0 : 0 < z := by
    have : normCdf 0 < normCdf z := by rw [normCdf_zero, hcz]; exact h0
    exact normCdf_strictMono.lt_iff_lt.1 this
  refine ⟨2.0 / Real.sqrt tau * z, ?_, mul_pos (div_pos (by norm_num) hst) hz0, ?_⟩
  · unfold normalVolAtmToSlnAtm
    rw [if_neg (by rintro (h | h) <;> linarith), hz]
  · rw [slnToNormal_atm brent lbfgs ht]
    have e : 2.0 / Real.sqrt tau * z * Real.sqrt tau / 2 = z := by
      have := hst.ne'
      rw [e2]
      field_simp
    rw [e, hcz, e2]
    congr 2
    have := hst.ne'
    have := hp0.ne'
    have := hF.ne'
    field_simp
    ring

/-- A forward of 1% with a shift of 2%, two years, meets the hypotheses. -/
example : (0 : ℝ) < 0.01 + 0.02 ∧ (0 : ℝ) < 2 ∧ (0 : ℝ) < 0.3 := by norm_num

/-- Where a conversion at the money has no answer it returns `nan` and raises nothing: both conversions at a negative time or at expiry, and
the conversion from normal volatility for a shifted forward of zero, too. -/
theorem C55_nan (brent lbfgs : Method) (F tau vol shift : ℝ) :
    (tau ≤ 0 ∨ F + shift = 0 → normalVolAtmToSlnAtm F tau vol shift = .nan) ∧
    (tau ≤ 0 → black76SlnToNormalVol brent lbfgs F tau F vol shift = .ok .nan) := by
  refine ⟨fun h => ?_, fun h => ?_⟩
  · unfold normalVolAtmToSlnAtm
    rw [if_pos h]
  · unfold black76SlnToNormalVol
    rw [if_pos (by rw [sub_self, abs_zero]; norm_num)]
    rcases h.lt_or_eq with h | h
    · rw [if_pos h]
    · rw [if_neg (not_lt.2 h.ge), h]
      unfold Npf.divide
      rw [Real.sqrt_zero, zero_mul, if_neg (by simp), mul_zero, zero_div, normCdf_zero]
      have e : 2 * (F + shift) * (1 / 2) = F + shift := by ring
      norm_num [e]

/-- At expiry. -/
example : normalVolAtmToSlnAtm 0.03 0 0.006 0.01 = .nan := (C55_nan (fun _ _ => .ret 0 true) (fun _ _ => .ret 0 true) _ _ _ _).1 (.inl le_rfl)

end Frm.Props
