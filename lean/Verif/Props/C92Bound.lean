import Verif.Proofs.NormalVol
import Verif.Props.C92

/-!
# C92: the closed-form normal volatility away from the money
-/

namespace Frm.Spec

set_option autoImplicit false

/-- `v` is the normal volatility whose price is that of the lognormal volatility `vol`: both models price the option (`cp`: 1 for calls, -1 for puts) alike. -/
def EquivalentNormalVol (F tau K vol shift cp annuity v : ℝ) : Prop :=
  0 < v ∧ ∃ p, bachPrice ⟨F, tau, cp, K, v, annuity⟩ = some p ∧ b76Price ⟨F, tau, cp, K, vol, shift, annuity⟩ = some p

end Frm.Spec

namespace Frm.Props
open Classical

set_option autoImplicit false

open Frm Frm.Taylor Frm.Spec

theorem equivalent_iff {F tau K vol shift cp annuity v : ℝ} (hF : 0 < F + shift) (hK : 0 < K + shift) (ht : 0 < tau) (hv : 0 < vol)
    (hcp : cp = 1 ∨ cp = -1) (ha : annuity ≠ 0) :
    EquivalentNormalVol F tau K vol shift cp annuity v ↔
      0 < v ∧ bachF 1 ((F + shift) - (K + shift)) (v * Real.sqrt tau) = blackF 1 (F + shift) (K + shift) (vol * Real.sqrt tau) := by
  unfold EquivalentNormalVol
  refine and_congr_right (fun hv0 => ?_)
  rw [bachPrice_eq (x := ⟨F, tau, cp, K, v, annuity⟩) ht hv0.ne', b76Price_eq (x := ⟨F, tau, cp, K, vol, shift, annuity⟩) hF hK ht hv.ne']
  have e : F + shift - (K + shift) = F - K := by ring
  rw [e]
  have h1 := bach_parity (F - K) (v * Real.sqrt tau)
  have h2 := black_parity (F + shift) (K + shift) (vol * Real.sqrt tau)
  rw [e] at h2
  constructor
  · rintro ⟨p, hp, hq⟩
    simp only [Option.some.injEq] at hp hq
    have := mul_left_cancel₀ ha (hp.trans hq.symm)
    rcases hcp with rfl | rfl
    · exact this
    · linarith
  · intro h
    refine ⟨_, rfl, ?_⟩
    simp only [Option.some.injEq]
    congr 1
    rcases hcp with rfl | rfl
    · exact h.symm
    · linarith

/-- Away from the money there is exactly one normal volatility with the same price. -/
theorem C92_equivalent {F tau K vol shift cp annuity : ℝ} (hF : 0 < F + shift) (hK : 0 < K + shift) (hFK : F ≠ K) (ht : 0 < tau) (hv : 0 < vol)
    (hcp : cp = 1 ∨ cp = -1) (ha : annuity ≠ 0) : ∃! v, EquivalentNormalVol F tau K vol shift cp annuity v := by
  have hq : 0 < Real.sqrt tau := Real.sqrt_pos.2 ht
  obtain ⟨v, hv0, he⟩ := NormalVol.equivalent_exists hF hK (fun h => hFK (by linarith)) (mul_pos hv hq)
  refine ⟨v / Real.sqrt tau, (equivalent_iff hF hK ht hv hcp ha).2 ⟨div_pos hv0 hq, ?_⟩, fun w hw => ?_⟩
  · rw [div_mul_cancel₀ _ hq.ne']; exact he
  · obtain ⟨hw0, hw1⟩ := (equivalent_iff hF hK ht hv hcp ha).1 hw
    have := (bach_strictMono (m := F + shift - (K + shift)) (cp := 1) (.inl rfl)).injOn (show w * Real.sqrt tau ∈ Set.Ioi (0 : ℝ) from mul_pos hw0 hq) hv0 (hw1.trans he.symm)
    rw [← this]
    field_simp

/-- The equivalent normal volatility is bracketed, with no restriction on strike, time or volatility: with `s = vol √τ`, `L = log (F' / K')`,
`M = (F' - K') / L` and `β = 2 log (M / √(F' K')) / L²` for the shifted forward and strike, it lies between `vol M / √(1 + β s² + s⁴ / 480)` and
`vol M / √(1 + β s²)`. -/
theorem C92_bracket {F tau K vol shift cp annuity v : ℝ} (hF : 0 < F + shift) (hK : 0 < K + shift) (hFK : F ≠ K) (ht : 0 < tau) (hv : 0 < vol)
    (hcp : cp = 1 ∨ cp = -1) (ha : annuity ≠ 0) (he : EquivalentNormalVol F tau K vol shift cp annuity v)
    (s L M β : ℝ) (hs : s = vol * Real.sqrt tau) (hL : L = Real.log ((F + shift) / (K + shift))) (hM : M = (F - K) / L)
    (hβ : β = 2 * Real.log (M / Real.sqrt ((F + shift) * (K + shift))) / L ^ 2) :
    vol * M / Real.sqrt (1 + β * s ^ 2 + s ^ 4 / 480) ≤ v ∧ v ≤ vol * M / Real.sqrt (1 + β * s ^ 2) := by
  have hq : 0 < Real.sqrt tau := Real.sqrt_pos.2 ht
  obtain ⟨hv0, h1⟩ := (equivalent_iff hF hK ht hv hcp ha).1 he
  have hM' : M = NormalVol.logMean (F + shift) (K + shift) := by
    unfold NormalVol.logMean
    rw [hM, hL]; congr 1; ring
  have hβ' : β = NormalVol.curv (F + shift) (K + shift) := by
    unfold NormalVol.curv
    rw [hβ, hL, hM']
  obtain ⟨hlo, hhi⟩ := NormalVol.between hF hK (fun h => hFK (by linarith)) (mul_pos hv hq) (mul_pos hv0 hq) h1
  rw [← hM', ← hβ', ← hs] at hlo hhi
  unfold NormalVol.bound at hlo hhi
  have e : ∀ x : ℝ, M * s / x = vol * M / x * Real.sqrt tau := fun x => by rw [hs]; ring
  rw [e] at hlo hhi
  have h2 := le_of_mul_le_mul_right hlo hq
  have h3 := le_of_mul_le_mul_right hhi hq
  rw [zero_mul, add_zero] at h3
  rw [show (1 / 480 : ℝ) * s ^ 4 = s ^ 4 / 480 by ring] at h2
  exact ⟨h2, h3⟩

/-- Numbers: what the formula's numerator and denominator are worth against the bracket. -/
theorem bracket_error {L w β S N κ R Dn : ℝ} (hw : 0 ≤ w) (hL : L ^ 2 ≤ 120) (hβ1 : 1 / 12 - L ^ 2 / 1440 ≤ β) (hβ2 : β ≤ 1 / 12 - L ^ 2 / 1440 + L ^ 4 / 90720)
    (hS : 0 < S) (hκ : κ = N / S) (hN1 : N ≤ S) (hN2 : S * (1 - L ^ 6 / 322560 * (1 + L ^ 2 / 12)) ≤ N) (hR : 0 < R)
    (hlo : 1 ≤ R * Real.sqrt (1 + β * w + w ^ 2 / 480)) (hhi : R * Real.sqrt (1 + β * w) ≤ 1)
    (hDn : Dn = 1 + (1 / 24) * (1 - (1 / 120) * L ^ 2) * w + (1 / 5760) * w ^ 2) :
    κ / Dn - R ≤ w * L ^ 4 / 181440 + w ^ 2 * L ^ 2 / 69120 ∧
    R - κ / Dn ≤ L ^ 6 / 322560 * (1 + L ^ 2 / 12) + w ^ 2 / 960 + w ^ 3 / 138240 + w ^ 4 / 66355200 := by
  set b := 1 / 12 - L ^ 2 / 1440 with hb
  have hb0 : 0 ≤ b := by rw [hb]; linarith
  have hL2 : 0 ≤ L ^ 2 := sq_nonneg L
  have hL4 : 0 ≤ L ^ 4 := by positivity
  have hL6 : 0 ≤ L ^ 6 := by positivity
  have hb1 : b ≤ 1 / 12 := by rw [hb]; linarith
  have hDn' : Dn = 1 + b * w / 2 + w ^ 2 / 5760 := by rw [hDn, hb]; ring
  have hbw : 0 ≤ b * w := mul_nonneg hb0 hw
  have hDn1 : 1 ≤ Dn := by rw [hDn']; have : 0 ≤ w ^ 2 := sq_nonneg w; linarith
  have hβ0 : 0 ≤ β := hb0.trans hβ1
  have hE1 : 1 ≤ 1 + β * w := by have := mul_nonneg hβ0 hw; linarith
  have hqE : 1 ≤ Real.sqrt (1 + β * w) := Real.one_le_sqrt.2 hE1
  have hR1 : R ≤ 1 := (le_mul_of_one_le_right hR.le hqE).trans hhi
  have hκ1 : κ ≤ 1 := by rw [hκ]; exact (div_le_one hS).2 hN1
  have hκ2 : 1 - L ^ 6 / 322560 * (1 + L ^ 2 / 12) ≤ κ := by rw [hκ, le_div_iff₀ hS]; linarith
  have hw2 : 0 ≤ w ^ 2 := sq_nonneg w
  have hw3 : 0 ≤ w ^ 3 := by positivity
  have hw4 : 0 ≤ w ^ 4 := by positivity
  have hsq : Dn ^ 2 = 1 + b * w + (b ^ 2 / 4 + 1 / 2880) * w ^ 2 + b * w ^ 3 / 5760 + w ^ 4 / 33177600 := by rw [hDn']; ring
  -- the denominator is not much below the larger root
  set η := w * L ^ 4 / 181440 + w ^ 2 * L ^ 2 / 69120 with hη
  have hη0 : 0 ≤ η := by rw [hη]; positivity
  have h1 : Real.sqrt (1 + β * w + w ^ 2 / 480) ≤ Dn + η := by
    refine Real.sqrt_le_iff.2 ⟨by linarith, ?_⟩
    have e : (Dn + η) ^ 2 = Dn ^ 2 + 2 * η * Dn + η ^ 2 := by ring
    have e1 : 2 * η ≤ 2 * η * Dn := le_mul_of_one_le_right (by linarith) hDn1
    have hbb : w ^ 2 * (1 / 576 - b ^ 2 / 4) ≤ w ^ 2 * (L ^ 2 / 34560) := by
      refine mul_le_mul_of_nonneg_left ?_ hw2
      have : 1 / 576 - b ^ 2 / 4 = (1 / 4) * (L ^ 2 / 1440) * (1 / 12 + b) := by rw [hb]; ring
      rw [this]
      have h3 := mul_le_mul_of_nonneg_left (show 1 / 12 + b ≤ 1 / 6 by linarith) (show 0 ≤ (1 / 4) * (L ^ 2 / 1440) by positivity)
      linarith
    have hbe : β * w ≤ (b + L ^ 4 / 90720) * w := mul_le_mul_of_nonneg_right hβ2 hw
    have hb3 : 0 ≤ b * w ^ 3 / 5760 := by positivity
    have hb4 : 0 ≤ w ^ 4 / 33177600 := by positivity
    have e2 : 2 * η = w * L ^ 4 / 90720 + w ^ 2 * L ^ 2 / 34560 := by rw [hη]; ring
    rw [e, hsq]
    linarith [sq_nonneg η]
  have hlow : 1 - η ≤ Dn * R := by
    have h3 := mul_le_mul_of_nonneg_left h1 hR.le
    have h4 := mul_le_mul_of_nonneg_right hR1 hη0
    linarith
  -- nor much above the smaller one
  set ζ := w ^ 2 / 960 + w ^ 3 / 138240 + w ^ 4 / 66355200 with hζ
  have hζ0 : 0 ≤ ζ := by rw [hζ]; positivity
  have h2 : Dn ≤ Real.sqrt (1 + β * w) + ζ := by
    refine (sq_le_sq₀ (by linarith) (by linarith)).1 ?_
    have e : (Real.sqrt (1 + β * w) + ζ) ^ 2 = (1 + β * w) + 2 * ζ * Real.sqrt (1 + β * w) + ζ ^ 2 := by
      rw [add_sq, Real.sq_sqrt (by linarith)]; ring
    have e1 : 2 * ζ ≤ 2 * ζ * Real.sqrt (1 + β * w) := le_mul_of_one_le_right (by linarith) hqE
    have hbe : b * w ≤ β * w := mul_le_mul_of_nonneg_right hβ1 hw
    have e2 : 2 * ζ = w ^ 2 / 480 + w ^ 3 / 69120 + w ^ 4 / 33177600 := by rw [hζ]; ring
    have hb2 : (b ^ 2 / 4 + 1 / 2880) * w ^ 2 ≤ w ^ 2 / 480 := by
      have h3 : b ^ 2 ≤ (1 / 12) ^ 2 := pow_le_pow_left₀ hb0 hb1 2
      have h4 := mul_le_mul_of_nonneg_right h3 hw2
      linarith
    have hb3 : b * w ^ 3 / 5760 ≤ w ^ 3 / 69120 := by
      have := mul_le_mul_of_nonneg_right hb1 hw3
      linarith
    rw [e, hsq]
    linarith [sq_nonneg ζ]
  have hupp : Dn * R ≤ 1 + ζ := by
    have h3 := mul_le_mul_of_nonneg_right h2 hR.le
    have h4 := mul_le_mul_of_nonneg_right hR1 hζ0
    linarith
  have hD0 : 0 < Dn := by linarith
  have e : κ / Dn - R = (κ - Dn * R) / Dn := by field_simp
  have hδ0 : 0 ≤ L ^ 6 / 322560 * (1 + L ^ 2 / 12) := by positivity
  constructor
  · rw [e, div_le_iff₀ hD0]
    have h3 := le_mul_of_one_le_right hη0 hDn1
    linarith
  · have e' : R - κ / Dn = (Dn * R - κ) / Dn := by field_simp
    rw [e', div_le_iff₀ hD0]
    have h3 := le_mul_of_one_le_right (add_nonneg hδ0 hζ0) hDn1
    have h4 : L ^ 6 / 322560 * (1 + L ^ 2 / 12) + w ^ 2 / 960 + w ^ 3 / 138240 + w ^ 4 / 66355200 = L ^ 6 / 322560 * (1 + L ^ 2 / 12) + ζ := by
      rw [hζ]; ring
    rw [h4]
    linarith

/-- **C92.**  Away from the money: the closed form exceeds the normal volatility with the same price by at most `vol M (s² L⁴ / 181440 + s⁴ L² / 69120)` and falls short of it by at
most `vol M (L⁶ (1 + L² / 12) / 322560 + s⁴ / 960 + s⁶ / 138240 + s⁸ / 66355200)`, where `s = vol √τ`, `L = log (F' / K')` with `L² ≤ 120` and `M = (F' - K') / L`. -/
theorem C92_off_the_money {F tau K vol shift cp annuity exact : ℝ} (hF : 0 < F + shift) (hK : 0 < K + shift) (hFK : F ≠ K) (ht : 0 < tau) (hv : 0 < vol)
    (hcp : cp = 1 ∨ cp = -1) (ha : annuity ≠ 0) (he : EquivalentNormalVol F tau K vol shift cp annuity exact)
    (s L M : ℝ) (hs : s = vol * Real.sqrt tau) (hL : L = Real.log ((F + shift) / (K + shift))) (hM : M = (F - K) / L) (hL2 : L ^ 2 ≤ 120) :
    ∃ approx, slnToNormalAnalytical F tau K vol shift = .ok (.fin approx) ∧
      approx - exact ≤ vol * M * (s ^ 2 * L ^ 4 / 181440 + s ^ 4 * L ^ 2 / 69120) ∧
      exact - approx ≤ vol * M * (L ^ 6 / 322560 * (1 + L ^ 2 / 12) + s ^ 4 / 960 + s ^ 6 / 138240 + s ^ 8 / 66355200) := by
  have hne : F + shift ≠ K + shift := fun h => hFK (by linarith)
  obtain ⟨hlo, hhi⟩ := C92_bracket hF hK hFK ht hv hcp ha he s L M _ hs hL hM rfl
  have hM' : M = NormalVol.logMean (F + shift) (K + shift) := by
    unfold NormalVol.logMean
    rw [hM, hL]; congr 1; ring
  have hβ : 2 * Real.log (M / Real.sqrt ((F + shift) * (K + shift))) / L ^ 2 = NormalVol.curv (F + shift) (K + shift) := by
    unfold NormalVol.curv
    rw [hL, hM']
  rw [hβ] at hlo hhi
  have hM0 : 0 < M := by rw [hM']; exact NormalVol.logMean_pos hF hK hne
  have hb1 := NormalVol.curv_ge hF hK hne
  have hb2 := NormalVol.curv_le4 hF hK hne
  have hS := NormalVol.logMean_eq hF hK hne
  rw [← hM', ← hL] at hS
  rw [← hL] at hb1 hb2
  set β := NormalVol.curv (F + shift) (K + shift)
  set G := Real.sqrt ((F + shift) * (K + shift)) with hG
  have hG0 : 0 < G := Real.sqrt_pos.2 (mul_pos hF hK)
  have hβ0 : 0 ≤ β := NormalVol.curv_nonneg hF hK hne
  have hLne : L ≠ 0 := by rw [hL]; exact NormalVol.log_ne hF hK hne
  set x := |L| / 2 with hx
  have hx0 : 0 < x := by rw [hx]; have := abs_pos.2 hLne; linarith
  have hx2 : x ^ 2 = L ^ 2 / 4 := by rw [hx, div_pow, sq_abs]; norm_num
  set S := M / G with hSdef
  have hS0 : 0 < S := div_pos hM0 hG0
  have hsinh : Real.sinh x = S * x := by rw [hS]; field_simp
  -- the numerator
  set N := 1 + L ^ 2 / 24 + L ^ 4 / 1920 with hNdef
  have e4 : L ^ 4 = 16 * (x ^ 2) ^ 2 := by rw [hx2]; ring
  have e6 : L ^ 6 = 64 * (x ^ 2) ^ 3 := by rw [hx2]; ring
  have e2 : L ^ 2 = 4 * x ^ 2 := by rw [hx2]; ring
  have hN1 : N ≤ S := by
    have := sinh_ge5 hx0.le
    rw [hsinh] at this
    refine le_of_mul_le_mul_right ?_ hx0
    rw [hNdef, e4, e2]
    linarith
  have hN2 : S * (1 - L ^ 6 / 322560 * (1 + L ^ 2 / 12)) ≤ N := by
    have h7 := sinh_le7 (Y := x) x hx0.le le_rfl
    have hc := NormalVol.coth_le1 hx0.le
    rw [hsinh] at h7 hc
    have hcosh : Real.cosh x ≤ S * (1 + x ^ 2 / 3) := by
      refine le_of_mul_le_mul_left ?_ hx0
      linarith
    have h6 : 0 ≤ x ^ 7 / 5040 := by positivity
    have h8 := mul_le_mul_of_nonneg_left hcosh h6
    refine le_of_mul_le_mul_right ?_ hx0
    rw [hNdef, e4, e2, e6]
    linarith
  -- the bracket
  have hR0 : 0 < exact / (vol * M) := div_pos he.1 (mul_pos hv hM0)
  have hvm : 0 < vol * M := mul_pos hv hM0
  have hw : (s ^ 2) ^ 2 / 480 = s ^ 4 / 480 := by ring
  have hq1 : 0 < Real.sqrt (1 + β * s ^ 2 + (s ^ 2) ^ 2 / 480) := Real.sqrt_pos.2 (by positivity)
  have hq2 : 0 < Real.sqrt (1 + β * s ^ 2) := Real.sqrt_pos.2 (by positivity)
  have hl1 : 1 ≤ exact / (vol * M) * Real.sqrt (1 + β * s ^ 2 + (s ^ 2) ^ 2 / 480) := by
    rw [← hw, div_le_iff₀ hq1] at hlo
    rw [div_mul_eq_mul_div, le_div_iff₀ hvm]
    linarith
  have hh1 : exact / (vol * M) * Real.sqrt (1 + β * s ^ 2) ≤ 1 := by
    rw [le_div_iff₀ hq2] at hhi
    rw [div_mul_eq_mul_div, div_le_iff₀ hvm]
    linarith
  obtain ⟨r1, r2⟩ := bracket_error (sq_nonneg s) hL2 hb1 hb2 hS0 rfl hN1 hN2 hR0 hl1 hh1 rfl
  have hden : anDen L s = 1 + (1 / 24) * (1 - (1 / 120) * L ^ 2) * s ^ 2 + (1 / 5760) * (s ^ 2) ^ 2 := by unfold anDen; ring
  rw [← hden] at r1 r2
  have hd0 : 0 < anDen L s := by
    rw [hden]
    have h1 : 0 ≤ 1 - (1 / 120) * L ^ 2 := by linarith
    positivity
  refine ⟨vol * G * N / anDen L s, ?_, ?_, ?_⟩
  · rw [analytical_eq ht.le hF hK, ← hL, ← hs]
    unfold Npf.divide
    rw [if_pos hd0.ne']
  · have e : vol * G * N / anDen L s - exact = vol * M * (N / S / anDen L s - exact / (vol * M)) := by
      rw [hSdef]; field_simp
    rw [e]
    refine mul_le_mul_of_nonneg_left (r1.trans (le_of_eq ?_)) hvm.le
    ring
  · have e : exact - vol * G * N / anDen L s = vol * M * (exact / (vol * M) - N / S / anDen L s) := by
      rw [hSdef]; field_simp
    rw [e]
    refine mul_le_mul_of_nonneg_left (r2.trans (le_of_eq ?_)) hvm.le
    ring

/-- A strike 20% above the forward, a volatility of 20% over a year: the closed form is less than `7e-9` too high and less than `2e-6` too low, relative to `vol M`. -/
example : ((0.2 : ℝ) ^ 2 * 0.19 ^ 4 / 181440 + 0.2 ^ 4 * 0.19 ^ 2 / 69120) < 7e-9 ∧
    ((0.19 : ℝ) ^ 6 / 322560 * (1 + 0.19 ^ 2 / 12) + 0.2 ^ 4 / 960 + 0.2 ^ 6 / 138240 + 0.2 ^ 8 / 66355200) < 2e-6 := by norm_num

/-- Such options exist. -/
example : ∃ v, EquivalentNormalVol 100 1 120 0.2 0 1 1 v :=
  (C92_equivalent (by norm_num) (by norm_num) (by norm_num) one_pos (by norm_num) (.inl rfl) one_ne_zero).exists

end Frm.Props
