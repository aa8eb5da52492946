import Verif.Model.Black76
import Verif.Proofs.GarmanKohlhagen
import Mathlib.Analysis.SpecialFunctions.Sqrt

/-!
# The Bachelier formula

`bachF cp m s = cp m Φ(cp m/s) + s φ(m/s)`.
-/

namespace Frm
open Filter Topology Set Classical

set_option autoImplicit false

noncomputable def bachF (cp m s : ℝ) : ℝ := cp * m * normCdf (cp * (m / s)) + s * normPdf (m / s)

theorem normPdf_hasDerivAt (x : ℝ) : HasDerivAt normPdf (-x * normPdf x) x := by
  unfold normPdf
  have h : HasDerivAt (fun x : ℝ => -x ^ 2 / 2) (-x) x := by
    have := ((hasDerivAt_pow 2 x).neg.div_const 2)
    refine this.congr_deriv ?_
    norm_num
    ring
  refine (h.exp.div_const _).congr_deriv ?_
  ring

theorem normPdf_le (x : ℝ) : normPdf x ≤ normPdf 0 := by
  unfold normPdf
  apply div_le_div_of_nonneg_right _ (Real.sqrt_nonneg _)
  rw [Real.exp_le_exp]
  nlinarith [sq_nonneg x]

theorem normPdf_zero_lt_one : normPdf 0 < 1 := by
  unfold normPdf
  rw [div_lt_one (Real.sqrt_pos.2 (by positivity))]
  have h : Real.exp (-0 ^ 2 / 2) = 1 := by norm_num
  rw [h, Real.lt_sqrt (by norm_num)]
  have := Real.pi_gt_three
  linarith

/-- `d Φ(d) + φ(d) > 0`. -/
theorem mills (d : ℝ) : 0 < d * normCdf d + normPdf d := by
  by_cases hd : 0 ≤ d
  · exact add_pos_of_nonneg_of_pos (mul_nonneg hd (normCdf_pos d).le) (normPdf_pos d)
  · push Not at hd
    let k : ℝ → ℝ := fun x => normCdf x + normPdf x / x
    have hk : ∀ x, x < 0 → HasDerivAt k (-(normPdf x / x ^ 2)) x := by
      intro x hx
      have := (normCdf_hasDerivAt x).add ((normPdf_hasDerivAt x).div (hasDerivAt_id x) hx.ne)
      refine this.congr_deriv ?_
      have := hx.ne
      simp only [id]
      field_simp
      ring
    have hanti : StrictAntiOn k (Iio 0) := by
      apply strictAntiOn_of_deriv_neg (convex_Iio _)
      · exact fun x hx => (hk x hx).continuousAt.continuousWithinAt
      · intro x hx
        rw [interior_Iio] at hx
        rw [(hk x hx).deriv]
        have : 0 < normPdf x / x ^ 2 := div_pos (normPdf_pos x) (by have : x ≠ 0 := ne_of_lt hx; positivity)
        linarith
    have hlim : Tendsto k atBot (𝓝 0) := by
      have h1 : Tendsto (fun x : ℝ => normPdf x / x) atBot (𝓝 0) := by
        apply squeeze_zero_norm' (a := fun x => normPdf 0 / |x|)
        · filter_upwards with x
          rw [Real.norm_eq_abs, abs_div, abs_of_pos (normPdf_pos x)]
          exact div_le_div_of_nonneg_right (normPdf_le x) (abs_nonneg x)
        · exact tendsto_const_nhds.div_atTop tendsto_abs_atBot_atTop
      have := normCdf_atBot.add h1
      simpa using this
    have h1 : k d < k (d - 1) := hanti (by simp only [mem_Iio]; linarith) hd (by linarith)
    have h2 : k (d - 1) ≤ 0 := by
      apply ge_of_tendsto hlim
      filter_upwards [eventually_le_atBot (d - 1)] with x hx
      exact hanti.antitoneOn (by simp only [mem_Iio]; linarith) (by simp only [mem_Iio]; linarith) hx
    have h3 : normCdf d + normPdf d / d < 0 := lt_of_lt_of_le h1 h2
    have h4 := mul_pos_of_neg_of_neg hd h3
    rw [mul_add, mul_div_cancel₀ _ hd.ne] at h4
    exact h4

theorem bach_call_pos {m s : ℝ} (hs : 0 < s) : 0 < bachF 1 m s := by
  have e : bachF 1 m s = s * (m / s * normCdf (m / s) + normPdf (m / s)) := by
    unfold bachF
    have := hs.ne'
    rw [one_mul, one_mul]
    field_simp
  rw [e]
  exact mul_pos hs (mills _)

theorem bach_put_call (m s : ℝ) : bachF (-1) m s = bachF 1 (-m) s := by
  unfold bachF
  have e1 : (-m) / s = -(m / s) := neg_div _ _
  rw [e1, normPdf_neg]
  simp only [neg_mul, one_mul]

theorem bach_put_pos {m s : ℝ} (hs : 0 < s) : 0 < bachF (-1) m s := by
  rw [bach_put_call]; exact bach_call_pos hs

theorem bach_parity (m s : ℝ) : bachF 1 m s - bachF (-1) m s = m := by
  unfold bachF
  simp only [neg_mul, one_mul, normCdf_neg]
  ring

theorem bach_gt_intrinsic {m s cp : ℝ} (hs : 0 < s) (hcp : cp = 1 ∨ cp = -1) : max 0 (cp * m) < bachF cp m s := by
  have hc := bach_call_pos (m := m) hs
  have hp := bach_put_pos (m := m) hs
  have := bach_parity m s
  rcases hcp with rfl | rfl
  · exact max_lt hc (by linarith)
  · exact max_lt hp (by linarith)

/-- The price is below intrinsic plus `s φ(0)`. -/
theorem bach_lt {m s cp : ℝ} (hs : 0 < s) (hm : 0 < cp * m) : bachF cp m s < cp * m + s * normPdf 0 := by
  unfold bachF
  have h1 := mul_lt_mul_of_pos_left (normCdf_lt_one (cp * (m / s))) hm
  have h2 := mul_le_mul_of_nonneg_left (normPdf_le (m / s)) hs.le
  linarith

theorem bach_hasDerivAt {m s : ℝ → ℝ} {m' s' x cp : ℝ} (hcp : cp = 1 ∨ cp = -1) (hm : HasDerivAt m m' x) (hs : HasDerivAt s s' x)
    (hs0 : s x ≠ 0) :
    HasDerivAt (fun y => bachF cp (m y) (s y)) (cp * normCdf (cp * (m x / s x)) * m' + normPdf (m x / s x) * s') x := by
  have hd := hm.div hs hs0
  have hd' : HasDerivAt (fun y => m y / s y) ((m' * s x - m x * s') / s x ^ 2) x := hd
  have hn : HasDerivAt (fun y => normCdf (cp * (m y / s y))) (normPdf (cp * (m x / s x)) * (cp * ((m' * s x - m x * s') / s x ^ 2))) x :=
    (normCdf_hasDerivAt _).comp x (hd'.const_mul cp)
  have hp : HasDerivAt (fun y => normPdf (m y / s y)) (-(m x / s x) * normPdf (m x / s x) * ((m' * s x - m x * s') / s x ^ 2)) x :=
    HasDerivAt.comp (h₂ := normPdf) x (normPdf_hasDerivAt (m x / s x)) hd'
  have hcc : cp * cp = 1 := by rcases hcp with rfl | rfl <;> norm_num
  have he : normPdf (cp * (m x / s x)) = normPdf (m x / s x) := by
    rcases hcp with rfl | rfl
    · rw [one_mul]
    · rw [neg_one_mul, normPdf_neg]
  unfold bachF
  have := ((hm.const_mul cp).mul hn).add (hs.mul hp)
  refine this.congr_deriv ?_
  rw [he]
  have e1 : cp * m x * (normPdf (m x / s x) * (cp * ((m' * s x - m x * s') / s x ^ 2)))
      = (cp * cp) * (m x * normPdf (m x / s x) * ((m' * s x - m x * s') / s x ^ 2)) := by ring
  have e2 : s x * (-(m x / s x) * normPdf (m x / s x) * ((m' * s x - m x * s') / s x ^ 2))
      = -(m x * normPdf (m x / s x) * ((m' * s x - m x * s') / s x ^ 2)) := by
    have : s x * (m x / s x) = m x := mul_div_cancel₀ _ hs0
    linear_combination (-(normPdf (m x / s x) * ((m' * s x - m x * s') / s x ^ 2))) * this
  rw [e1, e2, hcc]
  ring

theorem bach_strictMono {m cp : ℝ} (hcp : cp = 1 ∨ cp = -1) : StrictMonoOn (bachF cp m) (Ioi 0) := by
  have hd : ∀ x ∈ Ioi (0 : ℝ), HasDerivAt (bachF cp m) (normPdf (m / x)) x := by
    intro x hx
    have := bach_hasDerivAt hcp (hasDerivAt_const x m) (hasDerivAt_id x) (ne_of_gt hx)
    simpa using this
  apply strictMonoOn_of_deriv_pos (convex_Ioi _)
  · exact fun x hx => (hd x hx).continuousAt.continuousWithinAt
  · intro x hx
    rw [interior_Ioi] at hx
    rw [(hd x hx).deriv]
    exact normPdf_pos _

/-! ### The pricing functions -/

theorem b76_d1 {x : B76Row} (hF : 0 < x.F + x.shift) (hK : 0 < x.K + x.shift) (ht : 0 < x.tau) (hv : x.vol ≠ 0) :
    b76D1 x = .fin (bD1 (x.F + x.shift) (x.K + x.shift) (x.vol * Real.sqrt x.tau)) := by
  have hst : 0 < Real.sqrt x.tau := Real.sqrt_pos.2 ht
  have hs : x.vol * Real.sqrt x.tau ≠ 0 := mul_ne_zero hv hst.ne'
  unfold b76D1
  have e1 : Npf.divide (x.F + x.shift) (x.K + x.shift) = .fin ((x.F + x.shift) / (x.K + x.shift)) := by unfold Npf.divide; rw [if_pos hK.ne']
  have e2 : (Npf.fin ((x.F + x.shift) / (x.K + x.shift))).log = .fin (Real.log ((x.F + x.shift) / (x.K + x.shift))) := by
    show (if 0 < (x.F + x.shift) / (x.K + x.shift) then _ else _) = _
    rw [if_pos (div_pos hF hK)]
  rw [if_neg (not_lt.2 ht.le), e1, e2]
  show Npf.divide _ _ = _
  unfold Npf.divide
  rw [if_pos hs]
  congr 1
  unfold bD1
  have hsq : x.vol ^ 2 * x.tau = (x.vol * Real.sqrt x.tau) ^ 2 := by rw [mul_pow, Real.sq_sqrt ht.le]
  have : 0.5 * x.vol ^ 2 * x.tau = (x.vol * Real.sqrt x.tau) ^ 2 / 2 := by rw [← hsq]; ring
  rw [this]
  field_simp

theorem b76_d2 {x : B76Row} (hF : 0 < x.F + x.shift) (hK : 0 < x.K + x.shift) (ht : 0 < x.tau) (hv : x.vol ≠ 0) :
    b76D2 x = .fin (bD2 (x.F + x.shift) (x.K + x.shift) (x.vol * Real.sqrt x.tau)) := by
  unfold b76D2
  rw [b76_d1 hF hK ht hv]
  show Npf.fin (_ + -_) = _
  rw [← sub_eq_add_neg]
  rfl

theorem b76Price_eq {x : B76Row} (hF : 0 < x.F + x.shift) (hK : 0 < x.K + x.shift) (ht : 0 < x.tau) (hv : x.vol ≠ 0) :
    b76Price x = some (x.annuity * blackF x.cp (x.F + x.shift) (x.K + x.shift) (x.vol * Real.sqrt x.tau)) := by
  unfold b76Price
  rw [b76_d1 hF hK ht hv, b76_d2 hF hK ht hv]
  simp only [Npf.signed, npCdf, Option.some.injEq]
  unfold blackF
  ring

theorem bach_d {x : BachRow} (ht : 0 < x.tau) (hv : x.vol ≠ 0) : bachD x = .fin ((x.F - x.K) / (x.vol * Real.sqrt x.tau)) := by
  unfold bachD Npf.divide
  rw [if_neg (not_lt.2 ht.le), if_pos (mul_ne_zero hv (Real.sqrt_pos.2 ht).ne')]

theorem bachPrice_eq {x : BachRow} (ht : 0 < x.tau) (hv : x.vol ≠ 0) :
    bachPrice x = some (x.annuity * bachF x.cp (x.F - x.K) (x.vol * Real.sqrt x.tau)) := by
  unfold bachPrice
  rw [bach_d ht hv]
  rfl

end Frm
