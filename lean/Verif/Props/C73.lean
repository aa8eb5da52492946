import Verif.Props.C61

/-!
# C73: Hull–White discount factors
-/

namespace Frm
namespace Spec

set_option autoImplicit false

/-- `P t r` are the prices at time `t`, when the short rate is `r`, of the bond maturing at `T`, before its maturity. -/
def HwBond (m : HullWhite) (theta : ℝ → ℝ) (T : ℝ) (P : ℝ → ℝ → ℝ) : Prop :=
  ∀ t, 0 < t → t < T → ∀ r, hwDiscount1 m theta t T (some r) = .ok (P t r)

/-- On `[a, b]` the curve has positive discount factors with instantaneous forward rates `m.forward`, whose slope is `f'`. -/
def SmoothCurve (m : HullWhite) (f' : ℝ → ℝ) (a b : ℝ) : Prop :=
  ContinuousOn m.discount (Set.Icc a b) ∧ ContinuousOn m.forward (Set.Icc a b) ∧ ContinuousOn f' (Set.Icc a b) ∧
  (∀ t ∈ Set.Icc a b, 0 < m.discount t) ∧
  ∀ t ∈ Set.Ioo a b, HasDerivAt (fun s => Real.log (m.discount s)) (-m.forward t) t ∧ HasDerivAt m.forward (f' t) t

/-- The drift under which the Hull–White model prices the bonds of the curve. -/
noncomputable def fittedDrift (m : HullWhite) (f' : ℝ → ℝ) (t : ℝ) : ℝ :=
  f' t + m.alpha * m.forward t + m.vol ^ 2 / (2 * m.alpha) * (1 - Real.exp (-2 * m.alpha * t))

end Spec
end Frm

namespace Frm.Props
open Classical MeasureTheory Set Filter Topology

set_option autoImplicit false

open Frm Frm.Spec

theorem hwDiscount1_eq {m : HullWhite} {theta : ℝ → ℝ} {t T r : ℝ} (ht : t ≠ 0) (h : t < T) :
    hwDiscount1 m theta t T (some r) = .ok (Real.exp ((0.5 * m.vol ^ 2 * (∫ s in t..T, hwB m.alpha s T ^ 2) -
      ∫ s in t..T, theta s * hwB m.alpha s T) - r * hwB m.alpha t T)) := by
  unfold hwDiscount1 hwShortRate
  rw [if_neg (not_not.2 h), if_neg ht]

theorem hwDiscount1_zero {m : HullWhite} {theta : ℝ → ℝ} {T : ℝ} {r : Option ℝ} (h : 0 < T) :
    hwDiscount1 m theta 0 T r = .ok (Real.exp ((0.5 * m.vol ^ 2 * (∫ s in (0 : ℝ)..T, hwB m.alpha s T ^ 2) -
      ∫ s in (0 : ℝ)..T, theta s * hwB m.alpha s T) - m.r0 * hwB m.alpha 0 T)) := by
  unfold hwDiscount1 hwShortRate
  rw [if_neg (not_not.2 h), if_pos rfl]

/-- Both functions accept exactly: a maturity after the date, and a short rate unless the date is today, when the initial short rate is
used whatever is supplied. -/
theorem C73_accepts (m : HullWhite) (theta : ℝ → ℝ) (t1 t2 : ℝ) (r : Option ℝ) :
    ((∃ p, hwDiscount1 m theta t1 t2 r = .ok p) ↔ t1 < t2 ∧ (t1 = 0 ∨ r.isSome)) ∧
    ((¬ ∃ p, hwDiscount1 m theta t1 t2 r = .ok p) → hwDiscount1 m theta t1 t2 r = .error .assertion) ∧
    (m.alpha ≠ 0 → ((∃ p, hwDiscount2 m t1 t2 r = .ok p) ↔ t1 < t2 ∧ (t1 = 0 ∨ r.isSome))) ∧
    (t1 = 0 → hwDiscount1 m theta t1 t2 r = hwDiscount1 m theta t1 t2 (some m.r0) ∧
      hwDiscount2 m t1 t2 r = hwDiscount2 m t1 t2 (some m.r0)) := by
  have hsr : (∃ x, hwShortRate m t1 r = .ok x) ∧ (t1 = 0 ∨ r.isSome) ∨
      hwShortRate m t1 r = .error .assertion ∧ ¬ (t1 = 0 ∨ r.isSome) := by
    unfold hwShortRate
    by_cases h0 : t1 = 0
    · rw [if_pos h0]; exact Or.inl ⟨⟨_, rfl⟩, Or.inl h0⟩
    · rw [if_neg h0]
      cases r with
      | none => exact Or.inr ⟨rfl, by simp [h0]⟩
      | some x => exact Or.inl ⟨⟨x, rfl⟩, Or.inr rfl⟩
  have hz : t1 = 0 → hwShortRate m t1 r = hwShortRate m t1 (some m.r0) := by
    intro h0
    unfold hwShortRate
    rw [if_pos h0, if_pos h0]
  refine ⟨?_, ?_, ?_, ?_⟩
  · unfold hwDiscount1
    by_cases h : t1 < t2
    · rw [if_neg (not_not.2 h)]
      rcases hsr with ⟨⟨x, hx⟩, hr⟩ | ⟨hx, hr⟩
      · rw [hx]; exact ⟨fun _ => ⟨h, hr⟩, fun _ => ⟨_, rfl⟩⟩
      · rw [hx]; exact ⟨fun ⟨p, hp⟩ => (by cases hp), fun hh => absurd hh.2 hr⟩
    · rw [if_pos h]; exact ⟨fun ⟨p, hp⟩ => (by cases hp), fun hh => absurd hh.1 h⟩
  · unfold hwDiscount1
    by_cases h : t1 < t2
    · rw [if_neg (not_not.2 h)]
      rcases hsr with ⟨⟨x, hx⟩, hr⟩ | ⟨hx, hr⟩
      · rw [hx]; exact fun hn => absurd ⟨_, rfl⟩ hn
      · rw [hx]; exact fun _ => rfl
    · rw [if_pos h]; exact fun _ => rfl
  · intro ha
    unfold hwDiscount2
    by_cases h : t1 < t2
    · rw [if_neg (not_not.2 h)]
      rcases hsr with ⟨⟨x, hx⟩, hr⟩ | ⟨hx, hr⟩
      · rw [hx]
        simp only
        rw [if_neg ha]
        exact ⟨fun _ => ⟨h, hr⟩, fun _ => ⟨_, rfl⟩⟩
      · rw [hx]; exact ⟨fun ⟨p, hp⟩ => (by cases hp), fun hh => absurd hh.2 hr⟩
    · rw [if_pos h]; exact ⟨fun ⟨p, hp⟩ => (by cases hp), fun hh => absurd hh.1 h⟩
  · intro h0
    unfold hwDiscount1 hwDiscount2
    rw [hz h0]
    exact ⟨rfl, rfl⟩

/-- The discount factors of the first method solve the bond-pricing equation of a short rate drifting at `theta t - alpha r` with
volatility `vol`, and tend to one at maturity. -/
theorem C73_equation (m : HullWhite) (theta : ℝ → ℝ) (T : ℝ) (P : ℝ → ℝ → ℝ) (ha : 1e-8 ≤ m.alpha ∨ m.alpha = 0)
    (hth : Continuous theta) (hP : HwBond m theta T P) :
    (∀ t, 0 < t → t < T → ∀ r, ∃ (Pt : ℝ) (Pr : ℝ → ℝ) (Prr : ℝ),
      HasDerivAt (fun s => P s r) Pt t ∧ (∀ x, HasDerivAt (P t) (Pr x) x) ∧ HasDerivAt Pr Prr r ∧
      Pt + (theta t - m.alpha * r) * Pr r + m.vol ^ 2 / 2 * Prr = r * P t r) ∧
    (0 < T → ∀ r, Tendsto (fun t => P t r) (𝓝[<] T) (𝓝 1)) := by
  have hbd : ∀ t, HasDerivAt (fun t => hwB m.alpha t T) (m.alpha * hwB m.alpha t T - 1) t := by
    intro t
    rcases ha with ha | ha
    · exact hwB_hasDerivAt ha t
    · have e : (fun t => hwB m.alpha t T) = fun t => T - t := by funext t; exact hwB_small (by rw [ha]; norm_num)
      rw [e, ha]
      simpa using (hasDerivAt_id t).const_sub T
  have hbc := hwB_continuous m.alpha T
  have c1 : Continuous (fun s => hwB m.alpha s T ^ 2) := hbc.pow 2
  have c2 : Continuous (fun s => theta s * hwB m.alpha s T) := hth.mul hbc
  set A : ℝ → ℝ := fun t => 0.5 * m.vol ^ 2 * (∫ s in t..T, hwB m.alpha s T ^ 2) - ∫ s in t..T, theta s * hwB m.alpha s T with hA
  have hAd : ∀ t, HasDerivAt A (0.5 * m.vol ^ 2 * (-hwB m.alpha t T ^ 2) - -(theta t * hwB m.alpha t T)) t := by
    intro t
    refine HasDerivAt.sub (HasDerivAt.const_mul _ ?_) ?_
    · have := intervalIntegral.integral_hasDerivAt_left (a := t) (b := T) (c1.intervalIntegrable _ _)
        (c1.stronglyMeasurableAtFilter _ _) c1.continuousAt
      exact this
    · exact intervalIntegral.integral_hasDerivAt_left (c2.intervalIntegrable _ _)
        (c2.stronglyMeasurableAtFilter _ _) c2.continuousAt
  have hPe : ∀ t, 0 < t → t < T → ∀ r, P t r = Real.exp (A t - r * hwB m.alpha t T) := by
    intro t h0 h1 r
    have := hP t h0 h1 r
    rw [hwDiscount1_eq h0.ne' h1] at this
    exact (Except.ok.inj this).symm
  refine ⟨?_, ?_⟩
  · intro t h0 h1 r
    refine ⟨P t r * ((0.5 * m.vol ^ 2 * (-hwB m.alpha t T ^ 2) - -(theta t * hwB m.alpha t T)) - r * (m.alpha * hwB m.alpha t T - 1)),
      fun x => P t x * (-hwB m.alpha t T), P t r * (-hwB m.alpha t T) * (-hwB m.alpha t T), ?_, ?_, ?_, ?_⟩
    · have hd : HasDerivAt (fun s => Real.exp (A s - r * hwB m.alpha s T)) _ t := ((hAd t).sub ((hbd t).const_mul r)).exp
      rw [hPe t h0 h1 r]
      refine hd.congr_of_eventuallyEq ?_
      filter_upwards [lt_mem_nhds h0, gt_mem_nhds h1] with s hs0 hs1
      exact hPe s hs0 hs1 r
    · intro x
      have e : P t = fun x => Real.exp (A t - x * hwB m.alpha t T) := by funext x; exact hPe t h0 h1 x
      rw [e]
      have : HasDerivAt (fun x : ℝ => A t - x * hwB m.alpha t T) (-hwB m.alpha t T) x := by
        simpa using ((hasDerivAt_id x).mul_const (hwB m.alpha t T)).const_sub (A t)
      exact this.exp
    · have e : (fun x => P t x * (-hwB m.alpha t T)) = fun x => Real.exp (A t - x * hwB m.alpha t T) * (-hwB m.alpha t T) := by
        funext x; rw [hPe t h0 h1 x]
      rw [e, hPe t h0 h1 r]
      have : HasDerivAt (fun x : ℝ => A t - x * hwB m.alpha t T) (-hwB m.alpha t T) r := by
        simpa using ((hasDerivAt_id r).mul_const (hwB m.alpha t T)).const_sub (A t)
      exact this.exp.mul_const _
    · ring
  · intro hT r
    have hc : ContinuousAt (fun s => Real.exp (A s - r * hwB m.alpha s T)) T :=
      (((hAd T).sub ((hbd T).const_mul r)).exp).continuousAt
    have hv : Real.exp (A T - r * hwB m.alpha T T) = 1 := by simp [hA, hwB_self]
    have ht : Tendsto (fun s => Real.exp (A s - r * hwB m.alpha s T)) (𝓝[<] T) (𝓝 1) := by
      rw [← hv]; exact hc.tendsto.mono_left nhdsWithin_le_nhds
    refine ht.congr' ?_
    filter_upwards [self_mem_nhdsWithin, nhdsWithin_le_nhds (lt_mem_nhds hT)] with s hs hs0
    exact (hPe s hs0 hs r).symm

/-- Such prices exist. -/
example (m : HullWhite) (theta : ℝ → ℝ) (T : ℝ) : ∃ P, HwBond m theta T P :=
  ⟨_, fun _ h0 h1 _ => hwDiscount1_eq h0.ne' h1⟩

theorem hw_agree {m : HullWhite} {f' theta : ℝ → ℝ} {t T : ℝ} (ha : 1e-8 ≤ m.alpha) (h : t < T) (hs : SmoothCurve m f' t T)
    (hth : ∀ s ∈ Icc t T, theta s = fittedDrift m f' s) :
    0.5 * m.vol ^ 2 * (∫ s in t..T, hwB m.alpha s T ^ 2) - ∫ s in t..T, theta s * hwB m.alpha s T =
      Real.log (m.discount T) - Real.log (m.discount t) + hwB m.alpha t T * m.forward t -
        m.vol ^ 2 / (4 * m.alpha) * (1 - Real.exp (-2 * m.alpha * t)) * hwB m.alpha t T ^ 2 := by
  obtain ⟨cP, cf, cf', hpos, hder⟩ := hs
  have hp := alpha_pos ha
  have hbc := hwB_continuous m.alpha T
  set G : ℝ → ℝ := fun s => Real.log (m.discount T) - Real.log (m.discount s) + hwB m.alpha s T * m.forward s -
    m.vol ^ 2 / (4 * m.alpha) * (1 - Real.exp (-2 * m.alpha * s)) * hwB m.alpha s T ^ 2 with hG
  have e1 : ∫ s in t..T, theta s * hwB m.alpha s T = ∫ s in t..T, fittedDrift m f' s * hwB m.alpha s T := by
    apply intervalIntegral.integral_congr
    intro s hs
    rw [uIcc_of_le h.le] at hs
    simp only
    rw [hth s hs]
  have cd : ContinuousOn (fun s => fittedDrift m f' s * hwB m.alpha s T) (Icc t T) := by
    apply ContinuousOn.mul _ hbc.continuousOn
    unfold fittedDrift
    exact (cf'.add (cf.const_smul m.alpha)).add (by fun_prop)
  have i1 : IntervalIntegrable (fun s => hwB m.alpha s T ^ 2) volume t T := (hbc.pow 2).intervalIntegrable _ _
  have i2 : IntervalIntegrable (fun s => fittedDrift m f' s * hwB m.alpha s T) volume t T := by
    apply ContinuousOn.intervalIntegrable
    rw [uIcc_of_le h.le]
    exact cd
  have hGc : ContinuousOn G (Icc t T) := by
    refine ((continuousOn_const.sub (cP.log (fun s hs => (hpos s hs).ne'))).add (hbc.continuousOn.mul cf)).sub ?_
    exact Continuous.continuousOn (by fun_prop)
  have hGd : ∀ s ∈ Ioo t T, HasDerivAt G (-(0.5 * m.vol ^ 2 * hwB m.alpha s T ^ 2 - fittedDrift m f' s * hwB m.alpha s T)) s := by
    intro s hs
    obtain ⟨d1, d2⟩ := hder s hs
    have hb := hwB_hasDerivAt (T := T) ha s
    have he : HasDerivAt (fun s : ℝ => Real.exp (-2 * m.alpha * s)) (Real.exp (-2 * m.alpha * s) * (-2 * m.alpha)) s := by
      have : HasDerivAt (fun s : ℝ => -2 * m.alpha * s) (-2 * m.alpha) s := by simpa using (hasDerivAt_id s).const_mul (-2 * m.alpha)
      exact this.exp
    have h3 := (((he.const_sub 1).const_mul (m.vol ^ 2 / (4 * m.alpha))).mul (hb.pow 2))
    refine (((d1.const_sub (Real.log (m.discount T))).add (hb.mul d2)).sub h3).congr_deriv ?_
    unfold fittedDrift
    simp only [Nat.cast_ofNat, Nat.add_one_sub_one, pow_one, Pi.pow_apply]
    rw [show (0.5 : ℝ) = 1 / 2 by norm_num]
    field_simp
    ring
  have hint := intervalIntegral.integral_eq_sub_of_hasDerivAt_of_le h.le hGc hGd
    (((i1.const_mul (0.5 * m.vol ^ 2)).sub i2).neg)
  rw [intervalIntegral.integral_neg, intervalIntegral.integral_sub (i1.const_mul _) i2, intervalIntegral.integral_const_mul] at hint
  have hT : G T = 0 := by simp [hG, hwB_self]
  rw [hT] at hint
  rw [e1]
  show _ = G t
  linarith

/-- Under the drift fitted to the curve the two methods agree, for every date, maturity and short rate. -/
theorem C73_methods_agree (m : HullWhite) (f' theta : ℝ → ℝ) (t T : ℝ) (r : Option ℝ) (ha : 1e-8 ≤ m.alpha) (h : t < T)
    (hs : SmoothCurve m f' t T) (hth : ∀ s ∈ Icc t T, theta s = fittedDrift m f' s) :
    hwDiscount1 m theta t T r = hwDiscount2 m t T r := by
  unfold hwDiscount1 hwDiscount2
  rw [if_neg (not_not.2 h), if_neg (not_not.2 h)]
  cases hr : hwShortRate m t r with
  | error e => rfl
  | ok x =>
    simp only
    rw [if_neg (alpha_pos ha).ne', hw_agree ha h hs hth]
    have hPt := hs.2.2.2.1 t ⟨le_rfl, h.le⟩
    have hPT := hs.2.2.2.1 T ⟨h.le, le_rfl⟩
    congr 1
    rw [← Real.exp_log (div_pos hPT hPt), ← Real.exp_add, ← Real.exp_add, Real.log_div hPT.ne' hPt.ne']
    congr 1
    ring

/-- Today the second method returns the curve's own discount factor exactly when the initial short rate is the curve's forward rate at
zero. -/
theorem C73_fits_iff (m : HullWhite) (T : ℝ) (r : Option ℝ) (ha : m.alpha ≠ 0) (hT : 0 < T) (h0 : m.discount 0 = 1) (hP : m.discount T ≠ 0) :
    hwDiscount2 m 0 T r = .ok (m.discount T) ↔ m.forward 0 = m.r0 := by
  unfold hwDiscount2 hwShortRate
  rw [if_neg (not_not.2 hT), if_pos rfl]
  simp only
  rw [if_neg ha, h0, div_one]
  have hb : hwB m.alpha 0 T ≠ 0 := (hwB_pos hT).ne'
  have e : m.discount T * Real.exp (hwB m.alpha 0 T * m.forward 0 -
      m.vol ^ 2 / (4 * m.alpha) * (1 - Real.exp (-2 * m.alpha * 0)) * hwB m.alpha 0 T ^ 2) * Real.exp (-hwB m.alpha 0 T * m.r0) =
      m.discount T * Real.exp (hwB m.alpha 0 T * (m.forward 0 - m.r0)) := by
    rw [mul_assoc, ← Real.exp_add]
    simp
    left
    ring
  rw [e]
  constructor
  · intro h
    have h1 : m.discount T * Real.exp (hwB m.alpha 0 T * (m.forward 0 - m.r0)) = m.discount T * 1 := by
      rw [mul_one]; exact Except.ok.inj h
    have h2 := mul_left_cancel₀ hP h1
    rw [Real.exp_eq_one_iff] at h2
    rcases mul_eq_zero.1 h2 with h | h
    · exact absurd h hb
    · linarith
  · intro h
    rw [h, sub_self, mul_zero, Real.exp_zero, mul_one]

/-- The drift the class computes does not depend on the curve, except through the initial short rate. -/
theorem C73_theta_ignores_curve (m m' : HullWhite) (t : ℝ) (ha : m.alpha = m'.alpha) (hv : m.vol = m'.vol) (hr : m.r0 = m'.r0) :
    hwTheta m t = hwTheta m' t := by
  unfold hwTheta
  rw [ha, hv, hr]

/-- It is the drift fitted to the curve only if the curve's forward rate is flat at the initial short rate. -/
theorem C73_theta_fitted_iff (m : HullWhite) (f' : ℝ → ℝ) (T : ℝ) (ha : 1e-8 ≤ m.alpha) (hs : SmoothCurve m f' 0 T)
    (h0 : m.forward 0 = m.r0) :
    (∀ t ∈ Ioo 0 T, hwTheta m t = .ok (fittedDrift m f' t)) ↔ ∀ t ∈ Icc 0 T, m.forward t = m.r0 := by
  obtain ⟨cP, cf, cf', hpos, hder⟩ := hs
  have hp := alpha_pos ha
  have key : ∀ t, hwTheta m t = .ok (fittedDrift m f' t) ↔ f' t = m.alpha * (m.r0 - m.forward t) := by
    intro t
    unfold hwTheta fittedDrift
    rw [if_neg hp.ne', Except.ok.injEq]
    constructor <;> intro h <;> linarith
  simp only [key]
  constructor
  · intro h
    have hd : ∀ t ∈ Ioo 0 T, HasDerivAt (fun s => (m.forward s - m.r0) * Real.exp (m.alpha * s)) 0 t := by
      intro t ht
      have he : HasDerivAt (fun s : ℝ => Real.exp (m.alpha * s)) (Real.exp (m.alpha * t) * m.alpha) t := by
        have : HasDerivAt (fun s : ℝ => m.alpha * s) m.alpha t := by simpa using (hasDerivAt_id t).const_mul m.alpha
        exact this.exp
      refine ((((hder t ht).2.sub_const m.r0)).mul he).congr_deriv ?_
      rw [h t ht]
      ring
    have hc : ContinuousOn (fun s => (m.forward s - m.r0) * Real.exp (m.alpha * s)) (Icc 0 T) :=
      (cf.sub continuousOn_const).mul (by fun_prop)
    intro t ht
    rcases ht.1.eq_or_lt with rfl | ht0
    · exact h0
    obtain ⟨c, _, hslope⟩ := exists_hasDerivAt_eq_slope _ _ ht0 (hc.mono (Icc_subset_Icc_right ht.2))
      (fun x hx => hd x ⟨hx.1, lt_of_lt_of_le hx.2 ht.2⟩)
    have := hslope.symm
    rw [div_eq_zero_iff] at this
    simp only [h0, sub_self, zero_mul, sub_zero] at this
    have := this.resolve_right ht0.ne'
    rcases mul_eq_zero.1 this with h | h
    · linarith
    · exact absurd h (Real.exp_pos _).ne'
  · intro h t ht
    have e : f' t = 0 := by
      have h1 := (hder t ht).2
      have h2 : HasDerivAt m.forward 0 t := by
        refine (hasDerivAt_const t m.r0).congr_of_eventuallyEq ?_
        filter_upwards [Ioo_mem_nhds ht.1 ht.2] with s hs
        exact h s ⟨hs.1.le, hs.2.le⟩
      exact h1.unique h2
    rw [e, h t ⟨ht.1.le, ht.2.le⟩]
    ring

/-- Under the drift the class computes, the first method returns a curve flat at the initial short rate, whatever the zero curve. -/
theorem C73_flat (m : HullWhite) (theta : ℝ → ℝ) (T : ℝ) (r : Option ℝ) (ha : 1e-8 ≤ m.alpha) (hT : 0 < T)
    (hth : ∀ s ∈ Icc 0 T, hwTheta m s = .ok (theta s)) :
    hwDiscount1 m theta 0 T r = .ok (Real.exp (-m.r0 * T)) := by
  have hp := alpha_pos ha
  let m' : HullWhite := { m with discount := fun t => Real.exp (-m.r0 * t), forward := fun _ => m.r0 }
  have hs : SmoothCurve m' (fun _ => 0) 0 T := by
    have hcont : Continuous (fun t => Real.exp (-m.r0 * t)) := by fun_prop
    refine ⟨hcont.continuousOn, continuousOn_const, continuousOn_const, fun t _ => Real.exp_pos _, fun t _ => ⟨?_, hasDerivAt_const _ _⟩⟩
    have : (fun s => Real.log (m'.discount s)) = fun s => -m.r0 * s := by funext s; exact Real.log_exp _
    rw [this]
    simpa using (hasDerivAt_id t).const_mul (-m.r0)
  have hth' : ∀ s ∈ Icc 0 T, theta s = fittedDrift m' (fun _ => 0) s := by
    intro s hs
    have := hth s hs
    unfold hwTheta at this
    rw [if_neg hp.ne'] at this
    rw [← Except.ok.inj this]
    show _ = 0 + m.alpha * m.r0 + _
    rw [zero_add]
  have h1 : hwDiscount1 m theta 0 T r = hwDiscount1 m' theta 0 T r := rfl
  rw [h1, C73_methods_agree m' (fun _ => 0) theta 0 T r ha hT hs hth']
  exact (C73_fits_iff m' T r hp.ne' hT (by simp [m']) (Real.exp_pos _).ne').2 rfl

/-- The hypotheses are met: a flat curve, and the drift the class computes. -/
example : SmoothCurve flatHw (fun _ => 0) 0 1 := by
  refine ⟨Continuous.continuousOn (by unfold flatHw; fun_prop), continuousOn_const, continuousOn_const, fun t _ => Real.exp_pos _,
    fun t _ => ⟨?_, hasDerivAt_const _ _⟩⟩
  have : (fun s => Real.log (flatHw.discount s)) = fun s => -0.03 * s := by funext s; exact Real.log_exp _
  rw [this]
  simpa [flatHw] using (hasDerivAt_id t).const_mul (-0.03 : ℝ)

example : ∃ theta : ℝ → ℝ, ∀ s ∈ Icc (0 : ℝ) 1, hwTheta flatHw s = .ok (theta s) := by
  refine ⟨fun t => flatHw.alpha * flatHw.r0 + (flatHw.vol ^ 2 / (2 * flatHw.alpha)) * (1 - Real.exp (-2 * flatHw.alpha * t)), fun s _ => ?_⟩
  unfold hwTheta
  rw [if_neg (by norm_num [flatHw])]

end Frm.Props
