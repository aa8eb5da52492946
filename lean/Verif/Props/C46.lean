import Verif.Props.C45

/-! # C46 — Flat-forward interpolation -/

namespace Frm
open Classical

set_option autoImplicit false

namespace Spec

/-- `v` is a volatility at `t` whose total variance lies on the straight line between the total variances at `t1` and `t2`,
between the two, and which agrees with the quotes at both ends. -/
structure FlatForward (r : InterpRow) (v : ℝ) : Prop where
  nonneg : 0 ≤ v
  linear : r.t1 < r.t2 →
    v ^ 2 * r.t * (r.t2 - r.t1) = VolPair.w1 r.toVolPair * (r.t2 - r.t) + VolPair.w2 r.toVolPair * (r.t - r.t1)
  lower : VolPair.w1 r.toVolPair ≤ v ^ 2 * r.t
  upper : r.t1 < r.t2 → v ^ 2 * r.t ≤ VolPair.w2 r.toVolPair
  start : r.t = r.t1 → v = |r.vol1|
  finish : r.t1 < r.t2 → r.t = r.t2 → v = |r.vol2|

end Spec
open Spec

theorem scatter_spec (rows : List InterpRow) :
    scatterVols rows (((rows.filter (fun r => r.t1 ≠ r.t2)).map (·.toVolPair)).map (fun r => (forwardVariance r).sqrt)) =
      rows.map (fun r => if r.t1 ≠ r.t2 then (forwardVariance r.toVolPair).sqrt else .fin 0) := by
  induction rows with
  | nil => rfl
  | cons r rows ih =>
    by_cases h : r.t1 ≠ r.t2
    · rw [List.filter_cons_of_pos (by simpa using h)]
      simp only [List.map_cons, scatterVols, if_pos h]
      rw [ih]
    · rw [List.filter_cons_of_neg (by simpa using h)]
      simp only [List.map_cons, scatterVols, if_neg h]
      rw [ih]

/-- The value at one element. -/
theorem flatForward_value {r : InterpRow} (h1 : r.t1 ≤ r.t) (h2 : r.t ≤ r.t2) (h0 : 0 ≤ r.t1) (ht : 0 < r.t)
    (hw : r.t1 < r.t2 → VolPair.w1 r.toVolPair ≤ VolPair.w2 r.toVolPair) :
    ∃ v, flatForwardValue r (if r.t1 ≠ r.t2 then (forwardVariance r.toVolPair).sqrt else .fin 0) = .fin v ∧ FlatForward r v := by
  have hfin : ∀ u : ℝ, 0 ≤ u ^ 2 * (r.t - r.t1) → ∃ v, flatForwardValue r (.fin u) = .fin v ∧ 0 ≤ v ∧
      v ^ 2 * r.t = VolPair.w1 r.toVolPair + u ^ 2 * (r.t - r.t1) := by
    intro u hu
    have hd : ∀ x, Npf.divide x r.t = .fin (x / r.t) := fun x => by unfold Npf.divide; rw [if_pos ht.ne']
    show ∃ v, (Npf.divide (r.vol1 ^ 2 * r.t1 + u ^ 2 * (r.t - r.t1)) r.t).sqrt = .fin v ∧ _
    rw [hd]
    unfold Npf.sqrt
    have hnn : 0 ≤ (r.vol1 ^ 2 * r.t1 + u ^ 2 * (r.t - r.t1)) / r.t :=
      div_nonneg (add_nonneg (mul_nonneg (sq_nonneg _) h0) hu) ht.le
    simp only [if_pos hnn]
    refine ⟨_, rfl, Real.sqrt_nonneg _, ?_⟩
    rw [Real.sq_sqrt hnn, div_mul_cancel₀ _ ht.ne']
    rfl
  have hstart : ∀ v : ℝ, 0 ≤ v → r.t = r.t1 → v ^ 2 * r.t = VolPair.w1 r.toVolPair → v = |r.vol1| := by
    intro v hv he hv2
    unfold VolPair.w1 at hv2
    rw [← he] at hv2
    have := mul_right_cancel₀ ht.ne' hv2
    rw [← Real.sqrt_sq_eq_abs, ← this, Real.sqrt_sq hv]
  by_cases hne : r.t1 ≠ r.t2
  · have hlt : r.t1 < r.t2 := lt_of_le_of_ne (by linarith) hne
    rw [if_pos hne]
    obtain ⟨u, hu, hf⟩ := forwardVol_sqrt hlt (hw hlt)
    rw [hu]
    have hsq : 0 ≤ u ^ 2 * (r.t - r.t1) := mul_nonneg (sq_nonneg _) (by linarith)
    obtain ⟨v, hv, hv0, hv2⟩ := hfin u hsq
    have hf2 := hf.2
    have hu2 : u ^ 2 * (r.t2 - r.t) ≥ 0 := mul_nonneg (sq_nonneg _) (by linarith)
    refine ⟨v, hv, hv0, ?_, by linarith, ?_, ?_, ?_⟩
    · intro _
      rw [hv2, ← hf2]
      ring
    · intro _
      rw [hv2, ← hf2]
      nlinarith
    · intro he
      exact hstart v hv0 he (by rw [hv2, he]; ring)
    · intro _ he
      have hv3 : v ^ 2 * r.t = VolPair.w2 r.toVolPair := by rw [hv2, ← hf2, he]
      unfold VolPair.w2 at hv3
      rw [← he] at hv3
      have := mul_right_cancel₀ ht.ne' hv3
      rw [← Real.sqrt_sq_eq_abs, ← this, Real.sqrt_sq hv0]
  · rw [if_neg hne]
    rw [not_ne_iff] at hne
    obtain ⟨v, hv, hv0, hv2⟩ := hfin 0 (by simp)
    have he : r.t = r.t1 := le_antisymm (by rw [hne]; exact h2) h1
    rw [he] at hv2
    simp only [sub_self, mul_zero, add_zero] at hv2
    rw [← he] at hv2
    refine ⟨v, hv, hv0, fun h => absurd hne h.ne, hv2.ge, fun h => absurd hne h.ne, fun _ => hstart v hv0 he hv2, fun h => absurd hne h.ne⟩

namespace Props

/-- **C46.**  For dates in order and total variances that do not decrease: no error, one volatility per element, and each
interpolates total variance linearly. -/
theorem C46_flat_forward (rows : List InterpRow)
    (h : ∀ r ∈ rows, 0 ≤ r.t1 ∧ r.t1 ≤ r.t ∧ r.t ≤ r.t2 ∧ 0 < r.t ∧ (r.t1 < r.t2 → VolPair.w1 r.toVolPair ≤ VolPair.w2 r.toVolPair)) :
    ∃ out, flatForwardInterp rows = .ok out ∧ out.length = rows.length ∧
      ∀ (i : Nat) r, rows[i]? = some r → ∃ v, out[i]? = some (.fin v) ∧ FlatForward r v := by
  have hok : ∃ o, forwardVolatility ((rows.filter (fun r => r.t1 ≠ r.t2)).map (·.toVolPair)) = .ok o := by
    rw [C45_accepts_partial]
    · intro p hp
      obtain ⟨r, hr, rfl⟩ := List.mem_map.mp hp
      obtain ⟨hr1, hr2⟩ := List.mem_filter.mp hr
      simp only [ne_eq, decide_not, Bool.not_eq_true', decide_eq_false_iff_not] at hr2
      obtain ⟨h0, h1, h2, h3, h4⟩ := h r hr1
      have hlt : r.t1 < r.t2 := lt_of_le_of_ne (by linarith) hr2
      exact ⟨hlt, h4 hlt⟩
    · intro p hp
      obtain ⟨r, hr, rfl⟩ := List.mem_map.mp hp
      obtain ⟨hr1, hr2⟩ := List.mem_filter.mp hr
      simpa using hr2
  obtain ⟨o, ho⟩ := hok
  have ho' := (forwardVolatility_ok ho).1
  refine ⟨rows.map (fun r => flatForwardValue r (if r.t1 ≠ r.t2 then (forwardVariance r.toVolPair).sqrt else .fin 0)), ?_, by simp, ?_⟩
  · unfold flatForwardInterp
    simp only [bind, Except.bind, ho, pure, Except.pure, Except.ok.injEq]
    rw [ho', scatter_spec, List.zipWith_map_right, List.zipWith_self]
  · intro i r hr
    obtain ⟨h0, h1, h2, h3, h4⟩ := h r (List.mem_of_getElem? hr)
    obtain ⟨v, hv, hf⟩ := flatForward_value h1 h2 h0 h3 h4
    exact ⟨v, by rw [List.getElem?_map, hr, Option.map_some, hv], hf⟩

/-- **C46.**  Dates in the wrong order and decreasing total variances are refused. -/
theorem C46_refuses (rows : List InterpRow) (r : InterpRow) (hr : r ∈ rows)
    (h : r.t2 < r.t1 ∨ (r.t1 < r.t2 ∧ VolPair.w2 r.toVolPair < VolPair.w1 r.toVolPair)) : ∃ e, flatForwardInterp rows = .error e := by
  have hne : r.t1 ≠ r.t2 := by rcases h with h | h; exacts [h.ne', h.1.ne]
  have hbad : ¬ ∃ o, forwardVolatility ((rows.filter (fun r => r.t1 ≠ r.t2)).map (·.toVolPair)) = .ok o := by
    rw [C45_accepts_partial]
    · intro hall
      have := hall r.toVolPair (List.mem_map.mpr ⟨r, List.mem_filter.mpr ⟨hr, by simpa using hne⟩, rfl⟩)
      rcases h with h | h <;> linarith [this.1, this.2]
    · intro p hp
      obtain ⟨s, hs, rfl⟩ := List.mem_map.mp hp
      obtain ⟨-, hs2⟩ := List.mem_filter.mp hs
      simpa using hs2
  unfold flatForwardInterp
  cases hc : forwardVolatility ((rows.filter (fun r => r.t1 ≠ r.t2)).map (·.toVolPair)) with
  | ok o => exact absurd ⟨o, hc⟩ hbad
  | error e => exact ⟨e, rfl⟩

/-- A case: 20% to one year and 25% to two years, at eighteen months, beside a quote date. -/
example : ∀ r ∈ [(⟨⟨1, 0.2, 2, 0.25⟩, 1.5⟩ : InterpRow), ⟨⟨1, 0.2, 1, 0.2⟩, 1⟩], 0 ≤ r.t1 ∧ r.t1 ≤ r.t ∧ r.t ≤ r.t2 ∧ 0 < r.t ∧
    (r.t1 < r.t2 → VolPair.w1 r.toVolPair ≤ VolPair.w2 r.toVolPair) := by
  intro r hr
  simp only [List.mem_cons, List.not_mem_nil, or_false] at hr
  rcases hr with rfl | rfl <;> unfold VolPair.w1 VolPair.w2 <;> norm_num

end Props
end Frm
