import Verif.Props.C52
import Verif.Props.C53

/-!
# C54: intrinsic and time value for cap and floor pricing

The split adds up.  The time value is not negative when the annuity factor is at least one or the option is out of the money; for
every annuity factor between zero and one there are options whose time value is negative, because the intrinsic value is not
multiplied by the annuity factor.
-/

namespace Frm.Props
open Classical Set

set_option autoImplicit false

open Frm Frm.Spec

/-- Black-76: intrinsic plus time value is the price, and the intrinsic value is the undiscounted payoff on the forward. -/
theorem C54_b76_adds_up (x : B76Row) (h : LognormalOption x) (v : GkValue) (hv : black76Price [x] = [v]) :
    ∃ p n t, v.price = some p ∧ v.intrinsic = some n ∧ v.time = some t ∧ n + t = p ∧ n = max 0 (x.cp * (x.F - x.K)) := by
  simp only [black76Price, List.map_cons, List.map_nil, List.cons.injEq, and_true] at hv
  subst hv
  have hp := b76Price_eq h.1 h.2.1 h.2.2.1 h.2.2.2.1.ne'
  have hn : b76Intrinsic x = some (max 0 (x.cp * (x.F - x.K))) := by
    unfold b76Intrinsic
    rw [if_pos h.2.2.1]
    congr 2
    ring
  refine ⟨_, _, _, hp, hn, ?_, add_sub_cancel _ _, rfl⟩
  show (b76Price x).bind (fun p => (b76Intrinsic x).map (fun i => p - i)) = _
  rw [hp, hn]
  rfl

/-- Bachelier: the same. -/
theorem C54_bach_adds_up (x : BachRow) (h : NormalOption x) (v : GkValue) (hv : bachelierPrice [x] = [v]) :
    ∃ p n t, v.price = some p ∧ v.intrinsic = some n ∧ v.time = some t ∧ n + t = p ∧ n = max 0 (x.cp * (x.F - x.K)) := by
  simp only [bachelierPrice, List.map_cons, List.map_nil, List.cons.injEq, and_true] at hv
  subst hv
  have hp := bachPrice_eq h.1 h.2.1.ne'
  have hn : bachIntrinsic x = some (max 0 (x.cp * (x.F - x.K))) := by
    unfold bachIntrinsic
    rw [if_pos h.1]
  refine ⟨_, _, _, hp, hn, ?_, add_sub_cancel _ _, rfl⟩
  show (bachPrice x).bind (fun p => (bachIntrinsic x).map (fun i => p - i)) = _
  rw [hp, hn]
  rfl

/-- Black-76: the time value is positive when the annuity factor is at least one, or positive and the option not in the money. -/
theorem C54_b76_time_partial (x : B76Row) (h : LognormalOption x) (ha : 1 ≤ x.annuity ∨ (0 < x.annuity ∧ x.cp * (x.F - x.K) ≤ 0))
    (v : GkValue) (hv : black76Price [x] = [v]) : ∃ t, v.time = some t ∧ 0 < t := by
  obtain ⟨p, n, t, hp, -, ht, hs, hn⟩ := C54_b76_adds_up x h v hv
  refine ⟨t, ht, ?_⟩
  have hpos : 0 < x.annuity := by rcases ha with ha | ha <;> linarith [ha]
  have hb := (C52_bounds x h hpos p ⟨v, hv, hp⟩).1
  rw [← hn] at hb
  have hn0 : 0 ≤ n := by rw [hn]; exact le_max_left _ _
  rcases ha with ha | ha
  · nlinarith
  · have : n = 0 := by rw [hn]; exact max_eq_left ha.2
    rw [this] at hb hs
    linarith

/-- Bachelier: the same. -/
theorem C54_bach_time_partial (x : BachRow) (h : NormalOption x) (ha : 1 ≤ x.annuity ∨ (0 < x.annuity ∧ x.cp * (x.F - x.K) ≤ 0))
    (v : GkValue) (hv : bachelierPrice [x] = [v]) : ∃ t, v.time = some t ∧ 0 < t := by
  obtain ⟨p, n, t, hp, -, ht, hs, hn⟩ := C54_bach_adds_up x h v hv
  refine ⟨t, ht, ?_⟩
  have hpos : 0 < x.annuity := by rcases ha with ha | ha <;> linarith [ha]
  have hb := (C53_bounds x h hpos p ⟨v, hv, hp⟩).1
  rw [← hn] at hb
  have hn0 : 0 ≤ n := by rw [hn]; exact le_max_left _ _
  rcases ha with ha | ha
  · nlinarith
  · have : n = 0 := by rw [hn]; exact max_eq_left ha.2
    rw [this] at hb hs
    linarith

/-- The time value is not always non-negative: for every annuity factor between zero and one some Black-76 call has a negative time
value. -/
theorem C54_b76_negative (a : ℝ) (h0 : 0 < a) (h1 : a < 1) :
    ∃ x v t, LognormalOption x ∧ x.annuity = a ∧ black76Price [x] = [v] ∧ v.time = some t ∧ t < 0 := by
  have hl : LognormalOption ⟨1, 1, 1, (1 - a) / 2, 0.2, 0, a⟩ := ⟨by norm_num, by show 0 < (1 - a) / 2 + 0; linarith, by norm_num, by norm_num, Or.inl rfl⟩
  obtain ⟨p, n, t, hp, -, ht, hs, hn⟩ := C54_b76_adds_up _ hl _ rfl
  refine ⟨_, _, t, hl, rfl, rfl, ht, ?_⟩
  have hb := (C52_bounds _ hl h0 p ⟨_, rfl, hp⟩).2.1 rfl
  have hle : 1 - (1 - a) / 2 ≤ n := by
    rw [hn]
    refine le_trans (le_of_eq ?_) (le_max_right _ _)
    show _ = 1 * (1 - (1 - a) / 2)
    ring
  have hb' : p < a * (1 + 0) := hb
  linarith

/-- Likewise for Bachelier. -/
theorem C54_bach_negative (a : ℝ) (h0 : 0 < a) (h1 : a < 1) :
    ∃ x v t, NormalOption x ∧ x.annuity = a ∧ bachelierPrice [x] = [v] ∧ v.time = some t ∧ t < 0 := by
  have hvol : 0 < 1 - a := by linarith
  have hl : NormalOption ⟨1, 1, 1, 0, 1 - a, a⟩ := ⟨by norm_num, hvol, Or.inl rfl⟩
  obtain ⟨p, n, t, hp, -, ht, hs, hn⟩ := C54_bach_adds_up _ hl _ rfl
  refine ⟨_, _, t, hl, rfl, rfl, ht, ?_⟩
  have hpe : p = a * bachF 1 (1 - 0) ((1 - a) * Real.sqrt 1) := (bachPriced_eq hl p).1 ⟨_, rfl, hp⟩
  rw [Real.sqrt_one, mul_one, sub_zero] at hpe
  have hb := bach_lt (m := 1) (s := 1 - a) (cp := 1) hvol (by norm_num)
  have hpdf := normPdf_zero_lt_one
  have hn1 : n = 1 := by
    rw [hn]
    norm_num
  have h2 : bachF 1 1 (1 - a) < 1 + (1 - a) := by nlinarith
  nlinarith

end Frm.Props
