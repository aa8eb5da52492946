import Mathlib.Tactic.Positivity
import Mathlib.Tactic.FieldSimp
import Mathlib.Tactic.Linarith
import Verif.Model.VolGeneric

/-! # C45 — Forward volatility -/

namespace Frm
open Classical

set_option autoImplicit false

namespace Spec

/-- Total variance at the first and at the second date. -/
noncomputable def VolPair.w1 (r : VolPair) : ℝ := r.vol1 ^ 2 * r.t1

/-- Total variance at the second date. -/
noncomputable def VolPair.w2 (r : VolPair) : ℝ := r.vol2 ^ 2 * r.t2

/-- `v` is the volatility between the two dates. -/
def ForwardVol (r : VolPair) (v : ℝ) : Prop := 0 ≤ v ∧ VolPair.w1 r + v ^ 2 * (r.t2 - r.t1) = VolPair.w2 r

end Spec
open Spec

theorem forwardVariance_fin {r : VolPair} (h : r.t1 ≠ r.t2) :
    forwardVariance r = .fin ((VolPair.w2 r - VolPair.w1 r) / (r.t2 - r.t1)) := by
  unfold forwardVariance Npf.divide
  rw [if_pos (sub_ne_zero.mpr (Ne.symm h))]
  rfl

theorem forwardVariance_neg_iff {r : VolPair} (h : r.t1 < r.t2) : (forwardVariance r).isNeg ↔ VolPair.w2 r < VolPair.w1 r := by
  rw [forwardVariance_fin h.ne]
  show (VolPair.w2 r - VolPair.w1 r) / (r.t2 - r.t1) < 0 ↔ _
  rw [div_lt_iff₀ (by linarith), zero_mul, sub_neg]

theorem forwardVol_sqrt {r : VolPair} (h : r.t1 < r.t2) (hw : VolPair.w1 r ≤ VolPair.w2 r) :
    ∃ v, (forwardVariance r).sqrt = .fin v ∧ ForwardVol r v := by
  rw [forwardVariance_fin h.ne]
  have hp : (0 : ℝ) < r.t2 - r.t1 := by linarith
  have h0 : 0 ≤ (VolPair.w2 r - VolPair.w1 r) / (r.t2 - r.t1) := div_nonneg (by linarith) hp.le
  unfold Npf.sqrt
  simp only [if_pos h0]
  refine ⟨_, rfl, Real.sqrt_nonneg _, ?_⟩
  rw [Real.sq_sqrt h0, div_mul_cancel₀ _ hp.ne']
  ring

theorem forwardVolatility_ok {rows : List VolPair} {out : List Npf} (h : forwardVolatility rows = .ok out) :
    out = rows.map (fun r => (forwardVariance r).sqrt) ∧ (∀ r ∈ rows, ¬ (forwardVariance r).isNeg) ∧
    ((∃ r ∈ rows, r.t1 = r.t2) ∨ ∀ r ∈ rows, r.t1 ≤ r.t2) := by
  unfold forwardVolatility at h
  split at h
  · cases h
  · rename_i h1
    split at h
    · cases h
    · rename_i h2
      simp only [Except.ok.injEq] at h
      refine ⟨h.symm, fun r hr hn => h2 ⟨r, hr, hn⟩, ?_⟩
      by_cases hz : ∃ r ∈ rows, r.t1 = r.t2
      · exact .inl hz
      · right
        intro r hr
        by_contra hlt
        apply h1
        refine ⟨?_, r, hr, by linarith⟩
        rintro ⟨s, hs, he⟩
        exact hz ⟨s, hs, by linarith⟩

namespace Props

/-- **C45.**  One result per element; between two distinct dates in order, the result is the forward volatility. -/
theorem C45_values (rows : List VolPair) (out : List Npf) (h : forwardVolatility rows = .ok out) :
    out.length = rows.length ∧
    ∀ (i : Nat) r, rows[i]? = some r → r.t1 < r.t2 → ∃ v, out[i]? = some (.fin v) ∧ ForwardVol r v := by
  obtain ⟨rfl, hn, -⟩ := forwardVolatility_ok h
  refine ⟨by simp, fun i r hr hlt => ?_⟩
  have hw : VolPair.w1 r ≤ VolPair.w2 r := by
    by_contra hc
    exact hn r (List.mem_of_getElem? hr) ((forwardVariance_neg_iff hlt).mpr (by linarith))
  obtain ⟨v, hv, hf⟩ := forwardVol_sqrt hlt hw
  exact ⟨v, by simp [hr, hv], hf⟩

/-- **C45 for arrays whose dates differ.**  The arrays are accepted exactly when no date precedes its predecessor and no
total variance decreases.  Missing: arrays in which some pair of dates coincides, see `C45_unchecked`. -/
theorem C45_accepts_partial (rows : List VolPair) (hne : ∀ r ∈ rows, r.t1 ≠ r.t2) :
    (∃ out, forwardVolatility rows = .ok out) ↔ ∀ r ∈ rows, r.t1 < r.t2 ∧ VolPair.w1 r ≤ VolPair.w2 r := by
  constructor
  · rintro ⟨out, h⟩ r hr
    obtain ⟨-, hn, hle⟩ := forwardVolatility_ok h
    have hlt : r.t1 < r.t2 := by
      rcases hle with ⟨s, hs, he⟩ | hle
      · exact absurd he (hne s hs)
      · exact lt_of_le_of_ne (hle r hr) (hne r hr)
    refine ⟨hlt, ?_⟩
    by_contra hc
    exact hn r hr ((forwardVariance_neg_iff hlt).mpr (by linarith))
  · intro h
    unfold forwardVolatility
    rw [if_neg, if_neg]
    · exact ⟨_, rfl⟩
    · rintro ⟨r, hr, hneg⟩
      obtain ⟨h1, h2⟩ := h r hr
      rw [forwardVariance_neg_iff h1] at hneg
      linarith
    · rintro ⟨-, r, hr, hneg⟩
      have := (h r hr).1
      linarith

/-- **C45 for floats.**  Accepted exactly when the dates are in order and total variance does not decrease. -/
theorem C45_scalar (r : VolPair) :
    ((∃ v, forwardVolatilityScalar r = .ok v) ↔ r.t1 < r.t2 ∧ VolPair.w1 r ≤ VolPair.w2 r) ∧
    ∀ v, forwardVolatilityScalar r = .ok v → ∃ x, v = .fin x ∧ ForwardVol r x := by
  unfold forwardVolatilityScalar
  by_cases h0 : r.t2 - r.t1 = 0
  · rw [if_pos h0]
    refine ⟨⟨?_, fun h => by linarith [h.1]⟩, ?_⟩
    · rintro ⟨v, hv⟩; cases hv
    · intro v hv; cases hv
  · rw [if_neg h0]
    by_cases h1 : r.t2 - r.t1 < 0
    · rw [if_pos h1]
      refine ⟨⟨?_, fun h => by linarith [h.1]⟩, ?_⟩
      · rintro ⟨v, hv⟩; cases hv
      · intro v hv; cases hv
    · rw [if_neg h1]
      have hlt : r.t1 < r.t2 := by
        have : r.t2 - r.t1 ≠ 0 := h0
        have := lt_of_le_of_ne (not_lt.mp h1) (Ne.symm this)
        linarith
      by_cases h2 : (forwardVariance r).isNeg
      · rw [if_pos h2]
        rw [forwardVariance_neg_iff hlt] at h2
        refine ⟨⟨?_, fun h => by linarith [h.2]⟩, ?_⟩
        · rintro ⟨v, hv⟩; cases hv
        · intro v hv; cases hv
      · rw [if_neg h2]
        rw [forwardVariance_neg_iff hlt, not_lt] at h2
        obtain ⟨x, hx, hf⟩ := forwardVol_sqrt hlt h2
        refine ⟨⟨fun _ => ⟨hlt, h2⟩, fun _ => ⟨_, rfl⟩⟩, fun v hv => ?_⟩
        simp only [Except.ok.injEq] at hv
        exact ⟨x, by rw [← hv, hx], hf⟩

/-- The exceptions for floats: coinciding dates are a type error (the text of the warning indexes a float), dates in the wrong order and
a decrease of total variance are value errors. -/
theorem C45_scalar_exceptions (r : VolPair) :
    (r.t1 = r.t2 → forwardVolatilityScalar r = .error .type) ∧
    (r.t2 < r.t1 → forwardVolatilityScalar r = .error .value) ∧
    (r.t1 < r.t2 → VolPair.w2 r < VolPair.w1 r → forwardVolatilityScalar r = .error .value) := by
  unfold forwardVolatilityScalar
  refine ⟨fun h => if_pos (by linarith), fun h => ?_, fun h hw => ?_⟩
  · rw [if_neg (by intro h0; linarith), if_pos (by linarith)]
  · rw [if_neg (by intro h0; linarith), if_neg (by linarith), if_pos ((forwardVariance_neg_iff h).mpr hw)]

/-- **C45 for all arrays.**  Without coinciding dates, arrays are accepted exactly when no date precedes its predecessor and no total
variance decreases.  With some pair of coinciding dates the order of the other pairs is not looked at: arrays are accepted exactly when
no total variance decreases from the earlier to the later date of a pair, whichever is first; for a pair in the wrong order the number
returned is the volatility between the later and the earlier date.  Every refusal is a value error. -/
theorem C45_arrays (rows : List VolPair) :
    ((∃ out, forwardVolatility rows = .ok out) ↔
      (∀ r ∈ rows, r.t1 < r.t2 ∧ VolPair.w1 r ≤ VolPair.w2 r) ∨
      ((∃ r ∈ rows, r.t1 = r.t2) ∧ ∀ r ∈ rows,
        (r.t1 ≤ r.t2 → VolPair.w1 r ≤ VolPair.w2 r) ∧ (r.t2 < r.t1 → VolPair.w2 r ≤ VolPair.w1 r))) ∧
    (∀ e, forwardVolatility rows = .error e → e = .value) ∧
    (∀ out, forwardVolatility rows = .ok out → ∀ (i : Nat) r, rows[i]? = some r →
      (r.t1 ≠ r.t2 → ∃ v, out[i]? = some (.fin v) ∧ ForwardVol r v) ∧
      (r.t1 = r.t2 → out[i]? = some (if VolPair.w1 r < VolPair.w2 r then .posInf else .nan))) := by
  have hneg : ∀ r : VolPair, (forwardVariance r).isNeg ↔
      (r.t1 ≤ r.t2 ∧ VolPair.w2 r < VolPair.w1 r) ∨ (r.t2 < r.t1 ∧ VolPair.w1 r < VolPair.w2 r) := by
    intro r
    rcases lt_trichotomy r.t1 r.t2 with h | h | h
    · rw [forwardVariance_neg_iff h]
      exact ⟨fun hw => .inl ⟨h.le, hw⟩, fun hw => by rcases hw with hw | hw <;> [exact hw.2; linarith [hw.1]]⟩
    · have hd : forwardVariance r = if 0 < VolPair.w2 r - VolPair.w1 r then .posInf else
          if VolPair.w2 r - VolPair.w1 r < 0 then .negInf else .nan := by
        unfold forwardVariance Npf.divide
        rw [if_neg (by rw [h]; simp)]
        rfl
      rw [hd]
      by_cases h1 : 0 < VolPair.w2 r - VolPair.w1 r
      · rw [if_pos h1]
        refine ⟨fun hn => hn.elim, fun hw => ?_⟩
        rcases hw with hw | hw <;> linarith [hw.1, hw.2]
      · rw [if_neg h1]
        by_cases h2 : VolPair.w2 r - VolPair.w1 r < 0
        · rw [if_pos h2]
          exact ⟨fun _ => .inl ⟨h.le, by linarith⟩, fun _ => trivial⟩
        · rw [if_neg h2]
          refine ⟨fun hn => hn.elim, fun hw => ?_⟩
          rcases hw with hw | hw <;> linarith [hw.1, hw.2]
    · rw [forwardVariance_fin h.ne']
      show (VolPair.w2 r - VolPair.w1 r) / (r.t2 - r.t1) < 0 ↔ _
      rw [div_lt_iff_of_neg (by linarith), zero_mul, sub_pos]
      exact ⟨fun hw => .inr ⟨h, hw⟩, fun hw => by rcases hw with hw | hw <;> [linarith [hw.1]; exact hw.2]⟩
  refine ⟨⟨?_, ?_⟩, ?_, ?_⟩
  · rintro ⟨out, h⟩
    obtain ⟨-, hn, hle⟩ := forwardVolatility_ok h
    by_cases hz : ∃ r ∈ rows, r.t1 = r.t2
    · refine .inr ⟨hz, fun r hr => ⟨fun h1 => ?_, fun h1 => ?_⟩⟩
      · by_contra hc
        exact hn r hr ((hneg r).mpr (.inl ⟨h1, not_le.mp hc⟩))
      · by_contra hc
        exact hn r hr ((hneg r).mpr (.inr ⟨h1, not_le.mp hc⟩))
    · exact .inl ((C45_accepts_partial rows (fun r hr he => hz ⟨r, hr, he⟩)).mp ⟨out, h⟩)
  · rintro (h | ⟨⟨s, hs, hse⟩, h⟩)
    · exact (C45_accepts_partial rows (fun r hr => (h r hr).1.ne)).mpr h
    · unfold forwardVolatility
      rw [if_neg, if_neg]
      · exact ⟨_, rfl⟩
      · rintro ⟨r, hr, hn⟩
        rcases (hneg r).mp hn with hw | hw
        · linarith [(h r hr).1 hw.1, hw.2]
        · linarith [(h r hr).2 hw.1, hw.2]
      · rintro ⟨hz, -⟩
        exact hz ⟨s, hs, by linarith⟩
  · intro e he
    unfold forwardVolatility at he
    split at he
    · cases he; rfl
    · split at he
      · cases he; rfl
      · cases he
  · intro out hout i r hr
    obtain ⟨rfl, hn, -⟩ := forwardVolatility_ok hout
    have hnr := hn r (List.mem_of_getElem? hr)
    refine ⟨fun hne => ?_, fun he => ?_⟩
    · have hf := forwardVariance_fin hne
      have h0 : 0 ≤ (VolPair.w2 r - VolPair.w1 r) / (r.t2 - r.t1) := by
        rw [hf] at hnr
        exact not_lt.mp hnr
      have hp : r.t2 - r.t1 ≠ 0 := sub_ne_zero.mpr (Ne.symm hne)
      refine ⟨Real.sqrt ((VolPair.w2 r - VolPair.w1 r) / (r.t2 - r.t1)), ?_, Real.sqrt_nonneg _, ?_⟩
      · simp only [List.getElem?_map, hr, Option.map_some, hf, Npf.sqrt, if_pos h0]
      · rw [Real.sq_sqrt h0, div_mul_cancel₀ _ hp]
        ring
    · have hd : forwardVariance r = if 0 < VolPair.w2 r - VolPair.w1 r then .posInf else
          if VolPair.w2 r - VolPair.w1 r < 0 then .negInf else .nan := by
        unfold forwardVariance Npf.divide
        rw [if_neg (by rw [he]; simp)]
        rfl
      simp only [List.getElem?_map, hr, Option.map_some]
      by_cases h1 : VolPair.w1 r < VolPair.w2 r
      · rw [hd, if_pos (by linarith), if_pos h1]
        rfl
      · have h2 : ¬ VolPair.w2 r - VolPair.w1 r < 0 := by
          intro h2
          exact hnr ((hneg r).mpr (.inl ⟨he.le, by linarith⟩))
        rw [hd, if_neg (by linarith), if_neg h2, if_neg h1]
        rfl

/-- A case of the second alternative of `C45_arrays`. -/
example : ∃ out, forwardVolatility [⟨1, 0.2, 1, 0.2⟩, ⟨2, 0.2, 1, 0.2⟩] = .ok out := by
  refine (C45_arrays _).1.mpr (.inr ⟨⟨_, List.mem_cons_self, rfl⟩, fun r hr => ?_⟩)
  simp only [List.mem_cons, List.not_mem_nil, or_false] at hr
  rcases hr with rfl | rfl <;> unfold VolPair.w1 VolPair.w2 <;> norm_num

/-- **C45 is false** when some pair of dates coincides: dates in the wrong order are then not refused, and a number is
returned for them. -/
theorem C45_unchecked :
    ∃ rows : List VolPair, (∃ r ∈ rows, r.t2 < r.t1) ∧ ∃ out v, forwardVolatility rows = .ok out ∧ out[1]? = some (.fin v) := by
  refine ⟨[⟨1, 1, 1, 1⟩, ⟨2, 1, 1, 1⟩], ⟨⟨2, 1, 1, 1⟩, List.mem_cons_of_mem _ List.mem_cons_self, by norm_num⟩, ?_⟩
  have e1 : forwardVariance ⟨1, 1, 1, 1⟩ = .nan := by
    unfold forwardVariance Npf.divide
    rw [if_neg (by norm_num), if_neg (by norm_num), if_neg (by norm_num)]
  have e2 : forwardVariance ⟨2, 1, 1, 1⟩ = .fin 1 := by
    unfold forwardVariance Npf.divide
    rw [if_pos (by norm_num)]
    norm_num
  refine ⟨[.nan, .fin 1], 1, ?_, ?_⟩
  · unfold forwardVolatility
    rw [if_neg, if_neg]
    · simp [e1, e2, Npf.sqrt]
    · rintro ⟨r, hr, hn⟩
      simp only [List.mem_cons, List.not_mem_nil, or_false] at hr
      rcases hr with rfl | rfl
      · rw [e1] at hn; exact hn
      · rw [e2] at hn; simp only [Npf.isNeg] at hn; linarith
    · rintro ⟨h, -⟩
      exact h ⟨_, List.mem_cons_self, by norm_num⟩
  · rfl

/-- What is returned for two coinciding dates is `nan` only if the volatilities agree: more variance gives infinity, less
raises. -/
theorem C45_same_date (t v1 v2 : ℝ) :
    (v1 ^ 2 * t < v2 ^ 2 * t → forwardVolatility [⟨t, v1, t, v2⟩] = .ok [.posInf]) ∧
    (v2 ^ 2 * t < v1 ^ 2 * t → forwardVolatility [⟨t, v1, t, v2⟩] = .error .value) ∧
    (v1 ^ 2 * t = v2 ^ 2 * t → forwardVolatility [⟨t, v1, t, v2⟩] = .ok [.nan]) := by
  have hz : ∃ r ∈ [(⟨t, v1, t, v2⟩ : VolPair)], r.t2 - r.t1 = 0 := ⟨_, List.mem_cons_self, by simp⟩
  have hd : forwardVariance ⟨t, v1, t, v2⟩ = if 0 < v2 ^ 2 * t - v1 ^ 2 * t then .posInf else
      if v2 ^ 2 * t - v1 ^ 2 * t < 0 then .negInf else .nan := by
    unfold forwardVariance Npf.divide
    rw [if_neg (by simp)]
  refine ⟨fun h => ?_, fun h => ?_, fun h => ?_⟩
  · rw [if_pos (by linarith)] at hd
    unfold forwardVolatility
    rw [if_neg (fun h => h.1 hz), if_neg]
    · simp [hd, Npf.sqrt]
    · rintro ⟨r, hr, hn⟩
      rw [List.mem_singleton.mp hr, hd] at hn; exact hn
  · rw [if_neg (by linarith), if_pos (by linarith)] at hd
    unfold forwardVolatility
    rw [if_neg (fun h => h.1 hz), if_pos]
    exact ⟨_, List.mem_cons_self, by rw [hd]; trivial⟩
  · rw [if_neg (by linarith), if_neg (by linarith)] at hd
    unfold forwardVolatility
    rw [if_neg (fun h => h.1 hz), if_neg]
    · simp [hd, Npf.sqrt]
    · rintro ⟨r, hr, hn⟩
      rw [List.mem_singleton.mp hr, hd] at hn; exact hn

/-- A case of `C45_accepts_partial`: 20% to one year and 25% to two years. -/
example : ∀ r ∈ [(⟨1, 0.2, 2, 0.25⟩ : VolPair)], r.t1 < r.t2 ∧ VolPair.w1 r ≤ VolPair.w2 r := by
  intro r hr
  rw [List.mem_singleton.mp hr]
  unfold VolPair.w1 VolPair.w2
  norm_num

end Props
end Frm
