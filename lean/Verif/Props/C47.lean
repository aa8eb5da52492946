import Verif.Spec.FxOption
import Verif.Proofs.GarmanKohlhagen

/-!
# C47: Garman–Kohlhagen put–call parity and intrinsic limits
-/

namespace Frm.Props
open Classical

set_option autoImplicit false

open Frm Frm.Spec

theorem domesticRate_eq {x : GkRow} {r : ℝ} (hS : 0 < x.S0) (ht : x.tau ≠ 0) (h : DomesticRate x r) : gkRate x = r := by
  unfold DomesticRate at h
  cases hf : x.fwd with
  | none => rw [hf] at h; unfold gkRate; rw [hf]; exact h.symm
  | some F => rw [hf] at h; exact gkRate_unique hS ht hf h

/-- Every contract with a positive time to expiry has exactly one domestic rate. -/
theorem domesticRate_exists (x : GkRow) (hx : FxAdmissible x) (ht : 0 < x.tau) : ∃! r, DomesticRate x r := by
  refine ⟨gkRate x, ?_, fun r hr => (domesticRate_eq hx.1 ht.ne' hr).symm⟩
  show DomesticRate x (gkRate x)
  unfold DomesticRate gkRate
  cases hf : x.fwd with
  | none => rfl
  | some F =>
    simp only
    have hF := hx.2.2.2 F hf
    have e : (Real.log (F / x.S0) / x.tau + x.rf - x.rf) * x.tau = Real.log (F / x.S0) := by
      have := ht.ne'
      field_simp
      ring
    rw [e, Real.exp_log (div_pos hF hx.1), mul_div_cancel₀ _ hx.1.ne']

/-- The function accepts exactly the admissible arguments, and values them one by one, in order; otherwise it raises
`AssertionError`. -/
theorem C47_accepts (rows : List GkRow) :
    ((∀ x ∈ rows, FxAdmissible x) ∧ ∃ out, garmanKohlhagenPrice rows = .ok out ∧ out.length = rows.length) ∨
    ((∃ x ∈ rows, ¬ FxAdmissible x) ∧ garmanKohlhagenPrice rows = .error .assertion) := by
  by_cases h : ∀ x ∈ rows, gkValid x
  · exact Or.inl ⟨h, _, garmanKohlhagenPrice_of h, by simp⟩
  · push Not at h
    refine Or.inr ⟨h, ?_⟩
    unfold garmanKohlhagenPrice
    rw [if_pos h]

/-- Asked for numerical greeks, the function never succeeds: `AssertionError` for arguments that are not admissible, `KeyError` otherwise. -/
theorem C47_numerical_greeks (rows : List GkRow) :
    ((∃ x ∈ rows, ¬ FxAdmissible x) → garmanKohlhagenPrice rows true = .error .assertion) ∧
    ((∀ x ∈ rows, FxAdmissible x) → garmanKohlhagenPrice rows true = .error .key) := by
  constructor
  · intro h
    have h' : ∃ x ∈ rows, ¬ gkValid x := h
    unfold garmanKohlhagenPrice
    rw [if_pos h']
  · intro h
    have h' : ¬ ∃ x ∈ rows, ¬ gkValid x := by push Not; exact h
    unfold garmanKohlhagenPrice
    rw [if_neg h', if_pos rfl]

theorem gk_at {rows : List GkRow} {out : List GkValue} (h : garmanKohlhagenPrice rows = .ok out) {i : Nat} {x : GkRow}
    (hx : rows[i]? = some x) : gkValid x ∧ out[i]? = some (gkValue x) := by
  obtain ⟨hv, rfl⟩ := garmanKohlhagenPrice_ok h
  exact ⟨hv x (List.mem_of_getElem? hx), by simp [hx]⟩

/-- Put–call parity: the price of a call less the price of the put with the same terms is the present value of the asset less
that of the strike, with and without a market forward, before expiry and at expiry. -/
theorem C47_parity (rows : List GkRow) (out : List GkValue) (h : garmanKohlhagenPrice rows = .ok out) (i j : Nat) (x : GkRow)
    (hi : rows[i]? = some { x with cp := 1 }) (hj : rows[j]? = some { x with cp := -1 }) (hK : 0 < x.K) (hv : 0 < x.vol)
    (r : ℝ) (hr : x.tau = 0 ∨ DomesticRate x r) :
    ∃ vc vp c p, out[i]? = some vc ∧ out[j]? = some vp ∧ vc.price = some c ∧ vp.price = some p ∧
      c - p = assetPv x - strikePv x r := by
  obtain ⟨vi, oi⟩ := gk_at h hi
  obtain ⟨vj, oj⟩ := gk_at h hj
  have hS : 0 < x.S0 := vi.1
  have ht : 0 ≤ x.tau := vi.2.1
  by_cases h0 : x.tau = 0
  · refine ⟨_, _, _, _, oi, oj, gkPrice_expiry (x := { x with cp := 1 }) h0, gkPrice_expiry (x := { x with cp := -1 }) h0, ?_⟩
    unfold assetPv strikePv
    rw [h0]
    simp only [mul_zero, Real.exp_zero, mul_one, one_mul]
    rcases le_total x.S0 x.K with hle | hle
    · rw [max_eq_left (by linarith), max_eq_right (by linarith)]; ring
    · rw [max_eq_right (by linarith), max_eq_left (by linarith)]; ring
  · have ht' : 0 < x.tau := lt_of_le_of_ne ht (Ne.symm h0)
    have hr' := domesticRate_eq hS h0 (hr.resolve_left h0)
    refine ⟨_, _, _, _, oi, oj, gkPrice_eq (x := { x with cp := 1 }) hS hK ht' hv.ne',
      gkPrice_eq (x := { x with cp := -1 }) hS hK ht' hv.ne', ?_⟩
    have e1 : gkRate { x with cp := 1 } = r := by rw [← hr']; rfl
    have e2 : gkRate { x with cp := -1 } = r := by rw [← hr']; rfl
    rw [e1, e2]
    exact black_parity _ _ _

/-- Before expiry the price lies strictly between the discounted intrinsic value and the present value of what the holder can
receive: the asset for a call, the strike for a put. -/
theorem C47_bounds (rows : List GkRow) (out : List GkValue) (h : garmanKohlhagenPrice rows = .ok out) (i : Nat) (x : GkRow)
    (hi : rows[i]? = some x) (hK : 0 < x.K) (hv : 0 < x.vol) (ht : 0 < x.tau) (r : ℝ) (hr : DomesticRate x r) :
    ∃ v p, out[i]? = some v ∧ v.price = some p ∧ max 0 (x.cp * (assetPv x - strikePv x r)) < p ∧
      (x.cp = 1 → p < assetPv x) ∧ (x.cp = -1 → p < strikePv x r) := by
  obtain ⟨vi, oi⟩ := gk_at h hi
  have hr' := domesticRate_eq vi.1 ht.ne' hr
  have hs : 0 < x.vol * Real.sqrt x.tau := mul_pos hv (Real.sqrt_pos.2 ht)
  have hb := black_bounds (mul_pos vi.1 (Real.exp_pos (-x.rf * x.tau))) (mul_pos hK (Real.exp_pos (-r * x.tau))) hs vi.2.2.1
  refine ⟨_, _, oi, gkPrice_eq vi.1 hK ht hv.ne', ?_, ?_, ?_⟩
  · rw [hr']; exact hb.1
  · intro hc
    rw [hr']
    have := hb.2
    rwa [if_pos hc] at this
  · intro hc
    rw [hr']
    have := hb.2
    rwa [if_neg (by rw [hc]; norm_num)] at this

/-- At expiry the price is the payoff. -/
theorem C47_expiry (rows : List GkRow) (out : List GkValue) (h : garmanKohlhagenPrice rows = .ok out) (i : Nat) (x : GkRow)
    (hi : rows[i]? = some x) (ht : x.tau = 0) :
    ∃ v, out[i]? = some v ∧ v.price = some (max 0 (x.cp * (x.S0 - x.K))) := by
  obtain ⟨_, oi⟩ := gk_at h hi
  exact ⟨_, oi, gkPrice_expiry ht⟩

/-- The price splits into the discounted intrinsic value and a time value; the time value is positive before expiry and zero at
expiry. -/
theorem C47_split (rows : List GkRow) (out : List GkValue) (h : garmanKohlhagenPrice rows = .ok out) (i : Nat) (x : GkRow)
    (hi : rows[i]? = some x) (hK : 0 < x.K) (hv : 0 < x.vol) (r : ℝ) (hr : x.tau = 0 ∨ DomesticRate x r) :
    ∃ v p n t, out[i]? = some v ∧ v.price = some p ∧ v.intrinsic = some n ∧ v.time = some t ∧ p = n + t ∧
      n = max 0 (x.cp * (assetPv x - strikePv x r)) ∧ (0 < x.tau → 0 < t) ∧ (x.tau = 0 → t = 0) := by
  obtain ⟨vi, oi⟩ := gk_at h hi
  by_cases h0 : x.tau = 0
  · have hp := gkPrice_expiry h0
    have hn : gkIntrinsic x = gkPrice x := by unfold gkIntrinsic; rw [if_neg (by rw [h0]; exact lt_irrefl 0)]
    refine ⟨_, _, _, 0, oi, hp, hn.trans hp, ?_, (add_zero _).symm, ?_, fun h => absurd h (by rw [h0]; exact lt_irrefl 0), fun _ => rfl⟩
    · show (gkPrice x).bind (fun p => (gkIntrinsic x).map (fun i => p - i)) = _
      rw [hn, hp]
      simp
    · unfold assetPv strikePv
      rw [h0]
      simp
  · have ht : 0 < x.tau := lt_of_le_of_ne vi.2.1 (Ne.symm h0)
    have hr' := domesticRate_eq vi.1 h0 (hr.resolve_left h0)
    obtain ⟨v, p, ov, hp, hlo, -, -⟩ := C47_bounds rows out h i x hi hK hv ht r (hr.resolve_left h0)
    have hv' : v = gkValue x := by rw [oi] at ov; exact (Option.some.inj ov).symm
    subst hv'
    have hn : gkIntrinsic x = some (max 0 (x.cp * (assetPv x - strikePv x r))) := by
      unfold gkIntrinsic
      rw [if_pos ht, hr']
      rfl
    have hp' : gkPrice x = some p := hp
    refine ⟨_, p, _, p - max 0 (x.cp * (assetPv x - strikePv x r)), oi, hp, hn, ?_, by ring, rfl, fun _ => by linarith, fun h => absurd h h0⟩
    show (gkPrice x).bind (fun p => (gkIntrinsic x).map (fun i => p - i)) = _
    rw [hn, hp']
    simp

/-- A call and a put one year from expiry, and the same with a market forward, are admissible; the forward fixes the domestic
rate. -/
example : (∀ x ∈ [(⟨1.1, 1, 0.05, 0.02, 1, 1.2, 0.1, none⟩ : GkRow), ⟨1.1, 1, 0.05, 0.02, -1, 1.2, 0.1, some (1.1 * Real.exp 0.03)⟩],
      FxAdmissible x) ∧
    DomesticRate ⟨1.1, 1, 0.05, 0.02, 1, 1.2, 0.1, none⟩ 0.05 ∧
    DomesticRate ⟨1.1, 1, 0.9, 0.02, 1, 1.2, 0.1, some (1.1 * Real.exp 0.03)⟩ 0.05 := by
  refine ⟨?_, rfl, ?_⟩
  · intro x hx
    simp only [List.mem_cons, List.not_mem_nil, or_false] at hx
    rcases hx with rfl | rfl
    · exact ⟨by norm_num, by norm_num, Or.inl rfl, fun F h => by cases h⟩
    · exact ⟨by norm_num, by norm_num, Or.inr rfl, fun F h => by cases h; exact mul_pos (by norm_num) (Real.exp_pos _)⟩
  · show 1.1 * Real.exp ((0.05 - 0.02) * 1) = 1.1 * Real.exp 0.03
    norm_num

end Frm.Props
