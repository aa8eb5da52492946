import Verif.Props.C47

/-!
# C48: a supplied market forward is priced consistently
-/

namespace Frm.Props
open Classical

set_option autoImplicit false

open Frm Frm.Spec

/-- With a market forward, price, intrinsic value, time value and greeks are those without a forward at the domestic rate `r`
for which `S exp((r - q) tau) = F`, whatever domestic rate was supplied. -/
theorem C48_implied_rate (rows : List GkRow) (out : List GkValue) (h : garmanKohlhagenPrice rows = .ok out) (i : Nat) (x : GkRow)
    (hi : rows[i]? = some x) (ht : 0 < x.tau) (F : ℝ) (hF : x.fwd = some F) (r : ℝ)
    (hr : x.S0 * Real.exp ((r - x.rf) * x.tau) = F) :
    ∃ v, out[i]? = some v ∧ garmanKohlhagenPrice [{ x with rd := r, fwd := none }] = .ok [v] ∧
      garmanKohlhagenGreeks [x] = garmanKohlhagenGreeks [{ x with rd := r, fwd := none }] := by
  obtain ⟨vi, oi⟩ := gk_at h hi
  have hrate : gkRate x = gkRate { x with rd := r, fwd := none } := gkRate_unique vi.1 ht.ne' hF hr
  have hd1 : gkD1 x = gkD1 { x with rd := r, fwd := none } := by
    unfold gkD1
    rw [if_neg (fun h => ht.ne' h.1), if_neg (fun h => ht.ne' h.1), if_neg (fun h => ht.ne' h.1), if_neg (fun h => ht.ne' h.1), hrate]
  have hd2 : gkD2 x = gkD2 { x with rd := r, fwd := none } := by unfold gkD2; rw [hd1]
  have hp : gkPrice x = gkPrice { x with rd := r, fwd := none } := by unfold gkPrice; rw [hrate, hd1, hd2]
  have hn : gkIntrinsic x = gkIntrinsic { x with rd := r, fwd := none } := by unfold gkIntrinsic; rw [hrate, hp]
  have hval : gkValue x = gkValue { x with rd := r, fwd := none } := by unfold gkValue; rw [hp, hn]
  have hg : gkGreeks x = gkGreeks { x with rd := r, fwd := none } := by unfold gkGreeks; rw [hrate, hd1, hd2]
  have hvalid : gkValid { x with rd := r, fwd := none } := ⟨vi.1, vi.2.1, vi.2.2.1, fun G hG => by cases hG⟩
  refine ⟨_, oi, ?_, ?_⟩
  · rw [garmanKohlhagenPrice_of (by simpa using hvalid), hval]
    rfl
  · unfold garmanKohlhagenGreeks
    rw [if_neg (by simpa using vi), if_neg (by simpa using hvalid)]
    simp only [List.map_cons, List.map_nil, hg]

/-- Supplying the parity forward changes nothing. -/
theorem C48_parity_forward (x : GkRow) (ht : 0 < x.tau) (hn : x.fwd = none) :
    garmanKohlhagenPrice [{ x with fwd := some (x.S0 * Real.exp ((x.rd - x.rf) * x.tau)) }] = garmanKohlhagenPrice [x] := by
  have key : gkValid { x with fwd := some (x.S0 * Real.exp ((x.rd - x.rf) * x.tau)) } ↔ gkValid x := by
    unfold gkValid
    simp only [hn, reduceCtorEq, Option.some.injEq, forall_eq', IsEmpty.forall_iff, implies_true, and_true]
    refine ⟨fun h => ⟨h.1, h.2.1, h.2.2.1⟩, fun h => ⟨h.1, h.2.1, h.2.2, mul_pos h.1 (Real.exp_pos _)⟩⟩
  by_cases hv : gkValid x
  · have hv' := key.2 hv
    obtain ⟨v, hv1, hv2, -⟩ := C48_implied_rate _ _ (garmanKohlhagenPrice_of (rows := [{ x with fwd := some (x.S0 * Real.exp ((x.rd - x.rf) * x.tau)) }])
      (by simpa using hv')) 0 _ rfl ht _ rfl x.rd rfl
    have hx : { x with fwd := none } = x := by cases x; simp only at hn; subst hn; rfl
    have e : ({ x with rd := x.rd, fwd := none } : GkRow) = x := hx
    simp only [List.map_cons, List.map_nil, List.getElem?_cons_zero, Option.some.injEq] at hv1
    rw [garmanKohlhagenPrice_of (by simpa using hv'), List.map_cons, List.map_nil, hv1]
    rw [← hv2]
    exact congrArg (fun y => garmanKohlhagenPrice [y]) e
  · unfold garmanKohlhagenPrice
    rw [if_pos (by simpa using fun h => hv (key.1 h)), if_pos (by simpa using hv)]

example : ∃ x : GkRow, 0 < x.tau ∧ x.fwd = none ∧ FxAdmissible x :=
  ⟨⟨1.1, 1, 0.05, 0.02, 1, 1.2, 0.1, none⟩, by norm_num, rfl, by norm_num, by norm_num, Or.inl rfl, fun F h => by cases h⟩

end Frm.Props
