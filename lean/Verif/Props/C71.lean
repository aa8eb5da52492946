import Verif.Props.C56
import Verif.Spec.Bounds

/-!
# C71: the SABR smile and its calibration
-/

namespace Frm
namespace Spec

set_option autoImplicit false

/-- Valid SABR parameters: positive alpha and volatility of volatility, correlation strictly between -1 and 1, and a positive time factor
(the expansion in time has not broken down). -/
def ValidSabr (tau f k a b r v : ℝ) : Prop :=
  0 < f ∧ 0 < k ∧ 0 < a ∧ 0 < v ∧ -1 < r ∧ r < 1 ∧
    0 < 1 + ((1 - b) ^ 2 / 24 * a ^ 2 / (f * k) ^ (1 - b) + r * b * v * a / (4 * (f * k) ^ ((1 - b) / 2)) + (2 - 3 * r ^ 2) / 24 * v ^ 2) * tau

/-- `x(z)` of Hagan et al. (2.17c). -/
noncomputable def haganX (r z : ℝ) : ℝ := Real.log ((Real.sqrt (1 - 2 * r * z + z ^ 2) + z - r) / (1 - r))

/-- The SABR volatility of Hagan et al. (2.17a) for a forward `f` and a strike `k`, with `z` of (2.17b). -/
noncomputable def haganSmile (tau f k a b r v : ℝ) : ℝ :=
  let z := v / a * (f * k) ^ ((1 - b) / 2) * Real.log (f / k)
  a / ((f * k) ^ ((1 - b) / 2) * (1 + (1 - b) ^ 2 / 24 * Real.log (f / k) ^ 2 + (1 - b) ^ 4 / 1920 * Real.log (f / k) ^ 4)) * (z / haganX r z) *
    (1 + ((1 - b) ^ 2 / 24 * a ^ 2 / (f * k) ^ (1 - b) + r * b * v * a / (4 * (f * k) ^ ((1 - b) / 2)) + (2 - 3 * r ^ 2) / 24 * v ^ 2) * tau)

/-- The volatility the library gives for one smile and one strike. -/
def SabrVolIs (tau F a b r v K shift s : ℝ) : Prop := calcSabrVols [(tau, F, a, b, r, v)] [K] shift = .ok [some s]

end Spec
end Frm

namespace Frm.Props
open Classical Set

set_option autoImplicit false

open Frm Frm.Spec

theorem calc_single (x : SabrSmile) (k shift : ℝ) : calcSabrVols [x] [k] shift = .ok [sabrVol shift (sabrRow x k)] := by
  unfold calcSabrVols
  simp

/-- Arrays are evaluated element by element: as many smiles as strikes, one smile for all strikes, or one strike for all smiles.  Any
other combination of sizes with several strikes is refused. -/
theorem C71_elementwise (smiles : List SabrSmile) (strikes : List ℝ) (shift : ℝ) :
    (smiles.length = strikes.length → ∃ out, calcSabrVols smiles strikes shift = .ok out ∧ out.length = strikes.length ∧
      ∀ (i : Nat) x k, smiles[i]? = some x → strikes[i]? = some k → ∃ o, out[i]? = some o ∧ calcSabrVols [x] [k] shift = .ok [o]) ∧
    (∀ x, smiles = [x] → ∃ out, calcSabrVols smiles strikes shift = .ok out ∧ out.length = strikes.length ∧
      ∀ (i : Nat) k, strikes[i]? = some k → ∃ o, out[i]? = some o ∧ calcSabrVols [x] [k] shift = .ok [o]) ∧
    (∀ k, strikes = [k] → ∃ out, calcSabrVols smiles strikes shift = .ok out ∧ out.length = smiles.length ∧
      ∀ (i : Nat) x, smiles[i]? = some x → ∃ o, out[i]? = some o ∧ calcSabrVols [x] [k] shift = .ok [o]) ∧
    (smiles.length ≠ strikes.length → smiles.length ≠ 1 → strikes.length ≠ 1 → ∃ e, calcSabrVols smiles strikes shift = .error e) := by
  refine ⟨fun h => ?_, ?_, ?_, ?_⟩
  · refine ⟨List.zipWith (fun s k => sabrVol shift (sabrRow s k)) smiles strikes, ?_, by simp [h], fun i x k hx hk => ?_⟩
    · unfold calcSabrVols
      rw [if_neg (by tauto), if_pos h]
    · refine ⟨sabrVol shift (sabrRow x k), ?_, calc_single x k shift⟩
      rw [List.getElem?_zipWith, hx, hk]
  · rintro x rfl
    refine ⟨strikes.map (fun k => sabrVol shift (sabrRow x k)), ?_, by simp, fun i k hk => ⟨_, by simp [hk], calc_single x k shift⟩⟩
    unfold calcSabrVols
    rw [if_neg (by simp)]
    rcases strikes with _ | ⟨k, _ | ⟨k', ks⟩⟩ <;> simp
  · rintro k rfl
    refine ⟨smiles.map (fun s => sabrVol shift (sabrRow s k)), ?_, by simp, fun i x hx => ⟨_, by simp [hx], calc_single x k shift⟩⟩
    unfold calcSabrVols
    rw [if_neg (by simp)]
    by_cases h : smiles.length = 1
    · obtain ⟨x, rfl⟩ := List.length_eq_one_iff.1 h
      simp
    · rw [if_neg (by simpa using h)]
  · intro h1 h2 h3
    unfold calcSabrVols
    by_cases hk : 1 < strikes.length
    · exact ⟨_, if_pos ⟨hk, by tauto⟩⟩
    · rw [if_neg (by tauto), if_neg h1]
      rcases strikes with _ | ⟨k, _ | ⟨k', ks⟩⟩
      · rcases smiles with _ | ⟨x, _ | ⟨x', xs⟩⟩
        · simp at h1
        · simp at h2
        · exact ⟨_, rfl⟩
      · simp at h3
      · simp at hk

theorem sabr_arg_pos {r z : ℝ} (h1 : -1 < r) (h2 : r < 1) : 0 < sabrXArg r z := by
  unfold sabrXArg
  apply div_pos _ (by linarith)
  have h : |z - r| < Real.sqrt (1 - 2 * r * z + z ^ 2) := by
    apply Real.lt_sqrt_of_sq_lt
    rw [sq_abs]
    nlinarith
  have := neg_abs_le (z - r)
  linarith

theorem sabr_rad_nonneg {r z : ℝ} (h1 : -1 < r) (h2 : r < 1) : 0 ≤ 1 - 2 * r * z + z ^ 2 := by nlinarith [sq_nonneg (z - r)]

theorem sabr_arg_gt {r z : ℝ} (h1 : -1 < r) (h2 : r < 1) (hz : 0 < z) : 1 < sabrXArg r z := by
  unfold sabrXArg
  rw [lt_div_iff₀ (by linarith)]
  have : 1 - z < Real.sqrt (1 - 2 * r * z + z ^ 2) := by
    rcases lt_or_ge (1 - z) 0 with h | h
    · exact lt_of_lt_of_le h (Real.sqrt_nonneg _)
    · apply Real.lt_sqrt_of_sq_lt
      nlinarith
  linarith

theorem sabr_arg_lt {r z : ℝ} (h1 : -1 < r) (h2 : r < 1) (hz : z < 0) : sabrXArg r z < 1 := by
  unfold sabrXArg
  rw [div_lt_iff₀ (by linarith)]
  have : Real.sqrt (1 - 2 * r * z + z ^ 2) < 1 - z := by
    rw [Real.sqrt_lt' (by linarith)]
    nlinarith
  linarith

theorem sabr_ratio_pos {r z : ℝ} (h1 : -1 < r) (h2 : r < 1) (hz : z ≠ 0) : sabrRatio r z = some (z / haganX r z) ∧ 0 < z / haganX r z := by
  have hp := sabr_arg_pos (z := z) h1 h2
  have hlog : 0 < z / Real.log (sabrXArg r z) := by
    rcases lt_or_gt_of_ne hz with hz | hz
    · exact div_pos_of_neg_of_neg hz (Real.log_neg hp (sabr_arg_lt h1 h2 hz))
    · exact div_pos hz (Real.log_pos (sabr_arg_gt h1 h2 hz))
  have hl0 : Real.log (sabrXArg r z) ≠ 0 := by
    intro h
    rw [h, div_zero] at hlog
    exact lt_irrefl _ hlog
  refine ⟨?_, hlog⟩
  unfold sabrRatio
  rw [if_neg (not_lt.2 (sabr_rad_nonneg h1 h2)), if_neg h2.ne, if_neg (not_lt.2 hp.le), if_neg hp.ne', if_neg hl0]
  rfl

/-- Away from the money the smile of valid parameters is Hagan's formula, and it is positive. -/
theorem C71_formula (tau F a b r v K shift : ℝ) (h : ValidSabr tau (F + shift) (K + shift) a b r v)
    (hoff : 1e-6 ≤ |Real.log ((F + shift) / (K + shift))|) :
    ∃ s, SabrVolIs tau F a b r v K shift s ∧ s = haganSmile tau (F + shift) (K + shift) a b r v ∧ 0 < s := by
  obtain ⟨hf, hk, ha, hv, h1, h2, ht⟩ := h
  have hfk : 0 < (F + shift) * (K + shift) := mul_pos hf hk
  have hp := Real.rpow_pos_of_pos hfk ((1 - b) / 2)
  have hl : Real.log ((F + shift) / (K + shift)) ≠ 0 := by
    intro h0
    rw [h0, abs_zero] at hoff
    norm_num at hoff
  have hz : sabrZ (F + shift) (K + shift) a b v ≠ 0 := by
    unfold sabrZ
    exact mul_ne_zero (mul_ne_zero (div_ne_zero hv.ne' ha.ne') hp.ne') hl
  obtain ⟨hq, hqp⟩ := sabr_ratio_pos h1 h2 hz
  refine ⟨haganSmile tau (F + shift) (K + shift) a b r v, ?_, rfl, ?_⟩
  · unfold SabrVolIs
    rw [calc_single]
    unfold sabrVol sabrRow
    simp only
    rw [if_pos hfk, if_neg (not_lt.2 hoff)]
    unfold sabrOff
    rw [if_neg ha.ne', hq, Option.map_some]
    congr 3
    unfold haganSmile sabrTimeFactor
    show _ = a / _ * (sabrZ (F + shift) (K + shift) a b v / haganX r (sabrZ (F + shift) (K + shift) a b v)) * _
    rw [show (0.25 : ℝ) = 1 / 4 by norm_num]
    generalize sabrZ (F + shift) (K + shift) a b v / haganX r (sabrZ (F + shift) (K + shift) a b v) = q
    have := hp.ne'
    congr 1
    · ring
    · field_simp
  · unfold haganSmile
    simp only
    refine mul_pos (mul_pos (div_pos ha (mul_pos hp ?_)) hqp) ht
    have := sq_nonneg (1 - b)
    positivity

/-- The smile does not depend on the unit: scaling forward, strike and shift by `c` and alpha by `c ** (1 - beta)` leaves it unchanged. -/
theorem C71_scaling (tau F a b r v K shift c s : ℝ) (hc : 0 < c) (ha : 0 < a) (h : SabrVolIs tau F a b r v K shift s) :
    SabrVolIs tau (c * F) (c ^ (1 - b) * a) b r v (c * K) (c * shift) s := by
  unfold SabrVolIs at *
  rw [calc_single] at *
  simp only [Except.ok.injEq, List.cons.injEq, and_true] at *
  rw [← h]
  unfold sabrVol sabrRow
  simp only
  rw [show c * F + c * shift = c * (F + shift) by ring, show c * K + c * shift = c * (K + shift) by ring]
  have hcc : c * (F + shift) * (c * (K + shift)) = c * c * ((F + shift) * (K + shift)) := by ring
  by_cases hpos : 0 < (F + shift) * (K + shift)
  · have hpos' : 0 < c * (F + shift) * (c * (K + shift)) := by rw [hcc]; positivity
    rw [if_pos hpos, if_pos hpos', mul_div_mul_left _ _ hc.ne']
    generalize F + shift = f at *
    generalize K + shift = k at *
    have hfk : 0 < f * k := hpos
    have e : c * f * (c * k) = (c * c) * (f * k) := by ring
    have hcb := Real.rpow_pos_of_pos hc (1 - b)
    have hp1 : (c * f * (c * k)) ^ ((1 - b) / 2) = c ^ (1 - b) * (f * k) ^ ((1 - b) / 2) := by
      rw [e, Real.mul_rpow (by positivity) hfk.le, (sabr_pows hc b).1]
    have hc2 : c ^ (2 - 2 * b) = c ^ (1 - b) * c ^ (1 - b) := by
      rw [← Real.rpow_add hc]
      congr 1
      ring
    have hp2 : (c * f * (c * k)) ^ (1 - b) = c ^ (1 - b) * c ^ (1 - b) * (f * k) ^ (1 - b) := by
      rw [e, Real.mul_rpow (by positivity) hfk.le, (sabr_pows hc b).2, hc2]
    have hq1 := (Real.rpow_pos_of_pos hfk ((1 - b) / 2)).ne'
    have hq2 := (Real.rpow_pos_of_pos hfk (1 - b)).ne'
    have hcn := hcb.ne'
    have ht : sabrTimeFactor tau (c * f) (c * k) (c ^ (1 - b) * a) b r v = sabrTimeFactor tau f k a b r v := by
      unfold sabrTimeFactor
      rw [hp1, hp2]
      field_simp
    by_cases hatm : |Real.log (f / k)| < 1e-06
    · rw [if_pos hatm, if_pos hatm]
      unfold sabrAtm
      rw [hp1, hp2]
      congr 1
      field_simp
    · rw [if_neg hatm, if_neg hatm]
      unfold sabrOff
      have hz : sabrZ (c * f) (c * k) (c ^ (1 - b) * a) b v = sabrZ f k a b v := by
        unfold sabrZ
        rw [hp1, mul_div_mul_left _ _ hc.ne']
        field_simp
      rw [if_neg ha.ne', if_neg (mul_pos hcb ha).ne', hz, ht, hp1, mul_div_mul_left _ _ hc.ne']
      congr 1
      funext q
      congr 1
      generalize 1 + (1 - b) ^ 2 / 24 * Real.log (f / k) ^ 2 + (1 - b) ^ 4 / 1920 * Real.log (f / k) ^ 4 = w
      by_cases hw : w = 0
      · rw [hw]; simp
      · field_simp
  · rw [if_neg hpos, if_neg]
    rw [hcc]
    exact fun h => hpos ((mul_pos_iff_of_pos_left (mul_pos hc hc)).1 h)

/-- With a zero volatility of volatility there is no volatility away from the money: the result is `nan`. -/
theorem C71_no_volvol (tau F a b r K shift : ℝ) (hoff : 1e-6 ≤ |Real.log ((F + shift) / (K + shift))|) (s : ℝ) :
    ¬ SabrVolIs tau F a b r 0 K shift s := by
  intro h
  unfold SabrVolIs at h
  rw [calc_single] at h
  simp only [Except.ok.injEq, List.cons.injEq, and_true] at h
  unfold sabrVol sabrRow at h
  simp only at h
  split at h
  · rw [if_neg (not_lt.2 hoff)] at h
    unfold sabrOff at h
    split at h
    · cases h
    · have hz : sabrZ (F + shift) (K + shift) a b 0 = 0 := by unfold sabrZ; simp
      rw [hz] at h
      have hr : sabrRatio r 0 = none := by
        unfold sabrRatio
        rw [if_neg (by norm_num)]
        by_cases h1 : r = 1
        · rw [if_pos h1, h1]
          norm_num
        · rw [if_neg h1]
          have h2 : 1 - r ≠ 0 := fun h => h1 (by linarith)
          have : sabrXArg r 0 = 1 := by
            unfold sabrXArg
            norm_num
            exact h2
          rw [this, if_neg (by norm_num), if_neg one_ne_zero, Real.log_one, if_pos rfl]
      rw [hr] at h
      cases h
  · cases h

theorem sabrUnpack_ok {override : Option ℝ} {x : List ℝ} {b r v : ℝ} (h : sabrUnpack override x = .ok (b, r, v)) :
    (∀ b', override = some b' → b = b') ∧ (override = none → x = [b, r, v]) ∧ (override ≠ none → x = [r, v]) := by
  unfold sabrUnpack at h
  split at h <;> simp_all

theorem sabrBox_bounds {override : Option ℝ} {x : List ℝ} {b r v : ℝ} (hx : InBox x (sabrBox override))
    (h : sabrUnpack override x = .ok (b, r, v)) :
    -1 ≤ r ∧ r ≤ 1 ∧ 0.0001 ≤ v ∧ (override = none → -1 ≤ b ∧ b ≤ 1) := by
  obtain ⟨h1, h2, h3⟩ := sabrUnpack_ok h
  cases override with
  | none =>
    rw [h2 rfl] at hx
    simp only [InBox, sabrBox, Option.isSome_none, Bool.false_eq_true, if_false, List.forall₂_cons, List.forall₂_nil_left_iff, and_true,
      Option.some.injEq, reduceCtorEq, false_implies, forall_const, forall_eq'] at hx
    norm_num at hx ⊢
    tauto
  | some b' =>
    rw [h3 (by simp)] at hx
    simp only [InBox, sabrBox, Option.isSome_some, if_true, List.forall₂_cons, List.forall₂_nil_left_iff, and_true,
      Option.some.injEq, reduceCtorEq, false_implies, forall_const, forall_eq'] at hx
    norm_num at hx ⊢
    tauto

/-- Calibration: it succeeds only when exactly one strike is close to the forward and the search succeeds; beta is the override when one is
given; and the smile of the calibrated parameters passes exactly through the volatility quoted for that strike at the forward. -/
theorem C71_fit (roots : List ℝ → List ℂ) (hr : ExactRoots roots)
    (minimise : BoxMinimiser) (tau F : ℝ) (quotes : List (ℝ × ℝ)) (shift : ℝ) (override : Option ℝ) (fit : SabrFit) (hF : 0 < F + shift) (hpos : ∀ q ∈ quotes, 0 < q.2)
    (h : fitSabr roots minimise tau F quotes shift override = .ok fit) :
    ∃ q, quotes.filter (fun q => |q.1 - F| ≤ 1e-8 + 1e-5 * |F|) = [q] ∧ (∀ b, override = some b → fit.beta = b) ∧
      SabrVolIs tau F fit.alpha fit.beta fit.rho fit.volvol F shift q.2 ∧
      ∃ x, minimise (sabrStart override) (sabrBox override)
        (fun x => (sabrUnpack override x).bind (fun p => sabrSse roots tau F quotes shift q.2 p.1 p.2.1 p.2.2)) = .ok (true, x) ∧
        (override = none → x = [fit.beta, fit.rho, fit.volvol]) ∧ (override ≠ none → x = [fit.rho, fit.volvol]) := by
  unfold fitSabr at h
  have hcl : (fun q : ℝ × ℝ => isClose q.1 F) = fun q => decide (|q.1 - F| ≤ 1e-8 + 1e-5 * |F|) := rfl
  rw [hcl] at h
  cases hq : quotes.filter (fun q => decide (|q.1 - F| ≤ 1e-8 + 1e-5 * |F|)) with
  | nil => rw [hq] at h; cases h
  | cons q rest =>
    cases rest with
    | cons q' rest => rw [hq] at h; cases h
    | nil =>
      rw [hq] at h
      simp only at h
      have hmem : q ∈ quotes := by
        have : q ∈ quotes.filter (fun q => decide (|q.1 - F| ≤ 1e-8 + 1e-5 * |F|)) := by rw [hq]; exact List.mem_singleton_self q
        exact (List.mem_filter.1 this).1
      cases hm : minimise (sabrStart override) (sabrBox override)
        (fun x => (sabrUnpack override x).bind (fun p => sabrSse roots tau F quotes shift q.2 p.1 p.2.1 p.2.2)) with
      | error e => rw [hm] at h; cases h
      | ok t =>
        obtain ⟨flag, x⟩ := t
        rw [hm] at h
        cases flag with
        | false => cases h
        | true =>
          simp only at h
          cases hu : sabrUnpack override x with
          | error e => rw [hu] at h; cases h
          | ok p =>
            obtain ⟨b, r, v⟩ := p
            rw [hu] at h
            simp only [Except.bind] at h
            cases hs : solveAlpha roots tau F b r v q.2 shift with
            | error e => rw [hs] at h; cases h
            | ok a =>
              rw [hs] at h
              cases h
              obtain ⟨u1, u2, u3⟩ := sabrUnpack_ok hu
              exact ⟨q, rfl, u1, (C56_consistent roots hr tau F b r v q.2 shift a hF (hpos q hmem) hs).1, x, hm, u2, u3⟩

/-- Without exactly one strike close to the forward, or when the search does not succeed, calibration raises `ValueError`. -/
theorem C71_fit_refuses (roots : List ℝ → List ℂ) (minimise : BoxMinimiser) (tau F : ℝ) (quotes : List (ℝ × ℝ)) (shift : ℝ) (override : Option ℝ)
    (h : (quotes.filter (fun q => |q.1 - F| ≤ 1e-8 + 1e-5 * |F|)).length ≠ 1 ∨ ∀ x0 box f, ∃ x, minimise x0 box f = .ok (false, x)) :
    fitSabr roots minimise tau F quotes shift override = .error .value := by
  unfold fitSabr
  have hcl : (fun q : ℝ × ℝ => isClose q.1 F) = fun q => decide (|q.1 - F| ≤ 1e-8 + 1e-5 * |F|) := rfl
  rw [hcl]
  cases hq : quotes.filter (fun q => decide (|q.1 - F| ≤ 1e-8 + 1e-5 * |F|)) with
  | nil => rfl
  | cons q rest =>
    cases rest with
    | cons q' rest => rfl
    | nil =>
      rcases h with h | h
      · rw [hq] at h
        exact absurd rfl h
      · obtain ⟨x, hx⟩ := h (sabrStart override) (sabrBox override)
          (fun x => (sabrUnpack override x).bind (fun p => sabrSse roots tau F quotes shift q.2 p.1 p.2.1 p.2.2))
        simp only [hx]

/-- The error function the search minimises is the sum of squared differences between quoted and SABR volatilities, with alpha solved from
the at-the-money quote. -/
theorem C71_objective (roots : List ℝ → List ℂ) (tau F : ℝ) (quotes : List (ℝ × ℝ)) (shift volAtm b r v a : ℝ)
    (ha : solveAlpha roots tau F b r v volAtm shift = .ok a) (vols : List ℝ)
    (hv : List.Forall₂ (fun q s => SabrVolIs tau F a b r v q.1 shift s) quotes vols) :
    sabrSse roots tau F quotes shift volAtm b r v = .ok (some ((List.zipWith (fun q s => (q.2 - s) ^ 2) quotes vols).sum)) := by
  unfold sabrSse
  rw [ha]
  simp only
  congr 1
  clear ha
  induction hv with
  | nil => simp
  | cons h hs ih =>
    rename_i q s qs ss
    unfold SabrVolIs at h
    rw [calc_single] at h
    simp only [Except.ok.injEq, List.cons.injEq, and_true] at h
    have h' : sabrVol shift ⟨tau, F, a, b, r, v, q.1⟩ = some s := h
    rw [List.map_cons, List.foldr_cons, ih, h', List.zipWith_cons_cons, List.sum_cons]
    rfl

/-- If the search keeps to its bounds, rho is between -1 and 1, volvol at least 0.0001 and, unless it is given, beta between -1 and 1. -/
theorem C71_fit_bounds (roots : List ℝ → List ℂ) (minimise : BoxMinimiser) (hbox : StaysInBox minimise) (tau F : ℝ) (quotes : List (ℝ × ℝ))
    (shift : ℝ) (override : Option ℝ) (fit : SabrFit) (h : fitSabr roots minimise tau F quotes shift override = .ok fit) :
    -1 ≤ fit.rho ∧ fit.rho ≤ 1 ∧ 0.0001 ≤ fit.volvol ∧ (override = none → -1 ≤ fit.beta ∧ fit.beta ≤ 1) := by
  unfold fitSabr at h
  split at h
  · split at h
    · cases h
    · cases h
    · rename_i x hm
      cases hu : sabrUnpack override x with
      | error e => rw [hu] at h; cases h
      | ok p =>
        obtain ⟨b, r, v⟩ := p
        rw [hu] at h
        simp only [Except.bind] at h
        obtain ⟨a, rfl⟩ : ∃ a, SabrFit.mk a b r v = fit := by
          revert h
          generalize solveAlpha roots tau F b r v _ shift = t
          intro h
          cases t with
          | error e => cases h
          | ok a => exact ⟨a, Except.ok.inj h⟩
        exact sabrBox_bounds (hbox _ _ _ _ hm) hu
  · cases h

theorem sabrSse_nonneg {roots : List ℝ → List ℂ} {tau F shift volAtm b r v e : ℝ} {quotes : List (ℝ × ℝ)}
    (h : sabrSse roots tau F quotes shift volAtm b r v = .ok (some e)) : 0 ≤ e := by
  unfold sabrSse at h
  split at h
  · cases h
  · rename_i a _
    simp only [Except.ok.injEq] at h
    clear * - h
    induction quotes generalizing e with
    | nil => simp at h; exact h.le
    | cons q quotes ih =>
      simp only [List.map_cons, List.foldr_cons] at h
      split at h
      · rename_i t acc ht hacc
        cases h
        have := ih hacc
        rcases Option.map_eq_some_iff.1 ht with ⟨s, -, rfl⟩
        positivity
      · cases h

/-- The search starts from no correlation, a volatility of volatility of 0.1 and, when beta is solved for, a beta of zero: a search that
stops where it starts returns these. -/
theorem C71_start (roots : List ℝ → List ℂ) (tau F shift : ℝ) (quotes : List (ℝ × ℝ)) (K volAtm : ℝ)
    (hatm : quotes.filter (fun q => |q.1 - F| ≤ 1e-8 + 1e-5 * |F|) = [(K, volAtm)]) :
    fitSabr roots (fun x0 _ _ => .ok (true, x0)) tau F quotes shift none =
      (solveAlpha roots tau F 0 0 (1 / 10) volAtm shift).map (fun a => ⟨a, 0, 0, 1 / 10⟩) ∧
    ∀ b, fitSabr roots (fun x0 _ _ => .ok (true, x0)) tau F quotes shift (some b) =
      (solveAlpha roots tau F b 0 (1 / 10) volAtm shift).map (fun a => ⟨a, b, 0, 1 / 10⟩) := by
  have hcl : (fun q : ℝ × ℝ => isClose q.1 F) = fun q => decide (|q.1 - F| ≤ 1e-8 + 1e-5 * |F|) := rfl
  have h1 : (0.0 : ℝ) = 0 := by norm_num
  have h2 : (0.1 : ℝ) = 1 / 10 := by norm_num
  have h3 : (0.00 : ℝ) = 0 := by norm_num
  have h4 : (0.10 : ℝ) = 1 / 10 := by norm_num
  constructor
  · unfold fitSabr
    rw [hcl, hatm]
    simp only [sabrStart, Option.isSome_none, Bool.false_eq_true, if_false, sabrUnpack, Except.bind, h1, h2]
  · intro b
    unfold fitSabr
    rw [hcl, hatm]
    simp only [sabrStart, Option.isSome_some, if_true, sabrUnpack, Except.bind, h3, h4]

/-- The ranges searched are exactly correlations between -1 and 1, volatilities of volatility from 0.0001 without a limit above and, when
beta is solved for, betas between -1 and 1: every point of them is the result of some search that stays within its bounds. -/
theorem C71_search_range (roots : List ℝ → List ℂ) (tau F shift : ℝ) (quotes : List (ℝ × ℝ)) (K volAtm a b r v : ℝ)
    (hatm : quotes.filter (fun q => |q.1 - F| ≤ 1e-8 + 1e-5 * |F|) = [(K, volAtm)]) (hrho : -1 ≤ r ∧ r ≤ 1) (hv : 0.0001 ≤ v)
    (ha : solveAlpha roots tau F b r v volAtm shift = .ok a) :
    (-1 ≤ b ∧ b ≤ 1 → ∃ minimise, StaysInBox minimise ∧ fitSabr roots minimise tau F quotes shift none = .ok ⟨a, b, r, v⟩) ∧
    ∃ minimise, StaysInBox minimise ∧ fitSabr roots minimise tau F quotes shift (some b) = .ok ⟨a, b, r, v⟩ := by
  have hcl : (fun q : ℝ × ℝ => isClose q.1 F) = fun q => decide (|q.1 - F| ≤ 1e-8 + 1e-5 * |F|) := rfl
  let m (x : List ℝ) : BoxMinimiser := fun _ box _ => if InBox x box then .ok (true, x) else .ok (false, [])
  have hm : ∀ x, StaysInBox (m x) := by
    intro x x0 box f y h
    by_cases hg : InBox x box
    · have : m x x0 box f = .ok (true, x) := if_pos hg
      rw [this] at h
      simp only [Except.ok.injEq, Prod.mk.injEq, true_and] at h
      exact h ▸ hg
    · have : m x x0 box f = .ok (false, []) := if_neg hg
      rw [this] at h
      simp at h
  constructor
  · intro hb
    refine ⟨m [b, r, v], hm _, ?_⟩
    have hbox : InBox [b, r, v] (sabrBox none) := by
      simp only [InBox, sabrBox, Option.isSome_none, Bool.false_eq_true, if_false, List.forall₂_cons, List.forall₂_nil_left_iff, and_true,
        Option.some.injEq, reduceCtorEq, false_implies, forall_const, forall_eq']
      norm_num at hv ⊢
      exact ⟨hb, hrho, hv⟩
    unfold fitSabr
    rw [hcl, hatm]
    simp only [m, if_pos hbox]
    simp [sabrUnpack, Except.bind, ha, Except.map]
  · refine ⟨m [r, v], hm _, ?_⟩
    have hbox : InBox [r, v] (sabrBox (some b)) := by
      simp only [InBox, sabrBox, Option.isSome_some, if_true, List.forall₂_cons, List.forall₂_nil_left_iff, and_true,
        Option.some.injEq, reduceCtorEq, false_implies, forall_const, forall_eq']
      norm_num at hv ⊢
      exact ⟨hrho, hv⟩
    unfold fitSabr
    rw [hcl, hatm]
    simp only [m, if_pos hbox]
    simp [sabrUnpack, Except.bind, ha, Except.map]

/-- The documented range of beta is not kept (`frm/pricing_engine/sabr.py:244`, 248): for a smile with a negative beta within the bounds,
a search that finds the smallest error within its bounds may return that beta. -/
theorem C71_beta_negative (roots : List ℝ → List ℂ) (tau F shift : ℝ) (quotes : List (ℝ × ℝ)) (a b r v volAtm : ℝ) (hb : -1 ≤ b ∧ b < 0)
    (hrho : -1 ≤ r ∧ r ≤ 1) (hv : 0.0001 ≤ v) (K : ℝ)
    (hatm : quotes.filter (fun q => |q.1 - F| ≤ 1e-8 + 1e-5 * |F|) = [(K, volAtm)])
    (ha : solveAlpha roots tau F b r v volAtm shift = .ok a) (hq : ∀ q ∈ quotes, SabrVolIs tau F a b r v q.1 shift q.2) :
    ∃ minimise, StaysInBox minimise ∧ FindsMinimum minimise ∧
      fitSabr roots minimise tau F quotes shift none = .ok ⟨a, b, r, v⟩ := by
  let good (box : List (ℝ × Option ℝ)) (f : List ℝ → Except Err (Option ℝ)) : Prop :=
    InBox [b, r, v] box ∧ ∃ e, f [b, r, v] = .ok (some e) ∧ ∀ y e', InBox y box → f y = .ok (some e') → e ≤ e'
  let m : BoxMinimiser := fun _ box f => if good box f then .ok (true, [b, r, v]) else .ok (false, [])
  have hm : ∀ x0 box f x, m x0 box f = .ok (true, x) → good box f ∧ x = [b, r, v] := by
    intro x0 box f x h
    by_cases hg : good box f
    · refine ⟨hg, ?_⟩
      have : m x0 box f = .ok (true, [b, r, v]) := if_pos hg
      rw [this] at h
      simpa using h.symm
    · have : m x0 box f = .ok (false, []) := if_neg hg
      rw [this] at h
      simp at h
  refine ⟨m, ?_, ?_, ?_⟩
  · intro x0 box f x h
    obtain ⟨hg, rfl⟩ := hm x0 box f x h
    exact hg.1
  · intro x0 box f x h
    obtain ⟨hg, rfl⟩ := hm x0 box f x h
    exact hg.2
  · have hcl : (fun q : ℝ × ℝ => isClose q.1 F) = fun q => decide (|q.1 - F| ≤ 1e-8 + 1e-5 * |F|) := rfl
    have hobj := C71_objective roots tau F quotes shift volAtm b r v a ha (quotes.map (·.2))
      (List.forall₂_map_right_iff.2 (List.forall₂_same.2 (fun q hqm => hq q hqm)))
    have hzero : (List.zipWith (fun (q : ℝ × ℝ) s => (q.2 - s) ^ 2) quotes (quotes.map (·.2))).sum = 0 := by
      rw [List.zipWith_map_right, List.zipWith_self]
      simp
    rw [hzero] at hobj
    have hgood : good (sabrBox none) (fun x => (sabrUnpack none x).bind (fun p => sabrSse roots tau F quotes shift volAtm p.1 p.2.1 p.2.2)) := by
      refine ⟨?_, 0, hobj, fun y e' _ hy => ?_⟩
      · simp only [InBox, sabrBox, Option.isSome_none, Bool.false_eq_true, if_false, List.forall₂_cons, List.forall₂_nil_left_iff, and_true,
          Option.some.injEq, reduceCtorEq, false_implies, forall_const, forall_eq']
        norm_num at hv ⊢
        exact ⟨⟨hb.1, by linarith⟩, hrho, hv⟩
      · change (sabrUnpack none y).bind _ = _ at hy
        cases hu : sabrUnpack none y with
        | error e => rw [hu] at hy; cases hy
        | ok p => rw [hu] at hy; exact sabrSse_nonneg hy
    have hres : m (sabrStart none) (sabrBox none)
        (fun x => (sabrUnpack none x).bind (fun p => sabrSse roots tau F quotes shift volAtm p.1 p.2.1 p.2.2)) = .ok (true, [b, r, v]) :=
      if_pos hgood
    unfold fitSabr
    rw [hcl, hatm]
    simp only [hres]
    simp [sabrUnpack, Except.bind, ha, Except.map]

/-- A smile with beta -1/2, quoted at two strikes. -/
example : ∃ roots a, ∃ quotes : List (ℝ × ℝ), ExactRoots roots ∧ solveAlpha roots 1 0.03 (-0.5) (-0.2) 0.3 0.25 0 = .ok a ∧ quotes.length = 2 ∧
    quotes.filter (fun q => |q.1 - 0.03| ≤ 1e-8 + 1e-5 * |0.03|) = [(0.03, 0.25)] ∧
    ∀ q ∈ quotes, SabrVolIs 1 0.03 a (-0.5) (-0.2) 0.3 q.1 0 q.2 := by
  obtain ⟨roots, hr⟩ := exactRoots_exists
  obtain ⟨a, ha⟩ := C56_exists_partial roots hr 1 0.03 (-0.5) (-0.2) 0.3 0.25 0 (by norm_num) (by norm_num) (by norm_num) (by norm_num)
  have hpos := C56_positive roots hr 1 0.03 (-0.5) (-0.2) 0.3 0.25 0 a (by norm_num) (by norm_num) (by norm_num) (by norm_num) (by norm_num) ha
  have hvalid : ValidSabr 1 (0.03 + 0) (0.04 + 0) a (-0.5) (-0.2) 0.3 := by
    refine ⟨by norm_num, by norm_num, hpos, by norm_num, by norm_num, by norm_num, ?_⟩
    have e : (-0.2 : ℝ) * -0.5 * 0.3 = 0.03 := by norm_num
    have h1 : (0 : ℝ) < ((0.03 + 0) * (0.04 + 0)) ^ ((1 : ℝ) - -0.5) := Real.rpow_pos_of_pos (by norm_num) _
    have h2 : (0 : ℝ) < ((0.03 + 0) * (0.04 + 0)) ^ (((1 : ℝ) - -0.5) / 2) := Real.rpow_pos_of_pos (by norm_num) _
    have h3 : (0 : ℝ) < (2 - 3 * (-0.2) ^ 2) / 24 * 0.3 ^ 2 := by norm_num
    rw [e]
    positivity
  have hoff : (1e-6 : ℝ) ≤ |Real.log ((0.03 + 0) / (0.04 + 0))| := by
    have := Real.log_le_sub_one_of_pos (show (0 : ℝ) < (0.03 + 0) / (0.04 + 0) by norm_num)
    have h75 : ((0.03 + 0) / (0.04 + 0) : ℝ) - 1 = -0.25 := by norm_num
    rw [h75] at this
    rw [abs_of_nonpos (this.trans (by norm_num))]
    linarith [show (1e-6 : ℝ) ≤ 0.25 by norm_num]
  obtain ⟨_, hs, rfl, -⟩ := C71_formula 1 0.03 a (-0.5) (-0.2) 0.3 0.04 0 hvalid hoff
  · refine ⟨roots, a, [(0.03, 0.25), (0.04, haganSmile 1 (0.03 + 0) (0.04 + 0) a (-0.5) (-0.2) 0.3)], hr, ha, rfl, ?_, ?_⟩
    · rw [List.filter_cons_of_pos (by norm_num), List.filter_cons_of_neg (by norm_num [abs_le])]
      rfl
    · intro q hq
      simp only [List.mem_cons, List.not_mem_nil, or_false] at hq
      rcases hq with rfl | rfl
      · exact (C56_consistent roots hr 1 0.03 (-0.5) (-0.2) 0.3 0.25 0 a (by norm_num) (by norm_num) ha).1
      · exact hs

/-- An ordinary smile away from the money. -/
example : ValidSabr 5 0.03 0.04 0.04 0.5 (-0.3) 0.4 := by
  refine ⟨by norm_num, by norm_num, by norm_num, by norm_num, by norm_num, by norm_num, ?_⟩
  have h1 : (0 : ℝ) < (0.03 * 0.04) ^ ((1 : ℝ) - 0.5) := Real.rpow_pos_of_pos (by norm_num) _
  have h2 : (0.04 : ℝ) ^ 1 ≤ (0.03 * 0.04) ^ (((1 : ℝ) - 0.5) / 2) := by
    have : (0.001 : ℝ) ^ (((1 : ℝ) - 0.5) / 2) ≤ (0.03 * 0.04) ^ (((1 : ℝ) - 0.5) / 2) :=
      Real.rpow_le_rpow (by norm_num) (by norm_num) (by norm_num)
    refine le_trans ?_ this
    rw [show ((1 : ℝ) - 0.5) / 2 = 1 / 4 by norm_num]
    refine le_of_pow_le_pow_left₀ (n := 4) (by norm_num) (Real.rpow_nonneg (by norm_num) _) ?_
    rw [← Real.rpow_natCast ((0.001 : ℝ) ^ (1 / 4 : ℝ)), ← Real.rpow_mul (by norm_num)]
    norm_num
  have h3 : (0 : ℝ) < (0.03 * 0.04) ^ (((1 : ℝ) - 0.5) / 2) := Real.rpow_pos_of_pos (by norm_num) _
  have h4 : -0.1 ≤ -0.3 * 0.5 * 0.4 * 0.04 / (4 * (0.03 * 0.04 : ℝ) ^ (((1 : ℝ) - 0.5) / 2)) := by
    rw [le_div_iff₀ (by positivity)]
    norm_num at h2 ⊢
    linarith
  have h5 : (0 : ℝ) ≤ (1 - 0.5) ^ 2 / 24 * 0.04 ^ 2 / (0.03 * 0.04) ^ ((1 : ℝ) - 0.5) := by positivity
  have h6 : (0 : ℝ) ≤ (2 - 3 * (-0.3) ^ 2) / 24 * 0.4 ^ 2 := by norm_num
  nlinarith

/-- A search that returns another number of parameters than it was given to start from raises `ValueError`. -/
theorem C71_wrong_number (roots : List ℝ → List ℂ) (tau F shift : ℝ) (quotes : List (ℝ × ℝ)) (K volAtm : ℝ) (x : List ℝ)
    (betaOverride : Option ℝ) (hx : x.length ≠ if betaOverride = none then 3 else 2)
    (hatm : quotes.filter (fun q => |q.1 - F| ≤ 1e-8 + 1e-5 * |F|) = [(K, volAtm)]) :
    fitSabr roots (fun _ _ _ => .ok (true, x)) tau F quotes shift betaOverride = .error .value := by
  have hcl : (fun q : ℝ × ℝ => isClose q.1 F) = fun q => decide (|q.1 - F| ≤ 1e-8 + 1e-5 * |F|) := rfl
  have hu : sabrUnpack betaOverride x = .error .value := by
    unfold sabrUnpack
    split
    · simp at hx
    · simp at hx
    · rfl
  unfold fitSabr
  rw [hcl, hatm]
  simp only [hu, Except.bind]

/-- There is a volatility only when the shifted forward and the shifted strike have the same sign. -/
theorem C71_same_sign (tau F a b r v K shift s : ℝ) (h : SabrVolIs tau F a b r v K shift s) : 0 < (F + shift) * (K + shift) := by
  unfold SabrVolIs at h
  rw [calc_single] at h
  simp only [Except.ok.injEq, List.cons.injEq, and_true] at h
  unfold sabrVol sabrRow at h
  simp only at h
  split at h
  · assumption
  · cases h

/-- Nothing refuses a shifted forward and strike that are both negative: the volatility is the one of their absolute values. -/
theorem C71_both_negative (tau F a b r v K shift s : ℝ) :
    SabrVolIs tau F a b r v K shift s ↔ SabrVolIs tau (-(F + shift) - shift) a b r v (-(K + shift) - shift) shift s := by
  unfold SabrVolIs
  rw [calc_single, calc_single]
  unfold sabrVol sabrRow
  simp only [sub_add_cancel]
  unfold sabrAtm sabrOff sabrZ sabrTimeFactor
  simp only [neg_mul_neg, neg_div_neg_eq]

/-- At a correlation of one, which the calibration may return, there is no smile away from the money: the volatility is zero where
`z` of formula (2.17) exceeds one and `nan` elsewhere. -/
theorem C71_correlation_one (tau F a b v K shift : ℝ) (hf : 0 < F + shift) (hk : 0 < K + shift) (ha : a ≠ 0)
    (hoff : 1e-6 ≤ |Real.log ((F + shift) / (K + shift))|) (z : ℝ)
    (hz : z = v / a * ((F + shift) * (K + shift)) ^ ((1 - b) / 2) * Real.log ((F + shift) / (K + shift))) :
    (1 < z → SabrVolIs tau F a b 1 v K shift 0) ∧
    (z ≤ 1 → calcSabrVols [(tau, F, a, b, 1, v)] [K] shift = .ok [none]) := by
  have hsq : 1 - 2 * 1 * z + z ^ 2 = (z - 1) ^ 2 := by ring
  have key : ∀ q, sabrRatio 1 z = q → sabrVol shift (sabrRow (tau, F, a, b, 1, v) K) = q.map (fun q =>
      a * q / (((F + shift) * (K + shift)) ^ ((1 - b) / 2) * (1 + (1 - b) ^ 2 / 24 * Real.log ((F + shift) / (K + shift)) ^ 2 +
        (1 - b) ^ 4 / 1920 * Real.log ((F + shift) / (K + shift)) ^ 4)) * sabrTimeFactor tau (F + shift) (K + shift) a b 1 v) := by
    intro q hq
    unfold sabrVol sabrRow
    simp only
    rw [if_pos (mul_pos hf hk), if_neg (not_lt.2 hoff)]
    unfold sabrOff
    rw [if_neg ha, show sabrZ (F + shift) (K + shift) a b v = z from hz.symm, hq]
  have hr : sabrRatio 1 z = if 0 < |z - 1| + z - 1 then some 0 else none := by
    unfold sabrRatio
    rw [hsq, if_neg (not_lt.2 (sq_nonneg _)), if_pos rfl, Real.sqrt_sq_eq_abs]
  constructor
  · intro h1
    rw [if_pos (by rw [abs_of_pos (by linarith)]; linarith)] at hr
    unfold SabrVolIs
    rw [calc_single, key _ hr]
    simp
  · intro h1
    rw [if_neg (by rw [abs_of_nonpos (by linarith)]; linarith)] at hr
    rw [calc_single, key _ hr]
    rfl

example : SabrVolIs 1 (Real.exp 1) 1 1 1 2 1 0 0 := by
  refine (C71_correlation_one 1 (Real.exp 1) 1 1 2 1 0 (by simpa using Real.exp_pos 1) (by norm_num) one_ne_zero ?_ _ rfl).1 ?_
  · norm_num
  · norm_num

end Frm.Props
