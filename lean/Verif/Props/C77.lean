import Verif.Props.C62

/-!
# C77: COS option prices
-/

namespace Frm
namespace Spec

set_option autoImplicit false

/-- The first `N` terms of the cosine expansion, on the interval from `a` to `b`, of the density with characteristic function `phi`; the
first term counts half (Fang and Oosterlee 2008, equation 11). -/
noncomputable def cosineDensity (phi : ℝ → ℂ) (a b : ℝ) (N : Nat) (y : ℝ) : ℝ :=
  ∑ k ∈ Finset.range N, (if k = 0 then 1 / 2 else 1) *
    (2 / (b - a) * (phi (k * Real.pi / (b - a)) * Complex.exp (-(Complex.I * (k * Real.pi * a / (b - a))))).re) * cosine a b k y

/-- The characteristic function of the log of the spot over the strike, from that of the log of the spot over today's spot. -/
noncomputable def moneynessChf (chf : ℂ → ℂ) (S0 K : ℝ) (u : ℝ) : ℂ := Complex.exp (Complex.I * u * Real.log (S0 / K)) * chf u

/-- The discounted mean of a payoff of the spot, with the cosine density of the log-moneyness on the truncation interval. -/
noncomputable def cosineValue (phi : ℝ → ℂ) (a b : ℝ) (N : Nat) (discount K : ℝ) (payoff : ℝ → ℝ) : ℝ :=
  discount * ∫ y in a..b, payoff (K * Real.exp y) * cosineDensity phi a b N y

end Spec
end Frm

namespace Frm.Props
open Classical

set_option autoImplicit false

open Frm Frm.Spec

/-- The characteristic function of the model is the one the pricer evaluates. -/
noncomputable abbrev hestonMoneyness (h : Heston) (S0 tau r q K : ℝ) : ℝ → ℂ := moneynessChf (chfFang h tau r q) S0 K

theorem cosineDensity_eq (h : Heston) (S0 tau r q K a b : ℝ) (N : Nat) (y : ℝ) :
    cosineDensity (hestonMoneyness h S0 tau r q K) a b N y =
      ∑ k ∈ Finset.range N, cosFk h tau r q a b (Real.log (S0 / K)) k * (2 / (b - a) * cosine a b k y) := by
  unfold cosineDensity
  apply Finset.sum_congr rfl
  intro k _
  have e : moneynessChf (chfFang h tau r q) S0 K (k * Real.pi / (b - a)) * Complex.exp (-(Complex.I * (k * Real.pi * a / (b - a)))) =
      chfFang h tau r q ((k * Real.pi / (b - a) : ℝ) : ℂ) * Complex.exp (Complex.I * k * Real.pi * (Real.log (S0 / K) - a) / (b - a)) := by
    unfold moneynessChf
    rw [mul_comm (Complex.exp _), mul_assoc, ← Complex.exp_add]
    congr 2
    push_cast
    ring
  rw [e]
  unfold cosFk
  rw [show (0.5 : ℝ) = 1 / 2 by norm_num]
  ring

theorem payoff_scale (cp K y : ℝ) (hK : 0 < K) : optionPayoff cp K (K * Real.exp y) = K * optionPayoff cp 1 (Real.exp y) := by
  unfold optionPayoff
  rw [show cp * (K * Real.exp y - K) = K * (cp * (Real.exp y - 1)) by ring]
  rcases le_total 0 (cp * (Real.exp y - 1)) with h | h
  · rw [max_eq_right h, max_eq_right (mul_nonneg hK.le h)]
  · rw [max_eq_left h, max_eq_left (mul_nonpos_of_nonneg_of_nonpos hK.le h), mul_zero]

theorem value_series (h : Heston) (S0 tau r q K a b D : ℝ) (N : Nat) (g : ℝ → ℝ) (hg : Continuous g) :
    cosineValue (hestonMoneyness h S0 tau r q K) a b N D K g =
      D * ∑ k ∈ Finset.range N, cosFk h tau r q a b (Real.log (S0 / K)) k * cosineCoefficient a b k (fun y => g (K * Real.exp y)) := by
  unfold cosineValue cosineCoefficient
  simp only [cosineDensity_eq, Finset.mul_sum]
  rw [intervalIntegral.integral_finsetSum]
  · rw [Finset.mul_sum]
    apply Finset.sum_congr rfl
    intro k _
    congr 1
    rw [← mul_assoc, ← intervalIntegral.integral_const_mul]
    apply intervalIntegral.integral_congr
    intro y _
    simp only
    ring
  · intro k _
    apply Continuous.intervalIntegrable
    have := cosine_continuous a b k
    fun_prop

theorem optionPayoff_continuous (cp K : ℝ) : Continuous (optionPayoff cp K) := by
  unfold optionPayoff
  fun_prop

theorem coefficient_scale (a b : ℝ) (k : Nat) (cp K : ℝ) (hK : 0 < K) :
    cosineCoefficient a b k (fun y => optionPayoff cp K (K * Real.exp y)) =
      K * cosineCoefficient a b k (fun y => optionPayoff cp 1 (Real.exp y)) := by
  unfold cosineCoefficient
  simp only [payoff_scale cp K _ hK]
  rw [show K * (2 / (b - a) * ∫ y in a..b, optionPayoff cp 1 (Real.exp y) * cosine a b k y) =
    2 / (b - a) * (K * ∫ y in a..b, optionPayoff cp 1 (Real.exp y) * cosine a b k y) by ring]
  congr 1
  rw [← intervalIntegral.integral_const_mul]
  apply intervalIntegral.integral_congr
  intro y _
  simp only
  ring

theorem cosSum_eq (h : Heston) (S0 tau r q K a b : ℝ) (N : Nat) (call : Bool) (ha : a < 0) (hb : 0 < b) (hK : 0 < K) :
    cosSum h S0 tau r q K a b N call =
      cosineValue (hestonMoneyness h S0 tau r q K) a b N (Real.exp (-r * tau)) K (optionPayoff (if call then 1 else -1) K) := by
  rw [value_series _ _ _ _ _ _ _ _ _ _ _ (optionPayoff_continuous _ _)]
  unfold cosSum
  rw [mul_comm (K * _)]
  congr 1
  rw [Finset.mul_sum]
  apply Finset.sum_congr rfl
  intro k _
  rw [coefficient_scale a b k _ K hK]
  obtain ⟨h1, h2⟩ := C62_payoff_coefficients a b ha hb k
  cases call
  · rw [h2]; simp; ring
  · rw [h1]; simp; ring

/-- The default call: every put is the discounted mean of its payoff under the truncated cosine expansion of the log-moneyness, every call
follows from put-call parity, and any other flag gives `nan`. -/
theorem C77_price (h : Heston) (S0 tau r q L a b : ℝ) (cps Ks : List ℝ) (N : Nat) (hlen : cps.length = Ks.length)
    (hab : cosRange (.heston h (r - q) tau) L = .ok (a, b)) (ha : a < 0) (hb : 0 < b) (hK : ∀ K ∈ Ks, 0 < K) :
    ∃ prices, cosPrice h S0 tau r q cps Ks N L true = .ok prices ∧ prices.length = Ks.length ∧
      ∀ i (hi : i < Ks.length), ∀ put, put = cosineValue (hestonMoneyness h S0 tau r q Ks[i]) a b N (Real.exp (-r * tau)) Ks[i] (optionPayoff (-1) Ks[i]) →
        (cps[i]? = some (-1) → prices[i]? = some (some put)) ∧
        (cps[i]? = some 1 → prices[i]? = some (some (put + S0 * Real.exp (-q * tau) - Ks[i] * Real.exp (-r * tau)))) ∧
        (cps[i]? ≠ some 1 → cps[i]? ≠ some (-1) → prices[i]? = some none) := by
  unfold cosPrice
  rw [if_neg (by simpa using hlen), hab]
  simp only [if_true]
  refine ⟨_, rfl, by simp [hlen], ?_⟩
  intro i hi put hput
  have hi2 : i < cps.length := hlen ▸ hi
  have hz : (cps.zip Ks)[i]? = some (cps[i], Ks[i]) := by
    rw [List.getElem?_eq_getElem (by simp [hi, hi2]), List.getElem_zip]
  have e := cosSum_eq h S0 tau r q Ks[i] a b N false ha hb (hK _ (List.getElem_mem hi))
  simp only [Bool.false_eq_true, if_false] at e
  rw [← e] at hput
  simp only [List.getElem?_map, hz, Option.map_some, List.getElem?_eq_getElem hi2]
  refine ⟨fun h1 => ?_, fun h1 => ?_, fun h1 h2 => ?_⟩
  · have h1 := Option.some.inj h1
    rw [h1, if_neg (by norm_num), if_pos rfl, hput]
  · have h1 := Option.some.inj h1
    rw [h1, if_pos rfl, hput]
  · rw [if_neg (fun hh => h1 (by rw [hh])), if_neg (fun hh => h2 (by rw [hh]))]

/-- Without put-call parity both kinds are discounted means under the same expansion, provided both kinds are asked for. -/
theorem C77_direct_partial (h : Heston) (S0 tau r q L a b : ℝ) (cps Ks : List ℝ) (N : Nat) (hlen : cps.length = Ks.length)
    (hab : cosRange (.heston h (r - q) tau) L = .ok (a, b)) (ha : a < 0) (hb : 0 < b) (hK : ∀ K ∈ Ks, 0 < K)
    (hcall : (1 : ℝ) ∈ cps) (hput : (-1 : ℝ) ∈ cps) :
    ∃ prices, cosPrice h S0 tau r q cps Ks N L false = .ok prices ∧ prices.length = Ks.length ∧
      ∀ i (hi : i < Ks.length), ∀ cp, cps[i]? = some cp →
        prices[i]? = some (if cp = 1 ∨ cp = -1 then
          some (cosineValue (hestonMoneyness h S0 tau r q Ks[i]) a b N (Real.exp (-r * tau)) Ks[i] (optionPayoff cp Ks[i])) else none) := by
  unfold cosPrice
  rw [if_neg (by simpa using hlen), hab]
  simp only [Bool.false_eq_true, if_false]
  rw [if_neg (by tauto)]
  refine ⟨_, rfl, by simp [hlen], ?_⟩
  intro i hi cp hcp
  have hi2 : i < cps.length := hlen ▸ hi
  rw [List.getElem?_eq_getElem hi2] at hcp
  have hcp := Option.some.inj hcp
  have hz : (cps.zip Ks)[i]? = some (cp, Ks[i]) := by
    rw [List.getElem?_eq_getElem (by simp [hi, hi2]), List.getElem_zip, hcp]
  simp only [List.getElem?_map, hz, Option.map_some]
  have e1 := cosSum_eq h S0 tau r q Ks[i] a b N true ha hb (hK _ (List.getElem_mem hi))
  have e2 := cosSum_eq h S0 tau r q Ks[i] a b N false ha hb (hK _ (List.getElem_mem hi))
  simp only [if_true, Bool.false_eq_true, if_false] at e1 e2
  congr 1
  by_cases h1 : cp = 1
  · rw [if_pos h1, if_pos (Or.inl h1), e1, h1]
  · rw [if_neg h1]
    by_cases h2 : cp = -1
    · rw [if_pos h2, if_pos (Or.inr h2), e2, h2]
    · rw [if_neg h2, if_neg (by tauto)]

/-- The part that fails: without put-call parity, a request for calls only or puts only is refused. -/
theorem C77_one_sided (h : Heston) (S0 tau r q L : ℝ) (cps Ks : List ℝ) (N : Nat) (hlen : cps.length = Ks.length)
    (hone : (1 : ℝ) ∉ cps ∨ (-1 : ℝ) ∉ cps) : cosPrice h S0 tau r q cps Ks N L false = .error .name := by
  unfold cosPrice
  rw [if_neg (by simpa using hlen)]
  simp only [cosRange, Bool.false_eq_true, if_false]
  rw [if_pos hone]

/-- Lists of different lengths are refused. -/
theorem C77_refused (h : Heston) (S0 tau r q L : ℝ) (cps Ks : List ℝ) (N : Nat) (parity : Bool) (hlen : cps.length ≠ Ks.length) :
    cosPrice h S0 tau r q cps Ks N L parity = .error .assertion := by
  unfold cosPrice
  rw [if_pos hlen]

/-- Unless told otherwise 160 terms are summed, over a range of ten standard deviations, and calls come from puts by parity. -/
theorem C77_defaults (h : Heston) (S0 tau r q : ℝ) (cps Ks : List ℝ) :
    cosPrice h S0 tau r q cps Ks = cosPrice h S0 tau r q cps Ks 160 10 true := rfl

/-- Put-call parity of the default method, for every strike and whatever the truncation. -/
theorem C77_parity (h : Heston) (S0 tau r q L K : ℝ) (N : Nat) :
    ∃ call put, cosPrice h S0 tau r q [1, -1] [K, K] N L true = .ok [some call, some put] ∧
      call - put = S0 * Real.exp (-q * tau) - K * Real.exp (-r * tau) := by
  unfold cosPrice
  rw [if_neg (by simp)]
  simp only [cosRange, if_true, List.zip_cons_cons, List.zip_nil_right, List.map_cons, List.map_nil]
  rw [if_neg (by norm_num : ¬ (-1 : ℝ) = 1)]
  refine ⟨_, _, rfl, ?_⟩
  ring

/-- The prices computed without parity differ by the truncated expansion's own forward value. -/
theorem C77_direct_parity (h : Heston) (S0 tau r q L a b K : ℝ) (N : Nat)
    (hab : cosRange (.heston h (r - q) tau) L = .ok (a, b)) (ha : a < 0) (hb : 0 < b) (hK : 0 < K) :
    ∃ call put, cosPrice h S0 tau r q [1, -1] [K, K] N L false = .ok [some call, some put] ∧
      call - put = cosineValue (hestonMoneyness h S0 tau r q K) a b N (Real.exp (-r * tau)) K (fun S => S - K) := by
  obtain ⟨ps, h1, h2, h3⟩ := C77_direct_partial h S0 tau r q L a b [1, -1] [K, K] N rfl hab ha hb (by simp [hK]) (by simp) (by simp)
  have p0 := h3 0 (by simp) 1 (by simp)
  have p1 := h3 1 (by simp) (-1) (by simp)
  simp only [true_or, or_true, if_true, List.getElem_cons_zero, List.getElem_cons_succ] at p0 p1
  match ps, h2 with
  | [x, y], _ =>
    simp only [List.getElem?_cons_zero, List.getElem?_cons_succ, Option.some.injEq] at p0 p1
    refine ⟨_, _, by rw [h1, p0, p1], ?_⟩
    rw [value_series _ _ _ _ _ _ _ _ _ _ _ (optionPayoff_continuous _ _), value_series _ _ _ _ _ _ _ _ _ _ _ (optionPayoff_continuous _ _),
      value_series _ _ _ _ _ _ _ _ _ _ _ (by fun_prop), ← mul_sub, ← Finset.sum_sub_distrib]
    congr 1
    apply Finset.sum_congr rfl
    intro k _
    rw [← mul_sub]
    congr 1
    unfold cosineCoefficient
    rw [← mul_sub, ← intervalIntegral.integral_sub]
    · congr 1
      apply intervalIntegral.integral_congr
      intro y _
      simp only [optionPayoff]
      rw [← sub_mul]
      congr 1
      rcases le_total K (K * Real.exp y) with hh | hh
      · rw [max_eq_right (by linarith), max_eq_left (by linarith)]; ring
      · rw [max_eq_left (by linarith), max_eq_right (by linarith)]; ring
    all_goals
      apply Continuous.intervalIntegrable
      have := cosine_continuous a b k
      unfold optionPayoff
      fun_prop

/-- A truncation interval that straddles zero: any wide enough interval for a model without drift. -/
example : ∃ h : Heston, ∃ L a b : ℝ, cosRange (.heston h (0 - 0) 1) L = .ok (a, b) ∧ a < 0 ∧ 0 < b := by
  refine ⟨⟨0.04, 0, 1, 0.04, 0⟩, 10, _, _, rfl, ?_, ?_⟩
  all_goals
    have e : |(hestonCumulants ⟨0.04, 0, 1, 0.04, 0⟩ (0 - 0) 1).2| + Real.sqrt |(0 : ℝ)| = 0.04 := by
      unfold hestonCumulants; norm_num
    have e1 : (hestonCumulants ⟨0.04, 0, 1, 0.04, 0⟩ (0 - 0) 1).1 = -0.02 := by
      unfold hestonCumulants; norm_num
    have e2 : Real.sqrt 0.04 = 0.2 := by
      rw [show (0.04 : ℝ) = 0.2 ^ 2 by norm_num]; exact Real.sqrt_sq (by norm_num)
    rw [e, e1, e2]
    norm_num

end Frm.Props
