import Verif.Proofs.Hw1f
import Verif.Props.C72

/-!
# C61: Hull–White bond function and bond-option parity
-/

namespace Frm
namespace Spec

set_option autoImplicit false

/-- The bond function of a mean-reverting rate: what a unit of the short rate adds up to over `d` years when it decays at `a`. -/
noncomputable def decayedTime (a d : ℝ) : ℝ := ∫ u in (0 : ℝ)..d, Real.exp (-a * u)

/-- `X` is the price of the bond option given expiry, maturity, strike and flag. -/
def HwPriced (m : HullWhite) (T S K cp X : ℝ) : Prop := priceZeroCouponBondOption m [T] [S] [K] [cp] 0 = .ok [some X]

/-- A model with positive parameters and an option before expiry, on a bond maturing later, with a positive strike. -/
def HwRegular (m : HullWhite) (T S K cp : ℝ) : Prop :=
  1e-8 ≤ m.alpha ∧ 0 < m.vol ∧ 0 < T ∧ T < S ∧ 0 < K ∧ 0 < m.discount T ∧ 0 < m.discount S ∧ (cp = 1 ∨ cp = -1)

/-- The variance of the logarithm of the forward bond price until expiry `T`: the square of the difference of the volatilities of the
bonds maturing at `S` and at `T`, integrated over time. -/
noncomputable def bondVariance (m : HullWhite) (T S : ℝ) : ℝ :=
  ∫ t in (0 : ℝ)..T, (m.vol * (decayedTime m.alpha (S - t) - decayedTime m.alpha (T - t))) ^ 2

end Spec
end Frm

namespace Frm.Props
open Classical MeasureTheory Set Filter Topology ProbabilityTheory

set_option autoImplicit false

open Frm Frm.Spec

/-! ## The bond function -/

/-- `calc_b` is the decayed time, for a mean reversion of at least 1e-8 and for none.  Missing: negative and very small mean
reversions, where it is not (`C61_b_small`, `C61_b_negative`). -/
theorem C61_b_partial (a t1 t2 : ℝ) (ha : 1e-8 ≤ a ∨ a = 0) : hwB a t1 t2 = decayedTime a (t2 - t1) := by
  unfold decayedTime
  rcases ha with ha | rfl
  · rw [integral_exp_neg (alpha_pos ha).ne', hwB_eq ha]
  · rw [hwB_small (by norm_num)]; simp

example : (1e-8 : ℝ) ≤ 0.05 := by norm_num

theorem decayedTime_eq {a d : ℝ} (ha : a ≠ 0) : decayedTime a d = (1 - Real.exp (-a * d)) / a := integral_exp_neg ha

/-- The closed form. -/
theorem C61_b_formula (a t1 t2 : ℝ) (ha : 1e-8 ≤ a) : hwB a t1 t2 = (1 - Real.exp (-a * (t2 - t1))) / a := hwB_eq ha

/-- Whatever the mean reversion, `calc_b` is zero on an empty horizon, grows with the horizon and never exceeds it. -/
theorem C61_b_bounds (a t1 : ℝ) : hwB a t1 t1 = 0 ∧ StrictMono (hwB a t1) ∧
    ∀ t2, t1 ≤ t2 → 0 ≤ hwB a t1 t2 ∧ hwB a t1 t2 ≤ t2 - t1 := by
  refine ⟨hwB_self a t1, hwB_strictMono a t1, fun t2 h => ⟨?_, hwB_le⟩⟩
  rcases h.eq_or_lt with rfl | h
  · rw [hwB_self]
  · exact (hwB_pos h).le

/-- It only depends on the length of the horizon. -/
theorem C61_b_horizon (a t1 t2 s : ℝ) : hwB a (t1 + s) (t2 + s) = hwB a t1 t2 := by
  unfold hwB
  rw [show t2 + s - (t1 + s) = t2 - t1 by ring]

/-- It tends to the horizon as the mean reversion tends to zero. -/
theorem C61_b_limit (t1 t2 : ℝ) : Tendsto (fun a => hwB a t1 t2) (𝓝 0) (𝓝 (t2 - t1)) := by
  refine tendsto_const_nhds.congr' ?_
  filter_upwards [gt_mem_nhds (show (0 : ℝ) < 1e-8 by norm_num)] with a ha
  exact (hwB_small ha).symm

theorem exp_neg_upper {x : ℝ} (hx : 0 ≤ x) : Real.exp (-x) ≤ 1 - x + x ^ 2 / 2 := by
  have h : MonotoneOn (fun x : ℝ => 1 - x + x ^ 2 / 2 - Real.exp (-x)) (Ici 0) := by
    apply monotoneOn_of_deriv_nonneg (convex_Ici 0) (by fun_prop) (by fun_prop)
    intro y hy
    have hd : HasDerivAt (fun x : ℝ => 1 - x + x ^ 2 / 2 - Real.exp (-x)) (-1 + y + Real.exp (-y)) y := by
      have h1 : HasDerivAt (fun x : ℝ => Real.exp (-x)) (-Real.exp (-y)) y := by
        simpa using (hasDerivAt_neg y).exp
      have h2 : HasDerivAt (fun x : ℝ => 1 - x + x ^ 2 / 2) (-1 + y) y := by
        refine (((hasDerivAt_id y).const_sub 1).add (((hasDerivAt_id y).pow 2).div_const 2)).congr_deriv ?_
        simp
      exact (h2.sub h1).congr_deriv (by ring)
    rw [hd.deriv]
    have := Real.add_one_le_exp (-y)
    linarith
  have := h (mem_Ici.2 le_rfl) (mem_Ici.2 hx) hx
  simp at this
  linarith

/-- For a positive mean reversion below 1e-8 the horizon itself is returned: too large by at most `a d² / 2`. -/
theorem C61_b_small (a t1 t2 : ℝ) (h0 : 0 < a) (h1 : a < 1e-8) (h : t1 ≤ t2) :
    hwB a t1 t2 = t2 - t1 ∧ decayedTime a (t2 - t1) ≤ hwB a t1 t2 ∧
    hwB a t1 t2 - decayedTime a (t2 - t1) ≤ a * (t2 - t1) ^ 2 / 2 := by
  have hb : hwB a t1 t2 = t2 - t1 := hwB_small h1
  have hd : 0 ≤ t2 - t1 := by linarith
  refine ⟨hb, ?_, ?_⟩
  · rw [hb, decayedTime_eq h0.ne', div_le_iff₀ h0]
    have := Real.add_one_le_exp (-a * (t2 - t1))
    linarith
  · rw [hb, decayedTime_eq h0.ne']
    have := exp_neg_upper (mul_nonneg h0.le hd)
    rw [sub_le_iff_le_add, ← sub_le_iff_le_add', le_div_iff₀ h0]
    rw [neg_mul]
    nlinarith

/-- For a negative mean reversion it is strictly too small. -/
theorem C61_b_negative (a t1 t2 : ℝ) (h0 : a < 0) (h : t1 < t2) : hwB a t1 t2 = t2 - t1 ∧ hwB a t1 t2 < decayedTime a (t2 - t1) := by
  have hb : hwB a t1 t2 = t2 - t1 := hwB_small (lt_trans h0 (by norm_num))
  refine ⟨hb, ?_⟩
  rw [hb, decayedTime_eq h0.ne, lt_div_iff_of_neg h0]
  have := Real.add_one_lt_exp (x := -a * (t2 - t1)) (mul_pos (neg_pos.2 h0) (sub_pos.2 h)).ne'
  linarith

/-! ## Bond options -/

theorem hwPriced_iff (m : HullWhite) (T S K cp X : ℝ) : HwPriced m T S K cp X ↔ hwBondOption m T S K cp = some X := by
  have e : priceZeroCouponBondOption m [T] [S] [K] [cp] 0 = .ok [hwBondOption m T S K cp] := by
    unfold priceZeroCouponBondOption
    simp [bcastAt]
  unfold HwPriced
  rw [e]
  simp

/-- Each element of the result is the price of its own option: arguments of size one are repeated. -/
theorem C61_elementwise (m : HullWhite) (Ts Ss Ks cps : List ℝ) (t0 : ℝ) (out : List (Option ℝ))
    (h : priceZeroCouponBondOption m Ts Ss Ks cps t0 = .ok out) :
    t0 = 0 ∧ (∀ xs ∈ [Ts, Ss, Ks, cps], xs.length = 1 ∨ xs.length = out.length) ∧
    ∀ i, i < out.length → ∀ T S K cp, (Ts[i]? = some T ∨ Ts = [T]) → (Ss[i]? = some S ∨ Ss = [S]) → (Ks[i]? = some K ∨ Ks = [K]) →
      (cps[i]? = some cp ∨ cps = [cp]) → ∃ v, out[i]? = some v ∧ priceZeroCouponBondOption m [T] [S] [K] [cp] 0 = .ok [v] := by
  unfold priceZeroCouponBondOption at h
  simp only at h
  split at h
  · cases h
  rename_i h1
  split at h
  · cases h
  rename_i h2
  split at h
  · cases h
  rename_i h3
  cases h
  refine ⟨not_not.1 h2, ?_, ?_⟩
  · intro xs hx
    simp only [List.length_map, List.length_range]
    by_contra hc
    exact h1 ⟨xs, hx, hc⟩
  · intro i hi T S K cp hT hS hK hc
    rw [List.length_map, List.length_range] at hi
    have hb : ∀ (xs : List ℝ) (x : ℝ), (xs[i]? = some x ∨ xs = [x]) → bcastAt xs i = x := by
      intro xs x hx
      unfold bcastAt
      rcases hx with hx | rfl
      · split
        · rename_i hl
          obtain ⟨a, rfl⟩ := List.length_eq_one_iff.1 hl
          cases i with
          | zero => simpa using hx
          | succ i => simp at hx
        · rw [List.getD_eq_getElem?_getD, hx]; rfl
      · simp
    refine ⟨hwBondOption m T S K cp, ?_, ?_⟩
    · rw [List.getElem?_map, List.getElem?_range hi]
      simp only [Option.map_some]
      rw [hb _ _ hT, hb _ _ hS, hb _ _ hK, hb _ _ hc]
    · unfold priceZeroCouponBondOption
      simp [bcastAt]

/-- When it raises: arguments whose sizes are neither one nor the largest; a valuation time other than zero; and, although the sizes
are compatible, several strikes or flags for one expiry and one maturity. -/
theorem C61_raises (m : HullWhite) (Ts Ss Ks cps : List ℝ) (t0 : ℝ) :
    (∃ out, priceZeroCouponBondOption m Ts Ss Ks cps t0 = .ok out) ↔
      (∃ n, (∀ xs ∈ [Ts, Ss, Ks, cps], (xs.length = 1 ∨ xs.length = n) ∧ xs.length ≤ n) ∧ (Ts.length = n ∨ Ss.length = n)) ∧ t0 = 0 := by
  unfold priceZeroCouponBondOption
  simp only
  constructor
  · rintro ⟨out, h⟩
    split at h
    · cases h
    rename_i h1
    split at h
    · cases h
    rename_i h2
    split at h
    · cases h
    rename_i h3
    refine ⟨⟨max (max Ts.length Ss.length) (max Ks.length cps.length), ?_, ?_⟩, not_not.1 h2⟩
    · intro xs hx
      refine ⟨?_, ?_⟩
      · by_contra hc
        exact h1 ⟨xs, hx, hc⟩
      · simp only [List.mem_cons, List.not_mem_nil, or_false] at hx
        rcases hx with rfl | rfl | rfl | rfl <;> simp
    · rw [← not_not.1 h3]
      rcases le_total Ts.length Ss.length with h | h
      · right; rw [max_eq_right h]
      · left; rw [max_eq_left h]
  · rintro ⟨⟨n, hn, hts⟩, rfl⟩
    simp only [List.mem_cons, List.not_mem_nil, or_false, forall_eq_or_imp, forall_eq] at hn
    obtain ⟨a, b, c, d⟩ := hn
    have hne : ¬ ∃ xs ∈ [Ts, Ss, Ks, cps], ¬ (xs.length = 1 ∨ xs.length = max (max Ts.length Ss.length) (max Ks.length cps.length)) := by
      rintro ⟨xs, hx, hc⟩
      simp only [List.mem_cons, List.not_mem_nil, or_false] at hx
      rcases hx with rfl | rfl | rfl | rfl <;> omega
    have hm : ¬ max Ts.length Ss.length ≠ max (max Ts.length Ss.length) (max Ks.length cps.length) := by omega
    rw [if_neg hne, if_neg (by simp), if_neg hm]
    exact ⟨_, rfl⟩

/-- Several strikes for one expiry and one maturity are refused with an index error. -/
theorem C61_strikes_refused (m : HullWhite) (T S cp : ℝ) (Ks : List ℝ) (h : 1 < Ks.length) :
    priceZeroCouponBondOption m [T] [S] Ks [cp] 0 = .error .index := by
  unfold priceZeroCouponBondOption
  have hmx : max (max [T].length [S].length) (max Ks.length [cp].length) = Ks.length := by
    show max (max 1 1) (max Ks.length 1) = Ks.length
    rw [max_self, max_eq_left h.le, max_eq_right h.le]
  have hne : ¬ ∃ xs ∈ [[T], [S], Ks, [cp]], ¬ (xs.length = 1 ∨ xs.length = max (max [T].length [S].length) (max Ks.length [cp].length)) := by
    rintro ⟨xs, hx, hc⟩
    rw [hmx] at hc
    simp only [List.mem_cons, List.not_mem_nil, or_false] at hx
    rcases hx with rfl | rfl | rfl | rfl <;> simp at hc
  have hm : max [T].length [S].length ≠ max (max [T].length [S].length) (max Ks.length [cp].length) := by
    rw [hmx]
    show max 1 1 ≠ Ks.length
    rw [max_self]
    omega
  rw [if_neg hne, if_neg (by simp), if_pos hm]

example : (1 : Nat) < [0.9, 0.95].length := by decide

theorem hwSigmaP_eq {m : HullWhite} {T S K cp : ℝ} (h : HwRegular m T S K cp) :
    hwSigmaP m T S = some (m.vol * Real.sqrt ((1 - Real.exp (-2 * m.alpha * T)) / (2 * m.alpha)) * hwB m.alpha T S) ∧
    0 < m.vol * Real.sqrt ((1 - Real.exp (-2 * m.alpha * T)) / (2 * m.alpha)) * hwB m.alpha T S := by
  obtain ⟨ha, hv, hT, hTS, hK, hPT, hPS, hcp⟩ := h
  have hp := alpha_pos ha
  have hq : 0 < (1 - Real.exp (-2 * m.alpha * T)) / (2 * m.alpha) := by
    apply div_pos _ (by linarith)
    have : Real.exp (-2 * m.alpha * T) < 1 := by rw [Real.exp_lt_one_iff]; nlinarith
    linarith
  constructor
  · unfold hwSigmaP Npf.divide
    rw [if_pos (by linarith : (2 * m.alpha) ≠ 0)]
    unfold Npf.sqrt
    simp only
    rw [if_pos hq.le]
  · exact mul_pos (mul_pos hv (Real.sqrt_pos.2 hq)) (hwB_pos hTS)

/-- The total variance used by the formula is the integral of the squared difference of the bonds' volatilities. -/
theorem C61_variance (m : HullWhite) (T S : ℝ) (ha : 1e-8 ≤ m.alpha) (hT : 0 ≤ T) :
    ∃ s, hwSigmaP m T S = some s ∧ s ^ 2 = bondVariance m T S := by
  have hp := alpha_pos ha
  have hq : 0 ≤ (1 - Real.exp (-2 * m.alpha * T)) / (2 * m.alpha) := by
    apply div_nonneg _ (by linarith)
    have : Real.exp (-2 * m.alpha * T) ≤ 1 := by rw [Real.exp_le_one_iff]; nlinarith
    linarith
  refine ⟨m.vol * Real.sqrt ((1 - Real.exp (-2 * m.alpha * T)) / (2 * m.alpha)) * hwB m.alpha T S, ?_, ?_⟩
  · unfold hwSigmaP Npf.divide
    rw [if_pos (by linarith : (2 * m.alpha) ≠ 0)]
    unfold Npf.sqrt
    simp only
    rw [if_pos hq]
  · rw [mul_pow, mul_pow, Real.sq_sqrt hq]
    unfold bondVariance
    have e : ∀ t : ℝ, (m.vol * (decayedTime m.alpha (S - t) - decayedTime m.alpha (T - t))) ^ 2 =
        m.vol ^ 2 * hwB m.alpha T S ^ 2 * Real.exp (-(2 * m.alpha) * (T - t)) := by
      intro t
      rw [decayedTime_eq hp.ne', decayedTime_eq hp.ne', hwB_eq ha]
      have e1 : Real.exp (-m.alpha * (S - t)) = Real.exp (-m.alpha * (S - T)) * Real.exp (-m.alpha * (T - t)) := by
        rw [← Real.exp_add]; congr 1; ring
      have e2 : Real.exp (-(2 * m.alpha) * (T - t)) = Real.exp (-m.alpha * (T - t)) ^ 2 := by
        rw [← Real.exp_nat_mul]; congr 1; push_cast; ring
      rw [e1, e2]
      field_simp
      ring
    simp only [e]
    rw [intervalIntegral.integral_const_mul, intervalIntegral.integral_comp_sub_left (fun u => Real.exp (-(2 * m.alpha) * u)) T]
    simp only [sub_self, sub_zero]
    rw [integral_exp_neg (by linarith)]
    rw [show -(2 * m.alpha) * T = -2 * m.alpha * T by ring]
    ring

theorem hwBondOption_black {m : HullWhite} {T S K cp : ℝ} (h : HwRegular m T S K cp) :
    ∃ s, 0 < s ∧ hwSigmaP m T S = some s ∧ hwBondOption m T S K cp = some (blackF cp (m.discount S) (K * m.discount T) s) := by
  obtain ⟨hs, hpos⟩ := hwSigmaP_eq h
  obtain ⟨ha, hv, hT, hTS, hK, hPT, hPS, hcp⟩ := h
  refine ⟨_, hpos, hs, ?_⟩
  generalize m.vol * Real.sqrt ((1 - Real.exp (-2 * m.alpha * T)) / (2 * m.alpha)) * hwB m.alpha T S = s at hs hpos
  have hKP : 0 < K * m.discount T := mul_pos hK hPT
  have hh : hwH m T S K s = .fin (bD1 (m.discount S) (K * m.discount T) s) := by
    unfold hwH Npf.divide
    rw [if_pos hKP.ne']
    unfold Npf.log
    simp only
    rw [if_pos (div_pos hPS hKP)]
    unfold Npf.over Npf.divide
    simp only
    rw [if_pos hpos.ne']
    unfold Npf.plus bD1
    simp only
    congr 1
    ring
  unfold hwBondOption
  rw [if_neg (by linarith), hs]
  simp only
  rw [if_neg (not_le.2 hpos), hh]
  show some (cp * (m.discount S * normCdf (cp * bD1 _ _ s) - K * m.discount T * normCdf (cp * (bD1 _ _ s + -s)))) = _
  unfold blackF bD2
  rw [sub_eq_add_neg (bD1 _ _ _)]

/-- The price of a regular option is the discounted mean payoff on a lognormal forward bond price with the total variance above. -/
theorem C61_expected (m : HullWhite) (T S K cp : ℝ) (h : HwRegular m T S K cp) :
    HwPriced m T S K cp (m.discount T * normalMean (fun z => optionPayoff cp K
      (m.discount S / m.discount T * Real.exp (Real.sqrt (bondVariance m T S) * z - bondVariance m T S / 2)))) := by
  obtain ⟨s, hs, hsig, hb⟩ := hwBondOption_black h
  obtain ⟨s', hs', hv⟩ := C61_variance m T S h.1 h.2.2.1.le
  rw [hsig] at hs'
  cases hs'
  rw [hwPriced_iff, hb]
  obtain ⟨ha, _, hT, hTS, hK, hPT, hPS, hcp⟩ := h
  rw [← black_expect hPS (mul_pos hK hPT) hs hcp, ← hv, Real.sqrt_sq hs.le]
  unfold normalMean optionPayoff
  rw [← integral_const_mul]
  congr 2
  funext z
  rw [mul_max_of_nonneg _ _ hPT.le, mul_zero]
  congr 1
  field_simp

/-- Put–call parity for regular options.  Missing: options without volatility and on bonds maturing at the expiry, for which it fails
(`C61_zero_vol`, `C61_same_date`). -/
theorem C61_parity_partial (m : HullWhite) (T S K c p : ℝ) (h : HwRegular m T S K 1) (hc : HwPriced m T S K 1 c)
    (hp : HwPriced m T S K (-1) p) : c - p = m.discount S - K * m.discount T := by
  rw [hwPriced_iff] at hc hp
  obtain ⟨s, _, hs, e⟩ := hwBondOption_black h
  have h' : HwRegular m T S K (-1) := ⟨h.1, h.2.1, h.2.2.1, h.2.2.2.1, h.2.2.2.2.1, h.2.2.2.2.2.1, h.2.2.2.2.2.2.1, Or.inr rfl⟩
  obtain ⟨s', _, hs', e'⟩ := hwBondOption_black h'
  rw [hs] at hs'
  cases hs'
  rw [e] at hc
  rw [e'] at hp
  cases hc
  cases hp
  exact black_parity _ _ _

/-- A regular option has one price, worth more than its discounted intrinsic value; a call is worth less than the bond and a put less
than the discounted strike. -/
theorem C61_bounds (m : HullWhite) (T S K cp : ℝ) (h : HwRegular m T S K cp) :
    ∃! X, HwPriced m T S K cp X ∧ 0 < X ∧ cp * (m.discount S - K * m.discount T) < X ∧
      (cp = 1 → X < m.discount S) ∧ (cp = -1 → X < K * m.discount T) := by
  obtain ⟨s, hs, hsig, e⟩ := hwBondOption_black h
  obtain ⟨ha, _, hT, hTS, hK, hPT, hPS, hcp⟩ := h
  have hb := black_bounds hPS (mul_pos hK hPT) hs hcp
  refine ⟨_, ⟨(hwPriced_iff ..).2 e, lt_of_le_of_lt (le_max_left _ _) hb.1, lt_of_le_of_lt (le_max_right _ _) hb.1, ?_, ?_⟩, ?_⟩
  · rintro rfl; simpa using hb.2
  · rintro rfl
    have := hb.2
    norm_num at this
    exact this
  · intro y hy
    have := (hwPriced_iff ..).1 hy.1
    rw [e] at this
    cases this
    rfl

/-- Prices are never negative. -/
theorem C61_nonneg (m : HullWhite) (T S K cp X : ℝ) (ha : 1e-8 ≤ m.alpha) (hK : 0 < K) (hPT : 0 < m.discount T) (hPS : 0 < m.discount S)
    (hcp : cp = 1 ∨ cp = -1) (hX : HwPriced m T S K cp X) : 0 ≤ X := by
  rw [hwPriced_iff] at hX
  by_cases hST : S < T
  · unfold hwBondOption at hX
    rw [if_pos hST] at hX
    cases hX
    exact le_rfl
  by_cases hreg : HwRegular m T S K cp
  · obtain ⟨Y, hY, _⟩ := C61_bounds m T S K cp hreg
    have := (hwPriced_iff ..).1 hY.1
    rw [hX] at this
    cases this
    exact hY.2.1.le
  · unfold hwBondOption at hX
    rw [if_neg hST] at hX
    cases hs : hwSigmaP m T S with
    | none => rw [hs] at hX; cases hX
    | some s =>
      rw [hs] at hX
      simp only at hX
      by_cases h0 : s ≤ 0
      · rw [if_pos h0] at hX
        cases hX
        exact le_max_right _ _
      · exfalso
        have hp := alpha_pos ha
        unfold hwSigmaP Npf.divide at hs
        rw [if_pos (by linarith : (2 * m.alpha) ≠ 0)] at hs
        unfold Npf.sqrt at hs
        simp only at hs
        by_cases hq : 0 ≤ (1 - Real.exp (-2 * m.alpha * T)) / (2 * m.alpha)
        · rw [if_pos hq] at hs
          simp only [Option.some.injEq] at hs
          have hspos : 0 < s := not_le.1 h0
          have hTS : T < S := by
            rcases (not_lt.1 hST).eq_or_lt with rfl | h
            · rw [hwB_self, mul_zero] at hs; linarith
            · exact h
          have hb := hwB_pos (a := m.alpha) hTS
          have hT : 0 < T := by
            have h1 : Real.sqrt ((1 - Real.exp (-2 * m.alpha * T)) / (2 * m.alpha)) ≠ 0 := by
              intro hz; rw [hz] at hs; simp at hs; linarith
            have h2 : 0 < (1 - Real.exp (-2 * m.alpha * T)) / (2 * m.alpha) := by
              rcases hq.eq_or_lt with h | h
              · rw [← h] at h1; simp at h1
              · exact h
            have h3 : 0 < 1 - Real.exp (-2 * m.alpha * T) := by
              have := mul_pos h2 (by linarith : 0 < 2 * m.alpha)
              rwa [div_mul_cancel₀ _ (by linarith)] at this
            have h4 : Real.exp (-2 * m.alpha * T) < 1 := by linarith
            rw [Real.exp_lt_one_iff] at h4
            by_contra hT
            push Not at hT
            nlinarith
          have hv : 0 < m.vol := by
            rw [← hs] at hspos
            by_contra hv
            push Not at hv
            have : m.vol * Real.sqrt ((1 - Real.exp (-2 * m.alpha * T)) / (2 * m.alpha)) * hwB m.alpha T S ≤ 0 :=
              mul_nonpos_of_nonpos_of_nonneg (mul_nonpos_of_nonpos_of_nonneg hv (Real.sqrt_nonneg _)) hb.le
            linarith
          exact hreg ⟨ha, hv, hT, hTS, hK, hPT, hPS, hcp⟩
        · rw [if_neg hq] at hs
          cases hs

/-- Without volatility the price is the intrinsic value at expiry, not discounted. -/
theorem C61_zero_vol (m : HullWhite) (T S K cp : ℝ) (ha : 1e-8 ≤ m.alpha) (hv : m.vol = 0) (hT : 0 ≤ T) (hTS : T ≤ S) :
    HwPriced m T S K cp (max 0 (cp * (m.discount S / m.discount T - K))) := by
  obtain ⟨s, hs, hsq⟩ := C61_variance m T S ha hT
  have h0 : s = 0 := by
    have : bondVariance m T S = 0 := by unfold bondVariance; rw [hv]; simp
    rw [this] at hsq
    exact pow_eq_zero_iff two_ne_zero |>.1 hsq
  rw [hwPriced_iff]
  unfold hwBondOption
  rw [if_neg (not_lt.2 hTS), hs]
  simp only
  rw [if_pos h0.le, max_comm]

/-- So is an option on a bond maturing at the expiry. -/
theorem C61_same_date (m : HullWhite) (T K cp : ℝ) (ha : 1e-8 ≤ m.alpha) (hT : 0 ≤ T) (hP : 0 < m.discount T) :
    HwPriced m T T K cp (max 0 (cp * (1 - K))) := by
  obtain ⟨s, hs, hsq⟩ := C61_variance m T T ha hT
  have h0 : s = 0 := by
    have : bondVariance m T T = 0 := by unfold bondVariance; simp
    rw [this] at hsq
    exact pow_eq_zero_iff two_ne_zero |>.1 hsq
  rw [hwPriced_iff]
  unfold hwBondOption
  rw [if_neg (lt_irrefl _), hs]
  simp only
  rw [if_pos h0.le, max_comm, div_self hP.ne']

/-- Hence parity fails without volatility unless the discount factor to the expiry is one or the strike is the forward price. -/
theorem C61_zero_vol_parity (m : HullWhite) (T S K c p : ℝ) (ha : 1e-8 ≤ m.alpha) (hv : m.vol = 0) (hT : 0 ≤ T) (hTS : T ≤ S)
    (hP : 0 < m.discount T) (hc : HwPriced m T S K 1 c) (hp : HwPriced m T S K (-1) p) :
    c - p = m.discount S - K * m.discount T ↔ m.discount T = 1 ∨ K = m.discount S / m.discount T := by
  have h1 := C61_zero_vol m T S K 1 ha hv hT hTS
  have h2 := C61_zero_vol m T S K (-1) ha hv hT hTS
  rw [hwPriced_iff] at hc hp h1 h2
  rw [hc] at h1
  rw [hp] at h2
  cases h1
  cases h2
  have e : max 0 (1 * (m.discount S / m.discount T - K)) - max 0 (-1 * (m.discount S / m.discount T - K)) = m.discount S / m.discount T - K := by
    rcases le_total 0 (m.discount S / m.discount T - K) with h | h
    · rw [max_eq_right (by linarith), max_eq_left (by linarith)]; ring
    · rw [max_eq_left (by linarith), max_eq_right (by linarith)]; ring
  rw [e]
  have e2 : m.discount S - K * m.discount T = (m.discount S / m.discount T - K) * m.discount T := by field_simp
  rw [e2]
  constructor
  · intro h
    by_cases hk : K = m.discount S / m.discount T
    · exact Or.inr hk
    · left
      have hne : m.discount S / m.discount T - K ≠ 0 := fun h0 => hk (by linarith)
      have : (m.discount S / m.discount T - K) * 1 = (m.discount S / m.discount T - K) * m.discount T := by linarith
      exact (mul_left_cancel₀ hne this).symm
  · rintro (h | h)
    · rw [h, mul_one]
    · rw [h]; ring

/-- An option expiring after the bond's maturity is worth nothing. -/
theorem C61_matured (m : HullWhite) (T S K cp : ℝ) (h : S < T) : HwPriced m T S K cp 0 := by
  rw [hwPriced_iff]
  unfold hwBondOption
  rw [if_pos h]

/-- Without mean reversion no price is a number, although `calc_b` has a value. -/
theorem C61_no_reversion (m : HullWhite) (T S K cp : ℝ) (ha : m.alpha = 0) (hTS : T ≤ S) :
    priceZeroCouponBondOption m [T] [S] [K] [cp] 0 = .ok [none] := by
  have e : priceZeroCouponBondOption m [T] [S] [K] [cp] 0 = .ok [hwBondOption m T S K cp] := by
    unfold priceZeroCouponBondOption
    simp [bcastAt]
  have hs : hwSigmaP m T S = none := by
    unfold hwSigmaP Npf.divide
    rw [ha]
    simp [Npf.sqrt]
  rw [e]
  unfold hwBondOption
  rw [if_neg (not_lt.2 hTS), hs]

/-- A curve flat at 3%, a mean reversion of 5% and a volatility of 1%: a regular option. -/
noncomputable def flatHw : HullWhite := ⟨fun t => Real.exp (-0.03 * t), fun _ => 0.03, 0.05, 0.01, 0.03⟩

example : HwRegular flatHw 1 2 0.95 (-1) := by
  refine ⟨?_, ?_, ?_, ?_, ?_, Real.exp_pos _, Real.exp_pos _, Or.inr rfl⟩ <;> norm_num [flatHw]

end Frm.Props
