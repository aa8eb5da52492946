import Verif.Props.C74

/-!
# C74: for which swaptions the critical rate is found
-/

namespace Frm
namespace Spec

set_option autoImplicit false

/-- `brentq` as documented, on functions that return numbers within the bracket: `ValueError` on values of the same sign at the ends;
otherwise, if the function is continuous, a number within the bracket. -/
def SearchesBracket (brentq : Brentq) : Prop :=
  ∀ (a b : ℝ) (f : ℝ → Except Err ℝ) (y : ℝ → ℝ), a ≤ b → ContinuousOn y (Set.Icc a b) → (∀ x ∈ Set.Icc a b, f x = .ok (y x)) →
    (0 < y a * y b → brentq (a, b) f = .error .value) ∧
    (y a * y b ≤ 0 → ∃ r, brentq (a, b) f = .ok r ∧ a ≤ r ∧ r ≤ b)

/-- What the decomposition asks of a swap: as many year fractions as payment times, at least two of them, in increasing order and after the expiry,
and the notional not paid before the last coupon but one. -/
def ValidSwap (expiry : ℝ) (times fractions : List ℝ) (n : ℝ) : Prop :=
  times.length = fractions.length ∧ times.IsChain (· < ·) ∧ (∃ ts a b, times = ts ++ [a, b] ∧ a ≤ n) ∧ ∀ T ∈ n :: times, expiry < T

end Spec
end Frm

namespace Frm.Props
open Classical

set_option autoImplicit false

open Frm Frm.Spec

theorem isChain_zip (ts : List ℝ) : (¬ ∃ p ∈ ts.zip ts.tail, ¬ p.1 < p.2) ↔ ts.IsChain (· < ·) := by
  induction ts with
  | nil => simp
  | cons a ts ih =>
    cases ts with
    | nil => simp
    | cons b ts =>
      simp only [List.tail_cons, List.zip_cons_cons, List.mem_cons, not_exists, not_and, not_not, forall_eq_or_imp, List.isChain_cons_cons] at ih ⊢
      rw [← ih]

/-- On a valid swap the decomposition fails only where the search does. -/
theorem jamshidian_valid {brentq : Brentq} {m : HullWhite} {theta : ℝ → ℝ} {expiry : ℝ} {times fractions : List ℝ} {n c : ℝ}
    {P : ℝ → ℝ → ℝ} (hP : BondPrices m theta expiry (n :: times) P) (hs : ValidSwap expiry times fractions n) :
    jamshidian brentq m theta expiry times fractions n c =
      (brentq (-1, 1) (hwZero m theta expiry n c (times.zip fractions))).bind (fun r =>
        .ok ((times.map (fun T => P T r)) ++ (if times.getLast? = some n then [] else [P n r]))) := by
  obtain ⟨hlen, hch, ⟨ts, a, b, ht, hn⟩, -⟩ := hs
  unfold jamshidian
  rw [if_neg (not_not.2 hlen), if_neg ((isChain_zip _).2 hch), if_neg (by rw [ht]; simp), if_neg (by
    rw [ht]
    simp [List.getD_eq_getElem?_getD]
    exact hn)]
  cases brentq (-1, 1) (hwZero m theta expiry n c (times.zip fractions)) with
  | error e => rfl
  | ok r =>
    simp only [Except.bind]
    rw [mapM_ok_eq (g := fun T => P T r) times (fun T hT => hP T (List.mem_cons_of_mem _ hT) r)]
    simp only
    have hlast : times.getLast? = some b := by rw [ht]; simp
    have hlastD : times.getLastD 0 = b := by rw [ht]; simp
    rw [hlastD, hlast]
    by_cases hnb : n ≠ b
    · rw [if_pos hnb, hP n List.mem_cons_self, if_neg (fun hh => hnb (Option.some.inj hh).symm)]
    · rw [if_neg hnb, if_pos (by rw [not_not.1 hnb]), List.append_nil]

theorem fixedLeg_strictAnti {m : HullWhite} {theta : ℝ → ℝ} {expiry : ℝ} {times fractions : List ℝ} {n c : ℝ} {P : ℝ → ℝ → ℝ}
    (hP : BondPrices m theta expiry (n :: times) P) (he : expiry ≠ 0) (hc : 0 ≤ c) (hf : ∀ f ∈ fractions, 0 ≤ f) :
    StrictAnti (fun x => fixedLeg times fractions n c (fun T => P T x)) := by
  intro x y hxy
  unfold fixedLeg
  apply add_lt_add_of_lt_of_le
  · exact bond_strictAnti he (fun x => hP n List.mem_cons_self x) hxy
  · apply List.sum_le_sum
    intro p hp
    have hz := List.of_mem_zip hp
    exact mul_le_mul_of_nonneg_left
      ((bond_strictAnti he (fun x => hP p.1 (List.mem_cons_of_mem _ hz.1) x)).antitone hxy.le) (mul_nonneg hc (hf _ hz.2))

theorem bond_continuous {m : HullWhite} {theta : ℝ → ℝ} {e T : ℝ} {P : ℝ → ℝ} (he : e ≠ 0) (hlt : e < T)
    (hP : ∀ x, hwDiscount1 m theta e T (some x) = .ok (P x)) : Continuous P := by
  have : P = fun x => Real.exp ((0.5 * m.vol ^ 2 * (∫ s in e..T, hwB m.alpha s T ^ 2) -
      ∫ s in e..T, theta s * hwB m.alpha s T) - x * hwB m.alpha e T) := by
    funext x
    have := hP x
    rw [hwDiscount1_eq he hlt] at this
    exact (Except.ok.inj this).symm
  rw [this]
  fun_prop

theorem fixedLeg_continuous {m : HullWhite} {theta : ℝ → ℝ} {expiry : ℝ} {times fractions : List ℝ} {n c : ℝ} {P : ℝ → ℝ → ℝ}
    (hP : BondPrices m theta expiry (n :: times) P) (he : expiry ≠ 0) (hlt : ∀ T ∈ n :: times, expiry < T) :
    Continuous (fun x => fixedLeg times fractions n c (fun T => P T x)) := by
  have hT : ∀ T ∈ n :: times, Continuous (P T) := fun T hT => bond_continuous he (hlt T hT) (fun x => hP T hT x)
  unfold fixedLeg
  refine (hT n List.mem_cons_self).add ?_
  have : ∀ L : List (ℝ × ℝ), (∀ p ∈ L, p.1 ∈ times) → Continuous (fun x => (L.map (fun p => c * p.2 * P p.1 x)).sum) := by
    intro L
    induction L with
    | nil => intro _; simpa using continuous_const
    | cons p L ih =>
      intro h
      simp only [List.map_cons, List.sum_cons]
      exact (continuous_const.mul (hT _ (List.mem_cons_of_mem _ (h p List.mem_cons_self)))).add (ih fun q hq => h q (List.mem_cons_of_mem _ hq))
  exact this _ fun p hp => (List.of_mem_zip hp).1

/-- The search looks at short rates from -100% to 100%.  Rates and year fractions not negative and an expiry other than today: strikes are returned
exactly if the fixed leg is worth at least par at a short rate of -100% and at most par at 100%; otherwise `ValueError`. -/
theorem C74_found (brentq : Brentq) (hb : SearchesBracket brentq) (m : HullWhite) (theta : ℝ → ℝ) (expiry : ℝ) (times fractions : List ℝ)
    (n c : ℝ) (P : ℝ → ℝ → ℝ) (hP : BondPrices m theta expiry (n :: times) P) (hs : ValidSwap expiry times fractions n) (he : expiry ≠ 0)
    (hc : 0 ≤ c) (hf : ∀ f ∈ fractions, 0 ≤ f) :
    ((fixedLeg times fractions n c (fun T => P T 1) ≤ 1 ∧ 1 ≤ fixedLeg times fractions n c (fun T => P T (-1))) →
      ∃ ks, jamshidian brentq m theta expiry times fractions n c = .ok ks) ∧
    (¬ (fixedLeg times fractions n c (fun T => P T 1) ≤ 1 ∧ 1 ≤ fixedLeg times fractions n c (fun T => P T (-1))) →
      jamshidian brentq m theta expiry times fractions n c = .error .value) := by
  have hcont := fixedLeg_continuous (fractions := fractions) (c := c) hP he hs.2.2.2
  have hanti := fixedLeg_strictAnti hP he hc hf
  have hab : fixedLeg times fractions n c (fun T => P T 1) < fixedLeg times fractions n c (fun T => P T (-1)) := hanti (by norm_num)
  obtain ⟨h1, h2⟩ := hb (-1) 1 (hwZero m theta expiry n c (times.zip fractions)) (fun x => fixedLeg times fractions n c (fun T => P T x) - 1)
    (by norm_num) (hcont.sub continuous_const).continuousOn (fun x _ => hwZero_eq hP)
  rw [jamshidian_valid hP hs]
  constructor
  · rintro ⟨ha, hb'⟩
    obtain ⟨r, hr, -⟩ := h2 (mul_nonpos_of_nonneg_of_nonpos (by linarith) (by linarith))
    rw [hr]
    exact ⟨_, rfl⟩
  · intro hno
    rw [h1 ?_]
    · rfl
    · rcases not_and_or.1 hno with h | h
      · exact mul_pos (by linarith) (by linarith)
      · exact mul_pos_of_neg_of_neg (by linarith) (by linarith)

/-- With such a search the strikes are those of a short rate from -100% to 100%. -/
theorem C74_rate_range (brentq : Brentq) (hb : SearchesBracket brentq) (m : HullWhite) (theta : ℝ → ℝ) (expiry : ℝ) (times fractions : List ℝ)
    (n c : ℝ) (P : ℝ → ℝ → ℝ) (hP : BondPrices m theta expiry (n :: times) P) (hs : ValidSwap expiry times fractions n) (he : expiry ≠ 0)
    (ks : List ℝ) (h : jamshidian brentq m theta expiry times fractions n c = .ok ks) :
    ∃ r, -1 ≤ r ∧ r ≤ 1 ∧ ks = (times.map (fun T => P T r)) ++ (if times.getLast? = some n then [] else [P n r]) := by
  have hcont := fixedLeg_continuous (fractions := fractions) (c := c) hP he hs.2.2.2
  obtain ⟨h1, h2⟩ := hb (-1) 1 (hwZero m theta expiry n c (times.zip fractions)) (fun x => fixedLeg times fractions n c (fun T => P T x) - 1)
    (by norm_num) (hcont.sub continuous_const).continuousOn (fun x _ => hwZero_eq hP)
  rw [jamshidian_valid hP hs] at h
  rcases lt_or_ge 0 ((fixedLeg times fractions n c (fun T => P T (-1)) - 1) * (fixedLeg times fractions n c (fun T => P T 1) - 1)) with hp | hp
  · rw [h1 hp] at h
    cases h
  · obtain ⟨r, hr, hr1, hr2⟩ := h2 hp
    rw [hr] at h
    exact ⟨r, hr1, hr2, (Except.ok.inj h).symm⟩

/-- An expiry of today: the short rate is the model's, whatever the search tries, and unless the fixed leg is worth exactly par today the
decomposition raises `ValueError`. -/
theorem C74_expiry_today (brentq : Brentq) (hb : SearchesBracket brentq) (m : HullWhite) (theta : ℝ → ℝ) (times fractions : List ℝ)
    (n c : ℝ) (P : ℝ → ℝ → ℝ) (hP : BondPrices m theta 0 (n :: times) P) (hs : ValidSwap 0 times fractions n)
    (hne : fixedLeg times fractions n c (fun T => P T 0) ≠ 1) :
    jamshidian brentq m theta 0 times fractions n c = .error .value := by
  have hconst : ∀ T ∈ n :: times, ∀ x, P T x = P T 0 := by
    intro T hT x
    have h1 := hP T hT x
    have h2 := hP T hT 0
    unfold hwDiscount1 hwShortRate at h1 h2
    rw [if_neg (not_not.2 (hs.2.2.2 T hT))] at h1 h2
    simp only [if_true] at h1 h2
    rw [h1] at h2
    exact Except.ok.inj h2
  have hV : ∀ x, fixedLeg times fractions n c (fun T => P T x) = fixedLeg times fractions n c (fun T => P T 0) := by
    intro x
    unfold fixedLeg
    simp only
    rw [hconst n List.mem_cons_self x]
    congr 2
    apply List.map_congr_left
    intro p hp
    rw [hconst p.1 (List.mem_cons_of_mem _ (List.of_mem_zip hp).1) x]
  obtain ⟨h1, -⟩ := hb (-1) 1 (hwZero m theta 0 n c (times.zip fractions)) (fun x => fixedLeg times fractions n c (fun T => P T x) - 1)
    (by norm_num) (by simp only [hV]; exact continuousOn_const) (fun x _ => hwZero_eq hP)
  rw [jamshidian_valid hP hs, h1 ?_]
  · rfl
  · simp only [hV]
    exact mul_self_pos.2 (sub_ne_zero.2 hne)

/-- A search of the kind assumed, whose answers are roots too. -/
noncomputable def exactSearch : Brentq := fun ab f =>
  if ∃ u v, f ab.1 = .ok u ∧ f ab.2 = .ok v ∧ 0 < u * v then .error .value
  else if h : ∃ r, ab.1 ≤ r ∧ r ≤ ab.2 ∧ f r = .ok 0 then .ok h.choose else .error .runtime

theorem exactSearch_ok : SearchesBracket exactSearch ∧ FindsRoots exactSearch := by
  refine ⟨fun a b f y hab hy hf => ⟨fun h => ?_, fun h => ?_⟩, fun b f r h => ?_⟩
  · unfold exactSearch
    rw [if_pos ⟨_, _, hf a ⟨le_rfl, hab⟩, hf b ⟨hab, le_rfl⟩, h⟩]
  · have hno : ¬ ∃ u v, f a = .ok u ∧ f b = .ok v ∧ 0 < u * v := by
      rintro ⟨u, v, hu, hv, huv⟩
      rw [hf a ⟨le_rfl, hab⟩] at hu
      rw [hf b ⟨hab, le_rfl⟩] at hv
      cases hu
      cases hv
      linarith
    have hr : ∃ r, a ≤ r ∧ r ≤ b ∧ f r = .ok 0 := by
      rw [← Set.uIcc_of_le hab] at hy
      have : ∃ x ∈ Set.uIcc a b, y x = 0 := by
        rcases mul_nonpos_iff.1 h with ⟨h1, h2⟩ | ⟨h1, h2⟩
        · exact intermediate_value_uIcc hy (Set.mem_uIcc.2 (Or.inr ⟨h2, h1⟩))
        · exact intermediate_value_uIcc hy (Set.mem_uIcc.2 (Or.inl ⟨h1, h2⟩))
      obtain ⟨x, hx, hx0⟩ := this
      rw [Set.uIcc_of_le hab] at hx
      exact ⟨x, hx.1, hx.2, by rw [hf x hx, hx0]⟩
    unfold exactSearch
    rw [if_neg hno, dif_pos hr]
    exact ⟨_, rfl, hr.choose_spec.1, hr.choose_spec.2.1⟩
  · unfold exactSearch at h
    split at h
    · cases h
    · split at h
      · rename_i hr
        cases h
        exact hr.choose_spec.2.2
      · cases h

/-- A swap the decomposition accepts. -/
example : ValidSwap 1 [2, 3] [1, 1] 3 :=
  ⟨rfl, by simp; norm_num, ⟨[], 2, 3, rfl, by norm_num⟩, fun T hT => by
    simp only [List.mem_cons, List.not_mem_nil, or_false] at hT
    rcases hT with rfl | rfl | rfl <;> norm_num⟩

end Frm.Props
