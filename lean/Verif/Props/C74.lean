import Verif.Props.C73

/-!
# C74: Jamshidian's decomposition
-/

namespace Frm
namespace Spec

set_option autoImplicit false

/-- The root finder's answers are roots. -/
def FindsRoots (brentq : Brentq) : Prop := ∀ b f r, brentq b f = .ok r → f r = .ok 0

/-- `P T x` is the model's price, at the swaption's expiry and when the short rate is `x` then, of the bond maturing at any of the
times `Ts`. -/
def BondPrices (m : HullWhite) (theta : ℝ → ℝ) (expiry : ℝ) (Ts : List ℝ) (P : ℝ → ℝ → ℝ) : Prop :=
  ∀ T ∈ Ts, ∀ x, hwDiscount1 m theta expiry T (some x) = .ok (P T x)

/-- The value of the fixed leg of a swap, notional included, when bonds are worth `P`. -/
noncomputable def fixedLeg (times fractions : List ℝ) (notionalTime fixedRate : ℝ) (P : ℝ → ℝ) : ℝ :=
  P notionalTime + ((times.zip fractions).map (fun p => fixedRate * p.2 * P p.1)).sum

end Spec
end Frm

namespace Frm.Props
open Classical

set_option autoImplicit false

open Frm Frm.Spec

example : ∃ brentq, FindsRoots brentq := ⟨fun _ _ => .error .value, fun _ _ _ h => by cases h⟩

/-- A root finder that finds a root whenever there is one. -/
example : ∃ brentq : Brentq, FindsRoots brentq ∧ ∀ b f, (∃ r, f r = .ok 0) → ∃ r, brentq b f = .ok r := by
  refine ⟨fun _ f => if h : ∃ r, f r = .ok 0 then .ok h.choose else .error .value, ?_, ?_⟩
  · intro b f r h
    simp only at h
    by_cases hr : ∃ r, f r = .ok 0
    · rw [dif_pos hr] at h
      cases h
      exact hr.choose_spec
    · rw [dif_neg hr] at h
      cases h
  · intro b f hr
    exact ⟨_, dif_pos hr⟩

theorem hwCoupons_eq {m : HullWhite} {theta : ℝ → ℝ} {e c x : ℝ} {P : ℝ → ℝ → ℝ} (L : List (ℝ × ℝ))
    (hP : ∀ p ∈ L, hwDiscount1 m theta e p.1 (some x) = .ok (P p.1 x)) :
    hwCoupons m theta e c x L = .ok ((L.map (fun p => c * p.2 * P p.1 x)).sum) := by
  induction L with
  | nil => rfl
  | cons p L ih =>
    obtain ⟨T, f⟩ := p
    rw [hwCoupons, hP _ (List.mem_cons_self)]
    simp only
    rw [ih (fun q hq => hP q (List.mem_cons_of_mem _ hq))]
    simp

theorem hwZero_eq {m : HullWhite} {theta : ℝ → ℝ} {e n c x : ℝ} {times fractions : List ℝ} {P : ℝ → ℝ → ℝ}
    (hP : BondPrices m theta e (n :: times) P) :
    hwZero m theta e n c (times.zip fractions) x = .ok (fixedLeg times fractions n c (fun T => P T x) - 1) := by
  unfold hwZero
  rw [hP n List.mem_cons_self]
  simp only
  rw [hwCoupons_eq (P := P)]
  · rfl
  · intro p hp
    exact hP p.1 (List.mem_cons_of_mem _ (List.of_mem_zip hp).1) x

theorem mapM_ok_eq {f : ℝ → Except Err ℝ} {g : ℝ → ℝ} (ts : List ℝ) (h : ∀ t ∈ ts, f t = .ok (g t)) :
    ts.mapM f = .ok (ts.map g) := by
  induction ts with
  | nil => rfl
  | cons t ts ih =>
    rw [List.mapM_cons, h t List.mem_cons_self, ih (fun s hs => h s (List.mem_cons_of_mem _ hs))]
    rfl

/-- What the decomposition returns: at one short rate at which the fixed leg is worth par, the price of the bond maturing at each
coupon, followed by that of the notional's bond unless the notional is paid with the last coupon. -/
theorem C74_strikes (brentq : Brentq) (hb : FindsRoots brentq) (m : HullWhite) (theta : ℝ → ℝ) (expiry : ℝ) (times fractions : List ℝ)
    (n c : ℝ) (ks : List ℝ) (P : ℝ → ℝ → ℝ) (hP : BondPrices m theta expiry (n :: times) P)
    (h : jamshidian brentq m theta expiry times fractions n c = .ok ks) :
    ∃ r, fixedLeg times fractions n c (fun T => P T r) = 1 ∧
      ks = (times.map (fun T => P T r)) ++ (if times.getLast? = some n then [] else [P n r]) := by
  unfold jamshidian at h
  split at h
  · cases h
  split at h
  · cases h
  split at h
  · cases h
  rename_i hlen
  split at h
  · cases h
  cases hr : brentq (-1, 1) (hwZero m theta expiry n c (times.zip fractions)) with
  | error e => rw [hr] at h; cases h
  | ok r =>
    rw [hr] at h
    simp only at h
    have hz := hb _ _ _ hr
    rw [hwZero_eq hP] at hz
    rw [mapM_ok_eq (g := fun T => P T r) times (fun T hT => hP T (List.mem_cons_of_mem _ hT) r)] at h
    simp only at h
    have hne : times ≠ [] := by rintro rfl; simp at hlen
    have hlast : times.getLast? = some (times.getLastD 0) := by
      rw [List.getLast?_eq_some_getLast hne, List.getLastD_eq_getLast?, List.getLast?_eq_some_getLast hne]
      rfl
    refine ⟨r, by have := Except.ok.inj hz; linarith, ?_⟩
    by_cases hn : n ≠ times.getLastD 0
    · rw [if_pos hn, hP n List.mem_cons_self] at h
      rw [if_neg (by rw [hlast]; exact fun hh => hn (Option.some.inj hh).symm)]
      exact (Except.ok.inj h).symm
    · rw [if_neg hn] at h
      rw [if_pos (by rw [hlast, not_not.1 hn]), List.append_nil]
      exact (Except.ok.inj h).symm

theorem bond_strictAnti {m : HullWhite} {theta : ℝ → ℝ} {e T : ℝ} {P : ℝ → ℝ} (he : e ≠ 0)
    (hP : ∀ x, hwDiscount1 m theta e T (some x) = .ok (P x)) : StrictAnti P := by
  have hlt : e < T := by
    by_contra hc
    have := hP 0
    unfold hwDiscount1 at this
    rw [if_pos hc] at this
    cases this
  intro x y hxy
  have hx := hP x
  have hy := hP y
  rw [hwDiscount1_eq he hlt] at hx hy
  rw [← Except.ok.inj hx, ← Except.ok.inj hy]
  apply Real.exp_lt_exp.2
  have := hwB_pos (a := m.alpha) hlt
  nlinarith

theorem payoff_split {cp a b : ℝ} {L : List (ℝ × ℝ × ℝ)} (hs : (0 ≤ cp * a ∧ ∀ q ∈ L, 0 ≤ q.1 ∧ 0 ≤ cp * (q.2.1 - q.2.2)) ∨
    (cp * a ≤ 0 ∧ ∀ q ∈ L, 0 ≤ q.1 ∧ cp * (q.2.1 - q.2.2) ≤ 0)) (hab : b = a + (L.map (fun q => q.1 * (q.2.1 - q.2.2))).sum) :
    max 0 (cp * b) = max 0 (cp * a) + (L.map (fun q => q.1 * max 0 (cp * (q.2.1 - q.2.2)))).sum := by
  subst hab
  rw [mul_add, ← List.sum_map_mul_left]
  rcases hs with ⟨ha, hL⟩ | ⟨ha, hL⟩
  · have e : (L.map (fun q => q.1 * max 0 (cp * (q.2.1 - q.2.2)))) = L.map (fun q => cp * (q.1 * (q.2.1 - q.2.2))) := by
      apply List.map_congr_left
      intro q hq
      rw [max_eq_right (hL q hq).2]; ring
    have hpos : 0 ≤ (L.map (fun q => cp * (q.1 * (q.2.1 - q.2.2)))).sum := by
      apply List.sum_nonneg
      intro y hy
      obtain ⟨q, hq, rfl⟩ := List.mem_map.1 hy
      have := mul_nonneg (hL q hq).1 (hL q hq).2
      linarith [show cp * (q.1 * (q.2.1 - q.2.2)) = q.1 * (cp * (q.2.1 - q.2.2)) by ring]
    rw [e, max_eq_right ha, max_eq_right (add_nonneg ha hpos)]
  · have e : (L.map (fun q => q.1 * max 0 (cp * (q.2.1 - q.2.2)))) = L.map (fun _ => (0 : ℝ)) := by
      apply List.map_congr_left
      intro q hq
      rw [max_eq_left (hL q hq).2, mul_zero]
    have hneg : (L.map (fun q => cp * (q.1 * (q.2.1 - q.2.2)))).sum ≤ 0 := by
      have : ∀ M : List ℝ, (∀ y ∈ M, y ≤ 0) → M.sum ≤ 0 := by
        intro M
        induction M with
        | nil => simp
        | cons y M ih =>
          intro hM
          have := hM y List.mem_cons_self
          have := ih (fun z hz => hM z (List.mem_cons_of_mem _ hz))
          rw [List.sum_cons]; linarith
      apply this
      intro y hy
      obtain ⟨q, hq, rfl⟩ := List.mem_map.1 hy
      have := mul_nonpos_of_nonneg_of_nonpos (hL q hq).1 (hL q hq).2
      linarith [show cp * (q.1 * (q.2.1 - q.2.2)) = q.1 * (cp * (q.2.1 - q.2.2)) by ring]
    rw [e, max_eq_left ha, max_eq_left (by linarith)]
    simp

/-- Jamshidian's decomposition: whatever the short rate at expiry, what the option on the fixed leg struck at par pays is the sum of
what the options on the single bonds pay, struck at the prices returned: the last one for the notional, the others in the order of the
coupons.  For calls (receivers) and puts (payers), rates and year fractions not negative, and an expiry other than today. -/
theorem C74_decomposition (brentq : Brentq) (hb : FindsRoots brentq) (m : HullWhite) (theta : ℝ → ℝ) (expiry : ℝ)
    (times fractions : List ℝ) (n c : ℝ) (ks : List ℝ) (P : ℝ → ℝ → ℝ) (hP : BondPrices m theta expiry (n :: times) P)
    (h : jamshidian brentq m theta expiry times fractions n c = .ok ks) (he : expiry ≠ 0) (hc : 0 ≤ c) (hf : ∀ f ∈ fractions, 0 ≤ f)
    (cp : ℝ) (hcp : cp = 1 ∨ cp = -1) (x : ℝ) :
    ∃ kn, ks.getLast? = some kn ∧
      optionPayoff cp 1 (fixedLeg times fractions n c (fun T => P T x)) =
        optionPayoff cp kn (P n x) +
        (((times.zip fractions).zip ks).map (fun q => c * q.1.2 * optionPayoff cp q.2 (P q.1.1 x))).sum := by
  have hlen : times ≠ [] := by
    rintro rfl
    unfold jamshidian at h
    simp only [List.length_nil] at h
    split at h
    · cases h
    split at h
    · cases h
    simp at h
  obtain ⟨r, hr, hk⟩ := C74_strikes brentq hb m theta expiry times fractions n c ks P hP h
  have hanti : ∀ T ∈ n :: times, StrictAnti (P T) := fun T hT => bond_strictAnti he (fun x => hP T hT x)
  refine ⟨P n r, ?_, ?_⟩
  · rw [hk]
    by_cases hl : times.getLast? = some n
    · rw [if_pos hl, List.append_nil, List.getLast?_map, hl]; rfl
    · rw [if_neg hl, List.getLast?_append]; simp
  · have hzip : (times.zip fractions).zip ks = (times.zip fractions).map (fun p => (p, P p.1 r)) := by
      rw [hk]
      generalize (if times.getLast? = some n then [] else [P n r]) = tl
      clear hk hr h hf hlen hP hanti
      induction times generalizing fractions with
      | nil => simp
      | cons t ts ih =>
        cases fractions with
        | nil => simp
        | cons f fs =>
          simp only [List.zip_cons_cons, List.map_cons, List.cons_append]
          rw [ih]
    rw [hzip, List.map_map]
    set L : List (ℝ × ℝ × ℝ) := (times.zip fractions).map (fun p => (c * p.2, P p.1 x, P p.1 r)) with hL
    have key := payoff_split (cp := cp) (a := P n x - P n r) (b := fixedLeg times fractions n c (fun T => P T x) - 1) (L := L) ?_ ?_
    · unfold optionPayoff
      rw [key, hL, List.map_map]
      rfl
    · have hmem : ∀ q ∈ L, ∃ T f, q = (c * f, P T x, P T r) ∧ T ∈ n :: times ∧ 0 ≤ c * f := by
        intro q hq
        obtain ⟨p, hp, rfl⟩ := List.mem_map.1 hq
        exact ⟨p.1, p.2, rfl, List.mem_cons_of_mem _ (List.of_mem_zip hp).1, mul_nonneg hc (hf _ (List.of_mem_zip hp).2)⟩
      have hup : x ≤ r → ∀ T ∈ n :: times, 0 ≤ P T x - P T r := fun hxr T hT => sub_nonneg.2 ((hanti T hT).antitone hxr)
      have hdn : r ≤ x → ∀ T ∈ n :: times, P T x - P T r ≤ 0 := fun hxr T hT => sub_nonpos.2 ((hanti T hT).antitone hxr)
      rcases hcp with rfl | rfl <;> rcases le_total x r with hxr | hxr
      · left
        refine ⟨by simpa using hup hxr n List.mem_cons_self, fun q hq => ?_⟩
        obtain ⟨T, f, rfl, hT, hf0⟩ := hmem q hq
        exact ⟨hf0, by simpa using hup hxr T hT⟩
      · right
        refine ⟨by simpa using hdn hxr n List.mem_cons_self, fun q hq => ?_⟩
        obtain ⟨T, f, rfl, hT, hf0⟩ := hmem q hq
        exact ⟨hf0, by simpa using hdn hxr T hT⟩
      · right
        refine ⟨by have := hup hxr n List.mem_cons_self; linarith, fun q hq => ?_⟩
        obtain ⟨T, f, rfl, hT, hf0⟩ := hmem q hq
        exact ⟨hf0, by have := hup hxr T hT; simp only; linarith⟩
      · left
        refine ⟨by have := hdn hxr n List.mem_cons_self; linarith, fun q hq => ?_⟩
        obtain ⟨T, f, rfl, hT, hf0⟩ := hmem q hq
        exact ⟨hf0, by have := hdn hxr T hT; simp only; linarith⟩
    · rw [← hr]
      unfold fixedLeg
      rw [hL, List.map_map]
      have hsum : ∀ M : List (ℝ × ℝ), (M.map (fun p => c * p.2 * P p.1 x)).sum - (M.map (fun p => c * p.2 * P p.1 r)).sum =
          (M.map ((fun q : ℝ × ℝ × ℝ => q.1 * (q.2.1 - q.2.2)) ∘ fun p => (c * p.2, P p.1 x, P p.1 r))).sum := by
        intro M
        induction M with
        | nil => simp
        | cons p M ih =>
          rw [List.map_cons, List.map_cons, List.map_cons, List.sum_cons, List.sum_cons, List.sum_cons, ← ih]
          simp only [Function.comp_apply]; ring
      rw [← hsum]; ring

/-- The short rate at which the fixed leg is worth par is unique, so the strikes do not depend on the root finder. -/
theorem C74_unique (m : HullWhite) (theta : ℝ → ℝ) (expiry : ℝ) (times fractions : List ℝ) (n c : ℝ) (P : ℝ → ℝ → ℝ)
    (hP : BondPrices m theta expiry (n :: times) P) (he : expiry ≠ 0) (hc : 0 ≤ c) (hf : ∀ f ∈ fractions, 0 ≤ f) (b1 b2 : Brentq)
    (h1 : FindsRoots b1) (h2 : FindsRoots b2) (k1 k2 : List ℝ) (hk1 : jamshidian b1 m theta expiry times fractions n c = .ok k1)
    (hk2 : jamshidian b2 m theta expiry times fractions n c = .ok k2) : k1 = k2 := by
  obtain ⟨r, hr, e1⟩ := C74_strikes b1 h1 m theta expiry times fractions n c k1 P hP hk1
  obtain ⟨s, hs, e2⟩ := C74_strikes b2 h2 m theta expiry times fractions n c k2 P hP hk2
  have hanti : StrictAnti (fun x => fixedLeg times fractions n c (fun T => P T x)) := by
    intro x y hxy
    unfold fixedLeg
    apply add_lt_add_of_lt_of_le
    · exact bond_strictAnti he (fun x => hP n List.mem_cons_self x) hxy
    · apply List.sum_le_sum
      intro p hp
      have hz := List.of_mem_zip hp
      exact mul_le_mul_of_nonneg_left
        ((bond_strictAnti he (fun x => hP p.1 (List.mem_cons_of_mem _ hz.1) x)).antitone hxy.le) (mul_nonneg hc (hf _ hz.2))
  have hrs : r = s := hanti.injective (hr.trans hs.symm)
  rw [e1, e2, hrs]

/-- Which swaptions are refused before any calculation: unequal lengths, payment times that do not increase, a notional paid before the
last coupon but one, and — with an index error — a swap of one coupon. -/
theorem C74_refused (brentq : Brentq) (m : HullWhite) (theta : ℝ → ℝ) (expiry : ℝ) (times fractions : List ℝ) (n c : ℝ) :
    (times.length ≠ fractions.length → jamshidian brentq m theta expiry times fractions n c = .error .value) ∧
    (times.length = fractions.length → ¬ times.IsChain (· < ·) → jamshidian brentq m theta expiry times fractions n c = .error .value) ∧
    (times.length = fractions.length → times.length ≤ 1 → jamshidian brentq m theta expiry times fractions n c = .error .index) ∧
    (times.length = fractions.length → times.IsChain (· < ·) → ∀ ts a b, times = ts ++ [a, b] → n < a →
      jamshidian brentq m theta expiry times fractions n c = .error .value) := by
  have hchain : ∀ ts : List ℝ, (¬ ∃ p ∈ ts.zip ts.tail, ¬ p.1 < p.2) ↔ ts.IsChain (· < ·) := by
    intro ts
    induction ts with
    | nil => simp
    | cons a ts ih =>
      cases ts with
      | nil => simp
      | cons b ts =>
        simp only [List.tail_cons, List.zip_cons_cons, List.mem_cons, not_exists, not_and, not_not, forall_eq_or_imp, List.isChain_cons_cons] at ih ⊢
        rw [← ih]
  refine ⟨?_, ?_, ?_, ?_⟩
  · intro h
    unfold jamshidian
    rw [if_pos h]
  · intro h hn
    unfold jamshidian
    rw [if_neg (not_not.2 h), if_pos (by by_contra hc; exact hn ((hchain _).1 hc))]
  · intro h hl
    unfold jamshidian
    rw [if_neg (not_not.2 h), if_neg, if_pos (by omega)]
    rw [hchain]
    match times, hl with
    | [], _ => simp
    | [a], _ => simp
  · intro h hch ts a b ht hn
    unfold jamshidian
    rw [if_neg (not_not.2 h), if_neg ((hchain _).2 hch)]
    subst ht
    rw [if_neg (by simp), if_pos]
    simp [List.getD_eq_getElem?_getD]
    exact hn

/-- Prices of swaptions and of optionlets are never returned: the bond-option pricer is called with keywords it does not have. -/
theorem C74_never_priced (brentq : Brentq) (m : HullWhite) (theta : ℝ → ℝ) :
    (∀ expiry times fractions n c payer notional x, priceSwaption brentq m theta expiry times fractions n c payer notional ≠ .ok x) ∧
    (∀ expiry times fractions n c payer notional ks, jamshidian brentq m theta expiry times fractions n c = .ok ks →
      priceSwaption brentq m theta expiry times fractions n c payer notional = .error .type) ∧
    ∀ t1 t2 K cp, (1 + K * (t2 - t1) ≠ 0 → priceOptionlet m t1 t2 K cp = .error .type) ∧
      (1 + K * (t2 - t1) = 0 → priceOptionlet m t1 t2 K cp = .error .zeroDiv) := by
  have hk : checkKeywords bondOptionParameters optionletKeywords = .error .type := by decide
  have hsw : ∀ expiry times fractions n c payer notional ks, jamshidian brentq m theta expiry times fractions n c = .ok ks →
      priceSwaption brentq m theta expiry times fractions n c payer notional = .error .type := by
    intro expiry times fractions n c payer notional ks h
    unfold priceSwaption priceSwaptionKw
    rw [h]
    simp only
    have hone : ∀ e cp T k L, hwBondOptions optionletKeywords m e cp ((T, k) :: L) = .error .type := by
      intro e cp T k L
      rw [hwBondOptions, hk]
    cases hL : times.zip ks.dropLast with
    | nil =>
      rw [hwBondOptions]
      simp only
      rw [hone]
    | cons p L =>
      obtain ⟨T, k⟩ := p
      rw [hone]
  refine ⟨?_, hsw, ?_⟩
  · intro expiry times fractions n c payer notional x h
    cases hj : jamshidian brentq m theta expiry times fractions n c with
    | error e =>
      unfold priceSwaption priceSwaptionKw at h
      rw [hj] at h
      cases h
    | ok ks =>
      rw [hsw _ _ _ _ _ _ _ _ hj] at h
      cases h
  · intro t1 t2 K cp
    unfold priceOptionlet priceOptionletKw
    exact ⟨fun h => by rw [if_neg h, hk], fun h => by rw [if_pos h]⟩

/-! ## As intended

What the pricers would return if they called the bond-option pricer with the names of its parameters. -/

/-- A call is accepted exactly if every keyword is a parameter and every parameter without default has an argument. -/
theorem C74_keywords (params : List (String × Bool)) (kws : List String) :
    (checkKeywords params kws = .ok () ↔ (∀ k ∈ kws, ∃ d, (k, d) ∈ params) ∧ ∀ p ∈ params, p.2 = true ∨ p.1 ∈ kws) ∧
    (checkKeywords params kws ≠ .ok () → checkKeywords params kws = .error .type) := by
  unfold checkKeywords
  refine ⟨?_, ?_⟩
  · split
    · rename_i h
      simp only [true_iff]
      simpa using h
    · rename_i h
      simp only [reduceCtorEq, false_iff]
      intro hc
      apply h
      simpa using hc
  · split
    · exact fun h => absurd rfl h
    · exact fun _ => rfl

/-- Both times are passed under names the bond-option pricer does not have, and neither of its two times is given. -/
theorem C74_wrong_keywords :
    (∀ k ∈ ["expiry_years", "maturity_years"], k ∈ optionletKeywords ∧ ∀ d, (k, d) ∉ bondOptionParameters) ∧
    ∀ k ∈ ["option_expiry", "bond_maturity"], k ∉ optionletKeywords ∧ (k, false) ∈ bondOptionParameters := by
  decide

/-- The keywords meant. -/
def intendedKeywords : List String := ["option_expiry", "bond_maturity", "K", "cp"]

example : checkKeywords bondOptionParameters intendedKeywords = .ok () := by decide

private theorem bond_single (m : HullWhite) (T S K cp : ℝ) : priceZeroCouponBondOption m [T] [S] [K] [cp] 0 = .ok [hwBondOption m T S K cp] := by
  unfold priceZeroCouponBondOption
  simp [bcastAt]

/-- Optionlets as intended: what is returned is the price of a put (caplet) or call (floorlet) on the bond, in units of the strike, so
that caplet less floorlet is worth the forward rate agreement. -/
theorem C74_optionlet_intended (kws : List String) (hk : checkKeywords bondOptionParameters kws = .ok ()) (m : HullWhite) (T S K : ℝ)
    (h1 : 0 < 1 + K * (S - T)) (hr : HwRegular m T S (1 / (1 + K * (S - T))) 1) :
    ∃ cap floor, priceOptionletKw kws m T S K 1 = .ok [some cap] ∧ priceOptionletKw kws m T S K (-1) = .ok [some floor] ∧
      HwPriced m T S (1 / (1 + K * (S - T))) (-1) (cap / (1 + K * (S - T))) ∧
      HwPriced m T S (1 / (1 + K * (S - T))) 1 (floor / (1 + K * (S - T))) ∧
      cap - floor = m.discount T - (1 + K * (S - T)) * m.discount S := by
  have hr' : HwRegular m T S (1 / (1 + K * (S - T))) (-1) :=
    ⟨hr.1, hr.2.1, hr.2.2.1, hr.2.2.2.1, hr.2.2.2.2.1, hr.2.2.2.2.2.1, hr.2.2.2.2.2.2.1, .inr rfl⟩
  obtain ⟨c, ⟨hc, -⟩, -⟩ := C61_bounds m T S _ 1 hr
  obtain ⟨p, ⟨hp, -⟩, -⟩ := C61_bounds m T S _ (-1) hr'
  have hpar := C61_parity_partial m T S _ c p hr hc hp
  have e1 : p * (1 + K * (S - T)) / (1 + K * (S - T)) = p := by field_simp
  have e2 : c * (1 + K * (S - T)) / (1 + K * (S - T)) = c := by field_simp
  refine ⟨p * (1 + K * (S - T)), c * (1 + K * (S - T)), ?_, ?_, by rwa [e1], by rwa [e2], ?_⟩
  · unfold priceOptionletKw
    rw [if_neg h1.ne', hk]
    simp only
    unfold HwPriced at hp
    rw [mul_one, hp]
    simp [Except.map]
  · unfold priceOptionletKw
    rw [if_neg h1.ne', hk]
    simp only
    unfold HwPriced at hc
    rw [show (-1 : ℝ) * -1 = 1 by norm_num, hc]
    simp [Except.map]
  · have : p * (1 + K * (S - T)) - c * (1 + K * (S - T)) = -(c - p) * (1 + K * (S - T)) := by ring
    rw [this, hpar]
    field_simp
    ring

private theorem bondOptions_eq (kws : List String) (hk : checkKeywords bondOptionParameters kws = .ok ()) (m : HullWhite) (e cp : ℝ) (V : ℝ × ℝ → ℝ)
    (L : List (ℝ × ℝ)) (hV : ∀ q ∈ L, HwPriced m e q.1 q.2 cp (V q)) : hwBondOptions kws m e cp L = .ok ((L.map V).map some) := by
  induction L with
  | nil => rfl
  | cons q L ih =>
    obtain ⟨T, k⟩ := q
    rw [hwBondOptions, hk]
    simp only
    have := hV _ List.mem_cons_self
    unfold HwPriced at this
    rw [this]
    simp only
    rw [ih (fun q hq => hV q (List.mem_cons_of_mem _ hq))]
    rfl

private theorem mapM_some (l : List ℝ) : (l.map some).mapM id = some l := by
  induction l with
  | nil => rfl
  | cons a l ih => simp [List.mapM_cons, ih]

private theorem sum_outer (fs vs : List ℝ) : (vs.map (fun x => (fs.map (fun f => f * x)).sum)).sum = fs.sum * vs.sum := by
  induction vs with
  | nil => simp
  | cons v vs ih =>
    rw [List.map_cons, List.sum_cons, ih, List.sum_cons, List.sum_map_mul_right]
    simp only [List.map_id']
    ring

/-- Swaptions if the keywords were right: not the sum of the decomposition, but the sum of *all* year fractions times the sum of *all*
coupon options - and the option on the last coupon is left out when the notional is paid with it (`ks.dropLast`). -/
theorem C74_swaption_formula (kws : List String) (hk : checkKeywords bondOptionParameters kws = .ok ()) (brentq : Brentq) (m : HullWhite)
    (theta : ℝ → ℝ) (expiry : ℝ) (times fractions : List ℝ) (n c notional : ℝ) (payer : Bool) (ks : List ℝ) (kn : ℝ)
    (hj : jamshidian brentq m theta expiry times fractions n c = .ok ks) (hkn : ks.getLast? = some kn) (V : ℝ × ℝ → ℝ)
    (hV : ∀ q ∈ (n, kn) :: times.zip ks.dropLast, HwPriced m expiry q.1 q.2 (if payer then -1 else 1) (V q)) :
    priceSwaptionKw kws brentq m theta expiry times fractions n c payer notional =
      .ok (some (notional * (c * (fractions.sum * ((times.zip ks.dropLast).map V).sum) + V (n, kn)))) := by
  unfold priceSwaptionKw
  rw [hj]
  simp only
  rw [bondOptions_eq kws hk m expiry _ V _ (fun q hq => hV q (List.mem_cons_of_mem _ hq))]
  simp only
  have hl : ks.getLastD 0 = kn := by rw [List.getLastD_eq_getLast?, hkn]; rfl
  rw [hl, bondOptions_eq kws hk m expiry _ V [(n, kn)] (fun q hq => by
    rw [List.mem_singleton] at hq
    exact hV q (hq ▸ List.mem_cons_self))]
  simp only [mapM_some, List.map_cons, List.headD_cons, Option.map_some, Option.bind_some, sum_outer]

private theorem outer_gt (fs vs : List ℝ) (hl : fs.length = vs.length) (h2 : 2 ≤ fs.length) (hf : ∀ f ∈ fs, 0 < f) (hv : ∀ v ∈ vs, 0 < v) :
    (List.zipWith (fun f v => f * v) fs vs).sum < fs.sum * vs.sum := by
  have pos : ∀ l : List ℝ, l ≠ [] → (∀ x ∈ l, 0 < x) → 0 < l.sum := by
    intro l hne h
    cases l with
    | nil => exact absurd rfl hne
    | cons a l =>
      rw [List.sum_cons]
      have := List.sum_nonneg (fun x hx => (h x (List.mem_cons_of_mem _ hx)).le) (l := l)
      linarith [h a List.mem_cons_self]
  have le : ∀ (fs vs : List ℝ), (∀ f ∈ fs, 0 < f) → (∀ v ∈ vs, 0 < v) → (List.zipWith (fun f v => f * v) fs vs).sum ≤ fs.sum * vs.sum := by
    intro fs
    induction fs with
    | nil => intro vs _ _; simp
    | cons f fs ih =>
      intro vs hf hv
      cases vs with
      | nil => simp
      | cons v vs =>
        rw [List.zipWith_cons_cons, List.sum_cons, List.sum_cons, List.sum_cons]
        have h1 := ih vs (fun x hx => hf x (List.mem_cons_of_mem _ hx)) (fun x hx => hv x (List.mem_cons_of_mem _ hx))
        have h3 := List.sum_nonneg (fun x hx => (hf x (List.mem_cons_of_mem _ hx)).le) (l := fs)
        have h4 := List.sum_nonneg (fun x hx => (hv x (List.mem_cons_of_mem _ hx)).le) (l := vs)
        have h5 := hf f List.mem_cons_self
        have h6 := hv v List.mem_cons_self
        nlinarith [mul_nonneg h5.le h4, mul_nonneg h3 h6.le]
  match fs, vs, hl, h2 with
  | f :: fs, v :: vs, hl, h2 =>
    rw [List.zipWith_cons_cons, List.sum_cons, List.sum_cons, List.sum_cons]
    have hf' : ∀ x ∈ fs, 0 < x := fun x hx => hf x (List.mem_cons_of_mem _ hx)
    have hv' : ∀ x ∈ vs, 0 < x := fun x hx => hv x (List.mem_cons_of_mem _ hx)
    have h1 := le fs vs hf' hv'
    have hne : fs ≠ [] := by rintro rfl; simp at h2
    have hne' : vs ≠ [] := by rintro rfl; simp at hl; exact hne hl
    have h3 := pos fs hne hf'
    have h4 := pos vs hne' hv'
    have h5 := hf f List.mem_cons_self
    have h6 := hv v List.mem_cons_self
    nlinarith [mul_pos h5 h4, mul_pos h3 h6]

/-- So even then swaptions would be overpriced: by the decomposition (`C74_decomposition`) a swaption with the notional paid apart from
the last coupon is worth `notional * (c * Σ fᵢ vᵢ + v)`, and the price returned exceeds that. -/
theorem C74_swaption_overpriced (kws : List String) (hk : checkKeywords bondOptionParameters kws = .ok ()) (brentq : Brentq)
    (hb : FindsRoots brentq) (m : HullWhite) (theta : ℝ → ℝ) (expiry : ℝ) (times fractions : List ℝ) (n c notional : ℝ) (payer : Bool)
    (ks : List ℝ) (P : ℝ → ℝ → ℝ) (hP : BondPrices m theta expiry (n :: times) P)
    (hj : jamshidian brentq m theta expiry times fractions n c = .ok ks) (hn : times.getLast? ≠ some n) (kn : ℝ)
    (hkn : ks.getLast? = some kn) (hm : HwRegular m expiry n kn (if payer then -1 else 1))
    (ht : ∀ T ∈ times, ∀ k, 0 < k → HwRegular m expiry T k (if payer then -1 else 1))
    (hc : 0 < c) (hf : ∀ f ∈ fractions, 0 < f) (hN : 0 < notional) :
    ∃ (V : ℝ × ℝ → ℝ) (x : ℝ), (∀ q ∈ (n, kn) :: times.zip ks.dropLast, HwPriced m expiry q.1 q.2 (if payer then -1 else 1) (V q)) ∧
      priceSwaptionKw kws brentq m theta expiry times fractions n c payer notional = .ok (some x) ∧
      notional * (c * (List.zipWith (fun f q => f * V q) fractions (times.zip ks.dropLast)).sum + V (n, kn)) < x := by
  obtain ⟨r, hr, hks⟩ := C74_strikes brentq hb m theta expiry times fractions n c ks P hP hj
  rw [if_neg hn] at hks
  have hdrop : ks.dropLast = times.map (fun T => P T r) := by rw [hks]; simp
  have hlen : times.length = fractions.length := by
    by_contra hne
    rw [(C74_refused brentq m theta expiry times fractions n c).1 hne] at hj
    cases hj
  have h2 : 2 ≤ times.length := by
    by_contra hlt
    rw [(C74_refused brentq m theta expiry times fractions n c).2.2.1 hlen (by omega)] at hj
    cases hj
  have hexp : ∀ T ∈ n :: times, 0 < P T r := by
    intro T hT
    have h := hP T hT r
    unfold hwDiscount1 at h
    split at h
    · cases h
    split at h
    · cases h
    · rw [← Except.ok.inj h]
      exact Real.exp_pos _
  have hreg : ∀ q ∈ (n, kn) :: times.zip ks.dropLast, HwRegular m expiry q.1 q.2 (if payer then -1 else 1) := by
    intro q hq
    rcases List.mem_cons.1 hq with rfl | hq
    · exact hm
    · rw [hdrop] at hq
      have hz := List.of_mem_zip hq
      obtain ⟨T, hT, hTe⟩ := List.mem_map.1 hz.2
      exact ht q.1 hz.1 q.2 (hTe ▸ hexp T (List.mem_cons_of_mem _ hT))
  choose! V hV using fun q (hq : q ∈ (n, kn) :: times.zip ks.dropLast) => (C61_bounds m expiry q.1 q.2 _ (hreg q hq)).exists
  refine ⟨V, _, fun q hq => (hV q hq).1, C74_swaption_formula kws hk brentq m theta expiry times fractions n c notional payer ks kn hj hkn V
    (fun q hq => (hV q hq).1), ?_⟩
  have hzl : (times.zip ks.dropLast).length = times.length := by rw [hdrop]; simp
  have hlt := outer_gt fractions ((times.zip ks.dropLast).map V) (by rw [List.length_map, hzl, hlen]) (by omega) hf (by
    intro v hv
    obtain ⟨q, hq, rfl⟩ := List.mem_map.1 hv
    exact (hV q (List.mem_cons_of_mem _ hq)).2.1)
  rw [List.zipWith_map_right] at hlt
  have := mul_lt_mul_of_pos_left hlt hc
  exact mul_lt_mul_of_pos_left (by linarith) hN

/-- Bond prices exist for every swaption whose payments come after its expiry. -/
example (theta : ℝ → ℝ) : ∃ P, BondPrices flatHw theta 1 [3, 2, 3] P := by
  refine ⟨fun T x => Real.exp ((0.5 * flatHw.vol ^ 2 * (∫ s in (1 : ℝ)..T, hwB flatHw.alpha s T ^ 2) -
      ∫ s in (1 : ℝ)..T, theta s * hwB flatHw.alpha s T) - x * hwB flatHw.alpha 1 T), fun T hT x => ?_⟩
  have : (1 : ℝ) < T := by
    simp only [List.mem_cons, List.not_mem_nil, or_false] at hT
    rcases hT with rfl | rfl | rfl <;> norm_num
  exact hwDiscount1_eq one_ne_zero this

/-- The rate at which the fixed leg is worth par exists (and is unique, `C74_unique`): the search can only fail for its bounds. -/
theorem C74_par_rate_exists (m : HullWhite) (theta : ℝ → ℝ) (expiry : ℝ) (times fractions : List ℝ) (n c : ℝ) (P : ℝ → ℝ → ℝ)
    (hP : BondPrices m theta expiry (n :: times) P) (he : expiry ≠ 0) (hc : 0 ≤ c) (hf : ∀ f ∈ fractions, 0 ≤ f) :
    ∃ r, fixedLeg times fractions n c (fun T => P T r) = 1 := by
  have hexp : ∀ T ∈ n :: times, ∃ A B : ℝ, 0 < B ∧ ∀ x, P T x = Real.exp (A - x * B) := by
    intro T hT
    have hlt : expiry < T := by
      by_contra hcon
      have := hP T hT 0
      unfold hwDiscount1 at this
      rw [if_pos hcon] at this
      cases this
    refine ⟨0.5 * m.vol ^ 2 * (∫ s in expiry..T, hwB m.alpha s T ^ 2) - ∫ s in expiry..T, theta s * hwB m.alpha s T, hwB m.alpha expiry T,
      hwB_pos hlt, fun x => ?_⟩
    have := hP T hT x
    rw [hwDiscount1_eq he hlt] at this
    exact (Except.ok.inj this).symm
  have hcont1 : ∀ T ∈ n :: times, Continuous (P T) := by
    intro T hT
    obtain ⟨A, B, -, h⟩ := hexp T hT
    rw [show P T = fun x => Real.exp (A - x * B) from funext h]
    fun_prop
  have hlim1 : ∀ T ∈ n :: times, Filter.Tendsto (P T) Filter.atTop (nhds 0) := by
    intro T hT
    obtain ⟨A, B, hB, h⟩ := hexp T hT
    rw [show P T = fun x => Real.exp (A - x * B) from funext h]
    apply Real.tendsto_exp_atBot.comp
    have : Filter.Tendsto (fun x : ℝ => A + -(x * B)) Filter.atTop Filter.atBot :=
      Filter.tendsto_atBot_add_const_left _ A (Filter.tendsto_neg_atTop_atBot.comp (Filter.tendsto_id.atTop_mul_const hB))
    simpa [sub_eq_add_neg] using this
  set g : ℝ → ℝ := fun x => fixedLeg times fractions n c (fun T => P T x) with hg
  have hsum : ∀ L : List (ℝ × ℝ), (∀ p ∈ L, p.1 ∈ n :: times) →
      Continuous (fun x => (L.map (fun p => c * p.2 * P p.1 x)).sum) ∧
      Filter.Tendsto (fun x => (L.map (fun p => c * p.2 * P p.1 x)).sum) Filter.atTop (nhds 0) := by
    intro L
    induction L with
    | nil => intro _; simp only [List.map_nil, List.sum_nil]; exact ⟨continuous_const, tendsto_const_nhds⟩
    | cons p L ih =>
      intro hL
      obtain ⟨h1, h2⟩ := ih (fun q hq => hL q (List.mem_cons_of_mem _ hq))
      have h3 := hL p List.mem_cons_self
      simp only [List.map_cons, List.sum_cons]
      refine ⟨((hcont1 _ h3).const_mul _).add h1, ?_⟩
      have := ((hlim1 _ h3).const_mul (c * p.2)).add h2
      simpa using this
  obtain ⟨h1, h2⟩ := hsum (times.zip fractions) (fun p hp => List.mem_cons_of_mem _ (List.of_mem_zip hp).1)
  have hgc : Continuous g := (hcont1 n List.mem_cons_self).add h1
  have hgl : Filter.Tendsto g Filter.atTop (nhds 0) := by
    have := (hlim1 n List.mem_cons_self).add h2
    rw [add_zero] at this
    exact this
  obtain ⟨b, hb⟩ := (hgl.eventually (gt_mem_nhds (show (0 : ℝ) < 1 by norm_num))).exists
  obtain ⟨A, B, hB, h⟩ := hexp n List.mem_cons_self
  have ha : 1 ≤ g (A / B) := by
    have hn : P n (A / B) = 1 := by rw [h, div_mul_cancel₀ _ hB.ne', sub_self, Real.exp_zero]
    have hpos : 0 ≤ ((times.zip fractions).map (fun p => c * p.2 * P p.1 (A / B))).sum := by
      apply List.sum_nonneg
      intro y hy
      obtain ⟨p, hp, rfl⟩ := List.mem_map.1 hy
      have hz := List.of_mem_zip hp
      obtain ⟨A', B', -, h'⟩ := hexp p.1 (List.mem_cons_of_mem _ hz.1)
      rw [h']
      exact mul_nonneg (mul_nonneg hc (hf _ hz.2)) (Real.exp_pos _).le
    show 1 ≤ P n (A / B) + _
    linarith
  obtain ⟨r, hr⟩ := mem_range_of_exists_le_of_exists_ge hgc ⟨b, hb.le⟩ ⟨_, ha⟩
  exact ⟨r, hr⟩

/-- A swaption all the hypotheses above hold for. -/
example (theta : ℝ → ℝ) : ∃ brentq ks kn P, FindsRoots brentq ∧ BondPrices flatHw theta 1 [4, 2, 3] P ∧
    jamshidian brentq flatHw theta 1 [2, 3] [1, 1] 4 0.03 = .ok ks ∧ ks.getLast? = some kn ∧ HwRegular flatHw 1 4 kn 1 := by
  set P : ℝ → ℝ → ℝ := fun T x => Real.exp ((0.5 * flatHw.vol ^ 2 * (∫ s in (1 : ℝ)..T, hwB flatHw.alpha s T ^ 2) -
      ∫ s in (1 : ℝ)..T, theta s * hwB flatHw.alpha s T) - x * hwB flatHw.alpha 1 T) with hPdef
  have hP : BondPrices flatHw theta 1 [4, 2, 3] P := by
    intro T hT x
    have : (1 : ℝ) < T := by
      simp only [List.mem_cons, List.not_mem_nil, or_false] at hT
      rcases hT with rfl | rfl | rfl <;> norm_num
    exact hwDiscount1_eq one_ne_zero this
  obtain ⟨r, hr⟩ := C74_par_rate_exists flatHw theta 1 [2, 3] [1, 1] 4 0.03 P hP one_ne_zero (by norm_num) (by simp)
  have hz : hwZero flatHw theta 1 4 0.03 ([2, 3].zip [1, 1]) r = .ok 0 := by
    rw [hwZero_eq hP, hr, sub_self]
  refine ⟨fun _ f => if f r = .ok 0 then .ok r else .error .value, [P 2 r, P 3 r, P 4 r], P 4 r, P, ?_, hP, ?_, rfl, ?_⟩
  · intro b f x h
    simp only at h
    split_ifs at h with h1
    cases h
    exact h1
  · unfold jamshidian
    rw [if_neg (by simp), if_neg (by norm_num), if_neg (by norm_num), if_neg (by norm_num)]
    simp only [hz, if_true]
    rw [mapM_ok_eq (g := fun T => P T r) _ (fun T hT => hP T (List.mem_cons_of_mem _ hT) r)]
    simp only
    rw [if_pos (by norm_num), hP 4 List.mem_cons_self r]
    rfl
  · exact ⟨by norm_num [flatHw], by norm_num [flatHw], by norm_num, by norm_num, Real.exp_pos _, Real.exp_pos _, Real.exp_pos _, .inl rfl⟩

end Frm.Props
