import Verif.Props.C79Existence

/-!
# C102: the Heston pricing methods agree and leave no arbitrage across strikes

`/repo/frm/pricing_engine/heston.py:26-44` offers five methods. By C79 the Carr-Madan quadrature, the 1993 method and, without correlation,
the Lipton method give the discounted mean payoff under one law, so they agree, and the prices of a smile satisfy the static no-arbitrage
relations; the cosine method is within an explicit error of them.
-/

namespace Frm
namespace Spec

/-- Static no-arbitrage relations between the calls and puts of one expiry: `S` and `D` are what the spot and one unit of cash delivered at expiry
are worth today. -/
structure ArbitrageFree (call put : ℝ → ℝ) (S D : ℝ) : Prop where
  parity : ∀ K, 0 < K → call K - put K = S - D * K
  call_bounds : ∀ K, 0 < K → max 0 (S - D * K) ≤ call K ∧ call K ≤ S
  put_bounds : ∀ K, 0 < K → max 0 (D * K - S) ≤ put K ∧ put K ≤ D * K
  call_spread : ∀ K L, 0 < K → K ≤ L → 0 ≤ call K - call L ∧ call K - call L ≤ D * (L - K)
  put_spread : ∀ K L, 0 < K → K ≤ L → 0 ≤ put L - put K ∧ put L - put K ≤ D * (L - K)
  call_butterfly : ∀ K L w, 0 < K → 0 < L → 0 ≤ w → w ≤ 1 → call (w * K + (1 - w) * L) ≤ w * call K + (1 - w) * call L
  put_butterfly : ∀ K L w, 0 < K → 0 < L → 0 ≤ w → w ≤ 1 → put (w * K + (1 - w) * L) ≤ w * put K + (1 - w) * put L

/-- Parameters for which the model makes sense and is not degenerate. -/
structure ProperModel (h : Heston) : Prop where
  kappa : 0 < h.kappa
  vv : 0 < h.vv
  rho : |h.rho| < 1
  var0 : 0 ≤ h.var0
  theta : 0 ≤ h.theta
  moves : 0 < h.var0 ∨ 0 < h.theta
  spot : h.rho * h.vv < h.kappa

end Spec
end Frm

namespace Frm.Props
open Classical

set_option autoImplicit false

open Frm Frm.Spec MeasureTheory

/-- Mean payoffs under a law with a mean spot satisfy the relations. -/
theorem mean_arbitrage (μ : Measure ℝ) [IsProbabilityMeasure μ] (D F : ℝ) (hD : 0 ≤ D) (hi : Integrable Real.exp μ) (hF : ∫ s, Real.exp s ∂μ = F) :
    ArbitrageFree (meanPayoff μ D 1) (meanPayoff μ D (-1)) (D * F) D := by
  have ic : ∀ K, Integrable (fun s => optionPayoff 1 K (Real.exp s)) μ := fun K => payoff_integrable μ 1 K (Or.inl rfl) hi
  have ip : ∀ K, Integrable (fun s => optionPayoff (-1) K (Real.exp s)) μ := fun K => payoff_integrable μ (-1) K (Or.inr rfl) hi
  have mono : ∀ f g : ℝ → ℝ, Integrable f μ → Integrable g μ → (∀ s, f s ≤ g s) → D * ∫ s, f s ∂μ ≤ D * ∫ s, g s ∂μ := fun f g hf hg hfg =>
    mul_le_mul_of_nonneg_left (integral_mono hf hg hfg) hD
  have hc : ∀ K : ℝ, (∫ _ : ℝ, K ∂μ) = K := fun K => by rw [integral_const, probReal_univ, one_smul]
  have par : ∀ K, meanPayoff μ D 1 K - meanPayoff μ D (-1) K = D * F - D * K := by
    intro K
    unfold meanPayoff
    rw [← mul_sub, ← integral_sub (ic K) (ip K)]
    simp only [payoff_difference]
    rw [integral_sub hi (integrable_const _), hF, hc]
    ring
  have cn : ∀ K, 0 ≤ meanPayoff μ D 1 K := fun K => mul_nonneg hD (integral_nonneg fun s => le_max_left _ _)
  have pn : ∀ K, 0 ≤ meanPayoff μ D (-1) K := fun K => mul_nonneg hD (integral_nonneg fun s => le_max_left _ _)
  have csp : ∀ K L, K ≤ L → 0 ≤ meanPayoff μ D 1 K - meanPayoff μ D 1 L := by
    intro K L hKL
    have := mono _ _ (ic L) (ic K) fun s => by
      unfold optionPayoff
      exact max_le_max le_rfl (by linarith)
    unfold meanPayoff
    linarith
  have psp : ∀ K L, K ≤ L → 0 ≤ meanPayoff μ D (-1) L - meanPayoff μ D (-1) K := by
    intro K L hKL
    have := mono _ _ (ip K) (ip L) fun s => by
      unfold optionPayoff
      exact max_le_max le_rfl (by linarith)
    unfold meanPayoff
    linarith
  have bf : ∀ cp : ℝ, (∀ K, Integrable (fun s => optionPayoff cp K (Real.exp s)) μ) → ∀ K L w, 0 ≤ w → w ≤ 1 →
      meanPayoff μ D cp (w * K + (1 - w) * L) ≤ w * meanPayoff μ D cp K + (1 - w) * meanPayoff μ D cp L := by
    intro cp hcp K L w h0 h1
    have h2 := mono _ (fun s => w * optionPayoff cp K (Real.exp s) + (1 - w) * optionPayoff cp L (Real.exp s)) (hcp (w * K + (1 - w) * L))
      (((hcp K).const_mul w).add ((hcp L).const_mul (1 - w))) fun s => by
        unfold optionPayoff
        apply max_le
        · have a1 := mul_nonneg h0 (le_max_left 0 (cp * (Real.exp s - K)))
          have a2 := mul_nonneg (sub_nonneg.2 h1) (le_max_left 0 (cp * (Real.exp s - L)))
          linarith
        · have a1 := mul_le_mul_of_nonneg_left (le_max_right 0 (cp * (Real.exp s - K))) h0
          have a2 := mul_le_mul_of_nonneg_left (le_max_right 0 (cp * (Real.exp s - L))) (sub_nonneg.2 h1)
          linarith
    rw [integral_add ((hcp K).const_mul w) ((hcp L).const_mul (1 - w)), integral_const_mul, integral_const_mul] at h2
    unfold meanPayoff
    linarith
  refine ⟨fun K _ => par K, fun K hK => ⟨max_le (cn K) ?_, ?_⟩, fun K hK => ⟨max_le (pn K) ?_, ?_⟩, fun K L _ hKL => ⟨csp K L hKL, ?_⟩,
    fun K L _ hKL => ⟨psp K L hKL, ?_⟩, fun K L w _ _ h0 h1 => bf 1 ic K L w h0 h1, fun K L w _ _ h0 h1 => bf (-1) ip K L w h0 h1⟩
  · linarith [par K, pn K]
  · have := mono _ _ (ic K) hi fun s => by
      unfold optionPayoff
      exact max_le (Real.exp_pos s).le (by linarith)
    rw [hF] at this
    exact this
  · linarith [par K, cn K]
  · have := mono _ _ (ip K) (integrable_const K) fun s => by
      unfold optionPayoff
      exact max_le hK.le (by linarith [Real.exp_pos s])
    rw [hc] at this
    exact this
  · linarith [par K, par L, psp K L hKL]
  · linarith [par K, par L, csp K L hKL]

theorem proper_law (h : Heston) (hp : ProperModel h) (S0 tau r q : ℝ) (ht : 0 ≤ tau) (hS : 0 < S0) :
    ∃ μ : Measure ℝ, IsHestonLaw μ h (Real.log S0) tau r q ∧ Integrable Real.exp μ ∧ ∫ s, Real.exp s ∂μ = S0 * Real.exp ((r - q) * tau) := by
  obtain ⟨μ, hl, -⟩ := C79_law_exists h hp.kappa hp.vv hp.rho.le hp.var0 hp.theta (Real.log S0) tau r q ht
  have hT := C79_law_moments μ h hp.kappa hp.vv hp.rho.le hp.var0 hp.theta (Real.log S0) tau r q ht hl 1 (goodPower_one h hp.spot)
  exact ⟨μ, hl, law_forward μ h S0 tau r q hp.var0 hp.spot hS hT⟩

theorem mean_1993 (μ : Measure ℝ) (h : Heston) (hp : ProperModel h) (S0 tau r q K : ℝ) (ht : 0 < tau) (hS : 0 < S0) (hK : 0 < K)
    (hl : IsHestonLaw μ h (Real.log S0) tau r q) :
    hestonPrice .heston1993 h 0 S0 tau r q 1 K = .ok (some (meanPayoff μ (Real.exp (-r * tau)) 1 K)) ∧
    hestonPrice .heston1993 h 0 S0 tau r q (-1) K = .ok (some (meanPayoff μ (Real.exp (-r * tau)) (-1) K)) := by
  have hk := hp.kappa
  have e : ({ h with kappa := h.kappa + 0, theta := h.kappa * h.theta / (h.kappa + 0) } : Heston) = h := by
    have : h.kappa * h.theta / h.kappa = h.theta := by field_simp
    rw [add_zero, this]
  exact C79_heston1993_price μ h 0 S0 tau r q K hk.le hp.vv hp.rho hp.var0 hp.theta (hp.moves.imp id fun h1 => mul_pos hk h1) ht hS hK (by linarith)
    (by linarith [hp.spot]) (by rw [e]; exact hl)

/-- The Carr-Madan quadrature gives the same price as the 1993 method, where its two damped powers of the spot have means. -/
theorem C102_carr_madan (h : Heston) (hp : ProperModel h) (lambda S0 tau r q K : ℝ) (ht : 0 < tau) (hS : 0 < S0) (hK : 0 < K) :
    (GoodPower h 1.75 → hestonPrice .carrMadanQuadrature h lambda S0 tau r q 1 K = hestonPrice .heston1993 h 0 S0 tau r q 1 K) ∧
    (GoodPower h (-0.75) → hestonPrice .carrMadanQuadrature h lambda S0 tau r q (-1) K = hestonPrice .heston1993 h 0 S0 tau r q (-1) K) := by
  obtain ⟨μ, hl, -⟩ := proper_law h hp S0 tau r q ht.le hS
  obtain ⟨h1, h2⟩ := C79_carr_madan_price μ h hp.kappa hp.vv hp.rho.le hp.var0 hp.theta lambda S0 tau r q K ht.le hK hl
  obtain ⟨h3, h4⟩ := mean_1993 μ h hp S0 tau r q K ht hS hK hl
  exact ⟨fun hb => by rw [h1 hb, h3], fun hb => by rw [h2 hb, h4]⟩

/-- Without correlation the Lipton method gives the same price as the 1993 method. -/
theorem C102_lipton (h : Heston) (hp : ProperModel h) (hrho : h.rho = 0) (lambda S0 tau r q K : ℝ) (ht : 0 < tau) (hS : 0 < S0) (hK : 0 < K) :
    ∀ cp ∈ ({1, -1} : Set ℝ), hestonPrice .lipton h lambda S0 tau r q cp K = hestonPrice .heston1993 h 0 S0 tau r q cp K := by
  obtain ⟨μ, hl, -⟩ := proper_law h hp S0 tau r q ht.le hS
  obtain ⟨h1, h2⟩ := C79_lipton_price_partial μ h hp.kappa hp.vv hrho hp.var0 hp.theta lambda S0 tau r q K ht.le hS hK hl
  obtain ⟨h3, h4⟩ := mean_1993 μ h hp S0 tau r q K ht hS hK hl
  intro cp hcp
  simp only [Set.mem_insert_iff, Set.mem_singleton_iff] at hcp
  rcases hcp with rfl | rfl
  · rw [h1, h3]
  · rw [h2, h4]

/-- The cosine method is within an error of the 1993 method that the characteristic function of the code bounds. -/
theorem C102_cosine (h : Heston) (hp : ProperModel h) (S0 tau r q L K a b m p : ℝ) (N : Nat) (hN : 0 < N) (ht : 0 < tau)
    (hab : cosRange (.heston h (r - q) tau) L = .ok (a, b)) (ha : a < 0) (hb : 0 < b) (hS : 0 < S0) (hK : 0 < K)
    (hm : 0 ≤ m) (hpp : 0 ≤ p) (hgm : GoodPower h (-m)) (hgp : GoodPower h p) :
    ∀ cp ∈ ({1, -1} : Set ℝ), ∃ cosine exact, cosPrice h S0 tau r q [cp] [K] N L true = .ok [some cosine] ∧
      hestonPrice .heston1993 h 0 S0 tau r q cp K = .ok (some exact) ∧
      |cosine - exact| ≤ Real.exp (-r * tau) * K * (4 * (b - a) / Real.pi ^ 2 * (1 + Real.exp a + (b - a) / Real.pi) / N +
        ((chfAlbrecher h (Real.log S0) tau r q (m * Complex.I)).re * Real.exp (m * (Real.log K + a)) +
          (chfAlbrecher h (Real.log S0) tau r q (-p * Complex.I)).re * Real.exp (-p * (Real.log K + b)))) := by
  obtain ⟨μ, hl, -⟩ := proper_law h hp S0 tau r q ht.le hS
  obtain ⟨⟨put, hput, eput⟩, hcall⟩ := C77_law_error μ h hp.kappa hp.vv hp.rho.le hp.var0 hp.theta S0 tau r q L K a b m p N hN ht.le hab ha hb hS hK hl hm hpp hgm hgp
  obtain ⟨call, hcall, ecall⟩ := hcall hp.spot
  obtain ⟨h3, h4⟩ := mean_1993 μ h hp S0 tau r q K ht hS hK hl
  intro cp hcp
  simp only [Set.mem_insert_iff, Set.mem_singleton_iff] at hcp
  rcases hcp with rfl | rfl
  · exact ⟨_, _, hcall, h3, ecall⟩
  · exact ⟨_, _, hput, h4, eput⟩

/-- The prices of one expiry satisfy the static no-arbitrage relations. -/
theorem C102_no_arbitrage (h : Heston) (hp : ProperModel h) (S0 tau r q : ℝ) (ht : 0 < tau) (hS : 0 < S0) :
    ∃ call put : ℝ → ℝ, ArbitrageFree call put (S0 * Real.exp (-q * tau)) (Real.exp (-r * tau)) ∧
      (∀ K, 0 < K → hestonPrice .heston1993 h 0 S0 tau r q 1 K = .ok (some (call K)) ∧ hestonPrice .heston1993 h 0 S0 tau r q (-1) K = .ok (some (put K))) ∧
      (∀ lambda K, 0 < K →
        (GoodPower h 1.75 → hestonPrice .carrMadanQuadrature h lambda S0 tau r q 1 K = .ok (some (call K))) ∧
        (GoodPower h (-0.75) → hestonPrice .carrMadanQuadrature h lambda S0 tau r q (-1) K = .ok (some (put K)))) ∧
      (h.rho = 0 → ∀ lambda K, 0 < K → hestonPrice .lipton h lambda S0 tau r q 1 K = .ok (some (call K)) ∧
        hestonPrice .lipton h lambda S0 tau r q (-1) K = .ok (some (put K))) := by
  obtain ⟨μ, hl, hi, hf⟩ := proper_law h hp S0 tau r q ht.le hS
  have := hl.1
  have ha := mean_arbitrage μ (Real.exp (-r * tau)) _ (Real.exp_pos _).le hi hf
  have e : Real.exp (-r * tau) * (S0 * Real.exp ((r - q) * tau)) = S0 * Real.exp (-q * tau) := by
    rw [show -q * tau = -r * tau + (r - q) * tau by ring, Real.exp_add]; ring
  rw [e] at ha
  have h3 := fun K hK => mean_1993 μ h hp S0 tau r q K ht hS hK hl
  refine ⟨_, _, ha, h3, fun lambda K hK => ?_, fun hrho lambda K hK => ?_⟩
  · exact C79_carr_madan_price μ h hp.kappa hp.vv hp.rho.le hp.var0 hp.theta lambda S0 tau r q K ht.le hK hl
  · exact C79_lipton_price_partial μ h hp.kappa hp.vv hrho hp.var0 hp.theta lambda S0 tau r q K ht.le hS hK hl

/-- A usual equity model meets the hypotheses. -/
theorem usual_proper : ProperModel usualModel := by
  constructor <;> unfold usualModel
  · norm_num
  · norm_num
  · simp only; rw [abs_lt]; norm_num
  · norm_num
  · norm_num
  · left; norm_num
  · norm_num

example (r q : ℝ) : hestonPrice .carrMadanQuadrature usualModel 0 100 1 r q 1 110 = hestonPrice .heston1993 usualModel 0 100 1 r q 1 110 :=
  (C102_carr_madan usualModel usual_proper 0 100 1 r q 110 (by norm_num) (by norm_num) (by norm_num)).1 usual_good.1

example (r q : ℝ) : ∃ call put : ℝ → ℝ, ArbitrageFree call put (100 * Real.exp (-q * 1)) (Real.exp (-r * 1)) ∧
    ∀ K, 0 < K → hestonPrice .heston1993 usualModel 0 100 1 r q 1 K = .ok (some (call K)) := by
  obtain ⟨call, put, h1, h2, -⟩ := C102_no_arbitrage usualModel usual_proper 100 1 r q (by norm_num) (by norm_num)
  exact ⟨call, put, h1, fun K hK => (h2 K hK).1⟩

end Frm.Props
