import Verif.Proofs.HestonDecay
import Verif.Props.C79Law
import Verif.Props.C77Law
import Mathlib.Probability.Moments.ComplexMGF
import Mathlib.MeasureTheory.Measure.CharacteristicFunction.Basic
import Mathlib.Analysis.Complex.CauchyIntegral

/-!
The law that C77 and C79 speak of exists, is unique and has the moments the formulas need, for every model the code can be given in earnest:
positive speed and volatility of variance, correlation between minus one and one, nonnegative variances. So the prices of
`/repo/frm/pricing_engine/heston.py` are discounted mean payoffs under that law without further assumption.
-/

open Filter Topology

namespace Frm
namespace Spec

open MeasureTheory

/-- The law of the log spot: the one whose characteristic function is that of the code. -/
def IsHestonLaw (μ : Measure ℝ) (h : Heston) (x tau r q : ℝ) : Prop :=
  IsProbabilityMeasure μ ∧ ∀ u : ℝ, chfAlbrecher h x tau r q u = ∫ s, Complex.exp (Complex.I * u * s) ∂μ

end Spec
end Frm

namespace Frm.Props
open Classical

set_option autoImplicit false

open Frm Frm.Spec Frm.Laws MeasureTheory ProbabilityTheory

/-! ## The strip -/

theorem goodPower_open (h : Heston) : IsOpen {b | GoodPower h b} := by
  apply IsOpen.and
  · exact isOpen_lt continuous_const (by fun_prop)
  · exact isOpen_lt continuous_const (by fun_prop)

theorem goodPower_convex (h : Heston) (hg : GoodHeston h) : Convex ℝ {b | GoodPower h b} := by
  intro x hx y hy a b ha hb hab
  have hr := one_sub_rho_sq h hg
  have hb' : b = 1 - a := by linarith
  subst hb'
  simp only [smul_eq_mul, Set.mem_ofPred_eq]
  refine ⟨?_, ?_⟩
  · have e : h.kappa - h.rho * h.vv * (a * x + (1 - a) * y) = a * (h.kappa - h.rho * h.vv * x) + (1 - a) * (h.kappa - h.rho * h.vv * y) := by ring
    rw [e]
    rcases ha.eq_or_lt with h0 | h0
    · rw [← h0]; simpa using hy.1
    · have := mul_pos h0 hx.1
      have := mul_nonneg hb hy.1.le
      linarith
  · have e : (h.kappa - h.rho * h.vv * (a * x + (1 - a) * y)) ^ 2 - h.vv ^ 2 * ((a * x + (1 - a) * y) ^ 2 - (a * x + (1 - a) * y)) =
        a * ((h.kappa - h.rho * h.vv * x) ^ 2 - h.vv ^ 2 * (x ^ 2 - x)) + (1 - a) * ((h.kappa - h.rho * h.vv * y) ^ 2 - h.vv ^ 2 * (y ^ 2 - y)) +
          h.vv ^ 2 * (1 - h.rho ^ 2) * (a * (1 - a)) * (x - y) ^ 2 := by ring
    rw [e]
    have h3 : 0 ≤ h.vv ^ 2 * (1 - h.rho ^ 2) * (a * (1 - a)) * (x - y) ^ 2 := by positivity
    rcases ha.eq_or_lt with h0 | h0
    · rw [← h0]
      have := hy.2
      simpa using this
    · have := mul_pos h0 hx.2
      have := mul_nonneg hb hy.2.le
      linarith

theorem goodPower_one (h : Heston) (hcorr : h.rho * h.vv < h.kappa) : GoodPower h 1 := by
  have h1 : 0 < h.kappa - h.rho * h.vv * 1 := by linarith
  refine ⟨h1, ?_⟩
  have := sq_pos_of_pos h1
  simpa using this

theorem chf_diff (h : Heston) (hg : GoodHeston h) (hv : 0 ≤ h.var0) (x tau r q : ℝ) (ht : 0 ≤ tau) (u : ℂ) (hu : GoodPower h (-u.im)) :
    DifferentiableAt ℂ (chfAlbrecher h x tau r q) u := by
  have e : chfAlbrecher h x tau r q = fun u => Complex.exp (Complex.I * u * (x + (r - q) * tau) + chfB h u tau + chfD h u tau * h.var0) := by
    funext u
    exact chfAlbrecher_eq h h.var0 hv x tau r q u
  rw [e]
  have h1 := chfB_diff h hg u hu tau ht
  have h2 := chfD_diff h hg u hu tau ht
  have h3 : DifferentiableAt ℂ (fun u : ℂ => Complex.I * u * (x + (r - q) * tau)) u := by fun_prop
  exact ((h3.add h1).add (h2.mul_const _)).cexp

theorem law_charFun {μ : Measure ℝ} {h : Heston} {x tau r q : ℝ} (hl : IsHestonLaw μ h x tau r q) (u : ℝ) :
    charFun μ u = chfAlbrecher h x tau r q u := by
  rw [charFun_apply_real, hl.2 u]
  congr 1
  funext s
  congr 1
  ring

/-- The law exists and there is one only. -/
theorem C79_law_exists (h : Heston) (hk : 0 < h.kappa) (hvv : 0 < h.vv) (hr : |h.rho| ≤ 1) (hv : 0 ≤ h.var0) (hth : 0 ≤ h.theta)
    (x tau r q : ℝ) (ht : 0 ≤ tau) : ∃! μ : Measure ℝ, IsHestonLaw μ h x tau r q := by
  have hg : GoodHeston h := ⟨hk, hvv, hr⟩
  obtain ⟨M, μ, hp, hc, -⟩ := heston_hasLaw h hg hv hth x tau r q ht 0 (goodPower_zero h hg)
  have hl : IsHestonLaw μ h x tau r q := by
    refine ⟨hp, fun u => ?_⟩
    refine (hc u).symm.trans ?_
    rw [charFun_apply_real]
    congr 1
    funext s
    congr 1
    ring
  refine ⟨μ, hl, fun ν hν => ?_⟩
  have := hν.1
  apply Measure.ext_of_charFun
  funext u
  rw [law_charFun hν, law_charFun hl]

/-- Under the law every good power of the spot has a mean, and the characteristic function of the code off the real line is the mean it should be. -/
theorem C79_law_moments (μ : Measure ℝ) (h : Heston) (hk : 0 < h.kappa) (hvv : 0 < h.vv) (hr : |h.rho| ≤ 1) (hv : 0 ≤ h.var0) (hth : 0 ≤ h.theta)
    (x tau r q : ℝ) (ht : 0 ≤ tau) (hl : IsHestonLaw μ h x tau r q) (b : ℝ) (hb : GoodPower h b) : IsTransform μ (chfAlbrecher h x tau r q) b := by
  have hg : GoodHeston h := ⟨hk, hvv, hr⟩
  have := hl.1
  have hint : ∀ c, GoodPower h c → Integrable (fun s => Real.exp (c * s)) μ := by
    intro c hc
    obtain ⟨M, ν, hp, hcf, hm⟩ := heston_hasLaw h hg hv hth x tau r q ht c hc
    have e : ν = μ := by
      apply Measure.ext_of_charFun
      funext u
      rw [hcf u, law_charFun hl]
    rw [e] at hm
    refine ⟨by fun_prop, ?_⟩
    rw [hasFiniteIntegral_iff_ofReal (Eventually.of_forall fun s => (Real.exp_pos _).le)]
    exact hm.trans_lt ENNReal.ofReal_lt_top
  refine ⟨hint b hb, fun v => ?_⟩
  have hsub : {b | GoodPower h b} ⊆ interior (integrableExpSet (fun s : ℝ => s) μ) :=
    interior_maximal (fun c hc => hint c hc) (goodPower_open h)
  have hopen : IsOpen {z : ℂ | GoodPower h z.re} := (goodPower_open h).preimage Complex.continuous_re
  have hconv : Convex ℝ {z : ℂ | GoodPower h z.re} := (goodPower_convex h hg).linear_preimage Complex.reLm
  have hf : AnalyticOnNhd ℂ (complexMGF (fun s : ℝ => s) μ) {z : ℂ | GoodPower h z.re} :=
    analyticOnNhd_complexMGF.mono fun z hz => hsub hz
  have hgd : AnalyticOnNhd ℂ (fun z => chfAlbrecher h x tau r q (-Complex.I * z)) {z : ℂ | GoodPower h z.re} := by
    apply DifferentiableOn.analyticOnNhd _ hopen
    intro z hz
    have h1 : DifferentiableAt ℂ (chfAlbrecher h x tau r q) (-Complex.I * z) := by
      apply chf_diff h hg hv x tau r q ht
      have e : -(-Complex.I * z).im = z.re := by simp
      rw [e]
      exact hz
    exact (h1.comp z (by fun_prop : DifferentiableAt ℂ (fun z : ℂ => -Complex.I * z) z)).differentiableWithinAt
  have h0 : (0 : ℂ) ∈ {z : ℂ | GoodPower h z.re} := by simpa using goodPower_zero h hg
  have hline : ∀ u : ℝ, complexMGF (fun s : ℝ => s) μ (Complex.I * u) = chfAlbrecher h x tau r q (-Complex.I * (Complex.I * u)) := by
    intro u
    rw [show -Complex.I * (Complex.I * (u : ℂ)) = u by linear_combination (-(u : ℂ)) * Complex.I_sq, hl.2 u]
    rfl
  have hfreq : ∃ᶠ z in 𝓝[≠] (0 : ℂ), complexMGF (fun s : ℝ => s) μ z = chfAlbrecher h x tau r q (-Complex.I * z) := by
    have ht : Tendsto (fun n : ℕ => Complex.I * (((1 / ((n : ℝ) + 1)) : ℝ) : ℂ)) atTop (𝓝[≠] (0 : ℂ)) := by
      apply tendsto_nhdsWithin_of_tendsto_nhds_of_eventually_within
      · have h1 : Tendsto (fun n : ℕ => (((1 / ((n : ℝ) + 1)) : ℝ) : ℂ)) atTop (𝓝 ((0 : ℝ) : ℂ)) :=
          (Complex.continuous_ofReal.tendsto 0).comp tendsto_one_div_add_atTop_nhds_zero_nat
        simpa using h1.const_mul Complex.I
      · refine Eventually.of_forall fun n => ?_
        have : ((1 / ((n : ℝ) + 1) : ℝ) : ℂ) ≠ 0 := by
          have h2 : (1 / ((n : ℝ) + 1) : ℝ) ≠ 0 := by positivity
          exact_mod_cast h2
        exact mul_ne_zero Complex.I_ne_zero this
    exact ht.frequently (Frequently.of_forall fun n => hline _)
  have heq := hf.eqOn_of_preconnected_of_frequently_eq hgd hconv.isPreconnected h0 hfreq
  have hz := heq (show Complex.I * ((v : ℂ) - b * Complex.I) ∈ {z : ℂ | GoodPower h z.re} by simpa using hb)
  simp only at hz
  rw [show -Complex.I * (Complex.I * ((v : ℂ) - b * Complex.I)) = v - b * Complex.I by
    linear_combination (-((v : ℂ) - b * Complex.I)) * Complex.I_sq] at hz
  rw [← hz]
  rfl

theorem law_interior (μ : Measure ℝ) (h : Heston) (hk : 0 < h.kappa) (hvv : 0 < h.vv) (hr : |h.rho| ≤ 1) (hv : 0 ≤ h.var0) (hth : 0 ≤ h.theta)
    (x tau r q : ℝ) (ht : 0 ≤ tau) (hl : IsHestonLaw μ h x tau r q) (b : ℝ) (hb : GoodPower h b) :
    b ∈ interior (integrableExpSet (fun s : ℝ => s) μ) :=
  interior_maximal (fun c hc => (C79_law_moments μ h hk hvv hr hv hth x tau r q ht hl c hc).1) (goodPower_open h) hb

/-- The characteristic function decays exponentially, so the law has a density and the inversion integrals converge. -/
theorem C78_decay (h : Heston) (hk : 0 < h.kappa) (hvv : 0 < h.vv) (hr : |h.rho| < 1) (hv : 0 ≤ h.var0) (hth : 0 ≤ h.theta)
    (hpos : 0 < h.var0 ∨ 0 < h.theta) (x tau r q : ℝ) (ht : 0 < tau) :
    ∃ C c : ℝ, 0 < c ∧ ∀ u : ℝ, ‖chfAlbrecher h x tau r q u‖ ≤ C * Real.exp (-c * |u|) ∧ ‖chfFang h tau r q u‖ ≤ C * Real.exp (-c * |u|) := by
  have hg : GoodHeston h := ⟨hk, hvv, hr.le⟩
  obtain ⟨C, c, hc, hb⟩ := heston_decay h hg hr hv hth hpos tau ht
  have hn : ∀ (z : ℂ) (y : ℝ) (u : ℝ), ‖Complex.exp (Complex.I * u * y + z)‖ = ‖Complex.exp z‖ := by
    intro z y u
    rw [Complex.norm_exp, Complex.norm_exp]
    congr 1
    simp
  refine ⟨C, c, hc, fun u => ⟨?_, ?_⟩⟩
  · have e := chfAlbrecher_eq h h.var0 hv x tau r q u
    rw [show ({ h with var0 := h.var0 } : Heston) = h from rfl] at e
    rw [e, add_assoc]
    have := hn (chfB h u tau + chfD h u tau * h.var0) (x + (r - q) * tau) u
    push_cast at this
    rw [this]
    exact hb u
  · rw [chfFang_eq, add_assoc]
    have := hn (chfB h u tau + chfD h u tau * h.var0) ((r - q) * tau) u
    push_cast at this
    rw [this]
    exact hb u

/-! ## The prices -/

/-- The Carr-Madan quadrature prices are discounted mean payoffs under the law of the log spot. -/
theorem C79_carr_madan_price (μ : Measure ℝ) (h : Heston) (hk : 0 < h.kappa) (hvv : 0 < h.vv) (hr : |h.rho| ≤ 1) (hv : 0 ≤ h.var0) (hth : 0 ≤ h.theta)
    (lambda S0 tau r q K : ℝ) (ht : 0 ≤ tau) (hK : 0 < K) (hl : IsHestonLaw μ h (Real.log S0) tau r q) :
    (GoodPower h 1.75 →
      hestonPrice .carrMadanQuadrature h lambda S0 tau r q 1 K = .ok (some (meanPayoff μ (Real.exp (-r * tau)) 1 K))) ∧
    (GoodPower h (-0.75) →
      hestonPrice .carrMadanQuadrature h lambda S0 tau r q (-1) K = .ok (some (meanPayoff μ (Real.exp (-r * tau)) (-1) K))) := by
  have := hl.1
  obtain ⟨h1, h2⟩ := C79_carr_madan_law μ h lambda S0 tau r q K hK
  exact ⟨fun hb => h1 (C79_law_moments μ h hk hvv hr hv hth _ tau r q ht hl _ hb), fun hb => h2 (C79_law_moments μ h hk hvv hr hv hth _ tau r q ht hl _ hb)⟩

/-- Put-call parity of the Carr-Madan quadrature prices, from the parameters alone. -/
theorem C79_carr_madan_price_parity (h : Heston) (hk : 0 < h.kappa) (hvv : 0 < h.vv) (hr : |h.rho| ≤ 1) (hv : 0 ≤ h.var0) (hth : 0 ≤ h.theta)
    (lambda S0 tau r q K : ℝ) (ht : 0 ≤ tau) (hS : 0 < S0) (hK : 0 < K) (hup : GoodPower h 1.75) (hdown : GoodPower h (-0.75)) :
    ∃ call put, hestonPrice .carrMadanQuadrature h lambda S0 tau r q 1 K = .ok (some call) ∧
      hestonPrice .carrMadanQuadrature h lambda S0 tau r q (-1) K = .ok (some put) ∧
      call - put = S0 * Real.exp (-q * tau) - K * Real.exp (-r * tau) := by
  obtain ⟨μ, hl, -⟩ := C79_law_exists h hk hvv hr hv hth (Real.log S0) tau r q ht
  have := hl.1
  have hg : GoodHeston h := ⟨hk, hvv, hr⟩
  have hone : GoodPower h 1 := by
    have := goodPower_convex h hg hup hdown (a := 0.7) (b := 0.3) (by norm_num) (by norm_num) (by norm_num)
    have e : (0.7 : ℝ) • (1.75 : ℝ) + (0.3 : ℝ) • (-0.75 : ℝ) = 1 := by norm_num
    rw [e] at this
    exact this
  refine C79_carr_madan_parity μ h lambda S0 tau r q K hv (by have := hone.1; linarith) hS hK (fun b hb => ?_)
  apply C79_law_moments μ h hk hvv hr hv hth _ tau r q ht hl
  simp only [Set.mem_insert_iff, Set.mem_singleton_iff] at hb
  rcases hb with rfl | rfl | rfl
  · exact hdown
  · exact hone
  · exact hup

/-- Without correlation the Lipton price is the discounted mean payoff under the law of the log spot. -/
theorem C79_lipton_price_partial (μ : Measure ℝ) (h : Heston) (hk : 0 < h.kappa) (hvv : 0 < h.vv) (hrho : h.rho = 0) (hv : 0 ≤ h.var0) (hth : 0 ≤ h.theta)
    (lambda S0 tau r q K : ℝ) (ht : 0 ≤ tau) (hS : 0 < S0) (hK : 0 < K) (hl : IsHestonLaw μ h (Real.log S0) tau r q) :
    hestonPrice .lipton h lambda S0 tau r q 1 K = .ok (some (meanPayoff μ (Real.exp (-r * tau)) 1 K)) ∧
    hestonPrice .lipton h lambda S0 tau r q (-1) K = .ok (some (meanPayoff μ (Real.exp (-r * tau)) (-1) K)) := by
  have := hl.1
  have hr : |h.rho| ≤ 1 := by rw [hrho]; simp
  refine C79_lipton_law_partial μ h lambda S0 tau r q K hv hk hvv hrho hS hK (fun b hb => ?_)
  apply C79_law_moments μ h hk hvv hr hv hth _ tau r q ht hl
  simp only [Set.mem_insert_iff, Set.mem_singleton_iff] at hb
  rcases hb with rfl | rfl
  · refine ⟨by rw [hrho]; linarith, ?_⟩
    rw [hrho]
    have h1 : 0 < h.kappa ^ 2 := by positivity
    have h2 : 0 < h.vv ^ 2 := by positivity
    linarith
  · exact goodPower_one h (by rw [hrho, zero_mul]; exact hk)

/-- Heston's 1993 price is the discounted mean payoff under the law of the log spot of the model with the risk premium. -/
theorem C79_heston1993_price (μ : Measure ℝ) (h : Heston) (lambda S0 tau r q K : ℝ) (hk : 0 ≤ h.kappa) (hvv : 0 < h.vv) (hr : |h.rho| < 1)
    (hv : 0 ≤ h.var0) (hth : 0 ≤ h.theta) (hpos : 0 < h.var0 ∨ 0 < h.kappa * h.theta) (ht : 0 < tau) (hS : 0 < S0) (hK : 0 < K)
    (hsum : 0 < h.kappa + lambda) (hcorr : h.rho * h.vv < h.kappa + lambda)
    (hl : IsHestonLaw μ { h with kappa := h.kappa + lambda, theta := h.kappa * h.theta / (h.kappa + lambda) } (Real.log S0) tau r q) :
    hestonPrice .heston1993 h lambda S0 tau r q 1 K = .ok (some (meanPayoff μ (Real.exp (-r * tau)) 1 K)) ∧
    hestonPrice .heston1993 h lambda S0 tau r q (-1) K = .ok (some (meanPayoff μ (Real.exp (-r * tau)) (-1) K)) := by
  have := hl.1
  have hth' : 0 ≤ h.kappa * h.theta / (h.kappa + lambda) := by positivity
  have key := C79_heston1993_law μ h lambda S0 tau r q K hv hS hK hsum.ne' hcorr
  obtain ⟨g, hgdef⟩ : ∃ g : Heston, g = { h with kappa := h.kappa + lambda, theta := h.kappa * h.theta / (h.kappa + lambda) } := ⟨_, rfl⟩
  simp only at key
  rw [← hgdef] at hl key
  have gk : 0 < g.kappa := by rw [hgdef]; exact hsum
  have gvv : 0 < g.vv := by rw [hgdef]; exact hvv
  have gr : |g.rho| < 1 := by rw [hgdef]; exact hr
  have gv : 0 ≤ g.var0 := by rw [hgdef]; exact hv
  have gpos : 0 < g.var0 ∨ 0 < g.theta := by
    rw [hgdef]
    exact hpos.imp id fun h1 => div_pos h1 hsum
  have gth : 0 ≤ g.theta := by rw [hgdef]; exact hth'
  have gcorr : g.rho * g.vv < g.kappa := by rw [hgdef]; exact hcorr
  clear hgdef
  have hg : GoodHeston g := ⟨gk, gvv, gr.le⟩
  have h0 := goodPower_zero g hg
  have h1 := goodPower_one g gcorr
  have hT := C79_law_moments μ g gk gvv gr.le gv gth _ tau r q ht.le hl
  have hI := law_interior μ g gk gvv gr.le gv gth _ tau r q ht.le hl
  have hs : Integrable (fun s => s) μ := by
    have := integrable_pow_mul_exp_of_mem_interior_integrableExpSet (hI 0 h0) 1
    simpa using this
  have hse : Integrable (fun s => s * Real.exp s) μ := by
    have := integrable_pow_mul_exp_of_mem_interior_integrableExpSet (hI 1 h1) 1
    simpa using this
  have hfwd : 0 < S0 * Real.exp ((r - q) * tau) := mul_pos hS (Real.exp_pos _)
  have hfC : ((S0 * Real.exp ((r - q) * tau) : ℝ) : ℂ) ≠ 0 := by exact_mod_cast hfwd.ne'
  have hb := C78_bounded g gk gvv gr.le gv gth (Real.log S0) tau r q ht.le
  obtain ⟨C, c, hc, hdec⟩ := C78_decay g gk gvv gr gv gth gpos (Real.log S0) tau r q ht
  have hcd : ∀ w : ℝ, DifferentiableAt ℝ (fun w : ℝ => chfAlbrecher g (Real.log S0) tau r q w) w := by
    intro w
    have hd := chf_diff g hg gv (Real.log S0) tau r q ht.le w (by simpa using h0)
    exact (hd.hasDerivAt.comp_ofReal).differentiableAt
  have hcd1 : ∀ w : ℝ, DifferentiableAt ℝ (fun w : ℝ => chfAlbrecher g (Real.log S0) tau r q (w - Complex.I) / ((S0 * Real.exp ((r - q) * tau) : ℝ) : ℂ)) w := by
    intro w
    have hd := chf_diff g hg gv (Real.log S0) tau r q ht.le (w - Complex.I) (by simpa using h1)
    have hd2 : DifferentiableAt ℂ (fun z : ℂ => chfAlbrecher g (Real.log S0) tau r q (z - Complex.I) / ((S0 * Real.exp ((r - q) * tau) : ℝ) : ℂ)) (w : ℂ) :=
      (DifferentiableAt.comp (w : ℂ) (g := chfAlbrecher g (Real.log S0) tau r q) (f := fun z : ℂ => z - Complex.I) hd (by fun_prop)).div_const _
    exact (hd2.hasDerivAt.comp_ofReal).differentiableAt
  have hi0 := inversion_integrable (fun w : ℝ => chfAlbrecher g (Real.log S0) tau r q w) (Real.log K) (by simpa using hb.1)
    (continuous_iff_continuousAt.2 fun w => (hcd w).continuousAt) (hcd 0) C c hc (fun w hw => by
      have := (hdec w).1
      rwa [abs_of_nonneg hw] at this)
  -- the line of the spot
  have hg2 := spot_good g hg gcorr
  obtain ⟨C2, c2, hc2, hdec2⟩ := heston_decay (spotMeasure g) hg2 (by unfold spotMeasure; simpa using gr) (by exact gv)
    (by unfold spotMeasure; simp only; have : 0 < g.kappa - g.rho * g.vv := by linarith
        positivity) (gpos.imp id fun h1 => by
        unfold spotMeasure
        exact div_pos (mul_pos gk h1) (by linarith)) tau ht
  have hi1 := inversion_integrable (fun w : ℝ => chfAlbrecher g (Real.log S0) tau r q (w - Complex.I) / ((S0 * Real.exp ((r - q) * tau) : ℝ) : ℂ)) (Real.log K)
    (by
      have := C78_forward g gv gcorr S0 tau r q hS
      simp only [Complex.ofReal_zero, zero_sub]
      rw [this, div_self hfC])
    (continuous_iff_continuousAt.2 fun w => (hcd1 w).continuousAt) (hcd1 0) C2 c2 hc2 (fun w hw => by
      have e := chfAlbrecher_eq g g.var0 gv (Real.log S0) tau r q (w - Complex.I)
      rw [show ({ g with var0 := g.var0 } : Heston) = g from rfl, spot_B g gcorr, spot_D, add_assoc, Complex.exp_add] at e
      have h2 := hdec2 (-w)
      rw [abs_neg, abs_of_nonneg hw, Complex.ofReal_neg] at h2
      have h3 : ‖Complex.exp (Complex.I * (w - Complex.I) * ((Real.log S0 : ℂ) + (r - q) * tau))‖ = S0 * Real.exp ((r - q) * tau) := by
        have e4 : Complex.I * (w - Complex.I) * ((Real.log S0 : ℂ) + (r - q) * tau) =
            (((Real.log S0 + (r - q) * tau) : ℝ) : ℂ) + ((w * (Real.log S0 + (r - q) * tau) : ℝ) : ℂ) * Complex.I := by
          push_cast
          linear_combination (-((Real.log S0 : ℂ) + (r - q) * tau)) * Complex.I_sq
        rw [e4, Complex.exp_add, norm_mul, Complex.norm_exp_ofReal_mul_I, mul_one, Complex.norm_exp, Complex.ofReal_re, Real.exp_add, Real.exp_log hS]
      rw [norm_div, e, norm_mul, h3, Complex.norm_real, Real.norm_of_nonneg hfwd.le, mul_div_cancel_left₀ _ hfwd.ne']
      exact h2)
  exact key (hT 0 h0) (hT 1 h1) hs hse hi0 hi1

/-! ## The cosine prices -/

/-- The mass of the law beyond the range of the cosine expansion, in terms of the characteristic function of the code. -/
theorem law_tail (μ : Measure ℝ) (h : Heston) (hk : 0 < h.kappa) (hvv : 0 < h.vv) (hr : |h.rho| ≤ 1) (hv : 0 ≤ h.var0) (hth : 0 ≤ h.theta)
    (x tau r q : ℝ) (ht : 0 ≤ tau) (hl : IsHestonLaw μ h x tau r q) (k a b m p : ℝ) (hm : 0 ≤ m) (hp : 0 ≤ p) (hgm : GoodPower h (-m)) (hgp : GoodPower h p) :
    μ.real {s | s - k < a ∨ b < s - k} ≤ (chfAlbrecher h x tau r q (m * Complex.I)).re * Real.exp (m * (k + a)) +
      (chfAlbrecher h x tau r q (-p * Complex.I)).re * Real.exp (-p * (k + b)) := by
  have := hl.1
  have hmgf : ∀ c, GoodPower h c → Integrable (fun s => Real.exp (c * s)) μ ∧ mgf (fun s : ℝ => s) μ c = (chfAlbrecher h x tau r q (-c * Complex.I)).re := by
    intro c hc
    have h1 := C79_law_moments μ h hk hvv hr hv hth x tau r q ht hl c hc
    refine ⟨h1.1, ?_⟩
    have h2 := h1.2 0
    rw [show ((0 : ℝ) : ℂ) - (c : ℂ) * Complex.I = -c * Complex.I by push_cast; ring] at h2
    have e : ∀ s : ℝ, Complex.exp (Complex.I * (-c * Complex.I) * s) = ((Real.exp (c * s) : ℝ) : ℂ) := by
      intro s
      push_cast
      congr 1
      linear_combination (-(c : ℂ) * s) * Complex.I_sq
    simp only [e] at h2
    rw [integral_complex_ofReal] at h2
    rw [h2, Complex.ofReal_re]
    rfl
  obtain ⟨im, em⟩ := hmgf (-m) hgm
  obtain ⟨ip, ep⟩ := hmgf p hgp
  have t1 := measure_le_le_exp_mul_mgf (μ := μ) (X := fun s : ℝ => s) (t := -m) (k + a) (by linarith) im
  have t2 := measure_ge_le_exp_mul_mgf (μ := μ) (X := fun s : ℝ => s) (t := p) (k + b) hp ip
  rw [em] at t1
  rw [ep] at t2
  have hsub : {s : ℝ | s - k < a ∨ b < s - k} ⊆ {s | s ≤ k + a} ∪ {s | k + b ≤ s} := by
    intro s hs
    rcases hs with hs | hs
    · exact Or.inl (by simp only [Set.mem_ofPred_eq]; linarith)
    · exact Or.inr (by simp only [Set.mem_ofPred_eq]; linarith)
  have h3 := (measureReal_mono hsub).trans (measureReal_union_le (μ := μ) _ _)
  push_cast at t1
  rw [neg_neg] at t1
  rw [neg_neg] at t1
  nlinarith

/-- The cosine prices lie within an error of the mean payoff under the law that the characteristic function of the code itself bounds. -/
theorem C77_law_error (μ : Measure ℝ) (h : Heston) (hk : 0 < h.kappa) (hvv : 0 < h.vv) (hr : |h.rho| ≤ 1) (hv : 0 ≤ h.var0) (hth : 0 ≤ h.theta)
    (S0 tau r q L K a b m p : ℝ) (N : Nat) (hN : 0 < N) (ht : 0 ≤ tau) (hab : cosRange (.heston h (r - q) tau) L = .ok (a, b)) (ha : a < 0) (hb : 0 < b)
    (hS : 0 < S0) (hK : 0 < K) (hl : IsHestonLaw μ h (Real.log S0) tau r q)
    (hm : 0 ≤ m) (hp : 0 ≤ p) (hgm : GoodPower h (-m)) (hgp : GoodPower h p) :
    let bound := Real.exp (-r * tau) * K * (4 * (b - a) / Real.pi ^ 2 * (1 + Real.exp a + (b - a) / Real.pi) / N +
      ((chfAlbrecher h (Real.log S0) tau r q (m * Complex.I)).re * Real.exp (m * (Real.log K + a)) +
        (chfAlbrecher h (Real.log S0) tau r q (-p * Complex.I)).re * Real.exp (-p * (Real.log K + b))))
    (∃ put, cosPrice h S0 tau r q [-1] [K] N L true = .ok [some put] ∧ |put - meanPayoff μ (Real.exp (-r * tau)) (-1) K| ≤ bound) ∧
    (h.rho * h.vv < h.kappa →
      ∃ call, cosPrice h S0 tau r q [1] [K] N L true = .ok [some call] ∧ |call - meanPayoff μ (Real.exp (-r * tau)) 1 K| ≤ bound) := by
  intro bound
  have := hl.1
  have hg : GoodHeston h := ⟨hk, hvv, hr⟩
  have hT := C79_law_moments μ h hk hvv hr hv hth _ tau r q ht hl
  have htail := law_tail μ h hk hvv hr hv hth _ tau r q ht hl (Real.log K) a b m p hm hp hgm hgp
  have hle : Real.exp (-r * tau) * K * (4 * (b - a) / Real.pi ^ 2 * (1 + Real.exp a + (b - a) / Real.pi) / N +
      μ.real {s | s - Real.log K < a ∨ b < s - Real.log K}) ≤ bound := by
    apply mul_le_mul_of_nonneg_left _ (by positivity)
    linarith
  constructor
  · obtain ⟨put, h1, h2⟩ := C77_error μ h S0 tau r q L K a b N hN hab ha hb hv hS hK (hT 0 (goodPower_zero h hg))
    exact ⟨put, h1, h2.trans hle⟩
  · intro hcorr
    obtain ⟨call, h1, h2⟩ := C77_call_error μ h S0 tau r q L K a b N hN hab ha hb hv hcorr hS hK (fun c hc => by
      simp only [Set.mem_insert_iff, Set.mem_singleton_iff] at hc
      rcases hc with rfl | rfl
      · exact hT 0 (goodPower_zero h hg)
      · exact hT 1 (goodPower_one h hcorr))
    exact ⟨call, h1, h2.trans hle⟩

/-! ## A model that meets the hypotheses -/

/-- A usual equity model. -/
noncomputable def usualModel : Heston := ⟨0.04, 0.5, 2, 0.04, -0.7⟩

theorem usual_good : GoodPower usualModel 1.75 ∧ GoodPower usualModel (-0.75) := by
  unfold GoodPower usualModel
  norm_num

example (lambda S0 tau r q K : ℝ) (ht : 0 < tau) (hS : 0 < S0) (hK : 0 < K) :
    ∃ μ : Measure ℝ, IsProbabilityMeasure μ ∧
      (∀ cp ∈ ({1, -1} : Set ℝ), hestonPrice .carrMadanQuadrature usualModel lambda S0 tau r q cp K = .ok (some (meanPayoff μ (Real.exp (-r * tau)) cp K)) ∧
        hestonPrice .heston1993 usualModel 0 S0 tau r q cp K = .ok (some (meanPayoff μ (Real.exp (-r * tau)) cp K))) := by
  have hr : |usualModel.rho| < 1 := by unfold usualModel; simp only; rw [abs_lt]; norm_num
  have e1 : (0 : ℝ) < usualModel.kappa := by unfold usualModel; norm_num
  have e2 : (0 : ℝ) < usualModel.vv := by unfold usualModel; norm_num
  have e3 : (0 : ℝ) < usualModel.var0 := by unfold usualModel; norm_num
  have e4 : (0 : ℝ) ≤ usualModel.theta := by unfold usualModel; norm_num
  obtain ⟨μ, hl, -⟩ := C79_law_exists usualModel e1 e2 hr.le e3.le e4 (Real.log S0) tau r q ht.le
  have h1 := C79_carr_madan_price μ usualModel e1 e2 hr.le e3.le e4 lambda S0 tau r q K ht.le hK hl
  have e5 : ({ usualModel with kappa := usualModel.kappa + 0, theta := usualModel.kappa * usualModel.theta / (usualModel.kappa + 0) } : Heston) = usualModel := by
    unfold usualModel; norm_num
  have h2 := C79_heston1993_price μ usualModel 0 S0 tau r q K e1.le e2 hr e3.le e4 (Or.inl e3) ht hS hK (by linarith) (by unfold usualModel; norm_num) (by rw [e5]; exact hl)
  refine ⟨μ, hl.1, fun cp hcp => ?_⟩
  simp only [Set.mem_insert_iff, Set.mem_singleton_iff] at hcp
  rcases hcp with rfl | rfl
  · exact ⟨h1.1 usual_good.1, h2.1⟩
  · exact ⟨h1.2 usual_good.2, h2.2⟩

end Frm.Props
