import Verif.Props.C83
import Verif.Props.C79
import Mathlib.Analysis.SpecialFunctions.ImproperIntegrals
import Mathlib.Analysis.Real.Pi.Bounds
import Mathlib.MeasureTheory.Integral.IntegralEqImproper

/-!
# A surface to which C83 applies

One quote, one expiry: with a long time to expiry the calibrated model without correlation is close enough to the quote.
-/

namespace Frm.Props
open Classical MeasureTheory Set Filter Topology

set_option autoImplicit false

open Frm Frm.Spec

/-- A calibrated model: the initial variance is the square of a quote of 3.16%. -/
noncomputable def uncorrelated : Heston := ⟨Real.sqrt 0.001 ^ 2, 1, 1.5, 0, 0⟩

noncomputable def uncorrelatedRoot (v : ℝ) : ℝ := Real.sqrt (v ^ 2 * 1 ^ 2 * (1 - 0 ^ 2) + (1.5 - 0 * 1 / 2) ^ 2 + (1 : ℝ) ^ 2 / 4)

noncomputable def uncorrelatedBeta (tau v : ℝ) : ℝ :=
  (1 - Real.exp (-uncorrelatedRoot v * tau)) / (1.5 + uncorrelatedRoot v + (-1.5 + uncorrelatedRoot v) * Real.exp (-uncorrelatedRoot v * tau))

theorem uncorrelated_integrand (tau : ℝ) (ht : 0 < tau) (v : ℝ) :
    0 < uncorrelatedBeta tau v ∧ uncorrelatedBeta tau v < 1 / 3 ∧
    3 < 1.5 + uncorrelatedRoot v + (-1.5 + uncorrelatedRoot v) * Real.exp (-uncorrelatedRoot v * tau) ∧
    liptonIntegrand uncorrelated 1 tau 0 0 1 v = Real.exp (-(v ^ 2 + 0.25) * uncorrelatedBeta tau v * 0.001) / (v ^ 2 + 0.25) := by
  unfold uncorrelatedBeta uncorrelatedRoot
  have hx : 0 ≤ v ^ 2 * 1 ^ 2 * (1 - 0 ^ 2) + (1.5 - 0 * 1 / 2) ^ 2 + (1 : ℝ) ^ 2 / 4 := by positivity
  set z := Real.sqrt (v ^ 2 * 1 ^ 2 * (1 - 0 ^ 2) + (1.5 - 0 * 1 / 2) ^ 2 + (1 : ℝ) ^ 2 / 4) with hz
  have hz1 : 1.5 < z := by
    rw [hz]
    apply Real.lt_sqrt_of_sq_lt
    nlinarith [sq_nonneg v]
  set e := Real.exp (-z * tau) with he
  have he0 : 0 < e := Real.exp_pos _
  have he1 : e < 1 := by
    rw [he]
    apply Real.exp_lt_one_iff.2
    nlinarith
  have hden : 3 < 1.5 + z + (-1.5 + z) * e := by nlinarith [mul_pos (by linarith : 0 < -1.5 + z) he0]
  refine ⟨div_pos (by linarith) (by linarith), ?_, hden, ?_⟩
  · rw [div_lt_div_iff₀ (by linarith) (by norm_num)]
    linarith
  · unfold liptonIntegrand
    have hsq : Real.sqrt 0.001 ^ 2 = 0.001 := Real.sq_sqrt (by norm_num)
    simp only [uncorrelated, hsq]
    have hzeta : csqrt (((v ^ 2 * 1 ^ 2 * (1 - 0 ^ 2) + (1.5 - 0 * 1 / 2) ^ 2 + (1 : ℝ) ^ 2 / 4 : ℝ) : ℂ) +
        2 * Complex.I * v * ((1 : ℝ) : ℂ) * ((0 : ℝ) : ℂ) * ((1.5 - 0 * 1 / 2 : ℝ) : ℂ)) = (z : ℂ) := by
      rw [hz, ← csqrt_real _ hx]
      congr 1
      simp
    rw [hzeta]
    have hexp : Complex.exp (-(z : ℂ) * tau) = (e : ℂ) := by rw [he]; push_cast; ring_nf
    rw [hexp]
    have key : (-Complex.I * (v : ℂ) + 0.5) * ((Real.log (1 / 1) + (0 - 0) * tau : ℝ) : ℂ) + -((1.5 * 0 : ℝ) : ℂ) / ((1 : ℝ) : ℂ) ^ 2 *
          ((-(Complex.I * ((1.5 : ℝ) : ℂ) * ((0 : ℝ) : ℂ) * ((1 : ℝ) : ℂ) + ((1.5 - 0 * 1 / 2 : ℝ) : ℂ)) + z) * tau +
            2 * Complex.log ((Complex.I * ((1.5 : ℝ) : ℂ) * ((0 : ℝ) : ℂ) * ((1 : ℝ) : ℂ) + ((1.5 - 0 * 1 / 2 : ℝ) : ℂ) + z +
              (-(Complex.I * ((1.5 : ℝ) : ℂ) * ((0 : ℝ) : ℂ) * ((1 : ℝ) : ℂ) + ((1.5 - 0 * 1 / 2 : ℝ) : ℂ)) + z) * e) / (2 * z))) -
        ((v ^ 2 + 0.25 : ℝ) : ℂ) * ((1 - e) / (Complex.I * ((1.5 : ℝ) : ℂ) * ((0 : ℝ) : ℂ) * ((1 : ℝ) : ℂ) + ((1.5 - 0 * 1 / 2 : ℝ) : ℂ) + z +
              (-(Complex.I * ((1.5 : ℝ) : ℂ) * ((0 : ℝ) : ℂ) * ((1 : ℝ) : ℂ) + ((1.5 - 0 * 1 / 2 : ℝ) : ℂ)) + z) * e)) * ((0.001 : ℝ) : ℂ) =
        ((-(v ^ 2 + 0.25) * ((1 - e) / (1.5 + z + (-1.5 + z) * e)) * 0.001 : ℝ) : ℂ) := by
      have h1 : (Real.log (1 / 1) + (0 - 0) * tau : ℝ) = 0 := by simp
      have h2 : (1.5 * 0 : ℝ) = 0 := by simp
      have h3 : (1.5 - 0 * 1 / 2 : ℝ) = 1.5 := by norm_num
      rw [h1, h2, h3]
      simp only [Complex.ofReal_zero, mul_zero, zero_mul, zero_add, neg_zero, zero_div, zero_sub]
      push_cast
      ring
    rw [key, Complex.exp_ofReal_re]

theorem integral_quarter : IntegrableOn (fun v : ℝ => 1 / (v ^ 2 + 0.25)) (Ioi 0) ∧ ∫ v in Ioi (0 : ℝ), 1 / (v ^ 2 + 0.25) = Real.pi := by
  have hfun : ∀ v : ℝ, 1 / (v ^ 2 + 0.25) = 4 * (1 + (2 * v) ^ 2)⁻¹ := by
    intro v
    have : (0 : ℝ) < 1 + (2 * v) ^ 2 := by positivity
    have h2 : (0 : ℝ) < v ^ 2 + 0.25 := by positivity
    field_simp
    ring
  simp only [hfun]
  have hint : Integrable (fun v : ℝ => (1 + (2 * v) ^ 2)⁻¹) := integrable_inv_one_add_sq.comp_mul_left' (by norm_num)
  refine ⟨(hint.const_mul 4).integrableOn, ?_⟩
  rw [integral_const_mul, integral_comp_mul_left_Ioi (fun x => (1 + x ^ 2)⁻¹) 0 (by norm_num : (0 : ℝ) < 2), mul_zero, integral_Ioi_inv_one_add_sq,
    Real.arctan_zero]
  simp only [smul_eq_mul]
  ring

theorem uncorrelated_bounds (tau : ℝ) (ht : 0 < tau) :
    0 < liptonPrice uncorrelated 1 tau 0 0 (-1) 1 ∧ liptonPrice uncorrelated 1 tau 0 0 (-1) 1 < 0.8 := by
  set g := liptonIntegrand uncorrelated 1 tau 0 0 1 with hg
  have hgv : ∀ v, g v = Real.exp (-(v ^ 2 + 0.25) * uncorrelatedBeta tau v * 0.001) / (v ^ 2 + 0.25) := fun v => (uncorrelated_integrand tau ht v).2.2.2
  have hroot : Continuous uncorrelatedRoot := by
    unfold uncorrelatedRoot
    fun_prop
  have hbeta : Continuous (uncorrelatedBeta tau) := by
    unfold uncorrelatedBeta
    refine Continuous.div (by fun_prop) (by fun_prop) (fun v => ?_)
    have := (uncorrelated_integrand tau ht v).2.2.1
    linarith
  have hcont : Continuous g := by
    rw [funext hgv]
    refine Continuous.div (by fun_prop) (by fun_prop) (fun v => ?_)
    positivity
  have hpos : ∀ v, 0 < g v := by
    intro v
    rw [hgv]
    positivity
  have hlt : ∀ v, g v < 1 / (v ^ 2 + 0.25) := by
    intro v
    rw [hgv]
    apply div_lt_div_of_pos_right _ (by positivity)
    apply Real.exp_lt_one_iff.2
    have h1 := (uncorrelated_integrand tau ht v).1
    have h2 : 0 < (v ^ 2 + 0.25) * uncorrelatedBeta tau v := by positivity
    linarith
  obtain ⟨hf, hfv⟩ := integral_quarter
  have hgi : IntegrableOn g (Ioi 0) := by
    refine Integrable.mono' hf hcont.aestronglyMeasurable (Eventually.of_forall (fun v => ?_))
    rw [Real.norm_of_nonneg (hpos v).le]
    exact (hlt v).le
  have hupper : ∫ v in Ioi (0 : ℝ), g v < Real.pi := by
    have h1 : 0 < ∫ v in Ioi (0 : ℝ), (1 / (v ^ 2 + 0.25) - g v) := by
      rw [integral_pos_iff_support_of_nonneg (fun v => sub_nonneg.2 (hlt v).le) (hf.sub hgi)]
      have : Function.support (fun v => 1 / (v ^ 2 + 0.25) - g v) = univ := by
        ext v
        simp only [Function.mem_support, mem_univ, iff_true]
        exact (sub_pos.2 (hlt v)).ne'
      rw [this]
      simp
    rw [integral_sub hf hgi, hfv] at h1
    linarith
  have hlower : 0.7 ≤ ∫ v in Ioi (0 : ℝ), g v := by
    have h1 : ∫ v in Ioc (0 : ℝ) 1, g v ≤ ∫ v in Ioi (0 : ℝ), g v :=
      setIntegral_mono_set hgi (Eventually.of_forall (fun v => (hpos v).le)) (HasSubset.Subset.eventuallyLE (fun v hv => hv.1))
    have h2 : ∫ v in Ioc (0 : ℝ) 1, (0.7 : ℝ) ≤ ∫ v in Ioc (0 : ℝ) 1, g v := by
      refine setIntegral_mono_on (by simp) (hgi.mono_set (fun v hv => hv.1)) measurableSet_Ioc (fun v hv => ?_)
      rw [hgv, le_div_iff₀ (by positivity)]
      obtain ⟨hb0, hb1, -, -⟩ := uncorrelated_integrand tau ht v
      have hv2 : v ^ 2 ≤ 1 := by nlinarith [hv.1, hv.2]
      have h3 : (v ^ 2 + 0.25) * uncorrelatedBeta tau v ≤ 1.25 * (1 / 3) := mul_le_mul (by linarith) hb1.le hb0.le (by norm_num)
      have h4 := Real.add_one_le_exp (-(v ^ 2 + 0.25) * uncorrelatedBeta tau v * 0.001)
      nlinarith
    have h5 : ∫ v in Ioc (0 : ℝ) 1, (0.7 : ℝ) = 0.7 := by simp
    linarith
  have hprice : liptonPrice uncorrelated 1 tau 0 0 (-1) 1 = 1 - (∫ v in Ioi (0 : ℝ), g v) / Real.pi := by
    unfold liptonPrice
    rw [if_neg (by norm_num), ← hg]
    simp
    ring
  have hpi := Real.pi_pos
  have hpi2 := Real.pi_lt_d2
  rw [hprice]
  constructor
  · rw [sub_pos, div_lt_one hpi]
    exact hupper
  · have : 0.2 < (∫ v in Ioi (0 : ℝ), g v) / Real.pi := by
      rw [lt_div_iff₀ hpi]
      linarith
    linarith

/-- Solvers that find a positive root when there is one; the optimiser stops at a model without correlation. -/
noncomputable def rootSolvers : FxSolvers :=
  ⟨fun _ g => if h : ∃ v, 0 < v ∧ g v = some 0 then .ok h.choose else .error .runtime, fun _ _ => .error .value, fun _ _ => .error .value,
    fun _ _ => .ok (1, 0, 0), fun _ _ _ => .error .value, fun _ _ => .error .value⟩

theorem rootSolvers_ok : VolSolversOk rootSolvers := by
  refine ⟨fun g f v h => ?_, fun b f v h => by cases h⟩
  simp only [rootSolvers] at h
  split at h
  · rename_i hex
    cases h
    exact hex.choose_spec.2
  · cases h

/-- The put struck at the forward. -/
noncomputable def atForward (tau : ℝ) : GkRow := ⟨1, tau, 0, 0, -1, 1, 0, none⟩

theorem atForward_solved {tau : ℝ} (ht : 0 < tau) {X top guess : ℝ} (hX : 0 < X) (hX1 : X < 1) (htop : 0 < top)
    (hb : X < blackF (-1) 1 1 (top * Real.sqrt tau)) :
    ∃ v, 0 < v ∧ v < top ∧ gkSolveImpliedVol (rootSolvers.newton guess) rootSolvers.brentq (atForward tau) X = .ok (.vol v) := by
  have hadm : FxAdmissible (atForward tau) := ⟨by norm_num [atForward], ht.le, Or.inr rfl, fun F hF => (by cases hF)⟩
  have hA : assetPv (atForward tau) = 1 := by simp [assetPv, atForward]
  have hB : strikePv (atForward tau) 0 = 1 := by simp [strikePv, atForward]
  have hr : DomesticRate (atForward tau) 0 := rfl
  have hK : 0 < (atForward tau).K := by norm_num [atForward]
  obtain ⟨u, ⟨hu, hpu⟩, -⟩ := (C50_range _ hadm hK ht 0 hr X).2 (by
    rw [hA, hB]
    refine ⟨by simpa using hX, ?_⟩
    split
    · exact hX1
    · exact hX1)
  have hex : ∃ v, 0 < v ∧ gkError (atForward tau) X v = some 0 := by
    refine ⟨u, hu, ?_⟩
    rw [pricedAt_iff hadm] at hpu
    unfold gkError
    rw [show gkPrice { atForward tau with vol := u, fwd := none } = some X from hpu]
    simp
  have hsol : gkSolveImpliedVol (rootSolvers.newton guess) rootSolvers.brentq (atForward tau) X = .ok (.vol hex.choose) := by
    unfold gkSolveImpliedVol
    rw [if_neg (not_not.2 (show gkValid { atForward tau with fwd := none } from hadm))]
    simp only [rootSolvers]
    rw [dif_pos hex]
  refine ⟨hex.choose, hex.choose_spec.1, ?_, hsol⟩
  have hp := (C50_solver _ _ (rootSolvers_ok.1 guess) rootSolvers_ok.2 _ _ _ hsol).1
  have hp' := (pricedAt_black (x := atForward tau) hadm hK ht hr hex.choose_spec.1.ne').1 hp
  rw [hA, hB] at hp'
  by_contra hn
  rw [not_lt] at hn
  have hs := Real.sqrt_pos.2 ht
  have hmono := (black_strictMono one_pos one_pos (Or.inr rfl : (-1 : ℝ) = 1 ∨ (-1 : ℝ) = -1)).monotoneOn
    (show top * Real.sqrt tau ∈ Ioi 0 from mul_pos htop hs) (show hex.choose * Real.sqrt tau ∈ Ioi 0 from mul_pos hex.choose_spec.1 hs)
    (mul_le_mul_of_nonneg_right hn hs.le)
  have e : (atForward tau).cp = -1 := rfl
  rw [e] at hp'
  have e2 : (atForward tau).tau = tau := rfl
  rw [e2] at hp'
  linarith

theorem long_expiry : ∃ tau : ℝ, 0 < tau ∧ 0.8 < blackF (-1) 1 1 (0.06 * Real.sqrt tau) := by
  have h := (black_call_atTop (A := 1) (B := 1)).eventually (lt_mem_nhds (show (0.8 : ℝ) < 1 by norm_num))
  obtain ⟨s, hs, hs0⟩ := (h.and (eventually_gt_atTop 0)).exists
  refine ⟨(s / 0.06) ^ 2, by positivity, ?_⟩
  rw [Real.sqrt_sq (by positivity), mul_div_cancel₀ _ (by norm_num)]
  have := black_parity 1 1 s
  linarith

/-- The volatility quoted. -/
noncomputable def lowQuote : ℝ := Real.sqrt 0.001

/-- The delta of the put struck at the forward. -/
noncomputable def lowDelta (tau : ℝ) : ℝ := -normCdf (-(0.5 * lowQuote * Real.sqrt tau))

noncomputable def longDay (tau : ℝ) : SmileDay := ⟨738000, tau, 1, 0, 0, .regularForward, [.fin lowQuote]⟩

noncomputable def longSurface (tau : ℝ) : FxSurface := ⟨1, [lowDelta tau], [-1], [longDay tau], .heston .lipton⟩

theorem low_strike {tau : ℝ} (ht : 0 < tau) (fwd : Option ℝ) (hf : fwd = none ∨ fwd = some 1) :
    gkStrikeFromDelta rootSolvers.strike ⟨1, tau, 0, 0, fwd⟩ .regularForward .forward [⟨lowQuote, lowDelta tau⟩] = .ok [some 1] := by
  have hq : 0 < lowQuote := Real.sqrt_pos.2 (by norm_num)
  have hs := Real.sqrt_pos.2 ht
  have hd0 := normCdf_pos (-(0.5 * lowQuote * Real.sqrt tau))
  have hd1 : normCdf (-(0.5 * lowQuote * Real.sqrt tau)) < 1 / 2 := by
    rw [← normCdf_zero]
    apply normCdf_strictMono
    have : 0 < 0.5 * lowQuote * Real.sqrt tau := by positivity
    linarith
  have hfor : StrikeMarket.forward ⟨1, tau, 0, 0, fwd⟩ = 1 := by
    rcases hf with rfl | rfl <;> simp [StrikeMarket.forward]
  unfold gkStrikeFromDelta
  rw [if_neg]
  · simp only [List.map_cons, List.map_nil]
    have hneg : lowDelta tau < 0 := by unfold lowDelta; linarith
    have hsign : npSign (lowDelta tau) = -1 := by
      unfold npSign
      rw [if_neg (not_lt.2 hneg.le), if_pos hneg]
    obtain ⟨z, hz⟩ := normPpf_of hd0 (hd1.trans (by norm_num))
    have hzv : z = -(0.5 * lowQuote * Real.sqrt tau) := normCdf_strictMono.injective (normPpf_fin hz)
    have : regularStrike ⟨1, tau, 0, 0, fwd⟩ false .forward ⟨lowQuote, lowDelta tau⟩ = some 1 := by
      unfold regularStrike
      simp only [hsign, hfor]
      rw [if_neg]
      · simp only [Bool.false_eq_true, if_false]
        rw [show -1 * lowDelta tau = normCdf (-(0.5 * lowQuote * Real.sqrt tau)) by unfold lowDelta; ring, hz]
        simp only [Option.some.injEq, one_mul]
        rw [hzv, Real.exp_eq_one_iff]
        have := Real.mul_self_sqrt ht.le
        nlinarith
      · rintro ⟨h, -⟩
        rw [abs_of_neg hneg] at h
        unfold lowDelta at h
        norm_num at h hd1
        linarith
    rw [this]
  · rintro (h | ⟨q, hqm, h⟩)
    · apply h
      refine ⟨one_pos, ht, ?_⟩
      rintro F hF
      rcases hf with rfl | rfl
      · cases hF
      · cases hF; exact one_pos
    · simp only [List.mem_cons, List.not_mem_nil, or_false] at hqm
      subst hqm
      apply h
      refine ⟨hq, ?_, ?_⟩ <;> simp only [lowDelta] <;> norm_num at hd1 ⊢ <;> linarith

theorem long_calibrated {tau : ℝ} (ht : 0 < tau) (hb : 0.8 < blackF (-1) 1 1 (0.06 * Real.sqrt tau)) :
    ∃ v, 0 < v ∧ v < 0.06 ∧ hestonCalibrate rootSolvers .lipton ⟨1, tau, 0, 0⟩ .regularForward [-1] [lowDelta tau] [lowQuote] =
      .ok ⟨uncorrelated, [.vol v], some ((lowQuote - v) ^ 2 + 0)⟩ := by
  obtain ⟨hp0, hp1⟩ := uncorrelated_bounds tau ht
  obtain ⟨v, hv0, hv1, hv⟩ := atForward_solved ht (guess := lowQuote) hp0 (by linarith) (by norm_num : (0 : ℝ) < 0.06) (hp1.trans hb)
  refine ⟨v, hv0, hv1, ?_⟩
  unfold hestonCalibrate
  rw [if_neg]
  · simp only [List.zip_cons_cons, List.zip_nil_right, List.map_cons, List.map_nil, low_strike ht none (Or.inl rfl)]
    have hfit : smileFit rootSolvers .lipton ⟨1, tau, 0, 0⟩ [-1] [1] [lowQuote] (fitModel (lowQuote ^ 2) (1, 0, 0)) =
        .ok ([.vol v], some ((lowQuote - v) ^ 2 + 0)) := by
      have hmodel : fitModel (lowQuote ^ 2) (1, 0, 0) = uncorrelated := rfl
      rw [hmodel]
      have hpr : smilePrices .lipton uncorrelated ⟨1, tau, 0, 0⟩ [-1] [1] = .ok [some (liptonPrice uncorrelated 1 tau 0 0 (-1) 1)] := rfl
      have hiv : smileIv rootSolvers ⟨1, tau, 0, 0⟩ lowQuote (-1) 1 (some (liptonPrice uncorrelated 1 tau 0 0 (-1) 1)) = .ok (.vol v) := by
        simp only [smileIv, smileImplied]
        rw [if_neg (not_lt.2 hp0.le)]
        exact hv
      unfold smileFit
      rw [hpr]
      simp only [List.zip_cons_cons, List.zip_nil_right, List.mapM_cons, List.mapM_nil, hiv]
      rfl
    have hvalid : validParam (1, 0, 0) := ⟨by norm_num, by norm_num, by norm_num⟩
    simp only [List.mapM_cons, List.mapM_nil, id, Option.bind_eq_bind, Option.bind_some, pure, List.length_cons, List.length_nil, List.getElem?_cons_zero,
      rootSolvers]
    simp only [hvalid, not_true_eq_false, if_false]
    have hfit' := hfit
    simp only [rootSolvers] at hfit'
    simp [hfit']
    rfl
  · rw [not_not]
    exact ⟨one_pos, ht, fun cp hcp => Or.inl (by simpa using hcp)⟩

/-- A surface, a query and an answer for which all the hypotheses of `C83_calibration` and `C83_quotes` hold. -/
example : ∃ (S : FxSurface) (sv : FxSolvers) (pts : List SurfacePoint) (p : SurfacePoint) (q v : ℝ), VolSolversOk sv ∧ S.method = .heston .lipton ∧
    (ask S sv (history S sv []) (.vols [738000] [1] [-1])).2 = .ok (.vols pts) ∧ pts[0]? = some p ∧
    QuoteStrike S sv p.day 0 p.K ∧ 0 < p.K ∧ S.flags[0]? = some p.cp ∧ 0 < p.day.fwd ∧ p.day.vols[0]? = some (.fin q) ∧ 0 ≤ q ∧ 0.001 ≤ q ^ 2 ∧
    p.vol = .fin v := by
  obtain ⟨tau, ht, hb⟩ := long_expiry
  obtain ⟨v, hv0, hv1, hcal⟩ := long_calibrated ht hb
  obtain ⟨hp0, hp1⟩ := uncorrelated_bounds tau ht
  obtain ⟨w, hw0, hw1, hw⟩ := atForward_solved ht (guess := Real.sqrt uncorrelated.var0) hp0 (by linarith) (by norm_num : (0 : ℝ) < 0.06) (hp1.trans hb)
  have hsq : lowQuote ^ 2 = 0.001 := Real.sq_sqrt (by norm_num)
  have hq0 : 0 < lowQuote := Real.sqrt_pos.2 (by norm_num)
  have hm : dayMarket 1 (longDay tau) = ⟨1, tau, 0, 0⟩ := by simp [dayMarket, longDay, basisRate]
  have hd : dayOf (longSurface tau) 738000 = some (longDay tau) := by simp [dayOf, longSurface, longDay]
  have hs : (lowQuote - v) ^ 2 + 0 < 0.001 := by
    have h1 : (0.0301 : ℝ) < lowQuote := Real.lt_sqrt_of_sq_lt (by norm_num)
    nlinarith
  have hsol : solveDay (longSurface tau) rootSolvers 738000 = .ok (.heston ⟨uncorrelated, [.vol v], some ((lowQuote - v) ^ 2 + 0)⟩) := by
    unfold solveDay
    rw [hd]
    simp only [fitDay]
    rw [show (longSurface tau).method = .heston .lipton from rfl]
    simp only
    rw [show (longSurface tau).spot = 1 from rfl, hm]
    have : hestonCalibrate rootSolvers .lipton ⟨1, tau, 0, 0⟩ (longDay tau).conv (longSurface tau).flags (longSurface tau).deltas
        ((longDay tau).vols.map volNumber) = .ok ⟨uncorrelated, [.vol v], some ((lowQuote - v) ^ 2 + 0)⟩ := hcal
    rw [this]
    simp only
    rw [if_pos hs]
  have hvol : smileVol (longSurface tau) rootSolvers (.heston ⟨uncorrelated, [.vol v], some ((lowQuote - v) ^ 2 + 0)⟩) (longDay tau) 1 (-1) = .ok (.fin w) := by
    unfold smileVol
    rw [show (longSurface tau).method = .heston .lipton from rfl]
    simp only [hestonPrice]
    rw [show (longSurface tau).spot = 1 from rfl, hm]
    simp only [smileImplied]
    rw [show gkSolveImpliedVol (rootSolvers.newton (Real.sqrt uncorrelated.var0)) rootSolvers.brentq ⟨1, tau, 0, 0, -1, 1, 0, none⟩
      (liptonPrice uncorrelated 1 tau 0 0 (-1) 1) = .ok (.vol w) from hw]
  refine ⟨longSurface tau, rootSolvers, [⟨longDay tau, 1, -1, .fin w⟩], ⟨longDay tau, 1, -1, .fin w⟩, lowQuote, w, rootSolvers_ok, rfl, ?_, rfl,
    ?_, one_pos, rfl, one_pos, rfl, hq0.le, hsq.ge, rfl⟩
  · have hi := interp_fresh (history_cacheOk (longSurface tau) rootSolvers []) [738000] [1] [-1]
    rw [if_neg (by simp)] at hi
    simp only [firstErr, hsol, List.zip_cons_cons, List.zip_nil_right, List.mapM_cons, List.mapM_nil, freshPoint, hd, hvol] at hi
    simp only [ask]
    rw [hi]
    rfl
  · exact ⟨[⟨lowQuote, lowDelta tau⟩], [some 1], rfl, rfl, low_strike ht (some 1) (Or.inr rfl), rfl⟩

/-- Solvers that never find a volatility. -/
noncomputable def noVolSolvers : FxSolvers := { rootSolvers with newton := fun _ _ => .error .runtime }

/-- The surface with solvers that find no volatility: the calibration of `C83_outcome` ends, with an infinite volatility. -/
example : ∃ (S : FxSurface) (sv : FxSolvers) (d : Int) (day : SmileDay) (fit : HestonFit), VolSolversOk sv ∧ S.method = .heston .lipton ∧
    dayOf S d = some day ∧ hestonCalibrate sv .lipton (dayMarket S.spot day) day.conv S.flags S.deltas (day.vols.map volNumber) = .ok fit ∧
    .inf ∈ fit.ivs := by
  obtain ⟨hp0, hp1⟩ := uncorrelated_bounds 1 one_pos
  have hm : dayMarket 1 (longDay 1) = ⟨1, 1, 0, 0⟩ := by simp [dayMarket, longDay, basisRate]
  refine ⟨longSurface 1, noVolSolvers, 738000, longDay 1, ⟨uncorrelated, [.inf], none⟩, ⟨fun g f v h => (by cases h), fun b f v h => (by cases h)⟩, rfl,
    by simp [dayOf, longSurface, longDay], ?_, List.mem_singleton.2 rfl⟩
  rw [show (longSurface 1).spot = 1 from rfl, hm]
  show hestonCalibrate noVolSolvers .lipton ⟨1, 1, 0, 0⟩ .regularForward [-1] [lowDelta 1] [lowQuote] = _
  have hfit : smileFit noVolSolvers .lipton ⟨1, 1, 0, 0⟩ [-1] [1] [lowQuote] (fitModel (lowQuote ^ 2) (1, 0, 0)) = .ok ([.inf], none) := by
    have hmodel : fitModel (lowQuote ^ 2) (1, 0, 0) = uncorrelated := rfl
    rw [hmodel]
    have hpr : smilePrices .lipton uncorrelated ⟨1, 1, 0, 0⟩ [-1] [1] = .ok [some (liptonPrice uncorrelated 1 1 0 0 (-1) 1)] := by
      simp only [smilePrices, hestonPrice, List.zip_cons_cons, List.zip_nil_right, List.mapM_cons, List.mapM_nil]
      rfl
    have hadm : gkValid { (⟨1, 1, 0, 0, -1, 1, 0, none⟩ : GkRow) with fwd := none } :=
      (⟨by norm_num [atForward], by norm_num [atForward], Or.inr rfl, fun F hF => (by cases hF)⟩ : FxAdmissible (atForward 1))
    have hiv : smileIv noVolSolvers ⟨1, 1, 0, 0⟩ lowQuote (-1) 1 (some (liptonPrice uncorrelated 1 1 0 0 (-1) 1)) = .ok .inf := by
      simp only [smileIv, smileImplied]
      rw [if_neg (not_lt.2 hp0.le)]
      unfold gkSolveImpliedVol
      rw [if_neg (not_not.2 hadm)]
      rfl
    unfold smileFit
    rw [hpr]
    simp only [List.zip_cons_cons, List.zip_nil_right, List.mapM_cons, List.mapM_nil, hiv]
    rfl
  have hst := low_strike one_pos none (Or.inl rfl)
  have hvalid : validParam (1, 0, 0) := ⟨by norm_num, by norm_num, by norm_num⟩
  unfold hestonCalibrate
  rw [if_neg (not_not.2 ⟨one_pos, one_pos, fun cp hcp => Or.inl (by simpa using hcp)⟩)]
  simp only [List.length_cons, List.length_nil, ne_eq, not_true_eq_false, if_false, List.zip_cons_cons, List.zip_nil_right, List.map_cons, List.map_nil]
  rw [show noVolSolvers.strike = rootSolvers.strike from rfl, hst]
  simp only [List.mapM_cons, List.mapM_nil, id, Option.bind_eq_bind, Option.bind_some, pure, List.length_cons, List.length_nil, List.getElem?_cons_zero]
  have hmin : ∀ f x, noVolSolvers.minimize f x = .ok (1, 0, 0) := fun _ _ => rfl
  simp only [hmin, hvalid, not_true_eq_false, if_false]
  simp [hfit]
  rfl

end Frm.Props
