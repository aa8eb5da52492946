import Verif.Proofs.HwSetup
import Verif.Props.C73
import Verif.Props.C86

/-! # C88: setting up the drift of a Hull–White model, and the search for its granularity -/

namespace Frm.Spec

set_option autoImplicit false

/-- The time `t` is one of `num` evenly spaced times from one pillar (included) to the next (excluded). -/
def EvenlySpaced (pillars : List ℝ) (num : Nat) (t : ℝ) : Prop :=
  ∃ (i j : Nat) (a b : ℝ), pillars[i]? = some a ∧ pillars[i + 1]? = some b ∧ j < num ∧ t = a + j * ((b - a) / num)

/-- The drift of a model whose forward rate is flat at the initial short rate. -/
noncomputable def flatRateDrift (alpha vol r0 t : ℝ) : ℝ := alpha * r0 + vol ^ 2 * (1 - Real.exp (-2 * alpha * t)) / (2 * alpha)

end Frm.Spec

namespace Frm.Props
open Classical Spec

set_option autoImplicit false

variable {spl : List (ℝ × ℝ) → ℝ → ℝ} {cd : Int} {c : PillarColumns} {freq : Option CompoundingFreq} {basis : DayCountBasis}
  {cal : BusCal} {m : SplineMethod} {z : SplineCurve} {alpha vol dt : ℝ} {num : Int} {s s' : HwState}

/-- The times of the pillars of the model's curve. -/
private noncomputable def pillarYears (s : HwState) : List ℝ := s.curve.base.pillars.map (·.years)

/-- What is known of a constructed model. -/
private theorem made (h : makeSplineCurve spl cd c freq basis cal m = .ok z) (hs : makeHullWhite (.spline z) alpha vol dt num = .ok s) :
    s = ⟨z, alpha, vol, dt, num, z.rates.head?.join, none⟩ ∧
    ∃ ys, z.base.pillars.map (·.years) = 0 :: ys ∧ 3 ≤ ys.length ∧ (0 :: ys).Pairwise (· < ·) := by
  obtain ⟨ys, hys, h3, hinc⟩ := made_years h
  unfold makeHullWhite at hs
  simp only [hys] at hs
  by_cases h0 : ys.foldl min 0 = 0
  · rw [if_pos h0] at hs
    simp only [Except.ok.injEq] at hs
    exact ⟨hs.symm, ys, hys, h3, hinc (foldl_min_zero.mp h0)⟩
  · rw [if_neg h0] at hs; cases hs

/-- A curve with linear interpolation is refused. -/
theorem C88_linear_refused (z : ZeroCurve) (alpha vol dt : ℝ) (num : Int) :
    makeHullWhite (.linear z) alpha vol dt num = .error .assertion := rfl

/-- A model is made from any spline curve that has no pillar before the curve date, and from no other. -/
theorem C88_made_iff (h : makeSplineCurve spl cd c freq basis cal m = .ok z) (alpha vol dt : ℝ) (num : Int) :
    ((∃ s, makeHullWhite (.spline z) alpha vol dt num = .ok s) ↔ ∀ p ∈ z.base.pillars, 0 ≤ p.years) ∧
    (∀ p ∈ z.base.pillars, p.years < 0 → makeHullWhite (.spline z) alpha vol dt num = .error .type) := by
  obtain ⟨ys, hys, -⟩ := made_years h
  have hall : (∀ p ∈ z.base.pillars, 0 ≤ p.years) ↔ ∀ y ∈ ys, 0 ≤ y := by
    have : (∀ p ∈ z.base.pillars, 0 ≤ p.years) ↔ ∀ y ∈ z.base.pillars.map (·.years), 0 ≤ y := by
      simp [List.mem_map]
    rw [this, hys]
    simp
  unfold makeHullWhite
  simp only [hys]
  rw [hall]
  refine ⟨⟨?_, ?_⟩, ?_⟩
  · rintro ⟨s, hs⟩
    by_cases h0 : ys.foldl min 0 = 0
    · exact foldl_min_zero.mp h0
    · rw [if_neg h0] at hs; cases hs
  · intro hn
    exact ⟨_, by rw [if_pos (foldl_min_zero.mpr hn)]⟩
  · intro p hp hneg
    rw [if_neg]
    intro h0
    have := hall.mpr (foldl_min_zero.mp h0) p hp
    linarith

/-- The initial short rate of a curve splined on zero rates is its zero rate, and its instantaneous forward rate, at time 0. -/
theorem C88_initial_rate (hi : Interpolates spl) (h : makeSplineCurve spl cd c freq basis cal .cczr = .ok z)
    (hs : makeHullWhite (.spline z) alpha vol dt num = .ok s) :
    ∃ r, s.r0 = some r ∧ z.zeroRateAt .continuous 0 = some r ∧ z.instantaneousForward 0 = some r := by
  obtain ⟨rfl, -⟩ := made h hs
  obtain ⟨rows, points, hrows, hpil, hp, h4, hinc, hf, hm, -⟩ := makeSplineCurve_ok h
  have hr := makeSplineCurve_rates h hrows
  have hz : z.zeroRateAt .continuous 0 = some (z.spline 0) := by
    unfold SplineCurve.zeroRateAt splineAt
    rw [hm]; simp
  have hr0 : z.rates.head?.join = some (z.spline 0) := by
    rw [hr]
    cases rows with
    | nil => cases hpil
    | cons first rest =>
      unfold splineRates
      simp only
      by_cases h0 : first.years = 0
      · rw [if_neg (by simpa using h0)]
        obtain ⟨y, hy, hmem⟩ := points_cczr hp (r := first) (by simp)
        have := (hi points h4 hinc).1 _ hmem
        rw [← hf] at this
        simp only [h0] at this
        simp [hy, this]
      · rw [if_pos h0]
        simp
  refine ⟨z.spline 0, hr0, hz, ?_⟩
  unfold SplineCurve.instantaneousForward
  rw [hm]
  simp only [hz]
  simp

/-- The initial short rate of a curve splined on log discount factors, when time 0 is not quoted, is the average of its forward
rates over the first millionth of a year. -/
theorem C88_initial_rate_average (hi : Interpolates spl) (ts : List ℝ) (hts : c.years = some ts) (h0 : (0 : ℝ) ∉ ts)
    (h : makeSplineCurve spl cd c freq basis cal .lnDiscount = .ok z)
    (hs : makeHullWhite (.spline z) alpha vol dt num = .ok s) :
    s.r0 = some ((∫ t in (0 : ℝ)..1e-6, (z.instantaneousForward t).getD 0) / 1e-6) := by
  obtain ⟨rfl, -⟩ := made h hs
  have hone := C86_unit hi h (fun _ => ⟨ts, hts, h0⟩)
  have hacc := C86_accumulates hi h 0 1e-6
  rw [hone, one_mul] at hacc
  obtain ⟨rows, points, hrows, hpil, hp, h4, hinc, hf, hm, -⟩ := makeSplineCurve_ok h
  have hr := makeSplineCurve_rates h hrows
  have hd : z.discountFactorAt 1e-6 = Real.exp (z.spline 1e-6) := by
    unfold SplineCurve.discountFactorAt splineAt
    rw [hm]
  rw [hd, Real.exp_eq_exp] at hacc
  have hnz : ∀ r ∈ rows, r.years ≠ 0 := by
    intro r hr hc
    exact h0 (hc ▸ spline_years_mem hrows hts r hr)
  cases rows with
  | nil => cases hpil
  | cons first rest =>
    rw [hr]
    unfold splineRates
    simp only
    rw [if_pos (hnz first (by simp))]
    simp only [List.head?_cons, Option.join_some, hacc]
    congr 1
    ring

/-! ## The drift -/

/-- `setup_theta` unfolded. -/
private theorem setup_eq (spl : List (ℝ × ℝ) → ℝ → ℝ) (s : HwState) (grid : Option (List ℝ)) (num : Option Int) {g : List ℝ}
    (hg : (match grid with | some g => Except.ok g | none => thetaGrid (pillarYears s) (num.getD s.num)) = .ok g) :
    setupTheta spl s grid num = (getThetas s (.floats g)).bind (fun th => (splrep spl (g.zip th)).map (fun f => { s with theta := some f })) := by
  unfold setupTheta
  unfold pillarYears at hg
  cases grid with
  | some g' =>
    simp only [Except.ok.injEq] at hg
    subst hg
    simp only [bind, Except.bind]
    cases getThetas s (.floats g') with
    | error e => rfl
    | ok th => simp only; cases splrep spl (g'.zip th) <;> rfl
  | none =>
    simp only at hg
    simp only [hg, bind, Except.bind]
    cases getThetas s (.floats g) with
    | error e => rfl
    | ok th => simp only; cases splrep spl (g.zip th) <;> rfl

private theorem getThetas_floats (s : HwState) (l : List ℝ) (ha : s.alpha ≠ 0) {r : ℝ} (hr : s.r0 = some r) :
    getThetas s (.floats l) = .ok (l.map (flatRateDrift s.alpha s.vol r)) := by
  unfold getThetas
  rw [if_neg ha, hr]
  simp only [Except.ok.injEq]
  refine List.map_congr_left (fun t _ => ?_)
  unfold flatRateDrift; ring

private theorem zip_pairwise {g : List ℝ} {f : ℝ → ℝ} : (g.zip (g.map f)).Pairwise (fun p q => p.1 < q.1) ↔ g.Pairwise (· < ·) := by
  have e : g = (g.zip (g.map f)).map Prod.fst := by
    rw [List.map_fst_zip]; simp
  conv_rhs => rw [e]
  rw [List.pairwise_map]

/-- With the grid of the pillars, `setup_theta` succeeds exactly for a nonzero mean reversion, an initial rate that is a number, and
four or more times; the curve, the parameters and the initial rate stay as they were. -/
theorem C88_setup_iff (h : makeSplineCurve spl cd c freq basis cal m = .ok z)
    (hs : makeHullWhite (.spline z) alpha vol dt num = .ok s) (n : Option Int) :
    (∃ s', setupTheta spl s none n = .ok s') ↔
      alpha ≠ 0 ∧ s.r0 ≠ none ∧ 4 ≤ n.getD num * (z.base.pillars.length - 1) := by
  obtain ⟨rfl, ys, hys, h3, hinc⟩ := made h hs
  have hlen : z.base.pillars.length = ys.length + 1 := by
    have := congrArg List.length hys; simpa using this
  set k := n.getD num with hk
  set s : HwState := ⟨z, alpha, vol, dt, num, z.rates.head?.join, none⟩ with hsdef
  have hpy : pillarYears s = 0 :: ys := hys
  by_cases hneg : k < 0
  · have hg : thetaGrid (pillarYears s) k = .error .value := by
      unfold thetaGrid
      rw [hpy, if_neg (by rw [List.length_cons]; omega), if_pos hneg]
    constructor
    · rintro ⟨s', hs'⟩
      unfold setupTheta at hs'
      have hg' : thetaGrid (List.map (fun x => x.years) s.curve.base.pillars) (n.getD s.num) = .error .value := hg
      simp only [bind, Except.bind, hg'] at hs'
      cases hs'
    · rintro ⟨-, -, h4⟩
      have : k * ((z.base.pillars.length : Int) - 1) ≤ 0 := Int.mul_nonpos_of_nonpos_of_nonneg (by omega) (by omega)
      omega
  · have hg : thetaGrid (pillarYears s) k = .ok (thetaTimes k.toNat (0 :: ys)).flatten := by
      unfold thetaGrid
      rw [hpy, if_neg (by rw [List.length_cons]; omega), if_neg hneg]
    have heq := setup_eq spl s none n (g := (thetaTimes k.toNat (0 :: ys)).flatten) hg
    rw [heq]
    have hglen : (thetaTimes k.toNat (0 :: ys)).flatten.length = k.toNat * ys.length := by
      rw [thetaTimes_length]; simp
    have hsize : (4 ≤ k * ((z.base.pillars.length : Int) - 1)) ↔ 4 ≤ k.toNat * ys.length := by
      rw [hlen]
      have e : k = (k.toNat : Int) := by omega
      rw [e]
      push_cast
      rw [add_sub_cancel_right]
      norm_cast
    rw [hsize]
    by_cases ha : alpha = 0
    · constructor
      · rintro ⟨s', hs'⟩
        have : getThetas s (.floats (thetaTimes k.toNat (0 :: ys)).flatten) = .error .zeroDiv := by
          unfold getThetas; rw [if_pos ha]
        rw [this] at hs'; cases hs'
      · rintro ⟨hc, -⟩; exact absurd ha hc
    cases hr : s.r0 with
    | none =>
      constructor
      · rintro ⟨s', hs'⟩
        have : getThetas s (.floats (thetaTimes k.toNat (0 :: ys)).flatten) = .error .runtime := by
          unfold getThetas; rw [if_neg ha, hr]
        rw [this] at hs'; cases hs'
      · rintro ⟨-, hc, -⟩; exact absurd rfl hc
    | some r =>
      rw [getThetas_floats s _ ha hr]
      simp only [Except.bind]
      unfold splrep
      rw [List.length_zip, List.length_map, hglen, Nat.min_self]
      by_cases h4 : 4 ≤ k.toNat * ys.length
      · rw [if_neg (by omega), if_pos (zip_pairwise.mpr (thetaTimes_pairwise hinc).1)]
        exact ⟨fun _ => ⟨ha, by simp, h4⟩, fun _ => ⟨_, rfl⟩⟩
      · rw [if_pos (by omega)]
        exact ⟨fun ⟨s', hs'⟩ => (by cases hs'), fun ⟨_, _, hc⟩ => absurd hc h4⟩

/-- After `setup_theta`, the drift agrees with `get_thetas` at evenly spaced times from each pillar to the next, in particular at every
pillar but the last; nothing else of the model has changed. -/
theorem C88_setup_partial (hi : Interpolates spl) (h : makeSplineCurve spl cd c freq basis cal m = .ok z)
    (hs : makeHullWhite (.spline z) alpha vol dt num = .ok s) (n : Option Int) (hok : setupTheta spl s none n = .ok s') :
    ∃ theta, s' = { s with theta := some theta } ∧
      ∀ t, EvenlySpaced (z.base.pillars.map (·.years)) (n.getD num).toNat t →
        hwTheta s.model t = .ok (theta t) ∧ getThetas s (.floats [t]) = .ok [theta t] := by
  obtain ⟨ha, hr0, h4⟩ := (C88_setup_iff h hs n).mp ⟨s', hok⟩
  obtain ⟨rfl, ys, hys, h3, hinc⟩ := made h hs
  set k := n.getD num with hk
  set s : HwState := ⟨z, alpha, vol, dt, num, z.rates.head?.join, none⟩ with hsdef
  have hpy : pillarYears s = 0 :: ys := hys
  have hlen : z.base.pillars.length = ys.length + 1 := by
    have := congrArg List.length hys; simpa using this
  have hneg : ¬ k < 0 := by
    intro hc
    have : k * ((z.base.pillars.length : Int) - 1) ≤ 0 := Int.mul_nonpos_of_nonpos_of_nonneg (by omega) (by omega)
    omega
  have hg : thetaGrid (pillarYears s) k = .ok (thetaTimes k.toNat (0 :: ys)).flatten := by
    unfold thetaGrid
    rw [hpy, if_neg (by rw [List.length_cons]; omega), if_neg hneg]
  have hglen : (thetaTimes k.toNat (0 :: ys)).flatten.length = k.toNat * ys.length := by
    rw [thetaTimes_length]; simp
  have hsize : 4 ≤ k.toNat * ys.length := by
    rw [hlen] at h4
    have e : k = (k.toNat : Int) := by omega
    rw [e] at h4
    push_cast at h4
    rw [add_sub_cancel_right] at h4
    exact_mod_cast h4
  obtain ⟨r, hr⟩ := Option.ne_none_iff_exists'.mp hr0
  rw [setup_eq spl s none n (g := (thetaTimes k.toNat (0 :: ys)).flatten) hg, getThetas_floats s _ ha hr] at hok
  simp only [Except.bind] at hok
  set g := (thetaTimes k.toNat (0 :: ys)).flatten with hgdef
  set pts := g.zip (g.map (flatRateDrift s.alpha s.vol r)) with hpts
  have hp4 : 4 ≤ pts.length := by
    rw [hpts, List.length_zip, List.length_map, hglen, Nat.min_self]; exact hsize
  have hpinc : pts.Pairwise (fun p q => p.1 < q.1) := zip_pairwise.mpr (thetaTimes_pairwise hinc).1
  unfold splrep at hok
  rw [if_neg (by omega), if_pos hpinc] at hok
  simp only [Except.map, Except.ok.injEq] at hok
  refine ⟨spl pts, hok.symm, ?_⟩
  intro t ht
  rw [hys] at ht
  have hmem : t ∈ g := thetaTimes_mem.mpr ht
  have hpt : (t, flatRateDrift s.alpha s.vol r t) ∈ pts := by
    obtain ⟨i, hi'⟩ := List.getElem?_of_mem hmem
    refine List.mem_of_getElem? (i := i) ?_
    rw [hpts]
    exact List.getElem?_zip_eq_some.mpr ⟨hi', by simp [hi']⟩
  have hval := (hi pts hp4 hpinc).1 _ hpt
  simp only at hval
  refine ⟨?_, ?_⟩
  · unfold hwTheta HwState.model
    rw [if_neg ha, hval, hr]
    simp only [Except.ok.injEq, Option.getD_some]
    unfold flatRateDrift; ring
  · rw [getThetas_floats s _ ha hr, hval]; rfl

/-- Every pillar but the last is one of those times. -/
theorem C88_pillars_spaced (pillars : List ℝ) (num : Nat) (hnum : 0 < num) (i : Nat) (t : ℝ) (ht : pillars[i]? = some t)
    (hlast : i + 1 < pillars.length) : EvenlySpaced pillars num t :=
  ⟨i, 0, t, pillars[i + 1], ht, List.getElem?_eq_getElem hlast, hnum, by simp⟩

/-- The time step `dt` plays no part in the drift. -/
theorem C88_step_irrelevant (spl : List (ℝ × ℝ) → ℝ → ℝ) (s : HwState) (d : ℝ) (grid : Option (List ℝ)) (n : Option Int) :
    setupTheta spl { s with dt := d } grid n = (setupTheta spl s grid n).map (fun s => { s with dt := d }) := by
  unfold setupTheta
  cases grid with
  | some g =>
    simp only [bind, Except.bind]
    have : getThetas { s with dt := d } (.floats g) = getThetas s (.floats g) := rfl
    rw [this]
    cases getThetas s (.floats g) with
    | error e => rfl
    | ok th => simp only; cases splrep spl (g.zip th) <;> rfl
  | none =>
    simp only [bind, Except.bind]
    cases thetaGrid (List.map (fun x => x.years) s.curve.base.pillars) (n.getD s.num) with
    | error e => rfl
    | ok g =>
      have : getThetas { s with dt := d } (.floats g) = getThetas s (.floats g) := rfl
      simp only
      rw [this]
      cases getThetas s (.floats g) with
      | error e => rfl
      | ok th => simp only; cases splrep spl (g.zip th) <;> rfl

/-- Drifts at times given as integers take the initial rate truncated to an integer: they agree with the drifts at the same times
given as floats only if that rate is a whole number. -/
theorem C88_whole_years (s : HwState) (ha : s.alpha ≠ 0) (r : ℝ) (hr : s.r0 = some r) (l : List Int) (hl : l ≠ []) :
    getThetas s (.ints l) = getThetas s (.floats (l.map (fun (t : Int) => (t : ℝ)))) ↔ ∃ n : Int, r = n := by
  rw [getThetas_floats s _ ha hr]
  unfold getThetas
  rw [if_neg ha, hr]
  simp only [Except.ok.injEq, List.map_map]
  constructor
  · intro h
    cases l with
    | nil => exact absurd rfl hl
    | cons t l =>
      simp only [List.map_cons, List.cons.injEq, Function.comp] at h
      refine ⟨pyIntReal r, ?_⟩
      have h1 := h.1
      unfold flatRateDrift at h1
      have h2 : s.alpha * (pyIntReal r : ℝ) = s.alpha * r := by
        have e : s.vol ^ 2 / (2 * s.alpha) * (1 - Real.exp (-2 * s.alpha * t)) =
          s.vol ^ 2 * (1 - Real.exp (-2 * s.alpha * t)) / (2 * s.alpha) := by ring
        rw [e] at h1
        linarith
      exact (mul_left_cancel₀ ha h2).symm
  · rintro ⟨n, rfl⟩
    refine List.map_congr_left (fun t _ => ?_)
    have : pyIntReal (n : ℝ) = n := by
      unfold pyIntReal
      split <;> simp
    simp only [Function.comp, this]
    unfold flatRateDrift; ring

/-- For an initial rate below 100%, drifts at times given as integers leave it out altogether. -/
theorem C88_whole_years_lost (s : HwState) (ha : s.alpha ≠ 0) (r : ℝ) (hr : s.r0 = some r) (h1 : |r| < 1) (l : List Int) :
    getThetas s (.ints l) = .ok (l.map (fun (t : Int) => flatRateDrift s.alpha s.vol 0 t)) := by
  have h0 : pyIntReal r = 0 := by
    unfold pyIntReal
    obtain ⟨ha, hb⟩ := abs_lt.mp h1
    split
    · rw [Int.floor_eq_iff]; constructor <;> push_cast <;> linarith
    · rw [Int.ceil_eq_iff]; constructor <;> push_cast <;> linarith
  unfold getThetas
  rw [if_neg ha, hr]
  simp only [Except.ok.injEq, h0]
  refine List.map_congr_left (fun t _ => ?_)
  unfold flatRateDrift; push_cast; ring

/-! ## The search for a granularity -/

private theorem error_at_zero (s : HwState) : s.discount1 0 0 none = .error .assertion := by
  unfold HwState.discount1
  cases s.theta <;> simp [hwDiscount1]

private theorem calc_error (s : HwState) {ys : List ℝ} (hys : s.curve.base.pillars.map (·.years) = 0 :: ys) :
    calcThetaError s = .error .assertion := by
  unfold calcThetaError recalculated
  rw [hys, List.mapM_cons, error_at_zero]
  rfl

/-- The error of the fit cannot be calculated for any model: the pillars hold the curve date, for which no discount factor is solved. -/
theorem C88_error_refused (h : makeSplineCurve spl cd c freq basis cal m = .ok z)
    (hs : makeHullWhite (.spline z) alpha vol dt num = .ok s) (theta : Option (ℝ → ℝ)) (d : ℝ) (k : Int) :
    calcThetaError { s with theta := theta, dt := d, num := k } = .error .assertion := by
  obtain ⟨rfl, ys, hys, -⟩ := made h hs
  exact calc_error _ hys

/-- Before the drift is set up no discount factor is given: `AttributeError`, or `AssertionError` for times out of order or, after the curve
date, without a short rate. -/
theorem C88_before_setup (s : HwState) (hs : s.theta = none) (t1 t2 : ℝ) (r : Option ℝ) :
    s.discount1 t1 t2 r = if t1 < t2 ∧ (t1 = 0 ∨ r.isSome) then .error .attribute else .error .assertion := by
  obtain ⟨h1, h2, -⟩ := C73_accepts s.model (fun _ => 0) t1 t2 r
  unfold HwState.discount1
  rw [hs]
  simp only
  split_ifs with hc
  · obtain ⟨p, hp⟩ := h1.mpr hc
    rw [hp]
  · rw [h2 (fun hx => hc (h1.mp hx))]

/-- Were it not for the pillar on the curve date, the error would be the root mean square of the differences in basis points between the
zero rates of the pillars and those of the discount factors solved with the drift. -/
theorem C88_error_formula (s : HwState) (theta : ℝ → ℝ) (hth : s.theta = some theta) (hpos : ∀ p ∈ s.curve.base.pillars, 0 < p.years)
    (zs : List ℝ) (hz : s.curve.rates = zs.map some) (hlen : zs.length = s.curve.base.pillars.length) (R : ℝ → ℝ)
    (hR : ∀ p ∈ s.curve.base.pillars, hwDiscount1 s.model theta 0 p.years none = .ok (Real.exp (-R p.years * p.years))) :
    calcThetaError s = .ok (some (Real.sqrt
      ((List.zipWith (fun z t => (10000 * (z - R t)) ^ 2) zs (s.curve.base.pillars.map (·.years))).sum / zs.length))) := by
  have hrec : recalculated s (s.curve.base.pillars.map (·.years)) = .ok ((s.curve.base.pillars.map (·.years)).map (fun t => some (R t))) := by
    unfold recalculated
    refine mapM_total (fun t ht => ?_)
    obtain ⟨p, hp, rfl⟩ := List.mem_map.mp ht
    have h0 := hpos p hp
    simp only [HwState.discount1, hth, hR p hp, Except.map, if_neg h0.ne', Real.log_exp]
    congr 2
    field_simp
  unfold calcThetaError
  rw [hrec]
  simp only [bind, Except.bind, pure, Except.pure]
  have hsq : ∀ (zs ts : List ℝ), ((zs.map some).zip (ts.map (fun t => some (R t)))).mapM
      (fun p => p.1.bind (fun a => p.2.map (fun b => ((1e4 : ℝ) * (a - b)) ^ 2))) =
      some (List.zipWith (fun z t => (10000 * (z - R t)) ^ 2) zs ts) := by
    intro zs
    induction zs with
    | nil => intro ts; rfl
    | cons z zs ih =>
      intro ts
      cases ts with
      | nil => rfl
      | cons t ts =>
        simp only [List.map_cons, List.zip_cons_cons, List.mapM_cons, ih, Option.bind_some, Option.map_some, List.zipWith_cons_cons]
        norm_num
  rw [hz, hsq]
  simp [hlen]

/-- The search never succeeds.  It stops at the first candidate with `AssertionError`, or with what `setup_theta` raised, and leaves the
model with that candidate, whether or not another fits better. -/
theorem C88_search_refused (h : makeSplineCurve spl cd c freq basis cal m = .ok z)
    (hs : makeHullWhite (.spline z) alpha vol dt num = .ok s) (d : ℝ) (ds : List ℝ) (k : Int) (ks : List Int) :
    fitTheta spl s (d :: ds) (k :: ks) =
      match setupTheta spl { s with dt := d, num := k } none none with
      | .ok s' => (s', .error .assertion)
      | .error e => ({ s with dt := d, num := k }, .error e) := by
  obtain ⟨rfl, ys, hys, -⟩ := made h hs
  unfold fitTheta
  simp only [List.flatMap_cons, List.map_cons, List.cons_append, fitLoop]
  cases hst : setupTheta spl ⟨z, alpha, vol, d, k, z.rates.head?.join, none⟩ none none with
  | error e => rfl
  | ok s' =>
    have hc : s'.curve = z := by
      unfold setupTheta at hst
      simp only [bind, Except.bind] at hst
      revert hst
      generalize thetaGrid _ _ = tg
      intro hst
      cases tg with
      | error e => cases hst
      | ok g =>
        simp only at hst
        revert hst
        generalize getThetas _ _ = gt
        intro hst
        cases gt with
        | error e => cases hst
        | ok th =>
          simp only at hst
          revert hst
          generalize splrep _ _ = sr
          intro hst
          cases sr with
          | error e => cases hst
          | ok f =>
            simp only [pure, Except.pure, Except.ok.injEq] at hst
            rw [← hst]
    have := calc_error s' (ys := ys) (by rw [hc]; exact hys)
    simp only [this]

/-- Without candidates it raises `IndexError` and changes nothing. -/
theorem C88_search_empty (spl : List (ℝ × ℝ) → ℝ → ℝ) (s : HwState) (dts : List ℝ) (nums : List Int) (h : dts = [] ∨ nums = []) :
    fitTheta spl s dts nums = (s, .error .index) := by
  have : dts.flatMap (fun dt => nums.map (fun num => (dt, num))) = [] := by
    rcases h with rfl | rfl <;> simp
  unfold fitTheta
  rw [this]
  rfl

/-- Any table of four or more distinct dates after the curve date gives a model whose drift can be set up. -/
theorem C88_accepted (spl : List (ℝ × ℝ) → ℝ → ℝ) (cd : Int) (ds : List Int) (vs : List ℝ) (freq : Option CompoundingFreq)
    (basis : DayCountBasis) (hb : ActBasis basis) (cal : BusCal) (m : SplineMethod) (hl : ds.length = vs.length)
    (h4 : 4 ≤ ds.length) (hnd : ds.Nodup) (hds : ∀ d ∈ ds, cd < d) (alpha vol dt : ℝ) (ha : alpha ≠ 0) (num : Int) (hn : 2 ≤ num) :
    ∃ z s s', makeSplineCurve spl cd { date := some ds, discountFactor := some vs } freq basis cal m = .ok z ∧
      makeHullWhite (.spline z) alpha vol dt num = .ok s ∧ setupTheta spl s none none = .ok s' := by
  obtain ⟨z, hz, hpos, r, hr⟩ := C86_accepted spl cd ds vs freq basis hb cal m hl h4 hnd hds
  obtain ⟨s, hs⟩ := (C88_made_iff hz alpha vol dt num).1.mpr hpos
  obtain ⟨rfl, ys, hys, h3, -⟩ := made hz hs
  have hlen : z.base.pillars.length = ys.length + 1 := by
    have := congrArg List.length hys; simpa using this
  obtain ⟨s', hs'⟩ := (C88_setup_iff hz hs none).mpr ⟨ha, by simp [hr], by
    simp only [Option.getD_none]
    have : 2 * ((z.base.pillars.length : Int) - 1) ≤ num * (z.base.pillars.length - 1) :=
      mul_le_mul_of_nonneg_right hn (by omega)
    omega⟩
  exact ⟨z, _, s', hz, hs, hs'⟩

/-- A model to which the theorems apply: the search stops at its first candidate. -/
example : ∃ (spl : List (ℝ × ℝ) → ℝ → ℝ) (s s' : HwState), Interpolates spl ∧ setupTheta spl s none none = .ok s' ∧
    (fitTheta spl s [1e-3, 1e-4] [10, 100]).2 = .error .assertion ∧ (fitTheta spl s [1e-3, 1e-4] [10, 100]).1.num = 10 := by
  obtain ⟨spl, hi⟩ := C86_interpolates
  obtain ⟨z, s, s', hz, hs, hs'⟩ := C88_accepted spl 0 [365, 1095, 730, 1460] [0.98, 0.93, 0.95, 0.9] none .act_365 (.inr (.inl rfl))
    defaultBusCal .cczr rfl (by decide) (by decide) (by decide) 0.05 0.01 1e-4 (by norm_num) 1000 (by norm_num)
  refine ⟨spl, s, s', hi, hs', ?_⟩
  obtain ⟨ha, hr, h4⟩ := (C88_setup_iff hz hs none).mp ⟨s', hs'⟩
  have hz' := C88_search_refused hz hs 1e-3 [1e-4] 10 [100]
  obtain ⟨rfl, ys, hys, h3, -⟩ := made hz hs
  have hlen : z.base.pillars.length = ys.length + 1 := by
    have := congrArg List.length hys; simpa using this
  have hs10 : makeHullWhite (.spline z) 0.05 0.01 1e-3 10 = .ok ⟨z, 0.05, 0.01, 1e-3, 10, z.rates.head?.join, none⟩ := by
    unfold makeHullWhite at hs ⊢
    simp only [hys] at hs ⊢
    by_cases h0 : ys.foldl min 0 = 0
    · rw [if_pos h0]
    · rw [if_neg h0] at hs; cases hs
  obtain ⟨s'', hs''⟩ := (C88_setup_iff hz hs10 none).mpr ⟨ha, hr, by simp only [Option.getD_none]; omega⟩
  obtain ⟨theta, rfl, -⟩ := C88_setup_partial hi hz hs10 none hs''
  rw [hz']
  simp only [hs'']
  trivial

end Frm.Props
