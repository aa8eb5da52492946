import Verif.Props.C70
import Verif.Spec.Bounds

/-!
# C70: the range of the implied volatilities

With numerical methods that keep to their bounds, every volatility returned is within fixed bounds, and a price that no volatility within the
bounds reaches raises `ValueError`.
-/

namespace Frm.Props
open Classical

set_option autoImplicit false

open Frm Frm.Spec

theorem run_within {f : ℝ → Npf} {tol lo hi : ℝ} (s : Search) (h : SearchWithin lo hi s) :
    (∀ v, s.run f tol = .stopped v → lo ≤ v ∧ v ≤ hi) ∧ ∀ v b, s.run f tol = .returned v b → lo ≤ v ∧ v ≤ hi := by
  induction s with
  | ask x k ih =>
    unfold Search.run
    by_cases hw : within tol (f x)
    · simp only [if_pos hw]
      exact ⟨fun v hv => by cases hv; exact h.1, fun v b hv => by cases hv⟩
    · simp only [if_neg hw]
      exact ih (f x) (h.2 (f x))
  | ret x b =>
    unfold Search.run
    exact ⟨fun v hv => (by cases hv), fun v b hv => (by cases hv; exact h)⟩
  | fail e =>
    unfold Search.run
    exact ⟨fun v hv => (by cases hv), fun v b hv => (by cases hv)⟩

theorem fallback_within {lbfgs : Search} {err : ℝ → Npf} {lo hi v : ℝ} (hl : SearchWithin lo hi lbfgs)
    (h : solveVol.fallback lbfgs err = .ok v) : lo ≤ v ∧ v ≤ hi := by
  unfold solveVol.fallback at h
  obtain ⟨hs, hr⟩ := run_within (f := fun v => npSquare (err v)) (tol := 0.00001 ^ 2) lbfgs hl
  split at h
  · rename_i w hw; cases h; exact hs _ hw
  · rename_i w b hw
    split_ifs at h
    cases h
    exact hr _ _ hw
  · cases h

theorem solve_within {brent lbfgs : Search} {err : ℝ → Npf} {lo hi v : ℝ} (hb : SearchWithin lo hi brent) (hl : SearchWithin lo hi lbfgs)
    (h : solveVol brent lbfgs err = .ok v) : lo ≤ v ∧ v ≤ hi := by
  unfold solveVol at h
  obtain ⟨hs, hr⟩ := run_within (f := err) (tol := 0.00001) brent hb
  split at h
  · rename_i w hw; cases h; exact hs _ hw
  · rename_i w b hw
    split_ifs at h
    · cases h; exact hr _ _ hw
    · exact fallback_within hl h
  · exact fallback_within hl h
  · cases h

theorem minimise_within {lbfgs : Search} {sq : ℝ → Npf} {lo hi v : ℝ} (hl : SearchWithin lo hi lbfgs)
    (h : minimiseVol lbfgs sq = .ok v) : lo ≤ v ∧ v ≤ hi := by
  unfold minimiseVol at h
  obtain ⟨hs, hr⟩ := run_within (f := sq) (tol := 0) lbfgs hl
  split at h
  · rename_i w hw; cases h; exact hs _ hw
  · rename_i w b hw
    split_ifs at h
    cases h
    exact hr _ _ hw
  · cases h

theorem inside_sln {m : Method} (h : StaysInside m) (x0 : Npf) : SearchWithin 0.001 10 (m x0 volSlnBounds) := by
  have e : volSlnBounds = (.fin 0.001, .fin 10) := by unfold volSlnBounds; norm_num
  rw [e]
  exact h _ _ _ (by norm_num)

theorem inside_normal {m : Method} (h : StaysInside m) (x0 : Npf) : SearchWithin 0.0001 1 (m x0 volNBounds) := by
  have e : volNBounds = (.fin 0.0001, .fin 1) := by unfold volNBounds; norm_num
  rw [e]
  exact h _ _ _ (by norm_num)

/-- Black-76: every implied volatility returned is between 0.1% and 1000%. -/
theorem C70_black_range (brent lbfgs : Method) (hb : StaysInside brent) (hl : StaysInside lbfgs) (rows : List B76Row) (X : ℝ) (guess : Npf)
    (v : ℝ) (h : black76SolveImpliedVol brent lbfgs rows X guess = .ok v) : 0.001 ≤ v ∧ v ≤ 10 :=
  solve_within (inside_sln hb guess) (inside_sln hl guess) h

/-- Bachelier: every implied volatility returned is between one basis point and 100%. -/
theorem C70_bachelier_range (brent lbfgs : Method) (hb : StaysInside brent) (hl : StaysInside lbfgs) (rows : List BachRow) (X : ℝ)
    (guess : Npf) (v : ℝ) (h : bachelierSolveImpliedVol brent lbfgs rows X guess = .ok v) : 0.0001 ≤ v ∧ v ≤ 1 :=
  solve_within (inside_normal hb guess) (inside_normal hl guess) h

/-- A volatility moved to another shift is between 0.1% and 1000%. -/
theorem C70_shift_range (lbfgs : Method) (hl : StaysInside lbfgs) (F tau K vol fromShift toShift v : ℝ)
    (h : shiftBlack76Vol lbfgs F tau K vol fromShift toShift = .ok v) : 0.001 ≤ v ∧ v ≤ 10 := by
  unfold shiftBlack76Vol at h
  split_ifs at h
  exact minimise_within (inside_sln hl _) h

/-- A normal volatility is converted to one between 0.1% and 1000%. -/
theorem C70_normal_range (lbfgs : Method) (hl : StaysInside lbfgs) (F tau K volN shift v : ℝ)
    (h : normalVolToBlack76Sln lbfgs F tau K volN shift = .ok v) : 0.001 ≤ v ∧ v ≤ 10 := by
  unfold normalVolToBlack76Sln at h
  split_ifs at h
  exact minimise_within (inside_sln hl _) h

/-- Away from the money a log-normal volatility is converted to a normal one between one basis point and 100%. -/
theorem C70_to_normal_range (brent lbfgs : Method) (hb : StaysInside brent) (hl : StaysInside lbfgs) (F tau K vol shift : ℝ) (r : Npf)
    (hFK : 1e-10 ≤ |F - K|) (h : black76SlnToNormalVol brent lbfgs F tau K vol shift = .ok r) :
    ∃ n, r = .fin n ∧ 0.0001 ≤ n ∧ n ≤ 1 := by
  unfold black76SlnToNormalVol at h
  rw [if_neg (not_lt.2 hFK)] at h
  cases hg : slnToNormalAnalytical F tau K vol shift with
  | error e => rw [hg] at h; cases h
  | ok guess =>
  rw [hg] at h
  simp only [Except.bind] at h
  split at h
  · rename_i px _
    cases hs : bachelierSolveImpliedVol brent lbfgs [⟨F, tau, 1, K, 0, 1⟩] px guess with
    | error e => rw [hs] at h; cases h
    | ok n => rw [hs] at h; cases h; exact ⟨n, rfl, C70_bachelier_range _ _ hb hl _ _ _ _ hs⟩
  · cases hs : solveVol (brent guess volNBounds) (lbfgs guess volNBounds) (fun _ => .nan) with
    | error e => rw [hs] at h; cases h
    | ok n => rw [hs] at h; cases h; exact ⟨n, rfl, solve_within (inside_normal hb _) (inside_normal hl _) hs⟩

/-! ## Prices out of reach -/

/-- The sum of the prices is out of reach of the target: the same side of it at both ends, by at least a relative 1e-5. -/
def OutOfReach (low high : List (Option ℝ)) (X : ℝ) : Prop :=
  ∃ ps qs : List ℝ, low = ps.map some ∧ high = qs.map some ∧
    (ps.sum ≤ (1 - 0.00001) * X ∧ qs.sum ≤ (1 - 0.00001) * X ∨ (1 + 0.00001) * X ≤ ps.sum ∧ (1 + 0.00001) * X ≤ qs.sum)

theorem relative_some (ps : List ℝ) {X : ℝ} (hX : 0 < X) : relativeError (ps.map some) X = .fin ((ps.sum - X) / X) := by
  unfold relativeError
  rw [(mapM_id_some _ ps).2 rfl]
  simp [Npf.divide, hX.ne']

theorem solve_out {m : Method} (hm : Bracketing m) {x0 : Npf} {lo hi : ℝ} (hlh : lo ≤ hi) {prices : ℝ → List (Option ℝ)} {X : ℝ} (hX : 0 < X)
    {s : Search} (h : OutOfReach (prices lo) (prices hi) X) :
    solveVol (m x0 (.fin lo, .fin hi)) s (fun v => relativeError (prices v) X) = .error .value := by
  obtain ⟨k, hk, hf⟩ := hm x0 lo hi hlh
  obtain ⟨ps, qs, hp, hq, hs⟩ := h
  have hep : relativeError (prices lo) X = .fin ((ps.sum - X) / X) := by rw [hp]; exact relative_some ps hX
  have heq : relativeError (prices hi) X = .fin ((qs.sum - X) / X) := by rw [hq]; exact relative_some qs hX
  have side : ∀ t : ℝ, (t ≤ (1 - 0.00001) * X → (t - X) / X ≤ -0.00001) ∧ ((1 + 0.00001) * X ≤ t → 0.00001 ≤ (t - X) / X) := by
    intro t
    rw [div_le_iff₀ hX, le_div_iff₀ hX]
    exact ⟨fun h => by linarith, fun h => by linarith⟩
  have hpos : (0 : ℝ) < 0.00001 := by norm_num
  have hout : ∀ {e : ℝ}, e ≤ -0.00001 ∨ 0.00001 ≤ e → ¬ within 0.00001 (.fin e) := by
    intro e he hw
    have := abs_lt.1 (show |e| < 0.00001 from hw)
    rcases he with he | he <;> linarith
  have hsame : ((ps.sum - X) / X ≤ -0.00001 ∧ (qs.sum - X) / X ≤ -0.00001) ∨ (0.00001 ≤ (ps.sum - X) / X ∧ 0.00001 ≤ (qs.sum - X) / X) := by
    rcases hs with ⟨h1, h2⟩ | ⟨h1, h2⟩
    · exact Or.inl ⟨(side _).1 h1, (side _).1 h2⟩
    · exact Or.inr ⟨(side _).2 h1, (side _).2 h2⟩
  have hrun : (m x0 (.fin lo, .fin hi)).run (fun v => relativeError (prices v) X) 0.00001 = .raised .value := by
    rw [hk, Search.run]
    simp only [hep]
    rw [if_neg (hout (hsame.imp And.left And.left)), Search.run]
    simp only [heq]
    rw [if_neg (hout (hsame.imp And.right And.right)), hf _ _ (hsame.symm.imp (fun h => ⟨hpos.trans_le h.1, hpos.trans_le h.2⟩)
      (fun h => ⟨h.1.trans_lt (by linarith), h.2.trans_lt (by linarith)⟩)), Search.run]
  unfold solveVol
  rw [hrun]

/-- Black-76: when the total price at volatilities of 0.1% and 1000% is on the same side of the target, by at least a relative 1e-5, the
solver raises `ValueError`; the fallback is not tried. -/
theorem C70_black_out_of_reach (brent lbfgs : Method) (hb : Bracketing brent) (rows : List B76Row) (X : ℝ) (guess : Npf) (hX : 0 < X)
    (h : OutOfReach (rows.map (fun x => b76Price { x with vol := 0.001 })) (rows.map (fun x => b76Price { x with vol := 10 })) X) :
    black76SolveImpliedVol brent lbfgs rows X guess = .error .value := by
  have e : volSlnBounds = (.fin 0.001, .fin 10) := by unfold volSlnBounds; norm_num
  unfold black76SolveImpliedVol
  rw [e]
  refine solve_out hb (lo := 0.001) (hi := 10) (by norm_num) hX
    (prices := fun v => (black76Price (rows.map (fun x => { x with vol := v }))).map (·.price)) ?_
  simp only [black76Price, List.map_map]
  exact h

/-- Bachelier: the same for volatilities of one basis point and 100%. -/
theorem C70_bachelier_out_of_reach (brent lbfgs : Method) (hb : Bracketing brent) (rows : List BachRow) (X : ℝ) (guess : Npf) (hX : 0 < X)
    (h : OutOfReach (rows.map (fun x => bachPrice { x with vol := 0.0001 })) (rows.map (fun x => bachPrice { x with vol := 1 })) X) :
    bachelierSolveImpliedVol brent lbfgs rows X guess = .error .value := by
  have e : volNBounds = (.fin 0.0001, .fin 1) := by unfold volNBounds; norm_num
  unfold bachelierSolveImpliedVol
  rw [e]
  refine solve_out hb (lo := 0.0001) (hi := 1) (by norm_num) hX
    (prices := fun v => (bachelierPrice (rows.map (fun x => { x with vol := v }))).map (·.price)) ?_
  simp only [bachelierPrice, List.map_map]
  exact h

/-- One option: a price above that at 1000%, or below that at 0.1%, by a relative 1e-5 raises `ValueError`. -/
theorem C70_black_single_out (brent lbfgs : Method) (hb : Bracketing brent) (x : B76Row) (hx : LognormalOption { x with vol := 1 })
    (ha : 0 < x.annuity)
    (X low high : ℝ) (guess : Npf) (hX : 0 < X) (hlow : B76Priced { x with vol := 0.001 } low) (hhigh : B76Priced { x with vol := 10 } high)
    (h : high ≤ (1 - 0.00001) * X ∨ (1 + 0.00001) * X ≤ low) : black76SolveImpliedVol brent lbfgs [x] X guess = .error .value := by
  have hvol : ∀ w, 0 < w → LognormalOption { x with vol := w } := fun w hw => ⟨hx.1, hx.2.1, hx.2.2.1, hw, hx.2.2.2.2⟩
  have hmono := (C52_monotone _ hx ha (fun w => x.annuity * blackF x.cp (x.F + x.shift) (x.K + x.shift) (w * Real.sqrt x.tau))
    (fun w hw => (b76Priced_black (hvol w hw) _).2 rfl)).1
  have hlt : low < high := by
    rw [(b76Priced_black (hvol _ (by norm_num)) _).1 hlow, (b76Priced_black (hvol _ (by norm_num)) _).1 hhigh]
    exact hmono (show (0 : ℝ) < 0.001 by norm_num) (show (0 : ℝ) < 10 by norm_num) (by norm_num)
  refine C70_black_out_of_reach _ _ hb _ _ _ hX ⟨[low], [high], ?_, ?_, ?_⟩
  · simp [(b76Priced_iff _ _).1 hlow]
  · simp [(b76Priced_iff _ _).1 hhigh]
  · simp only [List.sum_singleton]
    rcases h with h | h
    · exact Or.inl ⟨by linarith, h⟩
    · exact Or.inr ⟨h, by linarith⟩

/-- The same for Bachelier, with one basis point and 100%. -/
theorem C70_bachelier_single_out (brent lbfgs : Method) (hb : Bracketing brent) (x : BachRow) (hx : NormalOption { x with vol := 1 })
    (ha : 0 < x.annuity)
    (X low high : ℝ) (guess : Npf) (hX : 0 < X) (hlow : BachPriced { x with vol := 0.0001 } low) (hhigh : BachPriced { x with vol := 1 } high)
    (h : high ≤ (1 - 0.00001) * X ∨ (1 + 0.00001) * X ≤ low) : bachelierSolveImpliedVol brent lbfgs [x] X guess = .error .value := by
  have hvol : ∀ w, 0 < w → NormalOption { x with vol := w } := fun w hw => ⟨hx.1, hw, hx.2.2⟩
  have hmono := C53_monotone _ hx ha (fun w => x.annuity * bachF x.cp (x.F - x.K) (w * Real.sqrt x.tau))
    (fun w hw => (bachPriced_eq (hvol w hw) _).2 rfl)
  have hlt : low < high := by
    rw [(bachPriced_eq (hvol _ (by norm_num)) _).1 hlow, (bachPriced_eq (hvol _ (by norm_num)) _).1 hhigh]
    exact hmono (show (0 : ℝ) < 0.0001 by norm_num) (show (0 : ℝ) < 1 by norm_num) (by norm_num)
  refine C70_bachelier_out_of_reach _ _ hb _ _ _ hX ⟨[low], [high], ?_, ?_, ?_⟩
  · simp [(bachPriced_iff _ _).1 hlow]
  · simp [(bachPriced_iff _ _).1 hhigh]
  · simp only [List.sum_singleton]
    rcases h with h | h
    · exact Or.inl ⟨by linarith, h⟩
    · exact Or.inr ⟨h, by linarith⟩

/-- A log-normal volatility whose normal equivalent is below one basis point is not converted away from the money: `ValueError`. -/
theorem C70_to_normal_below (brent lbfgs : Method) (hb : Bracketing brent) (F tau K vol shift p low : ℝ) (hFK : 1e-10 ≤ |F - K|)
    (hx : LognormalOption ⟨F, tau, 1, K, vol, shift, 1⟩) (hp : B76Priced ⟨F, tau, 1, K, vol, shift, 1⟩ p)
    (hlow : BachPriced ⟨F, tau, 1, K, 0.0001, 1⟩ low) (h : (1 + 0.00001) * p ≤ low) :
    black76SlnToNormalVol brent lbfgs F tau K vol shift = .error .value := by
  have hn : NormalOption { (⟨F, tau, 1, K, 0, 1⟩ : BachRow) with vol := 1 } := ⟨hx.2.2.1, one_pos, Or.inl rfl⟩
  have hpos : 0 < p := lt_of_le_of_lt (mul_nonneg zero_le_one (le_max_left _ _)) (C52_bounds _ hx one_pos p hp).1
  obtain ⟨guess, hg⟩ : ∃ guess, slnToNormalAnalytical F tau K vol shift = .ok guess := by
    unfold slnToNormalAnalytical
    rw [if_neg (show K + shift ≠ 0 from (show 0 < K + shift from hx.2.1).ne')]
    split_ifs
    · exact ⟨_, rfl⟩
    · exact ⟨_, rfl⟩
  unfold black76SlnToNormalVol
  rw [if_neg (not_lt.2 hFK), (b76Priced_iff _ _).1 hp, hg]
  show (bachelierSolveImpliedVol brent lbfgs [⟨F, tau, 1, K, 0, 1⟩] p guess).map Npf.fin = _
  rw [C70_bachelier_single_out brent lbfgs hb ⟨F, tau, 1, K, 0, 1⟩ hn one_pos p low _ guess hpos hlow ((bachPriced_eq hn _).2 rfl) (Or.inr h)]
  rfl

/-- At the money every volatility is converted, whatever the methods do. -/
theorem C70_to_normal_atm (brent lbfgs : Method) (F tau vol shift : ℝ) (ht : 0 < tau) :
    ∃ n, black76SlnToNormalVol brent lbfgs F tau F vol shift = .ok (.fin n) := by
  unfold black76SlnToNormalVol
  rw [if_pos (by norm_num)]
  have : Real.sqrt tau * normPdf 0 ≠ 0 := (mul_pos (Real.sqrt_pos.2 ht) (normPdf_pos 0)).ne'
  exact ⟨_, by rw [if_neg (not_lt.2 ht.le), Npf.divide, if_pos this]⟩

/-- A forward of a tenth of a basis point and a strike of two tenths: the normal equivalent of 30% is below one basis point. -/
example : ∃ p low, (1e-10 : ℝ) ≤ |0.00001 - 0.00002| ∧ LognormalOption ⟨0.00001, 1, 1, 0.00002, 0.3, 0, 1⟩ ∧
    B76Priced ⟨0.00001, 1, 1, 0.00002, 0.3, 0, 1⟩ p ∧ BachPriced ⟨0.00001, 1, 1, 0.00002, 0.0001, 1⟩ low ∧ (1 + 0.00001) * p ≤ low := by
  have hx : LognormalOption ⟨0.00001, 1, 1, 0.00002, 0.3, 0, 1⟩ := ⟨by norm_num, by norm_num, by norm_num, by norm_num, Or.inl rfl⟩
  have hn : NormalOption ⟨0.00001, 1, 1, 0.00002, 0.0001, 1⟩ := ⟨by norm_num, by norm_num, Or.inl rfl⟩
  obtain ⟨p, hp, -⟩ := C52_price _ hx
  refine ⟨p, _, by norm_num [abs_of_neg], hx, hp, (bachPriced_eq hn _).2 rfl, ?_⟩
  have hb := (C52_bounds _ hx one_pos p hp).2.1 rfl
  simp only [Real.sqrt_one, bachF, one_mul, mul_one, add_zero] at hb ⊢
  have hd : ((0.00001 : ℝ) - 0.00002) / 0.0001 = -0.1 := by norm_num
  rw [hd]
  have hc := normCdf_lt_one (-0.1)
  have hpi : Real.sqrt (2 * Real.pi) ≤ 3 := by
    rw [Real.sqrt_le_left (by norm_num)]
    linarith [Real.pi_lt_four]
  have hpdf : (0.33 : ℝ) ≤ normPdf (-0.1) := by
    unfold normPdf
    rw [le_div_iff₀ (Real.sqrt_pos.2 (by positivity))]
    have := Real.add_one_le_exp (-(-0.1 : ℝ) ^ 2 / 2)
    have e : (-(-0.1 : ℝ) ^ 2 / 2) = -0.005 := by norm_num
    rw [e] at this ⊢
    linarith
  norm_num at hb hc hpdf ⊢
  linarith

/-- A method that keeps to its bounds and brackets: it evaluates the ends, fails on equal signs and otherwise returns the lower end. -/
example : ∃ m : Method, StaysInside m ∧ Bracketing m := by
  refine ⟨fun _ b => match b with
    | (.fin lo, .fin hi) => .ask lo (fun a => .ask hi (fun c => match a, c with
      | .fin a, .fin c => if 0 < a ∧ 0 < c ∨ a < 0 ∧ c < 0 then .fail .value else .ret lo true
      | _, _ => .ret lo true))
    | _ => .fail .value, ?_, ?_⟩
  · intro x0 lo hi h
    refine ⟨⟨le_rfl, h⟩, fun a => ⟨⟨h, le_rfl⟩, fun c => ?_⟩⟩
    simp only
    split
    · split_ifs
      · trivial
      · exact ⟨le_rfl, h⟩
    · exact ⟨le_rfl, h⟩
  · intro x0 lo hi h
    exact ⟨_, rfl, fun a c hs => if_pos hs⟩

end Frm.Props
