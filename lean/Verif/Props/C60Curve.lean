import Verif.Model.ForwardCurve
import Verif.Proofs.ZeroCurve
import Verif.Props.C60

/-!
# C60, continued: the table of forward prices the simulation starts from
-/

namespace Frm
namespace Spec

set_option autoImplicit false

/-- The table of forward prices has rows at or before time 0 and at or after the horizon. -/
def Covers (curve : List (ℝ × ℝ)) (horizon : ℝ) : Prop := (∃ p ∈ curve, p.1 ≤ 0) ∧ ∃ p ∈ curve, horizon ≤ p.1

/-- Rows `p` and `q` are next to each other in time. -/
def Adjacent (curve : List (ℝ × ℝ)) (p q : ℝ × ℝ) : Prop :=
  p ∈ curve ∧ q ∈ curve ∧ p.1 < q.1 ∧ ∀ x ∈ curve, x.1 ≤ p.1 ∨ q.1 ≤ x.1

/-- `v` is the price at time `t` on the straight line between the rows around it. -/
def CurveLine (curve : List (ℝ × ℝ)) (t v : ℝ) : Prop :=
  (∃ p ∈ curve, p.1 = t ∧ v = p.2) ∨
    ∃ p q, Adjacent curve p q ∧ p.1 ≤ t ∧ t ≤ q.1 ∧ (q.1 - p.1) * v = (q.1 - t) * p.2 + (t - p.1) * q.2

end Spec
end Frm

namespace Frm.Props

set_option autoImplicit false

open Frm Frm.Spec

private theorem points_perm (curve : List (ℝ × ℝ)) : (csPoints curve).Perm curve := List.perm_insertionSort _ curve

private theorem points_sorted (curve : List (ℝ × ℝ)) : (csPoints curve).Pairwise (fun a b => a.1 ≤ b.1) := by
  haveI : Std.Total (fun a b : ℝ × ℝ => a.1 ≤ b.1) := ⟨fun a b => le_total a.1 b.1⟩
  haveI : IsTrans (ℝ × ℝ) (fun a b => a.1 ≤ b.1) := ⟨fun _ _ _ h1 h2 => le_trans h1 h2⟩
  exact List.pairwise_insertionSort _ curve

private theorem head_least {l : List (ℝ × ℝ)} (hs : l.Pairwise (fun a b => a.1 ≤ b.1)) {lo : ℝ × ℝ} (h : l.head? = some lo) :
    lo ∈ l ∧ ∀ p ∈ l, lo.1 ≤ p.1 := by
  cases l with
  | nil => cases h
  | cons x rest =>
    simp only [List.head?_cons, Option.some.injEq] at h
    subst h
    refine ⟨by simp, fun p hp => ?_⟩
    rcases List.mem_cons.mp hp with rfl | hp
    · exact le_refl _
    · exact (List.pairwise_cons.mp hs).1 p hp

private theorem last_greatest {l : List (ℝ × ℝ)} (hs : l.Pairwise (fun a b => a.1 ≤ b.1)) {hi : ℝ × ℝ} (h : l.getLast? = some hi) :
    hi ∈ l ∧ ∀ p ∈ l, p.1 ≤ hi.1 := by
  obtain ⟨init, rfl⟩ := List.getLast?_eq_some_iff.mp h
  refine ⟨by simp, fun p hp => ?_⟩
  rcases List.mem_append.mp hp with hp | hp
  · exact (List.pairwise_append.mp hs).2.2 p hp hi (by simp)
  · simp at hp; rw [hp]

/-- Between the first and the last of strictly increasing rows interpolation is on the line. -/
private theorem interp_on_line : ∀ {l : List (ℝ × ℝ)}, l.Pairwise (fun p q => p.1 < q.1) → ∀ {t : ℝ},
    (∃ p ∈ l, p.1 ≤ t) → (∃ p ∈ l, t ≤ p.1) → CurveLine l t (npInterp t l)
  | [], _, _, h, _ => by obtain ⟨p, hp, _⟩ := h; cases hp
  | [p], _, t, h1, h2 => by
    obtain ⟨a, ha, h1⟩ := h1
    obtain ⟨b, hb, h2⟩ := h2
    simp only [List.mem_singleton] at ha hb
    subst ha hb
    exact .inl ⟨_, by simp, le_antisymm h1 h2, rfl⟩
  | p :: q :: rest, hs, t, h1, h2 => by
    have hs' := List.pairwise_cons.mp hs
    have hpq : p.1 < q.1 := hs'.1 q (by simp)
    have hpt : p.1 ≤ t := by
      obtain ⟨a, ha, h1⟩ := h1
      rcases List.mem_cons.mp ha with rfl | ha
      · exact h1
      · exact (hs'.1 a ha).le.trans h1
    by_cases htq : t < q.1
    · right
      refine ⟨p, q, ⟨by simp, by simp, hpq, ?_⟩, hpt, htq.le, ?_⟩
      · intro x hx
        rcases List.mem_cons.mp hx with rfl | hx
        · exact .inl (le_refl _)
        · rcases List.mem_cons.mp hx with rfl | hx
          · exact .inr (le_refl _)
          · exact .inr ((List.pairwise_cons.mp hs'.2).1 x hx).le
      · rw [npInterp, if_neg (not_lt.mpr hpt), if_pos htq]
        have : q.1 - p.1 ≠ 0 := by linarith
        field_simp
        ring
    · have htq := not_lt.mp htq
      rw [npInterp_cons_ge hpt htq]
      have ih := interp_on_line hs'.2 (t := t) ⟨q, by simp, htq⟩ (by
        obtain ⟨b, hb, h2⟩ := h2
        rcases List.mem_cons.mp hb with rfl | hb
        · exact ⟨q, by simp, h2.trans hpq.le⟩
        · exact ⟨b, hb, h2⟩)
      rcases ih with ⟨x, hx, hxt, hv⟩ | ⟨x, y, ⟨hx, hy, hxy, hall⟩, h3, h4, hv⟩
      · exact .inl ⟨x, List.mem_cons_of_mem _ hx, hxt, hv⟩
      · refine .inr ⟨x, y, ⟨List.mem_cons_of_mem _ hx, List.mem_cons_of_mem _ hy, hxy, fun z hz => ?_⟩, h3, h4, hv⟩
        rcases List.mem_cons.mp hz with rfl | hz
        · left
          rcases List.mem_cons.mp hx with rfl | hx'
          · exact hpq.le
          · exact (hs'.1 x (List.mem_cons_of_mem _ hx')).le
        · exact hall z hz

private theorem onLine_perm {l m : List (ℝ × ℝ)} (h : l.Perm m) {t v : ℝ} (hl : CurveLine l t v) : CurveLine m t v := by
  rcases hl with ⟨p, hp, h1, h2⟩ | ⟨p, q, ⟨hp, hq, hpq, hall⟩, h1, h2, h3⟩
  · exact .inl ⟨p, h.mem_iff.mp hp, h1, h2⟩
  · exact .inr ⟨p, q, ⟨h.mem_iff.mp hp, h.mem_iff.mp hq, hpq, fun x hx => hall x (h.mem_iff.mpr hx)⟩, h1, h2, h3⟩

private theorem onLine_positive {l : List (ℝ × ℝ)} {t v : ℝ} (hpos : ∀ p ∈ l, 0 < p.2) (h : CurveLine l t v) : 0 < v := by
  rcases h with ⟨p, hp, _, rfl⟩ | ⟨p, q, ⟨hp, hq, hpq, _⟩, h1, h2, h3⟩
  · exact hpos p hp
  · have hp := hpos p hp
    have hq := hpos q hq
    have : 0 < (q.1 - p.1) * v := by
      rw [h3]
      rcases lt_or_eq_of_le h2 with h | h
      · exact add_pos_of_pos_of_nonneg (mul_pos (by linarith) hp) (mul_nonneg (by linarith) hq.le)
      · rw [h]; simp only [sub_self, zero_mul, zero_add]; exact mul_pos (by linarith) hq
    exact (mul_pos_iff_of_pos_left (by linarith)).mp this

private theorem forwards_cases (curve : List (ℝ × ℝ)) (segments horizon : Nat) (hs : 1 ≤ segments) :
    (Covers curve horizon ∧ csForwards curve (csTimes segments (horizon * segments)) =
      .ok ((csTimes segments (horizon * segments)).map (fun t => npInterp t (csPoints curve)))) ∨
    (¬ Covers curve horizon ∧ csForwards curve (csTimes segments (horizon * segments)) = .error .value) := by
  have hseg : (0 : ℝ) < segments := by exact_mod_cast hs
  have hperm := points_perm curve
  have hsort := points_sorted curve
  have h0 : (0 : ℝ) ∈ csTimes segments (horizon * segments) := List.mem_map.mpr ⟨0, by simp, by simp⟩
  have hT : (horizon : ℝ) ∈ csTimes segments (horizon * segments) :=
    List.mem_map.mpr ⟨horizon * segments, by simp, by push_cast; field_simp⟩
  have hbound : ∀ t ∈ csTimes segments (horizon * segments), 0 ≤ t ∧ t ≤ horizon := by
    intro t ht
    obtain ⟨i, hi, rfl⟩ := List.mem_map.mp ht
    have hi : i ≤ horizon * segments := by simpa [Nat.lt_succ_iff] using hi
    have hi : (i : ℝ) ≤ horizon * segments := by exact_mod_cast hi
    refine ⟨by positivity, ?_⟩
    rw [mul_one_div, div_le_iff₀ hseg]
    exact hi
  unfold csForwards
  cases hlo : (csPoints curve).head? with
  | none =>
    right
    have : csPoints curve = [] := by cases h : csPoints curve with
      | nil => rfl
      | cons a l => rw [h] at hlo; cases hlo
    rw [this] at hperm
    refine ⟨?_, rfl⟩
    rintro ⟨⟨p, hp, _⟩, _⟩
    rw [← hperm.mem_iff] at hp
    cases hp
  | some lo =>
    obtain ⟨hlm, hlo'⟩ := head_least hsort hlo
    cases hhi : (csPoints curve).getLast? with
    | none => rw [List.getLast?_eq_none_iff] at hhi; rw [hhi] at hlm; cases hlm
    | some hi =>
      obtain ⟨hhm, hhi'⟩ := last_greatest hsort hhi
      simp only
      by_cases hc : Covers curve horizon
      · left
        refine ⟨hc, if_pos fun t ht => ?_⟩
        obtain ⟨⟨p, hp, hp0⟩, ⟨q, hq, hq0⟩⟩ := hc
        have := hbound t ht
        exact ⟨(hlo' p (hperm.mem_iff.mpr hp)).trans (hp0.trans this.1), this.2.trans (hq0.trans (hhi' q (hperm.mem_iff.mpr hq)))⟩
      · right
        refine ⟨hc, if_neg fun hall => hc ⟨⟨lo, hperm.mem_iff.mp hlm, (hall 0 h0).1⟩, ⟨hi, hperm.mem_iff.mp hhm, (hall _ hT).2⟩⟩⟩

/-- Which calls raise: no segments a day is a `ZeroDivisionError`; a table that does not cover the times from 0 to the horizon is a
`ValueError`, whatever the rest; the remaining refusals are those of `C60_refused`. -/
theorem C60_curve_refused (gen : Generator) (curve : List (ℝ × ℝ)) (sims segments horizon : Nat) (a sigma : ℝ) :
    (segments = 0 → csSimulateCurve gen curve sims segments horizon a sigma = .error .zeroDiv) ∧
    (1 ≤ segments → ¬ Covers curve horizon → csSimulateCurve gen curve sims segments horizon a sigma = .error .value) ∧
    (1 ≤ segments → Covers curve horizon → (sims = 0 ∨ horizon = 0 ∨ 100000000 < horizon * segments) →
      csSimulateCurve gen curve sims segments horizon a sigma = .error .zeroDiv) := by
  refine ⟨fun h => by simp [csSimulateCurve, h], fun hs hc => ?_, fun hs hc hno => ?_⟩
  · rcases forwards_cases curve segments horizon hs with h | h
    · exact absurd h.1 hc
    · simp only [csSimulateCurve, h.2]
      rw [if_neg (by omega)]
  · rcases forwards_cases curve segments horizon hs with h | h
    · simp only [csSimulateCurve, h.2]
      rw [if_neg (by omega)]
      unfold csSimulate
      simp only
      by_cases h0 : horizon * segments = 0
      · rw [if_pos (.inr h0)]
      · rw [if_neg (by omega), if_pos]
        have : horizon ≠ 0 := by rintro rfl; simp at h0
        rcases hno with h | h | h
        · rw [h]; simp
        · exact absurd h this
        · rw [show maxSimulationsPerLoop / (horizon * segments) = 0 from Nat.div_eq_of_lt h]; simp
    · exact absurd hc h.1

/-- With rows at distinct times, in any order, that cover the horizon, the simulation is that of `C60_columns` with prices on the straight
lines between the rows, at every step. -/
theorem C60_curve (gen : Generator) (curve : List (ℝ × ℝ)) (sims segments horizon : Nat) (a sigma : ℝ) (hs : 1 ≤ segments)
    (hc : Covers curve horizon) (hd : (curve.map (·.1)).Nodup) :
    ∃ forward : Nat → ℝ, csSimulateCurve gen curve sims segments horizon a sigma = csSimulate gen forward sims segments horizon a sigma ∧
      ∀ i, i ≤ horizon * segments → CurveLine curve ((i : ℝ) / segments) (forward i) := by
  rcases forwards_cases curve segments horizon hs with ⟨_, h⟩ | h
  swap
  · exact absurd hc h.1
  have hseg : (0 : ℝ) < segments := by exact_mod_cast hs
  have hperm := points_perm curve
  have hstrict : (csPoints curve).Pairwise (fun p q => p.1 < q.1) := by
    have hnd : ((csPoints curve).map (·.1)).Nodup := (hperm.map _).nodup_iff.mpr hd
    have hne : (csPoints curve).Pairwise (fun p q => p.1 ≠ q.1) := List.pairwise_map.mp hnd
    exact (points_sorted curve).imp₂ (fun _ _ h1 h2 => lt_of_le_of_ne h1 h2) hne
  refine ⟨_, by simp only [csSimulateCurve, h]; rw [if_neg (by omega)], fun i hi => ?_⟩
  have hget : ((csTimes segments (horizon * segments)).map (fun t => npInterp t (csPoints curve))).getD i 0 =
      npInterp ((i : ℝ) / segments) (csPoints curve) := by
    have hlt : i < horizon * segments + 1 := by omega
    simp [csTimes, List.getD, List.getElem?_range hlt, div_eq_mul_inv]
  rw [hget]
  apply onLine_perm hperm
  obtain ⟨⟨p, hp, hp0⟩, ⟨q, hq, hq0⟩⟩ := hc
  have hi : (i : ℝ) ≤ horizon * segments := by exact_mod_cast hi
  exact interp_on_line hstrict ⟨p, hperm.mem_iff.mpr hp, hp0.trans (by positivity)⟩
    ⟨q, hperm.mem_iff.mpr hq, ((div_le_iff₀ hseg).mpr hi).trans hq0⟩

private theorem onLine_row {curve : List (ℝ × ℝ)} (hd : (curve.map (·.1)).Nodup) {p : ℝ × ℝ} (hp : p ∈ curve) {v : ℝ}
    (h : CurveLine curve p.1 v) : v = p.2 := by
  have hinj : ∀ x ∈ curve, x.1 = p.1 → x = p := fun x hx hxp => List.inj_on_of_nodup_map hd hx hp hxp
  rcases h with ⟨x, hx, hxt, rfl⟩ | ⟨x, y, ⟨hx, hy, hxy, hall⟩, h1, h2, h3⟩
  · rw [hinj x hx hxt]
  · have hne : y.1 - x.1 ≠ 0 := by linarith
    rcases hall p hp with h | h
    · have hxp := hinj x hx (le_antisymm h1 h)
      rw [← hxp] at h3 ⊢
      apply mul_left_cancel₀ hne
      rw [h3]; ring
    · have hyp := hinj y hy (le_antisymm h h2)
      rw [← hyp] at h3 ⊢
      apply mul_left_cancel₀ hne
      rw [h3]; ring

/-- Every path starts at the price the table gives at time 0, and all simulated prices are positive; without volatility every path goes
through the price of each whole day the table lists. -/
theorem C60_curve_prices (gen : Generator) (curve : List (ℝ × ℝ)) (sims segments horizon : Nat) (a sigma : ℝ) (hn : 1 ≤ sims)
    (hs : 1 ≤ segments) (hT : 1 ≤ horizon) (hmax : horizon * segments ≤ 100000000) (hc : Covers curve horizon)
    (hd : (curve.map (·.1)).Nodup) (hpos : ∀ p ∈ curve, 0 < p.2) :
    ∃ r, csSimulateCurve gen curve sims segments horizon a sigma = .ok r ∧ r.rows = horizon + 1 ∧ r.cols = sims ∧
      ∀ c, c < sims → CurveLine curve 0 (r.get 0 c) ∧ (∀ t, t ≤ horizon → 0 < r.get t c) ∧
        (∀ v, ((0 : ℝ), v) ∈ curve → r.get 0 c = v) ∧
        (sigma = 0 → ∀ t, t ≤ horizon → CurveLine curve t (r.get t c) ∧ ∀ v, ((t : ℝ), v) ∈ curve → r.get t c = v) := by
  obtain ⟨forward, heq, hline⟩ := C60_curve gen curve sims segments horizon a sigma hs hc hd
  obtain ⟨r, hr, h1, h2, -, -, hspec⟩ := C60_columns gen forward sims segments horizon a sigma hn hs hT hmax
  have hseg : (segments : ℝ) ≠ 0 := by exact_mod_cast (show segments ≠ 0 by omega)
  refine ⟨r, heq.trans hr, h1, h2, fun c hcol => ?_⟩
  have l0 : CurveLine curve 0 (forward 0) := by simpa using hline 0 (Nat.zero_le _)
  have hF0 := onLine_positive hpos l0
  obtain ⟨g0, gpos⟩ := C60_positive gen forward sims segments horizon a sigma hn hs hT hmax hF0 r hr c hcol
  refine ⟨g0 ▸ l0, gpos, fun v hv => ?_, ?_⟩
  · rw [g0]; exact onLine_row hd hv l0
  · rintro rfl t ht
    obtain ⟨x, ⟨hx0, hstep⟩, hval⟩ := hspec c hcol
    have key : ∀ i, i ≤ horizon * segments → x i = Real.log (forward i) := by
      intro i
      induction i with
      | zero => intro _; exact hx0
      | succ i ih =>
        intro hi
        have h1 := hstep i (by omega)
        rw [ih (by omega)] at h1
        simp only [sub_self, mul_zero, zero_mul] at h1
        norm_num at h1
        linarith
    have hle := Nat.mul_le_mul_right segments ht
    have hlt : CurveLine curve t (forward (t * segments)) := by
      have := hline (t * segments) hle
      rwa [Nat.cast_mul, mul_div_assoc, div_self hseg, mul_one] at this
    rw [hval t ht, key _ hle, Real.exp_log (onLine_positive hpos hlt)]
    exact ⟨hlt, fun v hv => onLine_row hd hv hlt⟩

/-- A table of three rows, not in order, covers two days. -/
example : Covers [(2, 30), (0, 20), (1, 25)] ((2 : Nat) : ℝ) ∧ (([(2, 30), (0, 20), (1, 25)] : List (ℝ × ℝ)).map (·.1)).Nodup ∧
    ∀ p ∈ ([(2, 30), (0, 20), (1, 25)] : List (ℝ × ℝ)), 0 < p.2 := by
  refine ⟨⟨⟨(0, 20), by simp, le_refl _⟩, ⟨(2, 30), by simp, by norm_num⟩⟩, by norm_num, ?_⟩
  intro p hp
  simp only [List.mem_cons, List.not_mem_nil, or_false] at hp
  rcases hp with rfl | rfl | rfl <;> norm_num

end Frm.Props
