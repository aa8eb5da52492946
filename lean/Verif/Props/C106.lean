import Verif.Model.SabrCalls
import Verif.Props.C71

/-!
# C106 — Calling the SABR functions

Which arrays the SABR volatility is computed for, what comes back, and that the calibration needs a shift although its default is none.
-/

namespace Frm.Spec

set_option autoImplicit false

/-- The six parameters of the smiles have equal length, there is one smile or one strike or as many of one as of the other, and the
shift is a single number. -/
def SabrShapes (a : SabrArgs) : Prop :=
  (∃ n, ∀ l ∈ [a.tau, a.F, a.alpha, a.beta, a.rho, a.volvol], l.length = n) ∧
  (a.K.length ≤ 1 ∨ a.tau.length = 1 ∨ a.tau.length = a.K.length) ∧
  ∃ s, a.shift = some [s]

/-- The element used for the `i`th result: the only one, or the `i`th. -/
def SabrElement (l : List ℝ) (i : Nat) (x : ℝ) : Prop := l = [x] ∨ l[i]? = some x

/-- A minimiser hands on the exception that the function raises at the starting point. -/
def EvaluatesStart (minimise : BoxMinimiser) : Prop := ∀ x0 b f e, f x0 = .error e → minimise x0 b f = .error e

end Frm.Spec

namespace Frm.Props
open Frm.Spec Classical

set_option autoImplicit false

private theorem shapes_iff (a : SabrArgs) :
    (∃ n, ∀ l ∈ [a.tau, a.F, a.alpha, a.beta, a.rho, a.volvol], l.length = n) ↔
    (a.tau.length = a.F.length ∧ a.F.length = a.alpha.length ∧ a.alpha.length = a.beta.length ∧ a.beta.length = a.rho.length ∧
      a.rho.length = a.volvol.length) := by
  constructor
  · rintro ⟨n, hn⟩
    have h1 := hn a.tau (by simp)
    have h2 := hn a.F (by simp)
    have h3 := hn a.alpha (by simp)
    have h4 := hn a.beta (by simp)
    have h5 := hn a.rho (by simp)
    have h6 := hn a.volvol (by simp)
    omega
  · rintro ⟨h1, h2, h3, h4, h5⟩
    refine ⟨a.tau.length, fun l hl => ?_⟩
    simp only [List.mem_cons, List.not_mem_nil, or_false] at hl
    rcases hl with rfl | rfl | rfl | rfl | rfl | rfl <;> omega

private theorem smiles_length {a : SabrArgs}
    (h : a.tau.length = a.F.length ∧ a.F.length = a.alpha.length ∧ a.alpha.length = a.beta.length ∧ a.beta.length = a.rho.length ∧
      a.rho.length = a.volvol.length) : a.smiles.length = a.tau.length := by
  unfold SabrArgs.smiles
  simp only [List.length_zip]
  omega

/-- Arrays of other shapes raise `AssertionError`, and so does a missing shift or one that is an array of several numbers. -/
theorem C106_refused (a : SabrArgs) (h : ¬ SabrShapes a) : sabrCall a = .error .assertion := by
  unfold SabrShapes at h
  rw [shapes_iff] at h
  unfold sabrCall
  split
  · rfl
  · rename_i h1
    rw [not_not] at h1
    split
    · rfl
    · rename_i h2
      split
      · rename_i s hs
        refine absurd ⟨h1, ?_, s, hs⟩ h
        by_contra h3
        push Not at h3
        exact h2 ⟨h3.1, by rintro (h4 | h4); exacts [h3.2.2 h4, h3.2.1 h4]⟩
      · rfl

/-- With the shapes in order the only calls that raise have several smiles and no strike (`ValueError`). -/
theorem C106_accepted (a : SabrArgs) (h : SabrShapes a) :
    ((∃ out, sabrCall a = .ok out) ↔ ¬ (a.K = [] ∧ 1 < a.tau.length)) ∧
    (∀ e, sabrCall a = .error e → e = .value) := by
  obtain ⟨h1, h2, s, hs⟩ := h
  rw [shapes_iff] at h1
  have hlen := smiles_length h1
  have h3 : ¬ (1 < a.K.length ∧ ¬ (a.tau.length = a.K.length ∨ a.tau.length = 1)) := by
    rintro ⟨h4, h5⟩
    rcases h2 with h2 | h2 | h2
    · omega
    · exact h5 (Or.inr h2)
    · exact h5 (Or.inl h2)
  have hc : sabrCall a = (calcSabrVols a.smiles a.K s).map sabrOut := by
    unfold sabrCall
    rw [if_neg (not_not.2 h1), if_neg h3, hs]
  rw [hc]
  unfold calcSabrVols
  rw [hlen, if_neg h3]
  by_cases h4 : a.tau.length = a.K.length
  · rw [if_pos h4]
    refine ⟨⟨fun _ => ?_, fun _ => ⟨_, rfl⟩⟩, fun e he => by cases he⟩
    rintro ⟨h5, h6⟩
    rw [h5, List.length_nil] at h4
    omega
  · rw [if_neg h4]
    match hK : a.K, hS : a.smiles with
    | [k], _ => exact ⟨⟨fun _ => by simp, fun _ => ⟨_, rfl⟩⟩, fun e he => by cases he⟩
    | [], [x] =>
      rw [hS] at hlen
      exact ⟨⟨fun _ => by rintro ⟨-, h6⟩; rw [← hlen] at h6; simp at h6, fun _ => ⟨_, rfl⟩⟩, fun e he => by cases he⟩
    | k :: k' :: ks, [x] => exact ⟨⟨fun _ => by simp, fun _ => ⟨_, rfl⟩⟩, fun e he => by cases he⟩
    | [], [] =>
      rw [hS] at hlen
      rw [hK] at h4
      exact absurd hlen.symm h4
    | [], x :: y :: xs =>
      rw [hS] at hlen
      refine ⟨⟨?_, fun h6 => absurd ⟨rfl, by rw [← hlen]; simp⟩ h6⟩, fun e he => by cases he; rfl⟩
      rintro ⟨o, ho⟩
      cases ho
    | k :: k' :: ks, [] =>
      rw [hS] at hlen
      rw [hK] at h3 h4
      exact absurd ⟨by simp, by rw [← hlen] at h4 ⊢; simp⟩ h3
    | k :: k' :: ks, x :: y :: xs =>
      rw [hS] at hlen
      rw [hK] at h3 h4
      refine absurd ⟨by simp, ?_⟩ h3
      rintro (h5 | h5)
      · exact h4 h5
      · rw [← hlen] at h5
        simp at h5

private theorem smile_at {a : SabrArgs}
    (h : a.tau.length = a.F.length ∧ a.F.length = a.alpha.length ∧ a.alpha.length = a.beta.length ∧ a.beta.length = a.rho.length ∧
      a.rho.length = a.volvol.length) {i : Nat} (hi : i < a.tau.length) :
    ∃ t f al b r v, a.smiles[i]? = some (t, f, al, b, r, v) ∧ a.tau[i]? = some t ∧ a.F[i]? = some f ∧ a.alpha[i]? = some al ∧
      a.beta[i]? = some b ∧ a.rho[i]? = some r ∧ a.volvol[i]? = some v := by
  obtain ⟨h1, h2, h3, h4, h5⟩ := h
  refine ⟨a.tau[i], a.F[i]'(by omega), a.alpha[i]'(by omega), a.beta[i]'(by omega), a.rho[i]'(by omega), a.volvol[i]'(by omega), ?_,
    by simp, by simp, by simp, by simp, by simp, by simp⟩
  unfold SabrArgs.smiles
  simp only [List.getElem?_zip_eq_some]
  refine ⟨by simp, by simp, by simp, by simp, by simp, by simp⟩

private theorem single {l : List ℝ} (h : l.length = 1) {x : ℝ} (h0 : l[0]? = some x) : l = [x] := by
  obtain ⟨y, rfl⟩ := List.length_eq_one_iff.1 h
  simpa using h0

/-- What comes back: a number for a single result and otherwise an array, with one result per smile or per strike, whichever are more;
each is the volatility of its own smile and strike, a single one being used throughout. -/
theorem C106_results (a : SabrArgs) (out : SabrOut) (s : ℝ) (hs : a.shift = some [s]) (h : sabrCall a = .ok out) :
    ∃ l : List (Option ℝ), (out = .array l ∧ l.length ≠ 1 ∨ ∃ x, out = .number x ∧ l = [x]) ∧
      (a.K.length = 1 → l.length = a.tau.length) ∧ (a.tau.length = 1 → l.length = a.K.length) ∧
      (a.K.length ≠ 1 → a.tau.length ≠ 1 → l.length = a.K.length ∧ l.length = a.tau.length) ∧
      ∀ i x, l[i]? = some x → ∃ t f al b r v k, SabrElement a.tau i t ∧ SabrElement a.F i f ∧ SabrElement a.alpha i al ∧
        SabrElement a.beta i b ∧ SabrElement a.rho i r ∧ SabrElement a.volvol i v ∧ SabrElement a.K i k ∧
        ∀ y, x = some y ↔ SabrVolIs t f al b r v k s y := by
  have hsh : SabrShapes a := by
    by_contra hn
    rw [C106_refused a hn] at h
    cases h
  obtain ⟨h1, h2, s', hs'⟩ := hsh
  rw [shapes_iff] at h1
  have hlen := smiles_length h1
  have h3 : ¬ (1 < a.K.length ∧ ¬ (a.tau.length = a.K.length ∨ a.tau.length = 1)) := by
    rintro ⟨h4, h5⟩
    rcases h2 with h2 | h2 | h2
    · omega
    · exact h5 (Or.inr h2)
    · exact h5 (Or.inl h2)
  have hc : sabrCall a = (calcSabrVols a.smiles a.K s).map sabrOut := by
    unfold sabrCall
    rw [if_neg (not_not.2 h1), if_neg h3, hs]
  rw [hc] at h
  have hvol : ∀ x t f al b r v k, x = sabrVol s (sabrRow (t, f, al, b, r, v) k) → ∀ y, x = some y ↔ SabrVolIs t f al b r v k s y := by
    rintro x t f al b r v k rfl y
    unfold SabrVolIs
    rw [calc_single]
    simp
  cases hl : calcSabrVols a.smiles a.K s with
  | error e => rw [hl] at h; cases h
  | ok l =>
    rw [hl] at h
    simp only [Except.map, Except.ok.injEq] at h
    refine ⟨l, ?_, ?_⟩
    · unfold sabrOut at h
      split at h
      · rename_i x
        exact Or.inr ⟨x, h.symm, rfl⟩
      · rename_i hne
        refine Or.inl ⟨h.symm, fun h6 => ?_⟩
        obtain ⟨x, rfl⟩ := List.length_eq_one_iff.1 h6
        exact hne x rfl
    · unfold calcSabrVols at hl
      rw [hlen, if_neg h3] at hl
      by_cases h4 : a.tau.length = a.K.length
      · rw [if_pos h4] at hl
        cases hl
        have hL : (List.zipWith (fun x k => sabrVol s (sabrRow x k)) a.smiles a.K).length = a.tau.length := by
          rw [List.length_zipWith, hlen]; omega
        refine ⟨fun _ => hL, fun _ => by omega, fun _ _ => ⟨by omega, hL⟩, fun i x hx => ?_⟩
        have hi : i < a.tau.length := by
          rw [← hL]
          exact (List.getElem?_eq_some_iff.1 hx).1
        obtain ⟨t, f, al, b, r, v, e0, e1, e2, e3, e4, e5, e6⟩ := smile_at h1 hi
        have ek : a.K[i]? = some (a.K[i]'(by omega)) := by simp
        refine ⟨t, f, al, b, r, v, a.K[i]'(by omega), Or.inr e1, Or.inr e2, Or.inr e3, Or.inr e4, Or.inr e5, Or.inr e6, Or.inr ek,
          hvol _ _ _ _ _ _ _ _ ?_⟩
        rw [List.getElem?_zipWith, e0, ek] at hx
        simpa using hx.symm
      · rw [if_neg h4] at hl
        split at hl
        · rename_i k hK
          cases hl
          rw [hK, List.length_singleton] at h4
          rw [hK]
          refine ⟨fun _ => by rw [List.length_map, hlen], fun h6 => absurd h6 h4, fun h6 => absurd rfl h6, fun i x hx => ?_⟩
          have hi : i < a.tau.length := by
            rw [← hlen]
            simpa using (List.getElem?_eq_some_iff.1 hx).1
          obtain ⟨t, f, al, b, r, v, e0, e1, e2, e3, e4, e5, e6⟩ := smile_at h1 hi
          refine ⟨t, f, al, b, r, v, k, Or.inr e1, Or.inr e2, Or.inr e3, Or.inr e4, Or.inr e5, Or.inr e6, Or.inl rfl,
            hvol _ _ _ _ _ _ _ _ ?_⟩
          rw [List.getElem?_map, e0] at hx
          simpa using hx.symm
        · rename_i x0 hS _
          cases hl
          rw [hS, List.length_singleton] at hlen
          refine ⟨fun h6 => absurd (hlen.symm.trans h6.symm) h4, fun _ => by simp, fun _ h6 => absurd hlen.symm h6, fun i x hx => ?_⟩
          obtain ⟨t, f, al, b, r, v, e0, e1, e2, e3, e4, e5, e6⟩ := smile_at h1 (i := 0) (by omega)
          have hi : i < a.K.length := by simpa using (List.getElem?_eq_some_iff.1 hx).1
          have ek : a.K[i]? = some a.K[i] := by simp
          rw [hS] at e0
          simp only [List.getElem?_cons_zero, Option.some.injEq] at e0
          refine ⟨t, f, al, b, r, v, a.K[i], Or.inl (single (by omega) e1), Or.inl (single (by omega) e2), Or.inl (single (by omega) e3),
            Or.inl (single (by omega) e4), Or.inl (single (by omega) e5), Or.inl (single (by omega) e6), Or.inr ek,
            hvol _ _ _ _ _ _ _ _ ?_⟩
          rw [List.getElem?_map, ek, e0] at hx
          simpa using hx.symm
        · cases hl

/-- The calibration without a shift, its default, never returns: it raises `TypeError` when there is one quote at the money, and
`ValueError` otherwise. -/
theorem C106_fit_default_shift (roots : List ℝ → List ℂ) (minimise : BoxMinimiser) (hm : EvaluatesStart minimise) (tau F : ℝ)
    (K vols : List ℝ) (override : Option ℝ) (hK : K.length = vols.length) :
    fitSabrCall roots minimise tau F K vols none override =
      .error (if ∃ q, (K.zip vols).filter (fun q => |q.1 - F| ≤ 1e-8 + 1e-5 * |F|) = [q] then .type else .value) := by
  have hcl : (fun q : ℝ × ℝ => isClose q.1 F) = fun q => decide (|q.1 - F| ≤ 1e-8 + 1e-5 * |F|) := rfl
  unfold fitSabrCall
  rw [if_neg (not_not.2 hK), hcl]
  simp only
  split
  · rename_i q hq
    rw [if_pos ⟨q, hq⟩, hm _ _ _ Err.type]
    unfold sabrStart sabrUnpack
    cases override <;> rfl
  · rename_i hq
    rw [if_neg]
    rintro ⟨q, h⟩
    exact hq q h

/-- Strikes and volatilities of different lengths raise `IndexError`; with a shift the calibration is that of the pairs. -/
theorem C106_fit (roots : List ℝ → List ℂ) (minimise : BoxMinimiser) (tau F : ℝ) (K vols : List ℝ) (shift override : Option ℝ) :
    (K.length ≠ vols.length → fitSabrCall roots minimise tau F K vols shift override = .error .index) ∧
    (∀ s, K.length = vols.length → shift = some s →
      fitSabrCall roots minimise tau F K vols shift override = fitSabr roots minimise tau F (K.zip vols) s override) := by
  unfold fitSabrCall
  constructor
  · intro h
    rw [if_pos h]
  · rintro s h rfl
    rw [if_neg (not_not.2 h)]

/-- Two strikes of one smile; three strikes of two smiles are refused. -/
example : SabrShapes ⟨[1], [0.03], [0.02], [0.5], [0.1], [0.3], [0.02, 0.03], some [0.01]⟩ ∧
    ¬ SabrShapes ⟨[1, 2], [0.03, 0.03], [0.02, 0.02], [0.5, 0.5], [0.1, 0.1], [0.3, 0.3], [0.02, 0.03, 0.04], some [0.01]⟩ ∧
    EvaluatesStart (fun x0 _ f => (f x0).map (fun _ => (true, x0))) := by
  refine ⟨⟨⟨1, by simp⟩, by simp, 0.01, rfl⟩, ?_, ?_⟩
  · rintro ⟨-, h, -⟩
    simp at h
  · intro x0 b f e h
    simp only [h, Except.map]

end Frm.Props
