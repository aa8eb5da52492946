import Verif.Spec.Bootstrap
import Verif.Props.C36

namespace Frm
open Spec

set_option autoImplicit false

theorem sortPoints_perm (l : List (ℝ × Option ℝ)) : (sortPoints l).Perm l := List.perm_insertionSort _ l

theorem sortPoints_sorted (l : List (ℝ × Option ℝ)) : (sortPoints l).Pairwise (fun a b => a.1 ≤ b.1) := by
  have ht : Std.Total (fun a b : ℝ × Option ℝ => a.1 ≤ b.1) := ⟨fun a b => le_total a.1 b.1⟩
  have htr : IsTrans (ℝ × Option ℝ) (fun a b => a.1 ≤ b.1) := ⟨fun a b c h1 h2 => le_trans h1 h2⟩
  exact List.pairwise_insertionSort _ l

theorem npInterpNan_last {x : ℝ} {l : List (ℝ × Option ℝ)} {p : ℝ × Option ℝ} (hl : l.getLast? = some p)
    (hx : ∀ q ∈ l, q.1 ≤ x) : npInterpNan x l = p.2 := by
  induction l with
  | nil => cases hl
  | cons a l ih =>
    match l, hl, ih with
    | [], hl, _ =>
      simp only [List.getLast?_singleton, Option.some.injEq] at hl
      subst hl; rfl
    | b :: l, hl, ih =>
      unfold npInterpNan
      rw [if_neg (by have := hx a (by simp); linarith), if_neg (by have := hx b (by simp); linarith)]
      exact ih (by rw [List.getLast?_cons_cons] at hl; exact hl) (fun q hq => hx q (List.mem_cons_of_mem _ hq))

theorem sorted_last {l : List (ℝ × Option ℝ)} (hs : l.Pairwise (fun a b => a.1 ≤ b.1)) {p : ℝ × Option ℝ}
    (hl : l.getLast? = some p) : ∀ q ∈ l, q.1 ≤ p.1 := by
  obtain ⟨pre, rfl⟩ := List.getLast?_eq_some_iff.mp hl
  intro q hq
  rw [List.pairwise_append] at hs
  rcases List.mem_append.mp hq with hq | hq
  · exact hs.2.2 q hq p (by simp)
  · simp only [List.mem_singleton] at hq; rw [hq]

theorem sorted_head {l : List (ℝ × Option ℝ)} (hs : l.Pairwise (fun a b => a.1 ≤ b.1)) {p : ℝ × Option ℝ}
    (hl : l.head? = some p) : ∀ q ∈ l, p.1 ≤ q.1 := by
  match l, hl with
  | a :: l, hl =>
    simp only [List.head?_cons, Option.some.injEq] at hl
    subst hl
    intro q hq
    rcases List.mem_cons.mp hq with rfl | hq
    · exact le_refl _
    · exact (List.pairwise_cons.mp hs).1 q hq

/-- Interpolation at or after the last point: only possible at the last point. -/
theorem interp1dBounded_end {pts : List (ℝ × Option ℝ)} {x : ℝ} (hx : ∀ q ∈ pts, q.1 ≤ x) :
    (∀ y, interp1dBounded pts x = .ok y → ∃ p ∈ pts, p.1 = x ∧ y = p.2) ∧
    ((∃ p ∈ pts, p.1 = x) → ∃ y, interp1dBounded pts x = .ok y) := by
  have hperm := sortPoints_perm pts
  have hsort := sortPoints_sorted pts
  have hx' : ∀ q ∈ sortPoints pts, q.1 ≤ x := fun q hq => hx q (hperm.mem_iff.mp hq)
  unfold interp1dBounded
  cases hh : (sortPoints pts).head? with
  | none =>
    have hnil : sortPoints pts = [] := List.head?_eq_none_iff.mp hh
    refine ⟨fun y h => ?_, ?_⟩
    · simp only [hh] at h; cases h
    · rintro ⟨p, hp, -⟩
      have := hperm.mem_iff.mpr hp
      rw [hnil] at this; cases this
  | some lo =>
    cases hl : (sortPoints pts).getLast? with
    | none =>
      rw [List.getLast?_eq_none_iff] at hl
      rw [hl] at hh; cases hh
    | some hi =>
      simp only [hh, hl]
      have him : hi ∈ sortPoints pts := List.mem_of_getLast? hl
      have hlom : lo ∈ sortPoints pts := List.mem_of_head? hh
      constructor
      · intro y h
        split at h
        · cases h
        · rename_i hc
          simp only [Except.ok.injEq] at h
          rw [not_or] at hc
          refine ⟨hi, hperm.mem_iff.mp him, le_antisymm (hx' hi him) (not_lt.mp hc.2), ?_⟩
          rw [← h, npInterpNan_last hl hx']
      · rintro ⟨p, hp, hpx⟩
        have hp' := hperm.mem_iff.mpr hp
        have h1 := sorted_last hsort hl p hp'
        have h2 := hx' lo hlom
        rw [if_neg (by rw [not_or]; constructor <;> linarith)]
        exact ⟨_, rfl⟩

theorem bootstrapCashLoop_get {done todo out : List CashRow} (h : bootstrapCashLoop done todo = .ok out) :
    ∃ filled, out = done ++ filled ∧ filled.length = todo.length ∧ ∀ (k : Nat) (r : CashRow), todo[k]? = some r →
      ∃ r', filled[k]? = some r' ∧ bootstrapCashRow (done ++ filled.take k) r (todo.drop (k + 1)) = .ok r' := by
  induction todo generalizing done with
  | nil =>
    simp only [bootstrapCashLoop, Except.ok.injEq] at h
    exact ⟨[], by simp [h], rfl, by simp⟩
  | cons r todo ih =>
    unfold bootstrapCashLoop at h
    simp only [bind, Except.bind] at h
    cases hr : bootstrapCashRow done r todo with
    | error e => rw [hr] at h; cases h
    | ok r' =>
      rw [hr] at h
      obtain ⟨filled, h1, h2, h3⟩ := ih h
      refine ⟨r' :: filled, by rw [h1]; simp, by simp [h2], ?_⟩
      intro k s hs
      cases k with
      | zero =>
        simp only [List.getElem?_cons_zero, Option.some.injEq] at hs
        subst hs
        exact ⟨r', rfl, by simpa using hr⟩
      | succ k =>
        simp only [List.getElem?_cons_succ] at hs
        obtain ⟨s', g1, g2⟩ := h3 k s hs
        exact ⟨s', by simpa using g1, by simpa using g2⟩

/-- A row keeps its quote and times, and its factors stand in the quoted relation. -/
theorem bootstrapCashRow_keeps {done todo : List CashRow} {r r' : CashRow}
    (h : bootstrapCashRow done r todo = .ok r') :
    r'.quote = r.quote ∧ r'.effectiveYears = r.effectiveYears ∧ r'.maturityYears = r.maturityYears ∧
    r'.maturityDf = npDiv r'.effectiveDf (1 + r.quote.rate * r.quote.periodYears) ∧
    (r.quote.hasSettlementDelay = false → r'.effectiveDf = some 1) := by
  unfold bootstrapCashRow at h
  by_cases hd : r.quote.hasSettlementDelay = false
  · rw [if_pos hd] at h
    split at h
    · cases h
    simp only [Except.ok.injEq] at h
    subst h
    exact ⟨rfl, rfl, rfl, rfl, fun _ => rfl⟩
  · rw [if_neg hd] at h
    simp only [bind, Except.bind] at h
    split at h
    · cases h
    · simp only [pure, Except.pure, Except.ok.injEq] at h
      subst h
      exact ⟨rfl, rfl, rfl, rfl, fun h => absurd h hd⟩

theorem forall_of_get {α : Type} {l : List α} {P : α → Prop} (h : ∀ (k : Nat) a, l[k]? = some a → P a) : ∀ a ∈ l, P a := by
  intro a ha
  obtain ⟨k, hk⟩ := List.mem_iff_getElem?.mp ha
  exact h k a hk

end Frm
