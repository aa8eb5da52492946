import Verif.Proofs.DayCount

/-! # C09 — Actual day counts -/

namespace Frm.Spec

/-- The bases whose numerator is the number of elapsed days. -/
def IsAct (b : DayCountBasis) : Prop := b = .act_360 ∨ b = .act_365 ∨ b = .act_366 ∨ b = .act_act

/-- One value per pair, computed by `f` on each pair. -/
def Pairwise₂ {β : Type} (f : Int → Int → β) (s e : List Int) (r : List β) : Prop :=
  r.length = s.length ∧ ∀ i (hs : i < s.length) (he : i < e.length) (hr : i < r.length), r[i] = f s[i] e[i]

end Frm.Spec

namespace Frm.Props
open Spec

theorem sameShape_eq_length {s e : List Int} (h : s.length = e.length) : sameShape s e = (s, e) := by
  unfold sameShape
  split
  · simp at h
  · simp at h
  · rfl

theorem checkOrder_ok {s e : List Int} (hl : s.length = e.length)
    (ho : ∀ i (hs : i < s.length) (he : i < e.length), s[i] ≤ e[i]) : checkOrder s e = .ok () := by
  unfold checkOrder pyAssert
  rw [if_neg (by simp [hl])]
  rw [if_pos]
  rw [List.all_eq_true]
  intro p hp
  obtain ⟨i, hi, rfl⟩ := List.mem_iff_getElem.mp hp
  simp only [List.getElem_zip, decide_eq_true_eq]
  simp only [List.length_zip] at hi
  exact ho i (by omega) (by omega)

theorem checkOrder_bad {s e : List Int} (hl : s.length = e.length)
    {i : Nat} (hs : i < s.length) (he : i < e.length) (hlt : e[i] < s[i]) : checkOrder s e = .error .assertion := by
  unfold checkOrder pyAssert
  rw [if_neg (by simp [hl]), if_neg]
  rw [List.all_eq_true]
  intro h
  have hm : (s.zip e)[i]'(by simp; omega) ∈ s.zip e := List.getElem_mem _
  have := h _ hm
  simp only [List.getElem_zip, decide_eq_true_eq] at this
  omega

theorem pairwise_zip_map {β : Type} (f : Int → Int → β) {s e : List Int} (hl : s.length = e.length) :
    Pairwise₂ f s e ((s.zip e).map (fun p => f p.1 p.2)) := by
  constructor
  · simp [hl]
  · intro i hs he hr
    simp

/-- The elapsed days, pair by pair. -/
theorem C09_elapsed {b : DayCountBasis} (hb : IsAct b) (flag : Option (List Bool)) {s e : List Int}
    (hl : s.length = e.length) (ho : ∀ i (hs : i < s.length) (he : i < e.length), s[i] ≤ e[i]) :
    ∃ r, dayCount s e b flag = .ok r ∧ Pairwise₂ (fun a z => z - a) s e r := by
  refine ⟨(s.zip e).map (fun p => p.2 - p.1), ?_, pairwise_zip_map (fun a z => z - a) hl⟩
  unfold dayCount
  rw [sameShape_eq_length hl]
  simp only [checkOrder_ok hl ho]
  rcases hb with rfl | rfl | rfl | rfl <;> rfl

/-- Additive over adjacent periods. -/
theorem C09_additive {b : DayCountBasis} (hb : IsAct b) (f g k : Option (List Bool)) {x y z : Int}
    (h1 : x ≤ y) (h2 : y ≤ z) :
    ∃ m n, dayCount [x] [y] b f = .ok [m] ∧ dayCount [y] [z] b g = .ok [n] ∧ dayCount [x] [z] b k = .ok [m + n] := by
  have key : ∀ (u v : Int) (fl : Option (List Bool)), u ≤ v → dayCount [u] [v] b fl = .ok [v - u] := by
    intro u v fl h
    unfold dayCount
    rw [sameShape_single]
    simp only [checkOrder_single, if_pos h]
    rcases hb with rfl | rfl | rfl | rfl <;> rfl
  exact ⟨y - x, z - y, key x y f h1, key y z g h2, by rw [key x z k (by omega)]; congr 2; omega⟩

/-- On every basis, one end date before its start date makes the whole call raise. -/
theorem C09_rejects_reversed (b : DayCountBasis) (flag : Option (List Bool)) {s e : List Int} (hl : s.length = e.length)
    {i : Nat} (hs : i < s.length) (he : i < e.length) (hlt : e[i] < s[i]) :
    dayCount s e b flag = .error .assertion ∧ yearFrac s e b flag = .error .assertion := by
  have hd : ∀ b, dayCount s e b flag = .error .assertion := by
    intro b
    unfold dayCount
    rw [sameShape_eq_length hl]
    simp only [checkOrder_bad hl hs he hlt]
  refine ⟨hd b, ?_⟩
  unfold yearFrac
  cases b <;> simp only [hd] <;> first | rfl | (rw [sameShape_eq_length hl]; simp only [checkOrder_bad hl hs he hlt])

/-- A single start (or end) date against a vector is that date repeated. -/
theorem C09_broadcast (b : DayCountBasis) (flag : Option (List Bool)) (x : Int) (v : List Int) (hv : 2 ≤ v.length) :
    dayCount [x] v b flag = dayCount (List.replicate v.length x) v b flag ∧
    dayCount v [x] b flag = dayCount v (List.replicate v.length x) b flag := by
  obtain ⟨a, c, w, rfl⟩ : ∃ a c w, v = a :: c :: w := by
    match v, hv with
    | a :: c :: w, _ => exact ⟨a, c, w, rfl⟩
  constructor
  · have e1 : sameShape [x] (a :: c :: w) = (List.replicate (a :: c :: w).length x, a :: c :: w) := rfl
    have e2 := sameShape_eq_length (s := List.replicate (a :: c :: w).length x) (e := a :: c :: w) (by simp)
    unfold dayCount; rw [e1, e2]
  · have e1 : sameShape (a :: c :: w) [x] = (a :: c :: w, List.replicate (a :: c :: w).length x) := rfl
    have e2 := sameShape_eq_length (s := a :: c :: w) (e := List.replicate (a :: c :: w).length x) (by simp)
    unfold dayCount; rw [e1, e2]

/-- Vectors of different lengths (neither of length one) are rejected. -/
theorem C09_length_mismatch (b : DayCountBasis) (flag : Option (List Bool)) {s e : List Int} (hl : s.length ≠ e.length)
    (h1 : s.length ≠ 1) (h2 : e.length ≠ 1) : dayCount s e b flag = .error .value := by
  have : sameShape s e = (s, e) := by
    unfold sameShape
    split
    · simp at h1
    · simp at h2
    · rfl
  unfold dayCount
  rw [this]
  simp only [checkOrder, if_pos hl]

example : dayCount [mkDate 2024 1 31, mkDate 2024 2 29] [mkDate 2024 2 29, mkDate 2024 3 31] .act_365 none =
    .ok [29, 31] := by decide +kernel

end Frm.Props
