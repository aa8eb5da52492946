import Verif.Model.HwSetup
import Verif.Proofs.SplineCurve
import Verif.Props.C67
import Mathlib.Tactic.Linarith
import Mathlib.Tactic.FieldSimp
import Mathlib.Tactic.Ring

/-! # Helper lemmas for setting up a Hull–White model -/

namespace Frm
open Classical

set_option autoImplicit false

theorem mapM_option_fst {rows : List SplineRow} {points : List (ℝ × ℝ)}
    (h : rows.mapM (fun r => r.cczr.map (fun y => (r.years, y))) = some points) :
    points.map Prod.fst = rows.map (·.years) := by
  induction rows generalizing points with
  | nil =>
    simp only [List.mapM_nil, pure, Option.some.injEq] at h
    subst h; rfl
  | cons r rows ih =>
    simp only [List.mapM_cons, bind, Option.bind] at h
    cases hc : r.cczr with
    | none => rw [hc] at h; cases h
    | some y =>
      rw [hc] at h
      simp only [Option.map_some] at h
      cases hl : rows.mapM (fun r => r.cczr.map (fun y => (r.years, y))) with
      | none => rw [hl] at h; cases h
      | some ps =>
        rw [hl] at h
        simp only [pure, Option.some.injEq] at h
        subst h
        simp only [List.map_cons, ih hl]

/-- The times of the pillars: 0 first, then increasing times. -/
theorem made_years {spl : List (ℝ × ℝ) → ℝ → ℝ} {cd : Int} {c : PillarColumns} {freq : Option CompoundingFreq}
    {basis : DayCountBasis} {cal : BusCal} {m : SplineMethod} {z : SplineCurve}
    (h : makeSplineCurve spl cd c freq basis cal m = .ok z) :
    ∃ ys, z.base.pillars.map (·.years) = 0 :: ys ∧ 3 ≤ ys.length ∧ ((∀ y ∈ ys, 0 ≤ y) → (0 :: ys).Pairwise (· < ·)) := by
  obtain ⟨rows, points, -, hpil, hp, h4, hinc, -⟩ := makeSplineCurve_ok h
  have hinc' : (points.map Prod.fst).Pairwise (· < ·) := List.pairwise_map.mpr hinc
  cases rows with
  | nil => cases hpil
  | cons first rest =>
    have hrows : points.map Prod.fst = (first :: rest).map (·.years) ∨
        (points.map Prod.fst = 0 :: (first :: rest).map (·.years) ∧ first.years ≠ 0) := by
      cases m with
      | cczr => exact Or.inl (mapM_option_fst hp)
      | lnDiscount =>
        unfold splinePoints at hp
        simp only at hp
        by_cases h0 : first.years = 0
        · left
          rw [if_neg (by simpa using h0)] at hp
          simp only [Option.some.injEq] at hp
          rw [← hp]; simp [List.map_map, Function.comp_def]
        · right
          rw [if_pos h0] at hp
          simp only [Option.some.injEq] at hp
          rw [← hp]; simp [List.map_map, Function.comp_def, h0]
    have hsort : ((first :: rest).map (·.years)).Pairwise (· < ·) := by
      rcases hrows with e | ⟨e, -⟩
      · rw [← e]; exact hinc'
      · rw [e] at hinc'; exact (List.pairwise_cons.mp hinc').2
    have hlen : points.length = (points.map Prod.fst).length := by simp
    unfold splinePillars at hpil
    simp only at hpil
    by_cases h0 : first.years = 0
    · rw [if_neg (by simpa using h0)] at hpil
      simp only [Except.ok.injEq] at hpil
      refine ⟨rest.map (·.years), ?_, ?_, ?_⟩
      · rw [← hpil]; simp [List.map_map, Function.comp_def, h0]
      · rcases hrows with e | ⟨-, e⟩
        · rw [e] at hlen; simp at hlen ⊢; omega
        · exact absurd h0 e
      · intro _
        rw [List.map_cons, h0] at hsort
        exact hsort
    · rw [if_pos h0] at hpil
      simp only [Except.ok.injEq] at hpil
      refine ⟨(first :: rest).map (·.years), ?_, ?_, ?_⟩
      · rw [← hpil]; simp [List.map_map, Function.comp_def]
      · rcases hrows with e | ⟨e, -⟩ <;> (rw [e] at hlen; simp at hlen ⊢; omega)
      · intro hn
        refine List.pairwise_cons.mpr ⟨?_, hsort⟩
        intro y hy
        have hf : 0 < first.years := lt_of_le_of_ne (hn _ (by simp)) (Ne.symm h0)
        rw [List.map_cons] at hy hsort
        rcases List.mem_cons.mp hy with rfl | hy
        · exact hf
        · exact hf.trans ((List.pairwise_cons.mp hsort).1 y hy)

theorem foldl_min_le {l : List ℝ} {a : ℝ} : l.foldl min a ≤ a ∧ ∀ y ∈ l, l.foldl min a ≤ y := by
  induction l generalizing a with
  | nil => simp
  | cons b l ih =>
    obtain ⟨h1, h2⟩ := ih (a := min a b)
    refine ⟨h1.trans (min_le_left _ _), ?_⟩
    intro y hy
    rcases List.mem_cons.mp hy with rfl | hy
    · exact h1.trans (min_le_right _ _)
    · exact h2 y hy

theorem foldl_min_zero {l : List ℝ} : l.foldl min 0 = 0 ↔ ∀ y ∈ l, 0 ≤ y := by
  constructor
  · intro h y hy
    have := (foldl_min_le (l := l) (a := 0)).2 y hy
    rw [h] at this; exact this
  · intro h
    have : ∀ l : List ℝ, (∀ y ∈ l, 0 ≤ y) → l.foldl min 0 = 0 := by
      intro l
      induction l with
      | nil => intro _; rfl
      | cons b l ih =>
        intro hb
        rw [List.foldl_cons, min_eq_left (hb b (by simp))]
        exact ih (fun y hy => hb y (by simp [hy]))
    exact this l h

theorem linspaceOpen_mem {a b t : ℝ} {num : Nat} : t ∈ linspaceOpen a b num ↔ ∃ j < num, t = a + j * ((b - a) / num) := by
  unfold linspaceOpen
  simp only [List.mem_map, List.mem_range]
  constructor
  · rintro ⟨j, hj, rfl⟩; exact ⟨j, hj, by ring⟩
  · rintro ⟨j, hj, rfl⟩; exact ⟨j, hj, by ring⟩

theorem linspaceOpen_pairwise {a b : ℝ} (num : Nat) (hab : a < b) : (linspaceOpen a b num).Pairwise (· < ·) := by
  unfold linspaceOpen
  rcases Nat.eq_zero_or_pos num with h0 | h0
  · subst h0; simp
  · rw [List.pairwise_map]
    refine List.Pairwise.imp ?_ List.pairwise_lt_range
    intro i j hij
    have hp : 0 < (b - a) / num := div_pos (by linarith) (by exact_mod_cast h0)
    have : (i : ℝ) < j := by exact_mod_cast hij
    nlinarith

theorem linspaceOpen_bounds {a b t : ℝ} {num : Nat} (hab : a < b) (ht : t ∈ linspaceOpen a b num) : a ≤ t ∧ t < b := by
  obtain ⟨j, hj, rfl⟩ := linspaceOpen_mem.mp ht
  have h0 : 0 < num := by omega
  have hn : (0 : ℝ) < num := by exact_mod_cast h0
  have hp : 0 < (b - a) / num := div_pos (by linarith) hn
  have hj' : (j : ℝ) < num := by exact_mod_cast hj
  have hj0 : (0 : ℝ) ≤ j := Nat.cast_nonneg _
  refine ⟨by nlinarith, ?_⟩
  have : (j : ℝ) * ((b - a) / num) < num * ((b - a) / num) := mul_lt_mul_of_pos_right hj' hp
  have e : (num : ℝ) * ((b - a) / num) = b - a := by field_simp
  linarith

theorem linspaceOpen_length (a b : ℝ) (num : Nat) : (linspaceOpen a b num).length = num := by
  simp [linspaceOpen]

theorem thetaTimes_mem {num : Nat} {ys : List ℝ} {t : ℝ} :
    t ∈ (thetaTimes num ys).flatten ↔
      ∃ (i j : Nat) (a b : ℝ), ys[i]? = some a ∧ ys[i + 1]? = some b ∧ j < num ∧ t = a + j * ((b - a) / num) := by
  induction ys with
  | nil => simp [thetaTimes]
  | cons a l ih =>
    cases l with
    | nil => simp [thetaTimes]
    | cons b rest =>
      rw [thetaTimes, List.flatten_cons, List.mem_append, linspaceOpen_mem, ih]
      constructor
      · rintro (⟨j, hj, rfl⟩ | ⟨i, j, a', b', h1, h2, h3, h4⟩)
        · exact ⟨0, j, a, b, rfl, rfl, hj, rfl⟩
        · exact ⟨i + 1, j, a', b', by simpa using h1, by simpa using h2, h3, h4⟩
      · rintro ⟨i, j, a', b', h1, h2, h3, h4⟩
        cases i with
        | zero =>
          simp at h1 h2
          subst h1 h2
          exact Or.inl ⟨j, h3, h4⟩
        | succ i => exact Or.inr ⟨i, j, a', b', by simpa using h1, by simpa using h2, h3, h4⟩

theorem thetaTimes_length (num : Nat) (ys : List ℝ) : (thetaTimes num ys).flatten.length = num * (ys.length - 1) := by
  induction ys with
  | nil => simp [thetaTimes]
  | cons a l ih =>
    cases l with
    | nil => simp [thetaTimes]
    | cons b rest =>
      rw [thetaTimes, List.flatten_cons, List.length_append, linspaceOpen_length, ih]
      simp only [List.length_cons, Nat.add_sub_cancel]
      ring

theorem thetaTimes_pairwise {num : Nat} {ys : List ℝ} (h : ys.Pairwise (· < ·)) :
    (thetaTimes num ys).flatten.Pairwise (· < ·) ∧ ∀ t ∈ (thetaTimes num ys).flatten, ∀ a ∈ ys.head?, a ≤ t := by
  induction ys with
  | nil => simp [thetaTimes]
  | cons a l ih =>
    cases l with
    | nil => simp [thetaTimes]
    | cons b rest =>
      obtain ⟨h1, h2⟩ := List.pairwise_cons.mp h
      have hab : a < b := h1 b (by simp)
      obtain ⟨ih1, ih2⟩ := ih h2
      rw [thetaTimes, List.flatten_cons]
      refine ⟨List.pairwise_append.mpr ⟨linspaceOpen_pairwise num hab, ih1, ?_⟩, ?_⟩
      · intro x hx y hy
        exact lt_of_lt_of_le (linspaceOpen_bounds hab hx).2 (ih2 y hy b rfl)
      · intro t ht a' ha'
        simp at ha'
        subst ha'
        rcases List.mem_append.mp ht with ht | ht
        · exact (linspaceOpen_bounds hab ht).1
        · exact hab.le.trans (ih2 t ht b rfl)

end Frm
