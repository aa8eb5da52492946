import Verif.Model.Sort

namespace Frm

set_option autoImplicit false

theorem insertBy_perm {α : Type} (key : α → Int) (a : α) (l : List α) : (insertBy key a l).Perm (a :: l) := by
  induction l with
  | nil => exact List.Perm.refl _
  | cons b l ih =>
    unfold insertBy
    split
    · exact List.Perm.refl _
    · exact (List.Perm.cons b ih).trans (List.Perm.swap a b l)

theorem sortBy_perm {α : Type} (key : α → Int) (l : List α) : (sortBy key l).Perm l := by
  induction l with
  | nil => exact List.Perm.refl _
  | cons a l ih => exact (insertBy_perm key a _).trans (List.Perm.cons a ih)

theorem insertBy_sorted {α : Type} (key : α → Int) (a : α) (l : List α)
    (h : l.Pairwise (fun x y => key x ≤ key y)) : (insertBy key a l).Pairwise (fun x y => key x ≤ key y) := by
  induction l with
  | nil => simp [insertBy]
  | cons b l ih =>
    unfold insertBy
    have hb := List.pairwise_cons.mp h
    split
    · rename_i hab
      refine List.pairwise_cons.mpr ⟨?_, h⟩
      intro x hx
      rcases List.mem_cons.mp hx with rfl | hx
      · exact hab
      · exact Int.le_trans hab (hb.1 x hx)
    · rename_i hab
      refine List.pairwise_cons.mpr ⟨?_, ih hb.2⟩
      intro x hx
      rcases List.mem_cons.mp ((insertBy_perm key a l).subset hx) with rfl | hx
      · omega
      · exact hb.1 x hx

theorem sortBy_sorted {α : Type} (key : α → Int) (l : List α) :
    (sortBy key l).Pairwise (fun x y => key x ≤ key y) := by
  induction l with
  | nil => simp [sortBy]
  | cons a l ih => exact insertBy_sorted key a _ ih

theorem mem_sortBy {α : Type} (key : α → Int) (l : List α) (x : α) : x ∈ sortBy key l ↔ x ∈ l :=
  ⟨fun h => (sortBy_perm key l).subset h, fun h => (sortBy_perm key l).symm.subset h⟩

end Frm
