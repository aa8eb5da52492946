import Verif.Model.Fixings

/-! # Specification of fixing lookups -/

namespace Frm.Spec

set_option autoImplicit false

/-- `r` is the entry in force on day `d` in a table listed in date order: the last one dated on or before `d`, none if
all are later. -/
def AsOf {α : Type} (table : List (Int × α)) (d : Int) (r : Option α) : Prop :=
  match r with
  | none => ∀ p ∈ table, d < p.1
  | some x => ∃ pre t post, table = pre ++ (t, x) :: post ∧ t ≤ d ∧ ∀ p ∈ post, d < p.1

/-- `x` is the value of the latest fixing dated on or before `d`, whatever the order of the table. -/
def Latest (table : List (Int × Rat)) (d : Int) (x : Rat) : Prop :=
  ∃ t, (t, x) ∈ table ∧ t ≤ d ∧ ∀ p ∈ table, p.1 ≤ d → p.1 ≤ t

/-- At most one fixing per date. -/
def OnePerDate (table : List (Int × Rat)) : Prop := table.Pairwise (fun a b => a.1 ≠ b.1)

/-- Product of a function over `n` consecutive days. -/
def dayProduct (g : Int → Rat) (s : Int) : Nat → Rat
  | 0 => 1
  | n + 1 => dayProduct g s n * g (s + n)

/-- Sum of a function over `n` consecutive days. -/
def dayTotal (g : Int → Rat) (s : Int) : Nat → Rat
  | 0 => 0
  | n + 1 => dayTotal g s n + g (s + n)

/-- A row sort: a permutation in date order. -/
def SortsByDate (sort : List (Int × Nat) → List (Int × Nat)) : Prop :=
  ∀ l, (sort l).Perm l ∧ (sort l).Pairwise (fun a b => a.1 ≤ b.1)

end Frm.Spec

namespace Frm.Spec

set_option autoImplicit false

/-- Rates are computed period by period: each entry depends on its own period only. -/
def PeriodByPeriod (rates : List Int → List Int → Except Err (List NRat)) (F : Int → Int → NRat) : Prop :=
  ∀ (S E : List Int) (v : List NRat), rates S E = .ok v →
    ∀ (k : Nat) (s e : Int), S[k]? = some s → E[k]? = some e → v[k]? = some (F s e)

end Frm.Spec
