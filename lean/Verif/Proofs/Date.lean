import Verif.Model.Date

namespace Frm

theorem daysBeforeYear_succ (y : Int) : daysBeforeYear (y + 1) = daysBeforeYear y + yearLength y := by
  unfold daysBeforeYear yearLength isLeap
  by_cases h : y % 4 = 0 ∧ (y % 100 ≠ 0 ∨ y % 400 = 0)
  · rw [decide_eq_true h, Int.add_sub_cancel]; simp only [if_true]; omega
  · rw [decide_eq_false h, Int.add_sub_cancel]; simp only [Bool.false_eq_true, if_false]; omega

theorem yearLength_pos (y : Int) : 365 ≤ yearLength y ∧ yearLength y ≤ 366 := by
  unfold yearLength; split <;> omega

theorem daysBeforeYear_bounds (y : Int) :
    146097 * (y - 1) - 699 ≤ 400 * daysBeforeYear y ∧ 400 * daysBeforeYear y ≤ 146097 * (y - 1) + 396 := by
  unfold daysBeforeYear
  generalize y - 1 = z
  omega

theorem yearOf_spec (n : Int) :
    daysBeforeYear (yearOf n) < n ∧ n ≤ daysBeforeYear (yearOf n + 1) := by
  unfold yearOf
  simp only
  have he : 146097 * (400 * n / 146097) ≤ 400 * n ∧ 400 * n < 146097 * (400 * n / 146097) + 146097 := by omega
  generalize 400 * n / 146097 = e at *
  have h1 := daysBeforeYear_bounds (e - 1)
  have h2 := daysBeforeYear_bounds (e + 3)
  have e1 : e - 1 + 1 = e := by omega
  have e2 : e + 1 + 1 = e + 2 := by omega
  have e3 : e + 2 + 1 = e + 3 := by omega
  split
  · rw [e1]; constructor <;> omega
  · split
    · constructor <;> omega
    · split
      · rw [e2]; constructor <;> omega
      · rw [e3]; constructor <;> omega

theorem daysBeforeYear_mono {a b : Int} (h : a ≤ b) : daysBeforeYear a ≤ daysBeforeYear b := by
  unfold daysBeforeYear; omega

theorem daysBeforeYear_lt {a b : Int} (h : a < b) : daysBeforeYear a + 365 ≤ daysBeforeYear b := by
  unfold daysBeforeYear; omega

theorem yearOf_unique {n : Int} {y : Int} (h1 : daysBeforeYear y < n) (h2 : n ≤ daysBeforeYear (y + 1)) :
    yearOf n = y := by
  obtain ⟨a, b⟩ := yearOf_spec n
  rcases Int.lt_trichotomy (yearOf n) y with h | h | h
  · have := daysBeforeYear_mono (a := yearOf n + 1) (b := y) (by omega); omega
  · exact h
  · have := daysBeforeYear_mono (a := y + 1) (b := yearOf n) (by omega); omega

theorem daysBeforeMonth_succ (y m : Int) (h1 : 1 ≤ m) (h2 : m ≤ 11) :
    daysBeforeMonth y (m + 1) = daysBeforeMonth y m + daysInMonth y m := by
  have : m = 1 ∨ m = 2 ∨ m = 3 ∨ m = 4 ∨ m = 5 ∨ m = 6 ∨ m = 7 ∨ m = 8 ∨ m = 9 ∨ m = 10 ∨ m = 11 := by omega
  unfold daysBeforeMonth daysInMonth
  rcases this with h | h | h | h | h | h | h | h | h | h | h <;> subst h <;> cases isLeap y <;> simp

theorem daysBeforeMonth_one (y : Int) : daysBeforeMonth y 1 = 0 := by
  unfold daysBeforeMonth; simp

theorem daysBeforeMonth_twelve (y : Int) : daysBeforeMonth y 12 + daysInMonth y 12 = yearLength y := by
  unfold daysBeforeMonth daysInMonth yearLength; cases isLeap y <;> simp

theorem daysInMonth_bounds (y m : Int) : 28 ≤ daysInMonth y m ∧ daysInMonth y m ≤ 31 := by
  unfold daysInMonth
  split
  · split <;> omega
  · split <;> omega

theorem monthOfDay_spec (y k : Int) (h1 : 1 ≤ k) (h2 : k ≤ yearLength y) :
    1 ≤ monthOfDay y k ∧ monthOfDay y k ≤ 12 ∧
    1 ≤ k - daysBeforeMonth y (monthOfDay y k) ∧
    k - daysBeforeMonth y (monthOfDay y k) ≤ daysInMonth y (monthOfDay y k) := by
  have t := daysBeforeMonth_twelve y
  have e (m : Int) (a : 1 ≤ m) (b : m ≤ 11) := daysBeforeMonth_succ y m a b
  have e1 := e 1 (by omega) (by omega)
  have e2 := e 2 (by omega) (by omega)
  have e3 := e 3 (by omega) (by omega)
  have e4 := e 4 (by omega) (by omega)
  have e5 := e 5 (by omega) (by omega)
  have e6 := e 6 (by omega) (by omega)
  have e7 := e 7 (by omega) (by omega)
  have e8 := e 8 (by omega) (by omega)
  have e9 := e 9 (by omega) (by omega)
  have e10 := e 10 (by omega) (by omega)
  have e11 := e 11 (by omega) (by omega)
  have z := daysBeforeMonth_one y
  clear e
  simp only [Int.reduceAdd] at e1 e2 e3 e4 e5 e6 e7 e8 e9 e10 e11
  by_cases c1 : k ≤ daysBeforeMonth y 2
  · have hm : monthOfDay y k = 1 := by unfold monthOfDay; rw [if_pos c1]
    rw [hm]; omega
  by_cases c2 : k ≤ daysBeforeMonth y 3
  · have hm : monthOfDay y k = 2 := by unfold monthOfDay; rw [if_neg c1, if_pos c2]
    rw [hm]; omega
  by_cases c3 : k ≤ daysBeforeMonth y 4
  · have hm : monthOfDay y k = 3 := by unfold monthOfDay; rw [if_neg c1, if_neg c2, if_pos c3]
    rw [hm]; omega
  by_cases c4 : k ≤ daysBeforeMonth y 5
  · have hm : monthOfDay y k = 4 := by unfold monthOfDay; rw [if_neg c1, if_neg c2, if_neg c3, if_pos c4]
    rw [hm]; omega
  by_cases c5 : k ≤ daysBeforeMonth y 6
  · have hm : monthOfDay y k = 5 := by unfold monthOfDay; rw [if_neg c1, if_neg c2, if_neg c3, if_neg c4, if_pos c5]
    rw [hm]; omega
  by_cases c6 : k ≤ daysBeforeMonth y 7
  · have hm : monthOfDay y k = 6 := by unfold monthOfDay; rw [if_neg c1, if_neg c2, if_neg c3, if_neg c4, if_neg c5, if_pos c6]
    rw [hm]; omega
  by_cases c7 : k ≤ daysBeforeMonth y 8
  · have hm : monthOfDay y k = 7 := by unfold monthOfDay; rw [if_neg c1, if_neg c2, if_neg c3, if_neg c4, if_neg c5, if_neg c6, if_pos c7]
    rw [hm]; omega
  by_cases c8 : k ≤ daysBeforeMonth y 9
  · have hm : monthOfDay y k = 8 := by unfold monthOfDay; rw [if_neg c1, if_neg c2, if_neg c3, if_neg c4, if_neg c5, if_neg c6, if_neg c7, if_pos c8]
    rw [hm]; omega
  by_cases c9 : k ≤ daysBeforeMonth y 10
  · have hm : monthOfDay y k = 9 := by unfold monthOfDay; rw [if_neg c1, if_neg c2, if_neg c3, if_neg c4, if_neg c5, if_neg c6, if_neg c7, if_neg c8, if_pos c9]
    rw [hm]; omega
  by_cases c10 : k ≤ daysBeforeMonth y 11
  · have hm : monthOfDay y k = 10 := by unfold monthOfDay; rw [if_neg c1, if_neg c2, if_neg c3, if_neg c4, if_neg c5, if_neg c6, if_neg c7, if_neg c8, if_neg c9, if_pos c10]
    rw [hm]; omega
  by_cases c11 : k ≤ daysBeforeMonth y 12
  · have hm : monthOfDay y k = 11 := by unfold monthOfDay; rw [if_neg c1, if_neg c2, if_neg c3, if_neg c4, if_neg c5, if_neg c6, if_neg c7, if_neg c8, if_neg c9, if_neg c10, if_pos c11]
    rw [hm]; omega
  have hm : monthOfDay y k = 12 := by unfold monthOfDay; rw [if_neg c1, if_neg c2, if_neg c3, if_neg c4, if_neg c5, if_neg c6, if_neg c7, if_neg c8, if_neg c9, if_neg c10, if_neg c11]
  rw [hm]; omega

theorem toCivil_valid (n : Int) : (toCivil n).Valid := by
  obtain ⟨a, b⟩ := yearOf_spec n
  rw [daysBeforeYear_succ] at b
  have := monthOfDay_spec (yearOf n) (n - daysBeforeYear (yearOf n)) (by omega) (by omega)
  unfold toCivil Civil.Valid
  simp only
  exact ⟨this.1, this.2.1, this.2.2.1, this.2.2.2⟩

/-- Reading a date's civil triple and converting it back is the identity. -/
theorem ofCivil_toCivil (n : Int) : ofCivil (toCivil n) = n := by
  unfold ofCivil toCivil; simp only; omega

theorem daysBeforeMonth_lt {y a b : Int} (h1 : 1 ≤ a) (h2 : a < b) (h3 : b ≤ 12) :
    daysBeforeMonth y a + daysInMonth y a ≤ daysBeforeMonth y b := by
  obtain ⟨n, rfl⟩ : ∃ n : Nat, b = a + 1 + n := ⟨(b - a - 1).toNat, by omega⟩
  induction n with
  | zero => simp only [Int.natCast_zero, Int.add_zero]; rw [daysBeforeMonth_succ y a h1 (by omega)]; omega
  | succ n ih =>
    have ih := ih (by omega) (by omega)
    have := daysBeforeMonth_succ y (a + 1 + n) (by omega) (by omega)
    have e : a + 1 + ((n + 1 : Nat) : Int) = a + 1 + n + 1 := by omega
    rw [e, this]
    have := daysInMonth_bounds y (a + 1 + n)
    omega

theorem daysBeforeMonth_bound (y m : Int) (h1 : 1 ≤ m) (h2 : m ≤ 12) :
    0 ≤ daysBeforeMonth y m ∧ daysBeforeMonth y m + daysInMonth y m ≤ yearLength y := by
  constructor
  · unfold daysBeforeMonth; (repeat' split) <;> omega
  · rcases Int.lt_or_eq_of_le h2 with h | h
    · have := daysBeforeMonth_lt (y := y) h1 h (by omega)
      have := daysBeforeMonth_twelve y
      have := daysInMonth_bounds y 12
      omega
    · subst h; have := daysBeforeMonth_twelve y; omega

theorem yearOf_ofCivil {c : Civil} (h : c.Valid) : yearOf (ofCivil c) = c.year := by
  obtain ⟨h1, h2, h3, h4⟩ := h
  have := daysBeforeMonth_bound c.year c.month h1 h2
  apply yearOf_unique
  · unfold ofCivil; omega
  · rw [daysBeforeYear_succ]; unfold ofCivil; omega

/-- An existing civil date is recovered from its ordinal. -/
theorem toCivil_ofCivil {c : Civil} (h : c.Valid) : toCivil (ofCivil c) = c := by
  have hy := yearOf_ofCivil h
  obtain ⟨h1, h2, h3, h4⟩ := h
  have e : ofCivil c - daysBeforeYear c.year = daysBeforeMonth c.year c.month + c.day := by
    unfold ofCivil; omega
  have hb := daysBeforeMonth_bound c.year c.month h1 h2
  have hm := monthOfDay_spec c.year (daysBeforeMonth c.year c.month + c.day) (by omega) (by omega)
  have key : monthOfDay c.year (daysBeforeMonth c.year c.month + c.day) = c.month := by
    obtain ⟨g1, g2, g3, g4⟩ := hm
    generalize monthOfDay c.year (daysBeforeMonth c.year c.month + c.day) = m at *
    rcases Int.lt_trichotomy m c.month with h | h | h
    · have := daysBeforeMonth_lt (y := c.year) g1 h h2; omega
    · exact h
    · have := daysBeforeMonth_lt (y := c.year) h1 h g2; omega
  unfold toCivil
  simp only [hy, e, key]
  cases c; simp only [Civil.mk.injEq, true_and]; simp only at *; omega

end Frm
