import Verif.Proofs.Tenor

/-! # C01 — Tenor grammar -/

namespace Frm.Props
open Spec

theorem denotes_complete {s : Str} {o : DateOffset} (h : Denotes s o) : tenorToDateOffset s = .ok o := by
  cases h with
  | overnight => rfl
  | tomNext => rfl
  | spot => rfl
  | spotNext => rfl
  | spotWeek => rfl
  | days n hn =>
    obtain ⟨a, b, c, d, e⟩ := not_code_of_digits (r := "d".toList) hn
    unfold tenorToDateOffset
    rw [if_neg a, if_neg b, if_neg c, if_neg d, if_neg e]
    have m (u : Char) (hu : u.isDigit = false) : matchesUnit u (n ++ "d".toList) = decide (u = 'd') :=
      matchesUnit_digits hn hu (by decide) (by decide)
    rw [m 'd' (by decide)]
    have : (n ++ "d".toList).dropLast = n := List.dropLast_concat
    rw [this, pyInt_eq hn]; rfl
  | weeks n hn =>
    obtain ⟨a, b, c, d, e⟩ := not_code_of_digits (r := "w".toList) hn
    unfold tenorToDateOffset
    rw [if_neg a, if_neg b, if_neg c, if_neg d, if_neg e]
    have m (u : Char) (hu : u.isDigit = false) : matchesUnit u (n ++ "w".toList) = decide (u = 'w') :=
      matchesUnit_digits hn hu (by decide) (by decide)
    rw [m 'd' (by decide), m 'w' (by decide)]
    have : (n ++ "w".toList).dropLast = n := List.dropLast_concat
    rw [this, pyInt_eq hn]; rfl
  | months n hn =>
    obtain ⟨a, b, c, d, e⟩ := not_code_of_digits (r := "m".toList) hn
    unfold tenorToDateOffset
    rw [if_neg a, if_neg b, if_neg c, if_neg d, if_neg e]
    have m (u : Char) (hu : u.isDigit = false) : matchesUnit u (n ++ "m".toList) = decide (u = 'm') :=
      matchesUnit_digits hn hu (by decide) (by decide)
    rw [m 'd' (by decide), m 'w' (by decide), m 'm' (by decide)]
    have : (n ++ "m".toList).dropLast = n := List.dropLast_concat
    rw [this, pyInt_eq hn]; rfl
  | years n hn =>
    obtain ⟨a, b, c, d, e⟩ := not_code_of_digits (r := "y".toList) hn
    unfold tenorToDateOffset
    rw [if_neg a, if_neg b, if_neg c, if_neg d, if_neg e]
    have m (u : Char) (hu : u.isDigit = false) : matchesUnit u (n ++ "y".toList) = decide (u = 'y') :=
      matchesUnit_digits hn hu (by decide) (by decide)
    rw [m 'd' (by decide), m 'w' (by decide), m 'm' (by decide), m 'y' (by decide)]
    have : (n ++ "y".toList).dropLast = n := List.dropLast_concat
    rw [this, pyInt_eq hn]; rfl
  | yearsMonths n k hn hk =>
    have hs : n ++ "y".toList ++ k ++ "m".toList = n ++ 'y' :: (k ++ ['m']) := by simp
    rw [hs]
    obtain ⟨a, b, c, d, e⟩ := not_code_of_digits (r := 'y' :: (k ++ ['m'])) hn
    unfold tenorToDateOffset
    rw [if_neg a, if_neg b, if_neg c, if_neg d, if_neg e]
    rw [matchesUnit_yearMonth hn hk (by decide), matchesUnit_yearMonth hn hk (by decide),
      matchesUnit_yearMonth hn hk (by decide), matchesUnit_yearMonth hn hk (by decide),
      (matchesYearMonth_iff _).mpr ⟨n, k, hn, hk, Or.inl rfl⟩]
    have : (n ++ 'y' :: (k ++ ['m'])).dropLast = n ++ 'y' :: (k ++ []) := by
      have : n ++ 'y' :: (k ++ ['m']) = (n ++ 'y' :: k) ++ ['m'] := by simp
      rw [this, List.dropLast_concat]; simp
    obtain ⟨t1, t2⟩ := yearMonth_body (ds := n) (es := k) (r := []) hn
    simp only [List.append_nil] at this t1 t2
    simp only [this, t1, t2, pyInt_eq hn, pyInt_eq hk]
    simp only [if_true, Bool.false_eq_true, if_false]
    show Except.ok _ = Except.ok _
    rw [Int.mul_comm]

theorem denotes_sound (s : Str) :
    (∃ o, Denotes s o ∧ tenorToDateOffset s = .ok o) ∨ tenorToDateOffset s = .error .value := by
  unfold tenorToDateOffset
  by_cases h1 : s = "on".toList
  · rw [if_pos h1, h1]; exact Or.inl ⟨_, .overnight, rfl⟩
  rw [if_neg h1]
  by_cases h2 : s = "tn".toList
  · rw [if_pos h2, h2]; exact Or.inl ⟨_, .tomNext, rfl⟩
  rw [if_neg h2]
  by_cases h3 : s = "sp".toList
  · rw [if_pos h3, h3]; exact Or.inl ⟨_, .spot, rfl⟩
  rw [if_neg h3]
  by_cases h4 : s = "sn".toList
  · rw [if_pos h4, h4]; exact Or.inl ⟨_, .spotNext, rfl⟩
  rw [if_neg h4]
  by_cases h5 : s = "sw".toList
  · rw [if_pos h5, h5]; exact Or.inl ⟨_, .spotWeek, rfl⟩
  rw [if_neg h5]
  by_cases d : matchesUnit 'd' s = true
  · rw [if_pos d]
    rcases unit_branch (by decide) d .days with ⟨ds, hd, e, r⟩ | ⟨_, r⟩
    · refine Or.inl ⟨_, ?_, r⟩; rw [e]; exact .days ds hd
    · exact Or.inr r
  rw [if_neg d]
  by_cases w : matchesUnit 'w' s = true
  · rw [if_pos w]
    rcases unit_branch (by decide) w .weeks with ⟨ds, hd, e, r⟩ | ⟨_, r⟩
    · refine Or.inl ⟨_, ?_, r⟩; rw [e]; exact .weeks ds hd
    · exact Or.inr r
  rw [if_neg w]
  by_cases m : matchesUnit 'm' s = true
  · rw [if_pos m]
    rcases unit_branch (by decide) m .months with ⟨ds, hd, e, r⟩ | ⟨_, r⟩
    · refine Or.inl ⟨_, ?_, r⟩; rw [e]; exact .months ds hd
    · exact Or.inr r
  rw [if_neg m]
  by_cases y : matchesUnit 'y' s = true
  · rw [if_pos y]
    rcases unit_branch (by decide) y .years with ⟨ds, hd, e, r⟩ | ⟨_, r⟩
    · refine Or.inl ⟨_, ?_, r⟩; rw [e]; exact .years ds hd
    · exact Or.inr r
  rw [if_neg y]
  by_cases ym : matchesYearMonth s = true
  · rw [if_pos ym]
    obtain ⟨ds, es, hd, he, e | e⟩ := (matchesYearMonth_iff s).mp ym
    · left
      have hden : Denotes s (.months (12 * numeral ds + numeral es)) := by
        have := Denotes.yearsMonths ds es hd he
        rw [e]; simpa using this
      refine ⟨_, hden, ?_⟩
      have hdl : s.dropLast = ds ++ 'y' :: (es ++ []) := by
        have : s = (ds ++ 'y' :: es) ++ ['m'] := by rw [e]; simp
        rw [this, List.dropLast_concat]; simp
      obtain ⟨t1, t2⟩ := yearMonth_body (ds := ds) (es := es) (r := []) hd
      simp only [List.append_nil] at hdl t1 t2
      simp only [hdl, t1, t2, pyInt_eq hd, pyInt_eq he]
      show Except.ok _ = Except.ok _
      rw [Int.mul_comm]
    · right
      have hdl : s.dropLast = ds ++ 'y' :: (es ++ ['m']) := by
        have : s = (ds ++ 'y' :: (es ++ ['m'])) ++ ['\n'] := by rw [e]; simp
        rw [this, List.dropLast_concat]
      obtain ⟨t1, t2⟩ := yearMonth_body (ds := ds) (es := es) (r := ['m']) hd
      simp only [hdl, t1, t2, pyInt_eq hd, pyInt_nonDigit (s := es ++ ['m']) (c := 'm') (by simp) (by decide)]
      rfl
  · rw [if_neg ym]; exact Or.inr rfl

/-- The parser accepts exactly the grammar and returns the denoted offset. -/
theorem C01_accepts_iff (s : Str) (o : DateOffset) : tenorToDateOffset s = .ok o ↔ Denotes s o := by
  constructor
  · intro h
    rcases denotes_sound s with ⟨o', hd, h'⟩ | h'
    · rw [h] at h'; cases h'; exact hd
    · rw [h] at h'; cases h'
  · exact denotes_complete

/-- Every other string is rejected, and with `ValueError`. -/
theorem C01_rejects (s : Str) (h : ¬ ∃ o, Denotes s o) : tenorToDateOffset s = .error .value := by
  rcases denotes_sound s with ⟨o, hd, _⟩ | h'
  · exact absurd ⟨o, hd⟩ h
  · exact h'

example : Denotes "18m".toList (.months 18) := Denotes.months "18".toList ⟨by decide, by decide⟩
example : Denotes "1y6m".toList (.months 18) :=
  Denotes.yearsMonths "1".toList "6".toList ⟨by decide, by decide⟩ ⟨by decide, by decide⟩
example : tenorToDateOffset "m3".toList = .error .value := by decide +kernel
example : tenorToDateOffset "3m\n".toList = .error .value := by decide +kernel
/-- the hypothesis of `C01_rejects` is met -/
example : ¬ ∃ o, Denotes "3q".toList o := by
  rintro ⟨o, h⟩
  have := denotes_complete h
  have e : tenorToDateOffset "3q".toList = .error .value := by decide +kernel
  rw [e] at this; cases this

end Frm.Props
