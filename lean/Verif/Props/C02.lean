import Verif.Proofs.CleanTenor
import Verif.Props.C01

/-! # C02 — Tenor normalisation -/

namespace Frm.Props
open Spec

/-- Case, blanks, slashes and line breaks do not matter, wherever they occur. -/
theorem C02_cosmetic {a b : Str} (h : SameTenor a b) : cleanTenor a = cleanTenor b := by
  rw [cleanTenor_eq, cleanTenor_eq, tenorCore_same h]

/-- A count and any spelling of a unit, however written, normalise to the count and the unit letter. -/
theorem C02_count_unit {s n sp : Str} {u : Char} (hn : Digits n) (hu : (sp, u) ∈ unitSpellings)
    (h : SameTenor (n ++ sp) s) : cleanTenor s = n ++ [u] := by
  rw [← C02_cosmetic h, cleanTenor_eq, tenorCore_append,
    tenorCore_id (fun c hc => digit_canonical (digits_isDigit hn c hc)), tenorCore_id (spelling_canonical hu),
    substAliases_digits (digits_isDigit hn)]
  have := substAliases_unit hu [] (by simp)
  rw [List.append_nil] at this
  rw [this]; rfl

/-- Two counts with units, e.g. "1 year 6 months". -/
theorem C02_count_unit_twice {s n k sp tp : Str} {u v : Char} (hn : Digits n) (hk : Digits k)
    (hu : (sp, u) ∈ unitSpellings) (hv : (tp, v) ∈ unitSpellings)
    (h : SameTenor (n ++ sp ++ (k ++ tp)) s) : cleanTenor s = n ++ [u] ++ (k ++ [v]) := by
  rw [← C02_cosmetic h, cleanTenor_eq, tenorCore_append, tenorCore_append, tenorCore_append,
    tenorCore_id (fun c hc => digit_canonical (digits_isDigit hn c hc)), tenorCore_id (spelling_canonical hu),
    tenorCore_id (fun c hc => digit_canonical (digits_isDigit hk c hc)), tenorCore_id (spelling_canonical hv),
    List.append_assoc, substAliases_digits (digits_isDigit hn), substAliases_unit hu, substAliases_digits (digits_isDigit hk)]
  · have := substAliases_unit hv [] (by simp)
    rw [List.append_nil] at this
    rw [this]; simp [substAliases]
  · intro c hc
    obtain ⟨d, ds, e, hd⟩ := head_isDigit (r := tp) hk
    rw [e] at hc; simp at hc; rw [← hc]; exact hd

/-- The market codes. -/
theorem C02_codes {s a code : Str} (hc : (a, code) ∈ codeSpellings) (h : SameTenor a s) : cleanTenor s = code := by
  rw [← C02_cosmetic h]
  have : ∀ p ∈ codeSpellings, cleanTenor p.1 = p.2 := by decide
  exact this (a, code) hc

/-- Normalised tenors are left alone. -/
theorem C02_normal_unchanged {s : Str} {o : DateOffset} (h : Denotes s o) : cleanTenor s = s := by
  cases h with
  | overnight => rfl
  | tomNext => rfl
  | spot => rfl
  | spotNext => rfl
  | spotWeek => rfl
  | days n hn => exact C02_count_unit (u := 'd') hn (by decide) (SameTenor.refl _)
  | weeks n hn => exact C02_count_unit (u := 'w') hn (by decide) (SameTenor.refl _)
  | months n hn => exact C02_count_unit (u := 'm') hn (by decide) (SameTenor.refl _)
  | years n hn => exact C02_count_unit (u := 'y') hn (by decide) (SameTenor.refl _)
  | yearsMonths n k hn hk =>
    have := C02_count_unit_twice (s := n ++ "y".toList ++ (k ++ "m".toList)) (u := 'y') (v := 'm') hn hk
      (sp := "y".toList) (tp := "m".toList) (by decide) (by decide) (SameTenor.refl _)
    simpa using this

/-- What a user sees: any spelling of "<n> <unit>" gives the offset of `n` units. -/
theorem C02_parse_count_unit {s n sp : Str} {u : Char} (hn : Digits n) (hu : (sp, u) ∈ unitSpellings)
    (h : SameTenor (n ++ sp) s) :
    tenorToDateOffset (cleanTenor s) =
      .ok (if u = 'd' then .days (numeral n) else if u = 'w' then .weeks (numeral n)
           else if u = 'm' then .months (numeral n) else .years (numeral n)) := by
  rw [C02_count_unit hn hu h, C01_accepts_iff]
  have hu' : u = 'd' ∨ u = 'w' ∨ u = 'm' ∨ u = 'y' := by
    have : ∀ p ∈ unitSpellings, p.2 = 'd' ∨ p.2 = 'w' ∨ p.2 = 'm' ∨ p.2 = 'y' := by decide
    exact this (sp, u) hu
  rcases hu' with rfl | rfl | rfl | rfl
  · exact .days n hn
  · exact .weeks n hn
  · exact .months n hn
  · exact .years n hn

/-- Cleaning is not idempotent on arbitrary text (a spelling can arise from a substitution), although it is on every
tenor (`C02_normal_unchanged`). -/
theorem C02_not_idempotent : ∃ s, cleanTenor (cleanTenor s) ≠ cleanTenor s :=
  ⟨"dayays".toList, by decide⟩

example : SameTenor ("3".toList ++ "months".toList) "3 Months".toList := by
  have h1 : Cosmetic "3months".toList "3 months".toList := Cosmetic.insert "3".toList "months".toList ' ' (by decide)
  have h2 : Cosmetic "3 months".toList "3 Months".toList := Cosmetic.upper "3 ".toList "onths".toList 'm'
  exact SameTenor.edit (SameTenor.edit (SameTenor.refl _) h1) h2
example : ("months".toList, 'm') ∈ unitSpellings := by decide
example : cleanTenor "1 Year 6 Months".toList = "1y6m".toList := by decide
example : cleanTenor "Spot/Week".toList = "sw".toList := by decide

end Frm.Props
