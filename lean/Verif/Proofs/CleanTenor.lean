import Verif.Proofs.Tenor
import Verif.Proofs.Text

namespace Frm
open Spec

/-- The text handed to the alias substitution. -/
def tenorCore (s : Str) : Str := (lower s).filter (fun c => !tenorIgnored c)

theorem cleanTenor_eq (s : Str) : cleanTenor s = substAliases 0 (tenorCore s) := rfl

theorem tenorCore_append (a b : Str) : tenorCore (a ++ b) = tenorCore a ++ tenorCore b := by
  simp [tenorCore, lower]

theorem tenorCore_cosmetic {a b : Str} (h : Cosmetic a b) : tenorCore a = tenorCore b := by
  cases h with
  | insert u v c hc =>
    have e : u ++ c :: v = u ++ ([c] ++ v) := rfl
    rw [e, tenorCore_append, tenorCore_append, tenorCore_append]
    have : tenorCore [c] = [] := by
      simp only [List.mem_cons, List.not_mem_nil, or_false] at hc
      rcases hc with rfl | rfl | rfl | rfl <;> decide
    rw [this]; rfl
  | upper u v c =>
    have e (x : Char) : u ++ x :: v = u ++ ([x] ++ v) := rfl
    rw [e, e, tenorCore_append, tenorCore_append, tenorCore_append, tenorCore_append]
    have : tenorCore [c.toUpper] = tenorCore [c] := by simp [tenorCore, lower, toLower_toUpper]
    rw [this]
  | lower u v c =>
    have e (x : Char) : u ++ x :: v = u ++ ([x] ++ v) := rfl
    rw [e, e, tenorCore_append, tenorCore_append, tenorCore_append, tenorCore_append]
    have : tenorCore [c.toLower] = tenorCore [c] := by simp [tenorCore, lower, toLower_toLower]
    rw [this]

theorem tenorCore_same {a b : Str} (h : SameTenor a b) : tenorCore a = tenorCore b := by
  induction h with
  | refl => rfl
  | edit _ hc ih => exact ih.trans (tenorCore_cosmetic hc)
  | undo _ hc ih => exact ih.trans (tenorCore_cosmetic hc).symm

theorem matchAlias_none_of {c : Char} {cs : Str}
    (h : c ≠ 'd' ∧ c ≠ 'w' ∧ c ≠ 'm' ∧ c ≠ 'y' ∧ c ≠ 'o' ∧ c ≠ 't' ∧ c ≠ 's') : matchAlias (c :: cs) = none := by
  obtain ⟨h1, h2, h3, h4, h5, h6, h7⟩ := h
  have e (a : Char) (ha : c ≠ a) : (a == c) = false := by simp [Ne.symm ha]
  simp [matchAlias, tenorAliases, List.isPrefixOf, e 'd' h1, e 'w' h2, e 'm' h3, e 'y' h4, e 'o' h5, e 't' h6, e 's' h7]

theorem digit_ne {c : Char} (h : c.isDigit = true) (a : Char) (ha : a.isDigit = false) : c ≠ a := by
  intro e; subst e; rw [h] at ha; cases ha

theorem substAliases_digits {ds : Str} (h : ∀ c ∈ ds, c.isDigit = true) (rest : Str) :
    substAliases 0 (ds ++ rest) = ds ++ substAliases 0 rest := by
  induction ds with
  | nil => rfl
  | cons c cs ih =>
    have hc := h c List.mem_cons_self
    have hn : matchAlias (c :: (cs ++ rest)) = none := by
      apply matchAlias_none_of
      refine ⟨?_, ?_, ?_, ?_, ?_, ?_, ?_⟩ <;> exact digit_ne hc _ (by decide)
    rw [List.cons_append, substAliases, hn]
    simp only
    rw [ih (fun x hx => h x (List.mem_cons_of_mem _ hx))]
    rfl

/-- A unit spelling at the end of the text or followed by a digit becomes the unit letter. -/
theorem substAliases_unit {sp : Str} {u : Char} (h : (sp, u) ∈ unitSpellings) (rest : Str)
    (hr : ∀ c, rest.head? = some c → c.isDigit = true) :
    substAliases 0 (sp ++ rest) = u :: substAliases 0 rest := by
  simp only [unitSpellings, List.mem_cons, Prod.mk.injEq, List.not_mem_nil, or_false] at h
  cases rest with
  | nil =>
    rcases h with ⟨rfl, rfl⟩ | ⟨rfl, rfl⟩ | ⟨rfl, rfl⟩ | ⟨rfl, rfl⟩ | ⟨rfl, rfl⟩ | ⟨rfl, rfl⟩ | ⟨rfl, rfl⟩ | ⟨rfl, rfl⟩ |
      ⟨rfl, rfl⟩ | ⟨rfl, rfl⟩ | ⟨rfl, rfl⟩ | ⟨rfl, rfl⟩ | ⟨rfl, rfl⟩ | ⟨rfl, rfl⟩ | ⟨rfl, rfl⟩ <;> decide
  | cons c cs =>
    have hc := hr c rfl
    have e (a : Char) (ha : a.isDigit = false) : (a == c) = false := by simp [Ne.symm (digit_ne hc a ha)]
    have ea := e 'a' (by decide)
    have ee := e 'e' (by decide)
    have eo := e 'o' (by decide)
    have et := e 't' (by decide)
    have es := e 's' (by decide)
    have er := e 'r' (by decide)
    rcases h with ⟨rfl, rfl⟩ | ⟨rfl, rfl⟩ | ⟨rfl, rfl⟩ | ⟨rfl, rfl⟩ | ⟨rfl, rfl⟩ | ⟨rfl, rfl⟩ | ⟨rfl, rfl⟩ | ⟨rfl, rfl⟩ |
      ⟨rfl, rfl⟩ | ⟨rfl, rfl⟩ | ⟨rfl, rfl⟩ | ⟨rfl, rfl⟩ | ⟨rfl, rfl⟩ | ⟨rfl, rfl⟩ | ⟨rfl, rfl⟩ <;>
      simp [substAliases, matchAlias, tenorAliases, List.isPrefixOf, ea, ee, eo, et, es, er]

theorem tenorCore_id {s : Str} (h : ∀ c ∈ s, c.toLower = c ∧ tenorIgnored c = false) : tenorCore s = s := by
  unfold tenorCore lower
  have : s.map Char.toLower = s := by
    conv => rhs; rw [← List.map_id s]
    apply List.map_congr_left
    intro c hc; exact (h c hc).1
  rw [this, List.filter_eq_self]
  intro c hc; rw [(h c hc).2]; rfl

theorem digit_canonical {c : Char} (h : c.isDigit = true) : c.toLower = c ∧ tenorIgnored c = false := by
  have h48 := toNat_ge_of_digit h
  have h57 : c.toNat ≤ 57 := ((isDigit_iff c).mp h).2
  refine ⟨toLower_of_not_upper (by omega), ?_⟩
  simp only [tenorIgnored, Bool.or_eq_false_iff, beq_eq_false_iff_ne, ne_eq]
  refine ⟨⟨⟨?_, ?_⟩, ?_⟩, ?_⟩ <;> exact digit_ne h _ (by decide)

theorem spelling_canonical {sp : Str} {u : Char} (h : (sp, u) ∈ unitSpellings) :
    ∀ c ∈ sp, c.toLower = c ∧ tenorIgnored c = false := by
  revert h
  have : ∀ p ∈ unitSpellings, ∀ c ∈ p.1, c.toLower = c ∧ tenorIgnored c = false := by decide
  exact fun h => this (sp, u) h

end Frm
