import Verif.Model.Tenor
import Verif.Proofs.Text

/-! # C07 — FX spot lag -/

namespace Frm.Spec

/-- The currencies settling one day after trade against the US dollar. -/
def oneDayAgainstUsd : List Str := ["cad".toList, "php".toList, "rub".toList, "try".toList]

/-- Market convention for a pair of three-letter currency codes, in lower case. -/
def spotLag (a b : Str) : Int :=
  if (a = "usd".toList ∧ b ∈ oneDayAgainstUsd) ∨ (b = "usd".toList ∧ a ∈ oneDayAgainstUsd) then 1 else 2

end Frm.Spec

namespace Frm.Props
open Spec

theorem six_split {a b x y : Str} (ha : a.length = 3) (hx : x.length = 3) : a ++ b = x ++ y ↔ a = x ∧ b = y := by
  constructor
  · intro h; exact List.append_inj h (by omega)
  · rintro ⟨rfl, rfl⟩; rfl

/-- On every lower-case pair the lag is the market convention. -/
theorem C07_lag {a b : Str} (ha : a.length = 3) (hb : b.length = 3) :
    getFxSpotDayOffset (a ++ b) = some (spotLag a b) := by
  unfold getFxSpotDayOffset
  rw [if_pos (by simp [ha, hb])]
  have e (x y : Str) (hx : x.length = 3) : (a ++ b = x ++ y) ↔ (a = x ∧ b = y) := six_split ha hx
  have e1 := e "usd".toList "cad".toList rfl
  have e2 := e "cad".toList "usd".toList rfl
  have e3 := e "usd".toList "php".toList rfl
  have e4 := e "php".toList "usd".toList rfl
  have e5 := e "usd".toList "rub".toList rfl
  have e6 := e "rub".toList "usd".toList rfl
  have e7 := e "usd".toList "try".toList rfl
  have e8 := e "try".toList "usd".toList rfl
  have key : (["usdcad".toList, "cadusd".toList, "usdphp".toList, "phpusd".toList,
        "usdrub".toList, "rubusd".toList, "usdtry".toList, "tryusd".toList].contains (a ++ b) = true) ↔
      ((a = "usd".toList ∧ b ∈ oneDayAgainstUsd) ∨ (b = "usd".toList ∧ a ∈ oneDayAgainstUsd)) := by
    rw [List.contains_iff_mem]
    constructor
    · intro h
      simp only [List.mem_cons, List.not_mem_nil, or_false] at h
      rcases h with h | h | h | h | h | h | h | h
      · obtain ⟨rfl, rfl⟩ := e1.mp h; left; exact ⟨rfl, by decide⟩
      · obtain ⟨rfl, rfl⟩ := e2.mp h; right; exact ⟨rfl, by decide⟩
      · obtain ⟨rfl, rfl⟩ := e3.mp h; left; exact ⟨rfl, by decide⟩
      · obtain ⟨rfl, rfl⟩ := e4.mp h; right; exact ⟨rfl, by decide⟩
      · obtain ⟨rfl, rfl⟩ := e5.mp h; left; exact ⟨rfl, by decide⟩
      · obtain ⟨rfl, rfl⟩ := e6.mp h; right; exact ⟨rfl, by decide⟩
      · obtain ⟨rfl, rfl⟩ := e7.mp h; left; exact ⟨rfl, by decide⟩
      · obtain ⟨rfl, rfl⟩ := e8.mp h; right; exact ⟨rfl, by decide⟩
    · rintro (⟨rfl, h⟩ | ⟨rfl, h⟩) <;>
        simp only [oneDayAgainstUsd, List.mem_cons, List.not_mem_nil, or_false] at h <;>
        rcases h with rfl | rfl | rfl | rfl <;> decide
  unfold spotLag
  by_cases h : (a = "usd".toList ∧ b ∈ oneDayAgainstUsd) ∨ (b = "usd".toList ∧ a ∈ oneDayAgainstUsd)
  · rw [if_pos h, if_pos (key.mpr h)]
  · rw [if_neg h, if_neg (fun hh => h (key.mp hh))]

/-- Quoting a pair in the opposite order never changes the lag. -/
theorem C07_symmetric {a b : Str} (ha : a.length = 3) (hb : b.length = 3) :
    getFxSpotDayOffset (a ++ b) = getFxSpotDayOffset (b ++ a) := by
  rw [C07_lag ha hb, C07_lag hb ha]
  unfold spotLag
  simp only [or_comm]

/-- Through `validate_ccy_pair` — the way the library's own callers obtain the argument — letter case and '/' do not
matter, and the lag is the convention for the two currencies it reports. -/
theorem C07_validated {s p dom fgn : Str} (h : validateCcyPair s = .ok (p, dom, fgn)) :
    p = fgn ++ dom ∧ getFxSpotDayOffset p = some (spotLag fgn dom) ∧
    ∀ t, lower t = lower s → validateCcyPair t = .ok (p, dom, fgn) := by
  have hs : ∀ t, lower t = lower s → validateCcyPair t = validateCcyPair s := by
    intro t ht; unfold validateCcyPair; rw [ht]
  refine ⟨?_, ?_, fun t ht => (hs t ht).trans h⟩
  all_goals
    unfold validateCcyPair at h
    simp only at h
    by_cases hl : (strip ((lower s).filter (fun c => c != '/'))).length = 6
    case neg =>
      rw [pyAssert, decide_eq_false hl] at h
      cases h
    rw [pyAssert, decide_eq_true hl] at h
    have h' : Except.ok (strip ((lower s).filter (fun c => c != '/')),
      (strip ((lower s).filter (fun c => c != '/'))).drop 3, (strip ((lower s).filter (fun c => c != '/'))).take 3) =
      (Except.ok (p, dom, fgn) : Except Err _) := h
    simp only [Except.ok.injEq, Prod.mk.injEq] at h'
    obtain ⟨h1, h2, h3⟩ := h'
    rw [h1] at h2 h3 hl
    subst h2 h3
  · exact (List.take_append_drop 3 p).symm
  · have := C07_lag (a := p.take 3) (b := p.drop 3) (by simp; omega) (by simp; omega)
    rwa [List.take_append_drop] at this

/-- Called directly with an upper-case pair the exception table is missed: USDCAD gets two days instead of one, so the
claim "in any letter case" fails without validation. -/
theorem C07_upper_case_missed :
    getFxSpotDayOffset "USDCAD".toList = some 2 ∧ getFxSpotDayOffset (lower "USDCAD".toList) = some 1 := by decide

/-- A pair of any other length silently yields `None`. -/
theorem C07_other_length {p : Str} (h : p.length ≠ 6) : getFxSpotDayOffset p = none := by
  unfold getFxSpotDayOffset; rw [if_neg h]

/-- Interest-rate settlement: sterling same day, everything else two days. -/
theorem C07_ir_settlement (ccy : Str) :
    getIrSettlementOffset ccy = if ccy = "gbp".toList then 0 else 2 := by
  unfold getIrSettlementOffset
  by_cases h : ccy = "gbp".toList
  · subst h; decide
  · rw [if_neg h]
    have : ["gbp".toList].contains ccy = false := by simpa using h
    rw [this]
    split
    · rfl
    · split <;> rfl

example : validateCcyPair " USD/CAD ".toList = .ok ("usdcad".toList, "cad".toList, "usd".toList) := by decide
example : getFxSpotDayOffset "tryusd".toList = some 1 := by decide

end Frm.Props
