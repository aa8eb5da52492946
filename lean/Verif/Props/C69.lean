import Mathlib.Data.List.Infix
import Verif.Model.FxHelpers

/-! # C69 — Warnings about the delta convention -/

namespace Frm
set_option autoImplicit false

namespace Spec

/-- The pairs whose market convention is the regular delta, in market order. -/
def MarketRegular (pair : Str) : Prop :=
  pair = "audusd".toList ∨ pair = "eurusd".toList ∨ pair = "gbpusd".toList ∨ pair = "nzdusd".toList

/-- The same pairs, quoted the other way round. -/
def MarketRegularInverted (pair : Str) : Prop :=
  pair = "usdaud".toList ∨ pair = "usdeur".toList ∨ pair = "usdgbp".toList ∨ pair = "usdnzd".toList

/-- `text` occurs in `s`. -/
def Occurs (text s : Str) : Prop := ∃ a b, s = a ++ (text ++ b)

/-- The pairs whose market convention is the premium-adjusted delta: the other pairs with the dollar. -/
def MarketAdjusted (pair : Str) : Prop :=
  Occurs "usd".toList pair ∧ ¬ MarketRegular pair ∧ ¬ MarketRegularInverted pair

/-- The warning that a row should get. -/
inductive Warning (pair : Str) (r : ConventionRow) : Str → Prop
  | regular : MarketRegular pair → Occurs "premium_adjusted".toList r.convention →
      Warning pair r "the regular delta is the market delta_convention for this currency pair\n".toList
  | adjusted : MarketAdjusted pair → Occurs "regular".toList r.convention →
      Warning pair r "premium adjusted delta is the market delta_convention for this currency pair\n".toList
  | none : ¬ (MarketRegular pair ∧ Occurs "premium_adjusted".toList r.convention) →
      ¬ (MarketAdjusted pair ∧ Occurs "regular".toList r.convention) → Warning pair r []

end Spec

open Spec

theorem containsStr_iff {sub s : Str} : containsStr sub s = true ↔ Occurs sub s := by
  unfold containsStr Occurs
  rw [List.any_eq_true]
  simp only [List.mem_tails, List.isPrefixOf_iff_prefix]
  constructor
  · rintro ⟨t, ⟨a, rfl⟩, ⟨b, rfl⟩⟩; exact ⟨a, b, rfl⟩
  · rintro ⟨a, b, rfl⟩; exact ⟨sub ++ b, ⟨a, rfl⟩, ⟨b, rfl⟩⟩

theorem regularPairs_iff {pair : Str} (h1 : pair ≠ "eurusd".toList) (h2 : pair ≠ "nzdeur".toList) :
    regularPairs.contains pair = true ↔ MarketRegular pair := by
  unfold regularPairs MarketRegular
  simp only [List.contains_iff_mem, List.mem_cons, List.not_mem_nil, or_false, h1, h2, false_or]

theorem bothWays_iff {pair : Str} (h1 : pair ≠ "eurusd".toList) (h2 : pair ≠ "nzdeur".toList) :
    regularPairsBothWays.contains pair = true ↔ MarketRegular pair ∨ MarketRegularInverted pair := by
  unfold regularPairsBothWays
  rw [List.contains_iff_mem, List.mem_append, ← List.contains_iff_mem, regularPairs_iff h1 h2]
  unfold MarketRegularInverted
  simp only [List.mem_cons, List.not_mem_nil, or_false]

namespace Props

/-- **C69, all pairs but two.**  Each row gets the warning it should get, appended to its warnings, and keeps its
convention.  Missing: EUR/USD, for which see `C69_eurusd`, and NZD/EUR, for which see `C69_nzdeur`. -/
theorem C69_partial (pair : Str) (h1 : pair ≠ "eurusd".toList) (h2 : pair ≠ "nzdeur".toList) (r : ConventionRow) :
    (checkDeltaConvention pair r).convention = r.convention ∧
    ∃ w, Warning pair r w ∧ (checkDeltaConvention pair r).warnings = r.warnings ++ w := by
  refine ⟨rfl, ?_⟩
  have k1 : (regularPairs.contains pair && containsStr "premium_adjusted".toList r.convention) = true ↔
      MarketRegular pair ∧ Occurs "premium_adjusted".toList r.convention := by
    rw [Bool.and_eq_true, regularPairs_iff h1 h2, containsStr_iff]
  have k2 : (!regularPairsBothWays.contains pair && containsStr "usd".toList pair && containsStr "regular".toList r.convention) = true ↔
      MarketAdjusted pair ∧ Occurs "regular".toList r.convention := by
    rw [Bool.and_eq_true, Bool.and_eq_true, Bool.not_eq_true', ← Bool.not_eq_true, bothWays_iff h1 h2, containsStr_iff, containsStr_iff,
      not_or]
    unfold MarketAdjusted
    constructor
    · rintro ⟨⟨⟨a, b⟩, c⟩, d⟩; exact ⟨⟨c, a, b⟩, d⟩
    · rintro ⟨⟨c, a, b⟩, d⟩; exact ⟨⟨⟨a, b⟩, c⟩, d⟩
  unfold checkDeltaConvention
  simp only
  by_cases hr : MarketRegular pair ∧ Occurs "premium_adjusted".toList r.convention
  · rw [if_pos (k1.mpr hr), if_neg (fun h => (k2.mp h).1.2.1 hr.1)]
    exact ⟨_, .regular hr.1 hr.2, rfl⟩
  · rw [if_neg (fun h => hr (k1.mp h))]
    by_cases ha : MarketAdjusted pair ∧ Occurs "regular".toList r.convention
    · rw [if_pos (k2.mpr ha)]
      exact ⟨_, .adjusted ha.1 ha.2, rfl⟩
    · rw [if_neg (fun h => ha (k2.mp h))]
      exact ⟨[], .none hr ha, by simp⟩

/-- **C69 is false for EUR/USD**: a regular delta, its market convention, is warned about, and a premium-adjusted one
is not. -/
theorem C69_eurusd (warnings : Str) :
    (checkDeltaConvention "eurusd".toList { convention := "regular_spot_delta".toList, warnings := warnings }).warnings =
      warnings ++ "premium adjusted delta is the market delta_convention for this currency pair\n".toList ∧
    (checkDeltaConvention "eurusd".toList { convention := "premium_adjusted_spot_delta".toList, warnings := warnings }).warnings =
      warnings := by
  have e1 : regularPairs.contains "eurusd".toList = false := by decide
  have e2 : regularPairsBothWays.contains "eurusd".toList = false := by decide
  have e3 : containsStr "usd".toList "eurusd".toList = true := by decide
  have e4 : containsStr "regular".toList "regular_spot_delta".toList = true := by decide
  have e5 : containsStr "regular".toList "premium_adjusted_spot_delta".toList = false := by decide
  constructor
  · unfold checkDeltaConvention
    simp only [e1, e2, e3, e4, Bool.false_and, Bool.not_false, Bool.true_and, if_true, Bool.false_eq_true, if_false]
    rfl
  · unfold checkDeltaConvention
    simp only [e1, e5, Bool.false_and, Bool.and_false, Bool.false_eq_true, if_false]

/-- The pair listed instead: NZD/EUR, which has no dollar, is warned about when premium-adjusted. -/
theorem C69_nzdeur (r : ConventionRow) (h : Occurs "premium_adjusted".toList r.convention) :
    (checkDeltaConvention "nzdeur".toList r).warnings =
      r.warnings ++ "the regular delta is the market delta_convention for this currency pair\n".toList ∧
    Warning "nzdeur".toList r [] := by
  have e1 : regularPairs.contains "nzdeur".toList = true := by decide
  have e2 : regularPairsBothWays.contains "nzdeur".toList = true := by decide
  have hm : ¬ MarketRegular "nzdeur".toList := by unfold MarketRegular; decide
  have hu : ¬ Occurs "usd".toList "nzdeur".toList := by rw [← containsStr_iff]; decide
  constructor
  · unfold checkDeltaConvention
    simp only [e1, e2, containsStr_iff.mpr h, Bool.true_and, Bool.not_true, Bool.false_and, if_true, Bool.false_eq_true, if_false]
    rfl
  · exact .none (fun h => hm h.1) (fun h => hu h.1.1)

/-- The hypotheses of `C69_partial` are met, in each of its three cases. -/
example : (checkDeltaConvention "audusd".toList { convention := "premium_adjusted_spot_delta".toList, warnings := [] }).warnings ≠ [] ∧
    (checkDeltaConvention "usdjpy".toList { convention := "regular_spot_delta".toList, warnings := [] }).warnings ≠ [] ∧
    (checkDeltaConvention "eurgbp".toList { convention := "regular_spot_delta".toList, warnings := [] }).warnings = [] := by
  decide +kernel

end Props
end Frm
