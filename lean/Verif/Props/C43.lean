import Mathlib.Tactic.FieldSimp
import Mathlib.Tactic.Ring
import Mathlib.Tactic.Linarith
import Mathlib.Tactic.Positivity
import Mathlib.Data.Rat.Cast.Order
import Mathlib.Data.Rat.Lemmas
import Mathlib.Algebra.Order.Field.Basic
import Verif.Proofs.FxQuotes
import Verif.Props.C41
import Verif.Props.C68

/-! # C43 — The order of the smile -/

namespace Frm
set_option autoImplicit false

namespace Spec

/-- A quote of the smile. -/
inductive SmileKind
  | put (delta : Rat)
  | atm
  | call (delta : Rat)

/-- A number in decimal digits. -/
def decimal (d : Str) : Rat := d.foldl (fun a c => 10 * a + ((c.toNat - 48 : Nat) : Rat)) 0

/-- The quote a (cleaned) column name stands for; deltas in per cent. -/
def Names (name : Str) : SmileKind → Prop
  | .put n => ∃ d, DeltaText d ∧ n = decimal d ∧ name = d ++ "_delta_put".toList
  | .atm => name = "atm_delta_neutral".toList
  | .call n => ∃ d, DeltaText d ∧ n = decimal d ∧ name = d ++ "_delta_call".toList

/-- From low strikes to high strikes. -/
def LowerStrike : SmileKind → SmileKind → Prop
  | .put a, .put b => a ≤ b
  | .put _, _ => True
  | .atm, .put _ => False
  | .atm, _ => True
  | .call a, .call b => b ≤ a
  | .call _, _ => False

/-- The flag and the signed delta of a quote. -/
def Details (q : SmileQuote) : SmileKind → Prop
  | .put n => q.flag = some (-1) ∧ q.signedDelta = some (-(n / 100))
  | .atm => q.flag = some 1 ∧ q.signedDelta = some (1 / 2)
  | .call n => q.flag = some 1 ∧ q.signedDelta = some (n / 100)

/-- A sort on a rational column, in no particular order for equal or missing keys. -/
def SortsOnRat {α : Type} (key : α → Option Rat) (sort : List α → List α) : Prop :=
  ∀ l, (sort l).Perm l ∧ (sort l).Pairwise (fun a b => ∀ x y, key a = some x → key b = some y → x ≤ y)

end Spec
open Spec

theorem deltaText_ind {P : Str → Prop} (h1 : ∀ c ∈ "123456789".toList, P [c] ∧ P ['0', c])
    (h2 : ∀ c ∈ "1234".toList, ∀ e ∈ "0123456789".toList, P [c, e]) {d : Str} (h : DeltaText d) : P d := by
  rcases h with ⟨c, hc, rfl | rfl⟩ | ⟨c, hc, e, he, rfl⟩
  · exact (h1 c hc).1
  · exact (h1 c hc).2
  · exact h2 c hc e he

theorem smileFlag_call {d : Str} (h : DeltaText d) : smileFlag (d ++ "_delta_call".toList) = some 1 :=
  deltaText_ind (P := fun d => smileFlag (d ++ "_delta_call".toList) = some 1) (by decide) (by decide) h

theorem smileFlag_put {d : Str} (h : DeltaText d) : smileFlag (d ++ "_delta_put".toList) = some (-1) :=
  deltaText_ind (P := fun d => smileFlag (d ++ "_delta_put".toList) = some (-1)) (by decide) (by decide) h

theorem smileDelta_call {d : Str} (h : DeltaText d) : smileDelta (d ++ "_delta_call".toList) = .ok (some (decimal d / 100)) :=
  deltaText_ind (P := fun d => smileDelta (d ++ "_delta_call".toList) = .ok (some (decimal d / 100))) (by decide +kernel)
    (by decide +kernel) h

theorem smileDelta_put {d : Str} (h : DeltaText d) : smileDelta (d ++ "_delta_put".toList) = .ok (some (-(decimal d / 100))) :=
  deltaText_ind (P := fun d => smileDelta (d ++ "_delta_put".toList) = .ok (some (-(decimal d / 100)))) (by decide +kernel)
    (by decide +kernel) h

theorem decimal_range {d : Str} (h : DeltaText d) : 1 ≤ decimal d ∧ decimal d ≤ 49 :=
  deltaText_ind (P := fun d => 1 ≤ decimal d ∧ decimal d ≤ 49) (by decide +kernel) (by decide +kernel) h

theorem smileFlag_atm : smileFlag "atm_delta_neutral".toList = some 1 := by decide

theorem smileDelta_atm : smileDelta "atm_delta_neutral".toList = .ok (some (1 / 2)) := by
  unfold smileDelta; rw [if_pos rfl]

/-- The row of a cleaned column. -/
theorem row_of_names {name : Str} {k : SmileKind} (h : Names name k) :
    ∃ x, smileDelta name = .ok (some x) ∧ Details ⟨name, smileFlag name, some x⟩ k := by
  cases k with
  | put n =>
    obtain ⟨d, hd, rfl, rfl⟩ := h
    exact ⟨_, smileDelta_put hd, smileFlag_put hd, rfl⟩
  | atm =>
    cases h
    exact ⟨_, smileDelta_atm, smileFlag_atm, rfl⟩
  | call n =>
    obtain ⟨d, hd, rfl, rfl⟩ := h
    exact ⟨_, smileDelta_call hd, smileFlag_call hd, rfl⟩

/-- The sort key is increasing in the strike. -/
theorem lowerStrike_of_order {a b : SmileQuote} {ka kb : SmileKind} (ha : Names a.name ka) (hb : Names b.name kb)
    (da : Details a ka) (db : Details b kb)
    (h : ∀ x y, smileOrder a = some x → smileOrder b = some y → x ≤ y) : LowerStrike ka kb := by
  have pos : ∀ {name : Str} {n : Rat}, Names name (.put n) ∨ Names name (.call n) → 1 ≤ n ∧ n ≤ 49 := by
    rintro name n (⟨d, hd, rfl, -⟩ | ⟨d, hd, rfl, -⟩) <;> exact decimal_range hd
  have key : ∀ x y : Rat, a.signedDelta = some x → b.signedDelta = some y → 100 / x ≤ 100 / y := by
    intro x y hx hy
    exact h _ _ (by unfold smileOrder; rw [hx]; rfl) (by unfold smileOrder; rw [hy]; rfl)
  cases ka with
  | put n =>
    obtain ⟨hn1, hn2⟩ := pos (.inl ha)
    cases kb with
    | put m =>
      obtain ⟨hm1, hm2⟩ := pos (.inl hb)
      have := key _ _ da.2 db.2
      rw [div_neg, div_neg, neg_le_neg_iff, div_le_div_iff₀ (by linarith) (by linarith)] at this
      show n ≤ m
      linarith
    | atm => trivial
    | call m => trivial
  | atm =>
    cases kb with
    | put m =>
      obtain ⟨hm1, hm2⟩ := pos (.inl hb)
      have := key _ _ da.2 db.2
      have h0 : (100 : Rat) / (-(m / 100)) < 0 := div_neg_of_pos_of_neg (by norm_num) (by linarith)
      norm_num at this
      linarith
    | atm => trivial
    | call m => trivial
  | call n =>
    obtain ⟨hn1, hn2⟩ := pos (.inr ha)
    have hp : (0 : Rat) < 100 / (n / 100) := by positivity
    cases kb with
    | put m =>
      obtain ⟨hm1, hm2⟩ := pos (.inl hb)
      have := key _ _ da.2 db.2
      have h0 : (100 : Rat) / (-(m / 100)) < 0 := div_neg_of_pos_of_neg (by norm_num) (by linarith)
      linarith
    | atm =>
      have := key _ _ da.2 db.2
      rw [div_le_div_iff₀ (by linarith) (by norm_num)] at this
      linarith
    | call m =>
      obtain ⟨hm1, hm2⟩ := pos (.inr hb)
      have := key _ _ da.2 db.2
      rw [div_le_div_iff₀ (by linarith) (by linarith)] at this
      show m ≤ n
      linarith

/-- A cleaned name is selected exactly when it names a quote of the smile. -/
theorem selected_iff {c : Str} (hc : CanonicalName c ∨ ¬ SpellsQuote c) :
    ((matchCallPut c).isSome || matchAtmDeltaNeutral c) = true ↔ ∃ k, Names c k := by
  rw [Bool.or_eq_true, matchAtmDeltaNeutral_iff, Option.isSome_iff_exists]
  constructor
  · intro h
    have hs : SpellsQuote c ∧ ((∃ d, DeltaSpelling callWords d c ∨ DeltaSpelling putWords d c) ∨ AtmSpelling deltaNeutralWords c) := by
      rcases h with ⟨⟨d, b⟩, h⟩ | h
      · rw [matchCallPut_iff] at h
        cases b
        · exact ⟨.inl ⟨d, .inr (.inl h)⟩, .inl ⟨d, .inr h⟩⟩
        · exact ⟨.inl ⟨d, .inl h⟩, .inl ⟨d, .inl h⟩⟩
      · exact ⟨.inr (.inl h), .inr h⟩
    rcases hc with hc | hc
    · have hcc := clean_of_canonical hc
      rcases hs.2 with ⟨d, h | h⟩ | h
      · rw [clean_callPut (b := true) h] at hcc
        exact ⟨.call (decimal d), d, h.1, rfl, hcc.symm⟩
      · rw [clean_callPut (b := false) h] at hcc
        exact ⟨.put (decimal d), d, h.1, rfl, hcc.symm⟩
      · rw [clean_atm h] at hcc
        exact ⟨.atm, hcc.symm⟩
    · exact absurd hs.1 hc
  · rintro ⟨k, hk⟩
    cases k with
    | put n =>
      obtain ⟨d, hd, -, rfl⟩ := hk
      exact .inl ⟨(d, false), (matchCallPut_iff _ d false).mpr (canonical_spelling (k := "put".toList) hd (by decide))⟩
    | atm =>
      cases hk
      right
      exact ⟨"a".toList, [], "t".toList, [], "m".toList, "_".toList, "delta_neutral".toList, [], .inl rfl, .inl rfl,
        .inl rfl, .inl rfl, .inl rfl, .inr (.inl rfl), by decide, .inl rfl, rfl⟩
    | call n =>
      obtain ⟨d, hd, -, rfl⟩ := hk
      exact .inl ⟨(d, true), (matchCallPut_iff _ d true).mpr (canonical_spelling (k := "call".toList) hd (by decide))⟩

theorem mapM_total {α β : Type} {f : α → Except Err β} {g : α → β} {l : List α} (h : ∀ x ∈ l, f x = .ok (g x)) :
    l.mapM f = .ok (l.map g) := by
  induction l with
  | nil => rfl
  | cons a t ih =>
    rw [List.mapM_cons, h a (by simp), ih (fun x hx => h x (by simp [hx]))]
    rfl

namespace Props

/-- **C43.**  On cleaned column names: no error; the rows are the columns that name a quote of the smile, each as often
as it occurs, with its flag and signed delta, and they are ordered from low to high strikes: puts by increasing delta,
at the money, calls by decreasing delta. -/
theorem C43_order (sort : List SmileQuote → List SmileQuote) (hsort : SortsOnRat smileOrder sort) (t : QuoteTable) :
    let columns := (cleanVolQuotesColumnNames t).map (·.1)
    ∃ rows, getDeltaSmileQuoteDetails sort columns = .ok rows ∧
      (∀ name, (∃ k, Names name k) → (rows.map (·.name)).count name = columns.count name) ∧
      (∀ q ∈ rows, ∃ k, Names q.name k ∧ Details q k) ∧
      rows.Pairwise (fun a b => ∀ ka kb, Names a.name ka → Names b.name kb → Details a ka → Details b kb → LowerStrike ka kb) := by
  intro columns
  have hcols : ∀ c ∈ columns, CanonicalName c ∨ ¬ SpellsQuote c := by
    intro c hc
    obtain ⟨x, hx, rfl⟩ := List.mem_map.mp hc
    exact C68_canonical t x hx
  let names := columns.filter (fun c => (matchCallPut c).isSome || matchAtmDeltaNeutral c)
  have hnames : ∀ c ∈ names, ∃ k, Names c k := by
    intro c hc
    obtain ⟨h1, h2⟩ := List.mem_filter.mp hc
    exact (selected_iff (hcols c h1)).mp h2
  let row : Str → SmileQuote := fun n => ⟨n, smileFlag n, ((smileDelta n).toOption).join⟩
  have hrow : ∀ c ∈ names, (smileDelta c).map (fun d => ({ name := c, flag := smileFlag c, signedDelta := d } : SmileQuote)) = .ok (row c) := by
    intro c hc
    obtain ⟨k, hk⟩ := hnames c hc
    obtain ⟨x, hx, -⟩ := row_of_names hk
    simp only [row, hx]
    rfl
  have hdet : ∀ c ∈ names, ∃ k, Names c k ∧ Details (row c) k := by
    intro c hc
    obtain ⟨k, hk⟩ := hnames c hc
    obtain ⟨x, hx, hd⟩ := row_of_names hk
    refine ⟨k, hk, ?_⟩
    simp only [row, hx]
    exact hd
  have heq : getDeltaSmileQuoteDetails sort columns = .ok (sort (names.map row)) := by
    unfold getDeltaSmileQuoteDetails
    simp only [bind, Except.bind]
    rw [mapM_total hrow]
    rfl
  obtain ⟨hperm, hpair⟩ := hsort (names.map row)
  have hmem : ∀ q ∈ sort (names.map row), ∃ k, Names q.name k ∧ Details q k := by
    intro q hq
    obtain ⟨c, hc, rfl⟩ := List.mem_map.mp (hperm.mem_iff.mp hq)
    exact hdet c hc
  refine ⟨_, heq, ?_, hmem, ?_⟩
  · intro name hk
    have hp : ((sort (names.map row)).map (·.name)).Perm names := by
      have := hperm.map (·.name)
      rwa [List.map_map, show (fun q : SmileQuote => q.name) ∘ row = id from rfl, List.map_id] at this
    rw [hp.count_eq]
    by_cases hin : name ∈ columns
    · exact List.count_filter ((selected_iff (hcols name hin)).mpr hk)
    · rw [List.count_eq_zero_of_not_mem hin, List.count_eq_zero_of_not_mem (fun h => hin (List.mem_filter.mp h).1)]
  · exact hpair.imp (fun h ka kb ha hb da db => lowerStrike_of_order ha hb da db h)

/-- What each quote of the smile is called determines it, so `C43_order` compares the right quotes. -/
theorem C43_details (q : SmileQuote) (k : SmileKind) (hk : Names q.name k) (k' : SmileKind) (hk' : Names q.name k') (hd : Details q k') :
    Details q k := by
  obtain ⟨x, hx, h⟩ := row_of_names hk
  obtain ⟨y, hy, h'⟩ := row_of_names hk'
  rw [hx] at hy
  simp only [Except.ok.injEq, Option.some.injEq] at hy
  subst hy
  have hq : q = ⟨q.name, smileFlag q.name, some x⟩ := by
    have e1 : q.flag = smileFlag q.name ∧ q.signedDelta = some x := by
      cases k' with
      | put n => exact ⟨by rw [hd.1]; exact h'.1.symm, by rw [hd.2]; exact h'.2.symm⟩
      | atm => exact ⟨by rw [hd.1]; exact h'.1.symm, by rw [hd.2]; exact h'.2.symm⟩
      | call n => exact ⟨by rw [hd.1]; exact h'.1.symm, by rw [hd.2]; exact h'.2.symm⟩
    cases q
    simp only at e1
    rw [e1.1, e1.2]
  rw [hq]
  exact h

/-- Names that have not been cleaned first are refused, or get no flag. -/
theorem C43_needs_clean_names :
    getDeltaSmileQuoteDetails id ["25Δcall".toList] = .error .value ∧
    getDeltaSmileQuoteDetails id ["25_delta_c".toList] = .ok [⟨"25_delta_c".toList, none, none⟩] := by
  decide +kernel

/-- A sort as assumed exists. -/
example : ∃ sort, SortsOnRat smileOrder sort := by
  let r : SmileQuote → SmileQuote → Prop := fun a b => ∀ y, smileOrder b = some y → ∃ x, smileOrder a = some x ∧ x ≤ y
  have htot : Std.Total r := ⟨by
    intro a b
    cases ha : smileOrder a with
    | none => right; intro y hy; rw [ha] at hy; cases hy
    | some x =>
      cases hb : smileOrder b with
      | none => left; intro y hy; rw [hb] at hy; cases hy
      | some y =>
        rcases le_total x y with h | h
        · left; intro z hz; rw [hb] at hz; cases hz; exact ⟨x, ha, h⟩
        · right; intro z hz; rw [ha] at hz; cases hz; exact ⟨y, hb, h⟩⟩
  have htr : IsTrans SmileQuote r := ⟨by
    intro a b c h1 h2 y hy
    obtain ⟨x, hx, hxy⟩ := h2 y hy
    obtain ⟨w, hw, hwx⟩ := h1 x hx
    exact ⟨w, hw, le_trans hwx hxy⟩⟩
  classical
  refine ⟨fun l => l.insertionSort r, fun l => ⟨List.perm_insertionSort r l, ?_⟩⟩
  refine (List.pairwise_insertionSort r l).imp ?_
  intro a b h x y hx hy
  obtain ⟨x', hx', hle⟩ := h y hy
  rw [hx] at hx'
  cases hx'
  exact hle

/-- The five-point smile comes out in order of strike. -/
example : getDeltaSmileQuoteDetails (sortBy (fun q => ((smileOrder q).getD 0).floor))
      ["tenor".toList, "25_delta_call".toList, "10_delta_put".toList, "atm_delta_neutral".toList, "10_delta_call".toList,
        "25_delta_put".toList] =
    .ok [⟨"10_delta_put".toList, some (-1), some (-1 / 10)⟩, ⟨"25_delta_put".toList, some (-1), some (-1 / 4)⟩,
      ⟨"atm_delta_neutral".toList, some 1, some (1 / 2)⟩, ⟨"25_delta_call".toList, some 1, some (1 / 4)⟩,
      ⟨"10_delta_call".toList, some 1, some (1 / 10)⟩] := by decide +kernel

end Props
end Frm
