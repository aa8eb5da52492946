import Verif.Proofs.QuoteNames

/-! # C68 — Names of quote columns -/

namespace Frm
open Spec

set_option autoImplicit false

/-- The name ends in one of the words. -/
def EndsIn (ks : List Str) (s : Str) : Prop := ∃ k ∈ ks, ∃ p nl, LineEnd nl ∧ s = p ++ (k ++ nl)

theorem stripped {p k nl : Str} (hnl : LineEnd nl) (hk : k.getLast? ≠ none ∧ k.getLast? ≠ some '\n') :
    k.reverse <+: (p ++ (k ++ nl)).reverse.dropWhile (· == '\n') := by
  have e : (p ++ (k ++ nl)).reverse = nl.reverse ++ (k.reverse ++ p.reverse) := by simp
  have hdrop : (nl.reverse ++ (k.reverse ++ p.reverse)).dropWhile (· == '\n') = (k.reverse ++ p.reverse).dropWhile (· == '\n') := by
    rcases hnl with rfl | rfl <;> rfl
  rw [e, hdrop]
  cases hr : k.reverse with
  | nil => rw [List.reverse_eq_nil_iff] at hr; rw [hr] at hk; exact absurd rfl hk.1
  | cons c t =>
    have hl : k.getLast? = some c := by rw [← List.head?_reverse, hr]; rfl
    rw [hl] at hk
    have hc : (c == '\n') = false := by simpa using hk.2
    simp [List.dropWhile_cons, hc]

/-- Names that end in different words are different. -/
theorem endsIn_disjoint {ks ks' : List Str} (h1 : ∀ k ∈ ks, k.getLast? ≠ none ∧ k.getLast? ≠ some '\n')
    (h2 : ∀ k ∈ ks', k.getLast? ≠ none ∧ k.getLast? ≠ some '\n')
    (h : ∀ k ∈ ks, ∀ k' ∈ ks', ¬ k.reverse <+: k'.reverse ∧ ¬ k'.reverse <+: k.reverse) {s : Str}
    (hs : EndsIn ks s) (hs' : EndsIn ks' s) : False := by
  obtain ⟨k, hk, p, nl, hnl, rfl⟩ := hs
  obtain ⟨k', hk', p', nl', hnl', e⟩ := hs'
  have a := stripped (p := p) hnl (h1 k hk)
  have b := stripped (p := p') hnl' (h2 k' hk')
  rw [← e] at b
  rcases List.prefix_or_prefix_of_prefix a b with c | c
  · exact (h k hk k' hk').1 c
  · exact (h k hk k' hk').2 c

theorem delta_endsIn {ks : List Str} {d s : Str} (h : DeltaSpelling ks d s) : EndsIn ks s := by
  obtain ⟨-, a, w, b, k, nl, -, -, -, hk, hnl, rfl⟩ := h
  exact ⟨k, hk, d ++ (a ++ (w ++ b)), nl, hnl, by simp⟩

theorem atm_endsIn {ks : List Str} {s : Str} (h : AtmSpelling ks s) : EndsIn ks s := by
  obtain ⟨x, a, y, b, z, c, k, nl, -, -, -, -, -, -, hk, hnl, rfl⟩ := h
  exact ⟨k, hk, x ++ (a ++ (y ++ (b ++ (z ++ c)))), nl, hnl, by simp⟩

theorem delta_atm_disjoint {ks ks' : List Str} {d s : Str} (h : DeltaSpelling ks d s) (h' : AtmSpelling ks' s) : False := by
  have h1 := spelling_delta h
  obtain ⟨hd, -⟩ := h
  obtain ⟨x, a, y, b, z, c, k, nl, hx, -, -, -, -, -, -, -, rfl⟩ := h'
  have h2 : d = [] := by
    rw [← h1]
    rcases hx with rfl | rfl <;> rfl
  rw [h2] at hd
  rcases hd with ⟨c, -, hc | hc⟩ | ⟨c, -, e, -, hc⟩ <;> cases hc

theorem callPut_strategy_disjoint {d d' s : Str} {b b' : Bool} (h : DeltaSpelling (if b then callWords else putWords) d s)
    (h' : DeltaSpelling (if b' then riskReversalWords else butterflyWords) d' s) : False := by
  cases b <;> cases b' <;>
    exact endsIn_disjoint (by decide) (by decide) (by decide) (delta_endsIn h) (delta_endsIn h')

theorem matchCallPut_none {s : Str} (h : ∀ d (b : Bool), ¬ DeltaSpelling (if b then callWords else putWords) d s) : matchCallPut s = none := by
  cases hm : matchCallPut s with
  | none => rfl
  | some x => exact absurd ((matchCallPut_iff s x.1 x.2).mp hm) (h x.1 x.2)

theorem matchStrategy_none {s : Str} (h : ∀ d (b : Bool), ¬ DeltaSpelling (if b then riskReversalWords else butterflyWords) d s) :
    matchStrategy s = none := by
  cases hm : matchStrategy s with
  | none => rfl
  | some x => exact absurd ((matchStrategy_iff s x.1 x.2).mp hm) (h x.1 x.2)

theorem clean_callPut {s d : Str} {b : Bool} (h : DeltaSpelling (if b then callWords else putWords) d s) :
    cleanQuoteName s = d ++ (if b then "_delta_call".toList else "_delta_put".toList) := by
  unfold cleanQuoteName
  rw [(matchCallPut_iff s d b).mpr h]

theorem clean_strategy {s d : Str} {b : Bool} (h : DeltaSpelling (if b then riskReversalWords else butterflyWords) d s) :
    cleanQuoteName s = d ++ (if b then "_delta_riskreversal".toList else "_delta_butterfly".toList) := by
  unfold cleanQuoteName
  rw [matchCallPut_none (fun d' b' h' => callPut_strategy_disjoint h' h), (matchStrategy_iff s d b).mpr h]

theorem clean_atm {s : Str} (h : AtmSpelling deltaNeutralWords s) : cleanQuoteName s = "atm_delta_neutral".toList := by
  unfold cleanQuoteName
  rw [matchCallPut_none (fun d' b' h' => delta_atm_disjoint h' h), matchStrategy_none (fun d' b' h' => delta_atm_disjoint h' h)]
  simp only [(matchAtmDeltaNeutral_iff s).mpr h, if_true]

theorem atm_disjoint {s : Str} (h : AtmSpelling deltaNeutralWords s) (h' : AtmSpelling forwardWords s) : False :=
  endsIn_disjoint (by decide) (by decide) (by decide) (atm_endsIn h) (atm_endsIn h')

theorem clean_forward {s : Str} (h : AtmSpelling forwardWords s) : cleanQuoteName s = "atm_forward".toList := by
  unfold cleanQuoteName
  rw [matchCallPut_none (fun d' b' h' => delta_atm_disjoint h' h), matchStrategy_none (fun d' b' h' => delta_atm_disjoint h' h)]
  have hn : matchAtmDeltaNeutral s = false := by
    cases hb : matchAtmDeltaNeutral s with
    | false => rfl
    | true => exact (atm_disjoint ((matchAtmDeltaNeutral_iff s).mp hb) h).elim
  simp only [hn, (matchAtmForward_iff s).mpr h, if_true, Bool.false_eq_true, if_false]

/-- The name spells a quote. -/
def Spec.SpellsQuote (s : Str) : Prop :=
  (∃ d, DeltaSpelling callWords d s ∨ DeltaSpelling putWords d s ∨ DeltaSpelling riskReversalWords d s ∨
    DeltaSpelling butterflyWords d s) ∨ AtmSpelling deltaNeutralWords s ∨ AtmSpelling forwardWords s

theorem clean_other {s : Str} (h : ¬ SpellsQuote s) : cleanQuoteName s = s := by
  unfold SpellsQuote at h
  rw [not_or, not_or, not_exists] at h
  obtain ⟨h1, h2, h3⟩ := h
  unfold cleanQuoteName
  rw [matchCallPut_none, matchStrategy_none]
  · have hn : matchAtmDeltaNeutral s = false := by
      cases hb : matchAtmDeltaNeutral s with
      | false => rfl
      | true => exact absurd ((matchAtmDeltaNeutral_iff s).mp hb) h2
    have hf : matchAtmForward s = false := by
      cases hb : matchAtmForward s with
      | false => rfl
      | true => exact absurd ((matchAtmForward_iff s).mp hb) h3
    simp only [hn, hf, Bool.false_eq_true, if_false]
  · intro d b hd
    cases b
    · exact h1 d (.inr (.inr (.inr hd)))
    · exact h1 d (.inr (.inr (.inl hd)))
  · intro d b hd
    cases b
    · exact h1 d (.inr (.inl hd))
    · exact h1 d (.inl hd)

/-- A canonical name spells the quote it names. -/
theorem canonical_spelling {ks : List Str} {d k : Str} (hd : DeltaText d) (hk : k ∈ ks) :
    DeltaSpelling ks d (d ++ ("_delta_".toList ++ k)) :=
  ⟨hd, "_".toList, "delta".toList, "_".toList, k, [], .inr (.inl rfl), .inl rfl, .inr (.inl rfl), hk, .inl rfl, by simp⟩

theorem clean_of_canonical {s : Str} (h : CanonicalName s) : cleanQuoteName s = s := by
  rcases h with ⟨d, hd, rfl | rfl | rfl | rfl⟩ | rfl | rfl
  · exact clean_callPut (b := true) (canonical_spelling (k := "call".toList) hd (by decide))
  · exact clean_callPut (b := false) (canonical_spelling (k := "put".toList) hd (by decide))
  · exact clean_strategy (b := true) (canonical_spelling (k := "riskreversal".toList) hd (by decide))
  · exact clean_strategy (b := false) (canonical_spelling (k := "butterfly".toList) hd (by decide))
  · exact clean_atm ⟨"a".toList, [], "t".toList, [], "m".toList, "_".toList, "delta_neutral".toList, [], .inl rfl, .inl rfl,
      .inl rfl, .inl rfl, .inl rfl, .inr (.inl rfl), by decide, .inl rfl, rfl⟩
  · exact clean_forward ⟨"a".toList, [], "t".toList, [], "m".toList, "_".toList, "forward".toList, [], .inl rfl, .inl rfl,
      .inl rfl, .inl rfl, .inl rfl, .inr (.inl rfl), by decide, .inl rfl, rfl⟩

theorem clean_canonical {s : Str} (h : SpellsQuote s) : CanonicalName (cleanQuoteName s) := by
  rcases h with ⟨d, h | h | h | h⟩ | h | h
  · rw [clean_callPut (b := true) h]; exact .inl ⟨d, h.1, .inl rfl⟩
  · rw [clean_callPut (b := false) h]; exact .inl ⟨d, h.1, .inr (.inl rfl)⟩
  · rw [clean_strategy (b := true) h]; exact .inl ⟨d, h.1, .inr (.inr (.inl rfl))⟩
  · rw [clean_strategy (b := false) h]; exact .inl ⟨d, h.1, .inr (.inr (.inr rfl))⟩
  · rw [clean_atm h]; exact .inr (.inl rfl)
  · rw [clean_forward h]; exact .inr (.inr rfl)

namespace Props

/-- **C68.**  The columns stay in order and keep their values; only their names change. -/
theorem C68_values (t : QuoteTable) :
    (cleanVolQuotesColumnNames t).map (·.2) = t.map (·.2) ∧ (cleanVolQuotesColumnNames t).length = t.length := by
  unfold cleanVolQuotesColumnNames
  simp

/-- **C68.**  Every spelling of a quote becomes its canonical name, and every other name is left as it is. -/
theorem C68_names (t : QuoteTable) (i : Nat) (name : Str) (v : List (Option Rat)) (h : t[i]? = some (name, v)) :
    ∃ new, (cleanVolQuotesColumnNames t)[i]? = some (new, v) ∧
      (∀ d, DeltaSpelling callWords d name → new = d ++ "_delta_call".toList) ∧
      (∀ d, DeltaSpelling putWords d name → new = d ++ "_delta_put".toList) ∧
      (∀ d, DeltaSpelling riskReversalWords d name → new = d ++ "_delta_riskreversal".toList) ∧
      (∀ d, DeltaSpelling butterflyWords d name → new = d ++ "_delta_butterfly".toList) ∧
      (AtmSpelling deltaNeutralWords name → new = "atm_delta_neutral".toList) ∧
      (AtmSpelling forwardWords name → new = "atm_forward".toList) ∧
      (¬ SpellsQuote name → new = name) := by
  refine ⟨cleanQuoteName name, ?_, fun d hd => clean_callPut (b := true) hd, fun d hd => clean_callPut (b := false) hd,
    fun d hd => clean_strategy (b := true) hd, fun d hd => clean_strategy (b := false) hd, clean_atm, clean_forward, clean_other⟩
  unfold cleanVolQuotesColumnNames
  simp [List.getElem?_map, h]

/-- **C68.**  Cleaning the names twice is the same as cleaning them once. -/
theorem C68_idempotent (t : QuoteTable) :
    cleanVolQuotesColumnNames (cleanVolQuotesColumnNames t) = cleanVolQuotesColumnNames t := by
  unfold cleanVolQuotesColumnNames
  rw [List.map_map]
  apply List.map_congr_left
  intro c _
  simp only [Function.comp_apply, Prod.mk.injEq, and_true]
  by_cases h : SpellsQuote c.1
  · exact clean_of_canonical (clean_canonical h)
  · rw [clean_other h, clean_other h]

/-- **C68.**  A cleaned name is canonical, or names no quote. -/
theorem C68_canonical (t : QuoteTable) (c : Str × List (Option Rat)) (hc : c ∈ cleanVolQuotesColumnNames t) :
    CanonicalName c.1 ∨ ¬ SpellsQuote c.1 := by
  unfold cleanVolQuotesColumnNames at hc
  obtain ⟨x, -, rfl⟩ := List.mem_map.mp hc
  by_cases h : SpellsQuote x.1
  · exact .inl (clean_canonical h)
  · right; rw [clean_other h]; exact h

/-- Four spellings, a name that is not a quote, and a delta out of range. -/
example : (cleanVolQuotesColumnNames [("25Δ rr".toList, [some 1]), ("at the money delta neutral".toList, [some 2]), ("05deltac".toList, [some 3]),
      ("tenor".toList, [some 4]), ("50_delta_call".toList, [some 5]), ("atmf".toList, [some 6])]) =
    [("25_delta_riskreversal".toList, [some 1]), ("atm_delta_neutral".toList, [some 2]), ("05_delta_call".toList, [some 3]), ("tenor".toList, [some 4]),
      ("50_delta_call".toList, [some 5]), ("atm_forward".toList, [some 6])] := by decide +kernel

example : DeltaSpelling riskReversalWords "25".toList "25Δ rr".toList :=
  ⟨.inr ⟨'2', by decide, '5', by decide, rfl⟩, [], "Δ".toList, " ".toList, "rr".toList, [], .inl rfl, .inr rfl, .inr (.inr rfl), by decide,
    .inl rfl, rfl⟩

end Props
end Frm
