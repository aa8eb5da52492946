import Verif.Model.FxHelpers
import Verif.Spec.QuoteNames

/-! # The regular expressions for column names -/

namespace Frm
open Spec

set_option autoImplicit false

theorem mem_lit {p s r : Str} : r ∈ Pat.lit p s ↔ s = p ++ r := by
  unfold Pat.lit
  by_cases h : p.isPrefixOf s
  · rw [if_pos h]
    obtain ⟨t, rfl⟩ := List.isPrefixOf_iff_prefix.mp h
    simp [eq_comm]
  · rw [if_neg h]
    constructor
    · intro hr; cases hr
    · rintro rfl
      exact absurd (List.isPrefixOf_iff_prefix.mpr (List.prefix_append p r)) h

theorem mem_alts {ps : List Str} {s r : Str} : r ∈ Pat.alts ps s ↔ ∃ p ∈ ps, s = p ++ r := by
  unfold Pat.alts
  simp only [List.mem_flatMap, mem_lit]

theorem mem_sep {s r : Str} : r ∈ Pat.sep s ↔ ∃ a, Separator a ∧ s = a ++ r := by
  have key : r ∈ Pat.sep s ↔ s = r ∨ s = '_' :: r ∨ s = ' ' :: r := by
    unfold Pat.sep
    cases s with
    | nil => simp [eq_comm]
    | cons c rest =>
      simp only
      by_cases h : c = '_' ∨ c = ' '
      · rw [if_pos h]
        simp only [List.mem_cons, List.not_mem_nil, or_false, List.cons.injEq]
        constructor
        · rintro (rfl | rfl)
          · rcases h with h | h
            · exact .inr (.inl ⟨h, rfl⟩)
            · exact .inr (.inr ⟨h, rfl⟩)
          · exact .inl rfl
        · rintro (h | ⟨-, h⟩ | ⟨-, h⟩)
          · exact .inr h.symm
          · exact .inl h.symm
          · exact .inl h.symm
      · rw [if_neg h]
        rw [not_or] at h
        simp [h.1, h.2, eq_comm]
  rw [key]
  constructor
  · rintro (h | h | h)
    · exact ⟨[], .inl rfl, h⟩
    · exact ⟨_, .inr (.inl rfl), h⟩
    · exact ⟨_, .inr (.inr rfl), h⟩
  · rintro ⟨a, rfl | rfl | rfl, h⟩
    · exact .inl h
    · exact .inr (.inl h)
    · exact .inr (.inr h)

theorem mem_seq {a b : Pat} {s r : Str} : r ∈ Pat.seq a b s ↔ ∃ t ∈ a s, r ∈ b t := List.mem_flatMap

theorem atEnd_iff {s : Str} : Pat.atEnd s = true ↔ LineEnd s := by
  unfold Pat.atEnd LineEnd
  simp

theorem deltaWord_iff {s r : Str} : r ∈ Pat.alts ["delta".toList, "Δ".toList] s ↔ ∃ w, DeltaWord w ∧ s = w ++ r := by
  rw [mem_alts]
  constructor
  · rintro ⟨p, hp, rfl⟩
    exact ⟨p, by simpa [DeltaWord] using hp, rfl⟩
  · rintro ⟨w, hw, rfl⟩
    exact ⟨w, by simpa [DeltaWord] using hw, rfl⟩

theorem mem_delta {s r : Str} : r ∈ Pat.delta s ↔ ∃ a w b, Separator a ∧ DeltaWord w ∧ Separator b ∧ s = a ++ (w ++ (b ++ r)) := by
  unfold Pat.delta
  simp only [mem_seq, mem_sep, deltaWord_iff]
  constructor
  · rintro ⟨t, ⟨a, ha, rfl⟩, u, ⟨w, hw, rfl⟩, b, hb, rfl⟩
    exact ⟨a, w, b, ha, hw, hb, rfl⟩
  · rintro ⟨a, w, b, ha, hw, hb, rfl⟩
    exact ⟨_, ⟨a, ha, rfl⟩, _, ⟨w, hw, rfl⟩, b, hb, rfl⟩

theorem char_of_nat {c : Char} {n : Nat} (h : c.toNat = n) : c = Char.ofNat n := by rw [← h, Char.ofNat_toNat]

theorem char_le_iff {a b : Char} : a ≤ b ↔ a.toNat ≤ b.toNat := Iff.rfl

theorem digit19 {c : Char} : ('1' ≤ c ∧ c ≤ '9') ↔ c ∈ "123456789".toList := by
  constructor
  · rintro ⟨h1, h2⟩
    rw [char_le_iff] at h1 h2
    have e1 : ('1' : Char).toNat = 49 := rfl
    have e2 : ('9' : Char).toNat = 57 := rfl
    have : c.toNat = 49 ∨ c.toNat = 50 ∨ c.toNat = 51 ∨ c.toNat = 52 ∨ c.toNat = 53 ∨ c.toNat = 54 ∨ c.toNat = 55 ∨
      c.toNat = 56 ∨ c.toNat = 57 := by omega
    rcases this with h | h | h | h | h | h | h | h | h <;> rw [char_of_nat h] <;> decide
  · intro h
    have : ∀ c ∈ "123456789".toList, '1' ≤ c ∧ c ≤ '9' := by decide
    exact this c h

theorem digit14 {c : Char} : ('1' ≤ c ∧ c ≤ '4') ↔ c ∈ "1234".toList := by
  constructor
  · rintro ⟨h1, h2⟩
    rw [char_le_iff] at h1 h2
    have e1 : ('1' : Char).toNat = 49 := rfl
    have e2 : ('4' : Char).toNat = 52 := rfl
    have : c.toNat = 49 ∨ c.toNat = 50 ∨ c.toNat = 51 ∨ c.toNat = 52 := by omega
    rcases this with h | h | h | h <;> rw [char_of_nat h] <;> decide
  · intro h
    have : ∀ c ∈ "1234".toList, '1' ≤ c ∧ c ≤ '4' := by decide
    exact this c h

theorem digit09 {c : Char} : c.isDigit = true ↔ c ∈ "0123456789".toList := by
  constructor
  · intro h
    unfold Char.isDigit at h
    simp only [Bool.and_eq_true, decide_eq_true_eq] at h
    have h1 : 48 ≤ c.toNat := h.1
    have h2 : c.toNat ≤ 57 := h.2
    have : c.toNat = 48 ∨ c.toNat = 49 ∨ c.toNat = 50 ∨ c.toNat = 51 ∨ c.toNat = 52 ∨ c.toNat = 53 ∨ c.toNat = 54 ∨
      c.toNat = 55 ∨ c.toNat = 56 ∨ c.toNat = 57 := by omega
    rcases this with h | h | h | h | h | h | h | h | h | h <;> rw [char_of_nat h] <;> decide
  · intro h
    have : ∀ c ∈ "0123456789".toList, c.isDigit = true := by decide
    exact this c h

theorem mem_deltaPrefixes {s d r : Str} : (d, r) ∈ deltaPrefixes s ↔ DeltaText d ∧ s = d ++ r := by
  unfold deltaPrefixes
  simp only [List.mem_append]
  constructor
  · rintro ((h | h) | h)
    · split at h
      · rename_i c rest
        split at h
        · rename_i hc
          simp only [List.mem_cons, Prod.mk.injEq, List.not_mem_nil, or_false] at h
          obtain ⟨rfl, rfl⟩ := h
          exact ⟨.inl ⟨c, digit19.mp hc, .inr rfl⟩, rfl⟩
        · cases h
      · cases h
    · split at h
      · rename_i c rest
        split at h
        · rename_i hc
          simp only [List.mem_cons, Prod.mk.injEq, List.not_mem_nil, or_false] at h
          obtain ⟨rfl, rfl⟩ := h
          exact ⟨.inl ⟨c, digit19.mp hc, .inl rfl⟩, rfl⟩
        · cases h
      · cases h
    · split at h
      · rename_i c e rest
        split at h
        · rename_i hc
          simp only [List.mem_cons, Prod.mk.injEq, List.not_mem_nil, or_false] at h
          obtain ⟨rfl, rfl⟩ := h
          exact ⟨.inr ⟨c, digit14.mp ⟨hc.1, hc.2.1⟩, e, digit09.mp hc.2.2, rfl⟩, rfl⟩
        · cases h
      · cases h
  · rintro ⟨⟨c, hc, rfl | rfl⟩ | ⟨c, hc, e, he, rfl⟩, rfl⟩
    · left; right
      simp [digit19.mpr hc]
    · left; left
      simp [digit19.mpr hc]
    · right
      simp [digit14.mpr hc, digit09.mpr he]

theorem deltaText_digits {d : Str} (h : DeltaText d) : ∀ c ∈ d, c.isDigit = true := by
  have k9 : ∀ c ∈ "123456789".toList, c.isDigit = true := by decide
  have k4 : ∀ c ∈ "1234".toList, c.isDigit = true := by decide
  rcases h with ⟨c, hc, rfl | rfl⟩ | ⟨c, hc, e, he, rfl⟩
  · intro x hx; simp only [List.mem_cons, List.not_mem_nil, or_false] at hx; rw [hx]; exact k9 c hc
  · intro x hx; simp only [List.mem_cons, List.not_mem_nil, or_false] at hx
    rcases hx with rfl | rfl
    · decide
    · exact k9 _ hc
  · intro x hx; simp only [List.mem_cons, List.not_mem_nil, or_false] at hx
    rcases hx with rfl | rfl
    · exact k4 _ hc
    · exact digit09.mpr he

theorem delta_head {a w : Str} (ha : Separator a) (hw : DeltaWord w) (r : Str) :
    (a ++ (w ++ r)).takeWhile Char.isDigit = [] := by
  rcases ha with rfl | rfl | rfl <;> rcases hw with rfl | rfl <;> rfl

theorem spelling_delta {ks : List Str} {d s : Str} (h : DeltaSpelling ks d s) : s.takeWhile Char.isDigit = d := by
  obtain ⟨hd, a, w, b, k, nl, ha, hw, -, -, -, rfl⟩ := h
  rw [List.takeWhile_append_of_pos (deltaText_digits hd), delta_head ha hw, List.append_nil]

/-- The last character that is not a line feed. -/
def lastLetter (s : Str) : Option Char := (s.reverse.dropWhile (· == '\n')).head?

theorem lastLetter_append {p k nl : Str} (hnl : LineEnd nl) (hk : k ≠ []) (hk' : k.getLast? ≠ some '\n') :
    lastLetter (p ++ (k ++ nl)) = k.getLast? := by
  have e : p ++ (k ++ nl) = (p ++ k) ++ nl := by rw [List.append_assoc]
  unfold lastLetter
  rw [e, List.reverse_append]
  have hdrop : (nl.reverse ++ (p ++ k).reverse).dropWhile (· == '\n') = (p ++ k).reverse.dropWhile (· == '\n') := by
    rcases hnl with rfl | rfl <;> rfl
  rw [hdrop, List.reverse_append]
  cases hr : k.reverse with
  | nil => rw [List.reverse_eq_nil_iff] at hr; exact absurd hr hk
  | cons c t =>
    have hl : k.getLast? = some c := by rw [← List.head?_reverse, hr]; rfl
    rw [hl] at hk' ⊢
    have hc : (c == '\n') = false := by
      simp only [ne_eq, Option.some.injEq] at hk'
      simpa using hk'
    simp [List.dropWhile_cons, hc]

theorem spelling_last {ks : List Str} (hks : ∀ k ∈ ks, k ≠ [] ∧ k.getLast? ≠ some '\n') {d s : Str} (h : DeltaSpelling ks d s) :
    ∃ k ∈ ks, lastLetter s = k.getLast? := by
  obtain ⟨-, a, w, b, k, nl, -, -, -, hk, hnl, rfl⟩ := h
  refine ⟨k, hk, ?_⟩
  have e : d ++ (a ++ (w ++ (b ++ (k ++ nl)))) = (d ++ (a ++ (w ++ b))) ++ (k ++ nl) := by simp
  rw [e]
  exact lastLetter_append hnl (hks k hk).1 (hks k hk).2

/-- Two lists of words that end in different letters. -/
theorem spelling_disjoint {ks ks' : List Str} (h1 : ∀ k ∈ ks, k ≠ [] ∧ k.getLast? ≠ some '\n')
    (h2 : ∀ k ∈ ks', k ≠ [] ∧ k.getLast? ≠ some '\n') (h : ∀ k ∈ ks, ∀ k' ∈ ks', k.getLast? ≠ k'.getLast?) {d d' s : Str}
    (hs : DeltaSpelling ks d s) (hs' : DeltaSpelling ks' d' s) : False := by
  obtain ⟨k, hk, e⟩ := spelling_last h1 hs
  obtain ⟨k', hk', e'⟩ := spelling_last h2 hs'
  exact h k hk k' hk' (by rw [← e, e'])

theorem head?_of_unique {α : Type} {l : List α} {x : α} (hm : x ∈ l) (hu : ∀ y ∈ l, y = x) : l.head? = some x := by
  cases l with
  | nil => cases hm
  | cons y t => rw [hu y (by simp)]; rfl

theorem call_put_disjoint {d d' s : Str} (h : DeltaSpelling callWords d s) (h' : DeltaSpelling putWords d' s) : False :=
  spelling_disjoint (by decide) (by decide) (by decide) h h'

theorem any_lit {p t : Str} : (Pat.lit p t).any Pat.atEnd = true ↔ ∃ nl, LineEnd nl ∧ t = p ++ nl := by
  rw [List.any_eq_true]
  constructor
  · rintro ⟨r, h1, h2⟩; exact ⟨r, atEnd_iff.mp h2, mem_lit.mp h1⟩
  · rintro ⟨nl, h1, h2⟩; exact ⟨nl, mem_lit.mpr h2, atEnd_iff.mpr h1⟩

/-- The common shape of the two delta patterns. -/
theorem mem_deltaPattern {s : Str} {x : Str × Bool} {P Q : Str → List Unit} :
    x ∈ (deltaPrefixes s).flatMap (fun np => (Pat.delta np.2).flatMap (fun t =>
      (P t).map (fun _ => (np.1, true)) ++ (Q t).map (fun _ => (np.1, false)))) ↔
    DeltaText x.1 ∧ ∃ a w b t, Separator a ∧ DeltaWord w ∧ Separator b ∧ s = x.1 ++ (a ++ (w ++ (b ++ t))) ∧
      ((x.2 = true ∧ P t ≠ []) ∨ (x.2 = false ∧ Q t ≠ [])) := by
  simp only [List.mem_flatMap, List.mem_append, List.mem_map]
  constructor
  · rintro ⟨⟨d, r⟩, hp, t, ht, h⟩
    obtain ⟨hd, rfl⟩ := mem_deltaPrefixes.mp hp
    obtain ⟨a, w, b, ha, hw, hb, hr⟩ := mem_delta.mp ht
    simp only at hr
    subst hr
    rcases h with ⟨u, hu, rfl⟩ | ⟨u, hu, rfl⟩
    · exact ⟨hd, a, w, b, t, ha, hw, hb, rfl, .inl ⟨rfl, List.ne_nil_of_mem hu⟩⟩
    · exact ⟨hd, a, w, b, t, ha, hw, hb, rfl, .inr ⟨rfl, List.ne_nil_of_mem hu⟩⟩
  · rintro ⟨hd, a, w, b, t, ha, hw, hb, rfl, h⟩
    refine ⟨(x.1, _), mem_deltaPrefixes.mpr ⟨hd, rfl⟩, t, mem_delta.mpr ⟨a, w, b, ha, hw, hb, rfl⟩, ?_⟩
    rcases h with ⟨h1, h2⟩ | ⟨h1, h2⟩
    · obtain ⟨u, hu⟩ := List.exists_mem_of_ne_nil _ h2
      exact .inl ⟨u, hu, by rw [← h1]⟩
    · obtain ⟨u, hu⟩ := List.exists_mem_of_ne_nil _ h2
      exact .inr ⟨u, hu, by rw [← h1]⟩

/-- `matchCallPut` recognises exactly the spellings of calls and puts. -/
theorem matchCallPut_iff (s d : Str) (isCall : Bool) :
    matchCallPut s = some (d, isCall) ↔ DeltaSpelling (if isCall then callWords else putWords) d s := by
  have hmem : ∀ x : Str × Bool, x ∈ (deltaPrefixes s).flatMap (fun np => (Pat.delta np.2).flatMap (fun t =>
      ((["call".toList, "c".toList].filter (fun p => (Pat.lit p t).any Pat.atEnd)).map (fun _ => (np.1, true))) ++
      ((["put".toList, "p".toList].filter (fun p => (Pat.lit p t).any Pat.atEnd)).map (fun _ => (np.1, false))))) ↔
      DeltaSpelling (if x.2 then callWords else putWords) x.1 s := by
    intro x
    have := mem_deltaPattern (s := s) (x := x)
      (P := fun t => (["call".toList, "c".toList].filter (fun p => (Pat.lit p t).any Pat.atEnd)).map (fun _ => ()))
      (Q := fun t => (["put".toList, "p".toList].filter (fun p => (Pat.lit p t).any Pat.atEnd)).map (fun _ => ()))
    simp only [List.map_map, Function.comp_def] at this
    rw [this]
    unfold DeltaSpelling
    have hne : ∀ (ks : List Str) (t : Str), (ks.filter (fun p => (Pat.lit p t).any Pat.atEnd)).map (fun _ => ()) ≠ [] ↔
        ∃ k ∈ ks, ∃ nl, LineEnd nl ∧ t = k ++ nl := by
      intro ks t
      rw [ne_eq, List.map_eq_nil_iff, List.filter_eq_nil_iff]
      simp only [any_lit, not_forall, not_not]
      constructor
      · rintro ⟨k, hk, h⟩; exact ⟨k, hk, h⟩
      · rintro ⟨k, hk, h⟩; exact ⟨k, hk, h⟩
    simp only [hne]
    constructor
    · rintro ⟨hd, a, w, b, t, ha, hw, hb, rfl, ⟨h1, k, hk, nl, hnl, rfl⟩ | ⟨h1, k, hk, nl, hnl, rfl⟩⟩
      · exact ⟨hd, a, w, b, k, nl, ha, hw, hb, by rw [h1]; exact hk, hnl, rfl⟩
      · exact ⟨hd, a, w, b, k, nl, ha, hw, hb, by rw [h1]; exact hk, hnl, rfl⟩
    · rintro ⟨hd, a, w, b, k, nl, ha, hw, hb, hk, hnl, rfl⟩
      refine ⟨hd, a, w, b, _, ha, hw, hb, rfl, ?_⟩
      cases hx : x.2 with
      | true => rw [hx] at hk; exact .inl ⟨rfl, k, hk, nl, hnl, rfl⟩
      | false => rw [hx] at hk; exact .inr ⟨rfl, k, hk, nl, hnl, rfl⟩
  have huniq : ∀ x y : Str × Bool, DeltaSpelling (if x.2 then callWords else putWords) x.1 s →
      DeltaSpelling (if y.2 then callWords else putWords) y.1 s → y = x := by
    intro x y hx hy
    have hd : y.1 = x.1 := by rw [← spelling_delta hx, ← spelling_delta hy]
    refine Prod.ext hd ?_
    cases hb : x.2 <;> cases hb' : y.2
    · rfl
    · rw [hb] at hx; rw [hb'] at hy; exact (call_put_disjoint hy hx).elim
    · rw [hb] at hx; rw [hb'] at hy; exact (call_put_disjoint hx hy).elim
    · rfl
  unfold matchCallPut
  constructor
  · intro h
    exact (hmem (d, isCall)).mp (List.mem_of_mem_head? h)
  · intro h
    exact head?_of_unique ((hmem (d, isCall)).mpr h) (fun y hy => huniq _ y h ((hmem y).mp hy))

theorem any_risk {t : Str} :
    ((Pat.seq (Pat.lit "risk".toList) (Pat.seq Pat.sep (Pat.lit "reversal".toList))) t).any Pat.atEnd = true ↔
      ∃ k ∈ ["riskreversal".toList, "risk_reversal".toList, "risk reversal".toList], ∃ nl, LineEnd nl ∧ t = k ++ nl := by
  rw [List.any_eq_true]
  simp only [mem_seq, mem_lit, mem_sep, atEnd_iff]
  constructor
  · rintro ⟨r, ⟨t1, rfl, t2, ⟨a, ha, rfl⟩, rfl⟩, hr⟩
    rcases ha with rfl | rfl | rfl
    · exact ⟨"riskreversal".toList, by simp, r, hr, rfl⟩
    · exact ⟨"risk_reversal".toList, by simp, r, hr, rfl⟩
    · exact ⟨"risk reversal".toList, by simp, r, hr, rfl⟩
  · rintro ⟨k, hk, nl, hnl, rfl⟩
    simp only [List.mem_cons, List.not_mem_nil, or_false] at hk
    rcases hk with rfl | rfl | rfl
    · exact ⟨nl, ⟨_, rfl, _, ⟨[], .inl rfl, rfl⟩, rfl⟩, hnl⟩
    · exact ⟨nl, ⟨_, rfl, _, ⟨_, .inr (.inl rfl), rfl⟩, rfl⟩, hnl⟩
    · exact ⟨nl, ⟨_, rfl, _, ⟨_, .inr (.inr rfl), rfl⟩, rfl⟩, hnl⟩

theorem filter_ne_nil {α : Type} {p : α → Bool} {l : List α} : (l.filter p).map (fun _ => ()) ≠ [] ↔ ∃ k ∈ l, p k = true := by
  rw [ne_eq, List.map_eq_nil_iff, List.filter_eq_nil_iff]
  simp only [not_forall, not_not]
  constructor
  · rintro ⟨k, hk, h⟩; exact ⟨k, hk, h⟩
  · rintro ⟨k, hk, h⟩; exact ⟨k, hk, h⟩

theorem rr_words (t : Str) :
    ([Pat.seq (Pat.lit "risk".toList) (Pat.seq Pat.sep (Pat.lit "reversal".toList)), Pat.lit "rr".toList].filter
      (fun p => (p t).any Pat.atEnd)).map (fun _ => ()) ≠ [] ↔ ∃ k ∈ riskReversalWords, ∃ nl, LineEnd nl ∧ t = k ++ nl := by
  rw [filter_ne_nil]
  have hsplit : riskReversalWords = ["riskreversal".toList, "risk_reversal".toList, "risk reversal".toList] ++ ["rr".toList] := rfl
  rw [hsplit]
  constructor
  · rintro ⟨k, hk, h⟩
    rcases List.mem_cons.mp hk with rfl | hk
    · obtain ⟨w, hw, h'⟩ := any_risk.mp h
      exact ⟨w, List.mem_append.mpr (.inl hw), h'⟩
    · rw [List.mem_singleton.mp hk] at h
      exact ⟨_, List.mem_append.mpr (.inr (List.mem_singleton.mpr rfl)), any_lit.mp h⟩
  · rintro ⟨k, hk, h⟩
    rcases List.mem_append.mp hk with hk | hk
    · exact ⟨_, List.mem_cons_self, any_risk.mpr ⟨k, hk, h⟩⟩
    · rw [List.mem_singleton.mp hk] at h
      exact ⟨_, List.mem_cons.mpr (.inr (List.mem_singleton.mpr rfl)), any_lit.mpr h⟩

theorem rr_bf_disjoint {d d' s : Str} (h : DeltaSpelling riskReversalWords d s) (h' : DeltaSpelling butterflyWords d' s) : False :=
  spelling_disjoint (by decide) (by decide) (by decide) h h'

/-- `matchStrategy` recognises exactly the spellings of risk reversals and butterflies. -/
theorem matchStrategy_iff (s d : Str) (isRr : Bool) :
    matchStrategy s = some (d, isRr) ↔ DeltaSpelling (if isRr then riskReversalWords else butterflyWords) d s := by
  have hmem : ∀ x : Str × Bool, x ∈ (deltaPrefixes s).flatMap (fun np => (Pat.delta np.2).flatMap (fun t =>
      (([Pat.seq (Pat.lit "risk".toList) (Pat.seq Pat.sep (Pat.lit "reversal".toList)), Pat.lit "rr".toList].filter
        (fun p => (p t).any Pat.atEnd)).map (fun _ => (np.1, true))) ++
      ((["butterfly".toList, "bf".toList].filter (fun p => (Pat.lit p t).any Pat.atEnd)).map (fun _ => (np.1, false))))) ↔
      DeltaSpelling (if x.2 then riskReversalWords else butterflyWords) x.1 s := by
    intro x
    have := mem_deltaPattern (s := s) (x := x)
      (P := fun t => ([Pat.seq (Pat.lit "risk".toList) (Pat.seq Pat.sep (Pat.lit "reversal".toList)), Pat.lit "rr".toList].filter
        (fun p => (p t).any Pat.atEnd)).map (fun _ => ()))
      (Q := fun t => (["butterfly".toList, "bf".toList].filter (fun p => (Pat.lit p t).any Pat.atEnd)).map (fun _ => ()))
    simp only [List.map_map, Function.comp_def] at this
    rw [this]
    unfold DeltaSpelling
    have hne : ∀ (ks : List Str) (t : Str), (ks.filter (fun p => (Pat.lit p t).any Pat.atEnd)).map (fun _ => ()) ≠ [] ↔
        ∃ k ∈ ks, ∃ nl, LineEnd nl ∧ t = k ++ nl := by
      intro ks t
      rw [ne_eq, List.map_eq_nil_iff, List.filter_eq_nil_iff]
      simp only [any_lit, not_forall, not_not]
      constructor
      · rintro ⟨k, hk, h⟩; exact ⟨k, hk, h⟩
      · rintro ⟨k, hk, h⟩; exact ⟨k, hk, h⟩
    have hne' : ∀ t : Str, ([Pat.seq (Pat.lit "risk".toList) (Pat.seq Pat.sep (Pat.lit "reversal".toList)), Pat.lit "rr".toList].filter
        (fun p => (p t).any Pat.atEnd)).map (fun _ => ()) ≠ [] ↔ ∃ k ∈ riskReversalWords, ∃ nl, LineEnd nl ∧ t = k ++ nl := by
      intro t
      exact rr_words t
    simp only [hne, hne']
    constructor
    · rintro ⟨hd, a, w, b, t, ha, hw, hb, rfl, ⟨h1, k, hk, nl, hnl, rfl⟩ | ⟨h1, k, hk, nl, hnl, rfl⟩⟩
      · exact ⟨hd, a, w, b, k, nl, ha, hw, hb, by rw [h1]; exact hk, hnl, rfl⟩
      · exact ⟨hd, a, w, b, k, nl, ha, hw, hb, by rw [h1]; exact hk, hnl, rfl⟩
    · rintro ⟨hd, a, w, b, k, nl, ha, hw, hb, hk, hnl, rfl⟩
      refine ⟨hd, a, w, b, _, ha, hw, hb, rfl, ?_⟩
      cases hx : x.2 with
      | true => rw [hx] at hk; exact .inl ⟨rfl, k, hk, nl, hnl, rfl⟩
      | false => rw [hx] at hk; exact .inr ⟨rfl, k, hk, nl, hnl, rfl⟩
  have huniq : ∀ x y : Str × Bool, DeltaSpelling (if x.2 then riskReversalWords else butterflyWords) x.1 s →
      DeltaSpelling (if y.2 then riskReversalWords else butterflyWords) y.1 s → y = x := by
    intro x y hx hy
    have hd : y.1 = x.1 := by rw [← spelling_delta hx, ← spelling_delta hy]
    refine Prod.ext hd ?_
    cases hb : x.2 <;> cases hb' : y.2
    · rfl
    · rw [hb] at hx; rw [hb'] at hy; exact (rr_bf_disjoint hy hx).elim
    · rw [hb] at hx; rw [hb'] at hy; exact (rr_bf_disjoint hx hy).elim
    · rfl
  unfold matchStrategy
  constructor
  · intro h
    exact (hmem (d, isRr)).mp (List.mem_of_mem_head? h)
  · intro h
    exact head?_of_unique ((hmem (d, isRr)).mpr h) (fun y hy => huniq _ y h ((hmem y).mp hy))

theorem mem_atm {s r : Str} : r ∈ Pat.atm s ↔ ∃ x a y b z c, (x = "a".toList ∨ x = "at".toList) ∧ Separator a ∧
    (y = "t".toList ∨ y = "the".toList) ∧ Separator b ∧ (z = "m".toList ∨ z = "money".toList) ∧ Separator c ∧
    s = x ++ (a ++ (y ++ (b ++ (z ++ (c ++ r))))) := by
  unfold Pat.atm
  simp only [mem_seq, mem_sep, mem_alts, List.mem_cons, List.not_mem_nil, or_false]
  constructor
  · rintro ⟨t1, ⟨x, hx, rfl⟩, t2, ⟨a, ha, rfl⟩, t3, ⟨y, hy, rfl⟩, t4, ⟨b, hb, rfl⟩, t5, ⟨z, hz, rfl⟩, c, hc, rfl⟩
    exact ⟨x, a, y, b, z, c, hx, ha, hy, hb, hz, hc, rfl⟩
  · rintro ⟨x, a, y, b, z, c, hx, ha, hy, hb, hz, hc, rfl⟩
    exact ⟨_, ⟨x, hx, rfl⟩, _, ⟨a, ha, rfl⟩, _, ⟨y, hy, rfl⟩, _, ⟨b, hb, rfl⟩, _, ⟨z, hz, rfl⟩, c, hc, rfl⟩

theorem matchAtmForward_iff (s : Str) : matchAtmForward s = true ↔ AtmSpelling forwardWords s := by
  unfold matchAtmForward AtmSpelling
  rw [List.any_eq_true]
  simp only [mem_seq, mem_atm, mem_alts, atEnd_iff]
  constructor
  · rintro ⟨r, ⟨t, ⟨x, a, y, b, z, c, hx, ha, hy, hb, hz, hc, rfl⟩, k, hk, rfl⟩, hr⟩
    exact ⟨x, a, y, b, z, c, k, r, hx, ha, hy, hb, hz, hc, hk, hr, rfl⟩
  · rintro ⟨x, a, y, b, z, c, k, r, hx, ha, hy, hb, hz, hc, hk, hr, rfl⟩
    exact ⟨r, ⟨_, ⟨x, a, y, b, z, c, hx, ha, hy, hb, hz, hc, rfl⟩, k, hk, rfl⟩, hr⟩

theorem matchAtmDeltaNeutral_iff (s : Str) : matchAtmDeltaNeutral s = true ↔ AtmSpelling deltaNeutralWords s := by
  unfold matchAtmDeltaNeutral AtmSpelling
  rw [List.any_eq_true]
  simp only [mem_seq, mem_atm, deltaWord_iff, mem_sep, mem_lit, atEnd_iff]
  constructor
  · rintro ⟨r, ⟨t, ⟨x, a, y, b, z, c, hx, ha, hy, hb, hz, hc, rfl⟩, u, ⟨w, hw, rfl⟩, v, ⟨e, he, rfl⟩, rfl⟩, hr⟩
    refine ⟨x, a, y, b, z, c, w ++ (e ++ "neutral".toList), r, hx, ha, hy, hb, hz, hc, ?_, hr, by simp⟩
    rcases hw with rfl | rfl <;> rcases he with rfl | rfl | rfl <;> decide
  · rintro ⟨x, a, y, b, z, c, k, r, hx, ha, hy, hb, hz, hc, hk, hr, rfl⟩
    have : ∃ w e, DeltaWord w ∧ Separator e ∧ k = w ++ (e ++ "neutral".toList) := by
      unfold deltaNeutralWords at hk
      simp only [List.mem_cons, List.not_mem_nil, or_false] at hk
      rcases hk with rfl | rfl | rfl | rfl | rfl | rfl
      · exact ⟨_, _, .inl rfl, .inl rfl, rfl⟩
      · exact ⟨_, _, .inl rfl, .inr (.inl rfl), rfl⟩
      · exact ⟨_, _, .inl rfl, .inr (.inr rfl), rfl⟩
      · exact ⟨_, _, .inr rfl, .inl rfl, rfl⟩
      · exact ⟨_, _, .inr rfl, .inr (.inl rfl), rfl⟩
      · exact ⟨_, _, .inr rfl, .inr (.inr rfl), rfl⟩
    obtain ⟨w, e, hw, he, rfl⟩ := this
    refine ⟨r, ⟨_, ⟨x, a, y, b, z, c, hx, ha, hy, hb, hz, hc, rfl⟩, e ++ ("neutral".toList ++ r), ⟨w, hw, ?_⟩, _, ⟨e, he, rfl⟩, rfl⟩, hr⟩
    rw [List.append_assoc, List.append_assoc]

end Frm
