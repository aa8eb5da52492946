import Verif.Spec.Enums
import Verif.Proofs.Text
import Verif.Proofs.Tenor

/-! # Lemmas about reading enumerations -/

namespace Frm
open Spec

theorem isSpace_iff (c : Char) : isSpace c = true ↔ White c := by
  unfold isSpace White
  have h : (c == ' ') = true ↔ c.toNat = 32 := by
    rw [beq_iff_eq]
    exact ⟨fun h => by rw [h]; rfl, fun h => char_ext (by rw [h]; rfl)⟩
  simp only [Bool.or_eq_true, h, Bool.and_eq_true, decide_eq_true_eq, List.mem_cons, List.not_mem_nil, or_false]
  omega

theorem isSpace_false_iff (c : Char) : isSpace c = false ↔ ¬ White c := by
  rw [← isSpace_iff]; simp

theorem white_toLower (c : Char) : White c.toLower ↔ White c := by
  have := toNat_toLower c
  unfold White
  simp only [List.mem_cons, List.not_mem_nil, or_false]
  by_cases h : 65 ≤ c.toNat ∧ c.toNat ≤ 90
  · rw [if_pos h] at this; omega
  · rw [if_neg h] at this; rw [this]

theorem dropWhile_white {pre rest : Str} (h : ∀ c ∈ pre, White c) (hr : ∀ c, rest.head? = some c → ¬ White c) :
    (pre ++ rest).dropWhile isSpace = rest := by
  induction pre with
  | nil =>
    cases rest with
    | nil => rfl
    | cons c rest =>
      have := (isSpace_false_iff c).mpr (hr c rfl)
      simp [List.dropWhile, this]
  | cons a pre ih =>
    have := (isSpace_iff a).mpr (h a (by simp))
    rw [List.cons_append, List.dropWhile_cons, if_pos this]
    exact ih (fun c hc => h c (by simp [hc]))

theorem dropWhile_split (s : Str) :
    ∃ pre, s = pre ++ s.dropWhile isSpace ∧ (∀ c ∈ pre, White c) ∧
      (∀ c, (s.dropWhile isSpace).head? = some c → ¬ White c) := by
  induction s with
  | nil => exact ⟨[], rfl, by simp, by simp⟩
  | cons a s ih =>
    rw [List.dropWhile_cons]
    by_cases h : isSpace a = true
    · rw [if_pos h]
      obtain ⟨pre, h1, h2, h3⟩ := ih
      refine ⟨a :: pre, by rw [List.cons_append, ← h1], ?_, h3⟩
      intro c hc
      rcases List.mem_cons.mp hc with rfl | hc
      · exact (isSpace_iff _).mp h
      · exact h2 c hc
    · rw [if_neg h]
      refine ⟨[], rfl, by simp, ?_⟩
      intro c hc
      simp only [List.head?_cons, Option.some.injEq] at hc
      subst hc
      exact (isSpace_false_iff _).mp (by simpa using h)

theorem trimmed_iff (s core : Str) : Trimmed s core ↔ core = strip s := by
  constructor
  · rintro ⟨pre, post, rfl, h1, h2, h3, h4⟩
    unfold strip
    cases core with
    | nil =>
      have : (pre ++ [] ++ post).dropWhile isSpace = [] := by
        have := dropWhile_white (pre := pre ++ [] ++ post) (rest := [])
          (by intro c hc; simp only [List.append_nil, List.mem_append] at hc; rcases hc with h | h; exacts [h1 c h, h2 c h])
          (by simp)
        rwa [List.append_nil] at this
      rw [this]; rfl
    | cons a core =>
      rw [List.append_assoc, dropWhile_white h1 (by simpa using h3 a rfl), List.reverse_append,
        dropWhile_white (by simpa using h2), List.reverse_reverse]
      intro c hc
      rw [List.head?_reverse] at hc
      exact h4 c hc
  · rintro rfl
    obtain ⟨pre, h1, h2, h3⟩ := dropWhile_split s
    obtain ⟨post, g1, g2, g3⟩ := dropWhile_split (s.dropWhile isSpace).reverse
    have e : s.dropWhile isSpace = strip s ++ post.reverse := by
      have := congrArg List.reverse g1
      rw [List.reverse_reverse, List.reverse_append] at this
      exact this
    refine ⟨pre, post.reverse, ?_, h2, by simpa using g2, ?_, ?_⟩
    · rw [List.append_assoc, ← e]; exact h1
    · intro c hc
      refine h3 c ?_
      rw [e, List.head?_append, hc]; rfl
    · intro c hc
      refine g3 c ?_
      rw [← List.getLast?_reverse]; exact hc

theorem strip_lower (s : Str) : strip (lower s) = lower (strip s) := by
  symm
  rw [← trimmed_iff]
  obtain ⟨pre, post, h, h1, h2, h3, h4⟩ := (trimmed_iff s _).mpr rfl
  have low : ∀ l : Str, (∀ c ∈ l, White c) → ∀ c ∈ lower l, White c := by
    intro l hl c hc
    obtain ⟨a, ha, rfl⟩ := List.mem_map.mp hc
    exact (white_toLower a).mpr (hl a ha)
  refine ⟨lower pre, lower post, ?_, low _ h1, low _ h2, ?_, ?_⟩
  · conv => lhs; rw [h]
    simp [lower_append]
  · intro c hc
    unfold lower at hc
    rw [List.head?_map, Option.map_eq_some_iff] at hc
    obtain ⟨a, ha, rfl⟩ := hc
    rw [white_toLower]; exact h3 a ha
  · intro c hc
    unfold lower at hc
    rw [List.getLast?_map, Option.map_eq_some_iff] at hc
    obtain ⟨a, ha, rfl⟩ := hc
    rw [white_toLower]; exact h4 a ha

/-- The cleaned string. -/
def canon (s : Str) : Str := (strip (lower s)).map (fun c => if c = ' ' then '_' else c)

theorem toLower_eq_blank (c : Char) : c.toLower = ' ' ↔ c = ' ' := by
  constructor
  · intro h
    have h1 := toNat_toLower c
    have h2 : c.toLower.toNat = 32 := by rw [h]; rfl
    split at h1
    · omega
    · exact char_ext (by rw [← h1, h2]; rfl)
  · rintro rfl; decide

theorem canonical_iff (s w : Str) : Canonical s w ↔ w = canon s := by
  unfold Canonical canon
  rw [strip_lower]
  have : (lower (strip s)).map (fun c => if c = ' ' then '_' else c) =
      (strip s).map (fun c => if c = ' ' then '_' else c.toLower) := by
    unfold lower
    rw [List.map_map]
    apply List.map_congr_left
    intro c _
    simp only [Function.comp, toLower_eq_blank]
  rw [this]
  constructor
  · rintro ⟨core, h, rfl⟩; rw [(trimmed_iff _ _).mp h]
  · rintro rfl; exact ⟨_, (trimmed_iff _ _).mpr rfl, rfl⟩

theorem canon_lower (s : Str) : ∀ c ∈ canon s, c.toLower = c := by
  intro c hc
  rw [canon, strip_lower] at hc
  obtain ⟨a, ha, rfl⟩ := List.mem_map.mp hc
  obtain ⟨b, _, rfl⟩ := List.mem_map.mp ha
  split
  · decide
  · exact toLower_toLower b

theorem pyIsDigit_iff (s : Str) : pyIsDigit s = true ↔ Digits s := by
  unfold pyIsDigit Digits
  rw [Bool.and_eq_true, all_isDigit_iff]
  cases s <;> simp

theorem digits_numeral {s : Str} (h : Digits s) :
    s.foldl (fun a c => 10 * a + (digitVal c : Int)) 0 = numeral s := by
  rw [foldl_numeral s ((all_isDigit_iff s).mpr h.2)]; omega

/-! ## Replacement -/

theorem replaceGo_skip (old new : Str) (a s : Str) : replaceGo old new a.length (a ++ s) = replaceGo old new 0 s := by
  induction a with
  | nil => rfl
  | cons c a ih => simpa [replaceGo] using ih

theorem replaceAll_cut {old : Str} (ho : old ≠ []) (new s : Str) :
    replaceAll old new (old ++ s) = new ++ replaceAll old new s := by
  unfold replaceAll
  cases old with
  | nil => exact absurd rfl ho
  | cons o old =>
    rw [List.cons_append, replaceGo, if_pos (by
      rw [List.isPrefixOf_iff_prefix]; exact ⟨s, rfl⟩)]
    rw [List.length_cons, Nat.add_sub_cancel, replaceGo_skip]

theorem replaceAll_keep {old : Str} (new : Str) {c : Char} {s : Str} (h : ¬ old <+: c :: s) :
    replaceAll old new (c :: s) = c :: replaceAll old new s := by
  unfold replaceAll
  rw [replaceGo, if_neg (by rw [List.isPrefixOf_iff_prefix]; exact h)]

theorem replaced_iff {old : Str} (ho : old ≠ []) (new s t : Str) :
    Replaced old new s t ↔ t = replaceAll old new s := by
  constructor
  · intro h
    induction h with
    | nil => rfl
    | cut s t _ ih => rw [replaceAll_cut ho, ih]
    | keep c s t hc _ ih => rw [replaceAll_keep _ hc, ih]
  · rintro rfl
    generalize hn : s.length = n
    induction n using Nat.strongRecOn generalizing s with
    | _ n ih =>
      cases s with
      | nil => exact .nil
      | cons c s =>
        by_cases hp : old <+: c :: s
        · obtain ⟨r, hr⟩ := hp
          rw [← hr, replaceAll_cut ho]
          refine .cut _ _ (ih r.length ?_ r rfl)
          have := congrArg List.length hr
          rw [List.length_append] at this
          have : 0 < old.length := List.length_pos_iff.mpr ho
          omega
        · rw [replaceAll_keep _ hp]
          exact .keep _ _ _ hp (ih s.length (by rw [← hn]; simp) s rfl)

theorem replaceAll_single (a : Char) (s : Str) : replaceAll [a] [] s = s.filter (fun c => c ≠ a) := by
  induction s with
  | nil => rfl
  | cons c s ih =>
    by_cases h : c = a
    · subst h
      have := replaceAll_cut (old := [c]) (by simp) [] s
      simp only [List.singleton_append, List.nil_append] at this
      rw [this, ih]; simp
    · rw [replaceAll_keep _ (by rintro ⟨t, ht⟩; simp at ht; exact h ht.1.symm), ih]
      simp [h]

theorem mem_replaced {old new s t : Str} (h : Replaced old new s t) : ∀ c ∈ t, c ∈ s ∨ c ∈ new := by
  induction h with
  | nil => simp
  | cut s t _ ih =>
    intro c hc
    rcases List.mem_append.mp hc with hc | hc
    · exact Or.inr hc
    · rcases ih c hc with h | h
      · exact Or.inl (by simp [h])
      · exact Or.inr h
  | keep a s t _ _ ih =>
    intro c hc
    rcases List.mem_cons.mp hc with rfl | hc
    · exact Or.inl (by simp)
    · rcases ih c hc with h | h
      · exact Or.inl (by simp [h])
      · exact Or.inr h

/-! ## The two ways of looking a value up -/

theorem clean_str_nondigit {f : Str → Str} {s w : Str} (hw : ¬ Digits w) :
    cleanEnumValue f (.str s) = some (.str w) ↔ f (canon s) = w := by
  simp only [cleanEnumValue, Option.some.injEq]
  change (if pyIsDigit (f (canon s)) then _ else _) = _ ↔ _
  by_cases h : pyIsDigit (f (canon s)) = true
  · rw [if_pos h]
    constructor
    · intro h'; cases h'
    · rintro rfl; exact absurd ((pyIsDigit_iff _).mp h) hw
  · rw [if_neg h]
    exact ⟨fun h' => by injection h', fun h' => congrArg EnumVal.str h'⟩

theorem find_val {α : Type} {members : List (α × EnumVal)} {val : α → EnumVal}
    (hm : ∀ m, (m, val m) ∈ members) (hv : ∀ p ∈ members, p.2 = val p.1) (hinj : ∀ a b, val a = val b → a = b)
    (v : EnumVal) :
    (∀ m, members.find? (fun p => p.2 == v) = some (m, val m) ↔ val m = v) ∧
    ((∀ m, val m ≠ v) ↔ members.find? (fun p => p.2 == v) = none) := by
  constructor
  · intro m
    constructor
    · intro h
      have := List.find?_some h
      simpa using this
    · rintro rfl
      cases hf : members.find? (fun p => p.2 == val m) with
      | none =>
        rw [List.find?_eq_none] at hf
        exact absurd (by simp) (hf _ (hm m))
      | some p =>
        have h1 := List.find?_some hf
        have h2 := hv p (List.mem_of_find?_eq_some hf)
        rw [beq_iff_eq, h2] at h1
        have := hinj _ _ h1
        rw [← this, ← h2]
  · rw [List.find?_eq_none]
    constructor
    · intro h p hp hpv
      rw [beq_iff_eq, hv p hp] at hpv
      exact h _ hpv
    · intro h m hmv
      exact h _ (hm m) (by simp [hmv])

/-- Everything about `get_enum_member` on a string, in terms of the members' values. -/
theorem getEnumMember_str {α : Type} {E : EnumClass α} {val : α → EnumVal} {f : Str → Str}
    (hm : ∀ m, (m, val m) ∈ E.members) (hv : ∀ p ∈ E.members, p.2 = val p.1)
    (hinj : ∀ a b, val a = val b → a = b) (s : Str) :
    (∀ m, getEnumMember E f (.str s) = .ok m ↔ cleanEnumValue f (.str s) = some (val m)) ∧
    ((∀ m, cleanEnumValue f (.str s) ≠ some (val m)) → getEnumMember E f (.str s) = .error .value) ∧
    (isValidEnumValue E f (.str s) = true ↔ ∃ m, cleanEnumValue f (.str s) = some (val m)) := by
  obtain ⟨v, hc⟩ : ∃ v, cleanEnumValue f (.str s) = some v := ⟨_, rfl⟩
  obtain ⟨h1, h2⟩ := find_val hm hv hinj v
  simp only [hc, Option.some.injEq]
  unfold getEnumMember isValidEnumValue EnumClass.hasValue
  simp only [hc]
  refine ⟨?_, ?_, ?_⟩
  · intro m
    constructor
    · intro h
      cases hf : E.members.find? (fun p => p.2 == v) with
      | none => simp [hf] at h
      | some p =>
        simp only [hf, Except.ok.injEq] at h
        subst h
        have := hv p (List.mem_of_find?_eq_some hf)
        have h3 := List.find?_some hf
        rw [beq_iff_eq] at h3
        rw [← h3]; exact this
    · rintro rfl
      rw [(h1 m).mpr rfl]
  · intro h
    rw [(h2.mp (fun m hh => h m (congrArg some hh.symm)))]
  · rw [List.any_eq_true]
    constructor
    · rintro ⟨p, hp, hpv⟩
      rw [beq_iff_eq] at hpv
      exact ⟨p.1, by rw [← hpv]; exact hv p hp⟩
    · rintro ⟨m, rfl⟩
      exact ⟨_, hm m, by simp⟩

theorem readsNames_helper {α : Type} {E : EnumClass α} (name : α → String)
    (hm : ∀ m, (m, EnumVal.str (name m).toList) ∈ E.members)
    (hv : ∀ p ∈ E.members, p.2 = EnumVal.str (name p.1).toList)
    (hinj : ∀ a b, name a = name b → a = b) (hd : ∀ m, ¬ Digits (name m).toList) :
    ReadsNames (getEnumMember E id) (isValidEnumValue E id) name := by
  intro s
  have hinj' : ∀ a b, EnumVal.str (name a).toList = EnumVal.str (name b).toList → a = b := by
    intro a b h
    injection h with h
    exact hinj a b (String.toList_inj.mp h)
  obtain ⟨h1, h2, h3⟩ := getEnumMember_str (f := id) hm hv hinj' s
  have key : ∀ m, cleanEnumValue id (.str s) = some (EnumVal.str (name m).toList) ↔ Canonical s (name m).toList := by
    intro m
    rw [clean_str_nondigit (hd m), canonical_iff]
    exact eq_comm
  simp only [key] at h1 h3
  refine ⟨h1, ?_, h3⟩
  intro h
  exact h2 (fun m hh => h m ((key m).mp hh))

theorem inline_eq_helper {α : Type} {E : EnumClass α}
    (hs : ∀ p ∈ E.members, ∃ w, p.2 = EnumVal.str w ∧ '/' ∉ w) (x : EnumInput) :
    fromValueInline E .ok x = getEnumMember E id x := by
  unfold fromValueInline getEnumMember
  simp only [bind, Except.bind]
  cases cleanEnumValue id x with
  | none => rfl
  | some v =>
    have : E.members.find? (fun p => slashMatch p.2 v) = E.members.find? (fun p => p.2 == v) := by
      have hall : ∀ p ∈ E.members, slashMatch p.2 v = (p.2 == v) := by
        intro p hp
        obtain ⟨w, hw, hn⟩ := hs p hp
        rw [hw, slashMatch]
        have : replaceAll "/".toList [] w = w := by
          change replaceAll ['/'] [] w = w
          rw [replaceAll_single, List.filter_eq_self]
          intro a ha
          simp only [ne_eq, decide_eq_true_eq]
          rintro rfl; exact hn ha
        rw [this, Bool.or_self]
      revert hall
      generalize E.members = l
      intro hall
      induction l with
      | nil => rfl
      | cons p l ih =>
        rw [List.find?_cons, List.find?_cons, hall p (by simp), ih (fun q hq => hall q (by simp [hq]))]
    simp only [this]

end Frm
