import Verif.Props.C85

/-!
# C85, continued: the numbers in the headings

Which texts are numbers, and which numbers they are; what becomes of a heading with such a number in front of its unit.
-/

namespace Frm.Spec
open Frm

set_option autoImplicit false

/-- A sign or nothing, and what it multiplies by. -/
def SignText (sgn : Str) (m : Int) : Prop := (sgn = [] ∧ m = 1) ∨ (sgn = ['+'] ∧ m = 1) ∨ (sgn = ['-'] ∧ m = -1)

/-- Decimal digits, perhaps none. -/
def DigitText (ds : Str) : Prop := ∀ c ∈ ds, c.isDigit = true

/-- The text of an exponent, or nothing. -/
def ExponentText (t : Str) (e : Int) : Prop :=
  (t = [] ∧ e = 0) ∨ ∃ c sgn m ds, t = c :: (sgn ++ ds) ∧ (c = 'e' ∨ c = 'E') ∧ SignText sgn m ∧ ds ≠ [] ∧ DigitText ds ∧ e = m * (numeralOf ds : Int)

/-- `t` is a number in decimal or scientific notation: sign, digits, perhaps a point and more digits, perhaps an exponent; at least one digit before the exponent. -/
def NumberText (t : Str) (x : ℚ) : Prop :=
  ∃ sgn m whole point frac ex e, t = sgn ++ whole ++ point ++ frac ++ ex ∧ SignText sgn m ∧ DigitText whole ∧ DigitText frac ∧
    ((point = [] ∧ frac = []) ∨ point = ['.']) ∧ whole ++ frac ≠ [] ∧ ExponentText ex e ∧
    x = m * (numeralOf (whole ++ frac) : ℚ) / 10 ^ frac.length * (10 : ℚ) ^ e

/-- Every underscore stands between two digits. -/
def UnderscoresBetweenDigits (t : Str) : Prop :=
  ∀ pre post, t = pre ++ '_' :: post → (∃ pre' d, pre = pre' ++ [d] ∧ d.isDigit = true) ∧ (∃ d post', post = d :: post' ∧ d.isDigit = true)

/-- What Python reads as the number `x`: a number, perhaps with underscores between digits, perhaps with white space around it. -/
def ReadsAs (s : Str) (x : ℚ) : Prop :=
  ∃ l t r, s = l ++ t ++ r ∧ (∀ c ∈ l, isSpace c = true) ∧ (∀ c ∈ r, isSpace c = true) ∧ UnderscoresBetweenDigits t ∧ NumberText (t.filter (· != '_')) x

end Frm.Spec

namespace Frm.Props
open Frm Frm.Spec

set_option autoImplicit false

private theorem numeral_eq {ds : Str} : numeralOf ds = digitsVal ds := by
  unfold numeralOf digitsVal
  induction ds using List.reverseRecOn with
  | nil => rfl
  | append_singleton l c ih =>
    rw [List.reverse_append, List.reverse_singleton, List.singleton_append, List.map_cons, Nat.ofDigits_cons, ih, List.foldl_append]
    simp only [List.foldl_cons, List.foldl_nil]
    rw [Nat.add_comm]
    rfl

private theorem mem_takeWhile {p : Char → Bool} {s : Str} {c : Char} (h : c ∈ s.takeWhile p) : p c = true := by
  induction s with
  | nil => cases h
  | cons a s ih =>
    rw [List.takeWhile_cons] at h
    split_ifs at h with ha
    · rcases List.mem_cons.1 h with rfl | h
      · exact ha
      · exact ih h
    · cases h

private theorem takeWhile_all {p : Char → Bool} {a b : Str} (ha : ∀ c ∈ a, p c = true) (hb : ∀ c b', b = c :: b' → p c = false) :
    (a ++ b).takeWhile p = a ∧ (a ++ b).dropWhile p = b := by
  induction a with
  | nil =>
    cases b with
    | nil => exact ⟨rfl, rfl⟩
    | cons c b => simp [hb c b rfl]
  | cons x a ih =>
    have hx := ha x List.mem_cons_self
    have := ih (fun c hc => ha c (List.mem_cons_of_mem _ hc))
    simp [hx, this.1, this.2]

private theorem strip_parts (s : Str) : ∃ l r, s = l ++ strip s ++ r ∧ (∀ c ∈ l, isSpace c = true) ∧ (∀ c ∈ r, isSpace c = true) := by
  refine ⟨s.takeWhile isSpace, ((s.dropWhile isSpace).reverse.takeWhile isSpace).reverse, ?_, ?_, ?_⟩
  · unfold strip
    have h : (((s.dropWhile isSpace).reverse.dropWhile isSpace).reverse ++ ((s.dropWhile isSpace).reverse.takeWhile isSpace).reverse) = s.dropWhile isSpace := by
      rw [← List.reverse_append, List.takeWhile_append_dropWhile, List.reverse_reverse]
    rw [List.append_assoc, h, List.takeWhile_append_dropWhile]
  · exact fun c hc => mem_takeWhile hc
  · exact fun c hc => mem_takeWhile (List.mem_reverse.1 hc)

private theorem strip_around {l t r : Str} (hl : ∀ c ∈ l, isSpace c = true) (hr : ∀ c ∈ r, isSpace c = true) (ht : ∀ c ∈ t, isSpace c = false)
    (hne : t ≠ []) : strip (l ++ t ++ r) = t := by
  unfold strip
  obtain ⟨a, t', rfl⟩ := List.exists_cons_of_ne_nil hne
  have h1 : (l ++ ((a :: t') ++ r)).dropWhile isSpace = (a :: t') ++ r := by
    refine (takeWhile_all hl ?_).2
    intro c b' h
    rw [List.cons_append, List.cons.injEq] at h
    rw [← h.1]
    exact ht a List.mem_cons_self
  rw [List.append_assoc, h1, List.reverse_append]
  have h2 : (r.reverse ++ (a :: t').reverse).dropWhile isSpace = (a :: t').reverse := by
    refine (takeWhile_all (fun c hc => hr c (List.mem_reverse.1 hc)) ?_).2
    intro c b' h
    refine ht c (List.mem_reverse.1 (h ▸ List.mem_cons_self))
  rw [h2, List.reverse_reverse]

/-- The check on underscores, with the character in front. -/
private theorem underscoresOk_iff (s : Str) : ∀ p : Char, underscoresOk p s = true ↔
    (p = '_' → ∃ d s', s = d :: s' ∧ d.isDigit = true) ∧
    ∀ pre post, s = pre ++ '_' :: post → (((pre = [] ∧ p.isDigit = true) ∨ ∃ pre' d, pre = pre' ++ [d] ∧ d.isDigit = true) ∧ (∃ d post', post = d :: post' ∧ d.isDigit = true)) := by
  induction s with
  | nil =>
    intro p
    unfold underscoresOk
    simp
  | cons c s ih =>
    intro p
    unfold underscoresOk
    rw [Bool.and_eq_true, ih c]
    have hdu : ('_' : Char).isDigit = false := by decide
    constructor
    · rintro ⟨h1, h2, h3⟩
      refine ⟨?_, ?_⟩
      · intro hp
        refine ⟨c, s, rfl, ?_⟩
        by_cases hc : c = '_'
        · rw [hc, hp] at h1; simp [hdu] at h1
        · simpa [hc, hp] using h1
      · intro pre post he
        cases pre with
        | nil =>
          rw [List.nil_append, List.cons.injEq] at he
          refine ⟨.inl ⟨rfl, ?_⟩, ?_⟩
          · simpa [he.1] using h1
          · rw [← he.2]; exact h2 he.1
        | cons q pre =>
          rw [List.cons_append, List.cons.injEq] at he
          obtain ⟨h4, h5⟩ := h3 pre post he.2
          refine ⟨.inr ?_, h5⟩
          rcases h4 with ⟨rfl, h4⟩ | ⟨pre', d, rfl, h4⟩
          · exact ⟨[], q, rfl, he.1 ▸ h4⟩
          · exact ⟨q :: pre', d, rfl, h4⟩
    · rintro ⟨h1, h2⟩
      refine ⟨?_, ?_, ?_⟩
      · by_cases hc : c = '_'
        · obtain ⟨h3, -⟩ := h2 [] s (by rw [hc]; rfl)
          rcases h3 with ⟨-, h3⟩ | ⟨pre', d, h3, -⟩
          · simpa [hc] using h3
          · simp at h3
        · by_cases hp : p = '_'
          · obtain ⟨d, s', h3, h4⟩ := h1 hp
            rw [List.cons.injEq] at h3
            have hc' := h3.1 ▸ hc
            simpa [hc', hp, h3.1] using h4
          · simp [hc, hp]
      · intro hc
        exact (h2 [] s (by rw [hc]; rfl)).2
      · intro pre post he
        obtain ⟨h3, h4⟩ := h2 (c :: pre) post (by rw [he]; rfl)
        refine ⟨?_, h4⟩
        rcases h3 with ⟨h3, -⟩ | ⟨pre', d, h3, h5⟩
        · cases h3
        · cases pre' with
          | nil =>
            rw [List.nil_append, List.cons.injEq] at h3
            exact .inl ⟨h3.2, h3.1 ▸ h5⟩
          | cons q pre' =>
            rw [List.cons_append, List.cons.injEq] at h3
            exact .inr ⟨pre', d, h3.2, h5⟩

private theorem underscoresOk_start {s : Str} : underscoresOk ' ' s = true ↔ UnderscoresBetweenDigits s := by
  rw [underscoresOk_iff]
  have hd : (' ' : Char).isDigit = false := by decide
  constructor
  · rintro ⟨-, h⟩ pre post he
    obtain ⟨h1, h2⟩ := h pre post he
    rcases h1 with ⟨-, h1⟩ | h1
    · rw [hd] at h1; cases h1
    · exact ⟨h1, h2⟩
  · exact fun h => ⟨fun h' => absurd h' (by decide), fun pre post he => ⟨.inr (h pre post he).1, (h pre post he).2⟩⟩

private theorem splitSign_iff {t u : Str} {m : Int} (hu : ∀ c u', u = c :: u' → c ≠ '+' ∧ c ≠ '-') :
    (∃ sgn, SignText sgn m ∧ t = sgn ++ u) → splitSign t = (m, u) := by
  rintro ⟨sgn, h, rfl⟩
  rcases h with ⟨rfl, rfl⟩ | ⟨rfl, rfl⟩ | ⟨rfl, rfl⟩
  · rw [List.nil_append]
    cases u with
    | nil => rfl
    | cons c u =>
      obtain ⟨h1, h2⟩ := hu c u rfl
      unfold splitSign
      split
      · rename_i h; exact absurd (List.cons.inj h).1 h1
      · rename_i h; exact absurd (List.cons.inj h).1 h2
      · rfl
  · rfl
  · rfl

private theorem splitSign_spec (t : Str) : ∃ sgn, SignText sgn (splitSign t).1 ∧ t = sgn ++ (splitSign t).2 := by
  unfold splitSign
  split
  · exact ⟨['+'], .inr (.inl ⟨rfl, rfl⟩), rfl⟩
  · exact ⟨['-'], .inr (.inr ⟨rfl, rfl⟩), rfl⟩
  · exact ⟨[], .inl ⟨rfl, rfl⟩, rfl⟩

private theorem digit_not_sign {c : Char} (h : c.isDigit = true) : c ≠ '+' ∧ c ≠ '-' :=
  ⟨irDigit_ne h (by decide), irDigit_ne h (by decide)⟩

private theorem parseExponent_iff {t : Str} {e : Int} : parseExponent t = some e ↔ ExponentText t e := by
  unfold ExponentText
  cases t with
  | nil =>
    unfold parseExponent
    simp [eq_comm]
  | cons c s =>
    unfold parseExponent
    simp only [reduceCtorEq, false_and, false_or]
    by_cases hc : c = 'e' ∨ c = 'E'
    · rw [if_pos hc]
      constructor
      · intro h
        split_ifs at h with h1
        obtain ⟨sgn, h2, h3⟩ := splitSign_spec s
        refine ⟨c, sgn, (splitSign s).1, (splitSign s).2, by rw [← h3], hc, h2, h1.1, ?_, ?_⟩
        · intro d hd
          exact List.all_eq_true.1 h1.2 d hd
        · rw [numeral_eq]
          exact (Option.some.inj h).symm
      · rintro ⟨c', sgn, m, ds, h1, -, h3, h4, h5, h6⟩
        have hs : splitSign s = (m, ds) := by
          refine splitSign_iff ?_ ⟨sgn, h3, (List.cons.inj h1).2⟩
          rintro d u' rfl
          exact digit_not_sign (h5 d List.mem_cons_self)
        rw [hs, if_pos ⟨h4, List.all_eq_true.2 h5⟩, h6, numeral_eq]
    · rw [if_neg hc]
      refine ⟨fun h => (by cases h), ?_⟩
      rintro ⟨c', sgn, m, ds, h1, h2, -⟩
      rw [← (List.cons.inj h1).1] at h2
      exact absurd h2 hc

/-- What is in front of an exponent is not a digit and not a point. -/
private theorem exponent_head {t : Str} {e : Int} (h : ExponentText t e) : ∀ c t', t = c :: t' → c.isDigit = false ∧ c ≠ '.' ∧ c ≠ '+' ∧ c ≠ '-' := by
  rintro c t' rfl
  rcases h with ⟨h, -⟩ | ⟨c', sgn, m, ds, h1, h2, -⟩
  · cases h
  · rw [(List.cons.inj h1).1]
    rcases h2 with rfl | rfl <;> decide

/-- The reader without white space and underscores. -/
private def readPlain (t : Str) : Option ℚ :=
  let p := splitSign t
  let whole := p.2.takeWhile Char.isDigit
  let f := splitFraction (p.2.dropWhile Char.isDigit)
  if whole ++ f.1 = [] then none
  else (parseExponent f.2).map (fun e : Int => p.1 * digitsVal (whole ++ f.1) * (10 : ℚ) ^ (e - (f.1.length : Int)))

private theorem scale_eq (a : ℚ) (e : Int) (n : ℕ) : a * (10 : ℚ) ^ (e - (n : Int)) = a / 10 ^ n * (10 : ℚ) ^ e := by
  rw [zpow_sub₀ (by norm_num), zpow_natCast]
  ring

private theorem readPlain_iff {t : Str} {x : ℚ} : readPlain t = some x ↔ NumberText t x := by
  constructor
  · intro h
    unfold readPlain at h
    simp only at h
    split_ifs at h with h1
    rw [Option.map_eq_some_iff] at h
    obtain ⟨e, h2, h3⟩ := h
    obtain ⟨sgn, h4, h5⟩ := splitSign_spec t
    set u := (splitSign t).2 with hu
    have hw : u = u.takeWhile Char.isDigit ++ u.dropWhile Char.isDigit := (List.takeWhile_append_dropWhile).symm
    rw [parseExponent_iff] at h2
    have hcase : ∃ point, u.dropWhile Char.isDigit = point ++ (splitFraction (u.dropWhile Char.isDigit)).1 ++ (splitFraction (u.dropWhile Char.isDigit)).2 ∧
        ((point = [] ∧ (splitFraction (u.dropWhile Char.isDigit)).1 = []) ∨ point = ['.']) ∧ DigitText (splitFraction (u.dropWhile Char.isDigit)).1 := by
      unfold splitFraction
      split
      · rename_i s hs
        refine ⟨['.'], ?_, .inr rfl, fun c hc => mem_takeWhile hc⟩
        simp only [List.append_assoc, List.takeWhile_append_dropWhile]
        exact hs
      · exact ⟨[], rfl, .inl ⟨rfl, rfl⟩, fun c hc => (by cases hc)⟩
    obtain ⟨point, h6, h7, h8⟩ := hcase
    refine ⟨sgn, (splitSign t).1, u.takeWhile Char.isDigit, point, (splitFraction (u.dropWhile Char.isDigit)).1, (splitFraction (u.dropWhile Char.isDigit)).2, e, ?_, h4,
      fun c hc => mem_takeWhile hc, h8, h7, h1, h2, ?_⟩
    · rw [h5]
      conv_lhs => rw [hw, h6]
      simp only [List.append_assoc]
    · rw [← h3, scale_eq, numeral_eq]
  · rintro ⟨sgn, m, whole, point, frac, ex, e, rfl, h1, h2, h3, h4, h5, h6, h7⟩
    have hx := exponent_head h6
    have hne : ∀ c u', whole ++ (point ++ (frac ++ ex)) = c :: u' → c ≠ '+' ∧ c ≠ '-' := by
      intro c u' he
      cases whole with
      | cons w whole =>
        rw [List.cons_append, List.cons.injEq] at he
        exact he.1 ▸ digit_not_sign (h2 w List.mem_cons_self)
      | nil =>
        rcases h4 with ⟨rfl, rfl⟩ | rfl
        · exact absurd rfl h5
        · rw [List.nil_append, List.cons_append, List.cons.injEq] at he
          rw [← he.1]
          decide
    have hs : splitSign (sgn ++ whole ++ point ++ frac ++ ex) = (m, whole ++ (point ++ (frac ++ ex))) :=
      splitSign_iff hne ⟨sgn, h1, by simp only [List.append_assoc]⟩
    have hrest : ∀ c b', point ++ (frac ++ ex) = c :: b' → c.isDigit = false := by
      intro c b' he
      rcases h4 with ⟨rfl, rfl⟩ | rfl
      · exact (hx c b' he).1
      · rw [List.cons_append, List.cons.injEq] at he
        rw [← he.1]; decide
    obtain ⟨e1, e2⟩ := takeWhile_all h2 hrest
    have hf : splitFraction (point ++ (frac ++ ex)) = (frac, ex) := by
      obtain ⟨e3, e4⟩ := takeWhile_all (b := ex) h3 (fun c b' he => (hx c b' he).1)
      rcases h4 with ⟨rfl, rfl⟩ | rfl
      · rw [List.nil_append, List.nil_append]
        unfold splitFraction
        split
        · exact absurd rfl (hx '.' _ rfl).2.1
        · rfl
      · show splitFraction ('.' :: (frac ++ ex)) = _
        show ((frac ++ ex).takeWhile Char.isDigit, (frac ++ ex).dropWhile Char.isDigit) = _
        rw [e3, e4]
    unfold readPlain
    simp only [hs, e1, e2, hf]
    rw [if_neg h5, parseExponent_iff.2 h6, Option.map_some, scale_eq, h7, numeral_eq]

private theorem number_no_space {t : Str} {x : ℚ} (h : NumberText t x) : t ≠ [] ∧ ∀ c ∈ t, isSpace c = false := by
  obtain ⟨sgn, m, whole, point, frac, ex, e, rfl, h1, h2, h3, h4, h5, h6, h7⟩ := h
  have hsg : ∀ sgn m, SignText sgn m → ∀ c ∈ sgn, isSpace c = false := by
    rintro sgn m (⟨rfl, -⟩ | ⟨rfl, -⟩ | ⟨rfl, -⟩) <;> decide
  have hdg : ∀ ds, DigitText ds → ∀ c ∈ ds, isSpace c = false := fun ds h c hc => digit_not_space (h c hc)
  refine ⟨?_, ?_⟩
  · intro h
    simp only [List.append_eq_nil_iff] at h
    exact h5 (by rw [h.1.1.1.2, h.1.2]; rfl)
  · intro c hc
    simp only [List.mem_append] at hc
    rcases hc with (((hc | hc) | hc) | hc) | hc
    · exact hsg _ _ h1 c hc
    · exact hdg _ h2 c hc
    · rcases h4 with ⟨rfl, -⟩ | rfl
      · cases hc
      · rw [List.mem_singleton] at hc; rw [hc]; decide
    · exact hdg _ h3 c hc
    · rcases h6 with ⟨rfl, -⟩ | ⟨c', sgn, m, ds, rfl, h8, h9, -, h10, -⟩
      · cases hc
      · rw [List.mem_cons, List.mem_append] at hc
        rcases hc with rfl | hc | hc
        · rcases h8 with rfl | rfl <;> decide
        · exact hsg _ _ h9 c hc
        · exact hdg _ h10 c hc

/-- **The numbers**: the texts read as a number are those in decimal or scientific notation, perhaps with underscores between digits and white space around; and the number read is the one they stand for. -/
theorem C85_numbers (s : Str) (x : ℚ) : parseFloat s = some x ↔ ReadsAs s x := by
  have hp : parseFloat s = if underscoresOk ' ' (strip s) then readPlain ((strip s).filter (· != '_')) else none := rfl
  rw [hp]
  constructor
  · intro h
    split_ifs at h with h1
    obtain ⟨l, r, h2, h3, h4⟩ := strip_parts s
    exact ⟨l, strip s, r, h2, h3, h4, underscoresOk_start.1 h1, readPlain_iff.1 h⟩
  · rintro ⟨l, t, r, rfl, h1, h2, h3, h4⟩
    obtain ⟨h5, h6⟩ := number_no_space h4
    have ht : ∀ c ∈ t, isSpace c = false := by
      intro c hc
      by_cases hu : c = '_'
      · rw [hu]; decide
      · exact h6 c (List.mem_filter.2 ⟨hc, by simpa using hu⟩)
    have hne : t ≠ [] := by
      rintro rfl
      exact h5 rfl
    rw [strip_around h1 h2 ht hne, if_pos (underscoresOk_start.2 h3)]
    exact readPlain_iff.2 h4

/-- The text before the unit: `bps`, `bp` and blanks removed. -/
private theorem search_bps {s : Str} : Pat.search bpsPattern (lower s) = true ↔ MentionsNumber "bp".toList s := by
  constructor
  · intro h
    by_contra hn
    rw [search_bps_iff] at h
    obtain ⟨pre, ds, sp, post, h1, hne, hds, hsp⟩ := h
    refine hn ⟨pre ++ ds.dropLast, ds.getLast hne, sp, post, ?_, hds _ (List.getLast_mem hne), hsp⟩
    show lower s = _
    rw [h1]
    conv_lhs => rw [← List.dropLast_append_getLast hne]
    simp only [List.append_assoc]
  · rintro ⟨pre, d, sp, post, h1, hd, hsp⟩
    rw [search_bps_iff]
    exact ⟨pre, [d], sp, post, h1, List.cons_ne_nil _ _, (by intro c hc; rw [List.mem_singleton] at hc; exact hc ▸ hd), hsp⟩

private theorem search_percent {s : Str} : Pat.search percentPattern (lower s) = true ↔ MentionsNumber "%".toList s := by
  constructor
  · intro h
    rw [search_percent_iff] at h
    obtain ⟨pre, ds, sp, post, h1, hne, hds, hsp⟩ := h
    refine ⟨pre ++ ds.dropLast, ds.getLast hne, sp, post, ?_, hds _ (List.getLast_mem hne), hsp⟩
    show lower s = _
    rw [h1]
    conv_lhs => rw [← List.dropLast_append_getLast hne]
    simp only [List.append_assoc]
  · rintro ⟨pre, d, sp, post, h1, hd, hsp⟩
    rw [search_percent_iff]
    exact ⟨pre, [d], sp, post, h1, List.cons_ne_nil _ _, (by intro c hc; rw [List.mem_singleton] at hc; exact hc ▸ hd), hsp⟩

private theorem round8_exact (x : ℚ) : |round8 id x - x| ≤ 1 / (2 * 10 ^ 8) := by
  unfold round8
  have h := roundHalfEven_err (x * 10 ^ 8)
  rw [id, show (roundHalfEven (x * 10 ^ 8) : ℚ) / 10 ^ 8 - x = ((roundHalfEven (x * 10 ^ 8) : ℚ) - x * 10 ^ 8) / 10 ^ 8 by field_simp, abs_div]
  rw [abs_of_pos (show (0 : ℚ) < 10 ^ 8 by norm_num), div_le_iff₀ (by norm_num)]
  calc _ ≤ (1 : ℚ) / 2 := h
    _ = _ := by norm_num

/-- **Every heading in basis points**: with the unit and blanks removed, what is left is a number - then the heading is tied to that number of basis points, to eight decimals - or the heading is refused. -/
theorem C85_any_bps (r : ℚ → Str) {s : Str} (hs : MentionsNumber "bp".toList s) :
    (∀ x, ReadsAs (removeStr [' '] (removeStr "bp".toList (removeStr "bps".toList s))) x →
      ∃ h v, quoteColumn id r s = .ok (some (h, v)) ∧ |v - x / 10000| ≤ 1 / (2 * 10 ^ 8)) ∧
    ((¬ ∃ x, ReadsAs (removeStr [' '] (removeStr "bp".toList (removeStr "bps".toList s))) x) → ∀ fl, quoteColumn fl r s = .error .value) := by
  refine ⟨fun x hx => ?_, fun hx fl => ?_⟩
  · rw [← C85_numbers] at hx
    unfold quoteColumn
    rw [if_pos (search_bps.2 hs), hx]
    exact ⟨_, _, rfl, round8_exact _⟩
  · unfold quoteColumn
    rw [if_pos (search_bps.2 hs)]
    cases hp : parseFloat (removeStr [' '] (removeStr "bp".toList (removeStr "bps".toList s))) with
    | none => rfl
    | some x => exact absurd ⟨x, (C85_numbers _ _).1 hp⟩ hx

/-- **Every heading in per cent** that does not mention basis points. -/
theorem C85_any_percent (r : ℚ → Str) {s : Str} (hb : ¬ MentionsNumber "bp".toList s) (hs : MentionsNumber "%".toList s) :
    (∀ x, ReadsAs (removeStr [' '] (removeStr "%".toList s)) x →
      ∃ h v, quoteColumn id r s = .ok (some (h, v)) ∧ |v - x / 100| ≤ 1 / (2 * 10 ^ 8)) ∧
    ((¬ ∃ x, ReadsAs (removeStr [' '] (removeStr "%".toList s)) x) → ∀ fl, quoteColumn fl r s = .error .value) := by
  have hb' : ¬ Pat.search bpsPattern (lower s) = true := fun h => hb (search_bps.1 h)
  refine ⟨fun x hx => ?_, fun hx fl => ?_⟩
  · rw [← C85_numbers] at hx
    unfold quoteColumn
    rw [if_neg hb', if_pos (search_percent.2 hs)]
    rw [show removeStr "%".toList s = removeStr ['%'] s from rfl] at hx
    rw [hx]
    exact ⟨_, _, rfl, round8_exact _⟩
  · unfold quoteColumn
    rw [if_neg hb', if_pos (search_percent.2 hs)]
    cases hp : parseFloat (removeStr [' '] (removeStr ['%'] s)) with
    | none => rfl
    | some x => exact absurd ⟨x, (C85_numbers _ _).1 hp⟩ hx

/-- `+1.25 %` states a number of per cent, `1_000` and `1E2` are numbers. -/
example : ReadsAs (removeStr [' '] (removeStr "%".toList "+1.25 %".toList)) (5 / 4) := (C85_numbers _ _).1 (by decide +kernel)
example : ReadsAs "1_000".toList 1000 := (C85_numbers _ _).1 (by decide +kernel)
example : ReadsAs "\t1E2\n".toList 100 := (C85_numbers _ _).1 (by decide +kernel)
example : ¬ ∃ x, ReadsAs "_50".toList x := fun ⟨x, h⟩ => by rw [← C85_numbers] at h; revert h; exact (by decide +kernel : parseFloat "_50".toList = none) ▸ (fun h => by cases h)

end Frm.Props
