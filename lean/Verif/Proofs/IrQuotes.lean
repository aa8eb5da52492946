import Mathlib.Data.Nat.Digits.Lemmas
import Mathlib.Data.Int.Log
import Mathlib.Tactic.Linarith
import Mathlib.Tactic.NormNum
import Mathlib.Tactic.Ring
import Mathlib.Tactic.FieldSimp
import Mathlib.Tactic.Positivity
import Verif.Model.IrQuotes
import Verif.Proofs.QuoteNames

/-! # Headings of interest-rate quotes: regular expressions, numbers and roundings -/

namespace Frm

set_option autoImplicit false

/-! ## Regular expressions -/

theorem mem_optChar {p : Char → Bool} {s r : Str} : r ∈ Pat.optChar p s ↔ s = r ∨ ∃ c, p c = true ∧ s = c :: r := by
  unfold Pat.optChar
  cases s with
  | nil =>
    constructor
    · intro h; exact .inl (List.mem_singleton.mp h).symm
    · rintro (h | ⟨c, -, h⟩)
      · exact List.mem_singleton.mpr h.symm
      · cases h
  | cons c rest =>
    simp only
    by_cases h : p c = true
    · rw [if_pos h]
      simp only [List.mem_cons, List.not_mem_nil, or_false, List.cons.injEq]
      constructor
      · rintro (rfl | rfl)
        · exact .inr ⟨c, h, rfl, rfl⟩
        · exact .inl rfl
      · rintro (rfl | ⟨c', -, -, rfl⟩)
        · exact .inr rfl
        · exact .inl rfl
    · rw [if_neg h]
      simp only [List.mem_cons, List.not_mem_nil, or_false, List.cons.injEq]
      constructor
      · rintro rfl; exact .inl rfl
      · rintro (rfl | ⟨c', h', rfl, rfl⟩)
        · rfl
        · exact absurd h' h

theorem mem_digits {s r : Str} : r ∈ Pat.digits s ↔ ∃ ds : Str, ds ≠ [] ∧ (∀ c ∈ ds, c.isDigit = true) ∧ s = ds ++ r := by
  induction s with
  | nil =>
    constructor
    · intro h; cases h
    · rintro ⟨ds, h, -, hs⟩
      exact absurd (List.append_eq_nil_iff.mp hs.symm).1 h
  | cons c rest ih =>
    unfold Pat.digits
    by_cases h : c.isDigit = true
    · rw [if_pos h, List.mem_append, ih]
      constructor
      · rintro (⟨ds, -, hds, rfl⟩ | hr)
        · exact ⟨c :: ds, (by simp), (by
            intro x hx
            rcases List.mem_cons.mp hx with rfl | hx
            · exact h
            · exact hds x hx), rfl⟩
        · rw [List.mem_singleton] at hr
          exact ⟨[c], (by simp), (by intro x hx; rw [List.mem_singleton] at hx; exact hx ▸ h), (by rw [hr]; rfl)⟩
      · rintro ⟨ds, hne, hds, hs⟩
        cases ds with
        | nil => exact absurd rfl hne
        | cons d ds =>
          rw [List.cons_append, List.cons.injEq] at hs
          by_cases hn : ds = []
          · right
            rw [hs.2, hn]; simp
          · left
            exact ⟨ds, hn, (fun x hx => hds x (List.mem_cons_of_mem _ hx)), hs.2⟩
    · rw [if_neg h]
      constructor
      · intro h; cases h
      · rintro ⟨ds, hne, hds, hs⟩
        cases ds with
        | nil => exact absurd rfl hne
        | cons d ds =>
          rw [List.cons_append, List.cons.injEq] at hs
          exact absurd (hs.1 ▸ hds d (List.mem_cons_self)) h

theorem mem_opt {p : Pat} {s r : Str} : r ∈ Pat.opt p s ↔ r ∈ p s ∨ s = r := by
  unfold Pat.opt
  rw [List.mem_append, List.mem_singleton]
  exact or_congr Iff.rfl eq_comm

theorem search_iff {p : Pat} {s : Str} : Pat.search p s = true ↔ ∃ pre t r, s = pre ++ t ∧ r ∈ p t := by
  unfold Pat.search
  rw [List.any_eq_true]
  constructor
  · rintro ⟨t, ht, hp⟩
    rw [List.mem_tails] at ht
    obtain ⟨pre, rfl⟩ := ht
    cases h : p t with
    | nil => rw [h] at hp; cases hp
    | cons r rs => exact ⟨pre, t, r, rfl, (by rw [h]; exact List.mem_cons_self)⟩
  · rintro ⟨pre, t, r, rfl, hr⟩
    refine ⟨t, (List.mem_tails _ _).mpr ⟨pre, rfl⟩, ?_⟩
    cases h : p t with
    | nil => rw [h] at hr; cases hr
    | cons _ _ => rfl

theorem search_bps_iff {s : Str} : Pat.search bpsPattern s = true ↔
    ∃ pre ds sp post, s = pre ++ ds ++ sp ++ "bp".toList ++ post ∧ ds ≠ [] ∧ (∀ c ∈ ds, c.isDigit = true) ∧
      (sp = [] ∨ ∃ c, isSpace c = true ∧ sp = [c]) := by
  rw [search_iff]
  constructor
  · rintro ⟨pre, t, r, rfl, hr⟩
    unfold bpsPattern at hr
    obtain ⟨t1, h1, hr⟩ := mem_seq.mp hr
    obtain ⟨t2, h2, hr⟩ := mem_seq.mp hr
    obtain ⟨t3, h3, hr⟩ := mem_seq.mp hr
    obtain ⟨t4, h4, h5⟩ := mem_seq.mp hr
    obtain ⟨ds, hne, hds, rfl⟩ := mem_digits.mp h3
    obtain ⟨pre', hpre⟩ : ∃ pre', t = pre' ++ (ds ++ t3) := by
      rcases mem_optChar.mp h1 with rfl | ⟨c, -, rfl⟩ <;> rcases mem_optChar.mp h2 with rfl | ⟨d, -, rfl⟩
      · exact ⟨[], rfl⟩
      · exact ⟨[d], rfl⟩
      · exact ⟨[c], rfl⟩
      · exact ⟨[c, d], rfl⟩
    obtain ⟨post, hpost⟩ : ∃ post, t4 = "bp".toList ++ post := by
      obtain ⟨p, hp, hs⟩ := mem_alts.mp h5
      rcases List.mem_cons.mp hp with rfl | hp
      · exact ⟨'s' :: r, hs⟩
      · rw [List.mem_singleton] at hp
        exact ⟨r, hp ▸ hs⟩
    rcases mem_optChar.mp h4 with rfl | ⟨c, hc, rfl⟩
    · exact ⟨pre ++ pre', ds, [], post, (by rw [hpre, hpost]; simp only [List.append_assoc, List.nil_append]), hne, hds, .inl rfl⟩
    · exact ⟨pre ++ pre', ds, [c], post,
        (by rw [hpre, hpost]; simp only [List.append_assoc, List.cons_append, List.nil_append]), hne, hds, .inr ⟨c, hc, rfl⟩⟩
  · rintro ⟨pre, ds, sp, post, rfl, hne, hds, hsp⟩
    refine ⟨pre, ds ++ (sp ++ ("bp".toList ++ post)), post, (by simp only [List.append_assoc]), ?_⟩
    unfold bpsPattern
    refine mem_seq.mpr ⟨_, mem_optChar.mpr (.inl rfl), mem_seq.mpr ⟨_, mem_optChar.mpr (.inl rfl), mem_seq.mpr
      ⟨_, mem_digits.mpr ⟨ds, hne, hds, rfl⟩, mem_seq.mpr ⟨"bp".toList ++ post, ?_, ?_⟩⟩⟩⟩
    · rcases hsp with rfl | ⟨c, hc, rfl⟩
      · exact mem_optChar.mpr (.inl rfl)
      · exact mem_optChar.mpr (.inr ⟨c, hc, rfl⟩)
    · exact mem_alts.mpr ⟨"bp".toList, (by simp), rfl⟩

theorem search_percent_iff {s : Str} : Pat.search percentPattern s = true ↔
    ∃ pre ds sp post, s = pre ++ ds ++ sp ++ "%".toList ++ post ∧ ds ≠ [] ∧ (∀ c ∈ ds, c.isDigit = true) ∧
      (sp = [] ∨ ∃ c, isSpace c = true ∧ sp = [c]) := by
  rw [search_iff]
  constructor
  · rintro ⟨pre, t, r, rfl, hr⟩
    unfold percentPattern at hr
    obtain ⟨t1, h1, hr⟩ := mem_seq.mp hr
    obtain ⟨t2, h2, hr⟩ := mem_seq.mp hr
    obtain ⟨t3, h3, hr⟩ := mem_seq.mp hr
    obtain ⟨t4, h4, hr⟩ := mem_seq.mp hr
    obtain ⟨t5, h5, h6⟩ := mem_seq.mp hr
    rw [mem_lit] at h6
    obtain ⟨ds, hne, hds, rfl⟩ := mem_digits.mp h3
    obtain ⟨pre', hpre⟩ : ∃ pre', t = pre' ++ (ds ++ t3) := by
      rcases mem_optChar.mp h1 with rfl | ⟨c, -, rfl⟩ <;> rcases mem_optChar.mp h2 with rfl | ⟨d, -, rfl⟩
      · exact ⟨[], rfl⟩
      · exact ⟨[d], rfl⟩
      · exact ⟨[c], rfl⟩
      · exact ⟨[c, d], rfl⟩
    obtain ⟨pre2, es, hes, hall, hpre2⟩ : ∃ pre2 es : Str, es ≠ [] ∧ (∀ c ∈ es, c.isDigit = true) ∧ ds ++ t3 = pre2 ++ (es ++ t4) := by
      rcases mem_opt.mp h4 with h | rfl
      · obtain ⟨t', h', h''⟩ := mem_seq.mp h
        rw [mem_lit] at h'
        obtain ⟨es, he1, he2, rfl⟩ := mem_digits.mp h''
        exact ⟨ds ++ ".".toList, es, he1, he2, (by rw [h']; simp only [List.append_assoc])⟩
      · exact ⟨[], ds, hne, hds, rfl⟩
    rcases mem_optChar.mp h5 with rfl | ⟨c, hc, rfl⟩
    · exact ⟨pre ++ pre' ++ pre2, es, [], r, (by rw [hpre, hpre2, h6]; simp only [List.append_assoc, List.nil_append]), hes, hall,
        .inl rfl⟩
    · exact ⟨pre ++ pre' ++ pre2, es, [c], r,
        (by rw [hpre, hpre2, h6]; simp only [List.append_assoc, List.cons_append, List.nil_append]), hes, hall, .inr ⟨c, hc, rfl⟩⟩
  · rintro ⟨pre, ds, sp, post, rfl, hne, hds, hsp⟩
    refine ⟨pre, ds ++ (sp ++ ("%".toList ++ post)), post, (by simp only [List.append_assoc]), ?_⟩
    unfold percentPattern
    refine mem_seq.mpr ⟨_, mem_optChar.mpr (.inl rfl), mem_seq.mpr ⟨_, mem_optChar.mpr (.inl rfl), mem_seq.mpr
      ⟨_, mem_digits.mpr ⟨ds, hne, hds, rfl⟩, mem_seq.mpr ⟨_, mem_opt.mpr (.inr rfl), mem_seq.mpr ⟨"%".toList ++ post, ?_, ?_⟩⟩⟩⟩⟩
    · rcases hsp with rfl | ⟨c, hc, rfl⟩
      · exact mem_optChar.mpr (.inl rfl)
      · exact mem_optChar.mpr (.inr ⟨c, hc, rfl⟩)
    · exact mem_lit.mpr rfl

theorem search_atmf_iff {s : Str} : Pat.search atmfPattern s = true ↔
    ∃ pre a x t y post, s = pre ++ a ++ x ++ t ++ y ++ "m".toList ++ post ∧ (a = "a".toList ∨ a = "at".toList) ∧
      (t = "t".toList ∨ t = "the".toList) ∧ (x = [] ∨ x = [' '] ∨ x = ['-']) ∧ (y = [] ∨ y = [' '] ∨ y = ['-']) := by
  have sep : ∀ {s r : Str}, r ∈ Pat.optChar isAtmSep s ↔ ∃ x, (x = [] ∨ x = [' '] ∨ x = ['-']) ∧ s = x ++ r := by
    intro s r
    rw [mem_optChar]
    constructor
    · rintro (rfl | ⟨c, hc, rfl⟩)
      · exact ⟨[], .inl rfl, rfl⟩
      · have hc : c = ' ' ∨ c = '-' := by
          unfold isAtmSep at hc
          simpa using hc
        rcases hc with rfl | rfl
        · exact ⟨[' '], .inr (.inl rfl), rfl⟩
        · exact ⟨['-'], .inr (.inr rfl), rfl⟩
    · rintro ⟨x, rfl | rfl | rfl, hs⟩
      · exact .inl hs
      · exact .inr ⟨' ', (by decide), hs⟩
      · exact .inr ⟨'-', (by decide), hs⟩
  rw [search_iff]
  constructor
  · rintro ⟨pre, s0, r, rfl, hr⟩
    unfold atmfPattern at hr
    obtain ⟨t1, h1, hr⟩ := mem_seq.mp hr
    obtain ⟨t2, h2, hr⟩ := mem_seq.mp hr
    obtain ⟨t3, h3, hr⟩ := mem_seq.mp hr
    obtain ⟨t4, h4, hr⟩ := mem_seq.mp hr
    obtain ⟨t5, h5, hr⟩ := mem_seq.mp hr
    obtain ⟨a, ha, rfl⟩ := mem_alts.mp h1
    obtain ⟨x, hx, rfl⟩ := sep.mp h2
    obtain ⟨t, ht, rfl⟩ := mem_alts.mp h3
    obtain ⟨y, hy, rfl⟩ := sep.mp h4
    obtain ⟨post, hpost⟩ : ∃ post, t4 = "m".toList ++ post := by
      obtain ⟨p, hp, hs⟩ := mem_alts.mp h5
      rcases List.mem_cons.mp hp with rfl | hp
      · exact ⟨t5, hs⟩
      · rw [List.mem_singleton] at hp
        subst hp
        exact ⟨"oney".toList ++ t5, hs⟩
    refine ⟨pre, a, x, t, y, post, (by rw [hpost]; simp only [List.append_assoc]), ?_, ?_, hx, hy⟩
    · simpa using ha
    · simpa using ht
  · rintro ⟨pre, a, x, t, y, post, rfl, ha, ht, hx, hy⟩
    refine ⟨pre, a ++ (x ++ (t ++ (y ++ ("m".toList ++ post)))), post, (by simp only [List.append_assoc]), ?_⟩
    unfold atmfPattern
    exact mem_seq.mpr ⟨_, mem_alts.mpr ⟨a, (by rcases ha with rfl | rfl <;> simp), rfl⟩, mem_seq.mpr ⟨_, sep.mpr ⟨x, hx, rfl⟩,
      mem_seq.mpr ⟨_, mem_alts.mpr ⟨t, (by rcases ht with rfl | rfl <;> simp), rfl⟩, mem_seq.mpr ⟨_, sep.mpr ⟨y, hy, rfl⟩,
        mem_seq.mpr ⟨post, mem_alts.mpr ⟨"m".toList, (by simp), rfl⟩, mem_seq.mpr ⟨post, sep.mpr ⟨[], .inl rfl, rfl⟩,
          mem_opt.mpr (.inr rfl)⟩⟩⟩⟩⟩⟩

/-! ## Characters -/

theorem toLower_digit {c : Char} (h : c.isDigit = true) : c.toLower = c := by
  unfold Char.toLower
  rw [dif_neg]
  unfold Char.isDigit at h
  simp only [Bool.and_eq_true, decide_eq_true_eq, UInt32.le_iff_toNat_le] at h
  intro hc
  simp only [ge_iff_le, UInt32.le_iff_toNat_le] at hc
  have h1 : ('9' : Char).val.toNat = 57 := rfl
  have h2 : ('A' : Char).val.toNat = 65 := rfl
  omega

theorem lower_digits {s : Str} (h : ∀ c ∈ s, c.isDigit = true) : lower s = s := by
  unfold lower
  exact (List.map_congr_left (g := id) (fun c hc => toLower_digit (h c hc))).trans (List.map_id _)

/-! ## Text operations -/

theorem removeFrom_append {p a b : Str} {c : Char} {q : Str} (hp : p = c :: q) (ha : c ∉ a) :
    removeFrom p 0 (a ++ b) = a ++ removeFrom p 0 b := by
  induction a with
  | nil => rfl
  | cons x xs ih =>
    rw [List.mem_cons, not_or] at ha
    rw [List.cons_append, removeFrom, if_neg, ih ha.2]
    · rfl
    · rw [hp]
      simp [List.isPrefixOf, ha.1]

theorem removeFrom_skip (p s : Str) : ∀ k, removeFrom p k s = removeFrom p 0 (s.drop k) := by
  induction s with
  | nil => intro k; cases k <;> simp [removeFrom]
  | cons c s ih =>
    intro k
    cases k with
    | zero => rfl
    | succ k => rw [removeFrom, ih k, List.drop_succ_cons]

theorem removeStr_end {p a : Str} {c : Char} {q : Str} (hp : p = c :: q) (ha : c ∉ a) : removeStr p (a ++ p) = a := by
  unfold removeStr
  rw [removeFrom_append hp ha]
  have : removeFrom p 0 p = [] := by
    conv_lhs => rw [hp]
    rw [removeFrom, if_pos (by simp), removeFrom_skip]
    simp [removeFrom]
  rw [this, List.append_nil]

theorem removeStr_absent {p a : Str} {c : Char} {q : Str} (hp : p = c :: q) (ha : c ∉ a) : removeStr p a = a := by
  have := removeFrom_append (b := []) hp ha
  rw [List.append_nil] at this
  unfold removeStr
  rw [this]
  simp [removeFrom]

theorem irDigit_ne {c d : Char} (h : c.isDigit = true) (hd : d.isDigit = false) : c ≠ d := by
  rintro rfl
  rw [h] at hd
  cases hd

theorem digit_not_space {c : Char} (h : c.isDigit = true) : isSpace c = false := by
  unfold Char.isDigit at h
  simp only [Bool.and_eq_true, decide_eq_true_eq, UInt32.le_iff_toNat_le] at h
  have h0 : ('0' : Char).val.toNat = 48 := rfl
  have h1 : ('9' : Char).val.toNat = 57 := rfl
  unfold isSpace
  have hc : (c == ' ') = false := by
    rw [beq_eq_false_iff_ne]
    rintro rfl
    have : (' ' : Char).val.toNat = 32 := rfl
    omega
  have h2 : c.toNat = c.val.toNat := rfl
  rw [hc, Bool.false_or]
  rw [Bool.or_eq_false_iff, Bool.and_eq_false_iff, Bool.and_eq_false_iff]
  simp only [decide_eq_false_iff_not]
  omega

theorem strip_none {s : Str} (h : ∀ c ∈ s, isSpace c = false) : strip s = s := by
  have key : ∀ l : Str, (∀ c ∈ l, isSpace c = false) → l.dropWhile isSpace = l := by
    intro l hl
    cases l with
    | nil => rfl
    | cons c l => rw [List.dropWhile_cons, hl c List.mem_cons_self]; rfl
  unfold strip
  rw [key s h, key s.reverse (fun c hc => h c (List.mem_reverse.mp hc)), List.reverse_reverse]

theorem underscoresOk_none {s : Str} : ∀ {p : Char}, p ≠ '_' → (∀ c ∈ s, c ≠ '_') → underscoresOk p s = true := by
  induction s with
  | nil => intro p hp _; simp [underscoresOk, hp]
  | cons c s ih =>
    intro p hp h
    have hc := h c List.mem_cons_self
    rw [underscoresOk, ih hc (fun x hx => h x (List.mem_cons_of_mem _ hx))]
    simp [hc, hp]

theorem filter_underscore {s : Str} (h : ∀ c ∈ s, c ≠ '_') : s.filter (· != '_') = s := by
  rw [List.filter_eq_self]
  intro c hc
  simp [h c hc]

theorem takeWhile_digits {s : Str} (h : ∀ c ∈ s, c.isDigit = true) : s.takeWhile Char.isDigit = s := by
  have := List.takeWhile_append_of_pos (p := Char.isDigit) (l₂ := []) h
  simpa using this

theorem dropWhile_digits {s : Str} (h : ∀ c ∈ s, c.isDigit = true) : s.dropWhile Char.isDigit = [] := by
  induction s with
  | nil => rfl
  | cons c s ih =>
    rw [List.dropWhile_cons, if_pos (h c List.mem_cons_self)]
    exact ih (fun x hx => h x (List.mem_cons_of_mem _ hx))

/-- A sign and digits are a number. -/
theorem parseFloat_int {sgn ds : Str} (hs : sgn = [] ∨ sgn = ['+'] ∨ sgn = ['-']) (hne : ds ≠ [])
    (hds : ∀ c ∈ ds, c.isDigit = true) :
    parseFloat (sgn ++ ds) = some (((if sgn = ['-'] then -1 else 1 : Int) : ℚ) * (digitsVal ds : ℚ)) := by
  have hsp : ∀ c ∈ sgn ++ ds, isSpace c = false := by
    intro c hc
    rcases List.mem_append.mp hc with hc | hc
    · rcases hs with rfl | rfl | rfl
      · cases hc
      · rw [List.mem_singleton] at hc; subst hc; decide
      · rw [List.mem_singleton] at hc; subst hc; decide
    · exact digit_not_space (hds c hc)
  have hus : ∀ c ∈ sgn ++ ds, c ≠ '_' := by
    intro c hc
    rcases List.mem_append.mp hc with hc | hc
    · rcases hs with rfl | rfl | rfl
      · cases hc
      · rw [List.mem_singleton] at hc; subst hc; decide
      · rw [List.mem_singleton] at hc; subst hc; decide
    · exact irDigit_ne (hds c hc) (by decide)
  have hsplit : splitSign (sgn ++ ds) = ((if sgn = ['-'] then -1 else 1), ds) := by
    rcases hs with rfl | rfl | rfl
    · cases ds with
      | nil => exact absurd rfl hne
      | cons d ds =>
        have h1 : d ≠ '+' := irDigit_ne (hds d List.mem_cons_self) (by decide)
        have h2 : d ≠ '-' := irDigit_ne (hds d List.mem_cons_self) (by decide)
        rw [List.nil_append, splitSign]
        · rfl
        · intro s hs; exact h1 (List.cons.inj hs).1
        · intro s hs; exact h2 (List.cons.inj hs).1
    · rfl
    · rfl
  unfold parseFloat
  simp only [strip_none hsp, underscoresOk_none (p := ' ') (by decide) hus, filter_underscore hus, hsplit, takeWhile_digits hds,
    dropWhile_digits hds, splitFraction, parseExponent, List.append_nil, if_neg hne, if_true, Option.map_some, List.length_nil]
  norm_num

/-! ## Writing integers -/

theorem digitVal_digitChar {d : Nat} (h : d < 10) : digitVal (Nat.digitChar d) = d := by
  have : d = 0 ∨ d = 1 ∨ d = 2 ∨ d = 3 ∨ d = 4 ∨ d = 5 ∨ d = 6 ∨ d = 7 ∨ d = 8 ∨ d = 9 := by omega
  rcases this with rfl | rfl | rfl | rfl | rfl | rfl | rfl | rfl | rfl | rfl <;> rfl

theorem digitChar_isDigit {d : Nat} (h : d < 10) : (Nat.digitChar d).isDigit = true := by
  have : d = 0 ∨ d = 1 ∨ d = 2 ∨ d = 3 ∨ d = 4 ∨ d = 5 ∨ d = 6 ∨ d = 7 ∨ d = 8 ∨ d = 9 := by omega
  rcases this with rfl | rfl | rfl | rfl | rfl | rfl | rfl | rfl | rfl | rfl <;> rfl

theorem digitsVal_reverse {l : List Nat} (h : ∀ d ∈ l, d < 10) :
    digitsVal (l.reverse.map Nat.digitChar) = Nat.ofDigits 10 l := by
  unfold digitsVal
  rw [List.foldl_map, List.foldl_reverse]
  induction l with
  | nil => rfl
  | cons d l ih =>
    rw [List.foldr_cons, ih (fun x hx => h x (List.mem_cons_of_mem _ hx)), Nat.ofDigits_cons,
      digitVal_digitChar (h d List.mem_cons_self)]
    rw [Nat.add_comm]
    try rfl

/-- The digits of an integer, without its sign. -/
def absStr (n : Int) : Str := if n = 0 then ['0'] else ((Nat.digits 10 n.natAbs).reverse.map Nat.digitChar)

theorem absStr_digits (n : Int) : ∀ c ∈ absStr n, c.isDigit = true := by
  intro c hc
  unfold absStr at hc
  by_cases h : n = 0
  · rw [if_pos h, List.mem_singleton] at hc
    rw [hc]; decide
  · rw [if_neg h, List.mem_map] at hc
    obtain ⟨d, hd, rfl⟩ := hc
    exact digitChar_isDigit (Nat.digits_lt_base (by norm_num) (List.mem_reverse.mp hd))

theorem absStr_val (n : Int) : digitsVal (absStr n) = n.natAbs := by
  unfold absStr
  by_cases h : n = 0
  · rw [if_pos h, h]; rfl
  · rw [if_neg h, digitsVal_reverse (fun d hd => Nat.digits_lt_base (by norm_num) hd), Nat.ofDigits_digits]

theorem absStr_ne_nil (n : Int) : absStr n ≠ [] := by
  unfold absStr
  by_cases h : n = 0
  · rw [if_pos h]; exact List.cons_ne_nil _ _
  · rw [if_neg h]
    intro hc
    rw [List.map_eq_nil_iff, List.reverse_eq_nil_iff, Nat.digits_eq_nil_iff_eq_zero] at hc
    omega

theorem intStr_eq (n : Int) : intStr n = if n < 0 then '-' :: absStr n else absStr n := rfl

theorem intStr_injective : Function.Injective intStr := by
  intro n m h
  rw [intStr_eq, intStr_eq] at h
  have hd : ∀ k : Int, ∀ s, absStr k ≠ '-' :: s := by
    intro k s hk
    have := absStr_digits k '-' (by rw [hk]; exact List.mem_cons_self)
    revert this; decide
  by_cases hn : n < 0 <;> by_cases hm : m < 0
  · rw [if_pos hn, if_pos hm, List.cons.injEq] at h
    have := congrArg digitsVal h.2
    rw [absStr_val, absStr_val] at this
    omega
  · rw [if_pos hn, if_neg hm] at h
    exact absurd h.symm (hd m _)
  · rw [if_neg hn, if_pos hm] at h
    exact absurd h (hd n _)
  · rw [if_neg hn, if_neg hm] at h
    have := congrArg digitsVal h
    rw [absStr_val, absStr_val] at this
    omega

/-! ## Rounding -/

theorem roundHalfEven_near {x : ℚ} {n : Int} (h : |x - n| < 1 / 2) : roundHalfEven x = n := by
  rw [abs_lt] at h
  unfold roundHalfEven
  simp only
  have h1 := Int.floor_le x
  have h2 := Int.lt_floor_add_one x
  by_cases hx : (n : ℚ) ≤ x
  · have hf : ⌊x⌋ = n := by
      rw [Int.floor_eq_iff]; constructor <;> linarith
    rw [if_pos (by rw [hf]; linarith), hf]
  · have hf : ⌊x⌋ = n - 1 := by
      rw [Int.floor_eq_iff]; push_cast; constructor <;> linarith
    rw [if_neg (by rw [hf]; push_cast; linarith), if_pos (by rw [hf]; push_cast; linarith), hf]
    omega

theorem roundHalfEven_err (x : ℚ) : |(roundHalfEven x : ℚ) - x| ≤ 1 / 2 := by
  have h1 := Int.floor_le x
  have h2 := Int.lt_floor_add_one x
  unfold roundHalfEven
  simp only
  rw [abs_le]
  by_cases ha : x - ⌊x⌋ < 1 / 2
  · rw [if_pos ha]; constructor <;> linarith
  · rw [if_neg ha]
    by_cases hb : 1 / 2 < x - ⌊x⌋
    · rw [if_pos hb]; push_cast; constructor <;> linarith
    · rw [if_neg hb]
      by_cases hc : ⌊x⌋ % 2 = 0
      · rw [if_pos hc]; constructor <;> linarith
      · rw [if_neg hc]; push_cast; constructor <;> linarith

end Frm
