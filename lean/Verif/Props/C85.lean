import Verif.Proofs.IrQuotes

/-!
# C85: the headings of interest-rate volatility quotes

A heading states an offset from the forward rate (or a strike), in basis points or per cent.  Two headings that state
different offsets should stay apart, and each should be tied to the offset it states.
-/

namespace Frm.Spec
open Frm

set_option autoImplicit false

/-- The number a list of decimal digits stands for: the last digit counts one, the one before it ten, ... -/
def numeralOf (ds : Str) : Nat := Nat.ofDigits 10 (ds.reverse.map (fun c => c.toNat - '0'.toNat))

/-- `[+-]` digits, perhaps a blank, and one of `units`: the heading states the integer `n`. -/
def States (units : List Str) (s : Str) (n : Int) : Prop :=
  ∃ sgn ds sp unit, s = sgn ++ ds ++ sp ++ unit ∧ (sgn = [] ∨ sgn = ['+'] ∨ sgn = ['-']) ∧
    (ds ≠ [] ∧ ∀ c ∈ ds, c.isDigit = true) ∧ (sp = [] ∨ sp = [' ']) ∧ unit ∈ units ∧
    n = (if sgn = ['-'] then -1 else 1) * (numeralOf ds : Int)

/-- An integer number of basis points. -/
abbrev StatesBps := States ["bps".toList, "bp".toList]

/-- An integer number of per cent. -/
abbrev StatesPercent := States ["%".toList]

/-- The text mentions being at the money: `a` or `at`, `t` or `the`, `m`, with a blank or a hyphen in between or not, in any
case. -/
def MentionsAtm (s : Str) : Prop :=
  ∃ pre a x t y post, s.map Char.toLower = pre ++ a ++ x ++ t ++ y ++ "m".toList ++ post ∧ (a = "a".toList ∨ a = "at".toList) ∧
    (t = "t".toList ∨ t = "the".toList) ∧ (x = [] ∨ x = [' '] ∨ x = ['-']) ∧ (y = [] ∨ y = [' '] ∨ y = ['-'])

/-- The text has a digit followed by one of `units` in any case, perhaps with one white space in between. -/
def MentionsNumber (unit : Str) (s : Str) : Prop :=
  ∃ pre d sp post, s.map Char.toLower = pre ++ [d] ++ sp ++ unit ++ post ∧ d.isDigit = true ∧
    (sp = [] ∨ ∃ c, isSpace c = true ∧ sp = [c])

/-- What is assumed of the rounding to floats: a relative error of at most `2⁻⁵³`, and none on integers up to `2⁵³`. -/
def IsRounding (fl : ℚ → ℚ) : Prop :=
  (∀ x, |fl x - x| ≤ 1 / 2 ^ 53 * |x|) ∧ ∀ n : Int, |n| ≤ 2 ^ 53 → fl n = n

/-- Rounding to a significand of 53 bits, to nearest, ties to even (IEEE 754 binary64 without limits on the exponent). -/
def binary64 (x : ℚ) : ℚ :=
  if x = 0 then 0 else roundHalfEven (x / 2 ^ (Int.log 2 |x| - 52)) * 2 ^ (Int.log 2 |x| - 52)

end Frm.Spec

namespace Frm.Props
open Frm Spec

set_option autoImplicit false

/-! ## The roundings are those of floats -/

/-- Exact arithmetic is a rounding. -/
theorem C85_exact_isRounding : IsRounding id :=
  ⟨fun x => by simp, fun _ _ => rfl⟩

/-- The rounding of the hardware is one. -/
theorem C85_binary64_isRounding : IsRounding binary64 := by
  constructor
  · intro x
    unfold binary64
    by_cases hx : x = 0
    · rw [if_pos hx, hx]; simp
    · rw [if_neg hx]
      have hpos : 0 < |x| := abs_pos.mpr hx
      have hlog := Int.zpow_log_le_self (b := 2) (by norm_num) hpos
      set e := Int.log 2 |x| with he
      have h2 : (0 : ℚ) < 2 ^ (e - 52) := zpow_pos (by norm_num) _
      have hr := roundHalfEven_err (x / 2 ^ (e - 52))
      have heq : (roundHalfEven (x / 2 ^ (e - 52)) : ℚ) * 2 ^ (e - 52) - x =
          ((roundHalfEven (x / 2 ^ (e - 52)) : ℚ) - x / 2 ^ (e - 52)) * 2 ^ (e - 52) := by
        field_simp
      rw [heq, abs_mul, abs_of_pos h2]
      have hle : |(roundHalfEven (x / 2 ^ (e - 52)) : ℚ) - x / 2 ^ (e - 52)| * 2 ^ (e - 52) ≤ 1 / 2 * 2 ^ (e - 52) :=
        mul_le_mul_of_nonneg_right hr h2.le
      have hz : (2 : ℚ) ^ (e - 52) = 2 ^ e / 2 ^ 52 := by
        rw [zpow_sub₀ (by norm_num)]; norm_cast
      rw [hz] at hle ⊢
      have : ((2 : ℕ) : ℚ) ^ e = 2 ^ e := by norm_cast
      rw [this] at hlog
      have hfin : 1 / 2 * ((2 : ℚ) ^ e / 2 ^ 52) = 1 / 2 ^ 53 * 2 ^ e := by ring
      rw [hfin] at hle
      exact hle.trans (mul_le_mul_of_nonneg_left hlog (by norm_num))
  · intro n hn
    unfold binary64
    by_cases hx : n = 0
    · rw [if_pos (by rw [hx]; rfl), hx]; rfl
    · rw [if_neg (by exact_mod_cast hx)]
      have hpos : (0 : ℚ) < |(n : ℚ)| := abs_pos.mpr (by exact_mod_cast hx)
      have hlog := Int.zpow_log_le_self (b := 2) (by norm_num) hpos
      have hcast : ((2 : ℕ) : ℚ) = 2 := by norm_num
      rw [hcast] at hlog
      set e := Int.log 2 |(n : ℚ)| with he
      have h2 : (0 : ℚ) < 2 ^ (e - 52) := zpow_pos (by norm_num) _
      have hb : |(n : ℚ)| ≤ 2 ^ (53 : ℤ) := by
        have h := (Int.cast_le (R := ℚ)).mpr hn
        rw [Int.cast_abs] at h
        exact h.trans (le_of_eq (by norm_num))
      have he53 : e ≤ 53 := by
        have := hlog.trans hb
        exact (zpow_le_zpow_iff_right₀ (by norm_num : (1 : ℚ) < 2)).mp this
      obtain ⟨k, hk⟩ : ∃ k : Int, (n : ℚ) / 2 ^ (e - 52) = k := by
        by_cases hc : e ≤ 52
        · refine ⟨n * 2 ^ (52 - e).toNat, ?_⟩
          have h1 : ((2 : ℚ) ^ (52 - e).toNat) = 2 ^ (52 - e) := by
            rw [← zpow_natCast, Int.toNat_of_nonneg (by omega)]
          push_cast
          rw [h1, div_eq_mul_inv, ← zpow_neg]
          congr 2
          omega
        · have he' : e = 53 := by omega
          have habs : |(n : ℚ)| = 2 ^ (53 : ℤ) := le_antisymm hb (he' ▸ hlog)
          rw [he']
          rcases abs_choice (n : ℚ) with h | h
          · refine ⟨2 ^ 52, ?_⟩
            rw [h] at habs
            rw [habs]; norm_num
          · refine ⟨-2 ^ 52, ?_⟩
            rw [h] at habs
            rw [neg_eq_iff_eq_neg.mp habs]; norm_num
      have hr : roundHalfEven (k : ℚ) = k := roundHalfEven_near (by simp)
      rw [hk, hr, ← hk]
      field_simp

/-! ## One heading -/

private theorem decimal_eq {ds : Str} : numeralOf ds = digitsVal ds := by
  unfold numeralOf digitsVal
  induction ds using List.reverseRecOn with
  | nil => rfl
  | append_singleton l c ih =>
    rw [List.reverse_append, List.reverse_singleton, List.singleton_append, List.map_cons, Nat.ofDigits_cons, ih,
      List.foldl_append]
    simp only [List.foldl_cons, List.foldl_nil]
    rw [Nat.add_comm]
    rfl

private theorem round8_near {fl : ℚ → ℚ} {x : ℚ} {k : Int} (h : |x * 10 ^ 8 - k| < 1 / 2) :
    round8 fl x = fl (k / 10 ^ 8) := by
  unfold round8
  rw [roundHalfEven_near h]

/-- The value and the heading computed from an integer `n` with divisor 100 or 10000. -/
private theorem value_of_int {fl : ℚ → ℚ} (hfl : IsRounding fl) (r : ℚ → Str) {n : Int} (hn : |n| ≤ 10 ^ 6) {m : Int}
    (hm : m = 100 ∨ m = 10000) :
    round8 fl (fl (fl n / m)) = fl (n / m) ∧
      quoteHeading fl r (fl (n / m)) m = intStr (truncRat (fl (fl (n / m) * m))) ++ "bps".toList ∧
      |fl (fl (n / m) * m) - n| < 1 / 10 ^ 9 := by
  have hq : |(n : ℚ)| ≤ 10 ^ 6 := by exact_mod_cast hn
  have hint : fl n = n := hfl.2 n (le_trans hn (by norm_num))
  have hmpos : (0 : ℚ) < m := by rcases hm with rfl | rfl <;> norm_num
  have hmle : (m : ℚ) ≤ 10000 := by rcases hm with rfl | rfl <;> norm_num
  have hmge : (100 : ℚ) ≤ m := by rcases hm with rfl | rfl <;> norm_num
  have h1 := hfl.1 (n / m)
  rw [abs_div, abs_of_pos hmpos] at h1
  have h1' : |fl (n / m) * m - n| ≤ 1 / 2 ^ 53 * |(n : ℚ)| := by
    have e : fl (n / m) * m - n = (fl (n / m) - n / m) * m := by field_simp
    rw [e, abs_mul, abs_of_pos hmpos]
    calc |fl (n / m) - n / m| * m ≤ (1 / 2 ^ 53 * (|(n : ℚ)| / m)) * m := mul_le_mul_of_nonneg_right h1 hmpos.le
      _ = 1 / 2 ^ 53 * |(n : ℚ)| := by field_simp
  have hw : |fl (fl (n / m) * m) - n| < 1 / 10 ^ 9 := by
    have h2 := hfl.1 (fl (n / m) * m)
    have h3 : |fl (n / m) * m| ≤ 2 * 10 ^ 6 := by
      have := abs_sub_abs_le_abs_sub (fl (n / m) * m) n
      have h4 : 1 / 2 ^ 53 * |(n : ℚ)| ≤ 1 / 2 ^ 53 * 10 ^ 6 := mul_le_mul_of_nonneg_left hq (by norm_num)
      have h5 : (1 : ℚ) / 2 ^ 53 * 10 ^ 6 ≤ 10 ^ 6 := by norm_num
      linarith
    have h4 : |fl (fl (n / m) * m) - n| ≤ |fl (fl (n / m) * m) - fl (n / m) * m| + |fl (n / m) * m - n| := by
      have := abs_add_le (fl (fl (n / m) * m) - fl (n / m) * m) (fl (n / m) * m - n)
      simpa using this
    have h5 : (1 : ℚ) / 2 ^ 53 * |fl (n / m) * m| ≤ 1 / 2 ^ 53 * (2 * 10 ^ 6) := mul_le_mul_of_nonneg_left h3 (by norm_num)
    have h6 : (1 : ℚ) / 2 ^ 53 * |(n : ℚ)| ≤ 1 / 2 ^ 53 * 10 ^ 6 := mul_le_mul_of_nonneg_left hq (by norm_num)
    have h7 : (1 : ℚ) / 2 ^ 53 * (2 * 10 ^ 6) + 1 / 2 ^ 53 * 10 ^ 6 < 1 / 10 ^ 9 := by norm_num
    linarith
  refine ⟨?_, ?_, hw⟩
  · rw [hint]
    have key : |fl (n / m) * 10 ^ 8 - (n * (10 ^ 8 / m) : Int)| < 1 / 2 := by
      have hdiv : (((n * (10 ^ 8 / m) : Int)) : ℚ) = n / m * 10 ^ 8 := by
        rcases hm with rfl | rfl
        · norm_num; ring
        · norm_num; ring
      rw [hdiv]
      have e : fl (n / m) * 10 ^ 8 - n / m * 10 ^ 8 = (fl (n / m) - n / m) * 10 ^ 8 := by ring
      rw [e, abs_mul, abs_of_pos (show (0 : ℚ) < 10 ^ 8 by norm_num)]
      have h6 : |(n : ℚ)| / m ≤ 10 ^ 6 / 100 := by
        rw [div_le_div_iff₀ hmpos (by norm_num)]
        nlinarith [abs_nonneg (n : ℚ)]
      have h7 : |fl (n / m) - n / m| ≤ 1 / 2 ^ 53 * (10 ^ 6 / 100) :=
        h1.trans (mul_le_mul_of_nonneg_left h6 (by norm_num))
      have h8 : (1 : ℚ) / 2 ^ 53 * (10 ^ 6 / 100) * 10 ^ 8 < 1 / 2 := by norm_num
      nlinarith
    rw [round8_near key]
    congr 1
    rcases hm with rfl | rfl
    · norm_num; ring
    · norm_num; ring
  · have key : |fl (fl (n / m) * m) * 10 ^ 8 - ((n * 10 ^ 8 : Int) : ℚ)| < 1 / 2 := by
      have e : fl (fl (n / m) * m) * 10 ^ 8 - ((n * 10 ^ 8 : Int) : ℚ) = (fl (fl (n / m) * m) - n) * 10 ^ 8 := by
        push_cast; ring
      rw [e, abs_mul, abs_of_pos (show (0 : ℚ) < 10 ^ 8 by norm_num)]
      have : (1 : ℚ) / 10 ^ 9 * 10 ^ 8 < 1 / 2 := by norm_num
      nlinarith
    unfold quoteHeading
    simp only
    have hr : round8 fl (fl (fl (n / m) * m)) = n := by
      rw [round8_near key]
      have : (((n * 10 ^ 8 : Int)) : ℚ) / 10 ^ 8 = n := by push_cast; norm_num
      rw [this, hint]
    rw [hr, if_pos (by simp)]

private theorem unit_not_digit {c : Char} {s : Str} (h : ∀ c ∈ s, c.isDigit = true) (hc : c.isDigit = false) : c ∉ s :=
  fun hm => irDigit_ne (h c hm) hc rfl

private theorem sign_lower {sgn : Str} (h : sgn = [] ∨ sgn = ['+'] ∨ sgn = ['-']) : lower sgn = sgn := by
  rcases h with rfl | rfl | rfl <;> rfl

private theorem sp_lower {sp : Str} (h : sp = [] ∨ sp = [' ']) : lower sp = sp := by
  rcases h with rfl | rfl <;> rfl

private theorem lower_append (a b : Str) : lower (a ++ b) = lower a ++ lower b := List.map_append

private theorem removeBlank {sgn ds sp : Str} (hs : sgn = [] ∨ sgn = ['+'] ∨ sgn = ['-']) (hds : ∀ c ∈ ds, c.isDigit = true)
    (hsp : sp = [] ∨ sp = [' ']) : removeStr [' '] (sgn ++ ds ++ sp) = sgn ++ ds := by
  have hno : ' ' ∉ sgn ++ ds := by
    rw [List.mem_append, not_or]
    refine ⟨?_, unit_not_digit hds (by decide)⟩
    rcases hs with rfl | rfl | rfl <;> decide
  rcases hsp with rfl | rfl
  · rw [List.append_nil]; exact removeStr_absent rfl hno
  · exact removeStr_end rfl hno

/-- **A heading in basis points**, up to a million either way: it is tied to the number of basis points it states, rounded to
a float, and renamed to the integer part of that number times ten thousand. -/
theorem C85_bps {fl : ℚ → ℚ} (hfl : IsRounding fl) (r : ℚ → Str) {s : Str} {n : Int} (hs : StatesBps s n) (hn : |n| ≤ 10 ^ 6) :
    quoteColumn fl r s = .ok (some
      (intStr (truncRat (fl (fl (n / 10000) * 10000))) ++ "bps".toList, fl (n / 10000))) := by
  obtain ⟨sgn, ds, sp, unit, rfl, hsgn, ⟨hne, hds⟩, hsp, hunit, hval⟩ := hs
  have hunit' : unit = "bps".toList ∨ unit = "bp".toList := by simpa using hunit
  have hlow : lower (sgn ++ ds ++ sp ++ unit) = sgn ++ ds ++ sp ++ unit := by
    rw [lower_append, lower_append, lower_append, sign_lower hsgn, lower_digits hds, sp_lower hsp]
    rcases hunit' with rfl | rfl <;> rfl
  have hb : 'b' ∉ sgn ++ ds ++ sp := by
    rw [List.mem_append, List.mem_append, not_or, not_or]
    refine ⟨⟨?_, unit_not_digit hds (by decide)⟩, ?_⟩
    · rcases hsgn with rfl | rfl | rfl <;> decide
    · rcases hsp with rfl | rfl <;> decide
  have hsearch : Pat.search bpsPattern (lower (sgn ++ ds ++ sp ++ unit)) = true := by
    rw [hlow, search_bps_iff]
    refine ⟨sgn, ds, sp, (if unit = "bps".toList then ['s'] else []), ?_, hne, hds, ?_⟩
    · rcases hunit' with rfl | rfl
      · rw [if_pos rfl]; simp
      · rw [if_neg (by decide)]; simp
    · rcases hsp with rfl | rfl
      · exact .inl rfl
      · exact .inr ⟨' ', (by decide), rfl⟩
  have hrem : removeStr "bp".toList (removeStr "bps".toList (sgn ++ ds ++ sp ++ unit)) = sgn ++ ds ++ sp := by
    rcases hunit' with rfl | rfl
    · show removeStr ['b', 'p'] (removeStr ['b', 'p', 's'] (sgn ++ ds ++ sp ++ ['b', 'p', 's'])) = _
      rw [removeStr_end rfl hb]
      exact removeStr_absent rfl hb
    · show removeStr ['b', 'p'] (removeStr ['b', 'p', 's'] (sgn ++ ds ++ sp ++ ['b', 'p'])) = _
      have h1 : removeStr ['b', 'p', 's'] (sgn ++ ds ++ sp ++ ['b', 'p']) = sgn ++ ds ++ sp ++ ['b', 'p'] := by
        unfold removeStr
        rw [removeFrom_append rfl hb]
        rfl
      rw [h1]
      exact removeStr_end rfl hb
  have hx : parseFloat (sgn ++ ds) = some (n : ℚ) := by
    rw [parseFloat_int hsgn hne hds, hval, decimal_eq]
    push_cast
    rfl
  obtain ⟨h1, h2, -⟩ := value_of_int hfl r hn (m := 10000) (.inr rfl)
  unfold quoteColumn
  rw [if_pos hsearch, hrem, removeBlank hsgn hds hsp, hx]
  simp only
  push_cast at h1 h2
  rw [h1, h2]
  rfl

/-- **A heading in per cent**: it is tied to the number of per cent it states, rounded to a float, and renamed to the integer
part of that number times a hundred — followed by `bps`. -/
theorem C85_percent {fl : ℚ → ℚ} (hfl : IsRounding fl) (r : ℚ → Str) {s : Str} {n : Int} (hs : StatesPercent s n)
    (hn : |n| ≤ 10 ^ 6) :
    quoteColumn fl r s = .ok (some (intStr (truncRat (fl (fl (n / 100) * 100))) ++ "bps".toList, fl (n / 100))) := by
  obtain ⟨sgn, ds, sp, unit, rfl, hsgn, ⟨hne, hds⟩, hsp, hunit, hval⟩ := hs
  have hunit' : unit = "%".toList := by simpa using hunit
  subst hunit'
  have hlow : lower (sgn ++ ds ++ sp ++ "%".toList) = sgn ++ ds ++ sp ++ "%".toList := by
    rw [lower_append, lower_append, lower_append, sign_lower hsgn, lower_digits hds, sp_lower hsp]
    rfl
  have hno : ∀ c : Char, c.isDigit = false → c ≠ '+' → c ≠ '-' → c ≠ ' ' → c ∉ sgn ++ ds ++ sp := by
    intro c hc h1 h2 h3
    rw [List.mem_append, List.mem_append, not_or, not_or]
    refine ⟨⟨?_, unit_not_digit hds hc⟩, ?_⟩
    · rcases hsgn with rfl | rfl | rfl
      · exact fun h => (by cases h)
      · exact fun h => h1 (List.mem_singleton.mp h)
      · exact fun h => h2 (List.mem_singleton.mp h)
    · rcases hsp with rfl | rfl
      · exact fun h => (by cases h)
      · exact fun h => h3 (List.mem_singleton.mp h)
  have hnb : ¬ Pat.search bpsPattern (lower (sgn ++ ds ++ sp ++ "%".toList)) = true := by
    rw [hlow, search_bps_iff]
    rintro ⟨pre, ds', sp', post, he, -⟩
    have hb : 'b' ∈ sgn ++ ds ++ sp ++ "%".toList := by
      rw [he]
      exact List.mem_append_left _ (List.mem_append_right _ (by decide))
    rcases List.mem_append.mp hb with h | h
    · exact hno 'b' (by decide) (by decide) (by decide) (by decide) h
    · exact absurd h (by decide)
  have hsearch : Pat.search percentPattern (lower (sgn ++ ds ++ sp ++ "%".toList)) = true := by
    rw [hlow, search_percent_iff]
    refine ⟨sgn, ds, sp, [], (by simp), hne, hds, ?_⟩
    rcases hsp with rfl | rfl
    · exact .inl rfl
    · exact .inr ⟨' ', (by decide), rfl⟩
  have hrem : removeStr ['%'] (sgn ++ ds ++ sp ++ "%".toList) = sgn ++ ds ++ sp :=
    removeStr_end (c := '%') (q := []) rfl (hno '%' (by decide) (by decide) (by decide) (by decide))
  have hx : parseFloat (sgn ++ ds) = some (n : ℚ) := by
    rw [parseFloat_int hsgn hne hds, hval, decimal_eq]
    push_cast
    rfl
  obtain ⟨h1, h2, -⟩ := value_of_int hfl r hn (m := 100) (.inl rfl)
  unfold quoteColumn
  rw [if_neg hnb, if_pos hsearch, hrem, removeBlank hsgn hds hsp, hx]
  simp only
  push_cast at h1 h2
  rw [h1, h2]
  rfl

example : StatesBps "-50 bps".toList (-50) :=
  ⟨['-'], ['5', '0'], [' '], "bps".toList, rfl, .inr (.inr rfl), ⟨by decide, by decide⟩, .inr rfl, by simp, by decide⟩
example : StatesBps "+25bp".toList 25 :=
  ⟨['+'], ['2', '5'], [], "bp".toList, rfl, .inr (.inl rfl), ⟨by decide, by decide⟩, .inl rfl, by simp, by decide⟩
example : StatesPercent "1%".toList 1 :=
  ⟨[], ['1'], [], "%".toList, rfl, .inl rfl, ⟨by decide, by decide⟩, .inl rfl, by simp, by decide⟩

private theorem trunc_near {w : ℚ} {n : Int} (h : |w - n| < 1 / 10 ^ 9) (h0 : n = 0 → w = 0) :
    truncRat w = n ∨ truncRat w = n - n.sign := by
  rw [abs_lt] at h
  have h9 : (1 : ℚ) / 10 ^ 9 < 1 := by norm_num
  unfold truncRat
  rcases lt_trichotomy n 0 with hn | hn | hn
  · have hnq : (n : ℚ) ≤ -1 := by exact_mod_cast (by omega : n ≤ -1)
    rw [if_neg (by linarith), Int.sign_eq_neg_one_of_neg hn]
    by_cases hw : w ≤ n
    · left
      rw [Int.ceil_eq_iff]; constructor <;> linarith
    · right
      rw [Int.ceil_eq_iff]; push_cast; constructor <;> linarith
  · rw [h0 hn, hn]; left; norm_num
  · have hnq : (1 : ℚ) ≤ n := by exact_mod_cast (by omega : 1 ≤ n)
    rw [if_pos (by linarith), Int.sign_eq_one_of_pos hn]
    by_cases hw : (n : ℚ) ≤ w
    · left
      rw [Int.floor_eq_iff]; constructor <;> linarith
    · right
      rw [Int.floor_eq_iff]; push_cast; constructor <;> linarith

/-- The new heading states the same number of basis points, or one less in absolute value. -/
theorem C85_bps_heading {fl : ℚ → ℚ} (hfl : IsRounding fl) (r : ℚ → Str) {s : Str} {n : Int} (hs : StatesBps s n)
    (hn : |n| ≤ 10 ^ 6) :
    ∃ h v, quoteColumn fl r s = .ok (some (h, v)) ∧ |v - n / 10000| ≤ 1 / 2 ^ 53 * |(n : ℚ) / 10000| ∧
      (h = intStr n ++ "bps".toList ∨ h = intStr (n - n.sign) ++ "bps".toList) := by
  refine ⟨_, _, C85_bps hfl r hs hn, hfl.1 _, ?_⟩
  obtain ⟨-, -, h3⟩ := value_of_int hfl r hn (m := 10000) (.inr rfl)
  push_cast at h3
  have hz : fl 0 = 0 := by
    have := hfl.1 0
    simpa using this
  rcases trunc_near h3 (by rintro rfl; simp [hz]) with h | h <;> rw [h]
  · exact .inl rfl
  · exact .inr rfl

/-- In exact arithmetic the heading is always right. -/
theorem C85_bps_exact (r : ℚ → Str) {s : Str} {n : Int} (hs : StatesBps s n) (hn : |n| ≤ 10 ^ 6) :
    quoteColumn id r s = .ok (some (intStr n ++ "bps".toList, (n : ℚ) / 10000)) := by
  rw [C85_bps C85_exact_isRounding r hs hn]
  have : truncRat (id (id ((n : ℚ) / 10000) * 10000)) = n := by
    have e : (id (id ((n : ℚ) / 10000) * 10000) : ℚ) = n := by simp
    rw [e]
    unfold truncRat
    rw [Int.floor_intCast, Int.ceil_intCast, ite_self]
  rw [this]
  rfl


/-- In floating point it is not: `3bps` is renamed to `2bps` (and 6, 12, 24, 29, ... basis points go the same way). -/
theorem C85_heading_truncated :
    quoteColumn binary64 (fun _ => []) "3bps".toList = .ok (some ("2bps".toList, binary64 (3 / 10000))) := by
  decide +kernel

/-- Headings are left alone exactly if they mention neither a number of basis points nor a percentage. -/
theorem C85_untouched (fl : ℚ → ℚ) (r : ℚ → Str) (s : Str) :
    quoteColumn fl r s = .ok none ↔ ¬ MentionsNumber "bp".toList s ∧ ¬ MentionsNumber "%".toList s := by
  have conv : ∀ (u : Str) (t : Str), (∃ pre ds sp post, t = pre ++ ds ++ sp ++ u ++ post ∧ ds ≠ [] ∧
      (∀ c ∈ ds, c.isDigit = true) ∧ (sp = [] ∨ ∃ c, isSpace c = true ∧ sp = [c])) ↔
      ∃ pre d sp post, t = pre ++ [d] ++ sp ++ u ++ post ∧ d.isDigit = true ∧ (sp = [] ∨ ∃ c, isSpace c = true ∧ sp = [c]) := by
    intro u t
    constructor
    · rintro ⟨pre, ds, sp, post, rfl, hne, hds, hsp⟩
      refine ⟨pre ++ ds.dropLast, ds.getLast hne, sp, post, ?_, hds _ (List.getLast_mem hne), hsp⟩
      conv_lhs => rw [← List.dropLast_append_getLast hne]
      simp only [List.append_assoc]
    · rintro ⟨pre, d, sp, post, rfl, hd, hsp⟩
      exact ⟨pre, [d], sp, post, rfl, List.cons_ne_nil _ _, (by
        intro c hc; rw [List.mem_singleton] at hc; exact hc ▸ hd), hsp⟩
  have h1 : Pat.search bpsPattern (lower s) = true ↔ MentionsNumber "bp".toList s :=
    search_bps_iff.trans (conv _ _)
  have h2 : Pat.search percentPattern (lower s) = true ↔ MentionsNumber "%".toList s :=
    search_percent_iff.trans (conv _ _)
  rw [← h1, ← h2]
  unfold quoteColumn
  by_cases ha : Pat.search bpsPattern (lower s) = true
  · rw [if_pos ha]
    refine ⟨fun h => ?_, fun h => absurd ha h.1⟩
    cases hp : parseFloat (removeStr [' '] (removeStr "bp".toList (removeStr "bps".toList s))) with
    | none => rw [hp] at h; cases h
    | some x => rw [hp] at h; cases h
  · rw [if_neg ha]
    by_cases hb : Pat.search percentPattern (lower s) = true
    · rw [if_pos hb]
      refine ⟨fun h => ?_, fun h => absurd hb h.2⟩
      cases hp : parseFloat (removeStr [' '] (removeStr ['%'] s)) with
      | none => rw [hp] at h; cases h
      | some x => rw [hp] at h; cases h
    · rw [if_neg hb]
      exact ⟨fun _ => ⟨ha, hb⟩, fun _ => rfl⟩

example : MentionsNumber "bp".toList "ATM+50BPS".toList :=
  ⟨"atm+5".toList, '0', [], "s".toList, (by decide), (by decide), .inl rfl⟩

/-- A unit in capitals is recognised and then refused. -/
theorem C85_capitals_refused (fl : ℚ → ℚ) (r : ℚ → Str) {sgn ds sp : Str} (hsgn : sgn = [] ∨ sgn = ['+'] ∨ sgn = ['-'])
    (hne : ds ≠ []) (hds : ∀ c ∈ ds, c.isDigit = true) (hsp : sp = [] ∨ sp = [' ']) :
    quoteColumn fl r (sgn ++ ds ++ sp ++ "BPS".toList) = .error .value := by
  have hb : 'b' ∉ sgn ++ ds ++ sp ++ ['B', 'P', 'S'] := by
    rw [List.mem_append, List.mem_append, List.mem_append, not_or, not_or, not_or]
    refine ⟨⟨⟨?_, unit_not_digit hds (by decide)⟩, ?_⟩, by decide⟩
    · rcases hsgn with rfl | rfl | rfl <;> decide
    · rcases hsp with rfl | rfl <;> decide
  have hsearch : Pat.search bpsPattern (lower (sgn ++ ds ++ sp ++ ['B', 'P', 'S'])) = true := by
    rw [lower_append, lower_append, lower_append, sign_lower hsgn, lower_digits hds, sp_lower hsp, search_bps_iff]
    refine ⟨sgn, ds, sp, ['s'], (by simp [lower]), hne, hds, ?_⟩
    rcases hsp with rfl | rfl
    · exact .inl rfl
    · exact .inr ⟨' ', (by decide), rfl⟩
  have hblank : ∀ (s : Str), removeStr [' '] s = s.filter (· != ' ') := by
    intro s
    unfold removeStr
    induction s with
    | nil => rfl
    | cons c s ih =>
      rw [removeFrom]
      by_cases hc : c = ' '
      · rw [if_pos (by rw [hc]; rfl), List.filter_cons_of_neg (by simp [hc])]
        exact ih
      · rw [if_neg (by simp [List.isPrefixOf, Ne.symm hc]), List.filter_cons_of_pos (by simp [hc]), ih]
  have hrem : removeStr [' '] (sgn ++ ds ++ sp ++ ['B', 'P', 'S']) = sgn ++ (ds ++ ['B', 'P', 'S']) := by
    rw [hblank, List.filter_append, List.filter_append, List.filter_append]
    have h1 : sgn.filter (· != ' ') = sgn := by rcases hsgn with rfl | rfl | rfl <;> rfl
    have h2 : ds.filter (· != ' ') = ds := by
      rw [List.filter_eq_self]
      intro c hc
      simp [irDigit_ne (hds c hc) (d := ' ') (by decide)]
    have h3 : sp.filter (· != ' ') = [] := by rcases hsp with rfl | rfl <;> rfl
    rw [h1, h2, h3, List.append_nil, List.append_assoc]
    rfl
  have hsplit : splitSign (sgn ++ (ds ++ ['B', 'P', 'S'])) = ((if sgn = ['-'] then -1 else 1), ds ++ ['B', 'P', 'S']) := by
    rcases hsgn with rfl | rfl | rfl
    · cases ds with
      | nil => exact absurd rfl hne
      | cons d ds =>
        have h1 : d ≠ '+' := irDigit_ne (hds d List.mem_cons_self) (by decide)
        have h2 : d ≠ '-' := irDigit_ne (hds d List.mem_cons_self) (by decide)
        rw [List.nil_append, List.cons_append, splitSign]
        · rfl
        · intro s hs; exact h1 (List.cons.inj hs).1
        · intro s hs; exact h2 (List.cons.inj hs).1
    · rfl
    · rfl
  have hmem : ∀ c ∈ sgn ++ (ds ++ ['B', 'P', 'S']), isSpace c = false ∧ c ≠ '_' := by
    intro c hc
    rcases List.mem_append.mp hc with hc | hc
    · rcases hsgn with rfl | rfl | rfl
      · cases hc
      · rw [List.mem_singleton] at hc; subst hc; decide
      · rw [List.mem_singleton] at hc; subst hc; decide
    · rcases List.mem_append.mp hc with hc | hc
      · exact ⟨digit_not_space (hds c hc), irDigit_ne (hds c hc) (by decide)⟩
      · have hB : ∀ x ∈ ['B', 'P', 'S'], isSpace x = false ∧ x ≠ '_' := by decide
        exact hB c hc
  have hparse : parseFloat (sgn ++ (ds ++ ['B', 'P', 'S'])) = none := by
    unfold parseFloat
    simp only [strip_none (fun c hc => (hmem c hc).1), underscoresOk_none (p := ' ') (by decide) (fun c hc => (hmem c hc).2),
      filter_underscore (fun c hc => (hmem c hc).2), hsplit, if_true]
    have h1 : (ds ++ ['B', 'P', 'S']).takeWhile Char.isDigit = ds := by
      rw [List.takeWhile_append_of_pos hds]; simp [Char.isDigit]
    have h2 : (ds ++ ['B', 'P', 'S']).dropWhile Char.isDigit = ['B', 'P', 'S'] := by
      rw [List.dropWhile_append_of_pos hds]; rfl
    rw [h1, h2]
    simp [splitFraction, parseExponent, hne]
  show quoteColumn fl r (sgn ++ ds ++ sp ++ ['B', 'P', 'S']) = .error .value
  unfold quoteColumn
  have e1 : removeStr "bps".toList (sgn ++ ds ++ sp ++ ['B', 'P', 'S']) = sgn ++ ds ++ sp ++ ['B', 'P', 'S'] :=
    removeStr_absent (c := 'b') (q := ['p', 's']) rfl hb
  have e2 : removeStr "bp".toList (sgn ++ ds ++ sp ++ ['B', 'P', 'S']) = sgn ++ ds ++ sp ++ ['B', 'P', 'S'] :=
    removeStr_absent (c := 'b') (q := ['p']) rfl hb
  rw [if_pos hsearch, e1, e2, hrem, hparse]

/-! ## The table -/

private theorem mentionsAtm_iff {s : Str} : Pat.search atmfPattern (lower s) = true ↔ MentionsAtm s := search_atmf_iff

private theorem atm_fold (cols : List Str) : ∀ d : List (Str × Str), (∀ e ∈ d, e.2 = "atmf".toList) →
    ∀ e, (e ∈ cols.foldl (fun d s => if Pat.search atmfPattern (lower s) then dictSet d s "atmf".toList else d) d ↔
      e ∈ d ∨ (e.1 ∈ cols ∧ MentionsAtm e.1 ∧ e.2 = "atmf".toList)) := by
  induction cols with
  | nil => intro d _ e; simp
  | cons s cols ih =>
    intro d hd e
    rw [List.foldl_cons]
    by_cases h : Pat.search atmfPattern (lower s) = true
    · rw [if_pos h]
      have hset : ∀ e, e ∈ dictSet d s "atmf".toList ↔ e ∈ d ∨ e = (s, "atmf".toList) := by
        intro e
        unfold dictSet
        by_cases hk : s ∈ d.map (·.1)
        · rw [if_pos hk]
          have hid : d.map (fun e => if e.1 = s then (s, "atmf".toList) else e) = d := by
            conv_rhs => rw [← List.map_id d]
            refine List.map_congr_left (fun x hx => ?_)
            by_cases hxs : x.1 = s
            · rw [if_pos hxs, ← hxs, ← hd x hx]; rfl
            · rw [if_neg hxs]; rfl
          rw [hid]
          refine ⟨Or.inl, fun hc => hc.elim id (fun he => ?_)⟩
          obtain ⟨x, hx, hxs⟩ := List.mem_map.mp hk
          have : x = (s, "atmf".toList) := Prod.ext hxs (hd x hx)
          rw [he, ← this]; exact hx
        · rw [if_neg hk, List.mem_append, List.mem_singleton]
      rw [ih _ (fun x hx => by
        rcases (hset x).mp hx with hx | hx
        · exact hd x hx
        · rw [hx]) e, hset]
      rw [mentionsAtm_iff] at h
      constructor
      · rintro ((hc | hc) | ⟨h1, h2, h3⟩)
        · exact .inl hc
        · rw [hc]; exact .inr ⟨List.mem_cons_self, h, rfl⟩
        · exact .inr ⟨List.mem_cons_of_mem _ h1, h2, h3⟩
      · rintro (hc | ⟨h1, h2, h3⟩)
        · exact .inl (.inl hc)
        · rcases List.mem_cons.mp h1 with h1 | h1
          · exact .inl (.inr (Prod.ext h1 h3))
          · exact .inr ⟨h1, h2, h3⟩
    · rw [if_neg h, ih d hd e]
      rw [mentionsAtm_iff] at h
      constructor
      · rintro (hc | ⟨h1, h2, h3⟩)
        · exact .inl hc
        · exact .inr ⟨List.mem_cons_of_mem _ h1, h2, h3⟩
      · rintro (hc | ⟨h1, h2, h3⟩)
        · exact .inl hc
        · rcases List.mem_cons.mp h1 with h1 | h1
          · exact absurd (h1 ▸ h2) h
          · exact .inr ⟨h1, h2, h3⟩

private theorem dictSet_keys {α : Type} {d : List (Str × α)} (k : Str) (v : α) (h : (d.map (·.1)).Nodup) :
    ((dictSet d k v).map (·.1)).Nodup := by
  unfold dictSet
  by_cases hk : k ∈ d.map (·.1)
  · rw [if_pos hk, List.map_map]
    have : (fun x : Str × α => x.1) ∘ (fun e => if e.1 = k then (k, v) else e) = (·.1) := by
      funext x
      by_cases hx : x.1 = k
      · simp only [Function.comp_apply, if_pos hx]; exact hx.symm
      · simp only [Function.comp_apply, if_neg hx]
    rw [this]; exact h
  · rw [if_neg hk, List.map_append, List.nodup_append]
    refine ⟨h, (by simp), ?_⟩
    intro a ha b hb hab
    rw [List.map_singleton, List.mem_singleton] at hb
    have hb : b = k := hb
    rw [hab, hb] at ha
    exact hk ha

private theorem atm_nodup (cols : List Str) : ∀ d : List (Str × Str), (d.map (·.1)).Nodup →
    ((cols.foldl (fun d s => if Pat.search atmfPattern (lower s) then dictSet d s "atmf".toList else d) d).map (·.1)).Nodup := by
  induction cols with
  | nil => intro d h; exact h
  | cons s cols ih =>
    intro d h
    rw [List.foldl_cons]
    apply ih
    by_cases hc : Pat.search atmfPattern (lower s) = true
    · rw [if_pos hc]; exact dictSet_keys _ _ h
    · rw [if_neg hc]; exact h

/-- The dictionary of the at-the-money headings. -/
private theorem atmf_iff (cols : List Str) (d : List (Str × Str)) :
    atmfHeadings cols = .ok d ↔ ∃ a, d = [(a, "atmf".toList)] ∧ a ∈ cols ∧ MentionsAtm a ∧ ∀ s ∈ cols, MentionsAtm s → s = a := by
  have hmem := atm_fold cols [] (by intro e he; cases he)
  have hnd := atm_nodup cols [] (by simp)
  unfold atmfHeadings
  simp only
  generalize cols.foldl (fun d s => if Pat.search atmfPattern (lower s) then dictSet d s "atmf".toList else d) [] = D at hmem hnd
  constructor
  · intro h
    by_cases hl : D.length = 1
    · rw [if_pos hl] at h
      obtain ⟨e, rfl⟩ := List.length_eq_one_iff.mp hl
      have he := (hmem e).mp List.mem_cons_self
      rcases he with he | ⟨h1, h2, h3⟩
      · cases he
      · injection h with h
        refine ⟨e.1, ?_, h1, h2, fun s hs hm => ?_⟩
        · rw [← h, ← h3]
        · have := (hmem (s, "atmf".toList)).mpr (.inr ⟨hs, hm, rfl⟩)
          rw [List.mem_singleton] at this
          rw [← this]
    · rw [if_neg hl] at h; cases h
  · rintro ⟨a, rfl, ha, hm, hu⟩
    have hin := (hmem (a, "atmf".toList)).mpr (.inr ⟨ha, hm, rfl⟩)
    have hall : ∀ e ∈ D, e = (a, "atmf".toList) := by
      intro e he
      rcases (hmem e).mp he with h | ⟨h1, h2, h3⟩
      · cases h
      · exact Prod.ext (hu e.1 h1 h2) h3
    have hD : D = [(a, "atmf".toList)] := by
      cases D with
      | nil => cases hin
      | cons x xs =>
        have hx := hall x List.mem_cons_self
        cases xs with
        | nil => rw [hx]
        | cons y ys =>
          have hy := hall y (List.mem_cons_of_mem _ List.mem_cons_self)
          rw [List.map_cons, List.map_cons, hx, hy, List.nodup_cons] at hnd
          exact absurd List.mem_cons_self hnd.1
    rw [hD]; rfl

private theorem quoteColumns_error {fl : ℚ → ℚ} {r : ℚ → Str} (cols : List Str) :
    ∀ acc e, quoteColumns fl r cols acc = .error e → e = .value := by
  induction cols with
  | nil => intro acc e h; cases h
  | cons s cols ih =>
    intro acc e h
    rw [quoteColumns] at h
    cases hq : quoteColumn fl r s with
    | error e' =>
      rw [hq] at h
      injection h with h
      rw [← h]
      unfold quoteColumn at hq
      by_cases ha : Pat.search bpsPattern (lower s) = true
      · rw [if_pos ha] at hq
        cases hp : parseFloat (removeStr [' '] (removeStr "bp".toList (removeStr "bps".toList s))) with
        | none => rw [hp] at hq; injection hq with hq; exact hq.symm
        | some x => rw [hp] at hq; cases hq
      · rw [if_neg ha] at hq
        by_cases hb : Pat.search percentPattern (lower s) = true
        · rw [if_pos hb] at hq
          cases hp : parseFloat (removeStr [' '] (removeStr ['%'] s)) with
          | none => rw [hp] at hq; injection hq with hq; exact hq.symm
          | some x => rw [hp] at hq; cases hq
        · rw [if_neg hb] at hq; cases hq
    | ok o =>
      rw [hq] at h
      cases o with
      | none => exact ih _ _ h
      | some p => exact ih _ _ h

/-- **Relative quotes need exactly one at-the-money heading**: the assertion fails otherwise, and only then. -/
theorem C85_one_atm (fl : ℚ → ℚ) (r : ℚ → Str) (cols : List Str) :
    relativeHeadings fl r cols = .error .assertion ↔ ¬ ∃ a, a ∈ cols ∧ MentionsAtm a ∧ ∀ s ∈ cols, MentionsAtm s → s = a := by
  unfold relativeHeadings
  cases h : atmfHeadings cols with
  | error e =>
    simp only
    have he : e = .assertion := by
      unfold atmfHeadings at h
      simp only at h
      split at h
      · cases h
      · injection h with h; exact h.symm
    rw [he]
    refine ⟨fun _ => ?_, fun _ => rfl⟩
    rintro ⟨a, ha⟩
    rw [(atmf_iff cols _).mpr ⟨a, rfl, ha⟩] at h
    cases h
  | ok d =>
    simp only
    obtain ⟨a, -, ha⟩ := (atmf_iff cols d).mp h
    refine ⟨fun hq => ?_, fun hn => absurd ⟨a, ha⟩ hn⟩
    have := quoteColumns_error cols _ _ hq
    cases this

/-- The style the source documents, `ATM` and `ATM+50bps`, is refused: both headings count as at the money. -/
theorem C85_documented_style_refused (fl : ℚ → ℚ) (r : ℚ → Str) (cols : List Str) {s : Str} (h1 : "ATM".toList ∈ cols) (hs : s ∈ cols)
    (hne : s ≠ "ATM".toList) (hm : MentionsAtm s) : relativeHeadings fl r cols = .error .assertion := by
  rw [C85_one_atm]
  rintro ⟨a, -, -, hu⟩
  have hA : MentionsAtm "ATM".toList :=
    ⟨[], "a".toList, [], "t".toList, [], [], (by decide), .inl rfl, .inl rfl, .inl rfl, .inl rfl⟩
  exact hne ((hu s hs hm).trans (hu _ h1 hA).symm)

example : MentionsAtm "ATM+50bps".toList :=
  ⟨[], "a".toList, [], "t".toList, [], "+50bps".toList, (by decide), .inl rfl, .inl rfl, .inl rfl, .inl rfl⟩
example : MentionsAtm "At-The-Money Forward".toList :=
  ⟨[], "at".toList, ['-'], "the".toList, ['-'], "oney forward".toList, (by decide), .inr rfl, .inr rfl, .inr (.inr rfl),
    .inr (.inr rfl)⟩

/-- The heading a number of basis points is renamed to. -/
private abbrev newHeading (fl : ℚ → ℚ) (n : Int) : Str := intStr (truncRat (fl (fl (n / 10000) * 10000))) ++ "bps".toList

/-- What is asked of the headings of a table: the at-the-money one has no digit, the others state basis points. -/
def BpsTable (kinds : List (Str × Option Int)) : Prop :=
  ∀ p ∈ kinds, match p.2 with
    | none => MentionsAtm p.1 ∧ ∀ c ∈ p.1, c.isDigit = false
    | some n => StatesBps p.1 n ∧ |n| ≤ 10 ^ 6

private theorem toLower_isDigit {c : Char} : c.toLower.isDigit = c.isDigit := by
  by_cases h : c.isDigit = true
  · rw [toLower_digit h]
  · rw [Bool.not_eq_true] at h
    rw [h]
    unfold Char.toLower
    split
    · rename_i hc
      unfold Char.isDigit
      simp only [ge_iff_le, UInt32.le_iff_toNat_le, Bool.and_eq_false_iff, decide_eq_false_iff_not] at hc ⊢
      right
      have h2 : ('A' : Char).val.toNat = 65 := rfl
      have h3 : ('Z' : Char).val.toNat = 90 := rfl
      have h4 : ('9' : Char).val.toNat = 57 := rfl
      have h5 : (('a' : Char).val - ('A' : Char).val).toNat = 32 := rfl
      rw [UInt32.toNat_add, h5]
      omega
    · exact h

private theorem noDigit_untouched {fl : ℚ → ℚ} {r : ℚ → Str} {s : Str} (h : ∀ c ∈ s, c.isDigit = false) :
    quoteColumn fl r s = .ok none := by
  rw [C85_untouched]
  have key : ∀ u : Str, ¬ MentionsNumber u s := by
    rintro u ⟨pre, d, sp, post, he, hd, -⟩
    have hm : d ∈ s.map Char.toLower := by
      rw [he]; simp
    obtain ⟨c, hc, rfl⟩ := List.mem_map.mp hm
    rw [toLower_isDigit, h c hc] at hd
    cases hd
  exact ⟨key _, key _⟩

private theorem bps_not_atm {s : Str} {n : Int} (hs : StatesBps s n) : ¬ MentionsAtm s := by
  obtain ⟨sgn, ds, sp, unit, rfl, hsgn, ⟨hne, hds⟩, hsp, hunit, hval⟩ := hs
  have hunit' : unit = "bps".toList ∨ unit = "bp".toList := by simpa using hunit
  rintro ⟨pre, a, x, t, y, post, he, ha, -⟩
  have he' : lower (sgn ++ ds ++ sp ++ unit) = pre ++ a ++ x ++ t ++ y ++ "m".toList ++ post := he
  rw [lower_append, lower_append, lower_append, sign_lower hsgn, lower_digits hds, sp_lower hsp] at he'
  have hin : 'a' ∈ sgn ++ ds ++ sp ++ lower unit := by
    rw [he']
    have : 'a' ∈ a := by rcases ha with rfl | rfl <;> decide
    simp [this]
  rcases List.mem_append.mp hin with hin | hin
  · rcases List.mem_append.mp hin with hin | hin
    · rcases List.mem_append.mp hin with hin | hin
      · rcases hsgn with rfl | rfl | rfl <;> revert hin <;> decide
      · exact unit_not_digit hds (by decide) hin
    · rcases hsp with rfl | rfl <;> revert hin <;> decide
  · rcases hunit' with rfl | rfl <;> revert hin <;> decide

private theorem dictSet_new {α : Type} {d : List (Str × α)} {k : Str} (v : α) (h : k ∉ d.map (·.1)) :
    dictSet d k v = d ++ [(k, v)] := by
  unfold dictSet
  rw [if_neg h]

private theorem table_loop {fl : ℚ → ℚ} (hfl : IsRounding fl) (r : ℚ → Str) (kinds : List (Str × Option Int)) :
    BpsTable kinds → ∀ (R : List (Str × Str)) (V : List (Str × ℚ)),
    (kinds.map (·.1)).Nodup → (∀ p ∈ kinds, p.2 ≠ none → p.1 ∉ R.map (·.1)) →
    ((kinds.filterMap (·.2)).map (newHeading fl)).Nodup → (∀ n ∈ kinds.filterMap (·.2), newHeading fl n ∉ V.map (·.1)) →
    quoteColumns fl r (kinds.map (·.1)) ⟨R, V⟩ = .ok
      ⟨R ++ kinds.filterMap (fun p => p.2.map (fun n => (p.1, newHeading fl n))),
       V ++ (kinds.filterMap (·.2)).map (fun n => (newHeading fl n, fl (n / 10000)))⟩ := by
  induction kinds with
  | nil => intro _ R V _ _ _ _; simp [quoteColumns]
  | cons p kinds ih =>
    intro hk R V hnd hR hnames hV
    obtain ⟨s, o⟩ := p
    have hk' : BpsTable kinds := fun q hq => hk q (List.mem_cons_of_mem _ hq)
    have hp := hk (s, o) List.mem_cons_self
    rw [List.map_cons, List.nodup_cons] at hnd
    rw [List.map_cons, quoteColumns]
    cases o with
    | none =>
      simp only at hp
      rw [noDigit_untouched hp.2]
      simp only
      rw [List.filterMap_cons_none rfl] at hnames hV
      rw [ih hk' R V hnd.2 (fun q hq => hR q (List.mem_cons_of_mem _ hq)) hnames hV, List.filterMap_cons_none rfl,
        List.filterMap_cons_none rfl]
    | some n =>
      simp only at hp
      rw [C85_bps hfl r hp.1 hp.2]
      simp only
      rw [List.filterMap_cons_some (f := (·.2)) (a := (s, some n)) (b := n) rfl, List.map_cons, List.nodup_cons] at hnames
      have h1 : s ∉ R.map (·.1) := hR (s, some n) List.mem_cons_self (by simp)
      have h2 : newHeading fl n ∉ V.map (·.1) := hV n (by rw [List.filterMap_cons_some (f := (·.2)) (a := (s, some n)) (b := n) rfl]; exact List.mem_cons_self)
      rw [dictSet_new _ h1, dictSet_new _ h2]
      rw [ih hk' _ _ hnd.2 ?_ hnames.2 ?_, List.filterMap_cons_some (a := (s, some n)) (b := (s, newHeading fl n)) rfl,
        List.filterMap_cons_some (f := (·.2)) (a := (s, some n)) (b := n) rfl,
        List.map_cons, List.append_assoc, List.append_assoc]
      · rfl
      · intro q hq hq2
        rw [List.map_append, List.mem_append, not_or]
        refine ⟨hR q (List.mem_cons_of_mem _ hq) hq2, ?_⟩
        rw [List.map_singleton, List.mem_singleton]
        intro heq
        exact hnd.1 (heq ▸ List.mem_map_of_mem hq)
      · intro m hm
        rw [List.map_append, List.mem_append, not_or]
        refine ⟨hV m (by rw [List.filterMap_cons_some (f := (·.2)) (a := (s, some n)) (b := n) rfl]; exact List.mem_cons_of_mem _ hm), ?_⟩
        rw [List.map_singleton, List.mem_singleton]
        intro heq
        have heq : newHeading fl m = newHeading fl n := heq
        rw [← heq] at hnames
        exact hnames.1 (List.mem_map_of_mem hm)

private theorem newHeading_ne_atmf {fl : ℚ → ℚ} {n : Int} : newHeading fl n ≠ "atmf".toList := by
  intro h
  have := congrArg List.getLast? h
  rw [newHeading, List.getLast?_append] at this
  have h1 : "bps".toList.getLast? = some 's' := rfl
  have h2 : "atmf".toList.getLast? = some 'f' := rfl
  rw [h1, h2, Option.some_or] at this
  exact absurd (Option.some.inj this) (by decide)

/-- **The table of relative quotes**, for any floats: if one heading is at the money, the others state basis points, and the new
headings differ, then every heading is renamed in place, and the at-the-money heading gets the offset 0 and every other the offset
it states. -/
theorem C85_table {fl : ℚ → ℚ} (hfl : IsRounding fl) (r : ℚ → Str) (kinds : List (Str × Option Int)) (hk : BpsTable kinds)
    (hnd : (kinds.map (·.1)).Nodup) {a : Str} (ha : kinds.filter (fun p => p.2 = none) = [(a, none)])
    (hnames : ((kinds.filterMap (·.2)).map
      (fun n : Int => intStr (truncRat (fl (fl (n / 10000) * 10000))) ++ "bps".toList)).Nodup) :
    relativeHeadings fl r (kinds.map (·.1)) = .ok
      ⟨(a, "atmf".toList) :: kinds.filterMap (fun p => p.2.map (fun n : Int =>
          (p.1, intStr (truncRat (fl (fl (n / 10000) * 10000))) ++ "bps".toList))),
       ("atmf".toList, 0) :: (kinds.filterMap (·.2)).map (fun n : Int =>
          (intStr (truncRat (fl (fl (n / 10000) * 10000))) ++ "bps".toList, fl (n / 10000)))⟩ := by
  have hain : (a, none) ∈ kinds := by
    have : (a, none) ∈ kinds.filter (fun p => p.2 = none) := by rw [ha]; exact List.mem_cons_self
    exact (List.mem_filter.mp this).1
  have hatm : atmfHeadings (kinds.map (·.1)) = .ok [(a, "atmf".toList)] := by
    rw [atmf_iff]
    refine ⟨a, rfl, List.mem_map_of_mem hain, (hk _ hain).1, ?_⟩
    intro s hs hm
    obtain ⟨⟨s', o⟩, hp, rfl⟩ := List.mem_map.mp hs
    cases o with
    | some n => exact absurd hm (bps_not_atm (hk _ hp).1)
    | none =>
      have : (s', none) ∈ kinds.filter (fun p => p.2 = none) := List.mem_filter.mpr ⟨hp, by simp⟩
      rw [ha, List.mem_singleton] at this
      exact congrArg Prod.fst this
  unfold relativeHeadings
  rw [hatm]
  simp only
  rw [table_loop hfl r kinds hk _ _ hnd ?_ hnames ?_]
  · rfl
  · intro p hp hne
    rw [List.map_singleton, List.mem_singleton]
    intro heq
    obtain ⟨s, o⟩ := p
    cases o with
    | none => exact hne rfl
    | some n =>
      have heq : s = a := heq
      subst heq
      exact bps_not_atm (hk _ hp).1 (hk _ hain).1
  · intro n _
    rw [List.map_singleton, List.mem_singleton]
    exact newHeading_ne_atmf

/-- **In exact arithmetic** different offsets in basis points always stay apart. -/
theorem C85_table_exact (r : ℚ → Str) (kinds : List (Str × Option Int)) (hk : BpsTable kinds) (hnd : (kinds.map (·.1)).Nodup)
    {a : Str} (ha : kinds.filter (fun p => p.2 = none) = [(a, none)]) (hn : (kinds.filterMap (·.2)).Nodup) :
    relativeHeadings id r (kinds.map (·.1)) = .ok
      ⟨(a, "atmf".toList) :: kinds.filterMap (fun p => p.2.map (fun n => (p.1, intStr n ++ "bps".toList))),
       ("atmf".toList, 0) :: (kinds.filterMap (·.2)).map (fun n : Int => (intStr n ++ "bps".toList, (n : ℚ) / 10000))⟩ := by
  have hname : ∀ n : Int, intStr (truncRat (id (id ((n : ℚ) / 10000) * 10000))) ++ "bps".toList = intStr n ++ "bps".toList := by
    intro n
    have e : (id (id ((n : ℚ) / 10000) * 10000) : ℚ) = n := by simp
    rw [e]
    unfold truncRat
    rw [Int.floor_intCast, Int.ceil_intCast, ite_self]
  have h := C85_table C85_exact_isRounding r kinds hk hnd ha (by
    rw [List.map_congr_left (fun n _ => hname n)]
    exact hn.map (fun n m he => intStr_injective (List.append_cancel_right he)))
  rw [h]
  simp only [hname]
  rfl

example : BpsTable [("ATM".toList, none), ("-50 bps".toList, some (-50)), ("+25bp".toList, some 25)] := by
  intro p hp
  rcases List.mem_cons.mp hp with rfl | hp
  · exact ⟨⟨[], "a".toList, [], "t".toList, [], [], (by decide), .inl rfl, .inl rfl, .inl rfl, .inl rfl⟩, by decide⟩
  rcases List.mem_cons.mp hp with rfl | hp
  · exact ⟨⟨['-'], ['5', '0'], [' '], "bps".toList, rfl, .inr (.inr rfl), ⟨by decide, by decide⟩, .inr rfl, by simp, by decide⟩,
      by norm_num⟩
  rw [List.mem_singleton] at hp
  subst hp
  exact ⟨⟨['+'], ['2', '5'], [], "bp".toList, rfl, .inr (.inl rfl), ⟨by decide, by decide⟩, .inl rfl, by simp, by decide⟩,
    by norm_num⟩

/-- In floating point they do not: the quotes at 2 and at 3 basis points end up in columns of the same name, tied to 3 basis points. -/
theorem C85_offsets_collide :
    relativeHeadings binary64 (fun _ => []) ["ATM".toList, "2bps".toList, "3bps".toList] = .ok
      ⟨[("ATM".toList, "atmf".toList), ("2bps".toList, "2bps".toList), ("3bps".toList, "2bps".toList)],
       [("atmf".toList, 0), ("2bps".toList, binary64 (3 / 10000))]⟩ := by
  decide +kernel

/-- **Per cent and basis points collide**, even in exact arithmetic: `n%` and `n bps` get the same heading, although the offsets
differ by a factor of a hundred; the later of the two wins. -/
theorem C85_percent_collides (r : ℚ → Str) {s t : Str} {n : Int} (hs : StatesPercent s n) (ht : StatesBps t n) (hn : |n| ≤ 10 ^ 6) :
    absoluteHeadings id r [s, t] = .ok ⟨dictSet [(s, intStr n ++ "bps".toList)] t (intStr n ++ "bps".toList),
      [(intStr n ++ "bps".toList, (n : ℚ) / 10000)]⟩ ∧
    absoluteHeadings id r [t, s] = .ok ⟨dictSet [(t, intStr n ++ "bps".toList)] s (intStr n ++ "bps".toList),
      [(intStr n ++ "bps".toList, (n : ℚ) / 100)]⟩ := by
  have h1 : quoteColumn id r s = .ok (some (intStr n ++ "bps".toList, (n : ℚ) / 100)) := by
    rw [C85_percent C85_exact_isRounding r hs hn]
    have : truncRat (id (id ((n : ℚ) / 100) * 100)) = n := by
      have e : (id (id ((n : ℚ) / 100) * 100) : ℚ) = n := by simp
      rw [e]
      unfold truncRat
      rw [Int.floor_intCast, Int.ceil_intCast, ite_self]
    rw [this]
    rfl
  have h2 := C85_bps_exact r ht hn
  unfold absoluteHeadings
  constructor
  · simp only [quoteColumns, h1, h2]
    simp [dictSet]
  · simp only [quoteColumns, h1, h2]
    simp [dictSet]

end Frm.Props
