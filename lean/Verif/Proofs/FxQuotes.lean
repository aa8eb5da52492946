import Mathlib.Data.List.Sort
import Mathlib.Data.List.Infix
import Verif.Model.FxHelpers

/-! # Lemmas about tables of quotes -/

namespace Frm

set_option autoImplicit false

def sufPut : Str := "_delta_put".toList
def sufCall : Str := "_delta_call".toList
def sufBf : Str := "_delta_butterfly".toList
def sufRr : Str := "_delta_riskreversal".toList
def atmName : Str := "atm_delta_neutral".toList

theorem rev_take (d s : Str) (h : 3 ≤ s.length) : (d ++ s).reverse.take 3 = s.reverse.take 3 := by
  rw [List.reverse_append, List.take_append_of_le_length (by simpa using h)]

theorem suffix_ne {d d' s s' : Str} (hs : 3 ≤ s.length) (hs' : 3 ≤ s'.length) (h : s.reverse.take 3 ≠ s'.reverse.take 3) :
    d ++ s ≠ d' ++ s' := by
  intro he
  have := congrArg (fun l => l.reverse.take 3) he
  simp only [rev_take _ _ hs, rev_take _ _ hs'] at this
  exact h this

theorem put_ne_call (d d' : Str) : d ++ sufPut ≠ d' ++ sufCall := suffix_ne (by decide) (by decide) (by decide)
theorem put_ne_bf (d d' : Str) : d ++ sufPut ≠ d' ++ sufBf := suffix_ne (by decide) (by decide) (by decide)
theorem put_ne_rr (d d' : Str) : d ++ sufPut ≠ d' ++ sufRr := suffix_ne (by decide) (by decide) (by decide)
theorem call_ne_bf (d d' : Str) : d ++ sufCall ≠ d' ++ sufBf := suffix_ne (by decide) (by decide) (by decide)
theorem call_ne_rr (d d' : Str) : d ++ sufCall ≠ d' ++ sufRr := suffix_ne (by decide) (by decide) (by decide)
theorem bf_ne_rr (d d' : Str) : d ++ sufBf ≠ d' ++ sufRr := suffix_ne (by decide) (by decide) (by decide)

theorem atm_ne {s : Str} (hs : 3 ≤ s.length) (h : atmName.reverse.take 3 ≠ s.reverse.take 3) (d : Str) : atmName ≠ d ++ s := by
  have := suffix_ne (d := []) (d' := d) (s := atmName) (s' := s) (by decide) hs h
  simpa using this

theorem atm_ne_put (d : Str) : atmName ≠ d ++ sufPut := atm_ne (by decide) (by decide) d
theorem atm_ne_call (d : Str) : atmName ≠ d ++ sufCall := atm_ne (by decide) (by decide) d
theorem atm_ne_bf (d : Str) : atmName ≠ d ++ sufBf := atm_ne (by decide) (by decide) d
theorem atm_ne_rr (d : Str) : atmName ≠ d ++ sufRr := atm_ne (by decide) (by decide) d

theorem lookup_append_single (t : QuoteTable) (n name : Str) (v : List (Option Rat)) :
    (t ++ [(name, v)]).lookup n = (t.lookup n).or (if n = name then some v else none) := by
  rw [List.lookup_append]
  congr 1
  by_cases h : n = name
  · subst h; simp [List.lookup_cons]
  · have hb : (n == name) = false := by simpa using h
    rw [List.lookup_cons, hb, if_neg h]; rfl

theorem lookup_filter (t : QuoteTable) (p : Str → Bool) (n : Str) :
    (t.filter (fun c => p c.1)).lookup n = if p n then t.lookup n else none := by
  induction t with
  | nil => simp
  | cons c t ih =>
    obtain ⟨m, v⟩ := c
    by_cases hp : p m
    · rw [List.filter_cons_of_pos (by simpa using hp), List.lookup_cons, List.lookup_cons, ih]
      by_cases hn : n = m
      · subst hn; simp [hp]
      · have hb : (n == m) = false := by simpa using hn
        simp [hb]
    · rw [List.filter_cons_of_neg (by simpa using hp), List.lookup_cons, ih]
      by_cases hn : n = m
      · subst hn; simp [hp]
      · have hb : (n == m) = false := by simpa using hn
        simp [hb]

/-- `atm + bf + half * rr`, row by row. -/
def wing (t : QuoteTable) (d : Str) (half : Rat) : List (Option Rat) :=
  List.zipWith (fun a p => wingQuote half a p.1 p.2) ((t.lookup atmName).getD [])
    (((t.lookup (d ++ sufBf)).getD []).zip ((t.lookup (d ++ sufRr)).getD []))

theorem get_eq (t : QuoteTable) (n : Str) : t.get n = if (t.lookup n).isSome then .ok ((t.lookup n).getD []) else .error .key := by
  unfold QuoteTable.get
  cases t.lookup n <;> rfl

/-- Presence of the three columns a delta needs. -/
def TableReady (t : QuoteTable) (d : Str) : Prop :=
  (t.lookup atmName).isSome ∧ (t.lookup (d ++ sufBf)).isSome ∧ (t.lookup (d ++ sufRr)).isSome

theorem addWing_ok {t : QuoteTable} {d name : Str} {half : Rat} (h : TableReady t d) :
    ∃ t', addWing t d name half = .ok t' ∧ ∀ n, t'.lookup n =
      (t.lookup n).or (if n = name then some (wing t d half) else none) := by
  unfold addWing
  by_cases hn : (t.lookup name).isSome
  · rw [if_pos hn]
    refine ⟨t, rfl, ?_⟩
    intro n
    by_cases he : n = name
    · subst he
      obtain ⟨v, hv⟩ := Option.isSome_iff_exists.mp hn
      rw [hv]; rfl
    · rw [if_neg he]; simp
  · rw [if_neg hn]
    obtain ⟨h1, h2, h3⟩ := h
    have e1 : t.get "atm_delta_neutral".toList = .ok ((t.lookup atmName).getD []) := by
      rw [get_eq]; exact if_pos h1
    have e2 : t.get (d ++ "_delta_butterfly".toList) = .ok ((t.lookup (d ++ sufBf)).getD []) := by
      rw [get_eq]; exact if_pos h2
    have e3 : t.get (d ++ "_delta_riskreversal".toList) = .ok ((t.lookup (d ++ sufRr)).getD []) := by
      rw [get_eq]; exact if_pos h3
    simp only [bind, Except.bind, e1, e2, e3]
    exact ⟨_, rfl, fun n => lookup_append_single t n name _⟩

theorem strategyStep_ok {t : QuoteTable} {d : Str} (h : TableReady t d) :
    ∃ t', strategyStep t d = .ok t' ∧ ∀ n, t'.lookup n =
      if n = d ++ sufBf ∨ n = d ++ sufRr then none
      else (t.lookup n).or (if n = d ++ sufPut then some (wing t d (-1 / 2))
        else if n = d ++ sufCall then some (wing t d (1 / 2)) else none) := by
  obtain ⟨t1, e1, l1⟩ := addWing_ok (name := d ++ sufPut) (half := -1 / 2) h
  have hr1 : TableReady t1 d ∧ wing t1 d (1 / 2) = wing t d (1 / 2) := by
    have a1 : t1.lookup atmName = t.lookup atmName := by rw [l1, if_neg (atm_ne_put d)]; simp
    have a2 : t1.lookup (d ++ sufBf) = t.lookup (d ++ sufBf) := by rw [l1, if_neg (put_ne_bf d d).symm]; simp
    have a3 : t1.lookup (d ++ sufRr) = t.lookup (d ++ sufRr) := by rw [l1, if_neg (put_ne_rr d d).symm]; simp
    refine ⟨?_, ?_⟩
    · unfold TableReady; rw [a1, a2, a3]; exact h
    · unfold wing; rw [a1, a2, a3]
  obtain ⟨t2, e2, l2⟩ := addWing_ok (name := d ++ sufCall) (half := 1 / 2) hr1.1
  rw [hr1.2] at l2
  have b2 : (t2.lookup (d ++ sufBf)).isSome := by
    rw [l2, l1, if_neg (put_ne_bf d d).symm, if_neg (call_ne_bf d d).symm]; simpa using h.2.1
  have b3 : (t2.lookup (d ++ sufRr)).isSome := by
    rw [l2, l1, if_neg (put_ne_rr d d).symm, if_neg (call_ne_rr d d).symm]; simpa using h.2.2
  refine ⟨t2.filter (fun c => c.1 != d ++ sufBf && c.1 != d ++ sufRr), ?_, ?_⟩
  · unfold strategyStep
    change (addWing t d (d ++ sufPut) (-1 / 2)).bind _ = _
    rw [e1]
    change (addWing t1 d (d ++ sufCall) (1 / 2)).bind _ = _
    rw [e2]
    change dropStrategies t2 d = _
    unfold dropStrategies
    change (if (t2.lookup (d ++ sufBf)).isSome && (t2.lookup (d ++ sufRr)).isSome then _ else _) = _
    rw [if_pos (by rw [b2, b3]; rfl)]
    rfl
  · intro n
    rw [lookup_filter t2 (fun m => m != d ++ sufBf && m != d ++ sufRr) n]
    by_cases hn : n = d ++ sufBf ∨ n = d ++ sufRr
    · rw [if_pos hn, if_neg]
      rcases hn with rfl | rfl <;> simp
    · rw [if_neg hn, if_pos (by rw [not_or] at hn; simp [hn.1, hn.2]), l2, l1]
      by_cases hp : n = d ++ sufPut
      · rw [if_pos hp, if_pos hp, if_neg (by rw [hp]; exact put_ne_call d d)]
        cases t.lookup n <;> rfl
      · rw [if_neg hp, if_neg hp]; simp

theorem strategyFold_ok {ds : List Str} : ∀ {t : QuoteTable}, ds.Nodup → (∀ d ∈ ds, TableReady t d) →
    ∃ out, ds.foldlM strategyStep t = .ok out ∧ ∀ n,
      ((∃ d ∈ ds, n = d ++ sufBf ∨ n = d ++ sufRr) → out.lookup n = none) ∧
      ((¬ ∃ d ∈ ds, n = d ++ sufBf ∨ n = d ++ sufRr) → (∀ v, t.lookup n = some v → out.lookup n = some v) ∧
        (t.lookup n = none → (∀ d ∈ ds, n = d ++ sufPut → out.lookup n = some (wing t d (-1 / 2))) ∧
          (∀ d ∈ ds, n = d ++ sufCall → out.lookup n = some (wing t d (1 / 2))) ∧
          ((∀ d ∈ ds, n ≠ d ++ sufPut ∧ n ≠ d ++ sufCall) → out.lookup n = none))) := by
  induction ds with
  | nil =>
    intro t _ _
    refine ⟨t, rfl, fun n => ⟨by simp, fun _ => ⟨fun v h => h, fun h => ⟨by simp, by simp, fun _ => h⟩⟩⟩⟩
  | cons d ds ih =>
    intro t hnd hr
    obtain ⟨hd, hnd'⟩ := List.nodup_cons.mp hnd
    obtain ⟨t1, e1, l1⟩ := strategyStep_ok (hr d (by simp))
    have hne : ∀ e ∈ ds, e ≠ d := fun e he hc => hd (hc ▸ he)
    have keep : ∀ e ∈ ds, t1.lookup atmName = t.lookup atmName ∧ t1.lookup (e ++ sufBf) = t.lookup (e ++ sufBf) ∧
        t1.lookup (e ++ sufRr) = t.lookup (e ++ sufRr) := by
      intro e he
      refine ⟨?_, ?_, ?_⟩
      · rw [l1, if_neg (by rintro (h | h); exacts [atm_ne_bf d h, atm_ne_rr d h]), if_neg (atm_ne_put d), if_neg (atm_ne_call d)]
        simp
      · rw [l1, if_neg (by
          rintro (h | h)
          · exact hne e he (List.append_cancel_right h)
          · exact bf_ne_rr e d h), if_neg (put_ne_bf d e).symm, if_neg (call_ne_bf d e).symm]
        simp
      · rw [l1, if_neg (by
          rintro (h | h)
          · exact bf_ne_rr d e h.symm
          · exact hne e he (List.append_cancel_right h)), if_neg (put_ne_rr d e).symm, if_neg (call_ne_rr d e).symm]
        simp
    have hr1 : ∀ e ∈ ds, TableReady t1 e := by
      intro e he
      obtain ⟨a1, a2, a3⟩ := keep e he
      unfold TableReady; rw [a1, a2, a3]; exact hr e (by simp [he])
    have hw : ∀ e ∈ ds, ∀ half, wing t1 e half = wing t e half := by
      intro e he half
      obtain ⟨a1, a2, a3⟩ := keep e he
      unfold wing; rw [a1, a2, a3]
    obtain ⟨out, eo, lo⟩ := ih hnd' hr1
    refine ⟨out, ?_, ?_⟩
    · rw [List.foldlM_cons]
      change (strategyStep t d).bind _ = _
      rw [e1]; exact eo
    intro n
    obtain ⟨lo1, lo2⟩ := lo n
    have hl1 := l1 n
    constructor
    · rintro ⟨e, he, hn⟩
      by_cases hin : ∃ d ∈ ds, n = d ++ sufBf ∨ n = d ++ sufRr
      · exact lo1 hin
      · obtain ⟨-, lo3⟩ := lo2 hin
        rcases List.mem_cons.mp he with rfl | he
        · rw [if_pos hn] at hl1
          obtain ⟨-, -, lo4⟩ := lo3 hl1
          apply lo4
          intro d' _
          constructor
          · rintro rfl; rcases hn with h | h
            · exact put_ne_bf d' e h
            · exact put_ne_rr d' e h
          · rintro rfl; rcases hn with h | h
            · exact call_ne_bf d' e h
            · exact call_ne_rr d' e h
        · exact absurd ⟨e, he, hn⟩ hin
    · intro hno
      have hin : ¬ ∃ d ∈ ds, n = d ++ sufBf ∨ n = d ++ sufRr := by
        rintro ⟨e, he, hn⟩; exact hno ⟨e, by simp [he], hn⟩
      have hnd0 : ¬ (n = d ++ sufBf ∨ n = d ++ sufRr) := fun h => hno ⟨d, by simp, h⟩
      obtain ⟨lo3, lo4⟩ := lo2 hin
      rw [if_neg hnd0] at hl1
      refine ⟨?_, ?_⟩
      · intro v hv
        rw [hv] at hl1
        exact lo3 v hl1
      · intro hnone
        rw [hnone] at hl1
        simp only [Option.none_or] at hl1
        refine ⟨?_, ?_, ?_⟩
        · intro e he hn
          rcases List.mem_cons.mp he with rfl | he
          · rw [if_pos hn] at hl1
            exact lo3 _ hl1
          · have h1 : n ≠ d ++ sufPut := by rw [hn]; intro h; exact hne e he (List.append_cancel_right h)
            have h2 : n ≠ d ++ sufCall := by rw [hn]; exact put_ne_call e d
            rw [if_neg h1, if_neg h2] at hl1
            obtain ⟨lo5, -, -⟩ := lo4 hl1
            rw [lo5 e he hn, hw e he]
        · intro e he hn
          rcases List.mem_cons.mp he with rfl | he
          · have h1 : n ≠ e ++ sufPut := by rw [hn]; exact (put_ne_call e e).symm
            rw [if_neg h1, if_pos hn] at hl1
            exact lo3 _ hl1
          · have h1 : n ≠ d ++ sufPut := by rw [hn]; exact (put_ne_call d e).symm
            have h2 : n ≠ d ++ sufCall := by rw [hn]; intro h; exact hne e he (List.append_cancel_right h)
            rw [if_neg h1, if_neg h2] at hl1
            obtain ⟨-, lo5, -⟩ := lo4 hl1
            rw [lo5 e he hn, hw e he]
        · intro hall
          rw [if_neg (hall d (by simp)).1, if_neg (hall d (by simp)).2] at hl1
          obtain ⟨-, -, lo5⟩ := lo4 hl1
          exact lo5 (fun e he => hall e (by simp [he]))

/-! ## Sorting strings -/

theorem strLe_total : ∀ a b : Str, strLe a b = true ∨ strLe b a = true
  | [], _ => .inl (by simp [strLe])
  | _ :: _, [] => .inr (by simp [strLe])
  | a :: s, b :: t => by
    unfold strLe
    by_cases h1 : a.toNat < b.toNat
    · simp [h1]
    · by_cases h2 : b.toNat < a.toNat
      · simp [h2]
      · simp only [if_neg h1, if_neg h2]; exact strLe_total s t

theorem strLe_trans : ∀ a b c : Str, strLe a b = true → strLe b c = true → strLe a c = true
  | [], _, _ => by simp [strLe]
  | _ :: _, [], _ => by simp [strLe]
  | _ :: _, _ :: _, [] => by simp [strLe]
  | a :: s, b :: t, c :: u => by
    unfold strLe
    intro h1 h2
    split at h1
    · split at h2
      · rw [if_pos (by omega)]
      · split at h2
        · cases h2
        · rw [if_pos (by omega)]
    · split at h1
      · cases h1
      · split at h2
        · rw [if_pos (by omega)]
        · split at h2
          · cases h2
          · rw [if_neg (by omega), if_neg (by omega)]
            exact strLe_trans s t u h1 h2

theorem strLe_antisymm : ∀ a b : Str, strLe a b = true → strLe b a = true → a = b
  | [], [] => by simp
  | [], _ :: _ => by simp [strLe]
  | _ :: _, [] => by simp [strLe]
  | a :: s, b :: t => by
    unfold strLe
    intro h1 h2
    split at h1
    · rw [if_neg (by omega), if_pos (by omega)] at h2; cases h2
    · split at h1
      · cases h1
      · rename_i n1 n2
        rw [if_neg n2, if_neg n1] at h2
        have : a = b := Char.toNat_inj.mp (by omega)
        rw [this, strLe_antisymm s t h1 h2]

theorem sortStrs_perm (l : List Str) : (sortStrs l).Perm l := List.perm_insertionSort _ l

theorem sortStrs_eq_iff (l m : List Str) : sortStrs l = sortStrs m ↔ l.Perm m := by
  have : Std.Total (fun a b : Str => strLe a b = true) := ⟨strLe_total⟩
  have : IsTrans Str (fun a b : Str => strLe a b = true) := ⟨strLe_trans⟩
  constructor
  · intro h
    exact (sortStrs_perm l).symm.trans (h ▸ sortStrs_perm m)
  · intro h
    refine List.Perm.eq_of_pairwise (le := fun a b : Str => strLe a b = true) ?_ (List.pairwise_insertionSort _ l)
      (List.pairwise_insertionSort _ m) ((sortStrs_perm l).trans (h.trans (sortStrs_perm m).symm))
    intro a b _ _ h1 h2
    exact strLe_antisymm a b h1 h2

/-! ## Names -/

theorem contains_suffix (p a : Str) : containsStr p (a ++ p) = true := by
  unfold containsStr
  rw [List.any_eq_true]
  exact ⟨p, (List.mem_tails _ _).mpr ⟨a, rfl⟩, by simp⟩

theorem containsStr_append_left {p s : Str} (a : Str) (h : containsStr p s = true) : containsStr p (a ++ s) = true := by
  unfold containsStr at *
  rw [List.any_eq_true] at *
  obtain ⟨x, h1, h2⟩ := h
  refine ⟨x, ?_, h2⟩
  rw [List.mem_tails] at *
  exact h1.trans (List.suffix_append _ _)

theorem contains_bf (d : Str) : containsStr "butterfly".toList (d ++ sufBf) = true :=
  containsStr_append_left d (by decide)

theorem contains_rr (d : Str) : containsStr "riskreversal".toList (d ++ sufRr) = true :=
  containsStr_append_left d (by decide)

theorem before_suffix {d s : Str} (h : '_' ∉ d) : beforeUnderscore (d ++ '_' :: s) = d := by
  unfold beforeUnderscore
  induction d with
  | nil => simp
  | cons c d ih =>
    simp only [List.mem_cons, not_or] at h
    simp only [List.cons_append]
    rw [List.takeWhile_cons_of_pos (by simpa using fun hc => h.1 hc.symm), ih h.2]

theorem lookup_isSome_iff (t : QuoteTable) (n : Str) : (t.lookup n).isSome ↔ n ∈ t.map (·.1) := by
  induction t with
  | nil => simp
  | cons c t ih =>
    rw [List.lookup_cons]
    by_cases h : n = c.1
    · subst h; simp
    · have hb : (n == c.1) = false := by simpa using h
      rw [hb]
      simp [ih, h]

end Frm
