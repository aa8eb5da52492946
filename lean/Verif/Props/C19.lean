import Verif.Proofs.Enums

/-! # C19 — Reading enumeration values -/

namespace Frm
open Spec

theorem name_not_digits {n : String} (h : n.toList.any (fun c => !c.isDigit) = true) : ¬ Digits n.toList := by
  intro hd
  rw [List.any_eq_true] at h
  obtain ⟨c, hc, hcd⟩ := h
  have := digits_isDigit hd c hc
  simp [this] at hcd

theorem readsNames_inline {α : Type} {E : EnumClass α} (name : α → String)
    (hm : ∀ m, (m, EnumVal.str (name m).toList) ∈ E.members)
    (hv : ∀ p ∈ E.members, p.2 = EnumVal.str (name p.1).toList)
    (hinj : ∀ a b, name a = name b → a = b) (hd : ∀ m, ¬ Digits (name m).toList) (hs : ∀ m, '/' ∉ (name m).toList) :
    ReadsNames (fromValueInline E .ok) (isValidEnumValue E id) name := by
  have : fromValueInline E .ok = getEnumMember E id := by
    funext x
    exact inline_eq_helper (fun p hp => ⟨_, hv p hp, hs p.1⟩) x
  rw [this]
  exact readsNames_helper name hm hv hinj hd

end Frm

namespace Frm.Props
open Spec

theorem C19_interp_method : ReadsNames InterpMethod.fromValue InterpMethod.isValid interpName :=
  readsNames_inline interpName (by intro m; cases m <;> decide) (by decide)
    (by intro a b; cases a <;> cases b <;> decide) (by intro m; cases m <;> exact name_not_digits (by decide))
    (by intro m; cases m <;> decide)

theorem C19_extrap_method : ReadsNames ExtrapMethod.fromValue ExtrapMethod.isValid extrapName :=
  readsNames_inline extrapName (by intro m; cases m <;> decide) (by decide)
    (by intro a b; cases a <;> cases b <;> decide) (by intro m; cases m <;> exact name_not_digits (by decide))
    (by intro m; cases m <;> decide)

theorem C19_pay_rcv : ReadsNames PayRcv.fromValue PayRcv.isValid payRcvName :=
  readsNames_inline payRcvName (by intro m; cases m <;> decide) (by decide)
    (by intro a b; cases a <;> cases b <;> decide) (by intro m; cases m <;> exact name_not_digits (by decide))
    (by intro m; cases m <;> decide)

theorem C19_buy_sell : ReadsNames BuySell.fromValue BuySell.isValid buySellName :=
  readsNames_inline buySellName (by intro m; cases m <;> decide) (by decide)
    (by intro a b; cases a <;> cases b <;> decide) (by intro m; cases m <;> exact name_not_digits (by decide))
    (by intro m; cases m <;> decide)

theorem C19_compounding_freq : ReadsNames CompoundingFreq.fromValue CompoundingFreq.isValid compoundingName :=
  readsNames_helper compoundingName (by intro m; cases m <;> decide) (by decide)
    (by intro a b; cases a <;> cases b <;> decide) (by intro m; cases m <;> exact name_not_digits (by decide))

theorem C19_roll_conv : ReadsNames RollConv.fromValue RollConv.isValid rollName :=
  readsNames_helper rollName (by intro m; cases m <;> decide) (by decide)
    (by intro a b; cases a <;> cases b <;> decide) (by intro m; cases m <;> exact name_not_digits (by decide))

theorem C19_timing : ReadsNames Timing.fromValue Timing.isValid timingName :=
  readsNames_helper timingName (by intro m; cases m <;> decide) (by decide)
    (by intro a b; cases a <;> cases b <;> decide) (by intro m; cases m <;> exact name_not_digits (by decide))

theorem C19_stub : ReadsNames Stub.fromValue Stub.isValid stubName :=
  readsNames_helper stubName (by intro m; cases m <;> decide) (by decide)
    (by intro a b; cases a <;> cases b <;> decide) (by intro m; cases m <;> exact name_not_digits (by decide))

theorem C19_exchange_notionals : ReadsNames ExchangeNotionals.fromValue ExchangeNotionals.isValid exchangeName :=
  readsNames_helper exchangeName (by intro m; cases m <;> decide) (by decide)
    (by intro a b; cases a <;> cases b <;> decide) (by intro m; cases m <;> exact name_not_digits (by decide))

/-- Day rolls: the two words, or a number from 1 to 31 written in digits (or given as an integer). -/
theorem C19_day_roll (s : Str) (m : DayRoll) :
    (DayRoll.fromValue (.str s) = .ok m ↔
      match m with
      | .unadjusted => Canonical s "unadjusted".toList
      | .eom => Canonical s "eom".toList
      | .day k => ∃ w, Canonical s w ∧ Digits w ∧ numeral w = k.val + 1) ∧
    ((∀ m, DayRoll.fromValue (.str s) ≠ .ok m) → DayRoll.fromValue (.str s) = .error .value) ∧
    (DayRoll.isValid (.str s) = true ↔ ∃ m, DayRoll.fromValue (.str s) = .ok m) := by
  let val : DayRoll → EnumVal := fun m => match m with
    | .unadjusted => .str "unadjusted".toList
    | .eom => .str "eom".toList
    | .day k => .int (k.val + 1)
  have hm : ∀ m, (m, val m) ∈ dayRollClass.members := by
    intro m
    cases m with
    | unadjusted => simp [dayRollClass, val]
    | eom => simp [dayRollClass, val]
    | day k => simp [dayRollClass, val]
  have hv : ∀ p ∈ dayRollClass.members, p.2 = val p.1 := by
    intro p hp
    simp only [dayRollClass, List.mem_append, List.mem_singleton, List.mem_map] at hp
    rcases hp with (rfl | ⟨k, _, rfl⟩) | rfl <;> rfl
  have hinj : ∀ a b, val a = val b → a = b := by
    intro a b h
    cases a <;> cases b <;> simp only [val] at h <;> first | rfl | (exact absurd h (by decide)) | (cases h; done) | skip
    injection h with h
    congr 1
    apply Fin.ext; omega
  obtain ⟨h1, h2, h3⟩ := getEnumMember_str (f := id) hm hv hinj s
  refine ⟨?_, ?_, ?_⟩
  · change getEnumMember dayRollClass id (.str s) = .ok m ↔ _
    rw [h1]
    cases m with
    | unadjusted =>
      simp only [val]
      rw [clean_str_nondigit (name_not_digits (by decide)), canonical_iff]; exact eq_comm
    | eom =>
      simp only [val]
      rw [clean_str_nondigit (name_not_digits (by decide)), canonical_iff]; exact eq_comm
    | day k =>
      simp only [val, cleanEnumValue, Option.some.injEq, id]
      change (if pyIsDigit (canon s) then _ else _) = _ ↔ _
      by_cases h : pyIsDigit (canon s) = true
      · rw [if_pos h]
        have hd := (pyIsDigit_iff _).mp h
        change EnumVal.int ((canon s).foldl _ 0) = _ ↔ _
        rw [digits_numeral hd]
        constructor
        · intro hh; injection hh with hh; exact ⟨_, (canonical_iff _ _).mpr rfl, hd, hh⟩
        · rintro ⟨w, hw, _, hn⟩
          rw [(canonical_iff _ _).mp hw] at hn
          rw [hn]
      · rw [if_neg h]
        constructor
        · intro hh; cases hh
        · rintro ⟨w, hw, hd, _⟩
          rw [(canonical_iff _ _).mp hw] at hd
          exact absurd ((pyIsDigit_iff _).mpr hd) h
  · intro h
    exact h2 (fun m hh => h m ((h1 m).mpr hh))
  · change isValidEnumValue dayRollClass id (.str s) = true ↔ _
    rw [h3]
    exact exists_congr (fun m => (h1 m).symm)

/-- An integer is a day roll exactly when it is between 1 and 31. -/
theorem C19_day_roll_int (n : Int) (m : DayRoll) :
    DayRoll.fromValue (.int n) = .ok m ↔ ∃ k : Fin 31, m = .day k ∧ n = k.val + 1 := by
  by_cases h : 1 ≤ n ∧ n ≤ 31
  · obtain ⟨k, rfl⟩ : ∃ k : Fin 31, n = k.val + 1 := ⟨⟨(n - 1).toNat, by omega⟩, by simp; omega⟩
    have : DayRoll.fromValue (.int (k.val + 1)) = .ok (.day k) := by revert k; decide
    rw [this, Except.ok.injEq]
    constructor
    · rintro rfl; exact ⟨k, rfl, rfl⟩
    · rintro ⟨j, rfl, hj⟩; congr 1; apply Fin.ext; omega
  · constructor
    · intro hh
      exfalso
      unfold DayRoll.fromValue getEnumMember at hh
      simp only [cleanEnumValue] at hh
      have : dayRollClass.members.find? (fun p => p.2 == .int n) = none := by
        rw [List.find?_eq_none]
        intro p hp
        simp only [dayRollClass, List.mem_append, List.mem_singleton, List.mem_map] at hp
        rcases hp with (rfl | ⟨k, _, rfl⟩) | rfl
        · simp
        · simp only [beq_iff_eq, EnumVal.int.injEq]; omega
        · simp
      simp [this] at hh
    · rintro ⟨k, _, hk⟩; omega

/-- Payment frequencies are read through their table of spellings; nothing else is accepted. -/
theorem C19_period_freq (s : Str) :
    (∀ m, PeriodFreq.fromValue (.str s) = .ok m ↔ PeriodSpelling s m) ∧
    ((∀ m, ¬ PeriodSpelling s m) → PeriodFreq.fromValue (.str s) = .error .value) ∧
    (PeriodFreq.isValid (.str s) = true ↔ ∃ m, PeriodSpelling s m) := by
  let name : PeriodFreq → String := fun m => (periodNames m).headD ""
  have hm : ∀ m, (m, EnumVal.str (name m).toList) ∈ periodFreqClass.members := by intro m; cases m <;> decide
  have hv : ∀ p ∈ periodFreqClass.members, p.2 = EnumVal.str (name p.1).toList := by decide
  have hinj : ∀ a b, EnumVal.str (name a).toList = EnumVal.str (name b).toList → a = b := by
    intro a b; cases a <;> cases b <;> decide
  have hd : ∀ m, ¬ Digits (name m).toList := by intro m; cases m <;> exact name_not_digits (by decide)
  obtain ⟨h1, h2, h3⟩ := getEnumMember_str (f := periodTransform) hm hv hinj s
  let core : Str := strip (replaceAll "per".toList [] ((canon s).filter (fun c => c ≠ '/' ∧ c ≠ '_')))
  let aliasFn : Str → Str := fun v => match periodAliases.find? (fun p => v == p.1 || p.2.contains v) with
    | some p => p.1
    | none => v
  have htr : periodTransform (canon s) = aliasFn core := by
    unfold periodTransform
    have e1 : replaceAll "_".toList [] (replaceAll "/".toList [] (canon s)) =
        (canon s).filter (fun c => c ≠ '/' ∧ c ≠ '_') := by
      change replaceAll ['_'] [] (replaceAll ['/'] [] (canon s)) = _
      rw [replaceAll_single, replaceAll_single, List.filter_filter]
      apply List.filter_congr
      intro c _
      by_cases h1 : c = '/' <;> by_cases h2 : c = '_' <;> simp [h1, h2]
    have e2 : lower (replaceAll "per".toList [] ((canon s).filter (fun c => c ≠ '/' ∧ c ≠ '_'))) =
        replaceAll "per".toList [] ((canon s).filter (fun c => c ≠ '/' ∧ c ≠ '_')) := by
      unfold lower
      refine (List.map_congr_left ?_).trans (List.map_id _)
      intro c hc
      have hr := (replaced_iff (old := "per".toList) (by decide) [] _ _).mpr
        (rfl : replaceAll "per".toList [] ((canon s).filter (fun c => c ≠ '/' ∧ c ≠ '_')) = _)
      rcases mem_replaced hr c hc with h | h
      · exact canon_lower s c (List.mem_filter.mp h).1
      · simp at h
    simp only [e1, e2]
    rfl
  have hall : ∀ u ∈ (List.map (fun p : Str × List Str => p.1 :: p.2) periodAliases).flatten, ∀ m : PeriodFreq,
      aliasFn u = (name m).toList ↔ u ∈ (periodNames m).map String.toList := by
    intro u hu m
    cases m <;> revert u <;> decide +kernel
  have hal : ∀ u m, aliasFn u = (name m).toList ↔ u ∈ (periodNames m).map String.toList := by
    intro u m
    by_cases hu : u ∈ (List.map (fun p : Str × List Str => p.1 :: p.2) periodAliases).flatten
    · exact hall u hu m
    · have hn : periodAliases.find? (fun p => u == p.1 || p.2.contains u) = none := by
        rw [List.find?_eq_none]
        intro p hp hpu
        apply hu
        rw [List.mem_flatten]
        refine ⟨p.1 :: p.2, List.mem_map.mpr ⟨p, hp, rfl⟩, ?_⟩
        simpa using hpu
      have : aliasFn u = u := by simp only [aliasFn, hn]
      rw [this]
      have hsub : ∀ m : PeriodFreq, ∀ n ∈ (periodNames m).map String.toList,
          n ∈ (List.map (fun p : Str × List Str => p.1 :: p.2) periodAliases).flatten := by
        intro m; cases m <;> decide +kernel
      constructor
      · rintro rfl
        exact absurd (hsub m _ (by cases m <;> decide)) hu
      · intro h; exact absurd (hsub m _ h) hu
  have key : ∀ m, cleanEnumValue periodTransform (.str s) = some (EnumVal.str (name m).toList) ↔
      PeriodSpelling s m := by
    intro m
    rw [clean_str_nondigit (hd m), htr, hal]
    unfold PeriodSpelling
    constructor
    · intro h
      obtain ⟨n, hn, he⟩ := List.mem_map.mp h
      exact ⟨_, _, _, (canonical_iff _ _).mpr rfl, (replaced_iff (by decide) _ _ _).mpr rfl,
        (trimmed_iff _ _).mpr rfl, n, hn, he.symm⟩
    · rintro ⟨v, w, u, hv, hw, hu, n, hn, he⟩
      rw [canonical_iff] at hv; subst hv
      rw [replaced_iff (by decide)] at hw; subst hw
      rw [trimmed_iff] at hu; subst hu
      exact List.mem_map.mpr ⟨n, hn, he.symm⟩
  simp only [key] at h1 h3
  exact ⟨h1, fun h => h2 (fun m hh => h m ((key m).mp hh)), h3⟩

/-- Day-count bases: the names, with an optional slash, with "actual" for "act", and "act/365fixed".  Strings of digits
only raise `AttributeError` (not `ValueError`), all other strings `ValueError`. -/
theorem C19_day_count_basis (s : Str) :
    (∀ m, DayCountBasis.fromValue (.str s) = .ok m ↔ BasisSpelling s m) ∧
    ((∃ w, Canonical s w ∧ Digits w) → DayCountBasis.fromValue (.str s) = .error .attribute) ∧
    ((∀ m, ¬ BasisSpelling s m) → (∀ w, Canonical s w → ¬ Digits w) →
      DayCountBasis.fromValue (.str s) = .error .value) := by
  by_cases hdig : Digits (canon s)
  · have hc : cleanEnumValue id (.str s) = some (.int (numeral (canon s))) := by
      simp only [cleanEnumValue, id]
      change some (if pyIsDigit (canon s) then _ else _) = _
      rw [if_pos ((pyIsDigit_iff _).mpr hdig)]
      exact congrArg (fun n => some (EnumVal.int n)) (digits_numeral hdig)
    have hf : DayCountBasis.fromValue (.str s) = .error .attribute := by
      unfold DayCountBasis.fromValue fromValueInline
      rw [hc]; rfl
    refine ⟨?_, fun _ => hf, ?_⟩
    · intro m
      rw [hf]
      constructor
      · intro h; cases h
      · rintro ⟨v, w, hv, hnd, _⟩
        rw [canonical_iff] at hv; subst hv
        exact absurd hdig hnd
    · intro _ h
      exact absurd hdig (h _ ((canonical_iff _ _).mpr rfl))
  · let w := replaceAll "actual".toList "act".toList (canon s)
    have hc : cleanEnumValue id (.str s) = some (.str (canon s)) := by
      rw [clean_str_nondigit hdig]; rfl
    let z : Str := if w = "act/365fixed".toList then "act/365".toList else w
    have hf : DayCountBasis.fromValue (.str s) =
        (match dayCountBasisClass.members.find? (fun p => slashMatch p.2 (.str z)) with
          | some p => .ok p.1
          | none => .error .value) := by
      unfold DayCountBasis.fromValue fromValueInline
      rw [hc]
      have : dayCountCleaning (some (EnumVal.str (canon s))) = .ok (some (.str z)) := rfl
      simp only [this, bind, Except.bind]
      cases List.find? (fun p => slashMatch p.snd (EnumVal.str z)) dayCountBasisClass.members <;> rfl
    have hsl : ∀ m : DayCountBasis, slashMatch (.str (basisName m).toList) (.str z) = true ↔
        (z = (basisName m).toList ∨ z = (basisName m).toList.filter (fun c => c ≠ '/')) := by
      intro m
      unfold slashMatch
      have : replaceAll "/".toList [] (basisName m).toList = (basisName m).toList.filter (fun c => c ≠ '/') :=
        replaceAll_single '/' _
      rw [Bool.or_eq_true, beq_iff_eq, beq_iff_eq, EnumVal.str.injEq, EnumVal.str.injEq, this]
      exact or_congr eq_comm eq_comm
    have hsp : ∀ m, BasisSpelling s m ↔
        (z = (basisName m).toList ∨ z = (basisName m).toList.filter (fun c => c ≠ '/')) := by
      intro m
      have hb : BasisSpelling s m ↔ (w = (basisName m).toList ∨
          w = (basisName m).toList.filter (fun c => c ≠ '/') ∨ (m = .act_365 ∧ w = "act/365fixed".toList)) := by
        unfold BasisSpelling
        constructor
        · rintro ⟨v, w', hv, _, hw, h⟩
          rw [canonical_iff] at hv; subst hv
          rw [replaced_iff (by decide)] at hw; subst hw
          exact h
        · intro h
          exact ⟨_, _, (canonical_iff _ _).mpr rfl, hdig, (replaced_iff (by decide) _ _ _).mpr rfl, h⟩
      rw [hb]
      by_cases hz : w = "act/365fixed".toList
      · simp only [z, if_pos hz, hz]
        cases m <;> decide
      · simp only [z, if_neg hz, hz, and_false, or_false]
    have hmem : ∀ p ∈ dayCountBasisClass.members, p.2 = .str (basisName p.1).toList := by decide
    have hin : ∀ m, (m, EnumVal.str (basisName m).toList) ∈ dayCountBasisClass.members := by
      intro m; cases m <;> decide
    have huniq : ∀ a b : DayCountBasis,
        (z = (basisName a).toList ∨ z = (basisName a).toList.filter (fun c => c ≠ '/')) →
        (z = (basisName b).toList ∨ z = (basisName b).toList.filter (fun c => c ≠ '/')) → a = b := by
      intro a b ha hb
      have : ∀ a b : DayCountBasis, ∀ x ∈ [(basisName a).toList, (basisName a).toList.filter (fun c => c ≠ '/')],
          x ∈ [(basisName b).toList, (basisName b).toList.filter (fun c => c ≠ '/')] → a = b := by
        intro a b; cases a <;> cases b <;> decide
      exact this a b z (by simpa using ha) (by simpa using hb)
    refine ⟨?_, ?_, ?_⟩
    · intro m
      rw [hf, hsp]
      cases hfind : dayCountBasisClass.members.find? (fun p => slashMatch p.2 (.str z)) with
      | none =>
        rw [List.find?_eq_none] at hfind
        constructor
        · intro h; cases h
        · intro h
          exact absurd ((hsl m).mpr h) (hfind _ (hin m))
      | some p =>
        have h1 := List.find?_some hfind
        have h2 := hmem p (List.mem_of_find?_eq_some hfind)
        rw [h2, hsl] at h1
        simp only [Except.ok.injEq]
        constructor
        · rintro rfl; exact h1
        · intro h; exact huniq _ _ h1 h
    · rintro ⟨w', hw', hd'⟩
      rw [canonical_iff] at hw'; subst hw'
      exact absurd hd' hdig
    · intro h _
      rw [hf]
      have : dayCountBasisClass.members.find? (fun p => slashMatch p.2 (.str z)) = none := by
        rw [List.find?_eq_none]
        intro p hp hs
        rw [hmem p hp, hsl, ← hsp] at hs
        exact h _ hs
      rw [this]

/-- A missing value is read as the class's default where `default` exists … -/
theorem C19_missing_default :
    InterpMethod.fromValue .missing = .ok .linearOnLnDiscount ∧ ExtrapMethod.fromValue .missing = .ok .none ∧
    DayRoll.fromValue .missing = .ok .unadjusted ∧ RollConv.fromValue .missing = .ok .modifiedFollowing ∧
    Stub.fromValue .missing = .ok .default ∧ ExchangeNotionals.fromValue .missing = .ok .neither :=
  ⟨rfl, rfl, rfl, rfl, rfl, rfl⟩

/-- … but raises `AttributeError` for the classes without one, and — a defect — for `DayCountBasis`, which documents a
default. -/
theorem C19_missing_raises :
    PayRcv.fromValue .missing = .error .attribute ∧ BuySell.fromValue .missing = .error .attribute ∧
    CompoundingFreq.fromValue .missing = .error .attribute ∧ PeriodFreq.fromValue .missing = .error .attribute ∧
    Timing.fromValue .missing = .error .attribute ∧
    DayCountBasis.fromValue .missing = .error .attribute ∧ dayCountBasisClass.default = some .act_act :=
  ⟨rfl, rfl, rfl, rfl, rfl, rfl, rfl⟩

/-- Defect: the validity check of `DayCountBasis` refuses spellings that `from_value` accepts, and every validity check
refuses the missing value that `from_value` turns into a default. -/
theorem C19_is_valid_disagrees :
    DayCountBasis.fromValue (.str "ACT365".toList) = .ok .act_365 ∧
    DayCountBasis.isValid (.str "ACT365".toList) = false ∧
    DayCountBasis.fromValue (.str "Actual/365Fixed".toList) = .ok .act_365 ∧
    DayCountBasis.isValid (.str "Actual/365Fixed".toList) = false ∧
    RollConv.isValid .missing = false := by decide +kernel

/-- Every accepted value of `DayCountBasis.is_valid` is also read by `from_value` (the converse fails, above). -/
theorem C19_basis_valid_reads (s : Str) (h : DayCountBasis.isValid (.str s) = true) :
    ∃ m, DayCountBasis.fromValue (.str s) = .ok m := by
  have hmem : ∀ p ∈ dayCountBasisClass.members, p.2 = .str (basisName p.1).toList := by decide
  have hact : ∀ m : DayCountBasis, replaceAll "actual".toList "act".toList (basisName m).toList =
      (basisName m).toList := by
    intro m; cases m <;> decide
  unfold DayCountBasis.isValid isValidEnumValue EnumClass.hasValue at h
  cases hc : cleanEnumValue id (.str s) with
  | none => simp [hc] at h
  | some v =>
    simp only [hc, List.any_eq_true, beq_iff_eq] at h
    obtain ⟨p, hp, rfl⟩ := h
    rw [hmem p hp] at hc
    have hd : ¬ Digits (basisName p.1).toList := by
      cases p.1 <;> exact name_not_digits (by decide)
    refine ⟨p.1, ((C19_day_count_basis s).1 p.1).mpr ⟨_, _, (canonical_iff _ _).mpr
      ((clean_str_nondigit hd).mp hc).symm, hd, (replaced_iff (by decide) _ _ _).mpr rfl, Or.inl (hact p.1)⟩⟩

example : RollConv.fromValue (.str " ModifiedFollowing\t".toList) = .ok .modifiedFollowing ∧
    Stub.fromValue (.str "Defined per first period end date".toList) = .ok .definedPerFirstPeriodEnd ∧
    PeriodFreq.fromValue (.str "per 3_Months".toList) = .ok .quarterly ∧
    DayRoll.fromValue (.str " 31".toList) = .ok (.day 30) ∧
    DayCountBasis.fromValue (.str "30E/360 ISDA".toList) = .ok .b30E_360_ISDA := by decide +kernel

end Frm.Props
