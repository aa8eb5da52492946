import Verif.Model.EntryPoints
import Mathlib.Tactic.Linarith

/-!
# C100: entry points that return nothing, whatever they are given

Cap and floor quotes, paths of FX rates, shifted zero curves, the third Hull–White discount factor, consistency of settlement delays; and the
inputs the Heston calibration accepts.
-/

namespace Frm.Props

open Frm

set_option autoImplicit false

/-! ## Cap and floor quotes -/

/-- The columns the function writes into the caller's table. -/
def capfloorAdded : List String :=
  ["settlement_date", "effective_date", "last_optionlet_expiry_date", "termination_date", "term_years", "last_optionlet_expiry_years",
    "F", "ln_shift"]

/-- No call of `process_capfloor_quotes` gets past the schedule of optionlets; correct keywords would not help. -/
theorem C100_capfloor_never (kws : List String) (c : CapfloorCall) : ∃ e, (processCapfloorKw kws c).2 = .error e := by
  unfold processCapfloorKw
  simp only [capfloorStep]
  repeat' split
  all_goals first
    | exact ⟨_, rfl⟩
    | (exfalso; revert ‹_ = true›; decide)

theorem mem_setColumn (x n : String) (l : List String) : x ∈ setColumn n l ↔ x ∈ l ∨ x = n := by
  unfold setColumn
  split
  · next h =>
    simp only [List.contains_iff_mem] at h
    exact ⟨Or.inl, fun h' => h'.elim id (fun e => e ▸ h)⟩
  · simp

/-- With quotes on which every step before succeeds it is a `TypeError`, and by then the caller's table has the eight columns more, and none
less. -/
theorem C100_capfloor_columns (c : CapfloorCall) (ht : "tenor" ∈ c.columns) (hr : c.rows ≠ 0) (h1 : c.dates = none) (h2 : c.tenors = none)
    (h3 : c.rowDates = none) (h4 : c.termYears = none) (h5 : c.expiryYears = none) (h6 : c.headings = none) :
    (processCapfloor c).2 = .error .type ∧ ∀ x, x ∈ (processCapfloor c).1 ↔ x ∈ c.columns ∨ x ∈ capfloorAdded := by
  have hk : checkKeywords makeScheduleParameters capfloorKeywords = .error .type := by decide
  unfold processCapfloor processCapfloorKw
  simp only [capfloorStep, h1, h2, h3, h4, h5, h6, hr, if_false, hk, List.contains_iff_mem, ht, not_true_eq_false, mem_setColumn, capfloorDated,
    Option.map_none]
  simp [mem_setColumn, capfloorAdded, or_assoc]

/-- A table without tenors is refused unchanged. -/
theorem C100_capfloor_no_tenor (c : CapfloorCall) (ht : "tenor" ∉ c.columns) : (processCapfloor c).1 = c.columns := by
  unfold processCapfloor processCapfloorKw
  simp only [capfloorStep]
  cases c.dates with
  | some e => rfl
  | none => simp [ht]

/-- Never is a column of the caller's table lost. -/
theorem C100_capfloor_keeps (kws : List String) (c : CapfloorCall) (x : String) (hx : x ∈ c.columns) :
    x ∈ (processCapfloorKw kws c).1 := by
  unfold processCapfloorKw
  simp only [capfloorStep]
  repeat' split
  all_goals simp only [mem_setColumn, capfloorDated, hx, true_or]

/-- When an earlier step raises, that is what the caller gets, and these are the columns the table is left with: none more until the tenors have been read; with the
settlement and effective dates when the first row cannot be dated; with the dates of the rows when a later one cannot; then one or two more. -/
theorem C100_capfloor_stops (c : CapfloorCall) (ht : "tenor" ∈ c.columns) (e : Err) :
    (c.dates = some e → processCapfloor c = (c.columns, .error e)) ∧
    (c.dates = none → c.tenors = some e → processCapfloor c = (c.columns, .error e)) ∧
    (c.dates = none → c.tenors = none → c.rows ≠ 0 →
      (∀ i, c.rowDates = some (i, e) → (processCapfloor c).2 = .error e ∧
        ∀ x, x ∈ (processCapfloor c).1 ↔ x ∈ c.columns ∨ x ∈ capfloorAdded.take (if i = 0 then 2 else 4)) ∧
      (c.rowDates = none → c.termYears = some e → (processCapfloor c).2 = .error e ∧
        ∀ x, x ∈ (processCapfloor c).1 ↔ x ∈ c.columns ∨ x ∈ capfloorAdded.take 4) ∧
      (c.rowDates = none → c.termYears = none → c.expiryYears = some e → (processCapfloor c).2 = .error e ∧
        ∀ x, x ∈ (processCapfloor c).1 ↔ x ∈ c.columns ∨ x ∈ capfloorAdded.take 5) ∧
      (c.rowDates = none → c.termYears = none → c.expiryYears = none → c.headings = some e → (processCapfloor c).2 = .error e ∧
        ∀ x, x ∈ (processCapfloor c).1 ↔ x ∈ c.columns ∨ x ∈ capfloorAdded)) := by
  unfold processCapfloor processCapfloorKw
  refine ⟨?_, ?_, ?_⟩
  · intro h
    simp only [capfloorStep, h]
  · intro h1 h2
    simp [capfloorStep, h1, h2, ht]
  · intro h1 h2 hr
    refine ⟨?_, ?_, ?_, ?_⟩
    · intro i h3
      by_cases hi : i = 0 <;>
      simp [capfloorStep, h1, h2, h3, hr, ht, capfloorDated, mem_setColumn, capfloorAdded, or_assoc, hi]
    · intro h3 h4
      simp [capfloorStep, h1, h2, h3, h4, hr, ht, capfloorDated, mem_setColumn, capfloorAdded, or_assoc]
    · intro h3 h4 h5
      simp [capfloorStep, h1, h2, h3, h4, h5, hr, ht, capfloorDated, mem_setColumn, capfloorAdded, or_assoc]
    · intro h3 h4 h5 h6
      simp [capfloorStep, h1, h2, h3, h4, h5, h6, hr, ht, capfloorDated, mem_setColumn, capfloorAdded, or_assoc]

/-- Of the four keywords `make_schedule` knows two; of its three required arguments it gets two; renaming one of the others is not enough, renaming both is. -/
theorem C100_capfloor_keywords :
    (∀ k ∈ capfloorKeywords, (∃ d, (k, d) ∈ makeScheduleParameters) ↔ k = "start_date" ∨ k = "end_date") ∧
    (∀ k, (k, false) ∈ makeScheduleParameters ↔ k = "start_date" ∨ k = "end_date" ∨ k = "freq") ∧
    checkKeywords makeScheduleParameters ["start_date", "end_date", "freq", "busdaycal"] = .error .type ∧
    checkKeywords makeScheduleParameters ["start_date", "end_date", "frequency", "cal"] = .error .type ∧
    checkKeywords makeScheduleParameters ["start_date", "end_date", "freq", "cal"] = .ok () := by
  refine ⟨?_, ?_, by decide, by decide, by decide⟩
  · intro k hk
    simp only [capfloorKeywords, List.mem_cons, List.not_mem_nil, or_false] at hk
    rcases hk with rfl | rfl | rfl | rfl <;> simp [makeScheduleParameters]
  · intro k
    simp [makeScheduleParameters]

/-! ## Paths of FX rates -/

/-- No call of the two path simulations of a surface returns; for an index of dates it is a `TypeError`. -/
theorem C100_fx_paths {α : Type} (sorted : Except Err (List Int)) (spotDate : Int) (rest : List Int → Except Err α) :
    (∀ v, surfaceSimulate sorted spotDate rest ≠ .ok v) ∧
      ∀ l, sorted = .ok l → surfaceSimulate sorted spotDate rest = .error .type := by
  unfold surfaceSimulate simulateFxPath indexUnion
  cases sorted with
  | error e => simp
  | ok l => simp

/-- It is the single date that is at fault: with the spot date in a list the rest runs on the dates of the grid and the spot date. -/
theorem C100_fx_paths_fixed {α : Type} (l : List Int) (spotDate : Int) (rest : List Int → Except Err α) :
    ∃ grid, simulateFxPath (.ok l) (.many [spotDate]) rest = rest grid ∧ ∀ d, d ∈ grid ↔ d ∈ l ∨ d = spotDate := by
  refine ⟨l ++ [spotDate].filter (fun d => !l.contains d), rfl, fun d => ?_⟩
  simp only [List.mem_append, List.mem_filter, List.mem_singleton, Bool.not_eq_true', List.contains_eq_mem, decide_eq_false_iff_not]
  constructor
  · rintro (h | h)
    · exact Or.inl h
    · exact Or.inr h.1
  · rintro (h | h)
    · exact Or.inl h
    · by_cases hd : d ∈ l
      · exact Or.inl hd
      · exact Or.inr ⟨h, hd⟩

/-! ## Shifted zero curves -/

theorem mapM_none {α β : Type} {f : α → Option β} : ∀ {l : List α} {x : α}, x ∈ l → f x = none → l.mapM f = none
  | [], _, h, _ => by simp at h
  | a :: l, x, h, hx => by
    rw [List.mapM_cons]
    rcases List.mem_cons.1 h with rfl | h
    · simp [hx]
    · cases f a with
      | none => rfl
      | some v => simp [mapM_none h hx]

/-- No curve can be shifted: every table of pillars has a column `years`, and its columns are read as dates. -/
theorem C100_flat_shift {α : Type} (parse : String → Option Int) (hp : parse "years" = none) (columns : List String)
    (hc : "years" ∈ columns) (rest : List Int → Except Err α) : flatShift parse columns rest = .error .value := by
  unfold flatShift parseDates
  rw [mapM_none hc hp]

/-- The third closed-form discount factor of the Hull–White models is `None`. -/
theorem C100_third_discount_factor {α : Type} (t1 t2 : α) (r : Option α) : discountFactorByOde3 t1 t2 r = none := rfl

/-! ## Settlement delays -/

theorem implied_zero (cal : BusCal) (d s : Int) (h : s ≤ d) : calcImpliedBusinessDayOffset cal d s = .ok 0 := by
  have h1 : (s - d).toNat = 0 := by omega
  have h2 : decide (d ≥ s) = true := by simpa using h
  unfold calcImpliedBusinessDayOffset pyAssert
  rw [h2, h1]
  rfl

theorem implied_assert (cal : BusCal) (d s : Int) (h : d < s) : calcImpliedBusinessDayOffset cal d s = .error .assertion := by
  have h2 : decide (d ≥ s) = false := by simpa using h
  unfold calcImpliedBusinessDayOffset pyAssert
  rw [h2]
  rfl

/-- The only consistent settlement delay is zero, and only when the settlement date is not after the date: any real delay is refused, by an
assertion when the settlement date is later, as a wrong delay otherwise. -/
theorem C100_delay (cal : BusCal) (date offsetDate dayOffset : Int) :
    (checkDayOffsetConsistency cal date offsetDate dayOffset = .ok () ↔ offsetDate ≤ date ∧ dayOffset = 0) ∧
      (date < offsetDate → checkDayOffsetConsistency cal date offsetDate dayOffset = .error .assertion) ∧
      (offsetDate ≤ date → dayOffset ≠ 0 → checkDayOffsetConsistency cal date offsetDate dayOffset = .error .value) := by
  unfold checkDayOffsetConsistency
  rcases lt_or_ge date offsetDate with h | h
  · rw [implied_assert cal _ _ h]
    refine ⟨⟨fun hc => ?_, fun hc => absurd hc.1 (not_le.2 h)⟩, fun _ => rfl, fun hc => absurd hc (not_le.2 h)⟩
    cases hc
  · rw [implied_zero cal _ _ h]
    by_cases h0 : dayOffset = 0
    · subst h0
      exact ⟨⟨fun _ => ⟨h, rfl⟩, fun _ => rfl⟩, fun hc => absurd h (not_le.2 hc), fun _ hc => absurd rfl hc⟩
    · have hne : (0 : Int) ≠ dayOffset := fun e => h0 e.symm
      have hr : (do
          let implied ← (Except.ok 0 : Except Err Int)
          if implied ≠ dayOffset then Except.error Err.value else Except.ok ()) = .error .value := by
        show (if (0 : Int) ≠ dayOffset then Except.error Err.value else Except.ok ()) = _
        rw [if_pos hne]
      rw [hr]
      refine ⟨⟨fun hc => ?_, fun hc => absurd hc.2 h0⟩, fun hc => absurd h (not_le.2 hc), fun _ _ => rfl⟩
      cases hc

/-! ## Inputs of the Heston calibration -/

/-- An argument is the single entry `x`: a number, or an array of one. -/
def SingleEntry (a : NumArg) (x : Option ℝ) : Prop := a = .scalar x ∨ a = .array x []

/-- The entries of an argument. -/
def NumArg.entries : NumArg → List (Option ℝ)
  | .scalar x => [x]
  | .array x rest => x :: rest

theorem validate_one (condition : Option ℝ → Bool) (a : NumArg) :
    (validateInput (oneTruth condition) a = .ok () ↔ ∃ x, SingleEntry a x ∧ condition x = true) ∧
      (validateInput (oneTruth condition) a ≠ .ok () → validateInput (oneTruth condition) a = .error .value) := by
  unfold SingleEntry
  match a with
  | .scalar x =>
    have e : validateInput (oneTruth condition) (.scalar x) = if condition x then .ok () else .error .value := rfl
    rw [e]
    cases h : condition x <;> simp [h]
  | .array x [] =>
    have e : validateInput (oneTruth condition) (.array x []) = if condition x then .ok () else .error .value := rfl
    rw [e]
    cases h : condition x <;> simp [h]
  | .array x (y :: l) =>
    have e : validateInput (oneTruth condition) (.array x (y :: l)) = .error .value := rfl
    rw [e]
    simp

theorem validate_each (condition : Option ℝ → Bool) (a : NumArg) :
    (validateInput (eachTruth condition) a = .ok () ↔ ∀ x ∈ NumArg.entries a, condition x = true) ∧
      (validateInput (eachTruth condition) a ≠ .ok () → validateInput (eachTruth condition) a = .error .value) := by
  have e : validateInput (eachTruth condition) a = if (NumArg.entries a).all condition then .ok () else .error .value := by
    cases a with
    | scalar x => simp [validateInput, eachTruth, NumArg.entries, bind, Except.bind]
    | array x l => rfl
  rw [e]
  cases h : (NumArg.entries a).all condition
  · refine ⟨⟨fun hc => by simp at hc, fun hc => ?_⟩, fun _ => rfl⟩
    rw [List.all_eq_true.2 hc] at h; simp at h
  · exact ⟨⟨fun _ => List.all_eq_true.1 h, fun _ => rfl⟩, fun hc => absurd rfl hc⟩

theorem positiveNumber_iff (x : Option ℝ) : positiveNumber x = true ↔ ∃ v, x = some v ∧ 0 < v := by
  cases x with
  | none => simp [positiveNumber]
  | some v => simp [positiveNumber]

theorem isFlag_iff (x : Option ℝ) : isFlag x = true ↔ x = some (-1) ∨ x = some 1 := by
  cases x with
  | none => simp [isFlag]
  | some v => simp [isFlag]

/-- The calibration goes on exactly when the spot and the time are single positive numbers, the rates single numbers and the flags all plus
or minus one; anything else is a `ValueError`.  So neither spot, time nor rates may be arrays of several values, valid or not. -/
theorem C100_heston_inputs (S0 tau r q cp : NumArg) :
    (hestonInputs S0 tau r q cp = .ok () ↔
      (∃ v, SingleEntry S0 (some v) ∧ 0 < v) ∧ (∃ v, SingleEntry tau (some v) ∧ 0 < v) ∧ (∃ v, SingleEntry r (some v)) ∧
        (∃ v, SingleEntry q (some v)) ∧ ∀ x ∈ NumArg.entries cp, x = some (-1) ∨ x = some 1) ∧
      (hestonInputs S0 tau r q cp ≠ .ok () → hestonInputs S0 tau r q cp = .error .value) := by
  have hpos : ∀ a, (∃ x, SingleEntry a x ∧ positiveNumber x = true) ↔ ∃ v, SingleEntry a (some v) ∧ 0 < v := by
    intro a
    constructor
    · rintro ⟨x, h1, h2⟩
      obtain ⟨v, rfl, hv⟩ := (positiveNumber_iff x).1 h2
      exact ⟨v, h1, hv⟩
    · rintro ⟨v, h1, h2⟩
      exact ⟨some v, h1, (positiveNumber_iff _).2 ⟨v, rfl, h2⟩⟩
  have hnum : ∀ a, (∃ x : Option ℝ, SingleEntry a x ∧ x.isSome = true) ↔ ∃ v, SingleEntry a (some v) := by
    intro a
    constructor
    · rintro ⟨x, h1, h2⟩
      obtain ⟨v, rfl⟩ := Option.isSome_iff_exists.1 h2
      exact ⟨v, h1⟩
    · rintro ⟨v, h1⟩
      exact ⟨some v, h1, rfl⟩
  have hflag : (∀ x ∈ NumArg.entries cp, isFlag x = true) ↔ ∀ x ∈ NumArg.entries cp, x = some (-1) ∨ x = some 1 :=
    forall₂_congr fun x _ => isFlag_iff x
  have v1 := validate_one positiveNumber S0
  have v2 := validate_one positiveNumber tau
  have v3 := validate_one Option.isSome r
  have v4 := validate_one Option.isSome q
  have v5 := validate_each isFlag cp
  rw [hpos] at v1 v2
  rw [hnum] at v3 v4
  rw [hflag] at v5
  rw [← v1.1, ← v2.1, ← v3.1, ← v4.1, ← v5.1]
  unfold hestonInputs
  by_cases c1 : validateInput (oneTruth positiveNumber) S0 = .ok ()
  swap
  · rw [v1.2 c1]; simp [bind, Except.bind]
  by_cases c2 : validateInput (oneTruth positiveNumber) tau = .ok ()
  swap
  · rw [c1, v2.2 c2]; simp [bind, Except.bind]
  by_cases c3 : validateInput (oneTruth Option.isSome) r = .ok ()
  swap
  · rw [c1, c2, v3.2 c3]; simp [bind, Except.bind]
  by_cases c4 : validateInput (oneTruth Option.isSome) q = .ok ()
  swap
  · rw [c1, c2, c3, v4.2 c4]; simp [bind, Except.bind]
  rw [c1, c2, c3, c4]
  simp only [bind, Except.bind, true_and]
  exact v5.2

/-! ## Examples -/

example : (processCapfloor ⟨["tenor", "atm"], 2, none, none, none, none, none, none, none⟩) =
    (["tenor", "atm", "settlement_date", "effective_date", "last_optionlet_expiry_date", "termination_date", "term_years",
      "last_optionlet_expiry_years", "F", "ln_shift"], .error .type) := by rfl
example (cal : BusCal) : checkDayOffsetConsistency cal 100 102 2 = .error .assertion := (C100_delay cal 100 102 2).2.1 (by norm_num)
example : surfaceSimulate (.ok [5, 6]) 3 (fun l => Except.ok l.length) = .error .type := rfl

end Frm.Props
