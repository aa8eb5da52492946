import Verif.Model.FixingObjects
import Mathlib.Tactic.Linarith

/-!
# C99: building fixing tables and swap curves; the archived fixing classes

Which fixing objects and swap curves can be built, and that the archived overnight and term classes give, method by method, the rates of
`RFRFixings` or an exception.
-/

namespace Frm.Props

open Frm

set_option autoImplicit false

/-- The condition on the columns: there is a `date`, there is a `fixing`, and nothing else. -/
def TwoColumns (columns : List String) : Prop := ∀ c, c ∈ columns ↔ c = "date" ∨ c = "fixing"

theorem fixingColumnsOk_iff (columns : List String) : fixingColumnsOk columns = true ↔ TwoColumns columns := by
  unfold fixingColumnsOk TwoColumns
  simp only [Bool.and_eq_true, List.all_eq_true, Bool.or_eq_true, beq_iff_eq, List.contains_iff_mem]
  constructor
  · rintro ⟨⟨h1, h2⟩, h3⟩ c
    refine ⟨h1 c, ?_⟩
    rintro (rfl | rfl)
    · exact h2
    · exact h3
  · intro h
    exact ⟨⟨fun c hc => (h c).1 hc, (h _).2 (Or.inl rfl)⟩, (h _).2 (Or.inr rfl)⟩

/-- A fixing table is built exactly when its columns are a date and a fixing, in any order, and its basis is a member of the enumeration;
it is an assertion error otherwise. -/
theorem C99_table (columns : List String) (basis : BasisArg) (b : DayCountBasis) :
    (newFixings columns basis = .ok b ↔ TwoColumns columns ∧ basis = .basis b) ∧
      ((∀ b, newFixings columns basis ≠ .ok b) → newFixings columns basis = .error .assertion) := by
  unfold newFixings
  by_cases h : fixingColumnsOk columns = true
  · have h' := (fixingColumnsOk_iff columns).1 h
    cases basis with
    | basis c => simp [h, h']
    | other => simp [h]
  · have h' := mt (fixingColumnsOk_iff columns).2 h
    simp [h, h']

/-- An archived overnight object is built exactly when, moreover, its method is absent or a member. -/
theorem C99_overnight_table (columns : List String) (basis : BasisArg) (method : MethodArg) (o : OisObj) :
    (newOis columns basis method = .ok o ↔ TwoColumns columns ∧ basis = .basis o.basis ∧
        (method = .absent ∧ o.method = none ∨ ∃ m, method = .member m ∧ o.method = some m)) ∧
      ((∀ o, newOis columns basis method ≠ .ok o) → newOis columns basis method = .error .assertion) := by
  have key := fun b => C99_table columns basis b
  unfold newOis
  cases hn : newFixings columns basis with
  | error e =>
    have h1 : e = Err.assertion := by
      have := (key .act_360).2 (by rw [hn]; simp)
      rw [hn] at this; simpa using this
    constructor
    · constructor
      · intro h; simp at h
      · rintro ⟨h2, h3, -⟩
        have := (key o.basis).1.2 ⟨h2, h3⟩
        rw [hn] at this; simp at this
    · intro _; rw [h1]
  | ok b =>
    have h1 := (key b).1.1 hn
    rcases o with ⟨ob, om⟩
    cases method with
    | absent =>
      simp only [Except.ok.injEq, OisObj.mk.injEq, h1.2, BasisArg.basis.injEq, reduceCtorEq, false_and, exists_false, or_false, true_and]
      exact ⟨⟨fun h => ⟨h1.1, h.1, h.2.symm⟩, fun h => ⟨h.2.1, h.2.2.symm⟩⟩, fun h => absurd rfl (h ⟨b, none⟩)⟩
    | member m =>
      simp only [Except.ok.injEq, OisObj.mk.injEq, h1.2, BasisArg.basis.injEq, reduceCtorEq, false_and, false_or, MethodArg.member.injEq]
      refine ⟨⟨fun h => ⟨h1.1, h.1, m, rfl, h.2.symm⟩, ?_⟩, fun h => absurd rfl (h ⟨b, some m⟩)⟩
      rintro ⟨-, h2, m', rfl, h3⟩
      exact ⟨h2, h3.symm⟩
    | other t => simp

/-- The archived term class asks for nothing but the two columns. -/
theorem C99_term_table (columns : List String) :
    (newTermArchived columns = .ok () ↔ TwoColumns columns) ∧
      (¬TwoColumns columns → newTermArchived columns = .error .assertion) := by
  unfold newTermArchived
  by_cases h : fixingColumnsOk columns = true
  · simp [h, (fixingColumnsOk_iff columns).1 h]
  · simp [h, mt (fixingColumnsOk_iff columns).2 h]

theorem eachPeriod_ok {f : Int → Int → Except Err NRat} {g : Int → Int → NRat} {l : List (Int × Int)}
    (h : ∀ p ∈ l, f p.1 p.2 = .ok (g p.1 p.2)) : eachPeriod f l = .ok (l.map (fun p => g p.1 p.2)) := by
  induction l with
  | nil => rfl
  | cons p l ih =>
    rw [eachPeriod, h p (List.mem_cons_self ..)]
    simp only [ih (fun q hq => h q (List.mem_cons_of_mem _ hq)), List.map_cons]

theorem eachPeriod_error {f : Int → Int → Except Err NRat} {e : Err} {l : List (Int × Int)} (hl : l ≠ [])
    (h : ∀ p ∈ l, f p.1 p.2 = .error e) : eachPeriod f l = .error e := by
  cases l with
  | nil => exact absurd rfl hl
  | cons p l => rw [eachPeriod, h p (List.mem_cons_self ..)]

theorem simple_any_basis (n : Option Int) (s e : Int) (fx : List (Int × Rat)) :
    calculateCouponRate none s e fx .simpleAverage = calculateCouponRate n s e fx .simpleAverage := rfl

theorem weighted_any_basis (n : Option Int) (s e : Int) (fx : List (Int × Rat)) :
    calculateCouponRate none s e fx .weightedAverage = calculateCouponRate n s e fx .weightedAverage := rfl

theorem archived_member (b : DayCountBasis) (fx : List (Int × Rat)) (starts ends : List Int) (m : RFRFixingCalcMethod) :
    archivedCouponRates (.ok b) fx starts ends (some m) = getCouponRates b fx starts ends m := by
  unfold archivedCouponRates getCouponRates
  simp only
  split
  · rfl
  · refine eachPeriod_ok (g := fun s e => calculateCouponRate b.daysPerYear s e (applicableFixings fx starts ends) m) fun p _ => ?_
    cases m <;> rfl

/-- The rates of an archived overnight object are those of `RFRFixings` on the same table, basis and periods, for the method given with the
call or, when none is, the one the object was built with; the method of the call wins. -/
theorem C99_overnight_rates (o : OisObj) (fx : List (Int × Rat)) (starts ends : List Int) (m : RFRFixingCalcMethod) :
    oisCouponRates o fx starts ends (.member m) = getCouponRates o.basis fx starts ends m ∧
      (o.method = some m →
        oisCouponRates o fx starts ends .absent = getCouponRates o.basis fx starts ends m ∧
        oisCouponRates o fx starts ends (.other false) = getCouponRates o.basis fx starts ends m) := by
  refine ⟨archived_member o.basis fx starts ends m, fun h => ?_⟩
  simp only [oisCouponRates, chosenMethod, h]
  exact ⟨archived_member o.basis fx starts ends m, archived_member o.basis fx starts ends m⟩

/-- The table covers the observation periods: the last observed day of the last period and of the first to end lie between the
first and the last of the fixings used.  (Spec of the check every `get_coupon_rates` makes.) -/
def WindowRefused (fx : List (Int × Rat)) (starts ends : List Int) : Prop :=
  ∃ m b, getCouponRates b fx starts ends m = .error .value

theorem window_refused_iff (fx : List (Int × Rat)) (starts ends : List Int) :
    WindowRefused fx starts ends ↔
      (natGt (ends.map (· - 1)).max? ((applicableFixings fx starts ends).map (·.1)).max? ||
        natGt ((applicableFixings fx starts ends).map (·.1)).min? (ends.map (· - 1)).min?) = true := by
  unfold WindowRefused getCouponRates
  constructor
  · rintro ⟨m, b, h⟩
    simp only at h
    by_contra hc
    rw [if_neg hc] at h
    simp at h
  · intro h
    refine ⟨.simpleAverage, .act_360, ?_⟩
    simp only
    rw [if_pos h]

theorem archived_no_method (b : Except Err DayCountBasis) (fx : List (Int × Rat)) (starts ends : List Int)
    (hs : starts ≠ []) (he : ends ≠ []) : archivedCouponRates b fx starts ends none = .error .value := by
  unfold archivedCouponRates
  simp only
  split
  · rfl
  · cases starts with
    | nil => exact absurd rfl hs
    | cons s ss =>
      cases ends with
      | nil => exact absurd rfl he
      | cons e es => exact eachPeriod_error (by simp) (fun p _ => rfl)

/-- Without any method, whatever the class, a call for at least one period is a value error. -/
theorem C99_no_method (o : OisObj) (ho : o.method = none) (fx : List (Int × Rat)) (starts ends : List Int) (b : DayCountBasis)
    (hs : starts ≠ []) (he : ends ≠ []) (t : Bool) :
    oisCouponRates o fx starts ends .absent = .error .value ∧ oisCouponRates o fx starts ends (.other t) = .error .value ∧
      rfrCouponRatesWith b fx starts ends .absent = .error .value ∧ rfrCouponRatesWith b fx starts ends (.other t) = .error .value := by
  have h : ∀ b, archivedCouponRates b fx starts ends none = .error .value := by
    intro b; exact archived_no_method b fx starts ends hs he
  refine ⟨?_, ?_, h _, h _⟩
  · simp only [oisCouponRates, chosenMethod, ho, h]
  · cases t <;> simp only [oisCouponRates, chosenMethod, ho, h]

/-- A method argument that is no member but true is not replaced by the method of the object: a call for at least one period is a
value error in all three classes, whatever method the object has. -/
theorem C99_foreign_method (o : OisObj) (fx : List (Int × Rat)) (starts ends : List Int) (b : DayCountBasis)
    (hs : starts ≠ []) (he : ends ≠ []) :
    oisCouponRates o fx starts ends (.other true) = .error .value ∧
      termArchivedCouponRates fx starts ends (.other true) = .error .value ∧
      rfrCouponRatesWith b fx starts ends (.other true) = .error .value := by
  refine ⟨?_, ?_, archived_no_method _ fx starts ends hs he⟩
  · simp only [oisCouponRates, chosenMethod, archived_no_method _ fx starts ends hs he]
  · simp only [termArchivedCouponRates, chosenMethod, archived_no_method _ fx starts ends hs he]

/-- The current class given a member: the rates of the other properties. -/
theorem C99_current_rates (b : DayCountBasis) (fx : List (Int × Rat)) (starts ends : List Int) (m : RFRFixingCalcMethod) :
    rfrCouponRatesWith b fx starts ends (.member m) = getCouponRates b fx starts ends m :=
  archived_member b fx starts ends m

/-- The archived term object averages like `RFRFixings`, on whatever basis. -/
theorem C99_term_averages (b : DayCountBasis) (fx : List (Int × Rat)) (starts ends : List Int) (m : RFRFixingCalcMethod)
    (hm : m ≠ .dailyCompounded) :
    termArchivedCouponRates fx starts ends (.member m) = getCouponRates b fx starts ends m := by
  simp only [termArchivedCouponRates, chosenMethod]
  unfold archivedCouponRates getCouponRates
  simp only
  split
  · rfl
  · refine eachPeriod_ok (g := fun s e => calculateCouponRate b.daysPerYear s e (applicableFixings fx starts ends) m) fun p _ => ?_
    cases m with
    | dailyCompounded => exact absurd rfl hm
    | weightedAverage => rfl
    | simpleAverage => rfl

/-- The archived term object cannot compound: no basis.  And it has no default method.  Both are attribute errors, the first after the check
of the window. -/
theorem C99_term_refused (fx : List (Int × Rat)) (starts ends : List Int) :
    termArchivedCouponRates fx starts ends .absent = .error .attribute ∧
      (starts ≠ [] → ends ≠ [] → ¬WindowRefused fx starts ends →
        termArchivedCouponRates fx starts ends (.member .dailyCompounded) = .error .attribute) ∧
      ∀ v, starts ≠ [] → ends ≠ [] → termArchivedCouponRates fx starts ends (.member .dailyCompounded) ≠ .ok v := by
  have key : starts ≠ [] → ends ≠ [] → ¬WindowRefused fx starts ends →
      termArchivedCouponRates fx starts ends (.member .dailyCompounded) = .error .attribute := by
    intro hs he hw
    simp only [termArchivedCouponRates, chosenMethod]
    unfold archivedCouponRates
    simp only
    rw [if_neg (mt (window_refused_iff fx starts ends).2 hw)]
    cases starts with
    | nil => exact absurd rfl hs
    | cons s ss =>
      cases ends with
      | nil => exact absurd rfl he
      | cons e es => exact eachPeriod_error (by simp) (fun p _ => rfl)
  refine ⟨rfl, key, fun v hs he => ?_⟩
  by_cases hw : WindowRefused fx starts ends
  · simp only [termArchivedCouponRates, chosenMethod]
    unfold archivedCouponRates
    simp only
    rw [if_pos ((window_refused_iff fx starts ends).1 hw)]
    simp
  · rw [key hs he hw]; simp

/-- A swap curve is built exactly when the zero curve and the fixings are on the same basis. -/
theorem C99_curve (curveBasis fixingsBasis : DayCountBasis) :
    (newSwapCurve curveBasis fixingsBasis = .ok () ↔ curveBasis = fixingsBasis) ∧
      (curveBasis ≠ fixingsBasis → newSwapCurve curveBasis fixingsBasis = .error .assertion) := by
  unfold newSwapCurve
  by_cases h : curveBasis = fixingsBasis <;> simp [h]

/-- From the construction on: the fixings' basis that the compounding of a built curve uses is the zero curve's. -/
theorem C99_one_basis (columns : List String) (arg : BasisArg) (curveBasis b : DayCountBasis)
    (h1 : newFixings columns arg = .ok b) (h2 : newSwapCurve curveBasis b = .ok ()) (fx : List (Int × Rat)) (starts ends : List Int)
    (m : RFRFixingCalcMethod) : getCouponRates b fx starts ends m = getCouponRates curveBasis fx starts ends m ∧ arg = .basis curveBasis := by
  have h3 := (C99_curve curveBasis b).1.1 h2
  have h4 := ((C99_table columns arg b).1.1 h1).2
  rw [h4, h3]; exact ⟨rfl, rfl⟩

/-- The discount factors of a swap curve are its zero curve's. -/
theorem C99_discount_factors {α : Type} (curveDf : List Int → Except Err (List α)) (dates : List Int) :
    rfrDiscountFactors curveDf dates = curveDf dates := rfl

/-! ## Examples -/

example : newFixings ["fixing", "date"] (.basis .act_360) = .ok .act_360 := by decide +kernel
example : newFixings ["date", "fixing", "tenor"] (.basis .act_360) = .error .assertion := by decide +kernel
example : newOis ["date", "fixing"] (.basis .act_360) .absent = .ok ⟨.act_360, none⟩ := by decide +kernel
example : newOis ["date", "fixing"] (.basis .act_360) (.other true) = .error .assertion := by decide +kernel
example : termArchivedCouponRates [(5, 1 / 100), (6, 3 / 100)] [5] [7] (.member .simpleAverage) = .ok [some (2 / 100)] := by decide +kernel
example : termArchivedCouponRates [(5, 1 / 100), (6, 3 / 100)] [5] [7] (.member .dailyCompounded) = .error .attribute := by decide +kernel
example : oisCouponRates ⟨.act_360, some .weightedAverage⟩ [(5, 1 / 100), (6, 3 / 100)] [5] [7] .absent = .ok [some (2 / 100)] := by
  decide +kernel
example : ¬WindowRefused [(5, 1 / 100), (6, 3 / 100)] [5] [7] := by rw [window_refused_iff]; decide +kernel

end Frm.Props
