import Verif.Model.DisplayNames

/-!
# C19, continued: what is shown can be read back

The display name of a member, and its own name, as arguments of `from_value`.
-/

namespace Frm.Props

open Frm

set_option autoImplicit false

/-- What is shown for a member is read back as that member. -/
def ReadsBack {α : Type} (fromValue : EnumInput → Except Err α) (shown : α → Str) (m : α) : Prop :=
  fromValue (.str (shown m)) = .ok m

/-- What is shown for a member is refused. -/
def Refuses {α : Type} (fromValue : EnumInput → Except Err α) (shown : α → Str) (m : α) : Prop :=
  fromValue (.str (shown m)) = .error .value

/-- Display names that read back, for every member of nine enumerations. -/
theorem C19_display_read_back :
    (∀ m, ReadsBack ExtrapMethod.fromValue ExtrapMethod.displayName m) ∧ (∀ m, ReadsBack PayRcv.fromValue PayRcv.displayName m) ∧
    (∀ m, ReadsBack BuySell.fromValue BuySell.displayName m) ∧ (∀ m, ReadsBack DayCountBasis.fromValue DayCountBasis.displayName m) ∧
    (∀ m, ReadsBack CompoundingFreq.fromValue CompoundingFreq.displayName m) ∧
    (∀ m, ReadsBack PeriodFreq.fromValue PeriodFreq.displayName m) ∧ (∀ m, ReadsBack DayRoll.fromValue DayRoll.displayName m) ∧
    (∀ m, ReadsBack Timing.fromValue Timing.displayName m) ∧ (∀ m, ReadsBack Stub.fromValue Stub.displayName m) ∧
    (∀ m, ReadsBack ExchangeNotionals.fromValue ExchangeNotionals.displayName m) := by
  unfold ReadsBack
  refine ⟨?_, ?_, ?_, ?_, ?_, ?_, ?_, ?_, ?_, ?_⟩ <;> intro m
  · cases m <;> decide +kernel
  · cases m <;> decide +kernel
  · cases m <;> decide +kernel
  · cases m <;> decide +kernel
  · cases m <;> decide +kernel
  · cases m <;> decide +kernel
  · cases m with
    | unadjusted => decide +kernel
    | eom => decide +kernel
    | day k => revert k; decide +kernel
  · cases m <;> decide +kernel
  · cases m <;> decide +kernel
  · cases m <;> decide +kernel

/-- Those that do not: no interpolation method, and of the roll conventions the two modified ones, exactly. -/
theorem C19_display_refused :
    (∀ m, Refuses InterpMethod.fromValue InterpMethod.displayName m) ∧
    (∀ m, ReadsBack RollConv.fromValue RollConv.displayName m ↔ m ≠ .modifiedFollowing ∧ m ≠ .modifiedPreceding) ∧
    Refuses RollConv.fromValue RollConv.displayName .modifiedFollowing ∧
    Refuses RollConv.fromValue RollConv.displayName .modifiedPreceding := by
  unfold ReadsBack Refuses
  refine ⟨?_, ?_, ?_, ?_⟩
  · intro m; cases m <;> decide +kernel
  · intro m; cases m <;> decide +kernel
  · decide +kernel
  · decide +kernel

/-- The name of a member in the source, given as text, is read for the classes whose values are their names in small letters and for the
period frequencies, … -/
theorem C19_member_name :
    (∀ m, ReadsBack InterpMethod.fromValue InterpMethod.pyName m) ∧ (∀ m, ReadsBack ExtrapMethod.fromValue ExtrapMethod.pyName m) ∧
    (∀ m, ReadsBack PayRcv.fromValue PayRcv.pyName m) ∧ (∀ m, ReadsBack BuySell.fromValue BuySell.pyName m) ∧
    (∀ m, ReadsBack CompoundingFreq.fromValue CompoundingFreq.pyName m) ∧ (∀ m, ReadsBack PeriodFreq.fromValue PeriodFreq.pyName m) ∧
    (∀ m, ReadsBack Timing.fromValue Timing.pyName m) ∧ (∀ m, ReadsBack Stub.fromValue Stub.pyName m) ∧
    (∀ m, ReadsBack ExchangeNotionals.fromValue ExchangeNotionals.pyName m) := by
  unfold ReadsBack
  refine ⟨?_, ?_, ?_, ?_, ?_, ?_, ?_, ?_, ?_⟩ <;> intro m <;> cases m <;> decide +kernel

/-- … and refused for every day-count basis, every day of the month, and the two modified roll conventions. -/
theorem C19_member_name_refused :
    (∀ m, Refuses DayCountBasis.fromValue DayCountBasis.pyName m) ∧ (∀ k, Refuses DayRoll.fromValue DayRoll.pyName (.day k)) ∧
    (∀ m, ReadsBack RollConv.fromValue RollConv.pyName m ↔ m ≠ .modifiedFollowing ∧ m ≠ .modifiedPreceding) ∧
    Refuses RollConv.fromValue RollConv.pyName .modifiedFollowing ∧ Refuses RollConv.fromValue RollConv.pyName .modifiedPreceding := by
  unfold ReadsBack Refuses
  refine ⟨?_, ?_, ?_, ?_, ?_⟩
  · intro m; cases m <;> decide +kernel
  · decide +kernel
  · intro m; cases m <;> decide +kernel
  · decide +kernel
  · decide +kernel

/-- The display names of the enumerations without `from_value`: no two members share one, and each is the value of its member once
put in small letters and its spaces replaced. -/
theorem C19_display_distinct :
    ∀ E ∈ [(rfrMethodMembers, rfrMethodDisplay), (termRateMembers, termRateDisplay), (smileMethodMembers, spacedTitleDisplay),
      (deltaConventionMembers, spacedTitleDisplay)],
      (E.1.map (fun p => E.2 p.1)).Nodup ∧ ∀ p ∈ E.1, (lower (E.2 p.1)).map (fun c => if c = ' ' then '_' else c) = p.2 := by
  intro E hE
  simp only [List.mem_cons, List.not_mem_nil, or_false] at hE
  rcases hE with rfl | rfl | rfl | rfl <;> decide +kernel

/-- The texts shown, written out. -/
theorem C19_display_texts :
    ([.linearOnLnDiscount, .cubicSplineOnLnDiscount, .cubicSplineOnCczr].map InterpMethod.displayName =
      ["Linear on log of discount factors".toList, "Cubic spline on log of discount factors".toList,
        "Cubic spline on continuously compounded zero rates".toList]) ∧
    ([.none, .flat].map ExtrapMethod.displayName = ["None".toList, "Flat".toList]) ∧
    ([.pay, .rcv].map PayRcv.displayName = ["Pay".toList, "Rcv".toList]) ∧
    ([.buy, .sell].map BuySell.displayName = ["Buy".toList, "Sell".toList]) ∧
    ([.b30_360, .b30E_360, .b30E_360_ISDA, .act_360, .act_365, .act_act, .act_366].map DayCountBasis.displayName =
      ["30/360".toList, "30E/360".toList, "30E/360 ISDA".toList, "ACT/360".toList, "ACT/365".toList, "ACT/ACT".toList, "ACT/366".toList]) ∧
    ([.simple, .continuous, .daily, .weekly, .monthly, .quarterly, .semiannual, .annual].map CompoundingFreq.displayName =
      ["Simple".toList, "Continuous".toList, "Daily".toList, "Weekly".toList, "Monthly".toList, "Quarterly".toList, "Semiannual".toList,
        "Annual".toList]) ∧
    ([.daily, .weekly, .days28, .monthly, .quarterly, .semiannual, .annual, .zeroCoupon].map PeriodFreq.displayName =
      ["Daily".toList, "Weekly".toList, "28 Days".toList, "Monthly".toList, "Quarterly".toList, "Semiannual".toList, "Annual".toList,
        "Zero Coupon".toList]) ∧
    (DayRoll.displayName .unadjusted = "Unadjusted".toList ∧ DayRoll.displayName .eom = "Eom".toList ∧
      ∀ k : Fin 31, DayRoll.displayName (.day k) = (toString (k.val + 1)).toList) ∧
    ([.unadjusted, .following, .preceding, .modifiedFollowing, .modifiedPreceding].map RollConv.displayName =
      ["Unadjusted".toList, "Following".toList, "Preceding".toList, "Modified Following".toList, "Modified Preceding".toList]) ∧
    ([.inArrears, .inAdvance].map Timing.displayName = ["In Arrears".toList, "In Advance".toList]) ∧
    ([.none, .short, .long, .default, .definedPerFirstPeriodEnd, .definedPerLastPeriodStart].map Stub.displayName =
      ["None".toList, "Short".toList, "Long".toList, "Default".toList, "Defined Per First Period End Date".toList,
        "Defined Per Last Period Start Date".toList]) ∧
    ([.start, .end_, .both, .neither].map ExchangeNotionals.displayName = ["Start".toList, "End".toList, "Both".toList, "Neither".toList]) := by
  refine ⟨?_, ?_, ?_, ?_, ?_, ?_, ?_, ⟨?_, ?_, ?_⟩, ?_, ?_, ?_, ?_⟩ <;> decide +kernel

/-- The texts shown for the enumerations without `from_value`, written out: capitals throughout for the methods of overnight rates, one
capital a word for the others. -/
theorem C19_display_texts_other :
    (rfrMethodMembers.map (fun p => rfrMethodDisplay p.1) =
      ["DAILY COMPOUNDED".toList, "WEIGHTED AVERAGE".toList, "SIMPLE AVERAGE".toList]) ∧
    (termRateMembers.map (fun p => termRateDisplay p.1) = ["Simple".toList, "Continuous".toList, "Annual".toList]) ∧
    (smileMethodMembers.map (fun p => spacedTitleDisplay p.1) =
      ["Univariate Spline".toList, "Cubic Spline".toList, "Heston 1993".toList,
        "Heston Carr Madan Gauss Kronrod Quadrature".toList, "Heston Carr Madan Fft W Simpsons".toList, "Heston Lipton".toList,
        "Heston Cosine".toList]) ∧
    (deltaConventionMembers.map (fun p => spacedTitleDisplay p.1) =
      ["Regular Spot".toList, "Regular Forward".toList, "Premium Adjusted Spot".toList, "Premium Adjusted Forward".toList]) := by
  refine ⟨?_, ?_, ?_, ?_⟩ <;> decide +kernel

example : DayCountBasis.displayName .b30E_360_ISDA = "30E/360 ISDA".toList := by decide +kernel
example : PeriodFreq.displayName .days28 = "28 Days".toList := by decide +kernel
example : DayRoll.displayName (.day 30) = "31".toList := by decide +kernel
example : RollConv.displayName .modifiedFollowing = "Modified Following".toList := by decide +kernel
example : spacedTitleDisplay "HESTON_CARR_MADAN_FFT_W_SIMPSONS".toList = "Heston Carr Madan Fft W Simpsons".toList := by decide +kernel

end Frm.Props
