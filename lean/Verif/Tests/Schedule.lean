import Verif.Model.Schedule

/-!
# The schedules in the project's tests

The thirty cases of `tests/utils/payment_schedule_test_definitions.xlsx`, which `tests/utils/test_schedule.py` compares with `make_schedule`,
and the cases of `generate_date_schedule` there: the model gives what the tests expect.
-/

namespace Frm.Tests

set_option autoImplicit false

/-- `np.busdaycalendar()`: Monday to Friday, no holidays (the default of `frm/utils/schedule.py:210`). -/
def weekdaysOnly : BusCal := ⟨fun w => decide (w.val < 5), []⟩

/-- The defaults of `make_schedule` (`frm/utils/schedule.py:199-211`). -/
def defaultArgs (startDate endDate : Int) (freq : PeriodFreq) : ScheduleArgs where
  freq := freq
  rollConv := .modifiedFollowing
  dayRoll := .unadjusted
  rollUser := false
  cal := weekdaysOnly
  startDate := startDate
  endDate := endDate
  firstPeriodEnd := none
  lastPeriodStart := none
  firstStub := .default
  lastStub := .default

/-- Case 1: quarterly, single period. -/
example : makeSchedule (defaultArgs (mkDate 2020 1 15) (mkDate 2020 4 15) .quarterly) = .ok [(mkDate 2020 1 15, mkDate 2020 4 15)] := by decide +kernel

/-- Case 2: quarterly, two periods. -/
example : makeSchedule (defaultArgs (mkDate 2020 1 15) (mkDate 2020 7 15) .quarterly) = .ok [(mkDate 2020 1 15, mkDate 2020 4 15), (mkDate 2020 4 15, mkDate 2020 7 15)] := by decide +kernel

/-- Case 3: quarterly, three periods. -/
example : makeSchedule (defaultArgs (mkDate 2020 1 15) (mkDate 2021 1 15) .quarterly) = .ok [(mkDate 2020 1 15, mkDate 2020 4 15), (mkDate 2020 4 15, mkDate 2020 7 15), (mkDate 2020 7 15, mkDate 2020 10 15), (mkDate 2020 10 15, mkDate 2021 1 15)] := by decide +kernel

/-- Case 4: annual. -/
example : makeSchedule (defaultArgs (mkDate 2020 1 15) (mkDate 2021 1 15) .annual) = .ok [(mkDate 2020 1 15, mkDate 2021 1 15)] := by decide +kernel

/-- Case 5: zerocoupon. -/
example : makeSchedule (defaultArgs (mkDate 2020 1 15) (mkDate 2021 2 15) .zeroCoupon) = .ok [(mkDate 2020 1 15, mkDate 2021 2 15)] := by decide +kernel

/-- Case 6: dates falling on weekend. -/
example : makeSchedule (defaultArgs (mkDate 2020 1 15) (mkDate 2020 5 15) .monthly) = .ok [(mkDate 2020 1 15, mkDate 2020 2 17), (mkDate 2020 2 17, mkDate 2020 3 16), (mkDate 2020 3 16, mkDate 2020 4 15), (mkDate 2020 4 15, mkDate 2020 5 15)] := by decide +kernel

/-- Case 7: input dates falling on weekend; don't roll user specified dates. -/
example : makeSchedule (defaultArgs (mkDate 2020 9 30) (mkDate 2020 10 31) .monthly) = .ok [(mkDate 2020 9 30, mkDate 2020 10 31)] := by decide +kernel

/-- Case 8: input dates falling on weekend; roll user specified dates. -/
example : makeSchedule { defaultArgs (mkDate 2020 9 30) (mkDate 2020 10 31) .monthly with rollUser := true } = .ok [(mkDate 2020 9 30, mkDate 2020 10 30)] := by decide +kernel

/-- Case 9: roll dates to next month. -/
example : makeSchedule { defaultArgs (mkDate 2020 1 31) (mkDate 2020 5 31) .monthly with rollConv := .following } = .ok [(mkDate 2020 1 31, mkDate 2020 3 2), (mkDate 2020 3 2, mkDate 2020 3 31), (mkDate 2020 3 31, mkDate 2020 4 30), (mkDate 2020 4 30, mkDate 2020 5 31)] := by decide +kernel

/-- Case 10: specified day roll. -/
example : makeSchedule { defaultArgs (mkDate 2020 1 31) (mkDate 2020 5 31) .monthly with dayRoll := .day 15 } = .ok [(mkDate 2020 1 31, mkDate 2020 2 17), (mkDate 2020 2 17, mkDate 2020 3 16), (mkDate 2020 3 16, mkDate 2020 4 16), (mkDate 2020 4 16, mkDate 2020 5 31)] := by decide +kernel

/-- Case 11: default should be first short stub. -/
example : makeSchedule (defaultArgs (mkDate 2020 1 15) (mkDate 2020 5 31) .monthly) = .ok [(mkDate 2020 1 15, mkDate 2020 1 31), (mkDate 2020 1 31, mkDate 2020 2 28), (mkDate 2020 2 28, mkDate 2020 3 31), (mkDate 2020 3 31, mkDate 2020 4 30), (mkDate 2020 4 30, mkDate 2020 5 31)] := by decide +kernel

/-- Case 12: first short stub. -/
example : makeSchedule { defaultArgs (mkDate 2020 1 15) (mkDate 2020 5 31) .monthly with firstStub := .short } = .ok [(mkDate 2020 1 15, mkDate 2020 1 31), (mkDate 2020 1 31, mkDate 2020 2 28), (mkDate 2020 2 28, mkDate 2020 3 31), (mkDate 2020 3 31, mkDate 2020 4 30), (mkDate 2020 4 30, mkDate 2020 5 31)] := by decide +kernel

/-- Case 13: first long stub. -/
example : makeSchedule { defaultArgs (mkDate 2020 1 15) (mkDate 2020 5 31) .monthly with firstStub := .long } = .ok [(mkDate 2020 1 15, mkDate 2020 2 28), (mkDate 2020 2 28, mkDate 2020 3 31), (mkDate 2020 3 31, mkDate 2020 4 30), (mkDate 2020 4 30, mkDate 2020 5 31)] := by decide +kernel

/-- Case 14: first short stub, 2 periods only. -/
example : makeSchedule { defaultArgs (mkDate 2020 1 15) (mkDate 2020 5 31) .quarterly with firstStub := .short } = .ok [(mkDate 2020 1 15, mkDate 2020 2 28), (mkDate 2020 2 28, mkDate 2020 5 31)] := by decide +kernel

/-- Case 15: first long stub, 1 period only. -/
example : makeSchedule { defaultArgs (mkDate 2020 1 15) (mkDate 2020 5 31) .quarterly with firstStub := .long } = .ok [(mkDate 2020 1 15, mkDate 2020 5 31)] := by decide +kernel

/-- Case 16: long short stub. -/
example : makeSchedule { defaultArgs (mkDate 2020 1 15) (mkDate 2020 5 31) .monthly with lastStub := .short } = .ok [(mkDate 2020 1 15, mkDate 2020 2 17), (mkDate 2020 2 17, mkDate 2020 3 16), (mkDate 2020 3 16, mkDate 2020 4 15), (mkDate 2020 4 15, mkDate 2020 5 15), (mkDate 2020 5 15, mkDate 2020 5 31)] := by decide +kernel

/-- Case 17: long long stub. -/
example : makeSchedule { defaultArgs (mkDate 2020 1 15) (mkDate 2020 5 31) .monthly with lastStub := .long } = .ok [(mkDate 2020 1 15, mkDate 2020 2 17), (mkDate 2020 2 17, mkDate 2020 3 16), (mkDate 2020 3 16, mkDate 2020 4 15), (mkDate 2020 4 15, mkDate 2020 5 31)] := by decide +kernel

/-- Case 18: long short stub, 2 periods only. -/
example : makeSchedule { defaultArgs (mkDate 2020 1 15) (mkDate 2020 5 31) .quarterly with lastStub := .short } = .ok [(mkDate 2020 1 15, mkDate 2020 4 15), (mkDate 2020 4 15, mkDate 2020 5 31)] := by decide +kernel

/-- Case 19: long long stub, 1 period only. -/
example : makeSchedule { defaultArgs (mkDate 2020 1 15) (mkDate 2020 5 31) .quarterly with lastStub := .long } = .ok [(mkDate 2020 1 15, mkDate 2020 5 31)] := by decide +kernel

/-- Case 20: day_roll, first_cpn_end_date, last_start_end_date specified. -/
example : makeSchedule { defaultArgs (mkDate 2024 8 5) (mkDate 2027 3 15) .quarterly with rollConv := .modifiedFollowing, dayRoll := .day 14, firstPeriodEnd := some (mkDate 2024 9 16), lastPeriodStart := some (mkDate 2026 12 15) } = .ok [(mkDate 2024 8 5, mkDate 2024 9 16), (mkDate 2024 9 16, mkDate 2024 12 16), (mkDate 2024 12 16, mkDate 2025 3 17), (mkDate 2025 3 17, mkDate 2025 6 16), (mkDate 2025 6 16, mkDate 2025 9 15), (mkDate 2025 9 15, mkDate 2025 12 15), (mkDate 2025 12 15, mkDate 2026 3 16), (mkDate 2026 3 16, mkDate 2026 6 15), (mkDate 2026 6 15, mkDate 2026 9 15), (mkDate 2026 9 15, mkDate 2026 12 15), (mkDate 2026 12 15, mkDate 2027 3 15)] := by decide +kernel

/-- Case 21: day_roll, first_cpn_end_date specified. -/
example : makeSchedule { defaultArgs (mkDate 2024 8 5) (mkDate 2027 3 15) .quarterly with rollConv := .modifiedFollowing, dayRoll := .day 14, firstPeriodEnd := some (mkDate 2024 9 16) } = .ok [(mkDate 2024 8 5, mkDate 2024 9 16), (mkDate 2024 9 16, mkDate 2024 12 16), (mkDate 2024 12 16, mkDate 2025 3 17), (mkDate 2025 3 17, mkDate 2025 6 16), (mkDate 2025 6 16, mkDate 2025 9 15), (mkDate 2025 9 15, mkDate 2025 12 15), (mkDate 2025 12 15, mkDate 2026 3 16), (mkDate 2026 3 16, mkDate 2026 6 15), (mkDate 2026 6 15, mkDate 2026 9 15), (mkDate 2026 9 15, mkDate 2026 12 15), (mkDate 2026 12 15, mkDate 2027 3 15)] := by decide +kernel

/-- Case 22: day_roll, last_cpn_start_date specified. -/
example : makeSchedule { defaultArgs (mkDate 2024 8 5) (mkDate 2027 3 15) .quarterly with rollConv := .modifiedFollowing, dayRoll := .day 14, lastPeriodStart := some (mkDate 2026 12 15) } = .ok [(mkDate 2024 8 5, mkDate 2024 9 16), (mkDate 2024 9 16, mkDate 2024 12 16), (mkDate 2024 12 16, mkDate 2025 3 17), (mkDate 2025 3 17, mkDate 2025 6 16), (mkDate 2025 6 16, mkDate 2025 9 15), (mkDate 2025 9 15, mkDate 2025 12 15), (mkDate 2025 12 15, mkDate 2026 3 16), (mkDate 2026 3 16, mkDate 2026 6 15), (mkDate 2026 6 15, mkDate 2026 9 15), (mkDate 2026 9 15, mkDate 2026 12 15), (mkDate 2026 12 15, mkDate 2027 3 15)] := by decide +kernel

/-- Case 23: first_cpn_end_date, last_start_end_date specified. -/
example : makeSchedule { defaultArgs (mkDate 2024 8 5) (mkDate 2027 3 15) .quarterly with rollConv := .modifiedFollowing, firstPeriodEnd := some (mkDate 2024 9 16), lastPeriodStart := some (mkDate 2026 12 15) } = .ok [(mkDate 2024 8 5, mkDate 2024 9 16), (mkDate 2024 9 16, mkDate 2024 12 16), (mkDate 2024 12 16, mkDate 2025 3 17), (mkDate 2025 3 17, mkDate 2025 6 16), (mkDate 2025 6 16, mkDate 2025 9 15), (mkDate 2025 9 15, mkDate 2025 12 15), (mkDate 2025 12 15, mkDate 2026 3 16), (mkDate 2026 3 16, mkDate 2026 6 15), (mkDate 2026 6 15, mkDate 2026 9 15), (mkDate 2026 9 15, mkDate 2026 12 15), (mkDate 2026 12 15, mkDate 2027 3 15)] := by decide +kernel

/-- Case 24: first_cpn_end_date specified. -/
example : makeSchedule { defaultArgs (mkDate 2024 8 5) (mkDate 2027 3 15) .quarterly with rollConv := .modifiedFollowing, firstPeriodEnd := some (mkDate 2024 9 16) } = .ok [(mkDate 2024 8 5, mkDate 2024 9 16), (mkDate 2024 9 16, mkDate 2024 12 16), (mkDate 2024 12 16, mkDate 2025 3 17), (mkDate 2025 3 17, mkDate 2025 6 16), (mkDate 2025 6 16, mkDate 2025 9 15), (mkDate 2025 9 15, mkDate 2025 12 15), (mkDate 2025 12 15, mkDate 2026 3 16), (mkDate 2026 3 16, mkDate 2026 6 15), (mkDate 2026 6 15, mkDate 2026 9 15), (mkDate 2026 9 15, mkDate 2026 12 15), (mkDate 2026 12 15, mkDate 2027 3 15)] := by decide +kernel

/-- Case 25: last_cpn_start_date specified. -/
example : makeSchedule { defaultArgs (mkDate 2024 8 5) (mkDate 2027 3 15) .quarterly with rollConv := .modifiedFollowing, lastPeriodStart := some (mkDate 2026 12 15) } = .ok [(mkDate 2024 8 5, mkDate 2024 9 16), (mkDate 2024 9 16, mkDate 2024 12 16), (mkDate 2024 12 16, mkDate 2025 3 17), (mkDate 2025 3 17, mkDate 2025 6 16), (mkDate 2025 6 16, mkDate 2025 9 15), (mkDate 2025 9 15, mkDate 2025 12 15), (mkDate 2025 12 15, mkDate 2026 3 16), (mkDate 2026 3 16, mkDate 2026 6 15), (mkDate 2026 6 15, mkDate 2026 9 15), (mkDate 2026 9 15, mkDate 2026 12 15), (mkDate 2026 12 15, mkDate 2027 3 15)] := by decide +kernel

/-- Case 26: last_cpn_start_date specified. -/
example : makeSchedule { defaultArgs (mkDate 2024 8 5) (mkDate 2026 3 16) .quarterly with rollConv := .modifiedFollowing, lastPeriodStart := some (mkDate 2025 12 15) } = .ok [(mkDate 2024 8 5, mkDate 2024 9 16), (mkDate 2024 9 16, mkDate 2024 12 16), (mkDate 2024 12 16, mkDate 2025 3 17), (mkDate 2025 3 17, mkDate 2025 6 16), (mkDate 2025 6 16, mkDate 2025 9 15), (mkDate 2025 9 15, mkDate 2025 12 15), (mkDate 2025 12 15, mkDate 2026 3 16)] := by decide +kernel

/-- Case 27: 3 periods with first short stub. -/
example : makeSchedule { defaultArgs (mkDate 2024 8 5) (mkDate 2025 3 17) .quarterly with firstStub := .short } = .ok [(mkDate 2024 8 5, mkDate 2024 9 17), (mkDate 2024 9 17, mkDate 2024 12 17), (mkDate 2024 12 17, mkDate 2025 3 17)] := by decide +kernel

/-- Case 28: 2 periods with first long stub. -/
example : makeSchedule { defaultArgs (mkDate 2024 8 5) (mkDate 2025 3 17) .quarterly with firstStub := .long } = .ok [(mkDate 2024 8 5, mkDate 2024 12 17), (mkDate 2024 12 17, mkDate 2025 3 17)] := by decide +kernel

/-- Case 29: 3 periods with last short stub. -/
example : makeSchedule { defaultArgs (mkDate 2024 8 5) (mkDate 2025 3 17) .quarterly with lastStub := .short } = .ok [(mkDate 2024 8 5, mkDate 2024 11 5), (mkDate 2024 11 5, mkDate 2025 2 5), (mkDate 2025 2 5, mkDate 2025 3 17)] := by decide +kernel

/-- Case 30: 2 periods with last long stub. -/
example : makeSchedule { defaultArgs (mkDate 2024 8 5) (mkDate 2025 3 17) .quarterly with lastStub := .long } = .ok [(mkDate 2024 8 5, mkDate 2024 11 5), (mkDate 2024 11 5, mkDate 2025 3 17)] := by decide +kernel

/-- The arguments of `generate_date_schedule` in the tests. -/
def defaultGen (freq : PeriodFreq) : GenParams := ⟨freq, .modifiedFollowing, .unadjusted, false, weekdaysOnly⟩

/-- `test_generate_date_schedule_forward_months`. -/
example : generateForward (defaultGen .monthly) (mkDate 2023 1 1) (mkDate 2023 6 30) = .ok ([mkDate 2023 1 1, mkDate 2023 2 1, mkDate 2023 3 1, mkDate 2023 4 3, mkDate 2023 5 1, mkDate 2023 6 1], [mkDate 2023 2 1, mkDate 2023 3 1, mkDate 2023 4 3, mkDate 2023 5 1, mkDate 2023 6 1, mkDate 2023 6 30]) := by
  decide +kernel

/-- `test_generate_date_schedule_backward_months`. -/
example : generateBackward (defaultGen .monthly) (mkDate 2023 1 1) (mkDate 2023 6 30) = .ok ([mkDate 2023 1 1, mkDate 2023 1 30, mkDate 2023 2 28, mkDate 2023 3 30, mkDate 2023 4 28, mkDate 2023 5 30], [mkDate 2023 1 30, mkDate 2023 2 28, mkDate 2023 3 30, mkDate 2023 4 28, mkDate 2023 5 30, mkDate 2023 6 30]) := by
  decide +kernel

/-- `test_generate_date_schedule_forward_years`. -/
example : generateForward (defaultGen .annual) (mkDate 2020 1 1) (mkDate 2023 1 1) = .ok ([mkDate 2020 1 1, mkDate 2021 1 1, mkDate 2022 1 3], [mkDate 2021 1 1, mkDate 2022 1 3, mkDate 2023 1 1]) := by
  decide +kernel

/-- `test_generate_date_schedule_forward_days`. -/
example : generateForward (defaultGen .daily) (mkDate 2023 1 1) (mkDate 2023 1 5) = .ok ([mkDate 2023 1 1, mkDate 2023 1 2, mkDate 2023 1 3, mkDate 2023 1 4], [mkDate 2023 1 2, mkDate 2023 1 3, mkDate 2023 1 4, mkDate 2023 1 5]) := by
  decide +kernel

/-- `test_generate_date_schedule_same_start_and_end_date`. -/
example : generateForward (defaultGen .daily) (mkDate 2023 1 1) (mkDate 2023 1 1) = .error .value := by decide +kernel

end Frm.Tests
