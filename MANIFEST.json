{
 "claims": [
  {
   "property": "C01",
   "status": "proved",
   "theorems": [
    "Frm.Props.C01_accepts_iff",
    "Frm.Props.C01_rejects"
   ],
   "note": ""
  },
  {
   "property": "C02",
   "status": "proved",
   "theorems": [
    "Frm.Props.C02_cosmetic",
    "Frm.Props.C02_count_unit",
    "Frm.Props.C02_count_unit_twice",
    "Frm.Props.C02_codes",
    "Frm.Props.C02_normal_unchanged",
    "Frm.Props.C02_parse_count_unit",
    "Frm.Props.C02_not_idempotent"
   ],
   "note": ""
  },
  {
   "property": "C03",
   "status": "proved",
   "theorems": [
    "Frm.Props.C03_calendar",
    "Frm.Props.C03_civil_bijection",
    "Frm.Props.C03_add_months",
    "Frm.Props.C03_date_offset",
    "Frm.Props.C03_strict_in_months",
    "Frm.Props.C03_mono_in_date",
    "Frm.Props.C03_zero",
    "Frm.Props.C03_compose",
    "Frm.Props.C03_no_drift",
    "Frm.Props.C03_iterating_drifts"
   ],
   "note": ""
  },
  {
   "property": "C04",
   "status": "proved",
   "theorems": [
    "Frm.Props.C04_following_preceding",
    "Frm.Props.C04_modified",
    "Frm.Props.C04_modified_raw",
    "Frm.Props.C04_business_day_idempotent",
    "Frm.Props.C04_monotone",
    "Frm.Props.C04_monotone_unmodified",
    "Frm.Props.C04_unadjusted_raises",
    "Frm.Props.C04_year_long_closure"
   ],
   "note": " The month rule and monotonicity of the two modified conventions are for calendars without a closure of 300 days; C04_year_long_closure shows that a year-long closure breaks both."
  },
  {
   "property": "C05",
   "status": "proved",
   "theorems": [
    "Frm.Props.C05_forward",
    "Frm.Props.C05_backward",
    "Frm.Props.C05_compose",
    "Frm.Props.C05_round_trip",
    "Frm.Props.C05_strict_in_offset"
   ],
   "note": ""
  },
  {
   "property": "C06",
   "status": "proved",
   "theorems": [
    "Frm.Props.C06_union",
    "Frm.Props.C06_intersection_of_business_days",
    "Frm.Props.C06_order_case_repetition",
    "Frm.Props.C06_rejects_iff",
    "Frm.Props.C06_ok",
    "Frm.Props.C06_default",
    "Frm.Props.C06_mixed_case_entries_unreachable"
   ],
   "note": ""
  },
  {
   "property": "C07",
   "status": "proved",
   "theorems": [
    "Frm.Props.C07_lag",
    "Frm.Props.C07_symmetric",
    "Frm.Props.C07_validated",
    "Frm.Props.C07_upper_case_missed",
    "Frm.Props.C07_other_length",
    "Frm.Props.C07_ir_settlement"
   ],
   "note": ""
  },
  {
   "property": "C08",
   "status": "partial",
   "theorems": [
    "Frm.Props.C08_from_curve_date",
    "Frm.Props.C08_from_spot_date",
    "Frm.Props.C08_round_trip",
    "Frm.Props.C08_user_offset_ignored",
    "Frm.Props.C08_no_dates",
    "Frm.Props.C08_both_dates_raise",
    "Frm.Props.C08_both_dates_partial",
    "Frm.Props.C08_all_three_raise"
   ],
   "note": "Single-date resolution and its round trip are proved. With both dates given the claim is false of the code: it always raises when curve date < spot date (C08_both_dates_raise) and always raises TypeError with all three (C08_all_three_raise)."
  },
  {
   "property": "C09",
   "status": "proved",
   "theorems": [
    "Frm.Props.C09_elapsed",
    "Frm.Props.C09_additive",
    "Frm.Props.C09_rejects_reversed",
    "Frm.Props.C09_broadcast",
    "Frm.Props.C09_length_mismatch"
   ],
   "note": ""
  },
  {
   "property": "C10",
   "status": "proved",
   "theorems": [
    "Frm.Props.C10_30_360",
    "Frm.Props.C10_30E_360",
    "Frm.Props.C10_30E_360_ISDA",
    "Frm.Props.C10_vector",
    "Frm.Props.C10_scalar_flag_truncates",
    "Frm.Props.C10_whole_months",
    "Frm.Props.C10_full_year",
    "Frm.Props.C10_nonneg",
    "Frm.Props.C10_isda_negative",
    "Frm.Props.C10_additive",
    "Frm.Props.C10_bond_basis_not_additive"
   ],
   "note": ""
  },
  {
   "property": "C11",
   "status": "proved",
   "theorems": [
    "Frm.Props.C11_fixed_denominator",
    "Frm.Props.C11_errors",
    "Frm.Props.C11_act_act_day_weighted",
    "Frm.Props.C11_act_act_vector",
    "Frm.Props.C11_additive",
    "Frm.Props.C11_strictly_increasing",
    "Frm.Props.C11_whole_years"
   ],
   "note": ""
  },
  {
   "property": "C12",
   "status": "proved",
   "theorems": [
    "Frm.Props.C12_tiles",
    "Frm.Props.C12_tiles_rolled",
    "Frm.Props.C12_rolled_stub_gap"
   ],
   "note": ""
  },
  {
   "property": "C13",
   "status": "proved",
   "theorems": [
    "Frm.Props.C13_ordered",
    "Frm.Props.C13_strict",
    "Frm.Props.C13_anchors",
    "Frm.Props.C13_daily_repeats",
    "Frm.Props.C13_weekly_dayroll_inverted"
   ],
   "note": ""
  },
  {
   "property": "C14",
   "status": "proved",
   "theorems": [
    "Frm.Props.C14_forward",
    "Frm.Props.C14_backward",
    "Frm.Props.C14_rolled_outer",
    "Frm.Props.C14_make_schedule_default",
    "Frm.Props.C14_make_schedule_last_stub",
    "Frm.Props.C14_grid_functional"
   ],
   "note": ""
  },
  {
   "property": "C15",
   "status": "partial",
   "theorems": [
    "Frm.Props.C15_first_stub_grid",
    "Frm.Props.C15_long_first",
    "Frm.Props.C15_long_last",
    "Frm.Props.C15_first_period_end_partial",
    "Frm.Props.C15_last_period_start_partial",
    "Frm.Props.C15_two_periods",
    "Frm.Props.C15_both_dates_partial",
    "Frm.Props.C15_last_start_lost",
    "Frm.Props.C15_first_end_lost",
    "Frm.Props.C15_first_end_merged"
   ],
   "note": "Proved: short stubs keep the grid, long stubs merge once, explicit stub dates appear as boundaries when only one is given or both lie on the generated grid. The remaining clause is false of the code: with both dates given one of them can be lost (C15_last_start_lost, C15_first_end_lost) and a LONG last stub can merge an explicit date away (C15_first_end_merged)."
  },
  {
   "property": "C16",
   "status": "proved",
   "theorems": [
    "Frm.Props.C16_bad_order",
    "Frm.Props.C16_bad_first",
    "Frm.Props.C16_bad_last",
    "Frm.Props.C16_defined_without_date",
    "Frm.Props.C16_both_stubs",
    "Frm.Props.C16_unadjusted",
    "Frm.Props.C16_returned_consistent",
    "Frm.Props.C16_zero_coupon"
   ],
   "note": ""
  },
  {
   "property": "C17",
   "status": "proved",
   "theorems": [
    "Frm.Props.C17_payment_dates",
    "Frm.Props.C17_unadjusted",
    "Frm.Props.C17_functional"
   ],
   "note": ""
  },
  {
   "property": "C18",
   "status": "partial",
   "theorems": [
    "Frm.Props.C18_rows",
    "Frm.Props.C18_net",
    "Frm.Props.C18_array_rejected",
    "Frm.Props.C18_coupon_dates",
    "Frm.Props.C18_coupon_rows"
   ],
   "note": "Scalar notionals: proved completely. Per-period notional arrays are claimed to be accepted but the code rejects every one of them (C18_array_rejected)."
  },
  {
   "property": "C19",
   "status": "partial",
   "theorems": [
    "Frm.Props.C19_interp_method",
    "Frm.Props.C19_extrap_method",
    "Frm.Props.C19_pay_rcv",
    "Frm.Props.C19_buy_sell",
    "Frm.Props.C19_compounding_freq",
    "Frm.Props.C19_roll_conv",
    "Frm.Props.C19_timing",
    "Frm.Props.C19_stub",
    "Frm.Props.C19_exchange_notionals",
    "Frm.Props.C19_day_roll",
    "Frm.Props.C19_day_roll_int",
    "Frm.Props.C19_period_freq",
    "Frm.Props.C19_day_count_basis",
    "Frm.Props.C19_missing_default",
    "Frm.Props.C19_missing_raises",
    "Frm.Props.C19_is_valid_disagrees",
    "Frm.Props.C19_basis_valid_reads",
    "Frm.Props.C19_display_read_back",
    "Frm.Props.C19_display_refused",
    "Frm.Props.C19_member_name",
    "Frm.Props.C19_member_name_refused",
    "Frm.Props.C19_display_distinct",
    "Frm.Props.C19_display_texts",
    "Frm.Props.C19_display_texts_other"
   ],
   "note": "Exact acceptance sets are proved for all twelve classes. False of the code: DayCountBasis has a default but a missing value raises (C19_missing_raises), and its validity check refuses accepted spellings (C19_is_valid_disagrees); classes without default raise AttributeError on a missing value. Display names are read back by ten classes (C19_display_read_back), not by ZeroCurveInterpMethod nor for the two modified roll conventions (C19_display_refused); member names are refused by DayCountBasis, days of the month and those two conventions (C19_member_name_refused)."
  },
  {
   "property": "C20",
   "status": "partial",
   "theorems": [
    "Frm.Props.C20_multipliers",
    "Frm.Props.C20_notionals_partial",
    "Frm.Props.C20_signed_notionals",
    "Frm.Props.C20_coupons_do_not_flip",
    "Frm.Props.C20_swap_opposite",
    "Frm.Props.C20_swap_of_opposites",
    "Frm.Props.C20_fails"
   ],
   "note": "Multipliers and notional flows are proved; the coupon part is false at this commit (the multiplier is applied twice): C20_coupons_do_not_flip, C20_swap_of_opposites and C20_fails prove what happens instead."
  },
  {
   "property": "C21",
   "status": "proved",
   "theorems": [
    "Frm.Props.C21_periodic",
    "Frm.Props.C21_simple",
    "Frm.Props.C21_continuous",
    "Frm.Props.C21_positive",
    "Frm.Props.C21_decreasing",
    "Frm.Props.C21_rate_round_trip",
    "Frm.Props.C21_factor_round_trip"
   ],
   "note": ""
  },
  {
   "property": "C22",
   "status": "proved",
   "theorems": [
    "Frm.Props.C22_same_discount",
    "Frm.Props.C22_unique",
    "Frm.Props.C22_round_trip",
    "Frm.Props.C22_transitive",
    "Frm.Props.C22_identity",
    "Frm.Props.C22_simple_only_one_year"
   ],
   "note": ""
  },
  {
   "property": "C23",
   "status": "proved",
   "theorems": [
    "Frm.Props.C23_days",
    "Frm.Props.C23_months",
    "Frm.Props.C23_total",
    "Frm.Props.C23_compose",
    "Frm.Props.C23_strict"
   ],
   "note": ""
  },
  {
   "property": "C24",
   "status": "partial",
   "theorems": [
    "Frm.Props.C24_fixed",
    "Frm.Props.C24_fixed_override",
    "Frm.Props.C24_zero_coupon",
    "Frm.Props.C24_additive",
    "Frm.Props.C24_settled_rows",
    "Frm.Props.C24_no_curve",
    "Frm.Props.C24_float_partial",
    "Frm.Props.C24_fails_for_float"
   ],
   "note": "Proved for fixed and zero-coupon legs and additivity / settled rows for all kinds; false for floating legs, whose coupons are nan and drop the notional flow of their row (C24_float_partial, C24_fails_for_float). The discount curve is a function of the date here; C108 is about ZeroCurve objects."
  },
  {
   "property": "C25",
   "status": "proved",
   "theorems": [
    "Frm.Props.C25_leg",
    "Frm.Props.C25_leg_defined",
    "Frm.Props.C25_idempotent",
    "Frm.Props.C25_swap_dirty",
    "Frm.Props.C25_swap_accrued",
    "Frm.Props.C25_swap",
    "Frm.Props.C25_accrued_needs_pv",
    "Frm.Props.C25_swap_state"
   ],
   "note": ""
  },
  {
   "property": "C26",
   "status": "partial",
   "theorems": [
    "Frm.Props.C26_current_period_partial",
    "Frm.Props.C26_act365",
    "Frm.Props.C26_zero_at_start",
    "Frm.Props.C26_none_current",
    "Frm.Props.C26_adds_all_coupons",
    "Frm.Props.C26_excess",
    "Frm.Props.C26_fails",
    "Frm.Props.C26_fails_after_end"
   ],
   "note": "The current-period accrual is proved; the unsettled part sums every coupon and no current period raises IndexError (C26_adds_all_coupons, C26_excess, C26_none_current, C26_fails)."
  },
  {
   "property": "C27",
   "status": "proved",
   "theorems": [
    "Frm.Props.C27_buckets",
    "Frm.Props.C27_partition",
    "Frm.Props.C27_total",
    "Frm.Props.C27_no_buckets",
    "Frm.Props.C27_past_pillar"
   ],
   "note": " Increasing pillars after the value date; C27_past_pillar says what is counted when the first pillar is not after it."
  },
  {
   "property": "C28",
   "status": "partial",
   "theorems": [
    "Frm.Props.C28_split_partial",
    "Frm.Props.C28_adds_up_iff",
    "Frm.Props.C28_fails"
   ],
   "note": "The current part is proved; the non-current part uses the notional column for coupons (C28_split_partial, C28_adds_up_iff, C28_fails)."
  },
  {
   "property": "C29",
   "status": "proved",
   "theorems": [
    "Frm.Props.C29_restored",
    "Frm.Props.C29_same_value",
    "Frm.Props.C29_par",
    "Frm.Props.C29_search",
    "Frm.Props.C29_reprices",
    "Frm.Props.C29_swallows",
    "Frm.Props.C29_swap",
    "Frm.Props.C29_swap_target_off",
    "Frm.Props.C29_stale_columns",
    "Frm.Props.C29_range",
    "Frm.Props.C29_same_sign",
    "Frm.Props.C29_fixed_line",
    "Frm.Props.C29_fixed_rate",
    "Frm.Props.C29_fixed_par_rate",
    "Frm.Props.C29_no_annuity",
    "Frm.Props.C29_each_leg"
   ],
   "note": "The search is an arbitrary parameter that is given its bracket. That it keeps to the bracket (C29_range), evaluates both ends first and raises on equal signs (C29_same_sign, C29_no_annuity) and finds the root of a straight line (C29_fixed_rate, C29_fixed_par_rate) are hypotheses, met by chordSolver."
  },
  {
   "property": "C30",
   "status": "proved",
   "theorems": [
    "Frm.Props.C30_as_of",
    "Frm.Props.C30_unique",
    "Frm.Props.C30_unsorted"
   ],
   "note": ""
  },
  {
   "property": "C31",
   "status": "proved",
   "theorems": [
    "Frm.Props.C31_daily_compounded",
    "Frm.Props.C31_weighted_average",
    "Frm.Props.C31_simple_average",
    "Frm.Props.C31_constant"
   ],
   "note": "Proved for every period whose first day has a fixing; C32_leading_days_omitted says what happens otherwise."
  },
  {
   "property": "C32",
   "status": "partial",
   "theorems": [
    "Frm.Props.C32_raises_iff_partial",
    "Frm.Props.C32_end_partial",
    "Frm.Props.C32_no_fixings",
    "Frm.Props.C32_leading_days_omitted",
    "Frm.Props.C32_fails_start",
    "Frm.Props.C32_fails_empty",
    "Frm.Props.C32_rejects_covered"
   ],
   "note": "Exactly when the call raises is proved (C32_raises_iff_partial). The beginning of a period is not checked and a window without fixings is accepted: C32_leading_days_omitted, C32_no_fixings, C32_fails_start, C32_fails_empty; covered periods can be rejected (C32_rejects_covered)."
  },
  {
   "property": "C33",
   "status": "proved",
   "theorems": [
    "Frm.Props.C33_crossover",
    "Frm.Props.C33_partition",
    "Frm.Props.C33_historical_alone",
    "Frm.Props.C33_partition_any",
    "Frm.Props.C33_february"
   ],
   "note": " Every basis and every forward curve (C33_partition_any); one fixing per date. Under 30E/360 ISDA the last straddling period counts as ending on a termination date (C33_february). With a ZeroCurve object in place of an arbitrary forward curve: C109."
  },
  {
   "property": "C34",
   "status": "partial",
   "theorems": [
    "Frm.Props.C34_actual",
    "Frm.Props.C34_fails"
   ],
   "note": "False of the code: both masks select the future periods. C34_actual characterises the result, C34_fails refutes both halves."
  },
  {
   "property": "C35",
   "status": "proved",
   "theorems": [
    "Frm.Props.C35_first_point",
    "Frm.Props.C35_unit_at_curve_date",
    "Frm.Props.C35_pillar",
    "Frm.Props.C35_log_linear",
    "Frm.Props.C35_positive",
    "Frm.Props.C35_between",
    "Frm.Props.C35_constant_forward",
    "Frm.Props.C35_antitone",
    "Frm.Props.C35_from_dates",
    "Frm.Props.C35_reproduces_quotes",
    "Frm.Props.C35_every_date_between",
    "Frm.Props.C35_columns",
    "Frm.Props.C35_days_refused",
    "Frm.Props.C35_tenors",
    "Frm.Props.C35_zero_rate_quotes",
    "Frm.Props.C35_years",
    "Frm.Props.C35_february"
   ],
   "note": "Linear interpolation method. Under 30E/360 ISDA the last days of February are read at a time that depends on whether they end the table (C35_february); the other theorems leave these dates out. Pillars given by a number of days are never accepted: the constructor raises NameError (C35_days_refused). The cubic-spline methods are property C86."
  },
  {
   "property": "C36",
   "status": "proved",
   "theorems": [
    "Frm.Props.C36_reproduces",
    "Frm.Props.C36_chain",
    "Frm.Props.C36_averages",
    "Frm.Props.C36_overnight_compounds",
    "Frm.Props.C36_zero_rates",
    "Frm.Props.C36_february"
   ],
   "note": "Every forward rate type and every basis, for curves of each of the three interpolation methods, dates inside the daily table. Under 30E/360 ISDA the rate of a period that ends on the last day of February depends on its place in the request (C36_february)."
  },
  {
   "property": "C37",
   "status": "partial",
   "theorems": [
    "Frm.Props.C37_years_table",
    "Frm.Props.C37_days_lookup",
    "Frm.Props.C37_in_range_partial",
    "Frm.Props.C37_single_date",
    "Frm.Props.C37_dropped",
    "Frm.Props.C37_fails",
    "Frm.Props.C37_borrowed_factor",
    "Frm.Props.C37_years_raise",
    "Frm.Props.C37_one_argument"
   ],
   "note": "Holds for dates inside the table (C37_in_range_partial, C37_single_date). False in general: vector requests outside the table are silently dropped (C37_dropped, C37_fails), forward rates then borrow another period's discount factor (C37_borrowed_factor) and on a curve with linear interpolation lookups by years always raise (C37_years_raise)."
  },
  {
   "property": "C38",
   "status": "proved",
   "theorems": [
    "Frm.Props.C38_reprices",
    "Frm.Props.C38_bootstrap",
    "Frm.Props.C38_accepts_iff",
    "Frm.Props.C38_starts"
   ],
   "note": "For the single-curve linear bootstrap; rows with a settlement delay are accepted exactly when the curve already reaches their start (C38_accepts_iff). Rows with a settlement delay start from the factor of the row maturing on their effective date, and have no factor when that one is not positive (C38_starts). A row without settlement delay that loses everything (1 + rate × years = 0) raises ZeroDivisionError (C38_accepts_iff)."
  },
  {
   "property": "C39",
   "status": "partial",
   "theorems": [
    "Frm.Props.C39_forward_rate",
    "Frm.Props.C39_forward_rate_given",
    "Frm.Props.C39_rows",
    "Frm.Props.C39_reprices",
    "Frm.Props.C39_line_unique",
    "Frm.Props.C39_chain_partial",
    "Frm.Props.C39_one_cash_rate",
    "Frm.Props.C39_no_cash_rate"
   ],
   "note": "C39_chain_partial: with at least two cash points, distinct maturities and positive accruals. Missing, because the code does not do it: after a table with a single cash rate every contract silently gets nan factors (C39_one_cash_rate); without cash rates contracts are refused (C39_no_cash_rate)."
  },
  {
   "property": "C40",
   "status": "partial",
   "theorems": [
    "Frm.Props.C40_second_friday",
    "Frm.Props.C40_expiry_thursday",
    "Frm.Props.C40_accepts_iff",
    "Frm.Props.C40_chronological_partial",
    "Frm.Props.C40_matches_iff",
    "Frm.Props.C40_fails",
    "Frm.Props.C40_ticker",
    "Frm.Props.C40_two_digit_year_refused"
   ],
   "note": "The second-Friday rule is proved for every contract month, and the accepted tables are characterised. The assignment of dates to rows is by position, so it is right exactly for chronologically ordered rows (C40_matches_iff, C40_fails)."
  },
  {
   "property": "C41",
   "status": "partial",
   "theorems": [
    "Frm.Props.C41_rows_partial",
    "Frm.Props.C41_spot_lag",
    "Frm.Props.C41_accepts_iff",
    "Frm.Props.C41_rate_set_raises",
    "Frm.Props.C41_no_rate_set",
    "Frm.Props.C41_exceptions"
   ],
   "note": "The dates of every row are proved for tables that give tenors only (C41_rows_partial, C41_accepts_iff). Tables that give the rate-set date always raise (C41_rate_set_raises), so the property as stated is false of the code. Which exceptions are raised: C41_exceptions."
  },
  {
   "property": "C42",
   "status": "proved",
   "theorems": [
    "Frm.Props.C42_inverts",
    "Frm.Props.C42_other_columns",
    "Frm.Props.C42_no_new_columns",
    "Frm.Props.C42_accepts_iff"
   ],
   "note": ""
  },
  {
   "property": "C43",
   "status": "proved",
   "theorems": [
    "Frm.Props.C43_order",
    "Frm.Props.C43_details",
    "Frm.Props.C43_needs_clean_names"
   ],
   "note": ""
  },
  {
   "property": "C44",
   "status": "proved",
   "theorems": [
    "Frm.Props.C44_accepts_iff",
    "Frm.Props.C44_length",
    "Frm.Props.C44_pillar",
    "Frm.Props.C44_between",
    "Frm.Props.C44_outside",
    "Frm.Props.C44_cases",
    "Frm.Props.C44_missing",
    "Frm.Props.C44_missing_repeated"
   ],
   "note": ""
  },
  {
   "property": "C45",
   "status": "partial",
   "theorems": [
    "Frm.Props.C45_values",
    "Frm.Props.C45_accepts_partial",
    "Frm.Props.C45_scalar",
    "Frm.Props.C45_unchecked",
    "Frm.Props.C45_same_date",
    "Frm.Props.C45_arrays",
    "Frm.Props.C45_scalar_exceptions"
   ],
   "note": "Forward variance and volatility are exact where the volatilities are accepted; C45_arrays says exactly which arrays are accepted and what is returned for every element, and C45_scalar the same for floats. Missing: the refusal of dates out of order when some row has a zero gap, which is false: C45_unchecked shows the code skips that check, and C45_arrays which check remains."
  },
  {
   "property": "C46",
   "status": "proved",
   "theorems": [
    "Frm.Props.C46_flat_forward",
    "Frm.Props.C46_refuses"
   ],
   "note": ""
  },
  {
   "property": "C47",
   "status": "proved",
   "theorems": [
    "Frm.Props.C47_accepts",
    "Frm.Props.C47_parity",
    "Frm.Props.C47_bounds",
    "Frm.Props.C47_expiry",
    "Frm.Props.C47_split",
    "Frm.Props.C47_numerical_greeks"
   ],
   "note": " Numerical greeks always raise (C47_numerical_greeks)."
  },
  {
   "property": "C48",
   "status": "proved",
   "theorems": [
    "Frm.Props.C48_implied_rate",
    "Frm.Props.C48_parity_forward"
   ],
   "note": ""
  },
  {
   "property": "C49",
   "status": "partial",
   "theorems": [
    "Frm.Props.C49_defined",
    "Frm.Props.C49_delta",
    "Frm.Props.C49_vega",
    "Frm.Props.C49_gamma",
    "Frm.Props.C49_theta_call_partial",
    "Frm.Props.C49_theta_put_partial",
    "Frm.Props.C49_rho_partial",
    "Frm.Props.C49_expiry",
    "Frm.Props.C49_expiry_nan",
    "Frm.Props.C49_no_volatility"
   ],
   "note": "Delta, vega and gamma are proved to be derivatives of the price. Theta and rho are not derivatives in general: the theorems characterise when they are (theta of a call: equal rates; of a put with equal rates: zero rates; rho: calls with equal rates). Missing: theta and rho for the other contracts, where the claim is false of the code."
  },
  {
   "property": "C50",
   "status": "proved",
   "theorems": [
    "Frm.Props.C50_monotone",
    "Frm.Props.C50_range",
    "Frm.Props.C50_solver",
    "Frm.Props.C50_fallback"
   ],
   "note": ""
  },
  {
   "property": "C51",
   "status": "partial",
   "theorems": [
    "Frm.Props.C51_regular_spot",
    "Frm.Props.C51_regular_forward",
    "Frm.Props.C51_atm",
    "Frm.Props.C51_adjusted_partial",
    "Frm.Props.C51_adjusted_atm",
    "Frm.Props.C51_put_atm_inconsistent",
    "Frm.Props.C51_adjusted_put_atm",
    "Frm.Props.C51_zero_delta",
    "Frm.Props.C51_bracketed",
    "Frm.Props.C51_put_unique",
    "Frm.Props.C51_put_found",
    "Frm.Props.C51_put_refused",
    "Frm.Props.C51_call_maximum",
    "Frm.Props.C51_call_found",
    "Frm.Props.C51_call_largest",
    "Frm.Props.C51_call_refused",
    "Frm.Props.C51_call_spot",
    "Frm.Props.C51_quotes_apart"
   ],
   "note": "Regular conventions, the at-the-money strike and premium-adjusted strikes away from the money are proved, as are what a premium-adjusted quote of -0.5 (C51_adjusted_put_atm) and a delta of zero (C51_zero_delta) give, and which premium-adjusted strikes the searches find within their brackets (C51_put_found to C51_call_refused). Partial because the claim fails there: the strike of a premium-adjusted quote of -0.5 depends on the other quotes (C51_put_atm_inconsistent), a premium-adjusted delta of zero gets the strike of an earlier quote, and with a supplied forward the search for a call can fail because of the spot rate (C51_call_spot). The root finder is assumed to return roots within its bracket, to converge on a change of sign and to raise without one (met by exactBrent)."
  },
  {
   "property": "C52",
   "status": "proved",
   "theorems": [
    "Frm.Props.C52_elementwise",
    "Frm.Props.C52_price",
    "Frm.Props.C52_parity",
    "Frm.Props.C52_shift",
    "Frm.Props.C52_annuity",
    "Frm.Props.C52_bounds",
    "Frm.Props.C52_monotone",
    "Frm.Props.C52_delta",
    "Frm.Props.C52_vega",
    "Frm.Props.C52_expiry",
    "Frm.Props.C52_negative_time"
   ],
   "note": ""
  },
  {
   "property": "C53",
   "status": "partial",
   "theorems": [
    "Frm.Props.C53_elementwise",
    "Frm.Props.C53_price",
    "Frm.Props.C53_parity",
    "Frm.Props.C53_bounds",
    "Frm.Props.C53_monotone",
    "Frm.Props.C53_delta",
    "Frm.Props.C53_vega",
    "Frm.Props.C53_theta_partial",
    "Frm.Props.C53_expiry",
    "Frm.Props.C53_negative_time"
   ],
   "note": "Parity, positivity, monotonicity, delta and vega proved. Theta is 365.25 times the annual decay instead of one 365.25th of it, so the calendar-day normalisation is refuted in C53_theta_partial. C53_negative_time: a negative time gives nan."
  },
  {
   "property": "C54",
   "status": "partial",
   "theorems": [
    "Frm.Props.C54_b76_adds_up",
    "Frm.Props.C54_bach_adds_up",
    "Frm.Props.C54_b76_time_partial",
    "Frm.Props.C54_bach_time_partial",
    "Frm.Props.C54_b76_negative",
    "Frm.Props.C54_bach_negative"
   ],
   "note": "The split adds up. A non-negative time value is proved for annuity factors of at least one and for options not in the money; for every annuity factor between 0 and 1 a negative time value is exhibited (the intrinsic value lacks the annuity factor)."
  },
  {
   "property": "C55",
   "status": "proved",
   "theorems": [
    "Frm.Props.C55_same_price",
    "Frm.Props.C55_round_trip",
    "Frm.Props.C55_round_trip_normal",
    "Frm.Props.C55_nan"
   ],
   "note": ""
  },
  {
   "property": "C56",
   "status": "partial",
   "theorems": [
    "Frm.Props.C56_atm_formula",
    "Frm.Props.C56_consistent",
    "Frm.Props.C56_defined_iff",
    "Frm.Props.C56_exists_partial",
    "Frm.Props.C56_beta_one",
    "Frm.Props.C56_no_alpha",
    "Frm.Props.C56_positive",
    "Frm.Props.C56_shift"
   ],
   "note": "Consistency, nearest root, positivity and shift proved. A real root always exists for beta different from 1 and positive time; for beta = 1 existence is characterised and fails for some valid parameters (C56_no_alpha)."
  },
  {
   "property": "C57",
   "status": "partial",
   "theorems": [
    "Frm.Props.C57_refused",
    "Frm.Props.C57_plain",
    "Frm.Props.C57_pairs_partial",
    "Frm.Props.C57_odd",
    "Frm.Props.C57_odd_sum"
   ],
   "note": "Pairing proved for even numbers of simulations; for odd numbers the result is one simulation short and the pairs are misaligned (C57_odd)."
  },
  {
   "property": "C58",
   "status": "partial",
   "theorems": [
    "Frm.Props.C58_elementwise",
    "Frm.Props.C58_covariance_partial",
    "Frm.Props.C58_iff_diagonal",
    "Frm.Props.C58_two"
   ],
   "note": "The covariance is L^T L, which is the requested L L^T only for diagonal matrices (C58_iff_diagonal)."
  },
  {
   "property": "C59",
   "status": "partial",
   "theorems": [
    "Frm.Props.C59_one_partial",
    "Frm.Props.C59_column_partial",
    "Frm.Props.C59_many_refused",
    "Frm.Props.C59_many_mixed",
    "Frm.Props.C59_many_one_step",
    "Frm.Props.C59_shapes"
   ],
   "note": "Proved for one variable. With several variables the parameters are broadcast along simulations: refused, or mixed up (C59_many_refused, C59_many_mixed).  Step lengths may be negative: every price after such a step is nan."
  },
  {
   "property": "C60",
   "status": "proved",
   "theorems": [
    "Frm.Props.C60_columns",
    "Frm.Props.C60_partition",
    "Frm.Props.C60_refused",
    "Frm.Props.C60_positive",
    "Frm.Props.C60_no_volatility",
    "Frm.Props.C60_curve_refused",
    "Frm.Props.C60_curve",
    "Frm.Props.C60_curve_prices"
   ],
   "note": "  The forward prices are interpolated on straight lines from a table in any order that covers the horizon; other tables are refused (C60_curve, C60_curve_refused, C60_curve_prices)."
  },
  {
   "property": "C61",
   "status": "partial",
   "theorems": [
    "Frm.Props.C61_b_partial",
    "Frm.Props.C61_b_formula",
    "Frm.Props.C61_b_bounds",
    "Frm.Props.C61_b_horizon",
    "Frm.Props.C61_b_limit",
    "Frm.Props.C61_b_small",
    "Frm.Props.C61_b_negative",
    "Frm.Props.C61_elementwise",
    "Frm.Props.C61_raises",
    "Frm.Props.C61_strikes_refused",
    "Frm.Props.C61_variance",
    "Frm.Props.C61_expected",
    "Frm.Props.C61_parity_partial",
    "Frm.Props.C61_bounds",
    "Frm.Props.C61_nonneg",
    "Frm.Props.C61_zero_vol",
    "Frm.Props.C61_same_date",
    "Frm.Props.C61_zero_vol_parity",
    "Frm.Props.C61_matured",
    "Frm.Props.C61_no_reversion"
   ],
   "note": "b(t,T) is the integral of the decay for mean reversions of at least 1e-8; smaller and all negative ones are replaced by the horizon (C61_b_negative). Parity holds when the bond variance is positive; with zero volatility or equal dates the price is not discounted (C61_zero_vol_parity)."
  },
  {
   "property": "C62",
   "status": "proved",
   "theorems": [
    "Frm.Props.C62_psi",
    "Frm.Props.C62_chi_iff",
    "Frm.Props.C62_payoff_coefficients",
    "Frm.Props.C62_outside"
   ],
   "note": ""
  },
  {
   "property": "C63",
   "status": "partial",
   "theorems": [
    "Frm.Props.C63_quadratic_exponential",
    "Frm.Props.C63_euler_partial",
    "Frm.Props.C63_euler_scheme",
    "Frm.Props.C63_euler_last",
    "Frm.Props.C63_scalar",
    "Frm.Props.C63_accepts",
    "Frm.Props.C63_unknown_method",
    "Frm.Props.C63_no_time",
    "Frm.Props.C63_spot_start",
    "Frm.Props.C63_exceptions",
    "Frm.Props.C63_euler_plain",
    "Frm.Props.C63_euler_past",
    "Frm.Props.C63_scalar_exceptions",
    "Frm.Props.C63_negative_average"
   ],
   "note": "Non-negativity is proved for every row of the quadratic-exponential scheme and for every row but the last of the absorbing and reflecting Euler schemes (C63_euler_partial); the last row is returned before it is fixed and can be negative (C63_euler_last). With no time to the horizon the quadratic-exponential scheme gives nan and then variances of zero (C63_no_time). The Euler scheme without a fix turns into nan after the first negative variance (C63_euler_plain)."
  },
  {
   "property": "C64",
   "status": "partial",
   "theorems": [
    "Frm.Props.C64_quotes",
    "Frm.Props.C64_first_quote",
    "Frm.Props.C64_monotone",
    "Frm.Props.C64_uncovered",
    "Frm.Props.C64_forward",
    "Frm.Props.C64_forward_between",
    "Frm.Props.C64_forward_missing",
    "Frm.Props.C64_par_swap_rate",
    "Frm.Props.C64_strike",
    "Frm.Props.C64_price",
    "Frm.Props.C64_atm_cap_equals_floor",
    "Frm.Props.C64_never_constructed",
    "Frm.Props.C64_price_missing",
    "Frm.Props.C64_periods"
   ],
   "note": "Proved for the quote table and schedule the constructor computes: first covering quote, monotone numbers, forward as weighted average and par swap rate, strikes, flags, prices. The constructor itself always raises (it reads self.cal, which does not exist: C64_never_constructed), so no user ever observes them; the volatility solves are C93. Also proved: which quotes have no price, that the periods are exactly the modified-following multiples of the frequency counted back from the longest quote, and that a table without quotes raises KeyError."
  },
  {
   "property": "C65",
   "status": "proved",
   "theorems": [
    "Frm.Props.C65_history",
    "Frm.Props.C65_kept",
    "Frm.Props.C65_not_recomputed",
    "Frm.Props.C65_once",
    "Frm.Props.C65_method_change"
   ],
   "note": ""
  },
  {
   "property": "C66",
   "status": "partial",
   "theorems": [
    "Frm.Props.C66_move_partial",
    "Frm.Props.C66_move_before",
    "Frm.Props.C66_move_last",
    "Frm.Props.C66_move_self",
    "Frm.Props.C66_columns",
    "Frm.Props.C66_copy",
    "Frm.Props.C66_copy_distinct",
    "Frm.Props.C66_duplicates"
   ],
   "note": "The columns are preserved (C66_columns) and a column after the reference is moved right after it (C66_move_partial); a column before the reference lands one place too far unless the reference is last (C66_move_before, C66_move_last). Messages are copied correctly for distinct identifiers (C66_copy, C66_copy_distinct); with duplicates a message can be erased (C66_duplicates)."
  },
  {
   "property": "C67",
   "status": "proved",
   "theorems": [
    "Frm.Props.C67_rows",
    "Frm.Props.C67_needs_settlement"
   ],
   "note": ""
  },
  {
   "property": "C68",
   "status": "proved",
   "theorems": [
    "Frm.Props.C68_values",
    "Frm.Props.C68_names",
    "Frm.Props.C68_idempotent",
    "Frm.Props.C68_canonical"
   ],
   "note": ""
  },
  {
   "property": "C69",
   "status": "partial",
   "theorems": [
    "Frm.Props.C69_partial",
    "Frm.Props.C69_eurusd",
    "Frm.Props.C69_nzdeur"
   ],
   "note": "Proved for every pair but two (C69_partial). False for EUR/USD, which line 107 omits in favour of NZD/EUR (C69_eurusd, C69_nzdeur)."
  },
  {
   "property": "C70",
   "status": "partial",
   "theorems": [
    "Frm.Props.C70_black_partial",
    "Frm.Props.C70_bachelier_partial",
    "Frm.Props.C70_black_found",
    "Frm.Props.C70_bachelier_found",
    "Frm.Props.C70_black_accuracy",
    "Frm.Props.C70_bachelier_accuracy",
    "Frm.Props.C70_trusts_success",
    "Frm.Props.C70_shift_partial",
    "Frm.Props.C70_normal_partial",
    "Frm.Props.C70_to_normal_partial",
    "Frm.Props.C70_atm_dropped",
    "Frm.Props.C70_black_range",
    "Frm.Props.C70_bachelier_range",
    "Frm.Props.C70_shift_range",
    "Frm.Props.C70_normal_range",
    "Frm.Props.C70_to_normal_range",
    "Frm.Props.C70_black_out_of_reach",
    "Frm.Props.C70_bachelier_out_of_reach",
    "Frm.Props.C70_black_single_out",
    "Frm.Props.C70_bachelier_single_out",
    "Frm.Props.C70_to_normal_below",
    "Frm.Props.C70_to_normal_atm"
   ],
   "note": "Repricing proved except when the fallback L-BFGS-B reports success without meeting the tolerance, which the code trusts (C70_trusts_success). At the money normal_vol_to_black76_sln drops its closed form. The range theorems assume methods that keep to their bounds, and the ones on prices out of reach that Brent's method evaluates both ends first, as scipy documents."
  },
  {
   "property": "C71",
   "status": "proved",
   "theorems": [
    "Frm.Props.C71_elementwise",
    "Frm.Props.C71_formula",
    "Frm.Props.C71_scaling",
    "Frm.Props.C71_no_volvol",
    "Frm.Props.C71_fit",
    "Frm.Props.C71_fit_refuses",
    "Frm.Props.C71_objective",
    "Frm.Props.C71_fit_bounds",
    "Frm.Props.C71_beta_negative",
    "Frm.Props.C71_start",
    "Frm.Props.C71_search_range",
    "Frm.Props.C71_wrong_number",
    "Frm.Props.C71_same_sign",
    "Frm.Props.C71_both_negative",
    "Frm.Props.C71_correlation_one"
   ],
   "note": "The fitted beta may be negative although the comment gives its range as 0 to 1 (C71_beta_negative). C71_wrong_number: a search returning another number of parameters raises ValueError. C71_same_sign, C71_both_negative: a volatility is computed exactly for shifted forward and strike of one sign, both negative ones included. C71_correlation_one: a correlation of one gives zero volatilities or nan."
  },
  {
   "property": "C72",
   "status": "proved",
   "theorems": [
    "Frm.Props.C72_garman_kohlhagen",
    "Frm.Props.C72_black76",
    "Frm.Props.C72_bachelier"
   ],
   "note": ""
  },
  {
   "property": "C73",
   "status": "partial",
   "theorems": [
    "Frm.Props.C73_accepts",
    "Frm.Props.C73_equation",
    "Frm.Props.C73_methods_agree",
    "Frm.Props.C73_fits_iff",
    "Frm.Props.C73_theta_ignores_curve",
    "Frm.Props.C73_theta_fitted_iff",
    "Frm.Props.C73_flat"
   ],
   "note": "The bond equation, the agreement of the two formulas and the fit for a fitted drift are proved. The thetas of the code ignore the curve, so the fit holds only for a flat curve (C73_theta_ignores_curve, C73_theta_fitted_iff)."
  },
  {
   "property": "C74",
   "status": "proved",
   "theorems": [
    "Frm.Props.C74_strikes",
    "Frm.Props.C74_decomposition",
    "Frm.Props.C74_unique",
    "Frm.Props.C74_refused",
    "Frm.Props.C74_never_priced",
    "Frm.Props.C74_keywords",
    "Frm.Props.C74_wrong_keywords",
    "Frm.Props.C74_optionlet_intended",
    "Frm.Props.C74_swaption_formula",
    "Frm.Props.C74_swaption_overpriced",
    "Frm.Props.C74_par_rate_exists",
    "Frm.Props.C74_found",
    "Frm.Props.C74_rate_range",
    "Frm.Props.C74_expiry_today"
   ],
   "note": "The prices built on the decomposition are never returned because of wrong keywords (C74_never_priced). If the keywords were right, optionlets would satisfy parity (C74_optionlet_intended) but swaptions would still be mispriced: the sum of all year fractions is multiplied by the sum of all coupon options (C74_swaption_formula, C74_swaption_overpriced). Which swaptions the search in [-1, 1] serves is proved for a search that converges on a change of sign and raises without one (C74_found; met by exactSearch)."
  },
  {
   "property": "C75",
   "status": "partial",
   "theorems": [
    "Frm.Props.C75_accepts",
    "Frm.Props.C75_shape",
    "Frm.Props.C75_discount",
    "Frm.Props.C75_euler",
    "Frm.Props.C75_rk4",
    "Frm.Props.C75_exact",
    "Frm.Props.C75_antithetic",
    "Frm.Props.C75_no_volatility",
    "Frm.Props.C75_ignores_curve",
    "Frm.Props.C75_unknown_method"
   ],
   "note": "Shape, schemes, discounting and pairing proved. The averages do not follow the curve: it is ignored (C75_ignores_curve); odd antithetic numbers are refused (C75_accepts) and unknown methods give zero rates (C75_unknown_method)."
  },
  {
   "property": "C76",
   "status": "proved",
   "theorems": [
    "Frm.Props.C76_variance_moments",
    "Frm.Props.C76_moments_exist",
    "Frm.Props.C76_log_spot"
   ],
   "note": ""
  },
  {
   "property": "C77",
   "status": "partial",
   "theorems": [
    "Frm.Props.C77_price",
    "Frm.Props.C77_direct_partial",
    "Frm.Props.C77_one_sided",
    "Frm.Props.C77_refused",
    "Frm.Props.C77_parity",
    "Frm.Props.C77_direct_parity",
    "Frm.Props.C77_defaults",
    "Frm.Props.C77_mean",
    "Frm.Props.C77_error",
    "Frm.Props.C77_call_error",
    "Frm.Props.C77_law_error",
    "Frm.Props.C77_any_range",
    "Frm.Props.C77_any_range_direct",
    "Frm.Props.C77_above",
    "Frm.Props.C77_below"
   ],
   "note": "Proved for the default call. Without put-call parity, requests for calls only or puts only raise (C77_one_sided), so C77_direct_partial needs both kinds. The statement holds when the truncation interval straddles zero. For any other interval the price is the integral of the payoff from the lower end to zero against the expansion (C77_any_range, C77_any_range_direct); this is wrong, since an interval above zero prices puts as contracts that pay K^2 e^(2a)/S - K when positive (C77_above) and one below zero credits puts with K - K^2 e^(2b)/S when positive (C77_below). Under the law of the log spot, which exists and is unique (C79_law_exists), the price with N terms is the discounted mean of the first N terms of the cosine series of the payoff (C77_mean) and lies within e^{-r tau} K (4 (b-a)/pi^2 (1+e^a+(b-a)/pi)/N + P(log moneyness outside [a,b])) of the discounted mean payoff (C77_error, C77_call_error); the probability is bounded by the characteristic function of the code at imaginary arguments (C77_law_error)."
  },
  {
   "property": "C78",
   "status": "proved",
   "theorems": [
    "Frm.Props.C78_implementations_agree",
    "Frm.Props.C78_backward_equation",
    "Frm.Props.C78_bounded",
    "Frm.Props.C78_forward",
    "Frm.Props.C78_heston1993",
    "Frm.Props.C78_decay"
   ],
   "note": ""
  },
  {
   "property": "C79",
   "status": "partial",
   "theorems": [
    "Frm.Props.C79_parity_partial",
    "Frm.Props.C79_refused",
    "Frm.Props.C79_heston1993",
    "Frm.Props.C79_damped_kernel",
    "Frm.Props.C79_carr_madan",
    "Frm.Props.C79_fft_grid",
    "Frm.Props.C79_fft",
    "Frm.Props.C79_weights",
    "Frm.Props.C79_lipton_partial",
    "Frm.Props.C79_lipton_wrong",
    "Frm.Props.C79_fft_between",
    "Frm.Props.C79_carr_madan_law",
    "Frm.Props.C79_carr_madan_parity",
    "Frm.Props.C79_lipton_law_partial",
    "Frm.Props.C79_heston1993_law",
    "Frm.Props.C79_square_law",
    "Frm.Props.C79_law_exists",
    "Frm.Props.C79_law_moments",
    "Frm.Props.C79_carr_madan_price",
    "Frm.Props.C79_carr_madan_price_parity",
    "Frm.Props.C79_lipton_price_partial",
    "Frm.Props.C79_heston1993_price",
    "Frm.Props.C79_fft_price",
    "Frm.Props.C79_fft_price_between"
   ],
   "note": "For all positive speeds and volatilities of variance, correlations in [-1,1], nonnegative variances and horizons there is exactly one law of the log spot whose characteristic function is that of the code (C79_law_exists): the Riccati equation is solved by steps that keep exponents of characteristic functions, and the limit is a law. Every power of the spot whose mean stays finite at all horizons has its mean, and the characteristic function continues to it (C79_law_moments). So the quadrature Carr-Madan price of calls and puts is the discounted mean payoff where the powers 1.75 and -0.75 are such (C79_carr_madan_price) and satisfies parity (C79_carr_madan_price_parity); so are the 1993 prices (C79_heston1993_price) and the Lipton prices without correlation (C79_lipton_price_partial). The theorems named _law hold for any law with the transform. The Lipton integrand is wrong with correlation (C79_lipton_wrong). The transform price is a fixed quadrature of the Carr-Madan integral (C79_fft, C79_fft_between). At the strikes of its grid it is the discounted mean payoff up to an explicit error: the frequencies left out, and the mean payoffs at the strikes e^{4 pi n} and e^{8 pi n} away which sums over frequencies add by Poisson's formula (C79_fft_price, C79_fft_price_between); the weights called Simpson weights are not a Simpson rule (C79_weights). Parity whatever the parameters: cosine, 1993 and Lipton methods (C79_parity_partial)."
  },
  {
   "property": "C80",
   "status": "partial",
   "theorems": [
    "Frm.Props.C80_centre",
    "Frm.Props.C80_width",
    "Frm.Props.C80_width_partial",
    "Frm.Props.C80_moments_exist",
    "Frm.Props.C80_collapses",
    "Frm.Props.C80_brownian"
   ],
   "note": "The centre is the mean (C80_centre). The width is false of the code: the second cumulant is too small by vv^2 theta (1-e^{-kappa tau})/(4 kappa^3) (C80_width, C80_collapses); C80_width_partial is the case without volatility of variance."
  },
  {
   "property": "C81",
   "status": "proved",
   "theorems": [
    "Frm.Props.C81_daily",
    "Frm.Props.C81_refuses",
    "Frm.Props.C81_repeated",
    "Frm.Props.C81_unordered"
   ],
   "note": "  C81_repeated: an expiry quoted twice has the volatilities of its last row and the convention of its first. C81_unordered: expiries out of order, or none, are refused."
  },
  {
   "property": "C82",
   "status": "proved",
   "theorems": [
    "Frm.Props.C82_rows",
    "Frm.Props.C82_spline_quotes",
    "Frm.Props.C82_prices",
    "Frm.Props.C82_parity",
    "Frm.Props.C82_heston_price",
    "Frm.Props.C82_refused"
   ],
   "note": ""
  },
  {
   "property": "C83",
   "status": "proved",
   "theorems": [
    "Frm.Props.C83_calibration",
    "Frm.Props.C83_quotes",
    "Frm.Props.C83_outcome",
    "Frm.Props.C83_other_deltas"
   ],
   "note": " C83_outcome: a smile one of whose model prices has no implied volatility raises TypeError, a poor fit ValueError, and every other fit is stored. C83_other_deltas: another number of deltas than quotes is refused."
  },
  {
   "property": "C84",
   "status": "partial",
   "theorems": [
    "Frm.Props.C84_cleaned_partial",
    "Frm.Props.C84_idempotent",
    "Frm.Props.C84_index",
    "Frm.Props.C84_raises"
   ],
   "note": "Proved for tables without a column called index (C84_cleaned_partial); with one, no blank row is dropped and that column becomes the identifier (C84_index), or the call raises (C84_raises). Idempotence is proved when no label becomes internal_id by stripping (C84_idempotent)."
  },
  {
   "property": "C85",
   "status": "partial",
   "theorems": [
    "Frm.Props.C85_exact_isRounding",
    "Frm.Props.C85_binary64_isRounding",
    "Frm.Props.C85_bps",
    "Frm.Props.C85_percent",
    "Frm.Props.C85_bps_heading",
    "Frm.Props.C85_bps_exact",
    "Frm.Props.C85_heading_truncated",
    "Frm.Props.C85_untouched",
    "Frm.Props.C85_capitals_refused",
    "Frm.Props.C85_one_atm",
    "Frm.Props.C85_documented_style_refused",
    "Frm.Props.C85_table",
    "Frm.Props.C85_table_exact",
    "Frm.Props.C85_offsets_collide",
    "Frm.Props.C85_percent_collides",
    "Frm.Props.C85_numbers",
    "Frm.Props.C85_any_bps",
    "Frm.Props.C85_any_percent"
   ],
   "note": "Proved: the offset of a whole number of basis points (up to 10^6) or percent, untouched headings, the one at-the-money heading, whole tables of distinct offsets in exact arithmetic (C85_bps, C85_percent, C85_untouched, C85_one_atm, C85_table_exact). False of the code and proved so: 1% and 1bps share a heading (C85_percent_collides), 3bps is renamed 2bps in binary64 (C85_heading_truncated, C85_offsets_collide), the documented style ATM+50bps and headings in capitals are refused (C85_documented_style_refused, C85_capitals_refused). Every heading that mentions a number of basis points or per cent is either tied to the number its text stands for, to eight decimals, or refused (C85_numbers, C85_any_bps, C85_any_percent, exact arithmetic)."
  },
  {
   "property": "C86",
   "status": "partial",
   "theorems": [
    "Frm.Props.C86_positive",
    "Frm.Props.C86_zero_rates",
    "Frm.Props.C86_dates_are_times",
    "Frm.Props.C86_times",
    "Frm.Props.C86_dates",
    "Frm.Props.C86_rates",
    "Frm.Props.C86_dated_rates",
    "Frm.Props.C86_simple_rates",
    "Frm.Props.C86_unit",
    "Frm.Props.C86_instantaneous",
    "Frm.Props.C86_accumulates",
    "Frm.Props.C86_linear_no_forward",
    "Frm.Props.C86_refused",
    "Frm.Props.C86_order",
    "Frm.Props.C86_tenors",
    "Frm.Props.C86_accepted",
    "Frm.Props.C86_interpolates",
    "Frm.Props.C86_pillar_table",
    "Frm.Props.C86_integrated",
    "Frm.Props.C86_integrated_rate",
    "Frm.Props.C86_february",
    "Frm.Props.C86_february_quotes",
    "Frm.Props.C86_missing",
    "Frm.Props.C86_missing_only",
    "Frm.Props.C86_missing_sample",
    "Frm.Props.C86_unit_dates"
   ],
   "note": "Proved for both spline methods with any interpolating C2 spline routine, except: with splines on zero rates a SIMPLE rate is treated as annual and contradicted at every time but one year (C86_simple_rates); a linearly interpolated curve has no instantaneous forward (C86_linear_no_forward). On the last days of February under 30E/360 ISDA the curve is read as on a termination date exactly on the last date of its table (C86_february), so quotes there are reproduced if the last row is the last date (C86_february_quotes). The Hull-White models' forward rate by integration is the logarithm of the ratio of discount factors, a rate only over one year (C86_integrated, C86_integrated_rate). With splines on zero rates, a table of discount factors that includes one at time 0 is accepted and gives a curve of nan (C86_missing, C86_missing_sample; C86_missing_only: only then); that a nan among the values given to FITPACK makes all of the spline nan is an assumption on FITPACK."
  },
  {
   "property": "C87",
   "status": "partial",
   "theorems": [
    "Frm.Props.C87_second_time_refused",
    "Frm.Props.C87_years_partial",
    "Frm.Props.C87_quotes_kept",
    "Frm.Props.C87_columns_added"
   ],
   "note": "True for tables of years (C87_years_partial); quotes and dates are never altered (C87_quotes_kept). False for tables of dates or tenors: columns are added to the caller's table and the next construction raises ValueError (C87_second_time_refused)."
  },
  {
   "property": "C88",
   "status": "partial",
   "theorems": [
    "Frm.Props.C88_linear_refused",
    "Frm.Props.C88_made_iff",
    "Frm.Props.C88_initial_rate",
    "Frm.Props.C88_initial_rate_average",
    "Frm.Props.C88_setup_iff",
    "Frm.Props.C88_setup_partial",
    "Frm.Props.C88_pillars_spaced",
    "Frm.Props.C88_step_irrelevant",
    "Frm.Props.C88_whole_years",
    "Frm.Props.C88_whole_years_lost",
    "Frm.Props.C88_error_refused",
    "Frm.Props.C88_search_refused",
    "Frm.Props.C88_search_empty",
    "Frm.Props.C88_accepted",
    "Frm.Props.C88_before_setup",
    "Frm.Props.C88_error_formula"
   ],
   "note": "Proved: initial rate, acceptance, agreement of the drift with get_thetas at every pillar but the last and between them, independence of the step. False: fit_theta never succeeds, because the error is also calculated at the curve date, where calc_discount_factor_by_solving_ode_1 refuses (C88_search_refused, C88_error_refused); times given as integers lose the initial rate (C88_whole_years). At the last pillar the drift is extrapolated.  C88_error_formula: what the error would be for a curve without a pillar on the curve date."
  },
  {
   "property": "C89",
   "status": "partial",
   "theorems": [
    "Frm.Props.C89_strikes",
    "Frm.Props.C89_rows",
    "Frm.Props.C89_vols",
    "Frm.Props.C89_prices",
    "Frm.Props.C89_interpolated",
    "Frm.Props.C89_admissible",
    "Frm.Props.C89_refused",
    "Frm.Props.C89_at_the_money",
    "Frm.Props.C89_parity",
    "Frm.Props.C89_given_vols",
    "Frm.Props.C89_equivalent_partial",
    "Frm.Props.C89_trusts_success",
    "Frm.Props.C89_flat_start",
    "Frm.Props.C89_greeks",
    "Frm.Props.C89_sensitivities",
    "Frm.Props.C89_swap",
    "Frm.Props.C89_intrinsic",
    "Frm.Props.C89_no_smile"
   ],
   "note": "Everything is proved except that an equivalent flat volatility accepted on the word of the fallback minimisation need not reprice (C89_equivalent_partial; C89_trusts_success: any value is passed on). The strip is priced from an arbitrary table of smiles: the constructor of the shipped class never returns (C64_never_constructed). C89_flat_start: the searches for flat volatilities start at the means of the known volatilities. C89_greeks, C89_sensitivities: the delta and the vega of every row are those of the model for its inputs, and are derivatives of its price. A cap less a floor is a swap on the curve (C89_swap). With positive annuities a strip is worth more than its rows exercised today (C89_intrinsic). Smiles for a first period that has begun, or with a zero shifted forward, raise ValueError (C89_no_smile)."
  },
  {
   "property": "C90",
   "status": "partial",
   "theorems": [
    "Frm.Props.C90_arguments",
    "Frm.Props.C90_outcomes",
    "Frm.Props.C90_points",
    "Frm.Props.C90_density",
    "Frm.Props.C90_distribution",
    "Frm.Props.C90_close",
    "Frm.Props.C90_exact",
    "Frm.Props.C90_range_partial",
    "Frm.Props.C90_range_unchecked",
    "Frm.Props.C90_whole_mass_refused",
    "Frm.Props.C90_uniform_ahead"
   ],
   "note": "Proved: refusals, points, the density as cosine series, exactness for cosine polynomials, the distribution function as a sum within an explicit bound of order dt of the integral. The range check is false of the code: on even grids the integral is the total mass plus half a step times the density at the two ends (C90_range_partial), so a range with no probability is accepted (C90_range_unchecked) and one with all of it can be refused (C90_whole_mass_refused). The distribution function is one cell ahead (C90_uniform_ahead)."
  },
  {
   "property": "C91",
   "status": "partial",
   "theorems": [
    "Frm.Props.C91_own_dates_partial",
    "Frm.Props.C91_sampling_refused",
    "Frm.Props.C91_unknown_sampling",
    "Frm.Props.C91_days_of_value_refused",
    "Frm.Props.C91_returns_iff",
    "Frm.Props.C91_refusals"
   ],
   "note": "Proved for dates of one's own without days of value (C91_own_dates_partial). The rest is false of the code: every sampling frequency raises (C91_sampling_refused, C91_unknown_sampling), and so does asking for the days of value (C91_days_of_value_refused); C91_returns_iff says exactly when a grid is returned."
  },
  {
   "property": "C92",
   "status": "partial",
   "theorems": [
    "Frm.Props.C92_refused",
    "Frm.Props.C92_shift",
    "Frm.Props.C92_symmetric",
    "Frm.Props.C92_scale",
    "Frm.Props.C92_positive",
    "Frm.Props.C92_can_be_negative",
    "Frm.Props.C92_negative_accepted",
    "Frm.Props.C92_at_the_money",
    "Frm.Props.C92_moneyness",
    "Frm.Props.C92_equivalent",
    "Frm.Props.C92_bracket",
    "Frm.Props.C92_off_the_money"
   ],
   "note": "The accuracy of the formula is proved at the money (against what black76_sln_to_normal_vol returns there) and away from the money (C92_off_the_money, for strikes within a factor e^10.95), where the normal volatility with the same price exists, is unique (C92_equivalent) and is bracketed for every strike, time and volatility (C92_bracket). False of the code, with witnesses: positivity for strikes more than e^10.95 away (C92_can_be_negative); refusal of a forward and strike both below minus the shift (C92_negative_accepted)."
  },
  {
   "property": "C93",
   "status": "partial",
   "theorems": [
    "Frm.Props.C93_quote_vol",
    "Frm.Props.C93_quote_vol_unique",
    "Frm.Props.C93_table",
    "Frm.Props.C93_groups",
    "Frm.Props.C93_first_quote",
    "Frm.Props.C93_later_quote",
    "Frm.Props.C93_smile",
    "Frm.Props.C93_converted",
    "Frm.Props.C93_reprices",
    "Frm.Props.C93_fit_unchecked",
    "Frm.Props.C93_fit_refused",
    "Frm.Props.C93_pillar",
    "Frm.Props.C93_pillar_mispriced",
    "Frm.Props.C93_no_atmf",
    "Frm.Props.C93_short_first_quote",
    "Frm.Props.C93_prior_known",
    "Frm.Props.C93_ranges",
    "Frm.Props.C93_quote_vol_range",
    "Frm.Props.C93_quote_vol_missed",
    "Frm.Props.C93_quote_start"
   ],
   "note": "Lines 182-518 as if the constructor got there. Prices and volatilities are real numbers, quotes have finite strikes and prices, and the minimisers and np.roots are parameters that are given their starting points and bounds; that they keep to the bounds is a hypothesis of C93_ranges, C93_quote_vol_range and C93_quote_vol_missed. A later quote is bootstrapped only when the last earlier smile has a volatility at its strike (C93_prior_known). C93_quote_start: where the search for the normal volatility of a quote starts."
  },
  {
   "property": "C94",
   "status": "proved",
   "theorems": [
    "Frm.Props.C94_one_date",
    "Frm.Props.C94_spot",
    "Frm.Props.C94_pillars",
    "Frm.Props.C94_market",
    "Frm.Props.C94_strikes",
    "Frm.Props.C94_smile_strikes",
    "Frm.Props.C94_accepted",
    "Frm.Props.C94_overnight_and_spot_next",
    "Frm.Props.C94_offset_ignored",
    "Frm.Props.C94_both_dates",
    "Frm.Props.C94_reused_tables",
    "Frm.Props.C94_raises",
    "Frm.Props.C94_flags",
    "Frm.Props.C94_every_strike",
    "Frm.Props.C94_raises_value",
    "Frm.Props.C94_raises_assertion",
    "Frm.Props.C94_missing_forward"
   ],
   "note": "Quotes and forwards may be missing (nan); zero rates are never nan and rows of a table have distinct labels. C94_every_strike covers every quote of a built surface: column names only stand for deltas of 1% to 49% and the money, and no quote of the smile is missing. C94_missing_forward: forwards that are missing are passed over. The exceptions: C94_raises (first steps), C94_raises_value, C94_raises_assertion (last steps, with a missing quote or spot); those of the quotes' columns are in C42. C94_flags: the deltas and flags that queries read."
  },
  {
   "property": "C95",
   "status": "proved",
   "theorems": [
    "Frm.Props.C95_variance_integral",
    "Frm.Props.C95_no_mean_reversion",
    "Frm.Props.C95_variance",
    "Frm.Props.C95_drift_integral",
    "Frm.Props.C95_drift_start",
    "Frm.Props.C95_docstring",
    "Frm.Props.C95_conditional_mean",
    "Frm.Props.C95_conditional_variance",
    "Frm.Props.C95_shapes",
    "Frm.Props.C95_falling_volatility",
    "Frm.Props.C95_path",
    "Frm.Props.C95_law",
    "Frm.Props.C95_bond",
    "Frm.Props.C95_mean_bond",
    "Frm.Props.C95_first_period",
    "Frm.Props.C95_first_period_flat",
    "Frm.Props.C95_payoff"
   ],
   "note": "The settings of the script are arguments of the model; one path, one option and one bond; exact reals and standard normal draws on any probability space."
  },
  {
   "property": "C96",
   "status": "proved",
   "theorems": [
    "Frm.Props.C96_draws",
    "Frm.Props.C96_gbm_law",
    "Frm.Props.C96_gbm_mean",
    "Frm.Props.C96_gbm_option",
    "Frm.Props.C96_euler_law",
    "Frm.Props.C96_exact_law",
    "Frm.Props.C96_clewlow",
    "Frm.Props.C96_clewlow_forward"
   ],
   "note": "The generator is a parameter, its numbers exact normal variables on any probability space. Averages over finitely many paths are not considered."
  },
  {
   "property": "C97",
   "status": "proved",
   "theorems": [
    "Frm.Props.C97_same",
    "Frm.Props.C97_path",
    "Frm.Props.C97_own_draws",
    "Frm.Props.C97_refused",
    "Frm.Props.C97_unknown_method",
    "Frm.Props.C97_mean",
    "Frm.Props.C97_mean_order",
    "Frm.Props.C97_exact_law",
    "Frm.Props.C97_sign",
    "Frm.Props.C97_never_returns",
    "Frm.Props.C97_no_path",
    "Frm.Props.C97_multiprocessing",
    "Frm.Props.C97_negative"
   ],
   "note": "Floats are reals; the time step is positive; numba compiles what the text says; the generator and unwritten memory are parameters. That a nested function cannot be pickled is a modelling assumption about multiprocessing."
  },
  {
   "property": "C98",
   "status": "partial",
   "theorems": [
    "Frm.Props.C98_new_schedule",
    "Frm.Props.C98_rolled_dates",
    "Frm.Props.C98_leg",
    "Frm.Props.C98_sign",
    "Frm.Props.C98_inflation",
    "Frm.Props.C98_retry",
    "Frm.Props.C98_same_field",
    "Frm.Props.C98_shared",
    "Frm.Props.C98_shared_swap",
    "Frm.Props.C98_contractual_columns",
    "Frm.Props.C98_lengths",
    "Frm.Props.C98_buckets",
    "Frm.Props.C98_buckets_refused",
    "Frm.Props.C98_dv01",
    "Frm.Props.C98_zero_accrued",
    "Frm.Props.C98_zero_clean",
    "Frm.Props.C98_missing_methods",
    "Frm.Props.C98_no_period_end",
    "Frm.Props.C98_no_payment_date",
    "Frm.Props.C98_shown_columns",
    "Frm.Props.C98_solved_column",
    "Frm.Props.C98_zero_unvalued"
   ],
   "note": "Partial because the independence of legs sharing a schedule is false; the theorems say what happens instead. The data frame is modelled by its column names in order, its schedule rows and its added columns of numbers; warnings are not modelled; `IndexError` for an insertion beyond the last column is a modelling assumption about pandas."
  },
  {
   "property": "C99",
   "status": "proved",
   "theorems": [
    "Frm.Props.C99_table",
    "Frm.Props.C99_overnight_table",
    "Frm.Props.C99_term_table",
    "Frm.Props.C99_overnight_rates",
    "Frm.Props.C99_no_method",
    "Frm.Props.C99_current_rates",
    "Frm.Props.C99_term_averages",
    "Frm.Props.C99_term_refused",
    "Frm.Props.C99_curve",
    "Frm.Props.C99_one_basis",
    "Frm.Props.C99_discount_factors",
    "Frm.Props.C99_foreign_method"
   ],
   "note": "The rates of RFRFixings are those of C31 to C33. Members of RFRFixingCalcMethod are true as conditions."
  },
  {
   "property": "C100",
   "status": "proved",
   "theorems": [
    "Frm.Props.C100_capfloor_never",
    "Frm.Props.C100_capfloor_columns",
    "Frm.Props.C100_capfloor_no_tenor",
    "Frm.Props.C100_capfloor_keeps",
    "Frm.Props.C100_fx_paths",
    "Frm.Props.C100_fx_paths_fixed",
    "Frm.Props.C100_flat_shift",
    "Frm.Props.C100_third_discount_factor",
    "Frm.Props.C100_delay",
    "Frm.Props.C100_heston_inputs",
    "Frm.Props.C100_capfloor_stops",
    "Frm.Props.C100_capfloor_keywords"
   ],
   "note": "Steps of process_capfloor_quotes before the refused call are modelled by whether they raise and the columns they write. Assumed of pandas: `union` refuses a single date, and `years` is not read as a date. Arrays of the Heston inputs have at least one entry."
  },
  {
   "property": "C101",
   "status": "proved",
   "theorems": [
    "Frm.Props.C101_curve_plot",
    "Frm.Props.C101_whole_years",
    "Frm.Props.C101_smile_line",
    "Frm.Props.C101_smile_state",
    "Frm.Props.C101_smile_refused",
    "Frm.Props.C101_marks",
    "Frm.Props.C101_marks_places",
    "Frm.Props.C101_smile_neutral",
    "Frm.Props.C101_smile_drawn",
    "Frm.Props.C101_term_before"
   ],
   "note": "The points handed to matplotlib; titles and labels are not modelled. Places of points at a volatility that is zero or not finite are not stated. The curve may have any of the three interpolation methods."
  },
  {
   "property": "C102",
   "status": "proved",
   "theorems": [
    "Frm.Props.C102_carr_madan",
    "Frm.Props.C102_lipton",
    "Frm.Props.C102_cosine",
    "Frm.Props.C102_no_arbitrage"
   ],
   "note": "Scope: the Lipton method with correlation gives another price (C79_lipton_wrong) and is outside the statement, as is the fast Fourier transform, a fixed quadrature (C79_fft)."
  },
  {
   "property": "C103",
   "status": "partial",
   "theorems": [
    "Frm.Props.C103_tenors_only",
    "Frm.Props.C103_bootstrap",
    "Frm.Props.C103_kept",
    "Frm.Props.C103_left",
    "Frm.Props.C103_refusals",
    "Frm.Props.C103_dates_need_tenor",
    "Frm.Props.C103_own_starts_refused",
    "Frm.Props.C103_default_calendar",
    "Frm.Props.C103_second_call",
    "Frm.Props.C103_failed_call",
    "Frm.Props.C103_futures_stale"
   ],
   "note": "Proved: dates of the table are kept and the periods counted between them (C103_kept), what every call leaves in the table, also one that raises (C103_left, C103_refusals); a table of tenors and rates gets the dates of C67 (C103_tenors_only) and is bootstrapped as in C38 (C103_bootstrap). The rest is false of the code: dates without tenors pass the assertion and then raise KeyError (C103_dates_need_tenor); own start dates come back without has_settlement_delay and cannot be bootstrapped (C103_own_starts_refused); without a calendar the call raises unless the settlement date and the maturity dates are given (C103_default_calendar); a second call for another curve date keeps every date of the first (C103_second_call), also after a first call that failed on a tenor (C103_failed_call); a table of futures that has been bootstrapped keeps its forward rates when its prices change (C103_futures_stale)."
  },
  {
   "property": "C104",
   "status": "partial",
   "theorems": [
    "Frm.Props.C104_accepted",
    "Frm.Props.C104_exceptions",
    "Frm.Props.C104_results",
    "Frm.Props.C104_delta_twice_shifted",
    "Frm.Props.C104_vega_twice_shifted",
    "Frm.Props.C104_numerical_partial",
    "Frm.Props.C104_shifted_vega_wrong",
    "Frm.Props.C104_low_volatility",
    "Frm.Props.C104_bachelier_accepted",
    "Frm.Props.C104_bachelier_results",
    "Frm.Props.C104_numerical_nan"
   ],
   "note": "Acceptance, exceptions and elementwise results are proved for all lengths. Numerical greeks are proved to be analytical greeks nearby for options without a shift and a volatility above one percent (C104_numerical_partial). Missing: the other options, where the claim is false: forward and strike are shifted before the nested calls, which shift them again (C104_delta_twice_shifted, C104_vega_twice_shifted, C104_shifted_vega_wrong), and below one percent the lower volatility is negative (C104_low_volatility)."
  },
  {
   "property": "C105",
   "status": "partial",
   "theorems": [
    "Frm.Props.C105_accepted",
    "Frm.Props.C105_exceptions",
    "Frm.Props.C105_one_time_refused",
    "Frm.Props.C105_results"
   ],
   "note": "Acceptance, exceptions and elementwise results are proved for all lengths. Missing: that one time can be combined with several strikes, which is false of the code: the mask tau==0 has one element and the prices several (C105_one_time_refused)."
  },
  {
   "property": "C106",
   "status": "partial",
   "theorems": [
    "Frm.Props.C106_refused",
    "Frm.Props.C106_accepted",
    "Frm.Props.C106_results",
    "Frm.Props.C106_fit",
    "Frm.Props.C106_fit_default_shift"
   ],
   "note": "Refused and accepted shapes, results and exceptions are proved for all lengths. Missing: that the shift may be left out of the calibration, which is false of the code (C106_fit_default_shift)."
  },
  {
   "property": "C107",
   "status": "partial",
   "theorems": [
    "Frm.Props.C107_spot_step",
    "Frm.Props.C107_growth",
    "Frm.Props.C107_mean_spot",
    "Frm.Props.C107_uncorrelated",
    "Frm.Props.C107_forward_biased",
    "Frm.Props.C107_euler_moments"
   ],
   "note": "Proved without correlation (C107_uncorrelated). With correlation the claim is false: the mean of a spot is the forward times the mean of a product over the steps (C107_mean_spot), which is computed for one step (C107_growth) and exceeds any multiple of the forward for long steps (C107_forward_biased), because the scheme has no martingale correction. The Euler schemes have the right conditional means, but the variance of the return is 1 + rho^2 times and that of the new variance 1 - rho^2 times the model's (C107_euler_moments)."
  },
  {
   "property": "C108",
   "status": "partial",
   "theorems": [
    "Frm.Props.C108_fixed_partial",
    "Frm.Props.C108_zero_coupon_partial",
    "Frm.Props.C108_affine_partial",
    "Frm.Props.C108_search_partial",
    "Frm.Props.C108_float",
    "Frm.Props.C108_swap",
    "Frm.Props.C108_raises_iff",
    "Frm.Props.C108_begun",
    "Frm.Props.C108_solve",
    "Frm.Props.C108_rest",
    "Frm.Props.C108_fails",
    "Frm.Props.C108_restored",
    "Frm.Props.C108_par",
    "Frm.Props.C108_no_data"
   ],
   "note": "The value is right when every payment date of the leg, past ones included, lies in the curve's table. The code is wrong otherwise: the lookup drops dates outside the table, the column no longer fits and calc_dirty_pv raises ValueError (C108_raises_iff says exactly when), so a leg that has paid anything before the curve date cannot be valued (C108_begun) though the rest of it can (C108_rest); target_solve and par_solve then return nan without raising (C108_solve). C108_fails is a concrete leg. Floating legs have the defect of C24 as well (C108_float). The curve may have any of the three interpolation methods."
  },
  {
   "property": "C109",
   "status": "partial",
   "theorems": [
    "Frm.Props.C109_period_partial",
    "Frm.Props.C109_straddling_partial",
    "Frm.Props.C109_answered_partial",
    "Frm.Props.C109_alone_refused",
    "Frm.Props.C109_borrowed",
    "Frm.Props.C109_fails",
    "Frm.Props.C109_floater",
    "Frm.Props.C109_running_floater"
   ],
   "note": "Proved when every period ending after the curve date ends within the curve's table, with the exact condition for the call to be answered (C109_answered_partial). The code is wrong otherwise: a period ending after the table is refused when it is the only future one (C109_alone_refused), but next to one other future period it silently gets a rate computed from the discount factor of that period's end (C109_borrowed; C109_fails is a concrete curve, where a two-year period gets half the one-year rate). The curve may have any of the three interpolation methods. Consecutive future periods paid on their accruals are together worth the discount factor of the first start less that of the last end (C109_floater). C109_running_floater is the same for a leg in its first period, started before the curve date."
  },
  {
   "property": "C110",
   "status": "partial",
   "theorems": [
    "Frm.Props.C110_accepted",
    "Frm.Props.C110_curve",
    "Frm.Props.C110_reprices",
    "Frm.Props.C110_from_tenors",
    "Frm.Props.C110_futures_partial",
    "Frm.Props.C110_settlement",
    "Frm.Props.C110_one_day_only",
    "Frm.Props.C110_gap",
    "Frm.Props.C110_spline",
    "Frm.Props.C110_spline_curve"
   ],
   "note": "Proved for cash rates (any linear curve on the bootstrapped dates; C110_from_tenors from tenors on), and for every contract whose start lies between points known when it was bootstrapped with no later point put before the next of these (C110_futures_partial). The code is wrong otherwise: a settlement of other than one business day is refused by the bootstrap (C110_settlement, C110_one_day_only), and a first contract starting after the last cash maturity is given back only if its continuously compounded rate is that between the last two cash rates (C110_gap). Cash rates are also given back by both kinds of spline curves (C110_spline, C110_spline_curve)."
  }
 ]
}
