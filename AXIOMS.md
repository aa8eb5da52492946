# Axioms of every property theorem

Printed by Lean (`#print axioms`) with all modules imported. The three axioms are Lean's own:
`propext` (P), `Classical.choice` (C), `Quot.sound` (Q).  No other axiom occurs.

| property | theorem | axioms |
|---|---|---|
| C01 | `Frm.Props.C01_accepts_iff` | P C Q |
| C01 | `Frm.Props.C01_rejects` | P C Q |
| C02 | `Frm.Props.C02_cosmetic` | P C Q |
| C02 | `Frm.Props.C02_count_unit` | P C Q |
| C02 | `Frm.Props.C02_count_unit_twice` | P C Q |
| C02 | `Frm.Props.C02_codes` | P C Q |
| C02 | `Frm.Props.C02_normal_unchanged` | P C Q |
| C02 | `Frm.Props.C02_parse_count_unit` | P C Q |
| C02 | `Frm.Props.C02_not_idempotent` | P C Q |
| C03 | `Frm.Props.C03_calendar` | P C Q |
| C03 | `Frm.Props.C03_civil_bijection` | P C Q |
| C03 | `Frm.Props.C03_add_months` | P C Q |
| C03 | `Frm.Props.C03_date_offset` | none |
| C03 | `Frm.Props.C03_strict_in_months` | P C Q |
| C03 | `Frm.Props.C03_mono_in_date` | P C Q |
| C03 | `Frm.Props.C03_zero` | P C Q |
| C03 | `Frm.Props.C03_compose` | P C Q |
| C03 | `Frm.Props.C03_no_drift` | P C Q |
| C03 | `Frm.Props.C03_iterating_drifts` | none |
| C04 | `Frm.Props.C04_following_preceding` | P C Q |
| C04 | `Frm.Props.C04_modified` | P C Q |
| C04 | `Frm.Props.C04_modified_raw` | P C Q |
| C04 | `Frm.Props.C04_business_day_idempotent` | P C Q |
| C04 | `Frm.Props.C04_monotone` | P C Q |
| C04 | `Frm.Props.C04_monotone_unmodified` | P C Q |
| C04 | `Frm.Props.C04_unadjusted_raises` | P Q |
| C04 | `Frm.Props.C04_year_long_closure` | P C Q |
| C05 | `Frm.Props.C05_forward` | P C Q |
| C05 | `Frm.Props.C05_backward` | P C Q |
| C05 | `Frm.Props.C05_compose` | P C Q |
| C05 | `Frm.Props.C05_round_trip` | P C Q |
| C05 | `Frm.Props.C05_strict_in_offset` | P C Q |
| C06 | `Frm.Props.C06_union` | P Q |
| C06 | `Frm.Props.C06_intersection_of_business_days` | P C Q |
| C06 | `Frm.Props.C06_order_case_repetition` | P C Q |
| C06 | `Frm.Props.C06_rejects_iff` | P C Q |
| C06 | `Frm.Props.C06_ok` | P Q |
| C06 | `Frm.Props.C06_default` | P C Q |
| C06 | `Frm.Props.C06_mixed_case_entries_unreachable` | P Q |
| C07 | `Frm.Props.C07_lag` | P C Q |
| C07 | `Frm.Props.C07_symmetric` | P C Q |
| C07 | `Frm.Props.C07_validated` | P C Q |
| C07 | `Frm.Props.C07_upper_case_missed` | P C Q |
| C07 | `Frm.Props.C07_other_length` | P C Q |
| C07 | `Frm.Props.C07_ir_settlement` | P C Q |
| C08 | `Frm.Props.C08_from_curve_date` | P C Q |
| C08 | `Frm.Props.C08_from_spot_date` | P C Q |
| C08 | `Frm.Props.C08_round_trip` | P C Q |
| C08 | `Frm.Props.C08_user_offset_ignored` | P C Q |
| C08 | `Frm.Props.C08_no_dates` | P C Q |
| C08 | `Frm.Props.C08_both_dates_raise` | P C Q |
| C08 | `Frm.Props.C08_both_dates_partial` | P C Q |
| C08 | `Frm.Props.C08_all_three_raise` | P C Q |
| C09 | `Frm.Props.C09_elapsed` | P C Q |
| C09 | `Frm.Props.C09_additive` | P Q |
| C09 | `Frm.Props.C09_rejects_reversed` | P C Q |
| C09 | `Frm.Props.C09_broadcast` | P C Q |
| C09 | `Frm.Props.C09_length_mismatch` | P |
| C10 | `Frm.Props.C10_30_360` | P C Q |
| C10 | `Frm.Props.C10_30E_360` | P Q |
| C10 | `Frm.Props.C10_30E_360_ISDA` | P C Q |
| C10 | `Frm.Props.C10_vector` | P C Q |
| C10 | `Frm.Props.C10_scalar_flag_truncates` | P C Q |
| C10 | `Frm.Props.C10_whole_months` | P C Q |
| C10 | `Frm.Props.C10_full_year` | P C Q |
| C10 | `Frm.Props.C10_nonneg` | P C Q |
| C10 | `Frm.Props.C10_isda_negative` | none |
| C10 | `Frm.Props.C10_additive` | P C Q |
| C10 | `Frm.Props.C10_bond_basis_not_additive` | none |
| C11 | `Frm.Props.C11_fixed_denominator` | P C Q |
| C11 | `Frm.Props.C11_errors` | P C Q |
| C11 | `Frm.Props.C11_act_act_day_weighted` | P C Q |
| C11 | `Frm.Props.C11_act_act_vector` | P C Q |
| C11 | `Frm.Props.C11_additive` | P C Q |
| C11 | `Frm.Props.C11_strictly_increasing` | P C Q |
| C11 | `Frm.Props.C11_whole_years` | P C Q |
| C12 | `Frm.Props.C12_tiles` | P C Q |
| C12 | `Frm.Props.C12_tiles_rolled` | P C Q |
| C12 | `Frm.Props.C12_rolled_stub_gap` | P Q |
| C13 | `Frm.Props.C13_ordered` | P C Q |
| C13 | `Frm.Props.C13_strict` | P C Q |
| C13 | `Frm.Props.C13_anchors` | P C Q |
| C13 | `Frm.Props.C13_daily_repeats` | P Q |
| C13 | `Frm.Props.C13_weekly_dayroll_inverted` | P Q |
| C14 | `Frm.Props.C14_forward` | P C Q |
| C14 | `Frm.Props.C14_backward` | P C Q |
| C14 | `Frm.Props.C14_rolled_outer` | P C Q |
| C14 | `Frm.Props.C14_make_schedule_default` | P C Q |
| C14 | `Frm.Props.C14_make_schedule_last_stub` | P C Q |
| C14 | `Frm.Props.C14_grid_functional` | P C Q |
| C15 | `Frm.Props.C15_first_stub_grid` | P Q |
| C15 | `Frm.Props.C15_long_first` | P C Q |
| C15 | `Frm.Props.C15_long_last` | P C Q |
| C15 | `Frm.Props.C15_first_period_end_partial` | P C Q |
| C15 | `Frm.Props.C15_last_period_start_partial` | P C Q |
| C15 | `Frm.Props.C15_two_periods` | P C Q |
| C15 | `Frm.Props.C15_both_dates_partial` | P C Q |
| C15 | `Frm.Props.C15_last_start_lost` | P Q |
| C15 | `Frm.Props.C15_first_end_lost` | P Q |
| C15 | `Frm.Props.C15_first_end_merged` | P Q |
| C16 | `Frm.Props.C16_bad_order` | P Q |
| C16 | `Frm.Props.C16_bad_first` | P Q |
| C16 | `Frm.Props.C16_bad_last` | P Q |
| C16 | `Frm.Props.C16_defined_without_date` | P Q |
| C16 | `Frm.Props.C16_both_stubs` | P Q |
| C16 | `Frm.Props.C16_unadjusted` | P C Q |
| C16 | `Frm.Props.C16_returned_consistent` | P Q |
| C16 | `Frm.Props.C16_zero_coupon` | P Q |
| C17 | `Frm.Props.C17_payment_dates` | P C Q |
| C17 | `Frm.Props.C17_unadjusted` | P Q |
| C17 | `Frm.Props.C17_functional` | P C Q |
| C18 | `Frm.Props.C18_rows` | P C Q |
| C18 | `Frm.Props.C18_net` | P C Q |
| C18 | `Frm.Props.C18_array_rejected` | P C Q |
| C18 | `Frm.Props.C18_coupon_dates` | P C Q |
| C18 | `Frm.Props.C18_coupon_rows` | P C Q |
| C19 | `Frm.Props.C19_interp_method` | P C Q |
| C19 | `Frm.Props.C19_extrap_method` | P C Q |
| C19 | `Frm.Props.C19_pay_rcv` | P C Q |
| C19 | `Frm.Props.C19_buy_sell` | P C Q |
| C19 | `Frm.Props.C19_compounding_freq` | P C Q |
| C19 | `Frm.Props.C19_roll_conv` | P C Q |
| C19 | `Frm.Props.C19_timing` | P C Q |
| C19 | `Frm.Props.C19_stub` | P C Q |
| C19 | `Frm.Props.C19_exchange_notionals` | P C Q |
| C19 | `Frm.Props.C19_day_roll` | P C Q |
| C19 | `Frm.Props.C19_day_roll_int` | P C Q |
| C19 | `Frm.Props.C19_period_freq` | P C Q |
| C19 | `Frm.Props.C19_day_count_basis` | P C Q |
| C19 | `Frm.Props.C19_missing_default` | P C Q |
| C19 | `Frm.Props.C19_missing_raises` | P C Q |
| C19 | `Frm.Props.C19_is_valid_disagrees` | P C Q |
| C19 | `Frm.Props.C19_basis_valid_reads` | P C Q |
| C19 | `Frm.Props.C19_display_read_back` | P C Q |
| C19 | `Frm.Props.C19_display_refused` | P C Q |
| C19 | `Frm.Props.C19_member_name` | P C Q |
| C19 | `Frm.Props.C19_member_name_refused` | P C Q |
| C19 | `Frm.Props.C19_display_distinct` | P C Q |
| C19 | `Frm.Props.C19_display_texts` | P C Q |
| C19 | `Frm.Props.C19_display_texts_other` | P C Q |
| C20 | `Frm.Props.C20_multipliers` | none |
| C20 | `Frm.Props.C20_notionals_partial` | P C Q |
| C20 | `Frm.Props.C20_signed_notionals` | P C Q |
| C20 | `Frm.Props.C20_coupons_do_not_flip` | P C Q |
| C20 | `Frm.Props.C20_swap_opposite` | P |
| C20 | `Frm.Props.C20_swap_of_opposites` | P C Q |
| C20 | `Frm.Props.C20_fails` | P C Q |
| C21 | `Frm.Props.C21_periodic` | P C Q |
| C21 | `Frm.Props.C21_simple` | P C Q |
| C21 | `Frm.Props.C21_continuous` | P C Q |
| C21 | `Frm.Props.C21_positive` | P C Q |
| C21 | `Frm.Props.C21_decreasing` | P C Q |
| C21 | `Frm.Props.C21_rate_round_trip` | P C Q |
| C21 | `Frm.Props.C21_factor_round_trip` | P C Q |
| C22 | `Frm.Props.C22_same_discount` | P C Q |
| C22 | `Frm.Props.C22_unique` | P C Q |
| C22 | `Frm.Props.C22_round_trip` | P C Q |
| C22 | `Frm.Props.C22_transitive` | P C Q |
| C22 | `Frm.Props.C22_identity` | P C Q |
| C22 | `Frm.Props.C22_simple_only_one_year` | P C Q |
| C23 | `Frm.Props.C23_days` | P Q |
| C23 | `Frm.Props.C23_months` | P C Q |
| C23 | `Frm.Props.C23_total` | P |
| C23 | `Frm.Props.C23_compose` | P C Q |
| C23 | `Frm.Props.C23_strict` | P C Q |
| C24 | `Frm.Props.C24_fixed` | P C Q |
| C24 | `Frm.Props.C24_fixed_override` | P C Q |
| C24 | `Frm.Props.C24_zero_coupon` | P C Q |
| C24 | `Frm.Props.C24_additive` | P C Q |
| C24 | `Frm.Props.C24_settled_rows` | P C Q |
| C24 | `Frm.Props.C24_no_curve` | P C Q |
| C24 | `Frm.Props.C24_float_partial` | P C Q |
| C24 | `Frm.Props.C24_fails_for_float` | P C Q |
| C25 | `Frm.Props.C25_leg` | P C Q |
| C25 | `Frm.Props.C25_leg_defined` | P C Q |
| C25 | `Frm.Props.C25_idempotent` | P C Q |
| C25 | `Frm.Props.C25_swap_dirty` | P C Q |
| C25 | `Frm.Props.C25_swap_accrued` | P C Q |
| C25 | `Frm.Props.C25_swap` | P C Q |
| C25 | `Frm.Props.C25_accrued_needs_pv` | P C Q |
| C25 | `Frm.Props.C25_swap_state` | P C Q |
| C26 | `Frm.Props.C26_current_period_partial` | P C Q |
| C26 | `Frm.Props.C26_act365` | P C Q |
| C26 | `Frm.Props.C26_zero_at_start` | P C Q |
| C26 | `Frm.Props.C26_none_current` | P C Q |
| C26 | `Frm.Props.C26_adds_all_coupons` | P C Q |
| C26 | `Frm.Props.C26_excess` | P C Q |
| C26 | `Frm.Props.C26_fails` | P C Q |
| C26 | `Frm.Props.C26_fails_after_end` | P C Q |
| C27 | `Frm.Props.C27_buckets` | P C Q |
| C27 | `Frm.Props.C27_partition` | P C Q |
| C27 | `Frm.Props.C27_total` | P C Q |
| C27 | `Frm.Props.C27_no_buckets` | P C Q |
| C27 | `Frm.Props.C27_past_pillar` | P C Q |
| C28 | `Frm.Props.C28_split_partial` | P C Q |
| C28 | `Frm.Props.C28_adds_up_iff` | P C Q |
| C28 | `Frm.Props.C28_fails` | P C Q |
| C29 | `Frm.Props.C29_restored` | P C Q |
| C29 | `Frm.Props.C29_same_value` | P C Q |
| C29 | `Frm.Props.C29_par` | P C Q |
| C29 | `Frm.Props.C29_search` | P C Q |
| C29 | `Frm.Props.C29_reprices` | P C Q |
| C29 | `Frm.Props.C29_swallows` | P C Q |
| C29 | `Frm.Props.C29_swap` | P C Q |
| C29 | `Frm.Props.C29_swap_target_off` | P C Q |
| C29 | `Frm.Props.C29_stale_columns` | P C Q |
| C29 | `Frm.Props.C29_range` | P C Q |
| C29 | `Frm.Props.C29_same_sign` | P C Q |
| C29 | `Frm.Props.C29_fixed_line` | P C Q |
| C29 | `Frm.Props.C29_fixed_rate` | P C Q |
| C29 | `Frm.Props.C29_fixed_par_rate` | P C Q |
| C29 | `Frm.Props.C29_no_annuity` | P C Q |
| C29 | `Frm.Props.C29_each_leg` | P C Q |
| C30 | `Frm.Props.C30_as_of` | P C Q |
| C30 | `Frm.Props.C30_unique` | P Q |
| C30 | `Frm.Props.C30_unsorted` | P Q |
| C31 | `Frm.Props.C31_daily_compounded` | P C Q |
| C31 | `Frm.Props.C31_weighted_average` | P C Q |
| C31 | `Frm.Props.C31_simple_average` | P C Q |
| C31 | `Frm.Props.C31_constant` | P C Q |
| C32 | `Frm.Props.C32_raises_iff_partial` | P C Q |
| C32 | `Frm.Props.C32_end_partial` | P C Q |
| C32 | `Frm.Props.C32_no_fixings` | P C Q |
| C32 | `Frm.Props.C32_leading_days_omitted` | P C Q |
| C32 | `Frm.Props.C32_fails_start` | P C Q |
| C32 | `Frm.Props.C32_fails_empty` | P C Q |
| C32 | `Frm.Props.C32_rejects_covered` | P C Q |
| C33 | `Frm.Props.C33_crossover` | P C Q |
| C33 | `Frm.Props.C33_partition` | P C Q |
| C33 | `Frm.Props.C33_historical_alone` | P C Q |
| C33 | `Frm.Props.C33_partition_any` | P C Q |
| C33 | `Frm.Props.C33_february` | P C Q |
| C34 | `Frm.Props.C34_actual` | P C Q |
| C34 | `Frm.Props.C34_fails` | P Q |
| C35 | `Frm.Props.C35_first_point` | P C Q |
| C35 | `Frm.Props.C35_unit_at_curve_date` | P C Q |
| C35 | `Frm.Props.C35_pillar` | P C Q |
| C35 | `Frm.Props.C35_log_linear` | P C Q |
| C35 | `Frm.Props.C35_positive` | P C Q |
| C35 | `Frm.Props.C35_between` | P C Q |
| C35 | `Frm.Props.C35_constant_forward` | P C Q |
| C35 | `Frm.Props.C35_antitone` | P C Q |
| C35 | `Frm.Props.C35_from_dates` | P C Q |
| C35 | `Frm.Props.C35_reproduces_quotes` | P C Q |
| C35 | `Frm.Props.C35_every_date_between` | P C Q |
| C35 | `Frm.Props.C35_columns` | P C Q |
| C35 | `Frm.Props.C35_days_refused` | P C Q |
| C35 | `Frm.Props.C35_tenors` | P C Q |
| C35 | `Frm.Props.C35_zero_rate_quotes` | P C Q |
| C35 | `Frm.Props.C35_years` | P C Q |
| C35 | `Frm.Props.C35_february` | P C Q |
| C36 | `Frm.Props.C36_reproduces` | P C Q |
| C36 | `Frm.Props.C36_chain` | P C Q |
| C36 | `Frm.Props.C36_averages` | P C Q |
| C36 | `Frm.Props.C36_overnight_compounds` | P C Q |
| C36 | `Frm.Props.C36_zero_rates` | P C Q |
| C36 | `Frm.Props.C36_february` | P C Q |
| C37 | `Frm.Props.C37_years_table` | P C Q |
| C37 | `Frm.Props.C37_days_lookup` | P C Q |
| C37 | `Frm.Props.C37_in_range_partial` | P C Q |
| C37 | `Frm.Props.C37_single_date` | P C Q |
| C37 | `Frm.Props.C37_dropped` | P C Q |
| C37 | `Frm.Props.C37_fails` | P C Q |
| C37 | `Frm.Props.C37_borrowed_factor` | P C Q |
| C37 | `Frm.Props.C37_years_raise` | P C Q |
| C37 | `Frm.Props.C37_one_argument` | P C Q |
| C38 | `Frm.Props.C38_reprices` | P C Q |
| C38 | `Frm.Props.C38_bootstrap` | P C Q |
| C38 | `Frm.Props.C38_accepts_iff` | P C Q |
| C38 | `Frm.Props.C38_starts` | P C Q |
| C39 | `Frm.Props.C39_forward_rate` | P C Q |
| C39 | `Frm.Props.C39_forward_rate_given` | P C Q |
| C39 | `Frm.Props.C39_rows` | P C Q |
| C39 | `Frm.Props.C39_reprices` | P C Q |
| C39 | `Frm.Props.C39_line_unique` | P C Q |
| C39 | `Frm.Props.C39_chain_partial` | P C Q |
| C39 | `Frm.Props.C39_one_cash_rate` | P C Q |
| C39 | `Frm.Props.C39_no_cash_rate` | P C Q |
| C40 | `Frm.Props.C40_second_friday` | P C Q |
| C40 | `Frm.Props.C40_expiry_thursday` | P Q |
| C40 | `Frm.Props.C40_accepts_iff` | P C Q |
| C40 | `Frm.Props.C40_chronological_partial` | P C Q |
| C40 | `Frm.Props.C40_matches_iff` | P C Q |
| C40 | `Frm.Props.C40_fails` | P C Q |
| C40 | `Frm.Props.C40_ticker` | P |
| C40 | `Frm.Props.C40_two_digit_year_refused` | P |
| C41 | `Frm.Props.C41_rows_partial` | P C Q |
| C41 | `Frm.Props.C41_spot_lag` | P C Q |
| C41 | `Frm.Props.C41_accepts_iff` | P C Q |
| C41 | `Frm.Props.C41_rate_set_raises` | P C Q |
| C41 | `Frm.Props.C41_no_rate_set` | P C Q |
| C41 | `Frm.Props.C41_exceptions` | P C Q |
| C42 | `Frm.Props.C42_inverts` | P C Q |
| C42 | `Frm.Props.C42_other_columns` | P C Q |
| C42 | `Frm.Props.C42_no_new_columns` | P C Q |
| C42 | `Frm.Props.C42_accepts_iff` | P C Q |
| C43 | `Frm.Props.C43_order` | P C Q |
| C43 | `Frm.Props.C43_details` | P C Q |
| C43 | `Frm.Props.C43_needs_clean_names` | P C Q |
| C44 | `Frm.Props.C44_accepts_iff` | P C Q |
| C44 | `Frm.Props.C44_length` | P C Q |
| C44 | `Frm.Props.C44_pillar` | P C Q |
| C44 | `Frm.Props.C44_between` | P C Q |
| C44 | `Frm.Props.C44_outside` | P C Q |
| C44 | `Frm.Props.C44_cases` | P C Q |
| C44 | `Frm.Props.C44_missing` | P C Q |
| C44 | `Frm.Props.C44_missing_repeated` | P C Q |
| C45 | `Frm.Props.C45_values` | P C Q |
| C45 | `Frm.Props.C45_accepts_partial` | P C Q |
| C45 | `Frm.Props.C45_scalar` | P C Q |
| C45 | `Frm.Props.C45_unchecked` | P C Q |
| C45 | `Frm.Props.C45_same_date` | P C Q |
| C45 | `Frm.Props.C45_arrays` | P C Q |
| C45 | `Frm.Props.C45_scalar_exceptions` | P C Q |
| C46 | `Frm.Props.C46_flat_forward` | P C Q |
| C46 | `Frm.Props.C46_refuses` | P C Q |
| C47 | `Frm.Props.C47_accepts` | P C Q |
| C47 | `Frm.Props.C47_parity` | P C Q |
| C47 | `Frm.Props.C47_bounds` | P C Q |
| C47 | `Frm.Props.C47_expiry` | P C Q |
| C47 | `Frm.Props.C47_split` | P C Q |
| C47 | `Frm.Props.C47_numerical_greeks` | P C Q |
| C48 | `Frm.Props.C48_implied_rate` | P C Q |
| C48 | `Frm.Props.C48_parity_forward` | P C Q |
| C49 | `Frm.Props.C49_defined` | P C Q |
| C49 | `Frm.Props.C49_delta` | P C Q |
| C49 | `Frm.Props.C49_vega` | P C Q |
| C49 | `Frm.Props.C49_gamma` | P C Q |
| C49 | `Frm.Props.C49_theta_call_partial` | P C Q |
| C49 | `Frm.Props.C49_theta_put_partial` | P C Q |
| C49 | `Frm.Props.C49_rho_partial` | P C Q |
| C49 | `Frm.Props.C49_expiry` | P C Q |
| C49 | `Frm.Props.C49_expiry_nan` | P C Q |
| C49 | `Frm.Props.C49_no_volatility` | P C Q |
| C50 | `Frm.Props.C50_monotone` | P C Q |
| C50 | `Frm.Props.C50_range` | P C Q |
| C50 | `Frm.Props.C50_solver` | P C Q |
| C50 | `Frm.Props.C50_fallback` | P C Q |
| C51 | `Frm.Props.C51_regular_spot` | P C Q |
| C51 | `Frm.Props.C51_regular_forward` | P C Q |
| C51 | `Frm.Props.C51_atm` | P C Q |
| C51 | `Frm.Props.C51_adjusted_partial` | P C Q |
| C51 | `Frm.Props.C51_adjusted_atm` | P C Q |
| C51 | `Frm.Props.C51_put_atm_inconsistent` | P C Q |
| C51 | `Frm.Props.C51_adjusted_put_atm` | P C Q |
| C51 | `Frm.Props.C51_zero_delta` | P C Q |
| C51 | `Frm.Props.C51_bracketed` | P C Q |
| C51 | `Frm.Props.C51_put_unique` | P C Q |
| C51 | `Frm.Props.C51_put_found` | P C Q |
| C51 | `Frm.Props.C51_put_refused` | P C Q |
| C51 | `Frm.Props.C51_call_maximum` | P C Q |
| C51 | `Frm.Props.C51_call_found` | P C Q |
| C51 | `Frm.Props.C51_call_largest` | P C Q |
| C51 | `Frm.Props.C51_call_refused` | P C Q |
| C51 | `Frm.Props.C51_call_spot` | P C Q |
| C51 | `Frm.Props.C51_quotes_apart` | P C Q |
| C52 | `Frm.Props.C52_elementwise` | P C Q |
| C52 | `Frm.Props.C52_price` | P C Q |
| C52 | `Frm.Props.C52_parity` | P C Q |
| C52 | `Frm.Props.C52_shift` | P C Q |
| C52 | `Frm.Props.C52_annuity` | P C Q |
| C52 | `Frm.Props.C52_bounds` | P C Q |
| C52 | `Frm.Props.C52_monotone` | P C Q |
| C52 | `Frm.Props.C52_delta` | P C Q |
| C52 | `Frm.Props.C52_vega` | P C Q |
| C52 | `Frm.Props.C52_expiry` | P C Q |
| C52 | `Frm.Props.C52_negative_time` | P C Q |
| C53 | `Frm.Props.C53_elementwise` | P C Q |
| C53 | `Frm.Props.C53_price` | P C Q |
| C53 | `Frm.Props.C53_parity` | P C Q |
| C53 | `Frm.Props.C53_bounds` | P C Q |
| C53 | `Frm.Props.C53_monotone` | P C Q |
| C53 | `Frm.Props.C53_delta` | P C Q |
| C53 | `Frm.Props.C53_vega` | P C Q |
| C53 | `Frm.Props.C53_theta_partial` | P C Q |
| C53 | `Frm.Props.C53_expiry` | P C Q |
| C53 | `Frm.Props.C53_negative_time` | P C Q |
| C54 | `Frm.Props.C54_b76_adds_up` | P C Q |
| C54 | `Frm.Props.C54_bach_adds_up` | P C Q |
| C54 | `Frm.Props.C54_b76_time_partial` | P C Q |
| C54 | `Frm.Props.C54_bach_time_partial` | P C Q |
| C54 | `Frm.Props.C54_b76_negative` | P C Q |
| C54 | `Frm.Props.C54_bach_negative` | P C Q |
| C55 | `Frm.Props.C55_same_price` | P C Q |
| C55 | `Frm.Props.C55_round_trip` | P C Q |
| C55 | `Frm.Props.C55_round_trip_normal` | P C Q |
| C55 | `Frm.Props.C55_nan` | P C Q |
| C56 | `Frm.Props.C56_atm_formula` | P C Q |
| C56 | `Frm.Props.C56_consistent` | P C Q |
| C56 | `Frm.Props.C56_defined_iff` | P C Q |
| C56 | `Frm.Props.C56_exists_partial` | P C Q |
| C56 | `Frm.Props.C56_beta_one` | P C Q |
| C56 | `Frm.Props.C56_no_alpha` | P C Q |
| C56 | `Frm.Props.C56_positive` | P C Q |
| C56 | `Frm.Props.C56_shift` | P C Q |
| C57 | `Frm.Props.C57_refused` | P C Q |
| C57 | `Frm.Props.C57_plain` | P C Q |
| C57 | `Frm.Props.C57_pairs_partial` | P C Q |
| C57 | `Frm.Props.C57_odd` | P C Q |
| C57 | `Frm.Props.C57_odd_sum` | P C Q |
| C58 | `Frm.Props.C58_elementwise` | P C Q |
| C58 | `Frm.Props.C58_covariance_partial` | P C Q |
| C58 | `Frm.Props.C58_iff_diagonal` | P C Q |
| C58 | `Frm.Props.C58_two` | P C Q |
| C59 | `Frm.Props.C59_one_partial` | P C Q |
| C59 | `Frm.Props.C59_column_partial` | P C Q |
| C59 | `Frm.Props.C59_many_refused` | P C Q |
| C59 | `Frm.Props.C59_many_mixed` | P C Q |
| C59 | `Frm.Props.C59_many_one_step` | P C Q |
| C59 | `Frm.Props.C59_shapes` | P C Q |
| C60 | `Frm.Props.C60_columns` | P C Q |
| C60 | `Frm.Props.C60_partition` | P Q |
| C60 | `Frm.Props.C60_refused` | P C Q |
| C60 | `Frm.Props.C60_positive` | P C Q |
| C60 | `Frm.Props.C60_no_volatility` | P C Q |
| C60 | `Frm.Props.C60_curve_refused` | P C Q |
| C60 | `Frm.Props.C60_curve` | P C Q |
| C60 | `Frm.Props.C60_curve_prices` | P C Q |
| C61 | `Frm.Props.C61_b_partial` | P C Q |
| C61 | `Frm.Props.C61_b_formula` | P C Q |
| C61 | `Frm.Props.C61_b_bounds` | P C Q |
| C61 | `Frm.Props.C61_b_horizon` | P C Q |
| C61 | `Frm.Props.C61_b_limit` | P C Q |
| C61 | `Frm.Props.C61_b_small` | P C Q |
| C61 | `Frm.Props.C61_b_negative` | P C Q |
| C61 | `Frm.Props.C61_elementwise` | P C Q |
| C61 | `Frm.Props.C61_raises` | P C Q |
| C61 | `Frm.Props.C61_strikes_refused` | P C Q |
| C61 | `Frm.Props.C61_variance` | P C Q |
| C61 | `Frm.Props.C61_expected` | P C Q |
| C61 | `Frm.Props.C61_parity_partial` | P C Q |
| C61 | `Frm.Props.C61_bounds` | P C Q |
| C61 | `Frm.Props.C61_nonneg` | P C Q |
| C61 | `Frm.Props.C61_zero_vol` | P C Q |
| C61 | `Frm.Props.C61_same_date` | P C Q |
| C61 | `Frm.Props.C61_zero_vol_parity` | P C Q |
| C61 | `Frm.Props.C61_matured` | P C Q |
| C61 | `Frm.Props.C61_no_reversion` | P C Q |
| C62 | `Frm.Props.C62_psi` | P C Q |
| C62 | `Frm.Props.C62_chi_iff` | P C Q |
| C62 | `Frm.Props.C62_payoff_coefficients` | P C Q |
| C62 | `Frm.Props.C62_outside` | P C Q |
| C63 | `Frm.Props.C63_quadratic_exponential` | P C Q |
| C63 | `Frm.Props.C63_euler_partial` | P C Q |
| C63 | `Frm.Props.C63_euler_scheme` | P C Q |
| C63 | `Frm.Props.C63_euler_last` | P C Q |
| C63 | `Frm.Props.C63_scalar` | P C Q |
| C63 | `Frm.Props.C63_accepts` | P C Q |
| C63 | `Frm.Props.C63_unknown_method` | P C Q |
| C63 | `Frm.Props.C63_no_time` | P C Q |
| C63 | `Frm.Props.C63_spot_start` | P C Q |
| C63 | `Frm.Props.C63_exceptions` | P C Q |
| C63 | `Frm.Props.C63_euler_plain` | P C Q |
| C63 | `Frm.Props.C63_euler_past` | P C Q |
| C63 | `Frm.Props.C63_scalar_exceptions` | P C Q |
| C63 | `Frm.Props.C63_negative_average` | P C Q |
| C64 | `Frm.Props.C64_quotes` | P C Q |
| C64 | `Frm.Props.C64_first_quote` | P C Q |
| C64 | `Frm.Props.C64_monotone` | P C Q |
| C64 | `Frm.Props.C64_uncovered` | P C Q |
| C64 | `Frm.Props.C64_forward` | P C Q |
| C64 | `Frm.Props.C64_forward_between` | P C Q |
| C64 | `Frm.Props.C64_forward_missing` | P C Q |
| C64 | `Frm.Props.C64_par_swap_rate` | P C Q |
| C64 | `Frm.Props.C64_strike` | P C Q |
| C64 | `Frm.Props.C64_price` | P C Q |
| C64 | `Frm.Props.C64_atm_cap_equals_floor` | P C Q |
| C64 | `Frm.Props.C64_never_constructed` | P C Q |
| C64 | `Frm.Props.C64_price_missing` | P C Q |
| C64 | `Frm.Props.C64_periods` | P C Q |
| C65 | `Frm.Props.C65_history` | P C Q |
| C65 | `Frm.Props.C65_kept` | P C Q |
| C65 | `Frm.Props.C65_not_recomputed` | P C Q |
| C65 | `Frm.Props.C65_once` | P C Q |
| C65 | `Frm.Props.C65_method_change` | P C Q |
| C66 | `Frm.Props.C66_move_partial` | P Q |
| C66 | `Frm.Props.C66_move_before` | P Q |
| C66 | `Frm.Props.C66_move_last` | P Q |
| C66 | `Frm.Props.C66_move_self` | P Q |
| C66 | `Frm.Props.C66_columns` | P C Q |
| C66 | `Frm.Props.C66_copy` | P Q |
| C66 | `Frm.Props.C66_copy_distinct` | P Q |
| C66 | `Frm.Props.C66_duplicates` | P C Q |
| C67 | `Frm.Props.C67_rows` | P C Q |
| C67 | `Frm.Props.C67_needs_settlement` | P C Q |
| C68 | `Frm.Props.C68_values` | P C Q |
| C68 | `Frm.Props.C68_names` | P C Q |
| C68 | `Frm.Props.C68_idempotent` | P C Q |
| C68 | `Frm.Props.C68_canonical` | P C Q |
| C69 | `Frm.Props.C69_partial` | P C Q |
| C69 | `Frm.Props.C69_eurusd` | P C Q |
| C69 | `Frm.Props.C69_nzdeur` | P C Q |
| C70 | `Frm.Props.C70_black_partial` | P C Q |
| C70 | `Frm.Props.C70_bachelier_partial` | P C Q |
| C70 | `Frm.Props.C70_black_found` | P C Q |
| C70 | `Frm.Props.C70_bachelier_found` | P C Q |
| C70 | `Frm.Props.C70_black_accuracy` | P C Q |
| C70 | `Frm.Props.C70_bachelier_accuracy` | P C Q |
| C70 | `Frm.Props.C70_trusts_success` | P C Q |
| C70 | `Frm.Props.C70_shift_partial` | P C Q |
| C70 | `Frm.Props.C70_normal_partial` | P C Q |
| C70 | `Frm.Props.C70_to_normal_partial` | P C Q |
| C70 | `Frm.Props.C70_atm_dropped` | P C Q |
| C70 | `Frm.Props.C70_black_range` | P C Q |
| C70 | `Frm.Props.C70_bachelier_range` | P C Q |
| C70 | `Frm.Props.C70_shift_range` | P C Q |
| C70 | `Frm.Props.C70_normal_range` | P C Q |
| C70 | `Frm.Props.C70_to_normal_range` | P C Q |
| C70 | `Frm.Props.C70_black_out_of_reach` | P C Q |
| C70 | `Frm.Props.C70_bachelier_out_of_reach` | P C Q |
| C70 | `Frm.Props.C70_black_single_out` | P C Q |
| C70 | `Frm.Props.C70_bachelier_single_out` | P C Q |
| C70 | `Frm.Props.C70_to_normal_below` | P C Q |
| C70 | `Frm.Props.C70_to_normal_atm` | P C Q |
| C71 | `Frm.Props.C71_elementwise` | P C Q |
| C71 | `Frm.Props.C71_formula` | P C Q |
| C71 | `Frm.Props.C71_scaling` | P C Q |
| C71 | `Frm.Props.C71_no_volvol` | P C Q |
| C71 | `Frm.Props.C71_fit` | P C Q |
| C71 | `Frm.Props.C71_fit_refuses` | P C Q |
| C71 | `Frm.Props.C71_objective` | P C Q |
| C71 | `Frm.Props.C71_fit_bounds` | P C Q |
| C71 | `Frm.Props.C71_beta_negative` | P C Q |
| C71 | `Frm.Props.C71_start` | P C Q |
| C71 | `Frm.Props.C71_search_range` | P C Q |
| C71 | `Frm.Props.C71_wrong_number` | P C Q |
| C71 | `Frm.Props.C71_same_sign` | P C Q |
| C71 | `Frm.Props.C71_both_negative` | P C Q |
| C71 | `Frm.Props.C71_correlation_one` | P C Q |
| C72 | `Frm.Props.C72_garman_kohlhagen` | P C Q |
| C72 | `Frm.Props.C72_black76` | P C Q |
| C72 | `Frm.Props.C72_bachelier` | P C Q |
| C73 | `Frm.Props.C73_accepts` | P C Q |
| C73 | `Frm.Props.C73_equation` | P C Q |
| C73 | `Frm.Props.C73_methods_agree` | P C Q |
| C73 | `Frm.Props.C73_fits_iff` | P C Q |
| C73 | `Frm.Props.C73_theta_ignores_curve` | P C Q |
| C73 | `Frm.Props.C73_theta_fitted_iff` | P C Q |
| C73 | `Frm.Props.C73_flat` | P C Q |
| C74 | `Frm.Props.C74_strikes` | P C Q |
| C74 | `Frm.Props.C74_decomposition` | P C Q |
| C74 | `Frm.Props.C74_unique` | P C Q |
| C74 | `Frm.Props.C74_refused` | P C Q |
| C74 | `Frm.Props.C74_never_priced` | P C Q |
| C74 | `Frm.Props.C74_keywords` | P Q |
| C74 | `Frm.Props.C74_wrong_keywords` | P |
| C74 | `Frm.Props.C74_optionlet_intended` | P C Q |
| C74 | `Frm.Props.C74_swaption_formula` | P C Q |
| C74 | `Frm.Props.C74_swaption_overpriced` | P C Q |
| C74 | `Frm.Props.C74_par_rate_exists` | P C Q |
| C74 | `Frm.Props.C74_found` | P C Q |
| C74 | `Frm.Props.C74_rate_range` | P C Q |
| C74 | `Frm.Props.C74_expiry_today` | P C Q |
| C75 | `Frm.Props.C75_accepts` | P C Q |
| C75 | `Frm.Props.C75_shape` | P C Q |
| C75 | `Frm.Props.C75_discount` | P C Q |
| C75 | `Frm.Props.C75_euler` | P C Q |
| C75 | `Frm.Props.C75_rk4` | P C Q |
| C75 | `Frm.Props.C75_exact` | P C Q |
| C75 | `Frm.Props.C75_antithetic` | P C Q |
| C75 | `Frm.Props.C75_no_volatility` | P C Q |
| C75 | `Frm.Props.C75_ignores_curve` | P C Q |
| C75 | `Frm.Props.C75_unknown_method` | P C Q |
| C76 | `Frm.Props.C76_variance_moments` | P C Q |
| C76 | `Frm.Props.C76_moments_exist` | P C Q |
| C76 | `Frm.Props.C76_log_spot` | P C Q |
| C77 | `Frm.Props.C77_price` | P C Q |
| C77 | `Frm.Props.C77_direct_partial` | P C Q |
| C77 | `Frm.Props.C77_one_sided` | P C Q |
| C77 | `Frm.Props.C77_refused` | P C Q |
| C77 | `Frm.Props.C77_parity` | P C Q |
| C77 | `Frm.Props.C77_direct_parity` | P C Q |
| C77 | `Frm.Props.C77_defaults` | P C Q |
| C77 | `Frm.Props.C77_mean` | P C Q |
| C77 | `Frm.Props.C77_error` | P C Q |
| C77 | `Frm.Props.C77_call_error` | P C Q |
| C77 | `Frm.Props.C77_law_error` | P C Q |
| C77 | `Frm.Props.C77_any_range` | P C Q |
| C77 | `Frm.Props.C77_any_range_direct` | P C Q |
| C77 | `Frm.Props.C77_above` | P C Q |
| C77 | `Frm.Props.C77_below` | P C Q |
| C78 | `Frm.Props.C78_implementations_agree` | P C Q |
| C78 | `Frm.Props.C78_backward_equation` | P C Q |
| C78 | `Frm.Props.C78_bounded` | P C Q |
| C78 | `Frm.Props.C78_forward` | P C Q |
| C78 | `Frm.Props.C78_heston1993` | P C Q |
| C78 | `Frm.Props.C78_decay` | P C Q |
| C79 | `Frm.Props.C79_parity_partial` | P C Q |
| C79 | `Frm.Props.C79_refused` | P C Q |
| C79 | `Frm.Props.C79_heston1993` | P C Q |
| C79 | `Frm.Props.C79_damped_kernel` | P C Q |
| C79 | `Frm.Props.C79_carr_madan` | P C Q |
| C79 | `Frm.Props.C79_fft_grid` | P C Q |
| C79 | `Frm.Props.C79_fft` | P C Q |
| C79 | `Frm.Props.C79_weights` | P C Q |
| C79 | `Frm.Props.C79_lipton_partial` | P C Q |
| C79 | `Frm.Props.C79_lipton_wrong` | P C Q |
| C79 | `Frm.Props.C79_fft_between` | P C Q |
| C79 | `Frm.Props.C79_carr_madan_law` | P C Q |
| C79 | `Frm.Props.C79_carr_madan_parity` | P C Q |
| C79 | `Frm.Props.C79_lipton_law_partial` | P C Q |
| C79 | `Frm.Props.C79_heston1993_law` | P C Q |
| C79 | `Frm.Props.C79_square_law` | P C Q |
| C79 | `Frm.Props.C79_law_exists` | P C Q |
| C79 | `Frm.Props.C79_law_moments` | P C Q |
| C79 | `Frm.Props.C79_carr_madan_price` | P C Q |
| C79 | `Frm.Props.C79_carr_madan_price_parity` | P C Q |
| C79 | `Frm.Props.C79_lipton_price_partial` | P C Q |
| C79 | `Frm.Props.C79_heston1993_price` | P C Q |
| C79 | `Frm.Props.C79_fft_price` | P C Q |
| C79 | `Frm.Props.C79_fft_price_between` | P C Q |
| C80 | `Frm.Props.C80_centre` | P C Q |
| C80 | `Frm.Props.C80_width` | P C Q |
| C80 | `Frm.Props.C80_width_partial` | P C Q |
| C80 | `Frm.Props.C80_moments_exist` | P C Q |
| C80 | `Frm.Props.C80_collapses` | P C Q |
| C80 | `Frm.Props.C80_brownian` | P C Q |
| C81 | `Frm.Props.C81_daily` | P C Q |
| C81 | `Frm.Props.C81_refuses` | P C Q |
| C81 | `Frm.Props.C81_repeated` | P C Q |
| C81 | `Frm.Props.C81_unordered` | P C Q |
| C82 | `Frm.Props.C82_rows` | P C Q |
| C82 | `Frm.Props.C82_spline_quotes` | P C Q |
| C82 | `Frm.Props.C82_prices` | P C Q |
| C82 | `Frm.Props.C82_parity` | P C Q |
| C82 | `Frm.Props.C82_heston_price` | P C Q |
| C82 | `Frm.Props.C82_refused` | P C Q |
| C83 | `Frm.Props.C83_calibration` | P C Q |
| C83 | `Frm.Props.C83_quotes` | P C Q |
| C83 | `Frm.Props.C83_outcome` | P C Q |
| C83 | `Frm.Props.C83_other_deltas` | P C Q |
| C84 | `Frm.Props.C84_cleaned_partial` | P C Q |
| C84 | `Frm.Props.C84_idempotent` | P C Q |
| C84 | `Frm.Props.C84_index` | P C Q |
| C84 | `Frm.Props.C84_raises` | P C Q |
| C85 | `Frm.Props.C85_exact_isRounding` | P C Q |
| C85 | `Frm.Props.C85_binary64_isRounding` | P C Q |
| C85 | `Frm.Props.C85_bps` | P C Q |
| C85 | `Frm.Props.C85_percent` | P C Q |
| C85 | `Frm.Props.C85_bps_heading` | P C Q |
| C85 | `Frm.Props.C85_bps_exact` | P C Q |
| C85 | `Frm.Props.C85_heading_truncated` | P C Q |
| C85 | `Frm.Props.C85_untouched` | P C Q |
| C85 | `Frm.Props.C85_capitals_refused` | P C Q |
| C85 | `Frm.Props.C85_one_atm` | P C Q |
| C85 | `Frm.Props.C85_documented_style_refused` | P C Q |
| C85 | `Frm.Props.C85_table` | P C Q |
| C85 | `Frm.Props.C85_table_exact` | P C Q |
| C85 | `Frm.Props.C85_offsets_collide` | P C Q |
| C85 | `Frm.Props.C85_percent_collides` | P C Q |
| C85 | `Frm.Props.C85_numbers` | P C Q |
| C85 | `Frm.Props.C85_any_bps` | P C Q |
| C85 | `Frm.Props.C85_any_percent` | P C Q |
| C86 | `Frm.Props.C86_positive` | P C Q |
| C86 | `Frm.Props.C86_zero_rates` | P C Q |
| C86 | `Frm.Props.C86_dates_are_times` | P C Q |
| C86 | `Frm.Props.C86_times` | P C Q |
| C86 | `Frm.Props.C86_dates` | P C Q |
| C86 | `Frm.Props.C86_rates` | P C Q |
| C86 | `Frm.Props.C86_dated_rates` | P C Q |
| C86 | `Frm.Props.C86_simple_rates` | P C Q |
| C86 | `Frm.Props.C86_unit` | P C Q |
| C86 | `Frm.Props.C86_instantaneous` | P C Q |
| C86 | `Frm.Props.C86_accumulates` | P C Q |
| C86 | `Frm.Props.C86_linear_no_forward` | P C Q |
| C86 | `Frm.Props.C86_refused` | P C Q |
| C86 | `Frm.Props.C86_order` | P C Q |
| C86 | `Frm.Props.C86_tenors` | P C Q |
| C86 | `Frm.Props.C86_accepted` | P C Q |
| C86 | `Frm.Props.C86_interpolates` | P C Q |
| C86 | `Frm.Props.C86_pillar_table` | P C Q |
| C86 | `Frm.Props.C86_integrated` | P C Q |
| C86 | `Frm.Props.C86_integrated_rate` | P C Q |
| C86 | `Frm.Props.C86_february` | P C Q |
| C86 | `Frm.Props.C86_february_quotes` | P C Q |
| C86 | `Frm.Props.C86_missing` | P C Q |
| C86 | `Frm.Props.C86_missing_only` | P C Q |
| C86 | `Frm.Props.C86_missing_sample` | P C Q |
| C86 | `Frm.Props.C86_unit_dates` | P C Q |
| C87 | `Frm.Props.C87_second_time_refused` | P C Q |
| C87 | `Frm.Props.C87_years_partial` | P C Q |
| C87 | `Frm.Props.C87_quotes_kept` | P C Q |
| C87 | `Frm.Props.C87_columns_added` | P C Q |
| C88 | `Frm.Props.C88_linear_refused` | P C Q |
| C88 | `Frm.Props.C88_made_iff` | P C Q |
| C88 | `Frm.Props.C88_initial_rate` | P C Q |
| C88 | `Frm.Props.C88_initial_rate_average` | P C Q |
| C88 | `Frm.Props.C88_setup_iff` | P C Q |
| C88 | `Frm.Props.C88_setup_partial` | P C Q |
| C88 | `Frm.Props.C88_pillars_spaced` | P C Q |
| C88 | `Frm.Props.C88_step_irrelevant` | P C Q |
| C88 | `Frm.Props.C88_whole_years` | P C Q |
| C88 | `Frm.Props.C88_whole_years_lost` | P C Q |
| C88 | `Frm.Props.C88_error_refused` | P C Q |
| C88 | `Frm.Props.C88_search_refused` | P C Q |
| C88 | `Frm.Props.C88_search_empty` | P C Q |
| C88 | `Frm.Props.C88_accepted` | P C Q |
| C88 | `Frm.Props.C88_before_setup` | P C Q |
| C88 | `Frm.Props.C88_error_formula` | P C Q |
| C89 | `Frm.Props.C89_strikes` | P C Q |
| C89 | `Frm.Props.C89_rows` | P C Q |
| C89 | `Frm.Props.C89_vols` | P C Q |
| C89 | `Frm.Props.C89_prices` | P C Q |
| C89 | `Frm.Props.C89_interpolated` | P C Q |
| C89 | `Frm.Props.C89_admissible` | P C Q |
| C89 | `Frm.Props.C89_refused` | P C Q |
| C89 | `Frm.Props.C89_at_the_money` | P C Q |
| C89 | `Frm.Props.C89_parity` | P C Q |
| C89 | `Frm.Props.C89_given_vols` | P C Q |
| C89 | `Frm.Props.C89_equivalent_partial` | P C Q |
| C89 | `Frm.Props.C89_trusts_success` | P C Q |
| C89 | `Frm.Props.C89_flat_start` | P C Q |
| C89 | `Frm.Props.C89_greeks` | P C Q |
| C89 | `Frm.Props.C89_sensitivities` | P C Q |
| C89 | `Frm.Props.C89_swap` | P C Q |
| C89 | `Frm.Props.C89_intrinsic` | P C Q |
| C89 | `Frm.Props.C89_no_smile` | P C Q |
| C90 | `Frm.Props.C90_arguments` | P C Q |
| C90 | `Frm.Props.C90_outcomes` | P C Q |
| C90 | `Frm.Props.C90_points` | P C Q |
| C90 | `Frm.Props.C90_density` | P C Q |
| C90 | `Frm.Props.C90_distribution` | P C Q |
| C90 | `Frm.Props.C90_close` | P C Q |
| C90 | `Frm.Props.C90_exact` | P C Q |
| C90 | `Frm.Props.C90_range_partial` | P C Q |
| C90 | `Frm.Props.C90_range_unchecked` | P C Q |
| C90 | `Frm.Props.C90_whole_mass_refused` | P C Q |
| C90 | `Frm.Props.C90_uniform_ahead` | P C Q |
| C91 | `Frm.Props.C91_own_dates_partial` | P Q |
| C91 | `Frm.Props.C91_sampling_refused` | P |
| C91 | `Frm.Props.C91_unknown_sampling` | P |
| C91 | `Frm.Props.C91_days_of_value_refused` | P |
| C91 | `Frm.Props.C91_returns_iff` | P Q |
| C91 | `Frm.Props.C91_refusals` | P |
| C92 | `Frm.Props.C92_refused` | P C Q |
| C92 | `Frm.Props.C92_shift` | P C Q |
| C92 | `Frm.Props.C92_symmetric` | P C Q |
| C92 | `Frm.Props.C92_scale` | P C Q |
| C92 | `Frm.Props.C92_positive` | P C Q |
| C92 | `Frm.Props.C92_can_be_negative` | P C Q |
| C92 | `Frm.Props.C92_negative_accepted` | P C Q |
| C92 | `Frm.Props.C92_at_the_money` | P C Q |
| C92 | `Frm.Props.C92_moneyness` | P C Q |
| C92 | `Frm.Props.C92_equivalent` | P C Q |
| C92 | `Frm.Props.C92_bracket` | P C Q |
| C92 | `Frm.Props.C92_off_the_money` | P C Q |
| C93 | `Frm.Props.C93_quote_vol` | P C Q |
| C93 | `Frm.Props.C93_quote_vol_unique` | P C Q |
| C93 | `Frm.Props.C93_table` | P C Q |
| C93 | `Frm.Props.C93_groups` | P C Q |
| C93 | `Frm.Props.C93_first_quote` | P C Q |
| C93 | `Frm.Props.C93_later_quote` | P C Q |
| C93 | `Frm.Props.C93_smile` | P C Q |
| C93 | `Frm.Props.C93_converted` | P C Q |
| C93 | `Frm.Props.C93_reprices` | P C Q |
| C93 | `Frm.Props.C93_fit_unchecked` | P C Q |
| C93 | `Frm.Props.C93_fit_refused` | P C Q |
| C93 | `Frm.Props.C93_pillar` | P C Q |
| C93 | `Frm.Props.C93_pillar_mispriced` | P C Q |
| C93 | `Frm.Props.C93_no_atmf` | P C Q |
| C93 | `Frm.Props.C93_short_first_quote` | P C Q |
| C93 | `Frm.Props.C93_prior_known` | P C Q |
| C93 | `Frm.Props.C93_ranges` | P C Q |
| C93 | `Frm.Props.C93_quote_vol_range` | P C Q |
| C93 | `Frm.Props.C93_quote_vol_missed` | P C Q |
| C93 | `Frm.Props.C93_quote_start` | P C Q |
| C94 | `Frm.Props.C94_one_date` | P C Q |
| C94 | `Frm.Props.C94_spot` | P C Q |
| C94 | `Frm.Props.C94_pillars` | P C Q |
| C94 | `Frm.Props.C94_market` | P C Q |
| C94 | `Frm.Props.C94_strikes` | P C Q |
| C94 | `Frm.Props.C94_smile_strikes` | P C Q |
| C94 | `Frm.Props.C94_accepted` | P C Q |
| C94 | `Frm.Props.C94_overnight_and_spot_next` | P C Q |
| C94 | `Frm.Props.C94_offset_ignored` | P C Q |
| C94 | `Frm.Props.C94_both_dates` | P C Q |
| C94 | `Frm.Props.C94_reused_tables` | P C Q |
| C94 | `Frm.Props.C94_raises` | P C Q |
| C94 | `Frm.Props.C94_flags` | P C Q |
| C94 | `Frm.Props.C94_every_strike` | P C Q |
| C94 | `Frm.Props.C94_raises_value` | P C Q |
| C94 | `Frm.Props.C94_raises_assertion` | P C Q |
| C94 | `Frm.Props.C94_missing_forward` | P C Q |
| C95 | `Frm.Props.C95_variance_integral` | P C Q |
| C95 | `Frm.Props.C95_no_mean_reversion` | P C Q |
| C95 | `Frm.Props.C95_variance` | P C Q |
| C95 | `Frm.Props.C95_drift_integral` | P C Q |
| C95 | `Frm.Props.C95_drift_start` | P C Q |
| C95 | `Frm.Props.C95_docstring` | P C Q |
| C95 | `Frm.Props.C95_conditional_mean` | P C Q |
| C95 | `Frm.Props.C95_conditional_variance` | P C Q |
| C95 | `Frm.Props.C95_shapes` | P C Q |
| C95 | `Frm.Props.C95_falling_volatility` | P C Q |
| C95 | `Frm.Props.C95_path` | P C Q |
| C95 | `Frm.Props.C95_law` | P C Q |
| C95 | `Frm.Props.C95_bond` | P C Q |
| C95 | `Frm.Props.C95_mean_bond` | P C Q |
| C95 | `Frm.Props.C95_first_period` | P C Q |
| C95 | `Frm.Props.C95_first_period_flat` | P C Q |
| C95 | `Frm.Props.C95_payoff` | P C Q |
| C96 | `Frm.Props.C96_draws` | P C Q |
| C96 | `Frm.Props.C96_gbm_law` | P C Q |
| C96 | `Frm.Props.C96_gbm_mean` | P C Q |
| C96 | `Frm.Props.C96_gbm_option` | P C Q |
| C96 | `Frm.Props.C96_euler_law` | P C Q |
| C96 | `Frm.Props.C96_exact_law` | P C Q |
| C96 | `Frm.Props.C96_clewlow` | P C Q |
| C96 | `Frm.Props.C96_clewlow_forward` | P C Q |
| C97 | `Frm.Props.C97_same` | P C Q |
| C97 | `Frm.Props.C97_path` | P C Q |
| C97 | `Frm.Props.C97_own_draws` | P C Q |
| C97 | `Frm.Props.C97_refused` | P C Q |
| C97 | `Frm.Props.C97_unknown_method` | P C Q |
| C97 | `Frm.Props.C97_mean` | P C Q |
| C97 | `Frm.Props.C97_mean_order` | P C Q |
| C97 | `Frm.Props.C97_exact_law` | P C Q |
| C97 | `Frm.Props.C97_sign` | P C Q |
| C97 | `Frm.Props.C97_never_returns` | P C Q |
| C97 | `Frm.Props.C97_no_path` | P C Q |
| C97 | `Frm.Props.C97_multiprocessing` | P C Q |
| C97 | `Frm.Props.C97_negative` | P C Q |
| C98 | `Frm.Props.C98_new_schedule` | P C Q |
| C98 | `Frm.Props.C98_rolled_dates` | P C Q |
| C98 | `Frm.Props.C98_leg` | P C Q |
| C98 | `Frm.Props.C98_sign` | P C Q |
| C98 | `Frm.Props.C98_inflation` | P C Q |
| C98 | `Frm.Props.C98_retry` | P C Q |
| C98 | `Frm.Props.C98_same_field` | P C Q |
| C98 | `Frm.Props.C98_shared` | P C Q |
| C98 | `Frm.Props.C98_shared_swap` | P C Q |
| C98 | `Frm.Props.C98_contractual_columns` | P C Q |
| C98 | `Frm.Props.C98_lengths` | P C Q |
| C98 | `Frm.Props.C98_buckets` | P C Q |
| C98 | `Frm.Props.C98_buckets_refused` | P C Q |
| C98 | `Frm.Props.C98_dv01` | none |
| C98 | `Frm.Props.C98_zero_accrued` | P C Q |
| C98 | `Frm.Props.C98_zero_clean` | P C Q |
| C98 | `Frm.Props.C98_missing_methods` | P |
| C98 | `Frm.Props.C98_no_period_end` | P C Q |
| C98 | `Frm.Props.C98_no_payment_date` | P C Q |
| C98 | `Frm.Props.C98_shown_columns` | P |
| C98 | `Frm.Props.C98_solved_column` | none |
| C98 | `Frm.Props.C98_zero_unvalued` | P C Q |
| C99 | `Frm.Props.C99_table` | P Q |
| C99 | `Frm.Props.C99_overnight_table` | P Q |
| C99 | `Frm.Props.C99_term_table` | P Q |
| C99 | `Frm.Props.C99_overnight_rates` | P C Q |
| C99 | `Frm.Props.C99_no_method` | P C Q |
| C99 | `Frm.Props.C99_current_rates` | P C Q |
| C99 | `Frm.Props.C99_term_averages` | P C Q |
| C99 | `Frm.Props.C99_term_refused` | P C Q |
| C99 | `Frm.Props.C99_curve` | P |
| C99 | `Frm.Props.C99_one_basis` | P C Q |
| C99 | `Frm.Props.C99_discount_factors` | none |
| C99 | `Frm.Props.C99_foreign_method` | P C Q |
| C100 | `Frm.Props.C100_capfloor_never` | Q |
| C100 | `Frm.Props.C100_capfloor_columns` | P C Q |
| C100 | `Frm.Props.C100_capfloor_no_tenor` | P |
| C100 | `Frm.Props.C100_capfloor_keeps` | P Q |
| C100 | `Frm.Props.C100_fx_paths` | P Q |
| C100 | `Frm.Props.C100_fx_paths_fixed` | P Q |
| C100 | `Frm.Props.C100_flat_shift` | P Q |
| C100 | `Frm.Props.C100_third_discount_factor` | none |
| C100 | `Frm.Props.C100_delay` | P Q |
| C100 | `Frm.Props.C100_heston_inputs` | P C Q |
| C100 | `Frm.Props.C100_capfloor_stops` | P C Q |
| C100 | `Frm.Props.C100_capfloor_keywords` | P C Q |
| C101 | `Frm.Props.C101_curve_plot` | P C Q |
| C101 | `Frm.Props.C101_whole_years` | P C Q |
| C101 | `Frm.Props.C101_smile_line` | P C Q |
| C101 | `Frm.Props.C101_smile_state` | P C Q |
| C101 | `Frm.Props.C101_smile_refused` | P C Q |
| C101 | `Frm.Props.C101_marks` | P C Q |
| C101 | `Frm.Props.C101_marks_places` | P C Q |
| C101 | `Frm.Props.C101_smile_neutral` | P C Q |
| C101 | `Frm.Props.C101_smile_drawn` | P C Q |
| C101 | `Frm.Props.C101_term_before` | P Q |
| C102 | `Frm.Props.C102_carr_madan` | P C Q |
| C102 | `Frm.Props.C102_lipton` | P C Q |
| C102 | `Frm.Props.C102_cosine` | P C Q |
| C102 | `Frm.Props.C102_no_arbitrage` | P C Q |
| C103 | `Frm.Props.C103_tenors_only` | P C Q |
| C103 | `Frm.Props.C103_bootstrap` | P C Q |
| C103 | `Frm.Props.C103_kept` | P C Q |
| C103 | `Frm.Props.C103_left` | P C Q |
| C103 | `Frm.Props.C103_refusals` | P C Q |
| C103 | `Frm.Props.C103_dates_need_tenor` | P C Q |
| C103 | `Frm.Props.C103_own_starts_refused` | P C Q |
| C103 | `Frm.Props.C103_default_calendar` | P C Q |
| C103 | `Frm.Props.C103_second_call` | P C Q |
| C103 | `Frm.Props.C103_failed_call` | P C Q |
| C103 | `Frm.Props.C103_futures_stale` | P C Q |
| C104 | `Frm.Props.C104_accepted` | P C Q |
| C104 | `Frm.Props.C104_exceptions` | P C Q |
| C104 | `Frm.Props.C104_results` | P C Q |
| C104 | `Frm.Props.C104_delta_twice_shifted` | P C Q |
| C104 | `Frm.Props.C104_vega_twice_shifted` | P C Q |
| C104 | `Frm.Props.C104_numerical_partial` | P C Q |
| C104 | `Frm.Props.C104_shifted_vega_wrong` | P C Q |
| C104 | `Frm.Props.C104_low_volatility` | P C Q |
| C104 | `Frm.Props.C104_bachelier_accepted` | P C Q |
| C104 | `Frm.Props.C104_bachelier_results` | P C Q |
| C104 | `Frm.Props.C104_numerical_nan` | P C Q |
| C105 | `Frm.Props.C105_accepted` | P C Q |
| C105 | `Frm.Props.C105_exceptions` | P C Q |
| C105 | `Frm.Props.C105_one_time_refused` | P C Q |
| C105 | `Frm.Props.C105_results` | P C Q |
| C106 | `Frm.Props.C106_refused` | P C Q |
| C106 | `Frm.Props.C106_accepted` | P C Q |
| C106 | `Frm.Props.C106_results` | P C Q |
| C106 | `Frm.Props.C106_fit` | P C Q |
| C106 | `Frm.Props.C106_fit_default_shift` | P C Q |
| C107 | `Frm.Props.C107_spot_step` | P C Q |
| C107 | `Frm.Props.C107_growth` | P C Q |
| C107 | `Frm.Props.C107_mean_spot` | P C Q |
| C107 | `Frm.Props.C107_uncorrelated` | P C Q |
| C107 | `Frm.Props.C107_forward_biased` | P C Q |
| C107 | `Frm.Props.C107_euler_moments` | P C Q |
| C108 | `Frm.Props.C108_fixed_partial` | P C Q |
| C108 | `Frm.Props.C108_zero_coupon_partial` | P C Q |
| C108 | `Frm.Props.C108_affine_partial` | P C Q |
| C108 | `Frm.Props.C108_search_partial` | P C Q |
| C108 | `Frm.Props.C108_float` | P C Q |
| C108 | `Frm.Props.C108_swap` | P C Q |
| C108 | `Frm.Props.C108_raises_iff` | P C Q |
| C108 | `Frm.Props.C108_begun` | P C Q |
| C108 | `Frm.Props.C108_solve` | P C Q |
| C108 | `Frm.Props.C108_rest` | P C Q |
| C108 | `Frm.Props.C108_fails` | P C Q |
| C108 | `Frm.Props.C108_restored` | P C Q |
| C108 | `Frm.Props.C108_par` | P C Q |
| C108 | `Frm.Props.C108_no_data` | P C Q |
| C109 | `Frm.Props.C109_period_partial` | P C Q |
| C109 | `Frm.Props.C109_straddling_partial` | P C Q |
| C109 | `Frm.Props.C109_answered_partial` | P C Q |
| C109 | `Frm.Props.C109_alone_refused` | P C Q |
| C109 | `Frm.Props.C109_borrowed` | P C Q |
| C109 | `Frm.Props.C109_fails` | P C Q |
| C109 | `Frm.Props.C109_floater` | P C Q |
| C109 | `Frm.Props.C109_running_floater` | P C Q |
| C110 | `Frm.Props.C110_accepted` | P C Q |
| C110 | `Frm.Props.C110_curve` | P C Q |
| C110 | `Frm.Props.C110_reprices` | P C Q |
| C110 | `Frm.Props.C110_from_tenors` | P C Q |
| C110 | `Frm.Props.C110_futures_partial` | P C Q |
| C110 | `Frm.Props.C110_settlement` | P C Q |
| C110 | `Frm.Props.C110_one_day_only` | P C Q |
| C110 | `Frm.Props.C110_gap` | P C Q |
| C110 | `Frm.Props.C110_spline` | P C Q |
| C110 | `Frm.Props.C110_spline_curve` | P C Q |
