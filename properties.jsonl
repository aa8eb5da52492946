{"id": "C01", "title": "Tenor strings are parsed by an exact grammar", "statement": "tenor_to_date_offset accepts exactly the market codes on, tn, sp, sn, sw and the forms <digits>d, <digits>w, <digits>m, <digits>y, <digits>y<digits>m (after normalisation), returns the offset that the form denotes (a y/m combination being 12*years+months months), and raises ValueError on every other string.", "quantifier": "every tenor string, of any length and with any digit counts", "why_tests_cant": "The language is infinite; a test table covers a few literals and cannot show that nothing else is accepted or that large multi-digit counts keep their value.", "anchors": ["frm/utils/tenor.py: tenor_to_date_offset, clean_tenor"]}
{"id": "C02", "title": "Tenor normalisation ignores case, blanks and slashes and maps every unit alias to one letter", "statement": "clean_tenor gives the same result for two strings that differ only in letter case, spaces, '/', line feeds and carriage returns; a count followed by any alias of a unit (day/days, week/weeks, mon/month/months, yr/yrs/year/years) normalises to the count followed by the unit letter; the codes overnight, tomorrownext/tomnext, spot, spotnext, spotweek normalise to on, tn, sp, sn, sw; already normalised strings are unchanged.", "quantifier": "every ASCII string; every digit string and every alias; every interleaving of ignored characters", "why_tests_cant": "Interleavings of case, blanks and separators are unbounded, and regex alternation order bugs (month vs mon, spot vs spotnext) appear only on specific overlaps.", "anchors": ["frm/utils/tenor.py: clean_tenor"]}
{"id": "C03", "title": "Month arithmetic keeps the day of month or clamps to month end, and never drifts", "statement": "Adding k months to a date gives the date in the k-th following calendar month with the same day of month, or that month's last day when the day does not exist; adding is strictly increasing in k, weakly increasing in the date; adding k months in one step never loses the original day (start+k*freq, not iterated).", "quantifier": "every calendar date of the proleptic Gregorian calendar and every integer month count (either sign)", "why_tests_cant": "Leap-year/centennial/month-end interactions range over an infinite calendar; tests sample a few month ends.", "anchors": ["frm/enums/utils.py: PeriodFreq.multiply_date_offset, PeriodFreq.date_offset", "frm/utils/tenor.py: tenor_to_date_offset", "frm/utils/schedule.py: generate_date_schedule"]}
{"id": "C04", "title": "Business-day rolling is minimal, idempotent and monotone", "statement": "For every calendar with at least one working weekday: following gives the first business day on or after the date, preceding the last on or before it; the modified variants give the same unless that leaves the calendar month, in which case the other direction is used; business days are unchanged; rolling twice is rolling once; and all four conventions are monotone in the date.", "quantifier": "every calendar (any weekend mask that is not all-weekend, any finite holiday set; for the month rule and the monotonicity of the modified variants, any without a closure of 300 days), every date, all four conventions", "why_tests_cant": "Holiday clusters of arbitrary length and month-end positions cannot be enumerated; termination of the search itself depends on the mask not being all-weekend.", "anchors": ["frm/utils/schedule.py: BaseSchedule.add_payment_dates, generate_date_schedule", "frm/utils/tenor.py: workday", "frm/enums/utils.py: RollConv"]}
{"id": "C05", "title": "workday steps exactly n business days", "statement": "workday(d, n, cal) is a business day; for n>=0 it is the n-th business day after the following-rolled date (exactly n business days lie in (roll(d), result]); for n<0 the |n|-th before it; steps compose for offsets of the same sign, and moving n forward then n back returns the rolled date.", "quantifier": "every calendar, every date and every integer offset", "why_tests_cant": "Offset counts and holiday layouts are unbounded; an off-by-one shows only when the start is itself a non-business day or a holiday cluster intervenes.", "anchors": ["frm/utils/tenor.py: workday, resolve_fx_curve_dates"]}
{"id": "C06", "title": "A multi-currency calendar is the union of the closures of its members", "statement": "A date is a business day of get_busdaycal(keys) exactly when it is a business day of the calendar of every key: no key's weekend or holiday is lost and none is invented; the result does not depend on order, letter case or repetition of keys; an unknown key raises ValueError.", "quantifier": "every list of currency/city keys, every table of weekends and holidays, every date", "why_tests_cant": "The number of key combinations and dates is unbounded; fixed tests check a few currency pairs.", "anchors": ["frm/utils/business_day_calendar.py: get_busdaycal, convert_weekend_to_weekmask, get_holidays_object"]}
{"id": "C07", "title": "FX spot lag convention is symmetric and total on six-letter pairs", "statement": "For a pair normalised by validate_ccy_pair (any letter case, with or without '/'), get_fx_spot_day_offset returns 1 for USD against CAD, PHP, RUB, TRY in either quotation order and 2 for every other six-letter pair; quoting a pair in the opposite order never changes the lag.", "quantifier": "every currency pair text that validate_ccy_pair accepts, any letter case", "why_tests_cant": "26^6 pairs and case variants; tests check the listed exceptions only.", "anchors": ["frm/utils/tenor.py: get_fx_spot_day_offset"]}
{"id": "C08", "title": "FX curve date / spot date resolution is consistent", "statement": "When exactly one of curve_date and spot_date is given, resolve_fx_curve_dates returns both, the spot date being exactly spot-lag business days after the curve date, so that resolving from the curve date and then from the resulting spot date returns the same pair. When both are given, they are returned unchanged with an offset equal to the number of business days between them.", "quantifier": "every calendar, currency pair, and pair of dates; every combination of supplied and missing arguments", "why_tests_cant": "Depends on arbitrary holiday layouts between the two dates and on every combination of optional arguments.", "anchors": ["frm/utils/tenor.py: resolve_fx_curve_dates, calc_implied_business_day_offset, check_day_offset_consistency"]}
{"id": "C09", "title": "Actual day counts are the elapsed days and are additive", "statement": "For the ACT bases day_count(s,e) is the number of calendar days from s to e, hence day_count(a,b)+day_count(b,c)=day_count(a,c); an end before the start is rejected on every basis.", "quantifier": "every pair/triple of dates and every ACT basis", "why_tests_cant": "Dates are unbounded and additivity is a relational law over triples.", "anchors": ["frm/utils/daycount.py: day_count"]}
{"id": "C10", "title": "30/360 day counts are exact on whole months and differ from the month count only by day-of-month terms", "statement": "For 30/360, 30E/360 and 30E/360 ISDA the day count equals 360*dYear+30*dMonth+(D2-D1) with D1,D2 the day numbers adjusted by that convention's published rules; periods of k whole months starting on a day <=28 (<=27 for ISDA, whose February rule moves the 28th) count exactly 30k; a full year counts 360 on 30/360 and 30E/360 except from 29 February; the count is never negative when start<=end (30E/360 ISDA with a termination date on the last day of February excepted); splitting a period is additive on 30E/360 and, at a non-termination date, on ISDA, and on 30/360 at a date with day<=28 unless the period runs from a 30th/31st to a 31st.", "quantifier": "every ordered pair of dates, each of the three bases, both values of the termination flag", "why_tests_cant": "Month-end rules interact (31st, Feb 28/29, termination); bugs live in rare combinations.", "anchors": ["frm/utils/daycount.py: day_count"]}
{"id": "C11", "title": "Year fractions: fixed denominators, and ACT/ACT is the day-weighted sum", "statement": "year_frac is day_count divided by 360, 365 or 366 for fixed-denominator bases; for ACT/ACT it equals the sum over every elapsed day of 1/(length of that day's calendar year), hence is additive over adjacent periods, non-negative, strictly increasing in the end date and exactly n between 1 January dates n years apart.", "quantifier": "every ordered pair of dates (any number of years apart) and every basis", "why_tests_cant": "The closed formula must agree with a day-by-day sum over unboundedly long periods across leap years.", "anchors": ["frm/utils/daycount.py: year_frac", "frm/enums/utils.py: DayCountBasis.days_per_year"]}
{"id": "C12", "title": "Schedules tile the trade: contiguous and covering", "statement": "Whenever make_schedule returns with roll_user_specified_dates=False, the first period starts on the start date, the last ends on the end date, and each period starts exactly where the previous one ended.", "quantifier": "every start/end date, frequency, roll convention, day roll, stub combination, first/last stub date and calendar for which the call returns", "why_tests_cant": "The parameter space is a product of infinite date ranges, calendars and ~10 stub modes; gaps appear only for particular combinations.", "anchors": ["frm/utils/schedule.py: make_schedule, generate_date_schedule"]}
{"id": "C13", "title": "Schedules are ordered", "statement": "With the trade's own dates left unrolled: (a) without a day roll, and when the dates the generation is anchored on do not themselves roll outwards (business days never do), every period has start <= end and every date lies within the trade, for every frequency and stub setting; (b) for monthly or longer frequencies with a modified roll on a calendar with a business day in every month, with any day roll, stub setting or explicit stub date, every period has positive length and the interior dates increase strictly, strictly inside the trade.", "quantifier": "every input of make_schedule that returns a schedule, every calendar (case (a): no calendar closure of 300 days)", "why_tests_cant": "Non-strictness arises from holiday clusters absorbing a whole period; tests use plain weekends.", "anchors": ["frm/utils/schedule.py: make_schedule, generate_date_schedule"]}
{"id": "C14", "title": "Generated dates are the rolled multiples of the frequency from the anchor", "statement": "Every interior date of a forward (backward) schedule is the business-day roll of anchor + k*freq (anchor - k*freq) after the day-of-month adjustment, for consecutive k = 1,2,..., and the sequence stops exactly at the first k whose date reaches the other end: no date is skipped, duplicated or drifted by previous rolls or month-end clamps.", "quantifier": "every anchor, frequency, roll, day roll, calendar and length of schedule", "why_tests_cant": "Drift accumulates only over long schedules and month-end anchors; the loop length is unbounded.", "anchors": ["frm/utils/schedule.py: generate_date_schedule"]}
{"id": "C15", "title": "Stub selection merges or keeps the odd period exactly once", "statement": "A SHORT stub leaves the generated grid unchanged; a LONG stub merges the odd period with its neighbour (one period fewer, same outer dates); a first stub puts the irregular period first (backward generation), a last stub puts it last; when explicit first_period_end / last_period_start are given they appear as schedule boundaries.", "quantifier": "every schedule input with every stub combination", "why_tests_cant": "Stub logic has many branch combinations with list slicing whose errors depend on schedule length.", "anchors": ["frm/utils/schedule.py: make_schedule"]}
{"id": "C16", "title": "Inconsistent schedule requests are rejected", "statement": "make_schedule raises (never returns a schedule) when start>=end, when first_period_end is not in (start,end], when last_period_start is not in [start,end), when both stubs are specified without dates, or when a DEFINED stub has no date; with zero-coupon frequency it returns exactly one period.", "quantifier": "every argument combination and calendar", "why_tests_cant": "Validation must hold for all orderings of four dates and all stub pairs.", "anchors": ["frm/utils/schedule.py: make_schedule"]}
{"id": "C17", "title": "Payment dates are the payment-delay business days after the period boundary", "statement": "add_payment_dates sets each row's payment date to the period end (in arrears) or period start (in advance), moved by payment_delay business days after rolling with the schedule's roll convention; rows with a missing boundary keep a missing payment date; row count and order are unchanged.", "quantifier": "every schedule (any number of rows, missing boundaries anywhere), delay, timing convention, calendar", "why_tests_cant": "Masking by missing dates and vectorised assignment can shift rows only for particular missing patterns.", "anchors": ["frm/utils/schedule.py: BaseSchedule.add_payment_dates"]}
{"id": "C18", "title": "Notional exchanges net to zero and are placed at the right rows", "statement": "With a scalar notional N, every coupon row carries notional N; an initial exchange adds one leading row with notional 0, payment -N and the initial exchange date (default: first period start); a final exchange puts +N on the last row; with both exchanges the payments sum to zero, with none they are all zero; other rows are untouched. Per-period notionals of matching length are accepted row by row.", "quantifier": "every schedule length, every notional, all exchange modes, optional initial exchange date", "why_tests_cant": "Row prepending and index resets depend on the length and mode; a test uses one schedule.", "anchors": ["frm/utils/schedule.py: NotionalSchedule.add_notional_schedule"]}
{"id": "C19", "title": "Enum parsing is the inverse of naming and rejects everything else", "statement": "For every enumeration, from_value of a member's canonical value (in any case, padded by blanks, spaces for underscores) returns that member, a missing value returns the documented default, documented aliases map to their member, and any string that does not normalise to a listed value raises; is_valid agrees with from_value not raising.", "quantifier": "every string / missing value, every enumeration", "why_tests_cant": "Inputs are arbitrary strings; acceptance of exactly the listed ones cannot be sampled.", "anchors": ["frm/enums/helper.py: get_enum_member, is_valid_enum_value, clean_enum_value", "frm/enums/utils.py", "frm/enums/term_structures.py"]}
{"id": "C20", "title": "Pay/receive and buy/sell signs", "statement": "The multiplier of PAY (SELL) is -1 and of RCV (BUY) is +1 and flipping the perspective of a leg negates every signed cash flow, so that a swap of two otherwise identical opposite legs is worth zero.", "quantifier": "every leg and curve", "why_tests_cant": "A sign applied twice or not at all is invisible in magnitude-based tests and must hold for every cash-flow list.", "anchors": ["frm/enums/utils.py: PayRcv.multiplier, BuySell.multiplier", "frm/instruments/leg.py: Leg.__post_init__, FixedLeg.calc_coupon_payment", "frm/instruments/swap.py: Swap"]}
{"id": "C21", "title": "Discount factor / zero rate conversions are mutually inverse", "statement": "For every compounding frequency, converting a zero rate to a discount factor and back over the same positive time is the identity (and vice versa), the discount factor is positive, equals one at zero rate, strictly decreases in the rate, and the map is given by the textbook formula of that frequency.", "quantifier": "all real rates above the compounding's singular value, all positive times, all frequencies", "why_tests_cant": "Real-valued laws; floats sample finitely many points.", "anchors": ["frm/enums/utils.py: CompoundingFreq.calc_discount_factor_from_zero_rate, calc_zero_rate_from_discount_factor"]}
{"id": "C22", "title": "Rate conversion between compounding frequencies preserves the discount factor", "statement": "Converting a rate from one compounding frequency to another gives the rate that produces the same discount factor over one year (any horizon when neither is simple), converting there and back is the identity, and conversion to the same frequency is the identity.", "quantifier": "all rates in the domain, all ordered pairs of frequencies", "why_tests_cant": "49 pairs times a continuum of rates.", "anchors": ["frm/enums/utils.py: CompoundingFreq.convert_rate_to"]}
{"id": "C23", "title": "Frequency steps", "statement": "PeriodFreq.multiply_date_offset(k) is the k-fold date offset of the frequency (k days, 7k days, 28k days, k, 3k, 6k months, k years), composing additively in k, and zero-coupon has no offset.", "quantifier": "every frequency and every integer k", "why_tests_cant": "k is unbounded.", "anchors": ["frm/enums/utils.py: PeriodFreq.multiply_date_offset, PeriodFreq.date_offset"]}
{"id": "C24", "title": "Present value counts exactly the cash flows after the value date", "statement": "A leg's dirty PV is the sum over rows of (coupon+notional payment) times the discount factor of the payment date, counting exactly the rows whose payment date is present and later than the value date (on or after it when configured); PV is additive over concatenated schedules and unchanged by adding past or undated cash flows.", "quantifier": "every leg schedule, value date, discount curve and setting", "why_tests_cant": "Filtering by dates must be right at the boundary for every list of cash flows.", "anchors": ["frm/instruments/leg.py: Leg._discount_payments, Leg.calc_dirty_pv"]}
{"id": "C25", "title": "Dirty = clean + accrued", "statement": "Clean PV plus accrued interest equals dirty PV for each leg and for the swap; swap-level values are the sums of the leg values. Pricing a swap prices its first leg and then, unless that raises, its second; an exception is passed on and the columns written before it stay.", "quantifier": "every pair of legs, value date and settings", "why_tests_cant": "Identity over all legs and all branches of the accrued interest settings.", "anchors": ["frm/instruments/leg.py: calc_clean_pv, calc_accrued_interest", "frm/instruments/swap.py: Swap"]}
{"id": "C26", "title": "Accrued interest only covers the current period", "statement": "Accrued interest of a leg is the fraction of the current period's coupon that has elapsed at the value date, plus coupons that are earned but unpaid, and zero when no period is current.", "quantifier": "every leg schedule and value date", "why_tests_cant": "Needs every position of the value date relative to every schedule.", "anchors": ["frm/instruments/leg.py: Leg.calc_accrued_interest, FixedLeg._calc_accrued_interest"]}
{"id": "C27", "title": "Bucketing partitions future cash flows", "statement": "Bucketing by pillars a number of years after the value date puts every cash flow still to come into exactly one bucket: the half-open interval between neighbouring pillars that contains it, the first bucket starting at the value date and the last being open-ended; bucket totals sum to the total of the cash flows still to come. When the first pillar is not after the value date the totals sum to all cash flows on or after that pillar, settled ones included.", "quantifier": "every list of cash flows (dates and amounts possibly missing) and every increasing list of pillars", "why_tests_cant": "Off-by-one at boundaries; arbitrary numbers of buckets and flows.", "anchors": ["frm/instruments/leg.py: Leg._bucket_payments_helper"]}
{"id": "C28", "title": "Current / non-current split adds up to the dirty PV", "statement": "The current plus the non-current amounts returned by get_current_non_current_split equal the leg's dirty PV, cash flows within one year of the value date being current.", "quantifier": "every leg, value date and curve", "why_tests_cant": "A wrong column or mask only shows for particular combinations of coupons and notionals.", "anchors": ["frm/instruments/leg.py: Leg.get_current_non_current_split"]}
{"id": "C29", "title": "Solving for a par or target value leaves the leg unchanged", "statement": "par_solve/target_solve restore the solved contractual parameter whatever happens during the root search, and when the search succeeds the returned value reprices the leg to the target. With a search that keeps to its bracket the value is between -10% and 300%. For a fixed leg it is exactly what is left of the target after the notional flows, divided by the annuity, when that is between -10% and 300%, and nan otherwise.", "quantifier": "every leg, target and solver behaviour (including exceptions)", "why_tests_cant": "Must hold for every control-flow exit of an external solver.", "anchors": ["frm/instruments/leg.py: Leg.par_solve, Leg.target_solve, Leg._solver_helper", "frm/instruments/swap.py: Swap.target_solve_swap"]}
{"id": "C30", "title": "Historical term fixings are looked up as of the fixing date, in request order", "statement": "index_historical_fixings returns, for each requested date in the order requested, the fixing of the latest fixing date on or before it, and missing if there is none.", "quantifier": "every ascending fixing table and every list of requested dates (any order, duplicates)", "why_tests_cant": "The sort / as-of merge / unsort pipeline must be a per-element map for every permutation.", "anchors": ["frm/term_structures/historical_swap_index_fixings.py: TermFixings.index_historical_fixings"]}
{"id": "C31", "title": "RFR coupons compound every calendar day of the period", "statement": "The daily-compounded coupon of [start,end) annualises the product over all its calendar days of 1+fixing/days_per_year with the latest fixing on or before each day, over exactly end-start days; the weighted average is the mean over the same days; the simple average the mean of the published fixings; a constant fixing gives averages equal to it.", "quantifier": "every fixing table, every list of periods, each method; periods whose first day has a fixing (C32 is about the others)", "why_tests_cant": "Weekends/holidays make the number of repeated fixings input dependent; the day loop is unbounded.", "anchors": ["frm/term_structures/historical_swap_index_fixings.py: RFRFixings.get_coupon_rates, _calculate_coupon_rate"]}
{"id": "C32", "title": "Periods without fixing data are rejected", "statement": "get_coupon_rates raises when a period is not fully covered by fixings, at its beginning as well as its end, instead of returning a coupon that silently omits days.", "quantifier": "every fixing table and list of periods", "why_tests_cant": "Coverage gaps can be anywhere in the period and the fixing set.", "anchors": ["frm/term_structures/historical_swap_index_fixings.py: RFRFixings.get_coupon_rates"]}
{"id": "C33", "title": "RFR swap-curve fixings: each period is past, future or straddling, exactly once", "statement": "For every period with start<end, RFRSwapCurve.get_fixings uses the historical rate when the period ended by the curve date, the curve's forward when it starts on or after it, and otherwise the crossover rate whose accrual over the whole period equals compounding the historical accrual with the forward accrual. Under 30E/360 ISDA the last straddling period of a call counts as ending on a termination date, so the same period can get two rates in one call.", "quantifier": "every list of periods, every curve date, every basis, every forward curve and every table with at most one fixing per date", "why_tests_cant": "Three masks must partition all relative positions; the crossover identity is algebraic over all rates.", "anchors": ["frm/term_structures/swap_curve.py: RFRSwapCurve.get_fixings, _get_crossover_coupon_rate"]}
{"id": "C34", "title": "Term swap-curve fixings: past periods use history, future ones the curve", "statement": "TermSwapCurve.get_fixings returns the historical fixing for periods starting before the curve date and the curve's forward rate for periods starting on or after it.", "quantifier": "every list of periods", "why_tests_cant": "Needs both sides of the mask for every layout of periods.", "anchors": ["frm/term_structures/swap_curve.py: TermSwapCurve.get_fixings"]}
{"id": "C35", "title": "Zero curve interpolation reproduces its pillars and stays between them", "statement": "With linear interpolation on ln(DF) the curve has DF=1 at the curve date, reproduces every pillar discount factor, is positive everywhere, lies between the neighbouring pillars' factors, is non-increasing when the pillar factors are, and has a constant continuously compounded forward rate between neighbouring pillars.", "quantifier": "every list of pillars with increasing positive times and positive discount factors, every query time in range", "why_tests_cant": "Real-valued interpolation over arbitrarily many pillars.", "anchors": ["frm/term_structures/zero_curve.py: ZeroCurve._process_pillar_df, _setup_daily_df, get_discount_factors"]}
{"id": "C36", "title": "Forward rates are consistent with discount factors", "statement": "The forward rate for [t1,t2] in each convention reproduces DF(t1)/DF(t2) when compounded over the period's year fraction; forwards over adjacent periods chain to the forward over their union.", "quantifier": "every curve, every pair (triple) of dates, each forward rate type", "why_tests_cant": "Algebraic identity over reals and all conventions.", "anchors": ["frm/term_structures/zero_curve.py: ZeroCurve.get_forward_rates, get_zero_rates"]}
{"id": "C37", "title": "Curve lookups return one value per requested date", "statement": "get_discount_factors(dates) returns exactly one value per requested date, in the order requested, or raises for dates outside the curve; it never silently shortens or reorders the result.", "quantifier": "every list of dates (any order, in or out of range)", "why_tests_cant": "Ordering and length bugs need mixed in/out-of-range request lists.", "anchors": ["frm/term_structures/zero_curve.py: ZeroCurve.index_daily_data, get_discount_factors"]}
{"id": "C38", "title": "Bootstrapped cash rates reprice", "statement": "After bootstrap_cash_rates every instrument's quoted rate equals (DF(effective)/DF(maturity)-1)/period_years, factors are positive and the overnight leg starts from 1.", "quantifier": "every list of cash instruments with positive accruals", "why_tests_cant": "Loop over arbitrarily many instruments where each uses earlier results.", "anchors": ["frm/term_structures/bootstrap_helpers.py: bootstrap_cash_rates"]}
{"id": "C39", "title": "Bootstrapped futures reprice and extend the curve without altering earlier points", "statement": "After bootstrap_futures every contract's forward rate equals (DF(effective)/DF(maturity)-1)/period_years with the effective factor log-linearly interpolated from the points before it; cash points are untouched; forward = (100-price)/100 - convexity.", "quantifier": "every list of futures and cash curve", "why_tests_cant": "The recurrence depends on all previous contracts.", "anchors": ["frm/term_structures/bootstrap_helpers.py: bootstrap_futures"]}
{"id": "C40", "title": "Bank bill futures settle on the second Friday", "statement": "For any contract year and quarterly month, the settlement date computed by futures_helper_asx_90day is the unique Friday with day of month 8..14 and the expiry is the Thursday before; the dates are assigned to the matching contract row.", "quantifier": "every year and month; every order of the contract rows", "why_tests_cant": "Calendar arithmetic for all years; row-order mismatch only shows on unsorted input.", "anchors": ["frm/term_structures/bootstrap_helpers.py: futures_helper_asx_90day"]}
{"id": "C41", "title": "FX term-structure rows: explicit dates win over tenors, and rate-set/delivery dates are spot-lag apart", "statement": "fx_term_structure_helper uses the delivery date if given, else derives it from the rate-set date, else from the tenor; the rate-set date precedes the delivery date by the spot lag in business days; rows are returned in delivery-date order.", "quantifier": "every table of rows, calendar and spot lag", "why_tests_cant": "Row-wise precedence and calendar arithmetic over arbitrary tables.", "anchors": ["frm/term_structures/fx_helpers.py: fx_term_structure_helper"]}
{"id": "C42", "title": "Risk-reversal / butterfly quotes invert exactly", "statement": "From ATM, RR and BF quotes the derived call and put volatilities satisfy call-put=RR and (call+put)/2-ATM=BF for every delta, for every row, and no other columns change. A missing at-the-money volatility, risk reversal or butterfly leaves the put and the call of that row missing, and no other row.", "quantifier": "every table of quotes and every set of deltas", "why_tests_cant": "Arbitrary number of deltas and rows.", "anchors": ["frm/term_structures/fx_helpers.py: solve_call_put_quotes_from_strategy_quotes"]}
{"id": "C43", "title": "Smile quotes are ordered from low to high strike", "statement": "get_delta_smile_quote_details orders the quote columns as puts by increasing |delta|, then ATM, then calls by decreasing |delta|, with signed delta and call/put flag matching each column.", "quantifier": "every set of delta quotes in (0,50)", "why_tests_cant": "Sorting by a derived key must be right for every set of deltas.", "anchors": ["frm/term_structures/fx_helpers.py: get_delta_smile_quote_details"]}
{"id": "C44", "title": "FX forward interpolation reproduces pillars and is linear in time between them", "statement": "interp_fx_forward_curve_df returns the pillar's forward at pillar dates, the time-weighted linear interpolation between neighbouring pillars and flat values outside when flat extrapolation is on, one value per requested date in order.  A pillar whose forward is missing (nan) changes nothing: the result is that of the other pillars, unless it repeats the date of another pillar, which is refused.", "quantifier": "every forward curve and list of dates", "why_tests_cant": "Arbitrary date lists including duplicates, unsorted and out of range.", "anchors": ["frm/term_structures/fx_helpers.py: interp_fx_forward_curve_df"]}
{"id": "C45", "title": "Forward volatility satisfies variance consistency", "statement": "forward_volatility returns v>=0 with vol_t1^2*t1 + v^2*(t2-t1) = vol_t2^2*t2 whenever total variance does not decrease, and raises when t2<t1 or total variance decreases.", "quantifier": "all real inputs (vectors of any length)", "why_tests_cant": "Real-valued identity and exact error domain.", "anchors": ["frm/pricing_engine/volatility_generic.py: forward_volatility"]}
{"id": "C46", "title": "Flat-forward interpolation is linear in total variance", "statement": "flat_forward_interp returns a volatility whose total variance at t is the linear interpolation of the total variances at t1 and t2, reproducing vol_t1 and vol_t2 at the ends, staying between the two total variances, and returning vol_t1 when t=t1=t2.", "quantifier": "all t1<=t<=t2 with t>0 and non-decreasing total variance", "why_tests_cant": "Real-valued identity including the degenerate equal-pillar case.", "anchors": ["frm/pricing_engine/volatility_generic.py: flat_forward_interp", "frm/term_structures/fx_volatility_surface.py: _setup_vol_smile_daily_df"]}
{"id": "C47", "title": "Garman-Kohlhagen put-call parity and intrinsic limits", "statement": "Call minus put equals S*exp(-q*tau) - K*exp(-r*tau) for all parameters, prices lie between discounted intrinsic value and the discounted asset (call) or strike (put), at tau=0 the price is max(0,cp*(S-K)), and price = intrinsic + time value with time value >= 0.", "quantifier": "all S,K>0, tau>=0, all rates, all vol>0, with and without a market forward", "why_tests_cant": "Real-analytic identity and inequality over a continuum.", "anchors": ["frm/pricing_engine/garman_kohlhagen.py: garman_kohlhagen_price"]}
{"id": "C48", "title": "A supplied market forward is priced consistently", "statement": "When a forward F is supplied the price equals the price with the domestic rate implied by F (so that S*exp((r-q)tau)=F), and supplying the parity forward leaves the price unchanged.", "quantifier": "all parameters with tau>0", "why_tests_cant": "Identity over a continuum.", "anchors": ["frm/pricing_engine/garman_kohlhagen.py: garman_kohlhagen_price"]}
{"id": "C49", "title": "Analytical greeks are the derivatives of the price", "statement": "spot_delta = dX/dS, vega = 0.01*dX/dvol, gamma = 0.01*S*d2X/dS2, theta = -(1/365.25)*dX/dtau, rho = 0.01*dX/dr_d, for calls and puts. At expiry, priced from rates and away from the money, delta is a step, vega and rho zero, theta and gamma nan; at the money or with a forward all greeks are nan. Without volatility delta is a step, vega zero and gamma nan.", "quantifier": "all S,K,tau,vol>0 and all rates, cp in {1,-1}", "why_tests_cant": "Derivative identities over a continuum; a wrong discount factor is small at low rates.", "anchors": ["frm/pricing_engine/garman_kohlhagen.py: garman_kohlhagen_price"]}
{"id": "C50", "title": "Price is strictly increasing in volatility, so implied volatility is unique", "statement": "For tau>0 the price is strictly increasing and continuous in vol>0; hence if garman_kohlhagen_solve_implied_vol's root condition holds at vol>0, that vol is the only one, and repricing recovers the input.", "quantifier": "all parameters", "why_tests_cant": "Uniqueness is a for-all statement over the reals.", "anchors": ["frm/pricing_engine/garman_kohlhagen.py: garman_kohlhagen_solve_implied_vol, garman_kohlhagen_price"]}
{"id": "C51", "title": "Strike-from-delta inverts the delta", "statement": "For regular spot/forward conventions the strike returned for a signed delta has exactly that delta under the pricing formula; the ATM (0.5) strike under the forward convention is delta neutral (call forward delta = -put forward delta); under premium-adjusted conventions the ATM strike is premium-adjusted delta neutral. With the brackets of the code and a bracketing root finder: puts have one strike per delta and it is found if it is at least 0.000001 and the regular convention has a strike for that delta; calls on the forward of interest rate parity get the largest strike with the delta asked for, and get one exactly if the largest delta of any strike reaches it and belongs to a strike of at least 0.00001.", "quantifier": "all deltas in range, vols, maturities and rates", "why_tests_cant": "Inverse-function identity over a continuum.", "anchors": ["frm/pricing_engine/garman_kohlhagen.py: garman_kohlhagen_solve_strike_from_delta"]}
{"id": "C52", "title": "Black-76: parity, bounds, shift invariance, greeks", "statement": "Call minus put equals annuity*(F-K); the price depends on F, K and the shift only through F+shift and K+shift, scales linearly in the annuity, lies between intrinsic (times annuity) and its upper bound, is strictly increasing in vol; delta and vega are its derivatives. At expiry or for zero volatility the forward price is intrinsic and away from the money delta is a step and vega zero; a negative time to expiry gives nan, not an exception.", "quantifier": "all parameters with shifted forward and strike positive", "why_tests_cant": "Real-analytic statements.", "anchors": ["frm/pricing_engine/black76_bachelier.py: black76_price"]}
{"id": "C53", "title": "Bachelier: parity, positivity, greeks", "statement": "Call minus put equals annuity*(F-K); the price exceeds discounted intrinsic, is strictly increasing in vol; delta, vega (per basis point) and theta (per calendar day) are its derivatives. At expiry or for zero volatility the forward price is intrinsic; a negative time to expiry gives nan, not an exception.", "quantifier": "all parameters with tau,vol>0", "why_tests_cant": "Real-analytic statements.", "anchors": ["frm/pricing_engine/black76_bachelier.py: bachelier_price"]}
{"id": "C54", "title": "Intrinsic/time split adds up and time value is non-negative for cap/floor pricing", "statement": "For Black-76 and Bachelier with any annuity factor, intrinsic + time = price and time value is non-negative.", "quantifier": "all parameters including annuity factors different from 1", "why_tests_cant": "The annuity factor interacts with intrinsic only when it differs from one.", "anchors": ["frm/pricing_engine/black76_bachelier.py: black76_price, bachelier_price"]}
{"id": "C55", "title": "ATM normal/lognormal volatility conversion preserves the price and round-trips", "statement": "At F=K, black76_sln_to_normal_vol returns the normal vol whose Bachelier price equals the Black-76 price, and normal_vol_atm_to_black76_sln_atm is its inverse. At expiry or a negative time both give nan, and so does the conversion from normal volatility for a shifted forward of zero.", "quantifier": "all shifted forwards, maturities and vols > 0", "why_tests_cant": "Identity over a continuum.", "anchors": ["frm/pricing_engine/black76_bachelier.py: black76_sln_to_normal_vol, normal_vol_atm_to_black76_sln_atm"]}
{"id": "C56", "title": "SABR alpha is consistent with the ATM volatility", "statement": "Any real root of the cubic solved by solve_alpha_from_sln_vol, put into the ATM SABR formula, returns the input ATM volatility; a real root always exists for valid parameters; the chosen root is the real root nearest the first guess; the smile depends on the shift only through F+shift and K+shift.", "quantifier": "all valid SABR parameters", "why_tests_cant": "Algebraic identity and existence over a continuum.", "anchors": ["frm/pricing_engine/sabr.py: solve_alpha_from_sln_vol, calc_sln_vol_for_strike_from_sabr_params"]}
{"id": "C57", "title": "Antithetic sampling pairs every draw with its negative", "statement": "With antithetic variates the result has the requested number of simulations and each consecutive pair of simulations is (z,-z) for every step and variable, so sums over simulations vanish.", "quantifier": "every number of steps, variables and simulations, every random draw", "why_tests_cant": "Index arithmetic over arbitrary sizes and arbitrary draws.", "anchors": ["frm/pricing_engine/monte_carlo_generic.py: generate_rand_nbs"]}
{"id": "C58", "title": "Correlated normals have the requested correlation matrix", "statement": "The linear map applied by normal_corr to independent standard normals has covariance equal to the requested correlation matrix.", "quantifier": "every positive definite correlation matrix", "why_tests_cant": "Statement about a linear map for all matrices; Monte-Carlo tests only see noise.", "anchors": ["frm/pricing_engine/monte_carlo_generic.py: normal_corr"]}
{"id": "C59", "title": "GBM paths", "statement": "Each simulated path starts at the initial price, stays positive, has length steps+1, and its log is the sum of the step increments (mu-vol^2/2)dt+vol*sqrt(dt)*z of its own variable; several variables are simulated with their own drift and volatility.", "quantifier": "every number of steps, variables and simulations, every draw", "why_tests_cant": "Broadcasting bugs depend on the array shapes.", "anchors": ["frm/pricing_engine/geometric_brownian_motion.py: simulate_gbm_path"]}
{"id": "C60", "title": "Batched simulation covers every path exactly once", "statement": "clewlow_strickland_1_factor_simulate splits the simulations into loops whose column ranges are disjoint, in order and cover exactly nb_simulations columns, each loop within the per-loop limit.", "quantifier": "every number of simulations, steps and per-loop limit", "why_tests_cant": "Loop arithmetic for all sizes; the limit is 10^8 so tests never reach more than one loop.", "anchors": ["frm/pricing_engine/clewlow_strickland_1_factor.py: clewlow_strickland_1_factor_simulate", "frm/utils/settings.py: MAX_SIMULATIONS_PER_LOOP"]}
{"id": "C61", "title": "Hull-White bond function and bond-option parity", "statement": "calc_b is (1-exp(-alpha*dt))/alpha, is non-negative, increasing in the horizon, bounded by the horizon and tends to it as alpha tends to 0; zero-coupon-bond option prices satisfy call-put = P(S)-K*P(T) and are non-negative.", "quantifier": "all mean reversions, volatilities, times and strikes", "why_tests_cant": "Real-analytic statements.", "anchors": ["frm/pricing_engine/hw1f.py: calc_b, price_zero_coupon_bond_option"]}
{"id": "C62", "title": "COS payoff coefficients are the exact cosine integrals", "statement": "The chi and psi coefficients used by the COS pricer equal the integrals of e^y*cos and cos over the payoff's support, for every term index.", "quantifier": "every index k, every truncation range with a<0<b", "why_tests_cant": "Infinitely many indices and ranges.", "anchors": ["frm/pricing_engine/heston.py: calculate_Uk"]}
{"id": "C63", "title": "Heston variance paths never go negative", "statement": "The quadratic-exponential and absorbing/reflecting Euler schemes keep the variance non-negative at every step for every random draw. Parameters the scheme divides by must not be zero, or ZeroDivisionError is raised; what becomes of a path when the variance is negative or no time is left is stated.", "quantifier": "every parameter set, number of steps and draw", "why_tests_cant": "Random draws are unbounded.", "anchors": ["frm/pricing_engine/heston.py: heston_simulate, heston_simulate_scalar"]}
{"id": "C64", "title": "Cap/floor quotes are attributed to the first quote that covers the period", "statement": "Each optionlet gets the index of the first quote (by termination date) ending on or after its period end, indices are non-decreasing along the schedule, and the quote forward is the annuity-weighted average of the optionlet forwards it covers, lying between their minimum and maximum.", "quantifier": "every list of quotes and optionlets", "why_tests_cant": "Arbitrary lists.", "anchors": ["frm/term_structures/optionlet.py: Optionlet.__post_init__"]}
{"id": "C65", "title": "Smile cache: results do not depend on query history", "statement": "The volatility returned for an expiry is the same whatever surfaces queries were made before, each expiry is solved at most once, and cached functions are never overwritten.", "quantifier": "every sequence of queries", "why_tests_cant": "Histories are unbounded.", "anchors": ["frm/term_structures/fx_volatility_surface.py: _solve_vol_daily_smile_func, interp_vol_surface"]}
{"id": "C66", "title": "DataFrame utilities preserve data", "statement": "move_col_after returns the same columns with the moved column immediately after the reference column; copy_errors_and_warnings_to_input only changes the message cells of rows whose processed message is non-empty.", "quantifier": "every column list / table", "why_tests_cant": "Position arithmetic depends on relative positions.", "anchors": ["frm/utils/utilities.py: move_col_after, copy_errors_and_warnings_to_input"]}
{"id": "C67", "title": "Cash quotes start at spot and mature on business days", "statement": "cash_rates_quote_helper starts an overnight quote on the curve date and every other quote on the settlement date (the given date, or the curve date moved by the settlement delay in business days); each quote matures on the first business day on or after its start plus its tenor, and its length is the day-count fraction between the two; rows keep their order and rates.", "quantifier": "every table of tenors and rates, curve date, calendar, delay and day-count basis", "why_tests_cant": "Tenors, calendars and dates range over unbounded sets.", "anchors": ["frm/term_structures/bootstrap_helpers.py: cash_rates_quote_helper"]}
{"id": "C68", "title": "Quote column names are normalised", "statement": "clean_vol_quotes_column_names gives every accepted spelling of a call, put, risk reversal, butterfly, ATM delta-neutral or ATM forward quote its canonical name, leaves every other name, the values and the column order unchanged, and is idempotent.", "quantifier": "every table of quotes and every column name", "why_tests_cant": "Names range over all strings; the accepted grammar is infinite in combination and overlaps must not occur.", "anchors": ["frm/term_structures/fx_helpers.py: clean_vol_quotes_column_names"]}
{"id": "C69", "title": "Delta-convention warnings follow the market convention", "statement": "check_delta_convention warns exactly about premium-adjusted rows of AUD/USD, EUR/USD, GBP/USD and NZD/USD and about regular rows of the other USD pairs (the inverted quotes of those four excepted), appending to the row's warnings and changing nothing else.", "quantifier": "every currency pair, convention text and prior warnings", "why_tests_cant": "The pair and the convention are arbitrary text.", "anchors": ["frm/term_structures/fx_helpers.py: check_delta_convention"]}
{"id": "C70", "title": "Implied volatilities reprice", "statement": "When black76_solve_implied_vol or bachelier_solve_implied_vol returns a volatility, the option prices at that volatility sum to the target within a relative 1e-5; if the bracketing search evaluates such a volatility one is returned; for a single option the returned volatility lies between the exact implied volatilities of the target moved by 0.001% either way. shift_black76_vol and normal_vol_to_black76_sln likewise return a volatility whose price agrees within a relative 1e-5, or raise. With searches that keep to their bounds every lognormal volatility returned is between 0.1% and 1000% and every normal one between one basis point and 100%, and a price that these volatilities do not reach raises ValueError.", "quantifier": "every list of options, target price, starting guess and behaviour of the numerical searches", "why_tests_cant": "Whether a search converges depends on the data; a result that silently does not reprice looks like any other number.", "anchors": ["frm/pricing_engine/black76_bachelier.py: black76_solve_implied_vol, bachelier_solve_implied_vol, shift_black76_vol, normal_vol_to_black76_sln"]}
{"id": "C71", "title": "SABR smile and calibration", "statement": "calc_sln_vol_for_strike_from_sabr_params evaluates arrays element by element; away from the money valid parameters give Hagan's formula and a positive volatility; the smile does not depend on the unit of forward, strike and shift; fit_sabr_params_to_sln_smile succeeds only with exactly one strike at the forward and a successful search, keeps a beta override, minimises the sum of squared volatility errors, and its smile passes exactly through the at-the-money quote. With a search that keeps to its bounds rho is between -1 and 1, volvol at least 0.0001 and a fitted beta between -1 and 1, which may be negative.", "quantifier": "all valid SABR parameters, strikes, shifts, quotes and search behaviours", "why_tests_cant": "Statements over a continuum of parameters; the search is external.", "anchors": ["frm/pricing_engine/sabr.py: calc_sln_vol_for_strike_from_sabr_params, fit_sabr_params_to_sln_smile"]}
{"id": "C72", "title": "Option prices are discounted expected payoffs", "statement": "The Garman-Kohlhagen, Black-76 and Bachelier prices equal the discount factor (or annuity) times the mean, over a standard normal variable, of the payoff of the option when the underlying is lognormal (normal) with the given forward and volatility.", "quantifier": "all positive forwards, strikes, volatilities and times, both option types, every annuity", "why_tests_cant": "An identity between a closed formula and an integral over the real line, for a continuum of inputs.", "anchors": ["frm/pricing_engine/garman_kohlhagen.py: gk_price", "frm/pricing_engine/black76_bachelier.py: black76_price, bachelier_price"]}
{"id": "C73", "title": "Hull-White discount factors fit the curve and satisfy the bond equation", "statement": "The two discount factor formulas of HullWhite1Factor are accepted exactly when the maturity follows the valuation time, agree with each other when the drift is fitted, satisfy the no-arbitrage partial differential equation of the model, and reproduce the initial curve exactly when the drift is the fitted one.", "quantifier": "all mean reversions, volatilities, smooth curves, times and short rates", "why_tests_cant": "A differential equation and an integral identity over a continuum of times and rates.", "anchors": ["frm/pricing_engine/hw1f.py: HullWhite1Factor.calc_discount_factor_by_solving_ode_1, calc_discount_factor_by_solving_ode_2, get_thetas"]}
{"id": "C74", "title": "Jamshidian's decomposition", "statement": "The strikes returned by the Jamshidian decomposition are the bond prices at the single short rate at which the fixed leg is worth par; whatever the short rate at expiry, the payoff of the swaption equals the sum of the payoffs of the bond options with those strikes; the strikes do not depend on the root finder; malformed schedules are refused. The search looks at short rates from -100% to 100%: with a search that keeps to its bracket, strikes are returned exactly if the fixed leg is worth at least par at -100% and at most par at 100%; a swaption expiring today that is not exactly at par raises ValueError.", "quantifier": "all payment schedules, rates, year fractions, short rates at expiry, and every root finder whose answers are roots", "why_tests_cant": "The payoff identity is for every short rate and every schedule length.", "anchors": ["frm/pricing_engine/hw1f.py: HullWhite1Factor.jamshidian_decomposition, price_swaption, price_optionlet"]}
{"id": "C75", "title": "Hull-White simulation", "statement": "HullWhite1Factor.simulate returns paths of the requested shape starting at the initial short rate; each scheme (euler, rk4, exact) makes the step of its name with the model's drift and variance; discount factors are positive, accumulate the trapezium of the rates, and zero rates compound back to them; antithetic paths pair up around one deterministic curve; the average discount factors follow the curve.", "quantifier": "all models, horizons, numbers of steps and simulations, seeds, generators and methods", "why_tests_cant": "For every generator, seed and grid size.", "anchors": ["frm/pricing_engine/hw1f.py: HullWhite1Factor.simulate, get_thetas"]}
{"id": "C76", "title": "The quadratic-exponential scheme matches the model's moments", "statement": "One step of the quadratic-exponential Heston simulation, averaged over its normal draw, has exactly the conditional mean and variance of the model's variance process (the solution of the moment equations), in both branches of the scheme; the log spot moves by the drift plus a normal term with the scheme's variance.", "quantifier": "every parameter set with positive mean reversion, level and volatility of variance, every step length and current variance", "why_tests_cant": "It is a statement about an expectation over all draws.", "anchors": ["frm/pricing_engine/heston.py: heston_simulate, heston_simulate_scalar"]}
{"id": "C77", "title": "COS prices are discounted expected payoffs under the truncated expansion", "statement": "The COS pricer's put is the discounted mean of the put's payoff under the truncated cosine expansion of the density of log-moneyness built from the model's characteristic function; its call follows from put-call parity; computed directly, calls and puts are both such means; parity holds for every strike.", "quantifier": "every parameter set, strike list, number of terms and truncation size whose interval straddles zero", "why_tests_cant": "Infinitely many terms, strikes and parameters.", "anchors": ["frm/pricing_engine/heston.py: heston_cosine_price_vanilla_european; frm/pricing_engine/cosine_method_generic.py: get_cos_truncation_range"]}
{"id": "C78", "title": "Heston's characteristic function solves the model's equation", "statement": "The characteristic function evaluated by the pricers solves Heston's backward equation in log spot, variance and time to expiry and starts from e^{iux}, for every real frequency and without any branch problem of the complex logarithm; it is one at zero and bounded by one; at -i it is the forward if rho*vv is below kappa; the Albrecher, Fang and Heston-1993 implementations are the same function.", "quantifier": "every real frequency, every parameter set with positive mean reversion and volatility of variance, correlation between -1 and 1 and nonnegative variances (for the bound), every state and time", "why_tests_cant": "A differential equation and the absence of branch crossings are statements about a continuum.", "anchors": ["frm/pricing_engine/heston.py: chf_heston_albrecher2007, chf_heston_fang2008, heston_1993_vanilla_european_integral"]}
{"id": "C79", "title": "Closed-form Heston prices are consistent", "statement": "For every pricing method, calls and puts satisfy put-call parity; the Heston-1993 price uses the exceedance probabilities inverted from the characteristic function; the Carr-Madan kernel is the transform of the damped payoff and its FFT is a quadrature of the same integral whose price differs from the discounted mean payoff by a stated bound; the Lipton price is the Lewis integral; unknown methods are refused.", "quantifier": "every model, market, strike, option type and method", "why_tests_cant": "Integrals over infinite ranges for a continuum of parameters.", "anchors": ["frm/pricing_engine/heston.py: heston_price_vanilla_european and the pricers it dispatches to"]}
{"id": "C80", "title": "The COS truncation range is the mean plus or minus L standard deviations", "statement": "For the Heston model the range is centred on the mean of the log spot and extends L standard deviations of the log spot each way.", "quantifier": "every parameter set with non-zero mean reversion, every time to expiry and L", "why_tests_cant": "Moments of a diffusion for a continuum of parameters.", "anchors": ["frm/pricing_engine/cosine_method_generic.py: get_cos_truncation_range"]}
{"id": "C81", "title": "Daily smiles agree with the quotes and are linear in total variance between them", "statement": "The daily table of smiles has one row per calendar day from the first to the last quoted expiry; on a quoted expiry the row holds the quoted volatilities; between two quoted expiries each delta column's total variance (volatility squared times time) is linear in time, so it lies between the two quotes' and never decreases if the quotes' do not; the row's delta convention is that of the next quoted expiry; tables that cannot be interpolated are refused. A missing quote leaves the volatilities missing up to the pillars before and after it, and no further. An expiry given twice has the volatilities of its last row and the delta convention of its first; expiries out of order are refused with ValueError.", "quantifier": "every table of expiries in order, repeated or not, with equally many quotes each, present or missing, every set of curves whose time is positive at the first expiry and increases from day to day, every day", "why_tests_cant": "The number of expiries, deltas and days is unbounded and quotes are real numbers.", "anchors": ["frm/term_structures/fx_volatility_surface.py: FXVolatilitySurface._interp_daily_vol; frm/term_structures/volatility_generic.py: flat_forward_interp"]}
{"id": "C82", "title": "Volatilities and prices read from the surface", "statement": "A query answers one row per option in the order asked; with spline smiles a query at the strike of a quote returns the quoted volatility; prices are Garman-Kohlhagen prices at the returned volatilities and the market forward, so a call and a put of the same strike and volatility satisfy put-call parity; with a Heston smile the returned volatility reprices the calibrated model's price.", "quantifier": "every surface, sequence of earlier queries, and list of expiries, strikes and flags", "why_tests_cant": "Strikes are real numbers and the sequence of earlier queries is unbounded.", "anchors": ["frm/term_structures/fx_volatility_surface.py: FXVolatilitySurface.interp_vol_surface, price_vanilla_european"]}
{"id": "C83", "title": "A stored Heston smile is close to its quotes", "statement": "Whatever the optimiser does, a calibration that returns has valid parameters and reports the volatilities its own model implies at the strikes of the quotes and the true sum of squared errors; a surface with a Heston method returns, at the strike and option type of a quote of at least 3.17%, a volatility whose squared distance from the quote is below 0.001, or raises. A fit whose sum of squared errors is finite but not below 0.001 raises ValueError; a failed calibration raises TypeError.", "quantifier": "every smile, market, optimiser outcome, pricing method and history of queries", "why_tests_cant": "The optimiser's path is unbounded and quotes are real numbers.", "anchors": ["frm/pricing_engine/heston.py: heston_calibrate_vanilla_smile; frm/term_structures/fx_volatility_surface.py: FXVolatilitySurface._solve_vol_daily_smile_func, interp_vol_surface"]}
{"id": "C84", "title": "Cleaning an input table is idempotent and loses only blank rows", "statement": "clean_input_dataframe drops exactly the rows with nothing in them and keeps the others in order; each row is identified by its original position; labels are stripped and text is in lower case; message columns are added once; cleaning again changes nothing.", "quantifier": "every table", "why_tests_cant": "Any number of rows and columns, any labels.", "anchors": ["frm/utils/utilities.py: clean_input_dataframe"]}
{"id": "C85", "title": "Quote headings keep their offsets apart", "statement": "For a table of option quotes by offset from the forward (or by strike), every heading that states a number of basis points or percent is tied to exactly the offset it states; different offsets get different standard headings; headings that are not quotes are left alone; exactly one at-the-money heading is required and tied to offset zero.", "quantifier": "every list of column headings, every stated number, every float rounding", "why_tests_cant": "Any text as heading; the parsing, the rounding and the renaming interact.", "anchors": ["frm/term_structures/interest_rate_option_helpers.py: standardise_relative_quote_col_names, standardise_absolute_quote_col_names, standardise_atmf_quote_col_names"]}
{"id": "C86", "title": "Spline curves reproduce their pillars; instantaneous forwards are the slope of the discount factors", "statement": "With either cubic-spline method a zero curve reproduces every quoted discount factor and zero rate at its time and on its date, has positive discount factors and 1 at time 0, answers by date and by year fraction alike, does not depend on the order of the rows, and get_instantaneous_forward_rate(t) is minus the derivative of the logarithm of the discount factor, so that it accumulates to ratios of discount factors.", "quantifier": "every table of pillars, compounding frequency, basis, calendar and query time, every interpolating spline", "why_tests_cant": "Real-valued splines through arbitrarily many points; derivatives and integrals.", "anchors": ["frm/term_structures/zero_curve.py: ZeroCurve._process_pillar_df, _setup_daily_df, index_daily_data, get_discount_factors, get_zero_rates, get_instantaneous_forward_rate"]}
{"id": "C87", "title": "Building a curve leaves the caller's table usable", "statement": "Constructing a ZeroCurve does not change the table of pillars it is given: the same curve, or one with another date or method, can be built again from the same table.", "quantifier": "every table, every pair of constructions one after the other", "why_tests_cant": "A history property: the second use of an object that the first use has changed.", "anchors": ["frm/term_structures/zero_curve.py: ZeroCurve.__post_init__, _process_pillar_df"]}
{"id": "C88", "title": "The drift of a Hull-White model is set up from its curve, with the granularity that fits best", "statement": "HullWhite1Factor takes its initial short rate from the short end of its curve; setup_theta makes the drift agree with get_thetas on evenly spaced times between the pillars, whatever the differentiation step, and whether the times are given as integers or floats; fit_theta chooses among its candidates the one with the smallest error at the pillars and leaves the model set up with it.", "quantifier": "every spline curve, mean reversion, volatility, step, grid size and list of candidates", "why_tests_cant": "Quantifies over curves, grids of any size and lists of candidates; the state left after an exception.", "anchors": ["frm/pricing_engine/hw1f.py: HullWhite1Factor.__post_init__, fit_theta, calc_error_for_theta_fit, setup_theta, get_thetas"]}
{"id": "C89", "title": "A strip of caplets or floorlets is priced row by row from the interpolated smiles, consistently with parity and with flat volatilities", "statement": "Pricing a schedule of optionlets returns one result per period, in order, with the forward of the zero curve, the time to expiry, the annuity (year fraction times discount factor of the payment date), the strike and flag given for that row, a smile interpolated on straight lines between the stored dates (held after the last), the volatility of that smile at the strike or the volatility given, and the Black-76 or Bachelier values for these inputs; the forward price times the annuity is the price. Interpolation keeps parameters admissible. An at-the-money optionlet has the Bachelier price of the interpolated normal volatility. Cap less floor is the sum of annuities times forward less strike. Prices from given volatilities do not depend on the stored smiles. Strikes and flags of the wrong kind, number or value are refused, and so are rows that start before the first stored date, on the curve date or on the same date as another. Equivalent flat volatilities reprice the strip. The delta and the vega of each row are the derivatives of its price in its forward and volatility. For consecutive periods paid at their ends, on the curve's own basis, a cap less the floor at the same strike is worth the discount factor at the start, less the one at the last end, less the strike times the sum of accruals times discount factors. With positive annuities, times and volatilities the total exceeds the sum of annuities times the amounts the rows are in the money.", "quantifier": "every optionlet curve, schedule, strike or list of strikes, flag or list of flags, day-count basis, choice of volatilities, and behaviour of the numerical methods", "why_tests_cant": "The rows, strikes, dates and stored smiles are unbounded in number and value; tests look at a few strips near quoted maturities and cannot show parity, interpolation and refusals for all.", "anchors": ["frm/term_structures/optionlet.py: interpolate_sabr_term_structure, _validate_strike_and_option_type, _price_optionlets, price_optionlets_per_term_structure, price_optionlets_per_flat_vol_sln, price_optionlets_per_flat_vol_n"]}
{"id": "C90", "title": "Densities and distribution functions recovered from a characteristic function", "statement": "cos_method samples [a, b] at a step dt and at p, returns at each point the cosine series of the characteristic function with N waves - the density itself when the density on [a, b] is a cosine polynomial with at most N waves - and a distribution function that is its integral up to the step; a step, range or point that makes no sense is refused, and so is a range [a, b] that does not carry (all but about 3e-7 of) the probability, and only such a range.", "quantifier": "every characteristic function, range, step, point and number of waves", "why_tests_cant": "The characteristic function and the range are arbitrary; a test compares a few densities on ranges already known to be wide enough, where the range check is never exercised.", "anchors": ["frm/pricing_engine/cosine_method_generic.py: cos_method"]}
{"id": "C91", "title": "The date grid of an exposure run holds every date asked for, once, in order", "statement": "create_date_grid_for_fx_exposures returns, in increasing order and without repetition, the dates given - or the dates from the curve date to the last delivery at the sampling frequency given - and, when asked, the last day of value of every trade or the day after it; anything else is refused.", "quantifier": "every curve date, list of delivery dates, sampling frequency or list of dates, and combination of flags", "why_tests_cant": "Quantifies over all lists of dates and flags; the broken branches depend only on the kind of argument, so a test of the working branch passes while every other call raises.", "anchors": ["frm/utils/schedule.py: create_date_grid_for_fx_exposures"]}
{"id": "C92", "title": "The closed-form normal volatility is the one with the same price, to within a stated error", "statement": "black76_sln_to_normal_vol_analytical returns a positive number, in units of the forward, depending only on the shifted forward and strike and symmetric in them; at the money it differs from the normal volatility that gives the same price by no more than a stated multiple of the sixth power of the total volatility; away from the money its moneyness factor differs from (F-K)/log(F/K) by no more than a stated multiple of the sixth power of the log-moneyness; a forward or strike at or below minus the shift is refused. Away from the money the normal volatility with the same price, call or put, exists and is unique; with s the total volatility, L the log-moneyness and M = (F-K)/L it lies between vol M / sqrt(1 + beta s^2 + s^4/480) and vol M / sqrt(1 + beta s^2), beta = 2 log(M/sqrt(FK))/L^2; for L^2 at most 120 the closed form exceeds it by no more than vol M (s^2 L^4/181440 + s^4 L^2/69120) and falls short of it by no more than vol M (L^6 (1 + L^2/12)/322560 + s^4/960 + s^6/138240 + s^8/66355200).", "quantifier": "every forward, strike, shift, expiry and lognormal volatility", "why_tests_cant": "The accuracy claim is an inequality over a continuum of volatilities; a test compares a handful of quotes, and the bad regions (strikes far away, forwards below minus the shift) return plausible or plausible-looking numbers.", "anchors": ["frm/pricing_engine/black76_bachelier.py: black76_sln_to_normal_vol_analytical"]}
{"id": "C93", "title": "Bootstrapped optionlet smiles", "statement": "The bootstrap of optionlet volatilities in `Optionlet.__post_init__` (which the constructor as written never reaches) gives one smile per optionlet, in the schedule's order, and never changes a smile once it is stored. Optionlets of the first quote share its at-the-money normal volatility and one beta, rho and volvol; along a later quote these four lie on straight lines in expiry from the last earlier optionlet to the quote's last optionlet; a beta given with a quote is used as it is. Each smile's alpha gives back its at-the-money lognormal volatility. A quote's normal volatility is accepted iff the minimiser reports success or the price is met within 1e-5, and is unique. If the smile minimiser reports success only at small error, the optionlets reprice every column of the quote within sqrt(m*error) of what is left for this quote. But the fit's error is never checked, the pillar is solved with other volatilities than those stored, so that these are strictly too low or too high, a first quote of a single optionlet followed by another raises TypeError, and quotes without an `atmf` column KeyError. With methods that keep to their bounds every stored smile has rho between -1 and 1, volvol at least 0.0001, its lognormal volatility between 0.1% and 1000% and its normal volatility between one basis point and 100% or as the first quote gives it; a quote's normal volatility is at most a fifth below and a quarter above the closed-form approximation.", "quantifier": "All quotes, schedules, strikes, flags, prices, shifts and numerical methods.", "why_tests_cant": "A test fixes one set of quotes and one solver; that stored smiles reprice for every table, the uniqueness of the normal volatility and the strict mispricing of the stored pillar line are statements over all rows and volatilities.", "anchors": ["frm/term_structures/optionlet.py:182-252", "frm/term_structures/optionlet.py:255-382", "frm/term_structures/optionlet.py:385-518"]}
{"id": "C94", "title": "Construction of an FX volatility surface", "statement": "A surface that `FXVolatilitySurface(...)` constructs is as of the curve date of both zero curves (and of `curve_date` if given). Its spot rate is the forward of the row called spot, in any spelling. It has one pillar per row of quotes, in order of delivery, with the row's dates or those of its tenor, its convention with the pair's warnings, and its quotes in the order of the smile. A pillar's time is the year fraction from the curve date, its forward is read off the forward table at its expiry and its rates are the curves' zero rates there. Its strikes have the quoted deltas under its convention; on its expiry the smile is fitted to these strikes and volatilities. Accepted tables have a forward rate, tenors, a spot row, distinct fixing dates, known conventions, ordered expiries and expiries inside both curves. But: the constructor writes dates into the caller's tables, so that a surface built from them again for another curve date keeps the first date's forwards and expiries; `spot_offset` is ignored with one date; both dates are refused unless reversed or equal; a table with rows `ON` and `SN` is refused. A regular spot delta that is not below the foreign discount factor has no strike. Repeated fixing dates, expiries outside a curve, out of order or absent raise ValueError; another convention or a volatility, time, forward or spot that is not positive raises AssertionError. A quote of the smile or a spot rate that is missing is refused; other forwards that are missing are passed over.", "quantifier": "All tables, curves, dates, calendars, solvers and sorts; all day count bases but 30E/360 ISDA.", "why_tests_cant": "A test fixes one table and one date; that nothing of the second date enters a surface built from the same tables is a statement about all tables and pairs of dates, and that strikes invert deltas about all markets and volatilities.", "anchors": ["frm/term_structures/fx_volatility_surface.py:68-195", "frm/term_structures/fx_helpers.py:18-82", "frm/term_structures/fx_helpers.py:105-199", "frm/utils/tenor.py:121-147"]}
{"id": "C95", "title": "Exact simulation of the short rate in the working copies of the Hull-White model", "statement": "In `hw1f2.py` and `hw1f3.py`, `variance_int`, `y_integral` and `y_integral_inner_term` are the integrals their docstrings name, `y_t` is the variance of the state `x = r - f(0,t)` and `ex_integral` with `y_t0 = 0` is the integral of its drift. `conditional_mean_x_scalar` and `conditional_variance_x_scalar` give one number per period, the mean and variance at its end of a state that is zero at its start. So with independent standard normal draws the simulated state has at every time of the grid the normal distribution of the model, whatever the steps. The bond of the script is the discount factor of `calc_discount_factor_by_solving_ode_2` and its mean is the forward price times a factor for the mean of the state. But: with `y_t0` and `t0` both not zero `ex_integral` is not the integral of the drift, nor (for a mean reversion of one, from time zero) the formula of its docstring unless `y_t0 = 0`; a volatility that falls in time gives negative variances and no noise; the option is not discounted over the first period; the price of a put has the wrong sign.", "quantifier": "All times, grids that start at zero and do not decrease, volatilities, mean reversions other than zero, and draws.", "why_tests_cant": "The script compares ten numbers with constants for one setting; that the closed forms are the integrals and that the distribution does not depend on the grid are statements about all parameters and all grids.", "anchors": ["frm/pricing_engine/hw1f2.py:65-103", "frm/pricing_engine/hw1f2.py:107-189", "frm/pricing_engine/hw1f3.py:70-138", "frm/pricing_engine/hw1f3.py:142-236"]}
{"id": "C96", "title": "Distributions of simulated paths", "statement": "If the generator's numbers are independent and standard normal then so are the draws of each path that `generate_rand_nbs` returns, antithetic or not. Then: the logarithm of a price simulated by `simulate_gbm_path` is normal, with the mean and variance of geometric Brownian motion, the mean price grows at the drift, and the discounted mean payoff of an option is its Garman-Kohlhagen price whatever the time steps. The rates of `HullWhite1Factor.simulate` are normal; in the exact scheme their variance is that of the model at every time and their mean is at most `vol^2 dt^2/4` below that of the model on a flat curve; in the Euler scheme shocks decay by the factor `1 - alpha dt` a step. The spot of `clewlow_strickland_1_factor_simulate` is lognormal and its mean is the forward curve times a stated bias, which is none without mean reversion.", "quantifier": "All random generators of this kind, seeds, shapes, steps, drifts, volatilities and horizons; one variable; mean reversions above zero for the exact scheme.", "why_tests_cant": "A test compares sample averages with a tolerance for one setting; a distribution is a statement about all draws, and the bias of a scheme is below what a sample can show.", "anchors": ["frm/pricing_engine/monte_carlo_generic.py:6-64", "frm/pricing_engine/geometric_brownian_motion.py:12-87", "frm/pricing_engine/hw1f.py:153-305", "frm/pricing_engine/clewlow_strickland_1_factor.py:7-102"]}
{"id": "C97", "title": "Scripts for geometric Brownian motion", "statement": "`simulate_gbm` of `gbm_speed_exploration.py` and its two compiled versions return the same path in each of the four documented schemes: one price more than there are steps, the first `x0`, each later one the previous one times the growth of the scheme. The mean price is exact for direct integration, `(1 + mu dt)^k` times `x0` for the Euler and Milstein schemes and `(1 + mu dt + mu^2 dt^2/2)^k` for the last one; direct integration gives a lognormal price with the variance of geometric Brownian motion. A wrong number of draws is refused; an unknown method is an unbound variable, and the compiled versions then return memory nobody wrote. `GeometricBrownian` of `option.py` never returns, because it sends a local function to a pool of processes; its helper and `gbm_helper` of `monte_carlo_multiprocessing.py` take the running product over the assets instead of the times, so every time of a 'path' is one step away from the start.", "quantifier": "All initial prices, drifts, volatilities, horizons, positive time steps, draws, methods and generators; all ranges of iterations.", "why_tests_cant": "A test can compare the versions for a few draws; that they agree for all draws, the mean of a scheme and the distribution at every step are not samples. The missing path shows only in the variance at later times.", "anchors": ["frm/pricing_engine/in_progress/gbm_speed_exploration.py:12-134", "frm/pricing_engine/in_progress/monte_carlo_multiprocessing.py:26-42", "frm/pricing_engine/option.py:16-103"]}
{"id": "C98", "title": "Legs and the schedule objects they are built on", "statement": "A coupon schedule object has the six documented columns in order and keeps the dates it was given, or the rolled first and last dates of its periods. Building a leg on a new schedule gives the leg of the other properties: the same rows or the same refusal; nine columns in a fixed order, the parameter column just before the coupon dates, and the day count of every period, which is that of `day_count` for the row alone and, over the days of the year, the year fraction. The contractual columns are the documented five. `bucket_payments` gives for each bucket the coupons, the notional payments and their sum, which add up to all payments to come. But the leg shares the caller's schedule and changes it: every attempt to build a leg, refused or not, multiplies the schedule's notionals by the side's sign. A payer built after a refused attempt therefore has a receiver's notionals; a second leg with the same parameter column is always refused; two legs of different kinds on one schedule both read the notionals times both signs and the lengths of the second basis. A bare schedule refuses year fractions until another column follows. Inflation legs cannot be built; `calc_dv01` returns nothing; the accrued interest and the clean value of a zero-coupon leg are columns, not numbers.", "quantifier": "All schedules, exchanges of notionals, sides, bases, leg kinds, parameters of any length, tables with the columns of a new coupon schedule, buckets, settings, curves and value dates.", "why_tests_cant": "Tests build every leg on a schedule of its own and look at one of them; sharing, retrying after an error and column order for all inputs are not sampled.", "anchors": ["frm/utils/schedule.py:18-195", "frm/instruments/leg.py:39-103", "frm/instruments/leg.py:138-157", "frm/instruments/leg.py:216-250", "frm/instruments/leg.py:404-460"]}
{"id": "C99", "title": "Fixing tables and swap curves are built only from consistent parts; the archived fixing classes agree with the current one or raise", "statement": "A historical-fixings object can be built exactly when its table has the columns date and fixing, in any order, and no other, and its day-count basis is a member of the enumeration; a swap curve exactly when the zero curve and the fixings have the same basis; otherwise it is an AssertionError. The coupon rates of an archived overnight object are those of RFRFixings on the same table, basis and periods, for the method given with the call or, when none is, the one the object was built with. Without any method every call for at least one period is a ValueError. An archived term object gives the two averages of RFRFixings on any basis; it refuses daily compounding and calls without a method with AttributeError. The discount factors of a swap curve are its zero curve's.", "quantifier": "All column lists, bases, methods or other objects given for them, fixing tables, periods and curves.", "why_tests_cant": "Arbitrary columns, tables and periods; equality of two implementations on all inputs.", "anchors": ["frm/term_structures/historical_swap_index_fixings.py:20-75", "frm/term_structures/swap_curve.py:26-27", "frm/term_structures/swap_curve.py:61-65", "frm/term_structures/archive/ois_fixings.py:14-140"]}
{"id": "C100", "title": "Entry points that return nothing, whatever they are given; inputs of the Heston calibration", "statement": "process_capfloor_quotes raises on every call, with a TypeError when its data is good, and by then has added eight columns to the caller's table of quotes, keeping the others. simulate_gbm_fx_rate_path and simulate_heston_fx_rate_path raise on every call, with a TypeError for an index of dates. flat_shift raises ValueError on every curve. The third closed-form Hull-White discount factor is None. check_day_offset_consistency accepts nothing but a delay of zero to a date that is not later. The Heston calibration accepts exactly a single positive spot and time, single rates that are numbers and flags of plus or minus one, and raises ValueError otherwise.", "quantifier": "All tables of quotes with any outcome of the steps on their data, grids of dates, surfaces, curves, dates, delays, calendars and numeric arguments.", "why_tests_cant": "That a function never returns, whatever its input, is not a sample; tests that call none of these functions pass.", "anchors": ["frm/term_structures/interest_rate_option_helpers.py:21-118", "frm/term_structures/fx_volatility_surface.py:385-498", "frm/term_structures/zero_curve.py:196-207", "frm/pricing_engine/hw1f.py:531-549", "frm/utils/tenor.py:94-118", "frm/pricing_engine/heston.py:49-55", "frm/pricing_engine/heston.py:161-166"]}
{"id": "C101", "title": "What the plots of a zero curve and of a volatility smile show, and when they cannot be drawn", "statement": "ZeroCurve.plot draws the zero rates of every day after the curve date and the simple forward rates over a fixed number of days, and it does so exactly when the plot term spans the same number of days from the day after the curve date as back from the last day; otherwise it raises (IndexError, ValueError, AssertionError or TypeError, each in stated cases). With the default three-month term a curve that ends whole years after a date on or before the 27th can be drawn only from June, August, October, November, and in some leap years from April or December. plot_smile draws two hundred options, puts from the lowest quoted strike to the neutral one and calls from there to the highest, each at the volatility the surface returns for it and at its delta. With splines it is drawn exactly when the smile can be solved, one quote is the neutral one and the deltas are not premium-adjusted. The marks of the quotes are where they belong exactly when there is at most one put more than calls and at most two calls more than puts. At the neutral strike the line is broken under spot deltas. Drawing leaves the surface as solving the smile does.", "quantifier": "All curves on a basis other than 30E/360 ISDA and all plot terms; all surfaces, solvers, earlier queries and expiries.", "why_tests_cant": "Which curves can be drawn depends on the calendar; which quotes are misplaced depends on how many there are on each side. Figures are not compared in tests.", "anchors": ["frm/term_structures/zero_curve.py:397-423", "frm/term_structures/fx_volatility_surface.py:501-565"]}
{"id": "C102", "title": "The Heston pricing methods agree and leave no arbitrage across strikes", "statement": "For a Heston model with positive speed and volatility of variance, correlation strictly between minus one and one, nonnegative variances not both zero and rho*vv below kappa, heston_price_vanilla_european gives the same price by the 1993 method (without risk premium) and by the Carr-Madan quadrature wherever the powers 1.75 (calls) and -0.75 (puts) of the spot have means at all horizons, and by the Lipton method without correlation. The cosine price with N terms lies within an explicit error of it that falls with N and with the characteristic function's own bound on the mass outside the range. As functions of the strike the prices by the exact methods satisfy put-call parity, lie between intrinsic and discounted forward (calls) or discounted strike (puts), are monotone with slope at most the discount factor, and are convex.", "quantifier": "All such models, spots, positive times to expiry, rates and positive strikes.", "why_tests_cant": "The agreement of improper integrals and convexity over all strikes cannot be settled by sampling; it rests on the existence of the law behind the characteristic function.", "anchors": ["frm/pricing_engine/heston.py:26-44", "frm/pricing_engine/heston.py:47-110", "frm/pricing_engine/heston.py:420-520"]}
{"id": "C103", "title": "Tables of cash quotes and futures may bring their own dates and be used again", "statement": "A table handed to cash_rates_quote_helper may bring its own start or maturity dates, which are kept; the dates it lacks are those of tenors and settlement (C67); the period is the day-count fraction between the dates, and bootstrap_cash_rates prices the quotes of the table that is returned. Without a calendar weekends are the only days off, and a second call for another curve date dates the quotes afresh. bootstrap_futures, called again after prices have changed, uses the new prices.", "quantifier": "every table with any of the columns tenor, rate, effective_date, maturity_date and has_settlement_delay, every curve date, settlement date or delay, calendar (or none) and day-count basis, and every sequence of two calls", "why_tests_cant": "Which columns the caller brings, the state left in the table by earlier calls and the dates range over combinations that tests sample one at a time.", "anchors": ["frm/term_structures/bootstrap_helpers.py: cash_rates_quote_helper, bootstrap_cash_rates, bootstrap_futures"]}
{"id": "C104", "title": "Which arrays the Black-76 and Bachelier functions take, and what their numerical greeks are", "statement": "black76_price and bachelier_price take numbers and arrays together: every argument has n elements or one, forward and time the same number, and everything returned - price, intrinsic and time value, analytical and numerical greeks - is at each place that of the option at that place by itself. Asking for the split or for greeks does not narrow what is taken (false: several prices at one time raise IndexError with the split, greeks raise ValueError when only cp is an array, numerical greeks raise AssertionError for one forward with several shifts). Numerical delta and vega are the analytical ones at a forward within one percent and a volatility within one percentage point (true without a shift and above one percent of volatility; with a shift the shift is applied twice, and below one percent the vega is half a sum of two prices). bachelier_price ignores numerical_greeks.", "quantifier": "All one-dimensional non-empty arrays and numbers, all options.", "why_tests_cant": "Which combination of lengths is given, and the size of the shift, range over cases a test samples; that a finite difference is a derivative at a nearby point is a statement about all options.", "anchors": ["frm/pricing_engine/black76_bachelier.py:14-128", "frm/pricing_engine/black76_bachelier.py:187-274"]}
{"id": "C105", "title": "Which arrays the Garman-Kohlhagen price takes", "statement": "garman_kohlhagen_price takes numbers and arrays together, as its signature says: with a forward the domestic rate is not looked at; everything returned is at each place that of the option at that place by itself. False for the most natural call: several strikes at one time raise IndexError, as do several times for one spot and one strike; the arguments are taken exactly when the values make sense, cp, strikes and volatilities have the same number of elements, every argument used has as many elements as there are times or a single one, and spots or strikes are as many as the times. Other calls raise AssertionError, ValueError, IndexError or KeyError, each in stated cases.", "quantifier": "All one-dimensional arrays and numbers, all values.", "why_tests_cant": "Which combination of lengths is given ranges over cases a test samples; the tests of the project only price one option at a time.", "anchors": ["frm/pricing_engine/garman_kohlhagen.py:11-194"]}
{"id": "C106", "title": "Calling the SABR functions", "statement": "calc_sln_vol_for_strike_from_sabr_params takes numbers and arrays: parameters of equal lengths, with one smile, one strike or as many of one as of the other, and a single shift; anything else raises AssertionError, and several smiles without a strike ValueError. It returns a number for one result and an array for more, each the volatility of its own smile and strike. fit_sabr_params_to_sln_smile can be called without a shift, as its signature says. The last is false: the default None raises TypeError.", "quantifier": "All one-dimensional arrays and numbers; all minimisers that hand on the exception raised at the start.", "why_tests_cant": "Which combination of lengths is given ranges over cases a test samples; the default of the shift is not used in any test.", "anchors": ["frm/pricing_engine/sabr.py:13-128", "frm/pricing_engine/sabr.py:189-257"]}
{"id": "C107", "title": "The mean of a simulated Heston spot is the forward", "statement": "If the draws are independent standard normals, every simulated spot of the Heston model has the forward S0 * exp(mu * t) as its mean (quadratic-exponential scheme), and a step of the Euler schemes has the model's conditional mean, variances and covariance.", "quantifier": "every parameter set with positive mean reversion, non-negative level and start, correlation within [-1, 1], every horizon, number of steps and row; all draws at once", "why_tests_cant": "It is a statement about an expectation over all draws, and the bias is below the Monte Carlo error of usual samples.", "anchors": ["frm/pricing_engine/heston.py: heston_simulate, heston_simulate_scalar", "frm/pricing_engine/monte_carlo_generic.py: normal_corr"]}
{"id": "C108", "title": "Legs and swaps valued on a zero curve", "statement": "calc_dirty_pv of a leg whose discount_curve is a ZeroCurve is the present value of the leg's notional and coupon flows still to come, each at the discount factor get_discount_factors gives for its date; payments made before the curve date do not matter, so a leg that has begun can be valued on a curve of its value date. target_solve is a root search on that value, affine in the rate for a fixed leg, and gives a rate whenever the value exists.", "quantifier": "every curve that can be built by linear interpolation, every leg, value date, setting and override; every root search", "why_tests_cant": "the failure depends on how the payment dates of the leg lie relative to the curve's daily table: a test on a fresh leg covers none of it, and no test can range over all curves, legs and value dates", "anchors": ["frm/instruments/leg.py:101-188", "frm/term_structures/zero_curve.py:321-394", "frm/instruments/swap.py:79-82"]}
{"id": "C109", "title": "RFR swap-curve fixings reproduce the zero curve", "statement": "RFRSwapCurve.get_fixings over a ZeroCurve object gives every period the rate its position calls for: a past period the rate of its own fixings; a future one the rate of the curve (daily compounding grows a deposit by the quotient of the discount factors of its two dates, the averages are the means of the overnight rates of the days or business days); a straddling one the rate whose accrual over the whole period is the accrual of the fixings up to the curve date compounded with the quotient of the discount factors of the curve date and the period's end. A period ending after the curve's table is refused. Consecutive future daily-compounded periods, paid on their accruals at the periods' ends and discounted with the curve, are worth the discount factor of the first start less that of the last end. With a first period begun before the curve date they are worth what its fixings have grown a deposit to, less the discount factor of the last end.", "quantifier": "every accepted curve, every list of periods of positive length, every calculation method and basis, every table with at most one fixing per date", "why_tests_cant": "The three masks, the dropped dates of the curve and the compounding identity must agree for every layout of periods around the curve date and around the end of the table.", "anchors": ["frm/term_structures/swap_curve.py: RFRSwapCurve.get_fixings, _get_crossover_coupon_rate", "frm/term_structures/zero_curve.py: get_forward_rates, index_daily_data"]}
{"id": "C110", "title": "A zero curve on bootstrapped instruments gives the quotes back", "statement": "Take the table of cash rates from cash_rates_quote_helper, bootstrap it, and build a ZeroCurve with log-linear discount factors on the maturities and factors: the curve is accepted, and its simple forward rates over the periods of the quotes are the quoted rates, in their order. Append futures bootstrapped on these rates: on the curve every contract grows from its effective to its maturity date by one plus its forward rate times its period. Cash rates settling in any number of days can be bootstrapped.", "quantifier": "every list of tenors, rates, curve date, calendar, forward basis and sorting routine; every table of futures with distinct maturities and positive growth; every curve basis counting actual days", "why_tests_cant": "The helper, the bootstraps and the curve are tested apart on single tables, while the quotes come back only if dates, bases, the order after sorting and the interpolation of all of them agree.", "anchors": ["frm/term_structures/bootstrap_helpers.py:11-70", "frm/term_structures/bootstrap_helpers.py: bootstrap_futures", "frm/term_structures/zero_curve.py:33-283"]}
