# Formal model of `frm` in Lean 4

## 1. Layout

| path | contents |
|---|---|
| `properties.jsonl` | the properties, in words |
| `lean/Verif/Model/*.lean` | the model: total Lean definitions, each citing the file and lines it models and the simplifications made |
| `lean/Verif/Spec/*.lean` | small specifications that do not mention the model (what a first business day is, what a month-end clamp is, …); those used by one property only are at the top of its file under `namespace Frm.Spec` |
| `lean/Verif/Proofs/*.lean` | helper lemmas |
| `lean/Verif/Props/*.lean` | the property theorems, and next to each an `example` showing that its hypotheses are met by a concrete, non-trivial case |
| `lean/Verif/Tests/*.lean` | the expected results of the project's own tests, checked against the model by evaluation (schedules, day counts, tenors, column names, fixings) |
| `MANIFEST.json` | property → status → theorem names |
| `AXIOMS.md` | the axioms of every property theorem, as printed by Lean |
| `seeded/LOG.jsonl` | log of wrong-program experiments |

## 2. Modelling conventions

* **Dates** are integers: the proleptic Gregorian ordinal, 0001-01-01 is day 1, as `datetime.date.toordinal`
  (`Model/Date.lean`). Timestamps in `frm` are midnight timestamps, so nothing finer is modelled. The pandas nanosecond
  range (1677–2262) is not modelled: dates are unbounded.
* **Exceptions** are values: a function that may raise returns `Except Err α`; `Err` records the Python exception class,
  not its message.
* **Missing values** (`NaT`, `NaN`, `None`) are `Option.none` where the code branches on them. Numpy reals that can
  become infinite or not-a-number are `Npf` (`fin`, `posInf`, `negInf`, `nan`) or `none`.
* **Floats** are exact: rationals where the code is rational arithmetic, reals where it uses `exp`, `log`, `sqrt`,
  `norm.cdf`, complex numbers with principal branches for characteristic functions. Rounding is modelled in one place
  only, the quote headings of C85, where it decides the outcome: there every float operation rounds with a parameter
  `fl`, instantiated with exact arithmetic and with IEEE binary64.
* **Loops** are structural or fuelled recursion; where fuel is used a theorem shows that the fuel is enough, so that the
  fuel never shapes a result.
* **Vectorised numpy/pandas code** is modelled row by row (`List.map`, `zip`), with shapes modelled when the code
  validates them or when broadcasting is what can go wrong.
* **State** is explicit: a method that changes its object, a cache or its caller's table returns the new state, and
  properties about histories quantify over arbitrary lists of calls.
* **Keyword arguments** of calls that the code gets wrong are modelled as data and checked against the callee's
  parameters (`checkKeywords`).

## 3. Trusted base

* Lean 4.33.0's kernel, and Mathlib's definitions (real numbers, integrals, derivatives, Gaussian integrals).
* Axioms: at most `propext`, `Classical.choice`, `Quot.sound`; per theorem in `AXIOMS.md`. No `sorry`, no
  `native_decide`, no `bv_decide`, no added axiom.
* That the model's definitions say what the cited Python lines do. This was done by reading; the code was not run. The
  exactly computable parts of the model were compared with the results the project's own tests expect
  (`lean/Verif/Tests`: all thirty schedules of the test workbook, ISDA's day count examples, tenors, column names, a
  year and nine quarters of SOFR coupons, term fixings); these are finite checks of the model, not proofs, and no
  property rests on them.
* The documented behaviour of numpy, pandas, scipy, numba and `re` used by those lines, as restated in the model's
  comments, in particular:
  * `np.busday_offset`, `np.busdaycalendar`: `Model/BusDay.lean`, `Model/Calendar.lean`;
  * `pd.DateOffset`: civil month arithmetic, `Model/Date.lean`; `merge_asof`, `sort_values` (stable), `isin`,
    boolean indexing, `np.interp`, `interp1d`: the list functions of the model files that use them;
  * `scipy.optimize` root finders: parameters given the function and the code's bracket (`RootFinder`, `Brentq`,
    `BracketRun`; `ExactRoots` for `np.roots`), or interaction trees of trials (`Search`, `SolverRun`); what a theorem
    assumes of them — that answers are roots within the bracket, that a change of sign suffices — is a hypothesis of it;
    `scipy.optimize.minimize`: an arbitrary function, of which only the tested `success` flag and value are used;
  * `scipy.integrate.quad`: the exact integral; `scipy.fft.fft`: the exact discrete transform; `simpson` on two points:
    the trapezium rule; `CubicSpline`: any routine whose result passes through its points and is twice differentiable
    (each theorem of C86 states which of the two it needs);
  * `np.random.Generator`: an arbitrary array of numbers; `np.linalg.cholesky`: any lower factor `L` with `L Lᵀ` the
    given matrix; `scipy.stats.norm`: the Gaussian integral; `norm.ppf`: its inverse.

## 4. Where the code does not do what its user relies on

Reading the code for the model showed places where a property fails. For each one the failure is itself a theorem about
the model, for all inputs of the failing kind or with a concrete witness; the part that does hold is proved separately,
under a name ending in `_partial` when it is the property restricted to the cases where it is true.

* `resolve_fx_curve_dates` with both dates raises whenever the curve date is before the spot date, and with all three arguments it always raises; a user-supplied offset is ignored (`C08_both_dates_raise`, `C08_all_three_raise`, `C08_user_offset_ignored`)
* `clean_tenor` is not idempotent (`C02_not_idempotent`)
* calendar entries keyed in mixed case can never be reached (`C06_mixed_case_entries_unreachable`)
* the 30/360 bond basis is not additive; 30E/360 ISDA can be negative and its scalar termination flag truncates a vector (`C10_bond_basis_not_additive`, `C10_isda_negative`, `C10_scalar_flag_truncates`)
* rolled explicit stub dates can leave a gap in a schedule; daily schedules repeat dates; a weekly day roll can invert a period (`C12_rolled_stub_gap`, `C13_daily_repeats`, `C13_weekly_dayroll_inverted`)
* explicit stub dates can be lost or merged away (`C15_last_start_lost`, `C15_first_end_lost`, `C15_first_end_merged`)
* arrays of notionals are always refused (`C18_array_rejected`)
* `DayCountBasis` raises on a missing value although it has a default, and its validity check refuses accepted spellings (`C19_missing_raises`, `C19_is_valid_disagrees`)
* the pay/receive sign is applied twice to coupons (`C20_coupons_do_not_flip`, `C20_fails`)
* coupons of floating legs are missing values that drop the notional of their row (`C24_fails_for_float`)
* accrued interest adds every coupon, and raises when there is no current period (`C26_adds_all_coupons`, `C26_none_current`, `C26_fails`)
* the non-current part uses the notional column for coupons (`C28_fails`)
* the solver's swallowed failure and the stale columns of a solved leg; a solved swap is off target (`C29_swallows`, `C29_stale_columns`, `C29_swap_target_off`)
* RFR fixings: the start of a period is not checked, a window without fixings is accepted, and covered periods can be refused (`C32_leading_days_omitted`, `C32_fails_start`, `C32_fails_empty`, `C32_rejects_covered`)
* term swap-curve fixings: both masks select the future periods (`C34_fails`)
* pillars given by a number of days raise `NameError` (`C35_days_refused`)
* vector lookups silently drop dates outside the table, so that forward rates borrow another period's factor; lookups by years always raise (`C37_dropped`, `C37_borrowed_factor`, `C37_years_raise`)
* bank-bill dates are assigned to rows by position; two-digit contract years are refused (`C40_fails`, `C40_two_digit_year_refused`)
* FX term structures that give rate-set dates always raise (`C41_rate_set_raises`)
* the order check of forward volatilities is skipped when some row has a zero gap (`C45_unchecked`)
* Garman–Kohlhagen theta and rho are not the derivatives they are named after except in the characterised cases (`C49_theta_call_partial`, `C49_theta_put_partial`, `C49_rho_partial`)
* a premium-adjusted at-the-money put quote is converted differently depending on the other quotes (`C51_put_atm_inconsistent`)
* Bachelier theta is multiplied by 365.25 instead of divided (`C53_theta_partial`)
* the intrinsic value lacks the annuity factor, so the time value can be negative (`C54_b76_negative`, `C54_bach_negative`)
* for beta = 1 there may be no SABR alpha (`C56_no_alpha`)
* odd antithetic simulations are one short and misaligned (`C57_odd`)
* correlated normals have covariance `LᵀL` instead of `L Lᵀ` (`C58_iff_diagonal`)
* multi-variable GBM parameters broadcast along simulations (`C59_many_refused`, `C59_many_mixed`)
* negative mean reversions are replaced by the horizon; with zero volatility bond options are not discounted (`C61_b_negative`, `C61_zero_vol_parity`)
* the last row of the Euler Heston schemes can be negative (`C63_euler_last`)
* `Optionlet` cannot be constructed: it reads `self.cal` (`C64_never_constructed`)
* the smile cache is stale after the interpolation method changes (`C65_method_change`)
* `move_col_after` is off by one for a column before the reference; messages with duplicate identifiers can be erased (`C66_move_before`, `C66_duplicates`)
* the EUR/USD delta convention warning is given to NZD/EUR instead (`C69_eurusd`, `C69_nzdeur`)
* implied volatilities trust the fallback minimiser's success flag; the at-the-money closed form is dropped (`C70_trusts_success`, `C70_atm_dropped`)
* the thetas of the Hull–White model ignore the curve (`C73_theta_ignores_curve`, `C75_ignores_curve`)
* swaption prices are never returned: wrong keywords (`C74_never_priced`)
* an unknown Hull–White method gives zero rates (`C75_unknown_method`)
* COS prices of calls only or puts only without parity raise; a truncation range that misses zero prices another contract (`C77_one_sided`, `C77_above`, `C77_below`)
* the Lipton integrand is wrong with correlation; the "Simpson" weights are not Simpson's rule (`C79_lipton_wrong`, `C79_weights`)
* the second cumulant of the Heston truncation range is too small (`C80_width`, `C80_collapses`)
* cleaning a table with a column called `index` loses no blank row, or raises (`C84_index`, `C84_raises`)
* 1% and 1bps share a heading, 3bps is renamed 2bps in binary64, and the documented heading style and capitals are refused (`C85_percent_collides`, `C85_heading_truncated`, `C85_offsets_collide`, `C85_documented_style_refused`, `C85_capitals_refused`)
* SIMPLE rates of a spline curve are treated as annual; a linear curve has no instantaneous forward (`C86_simple_rates`, `C86_linear_no_forward`)
* building a curve from dates or tenors alters the caller's table so that the next construction raises (`C87_second_time_refused`)
* `fit_theta` never succeeds; integer times lose the initial rate (`C88_search_refused`, `C88_whole_years_lost`)
* a strip that starts on the curve date or before the first stored smile is refused, even when its volatilities are given (`C89_refused`)
* the range check of `cos_method` cannot see probability outside the range; its distribution function is one cell ahead and exceeds one (`C90_range_unchecked`, `C90_whole_mass_refused`, `C90_uniform_ahead`)
* exposure grids by sampling frequency, or with the days of value, always raise (`C91_sampling_refused`, `C91_unknown_sampling`, `C91_days_of_value_refused`)
* the closed-form normal volatility takes a forward and strike both below minus the shift for their mirror images (`C92_negative_accepted`) and is negative for extreme strikes (`C92_can_be_negative`)
* even with the right keywords, Hull-White swaptions would be mispriced: a row of year fractions times a column of option values sums to the product of the sums, and the last coupon is left out when the notional is paid with it (`C74_swaption_formula`, `C74_swaption_overpriced`)
* `optionlet.py:314-319`: when exactly one optionlet precedes a quote, `calc_sln_vol_for_strike_from_sabr_params` returns a float and `vol_sln[-1]` raises `TypeError` (`C93_short_first_quote`).
* `optionlet.py:337` interpolates from the prior smile's normal volatility at the quote's strike but `optionlet.py:371` stores the line from the prior stored volatility, so the stored volatilities misprice the quote (`C93_pillar_mispriced`).
* `optionlet.py:490` accepts a smile on the minimiser's flag alone, whatever the error (`C93_fit_unchecked`).
* `fx_helpers.py:24-55` writes cleaned tenors and dates into the caller's DataFrames (and `fx_helpers.py:148`, `173` rename and drop its columns); reusing them for another curve date keeps the old dates (`C94_reused_tables`).
* `tenor.py` gives `ON` and `SN` the same date offset, so a forward table with both has two rows with one fixing date and is refused (`C94_overnight_and_spot_next`).
* `hw1f2.py:84`, `hw1f3.py:118`: `ex_integral` discounts `y_t0` from time zero instead of from `t0`, and its docstring leaves out the mean reversion (`C95_drift_start`, `C95_docstring`).
* `hw1f2.py:185`, `hw1f3.py:232`: the option's discount factor leaves out the first period (`C95_first_period`); `hw1f2.py:189`, `hw1f3.py:236`: the price of a put is negative (`C95_payoff`).
* `option.py:92` sends the local function `helper` to a pool of processes, which cannot pickle it: `GeometricBrownian` always raises (C97_never_returns).
* `option.py:79` and `monte_carlo_multiprocessing.py:34-40` take `np.cumprod` along axis 1, that of the assets, so the prices at all times are one step from the start (C97_no_path, C97_multiprocessing).
* `simulate_gbm_numba` and `simulate_gbm_numba_prange` return uninitialised memory for an unknown method (C97_unknown_method).
* `Leg.__post_init__` multiplies the notionals of the caller's schedule in place (`leg.py:50`), also when the construction is refused afterwards: building the leg again gives a payer positive notionals (C98_retry), and legs sharing a schedule read the product of both signs and the second basis (C98_shared, C98_shared_swap).
* `_add_contractual_coupon_param` inserts a column into the caller's schedule (`leg.py:83`), so a second leg with the same parameter column on one schedule is refused with `ValueError` (C98_same_field).
* `add_period_yearfrac` always inserts two places after `period_end` (`schedule.py:127`): on a schedule whose last column is `period_end` that is beyond the end, `IndexError` (C98_lengths).
* `InflationZCLeg` and `InflationYoYLeg` leave two abstract methods undefined and cannot be built (C98_inflation); `calc_dv01` is `pass` (C98_dv01).
* `ZerocouponLeg._calc_accrued_interest` returns a column over all rows (`leg.py:404-416`), so the accrued interest and clean value are not numbers (C98_zero_accrued, C98_zero_clean).
* Archived `TermFixings` has neither `cpn_calc_method` nor `day_count_basis`, which its `get_coupon_rates` reads: `AttributeError` (C99_term_refused).
* `process_capfloor_quotes` calls `make_schedule` with keywords it does not have, after changing the caller's table; with the right ones it would read a column `payment_dates` that is not there (C100_capfloor_never, C100_capfloor_columns).
* `simulate_gbm_fx_rate_path` and `simulate_heston_fx_rate_path` pass a single date to `union` and always raise (C100_fx_paths).
* `ZeroCurve.flat_shift` reads the column names of the pillars as dates and always raises (C100_flat_shift).
* `calc_discount_factor_by_solving_ode_3` has no body (C100_third_discount_factor).
* `check_day_offset_consistency` accepts no real delay, the assertion in `calc_implied_business_day_offset` being the wrong way round (C100_delay).
* `RollConv.from_value` refuses its own display names and member names of the two modified conventions, `ZeroCurveInterpMethod.from_value` all its display names (C19_display_refused, C19_member_name_refused).
* `get_forward_rate_by_integration` returns the rate times the length of the period (C86_integrated_rate).
* under the premium-adjusted conventions a delta of zero gets the strike solved for the quote before it, or `NameError` when there is none (`C51_zero_delta`)
* `ZeroCurve.plot` subtracts its term from the last date and adds it to the first, and needs the same number of days from both: with the default term most curves raise `AssertionError` (C101_curve_plot, C101_whole_years).
* `plot_smile` never returns for premium-adjusted deltas (C101_smile_refused), draws quotes on the wrong side when there are not as many puts as calls (C101_marks_places), and under spot deltas puts the neutral quote beside the line (C101_smile_neutral).
* `year_frac` and `day_count` take the last element of a batch for the termination date: under 30E/360 ISDA a forward rate over a period that ends on the last day of February depends on whether another period follows in the same request (`C36_february`).
* `black76_bachelier.py:12,397`: away from the money a log-normal volatility whose normal equivalent is below one basis point raises `ValueError`; at the money it is converted (`C70_to_normal_below`, `C70_to_normal_atm`).
* `sabr.py:244-248`, `optionlet.py:481-485`: the comments give beta a range of 0 to 1, the bounds are -1 and 1, and a smile with a negative beta is fitted by it (`C71_beta_negative`).
* `leg.py:127-136`: a rate outside −10 % to 300 % cannot be found, and the caller gets `nan` without an exception (`C29_fixed_rate`, `C29_same_sign`).
* `garman_kohlhagen.py:315-319`: the lower bound of the search for a premium-adjusted call strike is computed from the spot rate and the interest rates although the deltas use the forward supplied; off parity the search can miss a strike that exists (`C51_call_spot`).
* `garman_kohlhagen.py:321-333`: `except ValueError(…)` names an instance, so a search for a call that fails raises `TypeError: catching classes that do not inherit from BaseException is not allowed`, not the message intended (`C51_call_refused`).
* `garman_kohlhagen.py:300-309`: a premium-adjusted spot put delta beyond the discount factor has a strike, but the regular strike that bounds the search is `nan` and the search raises `ValueError` (`C51_put_refused`).
* `hw1f.py:638`: a swaption that expires today and is not exactly at par is refused with `ValueError`: the short rate tried by the search is ignored at time zero (`C74_expiry_today`).
* `cash_rates_quote_helper` reads the tenors of tables that give dates instead (`KeyError`, `C103_dates_need_tenor`), returns own start dates without the column the bootstrap needs (`C103_own_starts_refused`) and raises `TypeError` with its default calendar, which is a class (`C103_default_calendar`)
* a second call of `cash_rates_quote_helper` on the same table, for another curve date, silently keeps the dates of the first (`C103_second_call`, `C103_failed_call`); `bootstrap_futures` keeps the forward rates when prices change (`C103_futures_stale`)
* `black76_price(..., numerical_greeks=True)` applies the shift twice (`C104_shifted_vega_wrong`); its vega is not a difference below 1% volatility (`C104_low_volatility`)
* the intrinsic/time split of several prices at one time raises IndexError, and greeks raise ValueError when only `cp` is an array (`C104_exceptions`)
* `garman_kohlhagen_price` raises IndexError for several strikes at one time, and for several times with one spot and one strike (`C105_one_time_refused`)
* `fit_sabr_params_to_sln_smile` without `ln_shift`, its default, raises TypeError (`C106_fit_default_shift`)
* `sabr.py:84-123`: a shifted forward and strike that are both negative are not refused (`C71_both_negative`)
* `sabr.py:107`, 248: the bounds of the calibration include a correlation of one, where the smile is zero or nan away from the money (`C71_correlation_one`)
* `fx_volatility_surface.py:258-267`, `heston.py:205-207`: a calibration that fails returns `None`, which the surface unpacks: TypeError in place of the documented ValueError (`C83_outcome`)
* with a horizon of zero the quadratic-exponential Heston simulation returns nan spots (`C63_no_time`)
* the quadratic-exponential Heston simulation raises ZeroDivisionError when mean reversion or volatility of variance is zero (`C63_exceptions`)
* the Euler Heston scheme without a fix returns nan from the step after the first negative variance (`C63_euler_plain`)
* the quadratic-exponential Heston scheme has no martingale correction: with correlation the mean spot is not the forward (`C107_forward_biased`)
* a step of the Euler Heston schemes has return variance `(1 + rho²) v dt` and variance of variance `(1 - rho²) η² v dt`, because `normal_corr` applies the transposed Cholesky factor (`C107_euler_moments`)
* At expiry the analytical Garman-Kohlhagen greeks are all nan when a market forward is supplied, although the price is the intrinsic value (`C49_expiry_nan`).
* `_bucket_payments_helper` (`frm/instruments/leg.py:216-236`): with a first pillar on or before the value date, cash flows already settled are counted (C27_past_pillar).
* `RFRSwapCurve.get_fixings` (`frm/term_structures/swap_curve.py:67-100`): under 30E/360 ISDA the same straddling period ending on the last day of February gets different rates within one call (C33_february).
* `FXVolatilitySurface._setup_vol_smile_daily_df` (`frm/term_structures/fx_volatility_surface.py:150-172`): an expiry that is quoted twice (say as `12m` and `1y`) is not refused: its smile has the volatilities of the last row under the delta convention of the first (C81_repeated).
* Legs: a leg with a payment date outside the table of its ZeroCurve, for instance before the curve date, cannot be valued, and solving for its rate silently gives nan (`C108_begun`, `C108_solve`, `C108_fails`)
* C109: `RFRSwapCurve.get_fixings` with two future periods, one of which ends after the zero curve's table, returns for it a rate computed from the other period's end instead of raising.
* C86: `ZeroCurve` with `CUBIC_SPLINE_ON_CCZR` and a discount factor quoted at time 0 (say 1 on the curve date) divides by zero years and makes, without an error, a curve on which every discount factor and zero rate is `nan`; `CUBIC_SPLINE_ON_LN_DISCOUNT` accepts the same table and gives the quotes back (`C86_missing`).
* `bootstrap_futures` after a table with one cash rate: the line through one point is `nan`, so no contract gets a discount factor and nothing is raised (`C39_one_cash_rate`).
* C110: cash rates that settle two business days after the curve date (the market's usual convention) cannot be bootstrapped: a rate starting on the settlement date needs a rate ending on it, and only the overnight rate, ending one business day on, is used without one.
* C110: futures starting after the last cash maturity are bootstrapped on the continuation of the last cash segment, but the zero curve joins the last cash point to the contract's maturity, so it does not give the contract's forward rate back (cash at 0% and a contract at 5%).

## 5. Per property: what is modelled and how it is proved

| id | status | what is modelled | how it is proved |
|---|---|---|---|
| C01 | proved | `tenor_to_date_offset` over character lists, regexes as digit-span matchers | accepts iff in the grammar, both directions |
| C02 | proved | `clean_tenor`: character filter and leftmost-first alias substitution | filter and lower-casing commute; alias table lemma for every digit prefix |
| C03 | proved | civil dates, day numbers, `DateOffset(months=k)` | round trip of the civil/day conversion, month-index arithmetic |
| C04 | proved | `np.busday_offset(offset=0)` under its roll conventions | fuel pigeonhole; least/greatest characterisation; monotonicity |
| C05 | proved | `workday` | induction on the offset against a counting specification |
| C06 | proved | `get_busdaycal` | closure of a union, weekday by weekday |
| C07 | proved | `get_fx_spot_day_offset` | case analysis over the exception table, every other pair by default |
| C08 | partial | `resolve_fx_curve_dates`, every combination of optional arguments | uses C05; refutation for the branch with both dates |
| C09 | proved | `day_count` actual bases | integer arithmetic |
| C10 | proved | `day_count` 30/360 bases | algebra over civil dates |
| C11 | proved | `year_frac` | ACT/ACT against a day-by-day sum, by induction |
| C12 | proved | `generate_date_schedule`, `make_schedule` | list invariants by induction over the generation loop |
| C13 | proved | as C12 | sortedness invariant |
| C14 | proved | as C12 | closed form of the generation loop |
| C15 | partial | as C12, stubs | case analysis on the stub arguments; refutations with concrete schedules |
| C16 | proved | as C12, validation | iff characterisation of refusal |
| C17 | proved | `add_payment_dates` | list refinement, uses C05 |
| C18 | partial | `add_notional_schedule` | list refinement |
| C19 | partial | enum tables, `clean_enum_value`, `from_value`, `is_valid`, `is_valid_freq` | string normalisation lemmas over all strings; exact acceptance sets |
| C20 | partial | leg constructors and cash-flow columns | list sums; refutation because the sign is applied twice |
| C21 | proved | `CompoundingFreq` discount factor and rate conversions | real analysis |
| C22 | proved | `CompoundingFreq.convert_compounding_freq` | real analysis |
| C23 | proved | `PeriodFreq` and `CompoundingFreq` steps | finite table, months arithmetic |
| C24 | partial | `Leg.calc_pv` for all leg types | list sums |
| C25 | proved | clean and dirty value | list sums |
| C26 | partial | accrued interest | list sums; refutation |
| C27 | proved | `bucket` partition of the cash flows | induction over the list of flows |
| C28 | partial | current / non-current split | list sums; refutation |
| C29 | proved | solving for par: deep copy and root search as an interaction tree | induction over the tree of trials |
| C30 | proved | term fixings, as-of lookup | induction over sorted tables |
| C31 | proved | RFR fixings | product over the days of the period, by induction |
| C32 | partial | RFR fixings, checks | iff characterisation of refusal |
| C33 | proved | `RFRSwapCurve` fixings | trichotomy of periods |
| C34 | partial | `TermSwapCurve` fixings | characterisation and refutation |
| C35 | proved | `ZeroCurve` construction and lookups, daily table | log-linear interpolation over sorted pillar lists |
| C36 | proved | forward rates | real analysis over C35 |
| C37 | partial | lookups by vectors of dates | list refinement; refutation for dates outside the table |
| C38 | proved | cash bootstrap | fold invariant |
| C39 | partial | futures bootstrap | fold invariant, prefix preservation; one cash rate: at most one point has a value |
| C40 | partial | bank-bill settlement dates | calendar arithmetic for every month |
| C41 | partial | FX term-structure helper | row maps |
| C42 | proved | risk-reversal / butterfly conversion | algebra |
| C43 | proved | smile ordering | stable sort by key |
| C44 | proved | FX forward interpolation | piecewise linear lookup |
| C45 | partial | forward volatility | real algebra with `sqrt` |
| C46 | proved | flat-forward interpolation | real algebra with `sqrt` |
| C47 | proved | Garman–Kohlhagen price | Gaussian cdf defined as an integral; parity, limits |
| C48 | proved | market forward | algebra |
| C49 | partial | analytical greeks | derivatives of the price; characterisation where they are not |
| C50 | proved | implied volatility | strict monotonicity; root finder as oracle |
| C51 | partial | strike from delta | inverse of the cdf; root finder as oracle |
| C52 | proved | Black-76 | parity, bounds, derivatives |
| C53 | partial | Bachelier | parity, positivity, derivatives |
| C54 | partial | intrinsic / time split | algebra with annuity factor; refutation |
| C55 | proved | at-the-money normal/lognormal conversion | cdf inverse |
| C56 | partial | SABR alpha from the at-the-money volatility | cubic roots; existence by the intermediate value theorem |
| C57 | partial | antithetic sampling | index arithmetic |
| C58 | partial | correlated normals | matrix identity; iff diagonal |
| C59 | partial | GBM paths | induction over steps; shapes |
| C60 | proved | batched simulation | index arithmetic over batches |
| C61 | partial | Hull–White `calc_b`, bond options | integrals, parity |
| C62 | proved | COS payoff coefficients | exact cosine integrals by the fundamental theorem of calculus |
| C63 | partial | Heston variance paths | induction over steps |
| C64 | partial | optionlet quote table | first-covering characterisation; constructor refusal |
| C65 | proved | smile cache | state machine over arbitrary query histories |
| C66 | partial | `utilities.py` columns and messages | list permutations |
| C67 | proved | cash quote helper | row maps, uses C04/C05 |
| C68 | proved | quote column names | string normalisation over all strings |
| C69 | partial | delta-convention warnings | case analysis, all pairs |
| C70 | partial | implied normal / lognormal volatilities with fallback minimisation | oracle assumptions; tolerance bounds |
| C71 | proved | SABR smile, calibration objective | algebra, limits at the money, sum of squares |
| C72 | proved | Black, Bachelier and Garman–Kohlhagen prices | Gaussian integrals of the payoff |
| C73 | partial | Hull–White discount factors and thetas | derivatives and integrals |
| C74 | proved | Jamshidian decomposition and swaption | monotonicity, root oracle, refusal by keywords |
| C75 | partial | Hull–White simulation | induction over steps, shapes, generator parameter |
| C76 | proved | quadratic-exponential scheme | moments as integrals over the Gaussian and uniform measures |
| C77 | partial | COS prices | finite sums against the truncated expansion; the cosine series of the put converges to the put at the reflected argument with error of order 1/N (Fourier series on a circle), so the price is near the mean payoff of the law |
| C78 | proved | Heston characteristic function | complex derivatives: the Riccati system and the PDE; decay by comparison with a real Riccati equation |
| C79 | partial | closed-form Heston prices | parity; quadrature nodes; Fourier inversion (Carr-Madan, Lewis) and Gil-Pelaez inversion by Abel summation, giving the discounted mean payoff of the law; existence of the law by steps of the Riccati equation that keep exponents of characteristic functions (compound Poisson), Euler convergence and the continuity theorem; the identity theorem on the strip of good powers |
| C80 | partial | COS truncation range | derivatives of the characteristic exponent |
| C81 | proved | daily smiles of the FX surface | row refinement, total-variance interpolation |
| C82 | proved | volatilities and prices read from the surface | composition with C47, C81, C65 |
| C83 | proved | stored Heston smiles | calibration acceptance bound, any optimiser |
| C84 | partial | `clean_input_dataframe` | list filtering, idempotence |
| C85 | partial | interest-rate quote headings, with rounding parameter | digit arithmetic for all whole offsets; binary64 rounding for the collisions |
| C86 | partial | spline curves | any interpolating twice-differentiable spline routine; derivatives |
| C87 | partial | pillar table state across constructions | state machine on the caller's table |
| C88 | partial | making a Hull–White model and setting up its drift | acceptance, agreement with `get_thetas`, the failing search |
| C89 | partial | pricing a strip of optionlets | row refinement, parity, interpolation of smiles |
| C90 | partial | `cos_method`, exact reals, any characteristic function | cosine sums and integrals, orthogonality, Riemann sums of Lipschitz functions |
| C91 | partial | `create_date_grid_for_fx_exposures` and the front of the schedule generator it calls | insertion into sorted lists; case analysis |
| C92 | partial | `black76_sln_to_normal_vol_analytical` | Taylor bounds for the normal distribution and hyperbolic functions by repeated monotonicity; away from the money, comparison of the two prices by their derivatives in the total volatility (`Proofs/NormalVol.lean`) |
| C93 | partial | optionlet.py:182-518 with parameters for minimisers | list induction on the rows; strict monotonicity of the Bachelier price (C53); alpha from C56 |
| C94 | proved | the constructor, put together from the models of FxHelpers, Tenor, ZeroCurve and FxSurface | unfolding of the constructor; C41, C44, C51 and C81 at each step |
| C95 | proved | the functions of the scripts and their simulation, bond and option | the fundamental theorem of calculus; telescoping sums; sums of independent normal variables |
| C96 | proved | no new code: MonteCarlo, Hw1f and GarmanKohlhagen | linear recursions driven by independent normal variables (GaussianSum); convexity of the drift for the bound of the exact scheme |
| C97 | proved | GbmScripts | running products; means of products of independent variables; quadratic moments of a normal variable |
| C98 | partial | LegTable | the data frame as a state passed through every statement, kept also when one raises; columns evaluated for the six leg tables; induction over the rows for the scattered day counts |
| C99 | proved | FixingObjects | case analysis on what is given; equality of the loops over the periods |
| C100 | proved | EntryPoints | keyword binding; the table of quotes as a state kept when a step raises; case analysis |
| C101 | proved | Plots | dates of the daily table are a range; calendar arithmetic with the leap years as unknowns; the smile through the lemmas of C65 and C82 |
| C102 | proved | Heston | existence of the law (C79_law_exists), then pointwise inequalities between payoffs |
| C103 | partial | CashTable: the caller's table as a state kept when a statement raises | case analysis on the columns; equality of row-wise and column-wise dates |
| C104 | partial | arguments of `black76_price` and `bachelier_price`, numerical greeks | lists of lengths; mean value theorem on C52 |
| C105 | partial | arguments of `garman_kohlhagen_price` | lists of lengths |
| C106 | partial | arguments of the SABR functions | lists of lengths |
| C107 | partial | mean of the simulated Heston spot | conditioning on the draws of the variance; sums of independent normals; moment generating functions of both branches of the scheme |
| C108 | partial | LegCurve, Leg, ZeroCurve | lookups of a column of dates are a filter; the value is the filtered sum; the search is followed through the changing leg |
| C109 | partial | `RFRSwapCurve` with a `ZeroCurve` object (`Model/SwapCurveObject.lean`) | the masked blocks are traced to positions; the batch of each block is given to `C36_reproduces` and `C36_averages` |
| C110 | partial | cash and futures bootstraps (`Model/Bootstrap.lean`) put through `ZeroCurve` (`Model/ZeroCurve.lean`) | the bootstrapped factors are read off as pillars with C35; for futures the line of the bootstrap is shown to join neighbouring pillars of the finished curve |

What is missing from each property with status `partial`:

* **C08** Single-date resolution and its round trip are proved. With both dates given the claim is false of the code: it always raises when curve date < spot date (C08_both_dates_raise) and always raises TypeError with all three (C08_all_three_raise).
* **C15** Proved: short stubs keep the grid, long stubs merge once, explicit stub dates appear as boundaries when only one is given or both lie on the generated grid. The remaining clause is false of the code: with both dates given one of them can be lost (C15_last_start_lost, C15_first_end_lost) and a LONG last stub can merge an explicit date away (C15_first_end_merged).
* **C18** Scalar notionals: proved completely. Per-period notional arrays are claimed to be accepted but the code rejects every one of them (C18_array_rejected).
* **C19** Exact acceptance sets are proved for all twelve classes. False of the code: DayCountBasis has a default but a missing value raises (C19_missing_raises), and its validity check refuses accepted spellings (C19_is_valid_disagrees); classes without default raise AttributeError on a missing value. Display names are read back by ten classes (C19_display_read_back), not by ZeroCurveInterpMethod nor for the two modified roll conventions (C19_display_refused); member names are refused by DayCountBasis, days of the month and those two conventions (C19_member_name_refused).
* **C20** Multipliers and notional flows are proved; the coupon part is false at this commit (the multiplier is applied twice): C20_coupons_do_not_flip, C20_swap_of_opposites and C20_fails prove what happens instead.
* **C24** Proved for fixed and zero-coupon legs and additivity / settled rows for all kinds; false for floating legs, whose coupons are nan and drop the notional flow of their row (C24_float_partial, C24_fails_for_float). The discount curve is a function of the date here; C108 is about ZeroCurve objects.
* **C26** The current-period accrual is proved; the unsettled part sums every coupon and no current period raises IndexError (C26_adds_all_coupons, C26_excess, C26_none_current, C26_fails).
* **C28** The current part is proved; the non-current part uses the notional column for coupons (C28_split_partial, C28_adds_up_iff, C28_fails).
* **C32** Exactly when the call raises is proved (C32_raises_iff_partial). The beginning of a period is not checked and a window without fixings is accepted: C32_leading_days_omitted, C32_no_fixings, C32_fails_start, C32_fails_empty; covered periods can be rejected (C32_rejects_covered).
* **C34** False of the code: both masks select the future periods. C34_actual characterises the result, C34_fails refutes both halves.
* **C37** Holds for dates inside the table (C37_in_range_partial, C37_single_date). False in general: vector requests outside the table are silently dropped (C37_dropped, C37_fails), forward rates then borrow another period's discount factor (C37_borrowed_factor) and on a curve with linear interpolation lookups by years always raise (C37_years_raise).
* **C39** C39_chain_partial: with at least two cash points, distinct maturities and positive accruals. Missing, because the code does not do it: after a table with a single cash rate every contract silently gets nan factors (C39_one_cash_rate); without cash rates contracts are refused (C39_no_cash_rate).
* **C40** The second-Friday rule is proved for every contract month, and the accepted tables are characterised. The assignment of dates to rows is by position, so it is right exactly for chronologically ordered rows (C40_matches_iff, C40_fails).
* **C41** The dates of every row are proved for tables that give tenors only (C41_rows_partial, C41_accepts_iff). Tables that give the rate-set date always raise (C41_rate_set_raises), so the property as stated is false of the code. Which exceptions are raised: C41_exceptions.
* **C45** Forward variance and volatility are exact where the volatilities are accepted; C45_arrays says exactly which arrays are accepted and what is returned for every element, and C45_scalar the same for floats. Missing: the refusal of dates out of order when some row has a zero gap, which is false: C45_unchecked shows the code skips that check, and C45_arrays which check remains.
* **C49** Delta, vega and gamma are proved to be derivatives of the price. Theta and rho are not derivatives in general: the theorems characterise when they are (theta of a call: equal rates; of a put with equal rates: zero rates; rho: calls with equal rates). Missing: theta and rho for the other contracts, where the claim is false of the code.
* **C51** Regular conventions, the at-the-money strike and premium-adjusted strikes away from the money are proved, as are what a premium-adjusted quote of -0.5 (C51_adjusted_put_atm) and a delta of zero (C51_zero_delta) give, and which premium-adjusted strikes the searches find within their brackets (C51_put_found to C51_call_refused). Partial because the claim fails there: the strike of a premium-adjusted quote of -0.5 depends on the other quotes (C51_put_atm_inconsistent), a premium-adjusted delta of zero gets the strike of an earlier quote, and with a supplied forward the search for a call can fail because of the spot rate (C51_call_spot). The root finder is assumed to return roots within its bracket, to converge on a change of sign and to raise without one (met by exactBrent).
* **C53** Parity, positivity, monotonicity, delta and vega proved. Theta is 365.25 times the annual decay instead of one 365.25th of it, so the calendar-day normalisation is refuted in C53_theta_partial. C53_negative_time: a negative time gives nan.
* **C54** The split adds up. A non-negative time value is proved for annuity factors of at least one and for options not in the money; for every annuity factor between 0 and 1 a negative time value is exhibited (the intrinsic value lacks the annuity factor).
* **C56** Consistency, nearest root, positivity and shift proved. A real root always exists for beta different from 1 and positive time; for beta = 1 existence is characterised and fails for some valid parameters (C56_no_alpha).
* **C57** Pairing proved for even numbers of simulations; for odd numbers the result is one simulation short and the pairs are misaligned (C57_odd).
* **C58** The covariance is L^T L, which is the requested L L^T only for diagonal matrices (C58_iff_diagonal).
* **C59** Proved for one variable. With several variables the parameters are broadcast along simulations: refused, or mixed up (C59_many_refused, C59_many_mixed).  Step lengths may be negative: every price after such a step is nan.
* **C61** b(t,T) is the integral of the decay for mean reversions of at least 1e-8; smaller and all negative ones are replaced by the horizon (C61_b_negative). Parity holds when the bond variance is positive; with zero volatility or equal dates the price is not discounted (C61_zero_vol_parity).
* **C63** Non-negativity is proved for every row of the quadratic-exponential scheme and for every row but the last of the absorbing and reflecting Euler schemes (C63_euler_partial); the last row is returned before it is fixed and can be negative (C63_euler_last). With no time to the horizon the quadratic-exponential scheme gives nan and then variances of zero (C63_no_time). The Euler scheme without a fix turns into nan after the first negative variance (C63_euler_plain).
* **C64** Proved for the quote table and schedule the constructor computes: first covering quote, monotone numbers, forward as weighted average and par swap rate, strikes, flags, prices. The constructor itself always raises (it reads self.cal, which does not exist: C64_never_constructed), so no user ever observes them; the volatility solves are C93. Also proved: which quotes have no price, that the periods are exactly the modified-following multiples of the frequency counted back from the longest quote, and that a table without quotes raises KeyError.
* **C66** The columns are preserved (C66_columns) and a column after the reference is moved right after it (C66_move_partial); a column before the reference lands one place too far unless the reference is last (C66_move_before, C66_move_last). Messages are copied correctly for distinct identifiers (C66_copy, C66_copy_distinct); with duplicates a message can be erased (C66_duplicates).
* **C69** Proved for every pair but two (C69_partial). False for EUR/USD, which line 107 omits in favour of NZD/EUR (C69_eurusd, C69_nzdeur).
* **C70** Repricing proved except when the fallback L-BFGS-B reports success without meeting the tolerance, which the code trusts (C70_trusts_success). At the money normal_vol_to_black76_sln drops its closed form. The range theorems assume methods that keep to their bounds, and the ones on prices out of reach that Brent's method evaluates both ends first, as scipy documents.
* **C73** The bond equation, the agreement of the two formulas and the fit for a fitted drift are proved. The thetas of the code ignore the curve, so the fit holds only for a flat curve (C73_theta_ignores_curve, C73_theta_fitted_iff).
* **C75** Shape, schemes, discounting and pairing proved. The averages do not follow the curve: it is ignored (C75_ignores_curve); odd antithetic numbers are refused (C75_accepts) and unknown methods give zero rates (C75_unknown_method).
* **C77** Proved for the default call. Without put-call parity, requests for calls only or puts only raise (C77_one_sided), so C77_direct_partial needs both kinds. The statement holds when the truncation interval straddles zero. For any other interval the price is the integral of the payoff from the lower end to zero against the expansion (C77_any_range, C77_any_range_direct); this is wrong, since an interval above zero prices puts as contracts that pay K^2 e^(2a)/S - K when positive (C77_above) and one below zero credits puts with K - K^2 e^(2b)/S when positive (C77_below). Under the law of the log spot, which exists and is unique (C79_law_exists), the price with N terms is the discounted mean of the first N terms of the cosine series of the payoff (C77_mean) and lies within e^{-r tau} K (4 (b-a)/pi^2 (1+e^a+(b-a)/pi)/N + P(log moneyness outside [a,b])) of the discounted mean payoff (C77_error, C77_call_error); the probability is bounded by the characteristic function of the code at imaginary arguments (C77_law_error).
* **C79** For all positive speeds and volatilities of variance, correlations in [-1,1], nonnegative variances and horizons there is exactly one law of the log spot whose characteristic function is that of the code (C79_law_exists): the Riccati equation is solved by steps that keep exponents of characteristic functions, and the limit is a law. Every power of the spot whose mean stays finite at all horizons has its mean, and the characteristic function continues to it (C79_law_moments). So the quadrature Carr-Madan price of calls and puts is the discounted mean payoff where the powers 1.75 and -0.75 are such (C79_carr_madan_price) and satisfies parity (C79_carr_madan_price_parity); so are the 1993 prices (C79_heston1993_price) and the Lipton prices without correlation (C79_lipton_price_partial). The theorems named _law hold for any law with the transform. The Lipton integrand is wrong with correlation (C79_lipton_wrong). The transform price is a fixed quadrature of the Carr-Madan integral (C79_fft, C79_fft_between). At the strikes of its grid it is the discounted mean payoff up to an explicit error: the frequencies left out, and the mean payoffs at the strikes e^{4 pi n} and e^{8 pi n} away which sums over frequencies add by Poisson's formula (C79_fft_price, C79_fft_price_between); the weights called Simpson weights are not a Simpson rule (C79_weights). Parity whatever the parameters: cosine, 1993 and Lipton methods (C79_parity_partial).
* **C80** The centre is the mean (C80_centre). The width is false of the code: the second cumulant is too small by vv^2 theta (1-e^{-kappa tau})/(4 kappa^3) (C80_width, C80_collapses); C80_width_partial is the case without volatility of variance.
* **C84** Proved for tables without a column called index (C84_cleaned_partial); with one, no blank row is dropped and that column becomes the identifier (C84_index), or the call raises (C84_raises). Idempotence is proved when no label becomes internal_id by stripping (C84_idempotent).
* **C85** Proved: the offset of a whole number of basis points (up to 10^6) or percent, untouched headings, the one at-the-money heading, whole tables of distinct offsets in exact arithmetic (C85_bps, C85_percent, C85_untouched, C85_one_atm, C85_table_exact). False of the code and proved so: 1% and 1bps share a heading (C85_percent_collides), 3bps is renamed 2bps in binary64 (C85_heading_truncated, C85_offsets_collide), the documented style ATM+50bps and headings in capitals are refused (C85_documented_style_refused, C85_capitals_refused). Every heading that mentions a number of basis points or per cent is either tied to the number its text stands for, to eight decimals, or refused (C85_numbers, C85_any_bps, C85_any_percent, exact arithmetic).
* **C86** Proved for both spline methods with any interpolating C2 spline routine, except: with splines on zero rates a SIMPLE rate is treated as annual and contradicted at every time but one year (C86_simple_rates); a linearly interpolated curve has no instantaneous forward (C86_linear_no_forward). On the last days of February under 30E/360 ISDA the curve is read as on a termination date exactly on the last date of its table (C86_february), so quotes there are reproduced if the last row is the last date (C86_february_quotes). The Hull-White models' forward rate by integration is the logarithm of the ratio of discount factors, a rate only over one year (C86_integrated, C86_integrated_rate). With splines on zero rates, a table of discount factors that includes one at time 0 is accepted and gives a curve of nan (C86_missing, C86_missing_sample; C86_missing_only: only then); that a nan among the values given to FITPACK makes all of the spline nan is an assumption on FITPACK.
* **C87** True for tables of years (C87_years_partial); quotes and dates are never altered (C87_quotes_kept). False for tables of dates or tenors: columns are added to the caller's table and the next construction raises ValueError (C87_second_time_refused).
* **C88** Proved: initial rate, acceptance, agreement of the drift with get_thetas at every pillar but the last and between them, independence of the step. False: fit_theta never succeeds, because the error is also calculated at the curve date, where calc_discount_factor_by_solving_ode_1 refuses (C88_search_refused, C88_error_refused); times given as integers lose the initial rate (C88_whole_years). At the last pillar the drift is extrapolated.  C88_error_formula: what the error would be for a curve without a pillar on the curve date.
* **C89** Everything is proved except that an equivalent flat volatility accepted on the word of the fallback minimisation need not reprice (C89_equivalent_partial; C89_trusts_success: any value is passed on). The strip is priced from an arbitrary table of smiles: the constructor of the shipped class never returns (C64_never_constructed). C89_flat_start: the searches for flat volatilities start at the means of the known volatilities. C89_greeks, C89_sensitivities: the delta and the vega of every row are those of the model for its inputs, and are derivatives of its price. A cap less a floor is a swap on the curve (C89_swap). With positive annuities a strip is worth more than its rows exercised today (C89_intrinsic). Smiles for a first period that has begun, or with a zero shifted forward, raise ValueError (C89_no_smile).
* **C90** Proved: refusals, points, the density as cosine series, exactness for cosine polynomials, the distribution function as a sum within an explicit bound of order dt of the integral. The range check is false of the code: on even grids the integral is the total mass plus half a step times the density at the two ends (C90_range_partial), so a range with no probability is accepted (C90_range_unchecked) and one with all of it can be refused (C90_whole_mass_refused). The distribution function is one cell ahead (C90_uniform_ahead).
* **C91** Proved for dates of one's own without days of value (C91_own_dates_partial). The rest is false of the code: every sampling frequency raises (C91_sampling_refused, C91_unknown_sampling), and so does asking for the days of value (C91_days_of_value_refused); C91_returns_iff says exactly when a grid is returned.
* **C92** The accuracy of the formula is proved at the money (against what black76_sln_to_normal_vol returns there) and away from the money (C92_off_the_money, for strikes within a factor e^10.95), where the normal volatility with the same price exists, is unique (C92_equivalent) and is bracketed for every strike, time and volatility (C92_bracket). False of the code, with witnesses: positivity for strikes more than e^10.95 away (C92_can_be_negative); refusal of a forward and strike both below minus the shift (C92_negative_accepted).
* **C93** Lines 182-518 as if the constructor got there. Prices and volatilities are real numbers, quotes have finite strikes and prices, and the minimisers and np.roots are parameters that are given their starting points and bounds; that they keep to the bounds is a hypothesis of C93_ranges, C93_quote_vol_range and C93_quote_vol_missed. A later quote is bootstrapped only when the last earlier smile has a volatility at its strike (C93_prior_known). C93_quote_start: where the search for the normal volatility of a quote starts.
* **C98** Partial because the independence of legs sharing a schedule is false; the theorems say what happens instead. The data frame is modelled by its column names in order, its schedule rows and its added columns of numbers; warnings are not modelled; `IndexError` for an insertion beyond the last column is a modelling assumption about pandas.
* **C103** Proved: dates of the table are kept and the periods counted between them (C103_kept), what every call leaves in the table, also one that raises (C103_left, C103_refusals); a table of tenors and rates gets the dates of C67 (C103_tenors_only) and is bootstrapped as in C38 (C103_bootstrap). The rest is false of the code: dates without tenors pass the assertion and then raise KeyError (C103_dates_need_tenor); own start dates come back without has_settlement_delay and cannot be bootstrapped (C103_own_starts_refused); without a calendar the call raises unless the settlement date and the maturity dates are given (C103_default_calendar); a second call for another curve date keeps every date of the first (C103_second_call), also after a first call that failed on a tenor (C103_failed_call); a table of futures that has been bootstrapped keeps its forward rates when its prices change (C103_futures_stale).
* **C104** Acceptance, exceptions and elementwise results are proved for all lengths. Numerical greeks are proved to be analytical greeks nearby for options without a shift and a volatility above one percent (C104_numerical_partial). Missing: the other options, where the claim is false: forward and strike are shifted before the nested calls, which shift them again (C104_delta_twice_shifted, C104_vega_twice_shifted, C104_shifted_vega_wrong), and below one percent the lower volatility is negative (C104_low_volatility).
* **C105** Acceptance, exceptions and elementwise results are proved for all lengths. Missing: that one time can be combined with several strikes, which is false of the code: the mask tau==0 has one element and the prices several (C105_one_time_refused).
* **C106** Refused and accepted shapes, results and exceptions are proved for all lengths. Missing: that the shift may be left out of the calibration, which is false of the code (C106_fit_default_shift).
* **C107** Proved without correlation (C107_uncorrelated). With correlation the claim is false: the mean of a spot is the forward times the mean of a product over the steps (C107_mean_spot), which is computed for one step (C107_growth) and exceeds any multiple of the forward for long steps (C107_forward_biased), because the scheme has no martingale correction. The Euler schemes have the right conditional means, but the variance of the return is 1 + rho^2 times and that of the new variance 1 - rho^2 times the model's (C107_euler_moments).
* **C108** The value is right when every payment date of the leg, past ones included, lies in the curve's table. The code is wrong otherwise: the lookup drops dates outside the table, the column no longer fits and calc_dirty_pv raises ValueError (C108_raises_iff says exactly when), so a leg that has paid anything before the curve date cannot be valued (C108_begun) though the rest of it can (C108_rest); target_solve and par_solve then return nan without raising (C108_solve). C108_fails is a concrete leg. Floating legs have the defect of C24 as well (C108_float). The curve may have any of the three interpolation methods.
* **C109** Proved when every period ending after the curve date ends within the curve's table, with the exact condition for the call to be answered (C109_answered_partial). The code is wrong otherwise: a period ending after the table is refused when it is the only future one (C109_alone_refused), but next to one other future period it silently gets a rate computed from the discount factor of that period's end (C109_borrowed; C109_fails is a concrete curve, where a two-year period gets half the one-year rate). The curve may have any of the three interpolation methods. Consecutive future periods paid on their accruals are together worth the discount factor of the first start less that of the last end (C109_floater). C109_running_floater is the same for a leg in its first period, started before the curve date.
* **C110** Proved for cash rates (any linear curve on the bootstrapped dates; C110_from_tenors from tenors on), and for every contract whose start lies between points known when it was bootstrapped with no later point put before the next of these (C110_futures_partial). The code is wrong otherwise: a settlement of other than one business day is refused by the bootstrap (C110_settlement, C110_one_day_only), and a first contract starting after the last cash maturity is given back only if its continuously compounded rate is that between the last two cash rates (C110_gap). Cash rates are also given back by both kinds of spline curves (C110_spline, C110_spline_curve).

## 6. Coverage of the source

Computed from the line citations in the comments of `lean/Verif/Model`. "modelled" means that at least half of the
lines of the function (its docstring included) are cited by a model definition, "partly" fewer, "no" none. The
property theorems speak only about the modelled code.

| file | function | lines | modelled | in |
|---|---|---|---|---|
| enums/helper.py | `clean_enum_value` | 8-17 | modelled | Enums, Text |
| enums/helper.py | `is_valid_enum_value` | 20-22 | modelled | Enums |
| enums/helper.py | `get_enum_member` | 25-35 | modelled | Enums |
| enums/term_structures.py | `RFRFixingCalcMethod.display_name` | 15-16 | modelled | DisplayNames |
| enums/term_structures.py | `TermRate.display_name` | 29-30 | modelled | DisplayNames |
| enums/term_structures.py | `FXSmileInterpolationMethod.display_name` | 43-44 | modelled | DisplayNames |
| enums/term_structures.py | `DeltaConvention.display_name` | 54-55 | modelled | DisplayNames |
| enums/utils.py | `ZeroCurveInterpMethod.default` | 18-19 | modelled | Enums |
| enums/utils.py | `ZeroCurveInterpMethod.is_valid` | 22-24 | modelled | Enums |
| enums/utils.py | `ZeroCurveInterpMethod.from_value` | 27-45 | modelled | Enums |
| enums/utils.py | `ZeroCurveInterpMethod.from_value.specific_cleaning` | 30-31 | modelled | Enums |
| enums/utils.py | `ZeroCurveInterpMethod.display_name` | 48-54 | modelled | DisplayNames, Enums |
| enums/utils.py | `ZeroCurveExtrapMethod.default` | 62-63 | modelled | Enums |
| enums/utils.py | `ZeroCurveExtrapMethod.is_valid` | 66-68 | modelled | Enums |
| enums/utils.py | `ZeroCurveExtrapMethod.from_value` | 71-89 | modelled | Enums |
| enums/utils.py | `ZeroCurveExtrapMethod.from_value.specific_cleaning` | 74-75 | modelled | Enums |
| enums/utils.py | `ZeroCurveExtrapMethod.display_name` | 92-93 | modelled | DisplayNames, Enums |
| enums/utils.py | `PayRcv.multiplier` | 102-103 | modelled | Enums |
| enums/utils.py | `PayRcv.is_valid` | 106-108 | modelled | Enums |
| enums/utils.py | `PayRcv.from_value` | 111-129 | modelled | Enums |
| enums/utils.py | `PayRcv.from_value.specific_cleaning` | 114-115 | modelled | Enums |
| enums/utils.py | `PayRcv.display_name` | 132-133 | modelled | DisplayNames, Enums |
| enums/utils.py | `BuySell.multiplier` | 141-142 | modelled | Enums |
| enums/utils.py | `BuySell.is_valid` | 145-147 | modelled | Enums |
| enums/utils.py | `BuySell.from_value` | 150-168 | modelled | Enums |
| enums/utils.py | `BuySell.from_value.specific_cleaning` | 153-154 | modelled | Enums |
| enums/utils.py | `BuySell.display_name` | 171-172 | modelled | DisplayNames, Enums |
| enums/utils.py | `DayCountBasis.__init__` | 185-195 | modelled | DayCount, Enums |
| enums/utils.py | `DayCountBasis.default` | 198-199 | modelled | DayCount, Enums |
| enums/utils.py | `DayCountBasis.is_valid` | 202-204 | modelled | Enums |
| enums/utils.py | `DayCountBasis.from_value` | 207-228 | modelled | Enums |
| enums/utils.py | `DayCountBasis.from_value.specific_cleaning` | 210-214 | modelled | Enums |
| enums/utils.py | `DayCountBasis.display_name` | 231-232 | modelled | DisplayNames |
| enums/utils.py | `CompoundingFreq.__init__` | 246-257 | modelled | Enums, Rates |
| enums/utils.py | `CompoundingFreq.is_valid` | 260-261 | modelled | Enums, Rates |
| enums/utils.py | `CompoundingFreq.from_value` | 264-265 | modelled | Enums, Rates |
| enums/utils.py | `CompoundingFreq.display_name` | 276-277 | modelled | DisplayNames, Rates |
| enums/utils.py | `CompoundingFreq.calc_zero_rate_from_discount_factor` | 279-286 | modelled | Rates |
| enums/utils.py | `CompoundingFreq.calc_discount_factor_from_zero_rate` | 288-295 | modelled | Rates |
| enums/utils.py | `CompoundingFreq.convert_rate_to` | 297-312 | modelled | Rates |
| enums/utils.py | `PeriodFreq.__init__` | 328-341 | modelled | Date, Schedule |
| enums/utils.py | `PeriodFreq.multiply_date_offset` | 343-359 | modelled | Date, Schedule |
| enums/utils.py | `PeriodFreq.is_valid` | 362-364 | modelled | Date, Enums |
| enums/utils.py | `PeriodFreq.from_value` | 367-368 | modelled | Date, Enums |
| enums/utils.py | `PeriodFreq._transform_value` | 371-388 | modelled | Date, Enums |
| enums/utils.py | `PeriodFreq.display_name` | 391-392 | modelled | Date, DisplayNames |
| enums/utils.py | `DayRoll.default` | 431-432 | modelled | Enums, Schedule |
| enums/utils.py | `DayRoll.is_valid` | 435-436 | modelled | Enums, Schedule |
| enums/utils.py | `DayRoll.from_value` | 439-440 | modelled | Enums, Schedule |
| enums/utils.py | `DayRoll.display_name` | 443-444 | modelled | DisplayNames, Enums, Schedule |
| enums/utils.py | `RollConv.is_valid` | 456-457 | modelled | BusDay, Enums |
| enums/utils.py | `RollConv.from_value` | 460-461 | modelled | BusDay, Enums |
| enums/utils.py | `RollConv.default` | 464-465 | modelled | BusDay, Enums |
| enums/utils.py | `RollConv.display_name` | 468-469 | modelled | BusDay, DisplayNames, Enums |
| enums/utils.py | `TimingConvention.is_valid` | 477-478 | modelled | BusDay, Enums, Schedule |
| enums/utils.py | `TimingConvention.from_value` | 481-482 | modelled | Enums, Schedule |
| enums/utils.py | `TimingConvention.display_name` | 485-486 | modelled | DisplayNames, Enums, Schedule |
| enums/utils.py | `TimingConvention.fixing_default` | 489-490 | modelled | Enums, Schedule |
| enums/utils.py | `TimingConvention.payment_default` | 493-494 | modelled | Enums, Schedule |
| enums/utils.py | `Stub.is_valid` | 505-506 | modelled | Enums, Schedule |
| enums/utils.py | `Stub.from_value` | 509-510 | modelled | Enums, Schedule |
| enums/utils.py | `Stub.default` | 513-514 | modelled | Enums, Schedule |
| enums/utils.py | `Stub.market_convention` | 517-518 | modelled | Enums, Schedule |
| enums/utils.py | `Stub.display_name` | 521-522 | modelled | DisplayNames, Enums, Schedule |
| enums/utils.py | `ExchangeNotionals.is_valid` | 532-533 | modelled | Enums |
| enums/utils.py | `ExchangeNotionals.from_value` | 536-537 | modelled | Enums |
| enums/utils.py | `ExchangeNotionals.display_name` | 540-541 | modelled | DisplayNames, Enums |
| enums/utils.py | `ExchangeNotionals.default` | 544-545 | modelled | Enums |
| instruments/leg.py | `Leg.__post_init__` | 49-52 | modelled | Leg, LegTable |
| instruments/leg.py | `Leg.calc_coupon_payment` | 55-56 | modelled | LegTable |
| instruments/leg.py | `Leg._calc_accrued_interest` | 59-60 | modelled | LegTable |
| instruments/leg.py | `Leg._get_solved_field_name` | 63-64 | modelled | LegTable |
| instruments/leg.py | `Leg._get_legtype_specific_schedule_cols` | 67-68 | modelled | LegTable |
| instruments/leg.py | `Leg._add_contractual_coupon_param` | 70-87 | modelled | Leg, LegTable |
| instruments/leg.py | `Leg._get_contractual_schedule_cols` | 90-99 | modelled | LegTable |
| instruments/leg.py | `Leg.target_solve` | 101-103 | modelled | Leg, LegCurve |
| instruments/leg.py | `Leg.par_solve` | 106-118 | modelled | Leg, LegCurve |
| instruments/leg.py | `Leg._solver_helper` | 120-136 | modelled | Leg, LegCurve |
| instruments/leg.py | `Leg._solver_helper.objective_function` | 123-124 | modelled | Leg, LegCurve |
| instruments/leg.py | `Leg.calc_accrued_interest` | 138-157 | modelled | Leg, LegCurve, LegTable |
| instruments/leg.py | `Leg._discount_payments` | 159-175 | modelled | Leg, LegCurve |
| instruments/leg.py | `Leg.calc_dirty_pv` | 177-188 | modelled | Leg, LegCurve |
| instruments/leg.py | `Leg.calc_clean_pv` | 190-191 | modelled | Leg, LegTable |
| instruments/leg.py | `Leg.get_current_non_current_split` | 193-214 | modelled | Leg |
| instruments/leg.py | `Leg._bucket_payments_helper` | 216-236 | modelled | Leg |
| instruments/leg.py | `Leg.bucket_payments` | 238-245 | modelled | LegTable |
| instruments/leg.py | `Leg.calc_dv01` | 248-250 | modelled | LegTable |
| instruments/leg.py | `FixedLeg.__post_init__` | 258-260 | modelled | LegTable |
| instruments/leg.py | `FixedLeg.calc_coupon_payment` | 265-270 | modelled | Leg, LegTable |
| instruments/leg.py | `FixedLeg._calc_accrued_interest` | 272-282 | modelled | Leg, LegTable |
| instruments/leg.py | `FixedLeg._get_solved_field_name` | 284-285 | modelled | LegTable |
| instruments/leg.py | `FixedLeg._get_legtype_specific_schedule_cols` | 287-288 | modelled | LegTable |
| instruments/leg.py | `FloatTermLeg.__post_init__` | 297-299 | modelled | LegTable |
| instruments/leg.py | `FloatTermLeg.calc_coupon_payment` | 306-316 | modelled | Leg, LegTable |
| instruments/leg.py | `FloatTermLeg._calc_accrued_interest` | 318-326 | modelled | Leg, LegTable |
| instruments/leg.py | `FloatTermLeg._get_solved_field_name` | 328-329 | modelled | Leg, LegTable |
| instruments/leg.py | `FloatTermLeg._get_legtype_specific_schedule_cols` | 331-332 | modelled | Leg, LegTable |
| instruments/leg.py | `FloatRFRLeg.__post_init__` | 342-344 | modelled | LegTable |
| instruments/leg.py | `FloatRFRLeg.calc_coupon_payment` | 351-361 | modelled | Leg, LegTable |
| instruments/leg.py | `FloatRFRLeg._calc_accrued_interest` | 363-371 | modelled | Leg, LegTable |
| instruments/leg.py | `FloatRFRLeg._get_solved_field_name` | 373-374 | modelled | Leg, LegTable |
| instruments/leg.py | `FloatRFRLeg._get_legtype_specific_schedule_cols` | 376-377 | modelled | LegTable |
| instruments/leg.py | `ZerocouponLeg.__post_init__` | 385-387 | modelled | Leg, LegTable |
| instruments/leg.py | `ZerocouponLeg.calc_coupon_payment` | 393-402 | modelled | Leg, LegTable |
| instruments/leg.py | `ZerocouponLeg._calc_accrued_interest` | 404-416 | modelled | Leg, LegTable |
| instruments/leg.py | `ZerocouponLeg._get_solved_field_name` | 418-419 | modelled | LegTable |
| instruments/leg.py | `ZerocouponLeg._get_legtype_specific_schedule_cols` | 421-422 | modelled | LegTable |
| instruments/leg.py | `InflationZCLeg.__post_init__` | 429-430 | modelled | LegTable |
| instruments/leg.py | `InflationZCLeg.calc_coupon_cashflow` | 434-435 | modelled | LegTable |
| instruments/leg.py | `InflationZCLeg._calc_accrued_interest` | 437-438 | modelled | LegTable |
| instruments/leg.py | `InflationZCLeg._get_solved_field_name` | 440-441 | modelled | LegTable |
| instruments/leg.py | `InflationYoYLeg.__post_init__` | 449-450 | modelled | LegTable |
| instruments/leg.py | `InflationYoYLeg.calc_coupon_cashflow` | 453-454 | modelled | LegTable |
| instruments/leg.py | `InflationYoYLeg._calc_accrued_interest` | 456-457 | modelled | LegTable |
| instruments/leg.py | `InflationYoYLeg._get_solved_field_name` | 459-460 | modelled | LegTable |
| instruments/swap.py | `Swap.calc_dirty_pv` | 79-82 | modelled | Leg, LegCurve |
| instruments/swap.py | `Swap.calc_accrued_interest` | 84-87 | modelled | Leg |
| instruments/swap.py | `Swap.calc_clean_pv` | 89-90 | modelled | Leg |
| instruments/swap.py | `Swap.par_solve_each_leg` | 92-95 | modelled | Leg |
| instruments/swap.py | `Swap.target_solve_swap` | 97-103 | modelled | Leg |
| instruments/swap.py | `Swap.__post_init__` | 105-106 | modelled | Leg |
| pricing_engine/black76_bachelier.py | `black76_price` | 14-128 | modelled | Black76, Black76Calls |
| pricing_engine/black76_bachelier.py | `black76_solve_implied_vol` | 131-184 | modelled | Black76 |
| pricing_engine/black76_bachelier.py | `black76_solve_implied_vol.error_function` | 143-150 | modelled | Black76 |
| pricing_engine/black76_bachelier.py | `bachelier_price` | 187-274 | modelled | Black76, Black76Calls |
| pricing_engine/black76_bachelier.py | `bachelier_solve_implied_vol` | 277-329 | modelled | Black76 |
| pricing_engine/black76_bachelier.py | `bachelier_solve_implied_vol.error_function` | 288-295 | modelled | Black76 |
| pricing_engine/black76_bachelier.py | `black76_sln_to_normal_vol_analytical` | 333-376 | modelled | NormalVolApprox |
| pricing_engine/black76_bachelier.py | `black76_sln_to_normal_vol` | 379-398 | modelled | Black76 |
| pricing_engine/black76_bachelier.py | `shift_black76_vol` | 401-444 | modelled | Black76 |
| pricing_engine/black76_bachelier.py | `shift_black76_vol.obj_func_relative_px_error` | 415-418 | modelled | Black76 |
| pricing_engine/black76_bachelier.py | `normal_vol_atm_to_black76_sln_atm` | 447-453 | modelled | Black76 |
| pricing_engine/black76_bachelier.py | `normal_vol_to_black76_sln` | 456-500 | modelled | Black76 |
| pricing_engine/black76_bachelier.py | `normal_vol_to_black76_sln.obj_func_relative_px_error` | 471-474 | modelled | Black76 |
| pricing_engine/clewlow_strickland_1_factor.py | `clewlow_strickland_1_factor_simulate` | 7-102 | modelled | ForwardCurve, MonteCarlo |
| pricing_engine/cosine_method_generic.py | `cos_method` | 9-73 | modelled | CosMethod |
| pricing_engine/cosine_method_generic.py | `cos_method.C` | 61-62 | modelled | CosMethod |
| pricing_engine/cosine_method_generic.py | `get_cos_truncation_range` | 76-144 | modelled | Heston |
| pricing_engine/garman_kohlhagen.py | `garman_kohlhagen_price` | 11-194 | modelled | GarmanKohlhagen, GkCalls, Normal |
| pricing_engine/garman_kohlhagen.py | `garman_kohlhagen_solve_strike_from_delta` | 197-344 | modelled | FxConstruct, FxSurface, GarmanKohlhagen, StrikeBracket |
| pricing_engine/garman_kohlhagen.py | `garman_kohlhagen_solve_implied_vol` | 347-411 | modelled | FxSurface, GarmanKohlhagen |
| pricing_engine/garman_kohlhagen.py | `garman_kohlhagen_solve_implied_vol.error_function` | 400-401 | modelled | GarmanKohlhagen |
| pricing_engine/geometric_brownian_motion.py | `simulate_gbm_path` | 12-87 | modelled | MonteCarlo |
| pricing_engine/heston.py | `heston_price_vanilla_european` | 26-44 | modelled | Heston |
| pricing_engine/heston.py | `validate_input` | 49-55 | modelled | EntryPoints |
| pricing_engine/heston.py | `heston_calibrate_vanilla_smile` | 58-209 | modelled | EntryPoints, FxSurface, Heston |
| pricing_engine/heston.py | `heston_calibrate_vanilla_smile.calibration_helper` | 111-159 | modelled | FxSurface |
| pricing_engine/heston.py | `heston_1993_vanilla_european_integral` | 213-272 | modelled | Heston |
| pricing_engine/heston.py | `heston1993_price_vanilla_european` | 275-316 | modelled | Heston |
| pricing_engine/heston.py | `heston_carr_madan_price_vanilla_european` | 320-380 | modelled | Heston |
| pricing_engine/heston.py | `get_simpson_weights` | 383-386 | modelled | Heston |
| pricing_engine/heston.py | `heston_fft_vanilla_european_integral` | 390-416 | modelled | Heston |
| pricing_engine/heston.py | `chf_heston_albrecher2007` | 420-473 | modelled | Heston |
| pricing_engine/heston.py | `chf_heston_fang2008` | 478-520 | modelled | Heston |
| pricing_engine/heston.py | `calculate_Uk_european_options` | 523-569 | modelled | Heston |
| pricing_engine/heston.py | `calculate_Uk_european_options.calc_chi` | 540-549 | modelled | Heston |
| pricing_engine/heston.py | `calculate_Uk_european_options.calc_psi` | 551-556 | modelled | Heston |
| pricing_engine/heston.py | `heston_cosine_price_vanilla_european` | 572-651 | modelled | Heston |
| pricing_engine/heston.py | `heston_lipton_price_vanilla_european` | 654-684 | modelled | Heston |
| pricing_engine/heston.py | `heston_lipton_vanilla_european_integral` | 687-716 | modelled | Heston |
| pricing_engine/heston.py | `heston_simulate_scalar` | 719-821 | modelled | Heston, HestonSim |
| pricing_engine/heston.py | `heston_simulate` | 824-944 | modelled | Heston, HestonSim, MonteCarlo |
| pricing_engine/hw1f.py | `HullWhite1Factor.__post_init__` | 38-45 | modelled | Hw1f, HwSetup |
| pricing_engine/hw1f.py | `HullWhite1Factor.fit_theta` | 47-75 | modelled | HwSetup |
| pricing_engine/hw1f.py | `HullWhite1Factor.calc_error_for_theta_fit` | 78-97 | modelled | HwSetup |
| pricing_engine/hw1f.py | `HullWhite1Factor.setup_theta` | 100-117 | modelled | HwSetup |
| pricing_engine/hw1f.py | `HullWhite1Factor.get_thetas` | 120-145 | modelled | Hw1f, HwSetup |
| pricing_engine/hw1f.py | `HullWhite1Factor.get_forward_rate_by_integration` | 148-150 | modelled | SplineCurve |
| pricing_engine/hw1f.py | `HullWhite1Factor.simulate` | 153-304 | modelled | Hw1f |
| pricing_engine/hw1f.py | `HullWhite1Factor.price_zero_coupon_bond_option` | 307-373 | modelled | Hw1f |
| pricing_engine/hw1f.py | `HullWhite1Factor.price_optionlet` | 376-414 | modelled | Hw1f |
| pricing_engine/hw1f.py | `HullWhite1Factor.calc_b` | 417-437 | modelled | Hw1f |
| pricing_engine/hw1f.py | `HullWhite1Factor.calc_discount_factor_by_solving_ode_1` | 440-483 | modelled | Hw1f, HwSetup |
| pricing_engine/hw1f.py | `HullWhite1Factor.calc_discount_factor_by_solving_ode_1.calc_a` | 458-471 | modelled | Hw1f, HwSetup |
| pricing_engine/hw1f.py | `HullWhite1Factor.calc_discount_factor_by_solving_ode_1.calc_a.integrand_1` | 459-461 | modelled | Hw1f, HwSetup |
| pricing_engine/hw1f.py | `HullWhite1Factor.calc_discount_factor_by_solving_ode_1.calc_a.integrand_2` | 463-465 | modelled | Hw1f, HwSetup |
| pricing_engine/hw1f.py | `HullWhite1Factor.calc_discount_factor_by_solving_ode_2` | 486-528 | modelled | Hw1f |
| pricing_engine/hw1f.py | `HullWhite1Factor.calc_discount_factor_by_solving_ode_2.calc_a` | 506-517 | modelled | Hw1f |
| pricing_engine/hw1f.py | `HullWhite1Factor.calc_discount_factor_by_solving_ode_3` | 531-549 | modelled | EntryPoints |
| pricing_engine/hw1f.py | `HullWhite1Factor.jamshidian_decomposition` | 578-654 | modelled | Hw1f |
| pricing_engine/hw1f.py | `HullWhite1Factor.jamshidian_decomposition._zero_function` | 605-623 | modelled | Hw1f |
| pricing_engine/hw1f.py | `HullWhite1Factor.price_swaption` | 657-734 | modelled | Hw1f |
| pricing_engine/hw1f2.py | `y_integral` | 65-68 | modelled | HwScript |
| pricing_engine/hw1f2.py | `ex_integral` | 79-85 | modelled | HwScript |
| pricing_engine/hw1f2.py | `conditional_mean_x_scalar` | 87-92 | modelled | HwScript |
| pricing_engine/hw1f2.py | `variance_int` | 94-96 | modelled | HwScript |
| pricing_engine/hw1f2.py | `conditional_variance_x_scalar` | 98-103 | modelled | HwScript |
| pricing_engine/hw1f2.py | `HullWhite1Factor2.__post_init__` | 208-215 | modelled | Hw1f, HwSetup |
| pricing_engine/hw1f2.py | `HullWhite1Factor2.fit_theta` | 217-245 | modelled | HwSetup |
| pricing_engine/hw1f2.py | `HullWhite1Factor2.calc_error_for_theta_fit` | 248-267 | modelled | HwSetup |
| pricing_engine/hw1f2.py | `HullWhite1Factor2.setup_theta` | 270-287 | modelled | HwSetup |
| pricing_engine/hw1f2.py | `HullWhite1Factor2.get_thetas` | 290-315 | modelled | Hw1f, HwSetup |
| pricing_engine/hw1f2.py | `HullWhite1Factor2.get_forward_rate_by_integration` | 318-320 | modelled | SplineCurve |
| pricing_engine/hw1f2.py | `HullWhite1Factor2.simulate` | 323-474 | modelled | Hw1f |
| pricing_engine/hw1f2.py | `HullWhite1Factor2.price_zero_coupon_bond_option` | 477-543 | modelled | Hw1f |
| pricing_engine/hw1f2.py | `HullWhite1Factor2.price_optionlet` | 546-584 | modelled | Hw1f |
| pricing_engine/hw1f2.py | `HullWhite1Factor2.calc_b` | 587-607 | modelled | Hw1f |
| pricing_engine/hw1f2.py | `HullWhite1Factor2.calc_discount_factor_by_solving_ode_1` | 610-653 | modelled | Hw1f, HwSetup |
| pricing_engine/hw1f2.py | `HullWhite1Factor2.calc_discount_factor_by_solving_ode_1.calc_a` | 628-641 | modelled | Hw1f, HwSetup |
| pricing_engine/hw1f2.py | `HullWhite1Factor2.calc_discount_factor_by_solving_ode_1.calc_a.integrand_1` | 629-631 | modelled | Hw1f, HwSetup |
| pricing_engine/hw1f2.py | `HullWhite1Factor2.calc_discount_factor_by_solving_ode_1.calc_a.integrand_2` | 633-635 | modelled | Hw1f, HwSetup |
| pricing_engine/hw1f2.py | `HullWhite1Factor2.calc_discount_factor_by_solving_ode_2` | 656-698 | modelled | Hw1f |
| pricing_engine/hw1f2.py | `HullWhite1Factor2.calc_discount_factor_by_solving_ode_2.calc_a` | 676-687 | modelled | Hw1f |
| pricing_engine/hw1f2.py | `HullWhite1Factor2.calc_discount_factor_by_solving_ode_3` | 701-719 | modelled | EntryPoints |
| pricing_engine/hw1f2.py | `HullWhite1Factor2.jamshidian_decomposition` | 748-824 | modelled | Hw1f |
| pricing_engine/hw1f2.py | `HullWhite1Factor2.jamshidian_decomposition._zero_function` | 775-793 | modelled | Hw1f |
| pricing_engine/hw1f2.py | `HullWhite1Factor2.price_swaption` | 827-904 | modelled | Hw1f |
| pricing_engine/hw1f3.py | `y_integral_inner_term` | 70-79 | modelled | HwScript |
| pricing_engine/hw1f3.py | `ex_integral` | 86-120 | modelled | HwScript |
| pricing_engine/hw1f3.py | `conditional_mean_x_scalar` | 122-127 | modelled | HwScript |
| pricing_engine/hw1f3.py | `variance_int` | 129-131 | modelled | HwScript |
| pricing_engine/hw1f3.py | `conditional_variance_x_scalar` | 133-138 | modelled | HwScript |
| pricing_engine/hw1f3.py | `HullWhite1Factor2.__post_init__` | 255-262 | modelled | Hw1f, HwSetup |
| pricing_engine/hw1f3.py | `HullWhite1Factor2.fit_theta` | 264-292 | modelled | HwSetup |
| pricing_engine/hw1f3.py | `HullWhite1Factor2.calc_error_for_theta_fit` | 295-314 | modelled | HwSetup |
| pricing_engine/hw1f3.py | `HullWhite1Factor2.setup_theta` | 317-334 | modelled | HwSetup |
| pricing_engine/hw1f3.py | `HullWhite1Factor2.get_thetas` | 337-362 | modelled | Hw1f, HwSetup |
| pricing_engine/hw1f3.py | `HullWhite1Factor2.get_forward_rate_by_integration` | 365-367 | modelled | SplineCurve |
| pricing_engine/hw1f3.py | `HullWhite1Factor2.simulate` | 370-521 | modelled | Hw1f |
| pricing_engine/hw1f3.py | `HullWhite1Factor2.price_zero_coupon_bond_option` | 524-590 | modelled | Hw1f |
| pricing_engine/hw1f3.py | `HullWhite1Factor2.price_optionlet` | 593-631 | modelled | Hw1f |
| pricing_engine/hw1f3.py | `HullWhite1Factor2.calc_b` | 634-654 | modelled | Hw1f |
| pricing_engine/hw1f3.py | `HullWhite1Factor2.calc_discount_factor_by_solving_ode_1` | 657-700 | modelled | Hw1f, HwSetup |
| pricing_engine/hw1f3.py | `HullWhite1Factor2.calc_discount_factor_by_solving_ode_1.calc_a` | 675-688 | modelled | Hw1f, HwSetup |
| pricing_engine/hw1f3.py | `HullWhite1Factor2.calc_discount_factor_by_solving_ode_1.calc_a.integrand_1` | 676-678 | modelled | Hw1f, HwSetup |
| pricing_engine/hw1f3.py | `HullWhite1Factor2.calc_discount_factor_by_solving_ode_1.calc_a.integrand_2` | 680-682 | modelled | Hw1f, HwSetup |
| pricing_engine/hw1f3.py | `HullWhite1Factor2.calc_discount_factor_by_solving_ode_2` | 703-745 | modelled | Hw1f |
| pricing_engine/hw1f3.py | `HullWhite1Factor2.calc_discount_factor_by_solving_ode_2.calc_a` | 723-734 | modelled | Hw1f |
| pricing_engine/hw1f3.py | `HullWhite1Factor2.calc_discount_factor_by_solving_ode_3` | 748-766 | modelled | EntryPoints |
| pricing_engine/hw1f3.py | `HullWhite1Factor2.jamshidian_decomposition` | 795-871 | modelled | Hw1f |
| pricing_engine/hw1f3.py | `HullWhite1Factor2.jamshidian_decomposition._zero_function` | 822-840 | modelled | Hw1f |
| pricing_engine/hw1f3.py | `HullWhite1Factor2.price_swaption` | 874-951 | modelled | Hw1f |
| pricing_engine/in_progress/gbm_speed_exploration.py | `simulate_gbm` | 12-57 | modelled | GbmScripts |
| pricing_engine/in_progress/gbm_speed_exploration.py | `simulate_gbm_numba_prange` | 61-101 | modelled | GbmScripts |
| pricing_engine/in_progress/gbm_speed_exploration.py | `simulate_gbm_numba` | 105-134 | modelled | GbmScripts |
| pricing_engine/in_progress/monte_carlo_multiprocessing.py | `gbm_helper` | 26-42 | modelled | GbmScripts |
| pricing_engine/monte_carlo_generic.py | `generate_rand_nbs` | 6-64 | modelled | MonteCarlo |
| pricing_engine/monte_carlo_generic.py | `normal_corr` | 67-81 | modelled | MonteCarlo |
| pricing_engine/option.py | `GeometricBrownian` | 16-103 | modelled | GbmScripts |
| pricing_engine/option.py | `GeometricBrownian.helper` | 65-81 | modelled | GbmScripts |
| pricing_engine/sabr.py | `calc_sln_vol_for_strike_from_sabr_params` | 13-128 | modelled | Sabr, SabrCalls |
| pricing_engine/sabr.py | `solve_alpha_from_sln_vol` | 131-186 | modelled | Sabr |
| pricing_engine/sabr.py | `fit_sabr_params_to_sln_smile` | 189-257 | modelled | Sabr, SabrCalls |
| pricing_engine/sabr.py | `fit_sabr_params_to_sln_smile.vol_sse` | 225-234 | modelled | Sabr, SabrCalls |
| pricing_engine/volatility_generic.py | `forward_volatility` | 10-49 | modelled | FxSurface, NpReal, VolGeneric |
| pricing_engine/volatility_generic.py | `flat_forward_interp` | 52-77 | modelled | FxSurface, VolGeneric |
| term_structures/archive/ois_fixings.py | `OISFixings.__post_init__` | 21-29 | modelled | FixingObjects |
| term_structures/archive/ois_fixings.py | `OISFixings.get_coupon_rates` | 32-54 | modelled | FixingObjects |
| term_structures/archive/ois_fixings.py | `OISFixings._calculate_coupon_rate` | 57-79 | modelled | FixingObjects |
| term_structures/archive/ois_fixings.py | `TermFixings.__post_init__` | 88-91 | modelled | FixingObjects |
| term_structures/archive/ois_fixings.py | `TermFixings.get_coupon_rates` | 93-115 | modelled | FixingObjects |
| term_structures/archive/ois_fixings.py | `TermFixings._calculate_coupon_rate` | 118-140 | modelled | FixingObjects |
| term_structures/bootstrap_helpers.py | `cash_rates_quote_helper` | 11-39 | modelled | Bootstrap, CashTable |
| term_structures/bootstrap_helpers.py | `bootstrap_cash_rates` | 41-70 | modelled | Bootstrap, CashTable |
| term_structures/bootstrap_helpers.py | `bootstrap_futures` | 74-108 | modelled | Bootstrap, CashTable |
| term_structures/bootstrap_helpers.py | `futures_helper_asx_90day` | 111-185 | modelled | Bootstrap |
| term_structures/fx_helpers.py | `fx_term_structure_helper` | 18-63 | modelled | FxConstruct, FxHelpers, Sort |
| term_structures/fx_helpers.py | `fx_forward_curve_helper` | 66-82 | modelled | FxConstruct |
| term_structures/fx_helpers.py | `validate_ccy_pair` | 85-99 | modelled | Tenor |
| term_structures/fx_helpers.py | `check_delta_convention` | 105-130 | modelled | FxHelpers |
| term_structures/fx_helpers.py | `clean_vol_quotes_column_names` | 133-151 | modelled | FxHelpers |
| term_structures/fx_helpers.py | `solve_call_put_quotes_from_strategy_quotes` | 154-175 | modelled | FxHelpers |
| term_structures/fx_helpers.py | `get_delta_smile_quote_details` | 178-199 | modelled | FxConstruct, FxHelpers |
| term_structures/fx_helpers.py | `interp_fx_forward_curve_df` | 202-238 | modelled | FxHelpers |
| term_structures/fx_volatility_surface.py | `FXVolatilitySurface.__post_init__` | 68-101 | modelled | FxConstruct, FxSurface |
| term_structures/fx_volatility_surface.py | `FXVolatilitySurface._add_fx_ir_to_df` | 104-112 | modelled | FxConstruct, FxSurface |
| term_structures/fx_volatility_surface.py | `FXVolatilitySurface._setup_vol_smile_pillar_df` | 115-131 | modelled | FxConstruct, FxSurface |
| term_structures/fx_volatility_surface.py | `FXVolatilitySurface._setup_vol_smile_daily_df` | 134-178 | modelled | FxConstruct, FxSurface |
| term_structures/fx_volatility_surface.py | `FXVolatilitySurface._setup_strike_pillar` | 181-195 | modelled | FxConstruct, FxSurface |
| term_structures/fx_volatility_surface.py | `FXVolatilitySurface._solve_vol_daily_smile_func` | 198-283 | modelled | FxConstruct, FxSurface |
| term_structures/fx_volatility_surface.py | `FXVolatilitySurface.interp_vol_surface` | 286-346 | modelled | FxConstruct, FxSurface |
| term_structures/fx_volatility_surface.py | `FXVolatilitySurface.price_vanilla_european` | 349-382 | modelled | FxConstruct, FxSurface |
| term_structures/fx_volatility_surface.py | `FXVolatilitySurface.simulate_gbm_fx_rate_path` | 385-440 | modelled | EntryPoints, FxSurface |
| term_structures/fx_volatility_surface.py | `FXVolatilitySurface.simulate_heston_fx_rate_path` | 443-498 | modelled | EntryPoints |
| term_structures/fx_volatility_surface.py | `FXVolatilitySurface.plot_smile` | 501-565 | modelled | Plots |
| term_structures/historical_swap_index_fixings.py | `HistoricalSwapIndexFixings.__post_init__` | 20-25 | modelled | FixingObjects |
| term_structures/historical_swap_index_fixings.py | `RFRFixings.get_coupon_rates` | 31-51 | modelled | FixingObjects, Fixings |
| term_structures/historical_swap_index_fixings.py | `RFRFixings._calculate_coupon_rate` | 53-75 | modelled | FixingObjects, Fixings |
| term_structures/historical_swap_index_fixings.py | `TermFixings.index_historical_fixings` | 82-97 | modelled | Fixings |
| term_structures/interest_rate_option_helpers.py | `process_capfloor_quotes` | 21-118 | modelled | EntryPoints |
| term_structures/interest_rate_option_helpers.py | `settlement_date_helper` | 122-138 | modelled | Optionlet |
| term_structures/interest_rate_option_helpers.py | `standardise_atmf_quote_col_names` | 141-152 | modelled | IrQuotes |
| term_structures/interest_rate_option_helpers.py | `standardise_relative_quote_col_names` | 155-180 | modelled | IrQuotes |
| term_structures/interest_rate_option_helpers.py | `standardise_absolute_quote_col_names` | 183-202 | modelled | IrQuotes |
| term_structures/optionlet.py | `Optionlet.__post_init__` | 48-252 | modelled | Optionlet, OptionletBoot, OptionletPricing |
| term_structures/optionlet.py | `Optionlet.__post_init__.obj_func_relative_px_error` | 185-190 | modelled | Optionlet, OptionletBoot |
| term_structures/optionlet.py | `Optionlet._solve_vol_n_atm` | 255-382 | modelled | OptionletBoot |
| term_structures/optionlet.py | `Optionlet._solve_sabr_params` | 385-518 | modelled | OptionletBoot, Sabr |
| term_structures/optionlet.py | `Optionlet._solve_sabr_params.sse_sabr_for_pillar_optionlet` | 390-437 | modelled | OptionletBoot, Sabr |
| term_structures/optionlet.py | `Optionlet.interpolate_sabr_term_structure` | 521-571 | modelled | OptionletPricing |
| term_structures/optionlet.py | `Optionlet._validate_strike_and_option_type` | 574-592 | modelled | OptionletPricing |
| term_structures/optionlet.py | `Optionlet._price_optionlets` | 595-702 | modelled | OptionletPricing |
| term_structures/optionlet.py | `Optionlet.price_optionlets_per_term_structure` | 704-717 | modelled | OptionletPricing |
| term_structures/optionlet.py | `Optionlet.price_optionlets_per_flat_vol_sln` | 719-731 | modelled | OptionletPricing |
| term_structures/optionlet.py | `Optionlet.price_optionlets_per_flat_vol_n` | 733-745 | modelled | OptionletPricing |
| term_structures/swap_curve.py | `TermSwapCurve.__post_init__` | 26-27 | modelled | FixingObjects |
| term_structures/swap_curve.py | `TermSwapCurve.get_fixings` | 29-53 | modelled | Fixings |
| term_structures/swap_curve.py | `RFRSwapCurve.__post_init__` | 61-62 | modelled | FixingObjects, SwapCurveObject |
| term_structures/swap_curve.py | `RFRSwapCurve.get_discount_factors` | 64-65 | modelled | FixingObjects, SwapCurveObject |
| term_structures/swap_curve.py | `RFRSwapCurve.get_fixings` | 67-100 | modelled | Fixings, SwapCurveObject |
| term_structures/swap_curve.py | `RFRSwapCurve._get_crossover_coupon_rate` | 103-125 | modelled | Fixings, SwapCurveObject |
| term_structures/zero_curve.py | `ZeroCurve.__post_init__` | 35-42 | modelled | NanCurve, PillarTable, SplineCurve, ZeroCurve |
| term_structures/zero_curve.py | `ZeroCurve._process_pillar_df` | 44-150 | modelled | NanCurve, PillarTable, SplineCurve, ZeroCurve |
| term_structures/zero_curve.py | `ZeroCurve._process_pillar_df.__calculate_days` | 64-65 | modelled | NanCurve, PillarTable, SplineCurve, ZeroCurve |
| term_structures/zero_curve.py | `ZeroCurve._process_pillar_df.__calculate_years` | 66-67 | modelled | NanCurve, PillarTable, SplineCurve, ZeroCurve |
| term_structures/zero_curve.py | `ZeroCurve._setup_daily_df` | 153-193 | modelled | NanCurve, SplineCurve, ZeroCurve |
| term_structures/zero_curve.py | `ZeroCurve.flat_shift` | 196-207 | modelled | EntryPoints |
| term_structures/zero_curve.py | `ZeroCurve.get_forward_rates` | 209-283 | modelled | ZeroCurve |
| term_structures/zero_curve.py | `ZeroCurve.get_instantaneous_forward_rate` | 285-292 | modelled | SplineCurve |
| term_structures/zero_curve.py | `ZeroCurve.get_discount_factors` | 295-302 | modelled | NanCurve, SplineCurve, ZeroCurve |
| term_structures/zero_curve.py | `ZeroCurve.get_zero_rates` | 305-318 | modelled | NanCurve, SplineCurve, ZeroCurve |
| term_structures/zero_curve.py | `ZeroCurve.index_daily_data` | 321-394 | modelled | LegCurve, NanCurve, SplineCurve, ZeroCurve |
| term_structures/zero_curve.py | `ZeroCurve.plot` | 397-423 | modelled | Plots |
| utils/business_day_calendar.py | `get_holidays_object` | 22-28 | modelled | Calendar |
| utils/business_day_calendar.py | `convert_weekend_to_weekmask` | 31-41 | modelled | Calendar |
| utils/business_day_calendar.py | `get_busdaycal` | 44-65 | modelled | Calendar |
| utils/daycount.py | `convert_to_same_shape_datetimeindex` | 9-23 | modelled | DayCount |
| utils/daycount.py | `day_count` | 26-120 | modelled | DayCount |
| utils/daycount.py | `year_frac` | 123-160 | modelled | Date, DayCount |
| utils/daycount.py | `to_datetimeindex` | 163-195 | modelled | Date, DayCount, EntryPoints |
| utils/schedule.py | `BaseSchedule.__post_init__` | 33-39 | modelled | LegTable |
| utils/schedule.py | `BaseSchedule.make_schedule` | 41-59 | modelled | LegTable, OptionletPricing |
| utils/schedule.py | `BaseSchedule.add_payment_dates` | 61-95 | modelled | LegTable, OptionletPricing, Schedule |
| utils/schedule.py | `BaseSchedule.add_period_daycount` | 97-111 | modelled | LegTable |
| utils/schedule.py | `BaseSchedule.add_period_yearfrac` | 113-126 | modelled | Leg, LegTable, OptionletPricing |
| utils/schedule.py | `NotionalSchedule.__post_init__` | 137-139 | modelled | LegTable |
| utils/schedule.py | `NotionalSchedule.add_notional_schedule` | 141-171 | modelled | LegTable, Schedule |
| utils/schedule.py | `CouponSchedule.__post_init__` | 179-181 | modelled | LegTable, Schedule |
| utils/schedule.py | `CouponSchedule.determine_valid_shapes_for_coupon_param` | 183-192 | modelled | LegTable, Schedule |
| utils/schedule.py | `make_schedule` | 199-414 | modelled | EntryPoints, Schedule |
| utils/schedule.py | `generate_date_schedule` | 417-532 | modelled | Date, ExposureGrid, Schedule |
| utils/schedule.py | `generate_date_schedule.busday_offset_timestamp` | 462-465 | modelled | Date |
| utils/schedule.py | `generate_date_schedule.apply_specific_day_roll` | 467-475 | modelled | Date, Schedule |
| utils/schedule.py | `create_date_grid_for_fx_exposures` | 535-620 | modelled | ExposureGrid |
| utils/tenor.py | `clean_tenor` | 15-37 | modelled | Tenor |
| utils/tenor.py | `tenor_to_date_offset` | 40-76 | modelled | Date, Tenor, Text |
| utils/tenor.py | `workday` | 83-89 | modelled | BusDay |
| utils/tenor.py | `check_day_offset_consistency` | 94-103 | modelled | EntryPoints |
| utils/tenor.py | `calc_implied_business_day_offset` | 106-118 | modelled | Tenor |
| utils/tenor.py | `resolve_fx_curve_dates` | 121-147 | modelled | Tenor |
| utils/tenor.py | `get_fx_spot_day_offset` | 150-162 | modelled | Tenor |
| utils/tenor.py | `get_ir_settlement_offset` | 165-173 | modelled | Tenor |
| utils/utilities.py | `convert_column_to_consistent_data_type` | 9-13 | modelled | FxConstruct |
| utils/utilities.py | `copy_errors_and_warnings_to_input` | 16-27 | modelled | Utilities |
| utils/utilities.py | `clean_input_dataframe` | 30-46 | modelled | Utilities |
| utils/utilities.py | `move_col_after` | 49-52 | modelled | Utilities |

Not modelled at all: files whose code is entirely
commented out (the other files of `frm/term_structures/archive`, `utils/interpolation.py`, `utils/schedule_old.py`, `term_structures/zero_curve_helpers.py`,
`term_structures/swaption.py`), the notebooks and
scripts under `examples`, the spreadsheets under `excel_models`, plotting, printing, timing and progress messages.
`hw1f2.py` and `hw1f3.py` are working copies that no other module imports; their classes are `hw1f.py`'s but for the name, and their scripts are in HwScript.

`instruments/leg.py` imports `discount_factor_from_zero_rate` from `term_structures/zero_curve_helpers.py`, whose code is
entirely commented out, so at this commit `import frm.instruments.leg` and `import frm.instruments.swap` raise
`ImportError`. The leg and swap properties (C20, C24–C29) are about the classes as written, with that function as the
commented-out text defines it.

## 7. Wrong programs

`seeded/LOG.jsonl` has one line per edited model. Edits were made in a copy of `lean/Verif` outside `/verif`, the copy was
rebuilt, and the theorems that stopped proving were recorded. Where an edit survived, the line names the theorem that was
tightened or added. Edits that repair a defect are expected to break the theorem that states the defect.
