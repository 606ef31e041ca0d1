# Formal model of JunbeomL22/trusted in Lean 4

Source of truth: `/repo` (two crates, `trading-engine` and `quantlib`), read as text. Everything below lives in
`/verif/lean/Verif`. Nothing was compiled or run.

## 1. Trusted base

* Lean 4.33.0's kernel and the Mathlib modules imported one by one.
* Axioms: every theorem depends on a subset of `propext`, `Classical.choice`, `Quot.sound`; `AXIOMS.md` lists the axioms
  of each theorem in the manifest, as printed by Lean. No axiom is added, nothing rests on compiled code.
* The faithfulness of the model to the Rust text: every definition of the model cites the file and lines it models and
  says where it simplifies. `seeded/LOG.jsonl` records the wrong programs the theorems were tested against.
* The specifications of what is not in the repository but called by it: the `time` crate (dates, offsets, ranges),
  `BTreeMap`/`HashMap`/`VecDeque`, `from_utf8`, the regular expressions used for periods, `statrs`' Gaussian (taken
  as the exact one), and the C++11 release-acquire rules for the atomics of the spin queue.

## 2. Modelling conventions

* **Panics** are explicit: model functions return `Res α = Except Fault α`. `Fault` distinguishes overflow, `unwrap` on
  nothing, index or slice out of range, division by zero, a division or logarithm that would give NaN or infinity
  (`nonfinite`), divergence, and `err` for an ordinary `Err` value.
* **u64 arithmetic** is on `Nat` through checked operations that take a `Mode`: `checked` (debug build, overflow panics)
  or `wrapping` (release build, modulo 2^64). Theorems quantify over the mode unless stated.
* **i64 prices** are `Int`; where sentinels or ranges matter they are hypotheses.
* **BTreeMap**: list with ascending keys. **HashMap**: a function `key → Option value`, or a list with the theorem that
  its order does not matter.
* **Floating point**: in the models under `TE` and `QL`, exact arithmetic in an ordered field, ℚ or ℝ: those theorems speak
  about the exact-arithmetic algorithm. `Verif/Float` models IEEE-754 binary32 and binary64 exactly (round to nearest even,
  subnormals, overflow, signed zero, NaN, conversions between integers and floats) and the functions again in the operation
  order of the source; the theorems from C134 on are about these. Transcendental functions (`powf`, `exp`) are parameters
  there, with the hypotheses stated in the theorem.
* **Memory behind a slice**: the SWAR parsers read words through raw pointers; bytes behind the field are arbitrary.
* **Errors drop the state**: where a Rust method fails halfway and leaves its object changed, the model gives only the
  error, except where what is left is the subject: C154 (KRX parsers) and C155 (engine) have second models that keep
  every write up to the failure, proved to agree with the first ones.
* Logging, error texts, serde formats and I/O are not modelled unless listed. For C166 and C167 what serde derives and the crate `time` writes for a date are modelled
  on values of the format; the JSON text itself, and that a finite `f32` is read back from its decimal text, are trusted.

## 3. What is modelled and what is not

Modelled: `trading-engine`: orderbook/{level,half_book,mod}, utils/{numeric_converter,timer,counter}, types/{timestamp,
base (snapshots, virtual ids), id/*, venue}, spinqueue, logger, feature/*, data/{checker,quote,trade,trade_quote,krx/*}; `quantlib`:
utils/{find_index,string_arithmetic,distribute_value,make_fx}, math/*, time/*, data/*, parameters/*, instruments/*,
currency, instrument (portfolio), pricing_engines/{all pricers, match_parameter, pricer_factory, engine, engine_generator,
calculation_result}.

Simplified:
* `time` crate values are nanoseconds on a proleptic Gregorian calendar with an offset; ranges are those of the crate.
* Calendar tables are generated from the source text by a script and checked as data.
* Pricers: `HashMap<DateTime, Real>` of cash flows is a list keyed by instant; yields are taken as given (the search
  with crate `argmin` is not modelled).
* Volatility surfaces: fields of the local volatility that nothing reads are dropped.
* Portfolio: instruments are what their trait functions answer; loading keeps of the data only whether an entry exists
  and whether its constructor accepts it.
* Engine: pricers are arbitrary functions of instrument and market, except in QL/Wire (C156 on), where they are those `create_pricer` makes; the state of interpolators is derived.
* Spin queue and counters: arbitrary interleavings, release-acquire for the spin queue; the item behind the unsafe
  pointer is a value, races on it are what C34 excludes.
* Instrument ids: a leaked box is its position in the sequence of leaked boxes.
* Logger: an execution is a sequence of sends, flag changes and rounds of the worker; the channel is a first-in-first-out
  list; files are the journal of appends, which succeed (opening may fail); `BufWriter` with its 8192 bytes; the JSON text
  is what the closure computes (C180 models the values and the compact printer of `serde_json`, with the texts of numbers as parameters). The struct forms of the log macros name a static that does not exist and cannot be used.
* KRX parsers: the ten unrolled blocks of a macro are a loop.

Not modelled: `topics`, benches and examples, monte-carlo random numbers
(`rand_generator.rs`), `tracing_timer`, Display implementations unless listed, and files that are empty structs
(`stock_trade.rs`, `datetimegrid.rs`).

## 4. Layout

* `Verif/Basic.lean`, `Verif/Civil.lean`: faults, modes, checked arithmetic; the civil calendar.
* `Verif/TE/*`: model of `trading-engine` (`*Spec` independent specifications, `*Lemmas` proofs).
* `Verif/QL/*`: model of `quantlib`.
* `Verif/Float/*`: IEEE-754 arithmetic, its rounding lemmas, and the floating-point functions of both crates.
* `Verif/Props/*`: the property theorems by topic. Specifications are at the head of each file or beside the theorem;
  each theorem has an `example`, a `*_witness` or a `fault_*` theorem that meets its hypotheses on a concrete case.
* `fault_*` theorems are witnesses of behaviour a user would not expect.

## 5. Findings (each a theorem)

Order book: the text of a side up to a depth shows its worst prices (`fault_depth_hides_the_best`); a market sell decrements its level twice (totals, best price, crossing: `fault_market_sell_*`);
`add_limit_order` can cross the book; zero-quantity orders break lookup and make `remove_order` diverge; duplicate
prices in a snapshot and multi-order levels are not reproduced; virtual ids can collide with client ids.

Parsing: length 0 in the 8-byte and length 16 in the 32-byte parser; the unchecked price conversion ignores sign, unused
bytes and point — so every KRX stock quote price is divided by 100 (`fault_stock_price`) and every price of a new 0036
trade is wrong (`C102_always_wrong`); 0038 keeps a stale converter in a buffer; a short packet or one that is not UTF-8
panics instead of giving an error; `G714F` has no interface. The KRX offset is added to Korean time, not subtracted.

Clock: the fifteen-hour rule misses a session that closes at 15:45 and opens at 08:45 (`fault_day_session`);
dates before 1970 and offsets beyond a day are wrong; shared counters wrap.

Dates: subtracting months is wrong when the month number goes below one (`fault_sub_18_months`), pinned by a unit
test; "1h1M" loses the hour; period values of 2^31 and more wrap; modified following compares months, not years; the
Street convention gives negative fractions; ISDA splits at 31 December; the time between two instants can be negative
across a year end; the two Good Friday tables are exchanged; the KRX year-end closing stops after 2050.

Interpolation: the last knot is refused without extrapolation, a single knot panics, repeated knots give 0/0; the
vectorised stepwise interpolation ignores configured extrapolation values.

Instruments and curves: one coupon beyond maturity for one-period schedules; all dividends in the past panics; bumping
revives past dividends; the simple rate of a curve is a discount yield and grows without bound for short periods; a
date in a past year has discount 1; bonds from conventions are unchecked; FX types cannot come from conventions; the
expected coupon amounts of the legs of a swap and the FX exposures of an FX future overwrite one another; compounding with a zero tenor diverges; at-the-money
expiry is NaN; a quanto forward is not adjusted, so prices can be negative; a constant volatility ignores bump windows.

Portfolio and engine: unknown currency text is NIL, short pair text panics; currencies of floating legs and of option
underlyings are left out; IRS, daily-settled options, KTBF and bond futures are never priced; the same code in two groups
keeps only one result; dividend delta does not restore a market with past dividends; skipped rows end lowered by the vega
matrix; a second calculation fails; greeks without npv fail; conversion leaves npv and cash flows unconverted.

Cash flows are kept in a standard hash map, so sums over three or more of them come out differently from run to run in single
precision, and a rho of ±596 on 10 billion can appear where nothing moved (`fault_order`).

Features and logger: vwap ignores a one-sided bid book; weights decay from the creation, not from the last observation; the
average trade price overflows; a flushing log message is not flushed (it stays in the writer); the flush interval is 2 ms,
not 2 s; the queue is bounded in messages, not bytes; messages sent after the end make callers panic; what the end writes
is not shown on the console.

Saving and loading: a currency pair is written as a text and read as a struct, so saved FX futures, quanto options and cross-currency
swaps can never be loaded; no number converter can be loaded after it was saved (it is written with its configuration inside and read
as the configuration); identifiers loaded are not checked as `IsinCode::new` checks them (`fault_isin_unchecked`); an optional
rate that is NaN or infinite comes back as if not given.

Time stamps: all stamps of a process are ahead of the system time by as long as the first caller was held up between its two
anchors (`fault_lead`); thread-local stamps of different threads are not ordered (`fault_threads_disagree`).

From messages to the book: the book takes the whole vectors of a snapshot, not the effective levels, so stale levels of a longer
buffer appear in it (`fault_roomy_buffer`); empty levels of a message become a level at price 0, which is then the best ask
(`fault_empty_levels`); stock levels fall together (`fault_stock_levels`).
A level that is cleared keeps its total (`C175_clear`); a date generator made from a date before 1970 or after 2554-07-21 is at another date (`C174_fit`).
A book made by `Default` has two ask sides: bids never rest in it (`C176_no_bids`) and its best ask starts at 0 (`C176_best`).
A future has no rho to the curve of its borrowing cost, though its value depends on that curve (`C177_futures`).
A client that reads messages of several instruments into one buffer with different level cuts finds levels of another instrument in its book (`fault_foreign_levels`).

## 6. Per property

Status and theorem names are those of `MANIFEST.json`; the statement of each is in `properties.jsonl`.


**Model** TE/Level; **theorems** Props/BookCore. Induction on the queue of the level, against the specification `fill` (first in, first out).

* **C01** (proved) A price level trades strictly first-in first-out: `C01_level_trade_is_fifo`.

**Model** TE/HalfBook, TE/OrderBook; **theorems** Props/BookReach, BookCore, BookFaults. Representation invariant of the book (levels sorted, totals exact, cache = orders), preserved by every operation; induction over histories. Histories contain no market sells, for which the code decrements a level twice: witnesses in BookFaults.

* **C02** (proved) Half-book total equals the sum of its resting orders after every history: `C02_totals`. false for market sells: fault_market_sell_totals.
* **C03** (proved) Best price is always the true best price: `C03_best_price`. false after market sells: fault_market_sell_crosses.
* **C04** (proved) The book is never crossed: `C04_never_crossed`. false after market sells (fault_market_sell_crosses) and for add_limit_order/change_price (fault_add_crosses).

**Model** TE/HalfBook, TE/OrderBook; **theorems** Props/BookOps. Refinement of the matching loop to one price-time ordered queue; sentinel prices excluded, what is lost there is C07_dropped.

* **C05** (proved) Limit-order matching follows price-time priority: `C05_limit_price_time`.
* **C06** (proved) Trade accounting of a limit order: `C06_trade_accounting`.
* **C07** (proved) No quantity of a limit order is lost: `C07_no_quantity_lost`, `C07_dropped`.

**Model** TE/HalfBook; **theorems** Props/BookOps, BookFaults. Same refinement for market buys (`_partial`). The claim for market sells is false in the code; what they do in release builds and that debug builds panic or report a wrong level is proved instead.

* **C08** (partial) Market orders sweep the opposite side from its best price: `C08_market_buy_partial`, `C08_market_sell_release`, `C08_market_sell_debug`, `fault_market_sell_debug`, `fault_market_sell_totals`, `fault_market_sell_crosses`. Full for market buys. For market sells the claim is false in the code (the level total is decremented twice): proved what holds in release, and that debug builds panic or report a wrong level quantity..

**Model** TE/HalfBook, TE/OrderBook; **theorems** Props/BookOps. Frame and refinement lemmas per operation; C11/C15/C17 name the histories (zero quantities, duplicate ids, market sells) outside the contract and give witnesses.

* **C09** (proved) A market order against an empty side changes nothing: `C09_market_empty_side`.
* **C10** (proved) Cancel removes exactly the named order: `C10_cancel`.
* **C11** (proved) Order lookup agrees with the resting orders: `C11_lookup`. outside the contract: fault_zero_quantity_lookup (panic).
* **C12** (proved) Quantity change keeps time priority: `C12_quantity_change`.
* **C13** (proved) Re-pricing equals cancel then resubmit: `C13_reprice`, `C13_unknown`.
* **C14** (proved) Add followed by cancel is the identity: `C14_add_cancel_identity`.
* **C15** (proved) remove_order takes from the back of the level: `C15_remove_from_back`. outside the contract: fault_zero_quantity_remove (divergence).
* **C16** (proved) change_price moves one order to the tail of the new level: `C16_change_price`.
* **C17** (proved) No panic on valid histories: `C17_no_panic`. needed conditions: fault_market_sell_debug, fault_zero_quantity_lookup, fault_zero_quantity_remove, fault_duplicate_id.
* **C18** (proved) Sides are independent: `C18_sides_independent`.

**Model** TE/OrderBook (snapshots); **theorems** Props/Snapshot, SnapshotFaults. Invariants of the folds over the snapshot; virtual ids by a counter invariant.

* **C19** (proved) Snapshot update makes the side equal to the snapshot: `C19_update_equals_snapshot`. limits: fault_update_multi_order, fault_duplicate_prices.
* **C20** (proved) Snapshot update is idempotent: `C20_idempotent`.
* **C21** (proved) Snapshot decomposition reproduces the snapshot: `C21_decompose`. limits: fault_decompose_zero, fault_virtual_id_collision.
* **C22** (proved) eq_level decides equality of price ladders: `C22_eq_level`, `C22_equivalence`. limit: fault_eq_level_asymmetric (zero-quantity levels).
* **C23** (proved) Snapshots for another instrument are rejected without effect: `C23_wrong_instrument`, `C23_right_instrument`.
* **C24** (proved) Virtual order ids never repeat: `C24_virtual_ids_unique`. limit: fault_virtual_id_collision (client ids).

**Model** TE/Numeric; **theorems** Props/Parsing. Byte lanes: each mask, shift and multiplication acts on the lanes of the word; bytes behind the field are arbitrary.

* **C25** (proved) Short decimal fields parse to their value: `C25_parse_under8`, `C25_total`. limit: fault_under8_empty (length 0).
* **C26** (proved) Medium decimal fields parse to their value: `C26_parse_under16`, `C26_total`, `C26_agrees_with_under8`.
* **C27** (proved) Long decimal fields parse to their value: `C27_parse_under32`, `C27_short_slice`. limit: fault_under32_at_16 (length 16).
* **C28** (proved) Fixed-point fields drop the decimal point exactly: `C28_fixed8`, `C28_fixed16`, `C28_fixed32`, `C28_no_point`.
* **C29** (proved) Clock fields parse to nanoseconds: `C29_hhmmss`, `C29_short_fields`.

**Model** TE/Numeric; **theorems** Props/Parsing. Composition per configuration. C31 is false for fields with sign, unused bytes or point (`_partial` + refutations).

* **C30** (proved) Converter configurations parse every field they admit: `C30_accepts`, `C30_converter`, `C30_unsupported`, `C30_krx`.
* **C31** (partial) Unchecked price conversion agrees with the checked one: `C31_unchecked_agrees_partial`, `C31_unchecked_with_prefix`, `fault_stock_price_unchecked`, `fault_unchecked_point`. Proved without sign, unused bytes and point. Refuted otherwise: with k zero-filled unused bytes the unchecked conversion divides the value by 10^k (used for all KRX stock quote prices, k=2); with a point it reads the point as a digit..

**Model** TE/Clock; **theorems** Props/Clock. State machine; induction over streams of messages. `C32_sharp`: the fifteen-hour rule is exactly the condition.

* **C32** (proved) Exchange timestamps never go backwards across midnight: `C32_first`, `C32_step`, `C32_stream`, `C32_monotone`, `C32_sharp`, `C32_short_field`, `C32_generator_day`, `C32_diff`, `C32_diff_negative`. sharp: C32_sharp; a stream the rule misses: fault_day_session (close 15:45, open 08:45 next day goes back in time).

**Model** TE/Timer, Civil; **theorems** Props/Timer. Loop invariants against the Gregorian calendar of `Civil`.

* **C33** (proved) Civil date conversion is correct for every day: `C33_days_to_date`, `C33_consecutive`, `C33_components`, `C33_convert`, `C33_render`. limits: fault_before_1970, fault_large_offset.

**Model** TE/SpinQueue; **theorems** Props/Spin. Interleaving transition system with a release-acquire memory (views); inductive invariant for any number of workers and items.

* **C34** (proved) Spin queue: writer and workers are mutually exclusive and every worker sees every item once: `C34_worker_id`, `C34_new`, `C34_exclusive`, `C34_delivery`, `C34_progress`, `C34_fresh_get`. release-acquire memory model, unbounded executions.

**Model** TE/Counter; **theorems** Props/Counter. Any interleaving of atomic increments by any number of callers; ghost history.

* **C35** (proved) Shared counters hand out unique values: `C35_result`, `C35_handed_out`, `C35_unique`, `C35_unbounded`, `C35_next_id`. limit: fault_counter_wraps.

**Model** QL/FindIndex; **theorems** Props/FindIndex. Loop invariants of the binary and vectorised search.

* **C36** (proved) Index search brackets the value: `C36_sorted`, `C36_bracket`, `C36_bracket_unique`, `C36_empty`, `C36_incomparable`. limits: fault_search_duplicates, fault_search_unsorted.
* **C37** (proved) Vectorised index search equals pointwise search: `C37_vectorised`, `C37_brackets`.

**Model** QL/Interp; **theorems** Props/Interp, Stepwise. Algebra in an ordered field, on top of C36.

* **C38** (proved) Linear interpolation goes through its knots and stays between them: `C38_new`, `C38_inside`, `C38_knot`, `C38_last_knot`, `C38_refused`, `C38_flat`, `C38_linear`, `C38_between`, `C38_monotone`, `C38_vectorised`. limits: fault_linear_single_knot, fault_repeated_knots.
* **C39** (proved) Stepwise interpolation: vectorised equals pointwise: `C39_new`, `C39_inside`, `C39_outside`, `C39_vectorised`, `C39_agrees`. the two entry points disagree on configured extrapolation values: fault_stepwise_extrapolation.
* **C40** (proved) Value distribution conserves the total: `C40_total`, `C40_moment`, `C40_weights`, `C40_refused`. limit: fault_distribute_repeated.

**Model** QL/Period, QL/DateTime; **theorems** Props/Period. The period text is parsed as the regular expressions do; month arithmetic against `Civil`. C42 states in which cases the code is right and what it does in the others.

* **C41** (proved) Month arithmetic: adding months: `C41_add_period`, `C41_add_months`, `C41_no_match`, `C41_add_period_date`. limits: fault_clock_before_calendar, fault_period_wraps, fault_period_garbage.
* **C42** (proved) Month arithmetic: subtracting months: `C42_sub_months_date`, `C42_correct`, `C42_wrong`, `C42_sub_period`, `C42_sub_period_date`. witness of the wrong branch: fault_sub_18_months.

**Model** QL/Calendar; **theorems** Props/Adjust. Well-founded search; a business day exists because every calendar has a proved stretch of business days.

* **C43** (proved) Business-day adjustment: `C43_following`, `C43_preceding`, `C43_business_day`, `C43_unadjusted`, `C43_returns_business_day`, `C43_modified_following`, `C43_modified_preceding`. limit: fault_modified_following (months are compared, not years).
* **C44** (proved) Joint calendar holiday is the union: `C44_joint`, `C44_empty`.

**Model** QL/DayCount; **theorems** Props/DayCount. Rational arithmetic; telescoping.

* **C45** (proved) Day-count fractions are non-negative and additive: `C45_error`, `C45_actual`, `C45_actual_additive`, `C45_thirty`, `C45_street`, `C45_isda`, `C45_isda_additive`. limits: fault_street_convention (negative fraction), fault_isda_first_of_january.

**Model** QL/Schedule; **theorems** Props/Schedule. Invariants of the forward and backward generation.

* **C46** (proved) Coupon schedules tile the life of the instrument: `C46_schedule`, `C46_tiles`, `C46_forward_starts`, `C46_backward_starts`, `C46_fixing_payment`, `C46_one_coupon`, `C46_refused`, `C46_forward_unadjusted`. limits: fault_one_coupon_beyond_maturity, fault_backward_refused, fault_daily_weekend, fault_weekend_stub.

**Model** QL/Dividend; **theorems** Props/Dividend. The world of evaluation date, prices and dividends with observers; products over intervals.

* **C47** (proved) Moving the evaluation date back and forth restores the market price: `C47_chain`, `C47_round_trip`, `C47_path_independent`, `C47_move_succeeds`. limit: fault_full_dividend.
* **C48** (proved) Dividend deduction ratio uses exactly the dividends after the evaluation date: `C48_new`, `C48_update`, `C48_refused`. limit: fault_all_dividends_past.

**Model** QL/Cholesky; **theorems** Props/Cholesky. Invariant of the three nested loops over an ordered field with square roots.

* **C49** (proved) Cholesky factor reproduces the matrix: `C49_factor`, `C49_accepts`, `C49_unique`, `C49_lower_only`. exact arithmetic with a square-root function; instantiated at the reals.

**Model** QL/Interp; **theorems** Props/Interp. Algebra.

* **C50** (proved) Bilinear surfaces go through their grid and are linear in time between rows: `C50_inside`, `C50_outside`, `C50_grid`. limit: fault_rectangle_unsorted.

**Model** QL/Calendar, QL/CalendarTables; **theorems** Props/Holidays. Rules by case analysis on month and weekday; lunar tables by a kernel-checked walk of the whole table (the domain of the statement), not a sample.

* **C51** (proved) Which days are holidays: `C51_rule`, `C51_instant`, `C51_add`, `C51_remove`, `C51_total`.
* **C52** (proved) Holidays of the United States calendars: `C52_us_rules`.
* **C53** (proved) Good Friday: `C53_good_friday`, `fault_nyse_good_friday`. the code has the two tables exchanged; proved exactly.
* **C54** (proved) Holidays of the Korean calendars: `C54_year_end`, `C54_chuseok`, `C54_lunar_new_year`, `C54_korea`. limit: fault_krx_2051.

**Model** QL/DayCount; **theorems** Props/CurveTimes. Position function.

* **C55** (proved) Time between two date-times: `C55_position`, `C55_additive`, `C55_nonneg`. limits: fault_time_goes_back, fault_time_backwards.

**Model** QL/Dividend; **theorems** Props/Dividend. Map lemma.

* **C56** (proved) Bumping dividends touches exactly the dates in the interval: `C56_bump`, `C56_refused`. limit: fault_bump_revives_past.

**Model** QL/ZeroCurve; **theorems** Props/ZeroCurve. Real analysis (exp, log) on top of C38; invariant `CurveOk` of every curve reachable by construction and bumps.

* **C57** (proved) Discount factors of a zero curve: `C57_new`, `C57_refused`, `built_ok`, `C57_between`, `C57_range`, `C57_le_one`, `C57_antitone`, `C57_flat_curve`, `C57_vectorised`, `C57_at_date`, `C57_dates`. every curve built by new and bumps satisfies CurveOk (built_ok); limit: fault_discount_of_past_year; concrete case: curve_witness.
* **C58** (proved) Forward discount factors and rates: `C58_quotient`, `C58_chain`, `C58_rates`, `C58_average`, `C58_dates`, `C58_short_rate`, `fault_simple_rate`, `fault_forward_empty_period`, `fault_forward_short_period`. the fault_ theorems are the negative half of the statement.
* **C59** (proved) Bumping a zero curve: `C59_bump`, `C59_restore`, `C59_adjoin`, `C59_direction`, `C59_dates`.
* **C60** (proved) Validation of curve data: `C60_accepts`, `C60_refused`, `C60_curve`.

**Model** QL/Cashflow, QL/Pricers; **theorems** Props/Cashflow, Swap, Floating, Expected. Sums over schedules; order independence because flows are a list keyed by instant.

* **C61** (proved) Cash flows of a bond: `C61_bond_flows`, `C61_defined`, `C61_fixed_amount`, `C61_accepts`, `fault_bond_panics`. concrete case: bond_witness.
* **C62** (proved) Value of a bond: `C62_order`, `C62_npv`, `C62_result`, `C62_linear`. concrete case: bond_witness.
* **C63** (proved) The kind of a swap: `C63_kind`, `C63_conventions`, `fault_fx_from_conventions`.
* **C64** (proved) Cash flows of the legs of a swap: `C64_fixed`, `C64_floating`, `C64_defined`. concrete case: swap_witness.
* **C65** (proved) Value and exposure of a swap: `C65_npv`, `C65_result`, `C65_exposure`. concrete case: swap_witness.
* **C66** (proved) Amount of a floating coupon: `C66_simple`, `C66_known`, `C66_future`, `C66_compounded`, `C66_tiles`, `C66_known_compounded`. limit: fault_compound_diverges; concrete case: floating_witness.
* **C67** (proved) Expected coupon amounts: `C67_bond`, `C67_probability`, `C67_swap`. concrete case: swap_witness.

**Model** QL/Pricers; **theorems** Props/Quotes, Yields. Algebra; geometric sums and monotonicity for yields.

* **C68** (proved) Futures and FX futures: `C68_forward`, `C68_carry`, `C68_exposure`, `C68_fx`, `fault_fx_exposure_overwritten`.
* **C69** (proved) Closing price at a time: `C69_until_close`, `C69_after_close`, `C69_instant`.
* **C70** (proved) Virtual bond of a KTB future: `C70_value`, `C70_par`, `C70_decreasing`, `C70_refused`.
* **C71** (proved) Price of a bond from its yield: `C71_value`, `C71_decreasing`, `C71_forwards`, `fault_krx_31st`. the search for the yield (crate argmin) is not modelled.

**Model** QL/Volatility, QL/Pricers; **theorems** Props/Black, Options. Exact Gaussian integral: Black formula as an expectation, bounds, parity, derivative.

* **C72** (proved) Price of a European option: `C72_value`, `C72_bounds`, `C72_parity`, `C72_vega`, `C72_strikes`, `C72_expiry`, `C72_refused`. concrete case: option_witness.
* **C73** (proved) Quanto adjustment: `C73_quanto`, `C73_zero`, `C72_parity`, `fault_quanto_negative`. concrete case: option_witness.

**Model** QL/Volatility; **theorems** Props/Surface. Bilinear interpolation on the grid; bump windows cell by cell.

* **C74** (proved) Volatilities of a surface: `C74_value`, `C74_grid`, `C74_bounds`. concrete case: surface_witness.
* **C75** (proved) What a surface sticks to: `C75_strike`, `C75_moneyness`. concrete case: surface_witness.
* **C76** (proved) Volatility bumps: `C76_cells`, `C76_undo`, `C76_adjoining`, `C76_parallel`, `fault_constant_window`. concrete case: surface_witness.
* **C77** (proved) Surfaces from quotes: `C77_market`, `C77_same_grid`, `C77_refused`, `C77_constant`. concrete case: surface_witness.

**Model** QL/Currency; **theorems** Props/Currency. Case analysis over all byte strings.

* **C78** (proved) Currency codes and pairs: `C78_round_trip`, `C78_reading`, `C78_pairs`, `C78_pair_reading`, `C78_pairs_of`.

**Model** QL/Portfolio; **theorems** Props/Portfolio, Loading. Folds with "push if absent" = first occurrences; pricer plan ↔ specification.

* **C79** (proved) What a portfolio needs: `C79_lists`, `C79_firsts`, `C79_each`. concrete case: samplePortfolio.
* **C80** (proved) Selecting instruments: `C80_selections`, `C80_split`, `C80_shortest`, `C80_longest`.
* **C81** (proved) Currencies of a portfolio: `C81_currencies`, `fault_currencies_left_out`.
* **C82** (proved) Curves of a portfolio: `C82_borrowing`, `C82_curves`, `C82_using`, `C82_consistent`. concrete case: start_witness.
* **C83** (proved) Which pricer an instrument gets: `C83_plan`, `fault_never_priced`. concrete case: start_witness.
* **C84** (proved) Groups of instruments and schedules: `C84_contains`, `C84_groups`, `C84_schedule`, `fault_same_code`.
* **C85** (proved) Starting an engine: `C85_accepts`, `C85_load`, `C85_start`. concrete case: start_witness.
* **C86** (proved) Exchange rates from quotes: `C86_rate`, `C86_consistent`.

**Model** QL/Engine; **theorems** Props/Engine*. Each greek as a loop with an invariant on results and market; pricers are arbitrary functions of the market.

* **C87** (proved) Npv, value and exposure of an engine: `C87_npv`, `C87_exposure`. concrete case: engine_witness.
* **C88** (proved) Delta and gamma of an engine: `C88_delta`, `C88_succeeds`. concrete case: engine_witness; real arithmetic, in single precision: C147.
* **C89** (proved) Rho of an engine: `C89_rho`, `C89_succeeds`. concrete case: engine_witness; real arithmetic, in single precision: C147.
* **C90** (proved) Vega of an engine: `C90_vega`, `C90_succeeds`. concrete case: engine_witness; real arithmetic, in single precision: C147.
* **C91** (proved) Dividend delta of an engine: `C91_div_delta`, `C91_succeeds`, `fault_div_delta_past`. concrete case: engine_witness; real arithmetic, in single precision: C147.
* **C92** (proved) Theta of an engine: `C92_theta`, `C92_succeeds`. concrete case: engine_witness; real arithmetic, in single precision: C148.
* **C93** (proved) Vega by tenor: `C93_vega_structure`, `C93_adds_up`, `C93_succeeds`. concrete case: engine_witness.
* **C94** (proved) Rho by tenor: `C94_rho_structure`, `C94_succeeds`. concrete case: engine_witness.
* **C95** (proved) Dividend delta by tenor: `C95_div_structure`, `C95_succeeds`. concrete case: engine_witness.
* **C96** (proved) Vega by tenor and moneyness: `C96_vega_matrix`, `C96_restored`, `C96_adds_up`, `C96_succeeds`, `fault_matrix_lowered`. concrete case: engine_witness.
* **C97** (proved) A whole calculation: `C97_calculate`, `C97_restored`, `C97_new_engine`, `C97_succeeds`, `C97_needs_npv`, `fault_second_calculation`. concrete case: engine_witness.
* **C98** (proved) Results in another currency: `C98_convert`, `C98_chain`.

**Model** TE/Krx, TE/Numeric, TE/Clock; **theorems** Props/KrxCore, Krx, KrxTrade, KrxAll. Messages are composed from the published layout and must come back; the reading lemmas hold for arbitrary bytes.

* **C99** (proved) Derivative quotes of the exchange: `C99_derivative_quote`, `C99_buffer`, `C99_first_time`. concrete case beside: sample option message.
* **C100** (proved) Stock quotes of the exchange: `C100_stock_quote`, `C100_buffer`, `fault_stock_price`. prices lose two digits: part of the statement.
* **C101** (proved) Trades with quotes of the exchange: `C101_trade_quote`, `C101_buffer`, `fault_stale_converter`.
* **C102** (proved) Trades of the exchange: `C102_trade_buffer`, `C102_trade_new`, `C102_always_wrong`, `fault_trade_price`.
* **C103** (proved) Parsing into a buffer: `C103_quote_buffer`, `C103_quote_exact`, `C103_trade_quote_buffer`, `C103_trade_buffer`, `C103_small_buffer`.
* **C104** (proved) Which exchange messages are accepted: `C104_quote_accept`, `C104_trade_quote_accept`, `C104_trade_accept`, `C104_cut`, `fault_short_packet`, `fault_not_text`.
* **C105** (proved) Only the message's own bytes count: `C105_quote`, `C105_quote_buffer`, `C105_trade_quote`, `C105_trade`, `C105_text`.

**Model** TE/InstId, TE/Krx; **theorems** Props/InstIds. Table invariant over all histories; whole-table check of the code map (a closed table, the domain of the statement).

* **C106** (proved) Instrument identifiers: `C106_interned`, `C106_again`, `C106_default`, `C106_isin`, `C106_ticker`, `C106_ticker_long`, `C106_symbol`, `C106_text`, `fault_ticker_zero`, `fault_ticker_not_text`.
* **C107** (proved) Transaction codes: `C107_unique`, `C107_lookup`, `C107_derivatives`.

**Model** TE/Feature; **theorems** Props/Feature. Exact division by the power of ten (quotient and remainder recombined); loops over levels by induction; vwap and mid price against sums and first levels.

* **C108** (proved) Scaled numbers of features: `C108_signed`, `C108_unsigned`, `C108_plain`, `C108_krx`, `C108_order`, `C108_outside_debug`, `C108_negative_release`, `C108_trade_price`. exact arithmetic; in double precision: C134.
* **C109** (proved) Quotes as features: `C109_of_quote`, `C109_of_quote_short`, `C109_of_trade_quote`, `C109_update_trade_quote`, `C109_update_quote`, `C109_update_is_new`, `C109_update_is_new_trade`, `C109_capacity`, `C109_message`, `C109_buffer`.
* **C110** (proved) Volume-weighted price: `C110_vwap`, `C110_within`, `C110_exists`, `C110_one_sided`. exact arithmetic; in double precision: C139.
* **C111** (proved) Best and mid prices: `C111_best`, `C111_none`, `C111_mid`, `C111_between`.

**Model** TE/Feature; **theorems** Props/FeatureFlow. Case analysis on the three orders of prices against the indicator formula; telescoping by induction on the series.

* **C112** (proved) Order flow imbalance: `C112_refused`, `C112_short`, `C112_imbalance`, `C112_antisymmetric`, `C112_telescopes`.
* **C113** (proved) Logarithmic order flow imbalance: `C113_ln`, `C113_antisymmetric`, `C113_bid_infinite`, `C113_ask_infinite`.

**Model** TE/Feature; **theorems** Props/FeatureTime. Induction over the series of observations or trades; closed form with products of weights.

* **C114** (proved) Exponentially weighted average: `C114_average`, `C114_two`, `C114_within`, `C114_forgets`, `C114_first`, `C114_not_interval`, `C114_backwards`. exact arithmetic; in double precision: C138.
* **C115** (proved) Exponentially weighted sum: `C115_sum`, `C115_bounded`, `C115_not_interval`. exact arithmetic instead of f64.
* **C116** (proved) Average price of trades: `C116_average`, `C116_within`, `C116_history`, `C116_limit`, `C116_overflow`.

**Model** TE/Logger; **theorems** Props/LoggerCore, Logger, LoggerMore. Invariant over all executions relating sent messages, queue, writer buffer and journal of appends; the request to end by induction over the rounds of the worker.

* **C117** (proved) Log files hold what was logged, in order, at every moment: `C117_prefix`, `C117_held`. concrete case: sample_log.
* **C118** (proved) Ending the logger writes everything: `C118_complete`, `C118_one_file`, `C118_finalize`, `C118_no_file`. concrete case: sample_log.
* **C119** (proved) Changing the log file: `C119_files`.
* **C120** (proved) Log levels: `C120_call`, `C120_level`.
* **C121** (proved) How long a text is held back: `C121_written`, `C121_flushing_not_on_disk`, `C121_bytes_not_bounded`.
* **C122** (proved) Log console: `C122_console`, `C122_end_not_shown`, `C122_silent`.
* **C123** (proved) How the logger dies: `C123_gone`, `C123_dies`, `C123_lost`.

**Model** QL/Ktbf; **theorems** Props/Ktbf. Continuity, strict monotonicity and limit of the price in the yield (intermediate value theorem); the optimiser is universally quantified.

* **C124** (proved) The yield of a bond: `C124_yield_exists`, `C124_discounted_value`, `C124_at_zero`, `C124_objective`, `C124_downhill`, `C124_slope`, `C124_search`. the optimiser of the crate argmin is a parameter; concrete case: future_witness.
* **C125** (proved) The price of a KTB future: `C125_accepts`, `C125_value`, `C125_determined`, `C125_direction`, `C125_empty`. concrete case: future_witness.

**Model** QL/Text; **theorems** Props/Text. Strong induction on the digits in groups of three; rounding lemmas; scanner lemma of the periods.

* **C126** (proved) Printed numbers: `C126_written`, `C126_formatted`, `C126_read_back`, `C126_same_text`, `C126_special`, `fault_negative_zero`. rounding to a nearest decimal, ties either way, is the specification of format!.
* **C127** (proved) Period strings as years: `C127_value`, `C127_append`, `C127_elapsed`, `C127_invalid`, `fault_twelve_months`. exact arithmetic instead of f32.
* **C128** (proved) Sorted arrays: `C128_sorted`, `C128_neighbours`, `fault_nan_sorted`.
* **C129** (proved) Dates as numbers: `C129_date_number`.
* **C130** (proved) Printed durations: `C130_duration`, `fault_duration`. exact arithmetic instead of f64.

**Model** QL/Path; **theorems** Props/Path. The draw is a parameter; the expectation is any linear functional; the covariance follows from the factorisation of C49.

* **C131** (proved) Correlated random paths: `C131_when`, `C131_covariance`, `C131_sample`, `C131_causal`. exact arithmetic; the random numbers are a parameter; concrete case: path_witness.

**Model** QL/Daily; **theorems** Props/Daily. A hash map is a list of entries in unknown order; uniqueness of a sorted rearrangement with distinct keys.

* **C132** (proved) Daily values: `C132_ordered`, `C132_walk`.

**Model** QL/EvalDate; **theorems** Props/EvalDate. From C41, C42 and C47.

* **C133** (proved) Moving the evaluation date: `C133_add`, `C133_sub`, `C133_round_trip`, `C133_compare`, `fault_month_round_trip`. prices in exact arithmetic.

**Model** `Float/Ieee`, `Float/Feature`; **theorems** `Props/FloatPrices`, `Props/FloatFeature`, `Props/FloatAverage`, `Props/FloatVwap`. Rounding lemmas of `Float/Lemmas` (nearest, monotone, relative error), induction over the history with an error invariant.

* **C134** (proved) Prices as 64-bit floats: `C134_nearest`, `C134_order`, `C134_distinct`, `C134_error`, `C134_norm_order`, `C134_norm_error`, `fault_price_collapse`. IEEE double model; powi is the multiplication loop it is compiled to.
* **C135** (proved) The mid price in floating point: `C135_between`, `C135_nearest`, `C135_order`, `C135_levels`. IEEE double model.
* **C136** (proved) The average trade price in floating point: `C136_nearest`, `C136_within`, `C136_empty`. IEEE double model.
* **C137** (proved) Time differences in floating point: `C137_order`, `C137_whole`, `C137_error`. IEEE double model.
* **C138** (proved) The moving average in floating point: `C138_history`, `C138_within`, `fault_ewma_equal`. IEEE double model; the weight of an interval (powf) is any double from 0 to 1.
* **C139** (proved) The volume-weighted price in floating point: `C139_accuracy`, `C139_defined`, `C139_within`, `fault_vwap_one_level`. IEEE double model.

**Model** `Float/DayCount.lean`: the day counts and `get_time_difference` in binary32; **theorems** `Props/FloatYears.lean`, `FloatTimes.lean`, `FloatElapsed.lean`, `FloatKnots.lean`. Single divisions are nearest and separated by more than one unit in the last place; sums by induction over the years: adding 1 keeps the error within one unit in the last place; knots are days apart, far more than the error bound.

* **C140** (proved) Year fractions in single precision: `C140_nearest`, `C140_order`, `C140_errors`, `C140_isda`, `C140_isda_order`. IEEE single model.
* **C141** (proved) Times between instants in single precision: `C141_accuracy`, `C141_order`, `C141_zero`, `C141_not_strict`. IEEE single model.
* **C142** (proved) Curve knots never coincide: `C142_knots`. IEEE single model.

**Model** `Float/Interp.lean`: the linear interpolator in binary32; **theorems** `Props/FloatLine.lean`, `FloatInterp.lean`, `FloatVec.lean`. Standard error model of each operation; the search takes the same path because comparisons of floats are exact; monotone because every operation is.

* **C143** (proved) Linear interpolation in single precision: `C143_knot`, `C143_segment`, `C143_accuracy`, `C143_linear`, `C143_vectorised`, `C143_overshoot`. IEEE single model.

**Model** `Float/Curve.lean`: construction, bumps and discount factors of the zero curve in binary32; the exponential is a parameter; **theorems** `Props/FloatDiscount.lean`, `FloatCurve.lean`. Knots by C142, interpolation by C143; accuracy because `exp` is a contraction on the non-positive numbers.

* **C144** (proved) Discount factors in single precision: `C144_today`, `C144_where`, `C144_bounds`, `C144_falls`, `C144_accuracy`, `C144_flat`, `C144_cached`, `C144_refused`, `C144_dates`, `C144_between`. IEEE single model; f32::exp is any function meeting ExpSpec (stated in the theorem).

**Model** `Float/Curve.lean`: the bumps of curves, volatilities and dividends in binary32; **theorems** `Props/FloatDrift.lean`, `FloatBumps.lean`. The theorem of Reiser and Knuth for ties-to-even with subnormals, proved by cases on the last places; lifted cell by cell.

* **C145** (proved) Risk runs do not drift: `C145_no_drift`, `C145_runs`, `C145_near`, `C145_volatility`, `C145_surface`, `C145_dividends`, `C145_dividends_refused`, `C145_moves`, `C145_volatility_moves`. IEEE single model; rebuilding the local volatilities from the quotes is not part of it.

**Model** `QL/Config.lean`: the calculation configuration with its constructor, its 22 setters and what the engine reads of it; **theorems** `Props/Config.lean`. Induction over the chain of calls, one lemma for all settings.

* **C146** (proved) Calculation configurations: `C146_calls`, `C146_new`, `C146_default`, `C146_stays`, `C146_unchecked`, `C146_unused`.

**Model** `Float/Greeks.lean`: the formulas that turn the prices of a risk run into sensitivities, in binary32; **theorems** `Props/FloatOrder.lean`, `FloatGreeks.lean`, `FloatRuns.lean`. Relative errors multiply; differences of neighbouring floats are exact (Sterbenz); every IEEE operation is monotone, including infinities.

* **C147** (proved) Slopes of prices in single precision: `C147_slope`, `C147_monotone`, `C147_sign`, `C147_zero_bump`, `C147_tiny_ratio`, `C147_delta`, `C147_delta_zero`, `C147_prices`, `C147_own`, `C147_true_prices`, `C147_case`. IEEE single model; the prices are arguments.
* **C148** (proved) Gamma and theta in single precision: `C148_bend_sign`, `C148_gamma`, `C148_lost`, `C148_theta_monotone`, `C148_theta`, `C148_theta_no_days`. IEEE single model; the prices are arguments.

**Model** `TE/Udp.lean`: the 1024 byte buffer and `String::from_utf8_lossy` of core, round by round; **theorems** `Props/Udp.lean`. An encoded character is read back in one round; the cut is located by induction over the text.

* **C149** (proved) Texts over UDP: `C149_exact`, `C149_cut`, `C149_any`, `C149_case`. Loss, duplication and reordering by the network are not modelled.

**Model** `TE/LazyCell.lean`: `LazyString` as a transition system of any number of threads, after `once_cell` `get_or_init`; **theorems** `Props/LazyCell.lean`. An invariant of all executions; counts of calls and panics by induction over the execution.

* **C150** (proved) Lazily made texts are made once: `C150_value`, `C150_same`, `C150_once`, `C150_exclusive`, `C150_progress`, `C150_case`. The steps of once_cell get_or_init are atomic steps; an initializer that dereferences its own LazyString is excluded.

**Model** `QL/Contracts.lean`: the nine instruments with every function of `InstrumentTrait`; **theorems** `Props/Contracts.lean`. By cases; refinement of the instruments of `QL/Portfolio.lean`.

* **C151** (proved) What instruments answer: `C151_only`, `C151_pairs`, `C151_underlyings`, `C151_terms`, `C151_portfolio`, `C151_empty`, `C151_case`.

**Model** `TE/Records.lean`: codes, currencies, the instrument directory over the table of identifiers, balances; **theorems** `Props/Records.lean`. Induction over the history with the invariant of the table of identifiers (C106).

* **C152** (proved) The directory of instruments: `C152_directory`, `C152_currency`, `C152_case`.
* **C153** (proved) Codes and balances: `C153_codes`, `C153_balance`, `C153_empty`, `C153_empty_any`, `C153_case`.

**Model** `TE/Feed`; **theorems** `Props/Feed`. The buffer parsers as statements on buffer and clock that keep their writes after a failure; agreement with the pure parsers step by step, then invariants of the statements and induction on the stream.

* **C154** (proved) Refused packets leave no trace: `C154_quote_refused`, `C154_trade_quote_refused`, `C154_trade_refused`, `C154_quote_atomic`, `C154_trade_quote_atomic`, `C154_trade_atomic`, `C154_quote_behind`, `C154_trade_quote_behind`, `C154_quote_stream`, `C154_trade_quote_stream`, `C154_trade_stream`, `C154_quote_after_anything`, `C154_torn`. On a second model of the parsers, write by write, proved to agree with the first; C154_torn shows what happens when the clock is out of range.

**Model** Act, QL/EngineAct; **theorems** Props/Act, Props/EngineActCore, Props/EngineLeft. A Hoare triple with a condition for each way of ending is proved for each statement and composed; agreement with the first model by simulation.

* **C155** (proved) What a failed calculation leaves behind: `C155_left`, `C155_agrees`, `C155_values_only`, `C155_delta_stays`, `C155_bump_stays`, `C155_date_stays`, `C155_next_engine`. On a second model of the engine, statement by statement, proved to agree with the first (C155_agrees); market sound as in C97.

**Model** QL/Wire (the engine with the pricers of the factory); **theorems** Props/EngineParity, Props/EngineTwins, Props/EngineLinear. The results described by C97 are compared number by number: both markets of a difference are determined by the first (uniqueness of bumped markets), in each the prices differ by the forward (option_pair), scaling the price scales the forward.

* **C156** (proved) Put-call parity of engine results: `C156_parity`, `twin_witness`. QL/Wire joins the engine with the pricers of the factory; the terms an instrument answers to its pricer are given beside the engine's record of it. OneZone excludes maturities at one instant in different time zones.
* **C157** (proved) Deltas written without bumping: `C157_shortcut`, `linear_witness`. As C156.

**Model** QL/Wire; **theorems** Props/EngineSigns. Monotonicity of the expected payoff in volatility and forward (Props/Black), the bumped surface is nowhere lower; convexity in the forward for gamma.

* **C158** (proved) Signs of option greeks: `C158_vega`, `C158_delta`, `signs_witness`. As C156. Real arithmetic.

**Model** QL/Wire; **theorems** Props/EngineBonds. Discount factors of bumped curves node by node; the price is linear in the discount factors, so the windows add up.

* **C159** (proved) Rhos of bonds: `C159_rho`, `C159_sum`, `bonds_witness`. As C156. Real arithmetic. The year fraction of the street convention can be negative for positive periods, so nonnegative coupons are a hypothesis.

**Model** QL/Wire, QL/Engine; **theorems** Props/EngineCompany. Pricers of the factory read only what their plan names; each bumped market of one engine agrees with that of the other.

* **C160** (proved) Results do not depend on the company: `C160_company`, `plan_sees`, `company_witness`. As C156. One underlying. Entries by tenor that only one of the two portfolios looks at may differ (0 in the other), as does theta of an instrument maturing within the roll period.

**Model** `QL/Wire`, `QL/Portfolio`, `QL/Pricers`, `QL/Engine`; **theorems** `Props/EngineWorth`. The plan `create_pricer` makes for each kind names its curves, C97 says the stored result is what the pricer answers in the market before, and the theorems about the pricers (C57, C62, C65, C68, C72, C73) say what that is.

* **C161** (proved) What an instrument is worth after a calculation: `C161_worth`, `worth_witness`, `twin_witness`, `linear_witness`, `bonds_witness`. As C156. No claim for interest rate swaps, whose curve names need a curve called Dummy (C83), nor for KTB futures and bond futures, for which the factory makes no pricer. Real arithmetic.

**Model** `TE/Ladder`; **theorems** `Props/Ladder`. A specification of a reader (lines, columns, decimal numbers) and induction over the levels; the book invariant for the resting orders.

* **C162** (proved) A book as text: `C162_read`, `C162_same`, `C162_resting`, `C162_shape`. The reader is a small specification in Props/Ladder.
* **C163** (proved) A side as text, up to a depth: `C163_read`, `C163_depth`, `fault_depth_hides_the_best`. A depth limits the text to the worst prices, not to the best; proved as it is.

**Model** `QL/Display`, `QL/Calendar`; **theorems** `Props/Display`. Induction over the days to the end of the range; C51 for each day.

* **C164** (proved) The holidays displayed: `C164_display`, `C164_joint`, `C164_fixed`, `display_witness`, `fault_display_time_of_day`. Printing is modelled by the list of dates printed; how a date is written by {:?} is not modelled.

**Model** `Float/Sums`; **theorems** `Props/FloatSums`. Error analysis by induction over the list of flows in any order (rounded sums have relative error 2^-24, also when subnormal); permutations leave the exact sum.

* **C165** (proved) Bonds and swaps in single precision, whatever the order of their cash flows: `leg_value`, `C165_bond`, `C165_order`, `C165_two`, `C165_monotone`, `C165_swap`, `fault_order`. The order of the map is any list; discount factors are given numbers here (their own accuracy is C144-C146).

**Model** `Saved`; **theorems** `Props/Saved`. A struct whose field names differ is loaded exactly if every field is (induction over its fields); each field type by cases, dates by arithmetic on the parts of day and offset.

* **C166** (proved) Instruments saved and loaded: `C166_currency`, `C166_number`, `C166_date`, `C166_option`, `C166_futures`, `C166_fx_futures`, `C166_swap_lost`, `C166_swap_loads`, `saved_witness`. Values of the format, not its text, are modelled (see Saved); schedules, indices, calendars and conventions of swaps are parameters with their own codecs.
* **C167** (proved) Converters and identifiers saved and loaded: `C167_config`, `C167_converter`, `saved_cfg_witness`, `C167_converter_lost`, `C167_holders_lost`, `C167_identifier`, `fault_isin_unchecked`. As C166.

**Model** `TE/Stamp`; **theorems** `Props/Stamp`. Invariant of all interleavings of the threads in the three readings of a call; both anchors are written once, the counter anchor first.

* **C168** (proved) Time stamps of a process: `C168_order`, `C168_elapsed`, `C168_ahead`, `C168_all_or_none`, `fault_lead`. That the counter of the crate quanta does not run backwards between threads is trusted, as its documentation promises.
* **C169** (proved) Time stamps of a thread: `C169_order`, `fault_threads_disagree`. As C168.

**Model** `Float/Forward`; **theorems** `Props/FloatForward`. Chains of roundings with relative error, each in range.

* **C170** (proved) Futures, currency futures and stocks in single precision: `C170_future`, `C170_fx_and_stock`, `C170_monotone`, `C170_exposure`, `C170_fx_exposure`, `C170_flat`, `fault_not_the_quote`, `forward_witness`. Discount factors and dividend ratios are given numbers here (their own accuracy is C144-C146).

**Model** `TE/Pipe.lean` over `TE/Krx.lean`, `TE/InstId.lean`, `TE/OrderBook.lean`; **theorems** `Props/Pipeline.lean`. An invariant of table and book (the book belongs to the identifier, was fed by snapshots only, totals and counter bounded) preserved by every message; a snapshot with repeated prices shows the last of each; induction over the stream.

* **C171** (proved) A book fed by exchange messages: `C171_book_of_messages`, `C171_distinct`, `C171_last`, `fault_stock_levels`. The client that calls parser and book in a loop is ours; its calls are the modelled functions.
* **C172** (proved) Empty levels of a message in the book: `C172_empty_levels`, `fault_empty_levels`.
* **C173** (proved) Stale levels of a buffer in the book: `C173_stale_levels`, `C173_exact_buffer`, `C173_roomy_buffer`, `fault_roomy_buffer`. Quote interfaces; the buffers of trade messages are filled alike (C101_buffer).

**Model** `TE/StampDate.lean` over `TE/Clock.lean`, `QL/DateTime.lean`; **theorems** `Props/StampDate.lean`. Linear arithmetic over days; 2^64 is no multiple of the odd part of a day.

* **C174** (proved) Time stamps as dates: `C174_datetime`, `C174_order`, `C174_generators`, `C174_fit`, `C174_shown`, `C174_timer`, `C174_example`.

**Model** `TE/LevelUse.lean` over `TE/Level.lean`; **theorems** `Props/LevelUse.lean`. Refinement of a queue, induction over the calls; the total is what waits plus what clearing discarded.

* **C175** (proved) A price level used on its own: `C175_level`, `C175_total`, `C175_clear`, `C175_constructors`, `C175_example`.

**Model** TE/DefaultBook (derived Default of the book and its sides) over TE/OrderBook; **theorems** Props/DefaultBook. Induction on the calls: the bid side stays the default side; then case analysis of each call.

* **C176** (proved) Books made by Default: `C176_no_bids`, `C176_bids`, `C176_asks`, `C176_best`, `C176_example`.

**Model** QL/Pricers, QL/Engine, QL/Wire; **theorems** Props/EngineForwards. C97 (what a calculation gives), the forward equations and the discount factors of a shifted curve.

* **C177** (proved) Rhos of futures and currency futures: `C177_futures`, `C177_fx_futures`, `C177_signs`, `forwards_witness`.

**Model** QL/Dividend, QL/Pricers, QL/Volatility, QL/Engine, QL/Wire; **theorems** Props/EngineDividends. C97 (what a calculation gives), the product form of the deduction ratio of a bumped dividend, monotonicity of the expected payoff in the forward.

* **C178** (proved) Dividend deltas of futures and options: `C178_futures`, `C178_futures_sign`, `C178_options_after`, `C178_options_sign`, `dividends_witness`.

**Model** `TE/PipeBuffers.lean`: the client of `TE/Pipe.lean` with a buffer for quotes and one for trades with quotes; **theorems** `Props/PipeBuffers.lean`. The buffers as a fold over the messages; an invariant along the stream; concrete stream where levels of another instrument appear.

* **C179** (proved) A book fed through reused buffers shows the whole buffer, other instruments' levels among it: `C179_buffers`, `C179_level`, `C179_full`, `fault_foreign_levels`.

**Model** `TE/LogLine.lean`: the values, the compact printer and the closures of the log macros; **theorems** `Props/LogLine.lean`. The printed text is a prefix code (mutual induction over values, items and fields), so it determines the value; no byte below 32; then C33 for the time and C118 for the file.

* **C180** (proved) A log file has one line per message, and the line tells everything about it: `C180_line`, `C180_lines`, `C180_reads`, `C180_file`, `C180_no_panic`, `C180_panic`, `sample_line`.

**Model** `QL/Wire.lean`, `QL/Engine.lean`, `QL/Portfolio.lean`; **theorems** `Props/EngineSwaps.lean`. The pricer made for a swap is unfolded to the market (swap_plan, swap_at), the rhos are those of C97 with both markets written as worths of the legs, and the bump is followed into each leg; signs from the monotone discount factors.

* **C181** (proved) Rhos of swaps: `C181_swaps`, `C181_irs`, `C181_legs`, `C181_fx_signs`, `swaps_witness`.

**Model** `QL/ZeroCurve.lean`, `QL/Cashflow.lean`, `QL/Engine.lean`; **theorems** `Props/EngineIndex.lean`. The quotient of two interpolated discount factors falls under a parallel shift (df_pair, three cases of grid cells), so simple forwards rise; then through the iff-characterisations of C66 coupon by coupon, with unique tilings, and C181 for the rho.

* **C182** (proved) A rise of the index curve: `C182_coupon`, `C182_leg`, `C182_rho`, `index_witness`, `compounding_mild`.

**Model** `QL/Wire.lean`, `QL/Engine.lean`, `QL/Pricers.lean`; **theorems** `Props/EngineOptionRhos.lean`. The value is a discounted expected payoff (Black.lean); the bump lowers the discount factors of one name, the forward and discount follow; signs by homogeneity and monotonicity of the expected payoff in forward and strike.

* **C183** (proved) Rhos of options: `C183_options`, `option_rhos_witness`.

**Model** `QL/Cashflow.lean`, `QL/Pricers.lean`, `QL/Wire.lean`, `QL/Engine.lean`; **theorems** `Props/EngineFloaters.lean`, `Props/FloaterEngine.lean`. The pricer made for a note is unfolded to the market (note_plan, note_at), the rhos are those of C97 with both markets written as worths of the note; signs from the monotone discount factors (C159) and from the coupons of C182, now with a spread; concrete engine.

* **C184** (proved) Rhos of floating-rate notes: `C184_notes`, `C184_discount`, `C184_index`, `C184_rho`, `note_witness`.

**Model** `QL/ZeroCurve.lean`, `QL/Cashflow.lean`; **theorems** `Props/FloaterPar.lean`, `Props/FloaterEngine.lean`. The amount of one coupon times its discount factor in closed form, then induction along the chain of coupons, the principal closing the telescope; concrete note with a shortfall.

* **C185** (proved) A floating-rate note is worth less than par: `C185_coupon`, `C185_worth`, `par_witness`.

**Model** `QL/ZeroCurve.lean`; **theorems** `Props/ShortRate.lean`. Induction over the days, each step the forward rate of C58; the size from 1 - x <= exp(-x) <= 1 - x + x^2/2.

* **C186** (proved) Short rates compound to discount factors: `C186_domain`, `C186_each`, `C186_compound`, `C186_size`, `C186_date`, `short_witness`.

**Model** `QL/PriceOps.lean`, `QL/Dividend.lean`; **theorems** `Props/PriceOps.lean`. Induction over the history: every operation acts on date and gross level as specified (op_gross); a move by the equivalence of C47 restated with the dividends up to a date (equivalent_gross).

* **C187** (proved) Arithmetic on a price and moves of the date: `C187_history`, `C187_by_zero`, `C187_scale`, `C187_add`, `C187_set`, `C187_no_dividend`, `price_ops_witness`.

**Model** `QL/Wire.lean`, `QL/Pricers.lean`, `QL/Engine.lean`; **theorems** `Props/EngineStrikes.lean`. Both results are written as discounted expected payoffs with the same forward, discount factor and deviation (option_formula), and order, Lipschitz bound, convexity and the falling spread in the strike are integrated from the payoffs; put-call parity carries them to puts.

* **C188** (proved) Options that differ in the strike: `C188_order`, `C188_butterfly`, `C188_box`, `strikes_witness`.

**Model** `QL/Engine.lean`, `QL/Wire.lean`, `QL/Pricers.lean`; **theorems** `Props/EngineSizes.lean`. Both results are described by C97 in one market; the bumped markets are unique, the pricers of both instruments agree, and the notional enters each number as one factor; the exposure pricer by pricer.

* **C189** (proved) Results are proportional to the notional: `C189_notional`, `sizes_witness`.

**Model** `QL/Engine.lean`, `QL/Portfolio.lean`; **theorems** `Props/EngineOrder.lean`. Both results are described by C97; every bumped market, date and tenor in that description is unique and depends on the set of instruments only.

* **C190** (proved) The order of the portfolio does not matter: `C190_order`, `order_witness`.

**Model** `TE/HalfBook.lean`, `TE/OrderBook.lean`; **theorems** `Props/BookMirror.lean`. The mirror image commutes with each step of the specification when no order rests on both sides, and both runs refine the specification (run_init).

* **C191** (proved) Buyers and sellers are treated alike: `C191_mirror`, `mirror_witness`.

**Model** `TE/HalfBook.lean`, `TE/OrderBook.lean`; **theorems** `Props/BookPrices.lean`. A strictly increasing map of prices commutes with each step of the specification, which both runs refine (run_init).

* **C192** (proved) Only the order of prices matters: `C192_order_only`, `order_only_witness`.
