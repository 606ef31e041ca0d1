{"id": "C01", "title": "A price level trades strictly first-in first-out", "statement": "Trading a quantity q against a price level fills its resting orders in arrival order: the orders form a fully filled prefix (exactly the ids reported as traded), then at most one partially filled order, then an untouched suffix; the traded amount is min(q, level quantity), the returned remainder is q minus that, and the level's reported total equals the sum of what is left.", "quantifier": "every level contents (any number of orders with any positive quantities whose sum fits u64) and every incoming quantity", "why_tests_cant": "queue length, quantities and the place where the fill stops are unbounded; a test fixes one queue", "anchors": ["trading-engine/src/orderbook/level.rs: Level::trade"]}
{"id": "C02", "title": "Half-book total equals the sum of its resting orders after every history", "statement": "After any sequence of book operations, the aggregate quantity reported for a side equals the sum of the level quantities, each level quantity equals the sum of its resting orders, and check_validity_quantity() returns true.", "quantifier": "every finite sequence of public order-book operations from an empty book within the contract (contract: positive quantities, unused ids for new orders, prices strictly between the sentinels i64::MIN and i64::MAX, side totals below 2^64; market SELL orders are excluded because they corrupt the level totals (property C08)); both overflow modes", "why_tests_cant": "the counters are updated incrementally in ten places; a missed or doubled update only shows on particular histories", "anchors": ["trading-engine/src/orderbook/half_book.rs: HalfBook::{add_limit_order,cancel_order,remove_order,change_quantity,trade_market_order,trade_limit_order,check_validity_quantity}", "trading-engine/src/orderbook/mod.rs: OrderBook"]}
{"id": "C03", "title": "Best price is always the true best price", "statement": "After any sequence of operations the side's best_price is the lowest resting ask (highest resting bid) price, or the documented sentinel i64::MAX / i64::MIN when that side is empty.", "quantifier": "every finite sequence of public order-book operations from an empty book, every set of prices, within the contract (contract: positive quantities, unused ids for new orders, prices strictly between the sentinels i64::MIN and i64::MAX, side totals below 2^64; market SELL orders are excluded because they corrupt the level totals (property C08))", "why_tests_cant": "best_price is cached and only conditionally refreshed; stale values depend on the order of cancels, trades and adds", "anchors": ["trading-engine/src/orderbook/half_book.rs: HalfBook::{update_best_price,reinitialize_best_price,cancel_order,change_quantity,cleanup_after_trade,remove_level}"]}
{"id": "C04", "title": "The book is never crossed", "statement": "Starting from an empty book, after any sequence of process_limit_order, process_market_order, cancel_order, modify_order, change_quantity and remove_order every bid level is strictly below every ask level; in particular best bid < best ask when both sides have orders.", "quantifier": "every finite sequence of matching operations within the contract (contract: positive quantities, unused ids for new orders, prices strictly between the sentinels i64::MIN and i64::MAX, side totals below 2^64; market SELL orders are excluded because they corrupt the level totals (property C08)); add_limit_order and change_price do not match and are excluded", "why_tests_cant": "crossing depends on the interplay of residual quantities over a whole history", "anchors": ["trading-engine/src/orderbook/mod.rs: OrderBook::{process_limit_order,modify_order,process_market_order}"]}
{"id": "C05", "title": "Limit-order matching follows price-time priority", "statement": "process_limit_order fills the incoming order against opposite resting orders one at a time, best price first and, within a price, earliest first, only at prices at least as good as its limit; the trade history reports per price level, from best to worst, the quantity filled; the residual rests behind all orders of the same price.", "quantifier": "every book reachable within the contract (contract: positive quantities, unused ids for new orders, prices strictly between the sentinels i64::MIN and i64::MAX, side totals below 2^64; market SELL orders are excluded because they corrupt the level totals (property C08)) and every incoming limit order within it", "why_tests_cant": "correctness is a relation between the whole resting queue and the whole result; tests only compare a few totals", "anchors": ["trading-engine/src/orderbook/mod.rs: OrderBook::process_limit_order", "trading-engine/src/orderbook/half_book.rs: HalfBook::{trade_limit_order,ask_trade_limit_order,bid_trade_limit_order}", "trading-engine/src/orderbook/level.rs: Level::trade"]}
{"id": "C06", "title": "Trade accounting of a limit order", "statement": "For every limit order, incoming quantity = sum of the traded quantities in the returned history + returned remaining quantity; every history entry has positive quantity, history prices are strictly worsening and no entry is worse than the limit price.", "quantifier": "every book reachable within the contract and every limit order within it (see C02)", "why_tests_cant": "conservation must hold for every split of the order over levels", "anchors": ["trading-engine/src/orderbook/half_book.rs: HalfBook::trade_limit_order", "trading-engine/src/types/base.rs: TradeHistory"]}
{"id": "C07", "title": "No quantity of a limit order is lost", "statement": "process_limit_order either trades or rests every unit of the order: the quantity resting on the order's own side under its id plus the traded quantity equals the order's quantity - for every 64-bit price, except a sell at i64::MIN against an empty bid side and a buy at i64::MAX against an empty ask side, which are dropped silently (returns None, book unchanged).", "quantifier": "every reachable book and every limit order with positive quantity and unused id, every 64-bit price", "why_tests_cant": "loss happens only at sentinel prices against an empty opposite side, which sampling will not find", "anchors": ["trading-engine/src/orderbook/mod.rs: OrderBook::process_limit_order", "trading-engine/src/orderbook/half_book.rs: HalfBook::trade_limit_order"]}
{"id": "C08", "title": "Market orders sweep the opposite side from its best price", "statement": "process_market_order trades min(q, opposite total) starting from the best price, first-in first-out inside a price; the remainder is q minus that; level quantities, totals and best price are consistent afterwards; nothing is added to the book.", "quantifier": "every reachable book with a non-empty opposite side and every positive quantity", "why_tests_cant": "needs all combinations of level boundaries and quantities, on both sides", "anchors": ["trading-engine/src/orderbook/mod.rs: OrderBook::process_market_order", "trading-engine/src/orderbook/half_book.rs: HalfBook::{trade_market_order,ask_trade_market_order,bid_trade_market_order,cleanup_after_trade}"]}
{"id": "C09", "title": "A market order against an empty side changes nothing", "statement": "If the opposite side has no resting order, process_market_order returns None and leaves the book exactly as it was.", "quantifier": "every book whose opposite side is empty, every order", "why_tests_cant": "frame condition over the whole state", "anchors": ["trading-engine/src/orderbook/half_book.rs: HalfBook::trade_market_order"]}
{"id": "C10", "title": "Cancel removes exactly the named order", "statement": "cancel_order(id) returns Some iff an order with that id rests in the book; then exactly that order disappears and every other order keeps price, quantity and queue position; otherwise the book is unchanged. A second cancel of the same id returns None.", "quantifier": "every reachable book and every id", "why_tests_cant": "frame condition: all the other orders of the book are quantified over", "anchors": ["trading-engine/src/orderbook/mod.rs: OrderBook::cancel_order", "trading-engine/src/orderbook/half_book.rs: HalfBook::cancel_order", "trading-engine/src/orderbook/level.rs: Level::cancel_order"]}
{"id": "C11", "title": "Order lookup agrees with the resting orders", "statement": "get_order(id) never panics; it returns Some(order) with the order's side, price and current quantity iff an order with that id rests on that side, and None otherwise.", "quantifier": "every reachable book and every id", "why_tests_cant": "the id cache and the levels are maintained separately by every operation; a dangling entry appears only after particular histories", "anchors": ["trading-engine/src/orderbook/half_book.rs: HalfBook::{get_order,get_price,cache}"]}
{"id": "C12", "title": "Quantity change keeps time priority", "statement": "change_quantity(id,q) with q>0, and modify_order at an unchanged price, change only the quantity of that order: its queue position and every other order stay the same.", "quantifier": "every reachable book, every resting id, every new positive quantity", "why_tests_cant": "quantifies over the whole queue", "anchors": ["trading-engine/src/orderbook/mod.rs: OrderBook::{modify_order,change_quantity}", "trading-engine/src/orderbook/half_book.rs: HalfBook::change_quantity", "trading-engine/src/orderbook/level.rs: Level::change_quantity"]}
{"id": "C13", "title": "Re-pricing equals cancel then resubmit", "statement": "modify_order to a different price has the same effect and result as cancelling the order and then submitting it as a new limit order on the same side (it loses time priority, may trade).", "quantifier": "every reachable book, every resting id, every new price and positive quantity", "why_tests_cant": "equality of whole states for all books", "anchors": ["trading-engine/src/orderbook/mod.rs: OrderBook::modify_order"]}
{"id": "C14", "title": "Add followed by cancel is the identity", "statement": "Adding a non-marketable order with a fresh id and cancelling it leaves the book observably as before (levels, queues, totals, best price, lookups).", "quantifier": "every reachable book, every fresh id, price and positive quantity", "why_tests_cant": "round-trip law over all states", "anchors": ["trading-engine/src/orderbook/half_book.rs: HalfBook::{add_limit_order,cancel_order}"]}
{"id": "C15", "title": "remove_order takes from the back of the level", "statement": "remove_order(price,q) removes min(q, level quantity) from that price level, newest orders first, deletes the level iff it becomes empty, returns the part that could not be removed, touches no other level, and always terminates.", "quantifier": "every reachable book, every price and quantity", "why_tests_cant": "termination and frame property for arbitrary queues", "anchors": ["trading-engine/src/orderbook/half_book.rs: HalfBook::remove_order", "trading-engine/src/orderbook/mod.rs: OrderBook::remove_order"]}
{"id": "C16", "title": "change_price moves one order to the tail of the new level", "statement": "change_price(id,p) moves the order with unchanged quantity behind all orders at p and leaves every other order alone; totals and best price stay consistent.", "quantifier": "every reachable half book, every resting id, every new price", "why_tests_cant": "frame property over all levels", "anchors": ["trading-engine/src/orderbook/half_book.rs: HalfBook::change_price"]}
{"id": "C17", "title": "No panic on valid histories", "statement": "A book driven by operations with positive quantities, fresh ids for new orders, total submitted quantity below 2^64 and without market sells never panics (overflow, failed unwrap or expect) nor diverges, in either the debug or the release overflow mode, and its outputs are those of the price-time priority specification.", "quantifier": "every finite sequence of operations meeting the stated conditions", "why_tests_cant": "absence of panics over unbounded histories", "anchors": ["trading-engine/src/orderbook/half_book.rs", "trading-engine/src/orderbook/mod.rs", "trading-engine/src/orderbook/level.rs"]}
{"id": "C18", "title": "Sides are independent", "statement": "cancel, quantity change, add and remove on one side leave the other side's state identical; a limit order that does not trade changes only its own side.", "quantifier": "every book reachable by operations with positive quantities and unused ids, every such operation with a positive quantity and side totals below 2^64", "why_tests_cant": "frame condition", "anchors": ["trading-engine/src/orderbook/mod.rs: OrderBook"]}
{"id": "C19", "title": "Snapshot update makes the side equal to the snapshot", "statement": "After update_from_quote_snapshot on a snapshot-maintained book, each side's price levels are exactly the snapshot's (price, quantity) pairs, the total is their sum and the best price is the best snapshot price, independent of the previous contents.", "quantifier": "every history of snapshot updates from the empty book and every further snapshot with distinct prices per side (zero quantities allowed), totals and id counter below 2^64; both overflow modes", "why_tests_cant": "the update is a diff against arbitrary previous contents", "anchors": ["trading-engine/src/orderbook/half_book.rs: HalfBook::update_l2_snapshot", "trading-engine/src/orderbook/mod.rs: OrderBook::{update_from_quote_snapshot,update_from_trade_quote_snapshot}"]}
{"id": "C20", "title": "Snapshot update is idempotent", "statement": "Applying the same snapshot twice gives the same book as applying it once, and consumes no further virtual ids.", "quantifier": "every snapshot-maintained book and every snapshot with distinct prices whose doubled total is below 2^64", "why_tests_cant": "equality for all books", "anchors": ["trading-engine/src/orderbook/half_book.rs: HalfBook::update_l2_snapshot"]}
{"id": "C21", "title": "Snapshot decomposition reproduces the snapshot", "statement": "decomposed_orders_with_update emits add / remove-any orders that, applied to the previous book, make each side's price levels exactly those of the snapshot; unchanged levels produce no order, changed ones exactly one with the exact difference.", "quantifier": "every book whose orders come from snapshots (any mix of snapshot updates, earlier decompositions and commands that bring no client id: market buys, cancels, modifications, removals) and every snapshot with distinct prices and positive quantities, no overflow. Client ids are excluded because the virtual ids start at 0 and may collide with them", "why_tests_cant": "quantifies over pairs of books", "anchors": ["trading-engine/src/orderbook/half_book.rs: HalfBook::decomposed_orders_with_update", "trading-engine/src/orderbook/mod.rs: OrderBook::decomposed_orders_with_update"]}
{"id": "C22", "title": "eq_level decides equality of price ladders", "statement": "a.eq_level(b) is true iff both books show the same quantity at every price on both sides; in particular it is symmetric.", "quantifier": "every pair of books reached by order commands within the contract of C02 or fed by snapshots as in C21", "why_tests_cant": "the code checks one direction only; correctness relies on an argument about totals", "anchors": ["trading-engine/src/orderbook/half_book.rs: HalfBook::eq_level", "trading-engine/src/orderbook/mod.rs: OrderBook::eq_level"]}
{"id": "C23", "title": "Snapshots for another instrument are rejected without effect", "statement": "update_from_quote_snapshot / update_from_trade_quote_snapshot return Err and leave the book unchanged when the snapshot's id differs from the book's.", "quantifier": "every book and snapshot", "why_tests_cant": "frame condition", "anchors": ["trading-engine/src/orderbook/mod.rs: OrderBook::{check_id,update_from_quote_snapshot,update_from_trade_quote_snapshot}"]}
{"id": "C24", "title": "Virtual order ids never repeat", "statement": "The ids generated for snapshot levels and decomposed orders are pairwise distinct over the life of a book (fewer than 2^64 of them).", "quantifier": "every history of snapshot updates (on books with one order per level), decompositions and commands without client ids", "why_tests_cant": "history property", "anchors": ["trading-engine/src/types/base.rs: VirtualOrderId::next_id", "trading-engine/src/orderbook/half_book.rs: HalfBook::{update_l2_snapshot,decomposed_orders_with_update}"]}
{"id": "C25", "title": "Short decimal fields parse to their value", "statement": "parse_under8(bytes,n) returns the decimal value of the n ASCII digits, for n=1..8, whatever bytes follow the field in memory.", "quantifier": "all 10^n digit strings of every length 1..8 and all contents of the bytes read past the field", "why_tests_cant": "10^8 strings times 256^7 trailing bytes", "anchors": ["trading-engine/src/utils/numeric_converter.rs: parse_under8, u8_chunk_to_u64_decimal"]}
{"id": "C26", "title": "Medium decimal fields parse to their value", "statement": "parse_under16(bytes,n) returns the decimal value of the n ASCII digits, n=1..16, whatever follows in memory.", "quantifier": "all digit strings of every length 1..16 and all trailing bytes", "why_tests_cant": "10^16 strings", "anchors": ["trading-engine/src/utils/numeric_converter.rs: parse_under16, u8_chunk_to_u128_decimal"]}
{"id": "C27", "title": "Long decimal fields parse to their value", "statement": "parse_under32(bytes,n) returns the decimal value of the n ASCII digits for n=17..32, in debug and release builds.", "quantifier": "all digit strings of every length 17..32 in a slice of at least 16 bytes and all trailing bytes; the boundary length 16, which the debug_assert admits, is characterised separately (panic in debug, garbage in release)", "why_tests_cant": "10^18 strings", "anchors": ["trading-engine/src/utils/numeric_converter.rs: parse_under32"]}
{"id": "C28", "title": "Fixed-point fields drop the decimal point exactly", "statement": "The three fixed-point parsers (up to 8, 16 and 32 bytes) return, on a field `d..d.f..f`, the integer denoted by the digits with the point removed, for every position of the point including first and last; without a point they return the plain value.", "quantifier": "all digit strings, all point positions, all trailing bytes; 17..32 byte fields when the value fits 64 bits; a trailing point needs a slice covering the digits (and 17 digits for the long parser)", "why_tests_cant": "astronomically many inputs; the mask arithmetic has boundary cases in the point position", "anchors": ["trading-engine/src/utils/numeric_converter.rs: parse_under8_with_floating_point, parse_under16_with_floating_point, parse_under32_with_floating_point"]}
{"id": "C29", "title": "Clock fields parse to nanoseconds", "statement": "parse_hhmmss_to_nanos on 6 ASCII digits HHMMSS returns (3600*HH+60*MM+SS)*10^9, and parse_2digits / parse_3digits return the value of their digits, whatever follows in memory.", "quantifier": "all digit strings and trailing bytes", "why_tests_cant": "SWAR code; 10^6 * 256^2 inputs", "anchors": ["trading-engine/src/utils/numeric_converter.rs: parse_hhmmss_to_nanos, parse_2digits, parse_3digits"]}
{"id": "C30", "title": "Converter configurations parse every field they admit", "statement": "IntegerConverter::new accepts a configuration iff its lengths add up and it parses at most 18 characters. For an accepted configuration in the explicit supported set, to_u64 / to_i64 return the integer denoted by the field (point dropped or decimals cut off, leading unused characters ignored, any sign byte other than '0' negates) in debug and release builds; an accepted configuration outside that set panics on every field in a debug build. Every KRX converter is accepted and supported.", "quantifier": "every configuration, every field of its layout, every content of the unused and the trailing bytes, both build modes", "why_tests_cant": "product of all configurations and all fields", "anchors": ["trading-engine/src/utils/numeric_converter.rs: NumReprCfg, IntegerConverter::{new,to_u64,to_i64}"]}
{"id": "C31", "title": "Unchecked price conversion agrees with the checked one", "statement": "to_book_price_unchecked returns the same value as to_i64 on every well-formed non-negative field of the configuration.", "quantifier": "every configuration and every field. False as stated: proved for fields without sign, unused bytes and point; refuted for configurations with unused bytes (stock prices come out divided by 100) and with a point", "why_tests_cant": "agreement of two code paths for all inputs", "anchors": ["trading-engine/src/utils/numeric_converter.rs: IntegerConverter::{to_book_price_unchecked,to_nonnegative_i64_unchecked,to_i64}"]}
{"id": "C32", "title": "Exchange timestamps never go backwards across midnight", "statement": "A TimeStampConverter fed with HHMMSSuuuuuu stamps returns, for each, the instant of the event (day + time of day) plus the configured offset, and so never goes backwards on a stream in time order, provided consecutive events are on the same day (and not fifteen hours back) or on consecutive days with the second at least fifteen hours earlier in its day. Outside that rule the returned stamp is wrong.", "quantifier": "every stream of 24-hour clock readings, every offset, both build modes, instants two days and fifteen hours away from the end of u64 (year 2554)", "why_tests_cant": "stateful; depends on the whole stream", "anchors": ["trading-engine/src/utils/numeric_converter.rs: TimeStampConverter::parse_hhmmssuuuuuu", "trading-engine/src/types/timestamp.rs: DateUnixNanoGenerator"]}
{"id": "C33", "title": "Civil date conversion is correct for every day", "statement": "days_to_date maps a day count since 1970-01-01 to the proleptic Gregorian date: day 0 is 1970-01-01 and consecutive days map to consecutive calendar dates; convert_unix_nano_to_date_and_time prints the date and the time of day of the local time unix_nano + offset hours, losslessly.", "quantifier": "every day number; every u64 nanosecond stamp and whole-hour offset from -24 to 24 whose local time is not before 1970; both build modes", "why_tests_cant": "unbounded loop over years", "anchors": ["trading-engine/src/utils/timer.rs: days_to_date, is_leap_year, days_in_month, convert_unix_nano_to_date_and_time"]}
{"id": "C34", "title": "Spin queue: writer and workers are mutually exclusive and every worker sees every item once", "statement": "With a writer that runs get_mut, write, notify_all_workers and registered workers that run get, use, work_done: the writer holds the item only while no worker does, no access to the item races with another, each registered worker uses every published item exactly once, in order, and is at most one behind, and the system never deadlocks.", "quantifier": "every set of worker ids (0..15), every interleaving and every stale value the release-acquire memory model allows, every sequence of items", "why_tests_cant": "schedules are unbounded", "anchors": ["trading-engine/src/spinqueue.rs: DataSpinQueue, WorkerId"]}
{"id": "C35", "title": "Shared counters hand out unique values", "statement": "Concurrent calls of next() on a bounded counter return distinct values start..=end and an error afterwards, for every interleaving of at most 2^64-end calls.", "quantifier": "every number of callers and every interleaving, up to 2^64 - start calls (after that the counter wraps and repeats values)", "why_tests_cant": "schedule quantification and overflow", "anchors": ["trading-engine/src/utils/counter.rs: CounterU64, CounterUsize"]}
{"id": "C36", "title": "Index search brackets the value", "statement": "For a strictly increasing non-empty vector, binary_search_index (and its ndarray twin) returns 0 below the first element, the last index at or above the last element, and otherwise the i with v[i] <= x < v[i+1]. With repeated elements it still returns an index whose element is <= x and whose right neighbour is >= x. The empty vector panics.", "quantifier": "every non-empty sorted vector of any length over any linear order and every value", "why_tests_cant": "unbounded lengths", "anchors": ["quantlib/src/utils/find_index.rs: binary_search_index", "quantlib/src/utils/find_index_ndarray.rs"]}
{"id": "C37", "title": "Vectorised index search equals pointwise search", "statement": "For sorted queries the vectorised search returns exactly the pointwise result for each query.", "quantifier": "every strictly increasing vector and every sorted query vector; with repeated elements or unsorted queries the two disagree (witnesses proved)", "why_tests_cant": "unbounded lengths; two algorithms", "anchors": ["quantlib/src/utils/find_index.rs: vectorized_search_index_for_sorted_vector"]}
{"id": "C38", "title": "Linear interpolation goes through its knots and stays between them", "statement": "LinearInterpolator1D::interpolate(x) equals the knot value at every knot (at the last knot only if extrapolation is allowed, otherwise an error), is on the straight line between neighbouring knots and so between their values, is flat, linear or refused outside as configured, and is monotone when the knot values are; the vectorised version returns the same for sorted queries.", "quantifier": "every strictly increasing knot set of any size over an ordered field (exact arithmetic), every x and extrapolation setting. Repeated knots are accepted by the constructor and give 0/0; a single knot with linear extrapolation panics", "why_tests_cant": "unbounded knots", "anchors": ["quantlib/src/math/interpolators/linear_interpolator.rs: LinearInterpolator1D"]}
{"id": "C39", "title": "Stepwise interpolation: vectorised equals pointwise", "statement": "StepwiseInterpolator1D::interpolate is constant from each knot up to the next and uses the configured extrapolation values outside; vectorized_interpolate_for_sorted_ndarray returns, for at most two queries, what interpolate returns on each, and for more than two what interpolate returns on each if the extrapolation values had not been configured - so it agrees with interpolate on every side where none is configured or no query lies outside.", "quantifier": "every strictly increasing knot vector over any linear order and every sorted query vector", "why_tests_cant": "two code paths, the long-vector path is separate", "anchors": ["quantlib/src/math/interpolators/stepwise_interpolatior.rs: StepwiseInterpolator1D"]}
{"id": "C40", "title": "Value distribution conserves the total", "statement": "distribute_value_on_vector adds exactly the distributed value in total and only to the knots next to the position, with weights in [0,1]; inside the knots the centre of gravity is preserved. Different lengths are refused; empty vectors are left alone.", "quantifier": "every vector, strictly increasing knot vector of any length, value and position, exact arithmetic", "why_tests_cant": "unbounded lengths", "anchors": ["quantlib/src/utils/distribute_value.rs: distribute_value_on_vector"]}
{"id": "C41", "title": "Month arithmetic: adding months", "statement": "add_period / add_period_date move by each part of the period in turn: n months (or 12n for n years) lands in the calendar month n months later, on the same day or the last day of that month if shorter, time of day and offset unchanged; days, hours, minutes and seconds add exactly that much. They panic exactly if the result leaves the years -9999..9999. A text with no part is an error (panic).", "quantifier": "every date and every composite period whose year and month parts come before its clock parts, numbers below 2^31 (2^63 for the other units), both build modes", "why_tests_cant": "unbounded n, all dates", "anchors": ["quantlib/src/utils/string_arithmetic.rs: add_period, add_period_date"]}
{"id": "C42", "title": "Month arithmetic: subtracting months", "statement": "sub_period / sub_period_date with n months lands, on the same day or the last day of the month, in the calendar month n months earlier if that month is in the same year, the previous year or a January; otherwise exactly twelve months too late. Years, days and clock units are exact.", "quantifier": "every date, every composite period as in C41, both build modes; the wrong branch is proved exactly wrong (18 months back from a June comes out in December of the previous year; a unit test pins such a value)", "why_tests_cant": "error appears only when the subtraction crosses more than one year boundary", "anchors": ["quantlib/src/utils/string_arithmetic.rs: sub_period, sub_period_date"]}
{"id": "C43", "title": "Business-day adjustment", "statement": "adjust returns a business day at the same time of day: Following the first on or after, Preceding the last on or before; the Modified variants stay in the month if it has a business day and the calendar is not closed for eleven months; a business day is unchanged by every convention; Unadjusted returns the date; Dummy is refused.", "quantifier": "every calendar (any holiday predicate, also one that panics) and every date", "why_tests_cant": "arbitrary holiday sets", "anchors": ["quantlib/src/time/calendar_trait.rs: CalendarTrait::{adjust,_is_holiday}"]}
{"id": "C44", "title": "Joint calendar holiday is the union", "statement": "A JointCalendar treats a day as holiday iff some member calendar does, and as a business day iff all members do.", "quantifier": "every list of calendars (added and removed holidays included) and every date the members can be asked about; an empty list is refused", "why_tests_cant": "arbitrary lists", "anchors": ["quantlib/src/time/jointcalendar.rs: JointCalendar"]}
{"id": "C45", "title": "Day-count fractions are non-negative and additive", "statement": "year_fraction errs iff start > end or the convention is Dummy. Actual/365, /360, /364 are full days over the basis: non-negative, monotone, additive when one part is a whole number of days and otherwise at most one day above the sum. 30/360 is additive and non-negative. Actual/Actual is additive and non-negative at one time of day. The street convention is the bond basis except when the end is a 31st: 30 days short if the start is a 31st too, one day long if it is a 30th.", "quantifier": "every pair/triple of date-times (same offset where dates are compared), exact arithmetic", "why_tests_cant": "all dates", "anchors": ["quantlib/src/time/calendar_trait.rs: CalendarTrait::year_fraction"]}
{"id": "C46", "title": "Coupon schedules tile the life of the instrument", "statement": "A schedule returned by build_schedule has its first period starting at the effective date, each period starting where the previous ended, every start before its end, and - with two or more periods - the last ending at maturity and paid there; the inner boundaries are the dates a whole number of tenors from the effective date (forward) or back from maturity (backward), adjusted; fixing is the last business day on or before start minus the gap. A single period ends at the adjusted rolled date instead, possibly beyond maturity. Nothing else is returned: boundaries that collapse or cross after adjustment, or negative gaps, are an error.", "quantifier": "every effective date, maturity, calendar, convention, frequency and generation direction (going backward over more than a year the months are those sub_period gives, see C42)", "why_tests_cant": "arbitrary calendars and lengths", "anchors": ["quantlib/src/instruments/schedule.rs: build_schedule"]}
{"id": "C47", "title": "Moving the evaluation date back and forth restores the market price", "statement": "For a stock with discrete dividends, the price after a chain of evaluation-date moves is the original price times (1 - yield) for exactly the ex-dates between the original and the final date (divided when going back): it depends only on the final date, going anywhere and back restores it, and prices without dividends never change. A move fails only if a registered dividend has all its ex-dates before the new date (C48).", "quantifier": "every set of prices and dividend objects (yields other than 100 %), every chain of dates, no dividend bump in between, exact arithmetic", "why_tests_cant": "unbounded chains", "anchors": ["quantlib/src/parameters/market_price.rs: MarketPrice::update_evaluation_date", "quantlib/src/evaluation_date.rs: EvaluationDate::set_date"]}
{"id": "C48", "title": "Dividend deduction ratio uses exactly the dividends after the evaluation date", "statement": "get_deduction_ratio(d) is the product of (1 - yield) over the ex-dividend dates from the evaluation date up to the day of d, after construction and after every evaluation-date change - unless every ex-date lies before the evaluation date: then construction and update panic (index out of range). Missing or empty dates are an error.", "quantifier": "every dividend schedule in time order with at most one ex-date per day, spot not zero, every evaluation date, every d, exact arithmetic", "why_tests_cant": "index loop with removal; the failing case is all dividends in the past", "anchors": ["quantlib/src/parameters/discrete_ratio_dividend.rs: DiscreteRatioDividend::{new,update_evaluation_date,get_deduction_ratio}"]}
{"id": "C49", "title": "Cholesky factor reproduces the matrix", "statement": "If cholesky_decomposition returns L for a symmetric matrix A then L is the unique lower triangular matrix with positive diagonal and L L^T = A. It returns one exactly for the positive definite matrices and an error for every other symmetric or non-square matrix. Only the lower triangle is read (symmetry is not checked).", "quantifier": "every size and every matrix, exact arithmetic", "why_tests_cant": "unbounded dimension", "anchors": ["quantlib/src/math/cholescky_factorization.rs: cholesky_decomposition"]}
{"id": "C50", "title": "Bilinear surfaces go through their grid and are linear in time between rows", "statement": "BilinearInterpolator::interpolate(t, x) is, between two times, on the straight line between what the two row interpolators answer at x; at a time knot it is that row's answer; outside the times the end row (flat), the continued line (linear) or an error. A surface from new_from_rectangle_data goes through its grid points (the last row and column need extrapolation to be allowed).", "quantifier": "every strictly increasing grid of any size over an ordered field, every query and extrapolation setting", "why_tests_cant": "unbounded grids, two nested searches", "anchors": ["quantlib/src/math/interpolators/bilinear_interpolator.rs: BilinearInterpolator"]}
{"id": "C51", "title": "Which days are holidays", "statement": "is_holiday answers true exactly if the local day (Seoul for Korean calendars, UTC-5 for United States ones, the date's own offset for the null calendar) is a weekend, or is not in the removed list and is a holiday of the calendar or in the added list. For the Korean and United States calendars only the instant matters. add_holidays(k) changes day k only, remove_holidays(k) makes a weekday k a business day for good (also if it is added later).", "quantifier": "every calendar value, date-time, offset and list of additions and removals", "why_tests_cant": "all dates, offsets and edit histories", "anchors": ["quantlib/src/time/calendar_trait.rs: CalendarTrait::_is_holiday", "quantlib/src/time/calendars/unitedstates.rs: UnitedStates", "quantlib/src/time/calendars/southkorea.rs: SouthKorea", "quantlib/src/time/calendars/nullcalendar.rs: NullCalendar"]}
{"id": "C52", "title": "Holidays of the United States calendars", "statement": "From 2022 on, a weekday is a base holiday of a United States calendar iff it is one of the named holidays of that calendar (n-th or last weekday of a month, or a fixed date moved to Monday or Friday as the calendar's rule says).", "quantifier": "every one of the five calendar types and every date from 2022-01-01", "why_tests_cant": "all future dates", "anchors": ["quantlib/src/time/calendars/unitedstates.rs: UnitedStatesType::is_holiday"]}
{"id": "C53", "title": "Good Friday", "statement": "is_good_friday finds the Friday before Easter for the years 1901..2199. As written it answers with the Orthodox Easter when asked for the Western one and vice versa; so the NYSE, SOFR and government-bond calendars close on the Orthodox Good Friday.", "quantifier": "every date; the tables are checked against the Easter computation for every year they cover", "why_tests_cant": "299 years, two churches; unit tests never ask", "anchors": ["quantlib/src/time/holiday.rs: Holidays::is_good_friday", "quantlib/src/time/constants.rs: EASTER_MONDAYS"]}
{"id": "C54", "title": "Holidays of the Korean calendars", "statement": "The Korean calendars rest on the fixed holidays, on three consecutive days around the lunar new year and at Chuseok, on Buddha's birthday and the listed substitute days; the Korea Exchange in addition on the last weekday of each year 1951..2050 (and not after, although the source lists dates up to 2100).", "quantifier": "every date and both calendar types", "why_tests_cant": "hundreds of table entries, all dates", "anchors": ["quantlib/src/time/calendars/southkorea.rs: SouthKoreaType"]}
{"id": "C55", "title": "Time between two date-times", "statement": "get_time_difference is the difference of positions on a year axis (each year from midnight 31 December to midnight 31 December has length one): additive for date-times at one offset in year order, non-negative within a year or from midnight, and never below -(1/365 - 1/366). An end in an earlier year gives zero.", "quantifier": "every pair and triple of date-times, exact arithmetic", "why_tests_cant": "all date-times; the sign error is in the last day of a year before a leap year", "anchors": ["quantlib/src/time/calendar_trait.rs: CalendarTrait::get_time_difference"]}
{"id": "C56", "title": "Bumping dividends touches exactly the dates in the interval", "statement": "bump_date_interval adds the bump to the amounts of exactly the dividends whose day is after the first and not after the second bound (none = unbounded) and recomputes every yield as amount over spot; dates and spot stay. Afterwards the deduction ratio counts all dividends up to the day asked for, also those before the evaluation date, until the evaluation date moves. An empty interval is an error.", "quantifier": "every dividend schedule in time order, at most one ex-date per day, spot not zero, every pair of bounds in years -9999..9999, every bump, exact arithmetic", "why_tests_cant": "all schedules and intervals; the fault (past dividends come back) needs a bump after a move of the evaluation date", "anchors": ["quantlib/src/parameters/discrete_ratio_dividend.rs: DiscreteRatioDividend::bump_date_interval"]}
{"id": "C57", "title": "Discount factors of a zero curve", "statement": "A zero curve built from rates at strictly increasing times (evaluation date up to the year 9899) has 29 cached times (0D to 100Y, from 0, strictly increasing); the rate at each is the single given rate, or the value of the broken line through the given rates continued flat. However often it is bumped: the discount factor at 0 is 1, at a cached time t with rate r it is exp(-r t), between cached times it is on the straight line, it is positive, at most 1 if no rate is negative, never rises with time if rate times time never falls, and with one rate everywhere is never below exp(-r t). Times before 0, or from the last cached time on, are an error. A sorted list of times gives the list of single results. At a date it is that of the time from the evaluation date; a date in an earlier calendar year is not refused but gives 1.", "quantifier": "every list of rates and times, evaluation date, time asked for and history of bumps; exact real arithmetic", "why_tests_cant": "all curves, times and bump histories", "anchors": ["quantlib/src/parameters/zero_curve.rs: ZeroCurve::new", "quantlib/src/parameters/zero_curve.rs: get_discount_factor", "quantlib/src/parameters/zero_curve.rs: get_vectorized_discount_factor_for_sorted_time", "quantlib/src/parameters/zero_curve.rs: get_discount_factor_at_date"]}
{"id": "C58", "title": "Forward discount factors and rates", "statement": "For t1 <= t2 inside the curve the forward discount factor is DF(t2)/DF(t1): 1 over an empty period, and the factors of adjoining periods multiply. Over a period tau longer than 1e-6 years the continuous forward rate f satisfies DF(t1) exp(-f tau) = DF(t2) and rates of adjoining periods average by length; the rate called simple satisfies DF(t1)(1 - s tau) = DF(t2), so it is a discount yield and not the simply compounded rate. Over shorter periods the rate is at least eleven times too high, over an empty period not a number. Times or dates out of order are an error.", "quantifier": "every curve, every pair and triple of times, both compoundings; exact real arithmetic", "why_tests_cant": "all curves and pairs of times", "anchors": ["quantlib/src/parameters/zero_curve.rs: get_discount_factor_between_times", "quantlib/src/parameters/zero_curve.rs: get_forward_rate_between_times", "quantlib/src/parameters/zero_curve.rs: get_forward_rate_between_dates", "quantlib/src/parameters/zero_curve.rs: get_forward_rate_from_evaluation_date", "quantlib/src/parameters/zero_curve.rs: get_short_rate_at_time"]}
{"id": "C59", "title": "Bumping a zero curve", "statement": "bump_time_interval(t1, t2, b) with t1 <= t2 adds b to the rates at exactly the cached times in (t1, t2], keeps the others and the times, and recomputes every discount factor; bumping by -b over the same interval restores the curve, bumping two adjoining intervals is bumping their union, a bump that is not negative raises no discount factor. t1 > t2 is an error. Between dates the limits are the times from the evaluation date.", "quantifier": "every curve, interval, bump and time asked for; exact real arithmetic", "why_tests_cant": "all curves and sequences of bumps", "anchors": ["quantlib/src/parameters/zero_curve.rs: bump_time_interval", "quantlib/src/parameters/zero_curve.rs: bump_date_interval"]}
{"id": "C60", "title": "Validation of curve data", "statement": "VectorData::new accepts exactly: dates (as many as values) with a market date, the times then being measured from it and any given times ignored; or no dates and as many times as values. Everything else is an error, never a panic. Dates in order at one time of day and offset, from the market date's year on, give strictly increasing times, from which a zero curve can be built.", "quantifier": "every list of values, optional dates, times and market date", "why_tests_cant": "all inputs", "anchors": ["quantlib/src/data/vector_data.rs: VectorData::new"]}
{"id": "C61", "title": "Cash flows of a bond", "statement": "The cash-flow map of a bond has one entry per instant; what is due at an instant is the sum of the coupons paid then, leaving out those paid before the pricing day, plus the principal 1 at maturity unless the bond is a coupon strip. A coupon pays its given amount or, at a fixed rate, rate times year fraction. The map exists exactly when the amount of every coupon not yet paid exists. A bond is accepted by new exactly when it has a fixed rate or a rate index and not both; made from conventions it is not checked, and getting the cash flows then panics.", "quantifier": "every bond (schedule, rates, conventions), market and pricing date; exact real arithmetic", "why_tests_cant": "all schedules and pricing dates", "anchors": ["quantlib/src/instruments/bond.rs: Bond::new", "quantlib/src/instruments/bond.rs: Bond::get_cashflows"]}
{"id": "C62", "title": "Value of a bond", "statement": "The price of a bond is the sum of its payments after the pricing day, each times the discount factor of its payment date, and the principal times that of maturity, divided by the discount factor of the pricing date, whatever order the cash-flow map is walked in. The detailed result exists exactly when the price does, carries the same price and reports each entry of the cash-flow map once with probability one. The price of a fixed-rate bond is affine in its coupon rate.", "quantifier": "every bond whose dates share a UTC offset, every curve, market and pricing date; exact real arithmetic", "why_tests_cant": "all bonds and curves; map order is random", "anchors": ["quantlib/src/pricing_engines/bond_pricer.rs: BondPricer::npv", "quantlib/src/pricing_engines/bond_pricer.rs: BondPricer::npv_result"]}
{"id": "C63", "title": "The kind of a swap", "statement": "PlainSwap::new classifies a swap as IRS (no amounts exchanged, both rates, one currency), CRS (amounts exchanged at both ends, both rates, two currencies), FX swap (amounts exchanged at both ends, no rates or coupons, two currencies), FX forward or FX spot (amounts exchanged at the end only; maturity more, or not more, than two days after issue), exactly when it meets that definition; the kinds exclude each other and a swap that meets none is refused with an error. Made from conventions (effective date before maturity) a swap has the schedules of the conventions and is an IRS or a CRS; currencies of an IRS are then not compared and the FX kinds cannot be made.", "quantifier": "every swap (legs, rates, amounts, currencies, dates) with an issue date two days before the end of the calendar", "why_tests_cant": "all combinations of optional fields", "anchors": ["quantlib/src/instruments/plain_swap.rs: PlainSwap::new", "quantlib/src/instruments/plain_swap.rs: PlainSwap::new_from_conventions"]}
{"id": "C64", "title": "Cash flows of the legs of a swap", "statement": "The cash-flow map of each leg has one entry per instant. On the fixed leg what is due at an instant is the initial amount (received) at the effective date, minus the final amount at maturity, minus the fixed coupons (rate times year fraction times the initial amount, or 1) paid then; on the floating leg the signs are exchanged and the coupons are the floating amounts times the initial amount as long as the effective date is not past, and times 1 afterwards. Payments before the pricing day are left out. The maps exist exactly when the amount of every coupon not yet paid does; a leg without a rate has no coupons.", "quantifier": "every swap whose effective date and maturity are different instants, every market and pricing date; exact real arithmetic", "why_tests_cant": "all schedules, amounts and pricing dates", "anchors": ["quantlib/src/instruments/plain_swap.rs: get_fixed_cashflows", "quantlib/src/instruments/plain_swap.rs: get_floating_cashflows"]}
{"id": "C65", "title": "Value and exposure of a swap", "statement": "The value of a swap is the value of its fixed leg plus the exchange rate (or 1) times the value of its floating leg, each payment after the evaluation day times the discount factor of its date on the curve of that leg, whatever order the maps are walked in. The detailed result exists exactly when the price does, with the same price and each entry of the two maps once. The exposure exists exactly when the price does; in two currencies it is the value of each leg in its own currency times the notional, and converts to price times notional; no other currency appears.", "quantifier": "every swap whose effective date and maturity are different instants and whose leg dates share a UTC offset, every pair of curves, market, exchange rate and evaluation date; exact real arithmetic", "why_tests_cant": "all swaps and curves; map order is random", "anchors": ["quantlib/src/pricing_engines/plain_swap_pricer.rs: PlainSwapPricer"]}
{"id": "C66", "title": "Amount of a floating coupon", "statement": "Without compounding a coupon pays (rate + spread) times year fraction; the rate is the published fixing if the fixing date is before the pricing date, the curve's rate from the evaluation date over the index period if it should have been published and was not, and the forward rate over the index period for later fixings. With compounding, a coupon whose fixing is before the pricing date pays the product of 1 + (rate + spread) times year fraction over consecutive periods that tile the coupon period, less 1, each rate being the fixing if past and published, the spot rate if past and not published, and the forward rate otherwise; a coupon whose fixing is not before the pricing date is not compounded but pays the average of the forward rates at its first and last fixing. A coupon whose fixings are all past and published does not depend on the curve.", "quantifier": "every index, tenor, curve, fixing history, coupon and pricing date; exact real arithmetic", "why_tests_cant": "all schedules, calendars and fixings", "anchors": ["quantlib/src/parameters/rate_index.rs: RateIndex::get_coupon_amount"]}
{"id": "C67", "title": "Expected coupon amounts", "statement": "The expected coupon amounts of a bond's result exist and have one entry per instant, with the amount due then, whatever order the maps are walked in. For a swap they exist too and, at an instant at which not both legs pay, are the net amount due; at an instant at which both legs pay only one of the two amounts is reported, and which one depends on the order of the map.", "quantifier": "every bond with a result, every swap with a result whose effective date is not its maturity, dates at one instant written alike, every walking order, every instant", "why_tests_cant": "map order is random", "anchors": ["quantlib/src/pricing_engines/npv_result.rs: get_expected_coupon_amount"]}
{"id": "C68", "title": "Futures and FX futures", "statement": "The fair forward is spot times the borrowing discount over the collateral discount, times the remaining share after dividends up to maturity; without dividends it is the spot price on the evaluation date and when the curves agree. The exposure of a future is one amount in its currency, (forward - average trade price) times notional. An FX future satisfies covered interest parity, and its exposures in two different currencies convert to the worth of the position (its notional is not applied); with one currency the second exposure overwrites the first.", "quantifier": "every pair of curves, dividend, spot or exchange rate, maturity and trade price; exact real arithmetic", "why_tests_cant": "all curves and dates", "anchors": ["quantlib/src/pricing_engines/futures_pricer.rs: FuturesPricer", "quantlib/src/pricing_engines/fx_futures_pricer.rs: FxFuturesPricer"]}
{"id": "C69", "title": "Closing price at a time", "statement": "get_at_datetime returns the closing price of the local day (in the offset of the prices) when the time is at or before the close, and that of the next business day when it is after; two ways of writing the same instant give the same answer.", "quantifier": "every price history, closing time, offset, calendar and date-time", "why_tests_cant": "all instants and calendars", "anchors": ["quantlib/src/parameters/past_price.rs: DailyClosePrice::get_at_datetime"]}
{"id": "C70", "title": "Virtual bond of a KTB future", "statement": "The price of the virtual bond is its notional times the annuity of its coupons plus principal, discounted at yield over frequency per period; it is the notional exactly at the coupon rate, above it for lower yields and below for higher ones, and, unless the coupon is negative, falls as the yield rises. A frequency of none gives no number.", "quantifier": "every number of years (from one on, for the comparisons), coupon, frequency, positive notional and yield above minus the frequency, with years times frequency below 2^31; exact real arithmetic", "why_tests_cant": "all yields and coupons", "anchors": ["quantlib/src/pricing_engines/ktbf_pricer.rs: KtbfPricer", "quantlib/src/instruments/ktbf.rs"]}
{"id": "C71", "title": "Price of a bond from its yield", "statement": "The KRX price is the sum of the payments after the pricing day, discounted to the next payment with compound interest by 30/360 street periods, and from there with simple interest for the rest of the coupon period (from the last payment date, or issue). With nothing negative owed and the next payment not on a 31st it falls as the yield rises, so a price belongs to at most one yield. If the next payment is on a 31st, it is discounted by -30/360 of a year instead of 0 and the price is too high at any positive yield.", "quantifier": "every bond, market, frequency but None, pricing date (for the monotony: from issue on, with a positive payment to come) and yield above minus the frequency; exact real arithmetic", "why_tests_cant": "all schedules and yields", "anchors": ["quantlib/src/pricing_engines/krx_yield_pricer.rs: KrxYieldPricer::npv"]}
{"id": "C72", "title": "Price of a European option", "statement": "The price of a call (put) in the currency of its underlying is the discount factor times the expectation of max(S - K, 0) (max(K - S, 0)) for a lognormal S whose mean is the fair forward and whose log deviation is volatility times square root of time. Hence a call lies between its discounted intrinsic value and the discounted forward, a put between its discounted intrinsic value and the discounted strike; call minus put is the discounted forward minus strike; prices rise with a constant volatility; call prices fall with the strike, no faster than the discounted strike, and convexly. At expiry, or without volatility, the price is the discounted intrinsic value, but not a number if the strike is the forward. An option in another currency than its underlying is refused without a quanto.", "quantifier": "every strike, forward, volatility, time, curve and (where not constant) volatility surface with a price; exact real arithmetic", "why_tests_cant": "all markets and strikes", "anchors": ["quantlib/src/pricing_engines/option_analytic_pricer.rs: OptionAnalyticPricer::npv", "quantlib/src/parameters/volatilities/constant_volatility.rs"]}
{"id": "C73", "title": "Quanto adjustment", "statement": "With a quanto, the price is the discounted expected payoff on a lognormal price with mean forward times exp(-a), a being volatility times time times FX volatility times correlation, plus (call) or minus (put) the discounted (1 - exp(-a)) forward times the probability of exercise: the forward that is multiplied is not adjusted. Put-call parity therefore still holds with the unadjusted forward, and a call struck above the forward, with correlation -1, has a negative price for every high enough FX volatility. A correlation or FX volatility of zero changes nothing.", "quantifier": "every option with a quanto, every volatility and correlation; exact real arithmetic", "why_tests_cant": "all markets and correlations", "anchors": ["quantlib/src/pricing_engines/option_analytic_pricer.rs: OptionAnalyticPricer::npv", "quantlib/src/parameters/quanto.rs: Quanto::quanto_adjust"]}
{"id": "C74", "title": "Volatilities of a surface", "statement": "A surface with as many rows as dates and times, strictly increasing times and moneyness and positive forwards can be built; building changes nothing but the interpolation. get_value then answers every time and forward moneyness: linear in forward moneyness on each row (spot moneyness times quoted spot over the row's forward), then linear in time, flat outside on all sides; so it returns the cell of the matrix at the grid points, and never leaves the range of the cells.", "quantifier": "every surface of that shape, every market, time and moneyness; exact real arithmetic", "why_tests_cant": "all grids and queries", "anchors": ["quantlib/src/parameters/volatilities/local_volatility_surface.rs: LocalVolatilitySurface::build", "quantlib/src/parameters/volatilities/local_volatility_surface.rs: LocalVolatilitySurface::get_value"]}
{"id": "C75", "title": "What a surface sticks to", "statement": "A surface sticky to the strike, built again after the spot price has moved (and nothing else), gives every strike and maturity the volatility it had before. A surface sticky to moneyness is the same function of forward moneyness whatever the spot price is when it is built.", "quantifier": "every surface of the right shape, every pair of spot prices, strike, maturity and time; exact real arithmetic", "why_tests_cant": "all grids and spot moves", "anchors": ["quantlib/src/parameters/volatilities/local_volatility_surface.rs: LocalVolatilitySurface::build"]}
{"id": "C76", "title": "Volatility bumps", "statement": "bump_volatility adds the amount to exactly the cells whose time and moneyness lie above the lower and up to the upper limit (both shifted by 0.0001; a missing limit is none), leaves the others, rebuilds and succeeds whenever a build does. The same window bumped by the opposite amount restores the surface; adjoining windows bumped in turn equal their union; without limits every volatility rises by the amount at every time and moneyness. A constant volatility ignores the window, so n adjoining windows raise it n times.", "quantifier": "every surface of the right shape, every window and amount; exact real arithmetic", "why_tests_cant": "all grids and windows", "anchors": ["quantlib/src/parameters/volatilities/local_volatility_surface.rs: LocalVolatilitySurface::bump_volatility", "quantlib/src/parameters/volatilities/constant_volatility.rs: bump_volatility"]}
{"id": "C77", "title": "Surfaces from quotes", "statement": "From quotes in date order from today on, with forwards, a spot price, at least two dates and two increasing strikes, with_market_surface makes a surface on the given tenors and moneyness whose cell for a date and a moneyness is the quotes' value there, linear in strike over spot and then in time, flat outside; on quoted dates and strikes it is the quote. Quotes out of order, in the past or without spot price, and tenors out of order, are refused. with_constant_volatility has its volatility at every time and moneyness once built.", "quantifier": "every set of quotes, tenors and moneyness; exact real arithmetic", "why_tests_cant": "all quotes and grids", "anchors": ["quantlib/src/parameters/volatilities/local_volatility_surface.rs: LocalVolatilitySurface::with_market_surface", "quantlib/src/parameters/volatilities/local_volatility_surface.rs: LocalVolatilitySurface::with_constant_volatility", "quantlib/src/data/surface_data.rs"]}
{"id": "C78", "title": "Currency codes and pairs", "statement": "Every currency is written as three capital letters and read back from them, and no two are written alike; any other text, lower case included, is silently read as NIL. A pair is written as its two codes in a row and read back; reading a pair panics exactly if the text is shorter than six bytes or a character runs over byte three or six, and looks at the first six bytes only. Reciprocal of reciprocal is the pair. currencies_to_fx_codes gives exactly the ordered pairs of different listed currencies and the pairs that must be included, none twice if no currency is listed twice.", "quantifier": "every currency, pair, text and list of currencies", "why_tests_cant": "all texts and lists", "anchors": ["quantlib/src/currency.rs: Currency::from", "quantlib/src/currency.rs: Currency::as_str", "quantlib/src/currency.rs: FxCode", "quantlib/src/utils/make_fx.rs: currencies_to_fx_codes"]}
{"id": "C79", "title": "What a portfolio needs", "statement": "The underlyings, currency pairs, underlyings with volatility, quantos and type names of a portfolio are those of its instruments, each once, in the order in which they come up first; adding instruments at the end keeps the beginning of every list. Exactly futures, options and stocks have an underlying, exactly options need volatility, and an option has a quanto only for its own underlying and two different currencies, the second its own.", "quantifier": "every list of instruments", "why_tests_cant": "all portfolios", "anchors": ["quantlib/src/instrument.rs: Instruments::get_all_underlying_codes", "quantlib/src/instrument.rs: Instruments::get_all_fxcodes_for_pricing", "quantlib/src/instrument.rs: Instruments::get_all_quanto_fxcode_und_pairs", "quantlib/src/instrument.rs: Instruments::get_all_type_names"]}
{"id": "C80", "title": "Selecting instruments", "statement": "Selecting by underlying, currency, types, maturity up to or after a date keeps exactly the instruments meant, in order; up to and after a date split the instruments not excluded, those without maturity counting as after every date. The shortest maturity is the earliest there is; the longest is the latest, but none as soon as one instrument has no maturity.", "quantifier": "every list of instruments, date and exclusion list", "why_tests_cant": "all portfolios and dates", "anchors": ["quantlib/src/instrument.rs: Instruments::instruments_with_underlying", "quantlib/src/instrument.rs: Instruments::instruments_with_maturity_upto", "quantlib/src/instrument.rs: Instruments::instruments_with_maturity_over", "quantlib/src/instrument.rs: Instruments::get_shortest_maturity", "quantlib/src/instrument.rs: Instruments::get_longest_maturity"]}
{"id": "C81", "title": "Currencies of a portfolio", "statement": "get_all_currencies never fails; it lists the currency of every instrument and that of the underlying of every future on a stock or currency, each once. The floating currency of a swap and the currency of an option's underlying are left out.", "quantifier": "every list of instruments", "why_tests_cant": "all portfolios", "anchors": ["quantlib/src/instrument.rs: Instruments::get_all_currencies"]}
{"id": "C82", "title": "Curves of a portfolio", "statement": "get_all_curve_names succeeds exactly if every curve name the instruments ask for is given; it then lists exactly the names in use, each once, without Dummy. instruments_using_curve lists, for a name other than Dummy, the instruments not excluded as often as the curve has a role for them (a swap with a rate index comes twice for its curve). A name is listed iff some instrument uses it.", "quantifier": "every list of instruments, set of names and exclusion list", "why_tests_cant": "all portfolios and name maps", "anchors": ["quantlib/src/instrument.rs: Instruments::get_all_curve_names", "quantlib/src/instrument.rs: Instruments::instruments_using_curve", "quantlib/src/pricing_engines/match_parameter.rs: MatchParameter"]}
{"id": "C83", "title": "Which pricer an instrument gets", "statement": "create_pricer succeeds exactly if the parameters the instrument's kind calls for are named and loaded, and the pricer is made of exactly those. An engine never starts with a KTB future or a bond future, whatever the data; nor, unless an underlying is called Dummy, with an interest rate swap, an option settled daily or a bond without discount curve name; nor with a stock whose own code is not the code of an underlying.", "quantifier": "every instrument, set of names and loaded parameters", "why_tests_cant": "all portfolios and markets", "anchors": ["quantlib/src/pricing_engines/pricer_factory.rs: PricerFactory::create_pricer"]}
{"id": "C84", "title": "Groups of instruments and schedules", "statement": "distribute_instruments fails exactly if some instrument is in no category; else every instrument is in exactly one group, that of the first category it is in, in order, and no group is empty. If no code is in the results of two groups, the results of the generator do not depend on the order in which the threads finish, and a failing group takes nothing from the others; with a repeated code the last thread wins.", "quantifier": "every list of categories and instruments, every outcome of the engines and every order of the threads", "why_tests_cant": "all schedules and portfolios", "anchors": ["quantlib/src/pricing_engines/engine_generator.rs: EngineGenerator::distribute_instruments", "quantlib/src/pricing_engines/engine_generator.rs: EngineGenerator::calculate", "quantlib/src/pricing_engines/engine_generator.rs: InstrumentCategory::contains"]}
{"id": "C85", "title": "Starting an engine", "statement": "with_instruments accepts exactly the portfolios with at least one instrument in which every maturity is after the evaluation date. with_parameter_data succeeds exactly if the data suffices: rates of all pairs, all curve names, a curve per name and per underlying (its borrowing curve), stock prices, volatilities (constant before surface) over loaded curves, FX volatilities and correlations of quantos, all past values; missing dividends are allowed. Then exactly what the portfolio needs is loaded, and the engine starts iff every instrument has its pricer.", "quantifier": "every portfolio, set of names and market data", "why_tests_cant": "all portfolios and markets", "anchors": ["quantlib/src/pricing_engines/engine.rs: Engine::with_instruments", "quantlib/src/pricing_engines/engine.rs: Engine::with_parameter_data", "quantlib/src/pricing_engines/engine.rs: Engine::initialize_pricers"]}
{"id": "C86", "title": "Exchange rates from quotes", "statement": "The rate of a pair is its quote; without it, one over the quote of the reciprocal; without both, the ratio of the quotes of both currencies against KRW; else an error. If the quotes are those of one set of currency prices, every rate found is the ratio of the prices, whichever way it was found.", "quantifier": "every pair and set of quotes, exact real arithmetic", "why_tests_cant": "all quote sets", "anchors": ["quantlib/src/pricing_engines/engine.rs: Engine::with_parameter_data"]}
{"id": "C87", "title": "Npv, value and exposure of an engine", "statement": "After the npv part every instrument's result holds what its pricer answers in the current market, the value is that npv times the notional, and the cash flows are the expected ones of the pricer's answer; after the exposure part it holds the pricer's exposure at the npv stored. Nothing else in the results, and nothing in the market, changes; each part succeeds exactly if the pricers answer.", "quantifier": "every set of instruments with different codes, pricers, market and results; pricers are arbitrary functions of instrument and market", "why_tests_cant": "all portfolios, pricers and markets", "anchors": ["quantlib/src/pricing_engines/engine.rs: Engine::set_npv_results", "quantlib/src/pricing_engines/engine.rs: Engine::set_values", "quantlib/src/pricing_engines/engine.rs: Engine::set_cashflow_inbetween", "quantlib/src/pricing_engines/engine.rs: Engine::set_fx_exposures"]}
{"id": "C88", "title": "Delta and gamma of an engine", "statement": "After the delta part the market is what it was. A stock or future has under its own code 1 % of its value as delta and 0 as gamma; every other instrument has for each of its underlyings the central difference of its npv with only that price scaled by 1 \u00b1 ratio, for a move of 1 % and its notional, and the matching second difference as gamma. Nothing else in the results has changed.", "quantifier": "every set of instruments with different codes, pricers, market, ratio and results; exact real arithmetic", "why_tests_cant": "all portfolios, pricers and markets", "anchors": ["quantlib/src/pricing_engines/engine.rs: Engine::preprocess_delta_gamma", "quantlib/src/pricing_engines/engine.rs: Engine::set_delta_gamma"]}
{"id": "C89", "title": "Rho of an engine", "statement": "After the rho part the market is what it was. Every instrument other than a stock has, for each curve it uses, the forward difference of its npv when all rates of only that curve rise by the bump, for one basis point and its notional. Nothing else in the results has changed.", "quantifier": "every set of instruments with different codes, pricers, market of sound curves, bump and results; exact real arithmetic", "why_tests_cant": "all portfolios, pricers and markets", "anchors": ["quantlib/src/pricing_engines/engine.rs: Engine::set_rho"]}
{"id": "C90", "title": "Vega of an engine", "statement": "After the vega part the market is what it was. Every instrument other than a stock or future has, for each of its underlyings, the forward difference of its npv when the whole volatility surface of only that underlying rises by the bump, for 1 % and its notional. Nothing else in the results has changed.", "quantifier": "every set of instruments with different codes, pricers, market of sound surfaces, bump and results; exact real arithmetic", "why_tests_cant": "all portfolios, pricers and markets", "anchors": ["quantlib/src/pricing_engines/engine.rs: Engine::set_vega"]}
{"id": "C91", "title": "Dividend delta of an engine", "statement": "In a market without past dividends, after the dividend part the market is what it was, and every instrument other than stock and cash has, for each of its underlyings, the forward difference of its npv when every dividend of only that underlying rises by the bump, for 0.0001 and its notional; nothing else in the results has changed. With past dividends the market is not restored: the dividends of the underlying count from then on also for days before the evaluation date.", "quantifier": "every set of instruments with different codes, pricers, market, bump and results; exact real arithmetic", "why_tests_cant": "all portfolios, pricers and markets", "anchors": ["quantlib/src/pricing_engines/engine.rs: Engine::set_div_delta"]}
{"id": "C92", "title": "Theta of an engine", "statement": "After the theta part the market, date included, is what it was. Stocks and cash have theta 0; every other instrument has the change of its npv from today to the moved date plus the cash flows due after today up to it, per day and times the notional. The moved date is theta_day days ahead, or for instruments maturing by then the earliest of their maturities. Nothing else in the results has changed.", "quantifier": "every set of instruments with different codes, pricers, market, number of days and results; exact real arithmetic", "why_tests_cant": "all portfolios, pricers and markets", "anchors": ["quantlib/src/pricing_engines/engine.rs: Engine::set_theta_for_given_instruments", "quantlib/src/pricing_engines/engine.rs: Engine::preprocess_theta", "quantlib/src/pricing_engines/engine.rs: Engine::calculate"]}
{"id": "C93", "title": "Vega by tenor", "statement": "With surfaces on the configured tenors, after the vega structure part the market is what it was, and every instrument other than cash, stock and future has for each of its underlyings one number per tenor: the difference of its npv with the volatilities from this tenor on raised and of that with those from the next tenor on raised, per bump, for 1 % and its notional; tenors starting after the last maturity count nothing. The numbers add up to the forward difference of the whole surface raised, the vega with that bump. Nothing else in the results has changed.", "quantifier": "every set of instruments with different codes, pricers, market of sound surfaces on the tenors, bump and results; exact real arithmetic", "why_tests_cant": "all portfolios, pricers, markets and tenors", "anchors": ["quantlib/src/pricing_engines/engine.rs: Engine::set_vega_structure"]}
{"id": "C94", "title": "Rho by tenor", "statement": "After the rho structure part the market is what it was. Every instrument other than stock and cash has, for each curve it uses, one number per tenor: the forward difference of its npv when the rates of only that curve, at times after the tenor before and up to this one, rise by the bump, for a basis point and its notional; zero for tenors after one by which everything that uses the curve has matured. Nothing else in the results has changed.", "quantifier": "every set of instruments with different codes, pricers, market of sound curves, bump, tenors and results; exact real arithmetic", "why_tests_cant": "all portfolios, pricers, markets and tenors", "anchors": ["quantlib/src/pricing_engines/engine.rs: Engine::set_rho_structure"]}
{"id": "C95", "title": "Dividend delta by tenor", "statement": "In a market without past dividends, after the dividend structure part the market is what it was, and every instrument other than stock and cash has, for each of its underlyings that has dividends, one number per tenor: the forward difference of its npv when the dividends of only that underlying on days after the tenor before and up to this one rise by the bump, for 0.0001 and its notional; zero for tenors after one by which everything on the underlying has matured. Nothing else in the results has changed.", "quantifier": "every set of instruments with different codes, pricers, market, bump, tenors and results; exact real arithmetic", "why_tests_cant": "all portfolios, pricers, markets and tenors", "anchors": ["quantlib/src/pricing_engines/engine.rs: Engine::set_div_structure"]}
{"id": "C96", "title": "Vega by tenor and moneyness", "statement": "With surfaces on the configured tenors and moneynesses, after the vega matrix part every instrument other than cash, stock and future has for each of its underlyings a matrix. The cells of the surface are raised one after the other, by rows from the last to the first, rows of tenors starting after the last maturity left out, and each cell of the matrix is the difference its raising makes to the npv, per bump, for 1 % and its notional; the cells add up to the forward difference with all counted cells raised. The same matrix also stands under each later underlying with such instruments. The rows left out are a bump lower in the market afterwards; if none is left out the market is what it was. Nothing else in the results has changed.", "quantifier": "every set of instruments with different codes, pricers, market of sound surfaces on the grid, bump and results; exact real arithmetic", "why_tests_cant": "all portfolios, pricers, markets, tenors and moneynesses", "anchors": ["quantlib/src/pricing_engines/engine.rs: Engine::set_vega_matrix"]}
{"id": "C97", "title": "A whole calculation", "statement": "A calculation of an engine whose instruments are all to be priced, in a sound market, sets for every instrument exactly the parts switched on, each made from npvs in markets that differ from the given one only in what the part is about, and leaves the parts switched off and all other results as they were. The market is what it was, but for the volatility rows the matrix leaves lower. With npv switched off, exposure, delta and vega fail; a second calculation after npv and delta fails if some instrument does not have the last underlying.", "quantifier": "every set of instruments with different codes, pricers, sound market, configuration and results; exact real arithmetic", "why_tests_cant": "all portfolios, pricers, markets and combinations of the switches", "anchors": ["quantlib/src/pricing_engines/engine.rs: Engine::calculate", "quantlib/src/pricing_engines/engine.rs: Engine::initialize"]}
{"id": "C98", "title": "Results in another currency", "statement": "Converting a result to its own currency changes nothing. To another currency the value, theta, every exposure and every greek, of every name, tenor and cell, is multiplied by the rate; the npv per unit, the notional and the cash flows are not. There and back at the reciprocal rate gives the result again, and two conversions are one at the product of the rates.", "quantifier": "every result, currencies and rates; exact real arithmetic", "why_tests_cant": "all results and rates", "anchors": ["quantlib/src/pricing_engines/calculation_result.rs: CalculationResult::representation_currency_conversion"]}
{"id": "C99", "title": "Derivative quotes of the exchange", "statement": "Every derivative quote message (five or ten levels) composed by the published layout from an instrument, a time, and the price, quantity and number of orders of each side of each level is delivered as exactly that: ISIN code, time, and for the first `cut` levels the signed prices in units of the last digit, quantities and counts, with the converter of the price format that information category and ISIN code call for. The first message after the date was set gets that date plus its time plus nine hours. Into a buffer the same fields are written; levels behind the cut stay.", "quantifier": "every heading, every levels, prices, quantities and counts that fit their fields, every cut, every rest of the message, every memory behind it, both overflow modes", "why_tests_cant": "all messages; fields are read through raw pointers in words wider than the field", "anchors": ["trading-engine/src/data/krx/derivative_quote.rs: IFMSRPD0034, IFMSRPD0035 to_quote_snapshot, to_quote_snapshot_buffer", "trading-engine/src/data/krx/krx_converter.rs: get_krx_derivative_converter", "trading-engine/src/data/krx/unroll_macro.rs: parse_unroll"]}
{"id": "C100", "title": "Stock quotes of the exchange", "statement": "Every stock quote message (with or without quantities of liquidity providers) composed by the published layout is delivered with its ISIN code, time, quantities and quantities of liquidity providers of the first `cut` levels, and with every price divided by 100, rounded down: the unchecked conversion drops the last two digits instead of the first two.", "quantifier": "every heading, ten levels, prices below 10^9 won, quantities below 10^12, every cut, every rest of the message", "why_tests_cant": "all messages; the unit tests of the file are unimplemented", "anchors": ["trading-engine/src/data/krx/stock_quote.rs: IFMSRPD0002, IFMSRPD0003 to_quote_snapshot, to_quote_snapshot_buffer", "trading-engine/src/data/krx/unroll_macro.rs: parse_unroll_unchecked_price_no_count_no_lp_quantity, parse_unroll_unchecked_price_no_count_with_lp_quantity"]}
{"id": "C101", "title": "Trades with quotes of the exchange", "statement": "Every derivative message with a trade and quotes composed by the published layout is delivered as exactly that: ISIN code, time, price, quantity and side of the trade, the cumulative quantity if asked for and the first `cut` levels, with the converter of the format. Into a buffer likewise, but with ten levels (0038) the buffer keeps the converter it had, whatever the format.", "quantifier": "every heading, trade, levels, cut, rest of the message, both overflow modes", "why_tests_cant": "all messages", "anchors": ["trading-engine/src/data/krx/derivative_trade.rs: IFMSRPD0037, IFMSRPD0038 to_trade_quote_snapshot, to_trade_quote_snapshot_buffer"]}
{"id": "C102", "title": "Trades of the exchange", "statement": "Every derivative message with a trade alone composed by the published layout and parsed into a buffer gives exactly the trade. Parsed into a new trade all fields but the price are right; the price is the number formed by the first eight characters of the field with sign and point counted as digits, which is never the price except for zero in a format without decimals.", "quantifier": "every heading, trade, rest of the message, both overflow modes", "why_tests_cant": "all messages", "anchors": ["trading-engine/src/data/krx/derivative_trade.rs: IFMSRPD0036 to_trade_data, to_trade_data_buffer"]}
{"id": "C103", "title": "Parsing into a buffer", "statement": "For arbitrary bytes, parsing an exchange message into a buffer with room for the levels does what parsing into a new snapshot does: the same error or panic, or the same clock and the same snapshot, except that the levels behind the cut, the cut and the LP holdings of the buffer stay, with 0038 the converter and with 0036 the price differs. A buffer made for exactly these levels gets exactly the new snapshot. A buffer without room is refused.", "quantifier": "every message of arbitrary bytes and length, buffer, cut within the message's levels, clock", "why_tests_cant": "all byte strings, buffers and states of the clock", "anchors": ["trading-engine/src/data/krx/derivative_quote.rs", "trading-engine/src/data/krx/stock_quote.rs", "trading-engine/src/data/krx/derivative_trade.rs", "trading-engine/src/data/checker.rs: is_valid_quote_snapshot_buffer"]}
{"id": "C104", "title": "Which exchange messages are accepted", "statement": "With a date before the year 2262 a message is accepted exactly if it has the length of its interface, the end mark 255 and an ISIN code of twelve ASCII characters without blanks and tabs; no other byte can make it fail. A bad ISIN code is refused with an error. A wrong length or end mark is refused with an error only if the packet has at least all but one of the bytes and those are UTF-8; a shorter packet or one that is not UTF-8 makes the program panic. More levels than the message has are refused at set-up.", "quantifier": "every message of arbitrary bytes and length, every clock before 2262", "why_tests_cant": "all byte strings of all lengths", "anchors": ["trading-engine/src/data/checker.rs: is_valid_krx_payload", "trading-engine/src/data/krx/derivative_quote.rs", "trading-engine/src/data/krx/derivative_trade.rs", "trading-engine/src/data/krx/stock_quote.rs", "trading-engine/src/types/id/isin_code.rs: IsinCode::new"]}
{"id": "C105", "title": "Only the message's own bytes count", "statement": "Two packets with the same length and bytes give the same result, whatever lies behind them in memory: no field is influenced by bytes outside the message, although fields are read in words wider than they are.", "quantifier": "every message of arbitrary bytes and length, any two memories that agree on it", "why_tests_cant": "all byte strings and surrounding memories", "anchors": ["trading-engine/src/data/krx/derivative_quote.rs", "trading-engine/src/data/krx/derivative_trade.rs", "trading-engine/src/data/krx/stock_quote.rs", "trading-engine/src/utils/numeric_converter.rs"]}
{"id": "C106", "title": "Instrument identifiers", "statement": "After every sequence of creations (by constructor or deserialisation, default included) every identifier still gives the symbol and venue it was made from, two identifiers are equal exactly if these are the same, and making one again gives an equal one without growing the table. An ISIN code is accepted exactly if it is twelve ASCII characters without blanks and tabs and is kept as it is; a ticker is accepted up to 32 bytes, and two tickers not ending with a zero byte get the same symbol only if equal. The text of an identifier is its ISIN code, or its ticker followed by zero bytes up to 32; it is UTF-8 for an ISIN code, and for a ticker exactly if the bytes it was made from are (they are not checked).", "quantifier": "every sequence of identifiers; every byte string", "why_tests_cant": "all histories of creations", "anchors": ["trading-engine/src/types/id/mod.rs: InstId::new, InstId::default, PartialEq", "trading-engine/src/types/id/isin_code.rs", "trading-engine/src/types/id/ticker.rs"]}
{"id": "C107", "title": "Transaction codes", "statement": "Every transaction code belongs to at most one interface, and looking a code up gives exactly the interface that lists it. For all sixteen derivative products trades go to 0036, quotes to 0034 or (stock derivatives) 0035, trades with quotes to 0037 or 0038, except G714F, which is missing.", "quantifier": "every code", "why_tests_cant": "all strings", "anchors": ["trading-engine/src/data/krx/interface_map.rs: KRX_TR_CODE_MAP"]}
{"id": "C108", "title": "Scaled numbers of features", "statement": "As features, KRX prices are the integer prices divided exactly by the power of ten of their format (their decimals, and one more for stock derivatives and commodities), quantities are unchanged, nothing can fail and the order of prices is kept. For any format: exact while normalizer and decimals together lie between 0 and 18 (19 for quantities); outside a debug build panics, and below zero a release build as well. A trade price keeps the format of its first trade while its value follows the format of each trade.", "quantifier": "every format, normalizer and integer value, both overflow modes", "why_tests_cant": "all integers and formats", "anchors": ["trading-engine/src/utils/numeric_converter.rs: normalized_real_from_i64, normalized_real_from_u64", "trading-engine/src/data/krx/krx_converter.rs", "trading-engine/src/feature/tick.rs: TradePrice"]}
{"id": "C109", "title": "Quotes as features", "statement": "The features of a snapshot are its first levels up to the cut, in order, scaled by the format of the snapshot; a quote snapshot with fewer levels than its cut panics, one with a trade is cut to the bid side instead. An update is refused exactly if the data has a smaller cut than the feature; otherwise it replaces exactly the levels the feature counts, takes the time and format of the data and keeps the system time, so that with equal cuts it gives what a new feature would be but for the system time; it panics exactly if one of the vectors is too short, as after creation with a capacity alone. From the wire: features of a derivative quote message are the prices it spells and its quantities; through a buffer the scale is that of the message for 0037 and that of the buffer for 0038.", "quantifier": "every snapshot, feature, cut and message", "why_tests_cant": "all snapshots, lengths and cuts", "anchors": ["trading-engine/src/feature/tick.rs: new_from_quote_sanpshot, new_from_trade_quote_snapshot, update_quote_snapshot, update_trade_quote_snapshot, with_capacity"]}
{"id": "C110", "title": "Volume-weighted price", "statement": "The vwap of quotes is the value of all levels over their quantity and lies within the prices that have a quantity. It exists exactly if the quantity of the asks, and that of all levels, is at least the machine epsilon: for features of snapshots, exactly if some ask level has a quantity, however much is bid.", "quantifier": "every feature of quotes with any levels", "why_tests_cant": "all levels, prices and quantities", "anchors": ["trading-engine/src/feature/tick.rs: vwap"]}
{"id": "C111", "title": "Best and mid prices", "statement": "The best prices are those of the first level with a positive quantity on each side, missing exactly if the side has no quantity; the mid price is their mean, exists exactly if both do, and lies between them when they are not crossed.", "quantifier": "every feature of quotes", "why_tests_cant": "all levels, prices and quantities", "anchors": ["trading-engine/src/feature/tick.rs: best_ask_price, best_bid_price, mid_price"]}
{"id": "C112", "title": "Order flow imbalance", "statement": "At a level between one and both cuts the imbalance between two quotes is the bid flow (the new quantity unless the price fell, less the old quantity unless it rose) less the mirrored ask flow; other levels are refused. Going back gives the opposite number, staying gives zero, and along any series of quotes whose prices at the level stay the imbalances add up to the change of the bid quantity less that of the ask quantity.", "quantifier": "every pair of quotes and level; every series of quotes", "why_tests_cant": "all series, prices and quantities", "anchors": ["trading-engine/src/feature/tick.rs: get_bid_orderflow_imbalance, get_ask_orderflow_imbalance, get_orederflow_imbalance"]}
{"id": "C113", "title": "Logarithmic order flow imbalance", "statement": "With positive quantities the logarithmic imbalance is the imbalance with quantities replaced by their logarithms, and antisymmetric. With quantities of zero it is infinite exactly if the last quantity of an unmoved price disappears, or a quantity appears where there was none at a price that moved away from the market.", "quantifier": "every pair of quotes and level, quantities not negative", "why_tests_cant": "all prices and quantities", "anchors": ["trading-engine/src/feature/tick.rs: get_bid_ln_orderflow_imbalance, get_ask_ln_orderflow_imbalance, get_ln_orderflow_imbalance"]}
{"id": "C114", "title": "Exponentially weighted average", "statement": "After any series of observations none of which is before the creation, the average is the first value and the observations, each weighted with one less its own weight and the weights of all later ones, where the weight of an observation is the base to the power of the time since creation (not since the observation before: the difference is shown). With a base between 0 and 1 it stays within the range of the first value and the observations. An observation before the creation panics in a debug build.", "quantifier": "every base not negative, time scale, first value and series of observations", "why_tests_cant": "all series of all lengths", "anchors": ["trading-engine/src/feature/weighted_valuation.rs: EWMA", "trading-engine/src/feature/weight.rs: TimeSeriesWeight::apply", "trading-engine/src/types/timestamp.rs: diff_in_secs and the others"]}
{"id": "C115", "title": "Exponentially weighted sum", "statement": "After any series of observations none of which is before the creation, the sum is that of the observations, each with the weights of all later ones measured from the creation; with a base between 0 and 1 it is bounded by the sum of their absolute values and is not negative if they are not.", "quantifier": "every base not negative, time scale and series of observations", "why_tests_cant": "all series of all lengths", "anchors": ["trading-engine/src/feature/weighted_valuation.rs: EWMS", "trading-engine/src/feature/weight.rs: TimeSeriesWeight::apply"]}
{"id": "C116", "title": "Average price of trades", "statement": "The average price of a trade history is its value over its quantity and lies within its prices, as long as the value fits 64 bits; the average of the trades of a limit order on any book is never worse than its limit. An empty history has no average. Beyond 64 bits a debug build panics and a release build answers a wrong number.", "quantifier": "every history whose sizes fit; every reachable book and admissible order", "why_tests_cant": "all histories", "anchors": ["trading-engine/src/types/base.rs: TradeHistory", "trading-engine/src/orderbook/mod.rs: process_limit_order"]}
{"id": "C117", "title": "Log files hold what was logged, in order, at every moment", "statement": "At every moment of every execution - any calls from any threads, any progress of the worker, even after it has died - the bytes appended to log files so far are a prefix of the texts of the messages sent before the first request to end, in the order of sending: nothing in the middle is lost, nothing is repeated or reordered. While the worker runs, the rest is, in this order, in the file writer, in the queue of the worker and in the channel.", "quantifier": "every interleaving of log calls, file and level changes and steps of the worker, every crash point", "why_tests_cant": "schedules and crash points are unbounded", "anchors": ["trading-engine/src/logger.rs: LOG_SENDER, log_fn_json, flushing_log_fn_json"]}
{"id": "C118", "title": "Ending the logger writes everything", "statement": "When the worker has ended on request and a file was named before, every message sent before the request is in the files exactly once, in order; with one file named, that file holds its old content and then exactly these texts and no other file changes. With a clock that does not go back, files that open and texts that can be computed, the worker ends after as many rounds as there are messages and one more. Without a file nothing is ever written.", "quantifier": "every history of calls before and after the request to end", "why_tests_cant": "all histories", "anchors": ["trading-engine/src/logger.rs: Logger::finalize, LOG_SENDER"]}
{"id": "C119", "title": "Changing the log file", "statement": "When files were named one after the other, each naming has one part of the texts and the parts in order are all texts; no text sent after a file was named is in a part of an earlier naming, but texts sent before may still go to the new file; everything up to a flushing message sent while a file was open is in the files named up to then. Every file holds its old content and then its parts.", "quantifier": "every history with any number of files", "why_tests_cant": "all histories", "anchors": ["trading-engine/src/logger.rs: LogMessage::SetFile, LOG_SENDER"]}
{"id": "C120", "title": "Log levels", "statement": "A log call whose level is not above the level in force (the last one set, NIL before any) puts its message at the end of the channel; any other call does nothing. After the worker has gone a call that passes the level panics.", "quantifier": "every state reached, level and text", "why_tests_cant": "all histories", "anchors": ["trading-engine/src/logger.rs: LogLevel, log_fn_json, with_max_log_level"]}
{"id": "C121", "title": "How long a text is held back", "statement": "When the worker takes, with a file open, a flushing message, or a message more than 2000000 nanoseconds (not two seconds) after the last write, or one whose length and the number of waiting messages exceed 2000000, then all but at most 8192 bytes of the texts up to this message are in the files. A flushing message itself need not be in the file (it stays in the writer), and the bytes waiting are not bounded by the buffer size: both are shown.", "quantifier": "every state reached and message", "why_tests_cant": "all histories", "anchors": ["trading-engine/src/logger.rs: LOG_MESSAGE_BUFFER_SIZE, LOG_MESSAGE_FLUSH_INTERVAL, LogMessage::FlushingMessage"]}
{"id": "C122", "title": "Log console", "statement": "With the console report on from the start, the console shows the texts in order and once: all that is not waiting in the queue or the channel, never more than was sent. Texts written by the request to end are not shown. With the report off nothing is shown.", "quantifier": "every history", "why_tests_cant": "all histories", "anchors": ["trading-engine/src/logger.rs: CONSOLE_REPORT, LOG_SENDER"]}
{"id": "C123", "title": "How the logger dies", "statement": "The worker dies exactly when the text of a message cannot be computed, a file cannot be opened, the thread cannot be bound to a core, or, in a debug build, the clock is behind the last write when a message is taken. What it had handed to the writer is then in the files and its queue is lost; once the worker is gone, nothing is ever written or shown again.", "quantifier": "every state reached, message and environment", "why_tests_cant": "all histories", "anchors": ["trading-engine/src/logger.rs: LOG_SENDER"]}
{"id": "C124", "title": "The yield of a bond", "statement": "For a bond whose payments after its pricing day are not negative and not all zero: every value that is positive and not above the sum of these payments has exactly one yield above minus the frequency, and this yield is not negative; in general every positive value up to the price at some yield has exactly one yield from there on. At yield zero the price is the sum of the payments. The search minimises the squared difference between price and value, which is zero exactly at the yield with this value, falls before it and rises after it; the slope it follows points towards that yield whenever it is more than 0.00005 away, and where the slope is zero the yield is less than 0.00005 away. The search starts at the guess, at 2 % without one, and fails if the optimiser has no best argument.", "quantifier": "every bond, value, guess and optimiser", "why_tests_cant": "the value and the flows of the bond are arbitrary real numbers; the search is an external optimiser", "anchors": ["quantlib/src/pricing_engines/krx_yield_pricer.rs: find_bond_yield, KrxYieldPricerCostFunction"]}
{"id": "C125", "title": "The price of a KTB future", "statement": "A future is accepted exactly if every bond of its basket is priced at the instant the future matures. Its price is the value of its virtual bond at the average of the yields of the basket (each the yield of that bond's value on the discount curve, searched from the simple rate to the maturity of the first bond), times the discount factor of the borrowing curve to the maturity. With exact yields the price does not depend on the optimiser, and it falls when every bond of the basket is worth less. A future on no bond is accepted and panics when priced.", "quantifier": "every future, curve pair and optimiser", "why_tests_cant": "all baskets and curves; the search is an external optimiser", "anchors": ["quantlib/src/instruments/ktbf.rs: KTBF::new", "quantlib/src/pricing_engines/ktbf_pricer.rs: KtbfPricer::npv"]}
{"id": "C126", "title": "Printed numbers", "statement": "A number is printed with its sign, its whole part in groups of three digits separated by commas, and one decimal (or none): the number shown is within half of the last place, a larger number never shows less, and what is shown can be read back without ambiguity, so two numbers with the same text have the same sign and differ by at most a tenth. Infinities and NaN are printed as they are. Numbers that round to zero keep a minus sign.", "quantifier": "every number and every rule for ties", "why_tests_cant": "all numbers, any number of groups", "anchors": ["quantlib/src/utils/number_format.rs: write_number_with_commas, formatted_number"]}
{"id": "C127", "title": "Period strings as years", "statement": "A period string of any pieces (number and unit Y, M, W, D, h, min, sec) is worth the sum of its pieces in years of 365.25 days, a month counting 30.5 days; writing one after the other adds. For weeks, days, hours, minutes and seconds this is exactly the time that passes when the period is added to any date. A text with no number in front of a unit is refused, and adding it to a date panics. Twelve months are 366 days, not a year.", "quantifier": "every list of pieces; every text; every date", "why_tests_cant": "strings of any length", "anchors": ["quantlib/src/utils/string_arithmetic.rs: from_period_string_to_float, add_period"]}
{"id": "C128", "title": "Sorted arrays", "statement": "The test for sorted arrays, used by every interpolator, says yes exactly for non-decreasing arrays if any two elements can be compared; it compares neighbours only, so with NaN an unsorted array can pass. An empty array panics in debug and release builds.", "quantifier": "every array", "why_tests_cant": "arrays of any length", "anchors": ["quantlib/src/util.rs: is_ndarray_sorted"]}
{"id": "C129", "title": "Dates as numbers", "statement": "The number of a date orders dates by calendar day, is equal exactly for the same calendar day, has year, month and day as its digits and fits 32 bits.", "quantifier": "every pair of dates in the years -9999 to 9999 (digits before the year 0: those of floor division)", "why_tests_cant": "all dates", "anchors": ["quantlib/src/util.rs: to_yyyymmdd_int"]}
{"id": "C130", "title": "Printed durations", "statement": "A duration that is not negative shows its whole minutes, if there are any, and the seconds left with two decimals; together they are within half a hundredth of a second. The seconds shown can be 60.00, never more; a negative duration loses its minutes.", "quantifier": "every duration", "why_tests_cant": "all durations", "anchors": ["quantlib/src/util.rs: format_duration"]}
{"id": "C131", "title": "Correlated random paths", "statement": "A path is drawn exactly when the symmetric correlation matrix is square and positive definite, and the call panics otherwise. It has one row per object and one column per step. If the numbers drawn have mean zero, variance one and no correlation, the path has mean zero, the covariance of two objects at one step is the entry of the matrix given, and different steps are uncorrelated; if the numbers drawn are orthonormal as a sample, the sample covariance is exactly the matrix. An object's value at a step depends only on the numbers drawn for it and the objects before it at that step.", "quantifier": "every matrix size, every correlation matrix, every number of steps and every draw", "why_tests_cant": "the covariance identity is about all draws and all matrices", "anchors": ["quantlib/src/pricing_engines/montecarlo/rand_generator.rs: correlated_path"]}
{"id": "C132", "title": "Daily values", "statement": "After any history of insertions and changes a day has the value last written to it. The data ordered by date lists exactly the days that have a value, each once, in increasing order and with its value beside it, in whatever order the hash map is walked.", "quantifier": "every history of calls; every order of the hash map", "why_tests_cant": "the iteration order of a HashMap differs from run to run", "anchors": ["quantlib/src/data/daily_value_data.rs: DailyValueData::{insert,get,get_mut,get_ordered_data_by_date}"]}
{"id": "C133", "title": "Moving the evaluation date", "statement": "Adding or subtracting a period string moves the evaluation date by each piece in turn and tells every observer; the operators that return a date give the same date and move nothing. A period of weeks, days, hours, minutes and seconds added and then subtracted leads back to the very same date and time, and every price at the evaluation date has its value again whatever dividends were passed. The evaluation date is compared with dates and times by instant and with calendar dates by its own local day. With months there and back does not lead back: 31 January plus and minus one month is 28 January.", "quantifier": "every evaluation date, every set of prices and dividends observing it, every period of nonnegative counts in i64 (years and months: u32); for the period read as the shift of its pieces one after the other, years and months stand before hours, minutes and seconds", "why_tests_cant": "all dates and period strings", "anchors": ["quantlib/src/evaluation_date.rs: EvaluationDate::{add_assign,sub_assign,add,sub,eq,partial_cmp}"]}
{"id": "C134", "title": "Prices as 64-bit floats", "statement": "In IEEE double arithmetic: an integer price up to 2^53 with at most 22 digits behind the point becomes a double nearest to its value; any two 64-bit prices keep their order, with and without a normaliser; two different prices below 2^52 become different doubles; every 64-bit price is within three parts in 2^53. Prices beyond 2^53 that differ by one can become the same double.", "quantifier": "every 64-bit price and every configured number of digits", "why_tests_cant": "all 64-bit prices, bit-exact rounding", "anchors": ["trading-engine/src/utils/numeric_converter.rs: to_f64_from_i64, to_f64_from_u64, normalized_real_from_i64, normalized_real_from_u64"]}
{"id": "C135", "title": "The mid price in floating point", "statement": "The middle price of the best bid and ask, as it is computed in doubles, is never below the bid and never above the ask, is a double nearest to the exact middle (unless it is tiny), and does not fall when neither bid nor ask falls. It is that of the first level of each side with a positive quantity, and absent if a side has none.", "quantifier": "every book, every pair of finite prices", "why_tests_cant": "all pairs of doubles", "anchors": ["trading-engine/src/feature/tick.rs: mid_price, best_ask_price, best_bid_price"]}
{"id": "C136", "title": "The average trade price in floating point", "statement": "While the traded value and the traded quantity are at most 2^53, the average price of a trade history is a double nearest to the exact average and lies between the lowest and the highest price paid. The average of no trades is NaN.", "quantifier": "every trade history", "why_tests_cant": "histories of any length", "anchors": ["trading-engine/src/types/base.rs: average_trade_price"]}
{"id": "C137", "title": "Time differences in floating point", "statement": "A span in microseconds, milliseconds, seconds, minutes, hours or days keeps order (a longer span is not a smaller number), is exact for whole units, and is otherwise within three parts in 2^53 of its length or of one unit.", "quantifier": "every span, every unit", "why_tests_cant": "all 64-bit spans", "anchors": ["trading-engine/src/types/timestamp.rs: diff_in_micros .. diff_in_days"]}
{"id": "C138", "title": "The moving average in floating point", "statement": "After any history of up to 2^40 updates with weights between 0 and 1, the exponential average computed in doubles differs from the exact one with the same weights by at most 2^-49 of the largest value for each update, so it stays in the range of its values up to that error. It can leave the range by a rounding error: the average of 94.5 and 94.5 with weight 0.2 is above 94.5.", "quantifier": "every history of updates, weights and values", "why_tests_cant": "rounding errors accumulate over histories of any length", "anchors": ["trading-engine/src/feature/weighted_valuation.rs: EWMA::update", "trading-engine/src/feature/weight.rs"]}
{"id": "C139", "title": "The volume-weighted price in floating point", "statement": "For a book of up to 2^40 levels whose prices and quantities are zero or between 2^-100 and 2^100, the volume-weighted price computed in doubles is within a factor (1 + 2^-52)^(2n+4) of the exact one, n the number of levels, so within the range of the prices up to that factor; it exists if an ask has a quantity of at least one. A single level need not give its own price: 7 at 0.92 gives 0.9199999999999999.", "quantifier": "every book", "why_tests_cant": "books of any depth, accumulated rounding", "anchors": ["trading-engine/src/feature/tick.rs: vwap"]}
{"id": "C140", "title": "Year fractions in single precision", "statement": "Under every day count but Act/Act ISDA the year fraction computed in f32 is the single-precision number nearest to the exact one, and two of them, between any dates, compare as the exact ones do: different fractions stay different. Act/Act ISDA, summed year by year, is within 3n+10 parts in 2^24 of the exact value, n years apart, and does not decrease when the end moves later. A fraction is refused exactly if the end is before the start or the convention is the placeholder.", "quantifier": "every pair of dates of the calendar and every day count", "why_tests_cant": "all pairs of instants; the rounding errors of the sum grow with the number of years", "anchors": ["quantlib/src/time/calendar_trait.rs: year_fraction"]}
{"id": "C141", "title": "Times between instants in single precision", "statement": "The time between two instants, with any UTC offsets and n years apart, as f32 arithmetic computes it, is finite, within 3n+14 parts in 2^24 of the exact one, exactly zero from an instant to itself and does not decrease when the end moves later within a year. It is not strictly increasing: late in a year two instants one second apart are at the same time.", "quantifier": "every pair of instants", "why_tests_cant": "all pairs of instants; accumulated rounding", "anchors": ["quantlib/src/time/calendar_trait.rs: get_time_difference"]}
{"id": "C142", "title": "Curve knots never coincide", "statement": "Whatever the evaluation date up to the year 9899, the 29 times at which a zero curve caches its discount factors, as computed in f32, are finite, within 1/50000 of a year of the exact ones, start at exactly zero and strictly increase: the slopes of its interpolation never divide by zero.", "quantifier": "every evaluation instant up to the year 9899", "why_tests_cant": "every evaluation date, leap years, month ends, time of day", "anchors": ["quantlib/src/parameters/zero_curve.rs: ZeroCurve::new", "quantlib/src/time/calendar_trait.rs: get_time_difference"]}
{"id": "C143", "title": "Linear interpolation in single precision", "statement": "A linear interpolator with knots at most 2^30 in size and 2^-30 apart, as f32 arithmetic computes it, gives exactly the knot's value at every knot but the last; between two knots it is monotone in the direction of their values and never on the wrong side of the left one; and wherever exact arithmetic gives a value or an error it gives one within 14 parts in 2^24 of the largest value, or the same error (flat or no extrapolation). With linear extrapolation the first and last lines are continued, within 8 parts in 2^24 of the distance from the end knot's value and 2 of that value. The vectorised form on ascending queries returns to the last bit what the pointwise one returns. Just before a knot it can overshoot the value of that knot by a rounding error.", "quantifier": "every list of knots and values within those bounds, every query", "why_tests_cant": "all knots, values and queries; each operation rounds", "anchors": ["quantlib/src/math/interpolators/linear_interpolator.rs: new, interpolate"]}
{"id": "C144", "title": "Discount factors in single precision", "statement": "For every evaluation date up to 9899 and every curve as constructed or bumped, with cached rates between -19 % and 2^20: the discount factor computed in f32 is exactly one at time zero, exists exactly from zero to just before the last cached time, and with non-negative rates lies between zero and one up to nine parts in 2^24. Where rate times time does not fall from one tenor to the next the discount factor does not rise between the two. A curve given by two or more rates caches their linear interpolation, flat at both ends, within 14 parts in 2^24 of the largest; one without rates or with mismatched times is refused. At the evaluation date the factor is one, a date at least a minute earlier in the same year is refused, but any date of an earlier year has factor one. The factor between two times is the correctly rounded quotient, refused in the wrong order. A cached factor is within the error of the exponential plus rate times time / 2^24 of exp(-rate * time).", "quantifier": "every evaluation instant, every curve and history of bumps, every time", "why_tests_cant": "all rates and times; interpolation of rounded exponentials", "anchors": ["quantlib/src/parameters/zero_curve.rs: new, bump_time_interval, get_discount_factor"]}
{"id": "C145", "title": "Risk runs do not drift", "statement": "Bumping a curve, a constant volatility, the quotes of a volatility surface or the dividends by b and then by -b, as each rho, vega or dividend run does, leaves in f32 every number within (3|x| + 2|b|)/2^24 of what it was, and outside the bumped interval exactly what it was; and every further run leaves exactly, to the last bit, what the first one left: repeated runs do not drift. The first run may move the numbers: a curve at 3.12 % with the default bump of one basis point does not come back. An empty or reversed dividend interval is refused.", "quantifier": "every curve, surface and dividend list, every bump and interval, any number of runs", "why_tests_cant": "a statement about histories of any length and about all floats (the theorem of Reiser and Knuth)", "anchors": ["quantlib/src/pricing_engines/engine.rs: set_rho, set_vega, set_div_delta", "quantlib/src/parameters/zero_curve.rs: bump_time_interval", "quantlib/src/parameters/volatilities/constant_volatility.rs: bump_volatility", "quantlib/src/parameters/volatilities/local_volatility_surface.rs: bump_volatility", "quantlib/src/parameters/discrete_ratio_dividend.rs: bump_date_interval"]}
{"id": "C146", "title": "Calculation configurations", "statement": "The constructor accepts exactly the arguments with delta and gamma switched together, a positive number of theta days and no bump at or below zero (infinity and not-a-number pass) and stores them unchanged; the default is accepted. After any chain of setter calls every setting is the argument of the last call of its setter and all others are untouched. A chain giving only acceptable values and delta and gamma alike ends acceptable; the setters do not check: one call leads from the default to a configuration the constructor refuses. The gamma switch, the gamma ratio and the vega matrix bump do not change any result of an engine.", "quantifier": "all constructor arguments (every float), every chain of setter calls of any length, every engine", "why_tests_cant": "all call sequences and all floats", "anchors": ["quantlib/src/pricing_engines/calculation_configuration.rs: CalculationConfiguration::new, default, with_*", "quantlib/src/pricing_engines/engine.rs"]}
{"id": "C147", "title": "Slopes of prices in single precision", "statement": "Rho, vega, dividend delta and delta as f32 arithmetic computes them from two prices are within 6 parts in 2^24 of the exact quotient of those prices (prices up to 2^40 that are equal or differ by at least 2^-60, bumps 2^-20 to 2^9, unit amounts 2^-20 to 2^40); they do not decrease when the bumped price rises, have the sign of the price difference, and are zero when the prices are equal. If the two prices are only the nearest floats to the true ones, the result is off by up to 2(|U|+|N|)/2^24 over the bump in addition, which a concrete case shows to be of practical size. A bump of zero gives not-a-number or infinity; a delta ratio below 2^-25 does not move the price at all; otherwise the prices of the runs are within 3 parts in 2^24 of price*(1\u00b1ratio). The delta of a stock or future, taken without a run, is within 4 parts in 2^24 of a hundredth of its value.", "quantifier": "all prices, bumps, units within those bounds; all floats for the monotonicity", "why_tests_cant": "all floats; cancellation in the difference of prices", "anchors": ["quantlib/src/pricing_engines/engine.rs: set_rho, set_vega, set_div_delta, set_delta_gamma", "quantlib/src/definitions.rs"]}
{"id": "C148", "title": "Gamma and theta in single precision", "statement": "Gamma as f32 arithmetic computes it from three prices within 1/8 of each other is within 2^-22 of the price (not of gamma) of the exact second difference times unit and scale, has the sign of the second difference or is zero, and is zero on a line; because the sum is taken in an order that rounds at the size of the price, a second difference of 2^-24 of it can be lost. Theta is within 2 parts in 2^24 of the change in value plus 6 of the sum of change and cash, per day, and does not decrease with the later value; with no days in between it is not a finite number.", "quantifier": "all prices, ratios from 2^-10 to 1, units and times within the bounds stated", "why_tests_cant": "all floats; cancellation", "anchors": ["quantlib/src/pricing_engines/engine.rs: set_delta_gamma, set_theta"]}
{"id": "C149", "title": "Texts over UDP", "statement": "A text sent with send_message whose encoding has at most 1024 bytes and whose datagram arrives is returned by receive_response exactly. Of a longer one the characters whose encodings fit into the first 1024 bytes are returned, followed by one replacement character U+FFFD exactly if the cut falls inside a character; no error is reported. Whatever bytes arrive, the result is a text of at most 1024 characters, and if it contains no U+FFFD its encoding is exactly the first 1024 bytes received.", "quantifier": "every text and every datagram", "why_tests_cant": "all byte sequences, all positions of the cut inside a character", "anchors": ["trading-engine/src/communication/udp_client.rs: send_message, receive_response"]}
{"id": "C150", "title": "Lazily made texts are made once", "statement": "Whatever the schedule of any number of threads dereferencing or serialising one LazyString, and whatever its initializer does (it may panic, and return something else each time): every read that returns gives the text of the initializer's first call that did not panic, so all readers see the same; no two threads are in the initializer at once; it is called at most once more often than it panics, and never again after a read has returned; and no thread is ever stuck: if the calls return, any thread can still get its text.", "quantifier": "every schedule of every number of threads, every behaviour of the initializer", "why_tests_cant": "a statement about all interleavings and all initializers", "anchors": ["trading-engine/src/utils/lazy_string.rs: LazyString::new, deref, serialize"]}
{"id": "C151", "title": "What instruments answer", "statement": "Each instrument answers name, code, currency, notional, average price, maturity and the questions specific to its kind with the values it was made with, and refuses with an error every question not for its kind; the currency pair of a currency future is underlying/own, of a swap floating/fixed and only if they differ, an option is quanto exactly if its currencies differ. Everything the portfolio functions read is one of these answers. Exceptions: cash gives its name as its code, no instrument answers get_rank_type, not even a bond, of several underlyings of an option or stock only the first counts, and without any the portfolio's underlyings panic.", "quantifier": "every instrument of the nine kinds, with every combination of terms", "why_tests_cant": "all combinations of kind, terms and question", "anchors": ["quantlib/src/instrument.rs: InstrumentTrait, Instrument", "quantlib/src/instruments/futures.rs: Futures", "quantlib/src/instruments/fx_futures.rs: FxFutures", "quantlib/src/instruments/vanilla_option.rs: VanillaOption", "quantlib/src/instruments/stock.rs: Stock", "quantlib/src/instruments/cash.rs: Cash", "quantlib/src/instruments/bond_futures.rs: BondFutures", "quantlib/src/instruments/bond.rs: Bond", "quantlib/src/instruments/plain_swap.rs: PlainSwap", "quantlib/src/instruments/ktbf.rs: KTBF"]}
{"id": "C152", "title": "The directory of instruments", "statement": "After every history of insertions into a BaseInstMap, interleaved with identifiers made elsewhere, looking an instrument up through an identifier made anew from its symbol and venue gives what was last inserted for that symbol and venue, and nothing if nothing was. The identification number of a currency is always made, starts with the currency's letters and differs between currencies.", "quantifier": "every history of insertions and identifiers", "why_tests_cant": "histories of any length over all identifiers", "anchors": ["trading-engine/src/types/inst_info.rs: BaseInstMap::insert, get", "trading-engine/src/types/id/mod.rs: InstId::new", "trading-engine/src/types/enums.rs: Currency::as_isin_code"]}
{"id": "C153", "title": "Codes and balances", "statement": "from_u8 of order side, data type and trade type accepts a number exactly if it is the code of a value and gives that value; the opposite of the opposite of a side is the side. After any sequence of bounds set on a new balance each bound is the last one given, no short selling being a lower bound of zero, and the rest is as at the start; a balance is empty exactly if its outstanding quantity is zero.", "quantifier": "every number, every sequence of bounds", "why_tests_cant": "sequences of any length", "anchors": ["trading-engine/src/types/enums.rs: FromU8", "trading-engine/src/conductor/oms/account.rs: Balance, OrderSide::opposite"]}
{"id": "C154", "title": "Refused packets leave no trace", "statement": "Parsing a KRX packet into a buffer that answers Err leaves the buffer and the date generator exactly as they were. While the date generator is in range (date more than nine days before the middle of the range of 64 bit nanoseconds) a packet is written wholly or not at all, also if the parser panics on it; the levels behind the cut, the number of levels, the buffer's own cut and its LP holdings are never changed by any packet. Packets that are not well-formed can be deleted from any stream without changing the final buffer, the final clock or the answers to the other packets, and after any stream an accepted packet leaves within the cut exactly what a new snapshot would hold. (With the clock out of range a debug build can panic halfway and leave a torn buffer.)", "quantifier": "every packet, buffer, clock, stream of packets, build mode", "why_tests_cant": "packets and streams are arbitrary bytes; what is left after a failure is not looked at by tests", "anchors": ["trading-engine/src/data/krx/derivative_quote.rs: to_quote_snapshot_buffer", "trading-engine/src/data/krx/stock_quote.rs: to_quote_snapshot_buffer", "trading-engine/src/data/krx/derivative_trade.rs: to_trade_quote_snapshot_buffer, to_trade_data_buffer", "trading-engine/src/data/krx/unroll_macro.rs", "trading-engine/src/utils/numeric_converter.rs: parse_hhmmssuuuuuu"]}
{"id": "C155", "title": "What a failed calculation leaves behind", "statement": "If calculate answers an error or panics in a sound market, the shared market is afterwards as it was except for the one change that was under way: one price scaled by 1 plus or minus the delta ratio, or the evaluation date moved by the theta days (wholly, or partly with each price and dividend as before or as moved), or one zero curve, volatility surface or dividend bumped (wholly, or in the tenor or cell it had come to), plus what the vega matrix leaves lower anyway. Nothing puts this change back: if the instruments cannot be priced in a bumped market the bump stays, and an engine made afterwards on the same market values with it. Calculations without greeks leave the market as it was whether they fail or not.", "quantifier": "every engine, configuration, sound market and failing pricer", "why_tests_cant": "failures can occur at any pricing call of any greek, tenor or cell, and what is left behind a failure is not looked at by tests", "anchors": ["quantlib/src/pricing_engines/engine.rs: Engine::calculate, set_delta_gamma, set_theta_for_given_instruments, set_rho, set_vega, set_div_delta, set_rho_structure, set_vega_structure, set_vega_matrix, set_div_structure"]}
{"id": "C156", "title": "Put-call parity of engine results", "statement": "In an engine whose pricers come from the pricer factory, after any successful calculation of a new engine in a sound market, the results of a call and a put with the same underlying, currencies, notional, maturity and strike are related so: values differ by the discounted forward minus strike times notional; deltas by the discounted forward times one percent times notional; gammas, vegas, vega structures and vega matrices are the same numbers; rhos and rho structures (for every curve the two use), dividend deltas and structures and thetas differ exactly by what the discounted forward minus strike gains in the bumped or moved market, scaled as documented. The forward is made of the underlying's price and dividend, its collateral curve and its borrowing curve, the discount factor of the curve the parameters name for the instrument. Holds with quanto adjustment and any volatility.", "quantifier": "every portfolio, configuration, sound market, pair of options that differ only in call and put", "why_tests_cant": "a relation between greeks of different instruments over all markets, tenors and bumps", "anchors": ["quantlib/src/pricing_engines/option_analytic_pricer.rs: OptionAnalyticPricer::npv", "quantlib/src/pricing_engines/pricer_factory.rs: create_pricer, get_vanilla_option_pricer", "quantlib/src/pricing_engines/engine.rs: Engine::calculate", "quantlib/src/pricing_engines/match_parameter.rs"]}
{"id": "C157", "title": "Deltas written without bumping", "statement": "The engine writes the delta of futures and stocks as one percent of the value and the gamma as zero, under the instrument's own code, without repricing. With the pricers the factory makes this is exactly what repricing with the price up and down by the delta ratio would give: for a future when the price of its underlying moves, for a stock when the price quoted under its own code moves.", "quantifier": "every portfolio, sound market, delta ratio other than zero, future and stock", "why_tests_cant": "equality of two different computations over all markets (dividends, curves and prices arbitrary)", "anchors": ["quantlib/src/pricing_engines/engine.rs: Engine::set_delta_gamma", "quantlib/src/pricing_engines/futures_pricer.rs: FuturesPricer::npv", "quantlib/src/pricing_engines/identity_pricer.rs: IdentityPricer::npv", "quantlib/src/pricing_engines/pricer_factory.rs: get_futures_pricer, get_stock_pricer"]}
{"id": "C158", "title": "Signs of option greeks", "statement": "After a successful calculation in a sound market, an option in the currency of its underlying with positive strike and nonnegative notional, on a surface without negative volatilities, has no negative vega, no negative vega for any tenor and none for any cell of tenor and moneyness (bumps positive). On a flat surface, with a delta ratio between 0 and 1, its value is between 0 and the discounted forward (call) or strike (put) times notional, the delta of a call is between 0 and one percent of the discounted forward times notional, that of a put between minus that and 0, and gamma is not negative.", "quantifier": "every portfolio, configuration, sound market, strike, maturity, call and put", "why_tests_cant": "inequalities over all markets, tenors and bumps, with integrals of the normal density", "anchors": ["quantlib/src/pricing_engines/option_analytic_pricer.rs: OptionAnalyticPricer::npv", "quantlib/src/pricing_engines/engine.rs: Engine::set_vega, set_vega_structure, set_vega_matrix, set_delta_gamma", "quantlib/src/parameters/volatilities/local_volatility_surface.rs"]}
{"id": "C159", "title": "Rhos of bonds", "statement": "After a successful calculation in a sound market, a bond with fixed or given coupons, none negative, with nonnegative notional and no pricing date of its own, has no positive rho and no positive rho for any tenor, and exactly zero to every curve but the one it is discounted with. With coupons of any sign the rhos by tenor to that curve add up exactly to its rho, provided every curve node next to a payment lies in the window of a tenor that is looked at.", "quantifier": "every portfolio, configuration with a positive rho bump (for the signs), sound market, and bond schedule in which payments at the same instant are written with the same UTC offset", "why_tests_cant": "an exact identity between two different calculations over all curves, schedules and tenors", "anchors": ["quantlib/src/pricing_engines/bond_pricer.rs: BondPricer::npv", "quantlib/src/pricing_engines/engine.rs: Engine::set_rho, set_rho_structure", "quantlib/src/parameters/zero_curve.rs: bump_time_interval"]}
{"id": "C160", "title": "Results do not depend on the company", "statement": "Two engines with the same configuration hold the same instrument with the same pricer, in sound markets that agree on the date and on the quote, dividend, surface and curves the pricer uses (those its contract names), whatever else the engines hold and the markets contain. After successful calculations the value, npv, cashflows, exposure, delta, gamma, vega, rhos and dividend delta of the instrument are the same; theta too, if it is rolled to the same date (always when it does not mature by then); rho and dividend delta for a tenor too, if both portfolios or neither have an instrument still alive at the tenors before; and vega by tenor and by cell, if the portfolios are done with the same tenors.", "quantifier": "every pair of portfolios and markets, every configuration and instrument with at most one underlying", "why_tests_cant": "a relation between two runs over arbitrary other instruments and market data", "anchors": ["quantlib/src/pricing_engines/engine.rs: Engine::calculate", "quantlib/src/pricing_engines/engine_generator.rs: EngineGenerator::distribute_instruments, calculate", "quantlib/src/pricing_engines/pricer_factory.rs: PricerFactory::create_pricer"]}
{"id": "C161", "title": "What an instrument is worth after a calculation", "statement": "In an engine whose pricers come from the pricer factory, after any successful calculation of a new engine in a sound market, the result of every instrument is what its contract says, from the names in the match parameters to the stored numbers: a stock is worth the price quoted under its code; cash 1; a future the forward of its underlying (price less dividends, carried by the collateral and borrowing curves configured for the underlying) at maturity; a currency future the exchange rate times the ratio of the discount factors of the cross-currency curves of the underlying and own currency; an option the expected payoff at that forward with the volatility of the surface at its moneyness, discounted with the funding curve of its currency (or the dummy curve if settled daily), with the quanto adjustment if the currencies differ; a bond the discounted value of its flows on the curve configured for issuer, type, rating and currency, seen from its pricing date; a swap other than an interest rate swap the value of the fixed leg on the cross-currency curve of its currency plus the exchange rate times that of the floating leg on the curve of its own. The stored value is that times the notional, and the currency exposures are those of the kind (a future exposes its gain over the average price, a currency future one unit against its price, a swap each leg in its currency, all others the whole value in their own currency).", "quantifier": "every portfolio, match parameters, sound market, configuration, instrument of these kinds", "why_tests_cant": "the whole path from configuration to result, over all names, curves, schedules and markets", "anchors": ["quantlib/src/pricing_engines/pricer_factory.rs: create_pricer", "quantlib/src/pricing_engines/match_parameter.rs", "quantlib/src/pricing_engines/engine.rs: Engine::calculate, set_npv_results, set_values, set_fx_exposures", "quantlib/src/pricing_engines/fx_futures_pricer.rs", "quantlib/src/pricing_engines/plain_swap_pricer.rs", "quantlib/src/pricing_engines/bond_pricer.rs", "quantlib/src/pricing_engines/option_analytic_pricer.rs", "quantlib/src/pricing_engines/futures_pricer.rs"]}
{"id": "C162", "title": "A book as text", "statement": "From OrderBook::to_string a reader who splits it into lines and columns recovers every level of both sides exactly (price, number of orders, quantity), and nothing else; books with the same levels give the same text. After any history of valid commands the sell rows show exactly the resting sell orders by falling price, one row for each price with number and total of the orders there, the last sell row being the best price, and the buy rows below likewise, the first being the best price. If the numbers fit the columns all lines have the same length.", "quantifier": "every book; every history of commands", "why_tests_cant": "all numbers, signs and lengths of books; histories of any length", "anchors": ["trading-engine/src/orderbook/mod.rs: OrderBook::to_string"]}
{"id": "C163", "title": "A side as text, up to a depth", "statement": "From HalfBook::to_string_upto_depth a reader recovers exactly the levels it shows. Without a depth these are all levels of the side, so after any history of valid commands exactly its resting orders. With a depth k these are k levels (or all), but the k farthest from the market: the highest sell prices and the lowest buy prices; every resting price not shown is better than every price shown, so the best price is shown only if all levels are.", "quantifier": "every side, depth and history of commands", "why_tests_cant": "all numbers and depths, histories of any length", "anchors": ["trading-engine/src/orderbook/half_book.rs: HalfBook::to_string_upto_depth, ask_half_book_string, bid_half_book_string"]}
{"id": "C164", "title": "The holidays displayed", "statement": "display_holidays of a calendar prints, in order and each once, exactly the calendar's own days from the local day of the first date on, as far as the first date moved by whole days is not later than the last date, on which the calendar is closed (weekend, own or added holiday not removed), weekends only if they are included; each is printed as the first date moved by whole days at the calendar's offset. So a holiday on the day of the last date is missed if the time of day of the first date is later. For a joint calendar a day is printed if some member is closed on it, and without weekends if it is a weekend for no member, each judged by its own local day. The display never panics unless the last date is the last day of year 9999 (for joint calendars: dates at least two days from the ends of the range).", "quantifier": "every calendar, added and removed days, joint calendars of any members, pair of dates at any offset", "why_tests_cant": "all dates, offsets, times of day and lists", "anchors": ["quantlib/src/time/calendar_trait.rs: CalendarTrait::display_holidays, _display_holidays", "quantlib/src/time/jointcalendar.rs: JointCalendar::display_holidays, add_holidays, remove_holidays", "quantlib/src/time/calendars/southkorea.rs: display_holidays", "quantlib/src/time/calendars/unitedstates.rs: display_holidays", "quantlib/src/time/calendars/nullcalendar.rs: display_holidays"]}
{"id": "C165", "title": "Bonds and swaps in single precision, whatever the order of their cash flows", "statement": "Bond and swap pricers add up their cash flows in single precision in the order a standard hash map gives them, which differs from map to map. Whatever the order, for up to 3999 cash flows of sizes 2^-60 to 2^60 and discount factors from 2^-40 to 2^10 (that of the pricing date at least 2^-10, the exchange rate at most 2^14), the value of a bond with n cash flows is a finite number within (n + 4) parts in 2^24 (of the sum of the sizes of the discounted flows) of the exact value of its sum, so two orders agree up to twice that, exactly if there are at most two flows; that of a swap with n and m flows (up to 1999 each) within (n + m + 8) parts. In one and the same order, with no negative amounts, the value never falls when discount factors rise. But with three flows two orders already give different numbers: for a three-year bond, one market and notional 10 billion, repricing gives a rho of about plus or minus 596 where nothing has changed.", "quantifier": "every number, size and order of cash flows, every discount factor in the ranges", "why_tests_cant": "the order is random in each run; rounding errors depend on all values", "anchors": ["quantlib/src/pricing_engines/bond_pricer.rs: BondPricer::npv, npv_result", "quantlib/src/pricing_engines/plain_swap_pricer.rs: PlainSwapPricer::npv, npv_result", "quantlib/src/instruments/bond.rs: get_cashflows", "quantlib/src/pricing_engines/engine.rs: Engine::set_rho_structure"]}
{"id": "C166", "title": "Instruments saved and loaded", "statement": "Saved with serde and loaded again, every currency, every finite number and every date-time (with its offset) comes back the same; NaN and infinities do not, an optional one comes back as absent. A future with finite numbers comes back the same. An option comes back the same if its currency is that of its underlying; otherwise it cannot be loaded at all, because a currency pair is written as a text and read as a struct. For the same reason no FX future and no swap with legs in two currencies can be loaded after it was saved; a swap in one currency comes back the same if its schedules, index, calendar and conventions do.", "quantifier": "every currency, pair, number, date-time and instrument of these kinds", "why_tests_cant": "all values of all fields, dates and offsets of every sign", "anchors": ["quantlib/src/currency.rs: Currency, FxCode (Serialize, Deserialize)", "quantlib/src/instruments/fx_futures.rs: FxFutures", "quantlib/src/instruments/vanilla_option.rs: VanillaOption", "quantlib/src/instruments/plain_swap.rs: PlainSwap", "quantlib/src/instruments/futures.rs: Futures"]}
{"id": "C167", "title": "Converters and identifiers saved and loaded", "statement": "A number format saved and loaded comes back the same, and loading it as a converter gives exactly the converter (or the error) that making one from it gives. A converter itself, and anything holding one (prices and quantities, order counts, times, yields, cumulative quantities), can never be loaded after it was saved. An identifier saved and loaded in the same process is the very same identifier, with nothing added to the table; in a process with any other history it is an identifier of the same symbol and venue. Identifiers loaded skip the checks of ISIN codes.", "quantifier": "every number format within usize, every converter, every identifier after any history in either process", "why_tests_cant": "all formats and all histories of the identifier table of two processes", "anchors": ["trading-engine/src/utils/numeric_converter.rs: NumReprCfg, IntegerConverter, OrderConverter, OrderCounter, TimeStampConverter, YieldConverter, CumQntConverter (Serialize, Deserialize)", "trading-engine/src/types/id/mod.rs: InstId (Serialize, Deserialize)", "trading-engine/src/types/id/isin_code.rs: IsinCode"]}
{"id": "C168", "title": "Time stamps of a process", "statement": "get_unix_nano never runs backwards in a process: whichever threads make the first calls, however they interleave and whatever the system time is set to meanwhile, a call made when or after another has returned returns no less. Two stamps differ by the time that passed on the process's counter, up to the durations of the two calls. Unless something overflows, either all calls return or all panic, and they panic only if the system time was before 1970 when it was first read. If the system time runs with the counter, no stamp is behind it; but stamps can be ahead of it by any amount for the whole life of the process (if the first caller is held up between reading counter and system time).", "quantifier": "every number of threads and calls, every interleaving, every setting of the system clock", "why_tests_cant": "races of first calls cannot be enumerated by tests; the system clock is not under their control", "anchors": ["trading-engine/src/utils/timer.rs: get_unix_nano, UNIVERSIAL_CLOCK"]}
{"id": "C169", "title": "Time stamps of a thread", "statement": "Within one thread the stamps of get_thread_local_unix_nano never run backwards, whatever the system time is set to. Between threads they can: a thread held up between reading system time and counter is behind the others for ever.", "quantifier": "every sequence of calls of a thread, every setting of the system clock", "why_tests_cant": "the system clock and the scheduling between two readings are not under a test's control", "anchors": ["trading-engine/src/utils/timer.rs: get_thread_local_unix_nano"]}
{"id": "C170", "title": "Futures, currency futures and stocks in single precision", "statement": "For quotes between 2^-30 and 2^30, discount factors and dividend ratios between 1/256 and 256 and notionals between 2^-20 and 2^40, the single-precision forward of a future is a positive finite number within 4 units in the 24th bit of the exact quote times borrowing discount over collateral discount times dividend ratio, its value within 5, the delta written for it within 7; for currency futures 3 (value 4), for stocks value 1 and delta 4. A higher quote never gives a lower forward, value or delta, also where numbers overflow. The exposure of a future has exactly the sign of forward less trade price (zero exactly if equal; sizes up to 2^50, and a difference, if any, of at least 2^-60) and is within 3 units of the exact product; that of a currency future within 1. Without interest and dividends the forward is the quote exactly; with equal curves it need not be.", "quantifier": "every quote, factor, ratio and notional in the ranges", "why_tests_cant": "rounding depends on all values", "anchors": ["quantlib/src/pricing_engines/futures_pricer.rs: FuturesPricer::fair_forward, fx_exposure", "quantlib/src/pricing_engines/fx_futures_pricer.rs: FxFuturesPricer::npv, fx_exposure", "quantlib/src/pricing_engines/calculation_result.rs: set_value", "quantlib/src/pricing_engines/engine.rs: Engine::preprocess_delta_gamma"]}
{"id": "C171", "title": "A book fed by exchange messages", "statement": "A client parses a stream of quote and trade messages with the KRX parsers (any mix of interfaces, instruments and level cuts, messages that are none among them) and passes every snapshot to the order book of one instrument. Nothing fails (20 times the number of messages below 2^64); the client is told of each message whether the book took it, refused it (other instrument) or the parser did; after the stream both sides show exactly the first cut levels the last message of the instrument reports, a later level of the same price replacing an earlier one, nothing if there was none: listing, quantity per price, total and best price. (Stock prices arrive without their last two digits, so neighbouring levels can fall together.)", "quantifier": "every stream of composed messages of any length, every interleaving of instruments, every state of the identifier table", "why_tests_cant": "all message contents, histories and orders of instruments; the state of the book depends on all of them", "anchors": ["trading-engine/src/orderbook/mod.rs: OrderBook::initialize_with_id, update_from_quote_snapshot, update_from_trade_quote_snapshot", "trading-engine/src/orderbook/half_book.rs: update_l2_snapshot", "trading-engine/src/data/krx/derivative_quote.rs: to_quote_snapshot", "trading-engine/src/data/krx/stock_quote.rs: to_quote_snapshot", "trading-engine/src/data/krx/derivative_trade.rs: to_trade_quote_snapshot", "trading-engine/src/types/id/mod.rs: InstId::new"]}
{"id": "C172", "title": "Empty levels of a message in the book", "statement": "Levels without orders, which the exchange fills with zeros, become a level of quantity 0 at price 0 in the book: if the last message of the instrument ends with empty levels on both sides and its other prices are positive and distinct, then after any stream the sides list the real levels and that level, the totals are right, but the best ask is 0, below every bid; the best bid of an empty bid side is 0 and not the sentinel, else the right one.", "quantifier": "every stream as before, every number of real and empty levels", "why_tests_cant": "all message contents and histories", "anchors": ["trading-engine/src/orderbook/half_book.rs: update_l2_snapshot", "trading-engine/src/orderbook/mod.rs: update_from_quote_snapshot", "trading-engine/src/data/krx/unroll_macro.rs: parse_unroll"]}
{"id": "C173", "title": "Stale levels of a buffer in the book", "statement": "With one snapshot buffer for a whole stream (the buffer variants of the quote parsers) that holds more levels than are read, the levels that lay behind the cut at the start stay there for ever and the book shows them as levels of its instrument, behind those of the last message and instead of them where a price agrees, whatever instrument they came from. A buffer of exactly the levels read gives the same book as new snapshots. A new buffer with room for more levels than are read makes the best ask 0 after every message with positive prices.", "quantifier": "every stream of messages of one quote interface (messages times buffer levels below 2^64), every buffer with initial quantities behind the cut below 2^62 in sum, every cut and instrument", "why_tests_cant": "all buffers and histories; tests use buffers of the right size", "anchors": ["trading-engine/src/orderbook/mod.rs: update_from_quote_snapshot", "trading-engine/src/data/krx/derivative_quote.rs: to_quote_snapshot_buffer", "trading-engine/src/data/krx/stock_quote.rs: to_quote_snapshot_buffer", "trading-engine/src/data/quote.rs: QuoteSnapshot::with_quote_level, effective_ask_data"]}
{"id": "C174", "title": "Time stamps as dates", "statement": "Every time stamp has a date-time, that of UTC at so many nanoseconds after 1970, and a UTC date; both follow the order of the stamps and none is an error, so printing stamps and date generators never panics. Generators made from a stamp, set to it or made from its date start at the same midnight; the timer prints the same date and time. A generator made from a date is at that date's midnight exactly for the dates from 1970-01-01 to 2554-07-21; for every other date the type holds, it silently is at another date and not at a midnight.", "quantifier": "every u64 time stamp, every date from -9999-01-01 to 9999-12-31", "why_tests_cant": "2^64 stamps; the wrap concerns dates no test uses", "anchors": ["trading-engine/src/types/timestamp.rs: TimeStamp::to_datetime, to_date_utc, Debug; DateUnixNanoGenerator::from(Date), from_unixnano, set_timestamp, Debug", "trading-engine/src/utils/timer.rs: convert_unix_nano_to_date_and_time"]}
{"id": "C175", "title": "A price level used on its own", "statement": "For every series of calls (add, cancel, trade, change quantity, clear) on a price level, none panics as long as the quantities brought add up to less than 2^64; its orders are those of a queue served first come first served, every call answers what the queue answers, and without clear the total is what the orders add up to. Clearing a level does not clear its total: the discarded quantity stays in every later total, snapshot and answer. Clearing a side gives a new side; making a level or a side with an order is the same as adding the order to a new one.", "quantifier": "every finite series of calls, ids, quantities and prices, both build modes", "why_tests_cant": "all call histories", "anchors": ["trading-engine/src/orderbook/level.rs: Level::add_limit_order, cancel_order, trade, change_quantity, clear, initialize, initialize_with_order, to_level_snapshot", "trading-engine/src/orderbook/half_book.rs: HalfBook::clear, initialize, initialize_with_limit_order, add_limit_order"]}
{"id": "C176", "title": "Books made by Default", "statement": "An order book made by Default instead of the initialize functions has two ask sides with best price 0. For every series of order calls that does not panic the bid side stays empty (best price 0, total 0). Adding a bid answers that it failed and changes nothing; a limit bid below the best ask panics; at or above it, it is answered with no trade and lost if there are no asks, and is never answered with a remaining quantity otherwise; a market sell is answered with no trade; a limit ask at a price of at most 0 is lost, one above 0 rests. After resting asks alone the best ask is still 0, whatever their prices.", "quantifier": "every series of order calls, every order, both build modes", "why_tests_cant": "all call histories", "anchors": ["trading-engine/src/orderbook/mod.rs: OrderBook (derive Default), process_limit_order, process_market_order, add_limit_order", "trading-engine/src/orderbook/half_book.rs: HalfBook (derive Default), add_limit_order, trade_limit_order, update_best_price", "trading-engine/src/types/base.rs: BookPrice", "trading-engine/src/types/enums.rs: OrderSide"]}
{"id": "C177", "title": "Rhos of futures and currency futures", "statement": "In every calculation on a new engine that ends, a future has rhos (whole curve and by tenor) to its collateral curve and to no other curve, in particular none to the curve of its borrowing cost, although its value depends on it. If these curves differ, each rho is the change of a value that goes with the inverse of the discount factor of the collateral curve to the maturity, so it is not negative for a value and notional that are not; if they are the same curve, all rhos are 0. A currency future has rhos to the curves of its own and of its underlying currency and no others: the value goes with the inverse of the discount factor of the first and with that of the second; with one curve for both they are 0. Rhos by tenor are 0 for tenors at which no instrument using the curve is left.", "quantifier": "every engine configuration and sound market, every portfolio, every list of dividend names, both build modes, every positive rho bump and all tenors", "why_tests_cant": "all curves, bumps and portfolios; the difference quotients are real-valued", "anchors": ["quantlib/src/pricing_engines/engine.rs: Engine::set_rho, set_rho_structure", "quantlib/src/pricing_engines/match_parameter.rs: get_collateral_curve_name, get_borrowing_curve_names, get_crs_curve_name, get_floating_crs_curve_name", "quantlib/src/pricing_engines/futures_pricer.rs: FuturesPricer::npv", "quantlib/src/pricing_engines/fx_futures_pricer.rs: FxFuturesPricer::npv"]}
{"id": "C178", "title": "Dividend deltas of futures and options", "statement": "In every calculation on a new engine that ends, in a market without past dividends where the price of the underlying pays the dividend the engine keeps for it: the value of a future is the price times the discount factor of the borrowing curve over that of the collateral curve times the product of 1 minus amount over spot of the dividends up to the day of its maturity, and its dividend deltas (whole and by tenor) are the difference quotients of this with the dividends of the tenor raised by the bump. They are not positive if price and notional are not negative and no raised dividend is more than the spot. Dividends after the day of the maturity do not matter: the deltas are 0 for futures and for options (with any volatilities, also quanto). With a flat volatility the dividend deltas of a call are not positive, those of a put not negative. There are none to other underlyings, and none by tenor for underlyings without dividends in the list.", "quantifier": "every engine configuration and sound market, every portfolio, every list of dividend names, both build modes, every nonzero dividend bump (positive for the signs), all tenors", "why_tests_cant": "all dividends, bumps and portfolios; the difference quotients are real-valued", "anchors": ["quantlib/src/pricing_engines/engine.rs: Engine::set_div_delta, set_div_structure", "quantlib/src/parameters/discrete_ratio_dividend.rs: bump_date_interval, get_deduction_ratio", "quantlib/src/pricing_engines/futures_pricer.rs: FuturesPricer::npv", "quantlib/src/pricing_engines/option_analytic_pricer.rs: OptionAnalyticPricer::npv"]}
{"id": "C179", "title": "A book fed through reused buffers shows the whole buffer, other instruments' levels among it", "statement": "A client keeps one buffer for quotes and one for trades with quotes, parses every message into its buffer reading as many levels as it likes, and updates the book of one instrument from the buffer. Whatever messages of whatever instruments arrive in whatever order, bad ones among them, no call fails, every message of the instrument is taken, of another rejected, and a bad one refused; each buffer level is the one of the last message of that buffer of which that many levels were read, or the initial one; and the book shows all levels of the buffer as it was at the last message of the instrument. If of every message of the instrument as many levels are read as the buffer has, that is exactly what the last message reports; otherwise the levels behind the cut are shown as the instrument's although they are older ones or another instrument's.", "quantifier": "every stream of messages and junk (fewer than 9*10^13) of all quote and trade-quote interfaces, every level cut per message, every instrument, all initial buffers of up to 100000 levels of up to 10^13, both build modes", "why_tests_cant": "all interleavings of messages, instruments and cuts", "anchors": ["trading-engine/src/orderbook/mod.rs: update_from_quote_snapshot, update_from_trade_quote_snapshot", "trading-engine/src/data/krx/derivative_quote.rs: to_quote_snapshot_buffer", "trading-engine/src/data/krx/stock_quote.rs: to_quote_snapshot_buffer", "trading-engine/src/data/krx/derivative_trade.rs: to_trade_quote_snapshot_buffer"]}
{"id": "C180", "title": "A log file has one line per message, and the line tells everything about it", "statement": "Whatever a log call is given - texts with line breaks, quotes and control characters, nested values - its text is one line of bytes not below 32, ended by the only line break; so the lines of the texts written one after the other, and of the log file of a program that ends, are the messages, one each and in order. Two calls with the same line had the same level, topic, place, values (as the printer sees them: the fields of an object in the order of their names, the last of two equal names), were written in the same zone, and happened at the same nanosecond. In a zone within a day of Greenwich, at a time not before 1970 there, the closure never panics; otherwise it panics exactly if the conversion of the time does.", "quantifier": "every level, topic, place, time and JSON value whose numbers are printed with digits, signs, points and exponents; every sequence of messages, every program with one log file, empty or ended by a line break before; both build modes", "why_tests_cant": "all strings and nested values, all programs", "anchors": ["trading-engine/src/logger.rs: log_fn_json!, flushing_log_fn_json!, LogLevel::fmt, LogMessage", "trading-engine/src/utils/timer.rs: convert_unix_nano_to_date_and_time"]}
{"id": "C181", "title": "Rhos of swaps", "statement": "In every calculation on a new engine that ends, the value of a swap is the worth of its fixed leg plus the exchange rate (1 with one currency) times that of its floating leg, each leg discounted on the curve of its currency - but both legs of an interest rate swap on the curve named Dummy, although the comments say its index curve discounts it. A swap has rhos to the curves of its legs and of its index and to no others, never to Dummy; each is the change of this value in the bumped market, and a bump of a curve that a leg does not use leaves the leg alone. So all rhos of an interest rate swap come from its floating coupons alone, at unchanged discount factors, and without an index there are none. A leg whose amounts to come are not negative (not positive) goes down (up) when its discount curve goes up; so a currency forward or spot that pays no negative amounts has no negative rho to the curve it pays on and no positive one to the curve it receives on.", "quantifier": "every engine configuration and sound market, every portfolio, every swap of every kind with coherent dates, both build modes, all tenors and rho bumps (positive for the signs)", "why_tests_cant": "all curves, bumps, schedules and portfolios; the difference quotients are real-valued", "anchors": ["quantlib/src/pricing_engines/engine.rs: Engine::set_rho, set_rho_structure", "quantlib/src/pricing_engines/match_parameter.rs: get_crs_curve_name, get_floating_crs_curve_name, get_discount_curve_name, get_rate_index_curve_name", "quantlib/src/pricing_engines/pricer_factory.rs: get_plain_swap_pricer", "quantlib/src/pricing_engines/plain_swap_pricer.rs: PlainSwapPricer::npv, npv_result"]}
{"id": "C182", "title": "A rise of the index curve", "statement": "When all rates of the index curve go up by the same amount, no simple forward rate read from it goes down, and no floating coupon pays less - plain or compounding, with or without a spread, fixed or still to be fixed, whatever the published fixings - provided no year fraction of it is negative and none of its compounding periods loses more than everything. So a floating leg discounted on another curve is not worth less, and the rho of a swap to its index curve is not negative as long as neither leg is discounted on that curve, the notional, exchange rate and initial payment are not negative and the bump is positive; for an interest rate swap the discounting condition always holds.", "quantifier": "every curve, bump, coupon, index, compounding tenor, calendar and history of fixings; every engine configuration, sound market and portfolio, every swap with coherent dates, both build modes", "why_tests_cant": "all curves, schedules and fixings; the difference quotients are real-valued", "anchors": ["quantlib/src/parameters/rate_index.rs: RateIndex::get_coupon_amount", "quantlib/src/parameters/zero_curve.rs: ZeroCurve::get_forward_rate_between_times, get_forward_rate_between_dates, get_forward_rate_from_evaluation_date", "quantlib/src/pricing_engines/engine.rs: Engine::set_rho", "quantlib/src/pricing_engines/plain_swap_pricer.rs: PlainSwapPricer::npv"]}
{"id": "C183", "title": "Rhos of options", "statement": "In every calculation on a new engine that ends, an option in the currency of its underlying, with positive strike, nonnegative notional and a flat volatility, has rhos (whole curve and by tenor, bump positive) to its funding curve (none if it is settled) and to the collateral curve of its underlying, and to no other - none to the borrowing curve as such and none to Dummy, although its value depends on them. The rho to a funding curve used for nothing else is not positive; if it is also the borrowing curve that still holds for calls. The rho to a collateral curve other than the borrowing curve is not negative for calls and not positive for puts, whether or not the curve also discounts. If collateral and borrowing curve are the same, the rho to it is 0, or, if it also discounts, not positive.", "quantifier": "every engine configuration, sound market and portfolio, every option, every way the three curves may coincide, both build modes, all tenors and rho bumps (positive for the signs)", "why_tests_cant": "all curves, dividends, strikes, bumps and portfolios; the values are expectations", "anchors": ["quantlib/src/pricing_engines/engine.rs: Engine::set_rho, set_rho_structure", "quantlib/src/pricing_engines/option_analytic_pricer.rs: OptionAnalyticPricer::npv", "quantlib/src/pricing_engines/match_parameter.rs: get_discount_curve_name, get_collateral_curve_names", "quantlib/src/pricing_engines/pricer_factory.rs"]}
{"id": "C184", "title": "Rhos of floating-rate notes", "statement": "In every calculation on a new engine that ends, the value of a floating-rate note with no pricing date of its own is the worth of its payments: its coupons, fixed or to be fixed on the index curve, and its principal, each times the discount factor of the curve configured for its issuer. It has rhos, whole and by tenor, to that curve and to the index curve, each the change of its worth when that curve alone moves, and to no other curve, none to Dummy. If the two curves differ: its rhos to the curve that discounts, whole and by tenor, are not positive, if no coupon to come is negative; its rho to the index curve is not negative, whatever the spread and published fixings, if no year fraction is negative and no compounding period loses more than everything.", "quantifier": "every engine configuration, sound market and portfolio, every floating-rate note, plain or compounding, with or without spread, both build modes, all tenors and rho bumps (positive for the signs)", "why_tests_cant": "all curves, schedules, fixings, bumps and portfolios", "anchors": ["quantlib/src/pricing_engines/engine.rs: Engine::set_rho, set_rho_structure", "quantlib/src/pricing_engines/bond_pricer.rs: BondPricer::npv", "quantlib/src/parameters/rate_index.rs: RateIndex::get_coupon_amount", "quantlib/src/pricing_engines/match_parameter.rs: get_discount_curve_name, get_rate_index_curve_name"]}
{"id": "C185", "title": "A floating-rate note is worth less than par", "statement": "The simple forward rate of a curve is one minus the quotient of the discount factors, over the time - not the quotient minus one. So a coupon fixed when it starts at p, over the period of its index, and paid when it ends at q (p, q the discount factors of its own index curve), is worth p - q - (p - q)^2/p, and not p - q, plus its spread. Hence a floating-rate note discounted on its index curve, with no spread, is worth its earlier coupons plus the discount factor of its next reset less the sum of (p - q)^2/p over the coupons from there: never more than a note that resets at the market, and less as soon as any two discount factors differ - whether the rates are positive or negative.", "quantifier": "every curve, every chain of coupons of any length whose year fractions are the times of the curve, every earlier coupon, both build modes", "why_tests_cant": "all curves and all numbers of coupons", "anchors": ["quantlib/src/parameters/zero_curve.rs: ZeroCurve::get_forward_rate_between_times", "quantlib/src/parameters/rate_index.rs: RateIndex::get_coupon_amount", "quantlib/src/pricing_engines/bond_pricer.rs: BondPricer::npv", "quantlib/src/instruments/bond.rs: Bond::get_cashflows"]}
{"id": "C186", "title": "Short rates compound to discount factors", "statement": "The short rate of a zero curve at a time exists exactly if the day (0.002737 years) that starts there lies on the curve, before its last time. The short rates of a list of times are those of its times, in order, and exist exactly if each does. Over any number of days in a row they take the discount factor of the first to that of the last: each day it falls by the short rate times the day. A short rate is never above the continuously compounded forward rate f of the same day, has its sign, never reaches one over the day, and for f >= 0 is short of f by no more than f^2/2 times the day. The rate asked for by date is the short rate at the time of that date; before the evaluation date there is none.", "quantifier": "every constructed or bumped curve, every time, every list of times, every number of days, every date", "why_tests_cant": "all curves, times and numbers of days", "anchors": ["quantlib/src/parameters/zero_curve.rs: ZeroCurve::get_short_rate_at_time, get_vectorized_short_rate_for_sorted_times, get_instantaneous_forward_rate_from_date"]}
{"id": "C187", "title": "Arithmetic on a price and moves of the date", "statement": "A market price may be set, added to, subtracted from, multiplied, divided and moved with the evaluation date in any order: afterwards it has the date of the last move, and its value is its gross level (the price without the dividends up to its date, which moves leave alone, factors act on directly, and amounts enter grossed up by the dividends at the date) less the dividends up to that date. So scaling commutes with moves and is undone by dividing again after them; an amount added before a move counts after it less the dividends between, so adding before and after are the same exactly if the amount is zero or the dividends in between come to nothing together; a price that is set forgets what it was; a price without dividends ignores the date. Dividing by zero leaves no number.", "quantifier": "every price, every dividends none of which is the whole price and which stay as they are, every history of the six operations of any length; exact arithmetic", "why_tests_cant": "all histories of operations and dates", "anchors": ["quantlib/src/parameters/market_price.rs: MarketPrice::set_price, update_evaluation_date, AddAssign, SubAssign, MulAssign, DivAssign"]}
{"id": "C188", "title": "Options that differ in the strike", "statement": "In every calculation on a new engine that ends, on a flat surface, take options on one underlying in its own currency that differ in the strike alone. A call with a higher strike is worth no more, but by no more than the discounted difference of the strikes times the notional; a put with a higher strike no less, and by no more than that. The delta of the option with the higher strike is never the larger one, calls and puts alike. Of three strikes the option with the middle one is worth no more than the other two weighted by how near their strikes are, so a butterfly never has a negative value. On any surface, also for another currency, a call less a put less a call plus a put (two strikes, all else the same) is worth exactly the discounted difference of the strikes times the notional, and its delta, gamma and vega are zero.", "quantifier": "every engine configuration, sound market and portfolio, every nonnegative flat volatility, every two and three positive strikes, calls and puts, nonnegative notional, both build modes, positive delta ratios", "why_tests_cant": "inequalities between results of different instruments over all markets and strikes", "anchors": ["quantlib/src/pricing_engines/option_analytic_pricer.rs: OptionAnalyticPricer::npv", "quantlib/src/pricing_engines/engine.rs: Engine::set_npv_results, set_values, set_delta_gamma", "quantlib/src/pricing_engines/pricer_factory.rs: get_vanilla_option_pricer"]}
{"id": "C189", "title": "Results are proportional to the notional", "statement": "Put an instrument and the same instrument with k times the notional (k may be negative or zero) into one engine, in a sound market, and let a calculation on the new engine end. Both have the same npv and the same cash flows. Value, delta, gamma, vega, rho, dividend delta and theta, and the vega, rho and dividend delta by tenor, are k times as large, number by number, and missing for the one where they are missing for the other; so is the table of vegas by tenor and moneyness of an instrument whose price and surface are filed under one name. The exposure to each currency is k times as large, except for FX futures: their exposure does not depend on the notional at all.", "quantifier": "every engine configuration, sound market and portfolio whose maturities at the same instant are written in one time zone, every kind of instrument with a pricer of the factory, every real factor, both build modes", "why_tests_cant": "a relation between the results of two instruments over all instruments, markets and factors", "anchors": ["quantlib/src/pricing_engines/engine.rs: Engine::set_npv_results, set_values, preprocess_delta_gamma, set_delta_gamma, set_vega, set_rho, set_theta_for_given_instruments, set_div_delta, set_fx_exposures", "quantlib/src/pricing_engines/plain_swap_pricer.rs: fx_exposure", "quantlib/src/pricing_engines/fx_futures_pricer.rs: fx_exposure", "quantlib/src/pricing_engines/futures_pricer.rs: fx_exposure"]}
{"id": "C190", "title": "The order of the portfolio does not matter", "statement": "Give two new engines the same settings, the same pricers, the same sound market and the same instruments in two orders (the list of underlyings whose dividends are bumped may be in two orders as well). If both calculations end, each instrument has the same result in both: npv, value, cash flows, exposure, delta, gamma, vega, rho, dividend delta, theta, and vega, rho and dividend delta by tenor. The table of vegas by tenor and moneyness to its own underlying is the same too, for instruments whose price and surface are filed under that one name. (What the engine files in that table under the names of other instruments does depend on the order, see C96.)", "quantifier": "every engine configuration, sound market and portfolio whose maturities at the same instant are written in one time zone, every permutation, all pricers, both build modes", "why_tests_cant": "a relation between two runs over all portfolios, markets and permutations", "anchors": ["quantlib/src/pricing_engines/engine.rs: Engine::calculate, set_npv_results, set_values, preprocess_delta_gamma, set_delta_gamma, set_vega, set_vega_structure, set_vega_matrix, set_rho, set_rho_structure, set_theta_for_given_instruments, set_div_delta, set_div_structure"]}
{"id": "C191", "title": "Buyers and sellers are treated alike", "statement": "Run a history of commands on a new book, and its mirror image on another: each order on the other side and each price p replaced by k - p, for any k (two sellers at 101 and 102 and a buyer at 102 become, at 200, two buyers at 99 and 98 and a seller at 98). If the commands of both are within the contract (positive quantities, prices between the sentinels, distinct ids, total below 2^64, no market sells), both runs end and every answer of one is the mirror image of that of the other: the same trades, of the same quantities, at the mirrored prices, the same remainders, the same orders found. The books are mirror images of each other too: the bids of one are the asks of the other, order by order, in the same priority. So no side has an advantage in matching, priority, cancelling, changing or removing - except that market sells are broken (C08).", "quantifier": "every history of commands of any length, every k, every instrument, both build modes of either run", "why_tests_cant": "a relation between two runs over all histories of commands", "anchors": ["trading-engine/src/orderbook/mod.rs: OrderBook::process_limit_order, add_limit_order, cancel_order, modify_order, change_quantity, remove_order", "trading-engine/src/orderbook/half_book.rs: HalfBook::ask_trade_limit_order, bid_trade_limit_order, update_best_price, reinitialize_best_price, change_price"]}
{"id": "C192", "title": "Only the order of prices matters", "statement": "Run a history of commands on a new book, and on another the same history with each price p replaced by f(p), for any strictly increasing f (prices quoted in ticks instead of points, shifted, scaled, or stretched unevenly). If the commands of both are within the contract (positive quantities, prices between the sentinels, distinct ids, total below 2^64, no market sells), both runs end and every answer of one is that of the other with the prices mapped: the same trades of the same quantities, the same remainders, the same orders found. The books hold the same orders on the same sides in the same priority, at the mapped prices.", "quantifier": "every history of commands of any length (market buys included), every strictly increasing map of prices, every instrument, both build modes of either run", "why_tests_cant": "a relation between two runs over all histories and all price maps", "anchors": ["trading-engine/src/orderbook/mod.rs: OrderBook::process_limit_order, process_market_order, add_limit_order, cancel_order, modify_order, change_quantity, remove_order", "trading-engine/src/orderbook/half_book.rs: HalfBook::ask_trade_limit_order, bid_trade_limit_order, ask_trade_market_order, update_best_price, reinitialize_best_price, change_price"]}
