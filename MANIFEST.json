{
 "claims": [
  {
   "property": "C01",
   "status": "proved",
   "theorems": [
    "Verif.Props.C01_level_trade_is_fifo"
   ],
   "note": ""
  },
  {
   "property": "C02",
   "status": "proved",
   "theorems": [
    "Verif.Props.C02_totals"
   ],
   "note": "false for market sells: fault_market_sell_totals"
  },
  {
   "property": "C03",
   "status": "proved",
   "theorems": [
    "Verif.Props.C03_best_price"
   ],
   "note": "false after market sells: fault_market_sell_crosses"
  },
  {
   "property": "C04",
   "status": "proved",
   "theorems": [
    "Verif.Props.C04_never_crossed"
   ],
   "note": "false after market sells (fault_market_sell_crosses) and for add_limit_order/change_price (fault_add_crosses)"
  },
  {
   "property": "C05",
   "status": "proved",
   "theorems": [
    "Verif.Props.C05_limit_price_time"
   ],
   "note": ""
  },
  {
   "property": "C06",
   "status": "proved",
   "theorems": [
    "Verif.Props.C06_trade_accounting"
   ],
   "note": ""
  },
  {
   "property": "C07",
   "status": "proved",
   "theorems": [
    "Verif.Props.C07_no_quantity_lost",
    "Verif.Props.C07_dropped"
   ],
   "note": ""
  },
  {
   "property": "C08",
   "status": "partial",
   "theorems": [
    "Verif.Props.C08_market_buy_partial",
    "Verif.Props.C08_market_sell_release",
    "Verif.Props.C08_market_sell_debug",
    "Verif.Props.fault_market_sell_debug",
    "Verif.Props.fault_market_sell_totals",
    "Verif.Props.fault_market_sell_crosses"
   ],
   "note": "Full for market buys. For market sells the claim is false in the code (the level total is decremented twice): proved what holds in release, and that debug builds panic or report a wrong level quantity."
  },
  {
   "property": "C09",
   "status": "proved",
   "theorems": [
    "Verif.Props.C09_market_empty_side"
   ],
   "note": ""
  },
  {
   "property": "C10",
   "status": "proved",
   "theorems": [
    "Verif.Props.C10_cancel"
   ],
   "note": ""
  },
  {
   "property": "C11",
   "status": "proved",
   "theorems": [
    "Verif.Props.C11_lookup"
   ],
   "note": "outside the contract: fault_zero_quantity_lookup (panic)"
  },
  {
   "property": "C12",
   "status": "proved",
   "theorems": [
    "Verif.Props.C12_quantity_change"
   ],
   "note": ""
  },
  {
   "property": "C13",
   "status": "proved",
   "theorems": [
    "Verif.Props.C13_reprice",
    "Verif.Props.C13_unknown"
   ],
   "note": ""
  },
  {
   "property": "C14",
   "status": "proved",
   "theorems": [
    "Verif.Props.C14_add_cancel_identity"
   ],
   "note": ""
  },
  {
   "property": "C15",
   "status": "proved",
   "theorems": [
    "Verif.Props.C15_remove_from_back"
   ],
   "note": "outside the contract: fault_zero_quantity_remove (divergence)"
  },
  {
   "property": "C16",
   "status": "proved",
   "theorems": [
    "Verif.Props.C16_change_price"
   ],
   "note": ""
  },
  {
   "property": "C17",
   "status": "proved",
   "theorems": [
    "Verif.Props.C17_no_panic"
   ],
   "note": "needed conditions: fault_market_sell_debug, fault_zero_quantity_lookup, fault_zero_quantity_remove, fault_duplicate_id"
  },
  {
   "property": "C18",
   "status": "proved",
   "theorems": [
    "Verif.Props.C18_sides_independent"
   ],
   "note": ""
  },
  {
   "property": "C19",
   "status": "proved",
   "theorems": [
    "Verif.Props.C19_update_equals_snapshot"
   ],
   "note": "limits: fault_update_multi_order, fault_duplicate_prices"
  },
  {
   "property": "C20",
   "status": "proved",
   "theorems": [
    "Verif.Props.C20_idempotent"
   ],
   "note": ""
  },
  {
   "property": "C21",
   "status": "proved",
   "theorems": [
    "Verif.Props.C21_decompose"
   ],
   "note": "limits: fault_decompose_zero, fault_virtual_id_collision"
  },
  {
   "property": "C22",
   "status": "proved",
   "theorems": [
    "Verif.Props.C22_eq_level",
    "Verif.Props.C22_equivalence"
   ],
   "note": "limit: fault_eq_level_asymmetric (zero-quantity levels)"
  },
  {
   "property": "C23",
   "status": "proved",
   "theorems": [
    "Verif.Props.C23_wrong_instrument",
    "Verif.Props.C23_right_instrument"
   ],
   "note": ""
  },
  {
   "property": "C24",
   "status": "proved",
   "theorems": [
    "Verif.Props.C24_virtual_ids_unique"
   ],
   "note": "limit: fault_virtual_id_collision (client ids)"
  },
  {
   "property": "C25",
   "status": "proved",
   "theorems": [
    "Verif.Props.C25_parse_under8",
    "Verif.Props.C25_total"
   ],
   "note": "limit: fault_under8_empty (length 0)"
  },
  {
   "property": "C26",
   "status": "proved",
   "theorems": [
    "Verif.Props.C26_parse_under16",
    "Verif.Props.C26_total",
    "Verif.Props.C26_agrees_with_under8"
   ],
   "note": ""
  },
  {
   "property": "C27",
   "status": "proved",
   "theorems": [
    "Verif.Props.C27_parse_under32",
    "Verif.Props.C27_short_slice"
   ],
   "note": "limit: fault_under32_at_16 (length 16)"
  },
  {
   "property": "C28",
   "status": "proved",
   "theorems": [
    "Verif.Props.C28_fixed8",
    "Verif.Props.C28_fixed16",
    "Verif.Props.C28_fixed32",
    "Verif.Props.C28_no_point"
   ],
   "note": ""
  },
  {
   "property": "C29",
   "status": "proved",
   "theorems": [
    "Verif.Props.C29_hhmmss",
    "Verif.Props.C29_short_fields"
   ],
   "note": ""
  },
  {
   "property": "C30",
   "status": "proved",
   "theorems": [
    "Verif.Props.C30_accepts",
    "Verif.Props.C30_converter",
    "Verif.Props.C30_unsupported",
    "Verif.Props.C30_krx"
   ],
   "note": ""
  },
  {
   "property": "C31",
   "status": "partial",
   "theorems": [
    "Verif.Props.C31_unchecked_agrees_partial",
    "Verif.Props.C31_unchecked_with_prefix",
    "Verif.Props.fault_stock_price_unchecked",
    "Verif.Props.fault_unchecked_point"
   ],
   "note": "Proved without sign, unused bytes and point. Refuted otherwise: with k zero-filled unused bytes the unchecked conversion divides the value by 10^k (used for all KRX stock quote prices, k=2); with a point it reads the point as a digit."
  },
  {
   "property": "C32",
   "status": "proved",
   "theorems": [
    "Verif.Props.C32_first",
    "Verif.Props.C32_step",
    "Verif.Props.C32_stream",
    "Verif.Props.C32_monotone",
    "Verif.Props.C32_sharp",
    "Verif.Props.C32_short_field",
    "Verif.Props.C32_generator_day",
    "Verif.Props.C32_diff",
    "Verif.Props.C32_diff_negative"
   ],
   "note": "sharp: C32_sharp; a stream the rule misses: fault_day_session (close 15:45, open 08:45 next day goes back in time)"
  },
  {
   "property": "C33",
   "status": "proved",
   "theorems": [
    "Verif.Props.C33_days_to_date",
    "Verif.Props.C33_consecutive",
    "Verif.Props.C33_components",
    "Verif.Props.C33_convert",
    "Verif.Props.C33_render"
   ],
   "note": "limits: fault_before_1970, fault_large_offset"
  },
  {
   "property": "C34",
   "status": "proved",
   "theorems": [
    "Verif.Props.C34_worker_id",
    "Verif.Props.C34_new",
    "Verif.Props.C34_exclusive",
    "Verif.Props.C34_delivery",
    "Verif.Props.C34_progress",
    "Verif.Props.C34_fresh_get"
   ],
   "note": "release-acquire memory model, unbounded executions"
  },
  {
   "property": "C35",
   "status": "proved",
   "theorems": [
    "Verif.Props.C35_result",
    "Verif.Props.C35_handed_out",
    "Verif.Props.C35_unique",
    "Verif.Props.C35_unbounded",
    "Verif.Props.C35_next_id"
   ],
   "note": "limit: fault_counter_wraps"
  },
  {
   "property": "C36",
   "status": "proved",
   "theorems": [
    "Verif.Props.C36_sorted",
    "Verif.Props.C36_bracket",
    "Verif.Props.C36_bracket_unique",
    "Verif.Props.C36_empty",
    "Verif.Props.C36_incomparable"
   ],
   "note": "limits: fault_search_duplicates, fault_search_unsorted"
  },
  {
   "property": "C37",
   "status": "proved",
   "theorems": [
    "Verif.Props.C37_vectorised",
    "Verif.Props.C37_brackets"
   ],
   "note": ""
  },
  {
   "property": "C38",
   "status": "proved",
   "theorems": [
    "Verif.Props.C38_new",
    "Verif.Props.C38_inside",
    "Verif.Props.C38_knot",
    "Verif.Props.C38_last_knot",
    "Verif.Props.C38_refused",
    "Verif.Props.C38_flat",
    "Verif.Props.C38_linear",
    "Verif.Props.C38_between",
    "Verif.Props.C38_monotone",
    "Verif.Props.C38_vectorised"
   ],
   "note": "limits: fault_linear_single_knot, fault_repeated_knots"
  },
  {
   "property": "C39",
   "status": "proved",
   "theorems": [
    "Verif.Props.C39_new",
    "Verif.Props.C39_inside",
    "Verif.Props.C39_outside",
    "Verif.Props.C39_vectorised",
    "Verif.Props.C39_agrees"
   ],
   "note": "the two entry points disagree on configured extrapolation values: fault_stepwise_extrapolation"
  },
  {
   "property": "C40",
   "status": "proved",
   "theorems": [
    "Verif.Props.C40_total",
    "Verif.Props.C40_moment",
    "Verif.Props.C40_weights",
    "Verif.Props.C40_refused"
   ],
   "note": "limit: fault_distribute_repeated"
  },
  {
   "property": "C41",
   "status": "proved",
   "theorems": [
    "Verif.Props.C41_add_period",
    "Verif.Props.C41_add_months",
    "Verif.Props.C41_no_match",
    "Verif.Props.C41_add_period_date"
   ],
   "note": "limits: fault_clock_before_calendar, fault_period_wraps, fault_period_garbage"
  },
  {
   "property": "C42",
   "status": "proved",
   "theorems": [
    "Verif.Props.C42_sub_months_date",
    "Verif.Props.C42_correct",
    "Verif.Props.C42_wrong",
    "Verif.Props.C42_sub_period",
    "Verif.Props.C42_sub_period_date"
   ],
   "note": "witness of the wrong branch: fault_sub_18_months"
  },
  {
   "property": "C43",
   "status": "proved",
   "theorems": [
    "Verif.Props.C43_following",
    "Verif.Props.C43_preceding",
    "Verif.Props.C43_business_day",
    "Verif.Props.C43_unadjusted",
    "Verif.Props.C43_returns_business_day",
    "Verif.Props.C43_modified_following",
    "Verif.Props.C43_modified_preceding"
   ],
   "note": "limit: fault_modified_following (months are compared, not years)"
  },
  {
   "property": "C44",
   "status": "proved",
   "theorems": [
    "Verif.Props.C44_joint",
    "Verif.Props.C44_empty"
   ],
   "note": ""
  },
  {
   "property": "C45",
   "status": "proved",
   "theorems": [
    "Verif.Props.C45_error",
    "Verif.Props.C45_actual",
    "Verif.Props.C45_actual_additive",
    "Verif.Props.C45_thirty",
    "Verif.Props.C45_street",
    "Verif.Props.C45_isda",
    "Verif.Props.C45_isda_additive"
   ],
   "note": "limits: fault_street_convention (negative fraction), fault_isda_first_of_january"
  },
  {
   "property": "C46",
   "status": "proved",
   "theorems": [
    "Verif.Props.C46_schedule",
    "Verif.Props.C46_tiles",
    "Verif.Props.C46_forward_starts",
    "Verif.Props.C46_backward_starts",
    "Verif.Props.C46_fixing_payment",
    "Verif.Props.C46_one_coupon",
    "Verif.Props.C46_refused",
    "Verif.Props.C46_forward_unadjusted"
   ],
   "note": "limits: fault_one_coupon_beyond_maturity, fault_backward_refused, fault_daily_weekend, fault_weekend_stub"
  },
  {
   "property": "C47",
   "status": "proved",
   "theorems": [
    "Verif.Props.C47_chain",
    "Verif.Props.C47_round_trip",
    "Verif.Props.C47_path_independent",
    "Verif.Props.C47_move_succeeds"
   ],
   "note": "limit: fault_full_dividend"
  },
  {
   "property": "C48",
   "status": "proved",
   "theorems": [
    "Verif.Props.C48_new",
    "Verif.Props.C48_update",
    "Verif.Props.C48_refused"
   ],
   "note": "limit: fault_all_dividends_past"
  },
  {
   "property": "C49",
   "status": "proved",
   "theorems": [
    "Verif.Props.C49_factor",
    "Verif.Props.C49_accepts",
    "Verif.Props.C49_unique",
    "Verif.Props.C49_lower_only"
   ],
   "note": "exact arithmetic with a square-root function; instantiated at the reals"
  },
  {
   "property": "C50",
   "status": "proved",
   "theorems": [
    "Verif.Props.C50_inside",
    "Verif.Props.C50_outside",
    "Verif.Props.C50_grid"
   ],
   "note": "limit: fault_rectangle_unsorted"
  },
  {
   "property": "C51",
   "status": "proved",
   "theorems": [
    "Verif.Props.C51_rule",
    "Verif.Props.C51_instant",
    "Verif.Props.C51_add",
    "Verif.Props.C51_remove",
    "Verif.Props.C51_total"
   ],
   "note": ""
  },
  {
   "property": "C52",
   "status": "proved",
   "theorems": [
    "Verif.Props.C52_us_rules"
   ],
   "note": ""
  },
  {
   "property": "C53",
   "status": "proved",
   "theorems": [
    "Verif.Props.C53_good_friday",
    "Verif.Props.fault_nyse_good_friday"
   ],
   "note": "the code has the two tables exchanged; proved exactly"
  },
  {
   "property": "C54",
   "status": "proved",
   "theorems": [
    "Verif.Props.C54_year_end",
    "Verif.Props.C54_chuseok",
    "Verif.Props.C54_lunar_new_year",
    "Verif.Props.C54_korea"
   ],
   "note": "limit: fault_krx_2051"
  },
  {
   "property": "C55",
   "status": "proved",
   "theorems": [
    "Verif.Props.C55_position",
    "Verif.Props.C55_additive",
    "Verif.Props.C55_nonneg"
   ],
   "note": "limits: fault_time_goes_back, fault_time_backwards"
  },
  {
   "property": "C56",
   "status": "proved",
   "theorems": [
    "Verif.Props.C56_bump",
    "Verif.Props.C56_refused"
   ],
   "note": "limit: fault_bump_revives_past"
  },
  {
   "property": "C57",
   "status": "proved",
   "theorems": [
    "Verif.Props.C57_new",
    "Verif.Props.C57_refused",
    "Verif.Props.built_ok",
    "Verif.Props.C57_between",
    "Verif.Props.C57_range",
    "Verif.Props.C57_le_one",
    "Verif.Props.C57_antitone",
    "Verif.Props.C57_flat_curve",
    "Verif.Props.C57_vectorised",
    "Verif.Props.C57_at_date",
    "Verif.Props.C57_dates"
   ],
   "note": "every curve built by new and bumps satisfies CurveOk (built_ok); limit: fault_discount_of_past_year; concrete case: curve_witness"
  },
  {
   "property": "C58",
   "status": "proved",
   "theorems": [
    "Verif.Props.C58_quotient",
    "Verif.Props.C58_chain",
    "Verif.Props.C58_rates",
    "Verif.Props.C58_average",
    "Verif.Props.C58_dates",
    "Verif.Props.C58_short_rate",
    "Verif.Props.fault_simple_rate",
    "Verif.Props.fault_forward_empty_period",
    "Verif.Props.fault_forward_short_period"
   ],
   "note": "the fault_ theorems are the negative half of the statement"
  },
  {
   "property": "C59",
   "status": "proved",
   "theorems": [
    "Verif.Props.C59_bump",
    "Verif.Props.C59_restore",
    "Verif.Props.C59_adjoin",
    "Verif.Props.C59_direction",
    "Verif.Props.C59_dates"
   ],
   "note": ""
  },
  {
   "property": "C60",
   "status": "proved",
   "theorems": [
    "Verif.Props.C60_accepts",
    "Verif.Props.C60_refused",
    "Verif.Props.C60_curve"
   ],
   "note": ""
  },
  {
   "property": "C61",
   "status": "proved",
   "theorems": [
    "Verif.Props.C61_bond_flows",
    "Verif.Props.C61_defined",
    "Verif.Props.C61_fixed_amount",
    "Verif.Props.C61_accepts",
    "Verif.Props.fault_bond_panics"
   ],
   "note": "concrete case: bond_witness"
  },
  {
   "property": "C62",
   "status": "proved",
   "theorems": [
    "Verif.Props.C62_order",
    "Verif.Props.C62_npv",
    "Verif.Props.C62_result",
    "Verif.Props.C62_linear"
   ],
   "note": "concrete case: bond_witness"
  },
  {
   "property": "C63",
   "status": "proved",
   "theorems": [
    "Verif.Props.C63_kind",
    "Verif.Props.C63_conventions",
    "Verif.Props.fault_fx_from_conventions"
   ],
   "note": ""
  },
  {
   "property": "C64",
   "status": "proved",
   "theorems": [
    "Verif.Props.C64_fixed",
    "Verif.Props.C64_floating",
    "Verif.Props.C64_defined"
   ],
   "note": "concrete case: swap_witness"
  },
  {
   "property": "C65",
   "status": "proved",
   "theorems": [
    "Verif.Props.C65_npv",
    "Verif.Props.C65_result",
    "Verif.Props.C65_exposure"
   ],
   "note": "concrete case: swap_witness"
  },
  {
   "property": "C66",
   "status": "proved",
   "theorems": [
    "Verif.Props.C66_simple",
    "Verif.Props.C66_known",
    "Verif.Props.C66_future",
    "Verif.Props.C66_compounded",
    "Verif.Props.C66_tiles",
    "Verif.Props.C66_known_compounded"
   ],
   "note": "limit: fault_compound_diverges; concrete case: floating_witness"
  },
  {
   "property": "C67",
   "status": "proved",
   "theorems": [
    "Verif.Props.C67_bond",
    "Verif.Props.C67_probability",
    "Verif.Props.C67_swap"
   ],
   "note": "concrete case: swap_witness"
  },
  {
   "property": "C68",
   "status": "proved",
   "theorems": [
    "Verif.Props.C68_forward",
    "Verif.Props.C68_carry",
    "Verif.Props.C68_exposure",
    "Verif.Props.C68_fx",
    "Verif.Props.fault_fx_exposure_overwritten"
   ],
   "note": ""
  },
  {
   "property": "C69",
   "status": "proved",
   "theorems": [
    "Verif.Props.C69_until_close",
    "Verif.Props.C69_after_close",
    "Verif.Props.C69_instant"
   ],
   "note": ""
  },
  {
   "property": "C70",
   "status": "proved",
   "theorems": [
    "Verif.Props.C70_value",
    "Verif.Props.C70_par",
    "Verif.Props.C70_decreasing",
    "Verif.Props.C70_refused"
   ],
   "note": ""
  },
  {
   "property": "C71",
   "status": "proved",
   "theorems": [
    "Verif.Props.C71_value",
    "Verif.Props.C71_decreasing",
    "Verif.Props.C71_forwards",
    "Verif.Props.fault_krx_31st"
   ],
   "note": "the search for the yield (crate argmin) is not modelled"
  },
  {
   "property": "C72",
   "status": "proved",
   "theorems": [
    "Verif.Props.C72_value",
    "Verif.Props.C72_bounds",
    "Verif.Props.C72_parity",
    "Verif.Props.C72_vega",
    "Verif.Props.C72_strikes",
    "Verif.Props.C72_expiry",
    "Verif.Props.C72_refused"
   ],
   "note": "concrete case: option_witness"
  },
  {
   "property": "C73",
   "status": "proved",
   "theorems": [
    "Verif.Props.C73_quanto",
    "Verif.Props.C73_zero",
    "Verif.Props.C72_parity",
    "Verif.Props.fault_quanto_negative"
   ],
   "note": "concrete case: option_witness"
  },
  {
   "property": "C74",
   "status": "proved",
   "theorems": [
    "Verif.Props.C74_value",
    "Verif.Props.C74_grid",
    "Verif.Props.C74_bounds"
   ],
   "note": "concrete case: surface_witness"
  },
  {
   "property": "C75",
   "status": "proved",
   "theorems": [
    "Verif.Props.C75_strike",
    "Verif.Props.C75_moneyness"
   ],
   "note": "concrete case: surface_witness"
  },
  {
   "property": "C76",
   "status": "proved",
   "theorems": [
    "Verif.Props.C76_cells",
    "Verif.Props.C76_undo",
    "Verif.Props.C76_adjoining",
    "Verif.Props.C76_parallel",
    "Verif.Props.fault_constant_window"
   ],
   "note": "concrete case: surface_witness"
  },
  {
   "property": "C77",
   "status": "proved",
   "theorems": [
    "Verif.Props.C77_market",
    "Verif.Props.C77_same_grid",
    "Verif.Props.C77_refused",
    "Verif.Props.C77_constant"
   ],
   "note": "concrete case: surface_witness"
  },
  {
   "property": "C78",
   "status": "proved",
   "theorems": [
    "Verif.Props.C78_round_trip",
    "Verif.Props.C78_reading",
    "Verif.Props.C78_pairs",
    "Verif.Props.C78_pair_reading",
    "Verif.Props.C78_pairs_of"
   ],
   "note": ""
  },
  {
   "property": "C79",
   "status": "proved",
   "theorems": [
    "Verif.Props.C79_lists",
    "Verif.Props.C79_firsts",
    "Verif.Props.C79_each"
   ],
   "note": "concrete case: samplePortfolio"
  },
  {
   "property": "C80",
   "status": "proved",
   "theorems": [
    "Verif.Props.C80_selections",
    "Verif.Props.C80_split",
    "Verif.Props.C80_shortest",
    "Verif.Props.C80_longest"
   ],
   "note": ""
  },
  {
   "property": "C81",
   "status": "proved",
   "theorems": [
    "Verif.Props.C81_currencies",
    "Verif.Props.fault_currencies_left_out"
   ],
   "note": ""
  },
  {
   "property": "C82",
   "status": "proved",
   "theorems": [
    "Verif.Props.C82_borrowing",
    "Verif.Props.C82_curves",
    "Verif.Props.C82_using",
    "Verif.Props.C82_consistent"
   ],
   "note": "concrete case: start_witness"
  },
  {
   "property": "C83",
   "status": "proved",
   "theorems": [
    "Verif.Props.C83_plan",
    "Verif.Props.fault_never_priced"
   ],
   "note": "concrete case: start_witness"
  },
  {
   "property": "C84",
   "status": "proved",
   "theorems": [
    "Verif.Props.C84_contains",
    "Verif.Props.C84_groups",
    "Verif.Props.C84_schedule",
    "Verif.Props.fault_same_code"
   ],
   "note": ""
  },
  {
   "property": "C85",
   "status": "proved",
   "theorems": [
    "Verif.Props.C85_accepts",
    "Verif.Props.C85_load",
    "Verif.Props.C85_start"
   ],
   "note": "concrete case: start_witness"
  },
  {
   "property": "C86",
   "status": "proved",
   "theorems": [
    "Verif.Props.C86_rate",
    "Verif.Props.C86_consistent"
   ],
   "note": ""
  },
  {
   "property": "C87",
   "status": "proved",
   "theorems": [
    "Verif.Props.C87_npv",
    "Verif.Props.C87_exposure"
   ],
   "note": "concrete case: engine_witness"
  },
  {
   "property": "C88",
   "status": "proved",
   "theorems": [
    "Verif.Props.C88_delta",
    "Verif.Props.C88_succeeds"
   ],
   "note": "concrete case: engine_witness; real arithmetic, in single precision: C147"
  },
  {
   "property": "C89",
   "status": "proved",
   "theorems": [
    "Verif.Props.C89_rho",
    "Verif.Props.C89_succeeds"
   ],
   "note": "concrete case: engine_witness; real arithmetic, in single precision: C147"
  },
  {
   "property": "C90",
   "status": "proved",
   "theorems": [
    "Verif.Props.C90_vega",
    "Verif.Props.C90_succeeds"
   ],
   "note": "concrete case: engine_witness; real arithmetic, in single precision: C147"
  },
  {
   "property": "C91",
   "status": "proved",
   "theorems": [
    "Verif.Props.C91_div_delta",
    "Verif.Props.C91_succeeds",
    "Verif.Props.fault_div_delta_past"
   ],
   "note": "concrete case: engine_witness; real arithmetic, in single precision: C147"
  },
  {
   "property": "C92",
   "status": "proved",
   "theorems": [
    "Verif.Props.C92_theta",
    "Verif.Props.C92_succeeds"
   ],
   "note": "concrete case: engine_witness; real arithmetic, in single precision: C148"
  },
  {
   "property": "C93",
   "status": "proved",
   "theorems": [
    "Verif.Props.C93_vega_structure",
    "Verif.Props.C93_adds_up",
    "Verif.Props.C93_succeeds"
   ],
   "note": "concrete case: engine_witness"
  },
  {
   "property": "C94",
   "status": "proved",
   "theorems": [
    "Verif.Props.C94_rho_structure",
    "Verif.Props.C94_succeeds"
   ],
   "note": "concrete case: engine_witness"
  },
  {
   "property": "C95",
   "status": "proved",
   "theorems": [
    "Verif.Props.C95_div_structure",
    "Verif.Props.C95_succeeds"
   ],
   "note": "concrete case: engine_witness"
  },
  {
   "property": "C96",
   "status": "proved",
   "theorems": [
    "Verif.Props.C96_vega_matrix",
    "Verif.Props.C96_restored",
    "Verif.Props.C96_adds_up",
    "Verif.Props.C96_succeeds",
    "Verif.Props.fault_matrix_lowered"
   ],
   "note": "concrete case: engine_witness"
  },
  {
   "property": "C97",
   "status": "proved",
   "theorems": [
    "Verif.Props.C97_calculate",
    "Verif.Props.C97_restored",
    "Verif.Props.C97_new_engine",
    "Verif.Props.C97_succeeds",
    "Verif.Props.C97_needs_npv",
    "Verif.Props.fault_second_calculation"
   ],
   "note": "concrete case: engine_witness"
  },
  {
   "property": "C98",
   "status": "proved",
   "theorems": [
    "Verif.Props.C98_convert",
    "Verif.Props.C98_chain"
   ],
   "note": ""
  },
  {
   "property": "C99",
   "status": "proved",
   "theorems": [
    "Verif.Props.C99_derivative_quote",
    "Verif.Props.C99_buffer",
    "Verif.Props.C99_first_time"
   ],
   "note": "concrete case beside: sample option message"
  },
  {
   "property": "C100",
   "status": "proved",
   "theorems": [
    "Verif.Props.C100_stock_quote",
    "Verif.Props.C100_buffer",
    "Verif.Props.fault_stock_price"
   ],
   "note": "prices lose two digits: part of the statement"
  },
  {
   "property": "C101",
   "status": "proved",
   "theorems": [
    "Verif.Props.C101_trade_quote",
    "Verif.Props.C101_buffer",
    "Verif.Props.fault_stale_converter"
   ],
   "note": ""
  },
  {
   "property": "C102",
   "status": "proved",
   "theorems": [
    "Verif.Props.C102_trade_buffer",
    "Verif.Props.C102_trade_new",
    "Verif.Props.C102_always_wrong",
    "Verif.Props.fault_trade_price"
   ],
   "note": ""
  },
  {
   "property": "C103",
   "status": "proved",
   "theorems": [
    "Verif.Props.C103_quote_buffer",
    "Verif.Props.C103_quote_exact",
    "Verif.Props.C103_trade_quote_buffer",
    "Verif.Props.C103_trade_buffer",
    "Verif.Props.C103_small_buffer"
   ],
   "note": ""
  },
  {
   "property": "C104",
   "status": "proved",
   "theorems": [
    "Verif.Props.C104_quote_accept",
    "Verif.Props.C104_trade_quote_accept",
    "Verif.Props.C104_trade_accept",
    "Verif.Props.C104_cut",
    "Verif.Props.fault_short_packet",
    "Verif.Props.fault_not_text"
   ],
   "note": ""
  },
  {
   "property": "C105",
   "status": "proved",
   "theorems": [
    "Verif.Props.C105_quote",
    "Verif.Props.C105_quote_buffer",
    "Verif.Props.C105_trade_quote",
    "Verif.Props.C105_trade",
    "Verif.Props.C105_text"
   ],
   "note": ""
  },
  {
   "property": "C106",
   "status": "proved",
   "theorems": [
    "Verif.Props.C106_interned",
    "Verif.Props.C106_again",
    "Verif.Props.C106_default",
    "Verif.Props.C106_isin",
    "Verif.Props.C106_ticker",
    "Verif.Props.C106_ticker_long",
    "Verif.Props.C106_symbol",
    "Verif.Props.C106_text",
    "Verif.Props.fault_ticker_zero",
    "Verif.Props.fault_ticker_not_text"
   ],
   "note": ""
  },
  {
   "property": "C107",
   "status": "proved",
   "theorems": [
    "Verif.Props.C107_unique",
    "Verif.Props.C107_lookup",
    "Verif.Props.C107_derivatives"
   ],
   "note": ""
  },
  {
   "property": "C108",
   "status": "proved",
   "theorems": [
    "Verif.Props.C108_signed",
    "Verif.Props.C108_unsigned",
    "Verif.Props.C108_plain",
    "Verif.Props.C108_krx",
    "Verif.Props.C108_order",
    "Verif.Props.C108_outside_debug",
    "Verif.Props.C108_negative_release",
    "Verif.Props.C108_trade_price"
   ],
   "note": "exact arithmetic; in double precision: C134"
  },
  {
   "property": "C109",
   "status": "proved",
   "theorems": [
    "Verif.Props.C109_of_quote",
    "Verif.Props.C109_of_quote_short",
    "Verif.Props.C109_of_trade_quote",
    "Verif.Props.C109_update_trade_quote",
    "Verif.Props.C109_update_quote",
    "Verif.Props.C109_update_is_new",
    "Verif.Props.C109_update_is_new_trade",
    "Verif.Props.C109_capacity",
    "Verif.Props.C109_message",
    "Verif.Props.C109_buffer"
   ],
   "note": ""
  },
  {
   "property": "C110",
   "status": "proved",
   "theorems": [
    "Verif.Props.C110_vwap",
    "Verif.Props.C110_within",
    "Verif.Props.C110_exists",
    "Verif.Props.C110_one_sided"
   ],
   "note": "exact arithmetic; in double precision: C139"
  },
  {
   "property": "C111",
   "status": "proved",
   "theorems": [
    "Verif.Props.C111_best",
    "Verif.Props.C111_none",
    "Verif.Props.C111_mid",
    "Verif.Props.C111_between"
   ],
   "note": ""
  },
  {
   "property": "C112",
   "status": "proved",
   "theorems": [
    "Verif.Props.C112_refused",
    "Verif.Props.C112_short",
    "Verif.Props.C112_imbalance",
    "Verif.Props.C112_antisymmetric",
    "Verif.Props.C112_telescopes"
   ],
   "note": ""
  },
  {
   "property": "C113",
   "status": "proved",
   "theorems": [
    "Verif.Props.C113_ln",
    "Verif.Props.C113_antisymmetric",
    "Verif.Props.C113_bid_infinite",
    "Verif.Props.C113_ask_infinite"
   ],
   "note": ""
  },
  {
   "property": "C114",
   "status": "proved",
   "theorems": [
    "Verif.Props.C114_average",
    "Verif.Props.C114_two",
    "Verif.Props.C114_within",
    "Verif.Props.C114_forgets",
    "Verif.Props.C114_first",
    "Verif.Props.C114_not_interval",
    "Verif.Props.C114_backwards"
   ],
   "note": "exact arithmetic; in double precision: C138"
  },
  {
   "property": "C115",
   "status": "proved",
   "theorems": [
    "Verif.Props.C115_sum",
    "Verif.Props.C115_bounded",
    "Verif.Props.C115_not_interval"
   ],
   "note": "exact arithmetic instead of f64"
  },
  {
   "property": "C116",
   "status": "proved",
   "theorems": [
    "Verif.Props.C116_average",
    "Verif.Props.C116_within",
    "Verif.Props.C116_history",
    "Verif.Props.C116_limit",
    "Verif.Props.C116_overflow"
   ],
   "note": ""
  },
  {
   "property": "C117",
   "status": "proved",
   "theorems": [
    "Verif.Props.C117_prefix",
    "Verif.Props.C117_held"
   ],
   "note": "concrete case: sample_log"
  },
  {
   "property": "C118",
   "status": "proved",
   "theorems": [
    "Verif.Props.C118_complete",
    "Verif.Props.C118_one_file",
    "Verif.Props.C118_finalize",
    "Verif.Props.C118_no_file"
   ],
   "note": "concrete case: sample_log"
  },
  {
   "property": "C119",
   "status": "proved",
   "theorems": [
    "Verif.Props.C119_files"
   ],
   "note": ""
  },
  {
   "property": "C120",
   "status": "proved",
   "theorems": [
    "Verif.Props.C120_call",
    "Verif.Props.C120_level"
   ],
   "note": ""
  },
  {
   "property": "C121",
   "status": "proved",
   "theorems": [
    "Verif.Props.C121_written",
    "Verif.Props.C121_flushing_not_on_disk",
    "Verif.Props.C121_bytes_not_bounded"
   ],
   "note": ""
  },
  {
   "property": "C122",
   "status": "proved",
   "theorems": [
    "Verif.Props.C122_console",
    "Verif.Props.C122_end_not_shown",
    "Verif.Props.C122_silent"
   ],
   "note": ""
  },
  {
   "property": "C123",
   "status": "proved",
   "theorems": [
    "Verif.Props.C123_gone",
    "Verif.Props.C123_dies",
    "Verif.Props.C123_lost"
   ],
   "note": ""
  },
  {
   "property": "C124",
   "status": "proved",
   "theorems": [
    "Verif.Props.C124_yield_exists",
    "Verif.Props.C124_discounted_value",
    "Verif.Props.C124_at_zero",
    "Verif.Props.C124_objective",
    "Verif.Props.C124_downhill",
    "Verif.Props.C124_slope",
    "Verif.Props.C124_search"
   ],
   "note": "the optimiser of the crate argmin is a parameter; concrete case: future_witness"
  },
  {
   "property": "C125",
   "status": "proved",
   "theorems": [
    "Verif.Props.C125_accepts",
    "Verif.Props.C125_value",
    "Verif.Props.C125_determined",
    "Verif.Props.C125_direction",
    "Verif.Props.C125_empty"
   ],
   "note": "concrete case: future_witness"
  },
  {
   "property": "C126",
   "status": "proved",
   "theorems": [
    "Verif.Props.C126_written",
    "Verif.Props.C126_formatted",
    "Verif.Props.C126_read_back",
    "Verif.Props.C126_same_text",
    "Verif.Props.C126_special",
    "Verif.Props.fault_negative_zero"
   ],
   "note": "rounding to a nearest decimal, ties either way, is the specification of format!"
  },
  {
   "property": "C127",
   "status": "proved",
   "theorems": [
    "Verif.Props.C127_value",
    "Verif.Props.C127_append",
    "Verif.Props.C127_elapsed",
    "Verif.Props.C127_invalid",
    "Verif.Props.fault_twelve_months"
   ],
   "note": "exact arithmetic instead of f32"
  },
  {
   "property": "C128",
   "status": "proved",
   "theorems": [
    "Verif.Props.C128_sorted",
    "Verif.Props.C128_neighbours",
    "Verif.Props.fault_nan_sorted"
   ],
   "note": ""
  },
  {
   "property": "C129",
   "status": "proved",
   "theorems": [
    "Verif.Props.C129_date_number"
   ],
   "note": ""
  },
  {
   "property": "C130",
   "status": "proved",
   "theorems": [
    "Verif.Props.C130_duration",
    "Verif.Props.fault_duration"
   ],
   "note": "exact arithmetic instead of f64"
  },
  {
   "property": "C131",
   "status": "proved",
   "theorems": [
    "Verif.Props.C131_when",
    "Verif.Props.C131_covariance",
    "Verif.Props.C131_sample",
    "Verif.Props.C131_causal"
   ],
   "note": "exact arithmetic; the random numbers are a parameter; concrete case: path_witness"
  },
  {
   "property": "C132",
   "status": "proved",
   "theorems": [
    "Verif.Props.C132_ordered",
    "Verif.Props.C132_walk"
   ],
   "note": ""
  },
  {
   "property": "C133",
   "status": "proved",
   "theorems": [
    "Verif.Props.C133_add",
    "Verif.Props.C133_sub",
    "Verif.Props.C133_round_trip",
    "Verif.Props.C133_compare",
    "Verif.Props.fault_month_round_trip"
   ],
   "note": "prices in exact arithmetic"
  },
  {
   "property": "C134",
   "status": "proved",
   "theorems": [
    "Verif.Props.C134_nearest",
    "Verif.Props.C134_order",
    "Verif.Props.C134_distinct",
    "Verif.Props.C134_error",
    "Verif.Props.C134_norm_order",
    "Verif.Props.C134_norm_error",
    "Verif.Props.fault_price_collapse"
   ],
   "note": "IEEE double model; powi is the multiplication loop it is compiled to"
  },
  {
   "property": "C135",
   "status": "proved",
   "theorems": [
    "Verif.Props.C135_between",
    "Verif.Props.C135_nearest",
    "Verif.Props.C135_order",
    "Verif.Props.C135_levels"
   ],
   "note": "IEEE double model"
  },
  {
   "property": "C136",
   "status": "proved",
   "theorems": [
    "Verif.Props.C136_nearest",
    "Verif.Props.C136_within",
    "Verif.Props.C136_empty"
   ],
   "note": "IEEE double model"
  },
  {
   "property": "C137",
   "status": "proved",
   "theorems": [
    "Verif.Props.C137_order",
    "Verif.Props.C137_whole",
    "Verif.Props.C137_error"
   ],
   "note": "IEEE double model"
  },
  {
   "property": "C138",
   "status": "proved",
   "theorems": [
    "Verif.Props.C138_history",
    "Verif.Props.C138_within",
    "Verif.Props.fault_ewma_equal"
   ],
   "note": "IEEE double model; the weight of an interval (powf) is any double from 0 to 1"
  },
  {
   "property": "C139",
   "status": "proved",
   "theorems": [
    "Verif.Props.C139_accuracy",
    "Verif.Props.C139_defined",
    "Verif.Props.C139_within",
    "Verif.Props.fault_vwap_one_level"
   ],
   "note": "IEEE double model"
  },
  {
   "property": "C140",
   "status": "proved",
   "theorems": [
    "Verif.Props.C140_nearest",
    "Verif.Props.C140_order",
    "Verif.Props.C140_errors",
    "Verif.Props.C140_isda",
    "Verif.Props.C140_isda_order"
   ],
   "note": "IEEE single model"
  },
  {
   "property": "C141",
   "status": "proved",
   "theorems": [
    "Verif.Props.C141_accuracy",
    "Verif.Props.C141_order",
    "Verif.Props.C141_zero",
    "Verif.Props.C141_not_strict"
   ],
   "note": "IEEE single model"
  },
  {
   "property": "C142",
   "status": "proved",
   "theorems": [
    "Verif.Props.C142_knots"
   ],
   "note": "IEEE single model"
  },
  {
   "property": "C143",
   "status": "proved",
   "theorems": [
    "Verif.Props.C143_knot",
    "Verif.Props.C143_segment",
    "Verif.Props.C143_accuracy",
    "Verif.Props.C143_linear",
    "Verif.Props.C143_vectorised",
    "Verif.Props.C143_overshoot"
   ],
   "note": "IEEE single model"
  },
  {
   "property": "C144",
   "status": "proved",
   "theorems": [
    "Verif.Props.C144_today",
    "Verif.Props.C144_where",
    "Verif.Props.C144_bounds",
    "Verif.Props.C144_falls",
    "Verif.Props.C144_accuracy",
    "Verif.Props.C144_flat",
    "Verif.Props.C144_cached",
    "Verif.Props.C144_refused",
    "Verif.Props.C144_dates",
    "Verif.Props.C144_between"
   ],
   "note": "IEEE single model; f32::exp is any function meeting ExpSpec (stated in the theorem)"
  },
  {
   "property": "C145",
   "status": "proved",
   "theorems": [
    "Verif.Props.C145_no_drift",
    "Verif.Props.C145_runs",
    "Verif.Props.C145_near",
    "Verif.Props.C145_volatility",
    "Verif.Props.C145_surface",
    "Verif.Props.C145_dividends",
    "Verif.Props.C145_dividends_refused",
    "Verif.Props.C145_moves",
    "Verif.Props.C145_volatility_moves"
   ],
   "note": "IEEE single model; rebuilding the local volatilities from the quotes is not part of it"
  },
  {
   "property": "C146",
   "status": "proved",
   "theorems": [
    "Verif.Props.C146_calls",
    "Verif.Props.C146_new",
    "Verif.Props.C146_default",
    "Verif.Props.C146_stays",
    "Verif.Props.C146_unchecked",
    "Verif.Props.C146_unused"
   ],
   "note": ""
  },
  {
   "property": "C147",
   "status": "proved",
   "theorems": [
    "Verif.Props.C147_slope",
    "Verif.Props.C147_monotone",
    "Verif.Props.C147_sign",
    "Verif.Props.C147_zero_bump",
    "Verif.Props.C147_tiny_ratio",
    "Verif.Props.C147_delta",
    "Verif.Props.C147_delta_zero",
    "Verif.Props.C147_prices",
    "Verif.Props.C147_own",
    "Verif.Props.C147_true_prices",
    "Verif.Props.C147_case"
   ],
   "note": "IEEE single model; the prices are arguments"
  },
  {
   "property": "C148",
   "status": "proved",
   "theorems": [
    "Verif.Props.C148_bend_sign",
    "Verif.Props.C148_gamma",
    "Verif.Props.C148_lost",
    "Verif.Props.C148_theta_monotone",
    "Verif.Props.C148_theta",
    "Verif.Props.C148_theta_no_days"
   ],
   "note": "IEEE single model; the prices are arguments"
  },
  {
   "property": "C149",
   "status": "proved",
   "theorems": [
    "Verif.Props.C149_exact",
    "Verif.Props.C149_cut",
    "Verif.Props.C149_any",
    "Verif.Props.C149_case"
   ],
   "note": "Loss, duplication and reordering by the network are not modelled"
  },
  {
   "property": "C150",
   "status": "proved",
   "theorems": [
    "Verif.Props.C150_value",
    "Verif.Props.C150_same",
    "Verif.Props.C150_once",
    "Verif.Props.C150_exclusive",
    "Verif.Props.C150_progress",
    "Verif.Props.C150_case"
   ],
   "note": "The steps of once_cell get_or_init are atomic steps; an initializer that dereferences its own LazyString is excluded"
  },
  {
   "property": "C151",
   "status": "proved",
   "theorems": [
    "Verif.Props.C151_only",
    "Verif.Props.C151_pairs",
    "Verif.Props.C151_underlyings",
    "Verif.Props.C151_terms",
    "Verif.Props.C151_portfolio",
    "Verif.Props.C151_empty",
    "Verif.Props.C151_case"
   ],
   "note": ""
  },
  {
   "property": "C152",
   "status": "proved",
   "theorems": [
    "Verif.Props.C152_directory",
    "Verif.Props.C152_currency",
    "Verif.Props.C152_case"
   ],
   "note": ""
  },
  {
   "property": "C153",
   "status": "proved",
   "theorems": [
    "Verif.Props.C153_codes",
    "Verif.Props.C153_balance",
    "Verif.Props.C153_empty",
    "Verif.Props.C153_empty_any",
    "Verif.Props.C153_case"
   ],
   "note": ""
  },
  {
   "property": "C154",
   "status": "proved",
   "theorems": [
    "Verif.Props.C154_quote_refused",
    "Verif.Props.C154_trade_quote_refused",
    "Verif.Props.C154_trade_refused",
    "Verif.Props.C154_quote_atomic",
    "Verif.Props.C154_trade_quote_atomic",
    "Verif.Props.C154_trade_atomic",
    "Verif.Props.C154_quote_behind",
    "Verif.Props.C154_trade_quote_behind",
    "Verif.Props.C154_quote_stream",
    "Verif.Props.C154_trade_quote_stream",
    "Verif.Props.C154_trade_stream",
    "Verif.Props.C154_quote_after_anything",
    "Verif.Props.C154_torn"
   ],
   "note": "On a second model of the parsers, write by write, proved to agree with the first; C154_torn shows what happens when the clock is out of range"
  },
  {
   "property": "C155",
   "status": "proved",
   "theorems": [
    "Verif.Props.C155_left",
    "Verif.Props.C155_agrees",
    "Verif.Props.C155_values_only",
    "Verif.Props.C155_delta_stays",
    "Verif.Props.C155_bump_stays",
    "Verif.Props.C155_date_stays",
    "Verif.Props.C155_next_engine"
   ],
   "note": "On a second model of the engine, statement by statement, proved to agree with the first (C155_agrees); market sound as in C97"
  },
  {
   "property": "C156",
   "status": "proved",
   "theorems": [
    "Verif.Props.C156_parity",
    "Verif.Props.twin_witness"
   ],
   "note": "QL/Wire joins the engine with the pricers of the factory; the terms an instrument answers to its pricer are given beside the engine's record of it. OneZone excludes maturities at one instant in different time zones"
  },
  {
   "property": "C157",
   "status": "proved",
   "theorems": [
    "Verif.Props.C157_shortcut",
    "Verif.Props.linear_witness"
   ],
   "note": "As C156"
  },
  {
   "property": "C158",
   "status": "proved",
   "theorems": [
    "Verif.Props.C158_vega",
    "Verif.Props.C158_delta",
    "Verif.Props.signs_witness"
   ],
   "note": "As C156. Real arithmetic"
  },
  {
   "property": "C159",
   "status": "proved",
   "theorems": [
    "Verif.Props.C159_rho",
    "Verif.Props.C159_sum",
    "Verif.Props.bonds_witness"
   ],
   "note": "As C156. Real arithmetic. The year fraction of the street convention can be negative for positive periods, so nonnegative coupons are a hypothesis"
  },
  {
   "property": "C160",
   "status": "proved",
   "theorems": [
    "Verif.Props.C160_company",
    "Verif.Props.plan_sees",
    "Verif.Props.company_witness"
   ],
   "note": "As C156. One underlying. Entries by tenor that only one of the two portfolios looks at may differ (0 in the other), as does theta of an instrument maturing within the roll period"
  },
  {
   "property": "C161",
   "status": "proved",
   "theorems": [
    "Verif.Props.C161_worth",
    "Verif.Props.worth_witness",
    "Verif.Props.twin_witness",
    "Verif.Props.linear_witness",
    "Verif.Props.bonds_witness"
   ],
   "note": "As C156. No claim for interest rate swaps, whose curve names need a curve called Dummy (C83), nor for KTB futures and bond futures, for which the factory makes no pricer. Real arithmetic"
  },
  {
   "property": "C162",
   "status": "proved",
   "theorems": [
    "Verif.Props.C162_read",
    "Verif.Props.C162_same",
    "Verif.Props.C162_resting",
    "Verif.Props.C162_shape"
   ],
   "note": "The reader is a small specification in Props/Ladder"
  },
  {
   "property": "C163",
   "status": "proved",
   "theorems": [
    "Verif.Props.C163_read",
    "Verif.Props.C163_depth",
    "Verif.Props.fault_depth_hides_the_best"
   ],
   "note": "A depth limits the text to the worst prices, not to the best; proved as it is"
  },
  {
   "property": "C164",
   "status": "proved",
   "theorems": [
    "Verif.Props.C164_display",
    "Verif.Props.C164_joint",
    "Verif.Props.C164_fixed",
    "Verif.Props.display_witness",
    "Verif.Props.fault_display_time_of_day"
   ],
   "note": "Printing is modelled by the list of dates printed; how a date is written by {:?} is not modelled"
  },
  {
   "property": "C165",
   "status": "proved",
   "theorems": [
    "Verif.Props.leg_value",
    "Verif.Props.C165_bond",
    "Verif.Props.C165_order",
    "Verif.Props.C165_two",
    "Verif.Props.C165_monotone",
    "Verif.Props.C165_swap",
    "Verif.Props.fault_order"
   ],
   "note": "The order of the map is any list; discount factors are given numbers here (their own accuracy is C144-C146)"
  },
  {
   "property": "C166",
   "status": "proved",
   "theorems": [
    "Verif.Props.C166_currency",
    "Verif.Props.C166_number",
    "Verif.Props.C166_date",
    "Verif.Props.C166_option",
    "Verif.Props.C166_futures",
    "Verif.Props.C166_fx_futures",
    "Verif.Props.C166_swap_lost",
    "Verif.Props.C166_swap_loads",
    "Verif.Props.saved_witness"
   ],
   "note": "Values of the format, not its text, are modelled (see Saved); schedules, indices, calendars and conventions of swaps are parameters with their own codecs"
  },
  {
   "property": "C167",
   "status": "proved",
   "theorems": [
    "Verif.Props.C167_config",
    "Verif.Props.C167_converter",
    "Verif.Props.saved_cfg_witness",
    "Verif.Props.C167_converter_lost",
    "Verif.Props.C167_holders_lost",
    "Verif.Props.C167_identifier",
    "Verif.Props.fault_isin_unchecked"
   ],
   "note": "As C166"
  },
  {
   "property": "C168",
   "status": "proved",
   "theorems": [
    "Verif.Props.C168_order",
    "Verif.Props.C168_elapsed",
    "Verif.Props.C168_ahead",
    "Verif.Props.C168_all_or_none",
    "Verif.Props.fault_lead"
   ],
   "note": "That the counter of the crate quanta does not run backwards between threads is trusted, as its documentation promises"
  },
  {
   "property": "C169",
   "status": "proved",
   "theorems": [
    "Verif.Props.C169_order",
    "Verif.Props.fault_threads_disagree"
   ],
   "note": "As C168"
  },
  {
   "property": "C170",
   "status": "proved",
   "theorems": [
    "Verif.Props.C170_future",
    "Verif.Props.C170_fx_and_stock",
    "Verif.Props.C170_monotone",
    "Verif.Props.C170_exposure",
    "Verif.Props.C170_fx_exposure",
    "Verif.Props.C170_flat",
    "Verif.Props.fault_not_the_quote",
    "Verif.Props.forward_witness"
   ],
   "note": "Discount factors and dividend ratios are given numbers here (their own accuracy is C144-C146)"
  },
  {
   "property": "C171",
   "status": "proved",
   "theorems": [
    "Verif.Props.C171_book_of_messages",
    "Verif.Props.C171_distinct",
    "Verif.Props.C171_last",
    "Verif.Props.fault_stock_levels"
   ],
   "note": "The client that calls parser and book in a loop is ours; its calls are the modelled functions"
  },
  {
   "property": "C172",
   "status": "proved",
   "theorems": [
    "Verif.Props.C172_empty_levels",
    "Verif.Props.fault_empty_levels"
   ],
   "note": ""
  },
  {
   "property": "C173",
   "status": "proved",
   "theorems": [
    "Verif.Props.C173_stale_levels",
    "Verif.Props.C173_exact_buffer",
    "Verif.Props.C173_roomy_buffer",
    "Verif.Props.fault_roomy_buffer"
   ],
   "note": "Quote interfaces; the buffers of trade messages are filled alike (C101_buffer)"
  },
  {
   "property": "C174",
   "status": "proved",
   "theorems": [
    "Verif.Props.C174_datetime",
    "Verif.Props.C174_order",
    "Verif.Props.C174_generators",
    "Verif.Props.C174_fit",
    "Verif.Props.C174_shown",
    "Verif.Props.C174_timer",
    "Verif.Props.C174_example"
   ],
   "note": ""
  },
  {
   "property": "C175",
   "status": "proved",
   "theorems": [
    "Verif.Props.C175_level",
    "Verif.Props.C175_total",
    "Verif.Props.C175_clear",
    "Verif.Props.C175_constructors",
    "Verif.Props.C175_example"
   ],
   "note": ""
  },
  {
   "property": "C176",
   "status": "proved",
   "theorems": [
    "Verif.Props.C176_no_bids",
    "Verif.Props.C176_bids",
    "Verif.Props.C176_asks",
    "Verif.Props.C176_best",
    "Verif.Props.C176_example"
   ],
   "note": ""
  },
  {
   "property": "C177",
   "status": "proved",
   "theorems": [
    "Verif.Props.C177_futures",
    "Verif.Props.C177_fx_futures",
    "Verif.Props.C177_signs",
    "Verif.Props.forwards_witness"
   ],
   "note": ""
  },
  {
   "property": "C178",
   "status": "proved",
   "theorems": [
    "Verif.Props.C178_futures",
    "Verif.Props.C178_futures_sign",
    "Verif.Props.C178_options_after",
    "Verif.Props.C178_options_sign",
    "Verif.Props.dividends_witness"
   ],
   "note": ""
  },
  {
   "property": "C179",
   "status": "proved",
   "theorems": [
    "Verif.Props.C179_buffers",
    "Verif.Props.C179_level",
    "Verif.Props.C179_full",
    "Verif.Props.fault_foreign_levels"
   ],
   "note": ""
  },
  {
   "property": "C180",
   "status": "proved",
   "theorems": [
    "Verif.Props.C180_line",
    "Verif.Props.C180_lines",
    "Verif.Props.C180_reads",
    "Verif.Props.C180_file",
    "Verif.Props.C180_no_panic",
    "Verif.Props.C180_panic",
    "Verif.Props.sample_line"
   ],
   "note": ""
  },
  {
   "property": "C181",
   "status": "proved",
   "theorems": [
    "Verif.Props.C181_swaps",
    "Verif.Props.C181_irs",
    "Verif.Props.C181_legs",
    "Verif.Props.C181_fx_signs",
    "Verif.Props.swaps_witness"
   ],
   "note": ""
  },
  {
   "property": "C182",
   "status": "proved",
   "theorems": [
    "Verif.Props.C182_coupon",
    "Verif.Props.C182_leg",
    "Verif.Props.C182_rho",
    "Verif.Props.index_witness",
    "Verif.Props.compounding_mild"
   ],
   "note": ""
  },
  {
   "property": "C183",
   "status": "proved",
   "theorems": [
    "Verif.Props.C183_options",
    "Verif.Props.option_rhos_witness"
   ],
   "note": ""
  },
  {
   "property": "C184",
   "status": "proved",
   "theorems": [
    "Verif.Props.C184_notes",
    "Verif.Props.C184_discount",
    "Verif.Props.C184_index",
    "Verif.Props.C184_rho",
    "Verif.Props.note_witness"
   ],
   "note": ""
  },
  {
   "property": "C185",
   "status": "proved",
   "theorems": [
    "Verif.Props.C185_coupon",
    "Verif.Props.C185_worth",
    "Verif.Props.par_witness"
   ],
   "note": ""
  },
  {
   "property": "C186",
   "status": "proved",
   "theorems": [
    "Verif.Props.C186_domain",
    "Verif.Props.C186_each",
    "Verif.Props.C186_compound",
    "Verif.Props.C186_size",
    "Verif.Props.C186_date",
    "Verif.Props.short_witness"
   ],
   "note": ""
  },
  {
   "property": "C187",
   "status": "proved",
   "theorems": [
    "Verif.Props.C187_history",
    "Verif.Props.C187_by_zero",
    "Verif.Props.C187_scale",
    "Verif.Props.C187_add",
    "Verif.Props.C187_set",
    "Verif.Props.C187_no_dividend",
    "Verif.Props.price_ops_witness"
   ],
   "note": ""
  },
  {
   "property": "C188",
   "status": "proved",
   "theorems": [
    "Verif.Props.C188_order",
    "Verif.Props.C188_butterfly",
    "Verif.Props.C188_box",
    "Verif.Props.strikes_witness"
   ],
   "note": ""
  },
  {
   "property": "C189",
   "status": "proved",
   "theorems": [
    "Verif.Props.C189_notional",
    "Verif.Props.sizes_witness"
   ],
   "note": ""
  },
  {
   "property": "C190",
   "status": "proved",
   "theorems": [
    "Verif.Props.C190_order",
    "Verif.Props.order_witness"
   ],
   "note": ""
  },
  {
   "property": "C191",
   "status": "proved",
   "theorems": [
    "Verif.Props.C191_mirror",
    "Verif.Props.mirror_witness"
   ],
   "note": ""
  },
  {
   "property": "C192",
   "status": "proved",
   "theorems": [
    "Verif.Props.C192_order_only",
    "Verif.Props.order_only_witness"
   ],
   "note": ""
  }
 ]
}