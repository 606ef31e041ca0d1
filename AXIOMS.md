# Axioms of the theorems in MANIFEST.json

Written by `#print axioms` on every one of them (namespace `Verif.Props`).

## none

fault_market_sell_debug, fault_market_sell_totals, fault_market_sell_crosses, C30_krx, C78_round_trip, C78_reading, C106_ticker_long, fault_ticker_zero, fault_ticker_not_text, C152_currency, C152_case, C153_case, C164_fixed, fault_threads_disagree, C175_example, C176_example

## propext

C23_wrong_instrument, C44_empty, fault_nyse_good_friday, C107_derivatives, C120_level, C122_silent, C123_gone, fault_nan_sorted, C146_calls, C150_case, C153_balance, C166_currency, saved_cfg_witness, C167_converter_lost, C174_example

## propext, Classical.choice, Quot.sound

C02_totals, C03_best_price, C04_never_crossed, C05_limit_price_time, C06_trade_accounting, C07_no_quantity_lost, C07_dropped, C08_market_buy_partial, C08_market_sell_release, C08_market_sell_debug, C09_market_empty_side, C10_cancel, C11_lookup, C12_quantity_change, C13_reprice, C13_unknown, C14_add_cancel_identity, C15_remove_from_back, C16_change_price, C17_no_panic, C18_sides_independent, C19_update_equals_snapshot, C20_idempotent, C21_decompose, C22_eq_level, C22_equivalence, C23_right_instrument, C24_virtual_ids_unique, C25_parse_under8, C25_total, C26_parse_under16, C26_total, C26_agrees_with_under8, C27_parse_under32, C28_fixed8, C28_fixed16, C28_fixed32, C28_no_point, C29_hhmmss, C29_short_fields, C30_accepts, C30_converter, C30_unsupported, C31_unchecked_agrees_partial, C31_unchecked_with_prefix, fault_stock_price_unchecked, fault_unchecked_point, C32_first, C32_step, C32_stream, C32_monotone, C32_sharp, C33_days_to_date, C33_consecutive, C33_convert, C33_render, C34_exclusive, C34_delivery, C34_progress, C35_unique, C35_unbounded, C38_new, C38_inside, C38_knot, C38_last_knot, C38_refused, C38_flat, C38_linear, C38_between, C38_monotone, C38_vectorised, C40_total, C40_moment, C40_weights, C41_add_period, C41_add_months, C41_add_period_date, C42_sub_months_date, C42_sub_period, C42_sub_period_date, C43_following, C43_preceding, C43_business_day, C43_returns_business_day, C43_modified_following, C43_modified_preceding, C45_error, C45_actual, C45_actual_additive, C45_thirty, C45_street, C45_isda, C45_isda_additive, C46_schedule, C46_tiles, C46_forward_starts, C46_backward_starts, C46_fixing_payment, C46_one_coupon, C46_refused, C46_forward_unadjusted, C47_chain, C47_round_trip, C47_path_independent, C47_move_succeeds, C48_new, C48_update, C48_refused, C49_factor, C49_accepts, C49_unique, C50_inside, C50_outside, C50_grid, C51_rule, C51_instant, C51_add, C51_remove, C51_total, C52_us_rules, C53_good_friday, C54_year_end, C54_chuseok, C54_lunar_new_year, C54_korea, C55_position, C55_additive, C55_nonneg, C56_bump, C56_refused, C57_new, C57_refused, built_ok, C57_between, C57_range, C57_le_one, C57_antitone, C57_flat_curve, C57_vectorised, C57_at_date, C57_dates, C58_quotient, C58_chain, C58_rates, C58_average, C58_dates, C58_short_rate, fault_simple_rate, fault_forward_empty_period, fault_forward_short_period, C59_bump, C59_restore, C59_adjoin, C59_direction, C59_dates, C60_accepts, C60_refused, C60_curve, C61_bond_flows, C61_defined, C61_fixed_amount, C61_accepts, fault_bond_panics, C62_order, C62_npv, C62_result, C62_linear, C63_kind, C63_conventions, fault_fx_from_conventions, C64_fixed, C64_floating, C64_defined, C65_npv, C65_result, C65_exposure, C66_simple, C66_known, C66_future, C66_compounded, C66_tiles, C66_known_compounded, C67_bond, C67_probability, C67_swap, C68_forward, C68_carry, C68_exposure, C68_fx, fault_fx_exposure_overwritten, C69_until_close, C69_after_close, C69_instant, C70_value, C70_par, C70_decreasing, C70_refused, C71_value, C71_decreasing, C71_forwards, fault_krx_31st, C72_value, C72_bounds, C72_parity, C72_vega, C72_strikes, C72_expiry, C72_refused, C73_quanto, C73_zero, fault_quanto_negative, C74_value, C74_grid, C74_bounds, C75_strike, C75_moneyness, C76_cells, C76_undo, C76_adjoining, C76_parallel, fault_constant_window, C77_market, C77_same_grid, C77_refused, C77_constant, C78_pairs, C79_lists, C79_each, C80_selections, C80_split, C80_shortest, C80_longest, C81_currencies, fault_currencies_left_out, C82_borrowing, C82_curves, C82_using, C82_consistent, C83_plan, fault_never_priced, C84_contains, C84_groups, C84_schedule, fault_same_code, C85_accepts, C85_load, C85_start, C86_rate, C86_consistent, C87_npv, C87_exposure, C88_delta, C88_succeeds, C89_rho, C89_succeeds, C90_vega, C90_succeeds, C91_div_delta, C91_succeeds, fault_div_delta_past, C92_theta, C92_succeeds, C93_vega_structure, C93_adds_up, C93_succeeds, C94_rho_structure, C94_succeeds, C95_div_structure, C95_succeeds, C96_vega_matrix, C96_restored, C96_adds_up, C96_succeeds, fault_matrix_lowered, C97_calculate, C97_restored, C97_new_engine, C97_succeeds, C97_needs_npv, fault_second_calculation, C98_convert, C98_chain, C99_derivative_quote, C99_buffer, C99_first_time, C100_stock_quote, C100_buffer, fault_stock_price, C101_trade_quote, C101_buffer, fault_stale_converter, C102_trade_buffer, C102_trade_new, fault_trade_price, C103_quote_buffer, C103_quote_exact, C103_trade_quote_buffer, C103_trade_buffer, C104_quote_accept, C104_trade_quote_accept, C104_trade_accept, fault_short_packet, fault_not_text, C105_quote, C105_quote_buffer, C105_trade_quote, C105_trade, C105_text, C106_interned, C106_again, C106_default, C106_symbol, C106_text, C108_signed, C108_unsigned, C108_plain, C108_krx, C108_order, C108_outside_debug, C108_negative_release, C108_trade_price, C109_of_quote, C109_of_quote_short, C109_of_trade_quote, C109_update_trade_quote, C109_update_quote, C109_update_is_new, C109_update_is_new_trade, C109_capacity, C109_message, C109_buffer, C110_vwap, C110_within, C110_exists, C110_one_sided, C111_best, C111_none, C111_mid, C111_between, C112_refused, C112_short, C112_imbalance, C112_antisymmetric, C112_telescopes, C113_ln, C113_antisymmetric, C113_bid_infinite, C113_ask_infinite, C114_average, C114_two, C114_within, C114_forgets, C114_first, C114_not_interval, C114_backwards, C115_sum, C115_bounded, C115_not_interval, C116_average, C116_within, C116_history, C116_limit, C116_overflow, C124_yield_exists, C124_discounted_value, C124_at_zero, C124_objective, C124_downhill, C124_slope, C124_search, C125_accepts, C125_value, C125_determined, C125_direction, C125_empty, C126_written, C126_formatted, C126_read_back, C126_same_text, C126_special, fault_negative_zero, C127_value, C127_append, C127_elapsed, C127_invalid, fault_twelve_months, C128_sorted, C128_neighbours, C129_date_number, C130_duration, fault_duration, C131_when, C131_covariance, C131_sample, C131_causal, C132_ordered, C132_walk, C133_add, C133_sub, C133_round_trip, C133_compare, fault_month_round_trip, C134_nearest, C134_order, C134_distinct, C134_error, C134_norm_order, C134_norm_error, fault_price_collapse, C135_between, C135_nearest, C135_order, C135_levels, C136_nearest, C136_within, C136_empty, C137_order, C137_whole, C137_error, C138_history, C138_within, fault_ewma_equal, C139_accuracy, C139_defined, C139_within, fault_vwap_one_level, C140_nearest, C140_order, C140_errors, C140_isda, C140_isda_order, C141_accuracy, C141_order, C141_zero, C141_not_strict, C142_knots, C143_knot, C143_segment, C143_accuracy, C143_linear, C143_vectorised, C143_overshoot, C144_today, C144_where, C144_bounds, C144_falls, C144_accuracy, C144_flat, C144_cached, C144_refused, C144_dates, C144_between, C145_no_drift, C145_runs, C145_near, C145_volatility, C145_surface, C145_dividends, C145_dividends_refused, C145_moves, C145_volatility_moves, C146_new, C146_default, C146_stays, C146_unchecked, C146_unused, C147_slope, C147_monotone, C147_sign, C147_zero_bump, C147_tiny_ratio, C147_delta, C147_delta_zero, C147_prices, C147_own, C147_true_prices, C147_case, C148_bend_sign, C148_gamma, C148_lost, C148_theta_monotone, C148_theta, C148_theta_no_days, C149_exact, C149_cut, C149_any, C149_case, C151_only, C151_pairs, C151_underlyings, C151_terms, C151_portfolio, C151_empty, C151_case, C152_directory, C154_quote_refused, C154_trade_quote_refused, C154_trade_refused, C154_quote_atomic, C154_trade_quote_atomic, C154_trade_atomic, C154_quote_stream, C154_trade_quote_stream, C154_trade_stream, C154_quote_after_anything, C154_torn, C155_left, C155_agrees, C155_values_only, C155_delta_stays, C155_bump_stays, C155_date_stays, C155_next_engine, C156_parity, twin_witness, C157_shortcut, linear_witness, C158_vega, C158_delta, signs_witness, C159_rho, C159_sum, bonds_witness, C160_company, plan_sees, company_witness, C161_worth, worth_witness, C162_read, C162_same, C162_resting, C162_shape, C163_read, C163_depth, fault_depth_hides_the_best, C164_display, C164_joint, display_witness, fault_display_time_of_day, leg_value, C165_bond, C165_order, C165_two, C165_monotone, C165_swap, fault_order, C166_number, C166_date, C166_option, C166_futures, C166_fx_futures, C166_swap_lost, C166_swap_loads, saved_witness, C167_config, C167_converter, C167_holders_lost, C167_identifier, fault_isin_unchecked, C168_elapsed, C170_future, C170_fx_and_stock, C170_monotone, C170_exposure, C170_fx_exposure, C170_flat, fault_not_the_quote, forward_witness, C171_book_of_messages, C171_last, fault_stock_levels, C172_empty_levels, fault_empty_levels, C173_stale_levels, C173_exact_buffer, C173_roomy_buffer, fault_roomy_buffer, C174_datetime, C174_order, C174_generators, C174_fit, C174_shown, C174_timer, C177_futures, C177_fx_futures, C177_signs, forwards_witness, C178_futures, C178_futures_sign, C178_options_after, C178_options_sign, dividends_witness, C179_buffers, C179_level, C179_full, fault_foreign_levels, C180_line, C180_lines, C180_reads, C180_file, C180_no_panic, C180_panic, sample_line, C181_swaps, C181_irs, C181_legs, C181_fx_signs, swaps_witness, C182_coupon, C182_leg, C182_rho, index_witness, compounding_mild, C183_options, option_rhos_witness, C184_notes, C184_discount, C184_index, C184_rho, note_witness, C185_coupon, C185_worth, par_witness, C186_domain, C186_each, C186_compound, C186_size, C186_date, short_witness, C187_history, C187_by_zero, C187_scale, C187_add, price_ops_witness, C188_order, C188_butterfly, C188_box, strikes_witness, C189_notional, sizes_witness, C190_order, order_witness, C191_mirror, mirror_witness, C192_order_only, order_only_witness

## propext, Quot.sound

C01_level_trade_is_fifo, C27_short_slice, C32_short_field, C32_generator_day, C32_diff, C32_diff_negative, C33_components, C34_worker_id, C34_new, C34_fresh_get, C35_result, C35_handed_out, C35_next_id, C36_sorted, C36_bracket, C36_bracket_unique, C36_empty, C36_incomparable, C37_vectorised, C37_brackets, C39_new, C39_inside, C39_outside, C39_vectorised, C39_agrees, C40_refused, C41_no_match, C42_correct, C42_wrong, C43_unadjusted, C44_joint, C49_lower_only, C78_pair_reading, C78_pairs_of, C79_firsts, C102_always_wrong, C103_small_buffer, C104_cut, C106_isin, C106_ticker, C107_unique, C107_lookup, C117_prefix, C117_held, C118_complete, C118_one_file, C118_finalize, C118_no_file, C119_files, C120_call, C121_written, C121_flushing_not_on_disk, C121_bytes_not_bounded, C122_console, C122_end_not_shown, C123_dies, C123_lost, C150_value, C150_same, C150_once, C150_exclusive, C150_progress, C153_codes, C153_empty, C153_empty_any, C154_quote_behind, C154_trade_quote_behind, C168_order, C168_ahead, C168_all_or_none, fault_lead, C169_order, C171_distinct, C175_level, C175_total, C175_clear, C175_constructors, C176_no_bids, C176_bids, C176_asks, C176_best, C187_set, C187_no_dividend
