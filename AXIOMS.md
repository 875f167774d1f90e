# Axioms per theorem

Generated by `scripts/axioms.py` from `#print axioms`.

| theorem | axioms |
|---|---|
| `C01_unpack_of_pack` | propext, Quot.sound |
| `C01_pack_of_unpack` | propext, Classical.choice, Quot.sound |
| `C01_pack_missing_raises` | propext, Quot.sound |
| `C01_packs_iff` | propext, Classical.choice, Quot.sound |
| `C02_element_address` | propext, Quot.sound |
| `C02_address_bijective` | propext, Quot.sound |
| `C02_ragged_roundtrip` | propext, Classical.choice, Quot.sound |
| `C03_return_mask` | propext, Classical.choice, Quot.sound |
| `C03_return_mask_selects` | propext, Classical.choice, Quot.sound |
| `C03_flat_mask` | propext, Classical.choice, Quot.sound |
| `C03_flat_mask_unknown` | propext, Quot.sound |
| `C04_short_rejected_partial` | propext, Classical.choice, Quot.sound |
| `C04_accepted_iff` | propext, Classical.choice, Quot.sound |
| `C04_too_long_accepted` | propext, Classical.choice, Quot.sound |
| `C05_position_denotes` | propext, Classical.choice, Quot.sound |
| `C05_names_in_order_partial` | propext, Classical.choice, Quot.sound |
| `C05_collision_misaligns` | propext, Classical.choice, Quot.sound |
| `C05_packed_index` | propext, Classical.choice, Quot.sound |
| `C06_no_merge_partial` | propext, Classical.choice, Quot.sound |
| `C06_collisions` | propext, Classical.choice, Quot.sound |
| `C06_repeated_dim_loses_scalars` | propext, Classical.choice, Quot.sound |
| `C07_flat_round_trip` | propext, Classical.choice, Quot.sound |
| `C07_keyword_round_trip` | propext, Quot.sound |
| `C07_keyword_round_trip_eq` | propext, Quot.sound |
| `C07_hessp_flat_round_trip_partial` | propext, Classical.choice, Quot.sound |
| `C07_hessp_keyword_round_trip_partial` | propext, Classical.choice, Quot.sound |
| `C07_point_name_clash` | propext, Classical.choice, Quot.sound |
| `C08_every_call_raises` | propext, Quot.sound |
| `C08_unknown_names_rejected_partial` | propext, Quot.sound |
| `C08_mask_keeps_fixed` | propext |
| `C08_selection` | propext, Quot.sound |
| `C09_rows_preserved_partial` | propext, Classical.choice, Quot.sound |
| `C09_empty_dim_raises` | propext, Classical.choice, Quot.sound |
| `C10_scenario_exact_partial` | propext, Classical.choice, Quot.sound |
| `C10_order_irrelevant_partial` | propext, Classical.choice, Quot.sound |
| `C10_shared_array_changes_both` | propext, Classical.choice, Quot.sound |
| `C10_caller_data_unmodified` | propext, Classical.choice, Quot.sound |
| `C11_ambiguous_or_empty_rejected` | propext, Classical.choice, Quot.sound |
| `C11_clear_scenario_accepted` | propext, Classical.choice, Quot.sound |
| `C11_accepted_iff` | propext, Classical.choice, Quot.sound |
| `C12_unknown_delta_rejected_partial` | propext, Classical.choice, Quot.sound |
| `C12_unknown_final_value_ignored` | propext, Quot.sound |
| `C13_validation_exact` | propext, Classical.choice, Quot.sound |
| `C13_simulate_rejects_partial` | propext, Classical.choice, Quot.sound |
| `C13_simulate_accepts` | propext, Classical.choice, Quot.sound |
| `C13_cache_skips_validation` | propext, Classical.choice, Quot.sound |
| `C14_helper_resolution_partial` | propext |
| `C14_never_both` | propext, Classical.choice, Quot.sound |
| `C14_explicit_hess_ignored` | propext, Classical.choice, Quot.sound |
| `C14_method_default_ignored` | propext, Classical.choice, Quot.sound |
| `C15_save_preserves` | propext, Classical.choice, Quot.sound |
| `C15_history` | propext, Classical.choice, Quot.sound |
| `C16_read_latest_partial` | propext, Classical.choice, Quot.sound |
| `C16_overwrite_then_read_stale` | propext, Classical.choice, Quot.sound |
| `C16_delete_then_read_stale` | propext, Classical.choice, Quot.sound |
| `C16_clashing_names` | propext, Classical.choice, Quot.sound |
| `C17_write_same` | propext, Classical.choice, Quot.sound |
| `C17_read_same_partial` | propext, Classical.choice, Quot.sound |
| `C17_read_differs` | propext, Classical.choice, Quot.sound |
| `C17_name_ending_in_pkl_unreadable` | propext, Classical.choice, Quot.sound |
| `C17_default_name` | propext, Classical.choice, Quot.sound |
| `C18_no_cached_file_partial` | propext, Classical.choice, Quot.sound |
| `C18_distinct_names_partial` | propext, Classical.choice, Quot.sound |
| `C18_same_name_returns_old_result` | propext, Classical.choice, Quot.sound |
| `C18_default_name_ignores_scenario` | propext, Classical.choice, Quot.sound |
| `C18_runs_requested_scenario_partial` | propext, Classical.choice, Quot.sound |
| `C18_default_name_options` | propext, Classical.choice, Quot.sound |
| `C19_parameter_path` | propext, Classical.choice, Quot.sound |
| `C19_arrives` | propext, Classical.choice, Quot.sound |
| `C19_between` | propext, Classical.choice, Quot.sound |
| `C20_total_differential` | propext, Classical.choice, Quot.sound |
| `C20_fails_only_if_singular` | propext, Classical.choice, Quot.sound |
| `C20_zero_shock` | propext, Classical.choice, Quot.sound |
| `C20_zero_shock_runs` | propext, Classical.choice, Quot.sound |
| `C21_trajectory_in_equilibrium` | propext, Classical.choice, Quot.sound |
| `C21_runs` | propext, Classical.choice, Quot.sound |
| `C21_end_point` | propext, Classical.choice, Quot.sound |
| `C21_end_point_independent` | propext, Classical.choice, Quot.sound |
| `C21_rk4_same_trajectory` | propext, Classical.choice, Quot.sound |
| `C22_error_bound` | propext, Classical.choice, Quot.sound |
| `C22_converges` | propext, Classical.choice, Quot.sound |
| `C22_smooth_model` | propext, Classical.choice, Quot.sound |
| `C23_same_arrays_partial` | propext, Classical.choice, Quot.sound |
| `C23_same_states_partial` | propext, Classical.choice, Quot.sound |
| `C23_rows_differ` | propext, Classical.choice, Quot.sound |
| `C23_keyword_clash` | propext, Classical.choice, Quot.sound |
| `C24_last_finite_row_partial` | propext, Classical.choice, Quot.sound |
| `C24_warning_iff_nan_partial` | propext, Classical.choice, Quot.sound |
| `C24_numba_always_warns` | propext, Classical.choice, Quot.sound |
| `C24_numba_misses_last_nan` | propext, Classical.choice, Quot.sound |
| `C24_gap_breaks_handoff` | propext |
| `C25_residual_never_worse` | propext, Quot.sound |
| `C25_flag_sticky` | propext, Quot.sound |
| `C25_flag_honest` | propext, Quot.sound |
| `C25_step_count` | propext, Classical.choice, Quot.sound |
| `C25_monotone` | propext, Classical.choice, Quot.sound |
| `C26_accept_or_halve` | propext, Quot.sound |
| `C26_step_is_halved_start` | propext, Quot.sound |
| `C26_power_of_two` | propext, Classical.choice, Quot.sound |
| `C26_affine_one_step` | propext, Classical.choice, Quot.sound |
| `C27_names_unique` | propext, Quot.sound |
| `C27_order_stable` | propext, Quot.sound |
| `C27_add_variables_effect` | propext, Quot.sound |
| `C27_add_parameters_effect` | propext, Quot.sound |
| `C27_clash_raises` | propext |
| `C27_overwrite_in_place` | propext, Quot.sound |
| `C27_single_argument_raises` | propext, Classical.choice, Quot.sound |
| `C28_not_atomic` | propext, Classical.choice, Quot.sound |
| `C28_failure_adds_prefix_partial` | propext, Classical.choice, Quot.sound |
| `C28_single_atomic_partial` | propext, Classical.choice, Quot.sound |
| `C29_get_symbol_all` | propext, Quot.sound |
| `C29_get_shape` | propext, Quot.sound |
| `C29_shared_name_disagrees` | propext, Classical.choice, Quot.sound |
| `C29_routes_agree_partial` | propext, Quot.sound |
| `C29_symbol_routes_partial` | propext, Quot.sound |
| `C29_get_list` | propext, Classical.choice, Quot.sound |
| `C29_unknown_raises` | propext, Quot.sound |
| `C29_get_all` | propext, Classical.choice, Quot.sound |
| `C30_square_partial` | propext, Classical.choice, Quot.sound |
| `C30_numeraire_never_square` | propext, Classical.choice, Quot.sound |
| `C30_merged_names_not_square` | propext, Classical.choice, Quot.sound |
| `C30_not_square_after_add` | propext, Classical.choice, Quot.sound |
| `C30_refused` | propext, Classical.choice, Quot.sound |
| `C31_numeraire_stays_unpacked` | propext, Classical.choice, Quot.sound |
| `C31_removed_from_variables_partial` | propext, Classical.choice, Quot.sound |
| `C31_unknown_raises` | propext, Classical.choice, Quot.sound |
| `C31_unknown_value_error` | propext, Classical.choice, Quot.sound |
| `C32_value_is_difference` | propext, Classical.choice, Quot.sound |
| `C32_no_spaces` | propext, Classical.choice, Quot.sound |
| `C32_no_equals_unchanged` | propext, Classical.choice, Quot.sound |
| `C32_axis_name_not_normalised` | propext, Classical.choice, Quot.sound |
| `C32_keyword_split_wrongly` | propext, Classical.choice, Quot.sound |
| `C32_spaced_axis_split_wrongly` | propext, Classical.choice, Quot.sound |
| `C32_ravel_whole_expression` | propext, Classical.choice, Quot.sound |
| `C33_names_match_residuals_partial` | propext, Classical.choice, Quot.sound |
| `C33_distinct_names_kept_partial` | propext, Classical.choice, Quot.sound |
| `C33_permuted_markers_mislabel` | propext, Classical.choice, Quot.sound |
| `C33_marker_count_mislabels` | propext, Classical.choice, Quot.sound |
| `C33_sympy_names_match_bodies` | propext, Classical.choice, Quot.sound |
| `C33_sympy_unmarked_equations_dropped` | propext, Classical.choice, Quot.sound |
| `C34_equation_forgets_labels` | propext, Classical.choice, Quot.sound |
| `C34_expand_row_major` | propext, Classical.choice, Quot.sound |
| `C34_errors` | propext, Quot.sound |
| `C34_ignore_partial` | propext, Classical.choice, Quot.sound |
| `C34_ignore_loses_order` | propext, Classical.choice, Quot.sound |
| `C34_repeated_dim_not_distinct` | propext, Classical.choice, Quot.sound |
| `C35_expansion_partial` | propext, Classical.choice, Quot.sound |
| `C35_ranges_over_all_labels` | propext, Classical.choice, Quot.sound |
| `C35_nested_counterexample` | propext, Classical.choice, Quot.sound |
| `C35_numeral_labels_counterexample` | propext, Classical.choice, Quot.sound |
| `C35_product_of_sum_raises` | propext, Classical.choice, Quot.sound |
| `C36_sparse_is_derivative` | propext, Classical.choice, Quot.sound |
| `C36_dense_is_derivative` | propext, Classical.choice, Quot.sound |
| `C36_sparse_eq_dense` | propext, Classical.choice, Quot.sound |
| `C36_positions` | propext, Classical.choice, Quot.sound |
| `C36_matrix_argument` | propext, Classical.choice, Quot.sound |
| `C37_objective` | propext, Classical.choice, Quot.sound |
| `C37_gradient` | propext, Classical.choice, Quot.sound |
| `C37_gradient_zero_at_equilibrium` | propext, Classical.choice, Quot.sound |
| `C37_stationary_is_equilibrium` | propext, Classical.choice, Quot.sound |
| `C37_hessian` | propext, Classical.choice, Quot.sound |
| `C37_hessp` | propext, Classical.choice, Quot.sound |
| `C37_hessian_psd_at_equilibrium` | propext, Classical.choice, Quot.sound |
| `C38_values_partial` | propext, Classical.choice, Quot.sound |
| `C38_constant_counterexample` | propext, Classical.choice, Quot.sound |
| `C38_no_root_counterexample` | propext, Classical.choice, Quot.sound |
| `C38_overdetermined_counterexample` | propext, Classical.choice, Quot.sound |
| `C39_complete_partial` | propext, Classical.choice, Quot.sound |
| `C39_otherwise_raises` | propext, Classical.choice, Quot.sound |
| `C39_early_break_counterexample` | propext, Classical.choice, Quot.sound |
| `C40_ces_numbers` | propext, Classical.choice, Quot.sound |
| `C40_cobb_douglass_numbers` | propext, Classical.choice, Quot.sound |
| `C40_cobb_douglass` | propext, Classical.choice, Quot.sound |
| `C40_ces` | propext, Classical.choice, Quot.sound |
| `C40_value_definition` | propext, Classical.choice, Quot.sound |
| `C40_single_share` | propext, Classical.choice, Quot.sound |
| `C40_leontief` | propext, Classical.choice, Quot.sound |
| `C40_leontief_share_not_parenthesised` | propext, Classical.choice, Quot.sound |
| `C41_ces` | propext, Classical.choice, Quot.sound |
| `C41_cobb_douglass_partial` | propext, Classical.choice, Quot.sound |
| `C41_cobb_douglass_counterexample` | propext, Classical.choice, Quot.sound |
| `C41_leontief` | propext, Classical.choice, Quot.sound |
| `C42_omit_shares` | propext, Classical.choice, Quot.sound |
| `C42_omit_TFP_first_equation_partial` | propext, Classical.choice, Quot.sound |
| `C42_omit_TFP_demand_inverted` | propext, Classical.choice, Quot.sound |
| `C42_omit_TFP_counterexample` | propext, Classical.choice, Quot.sound |
| `C43_cobb_douglass_ces_reject` | propext, Classical.choice, Quot.sound |
| `C43_leontief_rejects` | propext, Classical.choice, Quot.sound |
| `C43_leontief_factor_count` | propext, Classical.choice, Quot.sound |
| `C43_one_demand_per_factor_partial` | propext, Classical.choice, Quot.sound |
| `C43_string_factor_counterexample` | propext, Classical.choice, Quot.sound |
| `C43_dixit_stiglitz` | propext, Classical.choice, Quot.sound |
| `C44_shares_list_extended` | propext, Classical.choice, Quot.sound |
| `C44_later_call_raises` | propext, Classical.choice, Quot.sound |
| `C44_unchanged_partial` | propext, Classical.choice, Quot.sound |
| `C44_second_call_same_equations` | propext, Classical.choice, Quot.sound |
| `C45_refuses_before_fit` | propext, Quot.sound |
| `C45_round_trip_partial` | propext, Classical.choice, Quot.sound |
| `C45_diagonal_counterexample` | propext, Classical.choice, Quot.sound |
| `C45_mirror_counterexample` | propext, Classical.choice, Quot.sound |
| `C45_missing_label_refused` | propext, Classical.choice, Quot.sound |
| `C46_nonnegative_partial` | propext, Classical.choice, Quot.sound |
| `C46_mirrored_counterexample` | propext, Classical.choice, Quot.sound |
| `C47_transform_partial` | propext, Classical.choice, Quot.sound |
| `C47_inverse_partial` | propext, Classical.choice, Quot.sound |
| `C47_counterexample` | propext, Classical.choice, Quot.sound |
| `C48_cvxpy_vector_matrix` | propext, Classical.choice, Quot.sound |
| `C48_scipy_vector_matrix` | propext, Classical.choice, Quot.sound |
| `C48_balanced_partial` | propext, Classical.choice, Quot.sound |
| `C48_mirrored_counterexample` | propext, Classical.choice, Quot.sound |
| `C48_order_counterexample` | propext, Classical.choice, Quot.sound |
| `C49_columns` | propext, Quot.sound |
| `C49_names_partial` | propext, Classical.choice, Quot.sound |
| `C49_three_levels_partial` | propext, Classical.choice, Quot.sound |
| `C49_two_levels_partial` | propext, Classical.choice, Quot.sound |
| `C49_chain_counterexample` | propext, Classical.choice, Quot.sound |
| `C49_wide_counterexample` | propext, Classical.choice, Quot.sound |
| `C49_deep_counterexample` | propext, Classical.choice, Quot.sound |
| `C49_rows` | propext, Classical.choice, Quot.sound |
| `C50_grid` | propext, Classical.choice, Quot.sound |
| `C51_euler_partial` | propext, Classical.choice, Quot.sound |
| `C51_too_few_raises` | propext, Classical.choice, Quot.sound |
| `C51_optimizer_partial` | propext, Classical.choice, Quot.sound |
| `C51_step_dim_counterexample` | propext, Classical.choice, Quot.sound |
| `C51_name_clash_counterexample` | propext, Classical.choice, Quot.sound |
| `C52_default_literal` | propext, Classical.choice, Quot.sound |
| `C52_default_backend_partial` | propext, Classical.choice, Quot.sound |
| `C52_spelling_counterexample` | propext, Classical.choice, Quot.sound |
| `C52_longer_name_counterexample` | propext, Classical.choice, Quot.sound |
| `C52_parsed_as_needed` | propext, Classical.choice, Quot.sound |
| `C52_compiles_requested` | propext, Classical.choice, Quot.sound |
| `C52_all_and_none` | propext, Classical.choice, Quot.sound |
| `C52_list_all_counterexample` | propext, Classical.choice, Quot.sound |
| `C52_scan_raises` | propext, Classical.choice, Quot.sound |
| `C53_success_iff` | propext, Classical.choice, Quot.sound |
| `C53_listed_iff` | propext, Classical.choice, Quot.sound |
| `C53_success_bounds` | propext, Classical.choice, Quot.sound |
| `C53_optimizer_result` | propext, Classical.choice, Quot.sound |
| `C53_wrong_names_refused` | propext, Classical.choice, Quot.sound |
| `C54_list_tuple` | none |
| `C54_dims_partial` | propext, Classical.choice, Quot.sound |
| `C54_empty_counterexample` | propext, Classical.choice, Quot.sound |
| `C54_blank_counterexample` | propext, Classical.choice, Quot.sound |
| `C54_subscript_tokens` | propext, Classical.choice, Quot.sound |
| `C54_snake_clean` | propext, Classical.choice, Quot.sound |
| `C54_snake_fixed` | propext, Classical.choice, Quot.sound |
| `C54_snake_idempotent` | propext, Classical.choice, Quot.sound |
| `C54_snake_of_bracketed` | propext, Classical.choice, Quot.sound |
| `C55_binding` | propext, Classical.choice, Quot.sound |
| `C55_binding_one` | propext, Classical.choice, Quot.sound |
| `C55_length_checked` | propext, Classical.choice, Quot.sound |
| `C55_input_name_counterexample` | propext, Classical.choice, Quot.sound |
| `C55_endog_name_counterexample` | propext, Classical.choice, Quot.sound |
| `C55_tokens_exist` | propext, Quot.sound |
| `C55_cleanup` | propext, Classical.choice, Quot.sound |
| `C55_two_index_counterexample` | propext, Classical.choice, Quot.sound |
| `C55_nested_index_counterexample` | propext, Classical.choice, Quot.sound |
| `C56_rk4_partial` | propext, Classical.choice, Quot.sound |
| `C56_numba_counterexample` | propext, Classical.choice, Quot.sound |
| `C57_fourth_order` | propext, Classical.choice, Quot.sound |
| `C58_root_solution_returned_partial` | propext, Classical.choice, Quot.sound |
| `C58_minimize_solution_returned_partial` | propext, Classical.choice, Quot.sound |
| `C58_unknown_method_rejected` | propext, Classical.choice, Quot.sound |
| `C58_fixed_values_never_read` | propext, Classical.choice, Quot.sound |
| `C58_fixed_address` | propext, Classical.choice, Quot.sound |
| `C58_all_fixed_raises` | propext, Classical.choice, Quot.sound |
| `C58_fixed_wrong_variable` | propext, Classical.choice, Quot.sound |
| `C58_euler_returned` | propext, Classical.choice, Quot.sound |
| `C58_uncompiled_rejected` | propext, Classical.choice, Quot.sound |
| `C58_no_hessian_without_gradient` | propext, Classical.choice, Quot.sound |
| `C59_collects_exactly` | propext, Classical.choice, Quot.sound |
| `C59_silent_is_ready_partial` | propext, Classical.choice, Quot.sound |
| `C59_initialize_parameter` | propext, Quot.sound |
| `C59_series_in_order_partial` | propext, Quot.sound |
| `C59_frame_in_order_partial` | propext, Quot.sound |
| `C59_index_never_read` | propext, Classical.choice, Quot.sound |
| `C59_reordered_series_misassigned` | propext, Classical.choice, Quot.sound |
| `C59_wrong_shape_returned` | propext, Classical.choice, Quot.sound |
| `C60_pytensor_jacobian` | propext, Classical.choice, Quot.sound |
| `C60_backends_agree` | propext, Classical.choice, Quot.sound |
| `C60_pytensor_gradient` | propext, Classical.choice, Quot.sound |
| `C60_objective_gradient` | propext, Classical.choice, Quot.sound |
| `C60_hessp_routes_agree` | propext, Classical.choice, Quot.sound |
| `C61_refusals` | propext, Classical.choice, Quot.sound |
| `C61_together_partial` | propext, Classical.choice, Quot.sound |
| `C61_together_scalars_partial` | propext, Classical.choice, Quot.sound |
| `C61_together_scalar_groups` | propext, Classical.choice, Quot.sound |
| `C61_together_iff` | propext, Classical.choice, Quot.sound |
| `C61_panels_partial` | propext, Classical.choice, Quot.sound |
| `C61_pct_not_above_threshold` | propext, Classical.choice, Quot.sound |
| `C61_groups` | propext, Classical.choice, Quot.sound |
| `C61_group_weighted_average` | propext, Classical.choice, Quot.sound |
| `C61_pct_reads_back` | propext, Classical.choice, Quot.sound |
| `C61_after_optimizer_partial` | propext, Classical.choice, Quot.sound |
| `C61_scalar_raises` | propext, Classical.choice, Quot.sound |
| `C61_negative_initial_counterexample` | propext, Classical.choice, Quot.sound |
| `C62_refusals` | propext, Classical.choice, Quot.sound |
| `C62_lengths_refused` | propext, Classical.choice, Quot.sound |
| `C62_one_dim_partial` | propext, Classical.choice, Quot.sound |
| `C62_several_variables_unlabelled` | propext, Classical.choice, Quot.sound |
| `C62_two_dims_counterexample` | propext, Classical.choice, Quot.sound |
| `C62_string_is_split` | propext, Classical.choice, Quot.sound |
| `C64_total_differential` | propext, Classical.choice, Quot.sound |
| `C64_clash_counterexample` | propext, Classical.choice, Quot.sound |
| `C64_np_counterexample` | propext, Classical.choice, Quot.sound |
| `C63_reports` | propext, Classical.choice, Quot.sound |
| `C63_success_partial` | propext, Classical.choice, Quot.sound |
| `C63_solved_success_partial` | propext, Classical.choice, Quot.sound |
| `C63_refusals` | propext, Classical.choice, Quot.sound |
| `C63_no_root_flagged` | propext, Classical.choice, Quot.sound |
| `C63_small_scale_counterexample` | propext, Classical.choice, Quot.sound |
| `C63_refusal_kinds` | propext, Classical.choice, Quot.sound |
| `C65_keywords` | propext, Classical.choice, Quot.sound |
| `C65_incomplete_marker` | propext, Classical.choice, Quot.sound |
| `C65_descriptions` | propext, Classical.choice, Quot.sound |
| `C65_table_partial` | propext, Classical.choice, Quot.sound |
| `C65_unknown_raises` | propext, Classical.choice, Quot.sound |
| `C65_same_name_counterexample` | propext, Classical.choice, Quot.sound |
| `C65_dims_counterexample` | propext, Classical.choice, Quot.sound |
| `C66_numba_converges` | propext, Classical.choice, Quot.sound |
| `C67_cvxpy_partial` | propext, Classical.choice, Quot.sound |
| `C67_scipy_partial` | propext, Classical.choice, Quot.sound |
| `C67_negative_counterexample` | propext, Classical.choice, Quot.sound |
| `C67_solvable` | propext, Classical.choice, Quot.sound |
| `C68_unique` | propext, Classical.choice, Quot.sound |
| `C68_exists` | propext, Classical.choice, Quot.sound |
| `C69_numba_partial` | propext, Classical.choice, Quot.sound |
| `C69_numba_first_dim` | propext, Classical.choice, Quot.sound |
| `C69_pytensor_partial` | propext, Classical.choice, Quot.sound |
| `C69_backends_agree` | propext, Classical.choice, Quot.sound |
| `C69_default_counterexample` | propext, Classical.choice, Quot.sound |
| `C69_output_price_counterexample` | propext, Classical.choice, Quot.sound |
| `C69_input_price_counterexample` | propext, Classical.choice, Quot.sound |
| `C69_bad_dims` | propext, Classical.choice, Quot.sound |
| `C70_compiles_iff` | propext, Classical.choice, Quot.sound |
| `C70_keywords` | propext, Classical.choice, Quot.sound |
| `C70_duplicate_inputs` | propext, Classical.choice, Quot.sound |
| `C70_system` | propext, Classical.choice, Quot.sound |
| `C70_jacobian` | propext, Classical.choice, Quot.sound |
| `C70_objective` | propext, Classical.choice, Quot.sound |
| `C70_gradient` | propext, Classical.choice, Quot.sound |
| `C70_hessian` | propext, Classical.choice, Quot.sound |
| `C70_agrees_with_numba` | propext, Classical.choice, Quot.sound |
| `C70_shared_name_counterexample` | propext, Classical.choice, Quot.sound |
| `C71_scalar_equations_partial` | propext, Classical.choice, Quot.sound |
| `C71_residuals_partial` | propext, Classical.choice, Quot.sound |
| `C71_numeraire_singular` | propext, Classical.choice, Quot.sound |
| `C71_numeraire_under_sum_counterexample` | propext, Classical.choice, Quot.sound |
| `C71_numeraire_other_index_counterexample` | propext, Classical.choice, Quot.sound |
| `C71_reduction_refused` | propext, Classical.choice, Quot.sound |
| `C72_euler_arrays` | propext, Classical.choice, Quot.sound |
| `C72_unknown_mode` | propext, Classical.choice, Quot.sound |
| `C72_report_partial` | propext, Classical.choice, Quot.sound |
| `C72_root_partial` | propext, Classical.choice, Quot.sound |
| `C72_minimize_partial` | propext, Classical.choice, Quot.sound |
| `C72_minimize_counterexample` | propext, Classical.choice, Quot.sound |
| `C73_path_kept` | propext, Classical.choice, Quot.sound |
| `C73_imbalance_approached` | propext, Classical.choice, Quot.sound |
| `C73_never_restored` | propext, Classical.choice, Quot.sound |
| `C73_not_checked` | propext, Classical.choice, Quot.sound |
| `C73_imbalance_kept` | propext, Classical.choice, Quot.sound |
| `C73_equilibrium_iff_partial` | propext, Classical.choice, Quot.sound |
| `C73_check_counterexample` | propext, Classical.choice, Quot.sound |
| `C74_simulate_converges` | propext, Classical.choice, Quot.sound |
| `C75_backends_agree_partial` | propext, Classical.choice, Quot.sound |
| `C75_wrong_length` | propext, Classical.choice, Quot.sound |
| `C75_numeraire_refused` | propext, Classical.choice, Quot.sound |
| `C75_hessp_refused` | propext, Classical.choice, Quot.sound |
| `C75_np_counterexample` | propext, Classical.choice, Quot.sound |
| `C75_unused_counterexample` | propext, Classical.choice, Quot.sound |
| `C75_undeclared` | propext, Classical.choice, Quot.sound |
| `C75_root_partial` | propext, Classical.choice, Quot.sound |
| `C75_minimize_partial` | propext, Classical.choice, Quot.sound |
| `C75_euler_converges` | propext, Classical.choice, Quot.sound |
| `C76_static` | propext, Classical.choice, Quot.sound |
| `C76_calls` | propext, Classical.choice, Quot.sound |
| `C76_missing_entry` | propext, Classical.choice, Quot.sound |
| `C76_array_residuals_partial` | propext, Classical.choice, Quot.sound |
| `C76_inputs` | propext, Classical.choice, Quot.sound |
| `C76_methods` | propext, Classical.choice, Quot.sound |
| `C76_axes` | propext, Classical.choice, Quot.sound |
| `C76_shapes_refused` | propext, Classical.choice, Quot.sound |
| `C76_back_ends_agree_partial` | propext, Classical.choice, Quot.sound |
| `C76_texts_parse_partial` | propext, Classical.choice, Quot.sound |
| `C76_accepted` | propext, Classical.choice, Quot.sound |
| `C76_numeraire_refused` | propext, Classical.choice, Quot.sound |
| `C76_residual_count` | propext, Classical.choice, Quot.sound |
| `C76_unused_refused` | propext, Classical.choice, Quot.sound |
| `C76_pt_refused` | propext, Classical.choice, Quot.sound |
| `C76_bound_index_kept` | propext, Quot.sound |
| `C76_methods_refused` | propext, Classical.choice, Quot.sound |
| `C76_alignment_counterexample` | propext, Classical.choice, Quot.sound |
| `C76_pairing_counterexample` | propext, Classical.choice, Quot.sound |
| `C76_order_counterexample` | propext, Classical.choice, Quot.sound |
| `C76_missing_marker_counterexample` | propext, Classical.choice, Quot.sound |
| `C76_entry_stays` | propext, Classical.choice, Quot.sound |
| `C76_position_counterexample` | propext, Classical.choice, Quot.sound |
| `C77_panels` | propext, Classical.choice, Quot.sound |
| `C77_no_group` | propext, Classical.choice, Quot.sound |
| `C77_unknown_colours` | propext, Classical.choice, Quot.sound |
| `C77_only_known` | propext, Classical.choice, Quot.sound |
| `C77_simulated_partial` | propext, Classical.choice, Quot.sound |
| `C77_starts_at_star_partial` | propext, Classical.choice, Quot.sound |
| `C77_start_counterexample` | propext, Classical.choice, Quot.sound |
| `C77_initial_values_counterexample` | propext, Classical.choice, Quot.sound |
| `C78_euler_rows` | propext, Classical.choice, Quot.sound |
| `C78_euler_partial` | propext, Classical.choice, Quot.sound |
| `C78_optimizer` | propext, Classical.choice, Quot.sound |
| `C78_no_warning_found` | propext, Classical.choice, Quot.sound |
| `C78_mixed_counterexample` | propext, Classical.choice, Quot.sound |
| `C78_false_success_counterexample` | propext, Classical.choice, Quot.sound |
| `C78_no_step` | propext, Classical.choice, Quot.sound |
| `C79_result_partial` | propext, Classical.choice, Quot.sound |
| `C79_result_optimizer_counterexample` | propext, Classical.choice, Quot.sound |
| `C79_result_never` | propext, Classical.choice, Quot.sound |
| `C79_calibrated_iff` | propext, Classical.choice, Quot.sound |
| `C79_dataset_counterexample` | propext, Classical.choice, Quot.sound |
| `C80_stages_affine` | propext, Classical.choice, Quot.sound |
| `C80_there_and_back_affine` | propext, Classical.choice, Quot.sound |
| `C80_near_partial` | propext, Classical.choice, Quot.sound |
| `C80_stages_partial` | propext, Classical.choice, Quot.sound |
| `C80_there_and_back_partial` | propext, Classical.choice, Quot.sound |
| `C80_there_and_back_counterexample` | propext, Classical.choice, Quot.sound |
| `C80_near_numba_partial` | propext, Classical.choice, Quot.sound |
| `C80_stages_numba_partial` | propext, Classical.choice, Quot.sound |
| `C80_there_and_back_numba_partial` | propext, Classical.choice, Quot.sound |
| `C81_leontief2_numba` | propext, Classical.choice, Quot.sound |
| `C81_leontief2_pytensor` | propext, Classical.choice, Quot.sound |
| `C81_cobb_douglass` | propext, Classical.choice, Quot.sound |
| `C81_cobb_douglass_shares` | propext, Classical.choice, Quot.sound |
| `C81_ces` | propext, Classical.choice, Quot.sound |
| `C81_leontief` | propext, Classical.choice, Quot.sound |
| `C81_dixit_stiglitz` | propext, Classical.choice, Quot.sound |
| `C82_ces` | propext, Classical.choice, Quot.sound |
| `C82_cobb_douglass` | propext, Classical.choice, Quot.sound |
| `C82_leontief` | propext, Classical.choice, Quot.sound |
| `C82_dixit_stiglitz_partial` | propext, Classical.choice, Quot.sound |
| `C82_dixit_stiglitz_inverted` | propext, Classical.choice, Quot.sound |
| `C83_simulate` | propext, Classical.choice, Quot.sound |
| `C83_rewritten` | propext, Classical.choice, Quot.sound |
| `C83_solutions` | propext, Classical.choice, Quot.sound |
| `C83_objective` | propext, Classical.choice, Quot.sound |
| `C83_check` | propext, Classical.choice, Quot.sound |
| `C83_scaled_check_counterexample` | propext, Classical.choice, Quot.sound |
| `C83_sums` | propext, Classical.choice, Quot.sound |
| `C83_sums_imbalances` | propext, Classical.choice, Quot.sound |
| `C83_limits_counterexample` | propext, Classical.choice, Quot.sound |
| `C84_leontief2_numba` | propext, Classical.choice, Quot.sound |
| `C84_leontief2_pytensor` | propext, Classical.choice, Quot.sound |
| `C84_cobb_douglass` | propext, Classical.choice, Quot.sound |
| `C84_cobb_douglass_shares` | propext, Classical.choice, Quot.sound |
| `C84_ces` | propext, Classical.choice, Quot.sound |
| `C84_cet` | propext, Classical.choice, Quot.sound |
| `C84_leontief` | propext, Classical.choice, Quot.sound |
| `C84_dixit_stiglitz_partial` | propext, Classical.choice, Quot.sound |
| `C84_dixit_stiglitz_inverted` | propext, Classical.choice, Quot.sound |
| `C85_unit_elasticity` | propext, Classical.choice, Quot.sound |
| `C85_limit_partial` | propext, Classical.choice, Quot.sound |
| `C85_production_at_one` | propext, Classical.choice, Quot.sound |
| `C85_value_shares` | propext, Classical.choice, Quot.sound |
| `C85_ratio_counterexample` | propext, Classical.choice, Quot.sound |
| `C86_piecewise_partial` | propext, Classical.choice, Quot.sound |
| `C86_piecewise_formula` | propext, Classical.choice, Quot.sound |
| `C86_max_partial` | propext, Classical.choice, Quot.sound |
| `C86_max_many` | propext, Classical.choice, Quot.sound |
| `C86_log` | propext, Classical.choice, Quot.sound |
| `C86_dirac` | propext, Classical.choice, Quot.sound |
| `C87_value` | propext, Classical.choice, Quot.sound |
| `C87_meaning` | propext, Classical.choice, Quot.sound |
| `C87_gradient_partial` | propext, Classical.choice, Quot.sound |
| `C87_gradient_original` | propext, Classical.choice, Quot.sound |
| `C87_gradient_counterexample` | propext, Classical.choice, Quot.sound |
| `C88_cells_partial` | propext, Classical.choice, Quot.sound |
| `C88_two_levels_fit` | propext, Classical.choice, Quot.sound |
| `C88_refused` | propext, Classical.choice, Quot.sound |
| `C88_equation_table` | propext, Classical.choice, Quot.sound |
| `C88_equation_table_counterexample` | propext, Classical.choice, Quot.sound |
| `C88_three_levels_counterexample` | propext, Classical.choice, Quot.sound |
| `C88_empty_group` | propext, Classical.choice, Quot.sound |
| `C89_names` | propext, Classical.choice, Quot.sound |
| `C89_lists_partial` | propext, Classical.choice, Quot.sound |
| `C89_without_dims` | propext, Classical.choice, Quot.sound |
| `C89_singleton_counterexample` | propext, Classical.choice, Quot.sound |
| `C89_mixed_counterexample` | propext, Classical.choice, Quot.sound |
| `C89_dims_string_counterexample` | propext, Classical.choice, Quot.sound |
| `C89_unknown_dims` | propext, Classical.choice, Quot.sound |
| `C90_refused` | propext, Classical.choice, Quot.sound |
| `C90_refused_kind` | propext, Classical.choice, Quot.sound |
| `C90_passed` | propext, Classical.choice, Quot.sound |
| `C90_no_gradient_counterexample` | propext, Classical.choice, Quot.sound |
| `C90_objective_grad` | propext, Classical.choice, Quot.sound |
| `C90_objective_hess` | propext, Classical.choice, Quot.sound |
| `C90_objective_hessp` | propext, Classical.choice, Quot.sound |
| `C90_constraint_two_grad` | propext, Classical.choice, Quot.sound |
| `C90_constraint_one_grad_partial` | propext, Classical.choice, Quot.sound |
| `C90_constraint_one_counterexample` | propext, Classical.choice, Quot.sound |
| `C90_first_order_iff` | propext, Classical.choice, Quot.sound |
| `C90_first_order_counterexample` | propext, Classical.choice, Quot.sound |
| `C91_zero_partial` | propext, Classical.choice, Quot.sound |
| `C91_rmse_iff` | propext, Classical.choice, Quot.sound |
| `C91_rmse_counterexample` | propext, Classical.choice, Quot.sound |
| `C91_progress` | propext, Classical.choice, Quot.sound |
| `C91_progress_harmless` | propext, Classical.choice, Quot.sound |
| `C91_print_partial` | propext, Classical.choice, Quot.sound |
| `C91_print_counterexample` | propext, Classical.choice, Quot.sound |
| `C91_print_by_name` | propext, Classical.choice, Quot.sound |
| `C91_print_optimizer_result` | propext, Classical.choice, Quot.sound |
| `C91_statistics` | propext, Classical.choice, Quot.sound |
| `C92_request` | propext, Classical.choice, Quot.sound |
| `C92_simulate` | propext, Classical.choice, Quot.sound |
| `C92_solutions` | propext, Classical.choice, Quot.sound |
| `C92_check_counterexample` | propext, Classical.choice, Quot.sound |
| `C93_members` | propext, Quot.sound |
| `C93_row_major_partial` | propext, Quot.sound |
| `C93_number_counterexample` | propext, Classical.choice, Quot.sound |
| `C93_enumerate` | propext, Classical.choice, Quot.sound |
| `C93_sub_dict_partial` | propext, Classical.choice, Quot.sound |
| `C93_sub_dict_counterexample` | propext, Classical.choice, Quot.sound |
| `C93_expand_var` | propext, Classical.choice, Quot.sound |
| `C93_expand_var_defaults` | propext, Quot.sound |
| `C93_model_coords_counterexample` | propext, Quot.sound |
| `C94_enough_partial` | propext, Classical.choice, Quot.sound |
| `C94_nothing_compiled` | propext, Classical.choice, Quot.sound |
| `C94_missing_raises` | propext, Classical.choice, Quot.sound |
| `C94_kinds` | propext, Classical.choice, Quot.sound |
| `C95_greek` | propext, Classical.choice, Quot.sound |
| `C95_latex_injective` | propext, Classical.choice, Quot.sound |
| `C95_latex_kept` | propext, Classical.choice, Quot.sound |
| `C95_words_partial` | propext, Classical.choice, Quot.sound |
| `C95_words_counterexample` | propext, Classical.choice, Quot.sound |
| `C95_alphabet` | propext, Classical.choice, Quot.sound |
| `C95_accepted` | propext, Classical.choice, Quot.sound |
| `C95_updates` | propext, Classical.choice, Quot.sound |
| `C95_update_refused` | propext, Classical.choice, Quot.sound |
| `C95_distinct_partial` | propext, Classical.choice, Quot.sound |
| `C95_distinct_counterexample` | propext, Classical.choice, Quot.sound |
| `C95_extend` | propext, Classical.choice, Quot.sound |
| `C95_extend_braces` | propext, Classical.choice, Quot.sound |
| `C95_extend_all` | propext, Classical.choice, Quot.sound |
| `C95_underscore` | propext, Classical.choice, Quot.sound |
| `C95_description_partial` | propext, Classical.choice, Quot.sound |
| `C95_default_description_counterexample` | propext, Classical.choice, Quot.sound |
| `C95_relabel_counterexample` | propext, Classical.choice, Quot.sound |
| `C95_default_description` | propext, Classical.choice, Quot.sound |
| `C96_independent_partial` | propext, Classical.choice, Quot.sound |
| `C96_declared` | propext, Classical.choice, Quot.sound |
| `C96_updated` | propext, Classical.choice, Quot.sound |
| `C96_copied` | propext, Classical.choice, Quot.sound |
| `C96_agrees_partial` | propext, Classical.choice, Quot.sound |
| `C96_given_assumptions` | propext, Classical.choice, Quot.sound |
| `C96_written_label` | propext, Classical.choice, Quot.sound |
| `C96_shared_labels_counterexample` | propext, Classical.choice, Quot.sound |
| `C96_shared_assumptions_counterexample` | propext, Classical.choice, Quot.sound |
| `C97_default_functions` | propext, Classical.choice, Quot.sound |
| `C97_numba_functions_partial` | propext, Classical.choice, Quot.sound |
| `C97_numba_compiled_counterexample` | propext, Classical.choice, Quot.sound |
| `C97_all_back_ends_partial` | propext, Classical.choice, Quot.sound |
| `C97_jax_functions` | propext, Classical.choice, Quot.sound |
| `C97_no_elements` | propext, Classical.choice, Quot.sound |
| `C97_texts` | propext, Classical.choice, Quot.sound |
| `C97_pytensor_functions` | propext, Classical.choice, Quot.sound |
| `C97_ops` | propext, Classical.choice, Quot.sound |
| `C97_same_on_both` | propext, Classical.choice, Quot.sound |
| `C97_texts_pytensor` | propext, Classical.choice, Quot.sound |
| `C97_pytensor_names` | propext, Classical.choice, Quot.sound |
| `C98_equations_partial` | propext, Classical.choice, Quot.sound |
| `C98_every_equation` | propext, Classical.choice, Quot.sound |
| `C98_names_needed` | propext, Classical.choice, Quot.sound |
| `C98_rows` | propext, Classical.choice, Quot.sound |
| `C98_conversion` | propext, Classical.choice, Quot.sound |
| `C98_marks_counterexample` | propext, Classical.choice, Quot.sound |
| `C98_caption_counterexample` | propext, Classical.choice, Quot.sound |
| `C99_registered` | propext, Classical.choice, Quot.sound |
| `C99_listings` | propext, Classical.choice, Quot.sound |
| `C99_unpacked_unchanged` | propext |
| `C99_not_the_same` | propext, Classical.choice, Quot.sound |
| `C99_added_variable` | propext, Quot.sound |
| `C99_added_equation` | propext, Classical.choice, Quot.sound |
| `C99_added_variable_numba` | propext, Classical.choice, Quot.sound |
| `C100_latex_partial` | propext, Classical.choice, Quot.sound |
| `C100_description_partial` | propext, Quot.sound |
| `C100_line_break` | propext, Quot.sound |
| `C100_entries` | propext, Quot.sound |
| `C100_get_info` | propext, Classical.choice, Quot.sound |
| `C100_get_info_counterexample` | propext, Classical.choice, Quot.sound |
| `C100_latex_counterexample` | propext, Classical.choice, Quot.sound |
| `C100_description_counterexample` | propext, Classical.choice, Quot.sound |
| `C101_solutions` | propext, Classical.choice, Quot.sound |
| `C101_simulate` | propext, Classical.choice, Quot.sound |
| `C101_argument` | propext, Classical.choice, Quot.sound |
| `C102_solutions` | propext, Classical.choice, Quot.sound |
| `C102_simulate` | propext, Classical.choice, Quot.sound |
| `C102_residual` | propext, Classical.choice, Quot.sound |
| `C102_residual_moved` | propext, Classical.choice, Quot.sound |
| `C102_left_out` | propext, Classical.choice, Quot.sound |
| `C103_solutions` | propext, Classical.choice, Quot.sound |
| `C103_simulate` | propext, Classical.choice, Quot.sound |
| `C103_returns` | propext, Classical.choice, Quot.sound |
| `C103_report` | propext, Classical.choice, Quot.sound |
| `C103_indexed_report` | propext, Classical.choice, Quot.sound |
| `C104_simulate` | propext, Classical.choice, Quot.sound |
| `C104_equations` | propext, Classical.choice, Quot.sound |
| `C104_objective` | propext, Classical.choice, Quot.sound |
| `C104_check` | propext, Classical.choice, Quot.sound |
| `C104_part_counterexample` | propext, Classical.choice, Quot.sound |
| `C105_equations` | propext, Classical.choice, Quot.sound |
| `C105_simulate` | propext, Classical.choice, Quot.sound |
| `C105_objective` | propext, Classical.choice, Quot.sound |
| `C105_check` | propext, Classical.choice, Quot.sound |
| `C105_collision_counterexample` | propext, Classical.choice, Quot.sound |
| `C106_equations` | propext, Classical.choice, Quot.sound |
| `C106_simulate` | propext, Classical.choice, Quot.sound |
| `C106_alike` | propext, Classical.choice, Quot.sound |
| `C106_objective` | propext, Classical.choice, Quot.sound |
| `C106_check` | propext, Classical.choice, Quot.sound |
| `C106_picked_label_counterexample` | propext, Classical.choice, Quot.sound |
| `C107_number_solutions` | propext, Classical.choice, Quot.sound |
| `C107_fixed_solutions` | propext, Classical.choice, Quot.sound |
| `C107_number` | propext, Classical.choice, Quot.sound |
| `C107_fixed` | propext, Classical.choice, Quot.sound |
| `C107_number_objective` | propext, Classical.choice, Quot.sound |
| `C107_fixed_objective` | propext, Classical.choice, Quot.sound |
| `C107_number_returns` | propext, Classical.choice, Quot.sound |
| `C107_fixed_returns` | propext, Classical.choice, Quot.sound |
| `C108_equations` | propext, Classical.choice, Quot.sound |
| `C108_simulate` | propext, Classical.choice, Quot.sound |
| `C108_objective` | propext, Classical.choice, Quot.sound |
| `C108_check` | propext, Classical.choice, Quot.sound |
| `C109_equations` | propext, Classical.choice, Quot.sound |
| `C109_simulate` | propext, Classical.choice, Quot.sound |
| `C109_objective` | propext, Classical.choice, Quot.sound |
| `C109_check` | propext, Classical.choice, Quot.sound |
| `C110_equations` | propext, Classical.choice, Quot.sound |
| `C110_simulate` | propext, Classical.choice, Quot.sound |
| `C110_objective` | propext, Classical.choice, Quot.sound |
| `C110_check` | propext, Classical.choice, Quot.sound |
| `C110_untransposed_counterexample` | propext, Classical.choice, Quot.sound |
