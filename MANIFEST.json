{
 "claims": [
  {
   "property": "C01",
   "status": "proved",
   "theorems": [
    "Verif.C01_unpack_of_pack",
    "Verif.C01_pack_of_unpack",
    "Verif.C01_pack_missing_raises",
    "Verif.C01_packs_iff"
   ],
   "note": "Both directions for every model with distinct names and known dims and every correctly shaped data set; C01_packs_iff: packing is refused exactly if there is no variable, no parameter, or data are missing. Float casts are not modelled (elements are of an arbitrary type)."
  },
  {
   "property": "C02",
   "status": "proved",
   "theorems": [
    "Verif.C02_element_address",
    "Verif.C02_address_bijective",
    "Verif.C02_ragged_roundtrip"
   ],
   "note": "Address formula, bijection between addresses and (object, multi-index), and the ragged-list splitter used by the pytensor back-end."
  },
  {
   "property": "C03",
   "status": "proved",
   "theorems": [
    "Verif.C03_return_mask",
    "Verif.C03_return_mask_selects",
    "Verif.C03_flat_mask",
    "Verif.C03_flat_mask_unknown"
   ],
   "note": "Exact characterisation of both mask builders, including the KeyError for unknown names in flat_mask_from_param_names."
  },
  {
   "property": "C04",
   "status": "partial",
   "theorems": [
    "Verif.C04_short_rejected_partial",
    "Verif.C04_accepted_iff",
    "Verif.C04_too_long_accepted"
   ],
   "note": "The property is false of the code for vectors that are too long: C04_too_long_accepted shows surplus entries are silently ignored. Proved: vectors that are too short are rejected, and acceptance is characterised exactly (C04_accepted_iff)."
  },
  {
   "property": "C05",
   "status": "partial",
   "theorems": [
    "Verif.C05_position_denotes",
    "Verif.C05_names_in_order_partial",
    "Verif.C05_collision_misaligns",
    "Verif.C05_packed_index"
   ],
   "note": "For all ranks, sizes and dim orders the k-th unpacked scalar carries the labels of the element at position k of the flat vector; the reported names are in that order when they are distinct. False when two names collide (C05_collision_misaligns)."
  },
  {
   "property": "C06",
   "status": "partial",
   "theorems": [
    "Verif.C06_no_merge_partial",
    "Verif.C06_collisions",
    "Verif.C06_repeated_dim_loses_scalars"
   ],
   "note": "No scalars are merged when labels and names cannot be confused across the underscore separator. False in general: C06_collisions (x_a[b] and x[a_b]) and repeated dims (C06_repeated_dim_loses_scalars)."
  },
  {
   "property": "C07",
   "status": "partial",
   "theorems": [
    "Verif.C07_flat_round_trip",
    "Verif.C07_keyword_round_trip",
    "Verif.C07_keyword_round_trip_eq",
    "Verif.C07_hessp_flat_round_trip_partial",
    "Verif.C07_hessp_keyword_round_trip_partial",
    "Verif.C07_point_name_clash"
   ],
   "note": "Both double wrappings equal the original for every function and model with distinct names; the Hessian-vector form likewise when no declared name is a <name>_point keyword. False with such a name (C07_point_name_clash)."
  },
  {
   "property": "C08",
   "status": "partial",
   "theorems": [
    "Verif.C08_every_call_raises",
    "Verif.C08_unknown_names_rejected_partial",
    "Verif.C08_mask_keeps_fixed",
    "Verif.C08_selection"
   ],
   "note": "False of the code: every call of the wrapped function raises (C08_every_call_raises), and the result mask keeps the fixed rather than the free entries (C08_mask_keeps_fixed). Proved: wrapping rejects exactly the unknown names."
  },
  {
   "property": "C09",
   "status": "partial",
   "theorems": [
    "Verif.C09_rows_preserved_partial",
    "Verif.C09_empty_dim_raises"
   ],
   "note": "Every trajectory length and model without empty dims; with an empty dim the code raises (C09_empty_dim_raises)."
  },
  {
   "property": "C10",
   "status": "partial",
   "theorems": [
    "Verif.C10_scenario_exact_partial",
    "Verif.C10_order_irrelevant_partial",
    "Verif.C10_shared_array_changes_both",
    "Verif.C10_caller_data_unmodified"
   ],
   "note": "Exact scenario for initial states whose entries do not share arrays. False with shared arrays (C10_shared_array_changes_both: in-place += after a memoised deepcopy)."
  },
  {
   "property": "C11",
   "status": "proved",
   "theorems": [
    "Verif.C11_ambiguous_or_empty_rejected",
    "Verif.C11_clear_scenario_accepted",
    "Verif.C11_accepted_iff"
   ],
   "note": "create_final_param_dict for every combination of the three change dictionaries."
  },
  {
   "property": "C12",
   "status": "partial",
   "theorems": [
    "Verif.C12_unknown_delta_rejected_partial",
    "Verif.C12_unknown_final_value_ignored"
   ],
   "note": "Unknown names in final_delta_values/final_pct_change are rejected; unknown names in final_values are silently accepted (C12_unknown_final_value_ignored)."
  },
  {
   "property": "C13",
   "status": "partial",
   "theorems": [
    "Verif.C13_validation_exact",
    "Verif.C13_simulate_rejects_partial",
    "Verif.C13_simulate_accepts",
    "Verif.C13_cache_skips_validation"
   ],
   "note": "Exact validation for every model and initial state when no saved result is picked up. With a saved result of the same name the validation is skipped (C13_cache_skips_validation)."
  },
  {
   "property": "C14",
   "status": "partial",
   "theorems": [
    "Verif.C14_helper_resolution_partial",
    "Verif.C14_never_both",
    "Verif.C14_explicit_hess_ignored",
    "Verif.C14_method_default_ignored"
   ],
   "note": "get_method_defaults table and the plumbing of simulate -> _solve_with_minimize. Through simulate an explicit use_hess=True and the method's default are both overridden (C14_explicit_hess_ignored, C14_method_default_ignored)."
  },
  {
   "property": "C15",
   "status": "proved",
   "theorems": [
    "Verif.C15_save_preserves",
    "Verif.C15_history"
   ],
   "note": "write_results without overwrite, every directory and name, single saves and histories."
  },
  {
   "property": "C16",
   "status": "partial",
   "theorems": [
    "Verif.C16_read_latest_partial",
    "Verif.C16_overwrite_then_read_stale",
    "Verif.C16_delete_then_read_stale",
    "Verif.C16_clashing_names"
   ],
   "note": "Latest save is read back for histories of plain, non-clashing names without overwrite. False after overwrite, after deleting a copy, and for names that look like numbered copies."
  },
  {
   "property": "C17",
   "status": "partial",
   "theorems": [
    "Verif.C17_write_same",
    "Verif.C17_read_same_partial",
    "Verif.C17_read_differs",
    "Verif.C17_name_ending_in_pkl_unreadable",
    "Verif.C17_default_name"
   ],
   "note": "write_results treats name and name.pkl alike; read_results does so for plain names. False for other names (C17_read_differs, C17_name_ending_in_pkl_unreadable)."
  },
  {
   "property": "C18",
   "status": "partial",
   "theorems": [
    "Verif.C18_no_cached_file_partial",
    "Verif.C18_distinct_names_partial",
    "Verif.C18_same_name_returns_old_result",
    "Verif.C18_default_name_ignores_scenario",
    "Verif.C18_runs_requested_scenario_partial",
    "Verif.C18_default_name_options"
   ],
   "note": "Each call returns its own solution if overwrite is set, if no file of its name exists, and in every history with pairwise different plain names. False for repeated names and for default names, which ignore the scenario (C18_same_name_returns_old_result)."
  },
  {
   "property": "C19",
   "status": "proved",
   "theorems": [
    "Verif.C19_parameter_path",
    "Verif.C19_arrives",
    "Verif.C19_between"
   ],
   "note": "For all four back-ends (numba, pytensor loop, jax loop with/without RK4, scan with/without RK4), any solver, any field: parameters after t steps, exact arrival, no overshooting (ordered fields). Exact arithmetic."
  },
  {
   "property": "C20",
   "status": "proved",
   "theorems": [
    "Verif.C20_total_differential",
    "Verif.C20_fails_only_if_singular",
    "Verif.C20_zero_shock",
    "Verif.C20_zero_shock_runs"
   ],
   "note": "Every non-RK4 step solves A dx + B dtheta = 0 uniquely, runs raise only at singular Jacobians, and a zero shock leaves the state unchanged on every back-end (RK4 included). Jacobians are arbitrary matrix-valued functions; singular solves raise (jax returns non-finite numbers instead)."
  },
  {
   "property": "C21",
   "status": "proved",
   "theorems": [
    "Verif.C21_trajectory_in_equilibrium",
    "Verif.C21_runs",
    "Verif.C21_end_point",
    "Verif.C21_end_point_independent",
    "Verif.C21_rk4_same_trajectory"
   ],
   "note": "Affine models over any field of characteristic zero: equilibrium preserved along the trajectory, end point the unique equilibrium, independent of the number of steps and back-end, RK4 gives the same trajectory."
  },
  {
   "property": "C22",
   "status": "proved",
   "theorems": [
    "Verif.C22_error_bound",
    "Verif.C22_converges",
    "Verif.C22_smooth_model"
   ],
   "note": "Explicit bound M e^L / n for every step of every non-RK4 back-end, and convergence; C22_smooth_model needs only that the model is C^2 near a continuous curve of equilibria with invertible Jacobian on the curve (tube, Lipschitz constants and smoothness of the curve are derived). Exact real arithmetic."
  },
  {
   "property": "C23",
   "status": "partial",
   "theorems": [
    "Verif.C23_same_arrays_partial",
    "Verif.C23_same_states_partial",
    "Verif.C23_rows_differ",
    "Verif.C23_keyword_clash"
   ],
   "note": "States after every number of steps agree and exceptions agree between back-ends with the same increment. False as stated: the python loops omit the initial row (C23_rows_differ) and raise TypeError when a parameter a and a variable a_final exist (C23_keyword_clash)."
  },
  {
   "property": "C24",
   "status": "partial",
   "theorems": [
    "Verif.C24_last_finite_row_partial",
    "Verif.C24_warning_iff_nan_partial",
    "Verif.C24_numba_always_warns",
    "Verif.C24_numba_misses_last_nan",
    "Verif.C24_gap_breaks_handoff"
   ],
   "note": "Hand-over for every trajectory whose finite rows come first; warning exact for n-row trajectories. False for n+1-row trajectories (numba) and for NaN gaps."
  },
  {
   "property": "C25",
   "status": "proved",
   "theorems": [
    "Verif.C25_residual_never_worse",
    "Verif.C25_flag_sticky",
    "Verif.C25_flag_honest",
    "Verif.C25_step_count",
    "Verif.C25_monotone"
   ],
   "note": "Proved over an abstract arithmetic (any irreflexive, and for the flag transitive, comparison; floats satisfy both), with an ordered-field corollary for monotonicity. F, J and solve are parameters that may raise. The step count counts iterations after which the flag is still unset."
  },
  {
   "property": "C26",
   "status": "proved",
   "theorems": [
    "Verif.C26_accept_or_halve",
    "Verif.C26_step_is_halved_start",
    "Verif.C26_power_of_two",
    "Verif.C26_affine_one_step"
   ],
   "note": "Accept iff strictly smaller L1 residual norm, else halve; step sizes are the initial one halved at most once per iteration; affine systems with an exact solver and unit step are at a root from the first iteration on and flagged from the second. In the code the reported step size also keeps halving after convergence (recorded in DESIGN.md)."
  },
  {
   "property": "C27",
   "status": "proved",
   "theorems": [
    "Verif.C27_names_unique",
    "Verif.C27_order_stable",
    "Verif.C27_add_variables_effect",
    "Verif.C27_add_parameters_effect",
    "Verif.C27_clash_raises",
    "Verif.C27_overwrite_in_place",
    "Verif.C27_single_argument_raises"
   ],
   "note": "For every sequence of add calls (raising or not), every parser and every starting registry in order: names unique, objects listed in the order of names, names never move, clash raises and changes nothing, overwrite replaces in place, successful additions append in order."
  },
  {
   "property": "C28",
   "status": "partial",
   "theorems": [
    "Verif.C28_not_atomic",
    "Verif.C28_failure_adds_prefix_partial",
    "Verif.C28_single_atomic_partial"
   ],
   "note": "False of the code: counterexample C28_not_atomic. Partial: after a failure either nothing changed (type error) or exactly the objects before the clash were added; single adds and overwriting adds are atomic."
  },
  {
   "property": "C29",
   "status": "partial",
   "theorems": [
    "Verif.C29_get_symbol_all",
    "Verif.C29_get_shape",
    "Verif.C29_shared_name_disagrees",
    "Verif.C29_routes_agree_partial",
    "Verif.C29_symbol_routes_partial",
    "Verif.C29_get_list",
    "Verif.C29_unknown_raises",
    "Verif.C29_get_all"
   ],
   "note": "False when a variable and a parameter share a name (accepted by the constructor): C29_shared_name_disagrees; and of get_symbol() without names, which raises for every model with a parameter and gives nothing otherwise (C29_get_symbol_all). Partial: all routes agree when names are disjoint; lists in order, unknown names raising and get_shape are proved in full. CGEModel has no __getitem__."
  },
  {
   "property": "C30",
   "status": "partial",
   "theorems": [
    "Verif.C30_square_partial",
    "Verif.C30_numeraire_never_square",
    "Verif.C30_merged_names_not_square",
    "Verif.C30_not_square_after_add",
    "Verif.C30_refused"
   ],
   "note": "Proved for construction without numeraire and without merged names. Negations: with a numeraire the finished model is never square (universal), merged names let a non-square model through, later additions are not re-checked."
  },
  {
   "property": "C31",
   "status": "partial",
   "theorems": [
    "Verif.C31_numeraire_stays_unpacked",
    "Verif.C31_removed_from_variables_partial",
    "Verif.C31_unknown_raises",
    "Verif.C31_unknown_value_error"
   ],
   "note": "False of the code for the unpacked variables: in every model with a numeraire they still contain it (C31_numeraire_stays_unpacked). Partial: removed from variables, others keep order; unknown numeraire raises, and so does the documented Variable object."
  },
  {
   "property": "C32",
   "status": "proved",
   "theorems": [
    "Verif.C32_value_is_difference",
    "Verif.C32_no_spaces",
    "Verif.C32_no_equals_unchanged",
    "Verif.C32_axis_name_not_normalised",
    "Verif.C32_keyword_split_wrongly",
    "Verif.C32_spaced_axis_split_wrongly",
    "Verif.C32_ravel_whole_expression"
   ],
   "note": "normalize_eq on texts; Reads = Python grammar (tokenizer + precedence parser proved equal to the grammar relation), incl. .sum(axis=k), .subs(...), None-indexing, Sum and Product. Left sides may contain equals signs after the letters axis (OnlyAxisEquals). Also proved: no '=' leaves text unchanged; names ending in axis, non-axis keyword arguments and 'axis =' with a space are mis-split (C32_axis_name_not_normalised, C32_keyword_split_wrongly, C32_spaced_axis_split_wrongly), outside the arithmetic expressions the claim is about."
  },
  {
   "property": "C33",
   "status": "partial",
   "theorems": [
    "Verif.C33_names_match_residuals_partial",
    "Verif.C33_distinct_names_kept_partial",
    "Verif.C33_permuted_markers_mislabel",
    "Verif.C33_marker_count_mislabels",
    "Verif.C33_sympy_names_match_bodies",
    "Verif.C33_sympy_unmarked_equations_dropped"
   ],
   "note": "Names and residuals agree for every set of equations whose markers are, each once and in order, the residual's axes; sympy equations keep name and body together for every marker order. False for permuted, missing or repeated markers (C33_permuted_markers_mislabel, C33_marker_count_mislabels, C33_sympy_unmarked_equations_dropped)."
  },
  {
   "property": "C34",
   "status": "partial",
   "theorems": [
    "Verif.C34_equation_forgets_labels",
    "Verif.C34_expand_row_major",
    "Verif.C34_errors",
    "Verif.C34_ignore_partial",
    "Verif.C34_ignore_loses_order",
    "Verif.C34_repeated_dim_not_distinct"
   ],
   "note": "Row-major enumeration with labels, for distinct dims, and the error branches. With on_unused ignore the order depends on Python set order (C34_ignore_loses_order); repeated dims give equal copies; sympy equations keep only the last dim's label (C34_equation_forgets_labels)."
  },
  {
   "property": "C35",
   "status": "partial",
   "theorems": [
    "Verif.C35_expansion_partial",
    "Verif.C35_ranges_over_all_labels",
    "Verif.C35_nested_counterexample",
    "Verif.C35_numeral_labels_counterexample",
    "Verif.C35_product_of_sum_raises"
   ],
   "note": "Value preserved and all operators removed, for every expression whose reductions are plain (not nested; bounds within the labels) and labels that fit their position: a label may be a numeral if it is the number of its own position (as in the repository's second test model) or no position at all (years). False for nested reductions (C35_nested_counterexample), labels that are the number of another position (C35_numeral_labels_counterexample) and a product of a sum (C35_product_of_sum_raises)."
  },
  {
   "property": "C36",
   "status": "proved",
   "theorems": [
    "Verif.C36_sparse_is_derivative",
    "Verif.C36_dense_is_derivative",
    "Verif.C36_sparse_eq_dense",
    "Verif.C36_positions",
    "Verif.C36_matrix_argument"
   ],
   "note": "For all equation lists, symbol lists and points; entries are true partial derivatives at points where powers and logarithms are defined; sparse and dense agree at every point. sympy's diff is modelled by the usual rules. equations_to_numba_sparse_jacobian, listed as an anchor, does not exist at this commit."
  },
  {
   "property": "C37",
   "status": "proved",
   "theorems": [
    "Verif.C37_objective",
    "Verif.C37_gradient",
    "Verif.C37_gradient_zero_at_equilibrium",
    "Verif.C37_stationary_is_equilibrium",
    "Verif.C37_hessian",
    "Verif.C37_hessp",
    "Verif.C37_hessian_psd_at_equilibrium"
   ],
   "note": "Objective, gradient, Hessian and Hessian-vector product expressions as built for the numba and sympytensor back-ends; derivative statements at points where powers and logarithms are defined, algebraic ones everywhere."
  },
  {
   "property": "C38",
   "status": "partial",
   "theorems": [
    "Verif.C38_values_partial",
    "Verif.C38_constant_counterexample",
    "Verif.C38_no_root_counterexample",
    "Verif.C38_overdetermined_counterexample"
   ],
   "note": "False as stated: three counterexamples (constant equation dropped, no root becomes zero, two equations for one unknown). The partial theorem proves it whenever the system has a common solution that the one-unknown solver finds."
  },
  {
   "property": "C39",
   "status": "partial",
   "theorems": [
    "Verif.C39_complete_partial",
    "Verif.C39_otherwise_raises",
    "Verif.C39_early_break_counterexample"
   ],
   "note": "The 'otherwise it raises' and 'given values are kept' halves hold for all inputs. Completeness is proved when no values are given or more values than equations; between, it is false (early break), with a counterexample."
  },
  {
   "property": "C40",
   "status": "proved",
   "theorems": [
    "Verif.C40_ces_numbers",
    "Verif.C40_cobb_douglass_numbers",
    "Verif.C40_cobb_douglass",
    "Verif.C40_ces",
    "Verif.C40_value_definition",
    "Verif.C40_single_share",
    "Verif.C40_leontief",
    "Verif.C40_leontief_share_not_parenthesised"
   ],
   "note": "cobb_douglass, CES (production, value definition, demands, single share), and one-dimensional leontief with shares that are products; C40_leontief_share_not_parenthesised shows that the restriction on Leontief shares is needed. Two-dimensional leontief texts are modelled but not read (they use subs/slicing). C40_ces_numbers, C40_cobb_douglass_numbers: productivity, elasticity or shares given as numbers such as 0.5 (without exponent)."
  },
  {
   "property": "C41",
   "status": "partial",
   "theorems": [
    "Verif.C41_ces",
    "Verif.C41_cobb_douglass_partial",
    "Verif.C41_cobb_douglass_counterexample",
    "Verif.C41_leontief"
   ],
   "note": "Proved for CES and Leontief on the generated texts. False for Cobb-Douglas (C41_cobb_douglass_counterexample): the demands alone imply the value equation; C41_cobb_douglass_partial gives the exact condition for the production function."
  },
  {
   "property": "C42",
   "status": "partial",
   "theorems": [
    "Verif.C42_omit_shares",
    "Verif.C42_omit_TFP_first_equation_partial",
    "Verif.C42_omit_TFP_demand_inverted",
    "Verif.C42_omit_TFP_counterexample"
   ],
   "note": "Proved for factor_shares. False for TFP: the demand without TFP divides by the power (C42_omit_TFP_counterexample, C42_omit_TFP_demand_inverted); the first equation is equivalent (C42_omit_TFP_first_equation_partial)."
  },
  {
   "property": "C43",
   "status": "partial",
   "theorems": [
    "Verif.C43_cobb_douglass_ces_reject",
    "Verif.C43_leontief_rejects",
    "Verif.C43_leontief_factor_count",
    "Verif.C43_one_demand_per_factor_partial",
    "Verif.C43_string_factor_counterexample",
    "Verif.C43_dixit_stiglitz"
   ],
   "note": "Rejection proved for every combination of strings and lists. leontief: with one dim two factors or more, with two dims exactly one (C43_leontief_factor_count). One demand per factor proved for lists; false for a factor given as a string (C43_string_factor_counterexample: the loop runs over characters)."
  },
  {
   "property": "C44",
   "status": "partial",
   "theorems": [
    "Verif.C44_shares_list_extended",
    "Verif.C44_later_call_raises",
    "Verif.C44_unchanged_partial",
    "Verif.C44_second_call_same_equations"
   ],
   "note": "False: a caller's list of one share is extended (C44_shares_list_extended) and a later call raises (C44_later_call_raises). Proved: unchanged otherwise, and a repeated call gives the same equations."
  },
  {
   "property": "C45",
   "status": "partial",
   "theorems": [
    "Verif.C45_refuses_before_fit",
    "Verif.C45_round_trip_partial",
    "Verif.C45_diagonal_counterexample",
    "Verif.C45_mirror_counterexample",
    "Verif.C45_missing_label_refused"
   ],
   "note": "Refusal before fit proved for every sequence of fits. The round trip is characterised exactly (iff): it holds iff the mirror cell of every negative cell is zero; counterexamples for diagonal and mirrored entries."
  },
  {
   "property": "C46",
   "status": "partial",
   "theorems": [
    "Verif.C46_nonnegative_partial",
    "Verif.C46_mirrored_counterexample"
   ],
   "note": "Characterised exactly (iff): nonnegative iff no mirrored pair of negative entries; counterexample otherwise."
  },
  {
   "property": "C47",
   "status": "partial",
   "theorems": [
    "Verif.C47_transform_partial",
    "Verif.C47_inverse_partial",
    "Verif.C47_counterexample"
   ],
   "note": "Proved when mirror cells of negative cells are empty (transform), and for matrices that are zero at the moved cells (inverse); counterexample otherwise."
  },
  {
   "property": "C48",
   "status": "partial",
   "theorems": [
    "Verif.C48_cvxpy_vector_matrix",
    "Verif.C48_scipy_vector_matrix",
    "Verif.C48_balanced_partial",
    "Verif.C48_mirrored_counterexample",
    "Verif.C48_order_counterexample"
   ],
   "note": "Vector/matrix correspondence proved in full for both optimizers; balance and no new flows proved for equal label order and no mirrored negative pairs, counterexamples for both conditions. Optimizers are parameters."
  },
  {
   "property": "C49",
   "status": "partial",
   "theorems": [
    "Verif.C49_columns",
    "Verif.C49_names_partial",
    "Verif.C49_three_levels_partial",
    "Verif.C49_two_levels_partial",
    "Verif.C49_chain_counterexample",
    "Verif.C49_wide_counterexample",
    "Verif.C49_deep_counterexample",
    "Verif.C49_rows"
   ],
   "note": "False in general (three counterexamples). Proved: names in order for every specification; exact (iff) condition for up to three levels; always right for two levels; columns are the leaves."
  },
  {
   "property": "C50",
   "status": "proved",
   "theorems": [
    "Verif.C50_grid"
   ],
   "note": "All n_cols >= 1, n_plots >= 1."
  },
  {
   "property": "C51",
   "status": "partial",
   "theorems": [
    "Verif.C51_euler_partial",
    "Verif.C51_too_few_raises",
    "Verif.C51_optimizer_partial",
    "Verif.C51_step_dim_counterexample",
    "Verif.C51_name_clash_counterexample"
   ],
   "note": "Proved for every model whose names can be labelled (distinct names, none equal to a coordinate name or 'step', no dim called 'step'): Euler and optimizer results, element for element. A dim called step, or a variable named like a dim, is refused by xarray (counterexamples)."
  },
  {
   "property": "C52",
   "status": "partial",
   "theorems": [
    "Verif.C52_default_literal",
    "Verif.C52_default_backend_partial",
    "Verif.C52_spelling_counterexample",
    "Verif.C52_longer_name_counterexample",
    "Verif.C52_parsed_as_needed",
    "Verif.C52_compiles_requested",
    "Verif.C52_all_and_none",
    "Verif.C52_list_all_counterexample",
    "Verif.C52_scan_raises"
   ],
   "note": "Default backend characterised exactly for the texts the code looks for; in terms of broadcasting and calls of Sum/Prod it holds in the usual spelling and fails for other spellings ([:,None], three axes) and for longer names ending in Sum. Parsing flag, maker and compiled functions proved for all arguments; ['all'] inside a list compiles nothing (counterexample)."
  },
  {
   "property": "C53",
   "status": "proved",
   "theorems": [
    "Verif.C53_success_iff",
    "Verif.C53_listed_iff",
    "Verif.C53_success_bounds",
    "Verif.C53_optimizer_result",
    "Verif.C53_wrong_names_refused"
   ],
   "note": "Proved for every state form (dict, InferenceData with or without steps, dataset, optimizer result), both calling conventions and every tolerance, with exact numbers; one residual per equation name is assumed for the listing."
  },
  {
   "property": "C54",
   "status": "partial",
   "theorems": [
    "Verif.C54_list_tuple",
    "Verif.C54_dims_partial",
    "Verif.C54_empty_counterexample",
    "Verif.C54_blank_counterexample",
    "Verif.C54_subscript_tokens",
    "Verif.C54_snake_clean",
    "Verif.C54_snake_fixed",
    "Verif.C54_snake_idempotent",
    "Verif.C54_snake_of_bracketed"
   ],
   "note": "Lists and tuples mean the same; a text with any white space means the same as the tuple for at least one dim (the empty text means one empty dim: counterexample). Subscript tokens, clean/idempotent/identifier results of brackets_to_snake_case proved for all inputs."
  },
  {
   "property": "C55",
   "status": "partial",
   "theorems": [
    "Verif.C55_binding",
    "Verif.C55_binding_one",
    "Verif.C55_length_checked",
    "Verif.C55_input_name_counterexample",
    "Verif.C55_endog_name_counterexample",
    "Verif.C55_tokens_exist",
    "Verif.C55_cleanup",
    "Verif.C55_two_index_counterexample",
    "Verif.C55_nested_index_counterexample"
   ],
   "note": "Unpacking is executed from the generated text of the lines: with the asserted lengths and no input called exog_inputs or endog_inputs every name is bound to the value at the position of its last occurrence, and nothing else is touched (C55_binding, C55_binding_one, C55_length_checked). The two regular-expression substitutions are characterised token by token for every text (C55_tokens_exist, C55_cleanup). False in general: an input called exog_inputs/endog_inputs makes evaluation fail, and an index with two positions or a second successive index is turned into a float (the counterexample theorems). sympy's printer and cse are not modelled."
  },
  {
   "property": "C56",
   "status": "partial",
   "theorems": [
    "Verif.C56_rk4_partial",
    "Verif.C56_numba_counterexample"
   ],
   "note": "Holds for pytensor, sympytensor (refused) and jax (honoured); false for numba, which ignores the switch (counterexample for all other arguments)."
  },
  {
   "property": "C57",
   "status": "proved",
   "theorems": [
    "Verif.C57_fourth_order"
   ],
   "note": "Order four for both back-ends that take Runge-Kutta steps (jax loop, scan), from a model that is C^5 near a continuous curve of equilibria with invertible Jacobian. Exact real arithmetic."
  },
  {
   "property": "C58",
   "status": "partial",
   "theorems": [
    "Verif.C58_root_solution_returned_partial",
    "Verif.C58_minimize_solution_returned_partial",
    "Verif.C58_unknown_method_rejected",
    "Verif.C58_fixed_values_never_read",
    "Verif.C58_fixed_address",
    "Verif.C58_all_fixed_raises",
    "Verif.C58_fixed_wrong_variable",
    "Verif.C58_euler_returned",
    "Verif.C58_uncompiled_rejected",
    "Verif.C58_no_hessian_without_gradient"
   ],
   "note": "Proved for calls without fixed_values, for root and minimize: start point, warning, layout and residuals, for every optimizer (a parameter of the model). False for fixed_values: the values are never read, the solver moves every variable, and the free variables are cut out of the full vector at the offsets they would have alone (C58_fixed_values_never_read, C58_fixed_address, C58_fixed_wrong_variable); fixing all variables raises. The euler branch is covered by the trajectory properties C09 and C19 to C22."
  },
  {
   "property": "C59",
   "status": "partial",
   "theorems": [
    "Verif.C59_collects_exactly",
    "Verif.C59_silent_is_ready_partial",
    "Verif.C59_initialize_parameter",
    "Verif.C59_series_in_order_partial",
    "Verif.C59_frame_in_order_partial",
    "Verif.C59_index_never_read",
    "Verif.C59_reordered_series_misassigned",
    "Verif.C59_wrong_shape_returned"
   ],
   "note": "Exact description of what is returned and printed, and readiness for simulate when nothing is printed, proved for every declared model. False of the code: pandas labels are never read, a re-ordered Series is assigned by position silently (C59_reordered_series_misassigned), and mis-shaped data is returned after the message and can shift into another variable (C59_wrong_shape_returned). Series and DataFrames that list the labels in the order of the model are read label by label (C59_series_in_order_partial, C59_frame_in_order_partial)."
  },
  {
   "property": "C60",
   "status": "proved",
   "theorems": [
    "Verif.C60_pytensor_jacobian",
    "Verif.C60_backends_agree",
    "Verif.C60_pytensor_gradient",
    "Verif.C60_objective_gradient",
    "Verif.C60_hessp_routes_agree"
   ],
   "note": "The partial derivatives themselves are the libraries' (contract as hypothesis); block reshaping, concatenation and flat order are modelled and proved for every list of shapes. The Hessian-vector product is over the reals for twice continuously differentiable objectives."
  },
  {
   "property": "C61",
   "status": "partial",
   "theorems": [
    "Verif.C61_refusals",
    "Verif.C61_together_partial",
    "Verif.C61_together_scalars_partial",
    "Verif.C61_together_scalar_groups",
    "Verif.C61_together_iff",
    "Verif.C61_panels_partial",
    "Verif.C61_pct_not_above_threshold",
    "Verif.C61_groups",
    "Verif.C61_group_weighted_average",
    "Verif.C61_pct_reads_back",
    "Verif.C61_after_optimizer_partial",
    "Verif.C61_scalar_raises",
    "Verif.C61_negative_initial_counterexample"
   ],
   "note": "Full for variables with dims and documented metrics, percentage bars only above the threshold; in separate panels and, for equal dims, in one panel (plot_together). Counterexample: a negative initial value is drawn as unchanged; variables without dims raise in panels of their own (reading of xarray: DataArray has no to_dataarray) but are drawn together. Not modelled: coords selection, drawing."
  },
  {
   "property": "C62",
   "status": "partial",
   "theorems": [
    "Verif.C62_refusals",
    "Verif.C62_lengths_refused",
    "Verif.C62_one_dim_partial",
    "Verif.C62_several_variables_unlabelled",
    "Verif.C62_two_dims_counterexample",
    "Verif.C62_string_is_split"
   ],
   "note": "Full for one variable with one dim. Proved false for several variables (always fewer labels than areas), for two dims and for a string name."
  },
  {
   "property": "C64",
   "status": "partial",
   "theorems": [
    "Verif.C64_total_differential",
    "Verif.C64_clash_counterexample",
    "Verif.C64_np_counterexample"
   ],
   "note": "C64_total_differential proves the statement for models none of whose names is another's with _0 behind it (and none is exog_inputs or endog_inputs), for every replacement order; C64_clash_counterexample shows that with a and a_0 the step is wrong, C64_np_counterexample that a parameter called np makes every step fail. Taken as given: np.linalg.solve returns a solution, sympy's printing and cse are exact."
  },
  {
   "property": "C63",
   "status": "partial",
   "theorems": [
    "Verif.C63_reports",
    "Verif.C63_success_partial",
    "Verif.C63_solved_success_partial",
    "Verif.C63_refusals",
    "Verif.C63_no_root_flagged",
    "Verif.C63_small_scale_counterexample",
    "Verif.C63_refusal_kinds"
   ],
   "note": "C63_reports and C63_refusals prove the listing and the raising; the flag is proved up to the code's tolerance (C63_success_partial) and, in the other direction, when solving single equations finds the solution (C63_solved_success_partial). C63_small_scale_counterexample shows success can be True without any solution existing; C63_no_root_flagged that the made-up zero of C38 is flagged for coefficients of ordinary size."
  },
  {
   "property": "C65",
   "status": "partial",
   "theorems": [
    "Verif.C65_keywords",
    "Verif.C65_incomplete_marker",
    "Verif.C65_descriptions",
    "Verif.C65_table_partial",
    "Verif.C65_unknown_raises",
    "Verif.C65_same_name_counterexample",
    "Verif.C65_dims_counterexample"
   ],
   "note": "C65_table_partial: rows, order, descriptions and result columns for every model and name list when the results have different names (none Symbol or Description) and a row per name; C65_descriptions for the markers; C65_unknown_raises. False otherwise: two results of one name (C65_same_name_counterexample), variables with dims (C65_dims_counterexample)."
  },
  {
   "property": "C66",
   "status": "proved",
   "theorems": [
    "Verif.C66_numba_converges"
   ],
   "note": "C66_numba_converges: the whole chain from the symbolic equations (symbolic derivatives, renaming, binding of the generated functions' arguments, linear solve, loop, packing into arrays) to the values returned. Over the reals; np.linalg.solve is exact and raises on singular matrices; sympy's printing and cse are exact. Name clashes are C64_clash_counterexample."
  },
  {
   "property": "C67",
   "status": "partial",
   "theorems": [
    "Verif.C67_cvxpy_partial",
    "Verif.C67_scipy_partial",
    "Verif.C67_negative_counterexample",
    "Verif.C67_solvable"
   ],
   "note": "Proved with an explicit error bound for balanced SAMs in which the mirror cell of each negative entry is zero: the result is total/(sum of absolute values) times the input, so it is the input exactly when there is no negative entry. C67_negative_counterexample: with any negative entry, and any vector meeting the constraints, the result differs from the input. Real arithmetic, exact solver."
  },
  {
   "property": "C68",
   "status": "proved",
   "theorems": [
    "Verif.C68_unique",
    "Verif.C68_exists"
   ],
   "note": "C68_unique: any two exact solvers give the same matrix, for every SAM with a nonzero total and the same labels in the same order. C68_exists: there is a solution whenever the constraints can be met (positive total, no mirrored negative entries). Real arithmetic."
  },
  {
   "property": "C69",
   "status": "partial",
   "theorems": [
    "Verif.C69_numba_partial",
    "Verif.C69_numba_first_dim",
    "Verif.C69_pytensor_partial",
    "Verif.C69_backends_agree",
    "Verif.C69_default_counterexample",
    "Verif.C69_output_price_counterexample",
    "Verif.C69_input_price_counterexample",
    "Verif.C69_bad_dims"
   ],
   "note": "Proved for both backends when sum_dim is the first dimension and the arguments are names: C69_numba_partial, C69_pytensor_partial (the emitted text is tokenized and parsed; arrays follow numpy broadcasting, indexed symbols are evaluated at index values), C69_backends_agree. False as documented in four ways: the default sum_dim is the last dimension, which sums over the outputs (C69_default_counterexample); the numba text does not put the output price in parentheses (C69_output_price_counterexample); the slice [:, None] binds tighter than a product in the input price (C69_input_price_counterexample); with outputs declared over the first dimension, which transpose_output provides for, the demands use the output of the wrong index (C69_numba_first_dim). Missing: composite arguments where they are harmless, sympy's parser transformations (read as Python)."
  },
  {
   "property": "C70",
   "status": "proved",
   "theorems": [
    "Verif.C70_compiles_iff",
    "Verif.C70_keywords",
    "Verif.C70_duplicate_inputs",
    "Verif.C70_system",
    "Verif.C70_jacobian",
    "Verif.C70_objective",
    "Verif.C70_gradient",
    "Verif.C70_hessian",
    "Verif.C70_agrees_with_numba",
    "Verif.C70_shared_name_counterexample"
   ],
   "note": "C70_compiles_iff gives the exact condition under which the default backend compiles and that every refusal is a ValueError; C70_system, C70_jacobian, C70_objective, C70_gradient, C70_hessian describe the compiled functions called through the scipy wrapper; C70_agrees_with_numba shows the numba code evaluates at the same point. The hypothesis that no two scalars share a name is needed: C70_shared_name_counterexample is a model with distinct object names in which the two backends read different arrays. External: as_tensor gives one scalar input per symbol, graph_replace replaces inputs, a compiled function computes its graph. Sparse matrices, the Euler step (C19, C66) and JAX's array cast are not part of this claim."
  },
  {
   "property": "C71",
   "status": "partial",
   "theorems": [
    "Verif.C71_scalar_equations_partial",
    "Verif.C71_residuals_partial",
    "Verif.C71_numeraire_singular",
    "Verif.C71_numeraire_under_sum_counterexample",
    "Verif.C71_numeraire_other_index_counterexample",
    "Verif.C71_reduction_refused"
   ],
   "note": "C71_scalar_equations_partial / C71_residuals_partial: proved for equations whose reductions are plain (as in C35), labels that fit their position (as in C35: a numeral is the number of its own position or of none), clash-free scalar names and a numeraire that occurs only with its own indices and not under a reduction over one of them. Missing: nested reductions (false, C35_nested_counterexample). With a numeraire used otherwise the claim is false (C71_numeraire_under_sum_counterexample, C71_numeraire_other_index_counterexample). C71_numeraire_singular: with a numeraire the square Jacobian always has a zero column. C71_reduction_refused: whatever the expansion of the reductions raises is a ValueError for the user."
  },
  {
   "property": "C72",
   "status": "partial",
   "theorems": [
    "Verif.C72_euler_arrays",
    "Verif.C72_unknown_mode",
    "Verif.C72_report_partial",
    "Verif.C72_root_partial",
    "Verif.C72_minimize_partial",
    "Verif.C72_minimize_counterexample"
   ],
   "note": "Proved for the root finder and the minimizer on the default backend under the contract that a reported success means the residuals (the objective) passed the optimizer's test; for the minimizer this does not make the residuals small (C72_minimize_counterexample). The Euler functions of all back-ends meet the assumption made about them (C72_euler_arrays). Missing: floating point, optimizers whose success test is not a test of the residuals."
  },
  {
   "property": "C73",
   "status": "partial",
   "theorems": [
    "Verif.C73_path_kept",
    "Verif.C73_imbalance_approached",
    "Verif.C73_never_restored",
    "Verif.C73_not_checked",
    "Verif.C73_imbalance_kept",
    "Verif.C73_equilibrium_iff_partial",
    "Verif.C73_check_counterexample"
   ],
   "note": "The documented check is missing: the result without optimizer does not depend on the equations (C73_not_checked) and a start out of equilibrium is accepted silently (C73_check_counterexample). Proved instead: for affine models every start is accepted, the imbalance is carried to the end unchanged and the end is an equilibrium iff the start was; the warning depends on the backend only. For nonlinear models on the backends that differentiate the residuals (default, JAX, scan; Euler or Runge-Kutta steps) the simulated state approaches the end of the path of constant imbalance, the imbalance at the last step approaches that of the initial state, and an equation that is off at the start is off at the end for all large step counts (C73_path_kept, C73_imbalance_approached, C73_never_restored)."
  },
  {
   "property": "C74",
   "status": "proved",
   "theorems": [
    "Verif.C74_simulate_converges"
   ],
   "note": "C74_simulate_converges: the whole chain from the indexed equations and the caller's arguments to the state the Euler pass hands back. Over the reals, no NaN; default, JAX and scan back-ends, error C/n with Euler and C/n^4 with Runge-Kutta steps. Contract for pytensor: the step's matrices are the derivatives of the compiled residual function wherever powers and logarithms are defined, and the linear solve is exact. Equations in the plain form of C71. With a numeraire the matrix is singular (C71_numeraire_singular), so the hypothesis excludes it."
  },
  {
   "property": "C75",
   "status": "partial",
   "theorems": [
    "Verif.C75_backends_agree_partial",
    "Verif.C75_wrong_length",
    "Verif.C75_numeraire_refused",
    "Verif.C75_hessp_refused",
    "Verif.C75_np_counterexample",
    "Verif.C75_unused_counterexample",
    "Verif.C75_undeclared",
    "Verif.C75_root_partial",
    "Verif.C75_minimize_partial",
    "Verif.C75_euler_converges"
   ],
   "note": "C75_backends_agree_partial: all six functions of the numba back-end return what the default back-end returns, for every model both accept whose scalar names are words other than np, exog_inputs, endog_inputs and hess_point. C75_wrong_length: other lengths are refused. C75_root_partial, C75_minimize_partial, C75_euler_converges: the guarantees of C72 and C74 on the numba back-end (the Euler theorem needs no assumption on how derivatives are made, but the call always warns about missing steps). Missing because the code differs: C75_np_counterexample (parameter called np), C75_unused_counterexample (unused parameter), C75_undeclared (undeclared symbol is found at the call, not at compilation), C75_numeraire_refused (numeraire), C75_hessp_refused (just-in-time compilation on)."
  },
  {
   "property": "C76",
   "status": "partial",
   "theorems": [
    "Verif.C76_static",
    "Verif.C76_calls",
    "Verif.C76_missing_entry",
    "Verif.C76_array_residuals_partial",
    "Verif.C76_inputs",
    "Verif.C76_methods",
    "Verif.C76_axes",
    "Verif.C76_shapes_refused",
    "Verif.C76_back_ends_agree_partial",
    "Verif.C76_texts_parse_partial",
    "Verif.C76_accepted",
    "Verif.C76_numeraire_refused",
    "Verif.C76_residual_count",
    "Verif.C76_unused_refused",
    "Verif.C76_pt_refused",
    "Verif.C76_bound_index_kept",
    "Verif.C76_methods_refused",
    "Verif.C76_alignment_counterexample",
    "Verif.C76_pairing_counterexample",
    "Verif.C76_order_counterexample",
    "Verif.C76_missing_marker_counterexample",
    "Verif.C76_entry_stays",
    "Verif.C76_position_counterexample"
   ],
   "note": "Proved for arithmetic on objects with broadcasting, None-indexing, ravel, index replacement by subs, sums and products over whole arrays, sums over one axis and picked entries (C76_array_residuals_partial, C76_back_ends_agree_partial, C76_texts_parse_partial); BackEndsModel2 applies it to all fifteen equations of the repository's test model 2 with its own texts and labels. False for texts whose axes align differently by position and by name: C76_alignment_counterexample, C76_pairing_counterexample, C76_order_counterexample; and for entries picked by position where positions are not labels: C76_position_counterexample, C76_entry_stays. C76_static, C76_calls: the shapes found when compiling are those of every call, which can only raise if an entry is picked that is not there (C76_missing_entry) or the equations have not as many entries as names. Refusals: C76_accepted, C76_numeraire_refused, C76_methods_refused, C76_methods, C76_axes, C76_unused_refused, C76_pt_refused, C76_bound_index_kept. pt functions in array texts are not modelled here."
  },
  {
   "property": "C77",
   "status": "partial",
   "theorems": [
    "Verif.C77_panels",
    "Verif.C77_no_group",
    "Verif.C77_unknown_colours",
    "Verif.C77_only_known",
    "Verif.C77_simulated_partial",
    "Verif.C77_starts_at_star_partial",
    "Verif.C77_start_counterexample",
    "Verif.C77_initial_values_counterexample"
   ],
   "note": "Panels, titles, legends, lines and stars are proved for every result that has the groups asked for (C77_panels); the figure of a complete simulation is tied to the Euler states, the caller's initial state and the optimizer's answer (C77_simulated_partial, when no number is NaN); refusals are exact up to the kept rows (C77_no_group, C77_only_known, C77_unknown_colours). Two parts are false of the code: with the python loops of the pytensor and jax back-ends the line starts one step after the star (C77_start_counterexample; for the other back-ends C77_starts_at_star_partial), and initial_values is never used (C77_initial_values_counterexample). Colours and drawing are not modelled."
  },
  {
   "property": "C78",
   "status": "partial",
   "theorems": [
    "Verif.C78_euler_rows",
    "Verif.C78_euler_partial",
    "Verif.C78_optimizer",
    "Verif.C78_no_warning_found",
    "Verif.C78_mixed_counterexample",
    "Verif.C78_false_success_counterexample",
    "Verif.C78_no_step"
   ],
   "note": "C78_euler_rows says, for every pattern of NaNs, which rows are checked: the variables of the last row without NaN among the variables, with the parameters of the last row without NaN among the parameters. C78_euler_partial: without NaNs this is the state after the last step at exactly the requested parameters. C78_optimizer and C78_no_warning_found: the optimizer part, and what the absence of a warning means for the check. False in general: with a NaN in the variables of the last step the check mixes two steps. It can miss an equilibrium (C78_mixed_counterexample) and report one where no kept step is one (C78_false_success_counterexample). Passing result['optim_res'] is not modelled: the check reads its field args, which simulate does not set."
  },
  {
   "property": "C79",
   "status": "partial",
   "theorems": [
    "Verif.C79_result_partial",
    "Verif.C79_result_optimizer_counterexample",
    "Verif.C79_result_never",
    "Verif.C79_calibrated_iff",
    "Verif.C79_dataset_counterexample"
   ],
   "note": "Without the optimizer a Result does exactly what the dict of the same names and numbers does (C79_result_partial). The rest of the statement is false of the code: with the optimizer (the default) the Result raises TypeError after everything has been computed, because the labelling subscripts it (C79_result_optimizer_counterexample, C79_result_never); the Result of calibrate is refused exactly when some object has dims or there is a numeraire (C79_calibrated_iff); a Dataset is always refused (C79_dataset_counterexample)."
  },
  {
   "property": "C80",
   "status": "partial",
   "theorems": [
    "Verif.C80_stages_affine",
    "Verif.C80_there_and_back_affine",
    "Verif.C80_near_partial",
    "Verif.C80_stages_partial",
    "Verif.C80_there_and_back_partial",
    "Verif.C80_there_and_back_counterexample",
    "Verif.C80_near_numba_partial",
    "Verif.C80_stages_numba_partial",
    "Verif.C80_there_and_back_numba_partial"
   ],
   "note": "Exact for affine models on every back-end and with any numbers of steps (C80_stages_affine, C80_there_and_back_affine). For nonlinear models exactness is false at every number of steps (C80_there_and_back_counterexample); proved instead, for smooth models on every back-end, are stages, there-and-back and slightly wrong starts up to C(eps + 1/n) with Euler and C(eps + 1/n^4) with Runge-Kutta steps (C80_*_partial). The optimizer is not part of these theorems; with it C53 and C70 say which equilibrium is returned."
  },
  {
   "property": "C81",
   "status": "proved",
   "theorems": [
    "Verif.C81_leontief2_numba",
    "Verif.C81_leontief2_pytensor",
    "Verif.C81_cobb_douglass",
    "Verif.C81_cobb_douglass_shares",
    "Verif.C81_ces",
    "Verif.C81_leontief",
    "Verif.C81_dixit_stiglitz"
   ],
   "note": "For both forms of the first equation, all back-ends and options. C81_cobb_douglass needs shares that add up to one; C81_cobb_douglass_shares shows that the production function scales exactly in that case. C81_leontief2_numba and C81_leontief2_pytensor are the two-dimensional Leontief form (one name with two dims)."
  },
  {
   "property": "C82",
   "status": "partial",
   "theorems": [
    "Verif.C82_ces",
    "Verif.C82_cobb_douglass",
    "Verif.C82_leontief",
    "Verif.C82_dixit_stiglitz_partial",
    "Verif.C82_dixit_stiglitz_inverted"
   ],
   "note": "Proved for CES, cobb_douglass, leontief and for dixit_stiglitz with TFP. False of dixit_stiglitz without TFP: the elasticity is -epsilon (C82_dixit_stiglitz_inverted), so more is demanded of what has become dearer."
  },
  {
   "property": "C83",
   "status": "proved",
   "theorems": [
    "Verif.C83_simulate",
    "Verif.C83_rewritten",
    "Verif.C83_solutions",
    "Verif.C83_objective",
    "Verif.C83_check",
    "Verif.C83_scaled_check_counterexample",
    "Verif.C83_sums",
    "Verif.C83_sums_imbalances",
    "Verif.C83_limits_counterexample"
   ],
   "note": "C83_rewritten: two models with the same objects and equations in any order, equations possibly rewritten, each on any back-end, both with Euler or both with Runge-Kutta steps: if the Euler pass of one returns, simulate returns for both and all states agree by name (C83_simulate: the same for any fixed invertible recombination of the equations). C83_solutions, C83_objective, C83_check: same solutions, objective and verdict. The verdict does change when an equation is multiplied by a number (C83_scaled_check_counterexample). Over the reals, plain indexed equations of C71, powers and logarithms defined at the points at which a direction is solved for (EulerBackend.points: the states, and with Runge-Kutta the intermediate points), linear solves exact; for the back-ends that differentiate graphs the contract of C74 that its matrices are the derivatives. Which of several solutions an optimizer returns is not covered. C83_sums, C83_sums_imbalances: equations whose sums and products are written differently (limits in another order, sum of two terms or product of two factors split, a factor without the summation index taken out) are the same equations, off by the same amounts, so C83_rewritten and C83_solutions apply; C83_limits_counterexample: the indices of the limits have to be distinct. Joining a sum of sums keeps the value; the models of C71 have no nested sums."
  },
  {
   "property": "C84",
   "status": "partial",
   "theorems": [
    "Verif.C84_leontief2_numba",
    "Verif.C84_leontief2_pytensor",
    "Verif.C84_cobb_douglass",
    "Verif.C84_cobb_douglass_shares",
    "Verif.C84_ces",
    "Verif.C84_cet",
    "Verif.C84_leontief",
    "Verif.C84_dixit_stiglitz_partial",
    "Verif.C84_dixit_stiglitz_inverted"
   ],
   "note": "Proved as an equivalence (equations hold iff profits are maximal) for the generated texts of cobb_douglass with the production function, CES with both first equations, its constant-elasticity-of-transformation variant, one-dimensional and two-dimensional leontief (the latter with sum_dim the first dim, on both back-ends, as in C69), and dixit_stiglitz with TFP. False of dixit_stiglitz without TFP, whose demand is inverted (C84_dixit_stiglitz_inverted), and of cobb_douglass with shares adding up to more than one, where no maximum exists (C84_cobb_douglass_shares)."
  },
  {
   "property": "C85",
   "status": "partial",
   "theorems": [
    "Verif.C85_unit_elasticity",
    "Verif.C85_limit_partial",
    "Verif.C85_production_at_one",
    "Verif.C85_value_shares",
    "Verif.C85_ratio_counterexample"
   ],
   "note": "True of the demands and of the blocks with the value definition (C85_unit_elasticity), of the value shares (C85_value_shares) and in the limit (C85_limit_partial). False of the production function at elasticity one itself, which says that the output is the technology parameter whatever the factors are (C85_production_at_one); and the docstring's sentence on ratios of inputs and prices is false (C85_ratio_counterexample)."
  },
  {
   "property": "C86",
   "status": "partial",
   "theorems": [
    "Verif.C86_piecewise_partial",
    "Verif.C86_piecewise_formula",
    "Verif.C86_max_partial",
    "Verif.C86_max_many",
    "Verif.C86_log",
    "Verif.C86_dirac"
   ],
   "note": "True of piecewise expressions whose pieces are numbers (C86_piecewise_partial), of Max with two arguments (C86_max_partial), of log and DiracDelta. A piece with a symbol in it raises TypeError when it is printed (C86_piecewise_formula); Max with three or more arguments calls numpy.maximum with a number in the place of the output array and raises (C86_max_many). The texts of the arguments come from sympy's printer and are inputs."
  },
  {
   "property": "C87",
   "status": "partial",
   "theorems": [
    "Verif.C87_value",
    "Verif.C87_meaning",
    "Verif.C87_gradient_partial",
    "Verif.C87_gradient_original",
    "Verif.C87_gradient_counterexample"
   ],
   "note": "Values are unchanged for every shape and every set of axes (C87_value). After the rewrite the derivative with respect to a factor is computed exactly when that factor is not zero, and is right then (C87_gradient_partial); at a zero the graph divides by zero although the derivative exists (C87_gradient_counterexample). That pytensor refuses a replacement with another number of dimensions, and the two formulas of Prod.L_op, are pytensor's and are written down in Model/ProdRewrite."
  },
  {
   "property": "C88",
   "status": "partial",
   "theorems": [
    "Verif.C88_cells_partial",
    "Verif.C88_two_levels_fit",
    "Verif.C88_refused",
    "Verif.C88_equation_table",
    "Verif.C88_equation_table_counterexample",
    "Verif.C88_three_levels_counterexample",
    "Verif.C88_empty_group"
   ],
   "note": "True whenever the heading rows have the width of the table (C88_cells_partial), in particular for columns with at most one level of subcolumns, which is all that the package makes (C88_two_levels_fit); refusals in C88_refused; C88_equation_table for the sympy back-ends. False of deeper dictionaries, where the headings do not fit and the table is refused (C88_three_levels_counterexample), and of equation_table on the pytensor back-end, which raises AttributeError (C88_equation_table_counterexample)."
  },
  {
   "property": "C89",
   "status": "partial",
   "theorems": [
    "Verif.C89_names",
    "Verif.C89_lists_partial",
    "Verif.C89_without_dims",
    "Verif.C89_singleton_counterexample",
    "Verif.C89_mixed_counterexample",
    "Verif.C89_dims_string_counterexample",
    "Verif.C89_unknown_dims"
   ],
   "note": "True of strings (C89_names), of lists that are not of length one (C89_lists_partial), of unknown dims (C89_unknown_dims) and without dims or coords (C89_without_dims). False of a list of one name, which is expanded although the docstring says that lists come back unchanged (C89_singleton_counterexample), of a string beside a list, which raises TypeError (C89_mixed_counterexample), and of a dim given as a string of several letters (C89_dims_string_counterexample)."
  },
  {
   "property": "C90",
   "status": "partial",
   "theorems": [
    "Verif.C90_refused",
    "Verif.C90_refused_kind",
    "Verif.C90_passed",
    "Verif.C90_no_gradient_counterexample",
    "Verif.C90_objective_grad",
    "Verif.C90_objective_hess",
    "Verif.C90_objective_hessp",
    "Verif.C90_constraint_two_grad",
    "Verif.C90_constraint_one_grad_partial",
    "Verif.C90_constraint_one_counterexample",
    "Verif.C90_first_order_iff",
    "Verif.C90_first_order_counterexample"
   ],
   "note": "Proved: which calls are refused, which derivatives are passed on, and that gradient, Hessian and Hessian-vector product of the cross entropy and the gradient of the second constraint are right at every vector within the bounds. The gradient of the first constraint (a sum of absolute values) is right on the diagonal and where both accounts are out of balance; at every balanced vector the constraint has no derivative and the gradient handed over is zero (C90_constraint_one_counterexample), so the exact solution fails the first-order condition (C90_first_order_counterexample). trust-constr with use_grad=False is refused unless use_hessp is switched off too (C90_no_gradient_counterexample). pytensor's differentiation rules are taken as formulas."
  },
  {
   "property": "C91",
   "status": "partial",
   "theorems": [
    "Verif.C91_zero_partial",
    "Verif.C91_rmse_iff",
    "Verif.C91_rmse_counterexample",
    "Verif.C91_progress",
    "Verif.C91_progress_harmless",
    "Verif.C91_print_partial",
    "Verif.C91_print_counterexample",
    "Verif.C91_print_by_name",
    "Verif.C91_print_optimizer_result",
    "Verif.C91_statistics"
   ],
   "note": "Proved: which state each figure belongs to, that showing figures leaves the recorded states alone and cannot stop a run unless the statistic raises, and that the figure called RMSE is zero exactly at an equilibrium. False in full: the figure is the sum of squares, because it is divided by min(1, size) (C91_rmse_iff says exactly when the two agree), and print_residuals works with the numba back-end but raises on the tensor back-ends (C91_print_counterexample). Formatting of numbers and the norm of the gradient are not modelled."
  },
  {
   "property": "C92",
   "status": "partial",
   "theorems": [
    "Verif.C92_request",
    "Verif.C92_simulate",
    "Verif.C92_solutions",
    "Verif.C92_check_counterexample"
   ],
   "note": "C92_simulate: one model built for any back-end, with Euler or Runge-Kutta steps, residuals of a converted state a fixed invertible combination of the residuals on a set of states in which each number can be moved a little (all states, or the positive ones: movable_all, movable_pos): if the Euler pass of the first call returns, both simulate calls return and every state and the final state of the second is the conversion of the first. C92_request: new values and offsets converted and relative changes kept ask for converted values. C92_solutions: solutions correspond. The verdict of check_for_equilibrium does depend on the units (C92_check_counterexample), so that part is false. Over the reals, same contracts as C83; optimizers not covered."
  },
  {
   "property": "C93",
   "status": "partial",
   "theorems": [
    "Verif.C93_members",
    "Verif.C93_row_major_partial",
    "Verif.C93_number_counterexample",
    "Verif.C93_enumerate",
    "Verif.C93_sub_dict_partial",
    "Verif.C93_sub_dict_counterexample",
    "Verif.C93_expand_var",
    "Verif.C93_expand_var_defaults",
    "Verif.C93_model_coords_counterexample"
   ],
   "note": "Proved: exactly the instances are returned (C93_members, C93_enumerate); in row-major order and the documented number when no two instances coincide (C93_row_major_partial); one entry per expression in the dictionary (C93_sub_dict_partial); _expand_var_by_index gives the objects and the order of expand_obj_by_indices (C93_expand_var). False in general: coinciding instances are sometimes dropped and sometimes kept (C93_number_counterexample), two expressions can get one symbol (C93_sub_dict_counterexample), _expand_var_by_index forgets declared assumptions (C93_expand_var_defaults) and refuses coordinates with a dim that the object lacks (C93_model_coords_counterexample)."
  },
  {
   "property": "C94",
   "status": "partial",
   "theorems": [
    "Verif.C94_enough_partial",
    "Verif.C94_nothing_compiled",
    "Verif.C94_missing_raises",
    "Verif.C94_kinds"
   ],
   "note": "Proved: with every function that the call uses compiled, simulate does the same (C94_enough_partial). False otherwise: nothing is compiled on demand; with nothing compiled every computing call raises AttributeError (C94_nothing_compiled), with something missing every computing call raises and writes nothing (C94_missing_raises), in which way is in C94_kinds."
  },
  {
   "property": "C95",
   "status": "partial",
   "theorems": [
    "Verif.C95_greek",
    "Verif.C95_latex_injective",
    "Verif.C95_latex_kept",
    "Verif.C95_words_partial",
    "Verif.C95_words_counterexample",
    "Verif.C95_alphabet",
    "Verif.C95_accepted",
    "Verif.C95_updates",
    "Verif.C95_update_refused",
    "Verif.C95_distinct_partial",
    "Verif.C95_distinct_counterexample",
    "Verif.C95_extend",
    "Verif.C95_extend_braces",
    "Verif.C95_extend_all",
    "Verif.C95_underscore",
    "Verif.C95_description_partial",
    "Verif.C95_default_description_counterexample",
    "Verif.C95_relabel_counterexample",
    "Verif.C95_default_description"
   ],
   "note": "C95_greek says exactly where backslashes are put, C95_latex_injective and C95_latex_kept that nothing else changes, C95_updates that labels given one after the other display like labels given at once, C95_extend/_extend_all/_extend_braces what extend_subscript does. False of the code: the Greek pattern has no right border (numeraire is displayed as the command \\\\numeraire, C95_words_counterexample; C95_words_partial for words that are Greek letters or do not begin with one); with extend_subscript different objects can look alike (C95_distinct_counterexample; C95_distinct_partial without it); a default description is never renewed (C95_default_description, with counterexample) and a second label for a dim leaves the first in the description (C95_relabel_counterexample; C95_description_partial otherwise). C95_underscore: every name with an underscore is set as text, underscore included. C95_alphabet: the words given a backslash are the twenty-four Greek letters, with small or capital initial, and varepsilon. The list of Greek words is that of sympy.abc (trusted)."
  },
  {
   "property": "C96",
   "status": "partial",
   "theorems": [
    "Verif.C96_independent_partial",
    "Verif.C96_declared",
    "Verif.C96_updated",
    "Verif.C96_copied",
    "Verif.C96_agrees_partial",
    "Verif.C96_given_assumptions",
    "Verif.C96_written_label",
    "Verif.C96_shared_labels_counterexample",
    "Verif.C96_shared_assumptions_counterexample"
   ],
   "note": "False of the code in general: both dictionaries are kept by reference, so two objects declared with one dim_vals dictionary share their labels (C96_shared_labels_counterexample: the symbol of the second gets the label of the first, its displayed name does not) and two objects declared with one assumptions dictionary share their assumptions (C96_shared_assumptions_counterexample: a variable declared with positive=False has a positive symbol after another one was declared). C96_independent_partial and C96_agrees_partial: the full property for every sequence of commands in which no dictionary is handed to an object while another object has it, nor written to by the caller while an object has it. C96_declared, C96_updated, C96_copied say what each command does; C96_given_assumptions and C96_written_label say exactly which of the caller's dictionaries are changed (the flags are written into the given assumptions, even if the declaration is refused). Not modelled: one dictionary for both attributes; an empty list passed as dims, which is kept by reference too."
  },
  {
   "property": "C97",
   "status": "partial",
   "theorems": [
    "Verif.C97_default_functions",
    "Verif.C97_numba_functions_partial",
    "Verif.C97_numba_compiled_counterexample",
    "Verif.C97_all_back_ends_partial",
    "Verif.C97_jax_functions",
    "Verif.C97_no_elements",
    "Verif.C97_texts",
    "Verif.C97_pytensor_functions",
    "Verif.C97_ops",
    "Verif.C97_same_on_both",
    "Verif.C97_texts_pytensor",
    "Verif.C97_pytensor_names"
   ],
   "note": "False as stated on one point: when numba compiles it, the Hessian-vector product is refused (C97_numba_compiled_counterexample). C97_all_back_ends_partial: a model written once as array texts and once as indexed texts: wherever its scalar equations are regular, the six functions of all four back-ends return the residuals the indexed equations demand, half their sum of squares and the exact derivatives (numba's Hessian-vector product uncompiled). C97_default_functions, C97_numba_functions_partial: the same for any scalar equations; C97_jax_functions, C97_pytensor_functions: for every residual function, wherever it is differentiable; C97_same_on_both; C97_ops: the pytensor Ops; C97_texts, C97_texts_pytensor: models written as array texts; C97_no_elements: nothing to solve for is refused. The library contracts (Spec/JaxFns JaxExact, Spec/PytensorFns PtExact) are hypotheses; exactLib_exact and exactPt_exact show they can be met. That a compiled function can be called with its inputs by position or by name is part of the model (callPositional, callInputs). C97_pytensor_names: the pytensor functions take the variables and parameters under their own names and refuse missing or unknown names."
  },
  {
   "property": "C98",
   "status": "partial",
   "theorems": [
    "Verif.C98_equations_partial",
    "Verif.C98_every_equation",
    "Verif.C98_names_needed",
    "Verif.C98_rows",
    "Verif.C98_conversion",
    "Verif.C98_marks_counterexample",
    "Verif.C98_caption_counterexample"
   ],
   "note": "Full for the rows of tables, the refusals and the conversion line by line; the printed text determines the equations when names, formulas and numbers do not contain the marks that end them (counterexamples otherwise). sympy's latex and str are parameters; texttable and latextable are not modelled."
  },
  {
   "property": "C99",
   "status": "partial",
   "theorems": [
    "Verif.C99_registered",
    "Verif.C99_listings",
    "Verif.C99_unpacked_unchanged",
    "Verif.C99_not_the_same",
    "Verif.C99_added_variable",
    "Verif.C99_added_equation",
    "Verif.C99_added_variable_numba"
   ],
   "note": "Full for what is registered (C99_registered) and for the listings of constructed models (C99_listings). False for everything that is unpacked at construction: no later call changes it (C99_unpacked_unchanged), so a model with at least one scalar variable never equals the one built step by step (C99_not_the_same); the consequences for get_symbol, the pytensor and the numba back-end are C99_added_variable, C99_added_equation, C99_added_variable_numba. Parsing of equations is a parameter."
  },
  {
   "property": "C100",
   "status": "partial",
   "theorems": [
    "Verif.C100_latex_partial",
    "Verif.C100_description_partial",
    "Verif.C100_line_break",
    "Verif.C100_entries",
    "Verif.C100_get_info",
    "Verif.C100_get_info_counterexample",
    "Verif.C100_latex_counterexample",
    "Verif.C100_description_counterexample"
   ],
   "note": "False as stated: an index is also replaced inside labels and words that begin or end with it (C100_latex_counterexample), and stays in a description at the beginning, before punctuation or twice in succession (C100_description_counterexample); get_info misses symbols with assumptions and confuses names with underscores (C100_get_info_counterexample). C100_latex_partial, C100_description_partial: if no index can be mistaken, all indices in sub- and superscripts, and all words of the description but the first, are replaced at once and nothing else changes. C100_line_break: a line break at the end of a description changes nothing. C100_entries: one dictionary for each, refusals. C100_get_info: values by sector. Indices with characters special in regular expressions and labels with backslashes are not modelled; sympy's subs on indices is a parameter."
  },
  {
   "property": "C101",
   "status": "partial",
   "theorems": [
    "Verif.C101_solutions",
    "Verif.C101_simulate",
    "Verif.C101_argument"
   ],
   "note": "C101_solutions: fixing another nominal variable divides the nominal variables of every solution by one number and changes nothing else. C101_simulate: the same for what simulate reports, up to C/n (C/n^4 with Runge-Kutta steps); the second Jacobian is shown to be invertible, not assumed. C101_argument: numeraire=N in addition to the equation N = 1 has the same solutions. Missing: the rate is for back-ends that differentiate the residual graph and needs equations that are differentiable on the rescaled path too; numéraires with dims; simulate with numeraire=N, where the Jacobian has a zero column (C71_numeraire_singular)."
  },
  {
   "property": "C102",
   "status": "partial",
   "theorems": [
    "Verif.C102_solutions",
    "Verif.C102_simulate",
    "Verif.C102_residual",
    "Verif.C102_residual_moved",
    "Verif.C102_left_out"
   ],
   "note": "C102_solutions: equivalent equations have the same solutions. C102_simulate: simulate reports the same up to C/n (C/n^4 with Runge-Kutta steps); the Jacobian of the second form is shown to be invertible, not assumed. C102_residual: with Walras' law the residual is zero in every solution. C102_residual_moved, C102_left_out: moving the residual or leaving out another equation gives an equivalent system. Examples with model 1 of the tests. Missing: the rate is for back-ends that differentiate the residual graph, and both forms have to be differentiable on the path; a residual in an equation with free indices; the optimizer, whose steps depend on the form of the equations."
  },
  {
   "property": "C103",
   "status": "proved",
   "theorems": [
    "Verif.C103_solutions",
    "Verif.C103_simulate",
    "Verif.C103_returns",
    "Verif.C103_report",
    "Verif.C103_indexed_report"
   ],
   "note": "C103_solutions: the solutions. C103_simulate: if the larger model's Euler function returns, simulate returns for both and every array of the smaller model is the same at every step. C103_returns: if the smaller model's Euler function returns and the derivative of the new equations with respect to the new variables is invertible at the points reached, the larger one returns, with the same arrays. C103_report: for one equation Z = formula the invertibility is proved; C103_indexed_report: the same for a report with dims (in the order of coords), one equation Z[i] = formula for every label. Exact, not up to a rate; for the Euler back-ends that differentiate the residual graph, in real arithmetic; with the optimizer switched off."
  },
  {
   "property": "C104",
   "status": "proved",
   "theorems": [
    "Verif.C104_simulate",
    "Verif.C104_equations",
    "Verif.C104_objective",
    "Verif.C104_check",
    "Verif.C104_part_counterexample"
   ],
   "note": "C104_equations: the scalar equations, by name, are off by the same amounts, so the solutions are the same. C104_objective, C104_check: the same objective and the same verdict with the same flagged equations. C104_simulate: if the Euler function of one returns, simulate returns for both and all states have the same entries for the same labels; the two may be on different back-ends, both with Euler or both with Runge-Kutta steps. Hypothesis: every sum and product ranges over all labels; C104_part_counterexample shows that it is needed. Over the reals, plain indexed equations of C71, both models satisfying its conditions (a label that is a number has to stand at its own position, in both orders), linear solves exact, powers and logarithms defined at the points of the path. Which of several solutions an optimizer returns is not covered."
  },
  {
   "property": "C105",
   "status": "proved",
   "theorems": [
    "Verif.C105_equations",
    "Verif.C105_simulate",
    "Verif.C105_objective",
    "Verif.C105_check",
    "Verif.C105_collision_counterexample"
   ],
   "note": "C105_equations: the equations are off by the same amounts, one by one. C105_objective: the same objective. C105_check: the same verdict, the same errors. C105_simulate: if the Euler function of one returns, simulate returns for both, all states are the same and every final array is found under its new name; the two may be on different back-ends, both with Euler or both with Runge-Kutta steps. The new names have to satisfy the conditions of C71; C105_collision_counterexample shows what happens when T is renamed to the name of a scalar of X. Sums over part of the labels are covered, since positions stay. Over the reals, linear solves exact, powers and logarithms defined at the points of the path. Which of several solutions an optimizer returns is not covered."
  },
  {
   "property": "C106",
   "status": "proved",
   "theorems": [
    "Verif.C106_equations",
    "Verif.C106_simulate",
    "Verif.C106_alike",
    "Verif.C106_objective",
    "Verif.C106_check",
    "Verif.C106_picked_label_counterexample"
   ],
   "note": "C106_equations: at the mirror image of a state the equations are off by the same amounts up to their order, so the mirror image of an equilibrium is an equilibrium. C106_simulate: if the Euler function returns for a request, simulate returns for it and for its mirror image, and all states and the results are each other's mirror image; C106_alike: states that start alike and are shocked alike stay alike at every step. The exchange may be any injective map of labels that permutes the labels of each dim. Hypotheses: no equation picks a label that is moved (C106_picked_label_counterexample shows that this is needed), every sum and product ranges over all labels. Over the reals, plain indexed equations of C71, linear solves exact, powers and logarithms defined at the points of the path and at their mirror images. An optimizer may return a solution that favours one of the labels; this is not covered. C106_objective, C106_check: at the mirror image of a state the minimizer sees the same objective, and check_for_equilibrium gives the same verdict and, up to their order, the same errors."
  },
  {
   "property": "C107",
   "status": "proved",
   "theorems": [
    "Verif.C107_number_solutions",
    "Verif.C107_fixed_solutions",
    "Verif.C107_number",
    "Verif.C107_fixed",
    "Verif.C107_number_objective",
    "Verif.C107_fixed_objective",
    "Verif.C107_number_returns",
    "Verif.C107_fixed_returns"
   ],
   "note": "C107_number_solutions, C107_fixed_solutions: the states that solve the models. C107_number: if the Euler function of the model with the parameter returns, simulate returns for both, and every array is the same at every step. C107_fixed: if the Euler function of the model with the fixed variable returns, simulate returns for both, every other array is the same and z = p at every step. C107_number_returns, C107_fixed_returns: the other direction; if the Euler function of the model with the number, or with the parameter alone, returns, so does that of the other model, with the same states. The parameter concerned is the last one (the order of declarations is C83) and the fixed variable and its equation come last; the dims of p are in the order of the coords. The two models may be on different back-ends, both with Euler or both with Runge-Kutta steps. Over the reals, linear solves exact, powers and logarithms defined at the points of the path of both models; with the optimizer switched off. C107_number_objective: the minimizer is given the same objective. C107_fixed_objective: with z = w and p = u, the objective of the model with the fixed variable is that of the other model with p = w plus half the squared distance of w and u."
  },
  {
   "property": "C108",
   "status": "proved",
   "theorems": [
    "Verif.C108_equations",
    "Verif.C108_simulate",
    "Verif.C108_objective",
    "Verif.C108_check"
   ],
   "note": "C108_equations: the equations are off by the same amounts, one by one. C108_objective: the same objective. C108_check: the same verdict, the same errors. C108_simulate: if the Euler function of the model with dims returns, simulate returns for both, all states are the same, and every final array of the model with dims has shape (1, ..., 1) and the number that the scalar model returns; the two may be on different back-ends, both with Euler or both with Runge-Kutta steps. Every dim of the coords has one label and all are dropped; every sum and product has the limits (i, 0, 0). The names of the equations are not compared. Over the reals, linear solves exact, powers and logarithms defined at the points of the path. Which of several solutions an optimizer returns is not covered."
  },
  {
   "property": "C109",
   "status": "proved",
   "theorems": [
    "Verif.C109_equations",
    "Verif.C109_simulate",
    "Verif.C109_objective",
    "Verif.C109_check"
   ],
   "note": "C109_equations: the equations written out are off by the same amounts, in the same order. C109_objective: the same objective. C109_check: the same verdict, the same errors. C109_simulate: if the Euler function of the model with dims returns, simulate returns for both, all states are the same, and every final array has as its elements, in order, the scalars that the model written out returns under the names of the elements; the two may be on different back-ends, both with Euler or both with Runge-Kutta steps. EqsWrittenOut fixes how the equations are written out: X_a for X[i], terms of sums and products joined in order. The numeraire has no dims. The names of the equations are not compared. Over the reals, linear solves exact, powers and logarithms defined at the points of the path. Which of several solutions an optimizer returns is not covered."
  },
  {
   "property": "C110",
   "status": "proved",
   "theorems": [
    "Verif.C110_equations",
    "Verif.C110_simulate",
    "Verif.C110_objective",
    "Verif.C110_check",
    "Verif.C110_untransposed_counterexample"
   ],
   "note": "C110_equations: the equations of the transposed model are off by the same amounts, in the same order. C110_objective: the same objective. C110_check: the same report, with the same names and errors. C110_simulate: if the Euler function of the first model returns, simulate returns for both and all states have the same entries for the same labels; the two may be on different back-ends, both with Euler or both with Runge-Kutta steps. Transposes asks that the new dims of each object are its old dims in any order; SameTransposed compares entry by entry, by label. Both models satisfy the conditions of C71. Over the reals, linear solves exact, powers and logarithms defined at the points of the path. Which of several solutions an optimizer returns is not covered. C110_untransposed_counterexample: with as many labels in both dims an array handed over in the old order is accepted and gives other residuals."
  }
 ]
}
