{
 "claims": [
  {
   "property": "C01",
   "status": "proved",
   "theorems": [
    "Verif.C01_from_data_summary",
    "Verif.C01_from_data_empty"
   ],
   "note": ""
  },
  {
   "property": "C02",
   "status": "proved",
   "theorems": [
    "Verif.C02_from_counts_accepts_iff",
    "Verif.C02_from_counts_rejects_valueError",
    "Verif.C02_from_counts_fields",
    "Verif.C02_constructor_with_data_iff"
   ],
   "note": ""
  },
  {
   "property": "C03",
   "status": "proved",
   "theorems": [
    "Verif.C03_discrete_entropy_eq_shannon",
    "Verif.C03_discrete_entropy_rejects"
   ],
   "note": ""
  },
  {
   "property": "C04",
   "status": "proved",
   "theorems": [
    "Verif.C04_discrete_entropy_bounds"
   ],
   "note": ""
  },
  {
   "property": "C05",
   "status": "proved",
   "theorems": [
    "Verif.C05_discrete_entropy_perm",
    "Verif.C05_discrete_entropy_relabel"
   ],
   "note": ""
  },
  {
   "property": "C06",
   "status": "proved",
   "theorems": [
    "Verif.C06_local_entropy",
    "Verif.C06_cross_entropy_no_local"
   ],
   "note": ""
  },
  {
   "property": "C07",
   "status": "proved",
   "theorems": [
    "Verif.C07_reduce_tuple_lossless",
    "Verif.C07_reduce_array_lossless",
    "Verif.C07_codes_range",
    "Verif.C07_reduce_other"
   ],
   "note": ""
  },
  {
   "property": "C08",
   "status": "proved",
   "theorems": [
    "Verif.C08_joint_entropy_eq_rows",
    "Verif.C08_joint_entropy_order",
    "Verif.C08_joint_entropy_bounds",
    "Verif.C08_argument_errors",
    "Verif.C08_no_argument",
    "Verif.C08_unequal_lengths"
   ],
   "note": ""
  },
  {
   "property": "C09",
   "status": "proved",
   "theorems": [
    "Verif.C09_two_bases",
    "Verif.C09_entropy",
    "Verif.C09_discrete_entropy",
    "Verif.C09_discrete_entropy_local",
    "Verif.C09_kld",
    "Verif.C09_jsd",
    "Verif.C09_mi",
    "Verif.C09_mi_not_two",
    "Verif.C09_mi_local",
    "Verif.C09_cmi",
    "Verif.C09_te",
    "Verif.C09_cte",
    "Verif.C09_combinations",
    "Verif.C09_ordinal_entropy",
    "Verif.C09_ordinal_measures",
    "Verif.C09_ordinal_divergences",
    "Verif.C09_kernel_entropy",
    "Verif.C09_kernel_measures",
    "Verif.C09_ksg_measures",
    "Verif.C09_kl_entropy",
    "Verif.C09_renyi",
    "Verif.C09_tsallis_one",
    "Verif.C09_tsallis_ignores_base",
    "Verif.C09_renyi_measures",
    "Verif.C09_tsallis_one_measures",
    "Verif.C09_tsallis_measures_ignore_base",
    "Verif.C09_nsb",
    "Verif.C09_bias",
    "Verif.C09_entropy_base_change"
   ],
   "note": ""
  },
  {
   "property": "C10",
   "status": "proved",
   "theorems": [
    "Verif.C10_log_base",
    "Verif.C10_log_base_negative",
    "Verif.C10_entropy_negative_base"
   ],
   "note": ""
  },
  {
   "property": "C11",
   "status": "proved",
   "theorems": [
    "Verif.C11_mi_is_textbook",
    "Verif.C11_mi_eq_entropy_combination",
    "Verif.C11_small_base_clips_to_zero"
   ],
   "note": ""
  },
  {
   "property": "C12",
   "status": "proved",
   "theorems": [
    "Verif.C12_mi_symm",
    "Verif.C12_mi_le_entropies",
    "Verif.C12_mi_of_injective_image",
    "Verif.C12_mi_relabel",
    "Verif.C12_mi_zero_iff_independent"
   ],
   "note": ""
  },
  {
   "property": "C13",
   "status": "proved",
   "theorems": [
    "Verif.C13_total_correlation_iff",
    "Verif.C13_mi_is_total_correlation",
    "Verif.C13_constant_variable_returns_zero",
    "Verif.C13_constant_variable_violates"
   ],
   "note": "The user's expectation (total correlation for every input) is refuted for constant variables; the theorem states exactly when it holds."
  },
  {
   "property": "C14",
   "status": "proved",
   "theorems": [
    "Verif.C14_no_wrap",
    "Verif.C14_wrap_not_finite",
    "Verif.C14_wrap_witness"
   ],
   "note": "Wrap-around beyond the bound is exhibited by a witness."
  },
  {
   "property": "C15",
   "status": "proved",
   "theorems": [
    "Verif.C15_local_mi_mean"
   ],
   "note": ""
  },
  {
   "property": "C16",
   "status": "proved",
   "theorems": [
    "Verif.C16_cmi_is_textbook",
    "Verif.C16_cmi_eq_entropy_combination",
    "Verif.C16_cmi_joint_condition",
    "Verif.C16_cmi_array_condition",
    "Verif.C16_local_cmi_mean",
    "Verif.C16_argument_errors"
   ],
   "note": ""
  },
  {
   "property": "C17",
   "status": "proved",
   "theorems": [
    "Verif.C17_cmi_n_variables",
    "Verif.C17_three_variables_violates",
    "Verif.C17_complete"
   ],
   "note": "The user's expectation (conditional total correlation) is refuted for three or more variables; the theorem states exactly when it holds."
  },
  {
   "property": "C18",
   "status": "proved",
   "theorems": [
    "Verif.C18_generic_eq_discrete",
    "Verif.C18_counter_eq_discrete",
    "Verif.C18_sparse_eq_contingency",
    "Verif.C18_constant_variable_paths_disagree"
   ],
   "note": ""
  },
  {
   "property": "C19",
   "status": "proved",
   "theorems": [
    "Verif.C19_mm_entropy",
    "Verif.C19_mm_local_mean",
    "Verif.C19_mm_mi_two_variables",
    "Verif.C19_mm_mi_n_variables",
    "Verif.C19_mm_cmi_two_variables",
    "Verif.C19_mm_mi_complete",
    "Verif.C19_mm_cmi_complete"
   ],
   "note": ""
  },
  {
   "property": "C20",
   "status": "proved",
   "theorems": [
    "Verif.C20_embedding",
    "Verif.C20_conditional_embedding",
    "Verif.C20_documented_row_count_is_wrong",
    "Verif.C20_step_size_changes_te"
   ],
   "note": ""
  },
  {
   "property": "C21",
   "status": "proved",
   "theorems": [
    "Verif.C21_te_guard_exact",
    "Verif.C21_cte_guard_exact"
   ],
   "note": ""
  },
  {
   "property": "C22",
   "status": "proved",
   "theorems": [
    "Verif.C22_permute_source",
    "Verif.C22_resample_source",
    "Verif.C22_conditional",
    "Verif.C22_exclusive"
   ],
   "note": ""
  },
  {
   "property": "C23",
   "status": "proved",
   "theorems": [
    "Verif.C23_joint_spaces",
    "Verif.C23_conditional_joint_spaces"
   ],
   "note": ""
  },
  {
   "property": "C24",
   "status": "proved",
   "theorems": [
    "Verif.C24_te_is_textbook",
    "Verif.C24_te_eq_entropy_combination",
    "Verif.C24_mm_te_eq_entropy_combination",
    "Verif.C24_generic_path_agrees",
    "Verif.C24_constant_source",
    "Verif.C24_local_te_mean",
    "Verif.C24_cte_is_textbook",
    "Verif.C24_cte_eq_entropy_combination",
    "Verif.C24_cte_default_prop_time_rejected"
   ],
   "note": ""
  },
  {
   "property": "C25",
   "status": "proved",
   "theorems": [
    "Verif.C25_continuous_offset",
    "Verif.C25_mi_offset_pairs",
    "Verif.C25_mi_offset_swap",
    "Verif.C25_te_propagation_time"
   ],
   "note": ""
  },
  {
   "property": "C26",
   "status": "proved",
   "theorems": [
    "Verif.C26_code_is_lexicographic_rank",
    "Verif.C26_codes_bijective",
    "Verif.C26_symbol_type_never_overflows",
    "Verif.C26_long_patterns_rejected",
    "Verif.C26_explicit_small_type_wraps"
   ],
   "note": ""
  },
  {
   "property": "C27",
   "status": "proved",
   "theorems": [
    "Verif.C27_symbols",
    "Verif.C27_symbolize_rejects",
    "Verif.C27_depends_on_comparisons_only",
    "Verif.C27_invariant_under_increasing_maps",
    "Verif.C27_symbols_complete"
   ],
   "note": ""
  },
  {
   "property": "C28",
   "status": "proved",
   "theorems": [
    "Verif.C28_ordinal_entropy_is_permutation_entropy",
    "Verif.C28_fast_paths_agree",
    "Verif.C28_local_values",
    "Verif.C28_local_dim1_type_error",
    "Verif.C28_ties_disagree",
    "Verif.C28_joint_entropy_of_patterns",
    "Verif.C28_joint_of_one_eq_simple",
    "Verif.C28_joint_local_type_error",
    "Verif.C28_joint_dim_limit"
   ],
   "note": ""
  },
  {
   "property": "C29",
   "status": "proved",
   "theorems": [
    "Verif.C29_bounds",
    "Verif.C29_dim_one_zero",
    "Verif.C29_monotone_zero",
    "Verif.C29_zero_iff_one_pattern",
    "Verif.C29_rejects",
    "Verif.C29_arguments",
    "Verif.C29_parameters",
    "Verif.C29_cross_no_local"
   ],
   "note": ""
  },
  {
   "property": "C30",
   "status": "proved",
   "theorems": [
    "Verif.C30_chao_shen_well_defined"
   ],
   "note": ""
  },
  {
   "property": "C31",
   "status": "proved",
   "theorems": [
    "Verif.C31_chao_wang_jost_well_defined"
   ],
   "note": ""
  },
  {
   "property": "C32",
   "status": "proved",
   "theorems": [
    "Verif.C32_shrinkage"
   ],
   "note": ""
  },
  {
   "property": "C33",
   "status": "proved",
   "theorems": [
    "Verif.C33_bayes_observed_support",
    "Verif.C33_bayes_alpha_zero",
    "Verif.C33_bayes_larger_support_not_normalised",
    "Verif.C33_min_max_case_sensitive",
    "Verif.C33_unknown_prior"
   ],
   "note": ""
  },
  {
   "property": "C34",
   "status": "proved",
   "theorems": [
    "Verif.C34_local_mean",
    "Verif.C34_grassberger_value",
    "Verif.C34_shrink_local_mean_fails",
    "Verif.C34_shrink_mi_not_entropy_combination"
   ],
   "note": ""
  },
  {
   "property": "C35",
   "status": "proved",
   "theorems": [
    "Verif.C35_zhang",
    "Verif.C35_bonachela"
   ],
   "note": ""
  },
  {
   "property": "C36",
   "status": "proved",
   "theorems": [
    "Verif.C36_cross_entropy_value",
    "Verif.C36_two_data",
    "Verif.C36_kld_of_included_support",
    "Verif.C36_kld_self",
    "Verif.C36_disjoint_supports",
    "Verif.C36_kld_can_be_negative",
    "Verif.C36_no_cross_entropy",
    "Verif.C36_bayes_kld_nonneg",
    "Verif.C36_multivariate_rows_recoded_separately"
   ],
   "note": ""
  },
  {
   "property": "C37",
   "status": "proved",
   "theorems": [
    "Verif.C37_jsd_value",
    "Verif.C37_jsd_bounds",
    "Verif.C37_jsd_symmetric",
    "Verif.C37_jsd_shrink_bayes",
    "Verif.C37_jsd_rejects",
    "Verif.C37_multivariate_rows_recoded_separately"
   ],
   "note": ""
  },
  {
   "property": "C38",
   "status": "proved",
   "theorems": [
    "Verif.C38_store_always_well_formed",
    "Verif.C38_set_outcome",
    "Verif.C38_rejected_call_changes_nothing",
    "Verif.C38_accepted_set_is_read_back",
    "Verif.C38_reset_restores_defaults",
    "Verif.C38_units_case_insensitive",
    "Verif.C38_units_round_trip",
    "Verif.C38_unknown_unit",
    "Verif.C38_unit_description"
   ],
   "note": ""
  },
  {
   "property": "C39",
   "status": "proved",
   "theorems": [
    "Verif.C39_default_base_ignores_config",
    "Verif.C39_config_base_not_used",
    "Verif.C39_explicit_base_wins",
    "Verif.C39_constructors_disagree",
    "Verif.C39_explicit_base_wins_for_data"
   ],
   "note": "Negative: the expectation that a changed default base is used is refuted for the model of the code."
  },
  {
   "property": "C40",
   "status": "proved",
   "theorems": [
    "Verif.C40_global_value_is_stable",
    "Verif.C40_local_values_are_stable",
    "Verif.C40_computed_once",
    "Verif.C40_result_is_global_val",
    "Verif.C40_failure_is_not_cached",
    "Verif.C40_failed_local_is_not_cached",
    "Verif.C40_no_local_values",
    "Verif.C40_global_is_mean_of_local",
    "Verif.C40_bad_result_is_runtime_error",
    "Verif.C40_deterministic_result_in_any_history",
    "Verif.C40_recalculating_replaces_random_result",
    "Verif.C40_cross_entropy_has_no_local_values"
   ],
   "note": ""
  },
  {
   "property": "C41",
   "status": "proved",
   "theorems": [
    "Verif.C41_mi_successful_test_restores_data",
    "Verif.C41_mi_result_unaffected_by_history",
    "Verif.C41_mi_result_unaffected_total",
    "Verif.C41_mi_only_failure_changes_data",
    "Verif.C41_mi_interruption_corrupts_object",
    "Verif.C41_te_successful_test_resets_flags",
    "Verif.C41_te_result_unaffected_by_history",
    "Verif.C41_te_failed_test_flags",
    "Verif.C41_te_interruption_corrupts_object"
   ],
   "note": "Restoration is proved for completed tests; for interrupted tests the violation is proved."
  },
  {
   "property": "C42",
   "status": "proved",
   "theorems": [
    "Verif.C42_needs_two_values",
    "Verif.C42_p_value_is_fraction",
    "Verif.C42_p_value_antitone",
    "Verif.C42_p_value_extremes",
    "Verif.C42_order_irrelevant",
    "Verif.C42_t_score",
    "Verif.C42_t_score_sign",
    "Verif.C42_argument_validation",
    "Verif.C42_defaults_from_config",
    "Verif.C42_mi_test_report",
    "Verif.C42_te_test_report",
    "Verif.C42_single_test_always_raises",
    "Verif.C42_mi_needs_two_variables",
    "Verif.C42_unknown_method"
   ],
   "note": ""
  },
  {
   "property": "C43",
   "status": "proved",
   "theorems": [
    "Verif.C43_percentile",
    "Verif.C43_confidence_interval",
    "Verif.C43_order_irrelevant"
   ],
   "note": ""
  },
  {
   "property": "C44",
   "status": "proved",
   "theorems": [
    "Verif.C44_ordinal_mi_test_is_vacuous",
    "Verif.C44_ordinal_cmi_test_is_vacuous",
    "Verif.C44_ordinal_cte_test_is_vacuous",
    "Verif.C44_discrete_mi_values_are_resampled",
    "Verif.C44_discrete_cmi_values_are_resampled",
    "Verif.C44_discrete_te_values_are_resampled",
    "Verif.C44_discrete_mi_draws",
    "Verif.C44_discrete_te_draws",
    "Verif.C44_discrete_cte_test_is_vacuous",
    "Verif.C44_discrete_mi_test_succeeds",
    "Verif.C44_discrete_te_test_succeeds"
   ],
   "note": "Refuted for ordinal MI/CMI/CTE and discrete CTE; the discrete MI, CMI and TE values are proved to be resampled."
  },
  {
   "property": "C45",
   "status": "proved",
   "theorems": [
    "Verif.C45_approach_resolution",
    "Verif.C45_every_alias_and_case",
    "Verif.C45_case_insensitive",
    "Verif.C45_class_lookup_exact",
    "Verif.C45_condition_selects",
    "Verif.C45_condition_selects_te"
   ],
   "note": ""
  },
  {
   "property": "C46",
   "status": "proved",
   "theorems": [
    "Verif.C46_entropy_guard",
    "Verif.C46_cross_entropy_guard",
    "Verif.C46_mi_guard",
    "Verif.C46_cmi_guard",
    "Verif.C46_te_guard",
    "Verif.C46_cte_guard",
    "Verif.C46_estimator_entropy_guard",
    "Verif.C46_estimator_cross_entropy_guard",
    "Verif.C46_estimator_mi_guard",
    "Verif.C46_estimator_te_guard",
    "Verif.C46_estimator_unknown_measure"
   ],
   "note": ""
  },
  {
   "property": "C47",
   "status": "proved",
   "theorems": [
    "Verif.C47_density_bounds",
    "Verif.C47_entropy_value",
    "Verif.C47_local_values",
    "Verif.C47_entropy_bounds",
    "Verif.C47_entropy_min_iff",
    "Verif.C47_constant",
    "Verif.C47_sample_order",
    "Verif.C47_translation",
    "Verif.C47_scaling",
    "Verif.C47_small_box",
    "Verif.C47_integer_data",
    "Verif.C47_entropy_max_iff",
    "Verif.C47_joint",
    "Verif.C47_joint_order",
    "Verif.C47_joint_monotone",
    "Verif.C47_cross_value",
    "Verif.C47_cross_self",
    "Verif.C47_cross_disjoint_is_zero",
    "Verif.C47_bad_bandwidth",
    "Verif.C47_bad_bandwidth_iff",
    "Verif.C47_bad_kernel",
    "Verif.C47_cross_dimension",
    "Verif.C47_short_data",
    "Verif.C47_int_bandwidth",
    "Verif.C47_argument_errors"
   ],
   "note": ""
  },
  {
   "property": "C48",
   "status": "proved",
   "theorems": [
    "Verif.C48_array_split",
    "Verif.C48_parallel_eq_sequential",
    "Verif.C48_gaussian_workers_irrelevant",
    "Verif.C48_all_processors",
    "Verif.C48_workers_as_given",
    "Verif.C48_box_workers_irrelevant",
    "Verif.C48_single_point_parallel_fails",
    "Verif.C48_nonpositive_workers"
   ],
   "note": "Pool.map is taken by its contract; process scheduling is not modelled."
  },
  {
   "property": "C49",
   "status": "proved",
   "theorems": [
    "Verif.C49_unit_interval",
    "Verif.C49_affine_invariant",
    "Verif.C49_idempotent",
    "Verif.C49_constant_not_finite",
    "Verif.C49_mi_unit_invariant",
    "Verif.C49_mi_normalised",
    "Verif.C49_mi_2d_rejected"
   ],
   "note": ""
  },
  {
   "property": "C50",
   "status": "proved",
   "theorems": [
    "Verif.C50_branches_agree",
    "Verif.C50_volume",
    "Verif.C50_volume_max",
    "Verif.C50_pos",
    "Verif.C50_scale",
    "Verif.C50_log_volume",
    "Verif.C50_renyi_volume",
    "Verif.C50_concrete"
   ],
   "note": ""
  },
  {
   "property": "C51",
   "status": "proved",
   "theorems": [
    "Verif.C51_kth_distance",
    "Verif.C51_local",
    "Verif.C51_local_type2",
    "Verif.C51_value",
    "Verif.C51_k_too_large",
    "Verif.C51_finite",
    "Verif.C51_bad_parameters",
    "Verif.C51_order",
    "Verif.C51_sample_order",
    "Verif.C51_affine",
    "Verif.C51_bounds",
    "Verif.C51_bounds_type2",
    "Verif.C51_noise",
    "Verif.C51_noise_added"
   ],
   "note": ""
  },
  {
   "property": "C52",
   "status": "proved",
   "theorems": [
    "Verif.C52_local",
    "Verif.C52_value",
    "Verif.C52_value_distinct",
    "Verif.C52_finite",
    "Verif.C52_sample_order",
    "Verif.C52_affine",
    "Verif.C52_shift",
    "Verif.C52_k_too_large",
    "Verif.C52_parameter_errors",
    "Verif.C52_noise",
    "Verif.C52_joint",
    "Verif.C52_joint_lengths",
    "Verif.C52_argument_errors",
    "Verif.C52_cross_equal_sizes",
    "Verif.C52_cross_value",
    "Verif.C52_cross_affine",
    "Verif.C52_cross_k_one",
    "Verif.C52_cross_dimensions",
    "Verif.C52_cross_k_too_large",
    "Verif.C52_cross_noise"
   ],
   "note": ""
  },
  {
   "property": "C53",
   "status": "proved",
   "theorems": [
    "Verif.C53_generic_mi_offset",
    "Verif.C53_generic_mi_is_entropy_combination",
    "Verif.C53_generic_cmi_is_entropy_combination",
    "Verif.C53_classes",
    "Verif.C53_generic_te_is_entropy_combination",
    "Verif.C53_generic_cte_is_entropy_combination"
   ],
   "note": ""
  },
  {
   "property": "C54",
   "status": "proved",
   "theorems": [
    "Verif.C54_zhang_le_chao_wang_jost",
    "Verif.C54_zhang_harmonic"
   ],
   "note": ""
  },
  {
   "property": "C55",
   "status": "proved",
   "theorems": [
    "Verif.C55_ansb",
    "Verif.C55_ansb_given_support"
   ],
   "note": ""
  },
  {
   "property": "C56",
   "status": "proved",
   "theorems": [
    "Verif.C56_ordinal_mi_is_textbook",
    "Verif.C56_bounds",
    "Verif.C56_symmetric",
    "Verif.C56_dim_one_zero",
    "Verif.C56_self_is_entropy",
    "Verif.C56_mi_eq_entropy_combination",
    "Verif.C56_invariant_under_increasing_maps",
    "Verif.C56_local_mean",
    "Verif.C56_guard_exact",
    "Verif.C56_ordinal_cmi_is_textbook",
    "Verif.C56_cmi_local_mean",
    "Verif.C56_cmi_rejects"
   ],
   "note": ""
  },
  {
   "property": "C57",
   "status": "proved",
   "theorems": [
    "Verif.C57_ordinal_te_is_textbook",
    "Verif.C57_nonneg",
    "Verif.C57_dim_one_zero",
    "Verif.C57_invariant_under_increasing_maps",
    "Verif.C57_local_mean",
    "Verif.C57_guard_exact",
    "Verif.C57_ordinal_cte_is_textbook"
   ],
   "note": ""
  },
  {
   "property": "C58",
   "status": "proved",
   "theorems": [
    "Verif.C58_entropy_agrees",
    "Verif.C58_cross_entropy_agrees",
    "Verif.C58_mi_agrees",
    "Verif.C58_cmi_agrees",
    "Verif.C58_te_agrees",
    "Verif.C58_factory_drops_step_size",
    "Verif.C58_single_variable_ignores_condition",
    "Verif.C58_single_variable_key_error",
    "Verif.C58_ordinal_step_size_lost",
    "Verif.C58_measure_spelling"
   ],
   "note": ""
  },
  {
   "property": "C59",
   "status": "proved",
   "theorems": [
    "Verif.C59_local",
    "Verif.C59_value",
    "Verif.C59_order",
    "Verif.C59_entropy_identity",
    "Verif.C59_self",
    "Verif.C59_bounds",
    "Verif.C59_constant",
    "Verif.C59_can_be_negative",
    "Verif.C59_small_box",
    "Verif.C59_integer_data_agrees_with_discrete",
    "Verif.C59_affine",
    "Verif.C59_offset",
    "Verif.C59_argument_errors",
    "Verif.C59_bad_bandwidth_or_kernel"
   ],
   "note": ""
  },
  {
   "property": "C60",
   "status": "proved",
   "theorems": [
    "Verif.C60_local_n_variables",
    "Verif.C60_local",
    "Verif.C60_value",
    "Verif.C60_symmetric",
    "Verif.C60_constant_condition",
    "Verif.C60_constant_variable",
    "Verif.C60_variable_is_condition",
    "Verif.C60_bounds",
    "Verif.C60_integer_data_agrees_with_discrete",
    "Verif.C60_constant_n_variables",
    "Verif.C60_three_variables_wrong",
    "Verif.C60_multidimensional_wrong",
    "Verif.C60_argument_errors",
    "Verif.C60_third_length_not_checked",
    "Verif.C60_normalised"
   ],
   "note": ""
  },
  {
   "property": "C61",
   "status": "proved",
   "theorems": [
    "Verif.C61_te_value",
    "Verif.C61_te_value_plain",
    "Verif.C61_te_bounds",
    "Verif.C61_one_row_type_error",
    "Verif.C61_cte_value",
    "Verif.C61_cte_bounds",
    "Verif.C61_constant_source",
    "Verif.C61_integer_data_agrees_with_discrete",
    "Verif.C61_argument_errors",
    "Verif.C61_bad_bandwidth_or_kernel"
   ],
   "note": ""
  },
  {
   "property": "C62",
   "status": "proved",
   "theorems": [
    "Verif.C62_local",
    "Verif.C62_local_type2",
    "Verif.C62_order",
    "Verif.C62_constant_condition",
    "Verif.C62_constant_condition_two",
    "Verif.C62_k_too_large",
    "Verif.C62_finite",
    "Verif.C62_bad_parameters",
    "Verif.C62_argument_errors",
    "Verif.C62_sample_order",
    "Verif.C62_affine",
    "Verif.C62_bounds",
    "Verif.C62_noise",
    "Verif.C62_constant_variable"
   ],
   "note": ""
  },
  {
   "property": "C63",
   "status": "proved",
   "theorems": [
    "Verif.C63_te_local",
    "Verif.C63_te_local_type2",
    "Verif.C63_te_is_cmi",
    "Verif.C63_te_bounds",
    "Verif.C63_te_k_too_large",
    "Verif.C63_argument_errors",
    "Verif.C63_bad_parameters",
    "Verif.C63_noise",
    "Verif.C63_te_affine",
    "Verif.C63_constant_source",
    "Verif.C63_cte_is_cmi",
    "Verif.C63_cte_bounds",
    "Verif.C63_cte_argument_errors",
    "Verif.C63_noise_added",
    "Verif.C63_cte_noise"
   ],
   "note": ""
  },
  {
   "property": "C64",
   "status": "proved",
   "theorems": [
    "Verif.C64_renyi",
    "Verif.C64_tsallis",
    "Verif.C64_tsallis_one",
    "Verif.C64_tsallis_of_renyi",
    "Verif.C64_order_one",
    "Verif.C64_coinciding",
    "Verif.C64_order_k_plus_one",
    "Verif.C64_order_too_large",
    "Verif.C64_k_too_large",
    "Verif.C64_parameter_errors",
    "Verif.C64_renyi_affine",
    "Verif.C64_tsallis_affine",
    "Verif.C64_sample_order",
    "Verif.C64_joint",
    "Verif.C64_joint_lengths",
    "Verif.C64_cross",
    "Verif.C64_cross_k_one",
    "Verif.C64_cross_errors",
    "Verif.C64_renyi_limit",
    "Verif.C64_tsallis_limit",
    "Verif.C64_not_decreasing_in_order"
   ],
   "note": ""
  },
  {
   "property": "C65",
   "status": "proved",
   "theorems": [
    "Verif.C65_mi",
    "Verif.C65_mi_renyi",
    "Verif.C65_mi_tsallis",
    "Verif.C65_mi_errors",
    "Verif.C65_mi_finite",
    "Verif.C65_mi_order",
    "Verif.C65_mi_sample_order",
    "Verif.C65_mi_shift",
    "Verif.C65_mi_renyi_scale",
    "Verif.C65_mi_order_k_plus_one",
    "Verif.C65_mi_tsallis_base",
    "Verif.C65_mi_noise",
    "Verif.C65_cmi",
    "Verif.C65_cmi_finite",
    "Verif.C65_cmi_order",
    "Verif.C65_cmi_sample_order",
    "Verif.C65_cmi_shift",
    "Verif.C65_cmi_renyi_scale",
    "Verif.C65_cmi_renyi_scale_two",
    "Verif.C65_cmi_errors",
    "Verif.C65_cmi_order_k_plus_one",
    "Verif.C65_te_is_cmi",
    "Verif.C65_te_finite",
    "Verif.C65_cte_is_cmi",
    "Verif.C65_cte_finite",
    "Verif.C65_te_errors",
    "Verif.C65_cte_errors",
    "Verif.C65_te_noise",
    "Verif.C65_te_shift",
    "Verif.C65_te_renyi_scale",
    "Verif.C65_te_k_too_large",
    "Verif.C65_cmi_noise",
    "Verif.C65_cte_noise"
   ],
   "note": ""
  },
  {
   "property": "C66",
   "status": "proved",
   "theorems": [
    "Verif.C66_mi",
    "Verif.C66_cmi",
    "Verif.C66_te",
    "Verif.C66_cte",
    "Verif.C66_mi_order",
    "Verif.C66_mi_sample_order",
    "Verif.C66_mi_relabel",
    "Verif.C66_mi_self",
    "Verif.C66_mi_constant",
    "Verif.C66_mi_constant_zero",
    "Verif.C66_bonachela_constant_positive",
    "Verif.C66_grassberger_negative",
    "Verif.C66_te_constant_source",
    "Verif.C66_cmi_constant",
    "Verif.C66_bad_arguments",
    "Verif.C66_unknown_prior",
    "Verif.C66_mi_offset",
    "Verif.C66_mi_offset_swap",
    "Verif.C66_te_propagation_time"
   ],
   "note": ""
  },
  {
   "property": "C67",
   "status": "proved",
   "theorems": [
    "Verif.C67_entropy",
    "Verif.C67_order_and_names",
    "Verif.C67_bounds",
    "Verif.C67_root_finder_irrelevant",
    "Verif.C67_no_value",
    "Verif.C67_constant",
    "Verif.C67_support_equals_sample_size",
    "Verif.C67_no_cross_no_local",
    "Verif.C67_mi",
    "Verif.C67_cmi",
    "Verif.C67_te",
    "Verif.C67_cte",
    "Verif.C67_bad_support",
    "Verif.C67_differs_from_published"
   ],
   "note": ""
  },
  {
   "property": "C68",
   "status": "proved",
   "theorems": [
    "Verif.C68_cross_entropy",
    "Verif.C68_kld",
    "Verif.C68_kld_self",
    "Verif.C68_kld_rejects",
    "Verif.C68_jsd",
    "Verif.C68_jsd_symmetric",
    "Verif.C68_increasing_maps",
    "Verif.C68_dim_one",
    "Verif.C68_single_window_step",
    "Verif.C68_single_window_dim3",
    "Verif.C68_ties_negative"
   ],
   "note": ""
  },
  {
   "property": "C69",
   "status": "proved",
   "theorems": [
    "Verif.C69_kernel_jsd_value",
    "Verif.C69_kernel_jsd_equal_sizes",
    "Verif.C69_kernel_jsd_symmetric",
    "Verif.C69_kernel_jsd_copies",
    "Verif.C69_kernel_jsd_integers",
    "Verif.C69_kernel_jsd_negative_sizes",
    "Verif.C69_kernel_kld_value",
    "Verif.C69_kernel_kld_self",
    "Verif.C69_kernel_kld_disjoint",
    "Verif.C69_kernel_kld_integers",
    "Verif.C69_kernel_negative",
    "Verif.C69_kernel_shape_errors",
    "Verif.C69_jsd_names",
    "Verif.C69_kld_names",
    "Verif.C69_metric_kld_self",
    "Verif.C69_metric_kld_scaling",
    "Verif.C69_metric_kld_errors",
    "Verif.C69_kl_noise"
   ],
   "note": ""
  },
  {
   "property": "C70",
   "status": "proved",
   "theorems": [
    "Verif.C70_counts_determine_value",
    "Verif.C70_counts_determine_nsb",
    "Verif.C70_every_positive_table_is_covered",
    "Verif.C70_counts_of_a_sample",
    "Verif.C70_labels_irrelevant",
    "Verif.C70_invalid_counts",
    "Verif.C70_grassberger_needs_the_sample",
    "Verif.C70_local_values_need_the_sample",
    "Verif.C70_zero_count_is_nan",
    "Verif.C70_zero_counts_ignored"
   ],
   "note": ""
  },
  {
   "property": "C71",
   "status": "proved",
   "theorems": [
    "Verif.C71_entropy_value",
    "Verif.C71_density",
    "Verif.C71_joint_value",
    "Verif.C71_mi_value",
    "Verif.C71_mi_identity",
    "Verif.C71_te_affine",
    "Verif.C71_cte_affine",
    "Verif.C71_cross_value",
    "Verif.C71_kld_value",
    "Verif.C71_kld_self",
    "Verif.C71_kld_affine",
    "Verif.C71_jsd_value",
    "Verif.C71_jsd_unbounded",
    "Verif.C71_joint_affine",
    "Verif.C71_entropy_affine",
    "Verif.C71_mi_affine",
    "Verif.C71_normalize_irrelevant",
    "Verif.C71_joint_bounds",
    "Verif.C71_entropy_bounds",
    "Verif.C71_mi_bounds",
    "Verif.C71_mi_large_bandwidth",
    "Verif.C71_mi_small_bandwidth",
    "Verif.C71_constant_error",
    "Verif.C71_mi_constant_error",
    "Verif.C71_small_units_error",
    "Verif.C71_collinear_joint",
    "Verif.C71_collinear_mi",
    "Verif.C71_self_mi",
    "Verif.C71_mi_order",
    "Verif.C71_entropy_sample_order",
    "Verif.C71_mi_sample_order",
    "Verif.C71_cmi_value",
    "Verif.C71_cmi_symmetric",
    "Verif.C71_cmi_affine",
    "Verif.C71_te_value",
    "Verif.C71_cte_value"
   ],
   "note": ""
  },
  {
   "property": "C72",
   "status": "proved",
   "theorems": [
    "Verif.C72_noise_added",
    "Verif.C72_noise",
    "Verif.C72_scalar_discrete",
    "Verif.C72_scalar_discrete_cond",
    "Verif.C72_scalar_continuous",
    "Verif.C72_embedding",
    "Verif.C72_te_recode",
    "Verif.C72_te_reencode",
    "Verif.C72_te_is_textbook",
    "Verif.C72_local_mean",
    "Verif.C72_kernel_te_value",
    "Verif.C72_kernel_te_bounds",
    "Verif.C72_ksg_te_is_cmi",
    "Verif.C72_ksg_te_bounds",
    "Verif.C72_exp_te_is_cmi",
    "Verif.C72_exp_te_finite",
    "Verif.C72_kernel_cte_value",
    "Verif.C72_ksg_cte_is_cmi",
    "Verif.C72_scalar_cte",
    "Verif.C72_exp_cte_is_cmi",
    "Verif.C72_exp_cte_finite",
    "Verif.C72_cte_noise",
    "Verif.C72_generic_cte_is_entropy_combination",
    "Verif.C72_bias_te",
    "Verif.C72_nsb_te",
    "Verif.C72_bias_cte",
    "Verif.C72_nsb_cte"
   ],
   "note": ""
  },
  {
   "property": "C73",
   "status": "proved",
   "theorems": [
    "Verif.C73_te_constructor",
    "Verif.C73_te_rejects",
    "Verif.C73_te_both_given",
    "Verif.C73_te_accepts",
    "Verif.C73_cte_constructor",
    "Verif.C73_cte_rejects",
    "Verif.C73_cte_accepts"
   ],
   "note": ""
  },
  {
   "property": "C74",
   "status": "proved",
   "theorems": [
    "Verif.C74_mi_constructor",
    "Verif.C74_kmi_constructor",
    "Verif.C74_mi_rejects",
    "Verif.C74_mi_accepts_pair",
    "Verif.C74_mi_accepts_many",
    "Verif.C74_cmi_constructor",
    "Verif.C74_kcmi_constructor",
    "Verif.C74_cmi_rejects",
    "Verif.C74_cmi_accepts",
    "Verif.C74_cmi_condition"
   ],
   "note": ""
  },
  {
   "property": "C75",
   "status": "proved",
   "theorems": [
    "Verif.C75_cte_recode",
    "Verif.C75_cte_reencode",
    "Verif.C75_cte_is_textbook",
    "Verif.C75_local_mean",
    "Verif.C75_condition_array_list_labels",
    "Verif.C75_condition_tuple",
    "Verif.C75_condition_tuple_set",
    "Verif.C75_condition_tuple_ragged",
    "Verif.C75_mm_tuple_rejected",
    "Verif.C75_mm_tuple_transposed",
    "Verif.C75_constant_condition",
    "Verif.C75_condition_on_destination",
    "Verif.C75_condition_on_source_zero",
    "Verif.C75_constant_source_zero",
    "Verif.C75_local_scalar",
    "Verif.C75_scalar_local_mean",
    "Verif.C75_ordinal_local_mean",
    "Verif.C75_ordinal_dim_one_zero",
    "Verif.C75_ordinal_increasing_maps"
   ],
   "note": ""
  },
  {
   "property": "C76",
   "status": "proved",
   "theorems": [
    "Verif.C76_entropy_of_recoding",
    "Verif.C76_mi_data_processing",
    "Verif.C76_cmi_data_processing",
    "Verif.C76_chain_rule",
    "Verif.C76_variation_of_information",
    "Verif.C76_te_data_processing",
    "Verif.C76_te_longer_source_history",
    "Verif.C76_divergence_data_processing",
    "Verif.C76_pooled_samples",
    "Verif.C76_jsd_of_equal_sizes",
    "Verif.C76_repeated_sample"
   ],
   "note": ""
  },
  {
   "property": "C77",
   "status": "proved",
   "theorems": [
    "Verif.C77_zhang_distance",
    "Verif.C77_grassberger_distance",
    "Verif.C77_chao_wang_jost_distance",
    "Verif.C77_chao_shen_distance",
    "Verif.C77_bonachela_distance",
    "Verif.C77_shrink_distance",
    "Verif.C77_bayes_distance",
    "Verif.C77_entropy_rate",
    "Verif.C77_rate_vanishes",
    "Verif.C77_entropy_consistent",
    "Verif.C77_mi_rate",
    "Verif.C77_cmi_rate",
    "Verif.C77_te_rate",
    "Verif.C77_mi_consistent",
    "Verif.C77_te_consistent",
    "Verif.C77_ansb_exceeds",
    "Verif.C77_ansb_diverges"
   ],
   "note": ""
  },
  {
   "property": "C78",
   "status": "proved",
   "theorems": [
    "Verif.C78_level",
    "Verif.C78_corrected_level",
    "Verif.C78_ties_are_significant"
   ],
   "note": ""
  },
  {
   "property": "C79",
   "status": "proved",
   "theorems": [
    "Verif.C79_cmi",
    "Verif.C79_mi_max",
    "Verif.C79_mi_zero_many",
    "Verif.C79_te",
    "Verif.C79_cte",
    "Verif.C79_te_vector",
    "Verif.C79_ordinal_mi",
    "Verif.C79_ordinal_te",
    "Verif.C79_jsd_max"
   ],
   "note": ""
  },
  {
   "property": "C80",
   "status": "proved",
   "theorems": [
    "Verif.C80_strided_reads",
    "Verif.C80_sort_once",
    "Verif.C80_sort_once_too_long"
   ],
   "note": ""
  },
  {
   "property": "C81",
   "status": "proved",
   "theorems": [
    "Verif.C81_accepted",
    "Verif.C81_type_error",
    "Verif.C81_missing_condition",
    "Verif.C81_values",
    "Verif.C81_explicit_default",
    "Verif.C81_ignored"
   ],
   "note": ""
  },
  {
   "property": "C82",
   "status": "proved",
   "theorems": [
    "Verif.C82_entropy",
    "Verif.C82_joint_entropy",
    "Verif.C82_cross_entropy",
    "Verif.C82_bayes_entropy",
    "Verif.C82_ansb_entropy",
    "Verif.C82_nsb_entropy",
    "Verif.C82_ordinal_entropy",
    "Verif.C82_box_entropy",
    "Verif.C82_gaussian_entropy",
    "Verif.C82_metric_entropy",
    "Verif.C82_renyi_entropy",
    "Verif.C82_tsallis_entropy",
    "Verif.C82_mi",
    "Verif.C82_mi_two",
    "Verif.C82_mi_offset",
    "Verif.C82_mi_miller_madow",
    "Verif.C82_mi_bias",
    "Verif.C82_mi_bayes",
    "Verif.C82_mi_ansb",
    "Verif.C82_mi_nsb",
    "Verif.C82_mi_ordinal",
    "Verif.C82_mi_box",
    "Verif.C82_mi_gaussian",
    "Verif.C82_mi_metric",
    "Verif.C82_mi_renyi",
    "Verif.C82_mi_tsallis",
    "Verif.C82_cmi",
    "Verif.C82_cmi_bias",
    "Verif.C82_cmi_bayes",
    "Verif.C82_cmi_miller_madow",
    "Verif.C82_cmi_ansb",
    "Verif.C82_cmi_nsb",
    "Verif.C82_cmi_ordinal",
    "Verif.C82_cmi_box",
    "Verif.C82_cmi_gaussian",
    "Verif.C82_cmi_metric",
    "Verif.C82_cmi_renyi",
    "Verif.C82_cmi_tsallis",
    "Verif.C82_te",
    "Verif.C82_te_miller_madow",
    "Verif.C82_te_bias",
    "Verif.C82_te_bayes",
    "Verif.C82_te_ansb",
    "Verif.C82_te_nsb",
    "Verif.C82_te_ordinal",
    "Verif.C82_te_box",
    "Verif.C82_te_gaussian",
    "Verif.C82_te_metric",
    "Verif.C82_te_renyi",
    "Verif.C82_te_tsallis",
    "Verif.C82_cte",
    "Verif.C82_cte_miller_madow",
    "Verif.C82_cte_bias",
    "Verif.C82_cte_bayes",
    "Verif.C82_cte_ansb",
    "Verif.C82_cte_nsb",
    "Verif.C82_cte_ordinal",
    "Verif.C82_cte_box",
    "Verif.C82_cte_gaussian",
    "Verif.C82_cte_metric",
    "Verif.C82_cte_renyi",
    "Verif.C82_cte_tsallis",
    "Verif.C82_value_error",
    "Verif.C82_spelling",
    "Verif.C82_type_error",
    "Verif.C82_explicit_default",
    "Verif.C82_ignored",
    "Verif.C82_factory_entropy",
    "Verif.C82_factory_cross_entropy",
    "Verif.C82_factory_mi",
    "Verif.C82_factory_cmi",
    "Verif.C82_factory_te",
    "Verif.C82_te_lag_discrete",
    "Verif.C82_te_lag_continuous",
    "Verif.C82_cte_lag_discrete",
    "Verif.C82_cte_lag_continuous",
    "Verif.C82_joint_kernel",
    "Verif.C82_joint_metric",
    "Verif.C82_joint_renyi",
    "Verif.C82_joint_tsallis",
    "Verif.C82_joint_ordinal",
    "Verif.C82_joint_ordinal_two",
    "Verif.C82_joint_lengths",
    "Verif.C82_asked",
    "Verif.C82_cmi_many"
   ],
   "note": ""
  },
  {
   "property": "C83",
   "status": "proved",
   "theorems": [
    "Verif.C83_cross_entropy_bayes",
    "Verif.C83_kld_bayes_value",
    "Verif.C83_cross_entropy_mm",
    "Verif.C83_kld_mm",
    "Verif.C83_kld_difference",
    "Verif.C83_kld_without_noise",
    "Verif.C83_kld",
    "Verif.C83_kld_self",
    "Verif.C83_kld_bayes",
    "Verif.C83_kld_inconsistent",
    "Verif.C83_kld_ordinal",
    "Verif.C83_kld_box",
    "Verif.C83_kld_metric",
    "Verif.C83_kld_metric_self",
    "Verif.C83_jsd",
    "Verif.C83_jsd_shrink",
    "Verif.C83_jsd_bayes",
    "Verif.C83_jsd_ordinal",
    "Verif.C83_jsd_box",
    "Verif.C83_jsd_symmetric",
    "Verif.C83_jsd_box_symmetric",
    "Verif.C83_value_error",
    "Verif.C83_type_error",
    "Verif.C83_jsd_no_data",
    "Verif.C83_spelling"
   ],
   "note": ""
  },
  {
   "property": "C84",
   "status": "proved",
   "theorems": [
    "Verif.C84_asked",
    "Verif.C84_same_error",
    "Verif.C84_local_mean",
    "Verif.C84_same_exception",
    "Verif.C84_cross_entropy",
    "Verif.C84_no_local_values",
    "Verif.C84_local_exists",
    "Verif.C84_entropy_surprisal",
    "Verif.C84_entropy_mean",
    "Verif.C84_shrink_entropy_mean_fails",
    "Verif.C84_ordinal_entropy_mean",
    "Verif.C84_mi_mean",
    "Verif.C84_ordinal_mi_mean",
    "Verif.C84_cmi_mean",
    "Verif.C84_ordinal_cmi_mean",
    "Verif.C84_te_mean",
    "Verif.C84_ordinal_te_mean",
    "Verif.C84_cte_mean",
    "Verif.C84_ordinal_cte_mean"
   ],
   "note": ""
  },
  {
   "property": "C85",
   "status": "proved",
   "theorems": [
    "Verif.C85_joint_entropy",
    "Verif.C85_mi",
    "Verif.C85_mi_renyi",
    "Verif.C85_mi_tsallis",
    "Verif.C85_cmi",
    "Verif.C85_cmi_renyi",
    "Verif.C85_cmi_tsallis",
    "Verif.C85_te",
    "Verif.C85_te_renyi",
    "Verif.C85_te_tsallis",
    "Verif.C85_cte",
    "Verif.C85_cte_renyi",
    "Verif.C85_cte_tsallis",
    "Verif.C85_entropy",
    "Verif.C85_cross_entropy",
    "Verif.C85_entropy_negative",
    "Verif.C85_noise_variance"
   ],
   "note": ""
  },
  {
   "property": "C86",
   "status": "proved",
   "theorems": [
    "Verif.C86_base_change",
    "Verif.C86_two_bases",
    "Verif.C86_tsallis_one",
    "Verif.C86_tsallis_ignores_base"
   ],
   "note": ""
  },
  {
   "property": "C87",
   "status": "proved",
   "theorems": [
    "Verif.C87_asked",
    "Verif.C87_same_error",
    "Verif.C87_mi",
    "Verif.C87_mi_succeeds",
    "Verif.C87_cmi",
    "Verif.C87_cmi_succeeds",
    "Verif.C87_drawn",
    "Verif.C87_ordinal",
    "Verif.C87_ordinal_succeeds",
    "Verif.C87_te",
    "Verif.C87_cte",
    "Verif.C87_cte_succeeds",
    "Verif.C87_rejects",
    "Verif.C87_entropy"
   ],
   "note": ""
  },
  {
   "property": "C88",
   "status": "proved",
   "theorems": [
    "Verif.C88_asked",
    "Verif.C88_same_error",
    "Verif.C88_te",
    "Verif.C88_first_test_value",
    "Verif.C88_te_succeeds",
    "Verif.C88_cte",
    "Verif.C88_cte_succeeds",
    "Verif.C88_rejects",
    "Verif.C88_no_effective"
   ],
   "note": ""
  },
  {
   "property": "C89",
   "status": "proved",
   "theorems": [
    "Verif.C89_int_data",
    "Verif.C89_int_local",
    "Verif.C89_int_test",
    "Verif.C89_int_effective",
    "Verif.C89_base",
    "Verif.C89_bayes",
    "Verif.C89_norm",
    "Verif.C89_not_positive",
    "Verif.C89_int_param",
    "Verif.C89_int_param_local",
    "Verif.C89_int_param_test",
    "Verif.C89_int_param_effective"
   ],
   "note": ""
  },
  {
   "property": "C90",
   "status": "proved",
   "theorems": [
    "Verif.C90_te",
    "Verif.C90_te_miller_madow",
    "Verif.C90_te_bias",
    "Verif.C90_te_bayes",
    "Verif.C90_te_ansb",
    "Verif.C90_te_nsb",
    "Verif.C90_te_box",
    "Verif.C90_te_metric",
    "Verif.C90_te_renyi",
    "Verif.C90_te_tsallis",
    "Verif.C90_cte",
    "Verif.C90_cte_miller_madow",
    "Verif.C90_cte_bias",
    "Verif.C90_cte_bayes",
    "Verif.C90_cte_ansb",
    "Verif.C90_cte_nsb",
    "Verif.C90_cte_box",
    "Verif.C90_cte_metric",
    "Verif.C90_cte_renyi",
    "Verif.C90_cte_tsallis",
    "Verif.C90_te_ordinal",
    "Verif.C90_cte_ordinal",
    "Verif.C90_cte_miller_madow_tuple",
    "Verif.C90_mi",
    "Verif.C90_mi_two",
    "Verif.C90_mi_miller_madow",
    "Verif.C90_mi_mixed",
    "Verif.C90_cmi",
    "Verif.C90_cmi_miller_madow_joint",
    "Verif.C90_mi_bias",
    "Verif.C90_mi_bayes",
    "Verif.C90_mi_ansb",
    "Verif.C90_mi_nsb",
    "Verif.C90_cmi_bias",
    "Verif.C90_cmi_bayes",
    "Verif.C90_cmi_ansb",
    "Verif.C90_cmi_nsb",
    "Verif.C90_mi_normalize",
    "Verif.C90_cmi_normalize",
    "Verif.C90_cmi_bias_tuple",
    "Verif.C90_cmi_bias_tuple_square",
    "Verif.C90_cmi_vectors",
    "Verif.C90_cmi_miller_madow_vectors"
   ],
   "note": ""
  },
  {
   "property": "C91",
   "status": "proved",
   "theorems": [
    "Verif.C91_joint_entropy",
    "Verif.C91_joint_bayes",
    "Verif.C91_joint_ansb",
    "Verif.C91_joint_nsb",
    "Verif.C91_mi",
    "Verif.C91_mi_miller_madow",
    "Verif.C91_mi_bias",
    "Verif.C91_mi_bayes",
    "Verif.C91_mi_ansb",
    "Verif.C91_mi_nsb",
    "Verif.C91_cmi",
    "Verif.C91_cmi_miller_madow",
    "Verif.C91_cmi_bias",
    "Verif.C91_cmi_bayes",
    "Verif.C91_cmi_ansb",
    "Verif.C91_cmi_nsb",
    "Verif.C91_te",
    "Verif.C91_te_miller_madow",
    "Verif.C91_te_bias",
    "Verif.C91_te_bayes",
    "Verif.C91_te_ansb",
    "Verif.C91_te_nsb",
    "Verif.C91_cte",
    "Verif.C91_cte_miller_madow",
    "Verif.C91_cte_bias",
    "Verif.C91_cte_bayes",
    "Verif.C91_cte_ansb",
    "Verif.C91_cte_nsb",
    "Verif.C91_mi_self",
    "Verif.C91_mi_self_bias",
    "Verif.C91_shrink_exception",
    "Verif.C91_te_metric_is_cmi",
    "Verif.C91_cte_metric_is_cmi",
    "Verif.C91_mi_ordinal",
    "Verif.C91_cmi_ordinal"
   ],
   "note": ""
  },
  {
   "property": "C92",
   "status": "proved",
   "theorems": [
    "Verif.C92_entropy",
    "Verif.C92_entropy_bayes",
    "Verif.C92_entropy_ansb",
    "Verif.C92_entropy_nsb",
    "Verif.C92_mi",
    "Verif.C92_mi_miller_madow",
    "Verif.C92_mi_bias",
    "Verif.C92_mi_bayes",
    "Verif.C92_mi_ansb",
    "Verif.C92_mi_nsb",
    "Verif.C92_cmi",
    "Verif.C92_cmi_miller_madow",
    "Verif.C92_cmi_bias",
    "Verif.C92_cmi_bayes",
    "Verif.C92_cmi_ansb",
    "Verif.C92_cmi_nsb",
    "Verif.C92_te",
    "Verif.C92_te_miller_madow",
    "Verif.C92_te_bias",
    "Verif.C92_te_bayes",
    "Verif.C92_te_ansb",
    "Verif.C92_te_nsb",
    "Verif.C92_cte",
    "Verif.C92_cte_miller_madow",
    "Verif.C92_cte_bias",
    "Verif.C92_cte_bayes",
    "Verif.C92_cte_ansb",
    "Verif.C92_cte_nsb",
    "Verif.C92_mi_box",
    "Verif.C92_mi_metric",
    "Verif.C92_mi_renyi",
    "Verif.C92_mi_tsallis",
    "Verif.C92_mi_gaussian",
    "Verif.C92_mi_ordinal",
    "Verif.C92_cmi_metric",
    "Verif.C92_cmi_renyi",
    "Verif.C92_cmi_tsallis",
    "Verif.C92_cmi_box",
    "Verif.C92_cmi_gaussian",
    "Verif.C92_entropy_box",
    "Verif.C92_entropy_metric",
    "Verif.C92_entropy_renyi",
    "Verif.C92_entropy_tsallis",
    "Verif.C92_entropy_gaussian",
    "Verif.C92_mi_offset",
    "Verif.C92_mi_offset_bias"
   ],
   "note": ""
  },
  {
   "property": "C93",
   "status": "proved",
   "theorems": [
    "Verif.C93_mi_normalize_bias",
    "Verif.C93_mi_normalize_bayes",
    "Verif.C93_mi_normalize_ansb",
    "Verif.C93_mi_normalize_nsb",
    "Verif.C93_cmi_normalize_bias",
    "Verif.C93_cmi_normalize_bayes",
    "Verif.C93_cmi_normalize_ansb",
    "Verif.C93_cmi_normalize_nsb",
    "Verif.C93_symbols",
    "Verif.C93_entropy",
    "Verif.C93_entropy_bayes",
    "Verif.C93_entropy_ansb",
    "Verif.C93_entropy_nsb",
    "Verif.C93_entropy_value",
    "Verif.C93_mi",
    "Verif.C93_mi_miller_madow",
    "Verif.C93_mi_bias",
    "Verif.C93_mi_bayes",
    "Verif.C93_mi_ansb",
    "Verif.C93_mi_nsb",
    "Verif.C93_cmi",
    "Verif.C93_cmi_miller_madow",
    "Verif.C93_cmi_bias",
    "Verif.C93_cmi_bayes",
    "Verif.C93_cmi_ansb",
    "Verif.C93_cmi_nsb",
    "Verif.C93_te",
    "Verif.C93_te_miller_madow",
    "Verif.C93_te_bias",
    "Verif.C93_te_bayes",
    "Verif.C93_te_ansb",
    "Verif.C93_te_nsb",
    "Verif.C93_cte",
    "Verif.C93_cte_miller_madow",
    "Verif.C93_cte_bias",
    "Verif.C93_cte_bayes",
    "Verif.C93_cte_ansb",
    "Verif.C93_cte_nsb"
   ],
   "note": ""
  },
  {
   "property": "C94",
   "status": "proved",
   "theorems": [
    "Verif.C94_entropy",
    "Verif.C94_entropy_bayes",
    "Verif.C94_mi",
    "Verif.C94_mi_plugin",
    "Verif.C94_cmi",
    "Verif.C94_cmi_plugin",
    "Verif.C94_te",
    "Verif.C94_te_plugin",
    "Verif.C94_cte",
    "Verif.C94_cte_plugin",
    "Verif.C94_iid",
    "Verif.C94_entropy_iid",
    "Verif.C94_mi_independent",
    "Verif.C94_mi_zero",
    "Verif.C94_te_windows",
    "Verif.C94_te_zero",
    "Verif.C94_cte_zero"
   ],
   "note": ""
  },
  {
   "property": "C95",
   "status": "proved",
   "theorems": [
    "Verif.C95_ordinal_entropy_map",
    "Verif.C95_ordinal_joint_map",
    "Verif.C95_ordinal_cross_map",
    "Verif.C95_ordinal_mi_map",
    "Verif.C95_ordinal_cmi_map",
    "Verif.C95_ordinal_cte_map",
    "Verif.C95_ordinal_entropy",
    "Verif.C95_ordinal_joint",
    "Verif.C95_ordinal_cross",
    "Verif.C95_ordinal_mi",
    "Verif.C95_ordinal_cmi",
    "Verif.C95_ordinal_te",
    "Verif.C95_ordinal_cte",
    "Verif.C95_metric_entropy",
    "Verif.C95_metric_mi",
    "Verif.C95_metric_cmi",
    "Verif.C95_metric_te",
    "Verif.C95_metric_cte",
    "Verif.C95_box_entropy",
    "Verif.C95_box_mi",
    "Verif.C95_box_cmi",
    "Verif.C95_box_te",
    "Verif.C95_box_cte",
    "Verif.C95_gaussian_entropy",
    "Verif.C95_gaussian_mi",
    "Verif.C95_gaussian_cmi",
    "Verif.C95_gaussian_te",
    "Verif.C95_gaussian_cte",
    "Verif.C95_renyi_entropy",
    "Verif.C95_tsallis_entropy",
    "Verif.C95_renyi_mi_origin",
    "Verif.C95_renyi_cmi_origin",
    "Verif.C95_renyi_te_origin",
    "Verif.C95_renyi_cte_origin",
    "Verif.C95_tsallis_mi_origin",
    "Verif.C95_tsallis_cmi_origin",
    "Verif.C95_tsallis_te_origin",
    "Verif.C95_tsallis_cte_origin",
    "Verif.C95_renyi_mi",
    "Verif.C95_renyi_cmi",
    "Verif.C95_renyi_te",
    "Verif.C95_renyi_cte"
   ],
   "note": ""
  },
  {
   "property": "C96",
   "status": "proved",
   "theorems": [
    "Verif.C96_entropy",
    "Verif.C96_patterns",
    "Verif.C96_entropy_noise",
    "Verif.C96_mi",
    "Verif.C96_pattern_pairs",
    "Verif.C96_mi_noise",
    "Verif.C96_cmi",
    "Verif.C96_te_noise"
   ],
   "note": ""
  },
  {
   "property": "C97",
   "status": "proved",
   "theorems": [
    "Verif.C97_entropy",
    "Verif.C97_joint",
    "Verif.C97_mi",
    "Verif.C97_cmi",
    "Verif.C97_te",
    "Verif.C97_cte"
   ],
   "note": ""
  },
  {
   "property": "C98",
   "status": "proved",
   "theorems": [
    "Verif.C98_accepted",
    "Verif.C98_unknown_name",
    "Verif.C98_other_attribute",
    "Verif.C98_transactional",
    "Verif.C98_history"
   ],
   "note": ""
  },
  {
   "property": "C99",
   "status": "proved",
   "theorems": [
    "Verif.C99_percentile",
    "Verif.C99_confidence_interval",
    "Verif.C99_linear",
    "Verif.C99_picks",
    "Verif.C99_between",
    "Verif.C99_inverted_cdf",
    "Verif.C99_order_irrelevant",
    "Verif.C99_interpolating",
    "Verif.C99_rounding",
    "Verif.C99_rounding_exact",
    "Verif.C99_empirical"
   ],
   "note": ""
  },
  {
   "property": "C100",
   "status": "proved",
   "theorems": [
    "Verif.C100_entropy",
    "Verif.C100_entropy_miller_madow",
    "Verif.C100_joint_entropy",
    "Verif.C100_mi",
    "Verif.C100_mi_many",
    "Verif.C100_three_variables_jump",
    "Verif.C100_cmi",
    "Verif.C100_te",
    "Verif.C100_ordinal_entropy",
    "Verif.C100_ordinal_mi",
    "Verif.C100_ordinal_te",
    "Verif.C100_cte",
    "Verif.C100_ordinal_cmi",
    "Verif.C100_ordinal_cte"
   ],
   "note": ""
  },
  {
   "property": "C101",
   "status": "proved",
   "theorems": [
    "Verif.C101_cte_false_alarm",
    "Verif.C101_entropy",
    "Verif.C101_entropy_miller_madow",
    "Verif.C101_entropy_error",
    "Verif.C101_entropy_confidence",
    "Verif.C101_mi",
    "Verif.C101_mi_error",
    "Verif.C101_cmi",
    "Verif.C101_te",
    "Verif.C101_cmi_error",
    "Verif.C101_te_error",
    "Verif.C101_cte",
    "Verif.C101_cte_error",
    "Verif.C101_mi_false_alarm",
    "Verif.C101_te_false_alarm"
   ],
   "note": ""
  },
  {
   "property": "C102",
   "status": "proved",
   "theorems": [
    "Verif.C102_rows_are_symbols",
    "Verif.C102_entropy",
    "Verif.C102_shannon",
    "Verif.C102_tuple_is_matrix",
    "Verif.C102_cross_entropy"
   ],
   "note": ""
  },
  {
   "property": "C103",
   "status": "proved",
   "theorems": [
    "Verif.C103_entropy",
    "Verif.C103_entropy_noise",
    "Verif.C103_mi_noise",
    "Verif.C103_te_noise",
    "Verif.C103_cmi"
   ],
   "note": ""
  },
  {
   "property": "C104",
   "status": "proved",
   "theorems": [
    "Verif.C104_cross_entropy",
    "Verif.C104_kl_limit",
    "Verif.C104_kld",
    "Verif.C104_jsd",
    "Verif.C104_bayes",
    "Verif.C104_kld_ordinal",
    "Verif.C104_jsd_ordinal",
    "Verif.C104_noise",
    "Verif.C104_cross_entropy_mm",
    "Verif.C104_kld_mm"
   ],
   "note": ""
  }
 ]
}