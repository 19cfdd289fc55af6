{
 "claims": [
  {
   "property": "C01",
   "status": "proved",
   "theorems": [
    "Convst.Props.C01_univariate_same_length",
    "Convst.Props.C01_univariate_same_length_real"
   ],
   "note": ""
  },
  {
   "property": "C02",
   "status": "proved",
   "theorems": [
    "Convst.Props.C02_univariate_variable_length"
   ],
   "note": ""
  },
  {
   "property": "C03",
   "status": "proved",
   "theorems": [
    "Convst.Props.C03_multivariate_same_length",
    "Convst.Props.C03_features_meaning"
   ],
   "note": ""
  },
  {
   "property": "C04",
   "status": "proved",
   "theorems": [
    "Convst.Props.C04_multivariate_variable_length"
   ],
   "note": ""
  },
  {
   "property": "C05",
   "status": "proved",
   "theorems": [
    "Convst.Props.C05_features_meaning",
    "Convst.Props.C05_feature_ranges",
    "Convst.Props.C05_applies"
   ],
   "note": ""
  },
  {
   "property": "C06",
   "status": "proved",
   "theorems": [
    "Convst.Props.C06_object",
    "Convst.Props.C06_concat",
    "Convst.Props.C06_reindex"
   ],
   "note": ""
  },
  {
   "property": "C07",
   "status": "proved",
   "theorems": [
    "Convst.Props.C07_columns",
    "Convst.Props.C07_columns_variable_length",
    "Convst.Props.C07_columns_multivariate",
    "Convst.Props.C07_columns_multivariate_variable_length"
   ],
   "note": ""
  },
  {
   "property": "C08",
   "status": "proved",
   "theorems": [
    "Convst.Props.C08_univariate_same_length",
    "Convst.Props.C08_multivariate_variable_length",
    "Convst.Props.C08_univariate_variable_length",
    "Convst.Props.C08_multivariate_same_length"
   ],
   "note": ""
  },
  {
   "property": "C09",
   "status": "proved",
   "theorems": [
    "Convst.Props.C09_padding_univariate",
    "Convst.Props.C09_padding_multivariate"
   ],
   "note": ""
  },
  {
   "property": "C10",
   "status": "proved",
   "theorems": [
    "Convst.Props.C10_univariate",
    "Convst.Props.C10_multivariate"
   ],
   "note": ""
  },
  {
   "property": "C11",
   "status": "proved",
   "theorems": [
    "Convst.Props.C11_single_channel",
    "Convst.Props.C11_single_channel_variable_length"
   ],
   "note": ""
  },
  {
   "property": "C12",
   "status": "proved",
   "theorems": [
    "Convst.Props.C12_univariate_same_length",
    "Convst.Props.C12_univariate_variable_length",
    "Convst.Props.C12_multivariate_same_length",
    "Convst.Props.C12_multivariate_variable_length",
    "Convst.Props.C12_no_window",
    "Convst.Props.C12_phase_total",
    "Convst.Props.C12_no_window_multivariate",
    "Convst.Props.C12_phase_total_variable_length",
    "Convst.Props.C12_phase_total_multivariate",
    "Convst.Props.C12_phase_total_multivariate_variable_length"
   ],
   "note": ""
  },
  {
   "property": "C13",
   "status": "proved",
   "theorems": [
    "Convst.Props.C13_distances_rotate",
    "Convst.Props.C13_phase_invariance",
    "Convst.Props.C13_phase_invariance_variable_length",
    "Convst.Props.C13_distances_rotate_multivariate",
    "Convst.Props.C13_phase_invariance_multivariate",
    "Convst.Props.C13_phase_invariance_multivariate_variable_length"
   ],
   "note": ""
  },
  {
   "property": "C14",
   "status": "proved",
   "theorems": [
    "Convst.Props.C14_offset_invariance",
    "Convst.Props.C14_offset_invariance_multivariate",
    "Convst.Props.C14_offset_invariance_variable_length",
    "Convst.Props.C14_offset_invariance_multivariate_matrix",
    "Convst.Props.C14_offset_invariance_multivariate_variable_length"
   ],
   "note": ""
  },
  {
   "property": "C15",
   "status": "proved",
   "theorems": [
    "Convst.Props.C15_scaled_window",
    "Convst.Props.C15_value_bound",
    "Convst.Props.C15_distance_bound",
    "Convst.Props.C15_not_scale_invariant"
   ],
   "note": "The statement is the exact formula and bound; exact scale invariance is refuted by C15_not_scale_invariant."
  },
  {
   "property": "C16",
   "status": "proved",
   "theorems": [
    "Convst.Props.C16_counts_not_fractions",
    "Convst.Props.C16_normalized_output_above_one",
    "Convst.Props.C16_normalize_output_ignored"
   ],
   "note": "Finding: the documented effect does not exist; the theorems prove that the option is ignored."
  },
  {
   "property": "C17",
   "status": "proved",
   "theorems": [
    "Convst.Props.C17_dist_vector",
    "Convst.Props.C17_dist_vector_error",
    "Convst.Props.C17_agrees_with_transform",
    "Convst.Props.C17_agrees_with_transform_variable_length",
    "Convst.Props.C17_agrees_with_transform_multivariate",
    "Convst.Props.C17_agrees_with_transform_multivariate_variable_length"
   ],
   "note": ""
  },
  {
   "property": "C18",
   "status": "proved",
   "theorems": [
    "Convst.Props.C18_manhattan_value",
    "Convst.Props.C18_manhattan_metric",
    "Convst.Props.C18_euclidean_value",
    "Convst.Props.C18_euclidean_metric"
   ],
   "note": ""
  },
  {
   "property": "C19",
   "status": "proved",
   "theorems": [
    "Convst.Props.C19_fit_univariate_same_length"
   ],
   "note": ""
  },
  {
   "property": "C20",
   "status": "proved",
   "theorems": [
    "Convst.Props.C20_fit_univariate_variable_length"
   ],
   "note": ""
  },
  {
   "property": "C21",
   "status": "proved",
   "theorems": [
    "Convst.Props.C21_fit_multivariate_same_length"
   ],
   "note": ""
  },
  {
   "property": "C22",
   "status": "proved",
   "theorems": [
    "Convst.Props.C22_fit_multivariate_variable_length"
   ],
   "note": ""
  },
  {
   "property": "C23",
   "status": "proved",
   "theorems": [
    "Convst.Props.C23_sources_univariate_same_length",
    "Convst.Props.C23_sources_univariate_variable_length",
    "Convst.Props.C23_sources_multivariate_same_length",
    "Convst.Props.C23_sources_multivariate_variable_length"
   ],
   "note": ""
  },
  {
   "property": "C24",
   "status": "proved",
   "theorems": [
    "Convst.Props.C24_thresholds_univariate_same_length",
    "Convst.Props.C24_thresholds_univariate_variable_length",
    "Convst.Props.C24_thresholds_multivariate_same_length",
    "Convst.Props.C24_thresholds_multivariate_variable_length"
   ],
   "note": ""
  },
  {
   "property": "C25",
   "status": "proved",
   "theorems": [
    "Convst.Props.C25_longer_can_exceed",
    "Convst.Props.C25_overlap_same_length",
    "Convst.Props.C25_overlap_variable_length",
    "Convst.Props.C25_overlap_multivariate_same_length",
    "Convst.Props.C25_overlap_multivariate_variable_length"
   ],
   "note": "Includes the counterexample C25_longer_can_exceed for a later, longer shapelet."
  },
  {
   "property": "C26",
   "status": "proved",
   "theorems": [
    "Convst.Props.C26_schedule_independent"
   ],
   "note": ""
  },
  {
   "property": "C27",
   "status": "proved",
   "theorems": [
    "Convst.Props.C27_padding_univariate",
    "Convst.Props.C27_padding_multivariate"
   ],
   "note": ""
  },
  {
   "property": "C28",
   "status": "proved",
   "theorems": [
    "Convst.Props.C28_fit_dilations_univariate",
    "Convst.Props.C28_fit_dilations_multivariate",
    "Convst.Props.C28_is_prime",
    "Convst.Props.C28_prime_up_to",
    "Convst.Props.C28_one_is_listed"
   ],
   "note": ""
  },
  {
   "property": "C29",
   "status": "proved",
   "theorems": [
    "Convst.Props.C29_dilations_fit",
    "Convst.Props.C29_dilations_exact",
    "Convst.Props.C29_largest_never_drawn"
   ],
   "note": ""
  },
  {
   "property": "C30",
   "status": "proved",
   "theorems": [
    "Convst.Props.C30_choice_log_range",
    "Convst.Props.C30_choice_log_law",
    "Convst.Props.C30_choice_log_monotone",
    "Convst.Props.C30_choice_log_complete"
   ],
   "note": ""
  },
  {
   "property": "C31",
   "status": "proved",
   "theorems": [
    "Convst.Props.C31_proba_norm_univariate",
    "Convst.Props.C31_proba_norm_multivariate"
   ],
   "note": ""
  },
  {
   "property": "C32",
   "status": "proved",
   "theorems": [
    "Convst.Props.C32_count_univariate_same_length",
    "Convst.Props.C32_count_univariate_variable_length",
    "Convst.Props.C32_count_distinct_same_length",
    "Convst.Props.C32_count_distinct_variable_length",
    "Convst.Props.C32_count_multivariate_same_length",
    "Convst.Props.C32_count_multivariate_variable_length",
    "Convst.Props.C32_discard_multivariate_same_length",
    "Convst.Props.C32_discard_multivariate_variable_length",
    "Convst.Props.C32_discard_univariate_same_length",
    "Convst.Props.C32_discard_univariate_variable_length",
    "Convst.Props.C32_constant_series_no_shapelet"
   ],
   "note": "Finding: univariate fit also discards identically zero shapelets (C32_constant_series_no_shapelet)."
  },
  {
   "property": "C33",
   "status": "proved",
   "theorems": [
    "Convst.Props.C33_combinations"
   ],
   "note": ""
  },
  {
   "property": "C34",
   "status": "proved",
   "theorems": [
    "Convst.Props.C34_auto_list",
    "Convst.Props.C34_auto_array",
    "Convst.Props.C34_other_dtype",
    "Convst.Props.C34_fixed_type"
   ],
   "note": ""
  },
  {
   "property": "C35",
   "status": "proved",
   "theorems": [
    "Convst.Props.C35_transform_type_partial",
    "Convst.Props.C35_univariate_variable_rejected"
   ],
   "note": "Finding: C35_univariate_variable_rejected; acceptance of the other values is C35_transform_type_partial."
  },
  {
   "property": "C36",
   "status": "proved",
   "theorems": [
    "Convst.Props.C36_lengths_from_bounds",
    "Convst.Props.C36_reduction_one_rejected"
   ],
   "note": ""
  },
  {
   "property": "C37",
   "status": "proved",
   "theorems": [
    "Convst.Props.C37_validated_lengths_partial",
    "Convst.Props.C37_three_points"
   ],
   "note": "Finding: C37_three_points; the expected property holds for at least 4 points (C37_validated_lengths_partial)."
  },
  {
   "property": "C38",
   "status": "proved",
   "theorems": [
    "Convst.Props.C38_fraction_example",
    "Convst.Props.C38_refit_lengths_partial",
    "Convst.Props.C38_refit_same_length_partial",
    "Convst.Props.C38_fractions_change_on_refit"
   ],
   "note": "Finding: C38_fractions_change_on_refit; the expected property holds for integers and bounds (the _partial theorems)."
  },
  {
   "property": "C39",
   "status": "proved",
   "theorems": [
    "Convst.Props.C39_history_changes_fit",
    "Convst.Props.C39_min_len_fixed",
    "Convst.Props.C39_max_channels_fixed",
    "Convst.Props.C39_type_fixed",
    "Convst.Props.C39_same_length_recomputed"
   ],
   "note": ""
  },
  {
   "property": "C40",
   "status": "proved",
   "theorems": [
    "Convst.Props.C40_format_uneven",
    "Convst.Props.C40_format_errors"
   ],
   "note": ""
  },
  {
   "property": "C41",
   "status": "proved",
   "theorems": [
    "Convst.Props.C41_wrong_length",
    "Convst.Props.C41_series_labels_paired_partial",
    "Convst.Props.C41_lengths_not_subsampled"
   ],
   "note": "Finding: C41_wrong_length; series and labels stay paired (C41_series_labels_paired_partial)."
  },
  {
   "property": "C42",
   "status": "proved",
   "theorems": [
    "Convst.Props.C42_subsampling_uses_global_generator",
    "Convst.Props.C42_random_state_determines_fit",
    "Convst.Props.C42_one_draw_own",
    "Convst.Props.C42_one_draw_global"
   ],
   "note": "Finding: C42_subsampling_uses_global_generator; reproducibility holds for n_samples=None."
  },
  {
   "property": "C43",
   "status": "proved",
   "theorems": [
    "Convst.Props.C43_object_same_length",
    "Convst.Props.C43_object_variable_length",
    "Convst.Props.C43_fit_transform_univariate_same_length",
    "Convst.Props.C43_fit_transform_univariate_variable_length",
    "Convst.Props.C43_fit_transform_multivariate_same_length",
    "Convst.Props.C43_fit_transform_multivariate_variable_length"
   ],
   "note": ""
  },
  {
   "property": "C44",
   "status": "proved",
   "theorems": [
    "Convst.Props.C44_constructor_rejects",
    "Convst.Props.C44_constructor_value_error",
    "Convst.Props.C44_n_jobs_partial",
    "Convst.Props.C44_nonpositive",
    "Convst.Props.C44_is_int"
   ],
   "note": "Finding: C44_nonpositive; in range for the other values (C44_n_jobs_partial)."
  },
  {
   "property": "C45",
   "status": "proved",
   "theorems": [
    "Convst.Props.C45_split",
    "Convst.Props.C45_failure",
    "Convst.Props.C45_second_fit"
   ],
   "note": "Finding: C45_second_fit, C45_failure."
  },
  {
   "property": "C46",
   "status": "proved",
   "theorems": [
    "Convst.Props.C46_last_construction"
   ],
   "note": ""
  },
  {
   "property": "C47",
   "status": "proved",
   "theorems": [
    "Convst.Props.C47_minmax_succeeds",
    "Convst.Props.C47_kept_features",
    "Convst.Props.C47_predict_time",
    "Convst.Props.C47_standardised",
    "Convst.Props.C47_too_few_columns",
    "Convst.Props.C47_minmax"
   ],
   "note": ""
  },
  {
   "property": "C48",
   "status": "proved",
   "theorems": [
    "Convst.Props.C48_importance",
    "Convst.Props.C48_class_range",
    "Convst.Props.C48_explains_score",
    "Convst.Props.C48_two_classes"
   ],
   "note": ""
  },
  {
   "property": "C49",
   "status": "proved",
   "theorems": [
    "Convst.Props.C49_best_shapelets",
    "Convst.Props.C49_figures",
    "Convst.Props.C49_needs_both"
   ],
   "note": ""
  },
  {
   "property": "C50",
   "status": "proved",
   "theorems": [
    "Convst.Props.C50_weighted_vote",
    "Convst.Props.C50_index_range",
    "Convst.Props.C50_batch_independent",
    "Convst.Props.C50_unanimous",
    "Convst.Props.C50_label_never_predicted",
    "Convst.Props.C50_index_is_label_partial",
    "Convst.Props.C50_fit_succeeds",
    "Convst.Props.C50_fit_predict_same_length"
   ],
   "note": "Finding: C50_label_never_predicted; correct for labels 0..k-1 (C50_index_is_label_partial)."
  },
  {
   "property": "C51",
   "status": "proved",
   "theorems": [
    "Convst.Props.C51_probabilities",
    "Convst.Props.C51_weights"
   ],
   "note": ""
  },
  {
   "property": "C52",
   "status": "proved",
   "theorems": [
    "Convst.Props.C52_kth_draw",
    "Convst.Props.C52_same_order_partial",
    "Convst.Props.C52_order_changes_members"
   ],
   "note": "Finding: C52_order_changes_members; reproducible for a fixed order (C52_same_order_partial)."
  },
  {
   "property": "C53",
   "status": "proved",
   "theorems": [
    "Convst.Props.C53_predict",
    "Convst.Props.C53_batch_independent",
    "Convst.Props.C53_score",
    "Convst.Props.C53_fit_predict_same_length",
    "Convst.Props.C53_fit_predict_variable_length"
   ],
   "note": ""
  },
  {
   "property": "C54",
   "status": "proved",
   "theorems": [
    "Convst.Props.C54_unique_rows",
    "Convst.Props.C54_unique_columns",
    "Convst.Props.C54_counts_sum",
    "Convst.Props.C54_empty",
    "Convst.Props.C54_all_axis1",
    "Convst.Props.C54_all_axis0",
    "Convst.Props.C54_violated_all_single"
   ],
   "note": ""
  },
  {
   "property": "C55",
   "status": "proved",
   "theorems": [
    "Convst.Props.C55_resample",
    "Convst.Props.C55_sizes",
    "Convst.Props.C55_folds"
   ],
   "note": ""
  },
  {
   "property": "C56",
   "status": "proved",
   "theorems": [
    "Convst.Props.C56_lookup",
    "Convst.Props.C56_folds_partial",
    "Convst.Props.C56_duplicates",
    "Convst.Props.C56_common_channel"
   ],
   "note": "Finding: C56_duplicates, C56_common_channel; correct when no two series share a channel (C56_folds_partial)."
  },
  {
   "property": "C57",
   "status": "proved",
   "theorems": [
    "Convst.Props.C57_all_samples",
    "Convst.Props.C57_transformer",
    "Convst.Props.C57_in_place",
    "Convst.Props.C57_znorm",
    "Convst.Props.C57_constant"
   ],
   "note": ""
  },
  {
   "property": "C58",
   "status": "proved",
   "theorems": [
    "Convst.Props.C58_holm",
    "Convst.Props.C58_count",
    "Convst.Props.C58_downward_closed",
    "Convst.Props.C58_between",
    "Convst.Props.C58_monotone"
   ],
   "note": ""
  },
  {
   "property": "C59",
   "status": "proved",
   "theorems": [
    "Convst.Props.C59_partition",
    "Convst.Props.C59_counts",
    "Convst.Props.C59_symmetric",
    "Convst.Props.C59_negative_margin"
   ],
   "note": "For a negative margin the counts do not partition: C59_negative_margin."
  },
  {
   "property": "C60",
   "status": "proved",
   "theorems": [
    "Convst.Props.C60_number_of_datasets",
    "Convst.Props.C60_average_ranks",
    "Convst.Props.C60_meaning",
    "Convst.Props.C60_error"
   ],
   "note": ""
  },
  {
   "property": "C61",
   "status": "proved",
   "theorems": [
    "Convst.Props.C61_length",
    "Convst.Props.C61_channelwise",
    "Convst.Props.C61_inputs",
    "Convst.Props.C61_other_dimensions",
    "Convst.Props.C61_forward_difference",
    "Convst.Props.C61_linear",
    "Convst.Props.C61_polynomials_vanish",
    "Convst.Props.C61_offset",
    "Convst.Props.C61_recover"
   ],
   "note": ""
  },
  {
   "property": "C62",
   "status": "proved",
   "theorems": [
    "Convst.Props.C62_check_array_3D",
    "Convst.Props.C62_check_array_2D",
    "Convst.Props.C62_check_array_1D"
   ],
   "note": ""
  },
  {
   "property": "C63",
   "status": "proved",
   "theorems": [
    "Convst.Props.C63_rdst_accepts",
    "Convst.Props.C63_multivariate_value_error",
    "Convst.Props.C63_univariate",
    "Convst.Props.C63_ridge_accepts",
    "Convst.Props.C63_not_fitted",
    "Convst.Props.C63_ensemble_never"
   ],
   "note": "Finding: both claims are failures of the interpreters, proved for every model."
  },
  {
   "property": "C64",
   "status": "proved",
   "theorems": [
    "Convst.Props.C64_positions",
    "Convst.Props.C64_fails_iff",
    "Convst.Props.C64_rescaled",
    "Convst.Props.C64_matches_transform"
   ],
   "note": ""
  },
  {
   "property": "C65",
   "status": "proved",
   "theorems": [
    "Convst.Props.C65_loader",
    "Convst.Props.C65_codes",
    "Convst.Props.C65_loader_fails",
    "Convst.Props.C65_min_len_suffices"
   ],
   "note": ""
  },
  {
   "property": "C66",
   "status": "proved",
   "theorems": [
    "Convst.Props.C66_ranks_row_order",
    "Convst.Props.C66_pairs_by_dataset_partial",
    "Convst.Props.C66_consistent_orders_partial",
    "Convst.Props.C66_row_order_matters"
   ],
   "note": "Finding: C66_row_order_matters; correct for consistent row orders (the _partial theorems)."
  },
  {
   "property": "C67",
   "status": "proved",
   "theorems": [
    "Convst.Props.C67_all_weights_zero",
    "Convst.Props.C67_predict_constant"
   ],
   "note": "Finding: proved for every training set whose labels are no class indices."
  },
  {
   "property": "C68",
   "status": "proved",
   "theorems": [
    "Convst.Props.C68_failed_fit_unusable",
    "Convst.Props.C68_witness"
   ],
   "note": "Finding: proved for every failing fit, with C68_witness."
  },
  {
   "property": "C69",
   "status": "proved",
   "theorems": [
    "Convst.Props.C69_refit_from_scratch"
   ],
   "note": ""
  },
  {
   "property": "C70",
   "status": "proved",
   "theorems": [
    "Convst.Props.C70_separates",
    "Convst.Props.C70_separates_variable_length",
    "Convst.Props.C70_separates_multivariate",
    "Convst.Props.C70_separates_multivariate_variable_length"
   ],
   "note": ""
  },
  {
   "property": "C71",
   "status": "proved",
   "theorems": [
    "Convst.Props.C71_class_by_label_partial",
    "Convst.Props.C71_position_not_label"
   ],
   "note": "Finding: C71_position_not_label; correct for labels 0..k-1 (C71_class_by_label_partial)."
  },
  {
   "property": "C72",
   "status": "proved",
   "theorems": [
    "Convst.Props.C72_folds_independent"
   ],
   "note": ""
  },
  {
   "property": "C73",
   "status": "proved",
   "theorems": [
    "Convst.Props.C73_pairwise_plot",
    "Convst.Props.C73_single_column",
    "Convst.Props.C73_no_panels",
    "Convst.Props.C73_unknown_baseline"
   ],
   "note": "Finding: C73_single_column."
  },
  {
   "property": "C74",
   "status": "proved",
   "theorems": [
    "Convst.Props.C74_bars",
    "Convst.Props.C74_joined_iff_partial",
    "Convst.Props.C74_bar_over_different",
    "Convst.Props.C74_violated"
   ],
   "note": "Finding: C74_violated; the converse holds for convex non-significance (C74_joined_iff_partial). Clique enumeration is a parameter with the law CliqueLaw."
  },
  {
   "property": "C75",
   "status": "proved",
   "theorems": [
    "Convst.Props.C75_axis"
   ],
   "note": ""
  },
  {
   "property": "C76",
   "status": "proved",
   "theorems": [
    "Convst.Props.C76_labels",
    "Convst.Props.C76_labels_fit"
   ],
   "note": "Finding: exactly when the labels fit is characterised by C76_labels_fit."
  },
  {
   "property": "C77",
   "status": "proved",
   "theorems": [
    "Convst.Props.C77_draws",
    "Convst.Props.C77_path_saves_nothing"
   ],
   "note": "Finding: C77_path_saves_nothing."
  },
  {
   "property": "C78",
   "status": "proved",
   "theorems": [
    "Convst.Props.C78_kth_fit",
    "Convst.Props.C78_refit_differs"
   ],
   "note": "Finding: C78_refit_differs."
  },
  {
   "property": "C79",
   "status": "proved",
   "theorems": [
    "Convst.Props.C79_sound_same_length",
    "Convst.Props.C79_complete_same_length",
    "Convst.Props.C79_sound_variable_length",
    "Convst.Props.C79_complete_variable_length",
    "Convst.Props.C79_sound_multivariate_same_length",
    "Convst.Props.C79_complete_multivariate_same_length",
    "Convst.Props.C79_sound_multivariate_variable_length",
    "Convst.Props.C79_complete_multivariate_variable_length"
   ],
   "note": ""
  },
  {
   "property": "C80",
   "status": "proved",
   "theorems": [
    "Convst.Props.C80_never_cloned",
    "Convst.Props.C80_runtime_error",
    "Convst.Props.C80_univariate_variable",
    "Convst.Props.C80_pipeline",
    "Convst.Props.C80_stored",
    "Convst.Props.C80_accepted"
   ],
   "note": "Finding: the statement says that cloning fails; it is proved for all attribute values."
  },
  {
   "property": "C81",
   "status": "proved",
   "theorems": [
    "Convst.Props.C81_ridge",
    "Convst.Props.C81_ensemble",
    "Convst.Props.C81_ensemble_lengths",
    "Convst.Props.C81_ensemble_counts",
    "Convst.Props.C81_ensemble_arrays",
    "Convst.Props.C81_ridge_stored",
    "Convst.Props.C81_ensemble_stored"
   ],
   "note": ""
  },
  {
   "property": "C82",
   "status": "proved",
   "theorems": [
    "Convst.Props.C82_equal_states",
    "Convst.Props.C82_private",
    "Convst.Props.C82_ridge"
   ],
   "note": "Finding: clones of an ensemble without random_state repeat each other."
  },
  {
   "property": "C83",
   "status": "proved",
   "theorems": [
    "Convst.Props.C83_fitters",
    "Convst.Props.C83_fit"
   ],
   "note": ""
  },
  {
   "property": "C84",
   "status": "proved",
   "theorems": [
    "Convst.Props.C84_fit_univariate_same_length",
    "Convst.Props.C84_fit_univariate_variable_length",
    "Convst.Props.C84_fit_multivariate_same_length",
    "Convst.Props.C84_fit_multivariate_variable_length",
    "Convst.Props.C84_row_univariate",
    "Convst.Props.C84_row_multivariate",
    "Convst.Props.C84_object_same_length",
    "Convst.Props.C84_object_variable_length",
    "Convst.Props.C84_offset_loses_shapelets",
    "Convst.Props.C84_rowUnits_abs_one"
   ],
   "note": ""
  },
  {
   "property": "C85",
   "status": "proved",
   "theorems": [
    "Convst.Props.C85_ridge_same_length",
    "Convst.Props.C85_ridge_variable_length"
   ],
   "note": ""
  },
  {
   "property": "C86",
   "status": "proved",
   "theorems": [
    "Convst.Props.C86_rdst_not_fitted",
    "Convst.Props.C86_rdst_failed_refit",
    "Convst.Props.C86_ridge_not_fitted",
    "Convst.Props.C86_ridge_failed_fit",
    "Convst.Props.C86_ensemble_not_fitted",
    "Convst.Props.C86_ensemble_failed_refit"
   ],
   "note": ""
  },
  {
   "property": "C87",
   "status": "proved",
   "theorems": [
    "Convst.Props.C87_ridge_instance"
   ],
   "note": ""
  },
  {
   "property": "C88",
   "status": "proved",
   "theorems": [
    "Convst.Props.C88_load_dataset",
    "Convst.Props.C88_uneven_dataset_fails"
   ],
   "note": ""
  },
  {
   "property": "C89",
   "status": "proved",
   "theorems": [
    "Convst.Props.C89_rows",
    "Convst.Props.C89_object_same_length",
    "Convst.Props.C89_object_variable_length",
    "Convst.Props.C89_count_jumps"
   ],
   "note": ""
  },
  {
   "property": "C90",
   "status": "proved",
   "theorems": [
    "Convst.Props.C90_rows",
    "Convst.Props.C90_object_variable_length",
    "Convst.Props.C90_phase_not_monotone"
   ],
   "note": ""
  },
  {
   "property": "C91",
   "status": "proved",
   "theorems": [
    "Convst.Props.C91_one_fit",
    "Convst.Props.C91_transforms",
    "Convst.Props.C91_all_reached",
    "Convst.Props.C91_predict_synced",
    "Convst.Props.C91_no_random",
    "Convst.Props.C91_distinct",
    "Convst.Props.C91_not_random_state",
    "Convst.Props.C91_fit_succeeds",
    "Convst.Props.C91_shared_object",
    "Convst.Props.C91_failed_refit",
    "Convst.Props.C91_shared_object_example"
   ],
   "note": ""
  },
  {
   "property": "C92",
   "status": "proved",
   "theorems": [
    "Convst.Props.C92_transformer_rejects",
    "Convst.Props.C92_predict_rejects",
    "Convst.Props.C92_periodigram_rejects_lists",
    "Convst.Props.C92_periodigram_predict",
    "Convst.Props.C92_derivate_rejects_lengths",
    "Convst.Props.C92_derivate_object_array",
    "Convst.Props.C92_derivate_object_array_shapes",
    "Convst.Props.C92_raw_lists"
   ],
   "note": ""
  },
  {
   "property": "C93",
   "status": "proved",
   "theorems": [
    "Convst.Props.C93_channelwise",
    "Convst.Props.C93_offset",
    "Convst.Props.C93_optimal_offset",
    "Convst.Props.C93_optimal_offset_partial",
    "Convst.Props.C93_default_offset"
   ],
   "note": "Finding: use_optimal_offset calls fhtoffset with the wrong arguments. C93_optimal_offset_partial gives the case in which the offset is still low-ringing; C93_default_offset is the counterexample for the default parameters."
  },
  {
   "property": "C94",
   "status": "proved",
   "theorems": [
    "Convst.Props.C94_param_grid",
    "Convst.Props.C94_clone_not_fitted",
    "Convst.Props.C94_same_scores",
    "Convst.Props.C94_returns",
    "Convst.Props.C94_uneven_dataset",
    "Convst.Props.C94_rdst_pipeline",
    "Convst.Props.C94_duplicates"
   ],
   "note": ""
  },
  {
   "property": "C95",
   "status": "proved",
   "theorems": [
    "Convst.Props.C95_any_order",
    "Convst.Props.C95_transform",
    "Convst.Props.C95_error_size",
    "Convst.Props.C95_double"
   ],
   "note": ""
  },
  {
   "property": "C96",
   "status": "proved",
   "theorems": [
    "Convst.Props.C96_any_order",
    "Convst.Props.C96_transform",
    "Convst.Props.C96_error_size",
    "Convst.Props.C96_double"
   ],
   "note": ""
  },
  {
   "property": "C97",
   "status": "proved",
   "theorems": [
    "Convst.Props.C97_row_numbers",
    "Convst.Props.C97_mean_and_deviation",
    "Convst.Props.C97_rows",
    "Convst.Props.C97_finished_rows_kept",
    "Convst.Props.C97_finished_rows_skipped",
    "Convst.Props.C97_complete",
    "Convst.Props.C97_reaches_end",
    "Convst.Props.C97_same_table",
    "Convst.Props.C97_violated_failing_dataset",
    "Convst.Props.C97_violated_kill_during_write",
    "Convst.Props.C97_violated_other_models"
   ],
   "note": ""
  },
  {
   "property": "C98",
   "status": "proved",
   "theorems": [
    "Convst.Props.C98_constructor",
    "Convst.Props.C98_extra_percentiles",
    "Convst.Props.C98_violated_single_percentile",
    "Convst.Props.C98_violated_percentile_range"
   ],
   "note": ""
  },
  {
   "property": "C99",
   "status": "proved",
   "theorems": [
    "Convst.Props.C99_constructor",
    "Convst.Props.C99_member_parameters",
    "Convst.Props.C99_violated_normalize_output",
    "Convst.Props.C99_violated_late_errors"
   ],
   "note": ""
  },
  {
   "property": "C100",
   "status": "proved",
   "theorems": [
    "Convst.Props.C100_fit_same_length",
    "Convst.Props.C100_fit_variable_length",
    "Convst.Props.C100_double_accurate",
    "Convst.Props.C100_double_percentile",
    "Convst.Props.C100_percentile_out_of_bounds"
   ],
   "note": ""
  },
  {
   "property": "C101",
   "status": "proved",
   "theorems": [
    "Convst.Props.C101_samples_same_length",
    "Convst.Props.C101_samples_variable_length",
    "Convst.Props.C101_samples_multivariate_same_length",
    "Convst.Props.C101_samples_multivariate_variable_length",
    "Convst.Props.C101_channels_same_length",
    "Convst.Props.C101_channels_variable_length"
   ],
   "note": ""
  },
  {
   "property": "C102",
   "status": "proved",
   "theorems": [
    "Convst.Props.C102_univariate_same_length",
    "Convst.Props.C102_univariate_variable_length",
    "Convst.Props.C102_multivariate_same_length",
    "Convst.Props.C102_multivariate_variable_length"
   ],
   "note": ""
  },
  {
   "property": "C103",
   "status": "proved",
   "theorems": [
    "Convst.Props.C103_univariate_same_length",
    "Convst.Props.C103_univariate_variable_length",
    "Convst.Props.C103_multivariate_same_length",
    "Convst.Props.C103_multivariate_variable_length"
   ],
   "note": ""
  },
  {
   "property": "C104",
   "status": "proved",
   "theorems": [
    "Convst.Props.C104_one_shapelet_univariate",
    "Convst.Props.C104_one_shapelet_multivariate",
    "Convst.Props.C104_different_laws"
   ],
   "note": "Finding: the two samplings agree for one shapelet (C104_one_shapelet_*) and differ from two on (C104_different_laws)."
  },
  {
   "property": "C105",
   "status": "proved",
   "theorems": [
    "Convst.Props.C105_univariate_array",
    "Convst.Props.C105_univariate_list",
    "Convst.Props.C105_multivariate_array",
    "Convst.Props.C105_multivariate_list",
    "Convst.Props.C105_complete",
    "Convst.Props.C105_missing_in_shapelet",
    "Convst.Props.C105_first_value_matters"
   ],
   "note": ""
  },
  {
   "property": "C106",
   "status": "proved",
   "theorems": [
    "Convst.Props.C106_distinct_alphas",
    "Convst.Props.C106_repeated_alpha",
    "Convst.Props.C106_repeated_not_fitted",
    "Convst.Props.C106_repeated_refit"
   ],
   "note": "Finding: C106_repeated_alpha, C106_repeated_not_fitted and C106_repeated_refit prove the violation for a repeated value; C106_distinct_alphas is the property for different values."
  },
  {
   "property": "C107",
   "status": "proved",
   "theorems": [
    "Convst.Props.C107_nan_threshold",
    "Convst.Props.C107_nan_shapelet",
    "Convst.Props.C107_fit_same_length",
    "Convst.Props.C107_fit_variable_length"
   ],
   "note": "Finding: missing values in the training set silently disable thresholds and shapelets; the theorems say exactly which."
  },
  {
   "property": "C108",
   "status": "proved",
   "theorems": [
    "Convst.Props.C108_partial_update",
    "Convst.Props.C108_rdst",
    "Convst.Props.C108_rdst_seed_first_fit",
    "Convst.Props.C108_seed_refit_repeats",
    "Convst.Props.C108_violated_list_lengths",
    "Convst.Props.C108_violated_float_count",
    "Convst.Props.C108_short_percentiles",
    "Convst.Props.C108_violated_no_validation",
    "Convst.Props.C108_violated_type_case",
    "Convst.Props.C108_transform_unchanged",
    "Convst.Props.C108_phase_after_fit",
    "Convst.Props.C108_type_after_fit_same_family",
    "Convst.Props.C108_type_after_fit_other_family",
    "Convst.Props.C108_n_jobs",
    "Convst.Props.C108_reset",
    "Convst.Props.C108_ridge",
    "Convst.Props.C108_ridge_predict_unchanged",
    "Convst.Props.C108_ridge_refit",
    "Convst.Props.C108_ridge_n_jobs",
    "Convst.Props.C108_ridge_refuses",
    "Convst.Props.C108_ensemble",
    "Convst.Props.C108_ensemble_refuses",
    "Convst.Props.C108_ensemble_short_probabilities",
    "Convst.Props.C108_ensemble_seed_any_order"
   ],
   "note": "Finding: set_params skips the constructor's conversions and checks; the theorems say for which values the object still behaves like a constructed one (C108_rdst, C108_ridge, C108_ensemble) and what happens for the others (C108_violated_*, C108_ensemble_*)."
  },
  {
   "property": "C109",
   "status": "proved",
   "theorems": [
    "Convst.Props.C109_same_minimum",
    "Convst.Props.C109_same_minimum_rounded",
    "Convst.Props.C109_same_minimum_double",
    "Convst.Props.C109_same_minimum_missing",
    "Convst.Props.C109_is_minimum",
    "Convst.Props.C109_minimum_of_transform",
    "Convst.Props.C109_missing_passed_over"
   ],
   "note": "Finding: the script's import is broken; its functions are modelled with the library's window extraction."
  },
  {
   "property": "C110",
   "status": "proved",
   "theorems": [
    "Convst.Props.C110_univariate",
    "Convst.Props.C110_multivariate",
    "Convst.Props.C110_normalised_univariate",
    "Convst.Props.C110_normalised_multivariate",
    "Convst.Props.C110_range_does_not_matter",
    "Convst.Props.C110_bound_univariate",
    "Convst.Props.C110_bound_multivariate",
    "Convst.Props.C110_first_value_matters",
    "Convst.Props.C110_overflow"
   ],
   "note": "Findings 45 and 46: C110_first_value_matters and C110_overflow are the witnesses of what fails (an infinite value in the first window of a normalised shapelet; finite data at an infinite distance). Source semantics: fastmath lets the compiler assume the absence of NaN and infinities."
  },
  {
   "property": "C111",
   "status": "proved",
   "theorems": [
    "Convst.Props.C111_transform_memory",
    "Convst.Props.C111_no_write",
    "Convst.Props.C111_z_norm_3D_in_place"
   ],
   "note": "Finding 47: C111_z_norm_3D_in_place shows that, unlike transform, z_norm_3D overwrites the caller's array."
  },
  {
   "property": "C112",
   "status": "proved",
   "theorems": [
    "Convst.Props.C112_fit_univariate_same_length",
    "Convst.Props.C112_fit_univariate_variable_length",
    "Convst.Props.C112_fit_multivariate_same_length",
    "Convst.Props.C112_fit_multivariate_variable_length",
    "Convst.Props.C112_fit_univariate_same_length_rounded",
    "Convst.Props.C112_fit_univariate_variable_length_rounded",
    "Convst.Props.C112_fit_multivariate_same_length_rounded",
    "Convst.Props.C112_fit_multivariate_variable_length_rounded"
   ],
   "note": "For data with missing values in otherwise exact arithmetic, and in rounded arithmetic (_rounded)."
  },
  {
   "property": "C113",
   "status": "proved",
   "theorems": [
    "Convst.Props.C113_window",
    "Convst.Props.C113_nan_threshold",
    "Convst.Props.C113_infinite_threshold_univariate",
    "Convst.Props.C113_infinite_threshold_multivariate",
    "Convst.Props.C113_infinite_threshold_counts",
    "Convst.Props.C113_percentile_zero",
    "Convst.Props.C113_fit_same_length",
    "Convst.Props.C113_fit_variable_length",
    "Convst.Props.C113_float64"
   ],
   "note": "For every format of bounded range satisfying Ranged; C113_float64 shows that float64 does (ties rounded upwards, correctly rounded log, log2 and 2**x)."
  },
  {
   "property": "C114",
   "status": "proved",
   "theorems": [
    "Convst.Props.C114_fit",
    "Convst.Props.C114_fit_prime",
    "Convst.Props.C114_transform",
    "Convst.Props.C114_transform_accepts"
   ],
   "note": "In any arithmetic, relative to the fit of the same object asked for some shapelets."
  },
  {
   "property": "C115",
   "status": "proved",
   "theorems": [
    "Convst.Props.C115_univariate_same_length",
    "Convst.Props.C115_univariate_variable_length",
    "Convst.Props.C115_multivariate_same_length",
    "Convst.Props.C115_multivariate_variable_length",
    "Convst.Props.C115_length_absent_univariate",
    "Convst.Props.C115_length_absent_multivariate",
    "Convst.Props.C115_length_absent_univariate_variable",
    "Convst.Props.C115_length_absent_multivariate_variable",
    "Convst.Props.C115_never_certain"
   ],
   "note": "For real arithmetic and a fair generator, as C102 and C103."
  },
  {
   "property": "C116",
   "status": "proved",
   "theorems": [
    "Convst.Props.C116_rounded_same_length",
    "Convst.Props.C116_rounded_variable_length",
    "Convst.Props.C116_missing_same_length",
    "Convst.Props.C116_missing_variable_length",
    "Convst.Props.C116_ieee_same_length",
    "Convst.Props.C116_ieee_variable_length",
    "Convst.Props.C116_limit_rounded",
    "Convst.Props.C116_channels_rounded",
    "Convst.Props.C116_limit_missing",
    "Convst.Props.C116_channels_missing",
    "Convst.Props.C116_limit_ieee",
    "Convst.Props.C116_flags_rounded",
    "Convst.Props.C116_some_shapelet_rounded",
    "Convst.Props.C116_multivariate_not_empty",
    "Convst.Props.C116_count_rounded_same_length",
    "Convst.Props.C116_count_rounded_variable_length",
    "Convst.Props.C116_count_missing_same_length",
    "Convst.Props.C116_count_missing_variable_length",
    "Convst.Props.C116_count_ieee_same_length",
    "Convst.Props.C116_count_ieee_variable_length",
    "Convst.Props.C116_flags_missing",
    "Convst.Props.C116_flags_ieee"
   ],
   "note": "For the arithmetics of C100 (rounded), C107 (missing values) and C113 (bounded range); on real numbers the same rules are C25, C28 and C31."
  },
  {
   "property": "C117",
   "status": "proved",
   "theorems": [
    "Convst.Props.C117_float64",
    "Convst.Props.C117_normalised_window",
    "Convst.Props.C117_transform",
    "Convst.Props.C117_accuracy"
   ],
   "note": "The operations in the order of the source code (fastmath may reorder them, see DESIGN.md)."
  },
  {
   "property": "C118",
   "status": "proved",
   "theorems": [
    "Convst.Props.C118_fit_same_length",
    "Convst.Props.C118_fit_variable_length"
   ],
   "note": "The operations in the order of the source code (fastmath may reorder them, see DESIGN.md)."
  },
  {
   "property": "C119",
   "status": "proved",
   "theorems": [
    "Convst.Props.C119_kept",
    "Convst.Props.C119_varying_kept",
    "Convst.Props.C119_integer_feature",
    "Convst.Props.C119_transform",
    "Convst.Props.C119_constant_kept",
    "Convst.Props.C119_tiny_dropped"
   ],
   "note": "The full 'constant features are dropped, varying ones are kept' is violated in both directions (C119_constant_kept, C119_tiny_dropped, findings 52 and 53); C119_kept says exactly what is kept in rounded arithmetic."
  },
  {
   "property": "C120",
   "status": "proved",
   "theorems": [
    "Convst.Props.C120_same_length",
    "Convst.Props.C120_variable_length"
   ],
   "note": "scikit-learn's ridge learner is a parameter; the assumption on it is Spec.AcceptsFinite. StandardScaler is modelled by mean and population deviation (its incremental algorithm and its tolerance for near-constant features are simplified, see handleZero)."
  },
  {
   "property": "C121",
   "status": "proved",
   "theorems": [
    "Convst.Props.C121_double_digits",
    "Convst.Props.C121_any_order",
    "Convst.Props.C121_transform",
    "Convst.Props.C121_fit_same_length",
    "Convst.Props.C121_fit_variable_length"
   ],
   "note": "Shapelets compared with normalised series are not covered (normalisation divides); for them see C96 and C117. Sums in an arbitrary order are covered by C121_any_order; the transform theorems use the order of the source."
  },
  {
   "property": "C122",
   "status": "proved",
   "theorems": [
    "Convst.Props.C122_probabilities",
    "Convst.Props.C122_predict",
    "Convst.Props.C122_unanimous",
    "Convst.Props.C122_float64",
    "Convst.Props.C122_tie_to_first"
   ],
   "note": "That the scores are finite is a hypothesis (the coefficients come from scikit-learn); the exponential is assumed to be 1 at 0, in [0,1] and increasing on the negative numbers and at most 1/2 at -1. Margins below 1 may be lost by rounding: C122_tie_to_first is a counterexample to the statement without a margin."
  },
  {
   "property": "C123",
   "status": "proved",
   "theorems": [
    "Convst.Props.C123_fit",
    "Convst.Props.C123_float64"
   ],
   "note": "RidgeClassifierCV is assumed to accept finite matrices and to keep one leave-one-out prediction per series; the power is assumed to keep [0,1]. That the ridge coefficients, hence the scores, are finite is not claimed (scikit-learn computes them); C122 takes finite scores as a hypothesis."
  },
  {
   "property": "C124",
   "status": "proved",
   "theorems": [
    "Convst.Props.C124_any_order",
    "Convst.Props.C124_predict",
    "Convst.Props.C124_digital",
    "Convst.Props.C124_double"
   ],
   "note": "Rounding without overflow and underflow (see C113, C119 for the range). scikit-learn's decision function is modelled as a product, an added intercept and an argmax; `C124_any_order` is independent of the order of the additions."
  },
  {
   "property": "C125",
   "status": "proved",
   "theorems": [
    "Convst.Props.C125_digital_none_partial",
    "Convst.Props.C125_flat_small",
    "Convst.Props.C125_flat_kept",
    "Convst.Props.C125_double_residue"
   ],
   "note": "Finding: C125_flat_kept (the claim without rounding is false in double precision); it holds for digitised data (C125_digital_none_partial), and what is left is bounded in general (C125_flat_small, C125_double_residue)."
  },
  {
   "property": "C126",
   "status": "proved",
   "theorems": [
    "Convst.Props.C126_rows",
    "Convst.Props.C126_transform",
    "Convst.Props.C126_law_univariate_same_length",
    "Convst.Props.C126_law_univariate_variable_length",
    "Convst.Props.C126_law_multivariate_same_length",
    "Convst.Props.C126_law_multivariate_variable_length",
    "Convst.Props.C126_shapelets_reversed",
    "Convst.Props.C126_several_lengths_violated"
   ],
   "note": "Finding: with several shapelet lengths fit is not symmetric in time (`C126_several_lengths_violated`, finding 56). Symmetry is proved for shapelets of one length, and for transform in general."
  },
  {
   "property": "C127",
   "status": "proved",
   "theorems": [
    "Convst.Props.C127_samples_univariate_same_length",
    "Convst.Props.C127_samples_univariate_variable_length",
    "Convst.Props.C127_samples_multivariate_same_length",
    "Convst.Props.C127_samples_multivariate_variable_length",
    "Convst.Props.C127_channels_same_length",
    "Convst.Props.C127_channels_variable_length"
   ],
   "note": "All four variants for the order of the samples, both multivariate variants for the order of the channels."
  },
  {
   "property": "C128",
   "status": "proved",
   "theorems": [
    "Convst.Props.C128_univariate_same_length",
    "Convst.Props.C128_univariate_variable_length",
    "Convst.Props.C128_multivariate_same_length",
    "Convst.Props.C128_multivariate_variable_length"
   ],
   "note": "All four variants; class shares for series of equal length. alpha <= 1 is needed for the multivariate class shares: with alpha > 1 every position is refused."
  },
  {
   "property": "C129",
   "status": "proved",
   "theorems": [
    "Convst.Props.C129_transform",
    "Convst.Props.C129_training",
    "Convst.Props.C129_members"
   ],
   "note": "Exact arithmetic; double precision is the subject of the theorems of C123."
  },
  {
   "property": "C130",
   "status": "proved",
   "theorems": [
    "Convst.Props.C130_univariate_same_length",
    "Convst.Props.C130_univariate_variable_length",
    "Convst.Props.C130_multivariate_same_length",
    "Convst.Props.C130_multivariate_variable_length"
   ],
   "note": "All four variants; the statement about the first shapelet for the two variable-length ones (alpha <= 1 in the multivariate one)."
  },
  {
   "property": "C131",
   "status": "proved",
   "theorems": [
    "Convst.Props.C131_same_length",
    "Convst.Props.C131_variable_length",
    "Convst.Props.C131_zero",
    "Convst.Props.C131_probability_same_length",
    "Convst.Props.C131_probability_variable_length",
    "Convst.Props.C131_fitted_again"
   ],
   "note": "Both multivariate variants; the probability is stated for the call of the fitter with ideal random choices."
  },
  {
   "property": "C132",
   "status": "proved",
   "theorems": [
    "Convst.Props.C132_distances",
    "Convst.Props.C132_transform",
    "Convst.Props.C132_exact",
    "Convst.Props.C132_floating_point",
    "Convst.Props.C132_accepted",
    "Convst.Props.C132_predictions",
    "Convst.Props.C132_dilations_needed"
   ],
   "note": "About transform and the classifier for given shapelets; the random choice of shapelets by fit on the two sets of recordings is not compared."
  },
  {
   "property": "C133",
   "status": "proved",
   "theorems": [
    "Convst.Props.C133_distances_periods",
    "Convst.Props.C133_distances_continued",
    "Convst.Props.C133_periods",
    "Convst.Props.C133_periods_floating_point",
    "Convst.Props.C133_continued",
    "Convst.Props.C133_continued_floating_point",
    "Convst.Props.C133_accepted",
    "Convst.Props.C133_predictions"
   ],
   "note": "About transform and the classifier for given shapelets; the random choice of shapelets by fit on the two sets of recordings is not compared."
  },
  {
   "property": "C134",
   "status": "proved",
   "theorems": [
    "Convst.Props.C134_points_wrapped",
    "Convst.Props.C134_points",
    "Convst.Props.C134_all_points",
    "Convst.Props.C134_distances",
    "Convst.Props.C134_transform",
    "Convst.Props.C134_predict",
    "Convst.Props.C134_fit_same_length",
    "Convst.Props.C134_fit_variable_length",
    "Convst.Props.C134_needed",
    "Convst.Props.C134_fit_object_same_length",
    "Convst.Props.C134_fit_object_variable_length"
   ],
   "note": "That every read value matters is proved for shapelets compared with the raw series; for normalised ones it is false (a normalised shapelet of one value sees 0 everywhere)."
  },
  {
   "property": "C135",
   "status": "proved",
   "theorems": [
    "Convst.Props.C135_distances",
    "Convst.Props.C135_accepts",
    "Convst.Props.C135_no_span",
    "Convst.Props.C135_transform"
   ],
   "note": "C135_accepts: transform succeeds with phase invariance wherever it does without."
  }
 ]
}