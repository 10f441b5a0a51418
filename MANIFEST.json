{
 "claims": [
  {
   "property": "C01",
   "status": "proved",
   "theorems": [
    "Artemis.C01_single_pd_is_brute_force",
    "Artemis.C01_single_pd_all_values",
    "Artemis.C01_single_pd_returns"
   ],
   "note": ""
  },
  {
   "property": "C02",
   "status": "proved",
   "theorems": [
    "Artemis.C02_pair_pd_is_brute_force",
    "Artemis.C02_pair_pd_returns"
   ],
   "note": ""
  },
  {
   "property": "C03",
   "status": "proved",
   "theorems": [
    "Artemis.C03_minus_pd_is_brute_force",
    "Artemis.C03_minus_pd_returns"
   ],
   "note": ""
  },
  {
   "property": "C04",
   "status": "proved",
   "theorems": [
    "Artemis.C04_batchsize_irrelevant",
    "Artemis.C04_failed_request_depends_on_batchsize"
   ],
   "note": "For valid calls and a prediction function that never raises. After a call that raised, what is stored does depend on the batch size (C04_failed_request_depends_on_batchsize)."
  },
  {
   "property": "C05",
   "status": "proved",
   "theorems": [
    "Artemis.C05_sound_single",
    "Artemis.C05_sound_pairs",
    "Artemis.C05_sound_minus",
    "Artemis.C05_unrequested_is_nan",
    "Artemis.C05_monotone"
   ],
   "note": ""
  },
  {
   "property": "C06",
   "status": "proved",
   "theorems": [
    "Artemis.C06_no_requery_single",
    "Artemis.C06_no_requery_pairs",
    "Artemis.C06_no_requery_minus"
   ],
   "note": ""
  },
  {
   "property": "C07",
   "status": "proved",
   "theorems": [
    "Artemis.C07_batches_single",
    "Artemis.C07_batches_pairs",
    "Artemis.C07_batches_minus"
   ],
   "note": ""
  },
  {
   "property": "C08",
   "status": "proved",
   "theorems": [
    "Artemis.C08_pair_lookup_symmetric"
   ],
   "note": ""
  },
  {
   "property": "C09",
   "status": "proved",
   "theorems": [
    "Artemis.C09_lookup_single",
    "Artemis.C09_lookup_pairs"
   ],
   "note": ""
  },
  {
   "property": "C10",
   "status": "proved",
   "theorems": [
    "Artemis.C10_H_zero_for_non_interacting_pair"
   ],
   "note": "Row-wise prediction function (FitSetup or AddSetup) in the theorems about fit."
  },
  {
   "property": "C11",
   "status": "proved",
   "theorems": [
    "Artemis.C11_ova_zero_for_additive_feature"
   ],
   "note": "Row-wise prediction function (FitSetup or AddSetup) in the theorems about fit."
  },
  {
   "property": "C12",
   "status": "proved",
   "theorems": [
    "Artemis.C12_ovo_nonneg_sorted",
    "Artemis.C12_ova_nonneg_sorted"
   ],
   "note": "Row-wise prediction function (FitSetup or AddSetup) in the theorems about fit."
  },
  {
   "property": "C13",
   "status": "proved",
   "theorems": [
    "Artemis.C13_one_row_per_pair",
    "Artemis.C13_sejong_one_row_per_pair"
   ],
   "note": "Row-wise prediction function (FitSetup or AddSetup) in the theorems about fit."
  },
  {
   "property": "C14",
   "status": "partial",
   "theorems": [
    "Artemis.C14_normalized_affine_invariant",
    "Artemis.C14_unnormalized_scales",
    "Artemis.C14_feature_order_irrelevant"
   ],
   "note": "Proved for finite row-wise predictions. Missing: predictions that are not finite. The theorems keep names without the suffix _partial because many modules use them."
  },
  {
   "property": "C15",
   "status": "proved",
   "theorems": [
    "Artemis.C15_additivity_same_with_reused_calculator",
    "Artemis.C15_reused_calculator_same_tables",
    "Artemis.C15_reused_calculator_returns_iff",
    "Artemis.C15_share_calculator_between_methods"
   ],
   "note": "Row-wise prediction function (FitSetup or AddSetup) in the theorems about fit."
  },
  {
   "property": "C16",
   "status": "proved",
   "theorems": [
    "Artemis.C16_additivity_matching_calculator_taken",
    "Artemis.C16_matching_calculator_taken",
    "Artemis.C16_additivity_rejects_mismatched_calculator",
    "Artemis.C16_mismatched_calculator_rejected",
    "Artemis.C16_matching_calculator_accepted"
   ],
   "note": "Rejection is proved without assumptions on model or calculator. Acceptance is proved for every model, also one that raises in the middle of fit, and every calculator with a history of public calls (C16_matching_calculator_taken, C16_additivity_matching_calculator_taken): accepted means that the calculator becomes that of the object, not that fit returns. C16_matching_calculator_accepted adds that the call returns, for row-wise prediction functions that never fail and non-empty data. Sampling must succeed in all of them."
  },
  {
   "property": "C17",
   "status": "proved",
   "theorems": [
    "Artemis.C17_greenwell_zero_for_non_interacting_pair"
   ],
   "note": "Row-wise prediction function (FitSetup or AddSetup) in the theorems about fit."
  },
  {
   "property": "C18",
   "status": "proved",
   "theorems": [
    "Artemis.C18_greenwell_fails_iff_constant_feature"
   ],
   "note": "Row-wise prediction function (FitSetup or AddSetup) in the theorems about fit."
  },
  {
   "property": "C19",
   "status": "proved",
   "theorems": [
    "Artemis.C19_greenwell_finite_nonneg_sorted"
   ],
   "note": "Row-wise prediction function (FitSetup or AddSetup) in the theorems about fit."
  },
  {
   "property": "C20",
   "status": "proved",
   "theorems": [
    "Artemis.C20_pd_importance",
    "Artemis.C20_standalone_pd_importance"
   ],
   "note": "Row-wise prediction function (FitSetup or AddSetup) in the theorems about fit."
  },
  {
   "property": "C21",
   "status": "proved",
   "theorems": [
    "Artemis.C21_index_at_most_one_iff_first_order"
   ],
   "note": "Row-wise prediction function (FitSetup or AddSetup) in the theorems about fit."
  },
  {
   "property": "C22",
   "status": "proved",
   "theorems": [
    "Artemis.C22_additive_model_has_index_one",
    "Artemis.C22_fit_returns",
    "Artemis.C22_needs_free_column_name"
   ],
   "note": "Hypothesis: no feature is literally called like the helper column the code adds; C22_needs_free_column_name shows that the hypothesis is needed. Row-wise prediction function (FitSetup or AddSetup) in the theorems about fit."
  },
  {
   "property": "C23",
   "status": "partial",
   "theorems": [
    "Artemis.C23_range_partial",
    "Artemis.C23_constant_predictions",
    "Artemis.C23_index_can_be_negative",
    "Artemis.C23_index_can_be_nan",
    "Artemis.C23_index_can_be_infinite",
    "Artemis.C23_unit_interval_partial"
   ],
   "note": "The documented range [0,1] is false for the code: C23_index_can_be_negative, C23_index_can_be_nan and C23_index_can_be_infinite are proved counterexamples. C23_constant_predictions says exactly what happens if all predictions on the data are equal (NaN or minus infinity). C23_range_partial proves the part that holds (never above 1; NaN only for a constant centred prediction). C23_unit_interval_partial: within [0,1] when every feature varies independently of the others. Row-wise prediction function (FitSetup or AddSetup) in the theorems about fit."
  },
  {
   "property": "C24",
   "status": "partial",
   "theorems": [
    "Artemis.C24_mean_absolute_nonadditive_change"
   ],
   "note": "Proved for models and metrics whose scores are finite numbers that depend on the rows only (Spec.Scores) and at least one repetition. Missing: the formula for scores that are not finite (C153 gives sign and order for them). The theorems keep names without the suffix _partial because many modules use them."
  },
  {
   "property": "C25",
   "status": "partial",
   "theorems": [
    "Artemis.C25_joint_permutation"
   ],
   "note": "Proved for models and metrics whose scores are finite numbers that depend on the rows only (Spec.Scores) and at least one repetition. Missing: the frames scored when a score is not finite or the call ends with an exception (C118 covers the values of the rows). The theorems keep names without the suffix _partial because many modules use them."
  },
  {
   "property": "C26",
   "status": "partial",
   "theorems": [
    "Artemis.C26_both_ignored_partial",
    "Artemis.C26_one_ignored_partial",
    "Artemis.C26_fails"
   ],
   "note": "False for the code: the separate and the joint permutation of the other feature are drawn independently (C26_fails). Proved: 0 when both features are ignored, and the exact value when one is."
  },
  {
   "property": "C27",
   "status": "partial",
   "theorems": [
    "Artemis.C27_ovo_reproducible_partial",
    "Artemis.C27_fails"
   ],
   "note": "False for feature_importance: fit creates the importance object without random_state (C27_fails). Proved for ovo, the samples and the generator, over arbitrary sequences of fits."
  },
  {
   "property": "C28",
   "status": "partial",
   "theorems": [
    "Artemis.C28_sampling_aligned_partial",
    "Artemis.C28_array_lookup_by_label",
    "Artemis.C28_series_lookup_by_label",
    "Artemis.C28_fails_silently",
    "Artemis.C28_fails_loudly"
   ],
   "note": "False for an array of targets when row labels are not 0,1,2,...: C28_fails_silently (wrong targets), C28_fails_loudly (IndexError). Proved for positional labels and for a Series carrying the labels of X. What happens in general is proved exactly: C28_array_lookup_by_label, C28_series_lookup_by_label."
  },
  {
   "property": "C29",
   "status": "partial",
   "theorems": [
    "Artemis.C29_corrupts_one_feature_at_a_time"
   ],
   "note": "Proved for models and metrics whose scores are finite numbers that depend on the rows only (Spec.Scores) and at least one repetition. Missing: the frames scored when a score is not finite or the call ends with an exception (C118 covers the values of the rows). The theorems keep names without the suffix _partial because many modules use them."
  },
  {
   "property": "C30",
   "status": "partial",
   "theorems": [
    "Artemis.C30_one_row_per_feature_sorted",
    "Artemis.C30_ignored_feature_has_zero_importance",
    "Artemis.C30_perfect_model_nonneg_importance"
   ],
   "note": "Proved for models and metrics whose scores are finite numbers that depend on the rows only (Spec.Scores) and at least one repetition. Missing: scores that are not finite (C156 treats rounded arithmetic). The theorems keep names without the suffix _partial because many modules use them."
  },
  {
   "property": "C31",
   "status": "partial",
   "theorems": [
    "Artemis.C31_pdp_fit_none_is_all_partial",
    "Artemis.C31_pd_importance_none_is_all_partial",
    "Artemis.C31_sejong_fit_none_is_all_partial",
    "Artemis.C31_permutation_importance_none_never_works",
    "Artemis.C31_split_score_none_is_all_partial"
   ],
   "note": "False for PermutationImportance.importance: features=None always raises (C31_permutation_importance_none_never_works). Proved for the two PD based fits, the stand-alone PD importance and Sejong Oh's fit. Also for the split score importance (C31_split_score_none_is_all_partial, no feature called 'Leaf')."
  },
  {
   "property": "C32",
   "status": "proved",
   "theorems": [
    "Artemis.C32_mse_rmse_proper",
    "Artemis.C32_accuracy_proper",
    "Artemis.C32_rearrangement_invariant"
   ],
   "note": ""
  },
  {
   "property": "C33",
   "status": "proved",
   "theorems": [
    "Artemis.C33_traversal"
   ],
   "note": ""
  },
  {
   "property": "C34",
   "status": "proved",
   "theorems": [
    "Artemis.C34_interval_is_subtree",
    "Artemis.C34_selected_nodes"
   ],
   "note": ""
  },
  {
   "property": "C35",
   "status": "proved",
   "theorems": [
    "Artemis.C35_conditional_minimal_depth",
    "Artemis.C35_value_unique"
   ],
   "note": ""
  },
  {
   "property": "C36",
   "status": "proved",
   "theorems": [
    "Artemis.C36_table",
    "Artemis.C36_no_trees"
   ],
   "note": ""
  },
  {
   "property": "C37",
   "status": "proved",
   "theorems": [
    "Artemis.C37_minimal_depth_importance"
   ],
   "note": ""
  },
  {
   "property": "C38",
   "status": "partial",
   "theorems": [
    "Artemis.C38_compare_merges_directions_partial",
    "Artemis.C38_joined_names_can_collide"
   ],
   "note": "Proved for names whose joined sorted pairs are pairwise different; C38_joined_names_can_collide is a machine-checked counterexample (features a, ab, bc, c) showing the code does not satisfy the claim for all names."
  },
  {
   "property": "C39",
   "status": "proved",
   "theorems": [
    "Artemis.C39_unsupported_package",
    "Artemis.C39_unsupported_builtin",
    "Artemis.C39_lightgbm_cover_refused",
    "Artemis.C39_otherwise_accepted",
    "Artemis.C39_handler_instead_of_model"
   ],
   "note": ""
  },
  {
   "property": "C40",
   "status": "proved",
   "theorems": [
    "Artemis.C40_node_statistics"
   ],
   "note": "For XGBoost and LightGBM tables of any forest; XGBoost needs parents listed before children, as XGBoost writes them. Features called 'Leaf' are excluded by the quantifier (C71)."
  },
  {
   "property": "C41",
   "status": "proved",
   "theorems": [
    "Artemis.C41_summary",
    "Artemis.C41_full_sorted"
   ],
   "note": ""
  },
  {
   "property": "C42",
   "status": "proved",
   "theorems": [
    "Artemis.C42_ovo_order"
   ],
   "note": ""
  },
  {
   "property": "C43",
   "status": "partial",
   "theorems": [
    "Artemis.C43_zero_gain_error",
    "Artemis.C43_outcomes",
    "Artemis.C43_fit_completes_partial",
    "Artemis.C43_positive_gains",
    "Artemis.C43_stumps_fail",
    "Artemis.C43_zero_gain_fails",
    "Artemis.C43_completes_iff"
   ],
   "note": "False for the code: a forest without a split below a root always raises KeyError (C43_stumps_fail), and otherwise a feature whose gains add up to 0 raises ZeroDivisionError (C43_zero_gain_fails, C43_zero_gain_error). Proved for all other forests; C43_completes_iff gives the exact condition and C43_outcomes every outcome."
  },
  {
   "property": "C44",
   "status": "proved",
   "theorems": [
    "Artemis.C44_importance_metrics",
    "Artemis.C44_fit_stores_importance",
    "Artemis.C44_root_frequencies_add_up"
   ],
   "note": ""
  },
  {
   "property": "C45",
   "status": "partial",
   "theorems": [
    "Artemis.C45_most_important_first_partial",
    "Artemis.C45_depth_metrics_backwards",
    "Artemis.C45_fails"
   ],
   "note": "False for mean_depth and mean_weighted_depth: the table is always sorted descending although smaller is declared more important (C45_depth_metrics_backwards, C45_fails). Proved for the other metrics."
  },
  {
   "property": "C46",
   "status": "partial",
   "theorems": [
    "Artemis.C46_comparator_unfitted",
    "Artemis.C46_comparator_fitted",
    "Artemis.C46_unfitted",
    "Artemis.C46_available_after_fit",
    "Artemis.C46_friedman_plot_partial",
    "Artemis.C46_friedman_plot_fails"
   ],
   "note": "Proved: refused before the first fit (every method), and interaction_value and the comparator's check pass after a successful fit of any method; plots pass for all methods except the H-statistic. False for FriedmanHStatisticMethod.plot after fit(calculate_ova=False): it still raises MethodNotFittedException (C46_friedman_plot_fails)."
  },
  {
   "property": "C47",
   "status": "proved",
   "theorems": [
    "Artemis.C47_symmetric",
    "Artemis.C47_lookup",
    "Artemis.C47_pd_after_fit",
    "Artemis.C47_split_score_strongest",
    "Artemis.C47_sejong_after_fit",
    "Artemis.C47_cmd_mean_partial"
   ],
   "note": "Symmetry for any table; value of the pair's row for the tables fit leaves behind (H-statistic, Greenwell, Sejong Oh, conditional minimal depth under non-colliding joined names, cf. C38); for split score with both directions present, the stronger one. IndexError for absent pairs (C47_lookup). Row-wise prediction function (FitSetup or AddSetup) in the theorems about fit."
  },
  {
   "property": "C48",
   "status": "partial",
   "theorems": [
    "Artemis.C48_importance_of_last_success",
    "Artemis.C48_pd_tables_of_last_success",
    "Artemis.C48_pd_refit_like_new",
    "Artemis.C48_sejong_refit_like_new",
    "Artemis.C48_tree_refit_like_new",
    "Artemis.C48_ova_kept_from_earlier_fit",
    "Artemis.C48_ova_fails",
    "Artemis.C48_greenwell_fails",
    "Artemis.C48_cmd_fails",
    "Artemis.C48_split_score_fails"
   ],
   "note": "False in four ways, each a machine-checked history: stale ova after calculate_ova=False (C48_ova_fails), a failing fit replaces ovo (C48_greenwell_fails, C48_cmd_fails), a refused split score fit flips the sort order of the kept table (C48_split_score_fails). Proved: feature_importance always, ovo of the PD methods for calls with known features, refits equal a fit on a new object."
  },
  {
   "property": "C49",
   "status": "partial",
   "theorems": [
    "Artemis.C49_symmetric",
    "Artemis.C49_range",
    "Artemis.C49_returns",
    "Artemis.C49_self",
    "Artemis.C49_number",
    "Artemis.C49_pearson_is_spearman_partial",
    "Artemis.C49_pearson_spearman_fails"
   ],
   "note": "Symmetry, range (a number in [-1,1] or NaN), 1 on itself and 'a number when no pair is repeated' are proved. Pearson = Spearman is proved for tables of the same length and false otherwise (C49_pearson_spearman_fails)."
  },
  {
   "property": "C50",
   "status": "partial",
   "theorems": [
    "Artemis.C50_order_preserving_partial",
    "Artemis.C50_fails"
   ],
   "note": "False: the codes that are correlated are alphabetical positions (C50_fails, all three kinds). Proved for renamings that keep the alphabetical order of the joined pair names."
  },
  {
   "property": "C51",
   "status": "proved",
   "theorems": [
    "Artemis.C51_points",
    "Artemis.C51_same_pairs"
   ],
   "note": "C51_points for any two methods; C51_same_pairs: two methods listing the same pairs can always be plotted and the points are exactly the pairs of values."
  },
  {
   "property": "C52",
   "status": "partial",
   "theorems": [
    "Artemis.C52_summary",
    "Artemis.C52_box_partial",
    "Artemis.C52_box_of_last_summary",
    "Artemis.C52_fails"
   ],
   "note": "False: comparison_plot reuses the correlations of an earlier summary (C52_fails; C52_box_of_last_summary says exactly which). Proved for summary itself and for comparators never used for a summary of other methods."
  },
  {
   "property": "C53",
   "status": "proved",
   "theorems": [
    "Artemis.C53_unknown_method",
    "Artemis.C53_rejects_exactly",
    "Artemis.C53_one_routine",
    "Artemis.C53_ready_after_fit"
   ],
   "note": ""
  },
  {
   "property": "C54",
   "status": "partial",
   "theorems": [
    "Artemis.C54_two_directions_fails",
    "Artemis.C54_after_fit",
    "Artemis.C54_defaults",
    "Artemis.C54_widths_partial",
    "Artemis.C54_infinite_fails",
    "Artemis.C54_negative_threshold_fails"
   ],
   "note": "Proved for finite values and a threshold (or values) that is not negative. False for infinite values (C54_infinite_fails) and for negative values with a negative threshold (C54_negative_threshold_fails). False for split score, whose table has a row per direction while the graph is undirected: the graph shows the weaker row of a pair (C54_two_directions_fails). C54_after_fit composes it with fit of the H-statistic, Greenwell and Sejong Oh."
  },
  {
   "property": "C55",
   "status": "partial",
   "theorems": [
    "Artemis.C55_bounds",
    "Artemis.C55_order_partial",
    "Artemis.C55_strongest_hidden",
    "Artemis.C55_zero_hidden",
    "Artemis.C55_fails",
    "Artemis.C55_after_fit_partial"
   ],
   "note": "Bounds proved. The order claim is false: when nothing is removed by the threshold the strongest pair gets width 0 (C55_strongest_hidden, C55_fails), and so does a pair with value 0 (C55_zero_hidden). Proved when the threshold removes a pair and all values are positive. C55_after_fit_partial composes it with fit of conditional minimal depth."
  },
  {
   "property": "C56",
   "status": "proved",
   "theorems": [
    "Artemis.C56_after_fit",
    "Artemis.C56_labels"
   ],
   "note": "C56_after_fit composes it with fit of the H-statistic, Greenwell and Sejong Oh."
  },
  {
   "property": "C57",
   "status": "proved",
   "theorems": [
    "Artemis.C57_undirected",
    "Artemis.C57_directed",
    "Artemis.C57_after_fit",
    "Artemis.C57_cmd_after_fit"
   ],
   "note": "For tables with one row per (ordered) pair (C57_undirected, C57_directed); composed with fit of the H-statistic, Greenwell, Sejong Oh (C57_after_fit) and conditional minimal depth (C57_cmd_after_fit)."
  },
  {
   "property": "C58",
   "status": "partial",
   "theorems": [
    "Artemis.C58_permutes",
    "Artemis.C58_sorted_partial",
    "Artemis.C58_fails",
    "Artemis.C58_after_fit_partial"
   ],
   "note": "C58_permutes holds without hypotheses on the matrix. Order by score is proved for features with different lower-case names (C58_sorted_partial) and false otherwise: order_heatmap writes the scores under the lower-case name (C58_fails). C58_after_fit_partial: the order after fit, in terms of interaction_value and the importance table."
  },
  {
   "property": "C59",
   "status": "partial",
   "theorems": [
    "Artemis.C59_drawable_partial",
    "Artemis.C59_unpaired_feature_fails",
    "Artemis.C59_unlisted_feature_fails",
    "Artemis.C59_pd_methods",
    "Artemis.C59_single_feature_fails",
    "Artemis.C59_sejong",
    "Artemis.C59_cmd_all_used",
    "Artemis.C59_cmd_unused_column_fails",
    "Artemis.C59_split_score",
    "Artemis.C59_split_score_lone_feature_fails",
    "Artemis.C59_cmd_fails",
    "Artemis.C59_split_score_fails"
   ],
   "note": "Proved after fit for the H-statistic (with ova), Greenwell and Sejong Oh with at least two features, for conditional minimal depth if every column is used, for split score if every feature takes part in an interaction. False otherwise: C59_single_feature_fails, C59_cmd_unused_column_fails (heatmap raises IndexError), C59_split_score_lone_feature_fails (graph raises NetworkXError). Drawing itself is not modelled. Row-wise prediction function (FitSetup or AddSetup) in the theorems about fit."
  },
  {
   "property": "C60",
   "status": "proved",
   "theorems": [
    "Artemis.C60_path",
    "Artemis.C60_distinct_pairs",
    "Artemis.C60_among_strongest",
    "Artemis.C60_returns",
    "Artemis.C60_too_few",
    "Artemis.C60_after_fit"
   ],
   "note": "Any table (C60_path, C60_distinct_pairs, C60_among_strongest), returns exactly if there are more pairs than panels (C60_returns, C60_too_few), and after fit of both methods (C60_after_fit). Row-wise prediction function (FitSetup or AddSetup) in the theorems about fit."
  },
  {
   "property": "C61",
   "status": "proved",
   "theorems": [
    "Artemis.C61_positions",
    "Artemis.C61_no_empty_row"
   ],
   "note": ""
  },
  {
   "property": "C62",
   "status": "proved",
   "theorems": [
    "Artemis.C62_pairs_values",
    "Artemis.C62_panels",
    "Artemis.C62_after_fit"
   ],
   "note": "Stored values in either orientation; after fit they are the brute-force partial dependence (C62_after_fit). Row-wise prediction function (FitSetup or AddSetup) in the theorems about fit."
  },
  {
   "property": "C63",
   "status": "proved",
   "theorems": [
    "Artemis.C63_bounds",
    "Artemis.C63_covers_drawn",
    "Artemis.C63_nan_last",
    "Artemis.C63_nan_forgets",
    "Artemis.C63_greenwell_after_fit",
    "Artemis.C63_fails"
   ],
   "note": "As stated (all values numbers): C63_bounds, C63_covers_drawn; the premise holds after every Greenwell fit on a finite model (C63_greenwell_after_fit). Beyond the claim: after a fit of the H-statistic combinations not observed together are NaN and the limits become NaN or forget earlier pairs (C63_nan_last, C63_nan_forgets, C63_fails). Row-wise prediction function (FitSetup or AddSetup) in the theorems about fit."
  },
  {
   "property": "C64",
   "status": "partial",
   "theorems": [
    "Artemis.C64_after_fit",
    "Artemis.C64_roots_partial",
    "Artemis.C64_all_hides_last",
    "Artemis.C64_single_tree_empty"
   ],
   "note": "False for max_trees = 1 (the last tree is never shown, C64_all_hides_last) and for a single tree (nothing is shown, C64_single_tree_empty). Proved: which roots and nodes are shown, for every fraction (C64_roots_partial). C64_after_fit states the same in terms of the splits of the trees of the model after fit."
  },
  {
   "property": "C65",
   "status": "partial",
   "theorems": [
    "Artemis.C65_documented_prediction_function",
    "Artemis.C65_fit_depends_on_prediction_function_only_partial",
    "Artemis.C65_additivity_depends_on_prediction_function_only_partial",
    "Artemis.C65_supplied_fails"
   ],
   "note": "The choice of the function is proved in full. That fit uses it is proved for calls that build their own calculator (_partial) and is false with a supplied one: only the model object is compared, and the function of the calculator is used (C65_supplied_fails)."
  },
  {
   "property": "C66",
   "status": "proved",
   "theorems": [
    "Artemis.C66_H_is_textbook_formula"
   ],
   "note": "Row-wise prediction function (FitSetup or AddSetup) in the theorems about fit."
  },
  {
   "property": "C67",
   "status": "proved",
   "theorems": [
    "Artemis.C67_standalone_importance_agrees_with_fit",
    "Artemis.C67_standalone_importance_returns_partial",
    "Artemis.C67_standalone_importance_returns_supplied",
    "Artemis.C67_standalone_importance_returns"
   ],
   "note": "C67_standalone_importance_returns covers own and supplied calculators; C67_standalone_importance_returns_supplied also says that a calculator of another model object or other data is refused (C16). The _partial theorem is the case of an own calculator. Row-wise prediction function (FitSetup or AddSetup) in the theorems about fit."
  },
  {
   "property": "C68",
   "status": "proved",
   "theorems": [
    "Artemis.C68_ova_is_textbook_formula"
   ],
   "note": ""
  },
  {
   "property": "C69",
   "status": "proved",
   "theorems": [
    "Artemis.C69_greenwell_is_textbook_formula"
   ],
   "note": ""
  },
  {
   "property": "C70",
   "status": "proved",
   "theorems": [
    "Artemis.C70_pd_importance_is_textbook_formula"
   ],
   "note": ""
  },
  {
   "property": "C71",
   "status": "partial",
   "theorems": [
    "Artemis.C71_leaf_name_never_listed",
    "Artemis.C71_used_features_listed_partial",
    "Artemis.C71_fails"
   ],
   "note": "False: a feature called 'Leaf' is never listed (C71_leaf_name_never_listed, witness C71_fails). Proved for all other names."
  },
  {
   "property": "C72",
   "status": "partial",
   "theorems": [
    "Artemis.C72_one_iff_same_ranking_partial",
    "Artemis.C72_opposite_fails"
   ],
   "note": "'1 iff same order' is proved for all three kinds; '-1 for reversed order' is false (C72_opposite_fails)."
  },
  {
   "property": "C73",
   "status": "partial",
   "theorems": [
    "Artemis.C73_documented_accepted_partial",
    "Artemis.C73_fails"
   ],
   "note": "False for split score: documented as 'lolliplot', accepted as 'lollipop' (C73_fails). Proved for the other methods."
  },
  {
   "property": "C74",
   "status": "partial",
   "theorems": [
    "Artemis.C74_summary_partial",
    "Artemis.C74_cmd_summary_graph",
    "Artemis.C74_cmd_summary_heatmap",
    "Artemis.C74_fails",
    "Artemis.C74_summary_panels"
   ],
   "note": "Proved for methods where larger is stronger. False for conditional minimal depth: the summary passes no direction to its graph and heatmap (C74_fails, C74_cmd_summary_graph, C74_cmd_summary_heatmap)."
  },
  {
   "property": "C75",
   "status": "partial",
   "theorems": [
    "Artemis.C75_title_partial",
    "Artemis.C75_fails"
   ],
   "note": "False for the one-vs-all bar chart, which ignores the title (C75_fails). Proved for all other plots."
  },
  {
   "property": "C76",
   "status": "partial",
   "theorems": [
    "Artemis.C76_after_fit",
    "Artemis.C76_split_score_after_fit",
    "Artemis.C76_strongest_partial",
    "Artemis.C76_ova",
    "Artemis.C76_cmd_fails"
   ],
   "note": "Proved for tables sorted by strength, as the PD based methods and Sejong Oh have after fit. False for conditional minimal depth, sorted by number of occurrences first (C76_cmd_fails). C76_after_fit and C76_split_score_after_fit compose it with fit."
  },
  {
   "property": "C77",
   "status": "partial",
   "theorems": [
    "Artemis.C77_agrees_partial",
    "Artemis.C77_fails",
    "Artemis.C77_after_fit"
   ],
   "note": "Proved for methods listing each pair once. False for split score: interaction_value returns the first row of a pair, the heatmap shows both directions (C77_fails). C77_after_fit composes it with fit of the H-statistic, Greenwell and Sejong Oh."
  },
  {
   "property": "C78",
   "status": "partial",
   "theorems": [
    "Artemis.C78_after_fit_partial",
    "Artemis.C78_sizes_partial",
    "Artemis.C78_reversed"
   ],
   "note": "Proved where a larger importance value means more important. False for conditional minimal depth (C78_reversed). C78_after_fit_partial composes it with fit of the H-statistic, Greenwell and Sejong Oh."
  },
  {
   "property": "C79",
   "status": "partial",
   "theorems": [
    "Artemis.C79_options_partial",
    "Artemis.C79_bar_chart_ignored",
    "Artemis.C79_graph_options"
   ],
   "note": "False for 'bar_chart': the summary looks for its options under another name (C79_bar_chart_ignored). Proved for the graph of every method (C79_graph_options) and for the one-vs-all chart (C79_options_partial)."
  },
  {
   "property": "C80",
   "status": "proved",
   "theorems": [
    "Artemis.C80_shared_axis"
   ],
   "note": ""
  },
  {
   "property": "C81",
   "status": "partial",
   "theorems": [
    "Artemis.C81_labels_partial",
    "Artemis.C81_fails"
   ],
   "note": "False for the last panel if an unused candidate continues the path (C81_fails). Proved for all other panels."
  },
  {
   "property": "C82",
   "status": "partial",
   "theorems": [
    "Artemis.C82_limits_partial",
    "Artemis.C82_fails"
   ],
   "note": "False: the range of all candidates, widened to contain 1 from above and 0 from below (C82_fails). Proved: C82_limits_partial."
  },
  {
   "property": "C83",
   "status": "proved",
   "theorems": [
    "Artemis.C83_pair",
    "Artemis.C83_single",
    "Artemis.C83_errors",
    "Artemis.C83_after_fit"
   ],
   "note": "Row-wise prediction function (FitSetup or AddSetup) in the theorems about fit."
  },
  {
   "property": "C84",
   "status": "proved",
   "theorems": [
    "Artemis.C84_default_length",
    "Artemis.C84_before_fit"
   ],
   "note": "Row-wise prediction function (FitSetup or AddSetup) in the theorems about fit."
  },
  {
   "property": "C85",
   "status": "partial",
   "theorems": [
    "Artemis.C85_failed_refit_partial",
    "Artemis.C85_fails"
   ],
   "note": "False if the model raises: the calculator is already replaced, the table is not (C85_fails). Proved for failures before that."
  },
  {
   "property": "C86",
   "status": "proved",
   "theorems": [
    "Artemis.C86_after_fit",
    "Artemis.C86_conditional"
   ],
   "note": ""
  },
  {
   "property": "C87",
   "status": "proved",
   "theorems": [
    "Artemis.C87_lollipop_labels"
   ],
   "note": ""
  },
  {
   "property": "C88",
   "status": "proved",
   "theorems": [
    "Artemis.C88_row_order_and_repetition",
    "Artemis.C88_additivity"
   ],
   "note": "Over an ordered field with exact square root, i.e. without float rounding. Data agree up to order and repetition in equal proportion (Spec.Proportional); both fits return, with distinct features and the same numerical features. C88_additivity needs that no column is called centered_prediction. Row-wise prediction function (FitSetup or AddSetup) in the theorems about fit."
  },
  {
   "property": "C89",
   "status": "proved",
   "theorems": [
    "Artemis.C89_other_features_do_not_matter",
    "Artemis.C89_additivity"
   ],
   "note": "Over an ordered field with exact square root. Holds for all pairs and features requested in both fits; importance even across the two methods. Row-wise prediction function (FitSetup or AddSetup) in the theorems about fit."
  },
  {
   "property": "C90",
   "status": "proved",
   "theorems": [
    "Artemis.C90_rescaled_predictions",
    "Artemis.C90_additivity"
   ],
   "note": "Over an ordered field with exact square root; c different from 0. Row-wise prediction function (FitSetup or AddSetup) in the theorems about fit."
  },
  {
   "property": "C91",
   "status": "proved",
   "theorems": [
    "Artemis.C91_names_and_codes_do_not_matter",
    "Artemis.C91_additivity"
   ],
   "note": "Over an ordered field with exact square root. The renaming is a bijection of the names, the recoding injective per feature; features must keep counting as numerical or not. Row-wise prediction function (FitSetup or AddSetup) in the theorems about fit."
  },
  {
   "property": "C92",
   "status": "proved",
   "theorems": [
    "Artemis.C92_order_of_trees_and_columns"
   ],
   "note": "Both forests numbered depth-first (scikit-learn default), at least one tree and one column; both sorting functions sort."
  },
  {
   "property": "C93",
   "status": "partial",
   "theorems": [
    "Artemis.C93_distance_to_nearest_split_partial",
    "Artemis.C93_last_node_counts"
   ],
   "note": "Equality if every shallowest split on the first feature has a split on the second below it, in all trees that use both; otherwise the value is at most the mean distance. The code disagrees: if one of several shallowest splits has none below it, the depth of the last node of its subtree takes part in the minimum (C93_last_node_counts)."
  },
  {
   "property": "C94",
   "status": "partial",
   "theorems": [
    "Artemis.C94_mirrored_trees_partial",
    "Artemis.C94_mirrored_value_differs"
   ],
   "note": "Outcome, n_occurences and importance are invariant, and the value of pairs as in C93. The code disagrees for the other values: the fall-back is the depth of the rightmost leaf (C94_mirrored_value_differs)."
  },
  {
   "property": "C95",
   "status": "partial",
   "theorems": [
    "Artemis.C95_importance_for_any_numbering_partial",
    "Artemis.C95_same_importance",
    "Artemis.C95_best_first_forest_misread"
   ],
   "note": "Importance and termination for any numbering. The code disagrees for pairs: a subtree is taken to be a range of consecutive IDs (C95_best_first_forest_misread)."
  },
  {
   "property": "C96",
   "status": "proved",
   "theorems": [
    "Artemis.C96_range_of_values",
    "Artemis.C96_range_of_importance"
   ],
   "note": "Values of pairs for depth-first numbering, importance for any numbering."
  },
  {
   "property": "C97",
   "status": "proved",
   "theorems": [
    "Artemis.C97_same_boosted_forest",
    "Artemis.C97_same_importance"
   ],
   "note": "Over an ordered field, i.e. without float rounding. No feature called Leaf; the metrics are available for both libraries (covers: both XGBoost). C97_same_importance for the importance object called with a list of features, gains of no used feature adding up to 0."
  },
  {
   "property": "C98",
   "status": "proved",
   "theorems": [
    "Artemis.C98_gains_rescaled"
   ],
   "note": "Over an ordered field; no feature called Leaf."
  },
  {
   "property": "C99",
   "status": "partial",
   "theorems": [
    "Artemis.C99_plot_always_raises",
    "Artemis.C99_plot_draws_partial",
    "Artemis.C99_failed_plot_leaves_empty_figure"
   ],
   "note": "The code passes the keyword _ax, which from_estimator of scikit-learn 1.2.0 does not have: C99_plot_always_raises. The signature was written down from knowledge of the library; scikit-learn is not installed here. Partial: for a signature that does accept _ax."
  },
  {
   "property": "C100",
   "status": "partial",
   "theorems": [
    "Artemis.C100_ignored_next_to_calculator",
    "Artemis.C100_same_function_partial",
    "Artemis.C100_importance_ignored_next_to_calculator",
    "Artemis.C100_fails"
   ],
   "note": "Disagreement: with a supplied calculator the prediction function is ignored for pairs and features (C100_ignored_next_to_calculator for all inputs, C100_fails a witness); only model identity and data are compared. Partial: calculator built with the same function. Row-wise prediction function (FitSetup or AddSetup) in the theorems about fit."
  },
  {
   "property": "C101",
   "status": "proved",
   "theorems": [
    "Artemis.C101_fit_is_fit_on_sample",
    "Artemis.C101_too_many",
    "Artemis.C101_importance_is_importance_on_sample",
    "Artemis.C101_additivity_is_additivity_of_sample"
   ],
   "note": "Generators are assumed to draw k different positions (Rng.Lawful)."
  },
  {
   "property": "C102",
   "status": "partial",
   "theorems": [
    "Artemis.C102_own_calculator_partial",
    "Artemis.C102_fails_with_sampling"
   ],
   "note": "Disagreement: with n given the refit draws another sample and raises ValueError (C102_fails_with_sampling). Partial: without n. Row-wise prediction function (FitSetup or AddSetup) in the theorems about fit."
  },
  {
   "property": "C103",
   "status": "proved",
   "theorems": [
    "Artemis.C103_fit_records_any_model",
    "Artemis.C103_importance_records_any_model",
    "Artemis.C103_additivity_records_any_model",
    "Artemis.C103_fit_records_its_inputs",
    "Artemis.C103_importance_records_its_inputs",
    "Artemis.C103_additivity_records_its_inputs",
    "Artemis.C103_sejong_records_its_inputs",
    "Artemis.C103_new_objects_are_empty",
    "Artemis.C103_cmd_records_its_inputs",
    "Artemis.C103_split_score_records_its_metrics",
    "Artemis.C103_new_tree_objects_are_empty"
   ],
   "note": "The theorems ending in _any_model hold for every model, row-wise or not; supplied calculators went through public calls only. For row-wise prediction functions the older theorems add the batch size of the calculator and the values of preds. features, pairs and the data are those of the arguments after sampling."
  },
  {
   "property": "C104",
   "status": "partial",
   "theorems": [
    "Artemis.C104_pair_share_partial",
    "Artemis.C104_feature_share_partial",
    "Artemis.C104_fails",
    "Artemis.C104_fails_infinite"
   ],
   "note": "Disagreement: for features related in the data the value can exceed 1 (16/9, C104_fails) or be infinite (C104_fails_infinite). Partial: features varying independently of the others (Spec.Independent); for one-vs-all only the feature itself. Row-wise prediction function (FitSetup or AddSetup) in the theorems about fit."
  },
  {
   "property": "C105",
   "status": "partial",
   "theorems": [
    "Artemis.C105_sum_of_shares_partial",
    "Artemis.C105_fails"
   ],
   "note": "Disagreement for features related in the data (C105_fails). Partial: all features vary independently. Row-wise prediction function (FitSetup or AddSetup) in the theorems about fit."
  },
  {
   "property": "C106",
   "status": "proved",
   "theorems": [
    "Artemis.C106_importance_size",
    "Artemis.C106_unnormalized_H_size",
    "Artemis.C106_greenwell_size"
   ],
   "note": "Exact arithmetic in an ordered field with square root. Row-wise prediction function (FitSetup or AddSetup) in the theorems about fit."
  },
  {
   "property": "C107",
   "status": "partial",
   "theorems": [
    "Artemis.C107_accuracy_any_predictions_partial",
    "Artemis.C107_accuracy_importance_partial",
    "Artemis.C107_error_importance_partial",
    "Artemis.C107_accuracy_sejong_partial"
   ],
   "note": "Exact arithmetic. With accuracy any predictions, also NaN and infinite ones, are covered (C107_accuracy_any_predictions_partial: permutation importance). With MSE and RMSE, and for the values of Sejong Oh, scores are assumed to be finite numbers (Spec.Scores). Missing: MSE and RMSE scores that are not finite, models whose answers change between calls, zero repetitions."
  },
  {
   "property": "C108",
   "status": "partial",
   "theorems": [
    "Artemis.C108_sejong_cost",
    "Artemis.C108_permutation_cost"
   ],
   "note": "Counted on the ghost list of frames the model was asked to score. Proved for models and metrics whose scores are finite numbers that depend on the rows only (Spec.Scores) and at least one repetition. Missing: scores that are not finite, calls that end with an exception, zero repetitions. The theorems keep names without the suffix _partial because many modules use them."
  },
  {
   "property": "C109",
   "status": "partial",
   "theorems": [
    "Artemis.C109_single_once",
    "Artemis.C109_minus_once",
    "Artemis.C109_pairs_once_partial",
    "Artemis.C109_at_most",
    "Artemis.C109_pairs_fails"
   ],
   "note": "For pairs with all_combinations=False the claim holds only if no two rows agree in both features: otherwise a value pair that occurs in several rows is queued once per row until the batch is flushed (C109_pairs_fails). C109_at_most covers all cases."
  },
  {
   "property": "C110",
   "status": "partial",
   "theorems": [
    "Artemis.C110_greenwell",
    "Artemis.C110_friedman_partial",
    "Artemis.C110_friedman_at_most",
    "Artemis.C110_features_fails"
   ],
   "note": "The single-feature part covers all columns of the data, not only the chosen features (C110_features_fails). Exact counts: Greenwell always, H-statistic when no two rows agree in both features of a pair; otherwise the bound C110_friedman_at_most. The one direct call of predict_function on the data in the one-vs-all step is outside the calculator and not counted. Row-wise prediction function (FitSetup or AddSetup) in the theorems about fit."
  },
  {
   "property": "C111",
   "status": "proved",
   "theorems": [
    "Artemis.C111_fit_draws_only_the_sample",
    "Artemis.C111_importance_draws_only_the_sample",
    "Artemis.C111_additivity_draws_only_the_sample",
    "Artemis.C111_only_the_sample_matters",
    "Artemis.C111_no_sampling_no_randomness",
    "Artemis.C111_additivity_no_sampling_no_randomness",
    "Artemis.C111_importance_no_sampling_no_randomness"
   ],
   "note": "Generators are arbitrary state transformers."
  },
  {
   "property": "C112",
   "status": "proved",
   "theorems": [
    "Artemis.C112_greenwell_misses_interaction",
    "Artemis.C112_friedman_pair_zero",
    "Artemis.C112_friedman_ova_zero",
    "Artemis.C112_importance_zero",
    "Artemis.C112_greenwell_zero"
   ],
   "note": "Over an ordered field with exact square root; floating point rounding is out of scope. Row-wise prediction function (FitSetup or AddSetup) in the theorems about fit."
  },
  {
   "property": "C113",
   "status": "partial",
   "theorems": [
    "Artemis.C113_edited_data_pass_the_check",
    "Artemis.C113_reused_calculator_reports_old_data",
    "Artemis.C113_reused_calculator_is_right_partial",
    "Artemis.C113_fails",
    "Artemis.C113_importance_reports_old_data"
   ],
   "note": "True when the first fit sampled or the frame was not changed. Without sampling the calculator holds the frame of the caller: after a change the check compares the frame with itself, is passed, and the tables of the old data are reported (proved for every change that keeps the columns, with a computed witness). C113_importance_reports_old_data: the same for the stand-alone importance after a fit of either method. Row-wise prediction function (FitSetup or AddSetup) in the theorems about fit."
  },
  {
   "property": "C114",
   "status": "partial",
   "theorems": [
    "Artemis.C114_pair_main_effects_partial",
    "Artemis.C114_ova_main_effects_partial",
    "Artemis.C114_fails_greenwell",
    "Artemis.C114_fails_normalized"
   ],
   "note": "Proved for the unnormalized H-statistic (pairs and one versus all). False for the normalized H-statistic (computed witness) and for Greenwell (witness over the reals): both proved."
  },
  {
   "property": "C115",
   "status": "partial",
   "theorems": [
    "Artemis.C115_pair_mixture_partial",
    "Artemis.C115_ova_mixture_partial",
    "Artemis.C115_importance_mixture",
    "Artemis.C115_fails_greenwell",
    "Artemis.C115_fails_normalized"
   ],
   "note": "Proved for the unnormalized H-statistic (pairs and one versus all) and for the partial dependence importance of both methods. False for the normalized H-statistic and for Greenwell interactions: witnesses proved."
  },
  {
   "property": "C116",
   "status": "partial",
   "theorems": [
    "Artemis.C116_zenplot_raises",
    "Artemis.C116_friedman_reports_zeros",
    "Artemis.C116_friedman_returns_iff_numerical",
    "Artemis.C116_greenwell_raises_partial",
    "Artemis.C116_additivity_is_nan_partial",
    "Artemis.C116_sejong_is_nan_partial",
    "Artemis.C116_fails"
   ],
   "note": "Holds for Greenwell (ValueError with two features or more), the additivity meter and Sejong Oh (NaN). False for the H-statistic: with numerical features it returns and reports 0 everywhere, without a single model call when one-versus-all is off (proved in general, with a witness). Row-wise prediction function (FitSetup or AddSetup) in the theorems about fit."
  },
  {
   "property": "C117",
   "status": "partial",
   "theorems": [
    "Artemis.C117_pair_hides_undefined",
    "Artemis.C117_ova_hides_undefined",
    "Artemis.C117_importance_hides_undefined",
    "Artemis.C117_additivity_shows_undefined_partial",
    "Artemis.C117_sejong_shows_undefined_partial",
    "Artemis.C117_fails",
    "Artemis.C117_permutation_importance_partial",
    "Artemis.C117_sejong_predictions_partial",
    "Artemis.C117_accuracy_hides_undefined"
   ],
   "note": "Holds for the additivity meter (NaN), and for the Sejong Oh method, interactions and importances, with MSE and RMSE (C117_sejong_predictions_partial; permutation importance called on its own: C117_permutation_importance_partial; NaN throughout if the score of the data itself is not finite, C117_sejong_shows_undefined_partial). False with accuracy, where an undefined prediction counts as a wrong answer (C117_accuracy_hides_undefined), and for the H-statistic and the partial dependence importance of numerical features: one non-finite prediction makes the value NaN and fillna(0) turns it into 0 (proved in general, with a witness). Greenwell is left out: statistics.stdev of non-finite data depends on the Python version. Row-wise prediction function (FitSetup or AddSetup) in the theorems about fit."
  },
  {
   "property": "C118",
   "status": "proved",
   "theorems": [
    "Artemis.C118_calculator",
    "Artemis.C118_fit",
    "Artemis.C118_importance",
    "Artemis.C118_additivity",
    "Artemis.C118_sejong",
    "Artemis.C118_permutation",
    "Artemis.C118_fit_supplied",
    "Artemis.C118_importance_supplied",
    "Artemis.C118_additivity_supplied"
   ],
   "note": "Any prediction function (no row-wise or no-exception assumption). C118_fit, C118_importance, C118_additivity: calls that build their own calculator; the theorems ending in _supplied: calculators of any history, refused or used. There the rows mix values of the drawn data in the columns of the data, since DataFrame.equals compares nothing else."
  },
  {
   "property": "C119",
   "status": "partial",
   "theorems": [
    "Artemis.C119_calculator",
    "Artemis.C119_fit_partial",
    "Artemis.C119_importance_partial",
    "Artemis.C119_additivity_partial",
    "Artemis.C119_sejong",
    "Artemis.C119_permutation",
    "Artemis.C119_needs_mixtures",
    "Artemis.C119_supplied_calculator_refused",
    "Artemis.C119_supplied_fails"
   ],
   "note": "Any two prediction functions. Methods: fits that build their own calculator. C119_needs_mixtures shows that agreement on the data rows is not enough. False for method calls with a supplied calculator: another model object is refused (C119_supplied_calculator_refused, C119_supplied_fails)."
  },
  {
   "property": "C120",
   "status": "partial",
   "theorems": [
    "Artemis.C120_fit_raises",
    "Artemis.C120_h_index_error_partial",
    "Artemis.C120_importance_raises_partial",
    "Artemis.C120_complete_fit",
    "Artemis.C120_complete_importance",
    "Artemis.C120_complete_calculator",
    "Artemis.C120_calculator",
    "Artemis.C120_additivity_raises_partial",
    "Artemis.C120_complete_additivity",
    "Artemis.C120_unrequested_column_matters"
   ],
   "note": "Model/Missing repeats the code that compares feature values with a comparison that is false for missing values. Numeric columns: NumPy sorts NaN last and keeps one of them; object columns mixing strings and NaN (TypeError in np.unique) are not covered. C120_unrequested_column_matters: also a column that was not requested makes the call fail. Missing: object columns mixing strings and NaN, where the class of the exception is not IndexError."
  },
  {
   "property": "C121",
   "status": "partial",
   "theorems": [
    "Artemis.C121_metrics_answer",
    "Artemis.C121_permutation_returns",
    "Artemis.C121_sejong_returns_partial"
   ],
   "note": "Answers asks the model for as many predictions as rows for every frame of the size of the drawn data; C121_metrics_answer shows that the three metrics of the package qualify. The draw itself (C28) is assumed to have succeeded. Missing from the quantifier over samples: draws that raise (more rows than the data have, labels that do not fit)."
  },
  {
   "property": "C122",
   "status": "partial",
   "theorems": [
    "Artemis.C122_results_belong_together_partial",
    "Artemis.C122_failed_fit",
    "Artemis.C122_new_object_is_empty",
    "Artemis.C122_first_fit_partial",
    "Artemis.C122_fails"
   ],
   "note": "The sentence on successful fits is proved (C122_results_belong_together_partial). The one on failing fits is false: C122_fails shows the index and predictions of the first data beside a copy of the second data. C122_failed_fit says exactly what is left behind. Missing: consistency after an exception, which the code does not provide. Row-wise prediction function (FitSetup or AddSetup) in the theorems about fit."
  },
  {
   "property": "C123",
   "status": "partial",
   "theorems": [
    "Artemis.C123_pd_methods_partial",
    "Artemis.C123_pd_importance_partial",
    "Artemis.C123_additivity_partial",
    "Artemis.C123_sejong",
    "Artemis.C123_permutation_importance",
    "Artemis.C123_needs_fitting_labels",
    "Artemis.C123_supplied_calculator_refused",
    "Artemis.C123_supplied_fails"
   ],
   "note": "One theorem per method, for two arbitrary label types and any model. C123_needs_fitting_labels shows that the condition on the targets of Sejong Oh's method cannot be dropped (the mismatch itself is C28). Calls with a supplied calculator are left out: its labels take part in DataFrame.equals. False with a supplied calculator: other labels are refused (C123_supplied_calculator_refused, C123_supplied_fails)."
  },
  {
   "property": "C124",
   "status": "proved",
   "theorems": [
    "Artemis.C124_accepted_fit",
    "Artemis.C124_only_type_error",
    "Artemis.C124_fit_raises",
    "Artemis.C124_importance",
    "Artemis.C124_no_pairs",
    "Artemis.C124_calculator",
    "Artemis.C124_accepted_calculator",
    "Artemis.C124_additivity",
    "Artemis.C124_unrequested_column_matters"
   ],
   "note": "C124_accepted_* show that the model for arbitrary names agrees with the model used for all other properties when the names are accepted; C124_fit_raises, C124_no_pairs, C124_importance, C124_additivity and C124_calculator the rest, C124_only_type_error that nothing else changes. C124_unrequested_column_matters is a concrete run."
  },
  {
   "property": "C125",
   "status": "partial",
   "theorems": [
    "Artemis.C125_limit_partial",
    "Artemis.C125_negative",
    "Artemis.C125_fails"
   ],
   "note": "Holds for limits >= 0 (C125_limit_partial, all bar charts and the graph). A negative limit -m drops the last m rows instead (C125_negative): C125_fails shows a chart with two bars for top_k = -1."
  },
  {
   "property": "C126",
   "status": "proved",
   "theorems": [
    "Artemis.C126_results_stay",
    "Artemis.C126_same_picture",
    "Artemis.C126_any_series"
   ],
   "note": "C126_results_stay: any series of plots on a memory of mutable tables leaves every existing table as it was. C126_same_picture: the plot on memory is the plot of Model/Method on the contents of the tables. C126_any_series: both for series of plots."
  },
  {
   "property": "C127",
   "status": "partial",
   "theorems": [
    "Artemis.C127_strings_partial",
    "Artemis.C127_graph_any_names",
    "Artemis.C127_bar_chart_raises",
    "Artemis.C127_heatmap_raises",
    "Artemis.C127_correlation_raises",
    "Artemis.C127_sejong_fails"
   ],
   "note": "C127_strings_partial: with string names the extended model agrees with the one used elsewhere. C127_graph_any_names: the graph and the bar chart of one-versus-all values work for all names. C127_bar_chart_raises, C127_heatmap_raises, C127_correlation_raises: other plots and correlations raise. C127_sejong_fails: a fit of the Sejong Oh method on data with a name that is not a string succeeds, but its default plot, summary and bar chart cannot be drawn."
  },
  {
   "property": "C128",
   "status": "partial",
   "theorems": [
    "Artemis.C128_additivity_raises_partial",
    "Artemis.C128_additivity_value_error",
    "Artemis.C128_sejong_raises_partial",
    "Artemis.C128_permutation_raises_partial",
    "Artemis.C128_single_prediction",
    "Artemis.C128_sejong_fails",
    "Artemis.C128_fails"
   ],
   "note": "Holds for the additivity meter (C128_additivity_raises_partial, C128_additivity_value_error), and for the Sejong Oh method and permutation importance with the metrics of the library if neither predictions nor targets have length one (C128_sejong_raises_partial, C128_permutation_raises_partial). A single prediction is broadcast: a model returning always one prediction gets 0 for all pairs (C128_single_prediction), one returning the last prediction gets a number (C128_sejong_fails). False for the methods based on partial dependence: slices of a batch are averaged whatever its length; C128_fails shows an H-statistic of 189/208 for an additive model."
  },
  {
   "property": "C129",
   "status": "partial",
   "theorems": [
    "Artemis.C129_pd_fit_partial",
    "Artemis.C129_pd_leaves_table_partial",
    "Artemis.C129_importance_unknown_partial",
    "Artemis.C129_calculator_partial",
    "Artemis.C129_pd_key_error_partial",
    "Artemis.C129_sejong_unknown_partial",
    "Artemis.C129_sejong_repeated_listed",
    "Artemis.C129_permutation_listed_once",
    "Artemis.C129_split_score_ignores",
    "Artemis.C129_importance_repeated_fails",
    "Artemis.C129_sejong_fails"
   ],
   "note": "Holds for the H-statistic and Greenwell methods whatever the model does (C129_pd_fit_partial; C129_pd_leaves_table_partial: earlier tables stay when two or more features were requested; C129_pd_key_error_partial: the error is a KeyError when predictions are row-wise and do not raise), for unknown names in the PD based importance (C129_importance_unknown_partial) and, with at least one repetition, in the Sejong Oh method (C129_sejong_unknown_partial). Permutation importance lists a repeated name once (C129_permutation_listed_once). False otherwise: Sejong Oh reports a feature with itself (C129_sejong_repeated_listed, C129_sejong_fails), PD based importance repeats rows (C129_importance_repeated_fails), split score importance ignores unknown names (C129_split_score_ignores). The calculator itself, after any calls, returns for known names and raises a KeyError otherwise (C129_calculator_partial)."
  },
  {
   "property": "C130",
   "status": "partial",
   "theorems": [
    "Artemis.C130_pd_heatmap_partial",
    "Artemis.C130_sejong_heatmap_partial",
    "Artemis.C130_cmd_heatmap_partial",
    "Artemis.C130_split_score_heatmap_partial",
    "Artemis.C130_summary_partial",
    "Artemis.C130_summary_fails",
    "Artemis.C130_fails"
   ],
   "note": "Proved for the separate heatmap of all five methods and for the summaries of H-statistic, Greenwell and Sejong Oh. False for the diagonal in the summary of conditional minimal depth (C130_summary_fails for all tables, C130_fails after a concrete fit) and of split score with a depth metric for importance: the summary does not pass the direction on (C130_summary_partial says what it does)."
  },
  {
   "property": "C131",
   "status": "proved",
   "theorems": [
    "Artemis.C131_sejong",
    "Artemis.C131_sejong_same_results",
    "Artemis.C131_sejong_any_model",
    "Artemis.C131_importance",
    "Artemis.C131_additivity",
    "Artemis.C131_additivity_same_results",
    "Artemis.C131_additivity_any_model",
    "Artemis.C131_handed_over"
   ],
   "note": "Frame objects in memory, column assignments in place (Model/DataHeap); the code on objects is a refinement of Model/Perf and Model/AdditivitySteps in which memory only grows. C131_handed_over shows that without n a model that changes its input changes the caller's frame. The PD-based methods contain no assignment to a frame and are not in this model."
  },
  {
   "property": "C132",
   "status": "partial",
   "theorems": [
    "Artemis.C132_one_write",
    "Artemis.C132_own_arrays_partial",
    "Artemis.C132_lookups_with_values_partial",
    "Artemis.C132_views",
    "Artemis.C132_snapshots",
    "Artemis.C132_nan_is_harmless",
    "Artemis.C132_written_numbers_stay",
    "Artemis.C132_fails"
   ],
   "note": "Holds for writes into arrays that lookups with values returned (C132_own_arrays_partial, C132_lookups_with_values_partial) and for snapshots and views. It fails for arrays returned without values, which are the calculator's own (C132_fails): a number other than NaN written into a finished array is what every later lookup returns, whatever is calculated (C132_written_numbers_stay), whereas NaN only makes the next calculation fill the entry in again (C132_nan_is_harmless). C132_one_write: what one write changes, and IndexError outside."
  },
  {
   "property": "C133",
   "status": "partial",
   "theorems": [
    "Artemis.C133_untouched_partial",
    "Artemis.C133_any_prediction_function",
    "Artemis.C133_same_results_partial",
    "Artemis.C133_fails"
   ],
   "note": "Holds for the Greenwell method and the H-statistic without one-vs-all whatever the prediction function does, and for the H-statistic with one-vs-all if the prediction function changes nothing (C133_untouched_partial, C133_same_results_partial); with any prediction function only the caller's frame can change, and with n not even that one (C133_any_prediction_function). It fails for the one-vs-all part with a prediction function that modifies its argument (C133_fails): the caller's data are changed and the one-vs-all table is that of the changed data."
  },
  {
   "property": "C134",
   "status": "partial",
   "theorems": [
    "Artemis.C134_unnormalized_H_partial",
    "Artemis.C134_unnormalized_ova_partial",
    "Artemis.C134_importance",
    "Artemis.C134_greenwell",
    "Artemis.C134_single_pd",
    "Artemis.C134_pair_pd",
    "Artemis.C134_minus_pd",
    "Artemis.C134_permutation_importance",
    "Artemis.C134_sejong",
    "Artemis.C134_fails_normalized",
    "Artemis.C134_fails_additivity"
   ],
   "note": "Proved with the stated constants for partial dependence values, unnormalized H (pairs and one-vs-all), importances, Greenwell, and with RMSE for permutation importance and Sejong Oh. No constant works for the normalized H-statistic (C134_fails_normalized: models within any eps > 0 of each other show 0 and 1) or the additivity index (C134_fails_additivity: 1 and -3/2)."
  },
  {
   "property": "C135",
   "status": "proved",
   "theorems": [
    "Artemis.C135_H",
    "Artemis.C135_ova",
    "Artemis.C135_greenwell",
    "Artemis.C135_importance",
    "Artemis.C135_sampling",
    "Artemis.C135_additivity",
    "Artemis.C135_permutation_importance",
    "Artemis.C135_sejong"
   ],
   "note": "For the partial dependence methods the two (possibly sampled) data sets are compared; C135_sampling shows that drawing with the same generator keeps them alike. For Sejong Oh the sampling is part of the statement. Row-wise prediction function (FitSetup or AddSetup) in the theorems about fit."
  },
  {
   "property": "C136",
   "status": "proved",
   "theorems": [
    "Artemis.C136_full_ovo",
    "Artemis.C136_sums",
    "Artemis.C136_means",
    "Artemis.C136_importance"
   ],
   "note": "Over an ordered field, i.e. without float rounding. Both shorter models have a split below a root (else their fit raises, C43). Importance: positive gains, no feature called Leaf. weighted_root_frequency divides by the gains of all roots and does not add up."
  },
  {
   "property": "C137",
   "status": "proved",
   "theorems": [
    "Artemis.C137_pairs",
    "Artemis.C137_importance",
    "Artemis.C137_between"
   ],
   "note": "Over an ordered field, i.e. without float rounding. Both shorter forests have a tree (pairs) and a split (importance), else their fit raises (C36, C37)."
  },
  {
   "property": "C138",
   "status": "proved",
   "theorems": [
    "Artemis.C138_one_partner",
    "Artemis.C138_two_features",
    "Artemis.C138_additivity"
   ],
   "note": "Over an ordered field with exact square root; the additivity part for predictions that are not constant on the data (else the index is NaN or -inf, C23). Row-wise prediction function (FitSetup or AddSetup) in the theorems about fit."
  },
  {
   "property": "C139",
   "status": "proved",
   "theorems": [
    "Artemis.C139_children",
    "Artemis.C139_parents",
    "Artemis.C139_restricts"
   ],
   "note": "Over an ordered field, i.e. without float rounding; no feature called Leaf (C71) and a split below a root (C43)."
  },
  {
   "property": "C140",
   "status": "proved",
   "theorems": [
    "Artemis.C140_one_versus_all_covers",
    "Artemis.C140_unit_interval",
    "Artemis.C140_pairs_within_feature",
    "Artemis.C140_pairs_within_model"
   ],
   "note": "Over an ordered field with square roots (e.g. the reals), i.e. without float rounding. Row-wise prediction function (FitSetup or AddSetup) in the theorems about fit."
  },
  {
   "property": "C141",
   "status": "proved",
   "theorems": [
    "Artemis.C141_rankings_only",
    "Artemis.C141_rescaled"
   ],
   "note": "Scale part over an ordered field with square roots (e.g. the reals), i.e. without float rounding."
  },
  {
   "property": "C142",
   "status": "proved",
   "theorems": [
    "Artemis.C142_rounded_nonneg_sorted"
   ],
   "note": "Any lawful arithmetic; binary64 is shown lawful (binary64_lawful). Signed zeros are not modelled."
  },
  {
   "property": "C143",
   "status": "proved",
   "theorems": [
    "Artemis.C143_close_to_exact",
    "Artemis.C143_order",
    "Artemis.C143_normalized",
    "Artemis.C143_binary64"
   ],
   "note": "binary64 (round to nearest even, overflow, gradual underflow) is shown to meet the hypotheses (C143_binary64)."
  },
  {
   "property": "C144",
   "status": "partial",
   "theorems": [
    "Artemis.C144_unnormalized_partial",
    "Artemis.C144_normalized_partial",
    "Artemis.C144_normalized_one"
   ],
   "note": "Fails for the normalized statistic: a constant prediction 0.9 on seven rows shows strength 1 in binary64 (C144_normalized_one). Proved: unnormalized strengths, and normalized ones where the joint partial dependence varies."
  },
  {
   "property": "C145",
   "status": "proved",
   "theorems": [
    "Artemis.C145_greenwell_close_to_exact",
    "Artemis.C145_exactStd_suits"
   ],
   "note": "binary64 with the correctly rounded standard deviation meets the hypotheses (C145_exactStd_suits, C143_binary64)."
  },
  {
   "property": "C146",
   "status": "proved",
   "theorems": [
    "Artemis.C146_ignored_exactly_zero"
   ],
   "note": "Stated for fits that return (a constant feature raises StatisticsError, C18)."
  },
  {
   "property": "C147",
   "status": "partial",
   "theorems": [
    "Artemis.C147_ignored_importance_partial",
    "Artemis.C147_numerical_not_zero"
   ],
   "note": "Exactly 0 for categorical features; for numerical ones only up to 53 rows*u*M: a constant model predicting 0.9 on seven rows shows importance 2^-53 (C147_numerical_not_zero)."
  },
  {
   "property": "C148",
   "status": "proved",
   "theorems": [
    "Artemis.C148_at_most_one",
    "Artemis.C148_binary64"
   ],
   "note": "C148_binary64 has no hypotheses; the general theorem asks that numbers up to 1 do not round above 1."
  },
  {
   "property": "C149",
   "status": "proved",
   "theorems": [
    "Artemis.C149_index_close_to_exact"
   ],
   "note": "The column name \"centered_prediction\" must be free, as in C22; binary64 meets the hypotheses (C143_binary64)."
  },
  {
   "property": "C150",
   "status": "partial",
   "theorems": [
    "Artemis.C150_additive_partial",
    "Artemis.C150_additive_zero",
    "Artemis.C150_additive_below_one"
   ],
   "note": "Proved with an explicit bound when the predictions vary by more than 53 e. False for models that hardly vary: a constant model predicting 0.9 on seven rows gets index 0 (C150_additive_zero), an additive one with steps of 2^-53 gets 0.857 (C150_additive_below_one)."
  },
  {
   "property": "C151",
   "status": "proved",
   "theorems": [
    "Artemis.C151_fails_iff_constant_feature"
   ],
   "note": "C18 in rounded arithmetic, and for arbitrary predictions. statistics.stdev is total in the model; some Python versions raise on non-finite numbers (DESIGN section 5)."
  },
  {
   "property": "C152",
   "status": "proved",
   "theorems": [
    "Artemis.C152_rounded_nonneg_sorted"
   ],
   "note": "exactStd_nonneg: the correctly rounded standard deviation meets the hypothesis."
  },
  {
   "property": "C153",
   "status": "proved",
   "theorems": [
    "Artemis.C153_nonneg_sorted",
    "Artemis.C153_both_ignored_zero"
   ],
   "note": "C24 and C26 in rounded arithmetic and for non-finite scores."
  },
  {
   "property": "C154",
   "status": "proved",
   "theorems": [
    "Artemis.C154_pairs_close_to_exact",
    "Artemis.C154_importance_close_to_exact"
   ],
   "note": "The bound refers to the scores as computed; C143_binary64 gives the constants for binary64."
  },
  {
   "property": "C155",
   "status": "partial",
   "theorems": [
    "Artemis.C155_ignored_partial",
    "Artemis.C155_fails"
   ],
   "note": "C155_fails: a classifier with accuracy 0.8: importance -2^-53 with three repetitions, 2^-53 with seven. Proved: at most 11*n*u*|score|, and exactly 0 for one repetition or score 0."
  },
  {
   "property": "C156",
   "status": "proved",
   "theorems": [
    "Artemis.C156_perfect_model"
   ],
   "note": "C30 in rounded arithmetic; binary64_whole shows that binary64 meets the hypothesis for N = 2^53 - 1."
  },
  {
   "property": "C157",
   "status": "proved",
   "theorems": [
    "Artemis.C157_correctly_rounded"
   ],
   "note": "C36 and C37 in rounded arithmetic. kahan_addsWhole shows that the compensated summation of pandas meets the hypothesis; binary64_whole gives N = 2^53 - 1."
  },
  {
   "property": "C158",
   "status": "proved",
   "theorems": [
    "Artemis.C158_exact_ranking",
    "Artemis.C158_binary64"
   ],
   "note": "Two different means of at most T whole numbers differ by at least 1/T^2."
  },
  {
   "property": "C159",
   "status": "proved",
   "theorems": [
    "Artemis.C159_interactions",
    "Artemis.C159_full_sorted",
    "Artemis.C159_ranking",
    "Artemis.C159_depth_ranking"
   ],
   "note": "C41 and C42 in rounded arithmetic. kahan_addsNear and kahan_addsWhole show that the compensated summation of pandas meets the hypotheses; binary64_splitSuits gives the instance."
  },
  {
   "property": "C160",
   "status": "proved",
   "theorems": [
    "Artemis.C160_importance",
    "Artemis.C160_fit_completes",
    "Artemis.C160_binary64"
   ],
   "note": "C43 and C44 in rounded arithmetic; the order of the two depth metrics is as in C45."
  },
  {
   "property": "C161",
   "status": "proved",
   "theorems": [
    "Artemis.C161_widths",
    "Artemis.C161_ascending"
   ],
   "note": "C54 and C55 in rounded arithmetic; binary64_ordered gives the instance, round64_idem says that every computed float meets the hypothesis on the table."
  },
  {
   "property": "C162",
   "status": "proved",
   "theorems": [
    "Artemis.C162_sizes",
    "Artemis.C162_no_importance",
    "Artemis.C162_same_failures",
    "Artemis.C162_full_size_fails"
   ],
   "note": "C78 in rounded arithmetic; C162_full_size_fails is the witness that the full size is not met exactly."
  },
  {
   "property": "C163",
   "status": "proved",
   "theorems": [
    "Artemis.C163_one_edge",
    "Artemis.C163_weakest",
    "Artemis.C163_split_score"
   ],
   "note": "Induction over the order in which edges are added: the stored key is one of the two orders and the other one is never present. C54_two_directions_fails is the consequence for C54: widths of such tables do not reflect the strongest interaction."
  },
  {
   "property": "C164",
   "status": "proved",
   "theorems": [
    "Artemis.C164_same_cells",
    "Artemis.C164_order",
    "Artemis.C164_exact_order_fails"
   ],
   "note": "C58 in rounded arithmetic; C164_exact_order_fails is the witness that the error term is needed. Features whose names differ only in case are excluded as in C58 (C58_fails)."
  },
  {
   "property": "C165",
   "status": "proved",
   "theorems": [
    "Artemis.C165_cmd_graph"
   ],
   "note": "End to end: C157/C158 (fit in binary64) composed with C161 (graph in binary64); that quotients of depths do not underflow is proved from the size bound, not assumed. A pair of mean depth 0 (direct child in every tree) is excluded: 1/0 is handled by C57 and C161_widths only."
  },
  {
   "property": "C166",
   "status": "proved",
   "theorems": [
    "Artemis.C166_pdp",
    "Artemis.C166_sejong",
    "Artemis.C166_split_score",
    "Artemis.C166_cmd"
   ],
   "note": "For each of the five kinds of first method; sort_values may order ties arbitrarily."
  },
  {
   "property": "C167",
   "status": "proved",
   "theorems": [
    "Artemis.C167_no_more_exceptions",
    "Artemis.C167_label_position",
    "Artemis.C167_title_and_box"
   ],
   "note": "Exact real arithmetic (cos, sin, pi as real functions); y positions only through the circle. For a first method where smaller is stronger the x axis is inverted (C51), so a smaller x coordinate is further right on the screen."
  },
  {
   "property": "C168",
   "status": "partial",
   "theorems": [
    "Artemis.C168_texts_partial",
    "Artemis.C168_one_text_per_edge_fails"
   ],
   "note": "Fails for split score in one point: its table has a row per direction, and both rows of a pair can be labelled on the one edge between the two features (C168_one_text_per_edge_fails). Everything else, and one text per edge for tables that list a pair once, is proved."
  },
  {
   "property": "C169",
   "status": "partial",
   "theorems": [
    "Artemis.C169_mirrored_partial",
    "Artemis.C169_diagonal_partial",
    "Artemis.C169_split_score_fails"
   ],
   "note": "Proved for H-statistic, Greenwell, Sejong Oh and conditional minimal depth (names whose joined pairs do not collide), in any combination. Fails for split score (C169_split_score_fails): its table has one row per direction, so a pair is drawn twice, once off the diagonal."
  },
  {
   "property": "C170",
   "status": "proved",
   "theorems": [
    "Artemis.C170_compare"
   ],
   "note": "Columns whose joined pairs collide are the disagreement of C38."
  },
  {
   "property": "C171",
   "status": "proved",
   "theorems": [
    "Artemis.C171_symmetries_of_the_task",
    "Artemis.C171_interchangeable_features"
   ],
   "note": "In exact arithmetic; rounded values of two interchangeable features may differ by the errors bounded in the rounding properties."
  },
  {
   "property": "C172",
   "status": "proved",
   "theorems": [
    "Artemis.C172_importance_of_a_linear_term",
    "Artemis.C172_H_of_a_product_term",
    "Artemis.C172_ova_of_a_product_term",
    "Artemis.C172_greenwell_of_a_product_term"
   ],
   "note": "In exact arithmetic. Without the condition on directions Greenwell's value of a product can be 0 (C114_fails_greenwell)."
  },
  {
   "property": "C173",
   "status": "partial",
   "theorems": [
    "Artemis.C173_class_path",
    "Artemis.C173_accepts_by_package",
    "Artemis.C173_last_model",
    "Artemis.C173_no_model",
    "Artemis.C173_failed_call_partial",
    "Artemis.C173_failed_call_fails"
   ],
   "note": "The last sentence fails: the package name is stored before the model is checked and before its trees are read, so after a failed call with a model of another package the handler has the old trees under the new package name and refuses metrics it allowed before (C173_failed_call_fails). It is proved for unreadable types and models of the same package; the trees always stay. All else is proved."
  },
  {
   "property": "C174",
   "status": "proved",
   "theorems": [
    "Artemis.C174_normalized_H_of_a_product_term",
    "Artemis.C174_normalized_ova_of_a_product_term",
    "Artemis.C174_share_of_a_product_term",
    "Artemis.C174_additivity_index_of_a_product_term"
   ],
   "note": "In exact arithmetic. The factor 4 c^2 in the index comes from the code centring partial dependences by the mean prediction instead of their own mean. Row-wise prediction function (FitSetup or AddSetup) in the theorems about fit."
  },
  {
   "property": "C175",
   "status": "partial",
   "theorems": [
    "Artemis.C175_any_forest_is_explained",
    "Artemis.C175_no_names",
    "Artemis.C175_no_trees_partial",
    "Artemis.C175_returns_only_for_forests",
    "Artemis.C175_never_partly_explained",
    "Artemis.C175_refused_model_fails",
    "Artemis.C175_feature_subset_fails"
   ],
   "note": "Two clauses fail. (1) features_included and pairs are overwritten before the estimators are read, so after a refused model with feature names the object names its columns next to the earlier tables (C175_refused_model_fails). Proved: AttributeError, all result tables kept, and the object untouched if the names are missing. (2) Trees that see only some columns (bagging with max_features) store positions among those, which are read as positions among all columns (C175_feature_subset_fails); proved for trees storing columns of the model. All else is proved."
  },
  {
   "property": "C176",
   "status": "proved",
   "theorems": [
    "Artemis.C176_columns_no_tree_uses"
   ],
   "note": ""
  },
  {
   "property": "C177",
   "status": "proved",
   "theorems": [
    "Artemis.C177_trees_without_splits"
   ],
   "note": ""
  }
 ]
}