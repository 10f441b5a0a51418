import Verif.Props.AcceptedAdditivity
import Verif.Props.AcceptedAnyModel
import Verif.Props.Accounts
import Verif.Props.AccuracyAnyPredictions
import Verif.Props.AddSteps
import Verif.Props.Additivity
import Verif.Props.Agreement
import Verif.Props.BoostedForests
import Verif.Props.CMD
import Verif.Props.ClosedForms
import Verif.Props.ClosedShares
import Verif.Props.CmdObj
import Verif.Props.CmpLabels
import Verif.Props.Colours
import Verif.Props.Comparator
import Verif.Props.Covers
import Verif.Props.DataHeap
import Verif.Props.Drawable
import Verif.Props.EdgeTexts
import Verif.Props.Ensemble
import Verif.Props.Factorial
import Verif.Props.FitCost
import Verif.Props.Forests
import Verif.Props.Formulas
import Verif.Props.Greenwell
import Verif.Props.HStat
import Verif.Props.HandleWrites
import Verif.Props.HandlerObj
import Verif.Props.Handles
import Verif.Props.Heatmap
import Verif.Props.Invariance
import Verif.Props.Keywords
import Verif.Props.LabelFit
import Verif.Props.Labels
import Verif.Props.Lifecycle
import Verif.Props.Limits
import Verif.Props.Locality
import Verif.Props.Metrics
import Verif.Props.Missing
import Verif.Props.MoreTrees
import Verif.Props.OneEdge
import Verif.Props.OrderFit
import Verif.Props.PD
import Verif.Props.PDCache
import Verif.Props.PDCost
import Verif.Props.PdHeap
import Verif.Props.PdImportance
import Verif.Props.PdpVis
import Verif.Props.PermImp
import Verif.Props.PlotFit
import Verif.Props.Predict
import Verif.Props.Rankings
import Verif.Props.RecordsAnyModel
import Verif.Props.Requests
import Verif.Props.RoundedAdditivity
import Verif.Props.RoundedCmdGraph
import Verif.Props.RoundedCompare
import Verif.Props.RoundedGreenwell
import Verif.Props.RoundedGreenwellTables
import Verif.Props.RoundedHeat
import Verif.Props.RoundedPerf
import Verif.Props.RoundedSplit
import Verif.Props.RoundedTrees
import Verif.Props.RoundedVis
import Verif.Props.Rounding
import Verif.Props.Rounds
import Verif.Props.Sampling
import Verif.Props.Sejong
import Verif.Props.SelfCompare
import Verif.Props.Shares
import Verif.Props.Sharing
import Verif.Props.Sizes
import Verif.Props.SplitErrors
import Verif.Props.SplitScore
import Verif.Props.Stability
import Verif.Props.StaleImportance
import Verif.Props.Stream
import Verif.Props.Stunted
import Verif.Props.Summary
import Verif.Props.SummaryOptions
import Verif.Props.SuppliedImportance
import Verif.Props.SuppliedLimits
import Verif.Props.SuppliedMixes
import Verif.Props.Symmetry
import Verif.Props.Tight
import Verif.Props.Undefined
import Verif.Props.UndefinedPerm
import Verif.Props.UndefinedScores
import Verif.Props.UnusedCols
import Verif.Props.UnusedSplits
import Verif.Props.VisHeap
import Verif.Props.VisNames
import Verif.Props.Visual
import Verif.Props.WidthsFit
import Verif.Props.WrongLength
import Verif.Props.Zenplot
import Verif.Props.Zero

/-! Prints the axioms each property theorem depends on. Generated list of all theorems in `Verif/Props`. -/

#print axioms Artemis.C01_single_pd_is_brute_force
#print axioms Artemis.C01_single_pd_all_values
#print axioms Artemis.C01_single_pd_returns
#print axioms Artemis.C02_pair_pd_is_brute_force
#print axioms Artemis.C02_pair_pd_returns
#print axioms Artemis.C03_minus_pd_is_brute_force
#print axioms Artemis.C03_minus_pd_returns
#print axioms Artemis.C04_batchsize_irrelevant
#print axioms Artemis.C04_failed_request_depends_on_batchsize
#print axioms Artemis.C05_sound_single
#print axioms Artemis.C05_sound_pairs
#print axioms Artemis.C05_sound_minus
#print axioms Artemis.C05_unrequested_is_nan
#print axioms Artemis.C05_monotone
#print axioms Artemis.C06_no_requery_single
#print axioms Artemis.C06_no_requery_pairs
#print axioms Artemis.C06_no_requery_minus
#print axioms Artemis.C07_batches_single
#print axioms Artemis.C07_batches_pairs
#print axioms Artemis.C07_batches_minus
#print axioms Artemis.C08_pair_lookup_symmetric
#print axioms Artemis.C09_lookup_single
#print axioms Artemis.C09_lookup_pairs
#print axioms Artemis.C10_H_zero_for_non_interacting_pair
#print axioms Artemis.C100_ignored_next_to_calculator
#print axioms Artemis.C100_same_function_partial
#print axioms Artemis.C100_importance_ignored_next_to_calculator
#print axioms Artemis.C100_fails
#print axioms Artemis.C101_fit_is_fit_on_sample
#print axioms Artemis.C101_too_many
#print axioms Artemis.C101_importance_is_importance_on_sample
#print axioms Artemis.C101_additivity_is_additivity_of_sample
#print axioms Artemis.C102_own_calculator_partial
#print axioms Artemis.C102_fails_with_sampling
#print axioms Artemis.C103_fit_records_any_model
#print axioms Artemis.C103_importance_records_any_model
#print axioms Artemis.C103_additivity_records_any_model
#print axioms Artemis.C103_fit_records_its_inputs
#print axioms Artemis.C103_importance_records_its_inputs
#print axioms Artemis.C103_additivity_records_its_inputs
#print axioms Artemis.C103_sejong_records_its_inputs
#print axioms Artemis.C103_new_objects_are_empty
#print axioms Artemis.C103_cmd_records_its_inputs
#print axioms Artemis.C103_split_score_records_its_metrics
#print axioms Artemis.C103_new_tree_objects_are_empty
#print axioms Artemis.C104_pair_share_partial
#print axioms Artemis.C104_feature_share_partial
#print axioms Artemis.C104_fails
#print axioms Artemis.C104_fails_infinite
#print axioms Artemis.C105_sum_of_shares_partial
#print axioms Artemis.C105_fails
#print axioms Artemis.C106_importance_size
#print axioms Artemis.C106_unnormalized_H_size
#print axioms Artemis.C106_greenwell_size
#print axioms Artemis.C107_accuracy_any_predictions_partial
#print axioms Artemis.C107_accuracy_importance_partial
#print axioms Artemis.C107_error_importance_partial
#print axioms Artemis.C107_accuracy_sejong_partial
#print axioms Artemis.C108_sejong_cost
#print axioms Artemis.C108_permutation_cost
#print axioms Artemis.C109_single_once
#print axioms Artemis.C109_minus_once
#print axioms Artemis.C109_pairs_once_partial
#print axioms Artemis.C109_at_most
#print axioms Artemis.C109_pairs_fails
#print axioms Artemis.C11_ova_zero_for_additive_feature
#print axioms Artemis.C110_greenwell
#print axioms Artemis.C110_friedman_partial
#print axioms Artemis.C110_friedman_at_most
#print axioms Artemis.C110_features_fails
#print axioms Artemis.C111_fit_draws_only_the_sample
#print axioms Artemis.C111_importance_draws_only_the_sample
#print axioms Artemis.C111_additivity_draws_only_the_sample
#print axioms Artemis.C111_only_the_sample_matters
#print axioms Artemis.C111_no_sampling_no_randomness
#print axioms Artemis.C111_additivity_no_sampling_no_randomness
#print axioms Artemis.C111_importance_no_sampling_no_randomness
#print axioms Artemis.C112_greenwell_misses_interaction
#print axioms Artemis.C112_friedman_pair_zero
#print axioms Artemis.C112_friedman_ova_zero
#print axioms Artemis.C112_importance_zero
#print axioms Artemis.C112_greenwell_zero
#print axioms Artemis.C113_edited_data_pass_the_check
#print axioms Artemis.C113_reused_calculator_reports_old_data
#print axioms Artemis.C113_reused_calculator_is_right_partial
#print axioms Artemis.C113_fails
#print axioms Artemis.C113_importance_reports_old_data
#print axioms Artemis.C114_pair_main_effects_partial
#print axioms Artemis.C114_ova_main_effects_partial
#print axioms Artemis.C114_fails_greenwell
#print axioms Artemis.C114_fails_normalized
#print axioms Artemis.C115_pair_mixture_partial
#print axioms Artemis.C115_ova_mixture_partial
#print axioms Artemis.C115_importance_mixture
#print axioms Artemis.C115_fails_greenwell
#print axioms Artemis.C115_fails_normalized
#print axioms Artemis.C116_zenplot_raises
#print axioms Artemis.C116_friedman_reports_zeros
#print axioms Artemis.C116_friedman_returns_iff_numerical
#print axioms Artemis.C116_greenwell_raises_partial
#print axioms Artemis.C116_additivity_is_nan_partial
#print axioms Artemis.C116_sejong_is_nan_partial
#print axioms Artemis.C116_fails
#print axioms Artemis.C117_pair_hides_undefined
#print axioms Artemis.C117_ova_hides_undefined
#print axioms Artemis.C117_importance_hides_undefined
#print axioms Artemis.C117_additivity_shows_undefined_partial
#print axioms Artemis.C117_sejong_shows_undefined_partial
#print axioms Artemis.C117_fails
#print axioms Artemis.C117_permutation_importance_partial
#print axioms Artemis.C117_sejong_predictions_partial
#print axioms Artemis.C117_accuracy_hides_undefined
#print axioms Artemis.C118_calculator
#print axioms Artemis.C118_fit
#print axioms Artemis.C118_importance
#print axioms Artemis.C118_additivity
#print axioms Artemis.C118_sejong
#print axioms Artemis.C118_permutation
#print axioms Artemis.C118_fit_supplied
#print axioms Artemis.C118_importance_supplied
#print axioms Artemis.C118_additivity_supplied
#print axioms Artemis.C119_calculator
#print axioms Artemis.C119_fit_partial
#print axioms Artemis.C119_importance_partial
#print axioms Artemis.C119_additivity_partial
#print axioms Artemis.C119_sejong
#print axioms Artemis.C119_permutation
#print axioms Artemis.C119_needs_mixtures
#print axioms Artemis.C119_supplied_calculator_refused
#print axioms Artemis.C119_supplied_fails
#print axioms Artemis.C12_ovo_nonneg_sorted
#print axioms Artemis.C12_ova_nonneg_sorted
#print axioms Artemis.C120_fit_raises
#print axioms Artemis.C120_h_index_error_partial
#print axioms Artemis.C120_importance_raises_partial
#print axioms Artemis.C120_complete_fit
#print axioms Artemis.C120_complete_importance
#print axioms Artemis.C120_complete_calculator
#print axioms Artemis.C120_calculator
#print axioms Artemis.C120_additivity_raises_partial
#print axioms Artemis.C120_complete_additivity
#print axioms Artemis.C120_unrequested_column_matters
#print axioms Artemis.C121_metrics_answer
#print axioms Artemis.C121_permutation_returns
#print axioms Artemis.C121_sejong_returns_partial
#print axioms Artemis.C122_results_belong_together_partial
#print axioms Artemis.C122_failed_fit
#print axioms Artemis.C122_new_object_is_empty
#print axioms Artemis.C122_first_fit_partial
#print axioms Artemis.C122_fails
#print axioms Artemis.C123_pd_methods_partial
#print axioms Artemis.C123_pd_importance_partial
#print axioms Artemis.C123_additivity_partial
#print axioms Artemis.C123_sejong
#print axioms Artemis.C123_permutation_importance
#print axioms Artemis.C123_needs_fitting_labels
#print axioms Artemis.C123_supplied_calculator_refused
#print axioms Artemis.C123_supplied_fails
#print axioms Artemis.C124_accepted_fit
#print axioms Artemis.C124_only_type_error
#print axioms Artemis.C124_fit_raises
#print axioms Artemis.C124_importance
#print axioms Artemis.C124_no_pairs
#print axioms Artemis.C124_calculator
#print axioms Artemis.C124_accepted_calculator
#print axioms Artemis.C124_additivity
#print axioms Artemis.C124_unrequested_column_matters
#print axioms Artemis.C125_limit_partial
#print axioms Artemis.C125_negative
#print axioms Artemis.C125_fails
#print axioms Artemis.C126_results_stay
#print axioms Artemis.C126_same_picture
#print axioms Artemis.C126_any_series
#print axioms Artemis.C127_strings_partial
#print axioms Artemis.C127_graph_any_names
#print axioms Artemis.C127_bar_chart_raises
#print axioms Artemis.C127_heatmap_raises
#print axioms Artemis.C127_correlation_raises
#print axioms Artemis.C127_sejong_fails
#print axioms Artemis.C128_additivity_raises_partial
#print axioms Artemis.C128_additivity_value_error
#print axioms Artemis.C128_sejong_raises_partial
#print axioms Artemis.C128_permutation_raises_partial
#print axioms Artemis.C128_single_prediction
#print axioms Artemis.C128_sejong_fails
#print axioms Artemis.C128_fails
#print axioms Artemis.C129_pd_fit_partial
#print axioms Artemis.C129_pd_leaves_table_partial
#print axioms Artemis.C129_importance_unknown_partial
#print axioms Artemis.C129_calculator_partial
#print axioms Artemis.C129_pd_key_error_partial
#print axioms Artemis.C129_sejong_unknown_partial
#print axioms Artemis.C129_sejong_repeated_listed
#print axioms Artemis.C129_permutation_listed_once
#print axioms Artemis.C129_split_score_ignores
#print axioms Artemis.C129_importance_repeated_fails
#print axioms Artemis.C129_sejong_fails
#print axioms Artemis.C13_one_row_per_pair
#print axioms Artemis.C13_sejong_one_row_per_pair
#print axioms Artemis.C130_pd_heatmap_partial
#print axioms Artemis.C130_sejong_heatmap_partial
#print axioms Artemis.C130_cmd_heatmap_partial
#print axioms Artemis.C130_split_score_heatmap_partial
#print axioms Artemis.C130_summary_partial
#print axioms Artemis.C130_summary_fails
#print axioms Artemis.C130_fails
#print axioms Artemis.C131_sejong
#print axioms Artemis.C131_sejong_same_results
#print axioms Artemis.C131_sejong_any_model
#print axioms Artemis.C131_importance
#print axioms Artemis.C131_additivity
#print axioms Artemis.C131_additivity_same_results
#print axioms Artemis.C131_additivity_any_model
#print axioms Artemis.C131_handed_over
#print axioms Artemis.C132_one_write
#print axioms Artemis.C132_own_arrays_partial
#print axioms Artemis.C132_lookups_with_values_partial
#print axioms Artemis.C132_views
#print axioms Artemis.C132_snapshots
#print axioms Artemis.C132_nan_is_harmless
#print axioms Artemis.C132_written_numbers_stay
#print axioms Artemis.C132_fails
#print axioms Artemis.C133_untouched_partial
#print axioms Artemis.C133_any_prediction_function
#print axioms Artemis.C133_same_results_partial
#print axioms Artemis.C133_fails
#print axioms Artemis.C134_unnormalized_H_partial
#print axioms Artemis.C134_unnormalized_ova_partial
#print axioms Artemis.C134_importance
#print axioms Artemis.C134_greenwell
#print axioms Artemis.C134_single_pd
#print axioms Artemis.C134_pair_pd
#print axioms Artemis.C134_minus_pd
#print axioms Artemis.C134_permutation_importance
#print axioms Artemis.C134_sejong
#print axioms Artemis.C134_fails_normalized
#print axioms Artemis.C134_fails_additivity
#print axioms Artemis.C135_H
#print axioms Artemis.C135_ova
#print axioms Artemis.C135_greenwell
#print axioms Artemis.C135_importance
#print axioms Artemis.C135_sampling
#print axioms Artemis.C135_additivity
#print axioms Artemis.C135_permutation_importance
#print axioms Artemis.C135_sejong
#print axioms Artemis.C136_full_ovo
#print axioms Artemis.C136_sums
#print axioms Artemis.C136_means
#print axioms Artemis.C136_importance
#print axioms Artemis.C137_pairs
#print axioms Artemis.C137_importance
#print axioms Artemis.C137_between
#print axioms Artemis.C138_one_partner
#print axioms Artemis.C138_two_features
#print axioms Artemis.C138_additivity
#print axioms Artemis.C139_children
#print axioms Artemis.C139_parents
#print axioms Artemis.C139_restricts
#print axioms Artemis.C14_normalized_affine_invariant
#print axioms Artemis.C14_unnormalized_scales
#print axioms Artemis.C14_feature_order_irrelevant
#print axioms Artemis.C140_one_versus_all_covers
#print axioms Artemis.C140_unit_interval
#print axioms Artemis.C140_pairs_within_feature
#print axioms Artemis.C140_pairs_within_model
#print axioms Artemis.C141_rankings_only
#print axioms Artemis.C141_rescaled
#print axioms Artemis.C142_rounded_nonneg_sorted
#print axioms Artemis.C143_close_to_exact
#print axioms Artemis.C143_order
#print axioms Artemis.C143_normalized
#print axioms Artemis.C143_binary64
#print axioms Artemis.C144_unnormalized_partial
#print axioms Artemis.C144_normalized_partial
#print axioms Artemis.C144_normalized_one
#print axioms Artemis.C145_greenwell_close_to_exact
#print axioms Artemis.C145_exactStd_suits
#print axioms Artemis.C146_ignored_exactly_zero
#print axioms Artemis.C147_ignored_importance_partial
#print axioms Artemis.C147_numerical_not_zero
#print axioms Artemis.C148_at_most_one
#print axioms Artemis.C148_binary64
#print axioms Artemis.C149_index_close_to_exact
#print axioms Artemis.C15_additivity_same_with_reused_calculator
#print axioms Artemis.C15_reused_calculator_same_tables
#print axioms Artemis.C15_reused_calculator_returns_iff
#print axioms Artemis.C15_share_calculator_between_methods
#print axioms Artemis.C150_additive_partial
#print axioms Artemis.C150_additive_zero
#print axioms Artemis.C150_additive_below_one
#print axioms Artemis.C151_fails_iff_constant_feature
#print axioms Artemis.C152_rounded_nonneg_sorted
#print axioms Artemis.C153_nonneg_sorted
#print axioms Artemis.C153_both_ignored_zero
#print axioms Artemis.C154_pairs_close_to_exact
#print axioms Artemis.C154_importance_close_to_exact
#print axioms Artemis.C155_ignored_partial
#print axioms Artemis.C155_fails
#print axioms Artemis.C156_perfect_model
#print axioms Artemis.C157_correctly_rounded
#print axioms Artemis.C158_exact_ranking
#print axioms Artemis.C158_binary64
#print axioms Artemis.C159_interactions
#print axioms Artemis.C159_full_sorted
#print axioms Artemis.C159_ranking
#print axioms Artemis.C159_depth_ranking
#print axioms Artemis.C16_additivity_matching_calculator_taken
#print axioms Artemis.C16_matching_calculator_taken
#print axioms Artemis.C16_additivity_rejects_mismatched_calculator
#print axioms Artemis.C16_mismatched_calculator_rejected
#print axioms Artemis.C16_matching_calculator_accepted
#print axioms Artemis.C160_importance
#print axioms Artemis.C160_fit_completes
#print axioms Artemis.C160_binary64
#print axioms Artemis.C161_widths
#print axioms Artemis.C161_ascending
#print axioms Artemis.C162_sizes
#print axioms Artemis.C162_no_importance
#print axioms Artemis.C162_same_failures
#print axioms Artemis.C162_full_size_fails
#print axioms Artemis.C163_one_edge
#print axioms Artemis.C163_weakest
#print axioms Artemis.C163_split_score
#print axioms Artemis.C164_same_cells
#print axioms Artemis.C164_order
#print axioms Artemis.C164_exact_order_fails
#print axioms Artemis.C165_cmd_graph
#print axioms Artemis.C166_pdp
#print axioms Artemis.C166_sejong
#print axioms Artemis.C166_split_score
#print axioms Artemis.C166_cmd
#print axioms Artemis.C167_no_more_exceptions
#print axioms Artemis.C167_label_position
#print axioms Artemis.C167_title_and_box
#print axioms Artemis.C168_texts_partial
#print axioms Artemis.C168_one_text_per_edge_fails
#print axioms Artemis.C169_mirrored_partial
#print axioms Artemis.C169_diagonal_partial
#print axioms Artemis.C169_split_score_fails
#print axioms Artemis.C17_greenwell_zero_for_non_interacting_pair
#print axioms Artemis.C170_compare
#print axioms Artemis.C171_symmetries_of_the_task
#print axioms Artemis.C171_interchangeable_features
#print axioms Artemis.C172_importance_of_a_linear_term
#print axioms Artemis.C172_H_of_a_product_term
#print axioms Artemis.C172_ova_of_a_product_term
#print axioms Artemis.C172_greenwell_of_a_product_term
#print axioms Artemis.C173_class_path
#print axioms Artemis.C173_accepts_by_package
#print axioms Artemis.C173_last_model
#print axioms Artemis.C173_no_model
#print axioms Artemis.C173_failed_call_partial
#print axioms Artemis.C173_failed_call_fails
#print axioms Artemis.C174_normalized_H_of_a_product_term
#print axioms Artemis.C174_normalized_ova_of_a_product_term
#print axioms Artemis.C174_share_of_a_product_term
#print axioms Artemis.C174_additivity_index_of_a_product_term
#print axioms Artemis.C175_any_forest_is_explained
#print axioms Artemis.C175_no_names
#print axioms Artemis.C175_no_trees_partial
#print axioms Artemis.C175_returns_only_for_forests
#print axioms Artemis.C175_never_partly_explained
#print axioms Artemis.C175_refused_model_fails
#print axioms Artemis.C175_feature_subset_fails
#print axioms Artemis.C176_columns_no_tree_uses
#print axioms Artemis.C177_trees_without_splits
#print axioms Artemis.C18_greenwell_fails_iff_constant_feature
#print axioms Artemis.C19_greenwell_finite_nonneg_sorted
#print axioms Artemis.C20_pd_importance
#print axioms Artemis.C20_standalone_pd_importance
#print axioms Artemis.C21_index_at_most_one_iff_first_order
#print axioms Artemis.C22_additive_model_has_index_one
#print axioms Artemis.C22_fit_returns
#print axioms Artemis.C22_needs_free_column_name
#print axioms Artemis.C23_range_partial
#print axioms Artemis.C23_constant_predictions
#print axioms Artemis.C23_index_can_be_negative
#print axioms Artemis.C23_index_can_be_nan
#print axioms Artemis.C23_index_can_be_infinite
#print axioms Artemis.C23_unit_interval_partial
#print axioms Artemis.C24_mean_absolute_nonadditive_change
#print axioms Artemis.C25_joint_permutation
#print axioms Artemis.C26_both_ignored_partial
#print axioms Artemis.C26_one_ignored_partial
#print axioms Artemis.C26_fails
#print axioms Artemis.C27_ovo_reproducible_partial
#print axioms Artemis.C27_fails
#print axioms Artemis.C28_sampling_aligned_partial
#print axioms Artemis.C28_array_lookup_by_label
#print axioms Artemis.C28_series_lookup_by_label
#print axioms Artemis.C28_fails_silently
#print axioms Artemis.C28_fails_loudly
#print axioms Artemis.C29_corrupts_one_feature_at_a_time
#print axioms Artemis.C30_one_row_per_feature_sorted
#print axioms Artemis.C30_ignored_feature_has_zero_importance
#print axioms Artemis.C30_perfect_model_nonneg_importance
#print axioms Artemis.C31_pdp_fit_none_is_all_partial
#print axioms Artemis.C31_pd_importance_none_is_all_partial
#print axioms Artemis.C31_sejong_fit_none_is_all_partial
#print axioms Artemis.C31_permutation_importance_none_never_works
#print axioms Artemis.C31_split_score_none_is_all_partial
#print axioms Artemis.C32_mse_rmse_proper
#print axioms Artemis.C32_accuracy_proper
#print axioms Artemis.C32_rearrangement_invariant
#print axioms Artemis.C33_traversal
#print axioms Artemis.C34_interval_is_subtree
#print axioms Artemis.C34_selected_nodes
#print axioms Artemis.C35_conditional_minimal_depth
#print axioms Artemis.C35_value_unique
#print axioms Artemis.C36_table
#print axioms Artemis.C36_no_trees
#print axioms Artemis.C37_minimal_depth_importance
#print axioms Artemis.C38_compare_merges_directions_partial
#print axioms Artemis.C38_joined_names_can_collide
#print axioms Artemis.C39_unsupported_package
#print axioms Artemis.C39_unsupported_builtin
#print axioms Artemis.C39_lightgbm_cover_refused
#print axioms Artemis.C39_otherwise_accepted
#print axioms Artemis.C39_handler_instead_of_model
#print axioms Artemis.C40_node_statistics
#print axioms Artemis.C41_summary
#print axioms Artemis.C41_full_sorted
#print axioms Artemis.C42_ovo_order
#print axioms Artemis.C43_zero_gain_error
#print axioms Artemis.C43_outcomes
#print axioms Artemis.C43_fit_completes_partial
#print axioms Artemis.C43_positive_gains
#print axioms Artemis.C43_stumps_fail
#print axioms Artemis.C43_zero_gain_fails
#print axioms Artemis.C43_completes_iff
#print axioms Artemis.C44_importance_metrics
#print axioms Artemis.C44_fit_stores_importance
#print axioms Artemis.C44_root_frequencies_add_up
#print axioms Artemis.C45_most_important_first_partial
#print axioms Artemis.C45_depth_metrics_backwards
#print axioms Artemis.C45_fails
#print axioms Artemis.C46_comparator_unfitted
#print axioms Artemis.C46_comparator_fitted
#print axioms Artemis.C46_unfitted
#print axioms Artemis.C46_available_after_fit
#print axioms Artemis.C46_friedman_plot_partial
#print axioms Artemis.C46_friedman_plot_fails
#print axioms Artemis.C47_symmetric
#print axioms Artemis.C47_lookup
#print axioms Artemis.C47_pd_after_fit
#print axioms Artemis.C47_split_score_strongest
#print axioms Artemis.C47_sejong_after_fit
#print axioms Artemis.C47_cmd_mean_partial
#print axioms Artemis.C48_importance_of_last_success
#print axioms Artemis.C48_pd_tables_of_last_success
#print axioms Artemis.C48_pd_refit_like_new
#print axioms Artemis.C48_sejong_refit_like_new
#print axioms Artemis.C48_tree_refit_like_new
#print axioms Artemis.C48_ova_kept_from_earlier_fit
#print axioms Artemis.C48_ova_fails
#print axioms Artemis.C48_greenwell_fails
#print axioms Artemis.C48_cmd_fails
#print axioms Artemis.C48_split_score_fails
#print axioms Artemis.C49_symmetric
#print axioms Artemis.C49_range
#print axioms Artemis.C49_returns
#print axioms Artemis.C49_self
#print axioms Artemis.C49_number
#print axioms Artemis.C49_pearson_is_spearman_partial
#print axioms Artemis.C49_pearson_spearman_fails
#print axioms Artemis.C50_order_preserving_partial
#print axioms Artemis.C50_fails
#print axioms Artemis.C51_points
#print axioms Artemis.C51_same_pairs
#print axioms Artemis.C52_summary
#print axioms Artemis.C52_box_partial
#print axioms Artemis.C52_box_of_last_summary
#print axioms Artemis.C52_fails
#print axioms Artemis.C53_unknown_method
#print axioms Artemis.C53_rejects_exactly
#print axioms Artemis.C53_one_routine
#print axioms Artemis.C53_ready_after_fit
#print axioms Artemis.C54_two_directions_fails
#print axioms Artemis.C54_after_fit
#print axioms Artemis.C54_defaults
#print axioms Artemis.C54_widths_partial
#print axioms Artemis.C54_infinite_fails
#print axioms Artemis.C54_negative_threshold_fails
#print axioms Artemis.C55_bounds
#print axioms Artemis.C55_order_partial
#print axioms Artemis.C55_strongest_hidden
#print axioms Artemis.C55_zero_hidden
#print axioms Artemis.C55_fails
#print axioms Artemis.C55_after_fit_partial
#print axioms Artemis.C56_after_fit
#print axioms Artemis.C56_labels
#print axioms Artemis.C57_undirected
#print axioms Artemis.C57_directed
#print axioms Artemis.C57_after_fit
#print axioms Artemis.C57_cmd_after_fit
#print axioms Artemis.C58_permutes
#print axioms Artemis.C58_sorted_partial
#print axioms Artemis.C58_fails
#print axioms Artemis.C58_after_fit_partial
#print axioms Artemis.C59_drawable_partial
#print axioms Artemis.C59_unpaired_feature_fails
#print axioms Artemis.C59_unlisted_feature_fails
#print axioms Artemis.C59_pd_methods
#print axioms Artemis.C59_single_feature_fails
#print axioms Artemis.C59_sejong
#print axioms Artemis.C59_cmd_all_used
#print axioms Artemis.C59_cmd_unused_column_fails
#print axioms Artemis.C59_split_score
#print axioms Artemis.C59_split_score_lone_feature_fails
#print axioms Artemis.C59_cmd_fails
#print axioms Artemis.C59_split_score_fails
#print axioms Artemis.C60_path
#print axioms Artemis.C60_distinct_pairs
#print axioms Artemis.C60_among_strongest
#print axioms Artemis.C60_returns
#print axioms Artemis.C60_too_few
#print axioms Artemis.C60_after_fit
#print axioms Artemis.C61_positions
#print axioms Artemis.C61_no_empty_row
#print axioms Artemis.C62_pairs_values
#print axioms Artemis.C62_panels
#print axioms Artemis.C62_after_fit
#print axioms Artemis.C63_bounds
#print axioms Artemis.C63_covers_drawn
#print axioms Artemis.C63_nan_last
#print axioms Artemis.C63_nan_forgets
#print axioms Artemis.C63_greenwell_after_fit
#print axioms Artemis.C63_fails
#print axioms Artemis.C64_after_fit
#print axioms Artemis.C64_roots_partial
#print axioms Artemis.C64_all_hides_last
#print axioms Artemis.C64_single_tree_empty
#print axioms Artemis.C65_documented_prediction_function
#print axioms Artemis.C65_fit_depends_on_prediction_function_only_partial
#print axioms Artemis.C65_additivity_depends_on_prediction_function_only_partial
#print axioms Artemis.C65_supplied_fails
#print axioms Artemis.C66_H_is_textbook_formula
#print axioms Artemis.C67_standalone_importance_agrees_with_fit
#print axioms Artemis.C67_standalone_importance_returns_partial
#print axioms Artemis.C67_standalone_importance_returns_supplied
#print axioms Artemis.C67_standalone_importance_returns
#print axioms Artemis.C68_ova_is_textbook_formula
#print axioms Artemis.C69_greenwell_is_textbook_formula
#print axioms Artemis.C70_pd_importance_is_textbook_formula
#print axioms Artemis.C71_leaf_name_never_listed
#print axioms Artemis.C71_used_features_listed_partial
#print axioms Artemis.C71_fails
#print axioms Artemis.C72_one_iff_same_ranking_partial
#print axioms Artemis.C72_opposite_fails
#print axioms Artemis.C73_documented_accepted_partial
#print axioms Artemis.C73_fails
#print axioms Artemis.C74_summary_partial
#print axioms Artemis.C74_cmd_summary_graph
#print axioms Artemis.C74_cmd_summary_heatmap
#print axioms Artemis.C74_fails
#print axioms Artemis.C74_summary_panels
#print axioms Artemis.C75_title_partial
#print axioms Artemis.C75_fails
#print axioms Artemis.C76_after_fit
#print axioms Artemis.C76_split_score_after_fit
#print axioms Artemis.C76_strongest_partial
#print axioms Artemis.C76_ova
#print axioms Artemis.C76_cmd_fails
#print axioms Artemis.C77_agrees_partial
#print axioms Artemis.C77_fails
#print axioms Artemis.C77_after_fit
#print axioms Artemis.C78_after_fit_partial
#print axioms Artemis.C78_sizes_partial
#print axioms Artemis.C78_reversed
#print axioms Artemis.C79_options_partial
#print axioms Artemis.C79_bar_chart_ignored
#print axioms Artemis.C79_graph_options
#print axioms Artemis.C80_shared_axis
#print axioms Artemis.C81_labels_partial
#print axioms Artemis.C81_fails
#print axioms Artemis.C82_limits_partial
#print axioms Artemis.C82_fails
#print axioms Artemis.C83_pair
#print axioms Artemis.C83_single
#print axioms Artemis.C83_errors
#print axioms Artemis.C83_after_fit
#print axioms Artemis.C84_default_length
#print axioms Artemis.C84_before_fit
#print axioms Artemis.C85_failed_refit_partial
#print axioms Artemis.C85_fails
#print axioms Artemis.C86_after_fit
#print axioms Artemis.C86_conditional
#print axioms Artemis.C87_lollipop_labels
#print axioms Artemis.C88_row_order_and_repetition
#print axioms Artemis.C88_additivity
#print axioms Artemis.C89_other_features_do_not_matter
#print axioms Artemis.C89_additivity
#print axioms Artemis.C90_rescaled_predictions
#print axioms Artemis.C90_additivity
#print axioms Artemis.C91_names_and_codes_do_not_matter
#print axioms Artemis.C91_additivity
#print axioms Artemis.C92_order_of_trees_and_columns
#print axioms Artemis.C93_distance_to_nearest_split_partial
#print axioms Artemis.C93_last_node_counts
#print axioms Artemis.C94_mirrored_trees_partial
#print axioms Artemis.C94_mirrored_value_differs
#print axioms Artemis.C95_importance_for_any_numbering_partial
#print axioms Artemis.C95_same_importance
#print axioms Artemis.C95_best_first_forest_misread
#print axioms Artemis.C96_range_of_values
#print axioms Artemis.C96_range_of_importance
#print axioms Artemis.C97_same_boosted_forest
#print axioms Artemis.C97_same_importance
#print axioms Artemis.C98_gains_rescaled
#print axioms Artemis.C99_plot_always_raises
#print axioms Artemis.C99_plot_draws_partial
#print axioms Artemis.C99_failed_plot_leaves_empty_figure
