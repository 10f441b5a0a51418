{
 "C22": {
  "status": "proved",
  "note": "Hypothesis: no feature is literally called like the helper column the code adds; C22_needs_free_column_name shows that the hypothesis is needed. Row-wise prediction function (FitSetup or AddSetup) in the theorems about fit."
 },
 "C23": {
  "status": "partial",
  "note": "The documented range [0,1] is false for the code: C23_index_can_be_negative, C23_index_can_be_nan and C23_index_can_be_infinite are proved counterexamples. C23_constant_predictions says exactly what happens if all predictions on the data are equal (NaN or minus infinity). C23_range_partial proves the part that holds (never above 1; NaN only for a constant centred prediction). C23_unit_interval_partial: within [0,1] when every feature varies independently of the others. Row-wise prediction function (FitSetup or AddSetup) in the theorems about fit."
 },
 "C26": {
  "status": "partial",
  "note": "False for the code: the separate and the joint permutation of the other feature are drawn independently (C26_fails). Proved: 0 when both features are ignored, and the exact value when one is."
 },
 "C27": {
  "status": "partial",
  "note": "False for feature_importance: fit creates the importance object without random_state (C27_fails). Proved for ovo, the samples and the generator, over arbitrary sequences of fits."
 },
 "C28": {
  "status": "partial",
  "note": "False for an array of targets when row labels are not 0,1,2,...: C28_fails_silently (wrong targets), C28_fails_loudly (IndexError). Proved for positional labels and for a Series carrying the labels of X. What happens in general is proved exactly: C28_array_lookup_by_label, C28_series_lookup_by_label."
 },
 "C31": {
  "status": "partial",
  "note": "False for PermutationImportance.importance: features=None always raises (C31_permutation_importance_none_never_works). Proved for the two PD based fits, the stand-alone PD importance and Sejong Oh's fit. Also for the split score importance (C31_split_score_none_is_all_partial, no feature called 'Leaf')."
 },
 "C38": {
  "status": "partial",
  "note": "Proved for names whose joined sorted pairs are pairwise different; C38_joined_names_can_collide is a machine-checked counterexample (features a, ab, bc, c) showing the code does not satisfy the claim for all names."
 },
 "C40": {
  "status": "proved",
  "note": "For XGBoost and LightGBM tables of any forest; XGBoost needs parents listed before children, as XGBoost writes them. Features called 'Leaf' are excluded by the quantifier (C71)."
 },
 "C43": {
  "status": "partial",
  "note": "False for the code: a forest without a split below a root always raises KeyError (C43_stumps_fail), and otherwise a feature whose gains add up to 0 raises ZeroDivisionError (C43_zero_gain_fails, C43_zero_gain_error). Proved for all other forests; C43_completes_iff gives the exact condition and C43_outcomes every outcome."
 },
 "C45": {
  "status": "partial",
  "note": "False for mean_depth and mean_weighted_depth: the table is always sorted descending although smaller is declared more important (C45_depth_metrics_backwards, C45_fails). Proved for the other metrics."
 },
 "C71": {
  "status": "partial",
  "note": "False: a feature called 'Leaf' is never listed (C71_leaf_name_never_listed, witness C71_fails). Proved for all other names."
 },
 "C46": {
  "status": "partial",
  "note": "Proved: refused before the first fit (every method), and interaction_value and the comparator's check pass after a successful fit of any method; plots pass for all methods except the H-statistic. False for FriedmanHStatisticMethod.plot after fit(calculate_ova=False): it still raises MethodNotFittedException (C46_friedman_plot_fails)."
 },
 "C47": {
  "status": "proved",
  "note": "Symmetry for any table; value of the pair's row for the tables fit leaves behind (H-statistic, Greenwell, Sejong Oh, conditional minimal depth under non-colliding joined names, cf. C38); for split score with both directions present, the stronger one. IndexError for absent pairs (C47_lookup). Row-wise prediction function (FitSetup or AddSetup) in the theorems about fit."
 },
 "C48": {
  "status": "partial",
  "note": "False in four ways, each a machine-checked history: stale ova after calculate_ova=False (C48_ova_fails), a failing fit replaces ovo (C48_greenwell_fails, C48_cmd_fails), a refused split score fit flips the sort order of the kept table (C48_split_score_fails). Proved: feature_importance always, ovo of the PD methods for calls with known features, refits equal a fit on a new object."
 },
 "C49": {
  "status": "partial",
  "note": "Symmetry, range (a number in [-1,1] or NaN), 1 on itself and 'a number when no pair is repeated' are proved. Pearson = Spearman is proved for tables of the same length and false otherwise (C49_pearson_spearman_fails)."
 },
 "C50": {
  "status": "partial",
  "note": "False: the codes that are correlated are alphabetical positions (C50_fails, all three kinds). Proved for renamings that keep the alphabetical order of the joined pair names."
 },
 "C51": {
  "status": "proved",
  "note": "C51_points for any two methods; C51_same_pairs: two methods listing the same pairs can always be plotted and the points are exactly the pairs of values."
 },
 "C52": {
  "status": "partial",
  "note": "False: comparison_plot reuses the correlations of an earlier summary (C52_fails; C52_box_of_last_summary says exactly which). Proved for summary itself and for comparators never used for a summary of other methods."
 },
 "C72": {
  "status": "partial",
  "note": "'1 iff same order' is proved for all three kinds; '-1 for reversed order' is false (C72_opposite_fails)."
 },
 "C54": {
  "status": "partial",
  "note": "Proved for finite values and a threshold (or values) that is not negative. False for infinite values (C54_infinite_fails) and for negative values with a negative threshold (C54_negative_threshold_fails). False for split score, whose table has a row per direction while the graph is undirected: the graph shows the weaker row of a pair (C54_two_directions_fails). C54_after_fit composes it with fit of the H-statistic, Greenwell and Sejong Oh."
 },
 "C55": {
  "status": "partial",
  "note": "Bounds proved. The order claim is false: when nothing is removed by the threshold the strongest pair gets width 0 (C55_strongest_hidden, C55_fails), and so does a pair with value 0 (C55_zero_hidden). Proved when the threshold removes a pair and all values are positive. C55_after_fit_partial composes it with fit of conditional minimal depth."
 },
 "C78": {
  "status": "partial",
  "note": "Proved where a larger importance value means more important. False for conditional minimal depth (C78_reversed). C78_after_fit_partial composes it with fit of the H-statistic, Greenwell and Sejong Oh."
 },
 "C57": {
  "status": "proved",
  "note": "For tables with one row per (ordered) pair (C57_undirected, C57_directed); composed with fit of the H-statistic, Greenwell, Sejong Oh (C57_after_fit) and conditional minimal depth (C57_cmd_after_fit)."
 },
 "C58": {
  "status": "partial",
  "note": "C58_permutes holds without hypotheses on the matrix. Order by score is proved for features with different lower-case names (C58_sorted_partial) and false otherwise: order_heatmap writes the scores under the lower-case name (C58_fails). C58_after_fit_partial: the order after fit, in terms of interaction_value and the importance table."
 },
 "C64": {
  "status": "partial",
  "note": "False for max_trees = 1 (the last tree is never shown, C64_all_hides_last) and for a single tree (nothing is shown, C64_single_tree_empty). Proved: which roots and nodes are shown, for every fraction (C64_roots_partial). C64_after_fit states the same in terms of the splits of the trees of the model after fit."
 },
 "C73": {
  "status": "partial",
  "note": "False for split score: documented as 'lolliplot', accepted as 'lollipop' (C73_fails). Proved for the other methods."
 },
 "C74": {
  "status": "partial",
  "note": "Proved for methods where larger is stronger. False for conditional minimal depth: the summary passes no direction to its graph and heatmap (C74_fails, C74_cmd_summary_graph, C74_cmd_summary_heatmap)."
 },
 "C75": {
  "status": "partial",
  "note": "False for the one-vs-all bar chart, which ignores the title (C75_fails). Proved for all other plots."
 },
 "C76": {
  "status": "partial",
  "note": "Proved for tables sorted by strength, as the PD based methods and Sejong Oh have after fit. False for conditional minimal depth, sorted by number of occurrences first (C76_cmd_fails). C76_after_fit and C76_split_score_after_fit compose it with fit."
 },
 "C77": {
  "status": "partial",
  "note": "Proved for methods listing each pair once. False for split score: interaction_value returns the first row of a pair, the heatmap shows both directions (C77_fails). C77_after_fit composes it with fit of the H-statistic, Greenwell and Sejong Oh."
 },
 "C79": {
  "status": "partial",
  "note": "False for 'bar_chart': the summary looks for its options under another name (C79_bar_chart_ignored). Proved for the graph of every method (C79_graph_options) and for the one-vs-all chart (C79_options_partial)."
 },
 "C59": {
  "status": "partial",
  "note": "Proved after fit for the H-statistic (with ova), Greenwell and Sejong Oh with at least two features, for conditional minimal depth if every column is used, for split score if every feature takes part in an interaction. False otherwise: C59_single_feature_fails, C59_cmd_unused_column_fails (heatmap raises IndexError), C59_split_score_lone_feature_fails (graph raises NetworkXError). Drawing itself is not modelled. Row-wise prediction function (FitSetup or AddSetup) in the theorems about fit."
 },
 "C60": {
  "status": "proved",
  "note": "Any table (C60_path, C60_distinct_pairs, C60_among_strongest), returns exactly if there are more pairs than panels (C60_returns, C60_too_few), and after fit of both methods (C60_after_fit). Row-wise prediction function (FitSetup or AddSetup) in the theorems about fit."
 },
 "C62": {
  "status": "proved",
  "note": "Stored values in either orientation; after fit they are the brute-force partial dependence (C62_after_fit). Row-wise prediction function (FitSetup or AddSetup) in the theorems about fit."
 },
 "C63": {
  "status": "proved",
  "note": "As stated (all values numbers): C63_bounds, C63_covers_drawn; the premise holds after every Greenwell fit on a finite model (C63_greenwell_after_fit). Beyond the claim: after a fit of the H-statistic combinations not observed together are NaN and the limits become NaN or forget earlier pairs (C63_nan_last, C63_nan_forgets, C63_fails). Row-wise prediction function (FitSetup or AddSetup) in the theorems about fit."
 },
 "C81": {
  "status": "partial",
  "note": "False for the last panel if an unused candidate continues the path (C81_fails). Proved for all other panels."
 },
 "C82": {
  "status": "partial",
  "note": "False: the range of all candidates, widened to contain 1 from above and 0 from below (C82_fails). Proved: C82_limits_partial."
 },
 "C85": {
  "status": "partial",
  "note": "False if the model raises: the calculator is already replaced, the table is not (C85_fails). Proved for failures before that."
 },
 "C88": {
  "status": "proved",
  "note": "Over an ordered field with exact square root, i.e. without float rounding. Data agree up to order and repetition in equal proportion (Spec.Proportional); both fits return, with distinct features and the same numerical features. C88_additivity needs that no column is called centered_prediction. Row-wise prediction function (FitSetup or AddSetup) in the theorems about fit."
 },
 "C89": {
  "status": "proved",
  "note": "Over an ordered field with exact square root. Holds for all pairs and features requested in both fits; importance even across the two methods. Row-wise prediction function (FitSetup or AddSetup) in the theorems about fit."
 },
 "C90": {
  "status": "proved",
  "note": "Over an ordered field with exact square root; c different from 0. Row-wise prediction function (FitSetup or AddSetup) in the theorems about fit."
 },
 "C91": {
  "status": "proved",
  "note": "Over an ordered field with exact square root. The renaming is a bijection of the names, the recoding injective per feature; features must keep counting as numerical or not. Row-wise prediction function (FitSetup or AddSetup) in the theorems about fit."
 },
 "C92": {
  "status": "proved",
  "note": "Both forests numbered depth-first (scikit-learn default), at least one tree and one column; both sorting functions sort."
 },
 "C93": {
  "status": "partial",
  "note": "Equality if every shallowest split on the first feature has a split on the second below it, in all trees that use both; otherwise the value is at most the mean distance. The code disagrees: if one of several shallowest splits has none below it, the depth of the last node of its subtree takes part in the minimum (C93_last_node_counts)."
 },
 "C94": {
  "status": "partial",
  "note": "Outcome, n_occurences and importance are invariant, and the value of pairs as in C93. The code disagrees for the other values: the fall-back is the depth of the rightmost leaf (C94_mirrored_value_differs)."
 },
 "C95": {
  "status": "partial",
  "note": "Importance and termination for any numbering. The code disagrees for pairs: a subtree is taken to be a range of consecutive IDs (C95_best_first_forest_misread)."
 },
 "C96": {
  "status": "proved",
  "note": "Values of pairs for depth-first numbering, importance for any numbering."
 },
 "C97": {
  "status": "proved",
  "note": "Over an ordered field, i.e. without float rounding. No feature called Leaf; the metrics are available for both libraries (covers: both XGBoost). C97_same_importance for the importance object called with a list of features, gains of no used feature adding up to 0."
 },
 "C98": {
  "status": "proved",
  "note": "Over an ordered field; no feature called Leaf."
 },
 "C99": {
  "status": "partial",
  "note": "The code passes the keyword _ax, which from_estimator of scikit-learn 1.2.0 does not have: C99_plot_always_raises. The signature was written down from knowledge of the library; scikit-learn is not installed here. Partial: for a signature that does accept _ax."
 },
 "C100": {
  "status": "partial",
  "note": "Disagreement: with a supplied calculator the prediction function is ignored for pairs and features (C100_ignored_next_to_calculator for all inputs, C100_fails a witness); only model identity and data are compared. Partial: calculator built with the same function. Row-wise prediction function (FitSetup or AddSetup) in the theorems about fit."
 },
 "C101": {
  "status": "proved",
  "note": "Generators are assumed to draw k different positions (Rng.Lawful)."
 },
 "C102": {
  "status": "partial",
  "note": "Disagreement: with n given the refit draws another sample and raises ValueError (C102_fails_with_sampling). Partial: without n. Row-wise prediction function (FitSetup or AddSetup) in the theorems about fit."
 },
 "C103": {
  "status": "proved",
  "note": "The theorems ending in _any_model hold for every model, row-wise or not; supplied calculators went through public calls only. For row-wise prediction functions the older theorems add the batch size of the calculator and the values of preds. features, pairs and the data are those of the arguments after sampling."
 },
 "C104": {
  "status": "partial",
  "note": "Disagreement: for features related in the data the value can exceed 1 (16/9, C104_fails) or be infinite (C104_fails_infinite). Partial: features varying independently of the others (Spec.Independent); for one-vs-all only the feature itself. Row-wise prediction function (FitSetup or AddSetup) in the theorems about fit."
 },
 "C105": {
  "status": "partial",
  "note": "Disagreement for features related in the data (C105_fails). Partial: all features vary independently. Row-wise prediction function (FitSetup or AddSetup) in the theorems about fit."
 },
 "C106": {
  "status": "proved",
  "note": "Exact arithmetic in an ordered field with square root. Row-wise prediction function (FitSetup or AddSetup) in the theorems about fit."
 },
 "C107": {
  "status": "partial",
  "note": "Exact arithmetic. With accuracy any predictions, also NaN and infinite ones, are covered (C107_accuracy_any_predictions_partial: permutation importance). With MSE and RMSE, and for the values of Sejong Oh, scores are assumed to be finite numbers (Spec.Scores). Missing: MSE and RMSE scores that are not finite, models whose answers change between calls, zero repetitions."
 },
 "C108": {
  "status": "partial",
  "note": "Counted on the ghost list of frames the model was asked to score. Proved for models and metrics whose scores are finite numbers that depend on the rows only (Spec.Scores) and at least one repetition. Missing: scores that are not finite, calls that end with an exception, zero repetitions. The theorems keep names without the suffix _partial because many modules use them."
 },
 "C109": {
  "status": "partial",
  "note": "For pairs with all_combinations=False the claim holds only if no two rows agree in both features: otherwise a value pair that occurs in several rows is queued once per row until the batch is flushed (C109_pairs_fails). C109_at_most covers all cases."
 },
 "C110": {
  "status": "partial",
  "note": "The single-feature part covers all columns of the data, not only the chosen features (C110_features_fails). Exact counts: Greenwell always, H-statistic when no two rows agree in both features of a pair; otherwise the bound C110_friedman_at_most. The one direct call of predict_function on the data in the one-vs-all step is outside the calculator and not counted. Row-wise prediction function (FitSetup or AddSetup) in the theorems about fit."
 },
 "C111": {
  "status": "proved",
  "note": "Generators are arbitrary state transformers."
 },
 "C112": {
  "status": "proved",
  "note": "Over an ordered field with exact square root; floating point rounding is out of scope. Row-wise prediction function (FitSetup or AddSetup) in the theorems about fit."
 },
 "C113": {
  "status": "partial",
  "note": "True when the first fit sampled or the frame was not changed. Without sampling the calculator holds the frame of the caller: after a change the check compares the frame with itself, is passed, and the tables of the old data are reported (proved for every change that keeps the columns, with a computed witness). C113_importance_reports_old_data: the same for the stand-alone importance after a fit of either method. Row-wise prediction function (FitSetup or AddSetup) in the theorems about fit."
 },
 "C114": {
  "status": "partial",
  "note": "Proved for the unnormalized H-statistic (pairs and one versus all). False for the normalized H-statistic (computed witness) and for Greenwell (witness over the reals): both proved."
 },
 "C115": {
  "status": "partial",
  "note": "Proved for the unnormalized H-statistic (pairs and one versus all) and for the partial dependence importance of both methods. False for the normalized H-statistic and for Greenwell interactions: witnesses proved."
 },
 "C116": {
  "status": "partial",
  "note": "Holds for Greenwell (ValueError with two features or more), the additivity meter and Sejong Oh (NaN). False for the H-statistic: with numerical features it returns and reports 0 everywhere, without a single model call when one-versus-all is off (proved in general, with a witness). Row-wise prediction function (FitSetup or AddSetup) in the theorems about fit."
 },
 "C117": {
  "status": "partial",
  "note": "Holds for the additivity meter (NaN), and for the Sejong Oh method, interactions and importances, with MSE and RMSE (C117_sejong_predictions_partial; permutation importance called on its own: C117_permutation_importance_partial; NaN throughout if the score of the data itself is not finite, C117_sejong_shows_undefined_partial). False with accuracy, where an undefined prediction counts as a wrong answer (C117_accuracy_hides_undefined), and for the H-statistic and the partial dependence importance of numerical features: one non-finite prediction makes the value NaN and fillna(0) turns it into 0 (proved in general, with a witness). Greenwell is left out: statistics.stdev of non-finite data depends on the Python version. Row-wise prediction function (FitSetup or AddSetup) in the theorems about fit."
 },
 "C118": {
  "status": "proved",
  "note": "Any prediction function (no row-wise or no-exception assumption). C118_fit, C118_importance, C118_additivity: calls that build their own calculator; the theorems ending in _supplied: calculators of any history, refused or used. There the rows mix values of the drawn data in the columns of the data, since DataFrame.equals compares nothing else."
 },
 "C119": {
  "status": "partial",
  "note": "Any two prediction functions. Methods: fits that build their own calculator. C119_needs_mixtures shows that agreement on the data rows is not enough. False for method calls with a supplied calculator: another model object is refused (C119_supplied_calculator_refused, C119_supplied_fails)."
 },
 "C120": {
  "status": "partial",
  "note": "Model/Missing repeats the code that compares feature values with a comparison that is false for missing values. Numeric columns: NumPy sorts NaN last and keeps one of them; object columns mixing strings and NaN (TypeError in np.unique) are not covered. C120_unrequested_column_matters: also a column that was not requested makes the call fail. Missing: object columns mixing strings and NaN, where the class of the exception is not IndexError."
 },
 "C121": {
  "status": "partial",
  "note": "Answers asks the model for as many predictions as rows for every frame of the size of the drawn data; C121_metrics_answer shows that the three metrics of the package qualify. The draw itself (C28) is assumed to have succeeded. Missing from the quantifier over samples: draws that raise (more rows than the data have, labels that do not fit)."
 },
 "C122": {
  "status": "partial",
  "note": "The sentence on successful fits is proved (C122_results_belong_together_partial). The one on failing fits is false: C122_fails shows the index and predictions of the first data beside a copy of the second data. C122_failed_fit says exactly what is left behind. Missing: consistency after an exception, which the code does not provide. Row-wise prediction function (FitSetup or AddSetup) in the theorems about fit."
 },
 "C123": {
  "status": "partial",
  "note": "One theorem per method, for two arbitrary label types and any model. C123_needs_fitting_labels shows that the condition on the targets of Sejong Oh's method cannot be dropped (the mismatch itself is C28). Calls with a supplied calculator are left out: its labels take part in DataFrame.equals. False with a supplied calculator: other labels are refused (C123_supplied_calculator_refused, C123_supplied_fails)."
 },
 "C124": {
  "status": "proved",
  "note": "C124_accepted_* show that the model for arbitrary names agrees with the model used for all other properties when the names are accepted; C124_fit_raises, C124_no_pairs, C124_importance, C124_additivity and C124_calculator the rest, C124_only_type_error that nothing else changes. C124_unrequested_column_matters is a concrete run."
 },
 "C125": {
  "status": "partial",
  "note": "Holds for limits >= 0 (C125_limit_partial, all bar charts and the graph). A negative limit -m drops the last m rows instead (C125_negative): C125_fails shows a chart with two bars for top_k = -1."
 },
 "C126": {
  "status": "proved",
  "note": "C126_results_stay: any series of plots on a memory of mutable tables leaves every existing table as it was. C126_same_picture: the plot on memory is the plot of Model/Method on the contents of the tables. C126_any_series: both for series of plots."
 },
 "C127": {
  "status": "partial",
  "note": "C127_strings_partial: with string names the extended model agrees with the one used elsewhere. C127_graph_any_names: the graph and the bar chart of one-versus-all values work for all names. C127_bar_chart_raises, C127_heatmap_raises, C127_correlation_raises: other plots and correlations raise. C127_sejong_fails: a fit of the Sejong Oh method on data with a name that is not a string succeeds, but its default plot, summary and bar chart cannot be drawn."
 },
 "C128": {
  "status": "partial",
  "note": "Holds for the additivity meter (C128_additivity_raises_partial, C128_additivity_value_error), and for the Sejong Oh method and permutation importance with the metrics of the library if neither predictions nor targets have length one (C128_sejong_raises_partial, C128_permutation_raises_partial). A single prediction is broadcast: a model returning always one prediction gets 0 for all pairs (C128_single_prediction), one returning the last prediction gets a number (C128_sejong_fails). False for the methods based on partial dependence: slices of a batch are averaged whatever its length; C128_fails shows an H-statistic of 189/208 for an additive model."
 },
 "C129": {
  "status": "partial",
  "note": "Holds for the H-statistic and Greenwell methods whatever the model does (C129_pd_fit_partial; C129_pd_leaves_table_partial: earlier tables stay when two or more features were requested; C129_pd_key_error_partial: the error is a KeyError when predictions are row-wise and do not raise), for unknown names in the PD based importance (C129_importance_unknown_partial) and, with at least one repetition, in the Sejong Oh method (C129_sejong_unknown_partial). Permutation importance lists a repeated name once (C129_permutation_listed_once). False otherwise: Sejong Oh reports a feature with itself (C129_sejong_repeated_listed, C129_sejong_fails), PD based importance repeats rows (C129_importance_repeated_fails), split score importance ignores unknown names (C129_split_score_ignores). The calculator itself, after any calls, returns for known names and raises a KeyError otherwise (C129_calculator_partial)."
 },
 "C04": {
  "status": "proved",
  "note": "For valid calls and a prediction function that never raises. After a call that raised, what is stored does depend on the batch size (C04_failed_request_depends_on_batchsize)."
 },
 "C130": {
  "status": "partial",
  "note": "Proved for the separate heatmap of all five methods and for the summaries of H-statistic, Greenwell and Sejong Oh. False for the diagonal in the summary of conditional minimal depth (C130_summary_fails for all tables, C130_fails after a concrete fit) and of split score with a depth metric for importance: the summary does not pass the direction on (C130_summary_partial says what it does)."
 },
 "C131": {
  "status": "proved",
  "note": "Frame objects in memory, column assignments in place (Model/DataHeap); the code on objects is a refinement of Model/Perf and Model/AdditivitySteps in which memory only grows. C131_handed_over shows that without n a model that changes its input changes the caller's frame. The PD-based methods contain no assignment to a frame and are not in this model."
 },
 "C132": {
  "status": "partial",
  "note": "Holds for writes into arrays that lookups with values returned (C132_own_arrays_partial, C132_lookups_with_values_partial) and for snapshots and views. It fails for arrays returned without values, which are the calculator's own (C132_fails): a number other than NaN written into a finished array is what every later lookup returns, whatever is calculated (C132_written_numbers_stay), whereas NaN only makes the next calculation fill the entry in again (C132_nan_is_harmless). C132_one_write: what one write changes, and IndexError outside."
 },
 "C133": {
  "status": "partial",
  "note": "Holds for the Greenwell method and the H-statistic without one-vs-all whatever the prediction function does, and for the H-statistic with one-vs-all if the prediction function changes nothing (C133_untouched_partial, C133_same_results_partial); with any prediction function only the caller's frame can change, and with n not even that one (C133_any_prediction_function). It fails for the one-vs-all part with a prediction function that modifies its argument (C133_fails): the caller's data are changed and the one-vs-all table is that of the changed data."
 },
 "C134": {
  "status": "partial",
  "note": "Proved with the stated constants for partial dependence values, unnormalized H (pairs and one-vs-all), importances, Greenwell, and with RMSE for permutation importance and Sejong Oh. No constant works for the normalized H-statistic (C134_fails_normalized: models within any eps > 0 of each other show 0 and 1) or the additivity index (C134_fails_additivity: 1 and -3/2)."
 },
 "C135": {
  "status": "proved",
  "note": "For the partial dependence methods the two (possibly sampled) data sets are compared; C135_sampling shows that drawing with the same generator keeps them alike. For Sejong Oh the sampling is part of the statement. Row-wise prediction function (FitSetup or AddSetup) in the theorems about fit."
 },
 "C136": {
  "status": "proved",
  "note": "Over an ordered field, i.e. without float rounding. Both shorter models have a split below a root (else their fit raises, C43). Importance: positive gains, no feature called Leaf. weighted_root_frequency divides by the gains of all roots and does not add up."
 },
 "C137": {
  "status": "proved",
  "note": "Over an ordered field, i.e. without float rounding. Both shorter forests have a tree (pairs) and a split (importance), else their fit raises (C36, C37)."
 },
 "C138": {
  "status": "proved",
  "note": "Over an ordered field with exact square root; the additivity part for predictions that are not constant on the data (else the index is NaN or -inf, C23). Row-wise prediction function (FitSetup or AddSetup) in the theorems about fit."
 },
 "C139": {
  "status": "proved",
  "note": "Over an ordered field, i.e. without float rounding; no feature called Leaf (C71) and a split below a root (C43)."
 },
 "C140": {
  "status": "proved",
  "note": "Over an ordered field with square roots (e.g. the reals), i.e. without float rounding. Row-wise prediction function (FitSetup or AddSetup) in the theorems about fit."
 },
 "C141": {
  "status": "proved",
  "note": "Scale part over an ordered field with square roots (e.g. the reals), i.e. without float rounding."
 },
 "C142": {
  "status": "proved",
  "note": "Any lawful arithmetic; binary64 is shown lawful (binary64_lawful). Signed zeros are not modelled."
 },
 "C143": {
  "status": "proved",
  "note": "binary64 (round to nearest even, overflow, gradual underflow) is shown to meet the hypotheses (C143_binary64)."
 },
 "C144": {
  "status": "partial",
  "note": "Fails for the normalized statistic: a constant prediction 0.9 on seven rows shows strength 1 in binary64 (C144_normalized_one). Proved: unnormalized strengths, and normalized ones where the joint partial dependence varies."
 },
 "C145": {
  "status": "proved",
  "note": "binary64 with the correctly rounded standard deviation meets the hypotheses (C145_exactStd_suits, C143_binary64)."
 },
 "C146": {
  "status": "proved",
  "note": "Stated for fits that return (a constant feature raises StatisticsError, C18)."
 },
 "C147": {
  "status": "partial",
  "note": "Exactly 0 for categorical features; for numerical ones only up to 53 rows*u*M: a constant model predicting 0.9 on seven rows shows importance 2^-53 (C147_numerical_not_zero)."
 },
 "C148": {
  "status": "proved",
  "note": "C148_binary64 has no hypotheses; the general theorem asks that numbers up to 1 do not round above 1."
 },
 "C149": {
  "status": "proved",
  "note": "The column name \"centered_prediction\" must be free, as in C22; binary64 meets the hypotheses (C143_binary64)."
 },
 "C150": {
  "status": "partial",
  "note": "Proved with an explicit bound when the predictions vary by more than 53 e. False for models that hardly vary: a constant model predicting 0.9 on seven rows gets index 0 (C150_additive_zero), an additive one with steps of 2^-53 gets 0.857 (C150_additive_below_one)."
 },
 "C151": {
  "status": "proved",
  "note": "C18 in rounded arithmetic, and for arbitrary predictions. statistics.stdev is total in the model; some Python versions raise on non-finite numbers (DESIGN section 5)."
 },
 "C152": {
  "status": "proved",
  "note": "exactStd_nonneg: the correctly rounded standard deviation meets the hypothesis."
 },
 "C153": {
  "status": "proved",
  "note": "C24 and C26 in rounded arithmetic and for non-finite scores."
 },
 "C154": {
  "status": "proved",
  "note": "The bound refers to the scores as computed; C143_binary64 gives the constants for binary64."
 },
 "C155": {
  "status": "partial",
  "note": "C155_fails: a classifier with accuracy 0.8: importance -2^-53 with three repetitions, 2^-53 with seven. Proved: at most 11*n*u*|score|, and exactly 0 for one repetition or score 0."
 },
 "C156": {
  "status": "proved",
  "note": "C30 in rounded arithmetic; binary64_whole shows that binary64 meets the hypothesis for N = 2^53 - 1."
 },
 "C157": {
  "status": "proved",
  "note": "C36 and C37 in rounded arithmetic. kahan_addsWhole shows that the compensated summation of pandas meets the hypothesis; binary64_whole gives N = 2^53 - 1."
 },
 "C158": {
  "status": "proved",
  "note": "Two different means of at most T whole numbers differ by at least 1/T^2."
 },
 "C159": {
  "status": "proved",
  "note": "C41 and C42 in rounded arithmetic. kahan_addsNear and kahan_addsWhole show that the compensated summation of pandas meets the hypotheses; binary64_splitSuits gives the instance."
 },
 "C160": {
  "status": "proved",
  "note": "C43 and C44 in rounded arithmetic; the order of the two depth metrics is as in C45."
 },
 "C161": {
  "status": "proved",
  "note": "C54 and C55 in rounded arithmetic; binary64_ordered gives the instance, round64_idem says that every computed float meets the hypothesis on the table."
 },
 "C162": {
  "status": "proved",
  "note": "C78 in rounded arithmetic; C162_full_size_fails is the witness that the full size is not met exactly."
 },
 "C163": {
  "status": "proved",
  "note": "Induction over the order in which edges are added: the stored key is one of the two orders and the other one is never present. C54_two_directions_fails is the consequence for C54: widths of such tables do not reflect the strongest interaction."
 },
 "C164": {
  "status": "proved",
  "note": "C58 in rounded arithmetic; C164_exact_order_fails is the witness that the error term is needed. Features whose names differ only in case are excluded as in C58 (C58_fails)."
 },
 "C165": {
  "status": "proved",
  "note": "End to end: C157/C158 (fit in binary64) composed with C161 (graph in binary64); that quotients of depths do not underflow is proved from the size bound, not assumed. A pair of mean depth 0 (direct child in every tree) is excluded: 1/0 is handled by C57 and C161_widths only."
 },
 "C166": {
  "status": "proved",
  "note": "For each of the five kinds of first method; sort_values may order ties arbitrarily."
 },
 "C167": {
  "status": "proved",
  "note": "Exact real arithmetic (cos, sin, pi as real functions); y positions only through the circle. For a first method where smaller is stronger the x axis is inverted (C51), so a smaller x coordinate is further right on the screen."
 },
 "C168": {
  "status": "partial",
  "note": "Fails for split score in one point: its table has a row per direction, and both rows of a pair can be labelled on the one edge between the two features (C168_one_text_per_edge_fails). Everything else, and one text per edge for tables that list a pair once, is proved."
 },
 "C169": {
  "status": "partial",
  "note": "Proved for H-statistic, Greenwell, Sejong Oh and conditional minimal depth (names whose joined pairs do not collide), in any combination. Fails for split score (C169_split_score_fails): its table has one row per direction, so a pair is drawn twice, once off the diagonal."
 },
 "C170": {
  "status": "proved",
  "note": "Columns whose joined pairs collide are the disagreement of C38."
 },
 "C171": {
  "status": "proved",
  "note": "In exact arithmetic; rounded values of two interchangeable features may differ by the errors bounded in the rounding properties."
 },
 "C172": {
  "status": "proved",
  "note": "In exact arithmetic. Without the condition on directions Greenwell's value of a product can be 0 (C114_fails_greenwell)."
 },
 "C173": {
  "status": "partial",
  "note": "The last sentence fails: the package name is stored before the model is checked and before its trees are read, so after a failed call with a model of another package the handler has the old trees under the new package name and refuses metrics it allowed before (C173_failed_call_fails). It is proved for unreadable types and models of the same package; the trees always stay. All else is proved."
 },
 "C174": {
  "status": "proved",
  "note": "In exact arithmetic. The factor 4 c^2 in the index comes from the code centring partial dependences by the mean prediction instead of their own mean. Row-wise prediction function (FitSetup or AddSetup) in the theorems about fit."
 },
 "C175": {
  "status": "partial",
  "note": "Two clauses fail. (1) features_included and pairs are overwritten before the estimators are read, so after a refused model with feature names the object names its columns next to the earlier tables (C175_refused_model_fails). Proved: AttributeError, all result tables kept, and the object untouched if the names are missing. (2) Trees that see only some columns (bagging with max_features) store positions among those, which are read as positions among all columns (C175_feature_subset_fails); proved for trees storing columns of the model. All else is proved."
 },
 "C176": {
  "status": "proved",
  "note": ""
 },
 "C177": {
  "status": "proved",
  "note": ""
 },
 "C56": {
  "status": "proved",
  "note": "C56_after_fit composes it with fit of the H-statistic, Greenwell and Sejong Oh."
 },
 "C65": {
  "status": "partial",
  "note": "The choice of the function is proved in full. That fit uses it is proved for calls that build their own calculator (_partial) and is false with a supplied one: only the model object is compared, and the function of the calculator is used (C65_supplied_fails)."
 },
 "C67": {
  "status": "proved",
  "note": "C67_standalone_importance_returns covers own and supplied calculators; C67_standalone_importance_returns_supplied also says that a calculator of another model object or other data is refused (C16). The _partial theorem is the case of an own calculator. Row-wise prediction function (FitSetup or AddSetup) in the theorems about fit."
 },
 "C14": {
  "status": "partial",
  "note": "Proved for finite row-wise predictions. Missing: predictions that are not finite. The theorems keep names without the suffix _partial because many modules use them."
 },
 "C24": {
  "status": "partial",
  "note": "Proved for models and metrics whose scores are finite numbers that depend on the rows only (Spec.Scores) and at least one repetition. Missing: the formula for scores that are not finite (C153 gives sign and order for them). The theorems keep names without the suffix _partial because many modules use them."
 },
 "C25": {
  "status": "partial",
  "note": "Proved for models and metrics whose scores are finite numbers that depend on the rows only (Spec.Scores) and at least one repetition. Missing: the frames scored when a score is not finite or the call ends with an exception (C118 covers the values of the rows). The theorems keep names without the suffix _partial because many modules use them."
 },
 "C29": {
  "status": "partial",
  "note": "Proved for models and metrics whose scores are finite numbers that depend on the rows only (Spec.Scores) and at least one repetition. Missing: the frames scored when a score is not finite or the call ends with an exception (C118 covers the values of the rows). The theorems keep names without the suffix _partial because many modules use them."
 },
 "C30": {
  "status": "partial",
  "note": "Proved for models and metrics whose scores are finite numbers that depend on the rows only (Spec.Scores) and at least one repetition. Missing: scores that are not finite (C156 treats rounded arithmetic). The theorems keep names without the suffix _partial because many modules use them."
 },
 "C16": {
  "status": "proved",
  "note": "Rejection is proved without assumptions on model or calculator. Acceptance is proved for every model, also one that raises in the middle of fit, and every calculator with a history of public calls (C16_matching_calculator_taken, C16_additivity_matching_calculator_taken): accepted means that the calculator becomes that of the object, not that fit returns. C16_matching_calculator_accepted adds that the call returns, for row-wise prediction functions that never fail and non-empty data. Sampling must succeed in all of them."
 },
 "C10": {
  "status": "proved",
  "note": "Row-wise prediction function (FitSetup or AddSetup) in the theorems about fit."
 },
 "C11": {
  "status": "proved",
  "note": "Row-wise prediction function (FitSetup or AddSetup) in the theorems about fit."
 },
 "C12": {
  "status": "proved",
  "note": "Row-wise prediction function (FitSetup or AddSetup) in the theorems about fit."
 },
 "C13": {
  "status": "proved",
  "note": "Row-wise prediction function (FitSetup or AddSetup) in the theorems about fit."
 },
 "C15": {
  "status": "proved",
  "note": "Row-wise prediction function (FitSetup or AddSetup) in the theorems about fit."
 },
 "C17": {
  "status": "proved",
  "note": "Row-wise prediction function (FitSetup or AddSetup) in the theorems about fit."
 },
 "C18": {
  "status": "proved",
  "note": "Row-wise prediction function (FitSetup or AddSetup) in the theorems about fit."
 },
 "C19": {
  "status": "proved",
  "note": "Row-wise prediction function (FitSetup or AddSetup) in the theorems about fit."
 },
 "C20": {
  "status": "proved",
  "note": "Row-wise prediction function (FitSetup or AddSetup) in the theorems about fit."
 },
 "C21": {
  "status": "proved",
  "note": "Row-wise prediction function (FitSetup or AddSetup) in the theorems about fit."
 },
 "C66": {
  "status": "proved",
  "note": "Row-wise prediction function (FitSetup or AddSetup) in the theorems about fit."
 },
 "C83": {
  "status": "proved",
  "note": "Row-wise prediction function (FitSetup or AddSetup) in the theorems about fit."
 },
 "C84": {
  "status": "proved",
  "note": "Row-wise prediction function (FitSetup or AddSetup) in the theorems about fit."
 }
}