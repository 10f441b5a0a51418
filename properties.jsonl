{"id": "C01", "title": "Single-feature partial dependence is the brute-force average", "statement": "After PartialDependenceCalculator.calculate_pd_single(features) returns, for every requested feature f and every value v occurring in X[f], get_pd_single(f,[v]) is the mean prediction over X with column f set to v (the definition in ops.partial_dependence_value), provided the prediction function scores each row independently.", "quantifier": "every dataset, row-wise model, feature list (any order, repetitions), batch size, and prior sequence of calculator calls", "why_tests_cant": "The result depends on how requests are packed into batches, on range bookkeeping across features and on what earlier calls left in the cache; tests only sample a couple of shapes and only check for absence of NaN.", "anchors": ["artemis/_utilities/pd_calculator.py:calculate_pd_single", "artemis/_utilities/pd_calculator.py:fill_pd_single", "artemis/_utilities/pd_calculator.py:get_pd_single", "artemis/_utilities/ops.py:partial_dependence_value"]}
{"id": "C02", "title": "Pairwise partial dependence is the brute-force average", "statement": "After calculate_pd_pairs(pairs, all_combinations) returns, for every requested pair (f,g) given in either order, get_pd_pairs(f,g,[(v,w)]) is the mean prediction over X with f set to v and g set to w: for every v in X[f], w in X[g] when all_combinations=True, and for every (v,w) observed together in a row of X when it is False.", "quantifier": "every dataset, row-wise model, list of pairs in any orientation, batch size, all_combinations flag, and prior call history", "why_tests_cant": "Duplicate value pairs overwrite pending ranges inside a batch and flushes happen mid-pair; only an argument about all packings settles it.", "anchors": ["artemis/_utilities/pd_calculator.py:calculate_pd_pairs", "artemis/_utilities/pd_calculator.py:fill_pd_pairs", "artemis/_utilities/pd_calculator.py:get_pd_pairs", "artemis/_utilities/pd_calculator.py:_get_pair_key"]}
{"id": "C03", "title": "One-versus-rest partial dependence is the brute-force average", "statement": "After calculate_pd_minus_single(features) returns, entry i of get_pd_minus_single(f) is the mean, over rows j of X, of the prediction for row i with only its f replaced by row j's f.", "quantifier": "every dataset, row-wise model, feature list, batch size and prior history", "why_tests_cant": "Same batching argument, over all sizes.", "anchors": ["artemis/_utilities/pd_calculator.py:calculate_pd_minus_single", "artemis/_utilities/pd_calculator.py:fill_pd_minus_single", "artemis/_utilities/pd_calculator.py:get_pd_minus_single"]}
{"id": "C04", "title": "Batch size never changes a result", "statement": "Running the same sequence of calculator calls with two different batch sizes produces identical single, pair and minus-single tables (same NaN cells, same numbers) when the prediction function scores rows independently and never raises and the calls name columns of the data (pairs: two different ones).", "quantifier": "every pair of batch sizes, dataset, row-wise model and sequence of such calls (after a call that raised, the tables may depend on the batch size: C04_failed_request_depends_on_batchsize)", "why_tests_cant": "Quantifies over all batch sizes and all request sequences.", "anchors": ["artemis/_utilities/pd_calculator.py:PartialDependenceCalculator"]}
{"id": "C05", "title": "The partial dependence cache is sound and monotone under any history", "statement": "At every point of any sequence of calculate_pd_single / calculate_pd_pairs / calculate_pd_minus_single calls, every stored cell is either still NaN or equals the brute-force value; cells of features/pairs never requested are still NaN; and a cell that is not NaN is never changed by a later call.", "quantifier": "every history of calls on one calculator", "why_tests_cant": "Histories are unbounded; a test runs one.", "anchors": ["artemis/_utilities/pd_calculator.py:PartialDependenceCalculator"]}
{"id": "C06", "title": "Already computed results trigger no further model queries", "statement": "Repeating a calculate_* request after it has succeeded makes no call to the prediction function and leaves the calculator unchanged, as long as no brute-force value is itself NaN.", "quantifier": "every history followed by a repeated (or sub-) request", "why_tests_cant": "Needs the cache invariant for every history.", "anchors": ["artemis/_utilities/pd_calculator.py:calculate_pd_single", "artemis/_utilities/pd_calculator.py:calculate_pd_pairs", "artemis/_utilities/pd_calculator.py:calculate_pd_minus_single"]}
{"id": "C07", "title": "Batches respect the batch size contract", "statement": "Within one calculate_* call every prediction call except possibly the last is made on more than batchsize rows, no prediction call is made on an empty frame, and no prediction call exceeds batchsize by more than the rows added in one step (len(X) for pairs; len(X) times number of distinct values for singles; len(X)^2 for minus-single).", "quantifier": "every dataset, batch size and request", "why_tests_cant": "A statement about all calls made for all sizes; memory blow-ups are invisible on small fixtures.", "anchors": ["artemis/_utilities/pd_calculator.py:calculate_pd_single", "artemis/_utilities/pd_calculator.py:calculate_pd_pairs", "artemis/_utilities/pd_calculator.py:calculate_pd_minus_single"]}
{"id": "C08", "title": "Pair lookups do not depend on the order of the two features", "statement": "get_pd_pairs(f,g,values) equals get_pd_pairs(g,f,swapped values) in every calculator state, for distinct features of X.", "quantifier": "every calculator state, pair of features and value list", "why_tests_cant": "Quantifies over states and column orders.", "anchors": ["artemis/_utilities/pd_calculator.py:get_pd_pairs", "artemis/_utilities/pd_calculator.py:reorder_pair_values", "artemis/_utilities/pd_calculator.py:_get_pair_key"]}
{"id": "C09", "title": "Lookups outside the data raise instead of returning a wrong number", "statement": "get_pd_single / get_pd_pairs raise IndexError when asked for a value that does not occur in the column and KeyError for a feature (or pair) that is not in X; otherwise they return one number per requested value.", "quantifier": "every calculator state and every query", "why_tests_cant": "All possible queries; tests only ask for present values.", "anchors": ["artemis/_utilities/pd_calculator.py:get_index", "artemis/_utilities/pd_calculator.py:get_pd_single", "artemis/_utilities/pd_calculator.py:get_pd_pairs"]}
{"id": "C10", "title": "Friedman's H is zero for a non-interacting pair", "statement": "If the prediction splits as a function not depending on f plus a function not depending on g, the row for {f,g} in FriedmanHStatisticMethod.ovo after fit holds exactly 0 (normalized or not), in exact arithmetic.", "quantifier": "every dataset, decomposable model, feature list, batch size", "why_tests_cant": "An algebraic identity over all models and datasets; floating-point tests only see approximations on one fixture.", "anchors": ["artemis/interactions_methods/model_agnostic/partial_dependence_based/_friedman_h_statistic.py:_calculate_ovo_interactions_from_pd", "artemis/interactions_methods/model_agnostic/partial_dependence_based/_friedman_h_statistic.py:_calculate_hstat_value", "artemis/_utilities/ops.py:center"]}
{"id": "C11", "title": "One-versus-all H is zero for a feature that enters additively", "statement": "If the prediction splits as a function of f alone plus a function not depending on f, the row for f in FriedmanHStatisticMethod.ova holds exactly 0.", "quantifier": "every dataset, decomposable model, feature list, batch size", "why_tests_cant": "Algebraic identity over all models and data.", "anchors": ["artemis/interactions_methods/model_agnostic/partial_dependence_based/_friedman_h_statistic.py:_calculate_ova_interactions_from_pd"]}
{"id": "C12", "title": "H tables contain no NaN, no negative values, and are sorted strongest first", "statement": "After fit with finite predictions every value in ovo and ova is non-negative (possibly +inf), never NaN, and the rows are in non-increasing order of value even though missing values are filled with 0 after sorting.", "quantifier": "every dataset with at least one row, finite-valued model, feature list", "why_tests_cant": "Sort-then-fill only works because of a sign argument valid for all inputs.", "anchors": ["artemis/interactions_methods/model_agnostic/partial_dependence_based/_friedman_h_statistic.py:_calculate_ovo_interactions_from_pd", "artemis/interactions_methods/model_agnostic/partial_dependence_based/_friedman_h_statistic.py:_calculate_ova_interactions_from_pd"]}
{"id": "C13", "title": "ovo has exactly one row per unordered pair of requested features", "statement": "After fit of a pair-based model-agnostic method with feature list fs (distinct), ovo contains each unordered pair of distinct features of fs exactly once, n(n-1)/2 rows in all, and no other row; with features=None the pairs are those of all columns.", "quantifier": "every feature list", "why_tests_cant": "Sizes are unbounded.", "anchors": ["artemis/interactions_methods/model_agnostic/partial_dependence_based/_pdp.py:fit", "artemis/interactions_methods/model_agnostic/performance_based/_sejong_oh.py:fit", "artemis/_utilities/ops.py:all_if_none"]}
{"id": "C14", "title": "H is unaffected by rescaling or shifting the model output, and by feature order", "statement": "Replacing the prediction p by a*p+b (a nonzero) leaves every normalized H value unchanged and multiplies the unnormalized one by |a|; swapping the roles of the two features leaves the value unchanged.", "quantifier": "every dataset, model, a, b", "why_tests_cant": "Algebraic law over all inputs.", "anchors": ["artemis/interactions_methods/model_agnostic/partial_dependence_based/_friedman_h_statistic.py:_calculate_hstat_value"]}
{"id": "C15", "title": "Reusing a calculator gives the same explanation as starting fresh", "statement": "Passing fit a PartialDependenceCalculator built on the same model, data and prediction function, after any sequence of earlier calls on it and whatever its batch size, yields the same ovo, ova and feature importance as a fit without one.", "quantifier": "every history of the supplied calculator, both PD-based methods, the importance and the additivity meter", "why_tests_cant": "Quantifies over all histories of a shared mutable object.", "anchors": ["artemis/interactions_methods/model_agnostic/partial_dependence_based/_pdp.py:fit", "artemis/importance_methods/model_agnostic/_pdp.py:importance", "artemis/additivity/_additivity_meter.py:fit"]}
{"id": "C16", "title": "A mismatched calculator is rejected", "statement": "fit with a calculator whose model differs, or whose data differ from the (sampled) data, raises ValueError and does not change ovo or feature_importance; a calculator with the same model and data is accepted.", "quantifier": "every method state and calculator", "why_tests_cant": "Covers all states, including previously fitted ones.", "anchors": ["artemis/interactions_methods/model_agnostic/partial_dependence_based/_pdp.py:fit", "artemis/importance_methods/model_agnostic/_pdp.py:importance", "artemis/additivity/_additivity_meter.py:fit"]}
{"id": "C17", "title": "Greenwell's measure is zero for a non-interacting pair", "statement": "If the prediction splits as a function not depending on f plus a function not depending on g, the row for {f,g} in GreenwellMethod.ovo holds exactly 0, for numerical and categorical features alike.", "quantifier": "every dataset, decomposable model", "why_tests_cant": "Algebraic identity.", "anchors": ["artemis/interactions_methods/model_agnostic/partial_dependence_based/_greenwell.py:_calculate_ovo_interactions_from_pd", "artemis/interactions_methods/model_agnostic/partial_dependence_based/_greenwell.py:_calc_conditional_imp"]}
{"id": "C18", "title": "Greenwell fit fails exactly when a paired feature is constant", "statement": "GreenwellMethod.fit (finite predictions, at least one row) raises StatisticsError if and only if at least two features are included and some included feature has a single distinct value in the sampled data.", "quantifier": "every dataset and feature list", "why_tests_cant": "The failing inputs are characterised exactly, over all inputs.", "anchors": ["artemis/interactions_methods/model_agnostic/partial_dependence_based/_greenwell.py:_calculate_ovo_interactions_from_pd", "artemis/interactions_methods/model_agnostic/partial_dependence_based/_greenwell.py:_calc_conditional_imp"]}
{"id": "C19", "title": "Greenwell's table is non-negative, NaN-free and sorted strongest first", "statement": "After a successful GreenwellMethod.fit with finite predictions each value is a finite non-negative number and rows are in non-increasing order.", "quantifier": "every dataset, finite model, feature list", "why_tests_cant": "All inputs.", "anchors": ["artemis/interactions_methods/model_agnostic/partial_dependence_based/_greenwell.py:_calculate_ovo_interactions_from_pd"]}
{"id": "C20", "title": "PD-based importance: one row per feature, non-negative, sorted, zero for ignored features", "statement": "The importance table lists each requested feature exactly once in non-increasing order of a finite non-negative importance, and a feature the model ignores gets exactly 0.", "quantifier": "every dataset with at least one row, finite model, feature list", "why_tests_cant": "All inputs.", "anchors": ["artemis/importance_methods/model_agnostic/_pdp.py:_pdp_importance", "artemis/importance_methods/model_agnostic/_pdp.py:_calc_importance"]}
{"id": "C21", "title": "The additivity index never exceeds 1, and equals 1 exactly for a first-order reconstruction", "statement": "For finite, non-constant predictions the index is a finite number at most 1, and equals 1 iff for every row the prediction equals mean + sum over features of (PD - mean).", "quantifier": "every dataset and finite non-constant model", "why_tests_cant": "All models and datasets.", "anchors": ["artemis/additivity/_additivity_meter.py:_calculate_additivity"]}
{"id": "C22", "title": "An additive model has additivity index 1", "statement": "If the prediction is a sum of functions of single features, fit returns exactly 1 whenever predictions are not constant on the data.", "quantifier": "every dataset and additive model", "why_tests_cant": "Algebraic identity for any number of features and rows.", "anchors": ["artemis/additivity/_additivity_meter.py:fit", "artemis/additivity/_additivity_meter.py:_calculate_additivity"]}
{"id": "C23", "title": "The additivity index is always a number in [0,1]", "statement": "fit returns a value in [0,1] (as its docstring promises).", "quantifier": "every dataset and model", "why_tests_cant": "A universally quantified range claim.", "anchors": ["artemis/additivity/_additivity_meter.py:fit"]}
{"id": "C24", "title": "Sejong Oh's value is the mean absolute non-additive performance change", "statement": "Each ovo value is the mean over n_repeat of |M(f,g permuted) - M(f permuted) - M(g permuted) + M(original)| for the user's metric M, regardless of whether M is a classification or a regression metric; hence non-negative and the table is sorted non-increasingly.", "quantifier": "every metric, model, dataset, random generator", "why_tests_cant": "Sign conventions are applied twice and must cancel for all values.", "anchors": ["artemis/interactions_methods/model_agnostic/performance_based/_sejong_oh.py:_perf_based_ovo", "artemis/interactions_methods/model_agnostic/performance_based/_sejong_oh.py:_inter", "artemis/interactions_methods/model_agnostic/performance_based/_sejong_oh.py:_permute_score", "artemis/interactions_methods/model_agnostic/performance_based/_sejong_oh.py:_neg_if_class"]}
{"id": "C25", "title": "Joint permutation moves the two columns together and nothing else", "statement": "Every frame scored by SejongOhMethod.fit equals the data except that the permuted columns are rearranged by one common permutation, so the multiset of (f,g) value pairs is preserved and all other columns are untouched.", "quantifier": "every dataset, random generator, pair, repetition", "why_tests_cant": "A statement about every model query of every run.", "anchors": ["artemis/interactions_methods/model_agnostic/performance_based/_sejong_oh.py:_permute_score"]}
{"id": "C26", "title": "Features the model ignores show no performance-based interaction", "statement": "If the model ignores f then every ovo row involving f is 0.", "quantifier": "every model ignoring f, dataset and random generator", "why_tests_cant": "All random draws.", "anchors": ["artemis/interactions_methods/model_agnostic/performance_based/_sejong_oh.py:_inter", "artemis/interactions_methods/model_agnostic/performance_based/_sejong_oh.py:_permute_score"]}
{"id": "C27", "title": "random_state makes SejongOhMethod reproducible", "statement": "Two SejongOhMethod objects created with the same random_state and fitted on the same inputs produce the same ovo and the same feature_importance.", "quantifier": "every seed, inputs and OS entropy", "why_tests_cant": "Quantifies over the entropy source; equal results in one run prove nothing.", "anchors": ["artemis/interactions_methods/model_agnostic/performance_based/_sejong_oh.py:__init__", "artemis/interactions_methods/model_agnostic/performance_based/_sejong_oh.py:fit", "artemis/importance_methods/model_agnostic/_permutational_importance.py:__init__"]}
{"id": "C28", "title": "Sampling keeps X and y aligned", "statement": "fit(..., n=k) uses k distinct rows of X and, for each, the target value that belonged to that row.", "quantifier": "every X (any row labels), y (array or Series), k and random generator", "why_tests_cant": "Depends on row labels; fixtures only use default labels.", "anchors": ["artemis/_utilities/ops.py:sample_both_if_not_none", "artemis/_utilities/ops.py:sample_if_not_none", "artemis/interactions_methods/model_agnostic/performance_based/_sejong_oh.py:fit"]}
{"id": "C29", "title": "Permutation importance corrupts one feature at a time", "statement": "Every frame scored after the first by PermutationImportance.importance equals the data except for one feature, whose column is a rearrangement of the original one; each feature is corrupted exactly n_repeat times.", "quantifier": "every dataset, feature list, n_repeat, random generator", "why_tests_cant": "The loop reuses one mutable frame across all iterations; the restore step must hold at every iteration.", "anchors": ["artemis/importance_methods/model_agnostic/_permutational_importance.py:_corrupted_scores"]}
{"id": "C30", "title": "Permutation importance is 0 for ignored features and non-negative for a perfect model", "statement": "A feature the model ignores gets importance exactly 0; if the model predicts y perfectly then every importance is non-negative (MSE, RMSE and Accuracy); rows are sorted by non-increasing importance, one per distinct requested feature.", "quantifier": "every dataset, model, metric, random generator, n_repeat>0", "why_tests_cant": "All random draws.", "anchors": ["artemis/importance_methods/model_agnostic/_permutational_importance.py:_permutation_importance", "artemis/importance_methods/model_agnostic/_permutational_importance.py:_neg_if_class"]}
{"id": "C31", "title": "features=None means all features", "statement": "Every fit/importance entry point that documents features=None as 'all features' behaves as if all columns had been listed.", "quantifier": "every entry point and dataset", "why_tests_cant": "A claim about several entry points for all data.", "anchors": ["artemis/_utilities/ops.py:all_if_none", "artemis/importance_methods/model_agnostic/_permutational_importance.py:importance", "artemis/interactions_methods/model_agnostic/partial_dependence_based/_pdp.py:fit", "artemis/interactions_methods/model_agnostic/performance_based/_sejong_oh.py:fit", "artemis/importance_methods/model_agnostic/_pdp.py:importance", "artemis/importance_methods/model_specific/_split_score.py:_calculate_all_feature_importance"]}
{"id": "C32", "title": "Performance metrics are proper", "statement": "MSE and RMSE are non-negative and zero exactly on perfect predictions, Accuracy lies in [0,1] and is 1 exactly on perfect predictions, RMSE^2=MSE, and all three are unchanged when targets and predictions are rearranged together.", "quantifier": "every pair of equally long non-empty vectors", "why_tests_cant": "All vectors.", "anchors": ["artemis/_utilities/performance_metrics.py:MSE", "artemis/_utilities/performance_metrics.py:RMSE", "artemis/_utilities/performance_metrics.py:Accuracy"]}
{"id": "C33", "title": "Tree traversal terminates with true depths and complete split lists", "statement": "For every binary decision tree stored in scikit-learn's array form the level-order traversal terminates, assigns to each node its distance from the root, and lists for each feature exactly the internal nodes that split on it, shallowest first.", "quantifier": "every finite binary tree, in any node numbering with root 0", "why_tests_cant": "Unbounded trees; loop termination.", "anchors": ["artemis/interactions_methods/model_specific/random_forest/_conditional_minimal_depth.py:_bfs", "artemis/interactions_methods/model_specific/random_forest/_conditional_minimal_depth.py:_next_level", "artemis/interactions_methods/model_specific/random_forest/_conditional_minimal_depth.py:_split_var_to_ids", "artemis/interactions_methods/model_specific/random_forest/_conditional_minimal_depth.py:_append_nodes_to_split_var", "artemis/interactions_methods/model_specific/random_forest/_conditional_minimal_depth.py:_delete_leaves"]}
{"id": "C34", "title": "The id interval used for a node is exactly its subtree", "statement": "For trees numbered depth-first (scikit-learn's default builder) the nodes with id in (r, maximal id] are exactly the proper descendants of r.", "quantifier": "every finite binary tree and node", "why_tests_cant": "All shapes of trees.", "anchors": ["artemis/interactions_methods/model_specific/random_forest/_conditional_minimal_depth.py:_calculate_maximal_id_in_subtree", "artemis/interactions_methods/model_specific/random_forest/_conditional_minimal_depth.py:_f_2_split_nodes_in_f_1_subtree"]}
{"id": "C35", "title": "Conditional minimal depth of one tree", "statement": "For each ordered pair (f,g) used in the tree, value is the minimum over the shallowest f-nodes r of the number of nodes strictly between r and the nearest g-node below it (or, when there is none below r, the depth below r of the last node of r's subtree), occur tells whether some shallowest f-node has a g-node below it, and the value is missing iff f or g is not used in the tree.", "quantifier": "every finite binary tree numbered depth-first, every pair of features", "why_tests_cant": "All trees.", "anchors": ["artemis/interactions_methods/model_specific/random_forest/_conditional_minimal_depth.py:_conditional_minimal_depth"]}
{"id": "C36", "title": "Conditional minimal depth table over the forest", "statement": "After fit, ovo has exactly p*p-p rows, one per ordered pair of distinct features; its value is the mean over the trees using both features, n_occurences the number of trees where the second occurs below a shallowest split on the first; rows are sorted by n_occurences descending, then by value ascending.", "quantifier": "every forest and number of features", "why_tests_cant": "All forests.", "anchors": ["artemis/interactions_methods/model_specific/random_forest/_conditional_minimal_depth.py:_calculate_conditional_minimal_depths", "artemis/interactions_methods/model_specific/random_forest/_conditional_minimal_depth.py:_summarise_results"]}
{"id": "C37", "title": "Minimal depth importance", "statement": "feature_importance lists exactly the features used by at least one tree, each with the average, over the trees using it, of the depth of its shallowest split, in non-decreasing order.", "quantifier": "every forest", "why_tests_cant": "All forests.", "anchors": ["artemis/importance_methods/model_specific/_minimal_depth.py:importance"]}
{"id": "C38", "title": "Comparison view of conditional minimal depth merges the two directions of a pair", "statement": "_compare_ovo (used by interaction_value and the comparator) has one row per unordered pair of features whose value is the mean of the two directed values.", "quantifier": "every fitted method and all feature names", "why_tests_cant": "Depends on the feature names; fixtures have benign names.", "anchors": ["artemis/interactions_methods/model_specific/random_forest/_conditional_minimal_depth.py:_compare_ovo"]}
{"id": "C39", "title": "Only XGBoost and LightGBM models are accepted by SplitScoreMethod", "statement": "fit with a model whose top-level package is neither xgboost nor lightgbm raises ModelNotSupportedException and leaves the method unchanged; cover-based metrics on LightGBM raise MetricNotSupportedException before anything is computed; all other metric/package combinations are accepted.", "quantifier": "every model class name, metric pair, method state", "why_tests_cant": "All class names and states.", "anchors": ["artemis/_utilities/_handler.py:unify_structure", "artemis/interactions_methods/model_specific/gb_trees/_split_score.py:_check_metrics_with_available_info", "artemis/interactions_methods/model_specific/gb_trees/_split_score.py:fit"]}
{"id": "C40", "title": "Split score node statistics are right for every tree", "statement": "In full_result every internal node has its true depth; every internal non-root node carries its parent's feature, gain and cover; and interaction is true exactly when its gain exceeds its parent's and the features differ.", "quantifier": "every forest of binary trees listed parents-first (xgboost) / any order (lightgbm) whose features are not called 'Leaf' (see C71)", "why_tests_cant": "All trees.", "anchors": ["artemis/interactions_methods/model_specific/gb_trees/_split_score.py:_prepare_stats", "artemis/interactions_methods/model_specific/gb_trees/_split_score.py:_calculate_full_result", "artemis/_utilities/_handler.py:_get_unified_trees_df"]}
{"id": "C41", "title": "Split score summary aggregates exactly the interacting parent-child splits", "statement": "Each ordered feature pair occurs at most once in full_ovo and ovo; its frequency, sum_gain and mean_gain are the count, sum and mean of the gains of exactly the qualifying nodes (interaction nodes, or all non-root splits when only_def_interactions=False); frequencies add up to the number of qualifying nodes; pairs have distinct features when only_def_interactions=True. full_ovo is sorted by sum_gain, largest first, whatever metric was chosen.", "quantifier": "every forest and metric", "why_tests_cant": "All forests.", "anchors": ["artemis/interactions_methods/model_specific/gb_trees/_split_score.py:_get_summary", "artemis/interactions_methods/model_specific/gb_trees/_split_score.py:_get_ovo"]}
{"id": "C42", "title": "SplitScore ovo is sorted strongest first", "statement": "ovo is in non-increasing order of value for gain/cover metrics and non-decreasing order for mean_depth.", "quantifier": "every forest, metric", "why_tests_cant": "All inputs.", "anchors": ["artemis/interactions_methods/model_specific/gb_trees/_split_score.py:_get_ovo", "artemis/interactions_methods/model_specific/gb_trees/_split_score.py:_interactions_ascending_order"]}
{"id": "C43", "title": "SplitScore fit succeeds on every supported model", "statement": "fit on any XGBoost/LightGBM forest with a supported metric completes.", "quantifier": "every forest, including forests of stumps", "why_tests_cant": "Universal claim about success.", "anchors": ["artemis/interactions_methods/model_specific/gb_trees/_split_score.py:_calculate_full_result", "artemis/interactions_methods/model_specific/gb_trees/_split_score.py:fit"]}
{"id": "C44", "title": "Split score importance metrics", "statement": "For each feature used in a split, sum_gain/mean_gain/mean_depth are the sum/mean over exactly its splits, root_frequency counts the trees it roots (missing if none) and root frequencies add up to the number of trees with a split; mean_weighted_depth is the gain-weighted mean depth.", "quantifier": "every forest whose features are not called 'Leaf' (see C71) and where no feature's gains add up to 0", "why_tests_cant": "All forests.", "anchors": ["artemis/importance_methods/model_specific/_split_score.py:_calculate_basic_metrics", "artemis/importance_methods/model_specific/_split_score.py:_calculate_root_metrics", "artemis/importance_methods/model_specific/_split_score.py:_calculate_mean_weighted_depth_metric", "artemis/importance_methods/model_specific/_split_score.py:_calculate_depth"]}
{"id": "C45", "title": "Split score importance table lists the most important feature first", "statement": "The first row of feature_importance is the most important feature in the sense of importance_ascending_order.", "quantifier": "every forest and importance metric", "why_tests_cant": "All metrics, all forests.", "anchors": ["artemis/importance_methods/model_specific/_split_score.py:_select_metric", "artemis/importance_methods/model_specific/_split_score.py:importance_ascending_order"]}
{"id": "C46", "title": "Results are unavailable before fit and available after", "statement": "plot, interaction_value and the comparator raise MethodNotFittedException on a never-fitted method; after a successful fit they do not raise it.", "quantifier": "every method kind and every sequence of fit calls", "why_tests_cant": "All histories and options.", "anchors": ["artemis/interactions_methods/_method.py:plot", "artemis/interactions_methods/_method.py:interaction_value", "artemis/interactions_methods/model_agnostic/partial_dependence_based/_friedman_h_statistic.py:plot", "artemis/comparison/_method_comparator.py:_assert_fitted_ovo"]}
{"id": "C47", "title": "interaction_value is symmetric and agrees with the table", "statement": "interaction_value(f,g)=interaction_value(g,f); for a table with one row per unordered pair it is the value of that row; for an absent pair IndexError is raised.", "quantifier": "every fitted table and pair", "why_tests_cant": "All tables, including ties and both directions present.", "anchors": ["artemis/interactions_methods/_method.py:interaction_value", "artemis/interactions_methods/_method.py:_compare_ovo"]}
{"id": "C48", "title": "The explanation always belongs to the last successful fit", "statement": "After any sequence of fits, some failing, ovo, ova and feature_importance are those of the last successful fit.", "quantifier": "every sequence of fit calls with arbitrary options and failures", "why_tests_cant": "Histories with failures at any point.", "anchors": ["artemis/interactions_methods/model_agnostic/partial_dependence_based/_friedman_h_statistic.py:fit", "artemis/interactions_methods/model_agnostic/partial_dependence_based/_pdp.py:fit", "artemis/interactions_methods/model_specific/gb_trees/_split_score.py:fit"]}
{"id": "C49", "title": "Comparator correlations: symmetric, bounded, 1 on itself", "statement": "correlation(m1,m2)=correlation(m2,m1), lies in [-1,1], is 1 for a method compared with itself when it has at least two pairs; Pearson and Spearman coincide when no pair is repeated.", "quantifier": "every pair of fitted tables", "why_tests_cant": "All tables.", "anchors": ["artemis/comparison/_method_comparator.py:correlation", "artemis/comparison/_method_comparator.py:_rank_interaction_values_encoded"]}
{"id": "C50", "title": "Comparator correlations do not depend on how features are named", "statement": "Renaming the features consistently in both methods does not change any correlation.", "quantifier": "every pair of tables and renaming", "why_tests_cant": "All renamings.", "anchors": ["artemis/comparison/_method_comparator.py:_rank_interaction_values_encoded", "artemis/comparison/_method_comparator.py:_alphabetical_order_pair"]}
{"id": "C51", "title": "Comparison plot pairs up the two methods' values of the same feature pair", "statement": "Each plotted point has as coordinates the two methods' values of one and the same unordered feature pair, one point per row of the first method; the first n_labels points are labelled.", "quantifier": "every pair of fitted methods", "why_tests_cant": "All tables and orderings.", "anchors": ["artemis/comparison/_method_comparator.py:comparison_plot"]}
{"id": "C52", "title": "The correlation box describes the plotted methods", "statement": "comparison_plot(m1,m2,add_correlation_box=True) shows the correlations of m1 and m2, whatever was compared before with the same comparator.", "quantifier": "every history of comparator calls", "why_tests_cant": "History-dependent.", "anchors": ["artemis/comparison/_method_comparator.py:comparison_plot", "artemis/comparison/_method_comparator.py:summary"]}
{"id": "C53", "title": "Visualization requests are accepted or rejected exactly as documented", "statement": "plot(vis_type) raises VisualizationNotSupportedException iff vis_type is not in the method's accepted list; otherwise exactly one drawing routine, the one for vis_type, runs. Unknown method names are rejected by the configuration provider.", "quantifier": "every string vis_type, every fitted method (not fitted: C46), every method name", "why_tests_cant": "All strings.", "anchors": ["artemis/visualizer/_visualizer.py:plot", "artemis/visualizer/_visualizer.py:accepts", "artemis/visualizer/_configuration.py:VisualizationConfigurationProvider"]}
{"id": "C54", "title": "Interaction graph edge widths are bounded and ordered like strengths", "statement": "For methods where larger is stronger, every edge width lies in [0, max_edge_width], a stronger pair never gets a thinner edge, the strongest gets exactly max_edge_width, and pairs below the threshold get the smallest width.", "quantifier": "every table with at least two different values after thresholding, every threshold", "why_tests_cant": "All tables.", "anchors": ["artemis/visualizer/_visualizer.py:_filter_insignificant_interactions", "artemis/visualizer/_visualizer.py:_scale_to_unit_interval", "artemis/visualizer/_visualizer.py:_map_to_width", "artemis/visualizer/_visualizer.py:_interactions_to_edge_widths"]}
{"id": "C55", "title": "Interaction graph edge widths for smaller-is-stronger methods", "statement": "For methods where smaller is stronger (conditional minimal depth), every edge width lies in [0,max_edge_width] and among pairs kept by the threshold a stronger pair never gets a thinner edge.", "quantifier": "every table, every threshold", "why_tests_cant": "All tables.", "anchors": ["artemis/visualizer/_visualizer.py:_reverse_scale_for_ascending", "artemis/visualizer/_visualizer.py:_interactions_to_edge_widths"]}
{"id": "C56", "title": "Edge labels are the top significant interactions", "statement": "The labelled edges are at most n_highest_with_labels pairs with positive thresholded value, and no unlabelled significant pair is stronger than a labelled one.", "quantifier": "every table, threshold and n >= 0 (negative n: C125)", "why_tests_cant": "All tables.", "anchors": ["artemis/visualizer/_visualizer.py:_edge_labels"]}
{"id": "C57", "title": "Heatmap cells show the right number", "statement": "In the undirected heatmap the cell (f,g) and the cell (g,f) both show the ovo value of {f,g}, the diagonal shows the feature importance; in the directed heatmap the cell (f,g) shows the value of the row (f,g).", "quantifier": "every table with one row per pair", "why_tests_cant": "All tables.", "anchors": ["artemis/visualizer/_visualizer.py:plot_heatmap", "artemis/visualizer/_visualizer.py:_feature_importance_diag"]}
{"id": "C58", "title": "Heatmap reordering only permutes", "statement": "order_heatmap returns the same labelled cells with rows and columns in one common order, sorted by score.", "quantifier": "every square matrix and feature names", "why_tests_cant": "All matrices.", "anchors": ["artemis/visualizer/_visualizer.py:order_heatmap"]}
{"id": "C59", "title": "Plotting never fails on a fitted method", "statement": "Each accepted visualization of a fitted method can be drawn (data preparation raises no exception).", "quantifier": "every fitted method", "why_tests_cant": "All models, including those ignoring features.", "anchors": ["artemis/visualizer/_visualizer.py:plot_heatmap", "artemis/visualizer/_visualizer.py:_feature_importance_diag", "artemis/interactions_methods/model_agnostic/partial_dependence_based/_pdp.py:plot_zenplot"]}
{"id": "C60", "title": "The zenplot path visits distinct top pairs", "statement": "plot_zenplot(L) on a method with more than L pairs draws exactly L distinct feature pairs, all among the L+1 strongest, the first being the strongest, and whenever some unused candidate shares the last feature the next panel does too.", "quantifier": "every table and L>=1", "why_tests_cant": "All tables.", "anchors": ["artemis/interactions_methods/model_agnostic/partial_dependence_based/_pdp.py:plot_zenplot", "artemis/_utilities/zenplot.py:find_next_pair_index", "artemis/_utilities/zenplot.py:get_second_feature"]}
{"id": "C61", "title": "Zenplot panels fit in the grid and never overlap", "statement": "The panel positions are pairwise distinct and inside the nrows x ncols grid.", "quantifier": "every zenpath_length", "why_tests_cant": "All lengths.", "anchors": ["artemis/interactions_methods/model_agnostic/partial_dependence_based/_pdp.py:plot_zenplot"]}
{"id": "C62", "title": "Zenplot panels are correctly oriented", "statement": "get_pd_pairs_values(method,(f,g)) returns grids such that pd_values[i][j] is the stored PD at f=f1_values[i], g=f2_values[j], in either orientation of the pair, without changing the calculator.", "quantifier": "every calculator state and pair", "why_tests_cant": "All states.", "anchors": ["artemis/_utilities/zenplot.py:get_pd_pairs_values"]}
{"id": "C63", "title": "Zenplot colour scale covers all drawn values", "statement": "(min_pd,max_pd) returned by get_pd_dict bounds every PD value of every candidate pair when all are numbers.", "quantifier": "every table and calculator state", "why_tests_cant": "All states.", "anchors": ["artemis/_utilities/zenplot.py:get_pd_dict"]}
{"id": "C64", "title": "Lollipop plot shows the requested fraction of trees", "statement": "With max_trees=q the lollipop plot shows the roots of the first q fraction of the trees; q=1 shows all of them.", "quantifier": "every forest and fraction", "why_tests_cant": "All forests.", "anchors": ["artemis/visualizer/_visualizer.py:plot_lollipop"]}
{"id": "C65", "title": "The model is queried with the documented prediction function", "statement": "get_predict_function returns the user's function if given, otherwise probability-of-class-1 if the model has predict_proba, otherwise predict; predictions used by fit come from that function.", "quantifier": "every model interface and option", "why_tests_cant": "All combinations.", "anchors": ["artemis/_utilities/ops.py:get_predict_function"]}
{"id": "C66", "title": "The H value is the textbook formula on brute-force partial dependences", "statement": "After FriedmanHStatisticMethod.fit on non-empty data with finite predictions, each normalized value in ovo equals sum((PD_fg - PD_f - PD_g)^2)/sum(PD_fg^2) over the rows (PDs centred over the rows, obtained by brute-force averaging), +inf/0 only when that denominator is 0; each unnormalized value is the square root of the mean of (PD_fg - PD_f - PD_g)^2.", "quantifier": "every dataset, finite model, feature list, calculator history", "why_tests_cant": "Functional correctness against an independent formula for all inputs, batch sizes and cache states.", "anchors": ["artemis/interactions_methods/model_agnostic/partial_dependence_based/_friedman_h_statistic.py:_calculate_hstat_value", "artemis/_utilities/pd_calculator.py:PartialDependenceCalculator"]}
{"id": "C67", "title": "Stand-alone PD importance agrees with the table a fit leaves behind", "statement": "PartialDependenceBasedImportance.importance on the same rows, predictions and features returns exactly the feature_importance table that FriedmanHStatisticMethod.fit or GreenwellMethod.fit stores; when fit returns and the prediction function never fails, the stand-alone call returns as well.", "quantifier": "every dataset, model, feature list, batch size, supplied calculator and history", "why_tests_cant": "Two code paths with different cache states must agree on all inputs.", "anchors": ["artemis/importance_methods/model_agnostic/_pdp.py:importance", "artemis/interactions_methods/model_agnostic/partial_dependence_based/_pdp.py:fit"]}
{"id": "C68", "title": "The one-versus-all H value is the textbook formula, one row per feature", "statement": "After FriedmanHStatisticMethod.fit (one-vs-all part on) on non-empty data with finite predictions, ova has exactly one row per requested feature and each value is sum((p - PD_f - PD_rest)^2)/sum(p^2) over the rows (normalized; all terms centred, PDs by brute force; +inf or 0 only when the denominator is 0) or the root of the mean of (p - PD_f - PD_rest)^2 (unnormalized).", "quantifier": "all models with finite row-wise predictions, all non-empty data, all feature lists, all batch sizes, fresh or reused calculators", "why_tests_cant": "a test compares a few numbers on one data set; the claim is an identity for every model and data set", "anchors": ["artemis/interactions_methods/model_agnostic/partial_dependence_based/_friedman_h_statistic.py: _calculate_ova_interactions_from_pd, _calculate_hstat_value"]}
{"id": "C69", "title": "Greenwell's value is the textbook formula", "statement": "After GreenwellMethod.fit on non-empty data with finite predictions every value in ovo is the mean of two standard deviations: of the importance of g conditional on each level of f, and of the importance of f conditional on each level of g, where a conditional importance is the sample standard deviation (numerical) or a quarter of the range (categorical) of the joint partial dependence over the levels.", "quantifier": "all models with finite row-wise predictions, all non-empty data, all feature lists and dtypes", "why_tests_cant": "tests only check shapes and order of the table; swapping the axes or the dtype of the two features would go unnoticed", "anchors": ["artemis/interactions_methods/model_agnostic/partial_dependence_based/_greenwell.py: _calculate_ovo_interactions_from_pd, _calc_conditional_imp"]}
{"id": "C70", "title": "PD-based importance is the textbook formula", "statement": "After fit of a PD-based method on non-empty data with finite predictions each value in feature_importance is the population standard deviation (numerical) or a quarter of the range (categorical) of the feature's brute-force partial dependence over its distinct values.", "quantifier": "all models with finite row-wise predictions, all non-empty data, all feature lists and dtypes", "why_tests_cant": "tests only check shapes and order of the table", "anchors": ["artemis/importance_methods/model_agnostic/_pdp.py: _pdp_importance, _calc_importance"]}
{"id": "C71", "title": "Split score importance does not depend on what features are called", "statement": "Every feature used in a split of a supported model is listed in the split score feature_importance table, whatever its name.", "quantifier": "every forest and feature name, including the name the code uses to mark leaves", "why_tests_cant": "A claim about all feature names; tests use a handful of ordinary column names.", "anchors": ["artemis/importance_methods/model_specific/_split_score.py:_calculate_all_feature_importance", "artemis/_utilities/_handler.py:_get_unified_trees_df"]}
{"id": "C72", "title": "Comparator correlation measures agreement of the two rankings", "statement": "For two fitted methods that list the same feature pairs (at least two), each once, correlation (any of the three kinds) is 1 exactly when both rank the pairs in the same order, and -1 when one ranking is the other one reversed.", "quantifier": "every two tables over the same pairs, every correlation kind, every choice of names whose joined pairs differ", "why_tests_cant": "All tables and orders; a test of a few tables cannot show the 'only if'.", "anchors": ["artemis/comparison/_method_comparator.py:correlation", "artemis/comparison/_method_comparator.py:_rank_interaction_values_encoded"]}
{"id": "C73", "title": "Every documented visualization name is accepted", "statement": "For each method, every vis_type named in the documentation of its plot is accepted by plot of a fitted object.", "quantifier": "every method and documented name", "why_tests_cant": "The documentation is text; tests use the names the authors remember.", "anchors": ["artemis/interactions_methods/model_specific/gb_trees/_split_score.py:plot", "artemis/_utilities/domain.py:VisualizationType", "artemis/visualizer/_configuration.py:VisualizationConfigurationProvider"]}
{"id": "C74", "title": "The summary shows the same drawings as the separate plots", "statement": "The heatmap, graph and bar chart inside plot('summary') show what plot('heatmap'), plot('graph') and plot('bar_chart') of the same object show.", "quantifier": "every fitted method, all tables and options", "why_tests_cant": "All tables; tests do not compare figures.", "anchors": ["artemis/visualizer/_visualizer.py:plot_summary", "artemis/visualizer/_visualizer.py:plot_interaction_graph", "artemis/visualizer/_visualizer.py:plot_heatmap"]}
{"id": "C75", "title": "A title given to plot appears on the plot", "statement": "plot(vis_type, title=t) with t other than 'default' draws a figure titled t.", "quantifier": "every method, visualization and title", "why_tests_cant": "All titles and visualizations.", "anchors": ["artemis/visualizer/_visualizer.py:plot", "artemis/visualizer/_visualizer.py:plot_barchart_ova", "artemis/interactions_methods/_method.py:plot"]}
{"id": "C76", "title": "The bar chart shows the strongest interactions in order", "statement": "After fit, plot('bar_chart', top_k=k) shows min(k, number of pairs) different pairs, in the order of strength, and no pair left out is stronger than one shown.", "quantifier": "every table and k", "why_tests_cant": "All tables.", "anchors": ["artemis/visualizer/_visualizer.py:plot_barchart_ovo", "artemis/visualizer/_visualizer.py:plot_barchart_ova"]}
{"id": "C77", "title": "Plots agree with interaction_value", "statement": "The number in the heatmap cell (f,g) is the number interaction_value(f,g) returns.", "quantifier": "every fitted method and pair", "why_tests_cant": "All models.", "anchors": ["artemis/interactions_methods/_method.py:interaction_value", "artemis/visualizer/_visualizer.py:plot_heatmap"]}
{"id": "C78", "title": "Node sizes follow feature importance", "statement": "In the interaction graph a more important feature has a larger node.", "quantifier": "every fitted method with an importance table", "why_tests_cant": "All tables.", "anchors": ["artemis/visualizer/_visualizer.py:plot_interaction_graph"]}
{"id": "C79", "title": "Options of the parts of a summary take effect under the visualization name", "statement": "plot('summary', name={...}) draws the part called name with the given options, for every visualization name shown in the summary.", "quantifier": "every fitted method and options", "why_tests_cant": "All options.", "anchors": ["artemis/visualizer/_visualizer.py:plot_summary", "artemis/interactions_methods/_method.py:plot"]}
{"id": "C80", "title": "Consecutive zenplot panels share the facing axis", "statement": "If the second feature of a panel is the first feature of the next one, the next panel lies directly to the right and has the same feature and grid on its vertical axis, or directly below and has the same feature and grid on its horizontal axis.", "quantifier": "every method, length and pair of consecutive panels", "why_tests_cant": "The placing alternates and the orientation of stored pairs depends on the column order; all lengths, tables and states.", "anchors": ["artemis/interactions_methods/model_agnostic/partial_dependence_based/_pdp.py:plot_zenplot"]}
{"id": "C81", "title": "Zenplot labels name the features drawn", "statement": "A title or axis label of a zenplot panel is the feature on that axis of the panel.", "quantifier": "every method and length", "why_tests_cant": "Labels depend on which candidates are left; every table and length.", "anchors": ["artemis/interactions_methods/model_agnostic/partial_dependence_based/_pdp.py:plot_zenplot"]}
{"id": "C82", "title": "The zenplot colour scale is exactly the range of the drawn values", "statement": "The limits of the colour scale are the least and the greatest value drawn.", "quantifier": "every method and length", "why_tests_cant": "Every calculator state and table, including missing and infinite values.", "anchors": ["artemis/_utilities/zenplot.py:get_pd_dict", "artemis/interactions_methods/model_agnostic/partial_dependence_based/_pdp.py:plot_zenplot"]}
{"id": "C83", "title": "A profile plot shows the partial dependence", "statement": "plot_profile(f, g) after fit draws the average prediction with f and g replaced, at the observed values of both, labelled with the right features and the same for plot_profile(g, f); plot_profile(f) draws the stored partial dependence of f; bad arguments are rejected.", "quantifier": "every method state, features and kinds", "why_tests_cant": "All models, data, orders of columns and histories of the calculator.", "anchors": ["artemis/interactions_methods/model_agnostic/partial_dependence_based/_pdp.py:plot_profile"]}
{"id": "C84", "title": "The default zenplot can be drawn from five features on", "statement": "After fit on a model with finite predictions plot_zenplot() with default arguments returns 7 panels for five or more features and raises IndexError for fewer.", "quantifier": "every model, data and list of features", "why_tests_cant": "All models and data with any number of features.", "anchors": ["artemis/interactions_methods/model_agnostic/partial_dependence_based/_pdp.py:plot_zenplot"]}
{"id": "C85", "title": "A failed refit leaves the partial dependence plots alone", "statement": "If fit raises, plot_zenplot and plot_profile show what they showed before.", "quantifier": "every method state and every failing fit", "why_tests_cant": "Every state before and every way of failing.", "anchors": ["artemis/interactions_methods/model_agnostic/partial_dependence_based/_pdp.py:fit", "artemis/interactions_methods/model_agnostic/partial_dependence_based/_pdp.py:plot_zenplot", "artemis/interactions_methods/model_agnostic/partial_dependence_based/_pdp.py:plot_profile"]}
{"id": "C86", "title": "The conditional bar chart shows depths next to importances", "statement": "The conditional bar chart of conditional minimal depth shows the first top_k (15 by default) rows of the table of pairs in order, and next to each bar the importance of the second feature of the pair; there is no marker if that feature is not in the importance table.", "quantifier": "every method state whose plot returns, every top_k", "why_tests_cant": "Every table of pairs and every table of importances, including features missing from one of them.", "anchors": ["artemis/visualizer/_visualizer.py:plot_barchart_conditional"]}
{"id": "C87", "title": "Lollipop labels mark interactions and strong roots", "statement": "A lollipop plot labels, among the points it shows, exactly the inner nodes that take part in an interaction and exactly the roots whose gain is at least label_threshold times the greatest gain of a shown root; with labels=False it labels nothing.", "quantifier": "every method state whose plot returns, every option", "why_tests_cant": "Every forest and every value of the options.", "anchors": ["artemis/visualizer/_visualizer.py:plot_lollipop"]}
{"id": "C88", "title": "Row order and uniform repetition do not matter", "statement": "Fitting Friedman's H-statistic, Greenwell's method, the partial dependence importance or the additivity index on the same rows in another order, or on data in which every row is repeated equally often, gives every pair and every feature the same value.", "quantifier": "every finite model, every two data sets that agree up to order and uniform repetition, every set of features", "why_tests_cant": "Every model, every permutation and every number of repetitions.", "anchors": ["artemis/interactions_methods/model_agnostic/partial_dependence_based/_pdp.py:fit", "artemis/interactions_methods/model_agnostic/partial_dependence_based/_friedman_h_statistic.py:_calculate_ovo_interactions_from_pd", "artemis/interactions_methods/model_agnostic/partial_dependence_based/_friedman_h_statistic.py:_calculate_ova_interactions_from_pd", "artemis/interactions_methods/model_agnostic/partial_dependence_based/_greenwell.py:_calculate_ovo_interactions_from_pd", "artemis/importance_methods/model_agnostic/_pdp.py:importance", "artemis/additivity/_additivity_meter.py:fit"]}
{"id": "C89", "title": "Values do not depend on the other requested features", "statement": "The value of a pair, the overall interaction strength of a feature and its partial dependence importance do not depend on which other features are requested or on the order of the columns; the importance does not depend on which of the two methods was fitted either. The additivity index does not depend on the order of the columns.", "quantifier": "every finite model, every data set, every two lists of features", "why_tests_cant": "Every pair of feature lists and every order of the columns.", "anchors": ["artemis/interactions_methods/model_agnostic/partial_dependence_based/_pdp.py:fit", "artemis/interactions_methods/model_agnostic/partial_dependence_based/_friedman_h_statistic.py:_calculate_ovo_interactions_from_pd", "artemis/interactions_methods/model_agnostic/partial_dependence_based/_friedman_h_statistic.py:_calculate_ova_interactions_from_pd", "artemis/interactions_methods/model_agnostic/partial_dependence_based/_greenwell.py:_calculate_ovo_interactions_from_pd", "artemis/importance_methods/model_agnostic/_pdp.py:importance", "artemis/additivity/_additivity_meter.py:fit"]}
{"id": "C90", "title": "Rescaling predictions", "statement": "Replacing every prediction p by c*p+d with c different from 0 leaves normalized H-statistics and the additivity index unchanged and multiplies unnormalized H-statistics, Greenwell's values and the partial dependence importance by |c|.", "quantifier": "every finite model, every data set, every c different from 0 and every d", "why_tests_cant": "Every model and every pair of constants.", "anchors": ["artemis/interactions_methods/model_agnostic/partial_dependence_based/_pdp.py:fit", "artemis/interactions_methods/model_agnostic/partial_dependence_based/_friedman_h_statistic.py:_calculate_ovo_interactions_from_pd", "artemis/interactions_methods/model_agnostic/partial_dependence_based/_friedman_h_statistic.py:_calculate_ova_interactions_from_pd", "artemis/interactions_methods/model_agnostic/partial_dependence_based/_greenwell.py:_calculate_ovo_interactions_from_pd", "artemis/importance_methods/model_agnostic/_pdp.py:importance", "artemis/additivity/_additivity_meter.py:fit"]}
{"id": "C91", "title": "Names of features and codes of values do not matter", "statement": "Renaming the features and recoding the values of each feature one to one, with a model that predicts the same on recoded rows, changes no value of any pair or feature and not the additivity index, as long as features keep counting as numerical or not.", "quantifier": "every finite model, every data set, every renaming and recoding", "why_tests_cant": "Every bijective renaming and every injective recoding.", "anchors": ["artemis/interactions_methods/model_agnostic/partial_dependence_based/_pdp.py:fit", "artemis/interactions_methods/model_agnostic/partial_dependence_based/_friedman_h_statistic.py:_calculate_ovo_interactions_from_pd", "artemis/interactions_methods/model_agnostic/partial_dependence_based/_friedman_h_statistic.py:_calculate_ova_interactions_from_pd", "artemis/interactions_methods/model_agnostic/partial_dependence_based/_greenwell.py:_calculate_ovo_interactions_from_pd", "artemis/importance_methods/model_agnostic/_pdp.py:importance", "artemis/additivity/_additivity_meter.py:fit"]}
{"id": "C92", "title": "The same forest listed differently gives the same conditional minimal depth", "statement": "If two forests consist of the same trees, only listed in another order, all repeated equally often, with the columns in another order or renamed, then fit ends alike on both; the interaction table has the same value for every ordered pair, n_occurences multiplied by the repetition, and the importance table has the same value for every feature.", "quantifier": "every forest whose trees are numbered depth-first, every reordering, every number of repetitions, every renaming of columns", "why_tests_cant": "All forests and all reorderings; results are collected in lists indexed by column numbers and tree positions.", "anchors": ["artemis/interactions_methods/model_specific/random_forest/_conditional_minimal_depth.py:fit", "artemis/interactions_methods/model_specific/random_forest/_conditional_minimal_depth.py:_calculate_conditional_minimal_depths", "artemis/interactions_methods/model_specific/random_forest/_conditional_minimal_depth.py:_summarise_results", "artemis/importance_methods/model_specific/_minimal_depth.py:importance"]}
{"id": "C93", "title": "The conditional minimal depth value is the distance to the nearest split below", "statement": "The value of an ordered pair of features is the mean, over the trees that use both, of the smallest number of nodes between a split on the first feature nearest to the root and the nearest split on the second feature below it.", "quantifier": "every forest, every ordered pair of features with a split on the second below a shallowest split on the first in every tree that uses both", "why_tests_cant": "Needs every shape of tree; a fall-back value of one subtree can replace the distance found in another one.", "anchors": ["artemis/interactions_methods/model_specific/random_forest/_conditional_minimal_depth.py:_calculate_conditional_minimal_depths", "artemis/interactions_methods/model_specific/random_forest/_conditional_minimal_depth.py:_conditional_minimal_depth", "artemis/interactions_methods/model_specific/random_forest/_conditional_minimal_depth.py:_summarise_results"]}
{"id": "C94", "title": "Left and right do not matter for conditional minimal depth", "statement": "Exchanging the left and the right subtree at any nodes of a forest (which leaves the tests the same up to negation) changes no value, no number of occurrences and no importance.", "quantifier": "every forest, every set of nodes at which the subtrees are exchanged", "why_tests_cant": "Every tree and every choice of nodes.", "anchors": ["artemis/interactions_methods/model_specific/random_forest/_conditional_minimal_depth.py:_calculate_conditional_minimal_depths", "artemis/interactions_methods/model_specific/random_forest/_conditional_minimal_depth.py:_conditional_minimal_depth", "artemis/interactions_methods/model_specific/random_forest/_conditional_minimal_depth.py:_summarise_results", "artemis/importance_methods/model_specific/_minimal_depth.py:importance"]}
{"id": "C95", "title": "The numbering of nodes does not matter for minimal depth", "statement": "How scikit-learn numbers the nodes of a tree (depth-first by default, best-first with max_leaf_nodes) affects neither the interaction table nor the importance table.", "quantifier": "every forest, every numbering of the nodes of its trees that gives the root number 0", "why_tests_cant": "Every tree and every numbering; which one occurs depends on a training option of the forest.", "anchors": ["artemis/interactions_methods/model_specific/random_forest/_conditional_minimal_depth.py:fit", "artemis/interactions_methods/model_specific/random_forest/_conditional_minimal_depth.py:_calculate_conditional_minimal_depths", "artemis/interactions_methods/model_specific/random_forest/_conditional_minimal_depth.py:_conditional_minimal_depth", "artemis/importance_methods/model_specific/_minimal_depth.py:importance"]}
{"id": "C96", "title": "Range of conditional minimal depth and of minimal depth", "statement": "The value of an ordered pair is missing exactly if no tree uses both features. Otherwise it lies between 0 and the height of the highest tree and is 0 exactly if in every tree that uses both the second feature is split on directly below a shallowest split on the first. n_occurences is at most the number of trees that use both. Importance lies between 0 and the height of the highest tree minus one and is 0 exactly if every tree using the feature splits on it at the root.", "quantifier": "every forest whose trees are numbered depth-first (any numbering for importance), every ordered pair of features", "why_tests_cant": "Bounds over all forests.", "anchors": ["artemis/interactions_methods/model_specific/random_forest/_conditional_minimal_depth.py:fit", "artemis/interactions_methods/model_specific/random_forest/_conditional_minimal_depth.py:_summarise_results", "artemis/importance_methods/model_specific/_minimal_depth.py:importance"]}
{"id": "C97", "title": "The same boosted trees give the same split scores, whatever the library and the listing", "statement": "Two models, of the same or of different supported libraries, that hold the same trees - in another order, every tree repeated n times, with any number of boosting rounds that found no split among them, features renamed, nodes with other IDs, left and right exchanged anywhere - complete fit alike and give the same interaction values pair by pair and the same importance feature by feature, with sums and root frequencies multiplied by n.", "quantifier": "every forest with no feature called Leaf, every listing of it by either library, every n, every metric available in both libraries", "why_tests_cant": "All forests and all ways to list them; the depths are given by one library and computed for the other.", "anchors": ["artemis/interactions_methods/model_specific/gb_trees/_split_score.py:fit", "artemis/interactions_methods/model_specific/gb_trees/_split_score.py:_prepare_stats", "artemis/interactions_methods/model_specific/gb_trees/_split_score.py:_get_summary", "artemis/interactions_methods/model_specific/gb_trees/_split_score.py:_get_ovo", "artemis/importance_methods/model_specific/_split_score.py:importance", "artemis/importance_methods/model_specific/_split_score.py:_calculate_all_feature_importance", "artemis/_utilities/_handler.py:_get_unified_trees_df"]}
{"id": "C98", "title": "Rescaling gains rescales the gain metrics only", "statement": "If all gains of a boosted forest are multiplied by the same positive number, the same pairs count as interactions, the metrics of gain are multiplied by that number and all other metrics of pairs and features stay what they were.", "quantifier": "every forest, every positive factor, every metric", "why_tests_cant": "Every forest and every factor.", "anchors": ["artemis/interactions_methods/model_specific/gb_trees/_split_score.py:fit", "artemis/interactions_methods/model_specific/gb_trees/_split_score.py:_prepare_stats", "artemis/interactions_methods/model_specific/gb_trees/_split_score.py:_get_summary", "artemis/interactions_methods/model_specific/gb_trees/_split_score.py:_get_ovo", "artemis/importance_methods/model_specific/_split_score.py:importance", "artemis/importance_methods/model_specific/_split_score.py:_calculate_root_metrics", "artemis/importance_methods/model_specific/_split_score.py:_calculate_mean_weighted_depth_metric"]}
{"id": "C99", "title": "PartialDependenceVisualizer.plot draws what was asked for", "statement": "plot opens one figure of the given size, draws on it the partial dependence of exactly the requested features for the model and data of the visualizer, with the grid resolution and all further options passed on unchanged, and sets the title.", "quantifier": "every model, data, features, grid resolution, title, size and options", "why_tests_cant": "Every combination of options; whether a call binds depends on the signature of a library function, not on one example.", "anchors": ["artemis/visualizer/_pdp_visualizer.py:plot"]}
{"id": "C100", "title": "The prediction function given to fit is the one explained", "statement": "If fit (or importance) is given a predict_function, the tables of pairs and features describe that function, whether or not a pd_calculator is supplied.", "quantifier": "every model, prediction function, data, features and calculator", "why_tests_cant": "Needs all combinations of functions and calculator histories; the wrong table looks plausible.", "anchors": ["artemis/interactions_methods/model_agnostic/partial_dependence_based/_pdp.py:fit", "artemis/importance_methods/model_agnostic/_pdp.py:importance", "artemis/_utilities/ops.py:get_predict_function"]}
{"id": "C101", "title": "n=k means: explain k different rows", "statement": "fit with n=k is the same as fit without n on k different rows of the data (with their labels): same outcome, same tables, X_sampled being these rows. If k exceeds the number of rows, ValueError is raised and all results stay as they were. The same for the stand-alone importance and the additivity index.", "quantifier": "every data set, k, generator state, model, prediction function, features and calculator", "why_tests_cant": "Every generator and data set; a test sees one sample.", "anchors": ["artemis/_utilities/ops.py:sample_if_not_none", "artemis/interactions_methods/model_agnostic/partial_dependence_based/_pdp.py:fit", "artemis/importance_methods/model_agnostic/_pdp.py:importance", "artemis/additivity/_additivity_meter.py:fit"]}
{"id": "C102", "title": "A method can be refitted with its own calculator", "statement": "After fit, fitting the same object again on the same model and data with pd_calculator=method.pd_calculator is accepted and gives the same tables.", "quantifier": "every model, data, n, features", "why_tests_cant": "Depends on the state of the random generator and on all earlier calls.", "anchors": ["artemis/interactions_methods/model_agnostic/partial_dependence_based/_pdp.py:fit", "artemis/_utilities/ops.py:sample_if_not_none"]}
{"id": "C103", "title": "A fitted object states what it was fitted on", "statement": "After a successful fit the attributes model, predict_function, X_sampled, features_included, pairs, pd_calculator (and y_sampled for Sejong Oh, additivity_index and preds for the additivity meter) are those of this fit and nothing is left from earlier ones; on a new object they are empty.", "quantifier": "every earlier state of the object and every successful call", "why_tests_cant": "Every history of the object.", "anchors": ["artemis/interactions_methods/model_agnostic/partial_dependence_based/_pdp.py:fit", "artemis/importance_methods/model_agnostic/_pdp.py:importance", "artemis/additivity/_additivity_meter.py:fit", "artemis/interactions_methods/model_agnostic/performance_based/_sejong_oh.py:fit"]}
{"id": "C104", "title": "Normalized H is a share of variance", "statement": "With normalized=True the strength of a pair lies between 0 and 1: it is the share of the variance of the joint partial dependence that the two single partial dependences leave unexplained, and 1 exactly when neither feature has an effect by itself. The same for one-vs-all with the variance of the predictions.", "quantifier": "every finite-valued model, data, features", "why_tests_cant": "Depends on how the features are distributed together; the examples of a test suite stay below 1.", "anchors": ["artemis/interactions_methods/model_agnostic/partial_dependence_based/_friedman_h_statistic.py:_calculate_ovo_interactions_from_pd", "artemis/interactions_methods/model_agnostic/partial_dependence_based/_friedman_h_statistic.py:_calculate_ova_interactions_from_pd"]}
{"id": "C105", "title": "The additivity index sums the shares of the features", "statement": "The additivity index is the sum over the features of the share of the variance of the predictions that the feature explains by itself.", "quantifier": "every finite-valued non-constant model and data", "why_tests_cant": "An identity of reals over all models and data.", "anchors": ["artemis/additivity/_additivity_meter.py:fit"]}
{"id": "C106", "title": "Results are on the scale of the predictions", "statement": "If all predictions lie between lo and hi (probabilities: 0 and 1), then importances based on partial dependence lie between 0 and half of hi-lo for numerical and a quarter for categorical features, Greenwell's values between 0 and half of hi-lo, and unnormalized H values between 0 and three halves of hi-lo.", "quantifier": "every model with predictions in the interval, data, features, options", "why_tests_cant": "An inequality over all models and data.", "anchors": ["artemis/interactions_methods/model_agnostic/partial_dependence_based/_friedman_h_statistic.py:_calculate_ovo_interactions_from_pd", "artemis/interactions_methods/model_agnostic/partial_dependence_based/_greenwell.py:_calculate_ovo_interactions_from_pd", "artemis/importance_methods/model_agnostic/_pdp.py:importance"]}
{"id": "C107", "title": "Range of performance based results", "statement": "With accuracy, permutation importances lie between a-1 and a where a is the accuracy of the model on the data, and Sejong Oh's values lie between 0 and 2. With MSE or RMSE no permutation importance lies below minus the error of the model.", "quantifier": "every model, targets, data, features, number of repetitions, generator", "why_tests_cant": "All random draws and data.", "anchors": ["artemis/importance_methods/model_agnostic/_permutational_importance.py:importance", "artemis/interactions_methods/model_agnostic/performance_based/_sejong_oh.py:fit", "artemis/_utilities/performance_metrics.py:Accuracy"]}
{"id": "C108", "title": "Number of model queries of the performance based methods", "statement": "With p features and r repetitions, SejongOhMethod.fit calls model.predict exactly 2 + r*(3*p*(p-1)/2 + p) times and PermutationImportance.importance 1 + r*p times, each time with as many rows as are explained.", "quantifier": "every model, data, number of features and repetitions, history", "why_tests_cant": "A count for all sizes.", "anchors": ["artemis/importance_methods/model_agnostic/_permutational_importance.py:importance", "artemis/interactions_methods/model_agnostic/performance_based/_sejong_oh.py:fit"]}
{"id": "C109", "title": "What a partial dependence calculation asks of the model", "statement": "A returning calculation on a partial dependence calculator that did not yet know anything about the requested features sends the model exactly the modified copies of the data that the definition needs, each once: for a single feature one copy of the data per distinct value; for all-but-one features one copy per row; for a pair one copy per distinct pair of values. Features already calculated are not asked again. In every case the rows sent are at most those of the requested features, and nothing else is asked.", "quantifier": "every model that scores rows independently, data, batch size, sequence of earlier calculations", "why_tests_cant": "All data, batch sizes and histories; a count over the full trace of model calls.", "anchors": ["artemis/_utilities/pd_calculator.py:calculate_pd_single", "artemis/_utilities/pd_calculator.py:calculate_pd_pairs", "artemis/_utilities/pd_calculator.py:calculate_pd_minus_single"]}
{"id": "C110", "title": "What fitting H-statistic and Greenwell asks of the model", "statement": "A returning fit without a given calculator scores, through its calculator, exactly the copies of the (sampled) data needed for the pairs of the chosen features, the single features and, for the H-statistic with calculate_ova, the all-but-one features, each once and nothing else; in particular only what the chosen features need. For the H-statistic with p features and n rows this is at most p(p-1)/2*n^2 rows, plus n per distinct value of a feature, plus p*n^2 with calculate_ova.", "quantifier": "every model with finite predictions, data, features, batch size, history of the object", "why_tests_cant": "A count over the complete trace of model calls for all data sizes.", "anchors": ["artemis/interactions_methods/model_agnostic/partial_dependence_based/_friedman_h_statistic.py:fit", "artemis/interactions_methods/model_agnostic/partial_dependence_based/_friedman_h_statistic.py:_calculate_ovo_interactions_from_pd", "artemis/interactions_methods/model_agnostic/partial_dependence_based/_friedman_h_statistic.py:_calculate_ova_interactions_from_pd", "artemis/interactions_methods/model_agnostic/partial_dependence_based/_greenwell.py:_calculate_ovo_interactions_from_pd", "artemis/importance_methods/model_agnostic/_pdp.py:_pdp_importance", "artemis/_utilities/pd_calculator.py:calculate_pd_single"]}
{"id": "C111", "title": "The random state is used for sampling only", "statement": "For the H-statistic, Greenwell's method, the stand-alone partial dependence importance and the additivity index: with n=None the random_state has no influence on any result and the generator of the object is left untouched; with n=k exactly one sample is drawn and nothing else, also when the call raises later, so that the next fit continues the stream; two generators drawing the same sample give the same outcome.", "quantifier": "every model, data, options, generator behaviour and state, returning and raising calls", "why_tests_cant": "All generators and states, and all points at which a call can fail.", "anchors": ["artemis/interactions_methods/model_agnostic/partial_dependence_based/_pdp.py:fit", "artemis/importance_methods/model_agnostic/_pdp.py:importance", "artemis/additivity/_additivity_meter.py:fit", "artemis/_utilities/ops.py:sample_if_not_none"]}
{"id": "C112", "title": "What a reported zero means", "statement": "For finite predictions: a pair value of the H-statistic, normalized or not, is 0 exactly when on all rows of the data the joint partial dependence is the sum of the two single ones plus a constant; a one-versus-all value is 0 exactly when the prediction is the sum of the partial dependences on the feature and on all others plus a constant; an importance is 0 exactly when the partial dependence is constant over the observed values; a Greenwell value is 0 exactly when the spread of the effect of each feature is the same at every observed value of the other.", "quantifier": "every model, non-empty data, feature selection, row of the tables", "why_tests_cant": "Both directions over all models and data; a zero could otherwise be produced by cancellation, by the NaN filling or by the normalization.", "anchors": ["artemis/interactions_methods/model_agnostic/partial_dependence_based/_friedman_h_statistic.py:_calculate_hstat_value", "artemis/interactions_methods/model_agnostic/partial_dependence_based/_greenwell.py:_calculate_ovo_interactions_from_pd", "artemis/importance_methods/model_agnostic/_pdp.py:_calc_importance"]}
{"id": "C113", "title": "A reused calculator never reports values of older data", "statement": "If the calculator of an earlier fit is handed to a later fit and accepted, the later fit reports what it would report with a calculator of its own for its data, also when the caller changed the data frame in place between the two fits.", "quantifier": "every model, data, in-place change of the frame between the fits, both methods, with and without sampling", "why_tests_cant": "All changes of the data and all sequences of fits; the check compares the frame with itself when the calculator shares it with the caller.", "anchors": ["artemis/interactions_methods/model_agnostic/partial_dependence_based/_pdp.py:fit", "artemis/_utilities/ops.py:sample_if_not_none", "artemis/_utilities/pd_calculator.py:PartialDependenceCalculator"]}
{"id": "C114", "title": "Main effects do not change interaction strength", "statement": "If to a model one adds a term without feature f and a term without feature f' (main effects, or interactions of other features), the reported interaction of f and f' on the same rows stays the same; and if one adds a function of f alone and a function without f, the reported interaction of f with all the others stays the same.", "quantifier": "every model, data, choice of the added terms and of the pair", "why_tests_cant": "Statement about all models, data and added terms.", "anchors": ["artemis/interactions_methods/model_agnostic/partial_dependence_based/_friedman_h_statistic.py:_calculate_hstat_value", "artemis/interactions_methods/model_agnostic/partial_dependence_based/_greenwell.py:_calculate_ovo_interactions_from_pd", "artemis/importance_methods/model_agnostic/_pdp.py:_calc_importance"]}
{"id": "C115", "title": "A mixture of models does not interact more than its members", "statement": "The interaction strength and the importance reported for a weighted mixture p*u + q*w of two models on the same rows are at most |p| times the value reported for u plus |q| times the value reported for w; so the mean of an ensemble never shows more than its strongest member.", "quantifier": "every two models, weights, data, pair or feature", "why_tests_cant": "An inequality over all models, weights and data.", "anchors": ["artemis/interactions_methods/model_agnostic/partial_dependence_based/_friedman_h_statistic.py:_calculate_hstat_value", "artemis/interactions_methods/model_agnostic/partial_dependence_based/_greenwell.py:_calculate_ovo_interactions_from_pd", "artemis/importance_methods/model_agnostic/_pdp.py:_calc_importance"]}
{"id": "C116", "title": "No data, no verdict", "statement": "Fitting a model-agnostic method (or the additivity meter) on data without rows - an empty frame, or n=0 - raises or reports NaN; it never reports a number, in particular not an interaction strength or importance of 0.", "quantifier": "every model, empty data with any columns, features, method and options", "why_tests_cant": "Depends on the interplay of empty arrays, NaN and the filling of missing values in every branch; fixtures always have rows.", "anchors": ["artemis/interactions_methods/model_agnostic/partial_dependence_based/_friedman_h_statistic.py:_calculate_hstat_value", "artemis/interactions_methods/model_agnostic/partial_dependence_based/_friedman_h_statistic.py:_calculate_ovo_interactions_from_pd", "artemis/interactions_methods/model_agnostic/partial_dependence_based/_greenwell.py:_calculate_ovo_interactions_from_pd", "artemis/importance_methods/model_agnostic/_pdp.py:_pdp_importance", "artemis/additivity/_additivity_meter.py:_calculate_additivity", "artemis/interactions_methods/model_agnostic/performance_based/_sejong_oh.py:_perf_based_ovo"]}
{"id": "C117", "title": "Undefined predictions are visible in the result", "statement": "If a prediction that enters a reported value is NaN or infinite, the value is reported as NaN or infinite (or the fit raises); it is not reported as an ordinary number such as 0.", "quantifier": "every model with some non-finite predictions, data, pair or feature, method", "why_tests_cant": "All positions and kinds of non-finite predictions; NaN propagates through sums, means and a final fillna.", "anchors": ["artemis/interactions_methods/model_agnostic/partial_dependence_based/_friedman_h_statistic.py:_calculate_hstat_value", "artemis/interactions_methods/model_agnostic/partial_dependence_based/_friedman_h_statistic.py:_calculate_ova_interactions_from_pd", "artemis/importance_methods/model_agnostic/_pdp.py:_pdp_importance", "artemis/additivity/_additivity_meter.py:_calculate_additivity", "artemis/interactions_methods/model_agnostic/performance_based/_sejong_oh.py:_inter"]}
{"id": "C118", "title": "The model is only asked about mixtures of observed values", "statement": "Every row that a model-agnostic method, the additivity meter or the partial dependence calculator asks the model about takes each of its values from the same column of the (drawn) data; no method extrapolates outside the observed values of a column, also when it ends with an exception.", "quantifier": "every model (including ones that raise or change their answers), data, sample, batch size, features, history of calculations, method and options", "why_tests_cant": "A claim about every row of every model call over all inputs, histories and exceptional exits.", "anchors": ["artemis/_utilities/pd_calculator.py:calculate_pd_single", "artemis/_utilities/pd_calculator.py:calculate_pd_pairs", "artemis/_utilities/pd_calculator.py:calculate_pd_minus_single", "artemis/interactions_methods/model_agnostic/partial_dependence_based/_pdp.py:fit", "artemis/additivity/_additivity_meter.py:_calculate_additivity", "artemis/interactions_methods/model_agnostic/performance_based/_sejong_oh.py:_permute_score", "artemis/importance_methods/model_agnostic/_permutational_importance.py:_corrupted_scores"]}
{"id": "C119", "title": "Models that agree on mixtures of observed values are explained alike", "statement": "Two models that answer alike (the same predictions or the same exception) on every row whose values all occur in the same column of the drawn data give the same outcome and the same tables with every model-agnostic method, the additivity meter and the partial dependence calculator. Agreement on the data rows alone is not enough.", "quantifier": "every pair of models, data, sample, features, method and options, history of calculations", "why_tests_cant": "A relation between two runs with arbitrary, possibly failing and stateful models.", "anchors": ["artemis/_utilities/pd_calculator.py:PartialDependenceCalculator", "artemis/interactions_methods/model_agnostic/partial_dependence_based/_friedman_h_statistic.py:fit", "artemis/interactions_methods/model_agnostic/partial_dependence_based/_greenwell.py:fit", "artemis/additivity/_additivity_meter.py:fit", "artemis/interactions_methods/model_agnostic/performance_based/_sejong_oh.py:fit", "artemis/importance_methods/model_agnostic/_permutational_importance.py:importance"]}
{"id": "C120", "title": "Missing feature values are rejected by the methods based on partial dependence", "statement": "If the (drawn) data have a missing value (NaN) in any column, requested or not, the H-statistic, Greenwell's method, the stand-alone partial dependence importance and the additivity meter raise, and no importance table, one-versus-all table or additivity index is written; with a calculator built by the call the exception is IndexError unless the model itself raised. No partial dependence is ever stored for a missing value. On data without missing values nothing changes.", "quantifier": "every data set with at least one missing value, model (also raising or changing its answers), feature list, sample, batch size, history of a supplied calculator", "why_tests_cant": "Where the missing value sits, which columns are requested, what was computed before and where batches end can all vary; a test fixes them.", "anchors": ["artemis/_utilities/pd_calculator.py:get_index", "artemis/_utilities/pd_calculator.py:calculate_pd_single", "artemis/interactions_methods/model_agnostic/partial_dependence_based/_pdp.py:fit", "artemis/interactions_methods/model_agnostic/partial_dependence_based/_friedman_h_statistic.py:fit", "artemis/interactions_methods/model_agnostic/partial_dependence_based/_greenwell.py:fit", "artemis/importance_methods/model_agnostic/_pdp.py:importance", "artemis/additivity/_additivity_meter.py:fit"]}
{"id": "C121", "title": "The permutation methods work whenever the model can predict", "statement": "Let the model return one prediction per row and the metric be defined on the targets and such predictions. Then Sejong Oh's method and the stand-alone permutation importance return a table for every non-empty list of known features (also with repeated names, missing values, constant columns, any number of repetitions), and end with KeyError for an empty list or, with at least one repetition, for a list naming an unknown column.", "quantifier": "every data set, targets, model, metric, feature list, number of repetitions, generator, sample", "why_tests_cant": "Absence of exceptions for all inputs.", "anchors": ["artemis/interactions_methods/model_agnostic/performance_based/_sejong_oh.py:fit", "artemis/interactions_methods/model_agnostic/performance_based/_sejong_oh.py:_permute_score", "artemis/importance_methods/model_agnostic/_permutational_importance.py:importance", "artemis/importance_methods/model_agnostic/_permutational_importance.py:_corrupted_scores"]}
{"id": "C122", "title": "The results of the additivity meter belong together", "statement": "After AdditivityMeter.fit returned, full_result has the columns of the (drawn) data, each holding row by row the centred partial dependence at the value in that row, followed by the centred predictions; preds holds the predictions on the same rows and the stored index is the value returned; nothing of an earlier fit is left. If fit raises, the index, full_result and preds still describe one and the same fit.", "quantifier": "every finite model, data set, sample, supplied calculator and its history, and every earlier use of the object; for the second sentence every model, raising or not, and every place where the exception occurs", "why_tests_cant": "The exception can occur at any of the columns and batches and with any earlier state; the first sentence is an equation for all models and data.", "anchors": ["artemis/additivity/_additivity_meter.py:fit", "artemis/additivity/_additivity_meter.py:_calculate_additivity"]}
{"id": "C123", "title": "Row labels do not matter", "statement": "Explaining the same rows under other row labels (the index of X; of X and y together for the performance based methods) gives the same outcome: the same exception or the same interaction, one-versus-all and importance tables, additivity index and full result, the same frames scored by the metric, and the random generator in the same state.", "quantifier": "every model (also one that raises), data, sample size, seed, feature list and pair of labellings, also by labels of different types; for Sejong Oh's method with a sample the targets must fit the labels (a Series with the labels of X, or an array beside 0, 1, 2, ...)", "why_tests_cant": "It compares two executions for all labellings; a test can try a few index types only.", "anchors": ["artemis/interactions_methods/model_agnostic/partial_dependence_based/_pdp.py:fit", "artemis/interactions_methods/model_agnostic/partial_dependence_based/_friedman_h_statistic.py:fit", "artemis/interactions_methods/model_agnostic/partial_dependence_based/_greenwell.py:fit", "artemis/interactions_methods/model_agnostic/performance_based/_sejong_oh.py:fit", "artemis/importance_methods/model_agnostic/_pdp.py:importance", "artemis/importance_methods/model_agnostic/_permutational_importance.py:importance", "artemis/additivity/_additivity_meter.py:fit", "artemis/_utilities/ops.py:sample_both_if_not_none"]}
{"id": "C124", "title": "Which column names the partial dependence methods accept", "statement": "If every column of the data has a string other than 'self' as its name, the H-statistic, Greenwell's method, PartialDependenceBasedImportance and the additivity meter work as described elsewhere. If the (drawn, non-empty) data have any other column - also one that is not among the requested features - these methods raise, without writing an importance table, a one-versus-all table or an additivity index. The exception is TypeError unless the same call would have failed with accepted names as well. They never return numbers computed with a wrongly named column.", "quantifier": "every model (also one that raises), every data set, sample, feature list, batch size, one-versus-all flag, earlier state of the object, supplied calculator and its history of calls", "why_tests_cant": "The exception can occur at any pair, column or batch, before or after the model was called; the claim is about all places and all earlier states.", "anchors": ["artemis/_utilities/pd_calculator.py:calculate_pd_single", "artemis/_utilities/pd_calculator.py:calculate_pd_pairs", "artemis/_utilities/pd_calculator.py:calculate_pd_minus_single", "artemis/interactions_methods/model_agnostic/partial_dependence_based/_pdp.py:fit", "artemis/interactions_methods/model_agnostic/partial_dependence_based/_friedman_h_statistic.py:fit", "artemis/importance_methods/model_agnostic/_pdp.py:importance", "artemis/additivity/_additivity_meter.py:fit"]}
{"id": "C125", "title": "top_k and n_highest_with_labels are maxima", "statement": "A bar chart drawn with top_k = k shows the first k rows of its table, all rows if there are at most k, never more than k; a graph labels at most n_highest_with_labels edges.", "quantifier": "every result table, every method that offers the plot, every integer limit, all other plot options", "why_tests_cant": "The claim is about all tables and all integers, including limits of zero, negative limits and limits beyond the table.", "anchors": ["artemis/visualizer/_visualizer.py:plot", "artemis/interactions_methods/_method.py:plot"]}
{"id": "C126", "title": "Drawing never changes results", "statement": "Plotting - of any kind, with any options, successful or raising an exception, once or in any series of calls on any number of fitted objects - changes no result table: neither the tables of the plotted object nor those of other objects, also when objects share tables. A plot shows the same picture however often and after whatever other plots it is drawn; the picture depends only on the contents of the tables, not on which tables are shared.", "quantifier": "every memory of table objects, every assignment of tables to method objects including sharing, every series of plot calls with any options", "why_tests_cant": "Aliasing: a missing copy shows only in particular sequences of plots, tables and options; the claim is about all of them.", "anchors": ["artemis/visualizer/_visualizer.py:plot", "artemis/interactions_methods/_method.py:plot"]}
{"id": "C127", "title": "What was fitted can be plotted and compared whatever the columns are called", "statement": "If a method was fitted, its plots and its rank correlation with another method can be drawn or computed for data with any column names, for example the numbers of pd.DataFrame(array).", "quantifier": "every result table, every set of column names, every kind of plot and correlation, every second method", "why_tests_cant": "Whether a name is used as a string depends on the kind of plot, on the values (rows without a number are not in the matrix), and on the options; the claim is about all of them.", "anchors": ["artemis/visualizer/_visualizer.py:plot", "artemis/interactions_methods/_method.py:plot", "artemis/comparison/_method_comparator.py:correlation"]}
{"id": "C128", "title": "A wrong number of predictions is noticed", "statement": "If the model or predict function returns, for the data, a number of predictions different from the number of rows, then fitting raises an exception instead of reporting numbers, and results of earlier fits stay.", "quantifier": "every method that calls the model, every model, data set and earlier state", "why_tests_cant": "Which slice of a batch of predictions is used depends on batch size, features and data; the claim is about all prediction functions.", "anchors": ["artemis/additivity/_additivity_meter.py:fit", "artemis/interactions_methods/model_agnostic/performance_based/_sejong_oh.py:fit", "artemis/importance_methods/model_agnostic/_permutational_importance.py:importance", "artemis/_utilities/pd_calculator.py:fill_pd_single"]}
{"id": "C129", "title": "A request for unknown or repeated features is refused", "statement": "If the features argument of fit (or importance) names a feature that is not a column of the data, or names a feature twice, the call raises an exception and no interaction of a feature with itself or with something unknown is ever reported; the table of interactions of an earlier fit stays.", "quantifier": "every method with a features argument, every feature list, model, data set, generator and earlier state", "why_tests_cant": "Feature lists, data and prediction functions are unbounded; whether a pair table exists for a request depends on the history of the calculator.", "anchors": ["artemis/interactions_methods/model_agnostic/partial_dependence_based/_pdp.py:fit", "artemis/_utilities/pd_calculator.py:_get_pair_key", "artemis/importance_methods/model_agnostic/_pdp.py:importance", "artemis/interactions_methods/model_agnostic/performance_based/_sejong_oh.py:fit", "artemis/importance_methods/model_specific/_split_score.py:_calculate_all_feature_importance"]}
{"id": "C130", "title": "Darker cells of the heatmap mean stronger", "statement": "In the heatmap drawn by plot with the default colours, alone or as part of the summary, the darker of two cells off the diagonal shows the stronger interaction and the darker of two diagonal cells the more important feature, where for conditional minimal depth and for the depth metrics of split score smaller values mean stronger and more important; equal values have equal colours.", "quantifier": "every method, every fitted state without infinite values, every pair of cells", "why_tests_cant": "All tables; the direction depends on the method and on the metrics chosen at fit time.", "anchors": ["artemis/visualizer/_visualizer.py:plot_heatmap", "artemis/visualizer/_visualizer.py:plot_summary", "artemis/visualizer/_configuration.py:InteractionMatrixConfiguration", "artemis/importance_methods/model_specific/_minimal_depth.py:importance_ascending_order"]}
{"id": "C131", "title": "Explaining leaves the caller's data alone", "statement": "Fitting the performance based method, computing permutation importances and measuring additivity permute and overwrite columns of copies only: whether the call returns or raises, every data frame that existed before has the same contents afterwards, as long as the model does not change the frames it is asked about. If it does, at most the frame passed to the call can change, and with n not even that one. X_sampled is the caller's own frame exactly when no sample was drawn, and the results are those of the computation on the contents.", "quantifier": "every model, data, target, metric, generator and argument, every memory, every outcome", "why_tests_cant": "A missing copy does not change any returned number, and exceptions can leave a half-permuted frame; all frames and all points of failure matter.", "anchors": ["artemis/interactions_methods/model_agnostic/performance_based/_sejong_oh.py:_permute_score", "artemis/importance_methods/model_agnostic/_permutational_importance.py:_corrupted_scores", "artemis/additivity/_additivity_meter.py:fit", "artemis/_utilities/ops.py:sample_both_if_not_none"]}
{"id": "C132", "title": "Arrays returned by the partial dependence calculator", "statement": "What a caller does with an array that get_pd_single, get_pd_pairs or get_pd_minus_single returned does not change what the calculator answers later. Arrays returned by lookups with explicit values are the caller's own and keep the answers of the time of the lookup; arrays returned without values show, at any later time, what the same lookup would return then.", "quantifier": "every prediction function, data set, batch size and every interleaving of calculations, lookups and writes into returned arrays, exceptions included", "why_tests_cant": "Aliasing only shows in particular interleavings of lookups, writes and later calculations, and there are unboundedly many of them.", "anchors": ["artemis/_utilities/pd_calculator.py:get_pd_single", "artemis/_utilities/pd_calculator.py:get_pd_pairs", "artemis/_utilities/pd_calculator.py:get_pd_minus_single", "artemis/_utilities/pd_calculator.py:calculate_pd_single"]}
{"id": "C133", "title": "Fitting the partial dependence based methods leaves the caller's data alone", "statement": "Fitting FriedmanHStatisticMethod or GreenwellMethod changes no data frame the caller holds, even if the prediction function changes the frames it is given in place, and the results are those for the data the caller passed.", "quantifier": "every data set, model, prediction function (including ones that modify their argument), sample size, feature list, batch size and supplied calculator; successful and failing fits", "why_tests_cant": "Tests use prediction functions that do not modify their argument; which object is handed to the prediction function and read again afterwards depends on options and on the order of calls.", "anchors": ["artemis/interactions_methods/model_agnostic/partial_dependence_based/_pdp.py:fit", "artemis/interactions_methods/model_agnostic/partial_dependence_based/_friedman_h_statistic.py:_calculate_ova_interactions_from_pd", "artemis/_utilities/pd_calculator.py:fill_pd_single", "artemis/_utilities/ops.py:sample_if_not_none"]}
{"id": "C134", "title": "Models that nearly agree are explained nearly alike", "statement": "If the predictions of two models differ by at most eps on rows mixing observed values, everything computed from them on the same data (and random numbers) differs by at most a fixed multiple of eps: eps for each partial dependence value, 3 eps for the unnormalized H-statistic of a pair or of one feature against the rest, eps (numerical) or eps/2 (categorical) for partial dependence importance, 2 eps for Greenwell's measure, 2 eps for permutation importance and 4 eps for Sejong Oh's measure with RMSE, and some multiple of eps for the normalized H-statistic and the additivity index.", "quantifier": "every data set, pair of finite row-wise models, eps, pair of features, feature list, batch size, calculator history, number of repetitions, lawful random generator", "why_tests_cant": "A bound that holds for all pairs of models within eps cannot be sampled; tests compare single models with stored numbers, and would need a tolerance without knowing how rounding in the model propagates.", "anchors": ["artemis/interactions_methods/model_agnostic/partial_dependence_based/_friedman_h_statistic.py:_calculate_hstat_value", "artemis/interactions_methods/model_agnostic/partial_dependence_based/_greenwell.py:_calculate_ovo_interactions_from_pd", "artemis/interactions_methods/model_agnostic/performance_based/_sejong_oh.py:_inter", "artemis/importance_methods/model_agnostic/_permutational_importance.py:_permutation_importance", "artemis/_utilities/pd_calculator.py:calculate_pd_single"]}
{"id": "C135", "title": "What is in a column the model does not use does not matter", "statement": "If two data sets agree row by row outside some columns and the model's predictions do not depend on those columns, the explanations are the same: every pair and every feature shows the same H-statistic (normalized or not), features outside those columns show the same Greenwell measure and partial dependence importance, the additivity index is the same even if such columns are added or dropped, and with the same targets and random state permutation importance and Sejong Oh's table are the same, also when rows are sampled.", "quantifier": "every pair of data sets agreeing outside a list of columns, every finite model not depending on them, feature lists, batch sizes, calculator histories, sample sizes, metrics, numbers of repetitions, lawful random generators", "why_tests_cant": "The contents of the unused columns range over everything; a test can only try a few and would miss a dependence on, say, the number of distinct values or the order of columns.", "anchors": ["artemis/interactions_methods/model_agnostic/partial_dependence_based/_friedman_h_statistic.py:_calculate_hstat_value", "artemis/interactions_methods/model_agnostic/partial_dependence_based/_greenwell.py:_calculate_ovo_interactions_from_pd", "artemis/interactions_methods/model_agnostic/performance_based/_sejong_oh.py:_inter", "artemis/importance_methods/model_agnostic/_permutational_importance.py:_permutation_importance", "artemis/additivity/_additivity_meter.py:fit", "artemis/_utilities/ops.py:sample_if_not_none"]}
{"id": "C136", "title": "Boosting rounds add up", "statement": "For a boosted model whose trees are those of one model followed by those of another: a feature pair is listed in full_ovo iff one of the two lists it; its frequency, sum_gain and sum_cover are the sums of theirs; its means, weighted by frequency, add up, so a mean metric in ovo lies between those of the two models; for importance, sum_gain, sum_cover and root_frequency of a feature add up (missing read as 0) and so do mean weighted depths times sum_gain.", "quantifier": "every two boosted forests of one library and every listing of their trees and of the trees together; both values of only_def_interactions; every metric", "why_tests_cant": "All forests, of any size and shape, and all ways of cutting them in two; a test sees a few trained models.", "anchors": ["artemis/interactions_methods/model_specific/gb_trees/_split_score.py:_get_summary", "artemis/interactions_methods/model_specific/gb_trees/_split_score.py:_prepare_stats", "artemis/interactions_methods/model_specific/gb_trees/_split_score.py:_get_ovo", "artemis/importance_methods/model_specific/_split_score.py:_calculate_basic_metrics"]}
{"id": "C137", "title": "Growing a random forest", "statement": "For a random forest whose trees are those of one forest followed by those of another with the same features: n_occurences of every ordered pair is the sum of the two; its conditional minimal depth is the mean of the two weighted by the numbers of trees using both features, hence between them, and equal to the other one if no tree of one forest uses both; minimal depth importance lists a feature iff one of the two forests does, with the same kind of mean.", "quantifier": "every two forests over the same features with any trees; every ordered pair and every feature", "why_tests_cant": "All forests of any size and shape and all ways of cutting them in two; a test sees a few trained models.", "anchors": ["artemis/interactions_methods/model_specific/random_forest/_conditional_minimal_depth.py:_calculate_conditional_minimal_depths", "artemis/interactions_methods/model_specific/random_forest/_conditional_minimal_depth.py:_summarise_results", "artemis/importance_methods/model_specific/_minimal_depth.py:importance"]}
{"id": "C138", "title": "Pairwise strength, one-versus-all strength and additivity index agree", "statement": "For finite predictions: if a feature interacts with at most one other one, its unnormalized one-versus-all H equals its unnormalized H with that one; if the model uses two features only, both have the one-versus-all H that they have as a pair, normalized or not, and the additivity index plus the normalized H of the pair is at most 1, exactly 1 if the two vary independently in the data.", "quantifier": "every model of the kind described, non-empty data with any further columns, feature selection, batch size, calculator history", "why_tests_cant": "Relates results of different computations for all models and data; a test can compare them on a few models only.", "anchors": ["artemis/interactions_methods/model_agnostic/partial_dependence_based/_friedman_h_statistic.py:FriedmanHStatisticMethod", "artemis/additivity/_additivity_meter.py:AdditivityMeter"]}
{"id": "C139", "title": "The split score tables account for the same splits", "statement": "For a boosted model with positive gains: the frequencies of the pairs in full_ovo that have a feature as child, plus its root_frequency, add up to at most the number of its splits (sum_gain divided by mean_gain) and exactly to it with only_def_interactions=False; the gains of these pairs add up to at most its sum_gain, and exactly to it if in addition it is never a root; the pairs with a feature as parent have frequencies adding up to at most twice the number of its splits; every pair listed with only_def_interactions=True is listed with False, with at least its frequency and sum_gain.", "quantifier": "every boosted forest of either library, metric, both values of only_def_interactions", "why_tests_cant": "All forests of any size and shape; relates two tables computed by different code paths.", "anchors": ["artemis/interactions_methods/model_specific/gb_trees/_split_score.py:_get_summary", "artemis/interactions_methods/model_specific/gb_trees/_split_score.py:_prepare_stats", "artemis/importance_methods/model_specific/_split_score.py:_calculate_root_metrics", "artemis/importance_methods/model_specific/_split_score.py:_calculate_basic_metrics"]}
{"id": "C140", "title": "On complete designs strengths are shares of one whole", "statement": "If the data hold every combination of some levels of the columns: every normalized H-statistic, of a pair or one-versus-all, lies between 0 and 1; the squares of the unnormalized strengths of the pairs a feature is in add up to at most the square of its unnormalized one-versus-all strength; the additivity index plus the squares of the unnormalized strengths of all pairs, each divided by the variance of the predictions, is at most 1; and one minus the index is at most half the sum of the squares of the unnormalized one-versus-all strengths of all columns, each divided by that variance.", "quantifier": "every model with finite predictions (not constant, for the last part), every complete design with any number of columns and levels, rows in any order, every choice of features", "why_tests_cant": "All models, designs of every size; relates results of separate computations.", "anchors": ["artemis/interactions_methods/model_agnostic/partial_dependence_based/_friedman_h_statistic.py:FriedmanHStatisticMethod", "artemis/interactions_methods/model_agnostic/partial_dependence_based/_friedman_h_statistic.py:_calculate_hstat_value", "artemis/additivity/_additivity_meter.py:AdditivityMeter"]}
{"id": "C141", "title": "Comparisons depend on the rankings only", "statement": "If two methods list the same pairs in the same order as two others, their correlations are the same whatever the values; in particular, when the tables have no ties, no correlation between two partial-dependence methods changes if the predictions p of the model are replaced by c*p + d (c not 0) and both methods are fitted again.", "quantifier": "every comparable tables, every correlation; every model with finite predictions, c, d, kinds of the two methods and order of the chosen features", "why_tests_cant": "All tables, models and scales; relates four separate fits.", "anchors": ["artemis/comparison/_method_comparator.py:_rank_interaction_values_encoded", "artemis/comparison/_method_comparator.py:correlation", "artemis/interactions_methods/model_agnostic/partial_dependence_based/_pdp.py:PartialDependenceBasedMethod"]}
{"id": "C142", "title": "Strengths are never negative or NaN in floating-point arithmetic", "statement": "With every operation rounded, sums taken in any order, and predictions that may be infinite or NaN, the three tables of a fitted Friedman H-statistic method (pairs, one versus all, importance) contain no NaN and no negative value and are sorted from strongest to weakest.", "quantifier": "every arithmetic whose rounding keeps non-negative numbers non-negative, every order of summation, prediction function, data, features, batch size, normalized or not", "why_tests_cant": "Covers every rounding mode, summation order and prediction, overflow included; tests run on one machine arithmetic and few data sets.", "anchors": ["artemis/interactions_methods/model_agnostic/partial_dependence_based/_friedman_h_statistic.py:_calculate_hstat_value", "artemis/interactions_methods/model_agnostic/partial_dependence_based/_friedman_h_statistic.py:_calculate_ovo_interactions_from_pd", "artemis/interactions_methods/model_agnostic/partial_dependence_based/_friedman_h_statistic.py:_calculate_ova_interactions_from_pd", "artemis/importance_methods/model_agnostic/_pdp.py:_calc_importance", "artemis/_utilities/ops.py:center"]}
{"id": "C143", "title": "Rounding moves strengths by a bounded amount", "statement": "For a model with finite predictions of size at most M, the values of a Friedman H-statistic method computed in floating-point arithmetic are finite and close to the exact ones: with e = rows*u*M (u the unit roundoff) the unnormalized strengths are within 166 e of the exact root mean squares, importances within 53 e, pairs further apart than 332 e are listed in the right order, and a normalized strength is the squared quotient of two numbers within 166 e and 53 e of the exact ones when the denominator exceeds 53 e. Binary64 qualifies for up to 2^47 rows and M between 2^-480 and 2^480.", "quantifier": "every arithmetic with a relative error bound u, every order of summation, model, data, features, batch size", "why_tests_cant": "A worst-case bound over all data, models and summation orders; a test sees one rounding pattern.", "anchors": ["artemis/interactions_methods/model_agnostic/partial_dependence_based/_friedman_h_statistic.py:_calculate_hstat_value", "artemis/interactions_methods/model_agnostic/partial_dependence_based/_friedman_h_statistic.py:_calculate_ovo_interactions_from_pd", "artemis/interactions_methods/model_agnostic/partial_dependence_based/_friedman_h_statistic.py:_calculate_ova_interactions_from_pd", "artemis/importance_methods/model_agnostic/_pdp.py:_calc_importance", "artemis/_utilities/ops.py:center"]}
{"id": "C144", "title": "Pairs that do not interact show no interaction in floating-point arithmetic", "statement": "If two features enter the model through separate terms, their strength computed in floating-point arithmetic is zero up to a small multiple of the rounding unit.", "quantifier": "every model, data, pair of features, arithmetic", "why_tests_cant": "Depends on cancellation of rounding errors that differs with every data set; shown to fail for normalized strengths of (nearly) constant partial dependence.", "anchors": ["artemis/interactions_methods/model_agnostic/partial_dependence_based/_friedman_h_statistic.py:_calculate_hstat_value", "artemis/interactions_methods/model_agnostic/partial_dependence_based/_friedman_h_statistic.py:_calculate_ovo_interactions_from_pd", "artemis/interactions_methods/model_agnostic/partial_dependence_based/_friedman_h_statistic.py:_calculate_ova_interactions_from_pd", "artemis/importance_methods/model_agnostic/_pdp.py:_calc_importance", "artemis/_utilities/ops.py:center"]}
{"id": "C145", "title": "Rounding moves Greenwell's measure by a bounded amount", "statement": "For a model with finite predictions of size at most M, when each included feature takes at least two values, a Greenwell fit in floating-point arithmetic returns a table with a row for every pair; each value is finite and within 96 e + 3 k of the exact measure, with e = rows*u*M (u the unit roundoff) and k the error of the standard deviation routine; pairs further apart than twice that are listed in the right order.", "quantifier": "every arithmetic with a relative error bound u, every order of summation, standard deviation routine with error k, model, data, features, dtypes, batch size", "why_tests_cant": "A worst-case bound over all data, models and summation orders; a test sees one rounding pattern.", "anchors": ["artemis/interactions_methods/model_agnostic/partial_dependence_based/_greenwell.py:_calculate_ovo_interactions_from_pd", "artemis/interactions_methods/model_agnostic/partial_dependence_based/_greenwell.py:_calc_conditional_imp"]}
{"id": "C146", "title": "Greenwell's measure is exactly zero for features the model ignores, rounding notwithstanding", "statement": "If the model does not depend on a feature, every pair containing it shows exactly 0 in Greenwell's table in floating-point arithmetic, because equal partial dependences are computed from equal predictions in the same order.", "quantifier": "every model, data, dtypes, features, batch size, arithmetic and summation order, standard deviation routine that returns 0 for equal numbers", "why_tests_cant": "Exact cancellation has to hold for every data set, batch boundary and rounding pattern; the normalized H-statistic does not have this property (C144).", "anchors": ["artemis/interactions_methods/model_agnostic/partial_dependence_based/_greenwell.py:_calculate_ovo_interactions_from_pd", "artemis/interactions_methods/model_agnostic/partial_dependence_based/_greenwell.py:_calc_conditional_imp"]}
{"id": "C147", "title": "A feature the model ignores has importance zero in floating-point arithmetic", "statement": "If the model does not depend on an included feature, its partial dependence based importance is exactly 0.", "quantifier": "every model, data, dtype of the feature, arithmetic and summation order", "why_tests_cant": "Holds on many data sets and fails on others, depending on how the mean of equal numbers rounds.", "anchors": ["artemis/importance_methods/model_agnostic/_pdp.py:_calc_importance", "artemis/importance_methods/model_agnostic/_pdp.py:_pdp_importance"]}
{"id": "C148", "title": "The additivity index never exceeds 1, in floating-point arithmetic too", "statement": "Whatever the model predicts (infinite values and NaN included), however the sums are grouped and rounded, an additivity meter that returns does not return a number above 1: the index is a number up to 1, minus infinity or NaN.", "quantifier": "every prediction function, data, batch size, IEEE-like arithmetic and summation order", "why_tests_cant": "Rounding errors could push a quotient or difference past 1 for some data; no sample of inputs rules this out.", "anchors": ["artemis/additivity/_additivity_meter.py:_calculate_additivity"]}
{"id": "C149", "title": "Rounding moves the additivity index by a bounded amount", "statement": "For a model with finite predictions of size at most M whose centred predictions vary by D in root mean square, D > 53 e with e = n*u*M and n the larger of the numbers of rows and columns, the computed index is finite and equals 1 - (R'/D')^2 up to two roundings, where R' is within 77 (columns+1) e of the exact residual and D' within 53 e of D.", "quantifier": "every arithmetic with a relative error bound u, every order of summation, model, data, batch size", "why_tests_cant": "A worst-case bound over all data, models and summation orders; a test sees one rounding pattern.", "anchors": ["artemis/additivity/_additivity_meter.py:_calculate_additivity"]}
{"id": "C150", "title": "An additive model has index 1 up to rounding", "statement": "A model that is a sum of functions of single columns, up to a small error, gets an additivity index of 1 up to a small error in floating-point arithmetic.", "quantifier": "every additive model, data, arithmetic and summation order", "why_tests_cant": "Holds whenever the predictions vary enough and fails for models that hardly vary; where the border lies is a statement about all data.", "anchors": ["artemis/additivity/_additivity_meter.py:_calculate_additivity"]}
{"id": "C151", "title": "Whether a Greenwell fit fails depends on the data only, not on the predictions or rounding", "statement": "With a prediction function that does not raise, at least one row and different existing features, a Greenwell fit in floating-point arithmetic raises StatisticsError exactly if at least two features are included and one of them has a single value in the data; otherwise it returns, even if predictions are infinite or NaN (as far as statistics.stdev accepts them).", "quantifier": "every prediction function, data, dtypes, features, batch size, arithmetic, summation order and standard deviation routine", "why_tests_cant": "Quantifies over all data and over non-finite and overflowing predictions.", "anchors": ["artemis/interactions_methods/model_agnostic/partial_dependence_based/_greenwell.py:_calculate_ovo_interactions_from_pd", "artemis/interactions_methods/model_agnostic/partial_dependence_based/_greenwell.py:_calc_conditional_imp"]}
{"id": "C152", "title": "Greenwell's tables in floating-point arithmetic contain no negative values and no NaN and are sorted", "statement": "Whatever the prediction function returns, a Greenwell fit that returns has a pair table and an importance table without NaN and without negative values, strongest first.", "quantifier": "every prediction function, data, dtypes, features, batch size, arithmetic, summation order, standard deviation routine that does not return negative numbers", "why_tests_cant": "Quantifies over all predictions, infinite ones and NaN included, and all rounding patterns.", "anchors": ["artemis/interactions_methods/model_agnostic/partial_dependence_based/_greenwell.py:_calculate_ovo_interactions_from_pd", "artemis/interactions_methods/model_agnostic/partial_dependence_based/_greenwell.py:_calc_conditional_imp"]}
{"id": "C153", "title": "Sejong Oh pair values in floating-point arithmetic are never negative, sorted, and exactly 0 for pairs the model ignores", "statement": "Whatever the scores are (NaN, infinite or finite), after a successful fit every unordered pair of included features occurs once, its value is NaN or at least 0, and rows are in non-increasing order with NaN at the end. If the model ignores both features of a pair and the score of the data is finite, the value is exactly 0: no rounding error and no dependence on the order of summation.", "quantifier": "every model, metric, data, sample, generator, number of repetitions, arithmetic and summation order", "why_tests_cant": "Quantifies over all scores, random permutations and rounding patterns.", "anchors": ["artemis/interactions_methods/model_agnostic/performance_based/_sejong_oh.py:_perf_based_ovo", "artemis/interactions_methods/model_agnostic/performance_based/_sejong_oh.py:_inter", "artemis/interactions_methods/model_agnostic/performance_based/_sejong_oh.py:_permute_score"]}
{"id": "C154", "title": "Performance-based interaction values and permutation importances are close to the exact ones", "statement": "If no score of rearranged data exceeds m in size, then with n repetitions and relative precision u every pair value of Sejong Oh's method is within 54*n*u*m of the value computed without rounding from the same scores, the order of the table is the exact order up to twice that, and every permutation importance is within 11*n*u*m of the exact one; the model is asked the same questions.", "quantifier": "every model, metric, data, features, generator, number of repetitions, arithmetic with an error bound (binary64 is one), summation order", "why_tests_cant": "An error bound over all scores, permutations and summation orders.", "anchors": ["artemis/interactions_methods/model_agnostic/performance_based/_sejong_oh.py:_perf_based_ovo", "artemis/interactions_methods/model_agnostic/performance_based/_sejong_oh.py:_inter", "artemis/importance_methods/model_agnostic/_permutational_importance.py:_permutation_importance", "artemis/importance_methods/model_agnostic/_permutational_importance.py:_corrupted_scores"]}
{"id": "C155", "title": "A feature the model ignores has permutation importance 0 in floating-point arithmetic", "statement": "The permutation importance of a feature that the model ignores is exactly 0, also in floating-point arithmetic.", "quantifier": "every model, metric, data, generator, number of repetitions and arithmetic", "why_tests_cant": "Holds for most numbers of repetitions and scores; fails for particular ones.", "anchors": ["artemis/importance_methods/model_agnostic/_permutational_importance.py:_permutation_importance", "artemis/importance_methods/model_agnostic/_permutational_importance.py:_corrupted_scores"]}
{"id": "C156", "title": "No permutation importance of a perfect model is negative in floating-point arithmetic", "statement": "If the predictions for the data equal the targets, then with MSE, RMSE or Accuracy no permutation importance is negative, although every operation is rounded; for Accuracy the numbers of rows and repetitions must be represented exactly (below 2^53 in binary64).", "quantifier": "every model, data, features, generator, number of repetitions, arithmetic and summation order", "why_tests_cant": "Quantifies over all data, permutations and rounding patterns; C155 shows that negative rounding errors do occur for imperfect models.", "anchors": ["artemis/importance_methods/model_agnostic/_permutational_importance.py:_permutation_importance", "artemis/_utilities/performance_metrics.py:MSE", "artemis/_utilities/performance_metrics.py:RMSE", "artemis/_utilities/performance_metrics.py:Accuracy"]}
{"id": "C157", "title": "Conditional minimal depth values are correctly rounded means", "statement": "After fitting the conditional minimal depth method on a forest whose number of trees times number of nodes per tree stays below 2^53, every value in the table of pairs is the exact mean conditional depth rounded once, every occurrence count is exact, every importance is the exact mean minimal depth rounded once, and the tables are complete and sorted. There is no accumulated rounding error.", "quantifier": "every forest (any shape, number of trees and features), arithmetic in which whole numbers up to a bound are exact, summation order", "why_tests_cant": "Quantifies over all forests and rounding patterns.", "anchors": ["artemis/interactions_methods/model_specific/random_forest/_conditional_minimal_depth.py:_summarise_results", "artemis/importance_methods/model_specific/_minimal_depth.py:importance"]}
{"id": "C158", "title": "Rounding never changes the ranking of conditional minimal depth", "statement": "If the number of trees squared times the number of nodes of the largest tree (plus one) is at most 2^51, then the pair table and the importance table computed in binary64 are in the order of the exact means, and two values are equal only if the exact means are equal: rounding neither swaps nor ties rows.", "quantifier": "every forest within the bound; any arithmetic with an error bound satisfying the separation condition", "why_tests_cant": "A near-tie that rounding reverses would need a particular forest; the claim is that no forest in the range has one.", "anchors": ["artemis/interactions_methods/model_specific/random_forest/_conditional_minimal_depth.py:_summarise_results", "artemis/importance_methods/model_specific/_minimal_depth.py:importance"]}
{"id": "C159", "title": "Split score tables of interactions are accurate in floating-point arithmetic", "statement": "After fitting the split score method on an XGBoost or LightGBM model with N splits whose gains (and covers) are positive normal numbers, the table of all pairs has one row per ordered pair for which a split counts, counts are exact, mean depths are the exact means rounded once, sums and means of gains and covers have a relative error of at most 40 N u (u = 2^-53 in binary64). The table shown is sorted by the computed values in the direction of the metric; a pair that is stronger by more than the error bound is listed first, and for mean depth the ranking is exactly that of the exact means if 2 N^2 (u N + eta) < 1. The table of all pairs is sorted by the computed sums of gains, largest first.", "quantifier": "every forest, metric and package; arithmetic with an error bound; summation order of numpy; any group summation with the stated accuracy (pandas' compensated summation shown to be one)", "why_tests_cant": "Quantifies over all forests and rounding patterns.", "anchors": ["artemis/interactions_methods/model_specific/gb_trees/_split_score.py:_get_summary", "artemis/interactions_methods/model_specific/gb_trees/_split_score.py:_get_ovo", "artemis/interactions_methods/model_specific/gb_trees/_split_score.py:fit"]}
{"id": "C160", "title": "Split score importance completes and is accurate in floating-point arithmetic", "statement": "If all gains are positive normal numbers and totals are far from overflow, fitting the split score method completes in floating-point arithmetic (the weights of the weighted depth never add up to a computed zero), and the importance lists exactly the used features, each once, with exact root frequencies, mean depths rounded once and all other metrics within a relative error of 96 N u (plus underflow for the two weighted metrics), sorted by the computed values.", "quantifier": "every forest, metric, selection of features and package; any arithmetic with an error bound, binary64 for up to 2^26 splits", "why_tests_cant": "A weight sum that rounds to zero or an inaccurate quotient would need particular gains; the claim is that none exist in the range.", "anchors": ["artemis/importance_methods/model_specific/_split_score.py:_calculate_all_feature_importance", "artemis/importance_methods/model_specific/_split_score.py:_calculate_root_metrics", "artemis/importance_methods/model_specific/_split_score.py:_calculate_mean_weighted_depth_metric", "artemis/interactions_methods/model_specific/gb_trees/_split_score.py:fit"]}
{"id": "C161", "title": "Edge widths of the interaction graph are right in floating-point arithmetic", "statement": "For a method where larger is stronger, drawn from finite floats with at least two different ones left after thresholding and a threshold or values that are not negative: every computed width is a number between 0 and the maximal width, a stronger pair never gets a thinner edge, the strongest pair gets exactly the maximal width, a pair below the threshold gets exactly 0, and each width differs from the exact one by at most (10u + eta) W + eta (u = 2^-53 in binary64). For a method where smaller is stronger and values are not negative, widths are between 0 and the maximal width, and if the threshold removes a pair, values are positive and no quotient underflows, stronger kept pairs never get thinner edges and removed pairs get exactly 0.", "quantifier": "every table of pairs, threshold and maximal width; any floating-point arithmetic whose rounding keeps the order, 0 and 1 and has gradual underflow (binary64 shown to be one)", "why_tests_cant": "That no combination of roundings pushes a width above the maximum, reverses two edges or turns the range of the values into 0 cannot be sampled.", "anchors": ["artemis/visualizer/_visualizer.py:plot_interaction_graph", "artemis/visualizer/_visualizer.py:_interactions_to_edge_widths", "artemis/visualizer/_visualizer.py:_scale_to_unit_interval", "artemis/visualizer/_visualizer.py:_reverse_scale_for_ascending", "artemis/visualizer/_visualizer.py:_map_to_width"]}
{"id": "C162", "title": "Node sizes of the interaction graph keep the order of importance in floating-point arithmetic", "statement": "For non-negative finite importance values that are not all 0, and if the full size times the greatest importance does not overflow, the nodes are the features of the importance table in its order, computed sizes are non-negative numbers, a greater importance never means a smaller node, importance 0 means size 0, and each size differs from the exact one by at most 3uS + 2 eta/max + eta. (The most important feature need not get exactly the full size: with importance 0.7 and the default size it gets 1800.0000000000002.) The graph can be drawn exactly when it could be in exact arithmetic, and otherwise raises the same exception.", "quantifier": "every importance table, size and method; any floating-point arithmetic whose rounding keeps the order, 0 and 1", "why_tests_cant": "Quantifies over all values and rounding patterns.", "anchors": ["artemis/visualizer/_visualizer.py:plot_interaction_graph"]}
{"id": "C163", "title": "One edge per pair in an undirected interaction graph, showing the last row about it", "statement": "Whenever the interaction graph of an undirected method is drawn, every pair of features in the table has exactly one edge, under one of the two orders of the pair, and no other pair has one. If the table lists a pair more than once, in the same or opposite order, the width is that of the row listed last; for tables sorted from strong to weak that is the weakest row. In particular the graph of a fitted split score, whose table lists the two orders of a pair as two interactions, shows the weaker of the two.", "quantifier": "every table, with repeated pairs in any order, every method, threshold, width and title; every gradient-boosting model for the part about split score", "why_tests_cant": "Which of several rows survives depends on the position of all rows about the same pair; tests draw tables in which pairs are listed once.", "anchors": ["artemis/visualizer/_visualizer.py:plot_interaction_graph", "artemis/interactions_methods/model_specific/gb_trees/_split_score.py:_get_ovo"]}
{"id": "C164", "title": "Heatmap in floating-point arithmetic: same cells, order right up to rounding", "statement": "In any floating-point arithmetic the heatmap is drawn, or fails with the same exception, exactly as in exact arithmetic, with the same features and the same labelled cells; only their order depends on rounding. order_heatmap of a square matrix of finite numbers (features with different lower-case names, positive greatest importance and interaction, entries at most c times these in size) sorts by computed scores that differ from the exact ones by at most 5uc + 4 eta (c = 1 for non-negative entries, u = 2^-53 in binary64), and a feature that is at least as important and has an at least as strong strongest interaction never gets a smaller computed score. (Scores closer than that can be swapped; a witness in binary64 is given.)", "quantifier": "every method object and title; every matrix; any floating-point arithmetic whose rounding keeps the order (binary64 shown to be one)", "why_tests_cant": "Quantifies over all matrices and rounding patterns; whether two nearly equal scores are swapped depends on the last bits.", "anchors": ["artemis/visualizer/_visualizer.py:plot_heatmap", "artemis/visualizer/_visualizer.py:order_heatmap"]}
{"id": "C165", "title": "Conditional minimal depth from the trees to the graph in floating-point arithmetic", "statement": "Fit ConditionalMinimalDepthMethod in binary64 arithmetic on a forest of T trees with at most D nodes each, T^2 (D+1) <= 2^51, in which every ordered pair of columns has a positive mean conditional minimal depth, and draw the interaction graph. If the threshold removes at least one pair and keeps at least one: there is exactly one edge for every ordered pair of different columns; every width lies between 0 and max_edge_width; pairs whose depth is above the threshold have width 0; and if the exact mean depth of one pair is not larger than the exact mean depth of another, kept pair, its edge is not thinner than the edge of the other one.", "quantifier": "every forest within the size bound; every threshold and maximal width; binary64 arithmetic with compensated sums (as pandas means are computed)", "why_tests_cant": "Quantifies over all forests and options and compares rounded widths with the exact means of depths; a loss of order needs particular bit patterns.", "anchors": ["artemis/interactions_methods/model_specific/random_forest/_conditional_minimal_depth.py:ConditionalMinimalDepthMethod", "artemis/visualizer/_visualizer.py:plot_interaction_graph"]}
{"id": "C166", "title": "The labelled pairs of a comparison plot are the strongest ones", "statement": "comparison_plot(m1, m2, n_labels=n) labels n pairs of m1's table (all of them if there are fewer, none for n <= 0) with their features at their point, and no pair without a label is stronger, by m1, than a pair with one: greater for Friedman, Greenwell and Sejong Oh, smaller (averaged over both directions) for conditional minimal depth, and for split score in the direction of the metric it was fitted with. Pairs without a value (NaN) are labelled last.", "quantifier": "every fitted first method of any of the five kinds, every second method, every n_labels", "why_tests_cant": "Quantifies over all tables, ties, NaN and unstable sorts.", "anchors": ["artemis/comparison/_method_comparator.py:comparison_plot", "artemis/interactions_methods/_method.py:_compare_ovo", "artemis/interactions_methods/model_specific/random_forest/_conditional_minimal_depth.py:_compare_ovo"]}
{"id": "C167", "title": "Texts of a comparison plot: label positions, title, correlation box", "statement": "Whatever the random numbers, the arrow of a label points to the point of its pair, and its text stands on the circle about it whose radius is a fifth of the smaller one of the two methods' greatest values, never at a larger x coordinate than the point (if the greatest values are not negative). The title names the first and the second method in this order. The correlation box is shown exactly if asked for and lists Pearson, Kendall and Spearman in this order with their values to three digits (off by at most 0.0005, never outside [-1, 1], NaN as NaN). Writing the texts raises no exception that drawing the plot does not raise.", "quantifier": "every pair of methods with finite tables, every n_labels, every sequence of random numbers in [0, 1)", "why_tests_cant": "The position is random: a test sees some draws only; values and methods are arbitrary.", "anchors": ["artemis/comparison/_method_comparator.py:comparison_plot", "artemis/comparison/_method_comparator.py:_add_arrow", "artemis/comparison/_method_comparator.py:_add_correlation_box", "artemis/comparison/_method_comparator.py:_title_x_y", "artemis/_utilities/ops.py:point_left_side_circle"]}
{"id": "C168", "title": "Edge labels show the value of their pair to two digits, one per edge", "statement": "In a drawn interaction graph there is one text per labelled pair; it stands at an edge of the graph; it is the value of the pair to two digits after the point (off by at most 0.005), and never 0.0 if the threshold is more than 0.005; a stronger pair never shows a smaller number; no edge bears two texts.", "quantifier": "every method object that is not directed, with a table of finite numbers; every threshold and number of labels", "why_tests_cant": "Quantifies over all tables; whether two texts share an edge depends on which directions of a pair are listed.", "anchors": ["artemis/visualizer/_visualizer.py:_edge_labels", "artemis/visualizer/_visualizer.py:plot_interaction_graph"]}
{"id": "C169", "title": "Comparison plots are mirrored when the methods are exchanged, and diagonal for a method with itself", "statement": "For two methods fitted on the same features (at least two), comparison_plot(m1, m2) and comparison_plot(m2, m1) of a new comparator are both drawn, show one point per pair of features, and are mirror images: the second has the axis labels, axis directions and coordinates of the points exchanged and the same correlation box. In comparison_plot(m, m) every point and label is on the diagonal.", "quantifier": "every two fitted method objects for the same features; every number of labels", "why_tests_cant": "Quantifies over all fitted tables of all methods; fails only for tables that list a pair in both directions.", "anchors": ["artemis/comparison/_method_comparator.py:comparison_plot"]}
{"id": "C170", "title": "Comparisons of conditional minimal depth are not reordered by rounding", "statement": "In binary64 the table conditional minimal depth contributes to comparisons (one row per unordered pair, the mean of the two directed means) has NaN exactly for pairs no tree uses together; every other value is within 6(D+1)/2^53 of the exact mean; and the table is in the order of the exact means, so that rounding never reverses two pairs. Equal exact means may become unequal.", "quantifier": "every forest of T trees of at most D nodes with T^2 (D+1) <= 2^47 (a thousand trees of a hundred million nodes); every sort; column names whose joined pairs do not collide", "why_tests_cant": "Quantifies over all forests; a reversal would need two means that differ by less than the rounding errors of a mean of rounded means.", "anchors": ["artemis/interactions_methods/model_specific/random_forest/_conditional_minimal_depth.py:_compare_ovo"]}
{"id": "C171", "title": "Interchangeable features get equal values", "statement": "If exchanging two features changes no prediction of the model and only reorders the rows of the data, then after one fit of Friedman's H-statistic or Greenwell's method the two features have the same importance, the same overall interaction strength and the same interaction with every third feature. The same holds for every symmetry of the task: any permutation of the features together with recoded values, also when it reflects or shifts the predictions.", "quantifier": "every model with finite predictions, every data set with at least one row, all requested features, both methods, every symmetry", "why_tests_cant": "Quantifies over all symmetric models and data sets; the values of the two features come from different sums over different rows.", "anchors": ["artemis/interactions_methods/model_agnostic/partial_dependence_based/_pdp.py:fit", "artemis/interactions_methods/model_agnostic/partial_dependence_based/_friedman_h_statistic.py:_calculate_ovo_interactions_from_pd", "artemis/interactions_methods/model_agnostic/partial_dependence_based/_friedman_h_statistic.py:_calculate_ova_interactions_from_pd", "artemis/interactions_methods/model_agnostic/partial_dependence_based/_greenwell.py:_calculate_ovo_interactions_from_pd", "artemis/importance_methods/model_agnostic/_pdp.py:importance", "artemis/additivity/_additivity_meter.py:fit"]}
{"id": "C172", "title": "Strengths of linear and product terms are coefficient times spread", "statement": "If the model is linear in one feature (its slope any function of the others), the feature's partial dependence importance is the absolute mean slope times the spread of its distinct values (population standard deviation, or a quarter of the range for a categorical feature). If the model contains a product of two features with coefficient b, plus anything not combining them, their unnormalized H value is |b| times the standard deviation of the product of the two deviations from the mean, and likewise for one feature against all others. Greenwell's value of a product with linear main effects is |b| times the product of the two spreads of distinct values, provided neither effect changes direction over the data.", "quantifier": "every coefficient, every encoding of cells as numbers, every remaining part of the model within the stated form, every data set with at least one row, all requested features", "why_tests_cant": "Quantifies over all coefficients, data sets and remaining parts of the model; a wrong degree of freedom or a mean over rows instead of distinct values is invisible on balanced examples.", "anchors": ["artemis/interactions_methods/model_agnostic/partial_dependence_based/_pdp.py:fit", "artemis/interactions_methods/model_agnostic/partial_dependence_based/_friedman_h_statistic.py:_calculate_ovo_interactions_from_pd", "artemis/interactions_methods/model_agnostic/partial_dependence_based/_friedman_h_statistic.py:_calculate_ova_interactions_from_pd", "artemis/interactions_methods/model_agnostic/partial_dependence_based/_greenwell.py:_calculate_ovo_interactions_from_pd", "artemis/importance_methods/model_agnostic/_pdp.py:importance", "artemis/additivity/_additivity_meter.py:fit"]}
{"id": "C173", "title": "A tree handler describes the model it was last given", "statement": "The class of a model is read from its printed type, whatever its path, and a fitted model is refused as not supported exactly if the package defining its class is neither XGBoost nor LightGBM. A tree handler may be given several models one after the other: after a successful call, fitting the split score method with the handler does exactly what fitting with the last model does, whatever was given before, refused models included. A handler given no model cannot be fitted and an attempt leaves earlier results. A failed call leaves the handler describing the model it described before.", "quantifier": "every sequence of models (fitted or not, of any package), every class path without line breaks, every handler state, every choice of metrics", "why_tests_cant": "Quantifies over all sequences of calls, some of which raise, and over all class paths; tests build a fresh handler from one fitted model.", "anchors": ["artemis/_utilities/_handler.py:unify_structure", "artemis/interactions_methods/model_specific/gb_trees/_split_score.py:_check_metrics_with_available_info", "artemis/interactions_methods/model_specific/gb_trees/_split_score.py:fit"]}
{"id": "C174", "title": "Normalized strengths and additivity index of a model with a product term", "statement": "If the model contains a product of one number per feature for two features with coefficient b, plus functions of each of them and anything using neither, the normalized H value of the pair is b^2 d^2 / e^2, where d is the standard deviation over the data of the product of the deviations from the means and e that of the part of the formula with the two features (infinite or 0 if e is 0, depending on b d); likewise one feature against all others, with e the standard deviation of the predictions. For features varying independently this is b^2 s^2 t^2 / (b^2 s^2 t^2 + (p + b mean_g)^2 s^2 + (q + b mean_f)^2 t^2) for main effects p and q and standard deviations s and t. The additivity index of such a product on top of a sum of functions of single features is 1 - b^2 (d^2 + 4 c^2) / e^2, c the covariance of the two factors.", "quantifier": "every coefficient, every encoding of cells as numbers, every remaining part of the model within the stated form, every data set with at least one row (related features included), all requested features", "why_tests_cant": "Quantifies over all coefficients, data sets and remaining parts of the model; the covariance terms vanish on the balanced examples tests use.", "anchors": ["artemis/interactions_methods/model_agnostic/partial_dependence_based/_friedman_h_statistic.py:_calculate_hstat_value", "artemis/_utilities/pd_calculator.py:PartialDependenceCalculator", "artemis/additivity/_additivity_meter.py:_calculate_additivity"]}
{"id": "C175", "title": "Models conditional minimal depth accepts and refuses", "statement": "Any fitted model with feature names whose estimators are decision trees is explained by the conditional minimal depth method, whatever its class, and if fit returns the model was such a model. A model fitted without feature names, a model that is no ensemble (a pipeline, a linear model) and an ensemble of other things (gradient boosting) are refused with AttributeError; no part of such a model gets into the results, and the object is left as it was.", "quantifier": "every model object, any of the attributes read missing, any number of well formed trees before the first estimator that is none, every earlier state of the method object", "why_tests_cant": "Quantifies over all model objects and all earlier states, with the failure after any number of processed trees; tests fit random forests on data frames only.", "anchors": ["artemis/interactions_methods/model_specific/random_forest/_conditional_minimal_depth.py:_calculate_conditional_minimal_depths", "artemis/interactions_methods/model_specific/random_forest/_conditional_minimal_depth.py:_summarise_results"]}
{"id": "C176", "title": "Columns no tree uses do not matter for conditional minimal depth", "statement": "If a forest is stated on additional columns, in any places among the others, that none of its trees splits on, fit returns or raises as before, every pair of the old features has the same value and number of occurrences, pairs with a new feature have no value and no occurrences, and the minimal depth importance table is the same.", "quantifier": "every forest of depth-first stored trees, every number, name and position of additional columns, trees in any order, every earlier state of the object", "why_tests_cant": "Quantifies over all forests and all insertions of columns; a test compares two fitted forests, and fitting with more columns changes the trees.", "anchors": ["artemis/interactions_methods/model_specific/random_forest/_conditional_minimal_depth.py:fit", "artemis/interactions_methods/model_specific/random_forest/_conditional_minimal_depth.py:_calculate_conditional_minimal_depths", "artemis/interactions_methods/model_specific/random_forest/_conditional_minimal_depth.py:_summarise_results", "artemis/importance_methods/model_specific/_minimal_depth.py:importance"]}
{"id": "C177", "title": "Trees without a split do not matter for conditional minimal depth", "statement": "Two forests that hold the same trees - in another order, every tree repeated n times, columns in another order and renamed - apart from trees that are just a leaf, of which either may have any number in any place, are explained alike: fit returns or raises alike, the values of conditional minimal depth and of minimal depth importance are the same, and n_occurences is multiplied by n.", "quantifier": "every two such forests of depth-first stored trees with at least one tree each, every n, every renaming and order of columns, every earlier state of the objects", "why_tests_cant": "Quantifies over all forests and all places where a tree without a split may appear; random forests grow such trees only for degenerate bootstrap samples.", "anchors": ["artemis/interactions_methods/model_specific/random_forest/_conditional_minimal_depth.py:fit", "artemis/interactions_methods/model_specific/random_forest/_conditional_minimal_depth.py:_calculate_conditional_minimal_depths", "artemis/interactions_methods/model_specific/random_forest/_conditional_minimal_depth.py:_summarise_results", "artemis/importance_methods/model_specific/_minimal_depth.py:importance"]}
