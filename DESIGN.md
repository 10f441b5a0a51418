# Formal model of pyartemis/artemis — design

## 1. What is proved, and about what

The theorems are about a Lean 4 model of the Python code in `/repo/artemis`.
The tie to the code is reading: every model definition cites the file and the
lines it mirrors, and says where it simplifies.

### Trusted base

* Lean 4.33.0's kernel.
* The axioms each theorem depends on: at most `propext`, `Classical.choice`,
  `Quot.sound` (see `Verif/Axioms.lean`, which prints them for every property theorem).
  No axioms of our own, no `sorry`, no `native_decide`, no `bv_decide`.
* The reading of the Python sources, and of the documented behaviour of the
  library calls used by them (section 2).

## 2. Modelling conventions

* **Exceptions are values.** A Python function that can raise returns
  `Except Err α`; `Err` lists the exception classes that occur.
* **Objects are state structures.** A method that mutates `self` is a function
  `State → Args → State × Except Err Out`; on an exception the state returned is the
  one Python leaves behind (attributes assigned before the raise keep their new value).
* **Numbers.** Two levels.
  * The partial-dependence calculator is modelled over an *abstract* float type `N`
    with `nan`, `isNaN` and an arbitrary function `mean : List N → N`. Nothing about
    arithmetic is used, so its theorems hold for IEEE doubles with any rounding.
  * Formulas (H, Greenwell, importances, metrics, additivity, comparator, widths)
    are modelled over `Num K`: exact numbers of an ordered field `K` extended with
    `+inf`, `-inf`, `nan` and IEEE rules for them (`x/0`, `0/0`, propagation of nan).
    `Proofs/NumAdequate` shows that over ℝ these rules are those of Mathlib's extended reals, with NaN exactly where
    IEEE 754 has it. Rounding and overflow are modelled for the H-statistic, PD importance,
    Greenwell's measure, the additivity index, Sejong Oh's method, permutation importance, the performance metrics, conditional minimal depth, the split score, the interaction graph and the heatmap (`Model/Rounded`, `Model/RoundedGreenwell`, `Model/RoundedAdditivity`, `Model/RoundedPerf`, `Model/RoundedTrees`, `Model/RoundedSplit`, `Model/RoundedVis`, `Model/RoundedHeat`, C142-C164: any arithmetic with an error bound, any summation order, binary64 as an instance) and not
    elsewhere; signed zeros are not modelled. `Proofs/RoundExact` shows that in exact arithmetic the rounded models of the performance-based methods are the exact models, and likewise the formulas of the others. Where a square root occurs, `K` carries
    a square root (`HasSqrt`), lawful for ℝ; ℚ is used for computed examples.
* **Data frames.** A row is a function from feature names to values; a frame is a list of
  column names plus a list of rows. Row labels are modelled only where the code
  looks at them (sampling).  Values are from a linear order; missing feature values (NaN) are covered by `Model/Missing` (C120) and need no special care where values are not compared (C121).
* **Prediction functions** are arbitrary functions from a list of rows to a list of
  numbers. The hypothesis `RowWise` (row i of the output depends on row i of the input only) is
  stated wherever it is needed. Calls are recorded in a trace.
  Most theorems about a whole `fit` of a partial dependence method need it (as part of `FitSetup` or `AddSetup`, together with distinct column names and
  a supplied calculator that went through public calls only), also where the quantifier of the property just says "every model"; the notes in MANIFEST.json say where.
* **Dictionaries** are association lists with insertion order and overwrite in place.
* **Sorting** (`DataFrame.sort_values`, default quicksort: not stable) is a parameter: any function
  whose output is a permutation of its input, sorted on the key, NaN last. Theorems hold
  for each such function; `stableSort` shows there is one.
* **Randomness** is an arbitrary state machine delivering permutations /
  samples. Theorems hold for each such generator.
* **Drawing** (matplotlib, seaborn, networkx) is not modelled; the data prepared for it is: each drawing routine
  returns a `Panel`, the numbers, names, order, widths and labels handed to the library. Errors raised inside the drawing
  libraries are outside the model, except the ones that follow from the data handed over (`KeyError`,
  `IndexError` of pandas; `NetworkXError` for a node without a position).
* **Trees.** The specification speaks about inductive trees (`Spec/Trees`, `Spec/Gb`). The model works on the arrays or
  data frames the libraries hand over. A relation (`Stored`, `ForestOf`, `GbForest`) ties the two, for every
  numbering the library may choose where the claim does not depend on it.
* **Non-termination** is the value `Err.noReturn`, produced only by `while` loops whose fuel (number of iterations) runs out; theorems
  about returning calls therefore also say that the loop ends.

## 3. Per property

`Model/X` names the module with the modelled functions, `Props/Y` the module with the theorems. *Disagrees* marks a claim
that is false for the code; the witness is a theorem too (see section 4).

| id | model | theorems | how proved |
|---|---|---|---|
| C01–C03 | `Model/PDCalc` (constructor, three `calculate_*` loops with pending batch, three `fill_*`) | `Props/PD` | loop invariant: the pending ranges point at the right block of the batch (`Proofs/PDCalcEngine`, `PDCalcFam`); then the row-wise prediction of a concatenation |
| C04–C07 | same, arbitrary call histories (`Spec/History`) | `Props/PDCache` | cache invariant by induction over histories; the batch contract by the same loop invariant |
| C08, C09 | getters of `Model/PDCalc` | `Props/PDCache` | case analysis on the key order, `np.where` lookup |
| C10–C14, C66, C68 | `Model/PdpMethod` (Friedman), `Spec/Decomp` | `Props/HStat` | `Proofs/FitSpec`: fit computes the brute-force values; then algebra on finite lists |
| C15, C16 | `PdpMethod.fit` with a calculator, `Model/Additivity` | `Props/HStat`, `Props/Additivity`, `Props/Greenwell`, `Props/AcceptedAnyModel`, `Props/AcceptedAdditivity` | C05 makes the cells read equal in both caches |
| C17–C19, C69 | `Model/PdpMethod` (Greenwell), `Spec/Spread` | `Props/Greenwell` | standard deviation of a constant list; failure characterised by list lengths |
| C20, C67, C70 | `Model/PdImportance`, `Model/PdpMethod` | `Props/PdImportance`, `Props/Formulas` | as above |
| C21–C23 | `Model/Additivity` | `Props/Additivity` | sums of squares. C23 *disagrees* |
| C24–C27 | `Model/Perf` (Sejong Oh) with an arbitrary generator and a trace of queries | `Props/Sejong` | loop invariant over the repetitions. C26, C27 *disagree* |
| C28 | `sampleBoth` in `Model/Perf` | `Props/Sejong` | *disagrees* for arrays when row labels are not positions |
| C29, C30 | `PermObj` in `Model/Perf` | `Props/PermImp` | loop invariant "working frame = X between iterations" |
| C31 | all entry points with `features=None` | several | *disagrees* for `PermutationImportance` |
| C32 | metrics in `Model/Perf` | `Props/Metrics` | algebra |
| C33–C37 | `Model/CMD`, `Spec/Trees` | `Props/CMD` | induction on trees, level order traversal with fuel (`Proofs/BfsLemmas`), subtree intervals (`TreeLemmas`), group-by lemmas |
| C38 | `CmdMethod.compareOvo` | `Props/CMD` | *disagrees* when joined names collide |
| C39–C45, C71 | `Model/SplitScore`, `Spec/Gb` | `Props/SplitScore` | `Proofs/Gb*`: node table = splits of the trees; group-by. C43, C45, C71 *disagree* |
| C46–C48 | life cycle of all method objects, `Model/Method` | `Props/Lifecycle` | induction over call histories. C46, C48 *disagree* in part |
| C49–C52, C72 | `Model/Comparator` | `Props/Comparator` | Cauchy–Schwarz, ranks (`Proofs/CorrLemmas`). C49, C50, C52, C72 *disagree* in part |
| C53, C73 | `Model/Visual` (configuration, dispatch) | `Props/Visual` | case analysis over literal tables, for all strings. C73 *disagrees* |
| C54–C56, C78 | graphs in `Model/Visual` | `Props/Visual`, after fit in `Props/PlotFit` | order algebra. C54, C55, C78 *disagree* in part |
| C57, C58, C77 | heatmaps in `Model/Visual` | `Props/Heatmap`, `Props/PlotFit` | cell by cell. C58, C77 *disagree* in part |
| C59 | every accepted plot of every method | `Props/Drawable` | *disagrees* in part |
| C64, C87 | lollipop plots in `Model/Visual` | `Props/Summary`, `Props/PlotFit` | C64 *disagrees* for `max_trees=1` |
| C74, C75, C76, C79, C86 | summaries and bar charts in `Model/Visual` | `Props/Summary`, `Props/PlotFit` | C74, C75, C76, C79 *disagree* in part |
| C60–C63, C80–C82, C84, C85 | `Model/Zenplot` | `Props/Zenplot` | loop invariant (`Proofs/ZenLemmas`, `ZenPd`), staircase arithmetic. C81, C82, C85 *disagree* in part |
| C83 | `plotProfile` in `Model/Zenplot` | `Props/Zenplot` | lookup lemmas + C02 |
| C88–C91 | the models of C66–C70 and C21, `Spec/Recode` | `Props/Invariance` | the textbook formulas under reordering, repetition, renaming and rescaling (`Proofs/RecodeLemmas`) |
| C92–C96 | the models of C33–C37, `Spec/SameForest` | `Props/Forests` | specification transferred between forests (`Proofs/SameForest`); every traversal returns for any numbering (`Proofs/AnyNumbering`). C93, C94, C95 *disagree* in part |
| C97, C98 | the models of C39–C45, `Spec/SameBoosted` | `Props/BoostedForests` | splits of both forests agree up to order (`Proofs/SameBoosted`), then C41 and C44 |
| C99 | `Model/PdpVis` | `Props/PdpVis` | binding of arguments against the signature of the library function; partial |
| C100 | `Model/PdpMethod` `chooseCalc` | `Props/Sampling` | the two runs share every step that fills the tables; partial |
| C101–C103 | `Model/Ops` `sampleIfNotNone`, the `fit`s | `Props/Sampling`, `Props/RecordsAnyModel` | unfolding of the first half of `fit`; C102 partial, by C15 and C16 |
| C104, C105 | `Model/PdpMethod`, `Model/Additivity` | `Props/Shares` | orthogonality of effects under `Spec.Independent` (`Proofs/IndepLemmas`), then C66, C68, C21; partial |
| C106 | `Model/PdpMethod`, `Model/PdImportance` | `Props/Sizes` | Popoviciu's inequality (`Proofs/SizeLemmas`) on the formulas of C66, C68–C70 |
| C107, C108 | `Model/Perf` | `Props/Sizes` | bounds of the metrics, then C24, C30; lengths of the frame lists of C25, C29 |
| C109 | `Model/PDCalc` | `Props/PDCost` | the loop invariant of `Proofs/PDCalcEngine` extended by the exact list of rows sent; `Spec/PDCost` states the needed rows |
| C110 | `Model/PdpMethod` | `Props/FitCost` | the calculations of a returning `fit` (`fit_ops`) and the costs of C109 |
| C111 | `Model/PdpMethod`, `Model/PdImportance`, `Model/Additivity` | `Props/Stream` | case analysis over the branches of the four functions |
| C112 | `Model/PdpMethod` | `Props/Zero` | from the formulas of C66, C68-C70: a sum of squares vanishes iff all terms do |
| C113 | `Model/Sharing`, `Model/PdpMethod` | `Props/Sharing` | the loops of a complete calculator do nothing whatever frame it holds; C15 for the true part; computed witness |
| C114 | `Model/PdpMethod` | `Props/Ensemble` | C66/C68 give the textbook formula, which is linear in the model and zero on split terms; witnesses for the other measures |
| C115 | `Model/PdpMethod` | `Props/Ensemble` | textbook formulas, linearity, Minkowski's inequality (from Cauchy-Schwarz), range of a sum; witnesses for the other measures |
| C116 | `Model/PdpMethod`, `Model/Additivity`, `Model/Perf` | `Props/Undefined` | *disagrees* for the H-statistic; tables computed on an empty frame |
| C117 | same | `Props/Undefined`, `Props/UndefinedScores` | *disagrees* for the H-statistic and importance; non-finite entries propagate through sums and centring to a NaN; loop invariant for Sejong Oh |
| C118, C119 | `Model/PDCalc`, `Model/PdpMethod`, `Model/PdImportance`, `Model/Additivity`, `Model/Perf` | `Props/Locality`, `Props/SuppliedMixes`, `Props/SuppliedLimits`, `Spec/Mixes` | two-run relation `Twin` (`Proofs/TwinLemmas`) kept by every statement of the loops |
| C120 | `Model/Missing` | `Props/Missing`, `Spec/Missing` | triples for raising programs (`Proofs/Hoare`): nothing is stored for a missing value; on complete data both models agree |
| C121 | `Model/Perf` | `Props/Missing` | triples for raising programs, `Proofs/PerfReturns` |
| C122 | `Model/AdditivitySteps` (every assignment of `_calculate_additivity`, refines `Model/Additivity` by `steps_refine`) | `Props/AddSteps` | induction over the columns, then the closed form of C21 |
| C123 | `Model/PdpMethod`, `Model/PdImportance`, `Model/Additivity`, `Model/Perf` run twice with different label types | `Props/Labels` | both runs in lock-step, state equal up to labels |
| C124 | `Model/Keywords` (`assign(**change_dict)` raises for names that are not keyword arguments; the calculator and the methods on top of it again) | `Props/Keywords`, `Proofs/KeywordLemmas` | two simulations (equal, or cut off by `TypeError`) and an invariant: the column is never filled |
| C125 | `Model/Visual` (`pyHead`) | `Props/Limits` | partial: false for negative limits |
| C126 | `Model/VisHeap` (the visualizer on mutable table objects: `copy`, assignment of columns, filters that return the same object) | `Props/VisHeap` | relational invariant `Adds`: the program has the result of the functional model and only adds objects |
| C127 | `Model/VisNames` (the visualizer and the comparator when names need not be strings) | `Props/VisNames` | two loops compared; partial: false for other names |
| C128 | `Model/Additivity`, `Model/Perf`, `Model/PdpMethod` | `Props/WrongLength` | case analysis on the run; partial: false for partial dependence |
| C129 | `Model/PdpMethod`, `Model/Perf`, `Model/SplitScore` | `Props/Requests` | keys of the tables are invariant, inversion of the run; partial: false for Sejong Oh, PD importance (repeated names) and split score importance (unknown names) |
| C130 | `Model/Colours` (colour maps, masks and scale of the two seaborn heatmaps) | `Props/Colours` | the scale is a monotone map to [0, 1]; partial: false for the diagonal in summaries |
| C131 | `Model/DataHeap` (frame objects, copies and column assignments in place of `_permute_score`, `_corrupted_scores`, `AdditivityMeter.fit`) | `Props/DataHeap` | simulation: the run on objects equals the run on values and memory only grows; for models that change their input, an invariant on every object but one |
| C132 | `Model/Handles` (a calculator and the arrays its caller keeps, writes into them) | `Props/Handles` | induction over the steps of the caller; the global invariant of C01–C03 survives NaN writes; Hoare invariant: an array without NaN is never assigned again |
| C133 | `Model/PdHeap` (the calculator and the two methods on frame objects; prediction functions that change their argument) | `Props/PdHeap` | simulation of the calculator on objects by the one on values (`Lifts`), growth of memory as a separate invariant |
| C134 | `Model/PdpMethod`, `Model/PD`, `Model/Perf` (existing) | `Props/Stability` | the difference of the models, cut off outside mixtures of observed values, is explained as a model of its own: linearity of the interaction terms, Minkowski, Popoviciu's bound; `Near` is stated on mixtures only |
| C135 | `Model/PdpMethod`, `Model/Perf`, `Model/Additivity` (existing) | `Props/UnusedCols` | the textbook formulas (C66, C68, C69, C70, C21, C24, C30) of the two data sets are equal term by term; a formula with a unique value fixes what the table shows |
| C136 | `Model/SplitScore` (existing) | `Props/Rounds` | C41 and C44 describe the tables by the splits of the forest; the splits of a concatenation are those of the two parts up to tree numbers |
| C137 | `Model/CMD` (existing) | `Props/MoreTrees` | C36 and C37 describe the tables by the trees; filters and means over a concatenation |
| C138 | `Model/PdpMethod`, `Model/Additivity` (existing) | `Props/Agreement` | C66, C68 and C21 give the textbook formulas; algebra of averages over the data |
| C139 | `Model/SplitScore` (existing) | `Props/Accounts` | C41 and C44 describe the tables by the splits; sums by groups, a split has at most two children |
| C140 | `Model/PdpMethod`, `Model/Additivity` (existing) | `Props/Factorial`, `Props/Covers` | a complete design has independent columns; interactions of different pairs are orthogonal; averages over columns are commuting projections; Bessel's inequality |
| C141 | `Model/Comparator`, `Model/PdpMethods` (existing) | `Props/Rankings` | correlations read the order of the pairs only; two sorted tables without ties that order pairs alike list them alike (induction); values of rescaled fits from C90 |
| C142 | `Model/Rounded`: the H-statistic and importance code with a rounding after each operation, arbitrary summation order | `Props/Rounding` (`Proofs/RoundLemmas`) | induction over the summation tree; sign rules through squares, quotients, roots; `fillna` and sorting as in C12 |
| C143 | `Model/Rounded`, `Spec/Rounding` | `Props/Rounding` (`Proofs/RoundErrors`, `RoundTables`, `Binary64`) | forward error analysis: sums (induction), means, centring, differences, squares, roots; tables equal brute-force ones in rounded arithmetic (the calculator is generic in its float type); binary64 rounding error from `Int.log` |
| C144 | `Model/Rounded` | `Props/Rounding` | from C143, exact strength 0 (or at most 3δ when the predictions themselves are δ away from additive); witness for normalized |
| C145 | `Model/RoundedGreenwell`: Greenwell's code with a rounding after each operation, `statistics.stdev` a parameter with a stated error | `Props/RoundedGreenwell` | the table equals the brute-force one in rounded arithmetic; error of PDs (C143), Lipschitz bounds for sample standard deviation and range (C134) |
| C146 | `Model/RoundedGreenwell` | `Props/RoundedGreenwell` | equal prediction lists have equal rounded means; standard deviation and range of equal numbers are 0 |
| C147 | `Model/Rounded`, `Model/RoundedGreenwell` | `Props/RoundedGreenwell` | categorical: range of equal numbers; numerical: C143 with exact importance 0; witness in binary64 |
| C148 | `Model/RoundedAdditivity`: the additivity meter with a rounding after each operation; the denominator takes NaN for zero as pandas does | `Props/RoundedAdditivity` | sums of squares and quotients are NaN or non-negative; numbers up to 1 round to numbers up to 1, proved of binary64 |
| C149 | `Model/RoundedAdditivity` | `Props/RoundedAdditivity` | the index equals the brute-force one in rounded arithmetic; errors of PDs (C143), of the sum over columns and of root mean squares |
| C150 | `Model/RoundedAdditivity` | `Props/RoundedAdditivity` | *disagrees* for models that hardly vary; C149 with the residual of a nearly additive model bounded |
| C151 | `Model/RoundedGreenwell` | `Props/RoundedGreenwellTables` | case analysis of the two stdev levels; both axes need two values |
| C152 | `Model/RoundedGreenwell` | `Props/RoundedGreenwellTables` | signs through every operation; sorting before `fillna` is sound for NaN-or-non-negative keys (C142) |
| C153 | `Model/RoundedPerf`: Sejong Oh's method, permutation importance and the three metrics with a rounding after each operation | `Props/RoundedPerf` (`Proofs/RoundPerf`) | the table equals the specified one in rounded arithmetic; absolute values; `x - x` is exactly 0 |
| C154 | `Model/RoundedPerf` | `Props/RoundedPerf` | forward error analysis of differences and means (C143) |
| C155 | `Model/RoundedPerf` | `Props/RoundedPerf` | *disagrees*: the mean of equal scores need not be that score; error bound from C154 |
| C156 | `Model/RoundedPerf` | `Props/RoundedPerf` | sums and means of numbers in [0, 1] stay in range when rounding does not cross whole numbers (proved of binary64) |
| C157 | `Model/RoundedTrees`: conditional minimal depth and minimal depth importance with rounded means, pandas' compensated sums | `Props/RoundedTrees` (`Proofs/RoundTrees`) | depths are whole numbers below the number of nodes, so sums are exact and only the division rounds |
| C158 | `Model/RoundedTrees` | `Props/RoundedTrees` | different means are at least `1/T^2` apart |
| C159 | `Model/RoundedSplit`: the tables of the split score with rounded sums, means, products and quotients | `Props/RoundedSplit` (`Proofs/RoundSplit`, `Proofs/RoundKahan`) | error bound of compensated summation, then of each aggregate; depths are whole numbers |
| C160 | `Model/RoundedSplit` | `Props/RoundedSplit` (`Proofs/RoundSplit`, `Proofs/RoundSplitNum`) | error of a quotient of two sums of positive numbers |
| C161 | `Model/RoundedVis`: thresholding, scaling and widths of the interaction graph, every operation rounded | `Props/RoundedVis` (`Proofs/RoundVis`, `Proofs/Round64Order`) | rounding is monotone, fixes 0, 1 and floats, and differences do not underflow to 0; each step keeps the interval and the order |
| C162 | `Model/RoundedVis` | `Props/RoundedVis` | as C161 for `node_size * val / max` |
| C163 | `Model/Visual` (`edgeDict`, `edgeKey`) | `Props/OneEdge` | induction over the rows: one key per pair, value of the last row |
| C164 | `Model/RoundedHeat`: the scores of `order_heatmap`, every operation rounded | `Props/RoundedHeat` (`Proofs/RoundHeat`, `Spec/HeatScore`) | exceptions do not depend on numbers; error bound of two quotients and a sum; monotone rounding |
| C165 | `CmdMethod.fitR` followed by `View.plotGraphR`, both in binary64 | `Props/RoundedCmdGraph` | C157 + C161; lower bound 1/T on positive means, factor-two bound of rounding |
| C166 | `Model/Comparator` with the views of the five methods | `Props/CmpLabels` (`Spec/CmpLabels`) | C51 and sortedness of `_compare_ovo` |
| C167 | `Model/CmpLabels`: `_add_arrow`, `point_left_side_circle`, `_add_correlation_box`, `_title_x_y` | `Props/CmpLabels` | cos² + sin² = 1 and cos ≤ 0 between π/2 and 3π/2; rounding to nearest |
| C168 | `Model/EdgeTexts`: `_edge_labels`, the dictionary of rounded values | `Props/EdgeTexts` | C56, C163, rounding to nearest is monotone. *Disagrees* for split score |
| C169 | the comparator model of C51 | `Props/SelfCompare` | the tables of C13, C38 list each pair once; C47, C49, C51. *Disagrees* for split score |
| C170 | `Model/RoundedCompare`: `_compare_ovo` with pandas' mean of a group in binary64 | `Props/RoundedCompare`, `Proofs/CompareGroups` | C157, error of a mean of two rounded means, distance of fractions with small denominators |
| C171 | as C91, one fit compared with itself | `Props/Symmetry` | the comparison of C88-C91 applied to a symmetry of the task |
| C172 | as C66, C68-C70 | `Props/ClosedForms` | partial dependences of the stated forms computed, spreads under affine maps |
| C173 | `_handler.py:17-64` as an object with state (`Model/HandlerObj`), the search in the printed type as a greedy match on characters; `fit` given such an object | `Props/HandlerObj` | induction on the class path; agreement with the value model of a handler, C39; witness for the failed call |
| C174 | as C66, C68, C21 | `Props/ClosedShares` | sums of squares of deviations; linearity of the first-order reconstruction; independence (C104) for the share formula |
| C175 | `_conditional_minimal_depth.py:82-88, 177-203` with the attributes read (`feature_names_in_`, `estimators_`, `tree_`) possibly missing (`Model/CmdObj`) | `Props/CmdObj` | agreement with `CmdMethod.fit` when all are there, then C36; induction on the estimators before the first that is no tree; witness for the overwritten names |
| C176 | `CmdMethod.fit` on two forests (`Model/CMD`), the old columns embedded among the new ones by an injective map of positions | `Props/UnusedSplits` | C36 and C37 on both, equal means and counts by `SameTrees`, no use of a new column |
| C177 | `CmdMethod.fit` on two forests (`Model/CMD`) | `Props/Stunted` | means and counts depend on trees with a split only, then as C92 |
| C65 | `Model/Ops` | `Props/Predict` | case analysis; fits that build their own calculator depend on the model only through the selected function; `Props/SuppliedLimits` for supplied ones |

Nothing in the list was left out as not expressible. What parts of a claim are missing is said in `MANIFEST.json`, per property.

## 4. Where the code disagrees with a property

Each line is a theorem with a concrete witness (or a statement for all inputs of a class). The positive part that holds is proved under the
name with suffix `_partial`.

* **C04** holds for histories in which no call raised; after a call that raised half way, the values stored depend on the batch size
  (`C04_failed_request_depends_on_batchsize`). The statement of C04 says so.
* **C22** needs that no column carries the name of the helper column (`C22_needs_free_column_name`).
* **C23** the additivity index can be negative, NaN or minus infinity, against its docstring.
* **C26** a feature ignored by the model can have a non-zero Sejong Oh value: the two permutations of the other feature are drawn
  independently.
* **C27** `SejongOhMethod.feature_importance` is not reproducible: the importance object is created without `random_state`.
* **C28** with an array as `y` and row labels that are not positions, rows and targets are misaligned, or IndexError.
* **C31** `PermutationImportance.importance(features=None)` always raises.
* **C38** pairs whose joined names coincide ("a"+"bc", "ab"+"c") are merged.
* **C43** split score `fit` raises KeyError on forests of stumps and ZeroDivisionError if the gains of a feature add up to 0.
* **C45** `mean_depth` and `mean_weighted_depth` importance is sorted backwards.
* **C46** `FriedmanHStatisticMethod.plot` still raises "not fitted" after `fit(calculate_ova=False)`.
* **C48** a failed `fit` can leave a new `ovo` with an old importance table, keep a stale `ova`, or flip the sort order of a kept table.
* **C49** Pearson and Spearman differ for tables of different length. **C50** correlations depend on the
  alphabetical order of names. **C52** the correlation box may describe an earlier comparison. **C72** reversed rankings do not give −1.
* **C54** widths are wrong for infinite values, negative thresholds, and for split score (two directions of a pair).
  **C55** the strongest pair of conditional minimal depth can be drawn with width 0.
* **C58** scores are written under the lower-cased name: names that differ in case only clash.
* **C59** heatmap of conditional minimal depth with an unused column (IndexError), graph of split score with a feature that takes part in
  no interaction (NetworkXError), any method with a single feature.
* **C63** (beyond the claim) with NaN among the values the zenplot limits become NaN or forget earlier pairs.
* **C64** `max_trees=1` hides the last tree; one single tree is never shown.
* **C71** a feature called "Leaf" is dropped. **C73** `lolliplot` is documented, `lollipop` accepted.
* **C74** the summary of conditional minimal depth draws graph and heatmap with the direction of the other methods. **C75** the one-vs-all chart ignores
  the title. **C76** the bar chart of conditional minimal depth is ordered by occurrences. **C77** `interaction_value` of split score shows one
  direction, the heatmap two. **C78** node sizes of conditional minimal depth are reversed. **C79** options under `bar_chart` are ignored.
* **C81** the last zenplot panel can be labelled with a feature it does not show. **C82** the colour limits include 0 and 1.
  **C85** if the model raises during a refit, the calculator is new and the table old.
* **C93** if one of several shallowest splits on the first feature has no split on the second below it, its fall-back value takes part in
  the minimum. **C94** that fall-back is the depth of the rightmost leaf, so mirrored trees give other values.
  **C95** for forests trained with `max_leaf_nodes` (best-first numbering) the range of IDs taken for a subtree is wrong: occurrences are
  missed and invented.
* **C99** `PartialDependenceVisualizer.plot` raises TypeError on every call: it passes `_ax`, and `from_estimator` only knows `ax`. This rests
  on the signature `fromEstimatorSig`, recalled from scikit-learn 1.2.0 and not checked against an installation.
* **C100** `fit` with a `pd_calculator` ignores `predict_function` for pairs and features and explains the calculator's function without a
  warning. **C102** a method fitted with `n` cannot be refitted with its own calculator: another sample is drawn.
* **C104** normalized H is not a share of variance for features related in the data: values above 1 and infinite ones occur. **C105** likewise
  the additivity index is not the sum of the features' shares. Both hold when the features vary independently, and then C23 holds in full.
* **C109**: `calculate_pd_pairs(all_combinations=False)` walks over the *rows*, and looks a value pair up before it
  queues it. The cell is only filled when the batch is flushed, so a pair of values that occurs in several rows is
  evaluated several times, and how often depends on `batchsize` (`C109_pairs_fails`: 16 rows asked with
  `batchsize=100`, 8 with `batchsize=0`).
* **C110**: restricting `features` does not restrict the model evaluations accordingly: the importance step
  (`_pdp.py:112-124`) calls `calculate_pd_single()` without features, which evaluates the partial dependence of every
  column of the data (`C110_features_fails`).
* **C113** (`_pdp.py:79-98`, `ops.py:18-22`, `pd_calculator.py:15`). A calculator built by a `fit` with `n=None` keeps a
  reference to the frame of the caller. If the caller changes that frame in place and fits again with the calculator, the
  data check compares the frame with itself and passes; the values stored earlier are not recomputed and the second fit
  reports the results for the old data (`C113_edited_data_pass_the_check`, `C113_reused_calculator_reports_old_data`,
  `C113_fails`).
* **C114, C115** (`_friedman_h_statistic.py`, `_greenwell.py`). Not bugs, but not what a reader of a table
  expects: on the grid -1, 1 the model `4xy` has normalized H 1 and `4xy + 3y` has 16/25, although the interaction is the same
  and a main effect was added (`C114_fails_normalized`); `4xy + 3y` and `4xy - 3y` have 16/25 and their mean has 1
  (`C115_fails_normalized`). Greenwell's measure is 0 for `xy` and positive for `xy + y` (`C114_fails_greenwell`,
  `C115_fails_greenwell`), so its zero does not mean absence of an interaction (`C112_greenwell_misses_interaction`).
* **C116** (`_friedman_h_statistic.py:192-219`, `importance_methods/.../_pdp.py:112-128`). The H-statistic on data without
  rows (an empty frame or `n=0`) and numerical features returns, and `fillna(0)` turns every undefined value into 0:
  "no interactions, no important feature" without a model call (`C116_friedman_reports_zeros`, `C116_fails`).
* **C117** (same lines). One NaN or infinite prediction (log-odds of a certain model, an overflow) among the rows that enter
  a value makes it NaN, and `fillna(0)` reports 0, the weakest possible interaction or importance
  (`C117_pair_hides_undefined`, `C117_ova_hides_undefined`, `C117_importance_hides_undefined`, `C117_fails`). With accuracy, an undefined prediction counts as a wrong answer (`C117_accuracy_hides_undefined`).
* C120: a missing value in a column that was *not* requested makes `fit` fail too, after the pairs have been computed, because the importance is computed for every column of the data (`C120_unrequested_column_matters`).
* C122: `AdditivityMeter.fit` replaces `full_result` by a copy of the new data before anything is computed. If the model then raises, `additivity_index` and `preds` are still those of the previous fit (`C122_fails`).
* C124: data whose columns are numbered (`pd.DataFrame(array)`) cannot be explained by the partial dependence methods: `X.assign(**{0: v})` raises `TypeError` in the middle of `fit`. A single such column suffices, even if it was not requested (`C124_unrequested_column_matters`). Sejong Oh's method and permutation importance accept them.
* C125: `top_k = -1` draws all but the last row (`head(-1)`), although documented as a maximum (`C125_fails`).
* C127: results for data with numbered columns (Sejong Oh's method accepts them) cannot be plotted by default: `f.lower()` is an AttributeError in the heatmap, `ovo[f1] + ":"` a TypeError in the bar chart, `"-".join` a TypeError in the comparator (`C127_sejong_fails`).
* C128: `fill_pd_*` take slices `y[start:end]` of the predictions without looking at their number, so a prediction function that skips rows gives shifted averages (`C128_fails`). The metrics subtract NumPy arrays, so a single prediction is compared with all targets (`C128_single_prediction`, `C128_sejong_fails`).
* C129: the Sejong Oh method accepts a feature list with repetitions and reports the interaction of a feature with itself (`C129_sejong_repeated_listed`); with `n_repeat=0` it accepts unknown names too. PD based importance lists a repeated name twice. Split score importance silently ignores unknown names.
* C130: the summary draws importances as if larger always meant more important; for conditional minimal depth the most important feature has the lightest cell (`C130_fails`).
* C132: `get_pd_single(f)`, `get_pd_pairs(f, f')` and `get_pd_minus_single(f)` without values return the calculator's own arrays (`pd_calculator.py:40, 53, 62`). A caller who writes into one changes the answers of the calculator, and a finished array is never computed again, so the wrong number stays (`C132_fails`, `C132_written_numbers_stay`).
* C133: the one-vs-all part of the H-statistic hands `X_sampled` itself, which without `n` is the caller's frame, to the prediction function and reads its columns again afterwards (`_friedman_h_statistic.py:194-197`). A prediction function that changes its argument in place changes the caller's data and the one-vs-all table (`C133_fails`).
* C134: the normalized H-statistic and the additivity index divide by a variance that may be arbitrarily small, so models within any `eps > 0` of each other can show 0 and 1, or 1 and -3/2 (`C134_fails_normalized`, `C134_fails_additivity`).
* C144: a constant model predicting 0.9 on seven rows: the binary64 mean of the predictions differs from 0.9, so every centred partial dependence is the same tiny number, numerator and denominator of the normalized H agree, and the pair shows strength 1 (`C144_normalized_one`). In exact arithmetic the value is 0/0, shown as 0.
* C147: a constant model predicting 0.9 on seven rows: the partial dependences of a numerical feature are all the same number, but the binary64 mean of these differs from it and the population standard deviation comes out as 2^-53 (`C147_numerical_not_zero`).
* C150: a constant model predicting 0.9 on seven rows: the binary64 mean differs from 0.9, residual and variation are the same rounding error and the additivity index is 0 instead of NaN or 1 (`C150_additive_zero`); the same happens in part for additive models with tiny steps (`C150_additive_below_one`).
* C155: a classifier that ignores a feature and has accuracy 0.8: the binary64 mean of equal scores differs from the score, so the importance of the ignored feature is `-2^-53` with three repetitions and `2^-53` with seven (`C155_fails`). An importance of exactly 0 must not be expected for n_repeat > 1.
* **C168** the interaction graph of split score can put two texts at the middle of one edge: the table lists the pair in both directions, the
  graph has one edge for it (`C168_one_text_per_edge_fails`: 10 and 2 on an edge of width 0).
* **C169** comparing a split score object with itself gives a point off the diagonal: the value looked up for a pair is that of its stronger
  direction, the table has both directions (`C169_split_score_fails`: points (10, 10), (5, 5), (2, 10)).
* **C173**: `unify_structure` assigns `package` first; if the model is then refused or has no trees, the handler
  keeps the trees of the previous model under the package name of the new one. A cover metric that worked before is
  refused after a failed call with an unfitted LightGBM model (`C173_failed_call_fails`).
* **C175**: `ConditionalMinimalDepthMethod.fit` assigns `features_included` and `pairs` before it reads `estimators_`; after a pipeline with
  feature names is refused, the object names the pipeline's columns next to the tables of the previous forest (`C175_refused_model_fails`).
* **C175**: an ensemble whose trees each see a subset of the columns (`BaggingRegressor(max_features=…)`, outside the documented classes) is
  accepted; positions within the subset are taken for columns of the data and the results carry the wrong names (`C175_feature_subset_fails`).
* C65, C119, C123 with a supplied calculator: `fit` compares the model object and the labelled data with those of the calculator, and nothing else (`_pdp.py:89-98`). Another model object with the same answers and the same rows under other labels are refused with ValueError (`C119_supplied_fails`, `C123_supplied_fails`). Another `predict_function` is accepted and ignored: the tables are those of the function of the calculator (`C65_supplied_fails`).
* C107, C120, C121 are marked partial because their quantifiers are wider than the theorems; the notes in MANIFEST.json name the cases that are missing. No counterexample is known for C107.
* C14, C24, C25, C29, C30, C108 are marked partial for the same reason: their theorems assume finite scores or predictions, row-wise prediction functions or calls that return, and their quantifiers do not say so. No counterexample is known. Their theorems lack the suffix `_partial`, because many modules use the names.

## 5. Coverage of the code

Modelled: `_utilities/{ops,pd_calculator,performance_metrics,split_score_metrics,domain,exceptions,_handler,zenplot}.py`,
`importance_methods/**`, `interactions_methods/**`, `additivity/`, `comparison/`,
`visualizer/{_visualizer,_configuration,_pdp_visualizer}.py` (data preparation).

Not modelled:

* scikit-learn's `PartialDependenceDisplay` (only the call of it in `visualizer/_pdp_visualizer.py` is modelled);
* matplotlib, seaborn, networkx: colours, layout, figure sizes, fonts, number formats, rug plots, colour bars;
* tqdm progress bars;
* floating-point rounding and overflow outside the PD-based and performance-based methods, the additivity meter, conditional minimal depth, the split score, the interaction graph and the heatmap (`Model/Rounded*`), signed zeros; pandas dtype coercions; object columns mixing strings and NaN;
* the libraries that train the models and write the tree tables (their documented format is the input);
* the denominator of the additivity index is the sum of a pandas column, which skips NaN; `Model/Additivity` adds all entries, which makes no
  difference because the numerator is NaN whenever a centred prediction is (`Model/RoundedAdditivity` skips them);
* `statistics.stdev` on non-finite numbers: modelled by the arithmetic of section 2 (NaN); newer Python versions raise instead;
* two-dimensional targets, duplicate column names, and pandas refusing a one-element Series target beside several predictions;
* prediction functions returning a pandas Series are treated like ones returning an array;
* exception messages (only the class is kept).

## 6. Layout

* `Verif/Model` the model, `Verif/Spec` the small specifications the properties are stated with, `Verif/Proofs` helper lemmas,
  `Verif/Props` one or more theorems `C<nn>_...` per property, with concrete cases at the end of each file, `Verif/Examples` shared
  example data, `Verif/Axioms.lean` prints the axioms of every property theorem.
* `tools/gen.py` regenerates `Verif/Axioms.lean` and `MANIFEST.json` from the theorem names and `tools/notes.json`.
* `seeded/LOG.jsonl` is the log of seeded faults: a definition of the model is edited in a scratch copy, the project rebuilt, the theorems
  that fail recorded. An entry with no failing theorem says which theorem was tightened, or that the edit does not break a stated claim.
