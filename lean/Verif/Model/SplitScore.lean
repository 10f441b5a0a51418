import Verif.Model.CMD

/-!
# `artemis/interactions_methods/model_specific/gb_trees/_split_score.py`,
`artemis/_utilities/_handler.py` and `artemis/importance_methods/model_specific/_split_score.py`

Split score of XGBoost and LightGBM models. `F` are feature names, `I` node IDs (`"0-5"`, `"0-S3"`), `K` the finite
numbers. Progress bars are dropped.
-/

namespace Artemis

/-- SsMetric names; `split_score_metrics.py:4-17`. `frequency` is not documented but is a column of the summary; `other`
is any string that is not a column of the tables. -/
inductive SsMetric
  | sumGain | sumCover | meanGain | meanCover | meanDepth | meanWeightedDepth | rootFrequency | weightedRootFrequency
  | frequency | other
  deriving DecidableEq, Repr

/-- `_LGBM_UNSUPPORTED_METRICS`; `split_score_metrics.py:19`. -/
def SsMetric.lgbmUnsupported (m : SsMetric) : Bool := m = .meanCover || m = .sumCover

/-- `_ASCENDING_ORDER_METRICS`; `split_score_metrics.py:20`. -/
def SsMetric.ascending (m : SsMetric) : Bool := m = .meanDepth

/-- `model.package` after the check of `_handler.py:30`. -/
inductive Package
  | xgboost | lightgbm
  deriving DecidableEq, Repr

/-- A row of XGBoost's `trees_to_dataframe()` (columns `Split`, `Missing`, `Category` are dropped). Leaves have feature
`"Leaf"` and no children; their gain is the leaf value. -/
structure XgbRow (F I K : Type) where
  tree : Nat
  node : Nat
  id : I
  feature : F
  yes : Option I
  no : Option I
  gain : K
  cover : K

/-- A row of LightGBM's `trees_to_dataframe()` (columns not used are dropped). Leaves have `split_feature` and
`split_gain` `None`; the root has depth 1. -/
structure LgbRow (F I K : Type) where
  tree : Nat
  depth : Nat
  id : I
  left : Option I
  right : Option I
  feature : Option F
  gain : Option K

/-- What `trees_to_dataframe()` of a booster returns. -/
inductive RawTrees (F I K : Type)
  | xgb (rows : List (XgbRow F I K))
  | lgb (rows : List (LgbRow F I K))

/-- A row of the unified table `trees_df`. LightGBM tables have no column `node`. -/
structure GbRow (F I K : Type) where
  tree : Nat
  node : Option Nat
  id : I
  feat : Option F
  left : Option I
  right : Option I
  gain : Option K
  cover : Option K
  leaf : Bool
  depth : Option Int
  deriving DecidableEq

/-- A handler: package and unified table. -/
structure Handler (F I K : Type) where
  package : Package
  frame : List (GbRow F I K)

/-- A model object: the path of its class (`"xgboost.sklearn.XGBRegressor"`) and its trees. -/
structure GbModel (F I K : Type) where
  cls : List Char
  raw : RawTrees F I K

/-- The argument `model` of `fit`: a handler or anything else. -/
inductive GbArg (F I K : Type)
  | handler (h : Handler F I K)
  | model (m : GbModel F I K)

section Unify
variable {F I K : Type} [DecidableEq F]

/-- Models: `_handler.py:41-46`. `leafName` is the string `"Leaf"`. -/
def unifyXgb (leafName : F) (r : XgbRow F I K) : GbRow F I K :=
  ⟨r.tree, some r.node, r.id, some r.feature, r.yes, r.no, some r.gain, some r.cover, decide (r.feature = leafName), none⟩

/-- Models: `_handler.py:48-63`. -/
def unifyLgb (r : LgbRow F I K) : GbRow F I K :=
  ⟨r.tree, none, r.id, r.feature, r.left, r.right, r.gain, none, r.feature.isNone, some ((r.depth : Int) - 1)⟩

/-- `model_class.split(".")[0]`; `_handler.py:29`. -/
def packageOf (cls : List Char) : List Char := cls.takeWhile (fun c => !decide (c = '.'))

/-- Models: `_handler.py:27-64` (`unify_structure`, `_get_unified_trees_df`). A table of the wrong kind (which a model
of that package does not return) lacks columns. -/
def unifyStructure (leafName : F) (m : GbModel F I K) : Except Err (Handler F I K) :=
  if packageOf m.cls = "xgboost".toList then
    match m.raw with
    | .xgb rows => .ok ⟨.xgboost, rows.map (unifyXgb leafName)⟩
    | .lgb _ => .error .keyError
  else if packageOf m.cls = "lightgbm".toList then
    match m.raw with
    | .lgb rows => .ok ⟨.lightgbm, rows.map unifyLgb⟩
    | .xgb _ => .error .keyError
  else .error .modelNotSupported

/-- Models: `_split_score.py:290-295` (`_check_metrics_with_available_info`). -/
def checkMetrics (p : Package) (inter imp : SsMetric) : Except Err Unit :=
  match p with
  | .xgboost => .ok ()
  | .lightgbm =>
    if inter.lgbmUnsupported then .error .metricNotSupported
    else if imp.lgbmUnsupported then .error .metricNotSupported
    else .ok ()

end Unify

/-! ### Node statistics -/

/-- A row of `full_result`: the row of the table with the columns about the parent (`none` is NaN). -/
structure StatRow (F I K : Type) where
  row : GbRow F I K
  parentName : Option F
  parentGain : Option K
  parentCover : Option K
  interaction : Option Bool

/-- a row before the loop -/
def StatRow.ofRow {F I K : Type} (r : GbRow F I K) : StatRow F I K := ⟨r, none, none, none, none⟩

section Stats
variable {F I K : Type} [DecidableEq F] [DecidableEq I] [LinearOrder K]

/-- `a < b` on columns where `none` is NaN -/
def optLt (a b : Option K) : Bool :=
  match a, b with
  | some x, some y => decide (x < y)
  | _, _ => false

/-- `tree.loc[i, "depth"] + 1`; adding to `None` is a TypeError. -/
def depthSucc (p : Package) (parent child : Option Int) : Except Err (Option Int) :=
  match p with
  | .lightgbm => .ok child
  | .xgboost =>
    match parent with
    | none => .error .typeError
    | some d => .ok (some (d + 1))

/-- The new contents of the row of a child that is not a leaf; `_split_score.py:221-229`. -/
def markRow (parent : StatRow F I K) (d : Option Int) (r : StatRow F I K) : StatRow F I K :=
  { row := { r.row with depth := d }
    parentName := parent.row.feat
    parentGain := parent.row.gain
    parentCover := parent.row.cover
    interaction := some (optLt parent.row.gain r.row.gain && !decide (r.row.feat = parent.row.feat)) }

/-- One child of the split at position `i`; `_split_score.py:220-229` and `:230-239`. `.values[0]` of nothing is an
IndexError. -/
def markChild (p : Package) (i : Nat) (c : Option I) (tree : List (StatRow F I K)) : Except Err (List (StatRow F I K)) :=
  match tree.find? (fun r => decide (some r.row.id = c)) with
  | none => .error .indexError
  | some ch =>
    if ch.row.leaf then .ok tree
    else
      match tree[i]? with
      | none => .error .indexError
      | some parent =>
        match depthSucc p parent.row.depth ch.row.depth with
        | .error e => .error e
        | .ok d => .ok (tree.map (fun r => if some r.row.id = c then markRow parent d r else r))

/-- One round of the loop: the split at position `i`; `_split_score.py:214-239`. -/
def statStep (p : Package) (tree : List (StatRow F I K)) (i : Nat) : Except Err (List (StatRow F I K)) :=
  match tree[i]? with
  | none => .error .indexError
  | some r =>
    let tree1 := if p = .xgboost ∧ r.row.node = some 0 then tree.set i { r with row := { r.row with depth := some 0 } } else tree
    match markChild p i r.row.left tree1 with
    | .error e => .error e
    | .ok tree2 => markChild p i r.row.right tree2

/-- Models: `_split_score.py:212-240` (`_prepare_stats`). -/
def prepareStats (p : Package) (rows : List (GbRow F I K)) : Except Err (List (StatRow F I K)) :=
  ((List.range rows.length).filter (fun i => ((rows[i]?).map (fun r => !r.leaf)).getD false)).foldlM (statStep p)
    (rows.map StatRow.ofRow)

/-- Models: `_split_score.py:200-209` (`_calculate_full_result`). The columns about the parent only exist if some row
has been given a parent; selecting missing columns is a KeyError. -/
def fullResult (p : Package) (frame : List (GbRow F I K)) : Except Err (List (StatRow F I K)) :=
  match (npUnique (frame.map GbRow.tree)).mapM (fun t => prepareStats p (frame.filter (fun r => decide (r.tree = t)))) with
  | .error e => .error e
  | .ok groups =>
    if groups.flatten.any (fun r => r.interaction.isSome) then .ok groups.flatten else .error .keyError

end Stats

/-! ### Summary of pairs -/

section Summary
variable {F I K : Type} [LinearOrder F] [DecidableEq I] [Field K] [LinearOrder K]

/-- A row of `full_ovo`. -/
structure SumRow (F K : Type) where
  parent : F
  child : F
  meanGain : Num K
  sumGain : Num K
  meanCover : Num K
  sumCover : Num K
  meanDepth : Num K
  frequency : Nat

/-- `sum` of a column, missing values left out -/
def sumOpt (l : List (Option K)) : Num K := .fin (l.filterMap id).sum

/-- `mean` of a column, missing values left out -/
def meanOpt (l : List (Option K)) : Num K :=
  if (l.filterMap id).isEmpty then .nan else .fin ((l.filterMap id).sum / (l.filterMap id).length)

/-- the value of a metric in a row of the summary; `none` if there is no such column -/
def SumRow.metric (r : SumRow F K) : SsMetric → Option (Num K)
  | .meanGain => some r.meanGain
  | .sumGain => some r.sumGain
  | .meanCover => some r.meanCover
  | .sumCover => some r.sumCover
  | .meanDepth => some r.meanDepth
  | .frequency => some (.ofNat r.frequency)
  | _ => none

/-- The rows that count as interactions; `_split_score.py:244-247`. -/
def qualifies (onlyDef : Bool) (r : StatRow F I K) : Bool :=
  if onlyDef then r.interaction == some true
  else match r.row.depth with
    | some d => decide (0 < d)
    | none => false

/-- the pair of a row; rows with a missing name are left out by `groupby` -/
def StatRow.pair (r : StatRow F I K) : Option (F × F) :=
  match r.parentName, r.row.feat with
  | some a, some b => some (a, b)
  | _, _ => none

/-- Aggregates of a group; `_split_score.py:250-258`. -/
def sumAgg (rows : List (StatRow F I K)) (q : F × F) : SumRow F K :=
  let g := rows.filter (fun r => decide (r.pair = some q))
  { parent := q.1, child := q.2
    meanGain := meanOpt (g.map (fun r => r.row.gain))
    sumGain := sumOpt (g.map (fun r => r.row.gain))
    meanCover := meanOpt (g.map (fun r => r.row.cover))
    sumCover := sumOpt (g.map (fun r => r.row.cover))
    meanDepth := meanSome (g.map (fun r => r.row.depth))
    frequency := g.length }

/-- Models: `_split_score.py:243-270` (`_get_summary`). `sort` is `sort_values("sum_gain", ascending=False)`. -/
def getSummary (sort : List (SumRow F K) → List (SumRow F K)) (onlyDef : Bool) (full : List (StatRow F I K)) : List (SumRow F K) :=
  let rows := full.filter (qualifies onlyDef)
  sort ((npUnique (rows.filterMap (fun r => r.pair.map toLex))).map (fun q => sumAgg rows (ofLex q)))

/-- A row of `ovo`. -/
structure SsRow (F K : Type) where
  f1 : F
  f2 : F
  val : Num K

/-- Models: `_split_score.py:273-288` (`_get_ovo`); an unknown metric is a KeyError. `sort asc` is
`sort_values(by=method, ascending=asc)`. -/
def getOvo (sort : Bool → List (SsRow F K) → List (SsRow F K)) (m : SsMetric) (full : List (SumRow F K)) :
    Except Err (List (SsRow F K)) :=
  match m with
  | .meanWeightedDepth | .rootFrequency | .weightedRootFrequency | .other => .error .keyError
  | _ => .ok (sort m.ascending (full.map (fun r => ⟨r.parent, r.child, (r.metric m).getD .nan⟩)))

end Summary

/-! ### Importance -/

section Importance
variable {F I K : Type} [LinearOrder F] [DecidableEq I] [Field K] [LinearOrder K]

/-- One child in `_calculate_depth_for_one_tree`; `importance_methods/model_specific/_split_score.py:170-173`. -/
def depthChild (i : Nat) (c : Option I) (tree : List (GbRow F I K)) : Except Err (List (GbRow F I K)) :=
  match tree.find? (fun r => decide (some r.id = c)) with
  | none => .error .indexError
  | some ch =>
    if ch.leaf then .ok tree
    else
      match tree[i]? with
      | none => .error .indexError
      | some parent =>
        match parent.depth with
        | none => .error .typeError
        | some d => .ok (tree.map (fun r => if some r.id = c then { r with depth := some (d + 1) } else r))

/-- One round of `_calculate_depth_for_one_tree`; `…/_split_score.py:165-173`. A table without column `node` (LightGBM)
is a KeyError, but its depths are never missing. -/
def depthSplitStep (tree : List (GbRow F I K)) (i : Nat) : Except Err (List (GbRow F I K)) :=
  match tree[i]? with
  | none => .error .indexError
  | some r =>
    match r.node with
    | none => .error .keyError
    | some n =>
      let tree1 := if n = 0 then tree.set i { r with depth := some 0 } else tree
      match depthChild i r.left tree1 with
      | .error e => .error e
      | .ok tree2 => depthChild i r.right tree2

/-- Models: `…/_split_score.py:163-174` (`_calculate_depth_for_one_tree`). -/
def depthOneTree (rows : List (GbRow F I K)) : Except Err (List (GbRow F I K)) :=
  ((List.range rows.length).filter (fun i => ((rows[i]?).map (fun r => !r.leaf)).getD false)).foldlM depthSplitStep rows

/-- Models: `…/_split_score.py:153-160` (`_calculate_depth`). -/
def calcDepth (frame : List (GbRow F I K)) : Except Err (List (GbRow F I K)) :=
  match (npUnique (frame.map GbRow.tree)).mapM (fun t => depthOneTree (frame.filter (fun r => decide (r.tree = t)))) with
  | .error e => .error e
  | .ok groups => .ok groups.flatten

/-- A row of the table of all importance metrics. -/
structure ImpStat (F K : Type) where
  feat : F
  meanGain : Num K
  sumGain : Num K
  meanCover : Num K
  sumCover : Num K
  meanDepth : Num K
  rootFrequency : Num K
  weightedRootFrequency : Num K
  meanWeightedDepth : Num K

/-- the value of a metric; `none` if there is no such column -/
def ImpStat.metric (r : ImpStat F K) : SsMetric → Option (Num K)
  | .meanGain => some r.meanGain
  | .sumGain => some r.sumGain
  | .meanCover => some r.meanCover
  | .sumCover => some r.sumCover
  | .meanDepth => some r.meanDepth
  | .rootFrequency => some r.rootFrequency
  | .weightedRootFrequency => some r.weightedRootFrequency
  | .meanWeightedDepth => some r.meanWeightedDepth
  | .frequency | .other => none

/-- the rows with `depth == 0` -/
def rootRows (rows : List (GbRow F I K)) : List (GbRow F I K) := rows.filter (fun r => decide (r.depth = some 0))

/-- the rows of a feature -/
def ofFeature (rows : List (GbRow F I K)) (f : F) : List (GbRow F I K) := rows.filter (fun r => decide (r.feat = some f))

/-- depth and gain of a row -/
def depthGain (r : GbRow F I K) : Except Err (K × K) :=
  match r.depth, r.gain with
  | some d, some w => .ok ((d : K), w)
  | _, _ => .error .typeError

/-- `np.average(x.depth, weights=x.gain)`; ZeroDivisionError if the weights add up to 0, TypeError if a depth or a gain
is missing. `…/_split_score.py:135-141`. -/
def weightedDepth (g : List (GbRow F I K)) : Except Err (Num K) :=
  match g.mapM depthGain with
  | .error e => .error e
  | .ok ps =>
    if (ps.map Prod.snd).sum = 0 then .error .zeroDivisionError
    else .ok (.fin ((ps.map (fun q => q.1 * q.2)).sum / (ps.map Prod.snd).sum))

/-- `sum_gain` of `_calculate_root_metrics`: the gains of all roots that are splits; `…/_split_score.py:128`. -/
def totalRootGain (rows : List (GbRow F I K)) : K :=
  (((rootRows rows).filter (fun r => r.feat.isSome)).filterMap GbRow.gain).sum

/-- All metrics of one feature; `…/_split_score.py:111-141` (`_calculate_basic_metrics`, `_calculate_root_metrics`,
`_calculate_mean_weighted_depth_metric`). The root metrics are missing for features that are never at a root. -/
def impStat (rows : List (GbRow F I K)) (f : F) : Except Err (ImpStat F K) :=
  let g := ofFeature rows f
  let roots := ofFeature (rootRows rows) f
  match weightedDepth g with
  | .error e => .error e
  | .ok wd => .ok
    { feat := f
      meanGain := meanOpt (g.map GbRow.gain)
      sumGain := sumOpt (g.map GbRow.gain)
      meanCover := meanOpt (g.map GbRow.cover)
      sumCover := sumOpt (g.map GbRow.cover)
      meanDepth := meanSome (g.map GbRow.depth)
      rootFrequency := if roots.isEmpty then .nan else .ofNat roots.length
      weightedRootFrequency := if roots.isEmpty then .nan
        else Num.div (Num.mul (.ofNat roots.length) (sumOpt (roots.map GbRow.gain))) (.fin (totalRootGain rows))
      meanWeightedDepth := wd }

/-- The rows used; `…/_split_score.py:94-97`. -/
def selectRows (leafName : F) (features : Option (List F)) (frame : List (GbRow F I K)) : List (GbRow F I K) :=
  match features with
  | some fs => frame.filter (fun r => match r.feat with
      | some f => decide (f ∈ fs)
      | none => false)
  | none => frame.filter (fun r => !decide (r.feat = some leafName))

/-- Models: `…/_split_score.py:89-108` (`_calculate_all_feature_importance`). `sort m` is
`sort_values(m, ascending=False)`. No usable row at all (the pandas `apply` then returns a table instead of a column) is
modelled as a ValueError. -/
def allImportance (leafName : F) (sort : (ImpStat F K → Num K) → List (ImpStat F K) → List (ImpStat F K))
    (features : Option (List F)) (m : SsMetric) (frame : List (GbRow F I K)) : Except Err (List (ImpStat F K)) :=
  let rows := selectRows leafName features frame
  match (npUnique (rows.filterMap GbRow.feat)).mapM (impStat rows) with
  | .error e => .error e
  | .ok [] => .error .valueError
  | .ok (s :: ss) =>
    match m with
    | .frequency | .other => .error .keyError
    | _ => .ok (sort (fun r => (r.metric m).getD .nan) (s :: ss))

/-- Models: `…/_split_score.py:144-150` (`_select_metric`). `sort` is `sort_values(by="Importance", ascending=False)`. -/
def selectMetric (sort : List (ImpRow F K) → List (ImpRow F K)) (m : SsMetric) (full : List (ImpStat F K)) : List (ImpRow F K) :=
  sort (full.map (fun r => ⟨r.feat, (r.metric m).getD .nan⟩))

/-- The sorting routines. -/
structure SsEnv (F K : Type) where
  leafName : F
  sortSum : List (SumRow F K) → List (SumRow F K)
  sortOvo : Bool → List (SsRow F K) → List (SsRow F K)
  sortFull : (ImpStat F K → Num K) → List (ImpStat F K) → List (ImpStat F K)
  sortImp : List (ImpRow F K) → List (ImpRow F K)

/-- Models: `…/_split_score.py:39-81` (`importance`) with a given table; the table of all metrics and the result. -/
def ssImportance (E : SsEnv F K) (features : Option (List F)) (m : SsMetric) (frame : List (GbRow F I K)) :
    Except Err (List (ImpStat F K) × List (ImpRow F K)) :=
  match if frame.any (fun r => r.depth.isNone) then calcDepth frame else .ok frame with
  | .error e => .error e
  | .ok frame' =>
    match allImportance E.leafName E.sortFull features m frame' with
    | .error e => .error e
    | .ok full => .ok (full, selectMetric E.sortImp m full)

/-- `SplitScoreImportance.importance_ascending_order`; `…/_split_score.py:83-86`. -/
def SsMetric.impAscending (m : SsMetric) : Bool := m = .meanDepth || m = .meanWeightedDepth

/-! ### The method -/

/-- State of a `SplitScoreMethod`. `impMetric` is the `selected_metric` of the importance object (`none`: no object). -/
structure SsMethod (F I K : Type) where
  metric : Option SsMetric
  fullResult : Option (List (StatRow F I K))
  fullOvo : Option (List (SumRow F K))
  ovo : Option (List (SsRow F K))
  impMetric : Option (Option SsMetric)
  importance : Option (List (ImpRow F K))

/-- a new object -/
def SsMethod.new : SsMethod F I K := ⟨none, none, none, none, none, none⟩

/-- `GBTreesHandler(model)` unless it is one already; `_split_score.py:88-89`. -/
def GbArg.toHandler (leafName : F) : GbArg F I K → Except Err (Handler F I K)
  | .handler h => .ok h
  | .model m => unifyStructure leafName m

/-- Models: `_split_score.py:60-104` (`fit`), assignment by assignment. -/
def SsMethod.fit (E : SsEnv F K) (a : GbArg F I K) (inter imp : SsMetric) (onlyDef : Bool) : PyM (SsMethod F I K) Unit := fun s0 =>
  match a.toHandler E.leafName with
  | .error e => (.error e, s0)
  | .ok h =>
    let s1 := { s0 with metric := some inter }
    match checkMetrics h.package inter imp with
    | .error e => (.error e, s1)
    | .ok () =>
      match Artemis.fullResult h.package h.frame with
      | .error e => (.error e, s1)
      | .ok full =>
        let summary := getSummary E.sortSum onlyDef full
        let s2 := { s1 with fullResult := some full, fullOvo := some summary }
        match getOvo E.sortOvo inter summary with
        | .error e => (.error e, s2)
        | .ok ovo =>
          let s3 := { s2 with ovo := some ovo, impMetric := some none }
          match ssImportance E none imp h.frame with
          | .error e => (.error e, s3)
          | .ok (_, t) => (.ok (), { s3 with impMetric := some (some imp), importance := some t })

/-- `_interactions_ascending_order`; `_split_score.py:56-58`. -/
def SsMethod.ascending (s : SsMethod F I K) : Bool :=
  match s.metric with
  | some m => m.ascending
  | none => false

end Importance

end Artemis
