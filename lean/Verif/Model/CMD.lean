import Verif.Model.Num
import Verif.Model.Ops
import Mathlib.Order.Lex
import Mathlib.Data.Prod.Lex
import Mathlib.Data.Int.Order.Basic

/-!
# `artemis/interactions_methods/model_specific/random_forest/_conditional_minimal_depth.py`
and `artemis/importance_methods/model_specific/_minimal_depth.py`

Conditional minimal depth of forests in scikit-learn's array form. Progress bars are dropped.
-/

namespace Artemis

/-- One row of scikit-learn's tree arrays (`children_left`, `children_right`, `feature`); `-1`/`-2` mark leaves. The
position in the list is the node id. Models: `_conditional_minimal_depth.py:235-242` (`_tree_representation`). -/
structure SkNode where
  left : Int
  right : Int
  feat : Int
  deriving DecidableEq, Repr

/-- `tree_` -/
abbrev SkTree := List SkNode

/-- `tree.loc[i]`: KeyError for an unknown label. -/
def SkTree.loc (t : SkTree) (i : Nat) : Except Err SkNode :=
  match t[i]? with
  | some n => .ok n
  | none => .error .keyError

/-- `a[i]` of a NumPy array with a non-negative index -/
def arrGet {α : Type} (a : List α) (i : Nat) : Except Err α :=
  match a[i]? with
  | some x => .ok x
  | none => .error .indexError

/-- `depth[ids] = k`; IndexError if an id is out of range (nothing is assigned then). -/
def setDepths (depth : List Nat) (ids : List Nat) (k : Nat) : Except Err (List Nat) :=
  if ids.all (fun i => decide (i < depth.length)) then .ok (ids.foldl (fun d i => d.set i k) depth)
  else .error .indexError

/-- Models: `_conditional_minimal_depth.py:333-334` (`_split_var_to_ids`): the ids of the level grouped by split
variable, groups in increasing order of the variable, ids within a group in the order of the level. -/
def splitVarToIds (t : SkTree) (ids : List Nat) : Except Err (List (Int × List Nat)) :=
  match ids.mapM (fun i => (t.loc i).map (fun n => (n.feat, i))) with
  | .error e => .error e
  | .ok rows => .ok ((npUnique (rows.map Prod.fst)).map
      (fun k => (k, (rows.filter (fun r => decide (r.1 = k))).map Prod.snd)))

/-- Models: `_conditional_minimal_depth.py:328-330` (`_append_nodes_to_split_var`); a `defaultdict` of empty arrays. -/
def appendNodes (groups : List (Int × List Nat)) (d : Dict Int (List Nat)) : Dict Int (List Nat) :=
  groups.foldl (fun d g => Dict.set d g.1 ((Dict.get? d g.1).getD [] ++ g.2)) d

/-- Models: `_conditional_minimal_depth.py:320-325` (`_next_level`): all left children, then all right children, `-1`
dropped. -/
def nextLevel (t : SkTree) (ids : List Nat) : Except Err (List Nat) :=
  match ids.mapM t.loc with
  | .error e => .error e
  | .ok ns => .ok (((ns.map SkNode.left ++ ns.map SkNode.right).filter (fun c => decide (0 ≤ c))).map Int.toNat)

/-- The `while` loop of `_bfs` (`_conditional_minimal_depth.py:222-228`), at most `fuel` rounds; `none` means that the
loop is still running then. -/
def bfsLoop (t : SkTree) : Nat → List Nat → Nat → List Nat → Dict Int (List Nat) →
    Option (Except Err (List Nat × Dict Int (List Nat)))
  | _, [], _, depth, d => some (.ok (depth, d))
  | 0, _ :: _, _, _, _ => none
  | fuel + 1, i :: is, k, depth, d =>
    match setDepths depth (i :: is) k with
    | .error e => some (.error e)
    | .ok depth' =>
      match splitVarToIds t (i :: is) with
      | .error e => some (.error e)
      | .ok groups =>
        match nextLevel t (i :: is) with
        | .error e => some (.error e)
        | .ok next => bfsLoop t fuel next (k + 1) depth' (appendNodes groups d)

/-- `del d[k]` -/
def Dict.del {α β : Type} [DecidableEq α] (d : Dict α β) (k : α) : Except Err (Dict α β) :=
  if k ∈ d.keys then .ok (d.filter (fun e => !decide (e.1 = k))) else .error .keyError

/-- Models: `_conditional_minimal_depth.py:206-232` (`_bfs`) with `:303-305` (`_delete_leaves`). The loop is given
one round more than there are nodes; `noReturn` if it is still running then (a level after that many rounds means that
some node is its own descendant, and then the loop never ends). -/
def bfs (t : SkTree) : Except Err (List Nat × Dict Int (List Nat)) :=
  match bfsLoop t (t.length + 1) [0] 0 (List.replicate t.length 0) [] with
  | none => .error .noReturn
  | some (.error e) => .error e
  | some (.ok (depth, d)) =>
    match Dict.del d (-2) with
    | .error e => .error e
    | .ok d' => .ok (depth, d')

/-- Models: `_conditional_minimal_depth.py:308-317` (`_calculate_maximal_id_in_subtree`). Callers have `rootId < n`, so
the subtractions do not go below 0. -/
def maxIdInSubtree (rootDepth rootId : Nat) (depths : List Nat) (n : Nat) : Nat :=
  match ((List.range n).filter (fun j => decide (depths.getD j 0 ≤ rootDepth) && decide (rootId < j))).min? with
  | some m => m - 1
  | none => n - 1

/-- Models: `_conditional_minimal_depth.py:337-338` (`_f_2_split_nodes_in_f_1_subtree`), already used as an index into
`split_f2`. -/
def f2InSubtree (rootId : Nat) (splitF2 : List Nat) (ub : Nat) : List Nat :=
  splitF2.filter (fun j => decide (rootId < j) && decide (j ≤ ub))

/-- `min(min_val, x)` where `none` is `float('+inf')` -/
def minInf (a : Option Int) (x : Int) : Option Int :=
  match a with
  | none => some x
  | some y => some (min y x)

/-- The body of the innermost loop; `_conditional_minimal_depth.py:267-274`. -/
def cmdRoot (depths : List Nat) (splitF2 : List Nat) (acc : Option Int × Nat) (r : Nat) :
    Except Err (Option Int × Nat) :=
  match arrGet depths r with
  | .error e => .error e
  | .ok rd =>
    let ub := maxIdInSubtree rd r depths depths.length
    let below := f2InSubtree r splitF2 ub
    if below.length > 0 then
      match below.mapM (arrGet depths) with
      | .error e => .error e
      | .ok ds =>
        match ds.min? with
        | none => .error .valueError
        | some m => .ok (minInf acc.1 ((m : Int) - rd - 1), 1)
    else
      match arrGet depths ub with
      | .error e => .error e
      | .ok l => .ok (minInf acc.1 ((l : Int) - rd), acc.2)

/-- `for current_root_id in …` -/
def cmdRoots (depths : List Nat) (splitF2 : List Nat) : List Nat → Option Int × Nat → Except Err (Option Int × Nat)
  | [], acc => .ok acc
  | r :: rs, acc =>
    match cmdRoot depths splitF2 acc r with
    | .error e => .error e
    | .ok acc' => cmdRoots depths splitF2 rs acc'

/-- `split_f1[depths[split_f1] == depths[split_f1[0]]]`; `_conditional_minimal_depth.py:265`. -/
def highestSplits (depths : List Nat) (splitF1 : List Nat) : Except Err (List Nat) :=
  match splitF1.mapM (arrGet depths) with
  | .error e => .error e
  | .ok ds =>
    match ds with
    | [] => .error .indexError
    | d0 :: _ => .ok (((splitF1.zip ds).filter (fun e => decide (e.2 = d0))).map Prod.fst)

/-- Value (`none` is `+inf`, later `None`) and occurrence flag of an ordered pair of column numbers;
`_conditional_minimal_depth.py:261-275`. -/
def cmdPair (d : Dict Int (List Nat)) (depths : List Nat) (f1 f2 : Nat) : Except Err (Option Int × Nat) :=
  match Dict.get? d (f1 : Int), Dict.get? d (f2 : Int) with
  | some s1, some s2 =>
    match highestSplits depths s1 with
    | .error e => .error e
    | .ok roots => cmdRoots depths s2 roots (none, 0)
  | _, _ => .ok (none, 0)

/-- A row of `raw_result_df`. -/
structure RawRow where
  f1 : Nat
  f2 : Nat
  value : Option Int
  occur : Nat
  deriving DecidableEq, Repr

/-- Models: `_conditional_minimal_depth.py:245-279` (`_conditional_minimal_depth`): all ordered pairs, a feature paired
with itself included; `+inf` replaced by `None`. -/
def cmdTree (d : Dict Int (List Nat)) (depths : List Nat) (p : Nat) : Except Err (List RawRow) :=
  ((List.range p).flatMap (fun f1 => (List.range p).map (fun f2 => (f1, f2)))).mapM
    (fun q => (cmdPair d depths q.1 q.2).map (fun v => ⟨q.1, q.2, v.1, v.2⟩))

/-- What is kept of a tree for the importance: depths and split lists. -/
abbrev DepthSplit := List Nat × Dict Int (List Nat)

/-- One round of the loop over trees; `_conditional_minimal_depth.py:197-200`. -/
def cmdOne (p : Nat) (t : SkTree) : Except Err (List RawRow × DepthSplit) :=
  match bfs t with
  | .error e => .error e
  | .ok ds => (cmdTree ds.2 ds.1 p).map (fun rows => (rows, ds))

/-- Models: `_conditional_minimal_depth.py:177-203` (`_calculate_conditional_minimal_depths`); `pd.concat` of nothing
raises ValueError. -/
def cmdForest (trees : List SkTree) (p : Nat) : Except Err (List RawRow × List DepthSplit) :=
  match trees.mapM (cmdOne p) with
  | .error e => .error e
  | .ok [] => .error .valueError
  | .ok (x :: xs) => .ok (((x :: xs).map Prod.fst).flatten, (x :: xs).map Prod.snd)

section Tables
variable {F K : Type} [DecidableEq F] [Field K] [LinearOrder K]

/-- mean of the values that are there, NaN if there is none -/
def meanSome (l : List (Option Int)) : Num K :=
  let vs := l.filterMap id
  if vs.isEmpty then .nan else .fin ((vs.map (fun (x : Int) => (x : K))).sum / vs.length)

/-- A row of the summary, before (`ι = Nat`) and after (`ι = F`) the column numbers are replaced by names. -/
structure CmdRow (ι K : Type) where
  root : ι
  var : ι
  val : Num K
  occ : Nat

/-- Aggregated row of a pair; `_conditional_minimal_depth.py:288-292`. -/
def cmdAgg (rows : List RawRow) (q : Nat × Nat) : CmdRow Nat K :=
  let g := rows.filter (fun r => decide ((r.f1, r.f2) = q))
  ⟨q.1, q.2, meanSome (g.map RawRow.value), (g.map RawRow.occur).sum⟩

/-- `Series.map(column_dict)`. An unknown column number would give NaN; column numbers in the table always come from
`range(column_size)`, so this is modelled as an error that never happens. -/
def nameRow (columns : List F) (r : CmdRow Nat K) : Except Err (CmdRow F K) :=
  match columns[r.root]?, columns[r.var]? with
  | some a, some b => .ok ⟨a, b, r.val, r.occ⟩
  | _, _ => .error .keyError

/-- Models: `_conditional_minimal_depth.py:286-300` (`_summarise_results`). `sort` is
`sort_values(by=["n_occurences", method], ascending=[False, True])`. Grouping an empty frame (no columns at all) is a
KeyError. -/
def summarise (sort : List (CmdRow Nat K) → List (CmdRow Nat K)) (columns : List F) (raw : List RawRow) :
    Except Err (List (CmdRow F K)) :=
  if raw.isEmpty then .error .keyError
  else
    match (sort ((npUnique (raw.map (fun r => toLex (r.f1, r.f2)))).map
        (fun q => cmdAgg raw (ofLex q)))).mapM (nameRow columns) with
    | .error e => .error e
    | .ok rows => .ok (rows.filter (fun r => !decide (r.var = r.root)))

/-- One round of the inner loop: the depth of the first (shallowest) node of the list is appended to the list of the
feature; `_minimal_depth.py:61-63`. -/
def depthStep (depths : List Nat) (acc : Dict Int (List Nat)) (e : Int × List Nat) : Except Err (Dict Int (List Nat)) :=
  match e.2 with
  | [] => .error .indexError
  | i :: _ =>
    match arrGet depths i with
    | .error e => .error e
    | .ok k => .ok (Dict.set acc e.1 ((Dict.get? acc e.1).getD [] ++ [k]))

/-- `feature_to_depth` of `_minimal_depth.py:59-63` -/
def featureToDepth (trees : List DepthSplit) : Except Err (Dict Int (List Nat)) :=
  trees.foldlM (fun acc ds => ds.2.foldlM (depthStep ds.1) acc) []

/-- A row of an importance table. -/
structure ImpRow (F K : Type) where
  f : F
  val : Num K

/-- `columns[f]` of `_minimal_depth.py:69`: KeyError unless `0 <= f < len(columns)`. -/
def colOf (columns : List F) (f : Int) : Except Err F :=
  if 0 ≤ f then (match columns[f.toNat]? with
    | some c => .ok c
    | none => .error .keyError)
  else .error .keyError

/-- Models: `_minimal_depth.py:37-76` (`importance`) called with the dictionary of trees (`none` is `None`). Sorting an
empty table (no column "Importance") is a KeyError. -/
def minimalDepthImportance (sort : List (ImpRow F K) → List (ImpRow F K)) (columns : List F)
    (trees : Option (List DepthSplit)) : Except Err (List (ImpRow F K)) :=
  match trees with
  | none => .error .importanceWithoutInteraction
  | some ts =>
    match featureToDepth ts with
    | .error e => .error e
    | .ok d =>
      match d.mapM (fun e => (colOf columns e.1).map (fun c =>
          (⟨c, .fin ((e.2.map (fun (k : Nat) => (k : K))).sum / e.2.length)⟩ : ImpRow F K))) with
      | .error e => .error e
      | .ok [] => .error .keyError
      | .ok (r :: rs) => .ok (sort (r :: rs))

/-- A fitted scikit-learn forest: `feature_names_in_` and `estimators_`. -/
structure Forest (F : Type) where
  columns : List F
  trees : List SkTree

/-- State of a `ConditionalMinimalDepthMethod`; `impObj` is `_feature_importance_obj is not None`. -/
structure CmdMethod (F K : Type) where
  features : Option (List F)
  pairs : Option (List (F × F))
  raw : Option (List RawRow)
  ovo : Option (List (CmdRow F K))
  impObj : Bool
  importance : Option (List (ImpRow F K))

/-- a new object -/
def CmdMethod.new : CmdMethod F K := ⟨none, none, none, none, false, none⟩

/-- The sorting routines used. -/
structure CmdEnv (F I K : Type) where
  sortOvo : List (CmdRow Nat K) → List (CmdRow Nat K)
  sortImp : List (ImpRow F K) → List (ImpRow F K)
  sortCmp : List (CmdRow F K) → List (CmdRow F K)
  /-- `"".join([a, b])` -/
  join : F → F → I

variable {I : Type}

/-- Models: `_conditional_minimal_depth.py:82-88` (`fit`), assignment by assignment. -/
def CmdMethod.fit (E : CmdEnv F I K) (m : Forest F) : PyM (CmdMethod F K) Unit := fun s0 =>
  let s1 := { s0 with features := some m.columns, pairs := some (combinations2 m.columns) }
  match cmdForest m.trees m.columns.length with
  | .error e => (.error e, s1)
  | .ok (raw, trees) =>
    let s2 := { s1 with raw := some raw }
    match summarise E.sortOvo m.columns raw with
    | .error e => (.error e, s2)
    | .ok ovo =>
      let s3 := { s2 with ovo := some ovo, impObj := true }
      match minimalDepthImportance E.sortImp m.columns (some trees) with
      | .error e => (.error e, s3)
      | .ok imp => (.ok (), { s3 with importance := some imp })

/-- mean of a column of floats, missing values left out -/
def nanMean (l : List (Num K)) : Num K :=
  let vs := l.filter (fun x => !x.isNaN)
  if vs.isEmpty then .nan else Num.mean vs

/-- `"".join(sorted([a, b]))` -/
def pairId [LinearOrder F] (join : F → F → I) (a b : F) : I := if b < a then join b a else join a b

/-- Models: `_conditional_minimal_depth.py:54-64` (`_compare_ovo`): rows grouped by the joined names, the names of the
first row of a group, the mean of its values, in ascending order (`n_occurences` is dropped, 0 here). -/
def CmdMethod.compareOvo [LinearOrder F] [LinearOrder I] (E : CmdEnv F I K) (s : CmdMethod F K) :
    Except Err (List (CmdRow F K)) :=
  match s.ovo with
  | none => .error .methodNotFitted
  | some ovo =>
    .ok (E.sortCmp ((npUnique (ovo.map (fun r => pairId E.join r.root r.var))).filterMap (fun i =>
      let g := ovo.filter (fun r => decide (pairId E.join r.root r.var = i))
      match g with
      | [] => none
      | r :: rs => some ⟨r.root, r.var, nanMean ((r :: rs).map CmdRow.val), 0⟩)))

end Tables

end Artemis
