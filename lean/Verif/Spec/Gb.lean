import Verif.Model.SplitScore

/-!
# Specification of gradient boosted trees

A boosted tree as a mathematical object, the table each library lists for it, and its splits with their depth and
parent. None of this refers to the functions of the split score.
-/

namespace Artemis

/-- A boosted tree. Leaves carry their value and cover, splits their feature, gain and cover. -/
inductive GTree (F I K : Type)
  | leaf (id : I) (value cover : K)
  | split (id : I) (feat : F) (gain cover : K) (l r : GTree F I K)

/-- A split of a forest with its depth and its parent (feature, gain, cover). -/
structure Split (F I K : Type) where
  tree : Nat
  id : I
  depth : Nat
  feat : F
  gain : K
  cover : K
  parent : Option (F × K × K)

namespace GTree
variable {F I K : Type}

/-- ID of the root -/
def id : GTree F I K → I
  | .leaf i _ _ => i
  | .split i _ _ _ _ _ => i

/-- all IDs -/
def ids : GTree F I K → List I
  | .leaf i _ _ => [i]
  | .split i _ _ _ l r => i :: (l.ids ++ r.ids)

/-- All splits of tree number `t`, given the depth of its root and the parent of its root. -/
def splits (t : Nat) : Option (F × K × K) → Nat → GTree F I K → List (Split F I K)
  | _, _, .leaf _ _ _ => []
  | p, k, .split i f g c l r =>
    ⟨t, i, k, f, g, c, p⟩ :: (l.splits t (some (f, g, c)) (k + 1) ++ r.splits t (some (f, g, c)) (k + 1))

/-- The rows XGBoost lists: nodes have a number, leaves are named `leafName`. -/
def xgbRows (leafName : F) (t : Nat) (num : I → Nat) : GTree F I K → List (XgbRow F I K)
  | .leaf i v c => [⟨t, num i, i, leafName, none, none, v, c⟩]
  | .split i f g c l r =>
    ⟨t, num i, i, f, some l.id, some r.id, g, c⟩ :: (l.xgbRows leafName t num ++ r.xgbRows leafName t num)

/-- The rows LightGBM lists: depths count from 1, leaves have no feature and no gain. -/
def lgbRows (t : Nat) : Nat → GTree F I K → List (LgbRow F I K)
  | k, .leaf i _ _ => [⟨t, k + 1, i, none, none, none, none⟩]
  | k, .split i f g _ l r =>
    ⟨t, k + 1, i, some l.id, some r.id, some f, some g⟩ :: (l.lgbRows t (k + 1) ++ r.lgbRows t (k + 1))

end GTree

section Forest
variable {F I K : Type}

/-- All splits of a forest. -/
def forestSplits (ts : List (GTree F I K)) : List (Split F I K) :=
  (ts.zipIdx.map (fun q => q.1.splits q.2 none 0)).flatten

/-- No feature bears the name that marks leaves. -/
def NoLeafName (leafName : F) (ts : List (GTree F I K)) : Prop := ∀ s ∈ forestSplits ts, s.feat ≠ leafName

/-- The table XGBoost returns for a forest: the rows of each tree in an order that lists parents before their children;
the IDs of a tree are different and the number of a node is 0 exactly at the root. -/
structure XgbForest (leafName : F) (ts : List (GTree F I K)) (rows : List (XgbRow F I K)) : Prop where
  inRange : ∀ r ∈ rows, r.tree < ts.length
  nodup : ∀ T ∈ ts, T.ids.Nodup
  lists : ∀ (t : Nat) (T : GTree F I K), ts[t]? = some T → ∃ num : I → Nat, (∀ i ∈ T.ids, num i = 0 ↔ i = T.id) ∧
    (rows.filter (fun r => decide (r.tree = t))).Perm (T.xgbRows leafName t num)
  parentsFirst : rows.Pairwise (fun a b => b.tree = a.tree → b.yes ≠ some a.id ∧ b.no ≠ some a.id)
  noLeafName : NoLeafName leafName ts

/-- The table LightGBM returns for a forest, rows in any order. -/
structure LgbForest (ts : List (GTree F I K)) (rows : List (LgbRow F I K)) : Prop where
  inRange : ∀ r ∈ rows, r.tree < ts.length
  nodup : ∀ T ∈ ts, T.ids.Nodup
  lists : ∀ (t : Nat) (T : GTree F I K), ts[t]? = some T →
    (rows.filter (fun r => decide (r.tree = t))).Perm (T.lgbRows t 0)

/-- A model of a supported package and the forest it holds. -/
inductive GbForest (leafName : F) (ts : List (GTree F I K)) : Package → GbModel F I K → Prop
  | xgboost (cls : List Char) (rows) : packageOf cls = "xgboost".toList → XgbForest leafName ts rows →
      GbForest leafName ts .xgboost ⟨cls, .xgb rows⟩
  | lightgbm (cls : List Char) (rows) : packageOf cls = "lightgbm".toList → LgbForest ts rows →
      GbForest leafName ts .lightgbm ⟨cls, .lgb rows⟩

/-- What `full_result` shows of a node. -/
structure StatView (F I K : Type) where
  tree : Nat
  id : I
  depth : Option Int
  feat : Option F
  gain : Option K
  cover : Option K
  parentName : Option F
  parentGain : Option K
  parentCover : Option K
  interaction : Option Bool

/-- the columns of a row of `full_result` -/
def StatRow.view (r : StatRow F I K) : StatView F I K :=
  ⟨r.row.tree, r.row.id, r.row.depth, r.row.feat, r.row.gain, r.row.cover, r.parentName, r.parentGain, r.parentCover,
    r.interaction⟩

/-- A cover is shown by XGBoost only. -/
def shownCover (p : Package) (c : K) : Option K :=
  match p with
  | .xgboost => some c
  | .lightgbm => none

variable [DecidableEq F] [LinearOrder K]

/-- A split interacts with its parent if it gains more and splits on another feature. -/
def Split.interacts (s : Split F I K) : Bool :=
  match s.parent with
  | none => false
  | some (f, g, _) => decide (g < s.gain) && decide (s.feat ≠ f)

/-- What `full_result` has to show of a split. -/
def Split.view (p : Package) (s : Split F I K) : StatView F I K :=
  { tree := s.tree, id := s.id, depth := some (s.depth : Int), feat := some s.feat, gain := some s.gain
    cover := shownCover p s.cover
    parentName := s.parent.map (fun q => q.1)
    parentGain := s.parent.map (fun q => q.2.1)
    parentCover := s.parent.bind (fun q => shownCover p q.2.2)
    interaction := s.parent.map (fun _ => s.interacts) }

/-- The splits that count: those that interact, or all below a root. -/
def Split.counts (onlyDef : Bool) (s : Split F I K) : Bool := if onlyDef then s.interacts else s.parent.isSome

/-- The splits that count for an ordered pair of features. -/
def pairSplits (onlyDef : Bool) (ts : List (GTree F I K)) (a b : F) : List (Split F I K) :=
  (forestSplits ts).filter (fun s => s.counts onlyDef && decide (s.parent.map (fun q => q.1) = some a) && decide (s.feat = b))

/-- The splits of a feature. -/
def featSplits (ts : List (GTree F I K)) (f : F) : List (Split F I K) :=
  (forestSplits ts).filter (fun s => decide (s.feat = f))

/-- The roots that split on a feature. -/
def featRoots (ts : List (GTree F I K)) (f : F) : List (Split F I K) :=
  (featSplits ts f).filter (fun s => decide (s.depth = 0))

/-- sum of the gains -/
def gainSum [AddCommMonoid K] (l : List (Split F I K)) : K := (l.map (fun s => s.gain)).sum

/-- sum of the covers -/
def coverSum [AddCommMonoid K] (l : List (Split F I K)) : K := (l.map (fun s => s.cover)).sum

end Forest

section Tables
variable {F I K : Type} [DecidableEq F] [Field K] [LinearOrder K]

/-- What `full_ovo` has to say about a pair: the aggregates of exactly the splits that count for it. -/
structure SumRowOk (p : Package) (onlyDef : Bool) (ts : List (GTree F I K)) (r : SumRow F K) : Prop where
  occurs : pairSplits onlyDef ts r.parent r.child ≠ []
  frequency : r.frequency = (pairSplits onlyDef ts r.parent r.child).length
  sumGain : r.sumGain = .fin (gainSum (pairSplits onlyDef ts r.parent r.child))
  meanGain : r.meanGain = .fin (gainSum (pairSplits onlyDef ts r.parent r.child) / (pairSplits onlyDef ts r.parent r.child).length)
  meanDepth : r.meanDepth = .fin (((pairSplits onlyDef ts r.parent r.child).map (fun s => (s.depth : K))).sum
    / (pairSplits onlyDef ts r.parent r.child).length)
  coverX : p = .xgboost → r.sumCover = .fin (coverSum (pairSplits onlyDef ts r.parent r.child)) ∧
    r.meanCover = .fin (coverSum (pairSplits onlyDef ts r.parent r.child) / (pairSplits onlyDef ts r.parent r.child).length)
  coverL : p = .lightgbm → r.sumCover = .fin 0 ∧ r.meanCover = .nan

/-- Is the feature among those asked for (`None`: all)? -/
def selected (features : Option (List F)) (f : F) : Bool :=
  match features with
  | none => true
  | some fs => decide (f ∈ fs)

/-- What the importance table has to say about a feature: the aggregates of exactly its splits and roots. -/
structure ImpStatOk (p : Package) (features : Option (List F)) (ts : List (GTree F I K)) (r : ImpStat F K) : Prop where
  occurs : featSplits ts r.feat ≠ []
  sumGain : r.sumGain = .fin (gainSum (featSplits ts r.feat))
  meanGain : r.meanGain = .fin (gainSum (featSplits ts r.feat) / (featSplits ts r.feat).length)
  meanDepth : r.meanDepth = .fin (((featSplits ts r.feat).map (fun s => (s.depth : K))).sum / (featSplits ts r.feat).length)
  coverX : p = .xgboost → r.sumCover = .fin (coverSum (featSplits ts r.feat)) ∧
    r.meanCover = .fin (coverSum (featSplits ts r.feat) / (featSplits ts r.feat).length)
  coverL : p = .lightgbm → r.sumCover = .fin 0 ∧ r.meanCover = .nan
  rootFrequency : r.rootFrequency = if featRoots ts r.feat = [] then .nan else .ofNat (featRoots ts r.feat).length
  weightedRootFrequency : r.weightedRootFrequency = if featRoots ts r.feat = [] then .nan else
    Num.div (Num.mul (.ofNat (featRoots ts r.feat).length) (.fin (gainSum (featRoots ts r.feat))))
      (.fin (gainSum ((forestSplits ts).filter (fun s => selected features s.feat && decide (s.depth = 0)))))
  meanWeightedDepth : r.meanWeightedDepth = .fin (((featSplits ts r.feat).map (fun s => (s.depth : K) * s.gain)).sum
    / gainSum (featSplits ts r.feat))

/-- The sorting routines sort. -/
structure SsEnv.Lawful (E : SsEnv F K) : Prop where
  sum : SortsBy SumRow.sumGain false E.sortSum
  ovo : ∀ asc, SortsBy SsRow.val asc (E.sortOvo asc)
  full : ∀ key, SortsBy key false (E.sortFull key)
  imp : SortsBy ImpRow.val false E.sortImp

/-- Metrics of interactions that are columns of the summary. -/
def SsMetric.isInteraction (m : SsMetric) : Prop :=
  m = .sumGain ∨ m = .sumCover ∨ m = .meanGain ∨ m = .meanCover ∨ m = .meanDepth

/-- Metrics of importance. -/
def SsMetric.isImportance (m : SsMetric) : Prop :=
  m.isInteraction ∨ m = .meanWeightedDepth ∨ m = .rootFrequency ∨ m = .weightedRootFrequency

/-- Covers are not available for LightGBM. -/
def SsMetric.availableFor (p : Package) (m : SsMetric) : Prop := p = .lightgbm → m ≠ .meanCover ∧ m ≠ .sumCover

end Tables

end Artemis
