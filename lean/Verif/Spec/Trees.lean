import Verif.Model.CMD

/-!
# Specification vocabulary: binary decision trees

Trees as trees, "subtree at depth k", minimal depth and conditional minimal depth as in the literature; how a tree is
stored in scikit-learn's arrays. Nothing here refers to the modelled algorithms.
-/

namespace Artemis.Spec

/-- A binary decision tree; every node carries its id, an internal node the number of its split column. -/
inductive LTree
  | leaf (id : Nat)
  | node (id : Nat) (feat : Nat) (l r : LTree)

namespace LTree

/-- id of the root -/
def id : LTree → Nat
  | .leaf i => i
  | .node i _ _ _ => i

/-- all ids, in preorder (root, left subtree, right subtree) -/
def ids : LTree → List Nat
  | .leaf i => [i]
  | .node i _ l r => i :: (l.ids ++ r.ids)

/-- the root is a split on column `f` -/
def Splits (f : Nat) : LTree → Prop
  | .leaf _ => False
  | .node _ g _ _ => g = f

instance (f : Nat) (t : LTree) : Decidable (t.Splits f) := by
  cases t <;> unfold Splits <;> infer_instance

/-- number of right turns from the root to the rightmost leaf: the depth, below the root, of the node that comes last
in preorder -/
def lastDepth : LTree → Nat
  | .leaf _ => 0
  | .node _ _ _ r => r.lastDepth + 1

/-- the array `A` holds the tree -/
def Stores (A : SkTree) : LTree → Prop
  | .leaf i => A[i]? = some ⟨-1, -1, -2⟩
  | .node i f l r => A[i]? = some ⟨l.id, r.id, f⟩ ∧ Stores A l ∧ Stores A r

end LTree

/-- `s` is a subtree of `t` whose root is at depth `k` of `t`. -/
inductive At : LTree → Nat → LTree → Prop
  | here (t) : At t 0 t
  | left {i f l r k s} : At l k s → At (.node i f l r) (k + 1) s
  | right {i f l r k s} : At r k s → At (.node i f l r) (k + 1) s

/-- `A` is scikit-learn's array form of `t`: root has id 0, ids are the positions, each once. -/
structure TreeArray (A : SkTree) (t : LTree) : Prop where
  root : t.id = 0
  stores : t.Stores A
  ids : t.ids.Perm (List.range A.length)

/-- ids are given in preorder, as by scikit-learn's depth-first builder -/
def DepthFirst (t : LTree) : Prop := t.ids = List.range t.ids.length

/-- column `f` is used by a split of `t` -/
def Uses (t : LTree) (f : Nat) : Prop := ∃ k s, At t k s ∧ s.Splits f

/-- `s` is one of the splits on `f` of `t` nearest to the root, at depth `k` (minimal depth of `f`) -/
def Shallowest (t : LTree) (f k : Nat) (s : LTree) : Prop :=
  At t k s ∧ s.Splits f ∧ ∀ k' s', At t k' s' → s'.Splits f → k ≤ k'

/-- `m` is the depth, below the root of `s`, of the nearest split on `g` strictly below the root of `s` -/
def NearestBelow (s : LTree) (g m : Nat) : Prop :=
  0 < m ∧ (∃ w, At s m w ∧ w.Splits g) ∧ ∀ m' w, 0 < m' → At s m' w → w.Splits g → m ≤ m'

/-- `x` is what the subtree `s` contributes to the conditional minimal depth of `g`: the number of nodes strictly
between the root of `s` and the nearest split on `g` below it; if there is none, the depth of the last node of `s`. -/
def Contribution (s : LTree) (g x : Nat) : Prop :=
  NearestBelow s g (x + 1) ∨ ((¬ ∃ m, NearestBelow s g m) ∧ x = s.lastDepth)

/-- `x` is the conditional minimal depth of `g` given `f` in `t`: the smallest contribution of a shallowest split
on `f`. -/
def CondDepth (t : LTree) (f g x : Nat) : Prop :=
  (∃ k s, Shallowest t f k s ∧ Contribution s g x) ∧
    ∀ k s y, Shallowest t f k s → Contribution s g y → x ≤ y

/-- some shallowest split on `f` has a split on `g` below it -/
def OccursBelow (t : LTree) (f g : Nat) : Prop := ∃ k s m, Shallowest t f k s ∧ NearestBelow s g m

/-! ### Forests -/

/-- `ts` are the trees of the forest `m`: feature names without repetition, every tree stored depth-first, splits only
on the columns there are. -/
structure ForestOf {F : Type} (m : Forest F) (ts : List LTree) : Prop where
  names : m.columns.Nodup
  trees : List.Forall₂ (fun A t => TreeArray A t ∧ DepthFirst t) m.trees ts
  cols : ∀ t ∈ ts, ∀ f, Uses t f → f < m.columns.length

/-- the mean of natural numbers; NaN of none -/
def meanNat {K : Type} [Field K] (xs : List Nat) : Num K :=
  if xs = [] then .nan else .fin ((xs.map (fun (x : Nat) => (x : K))).sum / (xs.length : K))

open Classical in
/-- `v` is the mean, over the trees that use both columns, of the conditional minimal depth of `g` given `f` (NaN if no
tree uses both). -/
def IsMeanCondDepth {K : Type} [Field K] (ts : List LTree) (f g : Nat) (v : Num K) : Prop :=
  ∃ xs : List Nat, List.Forall₂ (fun t x => CondDepth t f g x) (ts.filter (fun t => decide (Uses t f ∧ Uses t g))) xs ∧
    v = meanNat xs

open Classical in
/-- the number of trees in which a split on `g` occurs below a shallowest split on `f` -/
noncomputable def occurrences (ts : List LTree) (f g : Nat) : Nat := ts.countP (fun t => decide (OccursBelow t f g))

/-- `k` is the minimal depth of `f` in `t` -/
def MinDepth (t : LTree) (f k : Nat) : Prop := ∃ s, Shallowest t f k s

open Classical in
/-- `v` is the mean, over the trees that use `f`, of its minimal depth. -/
def IsMeanMinDepth {K : Type} [Field K] (ts : List LTree) (f : Nat) (v : Num K) : Prop :=
  ∃ ks : List Nat, List.Forall₂ (fun t k => MinDepth t f k) (ts.filter (fun t => decide (Uses t f))) ks ∧ v = meanNat ks

/-- What is assumed about `sort_values(by=["n_occurences", method], ascending=[False, True])`. -/
def SortsCmd {K : Type} [LinearOrder K] (sort : List (CmdRow Nat K) → List (CmdRow Nat K)) : Prop :=
  ∀ l, (sort l).Perm l ∧ (sort l).Pairwise (fun r s => s.occ < r.occ ∨ (r.occ = s.occ ∧ Num.keyLE true r.val s.val = true))

end Artemis.Spec
