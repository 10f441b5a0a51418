import Verif.Spec.Trees

/-!
# Specification vocabulary: the same forest written down differently

Columns renumbered, nodes renumbered, left and right exchanged, trees reordered or all of them repeated.
-/

namespace Artemis.Spec

/-- `t'` is `t` with split column `f` called `σ f`, nodes numbered in any way and, if `swap`, left and right exchanged at any of
the nodes. -/
inductive SameTree (swap : Bool) (σ : Nat → Nat) : LTree → LTree → Prop
  | leaf (i j) : SameTree swap σ (.leaf i) (.leaf j)
  | node (i j f) {l r l' r'} : SameTree swap σ l l' → SameTree swap σ r r' → SameTree swap σ (.node i f l r) (.node j (σ f) l' r')
  | swapped (i j f) {l r l' r'} : swap = true → SameTree swap σ l r' → SameTree swap σ r l' →
      SameTree swap σ (.node i f l r) (.node j (σ f) l' r')

/-- `ts'` consists of `n` copies of the same trees as `ts`, in any order. -/
def SameTrees (swap : Bool) (σ : Nat → Nat) (n : Nat) (ts ts' : List LTree) : Prop :=
  ∃ us, List.Forall₂ (SameTree swap σ) ts us ∧ ts'.Perm (List.replicate n us).flatten

/-- Every shallowest split on `f` has a split on `g` below it. -/
def AlwaysBelow (t : LTree) (f g : Nat) : Prop := ∀ k s, Shallowest t f k s → ∃ m, NearestBelow s g m

/-- `x` is the number of nodes strictly between a shallowest split on `f` and the nearest split on `g` below it, the smallest
over all shallowest splits on `f` that have one. -/
def NodesBetween (t : LTree) (f g x : Nat) : Prop :=
  (∃ k s, Shallowest t f k s ∧ NearestBelow s g (x + 1)) ∧ ∀ k s m, Shallowest t f k s → NearestBelow s g m → x + 1 ≤ m

/-- some child of a shallowest split on `f` is a split on `g` -/
def DirectlyBelow (t : LTree) (f g : Nat) : Prop := ∃ k s w, Shallowest t f k s ∧ At s 1 w ∧ w.Splits g

/-- length of the longest way down -/
def LTree.height : LTree → Nat
  | .leaf _ => 0
  | .node _ _ l r => max l.height r.height + 1

/-- Ids as given by scikit-learn's best-first builder (`max_leaf_nodes`): the root is 0, the two children of a node get two
consecutive ids when the node is split, later than its own. -/
def BestFirst : LTree → Prop
  | .leaf _ => True
  | .node i _ l r => i < l.id ∧ r.id = l.id + 1 ∧ BestFirst l ∧ BestFirst r

/-- `ts` are the trees of the forest `m`, nodes numbered in any way -/
structure NumberedForest {F : Type} (m : Forest F) (ts : List LTree) : Prop where
  names : m.columns.Nodup
  trees : List.Forall₂ TreeArray m.trees ts
  cols : ∀ t ∈ ts, ∀ f, Uses t f → f < m.columns.length

/-- The columns `cols'` are the columns `cols` renamed by `ρ`, in any order: column number `a` is now number `σ a`. -/
structure SameColumns {F F' : Type} (σ : Nat → Nat) (ρ : F → F') (cols : List F) (cols' : List F') : Prop where
  perm : cols'.Perm (cols.map ρ)
  get : ∀ a f, cols[a]? = some f → cols'[σ a]? = some (ρ f)

open Classical in
/-- `v` is the mean, over the trees that use both columns, of the number of nodes between a shallowest split on `f` and the
nearest split on `g` below it. -/
def IsMeanBetween {K : Type} [Field K] (ts : List LTree) (f g : Nat) (v : Num K) : Prop :=
  ∃ xs : List Nat, List.Forall₂ (fun t x => NodesBetween t f g x) (ts.filter (fun t => decide (Uses t f ∧ Uses t g))) xs ∧
    v = meanNat xs

end Artemis.Spec
