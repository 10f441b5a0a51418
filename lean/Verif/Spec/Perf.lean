import Verif.Model.Ops
import Verif.Model.Perf
import Verif.Spec.Decomp

/-!
# Specification vocabulary for performance-based explanations

Written without reference to the modelled algorithms: what a permuted data set is, the sequence of permutations a
generator produces, how well a model does on a data set.
-/

namespace Artemis.Spec
variable {F V K G L : Type} [DecidableEq F]

/-- The rows of `X` with the columns `fs` rearranged by the positions `p`: row `i` takes its values of `fs` from row
`p[i]` and keeps the others. -/
def permuted (X : Frame F V) (fs : List F) (p : List Nat) : List (Row F V) :=
  X.rows.mapIdx fun i r f => if f ∈ fs then ((p[i]?.bind (X.rows[·]?)).getD r) f else r f

/-- state of the generator after `k` permutations of length `len` -/
def permAfter (R : Rng G) (len : Nat) (g : G) : Nat → G
  | 0 => g
  | k + 1 => (R.perm (permAfter R len g k) len).2

/-- the `k`-th permutation of length `len` drawn by a generator started at `g` -/
def nthPerm (R : Rng G) (len : Nat) (g : G) (k : Nat) : List Nat := (R.perm (permAfter R len g k) len).1

/-- Asking the model (any number of times) for predictions for `len` rows and applying the metric never fails and gives
the number `sc rows`. -/
def Scores [Field K] [LinearOrder K] (model : ModelObj F V (Num K)) (M : Metric K) (y : List (Num K)) (len : Nat)
    (sc : List (Row F V) → K) : Prop :=
  ∃ p, model.predict = some p ∧
    ∀ k rows, rows.length = len → ∃ yh, p k rows = .ok yh ∧ M.calculate y yh = .ok (.fin (sc rows))

/-- The model's predictions for a data set are the finite numbers `P rows`, one per row. -/
def Predicts (model : ModelObj F V (Num K)) (P : List (Row F V) → List K) : Prop :=
  ∃ p, model.predict = some p ∧
    ∀ k rows, p k rows = .ok ((P rows).map Num.fin) ∧ (P rows).length = rows.length

/-- The model's answers do not depend on column `f` (nor on earlier questions). -/
def ModelIgnores (model : ModelObj F V (Num K)) (f : F) : Prop :=
  ∀ p, model.predict = some p → ∀ k k' rows rows',
    List.Forall₂ (fun r r' : Row F V => ∀ h, h ≠ f → r h = r' h) rows rows' → p k rows = p k' rows'

/-- the non-additive part of the performance change when `f` is permuted by `p`, `g` by `q`, both by `pq` -/
def nonAdditive [Field K] [LinearOrder K] (sc : List (Row F V) → K) (X : Frame F V) (f g : F) (p q pq : List Nat) : K :=
  |sc (permuted X [f, g] pq) - sc (permuted X [f] p) - sc (permuted X [g] q) + sc X.rows|

/-- the three data sets scored for one repetition for one pair: `f` permuted, `g` permuted, both permuted together;
`perm` is the sequence of permutations, `k` the number of permutations drawn before -/
def tripleFrames (X : Frame F V) (perm : Nat → List Nat) (f g : F) (k : Nat) : List (List (Row F V)) :=
  [permuted X [f] (perm k), permuted X [g] (perm (k + 1)), permuted X [f, g] (perm (k + 2))]

/-- all data sets scored for the pairs: pair after pair, `n` repetitions each -/
def pairFrames (X : Frame F V) (perm : Nat → List Nat) (n : Nat) (pairs : List (F × F)) : List (List (Row F V)) :=
  (pairs.mapIdx fun i pr => (List.range n).flatMap fun j => tripleFrames X perm pr.1 pr.2 (3 * (n * i + j))).flatten

/-- Sejong Oh's value of the `i`-th pair: the mean over `n` repetitions of the non-additive performance change -/
def pairValue [Field K] [LinearOrder K] (sc : List (Row F V) → K) (X : Frame F V) (perm : Nat → List Nat) (n i : Nat)
    (pr : F × F) : K :=
  average ((List.range n).map fun j =>
    nonAdditive sc X pr.1 pr.2 (perm (3 * (n * i + j))) (perm (3 * (n * i + j) + 1)) (perm (3 * (n * i + j) + 2)))

/-- the features whose turn it is to be corrupted: the list of features, `n` times -/
def turns (fs : List F) (n : Nat) : List F := (List.replicate n fs).flatten

/-- the data sets scored for permutation importance: at turn `k` the feature whose turn it is, permuted by the `k`-th
permutation -/
def turnFrames (X : Frame F V) (perm : Nat → List Nat) (fs : List F) (n : Nat) : List (List (Row F V)) :=
  (turns fs n).mapIdx fun k f => permuted X [f] (perm k)

/-- the scores obtained at the turns of `f` -/
def turnScores (sc : List (Row F V) → K) (X : Frame F V) (perm : Nat → List Nat) (fs : List F) (n : Nat) (f : F) :
    List K :=
  (((turns fs n).mapIdx fun k h => (h, sc (permuted X [h] (perm k)))).filter (fun e => e.1 = f)).map (·.2)

end Artemis.Spec
