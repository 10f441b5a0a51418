import Verif.Model.Num
import Verif.Model.PDCalc

/-!
# `artemis/_utilities/ops.py`

Prediction function selection, sampling, column selection.
-/

namespace Artemis

variable {F V N : Type*}

/-- A callable scoring rows: gets the number of earlier calls (so that it may fail at any call) and the rows. -/
abbrev PF (F V N : Type*) := Nat → List (Row F V) → Except Err (List N)

/-- A model object: its identity (used by `==`) and the prediction methods it has.
`predict_proba` returns a matrix. -/
structure ModelObj (F V N : Type*) where
  ident : Nat
  predict : Option (PF F V N)
  predictProba : Option (Nat → List (Row F V) → Except Err (List (List N)))

/-- `m.predict_proba(d)[:, 1]`. Models: `artemis/_utilities/ops.py:66-67` (`yhat_proba_default`).
A matrix with fewer than two columns raises IndexError. -/
def yhatProba (pp : Nat → List (Row F V) → Except Err (List (List N))) : PF F V N := fun n rows =>
  match pp n rows with
  | .error e => .error e
  | .ok m => m.mapM (fun row => match row[1]? with
    | some x => .ok x
    | none => .error .indexError)

/-- Models: `artemis/_utilities/ops.py:70-76` (`get_predict_function`), already applied to the model.
`none` is Python's `None` (no prediction method at all). -/
def getPredictFunction (model : ModelObj F V N) (user : Option (ModelObj F V N → PF F V N)) :
    Option (PF F V N) :=
  match user with
  | some f => some (f model)
  | none =>
    match model.predictProba with
    | some pp => some (yhatProba pp)
    | none => model.predict

/-- Calling the result of `get_predict_function`; calling `None` raises TypeError. -/
def callable (f : Option (PF F V N)) : PF F V N :=
  match f with
  | some f => f
  | none => fun _ _ => .error .typeError

/-! ### Data frames with row labels, and sampling -/

/-- A data frame together with its row labels (`X.index`). -/
structure LFrame (L F V : Type*) where
  labels : List L
  frame : Frame F V

/-- `X.equals(Y)`: same labels, same shape, same columns, same values. (dtypes are not modelled) -/
def LFrame.equals {L : Type*} [DecidableEq L] [DecidableEq F] [DecidableEq V] (A B : LFrame L F V) : Bool :=
  decide (A.labels = B.labels) && decide (A.frame.len = B.frame.len) && decide (A.frame.cols = B.frame.cols) &&
    A.frame.cols.all (fun f => decide (A.frame.col f = B.frame.col f))

/-- A random generator able to draw `n` positions out of `len` (`pd.DataFrame.sample` without replacement) and
to draw permutations (`np.random.Generator.permutation`). State type `G`. -/
structure Rng (G : Type*) where
  sample : G → (len n : Nat) → List Nat × G
  perm : G → (len : Nat) → List Nat × G

/-- What NumPy guarantees about the two draws. -/
structure Rng.Lawful {G : Type*} (R : Rng G) : Prop where
  sample_length : ∀ g len n, n ≤ len → (R.sample g len n).1.length = n
  sample_nodup : ∀ g len n, n ≤ len → (R.sample g len n).1.Nodup
  sample_lt : ∀ g len n, n ≤ len → ∀ i ∈ (R.sample g len n).1, i < len
  perm_perm : ∀ g len, ((R.perm g len).1).Perm (List.range len)

/-- `df.iloc[positions]` -/
def LFrame.iloc {L : Type*} (X : LFrame L F V) (is : List Nat) : LFrame L F V where
  labels := is.filterMap (fun i => X.labels[i]?)
  frame := ⟨X.frame.cols, is.filterMap (fun i => X.frame.rows[i]?)⟩

/-- Models: `artemis/_utilities/ops.py:18-22` (`sample_if_not_none`). pandas raises ValueError when more rows are
asked for than there are. -/
def sampleIfNotNone {L G : Type*} (R : Rng G) (X : LFrame L F V) (n : Option Nat) (g : G) :
    Except Err (LFrame L F V) × G :=
  match n with
  | none => (.ok X, g)
  | some k =>
    if X.frame.len < k then (.error .valueError, g)
    else
      let d := R.sample g X.frame.len k
      (.ok (X.iloc d.1), d.2)

/-- Models: `artemis/_utilities/ops.py:33-37` (`all_if_none`). -/
def allIfNone (cols : List F) (features : Option (List F)) : List F := features.getD cols

/-- `X_sampled[f].values`: KeyError when there is no such column. -/
def Frame.colE [DecidableEq F] (X : Frame F V) (f : F) : Except Err (List V) :=
  if f ∈ X.cols then .ok (X.col f) else .error .keyError

end Artemis
