import Mathlib.Data.List.Sort
import Mathlib.Data.List.Dedup
import Mathlib.Logic.Function.Basic

/-!
# Python vocabulary shared by the whole model

Exceptions as values, a state-and-exception "monad" written as plain functions, insertion-ordered
dictionaries, `itertools.combinations(_, 2)`, `np.unique`, `np.where(...)[0][0]`.
-/

namespace Artemis

/-- Exception classes that can escape from the modelled code.
Models: `artemis/_utilities/exceptions.py:1-45` plus the Python/NumPy/pandas built-ins raised by the
modelled functions. Exception payloads (messages) are dropped. -/
inductive Err
  | keyError | indexError | valueError | typeError | assertionError
  | statisticsError | zeroDivisionError | attributeError
  | methodNotFitted | methodNotSupported | visualizationNotSupported
  | modelNotSupported | metricNotSupported | importanceWithoutInteraction | networkXError | unboundLocalError
  | userError (code : Nat)   -- whatever a user-supplied callable raises
  | noReturn                 -- not an exception: the call does not return (used where a loop need not terminate)
  deriving DecidableEq, Repr

/-- A Python method body: takes the current object state, returns a value or an exception *and* the
state it leaves behind (attributes assigned before a `raise` stay assigned). -/
abbrev PyM (σ α : Type*) := σ → Except Err α × σ

namespace PyM
variable {σ α β : Type*}
/-- `return a` -/
def ret (a : α) : PyM σ α := fun s => (.ok a, s)
/-- `raise e` -/
def raise (e : Err) : PyM σ α := fun s => (.error e, s)
/-- sequencing of two statements; an exception in the first skips the second -/
def seq (m : PyM σ α) (k : α → PyM σ β) : PyM σ β := fun s =>
  match m s with
  | (.ok a, s') => k a s'
  | (.error e, s') => (.error e, s')
/-- `for a in l: body(a)`; an exception in the body ends the loop -/
def forEach : List α → (α → PyM σ Unit) → PyM σ Unit
  | [], _ => ret ()
  | a :: as, body => seq (body a) (fun _ => forEach as body)
end PyM

/-- A floating-point type as seen by the partial dependence calculator: it has a NaN, a NaN test
(`np.isnan`) and *some* deterministic `np.mean`. No arithmetic law is assumed. -/
class Flt (N : Type*) where
  nan : N
  isNaN : N → Bool
  isNaN_nan : isNaN nan = true
  mean : List N → N

/-! ### Insertion-ordered dictionaries -/

/-- Python `dict`: association list in insertion order. -/
abbrev Dict (α β : Type*) := List (α × β)

namespace Dict
variable {α β : Type*} [DecidableEq α]

/-- `d[k]`, `none` is KeyError. -/
def get? : Dict α β → α → Option β
  | [], _ => none
  | (a, b) :: d, k => if a = k then some b else get? d k

/-- `d[k] = v`: overwrites in place if the key exists, appends otherwise. -/
def set : Dict α β → α → β → Dict α β
  | [], k, v => [(k, v)]
  | (a, b) :: d, k, v => if a = k then (a, v) :: d else (a, b) :: set d k v

/-- `d.keys()` -/
def keys (d : Dict α β) : List α := d.map Prod.fst

end Dict

/-- `itertools.combinations(l, 2)`: pairs in positional order. -/
def combinations2 {α : Type*} : List α → List (α × α)
  | [] => []
  | x :: xs => xs.map (fun y => (x, y)) ++ combinations2 xs

/-- `np.sort(np.unique(a))`: the distinct values in increasing order.
Models the expression used in `artemis/_utilities/pd_calculator.py:20-28`. -/
def npUnique {V : Type*} [LinearOrder V] (a : List V) : List V := a.dedup.insertionSort (· ≤ ·)

/-- `np.where(array == value)[0][0]`: first position of the value, IndexError if absent.
Models: `artemis/_utilities/pd_calculator.py:165-166` (`get_index`). -/
def getIndex {V : Type*} [DecidableEq V] (array : List V) (value : V) : Except Err Nat :=
  match array.findIdx? (· = value) with
  | some i => .ok i
  | none => .error .indexError

/-- `y[start:end]` -/
def slice {N : Type*} (y : List N) (s e : Nat) : List N := (y.drop s).take (e - s)

/-- A row of a data frame: value of every feature. -/
abbrev Row (F V : Type*) := F → V

/-- A `pd.DataFrame` of feature values: its columns (in order) and rows (in order). Row labels are
dropped here; they matter only for sampling and are modelled there. -/
structure Frame (F V : Type*) where
  cols : List F
  rows : List (Row F V)

namespace Frame
variable {F V : Type*} [DecidableEq F]
/-- `X[col].values` -/
def col (X : Frame F V) (f : F) : List V := X.rows.map (fun r => r f)
/-- `len(X)` -/
def len (X : Frame F V) : Nat := X.rows.length
/-- `X.copy().assign(**{f: v})` for a scalar `v`: all rows with column `f` overwritten. -/
def assign (X : Frame F V) (f : F) (v : V) : Frame F V :=
  { X with rows := X.rows.map (fun r => Function.update r f v) }
end Frame

end Artemis
