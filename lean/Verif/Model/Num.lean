import Verif.Model.Py
import Mathlib.Algebra.Order.Field.Basic
import Mathlib.Algebra.BigOperators.Group.List.Basic
import Mathlib.Data.Rat.Cast.Order
import Mathlib.Algebra.Order.Ring.Rat

/-!
# Numbers with infinities and NaN

`Num K` is an ordered field `K` extended with `+inf`, `-inf`, `nan` and the IEEE 754 rules for them.
Rounding, overflow and signed zeros are not modelled (`x / 0` is `+inf` for `x > 0`, as with `+0.0`).
-/

namespace Artemis

/-- A float: exact finite part, infinities, NaN. -/
inductive Num (K : Type*)
  | fin (x : K) | pinf | ninf | nan
  deriving DecidableEq, Repr

/-- A square root on the finite numbers (`np.sqrt` on non-negative arguments). -/
class HasSqrt (K : Type*) where
  sqrt : K → K

/-- What a square root has to satisfy. -/
class LawfulSqrt (K : Type*) [Field K] [LinearOrder K] [HasSqrt K] : Prop where
  nonneg : ∀ x : K, 0 ≤ HasSqrt.sqrt x
  mul_self : ∀ x : K, 0 ≤ x → HasSqrt.sqrt x * HasSqrt.sqrt x = x

namespace Num
variable {K : Type*} [Field K] [LinearOrder K]

/-- IEEE addition -/
def add : Num K → Num K → Num K
  | .fin x, .fin y => .fin (x + y)
  | .nan, _ => .nan
  | _, .nan => .nan
  | .pinf, .ninf => .nan
  | .ninf, .pinf => .nan
  | .pinf, _ => .pinf
  | .ninf, _ => .ninf
  | _, .pinf => .pinf
  | _, .ninf => .ninf

/-- IEEE negation -/
def neg : Num K → Num K
  | .fin x => .fin (-x)
  | .pinf => .ninf
  | .ninf => .pinf
  | .nan => .nan

/-- IEEE subtraction -/
def sub (a b : Num K) : Num K := add a (neg b)

/-- infinity with the sign of `x`, NaN for `x = 0` -/
def infSign (x : K) : Num K := if 0 < x then .pinf else if x < 0 then .ninf else .nan

/-- IEEE multiplication (`0 * inf` is NaN) -/
def mul : Num K → Num K → Num K
  | .nan, _ => .nan
  | _, .nan => .nan
  | .fin x, .fin y => .fin (x * y)
  | .pinf, .fin y => infSign y
  | .ninf, .fin y => infSign (-y)
  | .fin x, .pinf => infSign x
  | .fin x, .ninf => infSign (-x)
  | .pinf, .pinf => .pinf
  | .pinf, .ninf => .ninf
  | .ninf, .pinf => .ninf
  | .ninf, .ninf => .pinf

/-- NumPy division (no exception: `x/0` is an infinity, `0/0` is NaN) -/
def div : Num K → Num K → Num K
  | .nan, _ => .nan
  | _, .nan => .nan
  | .fin x, .fin y => if y = 0 then infSign x else .fin (x / y)
  | .fin _, _ => .fin 0
  | .pinf, .fin y => if y < 0 then .ninf else .pinf
  | .ninf, .fin y => if y < 0 then .pinf else .ninf
  | _, _ => .nan

/-- `x ** 2` -/
def sq (a : Num K) : Num K := mul a a

/-- `abs(x)` -/
def abs : Num K → Num K
  | .fin x => .fin |x|
  | .pinf => .pinf
  | .ninf => .pinf
  | .nan => .nan

/-- `np.sqrt` (NaN for negative arguments) -/
def sqrt [HasSqrt K] : Num K → Num K
  | .fin x => if x < 0 then .nan else .fin (HasSqrt.sqrt x)
  | .pinf => .pinf
  | .ninf => .nan
  | .nan => .nan

/-- `np.isnan` -/
def isNaN : Num K → Bool
  | .nan => true
  | _ => false

/-- `a <= b` (False if one of them is NaN) -/
def le : Num K → Num K → Bool
  | .nan, _ => false
  | _, .nan => false
  | .fin x, .fin y => decide (x ≤ y)
  | .ninf, _ => true
  | _, .pinf => true
  | _, _ => false

/-- `a < b` (False if one of them is NaN) -/
def lt (a b : Num K) : Bool := le a b && !(le b a)

/-- `np.sum` of a vector -/
def sum : List (Num K) → Num K
  | [] => .fin 0
  | a :: l => add a (sum l)

/-- an integer as a float -/
def ofNat (n : Nat) : Num K := .fin (n : K)

/-- `np.mean` of a vector (NaN for the empty one) -/
def mean (l : List (Num K)) : Num K := div (sum l) (ofNat l.length)

/-- `np.max` for NaN-free vectors; NaN wins as in NumPy. `none` stands for the ValueError on empty input. -/
def max? : List (Num K) → Option (Num K)
  | [] => none
  | a :: l => some (l.foldl (fun m x => if isNaN m then m else if isNaN x then x else if le m x then x else m) a)

/-- `np.min`, see `max?`. -/
def min? : List (Num K) → Option (Num K)
  | [] => none
  | a :: l => some (l.foldl (fun m x => if isNaN m then m else if isNaN x then x else if le x m then x else m) a)

/-- `Series.fillna(0)` on one value -/
def fillna0 (a : Num K) : Num K := if isNaN a then .fin 0 else a

/-- elementwise difference of two vectors of equal length -/
def subV (a b : List (Num K)) : List (Num K) := List.zipWith sub a b

/-- `x - np.mean(x)`. Models: `artemis/_utilities/ops.py:40-41` (`center`). -/
def center (x : List (Num K)) : List (Num K) := x.map (fun a => sub a (mean x))

instance : Flt (Num K) where
  nan := .nan
  isNaN := isNaN
  isNaN_nan := rfl
  mean := mean

end Num

/-! ### Sorting tables -/

section Sorting
variable {K : Type*} [Field K] [LinearOrder K] {α : Type*}

/-- "may stand before": ascending or descending by key, NaN last (pandas `na_position='last'`). -/
def Num.keyLE (asc : Bool) (a b : Num K) : Bool :=
  if b.isNaN then true else if a.isNaN then false else if asc then Num.le a b else Num.le b a

/-- What is assumed about `DataFrame.sort_values(by=key, ascending=asc, ignore_index=True)`:
the result is a rearrangement, ordered by the key, NaN last. (The default quicksort is not stable, so the
order of ties is left open.) -/
def SortsBy (key : α → Num K) (asc : Bool) (sort : List α → List α) : Prop :=
  ∀ l, (sort l).Perm l ∧ (sort l).Pairwise (fun a b => Num.keyLE asc (key a) (key b) = true)

/-- One function satisfying `SortsBy`: the stable sort. -/
def stableSort (key : α → Num K) (asc : Bool) (l : List α) : List α :=
  l.insertionSort (fun a b => Num.keyLE asc (key a) (key b) = true)

end Sorting

end Artemis
