import Verif.Model.PdpMethod
import Mathlib.Data.Int.Log
import Mathlib.Algebra.Order.Floor.Ring

/-!
# Friedman's H-statistic in floating-point arithmetic

The same code as in `Verif/Model/PdpMethod.lean`, with every arithmetic operation rounded:
* `artemis/_utilities/ops.py:40-41` (`center`)
* `artemis/interactions_methods/model_agnostic/partial_dependence_based/_friedman_h_statistic.py:192-226`
* `artemis/importance_methods/model_agnostic/_pdp.py:112-128`

An arithmetic (`Arith`) consists of the rounding of exact results, overflow to infinity included, and the routine behind
`np.sum`, which may add in any order and grouping (NumPy adds pairwise, in blocks). The partial dependence calculator
(`Verif/Model/PDCalc.lean`) is the same; its `np.mean` is the rounded one. Signed zeros are not modelled: the only divisions
by zero here are by sums of squares, which are never `-0.0`.
-/

namespace Artemis
variable {F V K : Type} [DecidableEq F] [LinearOrder V] [Field K] [LinearOrder K]

/-- a floating-point arithmetic: rounding of exact results, and `np.sum` -/
structure Arith (K : Type) where
  rnd : K → Num K
  sum : List (Num K) → Num K

namespace Arith

/-- the rounded result of an exact operation; infinities and NaN are not touched -/
def r (A : Arith K) : Num K → Num K
  | .fin x => A.rnd x
  | a => a

/-- `a + b` -/
def add (A : Arith K) (a b : Num K) : Num K := A.r (Num.add a b)
/-- `a - b` -/
def sub (A : Arith K) (a b : Num K) : Num K := A.r (Num.sub a b)
/-- `a ** 2` -/
def sq (A : Arith K) (a : Num K) : Num K := A.r (Num.sq a)
/-- `a / b` -/
def div (A : Arith K) (a b : Num K) : Num K := A.r (Num.div a b)
/-- `np.sqrt(a)` -/
def sqrt [HasSqrt K] (A : Arith K) (a : Num K) : Num K := A.r (Num.sqrt a)
/-- `np.mean`: the sum divided by the number of entries -/
def mean (A : Arith K) (l : List (Num K)) : Num K := A.div (A.sum l) (Num.ofNat l.length)
/-- Models: `artemis/_utilities/ops.py:40-41` (`center`). -/
def center (A : Arith K) (x : List (Num K)) : List (Num K) := x.map (fun a => A.sub a (A.mean x))

/-- NumPy's `u - v` for vectors, as `Num.subB` -/
def subB (A : Arith K) (u v : List (Num K)) : Except Err (List (Num K)) :=
  if u.length = v.length then .ok (List.zipWith A.sub u v)
  else match u with
    | [x] => .ok (v.map (A.sub x))
    | _ => match v with
      | [y] => .ok (u.map (fun x => A.sub x y))
      | _ => .error .valueError

end Arith

/-- floats of the arithmetic `A` -/
structure Rounded (A : Arith K) where
  val : Num K

instance (A : Arith K) : Flt (Rounded A) where
  nan := ⟨.nan⟩
  isNaN a := a.val.isNaN
  isNaN_nan := rfl
  mean l := ⟨A.mean (l.map Rounded.val)⟩

variable [HasSqrt K] (A : Arith K)

/-- Models: `_friedman_h_statistic.py:222-226` (`_calculate_hstat_value`), as `hstatValue`. -/
def hstatValueR (pdI pdVersus pdIVersus : List (Rounded A)) (normalized : Bool) : Except Err (Num K) := do
  let w := A.center (pdIVersus.map Rounded.val)
  let d ← A.subB w (A.center (pdI.map Rounded.val))
  let d' ← A.subB d (A.center (pdVersus.map Rounded.val))
  let nominator := d'.map A.sq
  let denominator := w.map A.sq
  .ok (if normalized then A.div (A.sum nominator) (A.sum denominator) else A.sqrt (A.mean nominator))

/-- Body of the loop over the pairs; `_friedman_h_statistic.py:209-214`, as `hstatPair`. -/
def hstatPairR (normalized : Bool) (X : Frame F V) (c : Calc F V (Rounded A)) (pair : F × F) : Except Err (OvoRow F K) := do
  let v1 ← X.colE pair.1
  let pd1 ← c.getSingle pair.1 v1
  let v2 ← X.colE pair.2
  let pd2 ← c.getSingle pair.2 v2
  let pd12 ← c.getPairs pair.1 pair.2 (v1.zip v2)
  let h ← hstatValueR A pd1 pd2 pd12 normalized
  .ok ⟨pair.1, pair.2, h⟩

/-- Models: `_friedman_h_statistic.py:205-219` (`_calculate_ovo_interactions_from_pd`), as `hstatOvo`. -/
def hstatOvoR (sort : List (OvoRow F K) → List (OvoRow F K)) (normalized : Bool) (X : Frame F V)
    (features : List F) (pairs : List (F × F)) : PyM (Calc F V (Rounded A)) (List (OvoRow F K)) :=
  PyM.seq (Calc.calculatePairs (some pairs) false) fun _ =>
  PyM.seq (Calc.calculateSingle (some features)) fun _ => fun c =>
    (match pairs.mapM (hstatPairR A normalized X c) with
      | .error e => .error e
      | .ok rows => .ok ((sort rows).map OvoRow.fillna), c)

/-- Body of the loop over the features; `_friedman_h_statistic.py:196-199`, as `hstatFeature`. -/
def hstatFeatureR (normalized : Bool) (X : Frame F V) (preds : List (Rounded A)) (c : Calc F V (Rounded A)) (f : F) :
    Except Err (FeatRow F K) := do
  let v ← X.colE f
  let pdf ← c.getSingle f v
  let pdm ← c.getMinus f
  let h ← hstatValueR A pdf pdm preds normalized
  .ok ⟨f, h⟩

/-- Models: `_friedman_h_statistic.py:192-203` (`_calculate_ova_interactions_from_pd`), as `hstatOva`. -/
def hstatOvaR (sort : List (FeatRow F K) → List (FeatRow F K)) (predict : PF F V (Rounded A)) (normalized : Bool)
    (X : Frame F V) (features : List F) : PyM (Calc F V (Rounded A)) (List (FeatRow F K)) :=
  PyM.seq (Calc.calculateMinus (some features)) fun _ => fun c =>
    match predict c.calls.length X.rows with
    | .error e => (.error e, c)
    | .ok preds =>
      (match features.mapM (hstatFeatureR A normalized X preds c) with
        | .error e => .error e
        | .ok rows => .ok ((sort rows).map FeatRow.fillna), c)

/-- `np.std`, as `npStd` -/
def npStdR (l : List (Num K)) : Num K := A.sqrt (A.mean ((A.center l).map A.sq))

/-- `(np.max(a) - np.min(a)) / 4`, as `rangeImp` -/
def rangeImpR (l : List (Num K)) : Except Err (Num K) :=
  match Num.max? l, Num.min? l with
  | some M, some m => .ok (A.div (A.sub M m) (.fin 4))
  | _, _ => .error .valueError

/-- Models: `importance_methods/model_agnostic/_pdp.py:127-128` (`_calc_importance`), as `calcImportance`. -/
def calcImportanceR (numeric : F → Bool) (c : Calc F V (Rounded A)) (f : F) : Except Err (FeatRow F K) := do
  let pdp ← c.getSingleAll f
  if numeric f then .ok ⟨f, npStdR A (pdp.map Rounded.val)⟩
  else
    let v ← rangeImpR A (pdp.map Rounded.val)
    .ok ⟨f, v⟩

/-- Models: `importance_methods/model_agnostic/_pdp.py:112-124` (`_pdp_importance`), as `pdpImportance`. -/
def pdpImportanceR (sort : List (FeatRow F K) → List (FeatRow F K)) (numeric : F → Bool) (features : List F) :
    PyM (Calc F V (Rounded A)) (List (FeatRow F K)) :=
  PyM.seq (Calc.calculateSingle none) fun _ => fun c =>
    (match features.mapM (calcImportanceR A numeric c) with
      | .error e => .error e
      | .ok rows => .ok ((sort rows).map FeatRow.fillna), c)

/-- The three tables of a `FriedmanHStatisticMethod` after `fit` with a new calculator on the rows `X`:
`_pdp.py:99-109` and `_friedman_h_statistic.py:107-109`. -/
def friedmanR (sortOvo : List (OvoRow F K) → List (OvoRow F K)) (sortFeat : List (FeatRow F K) → List (FeatRow F K))
    (numeric : F → Bool) (normalized : Bool) (predict : PF F V (Rounded A)) (X : Frame F V) (features : List F) (batchsize : Int) :
    Except Err (List (OvoRow F K) × List (FeatRow F K) × List (FeatRow F K)) :=
  (PyM.seq (hstatOvoR A sortOvo normalized X features (combinations2 features)) fun ovo =>
    PyM.seq (pdpImportanceR A sortFeat (fun f => numeric f && decide (f ∈ features)) features) fun imp =>
    PyM.seq (hstatOvaR A sortFeat predict normalized X features) fun ova => fun c => (.ok (ovo, ova, imp), c))
      (Calc.new predict X batchsize) |>.1

/-! ### Binary64 -/

section Binary64
variable {K : Type} [Field K] [LinearOrder K] [IsStrictOrderedRing K] [FloorRing K]

/-- nearest integer, ties to even -/
def roundEven (q : K) : ℤ :=
  if q - ⌊q⌋ < 1 / 2 then ⌊q⌋
  else if 1 / 2 < q - ⌊q⌋ then ⌊q⌋ + 1
  else if ⌊q⌋ % 2 = 0 then ⌊q⌋ else ⌊q⌋ + 1

/-- the exponent of the last place of the binary64 numbers next to `x` -/
def lastPlace (x : K) : ℤ := max (Int.log 2 |x| - 52) (-1074)

/-- rounding to nearest of IEEE 754 binary64 -/
def round64 (x : K) : Num K :=
  let y := (roundEven (x / (2 : K) ^ lastPlace x) : K) * (2 : K) ^ lastPlace x
  if 2 ^ 1024 ≤ y then .pinf else if y ≤ -2 ^ 1024 then .ninf else .fin y

/-- NumPy's summation of up to seven numbers: one after the other -/
def sumLeft (rnd : K → Num K) : List (Num K) → Num K
  | [] => .fin 0
  | a :: l => l.foldl (fun s x => match Num.add s x with | .fin z => rnd z | b => b) a

/-- IEEE 754 binary64 with sums from left to right -/
def binary64 : Arith K := ⟨round64, sumLeft round64⟩

end Binary64
end Artemis
