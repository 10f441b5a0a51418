import Verif.Model.Rounded

/-!
# Greenwell's measure in floating-point arithmetic

The same code as in `Verif/Model/PdpMethod.lean`, with every arithmetic operation rounded:
* `artemis/interactions_methods/model_agnostic/partial_dependence_based/_greenwell.py:76-94`

`statistics.stdev` is a parameter: it computes with exact fractions and its last steps differ between Python versions. `exactStd` is
the correctly rounded one (Python 3.11 and later).
-/

namespace Artemis
variable {F V K : Type} [DecidableEq F] [LinearOrder V] [Field K] [LinearOrder K]

/-- `statistics.stdev`: StatisticsError for fewer than two data points, otherwise `std` -/
def stdevR (std : List (Num K) → Num K) (l : List (Num K)) : Except Err (Num K) :=
  if l.length < 2 then .error .statisticsError else .ok (std l)

/-- the sample standard deviation, rounded once -/
def exactStd [HasSqrt K] (A : Arith K) (l : List (Num K)) : Num K :=
  A.r (Num.sqrt (Num.div (Num.sum ((Num.center l).map Num.sq)) (Num.ofNat (l.length - 1))))

variable (A : Arith K) (std : List (Num K) → Num K)

/-- Models: `_greenwell.py:93-94` (`_calc_conditional_imp`), as `condImp`. -/
def condImpR (isNumerical : Bool) (l : List (Num K)) : Except Err (Num K) :=
  if isNumerical then stdevR std l else rangeImpR A l

/-- `np.apply_along_axis(stdev, 0, np.apply_along_axis(f, axis, m))`, as `stdevOfImp` -/
def stdevOfImpR (isNumerical : Bool) (slices : List (List (Num K))) : Except Err (Num K) := do
  let imps ← if slices.isEmpty then .error .valueError else slices.mapM (condImpR A std isNumerical)
  stdevR std imps

/-- Body of the loop over the pairs; `_greenwell.py:80-87`, as `greenwellPair`. -/
def greenwellPairR (numeric : F → Bool) (c : Calc F V (Rounded A)) (pair0 : F × F) : Except Err (OvoRow F K) := do
  let pair := c.pairKey pair0
  let t ← c.getPairsAll pair.1 pair.2
  let m := t.map fun row => row.map Rounded.val
  let resJ ← stdevOfImpR A std (numeric pair.2) m
  let resI ← stdevOfImpR A std (numeric pair.1) (columns (m.headD []).length m)
  .ok ⟨pair.1, pair.2, A.div (A.add resJ resI) (.fin 2)⟩

/-- Models: `_greenwell.py:76-90`, as `greenwellOvo`. -/
def greenwellOvoR (sort : List (OvoRow F K) → List (OvoRow F K)) (numeric : F → Bool)
    (pairs : List (F × F)) : PyM (Calc F V (Rounded A)) (List (OvoRow F K)) :=
  PyM.seq (Calc.calculatePairs (some pairs) true) fun _ => fun c =>
    (match pairs.mapM (greenwellPairR A std numeric c) with
      | .error e => .error e
      | .ok rows => .ok ((sort rows).map OvoRow.fillna), c)

/-- The two tables of a `GreenwellMethod` after `fit` with a new calculator on the rows `X`: `_pdp.py:99-109`. -/
def greenwellR [HasSqrt K] (sortOvo : List (OvoRow F K) → List (OvoRow F K)) (sortFeat : List (FeatRow F K) → List (FeatRow F K))
    (numeric : F → Bool) (predict : PF F V (Rounded A)) (X : Frame F V) (features : List F) (batchsize : Int) :
    Except Err (List (OvoRow F K) × List (FeatRow F K)) :=
  (PyM.seq (greenwellOvoR A std sortOvo (fun f => numeric f && decide (f ∈ features)) (combinations2 features)) fun ovo =>
    PyM.seq (pdpImportanceR A sortFeat (fun f => numeric f && decide (f ∈ features)) features) fun imp => fun c => (.ok (ovo, imp), c))
      (Calc.new predict X batchsize) |>.1

end Artemis
