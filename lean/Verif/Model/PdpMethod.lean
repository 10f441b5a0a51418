import Verif.Model.Ops

/-!
# Partial-dependence based methods: Friedman's H-statistic, Greenwell, PD based importance

Models
* `artemis/interactions_methods/model_agnostic/partial_dependence_based/_friedman_h_statistic.py`
* `artemis/interactions_methods/model_agnostic/partial_dependence_based/_greenwell.py`
* `artemis/interactions_methods/model_agnostic/partial_dependence_based/_pdp.py:41-109`
* `artemis/importance_methods/model_agnostic/_pdp.py`

`numeric f` stands for "column `f` has a numeric dtype" (`X._get_numeric_data().columns`).
-/

namespace Artemis

/-- A row of a one-vs-one table. -/
structure OvoRow (F K : Type) where
  f1 : F
  f2 : F
  val : Num K
  deriving DecidableEq

/-- A row of a one-vs-all or importance table. -/
structure FeatRow (F K : Type) where
  f : F
  val : Num K
  deriving DecidableEq

variable {F V K : Type} [DecidableEq F] [LinearOrder V] [Field K] [LinearOrder K]

/-- `.fillna(0)` on a one-vs-one table -/
def OvoRow.fillna (r : OvoRow F K) : OvoRow F K := { r with val := r.val.fillna0 }
/-- `.fillna(0)` on a feature table -/
def FeatRow.fillna (r : FeatRow F K) : FeatRow F K := { r with val := r.val.fillna0 }

/-- NumPy's `u - v` for vectors: a vector of length one is broadcast, other different lengths are a ValueError. -/
def Num.subB (u v : List (Num K)) : Except Err (List (Num K)) :=
  if u.length = v.length then .ok (Num.subV u v)
  else match u with
    | [x] => .ok (v.map (Num.sub x))
    | _ => match v with
      | [y] => .ok (u.map (fun x => Num.sub x y))
      | _ => .error .valueError

/-- Models: `_friedman_h_statistic.py:222-226` (`_calculate_hstat_value`). -/
def hstatValue [HasSqrt K] (pdI pdVersus pdIVersus : List (Num K)) (normalized : Bool) : Except Err (Num K) := do
  let d ← Num.subB (Num.center pdIVersus) (Num.center pdI)
  let d' ← Num.subB d (Num.center pdVersus)
  let nominator := d'.map Num.sq
  let denominator := (Num.center pdIVersus).map Num.sq
  .ok (if normalized then Num.div (Num.sum nominator) (Num.sum denominator)
    else Num.sqrt (Num.mean nominator))

/-- Body of the loop over the pairs; `_friedman_h_statistic.py:209-214`. -/
def hstatPair [HasSqrt K] (normalized : Bool) (X : Frame F V) (c : Calc F V (Num K)) (pair : F × F) :
    Except Err (OvoRow F K) := do
  let v1 ← X.colE pair.1
  let pd1 ← c.getSingle pair.1 v1
  let v2 ← X.colE pair.2
  let pd2 ← c.getSingle pair.2 v2
  let pd12 ← c.getPairs pair.1 pair.2 (v1.zip v2)
  let h ← hstatValue pd1 pd2 pd12 normalized
  .ok ⟨pair.1, pair.2, h⟩

/-- Models: `_friedman_h_statistic.py:205-219` (`_calculate_ovo_interactions_from_pd`).
`sort` is `sort_values(by=method, ascending=False, ignore_index=True)`. -/
def hstatOvo [HasSqrt K] (sort : List (OvoRow F K) → List (OvoRow F K)) (normalized : Bool) (X : Frame F V)
    (features : List F) (pairs : List (F × F)) : PyM (Calc F V (Num K)) (List (OvoRow F K)) :=
  PyM.seq (Calc.calculatePairs (some pairs) false) fun _ =>
  PyM.seq (Calc.calculateSingle (some features)) fun _ => fun c =>
    (match pairs.mapM (hstatPair normalized X c) with
      | .error e => .error e
      | .ok rows => .ok ((sort rows).map OvoRow.fillna), c)

/-- Body of the loop over the features; `_friedman_h_statistic.py:196-199`. -/
def hstatFeature [HasSqrt K] (normalized : Bool) (X : Frame F V) (preds : List (Num K)) (c : Calc F V (Num K))
    (f : F) : Except Err (FeatRow F K) := do
  let v ← X.colE f
  let pdf ← c.getSingle f v
  let pdm ← c.getMinus f
  let h ← hstatValue pdf pdm preds normalized
  .ok ⟨f, h⟩

/-- Models: `_friedman_h_statistic.py:192-203` (`_calculate_ova_interactions_from_pd`). `predict` is
`self.predict_function` applied to `self.model`. -/
def hstatOva [HasSqrt K] (sort : List (FeatRow F K) → List (FeatRow F K)) (predict : PF F V (Num K))
    (normalized : Bool) (X : Frame F V) (features : List F) : PyM (Calc F V (Num K)) (List (FeatRow F K)) :=
  PyM.seq (Calc.calculateMinus (some features)) fun _ => fun c =>
    match predict c.calls.length X.rows with
    | .error e => (.error e, c)
    | .ok preds =>
      (match features.mapM (hstatFeature normalized X preds c) with
        | .error e => .error e
        | .ok rows => .ok ((sort rows).map FeatRow.fillna), c)

/-- `statistics.stdev`: sample standard deviation, StatisticsError for fewer than two data points. -/
def stdev [HasSqrt K] (l : List (Num K)) : Except Err (Num K) :=
  if l.length < 2 then .error .statisticsError
  else .ok (Num.sqrt (Num.div (Num.sum ((Num.center l).map Num.sq)) (Num.ofNat (l.length - 1))))

/-- `(np.max(a) - np.min(a)) / 4`, ValueError for the empty array -/
def rangeImp (l : List (Num K)) : Except Err (Num K) :=
  match Num.max? l, Num.min? l with
  | some M, some m => .ok (Num.div (Num.sub M m) (.fin 4))
  | _, _ => .error .valueError

/-- Models: `_greenwell.py:93-94` (`_calc_conditional_imp`). -/
def condImp [HasSqrt K] (isNumerical : Bool) (l : List (Num K)) : Except Err (Num K) :=
  if isNumerical then stdev l else rangeImp l

/-- columns of a matrix with `w` columns -/
def columns {α : Type*} (w : Nat) (m : List (List α)) : List (List α) :=
  (List.range w).map (fun j => m.filterMap (fun row => row[j]?))

/-- `np.apply_along_axis(stdev, 0, np.apply_along_axis(f, axis, m))` with the slices along the axis given.
NumPy raises ValueError if there is no slice. -/
def stdevOfImp [HasSqrt K] (isNumerical : Bool) (slices : List (List (Num K))) : Except Err (Num K) := do
  let imps ← if slices.isEmpty then .error .valueError else slices.mapM (condImp isNumerical)
  stdev imps

/-- Body of the loop over the pairs; `_greenwell.py:80-87`. -/
def greenwellPair [HasSqrt K] (numeric : F → Bool) (c : Calc F V (Num K)) (pair0 : F × F) :
    Except Err (OvoRow F K) := do
  let pair := c.pairKey pair0
  let m ← c.getPairsAll pair.1 pair.2
  let resJ ← stdevOfImp (numeric pair.2) m
  let resI ← stdevOfImp (numeric pair.1) (columns (m.headD []).length m)
  .ok ⟨pair.1, pair.2, Num.div (Num.add resJ resI) (.fin 2)⟩

/-- Models: `_greenwell.py:76-90`. -/
def greenwellOvo [HasSqrt K] (sort : List (OvoRow F K) → List (OvoRow F K)) (numeric : F → Bool)
    (pairs : List (F × F)) : PyM (Calc F V (Num K)) (List (OvoRow F K)) :=
  PyM.seq (Calc.calculatePairs (some pairs) true) fun _ => fun c =>
    (match pairs.mapM (greenwellPair numeric c) with
      | .error e => .error e
      | .ok rows => .ok ((sort rows).map OvoRow.fillna), c)

/-- `np.std` (population standard deviation) -/
def npStd [HasSqrt K] (l : List (Num K)) : Num K := Num.sqrt (Num.mean ((Num.center l).map Num.sq))

/-- Models: `importance_methods/model_agnostic/_pdp.py:127-128` (`_calc_importance`). -/
def calcImportance [HasSqrt K] (numeric : F → Bool) (c : Calc F V (Num K)) (f : F) : Except Err (FeatRow F K) := do
  let pdp ← c.getSingleAll f
  if numeric f then .ok ⟨f, npStd pdp⟩
  else
    let v ← rangeImp pdp
    .ok ⟨f, v⟩

/-- Models: `importance_methods/model_agnostic/_pdp.py:112-124` (`_pdp_importance`). -/
def pdpImportance [HasSqrt K] (sort : List (FeatRow F K) → List (FeatRow F K)) (numeric : F → Bool)
    (features : List F) : PyM (Calc F V (Num K)) (List (FeatRow F K)) :=
  PyM.seq (Calc.calculateSingle none) fun _ => fun c =>
    (match features.mapM (calcImportance numeric c) with
      | .error e => .error e
      | .ok rows => .ok ((sort rows).map FeatRow.fillna), c)

/-! ### The method objects -/

/-- A `PartialDependenceCalculator` object as seen by `fit`: the identity of its model, the row labels of its
data, and the rest. -/
structure CalcObj (L F V K : Type) where
  modelId : Nat
  labels : List L
  obj : Calc F V (Num K)

/-- Which of the two methods the object is, with its constructor option. -/
inductive PdKind
  | friedman (normalized : Bool)
  | greenwell

/-- State of a `FriedmanHStatisticMethod` / `GreenwellMethod` object
(`_method.py:37-47`, `_friedman_h_statistic.py:64-66`). `impObj` is `_feature_importance_obj is not None`. -/
structure PdpMethod (G L F V K : Type) where
  rng : G
  model : Option (ModelObj F V (Num K))
  predictFn : Option (PF F V (Num K))
  xSampled : Option (LFrame L F V)
  features : Option (List F)
  pairs : Option (List (F × F))
  pdc : Option (CalcObj L F V K)
  ovo : Option (List (OvoRow F K))
  ova : Option (List (FeatRow F K))
  importance : Option (List (FeatRow F K))
  impObj : Bool

/-- A freshly constructed method object. -/
def PdpMethod.new {G L : Type} (rng : G) : PdpMethod G L F V K :=
  ⟨rng, none, none, none, none, none, none, none, none, none, false⟩

/-- Environment of a fit: generator behaviour, sorting routines, dtype information. -/
structure PdEnv (G F K : Type) where
  R : Rng G
  sortOvo : List (OvoRow F K) → List (OvoRow F K)
  sortFeat : List (FeatRow F K) → List (FeatRow F K)
  numeric : F → Bool

/-- `f in num_features`, where `num_features, _ = split_features_num_cat(self.X_sampled, self.features_included)`;
`artemis/_utilities/ops.py:50-54`, used in `_greenwell.py:79` and `importance_methods/model_agnostic/_pdp.py:116`. -/
def numIn {G : Type} (E : PdEnv G F K) (fs : List F) : F → Bool := fun f => E.numeric f && decide (f ∈ fs)

/-- Arguments of `fit`. -/
structure PdArgs (L F V K : Type) where
  model : ModelObj F V (Num K)
  X : LFrame L F V
  n : Option Nat
  predictFunction : Option (ModelObj F V (Num K) → PF F V (Num K))
  features : Option (List F)
  batchsize : Int
  pdCalculator : Option (CalcObj L F V K)
  calculateOva : Bool

variable {G L : Type} [DecidableEq L] [HasSqrt K]

/-- Run something on the stored calculator and keep the mutated calculator. -/
def PdpMethod.onCalc {α : Type} (m : PyM (Calc F V (Num K)) α) : PyM (PdpMethod G L F V K) α := fun s =>
  match s.pdc with
  | none => (.error .attributeError, s)
  | some co =>
    match m co.obj with
    | (r, c') => (r, { s with pdc := some { co with obj := c' } })

/-- `_calculate_ovo_interactions_from_pd` of the two classes. -/
def PdKind.ovo (kind : PdKind) (E : PdEnv G F K) (X : Frame F V) (features : List F) (pairs : List (F × F)) :
    PyM (Calc F V (Num K)) (List (OvoRow F K)) :=
  match kind with
  | .friedman normalized => hstatOvo E.sortOvo normalized X features pairs
  | .greenwell => greenwellOvo E.sortOvo (numIn E features) pairs

/-- Choosing the calculator; `_pdp.py:85-98`: a new one, or the supplied one after the two checks. -/
def PdpMethod.chooseCalc (a : PdArgs L F V K) (Xs : LFrame L F V) (pf : PF F V (Num K)) :
    Except Err (CalcObj L F V K) :=
  match a.pdCalculator with
  | none => .ok ⟨a.model.ident, Xs.labels, Calc.new pf Xs.frame a.batchsize⟩
  | some co =>
    if co.modelId ≠ a.model.ident then .error .valueError
    else if !(LFrame.equals ⟨co.labels, co.obj.X⟩ Xs) then .error .valueError
    else .ok co

/-- `PartialDependenceBasedMethod.fit`; `_pdp.py:78-109`. -/
def PdpMethod.fitBase (kind : PdKind) (E : PdEnv G F K) (a : PdArgs L F V K) : PyM (PdpMethod G L F V K) Unit :=
  fun s0 =>
  let pf := getPredictFunction a.model a.predictFunction
  let s1 := { s0 with predictFn := pf, model := some a.model }
  match sampleIfNotNone E.R a.X a.n s1.rng with
  | (.error e, g) => (.error e, { s1 with rng := g })
  | (.ok Xs, g) =>
    let features := allIfNone a.X.frame.cols a.features
    let pairs := combinations2 features
    let s2 := { s1 with rng := g, xSampled := some Xs, features := some features, pairs := some pairs }
    match PdpMethod.chooseCalc a Xs (callable pf) with
    | .error e => (.error e, s2)
    | .ok co =>
      match PdpMethod.onCalc (kind.ovo E Xs.frame features pairs) { s2 with pdc := some co } with
      | (.error e, s3) => (.error e, s3)
      | (.ok ovo, s3) =>
        match PdpMethod.onCalc (pdpImportance E.sortFeat (numIn E features) features)
            { s3 with ovo := some ovo, impObj := true } with
        | (.error e, s4) => (.error e, s4)
        | (.ok imp, s4) => (.ok (), { s4 with importance := some imp })

/-- `fit` of the two classes: `_friedman_h_statistic.py:107-109` and `_greenwell.py:66`. -/
def PdpMethod.fit (kind : PdKind) (E : PdEnv G F K) (a : PdArgs L F V K) : PyM (PdpMethod G L F V K) Unit :=
  fun s0 =>
  match PdpMethod.fitBase kind E a s0 with
  | (.error e, s) => (.error e, s)
  | (.ok _, s) =>
    match kind with
    | .greenwell => (.ok (), s)
    | .friedman normalized =>
      if a.calculateOva then
        match s.xSampled, s.features with
        | some Xs, some features =>
          match PdpMethod.onCalc (hstatOva E.sortFeat (callable s.predictFn) normalized Xs.frame features) s with
          | (.error e, s') => (.error e, s')
          | (.ok ova, s') => (.ok (), { s' with ova := some ova })
        | _, _ => (.error .attributeError, s)
      else (.ok (), s)

end Artemis
