import Verif.Model.Additivity
import Verif.Model.PdImportance

/-!
# The partial dependence code on data with missing values

`Model/PDCalc`, `Model/PdpMethod`, `Model/PdImportance` and `Model/Additivity` describe the code for feature values that are
equal to themselves. Here the same functions are written down for columns that may hold `NaN`: `miss v` says that `v` is
`NaN`. The only place where the code can tell the difference is the comparison `array == value` in `get_index`
(`artemis/_utilities/pd_calculator.py:165-166`), which is `False` everywhere when `value` is `NaN`. `np.unique` (numpy 1.23.5) sorts
`NaN` last and keeps one of them, so that `NaN` is the largest element of the linear order `V`; `DataFrame.equals` treats
`NaN`s in the same place as equal. Both are as before.

A definition `fN` mirrors the same lines as the definition `f`, with `getIndexN miss` instead of `getIndex`.
`Props/Missing` proves that it is `f` when nothing is missing.
-/

namespace Artemis

/-- `np.where(array == value)[0][0]`; `pd_calculator.py:165-166`. `NaN == NaN` is `False`. -/
def getIndexN {V : Type*} [DecidableEq V] (miss : V → Bool) (array : List V) (value : V) : Except Err Nat :=
  match array.findIdx? (fun x => decide (x = value) && !miss value) with
  | some i => .ok i
  | none => .error .indexError

section calculator
variable {F V N : Type} [DecidableEq F] [DecidableEq V] [Flt N] (miss : V → Bool)

/-- `pd_calculator.py:140-142`, as `Calc.storeSingle` -/
def Calc.storeSingleN (y : List N) (e : (F × V) × (Nat × Nat)) : PyM (Calc F V N) Unit := fun c =>
  match c.pdSingle.get? e.1.1 with
  | none => (.error .keyError, c)
  | some t =>
    match getIndexN miss t.fValues e.1.2 with
    | .error err => (.error err, c)
    | .ok i =>
      (.ok (), { c with
        pdSingle := (c.pdSingle.set e.1.1
          { t with pdValues := t.pdValues.set i (Flt.mean (slice y e.2.1 e.2.2)) }) })

/-- `pd_calculator.py:137-142`, as `Calc.fillSingle` -/
def Calc.fillSingleN (l : Loc (F × V) F V) : PyM (Calc F V N) Unit :=
  PyM.seq (Calc.callPredict l.xFull) (fun y => PyM.forEach l.ranges (Calc.storeSingleN miss y))

/-- `pd_calculator.py:147-150`, as `Calc.storePair` -/
def Calc.storePairN (y : List N) (e : ((F × F) × (V × V)) × (Nat × Nat)) : PyM (Calc F V N) Unit :=
  fun c =>
  match c.pdPairs.get? e.1.1 with
  | none => (.error .keyError, c)
  | some t =>
    match getIndexN miss t.f1Values e.1.2.1 with
    | .error err => (.error err, c)
    | .ok i =>
      match getIndexN miss t.f2Values e.1.2.2 with
      | .error err => (.error err, c)
      | .ok j =>
        (.ok (), { c with
          pdPairs := (c.pdPairs.set e.1.1
            { t with pdValues := (t.pdValues.modify i
                (fun row => row.set j (Flt.mean (slice y e.2.1 e.2.2)))) }) })

/-- `pd_calculator.py:144-150`, as `Calc.fillPairs` -/
def Calc.fillPairsN (l : Loc ((F × F) × (V × V)) F V) : PyM (Calc F V N) Unit :=
  PyM.seq (Calc.callPredict l.xFull) (fun y => PyM.forEach l.ranges (Calc.storePairN miss y))

/-- `pd_calculator.py:71-82`, as `Calc.singleBody` -/
def Calc.singleBodyN (f : F) : PyM (Run (F × V) F V N) Unit := fun s =>
  match s.1.pdSingle.get? f with
  | none => (.error .keyError, s)
  | some t =>
    if t.pdValues.any Flt.isNaN then
      flushIfFull (Calc.fillSingleN miss)
        (s.1, t.fValues.foldl (fun l v => l.add s.1.X.len (f, v) (blockSingle s.1.X (f, v))) s.2)
    else (.ok (), s)

/-- `pd_calculator.py:64-84`, as `Calc.calculateSingle` -/
def Calc.calculateSingleN (features : Option (List F)) : PyM (Calc F V N) Unit := fun c =>
  withLoc (PyM.seq (PyM.forEach (features.getD c.X.cols) (Calc.singleBodyN miss))
    (fun _ => flushRest (Calc.fillSingleN miss))) c

/-- `pd_calculator.py:99-111`, as `Calc.pairValueBody` -/
def Calc.pairValueBodyN (k : F × F) (v : V × V) : PyM (Run ((F × F) × (V × V)) F V N) Unit := fun s =>
  match s.1.pdPairs.get? k with
  | none => (.error .keyError, s)
  | some t =>
    match getIndexN miss t.f1Values v.1 with
    | .error e => (.error e, s)
    | .ok i =>
      match getIndexN miss t.f2Values v.2 with
      | .error e => (.error e, s)
      | .ok j =>
        match (t.pdValues[i]?).bind (fun row => row[j]?) with
        | none => (.error .indexError, s)
        | some x =>
          if Flt.isNaN x then
            flushIfFull (Calc.fillPairsN miss) (s.1, s.2.add s.1.X.len (k, v) (blockPair s.1.X (k, v)))
          else (.ok (), s)

/-- `pd_calculator.py:93-111`, as `Calc.pairBody` -/
def Calc.pairBodyN (allCombinations : Bool) (p : F × F) : PyM (Run ((F × F) × (V × V)) F V N) Unit :=
  fun s =>
  let k := s.1.pairKey p
  match s.1.pairValues allCombinations k with
  | .error e => (.error e, s)
  | .ok vs => PyM.forEach vs (Calc.pairValueBodyN miss k) s

/-- `pd_calculator.py:86-113`, as `Calc.calculatePairs` -/
def Calc.calculatePairsN (pairs : Option (List (F × F))) (allCombinations : Bool) :
    PyM (Calc F V N) Unit := fun c =>
  withLoc (PyM.seq (PyM.forEach (pairs.getD c.pdPairs.keys) (Calc.pairBodyN miss allCombinations))
    (fun _ => flushRest (Calc.fillPairsN miss))) c

/-- `pd_calculator.py:43-44`, as `Calc.lookupSingle` -/
def Calc.lookupSingleN (c : Calc F V N) (f : F) (v : V) : Except Err N :=
  match c.pdSingle.get? f with
  | none => .error .keyError
  | some t =>
    match getIndexN miss t.fValues v with
    | .error e => .error e
    | .ok i => match t.pdValues[i]? with
      | none => .error .indexError
      | some x => .ok x

/-- `pd_calculator.py:38-45`, as `Calc.getSingle` -/
def Calc.getSingleN (c : Calc F V N) (f : F) (vs : List V) : Except Err (List N) :=
  vs.mapM (c.lookupSingleN miss f)

/-- `pd_calculator.py:56-58`, as `PairTab.lookup` -/
def PairTab.lookupN (t : PairTab V N) (v : V × V) : Except Err N :=
  match getIndexN miss t.f1Values v.1 with
  | .error e => .error e
  | .ok i =>
    match getIndexN miss t.f2Values v.2 with
    | .error e => .error e
    | .ok j => match (t.pdValues[i]?).bind (fun row => row[j]?) with
      | none => .error .indexError
      | some x => .ok x

/-- `pd_calculator.py:47-59`, as `Calc.getPairs` -/
def Calc.getPairsN (c : Calc F V N) (f1 f2 : F) (vs : List (V × V)) : Except Err (List N) :=
  match c.pdPairs.get? (c.pairKey (f1, f2)) with
  | none => .error .keyError
  | some t =>
    (if c.pairKey (f1, f2) ≠ (f1, f2) then vs.map Prod.swap else vs).mapM (t.lookupN miss)

end calculator

section methods
variable {F V K : Type} [DecidableEq F] [LinearOrder V] [Field K] [LinearOrder K] [HasSqrt K] (miss : V → Bool)

/-- `_friedman_h_statistic.py:209-214`, as `hstatPair` -/
def hstatPairN (normalized : Bool) (X : Frame F V) (c : Calc F V (Num K)) (pair : F × F) :
    Except Err (OvoRow F K) := do
  let v1 ← X.colE pair.1
  let pd1 ← c.getSingleN miss pair.1 v1
  let v2 ← X.colE pair.2
  let pd2 ← c.getSingleN miss pair.2 v2
  let pd12 ← c.getPairsN miss pair.1 pair.2 (v1.zip v2)
  let h ← hstatValue pd1 pd2 pd12 normalized
  .ok ⟨pair.1, pair.2, h⟩

/-- `_friedman_h_statistic.py:205-219`, as `hstatOvo` -/
def hstatOvoN (sort : List (OvoRow F K) → List (OvoRow F K)) (normalized : Bool) (X : Frame F V)
    (features : List F) (pairs : List (F × F)) : PyM (Calc F V (Num K)) (List (OvoRow F K)) :=
  PyM.seq (Calc.calculatePairsN miss (some pairs) false) fun _ =>
  PyM.seq (Calc.calculateSingleN miss (some features)) fun _ => fun c =>
    (match pairs.mapM (hstatPairN miss normalized X c) with
      | .error e => .error e
      | .ok rows => .ok ((sort rows).map OvoRow.fillna), c)

/-- `_friedman_h_statistic.py:196-199`, as `hstatFeature` -/
def hstatFeatureN (normalized : Bool) (X : Frame F V) (preds : List (Num K)) (c : Calc F V (Num K))
    (f : F) : Except Err (FeatRow F K) := do
  let v ← X.colE f
  let pdf ← c.getSingleN miss f v
  let pdm ← c.getMinus f
  let h ← hstatValue pdf pdm preds normalized
  .ok ⟨f, h⟩

/-- `_friedman_h_statistic.py:192-203`, as `hstatOva` (`calculate_pd_minus_single` compares no feature values) -/
def hstatOvaN (sort : List (FeatRow F K) → List (FeatRow F K)) (predict : PF F V (Num K))
    (normalized : Bool) (X : Frame F V) (features : List F) : PyM (Calc F V (Num K)) (List (FeatRow F K)) :=
  PyM.seq (Calc.calculateMinus (some features)) fun _ => fun c =>
    match predict c.calls.length X.rows with
    | .error e => (.error e, c)
    | .ok preds =>
      (match features.mapM (hstatFeatureN miss normalized X preds c) with
        | .error e => .error e
        | .ok rows => .ok ((sort rows).map FeatRow.fillna), c)

/-- `_greenwell.py:76-90`, as `greenwellOvo` -/
def greenwellOvoN (sort : List (OvoRow F K) → List (OvoRow F K)) (numeric : F → Bool)
    (pairs : List (F × F)) : PyM (Calc F V (Num K)) (List (OvoRow F K)) :=
  PyM.seq (Calc.calculatePairsN miss (some pairs) true) fun _ => fun c =>
    (match pairs.mapM (greenwellPair numeric c) with
      | .error e => .error e
      | .ok rows => .ok ((sort rows).map OvoRow.fillna), c)

/-- `importance_methods/model_agnostic/_pdp.py:112-124`, as `pdpImportance` -/
def pdpImportanceN (sort : List (FeatRow F K) → List (FeatRow F K)) (numeric : F → Bool)
    (features : List F) : PyM (Calc F V (Num K)) (List (FeatRow F K)) :=
  PyM.seq (Calc.calculateSingleN miss none) fun _ => fun c =>
    (match features.mapM (calcImportance numeric c) with
      | .error e => .error e
      | .ok rows => .ok ((sort rows).map FeatRow.fillna), c)

variable {G L : Type} [DecidableEq L]

/-- as `PdKind.ovo` -/
def PdKind.ovoN (kind : PdKind) (E : PdEnv G F K) (X : Frame F V) (features : List F) (pairs : List (F × F)) :
    PyM (Calc F V (Num K)) (List (OvoRow F K)) :=
  match kind with
  | .friedman normalized => hstatOvoN miss E.sortOvo normalized X features pairs
  | .greenwell => greenwellOvoN miss E.sortOvo (numIn E features) pairs

/-- `_pdp.py:78-109`, as `PdpMethod.fitBase` -/
def PdpMethod.fitBaseN (kind : PdKind) (E : PdEnv G F K) (a : PdArgs L F V K) : PyM (PdpMethod G L F V K) Unit :=
  fun s0 =>
  let pf := getPredictFunction a.model a.predictFunction
  let s1 := { s0 with predictFn := pf, model := some a.model }
  match sampleIfNotNone E.R a.X a.n s1.rng with
  | (.error e, g) => (.error e, { s1 with rng := g })
  | (.ok Xs, g) =>
    let features := allIfNone a.X.frame.cols a.features
    let pairs := combinations2 features
    let s2 := { s1 with rng := g, xSampled := some Xs, features := some features, pairs := some pairs }
    match PdpMethod.chooseCalc a Xs (callable pf) with
    | .error e => (.error e, s2)
    | .ok co =>
      match PdpMethod.onCalc (kind.ovoN miss E Xs.frame features pairs) { s2 with pdc := some co } with
      | (.error e, s3) => (.error e, s3)
      | (.ok ovo, s3) =>
        match PdpMethod.onCalc (pdpImportanceN miss E.sortFeat (numIn E features) features)
            { s3 with ovo := some ovo, impObj := true } with
        | (.error e, s4) => (.error e, s4)
        | (.ok imp, s4) => (.ok (), { s4 with importance := some imp })

/-- `_friedman_h_statistic.py:107-109` and `_greenwell.py:66`, as `PdpMethod.fit` -/
def PdpMethod.fitN (kind : PdKind) (E : PdEnv G F K) (a : PdArgs L F V K) : PyM (PdpMethod G L F V K) Unit :=
  fun s0 =>
  match PdpMethod.fitBaseN miss kind E a s0 with
  | (.error e, s) => (.error e, s)
  | (.ok _, s) =>
    match kind with
    | .greenwell => (.ok (), s)
    | .friedman normalized =>
      if a.calculateOva then
        match s.xSampled, s.features with
        | some Xs, some features =>
          match PdpMethod.onCalc (hstatOvaN miss E.sortFeat (callable s.predictFn) normalized Xs.frame features) s with
          | (.error e, s') => (.error e, s')
          | (.ok ova, s') => (.ok (), { s' with ova := some ova })
        | _, _ => (.error .attributeError, s)
      else (.ok (), s)

/-- `importance_methods/model_agnostic/_pdp.py:92-110`, as `PdImpObj.run` -/
def PdImpObj.runN (E : PdEnv G F K) (a : PdArgs L F V K) : PyM (PdImpObj G L F V K) (List (FeatRow F K)) := fun s0 =>
  let pf := getPredictFunction a.model a.predictFunction
  let s1 := { s0 with predictFn := pf }
  match sampleIfNotNone E.R a.X a.n s1.rng with
  | (.error e, g) => (.error e, { s1 with rng := g })
  | (.ok Xs, g) =>
    let features := allIfNone a.X.frame.cols a.features
    let s2 := { s1 with rng := g, xSampled := some Xs, features := some features }
    match PdpMethod.chooseCalc a Xs (callable pf) with
    | .error e => (.error e, s2)
    | .ok co =>
      match pdpImportanceN miss E.sortFeat (numIn E features) features co.obj with
      | (.error e, c') => (.error e, { s2 with pdc := some { co with obj := c' } })
      | (.ok imp, c') =>
        (.ok imp, { s2 with pdc := some { co with obj := c' }, importance := some imp })

end methods

section additivity
variable {F V K : Type} [DecidableEq F] [LinearOrder V] [Field K] [LinearOrder K] (miss : V → Bool)

/-- `_additivity_meter.py:111-112`, as `addColumn` -/
def addColumnN (X : Frame F V) (preds : List (Num K)) (c : Calc F V (Num K)) (f : F) :
    Except Err (F × List (Num K)) := do
  let v ← X.colE f
  let pd ← c.getSingleN miss f v
  .ok (f, pd.map (fun x => Num.sub x (Num.mean preds)))

/-- `_additivity_meter.py:105-118`, as `calcAdditivity` -/
def calcAdditivityN (cp : F) (predict : PF F V (Num K)) (X : Frame F V) : PyM (Calc F V (Num K)) (AddOut F K) :=
  PyM.seq (Calc.calculateSingleN miss none) fun _ => fun c =>
    match predict c.calls.length X.rows with
    | .error e => (.error e, c)
    | .ok preds =>
      match X.cols.mapM (addColumnN miss X preds c) with
      | .error e => (.error e, c)
      | .ok effs =>
        if preds.length = X.len then (.ok (addFinish cp X preds effs), c) else (.error .valueError, c)

/-- `_additivity_meter.py:40-103`, as `AddMeter.fit` -/
def AddMeter.fitN {G L : Type} [DecidableEq L] (R : Rng G) (cp : F) (a : AddArgs L F V K) :
    PyM (AddMeter G L F V K) (Num K) := fun s0 =>
  let pf := getPredictFunction a.model a.predictFunction
  let s1 := { s0 with predictFn := pf, model := some a.model }
  match sampleIfNotNone R a.X a.n s1.rng with
  | (.error e, g) => (.error e, { s1 with rng := g })
  | (.ok Xs, g) =>
    let s2 := { s1 with rng := g, xSampled := some Xs }
    match PdpMethod.chooseCalc a.toPd Xs (callable pf) with
    | .error e => (.error e, s2)
    | .ok co =>
      match calcAdditivityN miss cp (callable pf) Xs.frame co.obj with
      | (.error e, c') => (.error e, { s2 with pdc := some { co with obj := c' } })
      | (.ok out, c') =>
        let co' : CalcObj L F V K := { co with obj := c' }
        (.ok out.index, { s2 with
          pdc := some co'
          fullResult := some out.full
          preds := some out.preds
          index := some out.index })

end additivity

end Artemis
