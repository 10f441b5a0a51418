import Verif.Model.Additivity
import Verif.Model.PdImportance

/-!
# The partial dependence code and the names of the columns

The calculator changes a column by `X.copy().assign(**change_dict)` (`artemis/_utilities/pd_calculator.py:74, 103, 125`). Python accepts
strings only as names of keyword arguments, and `self` is taken: for any other column name - 0, 1, 2, … of a frame made from an array, say -
the call raises `TypeError`. `Model/PDCalc` and the files built on it describe the code for names that are accepted.
Here `kw f` says that `f` is one of them (a string other than `"self"`), and the same functions are written down for arbitrary names.

A definition `fKw` mirrors the same lines as the definition `f`; the look-ups, the prediction calls and the stores are those of `Model/PDCalc`.
`Props/Keywords` proves that it is `f` when all names are accepted.
-/

namespace Artemis

section calculator
variable {F V N : Type} [DecidableEq F] [DecidableEq V] [Flt N] (kw : F → Bool)

/-- `pd_calculator.py:71-82`, as `Calc.singleBody`. The first `assign` raises; a column without values is never assigned. -/
def Calc.singleBodyKw (f : F) : PyM (Run (F × V) F V N) Unit := fun s =>
  match s.1.pdSingle.get? f with
  | none => (.error .keyError, s)
  | some t =>
    if t.pdValues.any Flt.isNaN then
      if t.fValues = [] ∨ kw f = true then
        flushIfFull Calc.fillSingle
          (s.1, t.fValues.foldl (fun l v => l.add s.1.X.len (f, v) (blockSingle s.1.X (f, v))) s.2)
      else (.error .typeError, s)
    else (.ok (), s)

/-- `pd_calculator.py:64-84`, as `Calc.calculateSingle` -/
def Calc.calculateSingleKw (features : Option (List F)) : PyM (Calc F V N) Unit := fun c =>
  withLoc (PyM.seq (PyM.forEach (features.getD c.X.cols) (Calc.singleBodyKw kw))
    (fun _ => flushRest Calc.fillSingle)) c

/-- `pd_calculator.py:99-111`, as `Calc.pairValueBody` -/
def Calc.pairValueBodyKw (k : F × F) (v : V × V) : PyM (Run ((F × F) × (V × V)) F V N) Unit := fun s =>
  match s.1.pdPairs.get? k with
  | none => (.error .keyError, s)
  | some t =>
    match getIndex t.f1Values v.1 with
    | .error e => (.error e, s)
    | .ok i =>
      match getIndex t.f2Values v.2 with
      | .error e => (.error e, s)
      | .ok j =>
        match (t.pdValues[i]?).bind (fun row => row[j]?) with
        | none => (.error .indexError, s)
        | some x =>
          if Flt.isNaN x then
            if kw k.1 = true ∧ kw k.2 = true then
              flushIfFull Calc.fillPairs (s.1, s.2.add s.1.X.len (k, v) (blockPair s.1.X (k, v)))
            else (.error .typeError, s)
          else (.ok (), s)

/-- `pd_calculator.py:93-111`, as `Calc.pairBody` -/
def Calc.pairBodyKw (allCombinations : Bool) (p : F × F) : PyM (Run ((F × F) × (V × V)) F V N) Unit :=
  fun s =>
  let k := s.1.pairKey p
  match s.1.pairValues allCombinations k with
  | .error e => (.error e, s)
  | .ok vs => PyM.forEach vs (Calc.pairValueBodyKw kw k) s

/-- `pd_calculator.py:86-113`, as `Calc.calculatePairs` -/
def Calc.calculatePairsKw (pairs : Option (List (F × F))) (allCombinations : Bool) :
    PyM (Calc F V N) Unit := fun c =>
  withLoc (PyM.seq (PyM.forEach (pairs.getD c.pdPairs.keys) (Calc.pairBodyKw kw allCombinations))
    (fun _ => flushRest Calc.fillPairs)) c

/-- `pd_calculator.py:122-133`, as `Calc.minusBody`: all other columns are assigned, for every row -/
def Calc.minusBodyKw (f : F) : PyM (Run (F × Nat) F V N) Unit := fun s =>
  match s.1.pdMinus.get? f with
  | none => (.error .keyError, s)
  | some t =>
    if t.any Flt.isNaN then
      if s.1.X.len = 0 ∨ ∀ g ∈ s.1.X.cols, g ≠ f → kw g = true then
        flushIfFull Calc.fillMinus
          (s.1, (List.range s.1.X.len).foldl
            (fun l i => l.add s.1.X.len (f, i) (blockMinus s.1.X (f, i))) s.2)
      else (.error .typeError, s)
    else (.ok (), s)

/-- `pd_calculator.py:115-135`, as `Calc.calculateMinus` -/
def Calc.calculateMinusKw (features : Option (List F)) : PyM (Calc F V N) Unit := fun c =>
  withLoc (PyM.seq (PyM.forEach (features.getD c.X.cols) (Calc.minusBodyKw kw))
    (fun _ => flushRest Calc.fillMinus)) c

end calculator

section methods
variable {F V K : Type} [DecidableEq F] [LinearOrder V] [Field K] [LinearOrder K] [HasSqrt K] (kw : F → Bool)

/-- `_friedman_h_statistic.py:205-219`, as `hstatOvo` -/
def hstatOvoKw (sort : List (OvoRow F K) → List (OvoRow F K)) (normalized : Bool) (X : Frame F V)
    (features : List F) (pairs : List (F × F)) : PyM (Calc F V (Num K)) (List (OvoRow F K)) :=
  PyM.seq (Calc.calculatePairsKw kw (some pairs) false) fun _ =>
  PyM.seq (Calc.calculateSingleKw kw (some features)) fun _ => fun c =>
    (match pairs.mapM (hstatPair normalized X c) with
      | .error e => .error e
      | .ok rows => .ok ((sort rows).map OvoRow.fillna), c)

/-- `_friedman_h_statistic.py:192-203`, as `hstatOva` -/
def hstatOvaKw (sort : List (FeatRow F K) → List (FeatRow F K)) (predict : PF F V (Num K))
    (normalized : Bool) (X : Frame F V) (features : List F) : PyM (Calc F V (Num K)) (List (FeatRow F K)) :=
  PyM.seq (Calc.calculateMinusKw kw (some features)) fun _ => fun c =>
    match predict c.calls.length X.rows with
    | .error e => (.error e, c)
    | .ok preds =>
      (match features.mapM (hstatFeature normalized X preds c) with
        | .error e => .error e
        | .ok rows => .ok ((sort rows).map FeatRow.fillna), c)

/-- `_greenwell.py:76-90`, as `greenwellOvo` -/
def greenwellOvoKw (sort : List (OvoRow F K) → List (OvoRow F K)) (numeric : F → Bool)
    (pairs : List (F × F)) : PyM (Calc F V (Num K)) (List (OvoRow F K)) :=
  PyM.seq (Calc.calculatePairsKw kw (some pairs) true) fun _ => fun c =>
    (match pairs.mapM (greenwellPair numeric c) with
      | .error e => .error e
      | .ok rows => .ok ((sort rows).map OvoRow.fillna), c)

/-- `importance_methods/model_agnostic/_pdp.py:112-124`, as `pdpImportance` -/
def pdpImportanceKw (sort : List (FeatRow F K) → List (FeatRow F K)) (numeric : F → Bool)
    (features : List F) : PyM (Calc F V (Num K)) (List (FeatRow F K)) :=
  PyM.seq (Calc.calculateSingleKw kw none) fun _ => fun c =>
    (match features.mapM (calcImportance numeric c) with
      | .error e => .error e
      | .ok rows => .ok ((sort rows).map FeatRow.fillna), c)

variable {G L : Type} [DecidableEq L]

/-- as `PdKind.ovo` -/
def PdKind.ovoKw (kind : PdKind) (E : PdEnv G F K) (X : Frame F V) (features : List F) (pairs : List (F × F)) :
    PyM (Calc F V (Num K)) (List (OvoRow F K)) :=
  match kind with
  | .friedman normalized => hstatOvoKw kw E.sortOvo normalized X features pairs
  | .greenwell => greenwellOvoKw kw E.sortOvo (numIn E features) pairs

/-- `_pdp.py:78-109`, as `PdpMethod.fitBase` -/
def PdpMethod.fitBaseKw (kind : PdKind) (E : PdEnv G F K) (a : PdArgs L F V K) : PyM (PdpMethod G L F V K) Unit :=
  fun s0 =>
  let pf := getPredictFunction a.model a.predictFunction
  let s1 := { s0 with predictFn := pf, model := some a.model }
  match sampleIfNotNone E.R a.X a.n s1.rng with
  | (.error e, g) => (.error e, { s1 with rng := g })
  | (.ok Xs, g) =>
    let features := allIfNone a.X.frame.cols a.features
    let pairs := combinations2 features
    let s2 := { s1 with rng := g, xSampled := some Xs, features := some features, pairs := some pairs }
    match PdpMethod.chooseCalc a Xs (callable pf) with
    | .error e => (.error e, s2)
    | .ok co =>
      match PdpMethod.onCalc (kind.ovoKw kw E Xs.frame features pairs) { s2 with pdc := some co } with
      | (.error e, s3) => (.error e, s3)
      | (.ok ovo, s3) =>
        match PdpMethod.onCalc (pdpImportanceKw kw E.sortFeat (numIn E features) features)
            { s3 with ovo := some ovo, impObj := true } with
        | (.error e, s4) => (.error e, s4)
        | (.ok imp, s4) => (.ok (), { s4 with importance := some imp })

/-- `_friedman_h_statistic.py:107-109` and `_greenwell.py:66`, as `PdpMethod.fit` -/
def PdpMethod.fitKw (kind : PdKind) (E : PdEnv G F K) (a : PdArgs L F V K) : PyM (PdpMethod G L F V K) Unit :=
  fun s0 =>
  match PdpMethod.fitBaseKw kw kind E a s0 with
  | (.error e, s) => (.error e, s)
  | (.ok _, s) =>
    match kind with
    | .greenwell => (.ok (), s)
    | .friedman normalized =>
      if a.calculateOva then
        match s.xSampled, s.features with
        | some Xs, some features =>
          match PdpMethod.onCalc (hstatOvaKw kw E.sortFeat (callable s.predictFn) normalized Xs.frame features) s with
          | (.error e, s') => (.error e, s')
          | (.ok ova, s') => (.ok (), { s' with ova := some ova })
        | _, _ => (.error .attributeError, s)
      else (.ok (), s)

/-- `importance_methods/model_agnostic/_pdp.py:92-110`, as `PdImpObj.run` -/
def PdImpObj.runKw (E : PdEnv G F K) (a : PdArgs L F V K) : PyM (PdImpObj G L F V K) (List (FeatRow F K)) := fun s0 =>
  let pf := getPredictFunction a.model a.predictFunction
  let s1 := { s0 with predictFn := pf }
  match sampleIfNotNone E.R a.X a.n s1.rng with
  | (.error e, g) => (.error e, { s1 with rng := g })
  | (.ok Xs, g) =>
    let features := allIfNone a.X.frame.cols a.features
    let s2 := { s1 with rng := g, xSampled := some Xs, features := some features }
    match PdpMethod.chooseCalc a Xs (callable pf) with
    | .error e => (.error e, s2)
    | .ok co =>
      match pdpImportanceKw kw E.sortFeat (numIn E features) features co.obj with
      | (.error e, c') => (.error e, { s2 with pdc := some { co with obj := c' } })
      | (.ok imp, c') =>
        (.ok imp, { s2 with pdc := some { co with obj := c' }, importance := some imp })

end methods

section additivity
variable {F V K : Type} [DecidableEq F] [LinearOrder V] [Field K] [LinearOrder K] (kw : F → Bool)

/-- `_additivity_meter.py:105-118`, as `calcAdditivity` -/
def calcAdditivityKw (cp : F) (predict : PF F V (Num K)) (X : Frame F V) : PyM (Calc F V (Num K)) (AddOut F K) :=
  PyM.seq (Calc.calculateSingleKw kw none) fun _ => fun c =>
    match predict c.calls.length X.rows with
    | .error e => (.error e, c)
    | .ok preds =>
      match X.cols.mapM (addColumn X preds c) with
      | .error e => (.error e, c)
      | .ok effs =>
        if preds.length = X.len then (.ok (addFinish cp X preds effs), c) else (.error .valueError, c)

/-- `_additivity_meter.py:40-103`, as `AddMeter.fit` -/
def AddMeter.fitKw {G L : Type} [DecidableEq L] (R : Rng G) (cp : F) (a : AddArgs L F V K) :
    PyM (AddMeter G L F V K) (Num K) := fun s0 =>
  let pf := getPredictFunction a.model a.predictFunction
  let s1 := { s0 with predictFn := pf, model := some a.model }
  match sampleIfNotNone R a.X a.n s1.rng with
  | (.error e, g) => (.error e, { s1 with rng := g })
  | (.ok Xs, g) =>
    let s2 := { s1 with rng := g, xSampled := some Xs }
    match PdpMethod.chooseCalc a.toPd Xs (callable pf) with
    | .error e => (.error e, s2)
    | .ok co =>
      match calcAdditivityKw kw cp (callable pf) Xs.frame co.obj with
      | (.error e, c') => (.error e, { s2 with pdc := some { co with obj := c' } })
      | (.ok out, c') =>
        let co' : CalcObj L F V K := { co with obj := c' }
        (.ok out.index, { s2 with
          pdc := some co'
          fullResult := some out.full
          preds := some out.preds
          index := some out.index })

end additivity

end Artemis
