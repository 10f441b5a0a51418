import Verif.Model.PdpMethod

/-!
# `artemis/additivity/_additivity_meter.py`
-/

namespace Artemis

variable {F V K : Type} [DecidableEq F] [LinearOrder V] [Field K] [LinearOrder K]

/-- `.sum(axis=1)` of a matrix given by its columns, with `n` rows -/
def rowSums (n : Nat) (cols : List (List (Num K))) : List (Num K) :=
  (List.range n).map (fun i => Num.sum (cols.filterMap (fun c => c[i]?)))

/-- Body of the loop over the columns; `_additivity_meter.py:111-112`. -/
def addColumn (X : Frame F V) (preds : List (Num K)) (c : Calc F V (Num K)) (f : F) :
    Except Err (F × List (Num K)) := do
  let v ← X.colE f
  let pd ← c.getSingle f v
  .ok (f, pd.map (fun x => Num.sub x (Num.mean preds)))

/-- What `_calculate_additivity` stores and returns. -/
structure AddOut (F K : Type) where
  index : Num K
  full : Dict F (List (Num K))
  preds : List (Num K)

/-- The computation after the predictions are known; `_additivity_meter.py:111-118`. `cp` is the column name
"centered_prediction". `full_result` starts as a copy of the data; all its columns are overwritten in the loop, so the
copied values are represented by empty columns. -/
def addFinish (cp : F) (X : Frame F V) (preds : List (Num K)) (effs : List (F × List (Num K))) : AddOut F K :=
  let full0 : Dict F (List (Num K)) := X.cols.map (fun f => (f, []))
  let full1 := effs.foldl (fun d e => d.set e.1 e.2) full0
  let full2 := full1.set cp (Num.center preds)
  let sums := (rowSums X.len (full2.dropLast.map Prod.snd)).map (fun x => Num.add x (Num.mean preds))
  let cent := (full2.get? cp).getD []
  ⟨Num.sub (.fin 1) (Num.div (Num.sum ((Num.subV preds sums).map Num.sq)) (Num.sum (cent.map Num.sq))), full2, preds⟩

/-- Models: `_additivity_meter.py:105-118` (`_calculate_additivity`). A prediction vector of the wrong length cannot
be assigned as a column (ValueError). -/
def calcAdditivity (cp : F) (predict : PF F V (Num K)) (X : Frame F V) : PyM (Calc F V (Num K)) (AddOut F K) :=
  PyM.seq (Calc.calculateSingle none) fun _ => fun c =>
    match predict c.calls.length X.rows with
    | .error e => (.error e, c)
    | .ok preds =>
      match X.cols.mapM (addColumn X preds c) with
      | .error e => (.error e, c)
      | .ok effs =>
        if preds.length = X.len then (.ok (addFinish cp X preds effs), c) else (.error .valueError, c)

/-- Arguments of `AdditivityMeter.fit`. -/
structure AddArgs (L F V K : Type) where
  model : ModelObj F V (Num K)
  X : LFrame L F V
  n : Option Nat
  predictFunction : Option (ModelObj F V (Num K) → PF F V (Num K))
  batchsize : Int
  pdCalculator : Option (CalcObj L F V K)

/-- The arguments as those of a PD-based method (for the shared part of the two `fit`s). -/
def AddArgs.toPd {L : Type} (a : AddArgs L F V K) : PdArgs L F V K :=
  ⟨a.model, a.X, a.n, a.predictFunction, none, a.batchsize, a.pdCalculator, false⟩

/-- State of an `AdditivityMeter`; `_additivity_meter.py:30-39`. -/
structure AddMeter (G L F V K : Type) where
  rng : G
  model : Option (ModelObj F V (Num K))
  predictFn : Option (PF F V (Num K))
  xSampled : Option (LFrame L F V)
  pdc : Option (CalcObj L F V K)
  fullResult : Option (Dict F (List (Num K)))
  preds : Option (List (Num K))
  index : Option (Num K)

/-- A new `AdditivityMeter`. -/
def AddMeter.new {G L : Type} (rng : G) : AddMeter G L F V K := ⟨rng, none, none, none, none, none, none, none⟩

/-- Models: `_additivity_meter.py:40-103` (`fit`). Choosing the calculator is the same code as in the PD-based methods
(`:84-97`). Partial writes to `full_result`/`preds` before an exception inside `_calculate_additivity` are recorded
in `Model/AdditivitySteps`, which refines this definition (`steps_refine`). -/
def AddMeter.fit {G L : Type} [DecidableEq L] (R : Rng G) (cp : F) (a : AddArgs L F V K) :
    PyM (AddMeter G L F V K) (Num K) := fun s0 =>
  let pf := getPredictFunction a.model a.predictFunction
  let s1 := { s0 with predictFn := pf, model := some a.model }
  match sampleIfNotNone R a.X a.n s1.rng with
  | (.error e, g) => (.error e, { s1 with rng := g })
  | (.ok Xs, g) =>
    let s2 := { s1 with rng := g, xSampled := some Xs }
    match PdpMethod.chooseCalc a.toPd Xs (callable pf) with
    | .error e => (.error e, s2)
    | .ok co =>
      match calcAdditivity cp (callable pf) Xs.frame co.obj with
      | (.error e, c') => (.error e, { s2 with pdc := some { co with obj := c' } })
      | (.ok out, c') =>
        let co' : CalcObj L F V K := { co with obj := c' }
        (.ok out.index, { s2 with
          pdc := some co'
          fullResult := some out.full
          preds := some out.preds
          index := some out.index })

end Artemis
