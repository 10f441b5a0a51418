import Verif.Model.Additivity

/-!
# `AdditivityMeter.fit` statement by statement

`Model/Additivity` records what a successful `fit` leaves behind. Here every assignment to an attribute is a step, so that the object
after a failing `fit` is described too. `full_result` starts as a copy of the data; its columns are overwritten one after the other.
-/

namespace Artemis

/-- A column of `full_result`: still the copied data, or already the computed numbers. -/
inductive FullCol (V K : Type)
  | copied (vs : List V)
  | computed (xs : List (Num K))

variable {F V K G L : Type} [DecidableEq F] [LinearOrder V] [Field K] [LinearOrder K] [DecidableEq L]

/-- the numbers of a computed column -/
def FullCol.numbers : FullCol V K → List (Num K)
  | .copied _ => []
  | .computed xs => xs

/-- State of an `AdditivityMeter`; `_additivity_meter.py:30-39`. -/
structure AddSteps (G L F V K : Type) where
  rng : G
  model : Option (ModelObj F V (Num K))
  predictFn : Option (PF F V (Num K))
  xSampled : Option (LFrame L F V)
  pdc : Option (CalcObj L F V K)
  fullResult : Option (Dict F (FullCol V K))
  preds : Option (List (Num K))
  index : Option (Num K)

/-- A new object. -/
def AddSteps.new (rng : G) : AddSteps G L F V K := ⟨rng, none, none, none, none, none, none, none⟩

/-- Body of the loop over the columns; `_additivity_meter.py:111-112`. -/
def AddSteps.column (X : Frame F V) (preds : List (Num K)) (f : F) : PyM (AddSteps G L F V K) Unit := fun s =>
  match s.pdc, s.fullResult with
  | some co, some full =>
    match addColumn X preds co.obj f with
    | .error e => (.error e, s)
    | .ok eff => (.ok (), { s with fullResult := some (full.set f (.computed eff.2)) })
  | _, _ => (.error .attributeError, s)

/-- `_additivity_meter.py:114-118`: the last column, and the index. Columns that still hold copied data do not occur here (the loop over all
columns is over). A prediction vector of the wrong length cannot be assigned as a column (ValueError). -/
def AddSteps.last (cp : F) (X : Frame F V) (preds : List (Num K)) : PyM (AddSteps G L F V K) (Num K) := fun s =>
  match s.fullResult with
  | none => (.error .attributeError, s)
  | some full =>
    if preds.length = X.len then
      let full2 := full.set cp (.computed (Num.center preds))
      let sums := (rowSums X.len (full2.dropLast.map (fun e => e.2.numbers))).map (fun x => Num.add x (Num.mean preds))
      let cent := ((full2.get? cp).map FullCol.numbers).getD []
      (.ok (Num.sub (.fin 1) (Num.div (Num.sum ((Num.subV preds sums).map Num.sq)) (Num.sum (cent.map Num.sq)))),
        { s with fullResult := some full2 })
    else (.error .valueError, s)

/-- `_additivity_meter.py:105-118` (`_calculate_additivity`) -/
def AddSteps.calculate (cp : F) (predict : PF F V (Num K)) (X : Frame F V) : PyM (AddSteps G L F V K) (Num K) := fun s =>
  match s.pdc with
  | none => (.error .attributeError, s)
  | some co =>
    match Calc.calculateSingle none co.obj with
    | (.error e, c) => (.error e, { s with pdc := some { co with obj := c } })
    | (.ok _, c) =>
      match predict c.calls.length X.rows with
      | .error e => (.error e, { s with pdc := some { co with obj := c } })
      | .ok preds =>
        PyM.seq (PyM.forEach X.cols (AddSteps.column X preds)) (fun _ => AddSteps.last cp X preds)
          { s with pdc := some { co with obj := c }, preds := some preds }

/-- `_additivity_meter.py:40-103` (`fit`) -/
def AddSteps.fit (R : Rng G) (cp : F) (a : AddArgs L F V K) : PyM (AddSteps G L F V K) (Num K) := fun s0 =>
  let pf := getPredictFunction a.model a.predictFunction
  let s1 := { s0 with predictFn := pf, model := some a.model }
  match sampleIfNotNone R a.X a.n s1.rng with
  | (.error e, g) => (.error e, { s1 with rng := g })
  | (.ok Xs, g) =>
    let s2 := { s1 with rng := g, xSampled := some Xs }
    match PdpMethod.chooseCalc a.toPd Xs (callable pf) with
    | .error e => (.error e, s2)
    | .ok co =>
      match AddSteps.calculate cp (callable pf) Xs.frame
          { s2 with pdc := some co, fullResult := some (Xs.frame.cols.map fun f => (f, .copied (Xs.frame.col f))) } with
      | (.error e, s3) => (.error e, s3)
      | (.ok v, s3) => (.ok v, { s3 with index := some v })

end Artemis
