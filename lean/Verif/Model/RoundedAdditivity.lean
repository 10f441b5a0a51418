import Verif.Model.Rounded
import Verif.Model.Additivity

/-!
# The additivity index in floating-point arithmetic

The same code as in `Verif/Model/Additivity.lean` (`artemis/additivity/_additivity_meter.py:104-118`), with every arithmetic operation
rounded. The denominator is the sum of a pandas column, which takes NaN for zero (`skipna`).
-/

namespace Artemis
variable {F V K : Type} [DecidableEq F] [LinearOrder V] [Field K] [LinearOrder K] (A : Arith K)

/-- `.sum(axis=1)` of a matrix given by its columns, as `rowSums` -/
def rowSumsR (n : Nat) (cols : List (List (Num K))) : List (Num K) :=
  (List.range n).map (fun i => A.sum (cols.filterMap (fun c => c[i]?)))

/-- Body of the loop over the columns; `_additivity_meter.py:111-112`, as `addColumn`. -/
def addColumnR (X : Frame F V) (preds : List (Num K)) (c : Calc F V (Rounded A)) (f : F) : Except Err (F × List (Num K)) := do
  let v ← X.colE f
  let pd ← c.getSingle f v
  .ok (f, pd.map (fun x => A.sub x.val (A.mean preds)))

/-- The computation after the predictions are known; `_additivity_meter.py:111-118`, as `addFinish`. -/
def addFinishR (cp : F) (X : Frame F V) (preds : List (Num K)) (effs : List (F × List (Num K))) : Num K :=
  let full0 : Dict F (List (Num K)) := X.cols.map (fun f => (f, []))
  let full1 := effs.foldl (fun d e => d.set e.1 e.2) full0
  let full2 := full1.set cp (A.center preds)
  let sums := (rowSumsR A X.len (full2.dropLast.map Prod.snd)).map (fun x => A.add x (A.mean preds))
  let cent := (full2.get? cp).getD []
  A.sub (.fin 1) (A.div (A.sum ((List.zipWith A.sub preds sums).map A.sq)) (A.sum (cent.map fun x => (A.sq x).fillna0)))

/-- The index an `AdditivityMeter` returns from `fit` with a new calculator on the rows `X`; `_additivity_meter.py:104-118`, as
`calcAdditivity`. -/
def additivityR (cp : F) (predict : PF F V (Rounded A)) (X : Frame F V) (batchsize : Int) : Except Err (Num K) :=
  (PyM.seq (Calc.calculateSingle none) fun _ => fun c =>
    match predict c.calls.length X.rows with
    | .error e => (.error e, c)
    | .ok preds =>
      match X.cols.mapM (addColumnR A X (preds.map Rounded.val) c) with
      | .error e => (.error e, c)
      | .ok effs =>
        if preds.length = X.len then (.ok (addFinishR A cp X (preds.map Rounded.val) effs), c) else (.error .valueError, c))
    (Calc.new predict X batchsize) |>.1

end Artemis
