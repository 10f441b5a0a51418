import Verif.Model.Perf
import Verif.Model.AdditivitySteps

/-!
# The permuting methods and the additivity meter with data frame objects

`Model/Perf` and `Model/AdditivitySteps` treat data frames as values. Here they are objects in memory: `X.copy()` and `X.sample(...)` create objects, assignments to a
column change an object in place, and the model is handed an object. `_sejong_oh.py:71-181`,
`_permutational_importance.py:46-143`, `_additivity_meter.py:40-118`, `artemis/_utilities/ops.py:18-30`, statement by statement.

Simplification: the targets are values (the code never assigns to them in place).
-/

namespace Artemis

section
variable {G L F V K : Type} [DecidableEq F] [DecidableEq L] [Field K] [LinearOrder K]

/-- A model whose `predict`, besides returning predictions, may change the frame it is given in place (`touch`). -/
structure HModel (F V K : Type) where
  obj : ModelObj F V (Num K)
  touch : Frame F V → Frame F V

/-- Memory while a permuting function runs: the frame objects (a reference is a position), the generator, and the frames the model was asked
about so far. -/
structure PMem (G L F V : Type) where
  mem : List (LFrame L F V)
  rng : G
  calls : List (List (Row F V))

/-- the contents of object `r` -/
def getFrame (r : Nat) : PyM (PMem G L F V) (LFrame L F V) := fun s =>
  match s.mem[r]? with
  | some X => (.ok X, s)
  | none => (.error .attributeError, s)

/-- a new object with contents `X` -/
def newFrame (X : LFrame L F V) : PyM (PMem G L F V) Nat := fun s => (.ok s.mem.length, { s with mem := s.mem ++ [X] })

/-- `X.copy()` -/
def copyFrame (r : Nat) : PyM (PMem G L F V) Nat := PyM.seq (getFrame r) newFrame

/-- `X[f] = values`, in place -/
def assignCol (r : Nat) (f : F) (vs : List V) : PyM (PMem G L F V) Unit :=
  PyM.seq (getFrame r) fun X =>
  PyM.seq (PyM.lift (X.frame.setCol f vs)) fun Y => fun s =>
    (.ok (), { s with mem := s.mem.set r { X with frame := Y } })

/-- `model.predict(X)` -/
def predictOnH (m : HModel F V K) (r : Nat) : PyM (PMem G L F V) (List (Num K)) :=
  PyM.seq (getFrame r) fun X => fun s =>
    match m.obj.predict with
    | none => (.error .attributeError, s)
    | some p => (p s.calls.length X.frame.rows,
        { s with calls := s.calls ++ [X.frame.rows], mem := s.mem.set r { X with frame := m.touch X.frame } })

/-- `metric.calculate(y_true, model.predict(X))` -/
def scoreOnH (m : HModel F V K) (M : Metric K) (y : List (Num K)) (r : Nat) : PyM (PMem G L F V) (Num K) :=
  PyM.seq (predictOnH m r) fun yHat => PyM.lift (M.calculate y yHat)

/-- `random_generator.permutation(n)` -/
def drawPermH (R : Rng G) (n : Nat) : PyM (PMem G L F V) (List Nat) := fun s =>
  match R.perm s.rng n with
  | (p, g) => (.ok p, { s with rng := g })

/-- Body of the loop `_sejong_oh.py:167-168`: `X_copy_permuted[feature] = X_copy_permuted[feature].values[p]`. -/
def permuteColH (c : Nat) (p : List Nat) (f : F) : PyM (PMem G L F V) Unit :=
  PyM.seq (getFrame c) fun X =>
  PyM.seq (PyM.lift (X.frame.colE f)) fun v =>
  PyM.seq (PyM.lift (npTake v p)) fun v' =>
  assignCol c f v'

/-- Models: `_sejong_oh.py:155-173` (`_permute_score`). -/
def permuteScoreH (R : Rng G) (m : HModel F V K) (M : Metric K) (y : List (Num K)) (r : Nat) (fs : List F) (ref : Num K) :
    PyM (PMem G L F V) (Num K) :=
  PyM.seq (copyFrame r) fun c =>
  PyM.seq (getFrame r) fun X =>
  PyM.seq (drawPermH R X.frame.len) fun p =>
  PyM.seq (PyM.forEach fs (permuteColH c p)) fun _ =>
  PyM.seq (scoreOnH m M y c) fun sc =>
  PyM.ret (negIfClass M (Num.sub sc ref))

/-- Models: `_sejong_oh.py:132-152` (`_inter`). -/
def interScoreH (R : Rng G) (m : HModel F V K) (M : Metric K) (y : List (Num K)) (r : Nat) (f1 f2 : F) (ref : Num K) :
    PyM (PMem G L F V) (Num K) :=
  PyM.seq (permuteScoreH R m M y r [f1] ref) fun s1 =>
  PyM.seq (permuteScoreH R m M y r [f2] ref) fun s2 =>
  PyM.seq (permuteScoreH R m M y r [f1, f2] ref) fun s12 =>
  PyM.ret (negIfClass M (Num.sub (Num.sub s12 s1) s2))

/-- Models: `_sejong_oh.py:114-129` (`_perf_based_ovo`). -/
def perfOvoH (sort : List (OvoRow F K) → List (OvoRow F K)) (R : Rng G) (m : HModel F V K) (M : Metric K) (y : List (Num K))
    (r : Nat) (pairs : List (F × F)) (nRepeat : Nat) : PyM (PMem G L F V) (List (OvoRow F K)) :=
  PyM.seq (scoreOnH m M y r) fun ref =>
  PyM.seq (PyM.mapList pairs fun pr =>
    PyM.seq (PyM.times nRepeat
      (PyM.seq (interScoreH R m M y r pr.1 pr.2 ref) fun v => PyM.ret (Num.abs v))) fun inter =>
    PyM.ret ⟨pr.1, pr.2, Num.mean inter⟩) fun rows =>
  PyM.ret (sort rows)

/-- Body of the inner loop of `_corrupted_scores`; `_permutational_importance.py:130-134`; `c` is `X_copy_permuted`. -/
def corruptStepH (R : Rng G) (m : HModel F V K) (M : Metric K) (y : List (Num K)) (r c : Nat) (d : Dict F (List (Num K))) (f : F) :
    PyM (PMem G L F V) (Dict F (List (Num K))) :=
  PyM.seq (getFrame c) fun Xc =>
  PyM.seq (PyM.lift (Xc.frame.colE f)) fun v =>
  PyM.seq (drawPermH R v.length) fun p =>
  PyM.seq (PyM.lift (npTake v p)) fun v' =>
  PyM.seq (assignCol c f v') fun _ =>
  PyM.seq (scoreOnH m M y c) fun sc =>
  match d.get? f with
  | none => PyM.raise .keyError
  | some l =>
    PyM.seq (getFrame r) fun X =>
    PyM.seq (PyM.lift (X.frame.colE f)) fun orig =>
    PyM.seq (assignCol c f orig) fun _ =>
    PyM.ret (d.set f (l ++ [sc]))

/-- Models: `_permutational_importance.py:114-136` (`_corrupted_scores`). -/
def corruptedScoresH (R : Rng G) (m : HModel F V K) (M : Metric K) (y : List (Num K)) (r : Nat) (features : List F) (nRepeat : Nat) :
    PyM (PMem G L F V) (Dict F (List (Num K))) :=
  PyM.seq (copyFrame r) fun c =>
  PyM.fold (List.range nRepeat) (fun d _ => PyM.fold features (corruptStepH R m M y r c) d)
    (features.foldl (fun d f => d.set f []) [])

/-- Models: `_permutational_importance.py:86-111` (`_permutation_importance`). -/
def permImportanceH (sort : List (FeatRow F K) → List (FeatRow F K)) (R : Rng G) (m : HModel F V K) (M : Metric K) (y : List (Num K))
    (r : Nat) (features : Option (List F)) (nRepeat : Nat) : PyM (PMem G L F V) (List (FeatRow F K)) :=
  PyM.seq (scoreOnH m M y r) fun base =>
  match features with
  | none => PyM.raise .typeError
  | some fs =>
    PyM.seq (corruptedScoresH R m M y r fs nRepeat) fun d =>
    if d.isEmpty then PyM.raise .keyError
    else PyM.ret (sort (d.map fun kv => ⟨kv.1, negIfClass M (Num.sub (Num.mean kv.2) base)⟩))

/-- A `SejongOhMethod` whose `X_sampled` is an object in memory: `obj` are the other attributes (its `xSampled` is not used), `xRef` the
reference, `mem` the memory. -/
structure SejongH (G L F V K : Type) where
  mem : List (LFrame L F V)
  xRef : Option Nat
  obj : Sejong G L F V K

/-- Models: `artemis/_utilities/ops.py:25-30` (`sample_both_if_not_none`) for the frame object `r`: the object itself without `n`, a new
object with it. -/
def sampleBothH (R : Rng G) (toInt : L → Option Int) (r : Nat) (y : Target L K) (n : Option Nat) :
    PyM (PMem G L F V) (Nat × Target L K) :=
  PyM.seq (getFrame r) fun X => fun s =>
    match sampleBoth R toInt X y n s.rng with
    | (.error e, g) => (.error e, { s with rng := g })
    | (.ok (Xs, ys), g) =>
      match n with
      | none => (.ok (r, ys), { s with rng := g })
      | some _ => (.ok (s.mem.length, ys), { s with rng := g, mem := s.mem ++ [Xs] })

/-- Models: `_sejong_oh.py:71-111` (`fit`); the caller's frame is the object `r`; `a.X` and `a.model` are not used. -/
def SejongH.fit (E : PerfEnv G L F K) (m : HModel F V K) (r : Nat) (a : SejongArgs L F V K) (entropy : G) :
    PyM (SejongH G L F V K) Unit := fun s0 =>
  match s0.mem[r]? with
  | none => (.error .attributeError, s0)
  | some X =>
    match sampleBothH E.R E.toInt r a.y a.n ⟨s0.mem, s0.obj.rng, s0.obj.calls⟩ with
    | (.error e, w) => (.error e, { s0 with mem := w.mem, obj := { s0.obj with rng := w.rng } })
    | (.ok (x, ys), w0) =>
      let features := allIfNone X.frame.cols a.features
      let pairs := combinations2 features
      let s1 : SejongH G L F V K :=
        { mem := w0.mem, xRef := some x,
          obj := { s0.obj with rng := w0.rng, ySampled := some ys, features := some features, pairs := some pairs } }
      match perfOvoH E.sortOvo E.R m s1.obj.metric ys.values x pairs a.nRepeat ⟨s1.mem, s1.obj.rng, s1.obj.calls⟩ with
      | (.error e, w) => (.error e, { s1 with mem := w.mem, obj := { s1.obj with rng := w.rng, calls := w.calls } })
      | (.ok ovo, w) =>
        let s2 : SejongH G L F V K :=
          { s1 with mem := w.mem, obj := { s1.obj with rng := w.rng, ovo := some ovo, impObj := true } }
        match permImportanceH E.sortFeat E.R m s2.obj.metric ys.values x (some features) a.nRepeat ⟨s2.mem, entropy, w.calls⟩ with
        | (.error e, w') => (.error e, { s2 with mem := w'.mem, obj := { s2.obj with calls := w'.calls } })
        | (.ok imp, w') => (.ok (), { s2 with mem := w'.mem, obj := { s2.obj with importance := some imp, calls := w'.calls } })

/-! ### The additivity meter -/

/-- A frame object of the additivity meter: the data it was created with, and its columns, some of which may have been replaced by computed
numbers. -/
structure MFrame (L F V K : Type) where
  base : LFrame L F V
  cols : Dict F (FullCol V K)

/-- an object holding data -/
def MFrame.fresh (X : LFrame L F V) : MFrame L F V K := ⟨X, X.frame.cols.map fun f => (f, .copied (X.frame.col f))⟩

/-- all columns are data -/
def MFrame.isData (o : MFrame L F V K) : Bool := o.cols.all fun c => match c.2 with
  | .copied _ => true
  | .computed _ => false

/-- An `AdditivityMeter` whose `X_sampled` and `full_result` are references (`obj` holds the other attributes; its `xSampled` and
`fullResult` are not used). -/
structure AddH (G L F V K : Type) where
  mem : List (MFrame L F V K)
  xRef : Option Nat
  fullRef : Option Nat
  obj : AddSteps G L F V K

variable [LinearOrder V]

/-- `self.X_sampled` -/
def AddH.x (s : AddH G L F V K) : Option (MFrame L F V K) := s.xRef.bind fun r => s.mem[r]?

/-- `self.full_result[f] = numbers`, in place -/
def AddH.assign (f : F) (xs : List (Num K)) : PyM (AddH G L F V K) Unit := fun s =>
  match s.fullRef.bind fun r => s.mem[r]?.map fun o => (r, o) with
  | none => (.error .attributeError, s)
  | some (r, o) => (.ok (), { s with mem := s.mem.set r { o with cols := o.cols.set f (.computed xs) } })

/-- Body of the loop over the columns; `_additivity_meter.py:111-112`. -/
def AddH.column (preds : List (Num K)) (f : F) : PyM (AddH G L F V K) Unit := fun s =>
  match s.x.bind fun o => o.cols.get? f, s.obj.pdc with
  | some (.copied v), some co =>
    match co.obj.getSingle f v with
    | .error e => (.error e, s)
    | .ok pd => AddH.assign f (pd.map fun x => Num.sub x (Num.mean preds)) s
  | some (.computed _), _ => (.error .typeError, s)
  | none, _ => (.error .keyError, s)
  | _, none => (.error .attributeError, s)

/-- `_additivity_meter.py:114-118`; as `AddSteps.last`, on the object `full_result` -/
def AddH.last (cp : F) (n : Nat) (preds : List (Num K)) : PyM (AddH G L F V K) (Num K) :=
  if preds.length = n then
    PyM.seq (AddH.assign cp (Num.center preds)) fun _ => fun s =>
      match s.fullRef.bind fun r => s.mem[r]? with
      | none => (.error .attributeError, s)
      | some o =>
        let sums := (rowSums n (o.cols.dropLast.map (fun e => e.2.numbers))).map (fun x => Num.add x (Num.mean preds))
        let cent := ((o.cols.get? cp).map FullCol.numbers).getD []
        (.ok (Num.sub (.fin 1) (Num.div (Num.sum ((Num.subV preds sums).map Num.sq)) (Num.sum (cent.map Num.sq)))), s)
  else PyM.raise .valueError

/-- `_additivity_meter.py:105-118` (`_calculate_additivity`). The prediction function may change the frame it is given (`touch`). It is
given `X_sampled` itself in line 110. -/
def AddH.calculate (cp : F) (predict : PF F V (Num K)) (touch : Frame F V → Frame F V) : PyM (AddH G L F V K) (Num K) := fun s =>
  match s.obj.pdc with
  | none => (.error .attributeError, s)
  | some co =>
    match Calc.calculateSingle none co.obj with
    | (.error e, c) => (.error e, { s with obj := { s.obj with pdc := some { co with obj := c } } })
    | (.ok _, c) =>
      let s1 : AddH G L F V K := { s with obj := { s.obj with pdc := some { co with obj := c } } }
      match s1.xRef.bind fun r => s1.mem[r]?.map fun o => (r, o) with
      | none => (.error .attributeError, s1)
      | some (r, o) =>
        if o.isData then
          let s2 := { s1 with mem := s1.mem.set r (MFrame.fresh { o.base with frame := touch o.base.frame }) }
          match predict c.calls.length o.base.frame.rows with
          | .error e => (.error e, s2)
          | .ok preds =>
            PyM.seq (PyM.forEach o.base.frame.cols (AddH.column preds)) (fun _ => AddH.last cp o.base.frame.len preds)
              { s2 with obj := { s2.obj with preds := some preds } }
        else (.error .typeError, s1)

/-- `self.X_sampled = sample_if_not_none(...)`, the sample being `Xs`: the caller's object `r` itself without `n`, a new object with it. -/
def AddH.setSample (r : Nat) (n : Option Nat) (Xs : LFrame L F V) (s : AddH G L F V K) : AddH G L F V K :=
  match n with
  | none => { s with xRef := some r }
  | some _ => { s with xRef := some s.mem.length, mem := s.mem ++ [MFrame.fresh Xs] }

/-- `_additivity_meter.py:40-103` (`fit`) for the frame object `r` (`a.X` is not used) -/
def AddH.fit (R : Rng G) (cp : F) (touch : Frame F V → Frame F V) (r : Nat) (a : AddArgs L F V K) : PyM (AddH G L F V K) (Num K) :=
  fun s0 =>
  let pf := getPredictFunction a.model a.predictFunction
  let s1 : AddH G L F V K := { s0 with obj := { s0.obj with predictFn := pf, model := some a.model } }
  match s1.mem[r]? with
  | none => (.error .attributeError, s1)
  | some o =>
    if o.isData then
      match sampleIfNotNone R o.base a.n s1.obj.rng with
      | (.error e, g) => (.error e, { s1 with obj := { s1.obj with rng := g } })
      | (.ok Xs, g) =>
        let s2 := AddH.setSample r a.n Xs { s1 with obj := { s1.obj with rng := g } }
        match PdpMethod.chooseCalc { a.toPd with X := o.base } Xs (callable pf) with
        | .error e => (.error e, s2)
        | .ok co =>
          let s3 : AddH G L F V K := { s2 with obj := { s2.obj with pdc := some co } }
          match s3.x with
          | none => (.error .attributeError, s3)
          | some ox =>
            let s4 : AddH G L F V K := { s3 with fullRef := some s3.mem.length, mem := s3.mem ++ [ox] }
            match AddH.calculate cp (callable pf) touch s4 with
            | (.error e, s5) => (.error e, s5)
            | (.ok v, s5) => (.ok v, { s5 with obj := { s5.obj with index := some v } })
    else (.error .typeError, s1)

end
end Artemis
