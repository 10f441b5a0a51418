import Verif.Model.PdpMethod

/-!
# The partial dependence based methods with data frame objects

`Model/PDCalc` and `Model/PdpMethod` treat data frames as values. Here they are objects in memory, and the prediction function, besides returning
predictions, may change the frame it is given in place (`touch`). A calculator keeps a reference to the frame it was constructed with
(`artemis/_utilities/pd_calculator.py:15`) and reads it whenever it calculates; the number of rows and the tables are made at construction (`:16-36`).
The prediction function is given a newly made frame (`X_full`) by the calculator (`:137-156`) and `X_sampled` itself by the one-vs-all part of the
H-statistic (`_friedman_h_statistic.py:194`).

Simplifications: the frames `X.copy()`, `X_changed` and the intermediate `X_full`, which nobody but the calculator sees, get no object; the row labels
of `X_full` are left out.
-/

namespace Artemis

section
variable {G L F V K : Type} [DecidableEq F] [LinearOrder V] [Field K] [LinearOrder K]

/-- Memory and a calculator. `c.X` is the frame at the time of construction (the code keeps its number of rows); the frame the calculator sees is
object `xr`. -/
structure PdMem (L F V K : Type) where
  mem : List (LFrame L F V)
  c : Calc F V (Num K)
  xr : Nat

/-- `self.X` of the calculator -/
def PdMem.withX {α : Type} (k : Frame F V → PyM (PdMem L F V K) α) : PyM (PdMem L F V K) α := fun s =>
  match s.mem[s.xr]? with
  | some X => k X.frame s
  | none => (.error .attributeError, s)

/-- code that looks at the tables only -/
def PdMem.onTables {α : Type} (m : PyM (Calc F V (Num K)) α) : PyM (PdMem L F V K) α := fun s =>
  ((m s.c).1, { s with c := (m s.c).2 })

/-- `y = self.predict_function(self.model, X_full)`; `pd_calculator.py:138, 145, 153` -/
def PdMem.ask (touch : Frame F V → Frame F V) (xFull : List (Row F V)) : PyM (PdMem L F V K) (List (Num K)) :=
  PdMem.withX fun X s =>
    (s.c.predict s.c.calls.length xFull,
      { s with c := { s.c with calls := s.c.calls ++ [xFull] }, mem := s.mem ++ [⟨[], touch ⟨X.cols, xFull⟩⟩] })

/-- `fill_pd_single`; `pd_calculator.py:137-142` -/
def PdMem.fillSingle (touch : Frame F V → Frame F V) (l : Loc (F × V) F V) : PyM (PdMem L F V K) Unit :=
  PyM.seq (PdMem.ask touch l.xFull) fun y => PyM.forEach l.ranges fun e => PdMem.onTables (Calc.storeSingle y e)

/-- `fill_pd_pairs`; `pd_calculator.py:144-150` -/
def PdMem.fillPairs (touch : Frame F V → Frame F V) (l : Loc ((F × F) × (V × V)) F V) : PyM (PdMem L F V K) Unit :=
  PyM.seq (PdMem.ask touch l.xFull) fun y => PyM.forEach l.ranges fun e => PdMem.onTables (Calc.storePair y e)

/-- `fill_pd_minus_single`; `pd_calculator.py:152-156` -/
def PdMem.fillMinus (touch : Frame F V → Frame F V) (l : Loc (F × Nat) F V) : PyM (PdMem L F V K) Unit :=
  PyM.seq (PdMem.ask touch l.xFull) fun y => PyM.forEach l.ranges fun e => PdMem.onTables (Calc.storeMinus y e)

/-- memory, calculator and the local variables of a `calculate_*` -/
abbrev RunH (κ L F V K : Type) := PdMem L F V K × Loc κ F V

/-- `self.X` inside a loop -/
def RunH.withX {κ α : Type} (k : Frame F V → PyM (RunH κ L F V K) α) : PyM (RunH κ L F V K) α := fun s =>
  match s.1.mem[s.1.xr]? with
  | some X => k X.frame s
  | none => (.error .attributeError, s)

/-- `pd_calculator.py:79-82, 108-111, 130-133` -/
def flushH {κ : Type} (fill : Loc κ F V → PyM (PdMem L F V K) Unit) : PyM (RunH κ L F V K) Unit := fun s =>
  match fill s.2 s.1 with
  | (.ok _, c') => (.ok (), (c', Loc.empty))
  | (.error e, c') => (.error e, (c', s.2))

/-- `if current_len > self.batchsize: <flush>` -/
def flushIfFullH {κ : Type} (fill : Loc κ F V → PyM (PdMem L F V K) Unit) : PyM (RunH κ L F V K) Unit := fun s =>
  if (s.2.curLen : Int) > s.1.c.batchsize then flushH fill s else (.ok (), s)

/-- `if current_len > 0: self.fill_*(range_dict, X_full)` -/
def flushRestH {κ : Type} (fill : Loc κ F V → PyM (PdMem L F V K) Unit) : PyM (RunH κ L F V K) Unit := fun s =>
  if s.2.curLen > 0 then flushH fill s else (.ok (), s)

/-- start with empty local variables -/
def withLocH {κ : Type} (body : PyM (RunH κ L F V K) Unit) : PyM (PdMem L F V K) Unit := fun s =>
  match body (s, Loc.empty) with
  | (r, s') => (r, s'.1)

/-- `pd_calculator.py:71-82`; `self.X_len` is `c.X.len` -/
def PdMem.singleBody (touch : Frame F V → Frame F V) (f : F) : PyM (RunH (F × V) L F V K) Unit := fun s =>
  match s.1.c.pdSingle.get? f with
  | none => (.error .keyError, s)
  | some t =>
    if t.pdValues.any Flt.isNaN then
      RunH.withX (fun X s =>
        flushIfFullH (PdMem.fillSingle touch)
          (s.1, t.fValues.foldl (fun l v => l.add s.1.c.X.len (f, v) (blockSingle X (f, v))) s.2)) s
    else (.ok (), s)

/-- `calculate_pd_single(features)`; `pd_calculator.py:64-84` -/
def PdMem.calculateSingle (touch : Frame F V → Frame F V) (features : Option (List F)) : PyM (PdMem L F V K) Unit :=
  PdMem.withX fun X =>
  withLocH (PyM.seq (PyM.forEach (features.getD X.cols) (PdMem.singleBody touch)) fun _ => flushRestH (PdMem.fillSingle touch))

/-- `pd_calculator.py:99-111` -/
def PdMem.pairValueBody (touch : Frame F V → Frame F V) (k : F × F) (v : V × V) : PyM (RunH ((F × F) × (V × V)) L F V K) Unit := fun s =>
  match s.1.c.pdPairs.get? k with
  | none => (.error .keyError, s)
  | some t =>
    match getIndex t.f1Values v.1 with
    | .error e => (.error e, s)
    | .ok i =>
      match getIndex t.f2Values v.2 with
      | .error e => (.error e, s)
      | .ok j =>
        match (t.pdValues[i]?).bind (fun row => row[j]?) with
        | none => (.error .indexError, s)
        | some x =>
          if Flt.isNaN x then
            RunH.withX (fun X s =>
              flushIfFullH (PdMem.fillPairs touch) (s.1, s.2.add s.1.c.X.len (k, v) (blockPair X (k, v)))) s
          else (.ok (), s)

/-- `pd_calculator.py:94-97` -/
def PdMem.pairValues (X : Frame F V) (c : Calc F V (Num K)) (allCombinations : Bool) (k : F × F) : Except Err (List (V × V)) :=
  if allCombinations then
    match c.pdPairs.get? k with
    | none => .error .keyError
    | some t => .ok (t.f1Values.flatMap (fun a => t.f2Values.map (fun b => (a, b))))
  else if k.1 ∈ X.cols ∧ k.2 ∈ X.cols then .ok ((X.col k.1).zip (X.col k.2))
  else .error .keyError

/-- `pd_calculator.py:93-111` -/
def PdMem.pairBody (touch : Frame F V → Frame F V) (allCombinations : Bool) (p : F × F) : PyM (RunH ((F × F) × (V × V)) L F V K) Unit :=
  RunH.withX fun X s =>
  match PdMem.pairValues X s.1.c allCombinations (s.1.c.pairKey p) with
  | .error e => (.error e, s)
  | .ok vs => PyM.forEach vs (PdMem.pairValueBody touch (s.1.c.pairKey p)) s

/-- `calculate_pd_pairs(feature_pairs, all_combinations)`; `pd_calculator.py:86-113` -/
def PdMem.calculatePairs (touch : Frame F V → Frame F V) (pairs : Option (List (F × F))) (allCombinations : Bool) : PyM (PdMem L F V K) Unit := fun s =>
  withLocH (PyM.seq (PyM.forEach (pairs.getD s.c.pdPairs.keys) (PdMem.pairBody touch allCombinations)) fun _ => flushRestH (PdMem.fillPairs touch)) s

/-- `pd_calculator.py:122-133` -/
def PdMem.minusBody (touch : Frame F V → Frame F V) (f : F) : PyM (RunH (F × Nat) L F V K) Unit := fun s =>
  match s.1.c.pdMinus.get? f with
  | none => (.error .keyError, s)
  | some t =>
    if t.any Flt.isNaN then
      RunH.withX (fun X s =>
        flushIfFullH (PdMem.fillMinus touch)
          (s.1, (List.range X.len).foldl (fun l i => l.add s.1.c.X.len (f, i) (blockMinus X (f, i))) s.2)) s
    else (.ok (), s)

/-- `calculate_pd_minus_single(features)`; `pd_calculator.py:115-135` -/
def PdMem.calculateMinus (touch : Frame F V → Frame F V) (features : Option (List F)) : PyM (PdMem L F V K) Unit :=
  PdMem.withX fun X =>
  withLocH (PyM.seq (PyM.forEach (features.getD X.cols) (PdMem.minusBody touch)) fun _ => flushRestH (PdMem.fillMinus touch))

/-! ### The methods; `xs` is the object `self.X_sampled` -/

/-- the contents of object `r` -/
def PdMem.frameOf {α : Type} (r : Nat) (k : Frame F V → PyM (PdMem L F V K) α) : PyM (PdMem L F V K) α := fun s =>
  match s.mem[r]? with
  | some X => k X.frame s
  | none => (.error .attributeError, s)

variable [HasSqrt K]

/-- `_friedman_h_statistic.py:205-219` -/
def PdMem.hstatOvo (touch : Frame F V → Frame F V) (xs : Nat) (sort : List (OvoRow F K) → List (OvoRow F K)) (normalized : Bool) (features : List F)
    (pairs : List (F × F)) : PyM (PdMem L F V K) (List (OvoRow F K)) :=
  PyM.seq (PdMem.calculatePairs touch (some pairs) false) fun _ =>
  PyM.seq (PdMem.calculateSingle touch (some features)) fun _ =>
  PdMem.frameOf xs fun X s =>
    (match pairs.mapM (hstatPair normalized X s.c) with
      | .error e => .error e
      | .ok rows => .ok ((sort rows).map OvoRow.fillna), s)

/-- `_greenwell.py:76-90` -/
def PdMem.greenwellOvo (touch : Frame F V → Frame F V) (sort : List (OvoRow F K) → List (OvoRow F K)) (numeric : F → Bool)
    (pairs : List (F × F)) : PyM (PdMem L F V K) (List (OvoRow F K)) :=
  PyM.seq (PdMem.calculatePairs touch (some pairs) true) fun _ => fun s =>
    (match pairs.mapM (greenwellPair numeric s.c) with
      | .error e => .error e
      | .ok rows => .ok ((sort rows).map OvoRow.fillna), s)

/-- `importance_methods/model_agnostic/_pdp.py:112-124` -/
def PdMem.pdpImportance (touch : Frame F V → Frame F V) (sort : List (FeatRow F K) → List (FeatRow F K)) (numeric : F → Bool)
    (features : List F) : PyM (PdMem L F V K) (List (FeatRow F K)) :=
  PyM.seq (PdMem.calculateSingle touch none) fun _ => fun s =>
    (match features.mapM (calcImportance numeric s.c) with
      | .error e => .error e
      | .ok rows => .ok ((sort rows).map FeatRow.fillna), s)

/-- `preds = self.predict_function(self.model, self.X_sampled)`; `_friedman_h_statistic.py:194` -/
def PdMem.askAbout (touch : Frame F V → Frame F V) (xs : Nat) (predict : PF F V (Num K)) : PyM (PdMem L F V K) (List (Num K)) := fun s =>
  match s.mem[xs]? with
  | none => (.error .attributeError, s)
  | some X => (predict s.c.calls.length X.frame.rows, { s with mem := s.mem.set xs { X with frame := touch X.frame } })

/-- `_friedman_h_statistic.py:192-203` -/
def PdMem.hstatOva (touch : Frame F V → Frame F V) (xs : Nat) (sort : List (FeatRow F K) → List (FeatRow F K)) (predict : PF F V (Num K))
    (normalized : Bool) (features : List F) : PyM (PdMem L F V K) (List (FeatRow F K)) :=
  PyM.seq (PdMem.calculateMinus touch (some features)) fun _ =>
  PyM.seq (PdMem.askAbout touch xs predict) fun preds =>
  PdMem.frameOf xs fun X s =>
    (match features.mapM (hstatFeature normalized X preds s.c) with
      | .error e => .error e
      | .ok rows => .ok ((sort rows).map FeatRow.fillna), s)

/-- What a fit leaves: memory, generator, the references and the results. -/
structure PdFitH (G L F V K : Type) where
  mem : List (LFrame L F V)
  rng : G
  xs : Option Nat
  pdc : Option (Nat × Nat × Calc F V (Num K))
  ovo : Option (List (OvoRow F K))
  ova : Option (List (FeatRow F K))
  importance : Option (List (FeatRow F K))

/-- A supplied calculator: the identity of its model, its frame object, and the rest. -/
structure CalcRef (F V K : Type) where
  modelId : Nat
  xr : Nat
  obj : Calc F V (Num K)

/-- Arguments of `fit`; `r` is the caller's frame object. -/
structure PdArgsH (L F V K : Type) where
  model : ModelObj F V (Num K)
  touch : Frame F V → Frame F V
  r : Nat
  n : Option Nat
  predictFunction : Option (ModelObj F V (Num K) → PF F V (Num K))
  features : Option (List F)
  batchsize : Int
  pdCalculator : Option (CalcRef F V K)
  calculateOva : Bool

/-- run something on the calculator of the method -/
def PdFitH.onCalc {α : Type} (m : PyM (PdMem L F V K) α) : PyM (PdFitH G L F V K) α := fun s =>
  match s.pdc with
  | none => (.error .attributeError, s)
  | some (i, xr, c) =>
    match m ⟨s.mem, c, xr⟩ with
    | (x, s') => (x, { s with mem := s'.mem, pdc := some (i, s'.xr, s'.c) })

/-- `sample_if_not_none`: the caller's object itself without `n`, a new object with it; `ops.py:18-22` -/
def PdFitH.setSample (r : Nat) (n : Option Nat) (Xs : LFrame L F V) (s : PdFitH G L F V K) : Nat × PdFitH G L F V K :=
  match n with
  | none => (r, { s with xs := some r })
  | some _ => (s.mem.length, { s with xs := some s.mem.length, mem := s.mem ++ [Xs] })

variable [DecidableEq L]

/-- choosing the calculator; `_pdp.py:85-98` -/
def PdFitH.chooseCalc (a : PdArgsH L F V K) (xs : Nat) (Xs : LFrame L F V) (pf : PF F V (Num K)) : PyM (PdFitH G L F V K) Unit := fun s =>
  match a.pdCalculator with
  | none => (.ok (), { s with pdc := some (a.model.ident, xs, Calc.new pf Xs.frame a.batchsize) })
  | some co =>
    if co.modelId ≠ a.model.ident then (.error .valueError, s)
    else match s.mem[co.xr]? with
      | none => (.error .attributeError, s)
      | some X => if !(LFrame.equals X Xs) then (.error .valueError, s) else (.ok (), { s with pdc := some (co.modelId, co.xr, co.obj) })

/-- the one-vs-one tables of the two classes -/
def PdKind.ovoH (kind : PdKind) (E : PdEnv G F K) (touch : Frame F V → Frame F V) (xs : Nat) (features : List F) (pairs : List (F × F)) :
    PyM (PdMem L F V K) (List (OvoRow F K)) :=
  match kind with
  | .friedman normalized => PdMem.hstatOvo touch xs E.sortOvo normalized features pairs
  | .greenwell => PdMem.greenwellOvo touch E.sortOvo (numIn E features) pairs

/-- the part of `fit` after the choice of the calculator; `_pdp.py:100-109`, `_friedman_h_statistic.py:107-109` -/
def PdFitH.compute (kind : PdKind) (E : PdEnv G F K) (a : PdArgsH L F V K) (xs : Nat) (pf : PF F V (Num K)) (features : List F) :
    PyM (PdFitH G L F V K) Unit :=
  PyM.seq (PdFitH.onCalc (kind.ovoH E a.touch xs features (combinations2 features))) fun ovo =>
  PyM.seq (fun s => (.ok (), { s with ovo := some ovo })) fun _ =>
  PyM.seq (PdFitH.onCalc (PdMem.pdpImportance a.touch E.sortFeat (numIn E features) features)) fun imp =>
  PyM.seq (fun s => (.ok (), { s with importance := some imp })) fun _ =>
  match kind with
  | .greenwell => PyM.ret ()
  | .friedman normalized =>
    if a.calculateOva then
      PyM.seq (PdFitH.onCalc (PdMem.hstatOva a.touch xs E.sortFeat pf normalized features)) fun ova =>
      fun s => (.ok (), { s with ova := some ova })
    else PyM.ret ()

/-- `fit` of the two methods with frame objects; `_pdp.py:78-109`, `_friedman_h_statistic.py:107-109`, `_greenwell.py:66` -/
def PdFitH.fit (kind : PdKind) (E : PdEnv G F K) (a : PdArgsH L F V K) : PyM (PdFitH G L F V K) Unit := fun s =>
  match s.mem[a.r]? with
  | none => (.error .attributeError, s)
  | some X =>
    match sampleIfNotNone E.R X a.n s.rng with
    | (.error e, g) => (.error e, { s with rng := g })
    | (.ok Xs, g) =>
      let s1 := PdFitH.setSample a.r a.n Xs { s with rng := g }
      PyM.seq (PdFitH.chooseCalc a s1.1 Xs (callable (getPredictFunction a.model a.predictFunction)))
        (fun _ => PdFitH.compute kind E a s1.1 (callable (getPredictFunction a.model a.predictFunction)) (allIfNone X.frame.cols a.features)) s1.2

end
end Artemis
