import Verif.Model.Py

/-!
# `PartialDependenceCalculator`

Models `artemis/_utilities/pd_calculator.py:1-170`.

Simplifications: the model object and the prediction function are merged into one function `predict`
(`predict_function(model, X)`), which additionally receives the number of prediction calls made so far
so that calls may fail at any point (`Except`); every frame handed to it is recorded in the ghost field
`calls`. `tqdm` is dropped. Arrays of doubles are lists over an abstract float type.
Column names are assumed distinct and feature values to be free of NaN (equality is reflexive); `Model/Missing` repeats this file without
the second assumption. Names are strings other than `self`, so that `assign(**change_dict)` accepts them; `Model/Keywords` drops this.
-/

namespace Artemis

variable {F V N : Type*}

/-- entry of `self.pd_single`; `pd_calculator.py:18-23` -/
structure SingleTab (V N : Type*) where
  fValues : List V
  pdValues : List N

/-- entry of `self.pd_pairs`; `pd_calculator.py:24-30` (matrix as list of rows) -/
structure PairTab (V N : Type*) where
  f1Values : List V
  f2Values : List V
  pdValues : List (List N)

/-- The calculator object; `pd_calculator.py:12-36`. `calls` is a ghost trace of all frames passed to the
prediction function (oldest first). -/
structure Calc (F V N : Type*) where
  predict : Nat → List (Row F V) → Except Err (List N)
  X : Frame F V
  batchsize : Int
  pdSingle : Dict F (SingleTab V N)
  pdPairs : Dict (F × F) (PairTab V N)
  pdMinus : Dict F (List N)
  calls : List (List (Row F V))

/-- `PartialDependenceCalculator.__init__`; `pd_calculator.py:12-36`. The row-id array of
`pd_minus_single` is always `arange(len(X))` and is dropped. -/
def Calc.new [LinearOrder V] [Flt N] (predict : Nat → List (Row F V) → Except Err (List N))
    (X : Frame F V) (batchsize : Int) : Calc F V N where
  predict := predict
  X := X
  batchsize := batchsize
  pdSingle := X.cols.map (fun f =>
    (f, ⟨npUnique (X.col f), List.replicate (npUnique (X.col f)).length Flt.nan⟩))
  pdPairs := (combinations2 X.cols).map (fun p =>
    (p, ⟨npUnique (X.col p.1), npUnique (X.col p.2),
      List.replicate (npUnique (X.col p.1)).length
        (List.replicate (npUnique (X.col p.2)).length Flt.nan)⟩))
  pdMinus := X.cols.map (fun f => (f, List.replicate X.len Flt.nan))
  calls := []

/-- Local variables of a `calculate_*` call: `range_dict`, `current_len`, `X_full`;
`pd_calculator.py:67-69, 89-91, 118-120`. -/
structure Loc (κ F V : Type*) where
  ranges : Dict κ (Nat × Nat)
  curLen : Nat
  xFull : List (Row F V)

/-- `range_dict = {}; current_len = 0; X_full = pd.DataFrame()` -/
def Loc.empty {κ : Type*} : Loc κ F V := ⟨[], 0, []⟩

/-- The three statements queueing one request; `pd_calculator.py:75-77, 104-106, 126-128`:
`range_dict[key] = (current_len, current_len+X_len); current_len += X_len; X_full = concat(X_full, X_changed)`. -/
def Loc.add {κ : Type*} [DecidableEq κ] (l : Loc κ F V) (xLen : Nat) (key : κ)
    (changed : List (Row F V)) : Loc κ F V where
  ranges := l.ranges.set key (l.curLen, l.curLen + xLen)
  curLen := l.curLen + xLen
  xFull := l.xFull ++ changed

/-- State of a running `calculate_*` call: the object and the local variables. -/
abbrev Run (κ F V N : Type*) := Calc F V N × Loc κ F V

/-- `y = self.predict_function(self.model, X_full)`; first line of each `fill_*`;
`pd_calculator.py:138, 145, 153`. -/
def Calc.callPredict (xFull : List (Row F V)) : PyM (Calc F V N) (List N) := fun c =>
  (c.predict c.calls.length xFull, { c with calls := c.calls ++ [xFull] })

section
variable [DecidableEq F] [DecidableEq V] [Flt N]

/-- Body of the loop of `fill_pd_single`; `pd_calculator.py:140-142`. -/
def Calc.storeSingle (y : List N) (e : (F × V) × (Nat × Nat)) : PyM (Calc F V N) Unit := fun c =>
  match c.pdSingle.get? e.1.1 with
  | none => (.error .keyError, c)
  | some t =>
    match getIndex t.fValues e.1.2 with
    | .error err => (.error err, c)
    | .ok i =>
      (.ok (), { c with
        pdSingle := (c.pdSingle.set e.1.1
          { t with pdValues := t.pdValues.set i (Flt.mean (slice y e.2.1 e.2.2)) }) })

/-- `fill_pd_single`; `pd_calculator.py:137-142`. -/
def Calc.fillSingle (l : Loc (F × V) F V) : PyM (Calc F V N) Unit :=
  PyM.seq (Calc.callPredict l.xFull) (fun y => PyM.forEach l.ranges (Calc.storeSingle y))

/-- Body of the loop of `fill_pd_pairs`; `pd_calculator.py:147-150`.
Keys are `(var_name1, var_name2, var_val1, var_val2)`, written `((f1,f2),(v1,v2))`. -/
def Calc.storePair (y : List N) (e : ((F × F) × (V × V)) × (Nat × Nat)) : PyM (Calc F V N) Unit :=
  fun c =>
  match c.pdPairs.get? e.1.1 with
  | none => (.error .keyError, c)
  | some t =>
    match getIndex t.f1Values e.1.2.1 with
    | .error err => (.error err, c)
    | .ok i =>
      match getIndex t.f2Values e.1.2.2 with
      | .error err => (.error err, c)
      | .ok j =>
        (.ok (), { c with
          pdPairs := (c.pdPairs.set e.1.1
            { t with pdValues := (t.pdValues.modify i
                (fun row => row.set j (Flt.mean (slice y e.2.1 e.2.2)))) }) })

/-- `fill_pd_pairs`; `pd_calculator.py:144-150`. -/
def Calc.fillPairs (l : Loc ((F × F) × (V × V)) F V) : PyM (Calc F V N) Unit :=
  PyM.seq (Calc.callPredict l.xFull) (fun y => PyM.forEach l.ranges (Calc.storePair y))

/-- Body of the loop of `fill_pd_minus_single`; `pd_calculator.py:154-156`. -/
def Calc.storeMinus (y : List N) (e : (F × Nat) × (Nat × Nat)) : PyM (Calc F V N) Unit := fun c =>
  match c.pdMinus.get? e.1.1 with
  | none => (.error .keyError, c)
  | some t =>
    (.ok (), { c with
      pdMinus := (c.pdMinus.set e.1.1
        (t.set e.1.2 (Flt.mean (slice y e.2.1 e.2.2)))) })

/-- `fill_pd_minus_single`; `pd_calculator.py:152-156`. -/
def Calc.fillMinus (l : Loc (F × Nat) F V) : PyM (Calc F V N) Unit :=
  PyM.seq (Calc.callPredict l.xFull) (fun y => PyM.forEach l.ranges (Calc.storeMinus y))

/-- `self.fill_*(range_dict, X_full); current_len = 0; range_dict = {}; X_full = pd.DataFrame()`;
`pd_calculator.py:79-82, 108-111, 130-133`. -/
def flush {κ : Type*} (fill : Loc κ F V → PyM (Calc F V N) Unit) : PyM (Run κ F V N) Unit := fun s =>
  match fill s.2 s.1 with
  | (.ok _, c') => (.ok (), (c', Loc.empty))
  | (.error e, c') => (.error e, (c', s.2))

/-- `if current_len > self.batchsize: <flush>` -/
def flushIfFull {κ : Type*} (fill : Loc κ F V → PyM (Calc F V N) Unit) : PyM (Run κ F V N) Unit :=
  fun s => if (s.2.curLen : Int) > s.1.batchsize then flush fill s else (.ok (), s)

/-- `if current_len > 0: self.fill_*(range_dict, X_full)`; `pd_calculator.py:83-84, 112-113, 134-135`. -/
def flushRest {κ : Type*} (fill : Loc κ F V → PyM (Calc F V N) Unit) : PyM (Run κ F V N) Unit :=
  fun s => if s.2.curLen > 0 then flush fill s else (.ok (), s)

/-- Start with empty local variables, run a body, drop the local variables at the end. -/
def withLoc {κ : Type*} (body : PyM (Run κ F V N) Unit) : PyM (Calc F V N) Unit := fun c =>
  match body (c, Loc.empty) with
  | (r, s) => (r, s.1)

/-- `X_changed` for a single feature; `pd_calculator.py:73-74`. -/
def blockSingle (X : Frame F V) (k : F × V) : List (Row F V) := (X.assign k.1 k.2).rows

/-- Loop body of `calculate_pd_single`; `pd_calculator.py:71-82`. -/
def Calc.singleBody (f : F) : PyM (Run (F × V) F V N) Unit := fun s =>
  match s.1.pdSingle.get? f with
  | none => (.error .keyError, s)
  | some t =>
    if t.pdValues.any Flt.isNaN then
      flushIfFull Calc.fillSingle
        (s.1, t.fValues.foldl (fun l v => l.add s.1.X.len (f, v) (blockSingle s.1.X (f, v))) s.2)
    else (.ok (), s)

/-- `calculate_pd_single(features)`; `pd_calculator.py:64-84`. -/
def Calc.calculateSingle (features : Option (List F)) : PyM (Calc F V N) Unit := fun c =>
  withLoc (PyM.seq (PyM.forEach (features.getD c.X.cols) Calc.singleBody)
    (fun _ => flushRest Calc.fillSingle)) c

/-- `_get_pair_key`; `pd_calculator.py:158-162`. -/
def Calc.pairKey (c : Calc F V N) (p : F × F) : F × F :=
  if p ∈ c.pdPairs.keys then p else (p.2, p.1)

/-- `X_changed` for a pair; `pd_calculator.py:102-103`. -/
def blockPair (X : Frame F V) (k : (F × F) × (V × V)) : List (Row F V) :=
  ((X.assign k.1.1 k.2.1).assign k.1.2 k.2.2).rows

/-- Inner loop body of `calculate_pd_pairs`; `pd_calculator.py:99-111`. -/
def Calc.pairValueBody (k : F × F) (v : V × V) : PyM (Run ((F × F) × (V × V)) F V N) Unit := fun s =>
  match s.1.pdPairs.get? k with
  | none => (.error .keyError, s)
  | some t =>
    match getIndex t.f1Values v.1 with
    | .error e => (.error e, s)
    | .ok i =>
      match getIndex t.f2Values v.2 with
      | .error e => (.error e, s)
      | .ok j =>
        match (t.pdValues[i]?).bind (fun row => row[j]?) with
        | none => (.error .indexError, s)
        | some x =>
          if Flt.isNaN x then
            flushIfFull Calc.fillPairs (s.1, s.2.add s.1.X.len (k, v) (blockPair s.1.X (k, v)))
          else (.ok (), s)

/-- The value pairs visited for one pair of features; `pd_calculator.py:94-97`. -/
def Calc.pairValues (c : Calc F V N) (allCombinations : Bool) (k : F × F) : Except Err (List (V × V)) :=
  if allCombinations then
    match c.pdPairs.get? k with
    | none => .error .keyError
    | some t => .ok (t.f1Values.flatMap (fun a => t.f2Values.map (fun b => (a, b))))
  else if k.1 ∈ c.X.cols ∧ k.2 ∈ c.X.cols then .ok ((c.X.col k.1).zip (c.X.col k.2))
  else .error .keyError

/-- Outer loop body of `calculate_pd_pairs`; `pd_calculator.py:93-111`. -/
def Calc.pairBody (allCombinations : Bool) (p : F × F) : PyM (Run ((F × F) × (V × V)) F V N) Unit :=
  fun s =>
  let k := s.1.pairKey p
  match s.1.pairValues allCombinations k with
  | .error e => (.error e, s)
  | .ok vs => PyM.forEach vs (Calc.pairValueBody k) s

/-- `calculate_pd_pairs(feature_pairs, all_combinations)`; `pd_calculator.py:86-113`. -/
def Calc.calculatePairs (pairs : Option (List (F × F))) (allCombinations : Bool) :
    PyM (Calc F V N) Unit := fun c =>
  withLoc (PyM.seq (PyM.forEach (pairs.getD c.pdPairs.keys) (Calc.pairBody allCombinations))
    (fun _ => flushRest Calc.fillPairs)) c

/-- `X_changed` for one row with a feature left free; `pd_calculator.py:124-125`: every column other than
`f` is overwritten with the value of row `i`, so row `j` of the block is row `i` of `X` with its `f` taken from row `j`. -/
def blockMinus (X : Frame F V) (k : F × Nat) : List (Row F V) :=
  match X.rows[k.2]? with
  | none => []
  | some ri => X.rows.map (fun rj => fun g => if g ∈ X.cols ∧ g ≠ k.1 then ri g else rj g)

/-- Loop body of `calculate_pd_minus_single`; `pd_calculator.py:122-133`. -/
def Calc.minusBody (f : F) : PyM (Run (F × Nat) F V N) Unit := fun s =>
  match s.1.pdMinus.get? f with
  | none => (.error .keyError, s)
  | some t =>
    if t.any Flt.isNaN then
      flushIfFull Calc.fillMinus
        (s.1, (List.range s.1.X.len).foldl
          (fun l i => l.add s.1.X.len (f, i) (blockMinus s.1.X (f, i))) s.2)
    else (.ok (), s)

/-- `calculate_pd_minus_single(features)`; `pd_calculator.py:115-135`. -/
def Calc.calculateMinus (features : Option (List F)) : PyM (Calc F V N) Unit := fun c =>
  withLoc (PyM.seq (PyM.forEach (features.getD c.X.cols) Calc.minusBody)
    (fun _ => flushRest Calc.fillMinus)) c

/-! ### Lookups -/

/-- `get_pd_single(feature)` without values; `pd_calculator.py:39-40`. -/
def Calc.getSingleAll (c : Calc F V N) (f : F) : Except Err (List N) :=
  match c.pdSingle.get? f with
  | none => .error .keyError
  | some t => .ok t.pdValues

/-- One iteration of the loop of `get_pd_single`; `pd_calculator.py:43-44`. -/
def Calc.lookupSingle (c : Calc F V N) (f : F) (v : V) : Except Err N :=
  match c.pdSingle.get? f with
  | none => .error .keyError
  | some t =>
    match getIndex t.fValues v with
    | .error e => .error e
    | .ok i => match t.pdValues[i]? with
      | none => .error .indexError
      | some x => .ok x

/-- `get_pd_single(feature, feature_values)`; `pd_calculator.py:38-45`. -/
def Calc.getSingle (c : Calc F V N) (f : F) (vs : List V) : Except Err (List N) :=
  vs.mapM (c.lookupSingle f)

/-- `get_pd_pairs(f1, f2)` without values; `pd_calculator.py:48-51`. -/
def Calc.getPairsAll (c : Calc F V N) (f1 f2 : F) : Except Err (List (List N)) :=
  match c.pdPairs.get? (c.pairKey (f1, f2)) with
  | none => .error .keyError
  | some t => .ok t.pdValues

/-- One iteration of the loop of `get_pd_pairs`; `pd_calculator.py:56-58`. -/
def PairTab.lookup (t : PairTab V N) (v : V × V) : Except Err N :=
  match getIndex t.f1Values v.1 with
  | .error e => .error e
  | .ok i =>
    match getIndex t.f2Values v.2 with
    | .error e => .error e
    | .ok j => match (t.pdValues[i]?).bind (fun row => row[j]?) with
      | none => .error .indexError
      | some x => .ok x

/-- `get_pd_pairs(f1, f2, feature_values)`; `pd_calculator.py:47-59`, with `reorder_pair_values`
(`:168-169`) inlined as `Prod.swap`. -/
def Calc.getPairs (c : Calc F V N) (f1 f2 : F) (vs : List (V × V)) : Except Err (List N) :=
  match c.pdPairs.get? (c.pairKey (f1, f2)) with
  | none => .error .keyError
  | some t =>
    (if c.pairKey (f1, f2) ≠ (f1, f2) then vs.map Prod.swap else vs).mapM t.lookup

/-- `get_pd_minus_single(feature)`; `pd_calculator.py:61-62`. -/
def Calc.getMinus (c : Calc F V N) (f : F) : Except Err (List N) :=
  match c.pdMinus.get? f with
  | none => .error .keyError
  | some t => .ok t

end

end Artemis
