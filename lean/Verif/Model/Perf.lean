import Verif.Model.PdpMethod

/-!
# Performance metrics, Sejong Oh's method, permutation importance

Models
* `artemis/_utilities/performance_metrics.py`
* `artemis/_utilities/ops.py:25-30` (`sample_both_if_not_none`)
* `artemis/interactions_methods/model_agnostic/performance_based/_sejong_oh.py`
* `artemis/importance_methods/model_agnostic/_permutational_importance.py`

Targets and predictions are vectors of floats. Not modelled: `Series.mean` skipping NaN when the targets are a pandas
Series containing NaN, NumPy broadcasting of vectors of length one.
-/

namespace Artemis

namespace PyM
variable {σ α β : Type*}
/-- `[body(b) for b in l]`; an exception ends the loop -/
def mapList : List β → (β → PyM σ α) → PyM σ (List α)
  | [], _ => ret []
  | b :: bs, body => seq (body b) fun a => seq (mapList bs body) fun as => ret (a :: as)
/-- `[body() for _ in range(n)]` -/
def times (n : Nat) (body : PyM σ α) : PyM σ (List α) := mapList (List.range n) (fun _ => body)
/-- a loop `for b in l: acc = body(acc, b)` over local variables `acc` -/
def fold : List β → (α → β → PyM σ α) → α → PyM σ α
  | [], _, acc => ret acc
  | b :: bs, body, acc => seq (body acc b) fun acc' => fold bs body acc'
/-- an expression that may raise but has no effect -/
def lift (e : Except Err α) : PyM σ α := fun s => (e, s)
end PyM

/-- `a == b` on floats -/
def Num.eqv {K : Type*} [Field K] [LinearOrder K] (a b : Num K) : Bool := Num.le a b && Num.le b a

section Metrics
variable {K : Type} [Field K] [LinearOrder K]

/-- A performance metric: `applicable_to(ProblemType.CLASSIFICATION)` and `calculate(y_true, y_hat)`.
Models: `performance_metrics.py:8-18` (`Metric`). Users may supply their own. -/
structure Metric (K : Type) where
  isClass : Bool
  calculate : List (Num K) → List (Num K) → Except Err (Num K)

/-- Elementwise combination of targets and predictions (`y_hat - y_true`, `np.equal`): a vector with a single entry is broadcast,
other different lengths are a ValueError. Simplified: a *Series* of one target beside several predictions, which pandas
refuses, is treated like an array. -/
def elementwise (f : Num K → Num K → Num K) (yTrue yHat : List (Num K)) : Except Err (List (Num K)) :=
  if yTrue.length = yHat.length then .ok (List.zipWith f yTrue yHat)
  else match yHat with
    | [h] => .ok (yTrue.map (fun t => f t h))
    | _ => match yTrue with
      | [t] => .ok (yHat.map (f t))
      | _ => .error .valueError

/-- Models: `performance_metrics.py:30-36` (`MSE`). -/
def mseM : Metric K where
  isClass := false
  calculate yTrue yHat := do
    let d ← elementwise (fun t h => Num.sq (Num.sub h t)) yTrue yHat
    .ok (Num.mean d)

/-- Models: `performance_metrics.py:21-27` (`RMSE`). -/
def rmseM [HasSqrt K] : Metric K where
  isClass := false
  calculate yTrue yHat := do
    let m ← mseM.calculate yTrue yHat
    .ok (Num.sqrt m)

/-- Models: `performance_metrics.py:39-45` (`Accuracy`). -/
def accuracyM : Metric K where
  isClass := true
  calculate yTrue yHat := do
    let d ← elementwise (fun t h => if Num.eqv t h then .fin 1 else .fin 0) yTrue yHat
    .ok (Num.mean d)

/-- Models: `_sejong_oh.py:176-181` and `_permutational_importance.py:139-143` (`_neg_if_class`). -/
def negIfClass (M : Metric K) (value : Num K) : Num K := if M.isClass then Num.neg value else value

end Metrics

/-! ### Sampling data and targets together -/

/-- Target values: a NumPy array, or a pandas Series with its labels. -/
inductive Target (L K : Type)
  | array (vals : List (Num K))
  | series (labels : List L) (vals : List (Num K))

/-- the vector of values -/
def Target.values {L K : Type} : Target L K → List (Num K)
  | .array v => v
  | .series _ v => v

/-- NumPy integer indexing `a[i]`: negative positions count from the end, IndexError outside. -/
def npGet {α : Type*} (a : List α) (i : Int) : Except Err α :=
  let j := if i < 0 then i + a.length else i
  match if j < 0 then none else a[j.toNat]? with
  | some x => .ok x
  | none => .error .indexError

/-- one entry of `y[index]` for an array: the label is used as a position; IndexError for labels that are not integers -/
def labelAsPos {L α : Type} (toInt : L → Option Int) (v : List α) (l : L) : Except Err α :=
  match toInt l with
  | some i => npGet v i
  | none => .error .indexError

/-- the entries of `y[index]` for one label of a Series: all entries carrying the label, KeyError if there is none -/
def labelHits {L α : Type} [DecidableEq L] (labels : List L) (v : List α) (l : L) : Except Err (List (L × α)) :=
  let hits := (labels.zip v).filter (fun p => p.1 = l)
  if hits.isEmpty then .error .keyError else .ok hits

/-- `y[index]`; `toInt` tells which labels are integers. (pandas' fallback to positions for integer keys on a
non-integer Series index is not modelled.) -/
def Target.getIndex {L K : Type} [DecidableEq L] (toInt : L → Option Int) (y : Target L K) (index : List L) :
    Except Err (Target L K) :=
  match y with
  | .array v => do
    let r ← index.mapM (labelAsPos toInt v)
    .ok (.array r)
  | .series ls v => do
    let r ← index.mapM (labelHits ls v)
    .ok (.series (r.flatten.map Prod.fst) (r.flatten.map Prod.snd))

variable {F V K G L : Type}

/-- Models: `artemis/_utilities/ops.py:25-30` (`sample_both_if_not_none`). -/
def sampleBoth [DecidableEq L] (R : Rng G) (toInt : L → Option Int) (X : LFrame L F V) (y : Target L K)
    (n : Option Nat) (g : G) : Except Err (LFrame L F V × Target L K) × G :=
  match n with
  | none => (.ok (X, y), g)
  | some k =>
    match sampleIfNotNone R X (some k) g with
    | (.error e, g') => (.error e, g')
    | (.ok Xs, g') =>
      match y.getIndex toInt Xs.labels with
      | .error e => (.error e, g')
      | .ok ys => (.ok (Xs, ys), g')

/-! ### Scoring permuted data -/

/-- What the permuting code changes: the generator and (as a ghost) the list of frames the model was asked to score so
far, oldest first. -/
structure Scored (G F V : Type) where
  rng : G
  calls : List (List (Row F V))

variable [DecidableEq F] [Field K] [LinearOrder K]

/-- `model.predict(X)`; AttributeError if the model has no such method. -/
def predictOn (model : ModelObj F V (Num K)) (X : Frame F V) : PyM (Scored G F V) (List (Num K)) := fun s =>
  match model.predict with
  | none => (.error .attributeError, s)
  | some p => (p s.calls.length X.rows, { s with calls := s.calls ++ [X.rows] })

/-- `metric.calculate(y_true, model.predict(X))` -/
def scoreOn (model : ModelObj F V (Num K)) (M : Metric K) (y : List (Num K)) (X : Frame F V) :
    PyM (Scored G F V) (Num K) :=
  PyM.seq (predictOn model X) fun yHat => PyM.lift (M.calculate y yHat)

/-- `random_generator.permutation(n)` -/
def drawPerm (R : Rng G) (n : Nat) : PyM (Scored G F V) (List Nat) := fun s =>
  match R.perm s.rng n with
  | (p, g) => (.ok p, { s with rng := g })

/-- `values[p]` -/
def npTake {α : Type*} (v : List α) (p : List Nat) : Except Err (List α) :=
  p.mapM (fun i => match v[i]? with
    | some x => .ok x
    | none => .error .indexError)

/-- `df[f] = values`; ValueError if the length does not fit. (The column exists: it was read before.) -/
def Frame.setCol (X : Frame F V) (f : F) (vs : List V) : Except Err (Frame F V) :=
  if vs.length = X.len then .ok { X with rows := List.zipWith (fun r v => Function.update r f v) X.rows vs }
  else .error .valueError

/-- the loop `for feature in features: X_copy_permuted[feature] = X_copy_permuted[feature].values[p]`;
`_sejong_oh.py:167-168` -/
def permuteCols (p : List Nat) : List F → Frame F V → Except Err (Frame F V)
  | [], X => .ok X
  | f :: fs, X => do
    let v ← X.colE f
    let v' ← npTake v p
    let X' ← X.setCol f v'
    permuteCols p fs X'

/-- Models: `_sejong_oh.py:155-173` (`_permute_score`). -/
def permuteScore (R : Rng G) (model : ModelObj F V (Num K)) (M : Metric K) (y : List (Num K)) (X : Frame F V)
    (fs : List F) (ref : Num K) : PyM (Scored G F V) (Num K) :=
  PyM.seq (drawPerm R X.len) fun p =>
  PyM.seq (PyM.lift (permuteCols p fs X)) fun Xp =>
  PyM.seq (scoreOn model M y Xp) fun sc =>
  PyM.ret (negIfClass M (Num.sub sc ref))

/-- Models: `_sejong_oh.py:132-152` (`_inter`). -/
def interScore (R : Rng G) (model : ModelObj F V (Num K)) (M : Metric K) (y : List (Num K)) (X : Frame F V)
    (f1 f2 : F) (ref : Num K) : PyM (Scored G F V) (Num K) :=
  PyM.seq (permuteScore R model M y X [f1] ref) fun s1 =>
  PyM.seq (permuteScore R model M y X [f2] ref) fun s2 =>
  PyM.seq (permuteScore R model M y X [f1, f2] ref) fun s12 =>
  PyM.ret (negIfClass M (Num.sub (Num.sub s12 s1) s2))

/-- Models: `_sejong_oh.py:114-129` (`_perf_based_ovo`). `sort` is
`sort_values(by=method, key=abs, ascending=False, ignore_index=True)`. -/
def perfOvo (sort : List (OvoRow F K) → List (OvoRow F K)) (R : Rng G) (model : ModelObj F V (Num K)) (M : Metric K)
    (y : List (Num K)) (X : Frame F V) (pairs : List (F × F)) (nRepeat : Nat) :
    PyM (Scored G F V) (List (OvoRow F K)) :=
  PyM.seq (scoreOn model M y X) fun ref =>
  PyM.seq (PyM.mapList pairs fun pr =>
    PyM.seq (PyM.times nRepeat
      (PyM.seq (interScore R model M y X pr.1 pr.2 ref) fun v => PyM.ret (Num.abs v))) fun inter =>
    PyM.ret ⟨pr.1, pr.2, Num.mean inter⟩) fun rows =>
  PyM.ret (sort rows)

/-! ### Permutation importance -/

/-- Body of the inner loop of `_corrupted_scores`; `_permutational_importance.py:130-134`. The local variables are
`X_copy_permuted` and the dictionary `corrupted_scores`. -/
def corruptStep (R : Rng G) (model : ModelObj F V (Num K)) (M : Metric K) (y : List (Num K)) (X : Frame F V)
    (acc : Frame F V × Dict F (List (Num K))) (f : F) : PyM (Scored G F V) (Frame F V × Dict F (List (Num K))) :=
  PyM.seq (PyM.lift (acc.1.colE f)) fun v =>
  PyM.seq (drawPerm R v.length) fun p =>
  PyM.seq (PyM.lift (npTake v p)) fun v' =>
  PyM.seq (PyM.lift (acc.1.setCol f v')) fun Xp =>
  PyM.seq (scoreOn model M y Xp) fun sc =>
  match acc.2.get? f with
  | none => PyM.raise .keyError
  | some l =>
    PyM.seq (PyM.lift (X.colE f)) fun orig =>
    PyM.seq (PyM.lift (Xp.setCol f orig)) fun Xr =>
    PyM.ret (Xr, acc.2.set f (l ++ [sc]))

/-- Models: `_permutational_importance.py:114-136` (`_corrupted_scores`). -/
def corruptedScores (R : Rng G) (model : ModelObj F V (Num K)) (M : Metric K) (y : List (Num K)) (X : Frame F V)
    (features : List F) (nRepeat : Nat) : PyM (Scored G F V) (Dict F (List (Num K))) :=
  PyM.seq (PyM.fold (List.range nRepeat) (fun acc _ => PyM.fold features (corruptStep R model M y X) acc)
    (X, features.foldl (fun d f => d.set f []) [])) fun acc =>
  PyM.ret acc.2

/-- Models: `_permutational_importance.py:86-111` (`_permutation_importance`). `features = none` is Python's `None`:
iterating over it raises TypeError. With no feature the frame has no column to sort by: KeyError. -/
def permImportance (sort : List (FeatRow F K) → List (FeatRow F K)) (R : Rng G) (model : ModelObj F V (Num K))
    (M : Metric K) (y : List (Num K)) (X : Frame F V) (features : Option (List F)) (nRepeat : Nat) :
    PyM (Scored G F V) (List (FeatRow F K)) :=
  PyM.seq (scoreOn model M y X) fun base =>
  match features with
  | none => PyM.raise .typeError
  | some fs =>
    PyM.seq (corruptedScores R model M y X fs nRepeat) fun d =>
    if d.isEmpty then PyM.raise .keyError
    else PyM.ret (sort (d.map fun kv => ⟨kv.1, negIfClass M (Num.sub (Num.mean kv.2) base)⟩))

/-- A `PermutationImportance` object. -/
structure PermObj (G F K : Type) where
  rng : G
  metric : Metric K
  importance : Option (List (FeatRow F K))

/-- Models: `_permutational_importance.py:46-80` (`PermutationImportance.importance`). `calls` is the ghost list of
frames scored so far. -/
def PermObj.run (sort : List (FeatRow F K) → List (FeatRow F K)) (R : Rng G) (model : ModelObj F V (Num K))
    (X : LFrame L F V) (y : Target L K) (nRepeat : Nat) (features : Option (List F)) (o : PermObj G F K)
    (calls : List (List (Row F V))) : Except Err (List (FeatRow F K)) × PermObj G F K × List (List (Row F V)) :=
  match permImportance sort R model o.metric y.values X.frame features nRepeat ⟨o.rng, calls⟩ with
  | (.error e, s) => (.error e, { o with rng := s.rng }, s.calls)
  | (.ok t, s) => (.ok t, { o with rng := s.rng, importance := some t }, s.calls)

/-! ### The method object -/

/-- Environment of a fit: generator behaviour, labels that are integers, the two sorting routines. -/
structure PerfEnv (G L F K : Type) where
  R : Rng G
  toInt : L → Option Int
  sortOvo : List (OvoRow F K) → List (OvoRow F K)
  sortFeat : List (FeatRow F K) → List (FeatRow F K)

/-- State of a `SejongOhMethod` object; `calls` is the ghost list of frames scored so far. -/
structure Sejong (G L F V K : Type) where
  rng : G
  metric : Metric K
  xSampled : Option (LFrame L F V)
  ySampled : Option (Target L K)
  features : Option (List F)
  pairs : Option (List (F × F))
  ovo : Option (List (OvoRow F K))
  importance : Option (List (FeatRow F K))
  impObj : Bool
  calls : List (List (Row F V))

/-- Models: `_sejong_oh.py:49-61` (`__init__`); `rng` is `np.random.default_rng(random_state)`. -/
def Sejong.new (rng : G) (metric : Metric K) : Sejong G L F V K :=
  ⟨rng, metric, none, none, none, none, none, none, false, []⟩

/-- Arguments of `fit`. -/
structure SejongArgs (L F V K : Type) where
  model : ModelObj F V (Num K)
  X : LFrame L F V
  y : Target L K
  n : Option Nat
  nRepeat : Nat
  features : Option (List F)

variable [DecidableEq L]

/-- Models: `_sejong_oh.py:71-111` (`fit`). `entropy` is the state of the generator that
`PermutationImportance(self.metric)` creates from operating system entropy (line 106: no random_state is passed). -/
def Sejong.fit (E : PerfEnv G L F K) (a : SejongArgs L F V K) (entropy : G) : PyM (Sejong G L F V K) Unit := fun s0 =>
  match sampleBoth E.R E.toInt a.X a.y a.n s0.rng with
  | (.error e, g) => (.error e, { s0 with rng := g })
  | (.ok (Xs, ys), g) =>
    let features := allIfNone a.X.frame.cols a.features
    let pairs := combinations2 features
    let s1 : Sejong G L F V K :=
      { s0 with
        rng := g
        xSampled := some Xs
        ySampled := some ys
        features := some features
        pairs := some pairs }
    match perfOvo E.sortOvo E.R a.model s1.metric ys.values Xs.frame pairs a.nRepeat ⟨s1.rng, s1.calls⟩ with
    | (.error e, w) => (.error e, { s1 with rng := w.rng, calls := w.calls })
    | (.ok ovo, w) =>
      let s2 : Sejong G L F V K := { s1 with rng := w.rng, ovo := some ovo, impObj := true }
      match PermObj.run E.sortFeat E.R a.model Xs ys a.nRepeat (some features) ⟨entropy, s2.metric, none⟩ w.calls with
      | (.error e, _, calls) => (.error e, { s2 with calls := calls })
      | (.ok imp, _, calls) => (.ok (), { s2 with importance := some imp, calls := calls })

end Artemis
