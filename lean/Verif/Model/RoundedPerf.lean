import Verif.Model.Perf
import Verif.Model.Rounded

/-!
# Sejong Oh's method and permutation importance in floating-point arithmetic

The same code as in `Verif/Model/Perf.lean`, with every arithmetic operation rounded (`Arith`, see `Verif/Model/Rounded.lean`):
* `artemis/_utilities/performance_metrics.py:21-45`
* `artemis/interactions_methods/model_agnostic/performance_based/_sejong_oh.py:71-181`
* `artemis/importance_methods/model_agnostic/_permutational_importance.py:46-143`

Changing the sign and taking the absolute value are exact. Drawing permutations, rearranging columns, asking the model and
collecting the scores of `_corrupted_scores` involve no arithmetic and are those of `Verif/Model/Perf.lean`. Signed zeros are not
modelled (`-0.0` compares equal to `0.0`, and nothing here divides by a score).
-/

namespace Artemis
variable {F V K G L : Type} [DecidableEq F] [Field K] [LinearOrder K] (A : Arith K)

/-- Models: `performance_metrics.py:30-36` (`MSE`), as `mseM`. -/
def mseMR : Metric K where
  isClass := false
  calculate yTrue yHat := do
    let d ← elementwise (fun t h => A.sq (A.sub h t)) yTrue yHat
    .ok (A.mean d)

/-- Models: `performance_metrics.py:21-27` (`RMSE`), as `rmseM`. -/
def rmseMR [HasSqrt K] : Metric K where
  isClass := false
  calculate yTrue yHat := do
    let m ← (mseMR A).calculate yTrue yHat
    .ok (A.sqrt m)

/-- Models: `performance_metrics.py:39-45` (`Accuracy`), as `accuracyM`. -/
def accuracyMR : Metric K where
  isClass := true
  calculate yTrue yHat := do
    let d ← elementwise (fun t h => if Num.eqv t h then .fin 1 else .fin 0) yTrue yHat
    .ok (A.mean d)

/-- Models: `_sejong_oh.py:155-173` (`_permute_score`), as `permuteScore`. -/
def permuteScoreR (R : Rng G) (model : ModelObj F V (Num K)) (M : Metric K) (y : List (Num K)) (X : Frame F V)
    (fs : List F) (ref : Num K) : PyM (Scored G F V) (Num K) :=
  PyM.seq (drawPerm R X.len) fun p =>
  PyM.seq (PyM.lift (permuteCols p fs X)) fun Xp =>
  PyM.seq (scoreOn model M y Xp) fun sc =>
  PyM.ret (negIfClass M (A.sub sc ref))

/-- Models: `_sejong_oh.py:132-152` (`_inter`), as `interScore`. -/
def interScoreR (R : Rng G) (model : ModelObj F V (Num K)) (M : Metric K) (y : List (Num K)) (X : Frame F V)
    (f1 f2 : F) (ref : Num K) : PyM (Scored G F V) (Num K) :=
  PyM.seq (permuteScoreR A R model M y X [f1] ref) fun s1 =>
  PyM.seq (permuteScoreR A R model M y X [f2] ref) fun s2 =>
  PyM.seq (permuteScoreR A R model M y X [f1, f2] ref) fun s12 =>
  PyM.ret (negIfClass M (A.sub (A.sub s12 s1) s2))

/-- Models: `_sejong_oh.py:114-129` (`_perf_based_ovo`), as `perfOvo`. -/
def perfOvoR (sort : List (OvoRow F K) → List (OvoRow F K)) (R : Rng G) (model : ModelObj F V (Num K)) (M : Metric K)
    (y : List (Num K)) (X : Frame F V) (pairs : List (F × F)) (nRepeat : Nat) :
    PyM (Scored G F V) (List (OvoRow F K)) :=
  PyM.seq (scoreOn model M y X) fun ref =>
  PyM.seq (PyM.mapList pairs fun pr =>
    PyM.seq (PyM.times nRepeat
      (PyM.seq (interScoreR A R model M y X pr.1 pr.2 ref) fun v => PyM.ret (Num.abs v))) fun inter =>
    PyM.ret ⟨pr.1, pr.2, A.mean inter⟩) fun rows =>
  PyM.ret (sort rows)

/-- Models: `_permutational_importance.py:86-111` (`_permutation_importance`), as `permImportance`. -/
def permImportanceR (sort : List (FeatRow F K) → List (FeatRow F K)) (R : Rng G) (model : ModelObj F V (Num K))
    (M : Metric K) (y : List (Num K)) (X : Frame F V) (features : Option (List F)) (nRepeat : Nat) :
    PyM (Scored G F V) (List (FeatRow F K)) :=
  PyM.seq (scoreOn model M y X) fun base =>
  match features with
  | none => PyM.raise .typeError
  | some fs =>
    PyM.seq (corruptedScores R model M y X fs nRepeat) fun d =>
    if d.isEmpty then PyM.raise .keyError
    else PyM.ret (sort (d.map fun kv => ⟨kv.1, negIfClass M (A.sub (A.mean kv.2) base)⟩))

/-- Models: `_permutational_importance.py:46-80` (`PermutationImportance.importance`), as `PermObj.run`. -/
def PermObj.runR (sort : List (FeatRow F K) → List (FeatRow F K)) (R : Rng G) (model : ModelObj F V (Num K))
    (X : LFrame L F V) (y : Target L K) (nRepeat : Nat) (features : Option (List F)) (o : PermObj G F K)
    (calls : List (List (Row F V))) : Except Err (List (FeatRow F K)) × PermObj G F K × List (List (Row F V)) :=
  match permImportanceR A sort R model o.metric y.values X.frame features nRepeat ⟨o.rng, calls⟩ with
  | (.error e, s) => (.error e, { o with rng := s.rng }, s.calls)
  | (.ok t, s) => (.ok t, { o with rng := s.rng, importance := some t }, s.calls)

variable [DecidableEq L]

/-- Models: `_sejong_oh.py:71-111` (`fit`), as `Sejong.fit`. -/
def Sejong.fitR (E : PerfEnv G L F K) (a : SejongArgs L F V K) (entropy : G) : PyM (Sejong G L F V K) Unit := fun s0 =>
  match sampleBoth E.R E.toInt a.X a.y a.n s0.rng with
  | (.error e, g) => (.error e, { s0 with rng := g })
  | (.ok (Xs, ys), g) =>
    let features := allIfNone a.X.frame.cols a.features
    let pairs := combinations2 features
    let s1 : Sejong G L F V K :=
      { s0 with
        rng := g
        xSampled := some Xs
        ySampled := some ys
        features := some features
        pairs := some pairs }
    match perfOvoR A E.sortOvo E.R a.model s1.metric ys.values Xs.frame pairs a.nRepeat ⟨s1.rng, s1.calls⟩ with
    | (.error e, w) => (.error e, { s1 with rng := w.rng, calls := w.calls })
    | (.ok ovo, w) =>
      let s2 : Sejong G L F V K := { s1 with rng := w.rng, ovo := some ovo, impObj := true }
      match PermObj.runR A E.sortFeat E.R a.model Xs ys a.nRepeat (some features) ⟨entropy, s2.metric, none⟩ w.calls with
      | (.error e, _, calls) => (.error e, { s2 with calls := calls })
      | (.ok imp, _, calls) => (.ok (), { s2 with importance := some imp, calls := calls })

end Artemis
