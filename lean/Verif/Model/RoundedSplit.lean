import Verif.Model.SplitScore
import Verif.Model.RoundedTrees

/-!
# The split score in floating-point arithmetic

The same code as in `Verif/Model/SplitScore.lean`, with every sum, mean, product and quotient rounded:
* `artemis/interactions_methods/model_specific/gb_trees/_split_score.py:243-288` (`_get_summary`, `_get_ovo`)
* `artemis/importance_methods/model_specific/_split_score.py:89-150`

Depths, counts and comparisons of gains are exact. pandas adds up a group with its own routine `gsum` (`kahanSum`); `np.sum` and
`np.average` use `A.sum`.
-/

namespace Artemis
variable {F I K : Type} [LinearOrder F] [DecidableEq I] [Field K] [LinearOrder K] (A : Arith K) (gsum : List (Num K) → Num K)

/-- `sum` of a column, as `sumOpt` -/
def sumOptR (l : List (Option K)) : Num K := gsum ((l.filterMap id).map .fin)

/-- `mean` of a column, as `meanOpt` -/
def meanOptR (l : List (Option K)) : Num K :=
  if (l.filterMap id).isEmpty then .nan else A.div (gsum ((l.filterMap id).map .fin)) (Num.ofNat (l.filterMap id).length)

/-- Aggregates of a group; `_split_score.py:250-258`, as `sumAgg`. -/
def sumAggR (rows : List (StatRow F I K)) (q : F × F) : SumRow F K :=
  let g := rows.filter (fun r => decide (r.pair = some q))
  { parent := q.1, child := q.2
    meanGain := meanOptR A gsum (g.map (fun r => r.row.gain))
    sumGain := sumOptR gsum (g.map (fun r => r.row.gain))
    meanCover := meanOptR A gsum (g.map (fun r => r.row.cover))
    sumCover := sumOptR gsum (g.map (fun r => r.row.cover))
    meanDepth := meanSomeR A gsum (g.map (fun r => r.row.depth))
    frequency := g.length }

/-- Models: `_split_score.py:243-270` (`_get_summary`), as `getSummary`. -/
def getSummaryR (sort : List (SumRow F K) → List (SumRow F K)) (onlyDef : Bool) (full : List (StatRow F I K)) : List (SumRow F K) :=
  let rows := full.filter (qualifies onlyDef)
  sort ((npUnique (rows.filterMap (fun r => r.pair.map toLex))).map (fun q => sumAggR A gsum rows (ofLex q)))

/-- `np.average(x.depth, weights=x.gain)`, as `weightedDepth`; `importance_methods/model_specific/_split_score.py:135-141`. -/
def weightedDepthR (g : List (GbRow F I K)) : Except Err (Num K) :=
  match g.mapM depthGain with
  | .error e => .error e
  | .ok ps =>
    let scl := A.sum (ps.map fun q => .fin q.2)
    if scl = .fin 0 then .error .zeroDivisionError
    else .ok (A.div (A.sum (ps.map fun q => A.r (Num.mul (.fin q.1) (.fin q.2)))) scl)

/-- `sum_gain_root`: the gains of a feature at the roots -/
def rootGainR (rows : List (GbRow F I K)) (f : F) : Num K := sumOptR gsum ((ofFeature (rootRows rows) f).map GbRow.gain)

/-- `sum_gain`: `np.sum` of the gains of the features at the roots; `…/_split_score.py:128`. -/
def totalRootGainR (rows : List (GbRow F I K)) : Num K :=
  A.sum ((npUnique ((rootRows rows).filterMap GbRow.feat)).map (rootGainR gsum rows))

/-- All metrics of one feature; `…/_split_score.py:111-141`, as `impStat`. -/
def impStatR (rows : List (GbRow F I K)) (f : F) : Except Err (ImpStat F K) :=
  let g := ofFeature rows f
  let roots := ofFeature (rootRows rows) f
  match weightedDepthR A g with
  | .error e => .error e
  | .ok wd => .ok
    { feat := f
      meanGain := meanOptR A gsum (g.map GbRow.gain)
      sumGain := sumOptR gsum (g.map GbRow.gain)
      meanCover := meanOptR A gsum (g.map GbRow.cover)
      sumCover := sumOptR gsum (g.map GbRow.cover)
      meanDepth := meanSomeR A gsum (g.map GbRow.depth)
      rootFrequency := if roots.isEmpty then .nan else .ofNat roots.length
      weightedRootFrequency := if roots.isEmpty then .nan
        else A.div (A.r (Num.mul (.ofNat roots.length) (rootGainR gsum rows f))) (totalRootGainR A gsum rows)
      meanWeightedDepth := wd }

/-- Models: `…/_split_score.py:89-108` (`_calculate_all_feature_importance`), as `allImportance`. -/
def allImportanceR (leafName : F) (sort : (ImpStat F K → Num K) → List (ImpStat F K) → List (ImpStat F K))
    (features : Option (List F)) (m : SsMetric) (frame : List (GbRow F I K)) : Except Err (List (ImpStat F K)) :=
  let rows := selectRows leafName features frame
  match (npUnique (rows.filterMap GbRow.feat)).mapM (impStatR A gsum rows) with
  | .error e => .error e
  | .ok [] => .error .valueError
  | .ok (s :: ss) =>
    match m with
    | .frequency | .other => .error .keyError
    | _ => .ok (sort (fun r => (r.metric m).getD .nan) (s :: ss))

/-- Models: `…/_split_score.py:39-81` (`importance`), as `ssImportance`. -/
def ssImportanceR (E : SsEnv F K) (features : Option (List F)) (m : SsMetric) (frame : List (GbRow F I K)) :
    Except Err (List (ImpStat F K) × List (ImpRow F K)) :=
  match if frame.any (fun r => r.depth.isNone) then calcDepth frame else .ok frame with
  | .error e => .error e
  | .ok frame' =>
    match allImportanceR A gsum E.leafName E.sortFull features m frame' with
    | .error e => .error e
    | .ok full => .ok (full, selectMetric E.sortImp m full)

/-- Models: `_split_score.py:60-104` (`fit`), as `SsMethod.fit`. -/
def SsMethod.fitR (E : SsEnv F K) (a : GbArg F I K) (inter imp : SsMetric) (onlyDef : Bool) : PyM (SsMethod F I K) Unit := fun s0 =>
  match a.toHandler E.leafName with
  | .error e => (.error e, s0)
  | .ok h =>
    let s1 := { s0 with metric := some inter }
    match checkMetrics h.package inter imp with
    | .error e => (.error e, s1)
    | .ok () =>
      match Artemis.fullResult h.package h.frame with
      | .error e => (.error e, s1)
      | .ok full =>
        let summary := getSummaryR A gsum E.sortSum onlyDef full
        let s2 := { s1 with fullResult := some full, fullOvo := some summary }
        match getOvo E.sortOvo inter summary with
        | .error e => (.error e, s2)
        | .ok ovo =>
          let s3 := { s2 with ovo := some ovo, impMetric := some none }
          match ssImportanceR A gsum E none imp h.frame with
          | .error e => (.error e, s3)
          | .ok (_, t) => (.ok (), { s3 with impMetric := some (some imp), importance := some t })

end Artemis
