import Verif.Model.CMD
import Verif.Model.Rounded

/-!
# Conditional minimal depth in floating-point arithmetic

The same code as in `Verif/Model/CMD.lean`, with the means rounded:
* `artemis/interactions_methods/model_specific/random_forest/_conditional_minimal_depth.py:286-300` (`groupby(...).agg("mean")`)
* `artemis/importance_methods/model_specific/_minimal_depth.py:66-70` (`np.mean`)

Everything else in these files works with integers. pandas adds up a group with its own routine `gsum` (compensated summation,
`kahanSum`; for a column with missing values in it, Python's addition of integers), NumPy with `A.sum`.
-/

namespace Artemis
variable {F I K : Type} [DecidableEq F] [Field K] [LinearOrder K] (A : Arith K) (gsum : List (Num K) → Num K)

/-- one step of pandas' `group_mean`: running sum and compensation -/
def kahanStep (s : Num K × Num K) (x : Num K) : Num K × Num K :=
  let y := A.sub x s.2
  let t := A.add s.1 y
  let c := A.sub (A.sub t s.1) y
  (t, if c.isNaN then .fin 0 else c)

/-- the sum of a group as pandas computes it -/
def kahanSum (l : List (Num K)) : Num K := (l.foldl (kahanStep A) (.fin 0, .fin 0)).1

/-- mean of the values that are there, as `meanSome` -/
def meanSomeR (l : List (Option Int)) : Num K :=
  let vs := l.filterMap id
  if vs.isEmpty then .nan else A.div (gsum (vs.map fun (x : Int) => .fin (x : K))) (Num.ofNat vs.length)

/-- Aggregated row of a pair; `_conditional_minimal_depth.py:288-292`, as `cmdAgg`. -/
def cmdAggR (rows : List RawRow) (q : Nat × Nat) : CmdRow Nat K :=
  let g := rows.filter (fun r => decide ((r.f1, r.f2) = q))
  ⟨q.1, q.2, meanSomeR A gsum (g.map RawRow.value), (g.map RawRow.occur).sum⟩

/-- Models: `_conditional_minimal_depth.py:286-300` (`_summarise_results`), as `summarise`. -/
def summariseR (sort : List (CmdRow Nat K) → List (CmdRow Nat K)) (columns : List F) (raw : List RawRow) :
    Except Err (List (CmdRow F K)) :=
  if raw.isEmpty then .error .keyError
  else
    match (sort ((npUnique (raw.map (fun r => toLex (r.f1, r.f2)))).map
        (fun q => cmdAggR A gsum raw (ofLex q)))).mapM (nameRow columns) with
    | .error e => .error e
    | .ok rows => .ok (rows.filter (fun r => !decide (r.var = r.root)))

/-- Models: `_minimal_depth.py:37-76` (`importance`), as `minimalDepthImportance`. -/
def minimalDepthImportanceR (sort : List (ImpRow F K) → List (ImpRow F K)) (columns : List F)
    (trees : Option (List DepthSplit)) : Except Err (List (ImpRow F K)) :=
  match trees with
  | none => .error .importanceWithoutInteraction
  | some ts =>
    match featureToDepth ts with
    | .error e => .error e
    | .ok d =>
      match d.mapM (fun e => (colOf columns e.1).map (fun c =>
          (⟨c, A.mean (e.2.map fun (k : Nat) => .fin (k : K))⟩ : ImpRow F K))) with
      | .error e => .error e
      | .ok [] => .error .keyError
      | .ok (r :: rs) => .ok (sort (r :: rs))

/-- Models: `_conditional_minimal_depth.py:82-88` (`fit`), as `CmdMethod.fit`. -/
def CmdMethod.fitR (E : CmdEnv F I K) (m : Forest F) : PyM (CmdMethod F K) Unit := fun s0 =>
  let s1 := { s0 with features := some m.columns, pairs := some (combinations2 m.columns) }
  match cmdForest m.trees m.columns.length with
  | .error e => (.error e, s1)
  | .ok (raw, trees) =>
    let s2 := { s1 with raw := some raw }
    match summariseR A gsum E.sortOvo m.columns raw with
    | .error e => (.error e, s2)
    | .ok ovo =>
      let s3 := { s2 with ovo := some ovo, impObj := true }
      match minimalDepthImportanceR A E.sortImp m.columns (some trees) with
      | .error e => (.error e, s3)
      | .ok imp => (.ok (), { s3 with importance := some imp })

end Artemis
