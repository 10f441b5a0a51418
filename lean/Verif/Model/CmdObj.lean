import Verif.Model.CMD

/-!
# `ConditionalMinimalDepthMethod.fit` given any object

`Verif/Model/CMD.lean` takes a forest with column names and trees. Here the model is any object; the attributes the code reads may be
missing: `feature_names_in_` for a forest fitted on an array, `estimators_` for a model that is no ensemble (a pipeline, a linear
model), `tree_` for an ensemble of other things (the rows of `estimators_` of gradient boosting are arrays).
-/

namespace Artemis

/-- What the code reads of a model: `feature_names_in_`, `estimators_` and `tree_` of each of them; `none` if the attribute is missing. -/
structure SkModel (F : Type) where
  names : Option (List F)
  estimators : Option (List (Option SkTree))

section
variable {F I K : Type} [DecidableEq F] [Field K] [LinearOrder K]

/-- One round of the loop, `_conditional_minimal_depth.py:196-200`; a missing `tree_` is an AttributeError. -/
def cmdOneObj (p : Nat) : Option SkTree → Except Err (List RawRow × DepthSplit)
  | none => .error .attributeError
  | some t => cmdOne p t

/-- Models: `_conditional_minimal_depth.py:177-203` (`_calculate_conditional_minimal_depths`), as `cmdForest`. -/
def cmdForestObj (trees : List (Option SkTree)) (p : Nat) : Except Err (List RawRow × List DepthSplit) :=
  match trees.mapM (cmdOneObj p) with
  | .error e => .error e
  | .ok [] => .error .valueError
  | .ok (x :: xs) => .ok (((x :: xs).map Prod.fst).flatten, (x :: xs).map Prod.snd)

/-- Models: `_conditional_minimal_depth.py:82-88` (`fit`), assignment by assignment. -/
def CmdMethod.fitObj (E : CmdEnv F I K) (m : SkModel F) : PyM (CmdMethod F K) Unit := fun s0 =>
  match m.names with
  | none => (.error .attributeError, s0)
  | some columns =>
    let s1 := { s0 with features := some columns, pairs := some (combinations2 columns) }
    match m.estimators with
    | none => (.error .attributeError, s1)
    | some ests =>
      match cmdForestObj ests columns.length with
      | .error e => (.error e, s1)
      | .ok (raw, trees) =>
        let s2 := { s1 with raw := some raw }
        match summarise E.sortOvo columns raw with
        | .error e => (.error e, s2)
        | .ok ovo =>
          let s3 := { s2 with ovo := some ovo, impObj := true }
          match minimalDepthImportance E.sortImp columns (some trees) with
          | .error e => (.error e, s3)
          | .ok imp => (.ok (), { s3 with importance := some imp })

end
end Artemis
