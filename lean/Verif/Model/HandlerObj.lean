import Verif.Model.SplitScore

/-!
# `artemis/_utilities/_handler.py`: the handler as an object

`Verif/Model/SplitScore.lean` treats a handler as a value. Here it is an object that can be built without a model and given several
models one after the other, and the class of a model is read from its printed type.
-/

namespace Artemis

/-- The longest stretch of `s`, starting at its beginning and without line breaks, that is followed by `'>`; the part `.*(?='>)` of the
pattern in `_handler.py:28` (greedy, so going on is tried before stopping). -/
def upToClose : List Char → Option (List Char)
  | [] => none
  | c :: cs =>
    match if c = '\n' then none else upToClose cs with
    | some r => some (c :: r)
    | none => if "'>".toList.isPrefixOf (c :: cs) then some [] else none

/-- `search("(?<=<class ').*(?='>)", s)`; `_handler.py:28`: the leftmost place behind `<class '` where the rest of the pattern fits. -/
def searchClass : List Char → Option (List Char)
  | [] => none
  | c :: cs =>
    match if "<class '".toList.isPrefixOf (c :: cs) then upToClose ((c :: cs).drop 8) else none with
    | some r => some r
    | none => searchClass cs

variable {F I K : Type}

/-- A model as the handler sees it: its printed type and what its booster's `trees_to_dataframe()` gives (or raises: a model that is
not fitted). -/
structure GbSource (F I K : Type) where
  printed : List Char
  table : Except Err (RawTrees F I K)

/-- A `GBTreesHandler`: the attributes `package` and `trees_df`, absent at first. -/
structure HandlerObj (F I K : Type) where
  package : Option (List Char)
  frame : Option (List (GbRow F I K))

/-- Models: `_handler.py:17-25` (`GBTreesHandler()`). -/
def HandlerObj.empty : HandlerObj F I K := ⟨none, none⟩

/-- Models: `_handler.py:27-64` (`unify_structure`), assignment by assignment. Subscripting a failed search is a TypeError. -/
def HandlerObj.unify [DecidableEq F] (leafName : F) (m : GbSource F I K) : PyM (HandlerObj F I K) Unit := fun s =>
  match searchClass m.printed with
  | none => (.error .typeError, s)
  | some cls =>
    let s1 := { s with package := some (packageOf cls) }
    if packageOf cls = "xgboost".toList then
      match m.table with
      | .error e => (.error e, s1)
      | .ok (.xgb rows) => (.ok (), { s1 with frame := some (rows.map (unifyXgb leafName)) })
      | .ok (.lgb _) => (.error .keyError, s1)
    else if packageOf cls = "lightgbm".toList then
      match m.table with
      | .error e => (.error e, s1)
      | .ok (.lgb rows) => (.ok (), { s1 with frame := some (rows.map unifyLgb) })
      | .ok (.xgb _) => (.error .keyError, s1)
    else (.error .modelNotSupported, s1)

/-- The package as `_prepare_stats` (`_split_score.py:215,225,235`) tells it: XGBoost or not. -/
def statPackage (pkg : List Char) : Package := if pkg = "xgboost".toList then .xgboost else .lightgbm

/-- Models: `_split_score.py:290-295` (`_check_metrics_with_available_info`) for any package. -/
def checkMetricsOf (pkg : List Char) (inter imp : SsMetric) : Except Err Unit :=
  if pkg = "lightgbm".toList then
    if inter.lgbmUnsupported then .error .metricNotSupported
    else if imp.lgbmUnsupported then .error .metricNotSupported
    else .ok ()
  else .ok ()

/-- Models: `_split_score.py:60-104` (`fit`) given a handler object. A handler without model lacks the attributes (AttributeError). As
`SsMethod.fit` otherwise. Simplified: the mean of a depth column of which nothing is known is NaN. -/
def SsMethod.fitObj [LinearOrder F] [DecidableEq I] [Field K] [LinearOrder K] (E : SsEnv F K) (h : HandlerObj F I K)
    (inter imp : SsMetric) (onlyDef : Bool) : PyM (SsMethod F I K) Unit := fun s0 =>
  let s1 := { s0 with metric := some inter }
  match h.package with
  | none => (.error .attributeError, s1)
  | some pkg =>
    match checkMetricsOf pkg inter imp with
    | .error e => (.error e, s1)
    | .ok () =>
      match h.frame with
      | none => (.error .attributeError, s1)
      | some frame =>
        match Artemis.fullResult (statPackage pkg) frame with
        | .error e => (.error e, s1)
        | .ok full =>
          let summary := getSummary E.sortSum onlyDef full
          let s2 := { s1 with fullResult := some full, fullOvo := some summary }
          match getOvo E.sortOvo inter summary with
          | .error e => (.error e, s2)
          | .ok ovo =>
            let s3 := { s2 with ovo := some ovo, impMetric := some none }
            match ssImportance E none imp frame with
            | .error e => (.error e, s3)
            | .ok (_, t) => (.ok (), { s3 with impMetric := some (some imp), importance := some t })

/-- `unify_structure` called for one model after the other; exceptions are caught by the caller. -/
def HandlerObj.unifyAll [DecidableEq F] (leafName : F) : List (GbSource F I K) → HandlerObj F I K → HandlerObj F I K
  | [], s => s
  | m :: ms, s => HandlerObj.unifyAll leafName ms (HandlerObj.unify leafName m s).2

end Artemis
