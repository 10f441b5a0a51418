import Verif.Model.Visual

/-!
# What the method objects have in common: `artemis/interactions_methods/_method.py`

`_compare_ovo`, `interaction_value` and `plot` of the five methods. A method object is seen through a `View`.
-/

namespace Artemis

section Common
variable {F I K : Type} [LinearOrder F] [Field K] [LinearOrder K]

/-- `sort_values(method, ascending=asc, ignore_index=True)` on tables of pairs -/
abbrev PairSort (F K : Type) := Bool → List (OvoRow F K) → List (OvoRow F K)

/-- What `plot`, `interaction_value` and the comparator use of a method object. `impAsc` is
`_feature_importance_obj.importance_ascending_order` (`none`: there is no such object), `needsOva` says that `plot` looks
at `ova`, `cmp` is the value of the property `_compare_ovo`. -/
structure View (F I K : Type) where
  name : String
  ovo : Option (List (OvoRow F K))
  ova : Option (List (FeatRow F K))
  imp : Option (List (FeatRow F K))
  impAsc : Option Bool
  asc : Bool
  directed : Bool
  full : Option (List (StatRow F I K))
  needsOva : Bool
  cmp : Except Err (List (OvoRow F K))

/-- Models: `_method.py:54-58` (`_compare_ovo`). -/
def compareBase (sort : PairSort F K) (asc : Bool) (ovo : Option (List (OvoRow F K))) : Except Err (List (OvoRow F K)) :=
  match ovo with
  | none => .error .methodNotFitted
  | some t => .ok (sort asc t)

/-- Models: `_method.py:153-160` (`interaction_value`); `.values[0]` of nothing is an IndexError. -/
def View.interactionValue (v : View F I K) (f g : F) : Except Err (Num K) :=
  match v.cmp with
  | .error e => .error e
  | .ok rows =>
    match rows.filter (fun r => (decide (r.f1 = f) && decide (r.f2 = g)) || (decide (r.f1 = g) && decide (r.f2 = f))) with
    | [] => .error .indexError
    | r :: _ => .ok r.val

/-- Models: `_method.py:141-151` and the `plot` of the subclasses: `_friedman_h_statistic.py:179-190`,
`_conditional_minimal_depth.py:161-174`, `_split_score.py:187-197`. The visualizer was built in the constructor
(`_method.py:39`). `ovo.copy()` of `None` is an AttributeError. -/
def View.plot (E : VisEnv F K) (v : View F I K) (visType title : String) (o : Opts K) (sub : SubOpts K) :
    Except Err (List (Panel F I K)) :=
  if (if v.needsOva then v.ova.isNone else v.ovo.isNone) then .error .methodNotFitted
  else
    match v.impAsc with
    | none => .error .attributeError
    | some impAsc =>
      match configGet v.name with
      | .error e => .error e
      | .ok cfg =>
        match v.ovo with
        | none => if visType ∈ cfg.accepted then .error .attributeError else .error .visualizationNotSupported
        | some ovo => visPlot E cfg ⟨ovo, v.ova, v.imp, v.asc, impAsc, v.full, v.directed, v.name⟩ visType title o sub

end Common

section Views
variable {F I V K G L : Type} [LinearOrder F] [LinearOrder V] [Field K] [LinearOrder K]

/-- A Friedman or Greenwell object; ascending order is `False` for both (`_pdp.py:28-30`). Greenwell objects have no
`ova`. -/
def PdpMethod.view (sort : PairSort F K) (kind : PdKind) (s : PdpMethod G L F V K) : View F I K where
  name := match kind with
    | .friedman _ => hStatName
    | .greenwell => greenwellName
  ovo := s.ovo
  ova := match kind with
    | .friedman _ => s.ova
    | .greenwell => none
  imp := s.importance
  impAsc := if s.impObj then some false else none
  asc := false
  directed := false
  full := none
  needsOva := match kind with
    | .friedman _ => true
    | .greenwell => false
  cmp := compareBase sort false s.ovo

/-- A `SejongOhMethod`; `_sejong_oh.py:63-69`. -/
def Sejong.view (sort : PairSort F K) (s : Sejong G L F V K) : View F I K where
  name := sejongName
  ovo := s.ovo
  ova := none
  imp := s.importance
  impAsc := if s.impObj then some false else none
  asc := false
  directed := false
  full := none
  needsOva := false
  cmp := compareBase sort false s.ovo

/-- a row of `ovo` of conditional minimal depth -/
def CmdRow.toOvo (r : CmdRow F K) : OvoRow F K := ⟨r.root, r.var, r.val⟩
/-- a row of an importance table -/
def ImpRow.toFeat (r : ImpRow F K) : FeatRow F K := ⟨r.f, r.val⟩
/-- a row of `ovo` of split score -/
def SsRow.toOvo (r : SsRow F K) : OvoRow F K := ⟨r.f1, r.f2, r.val⟩

/-- A `ConditionalMinimalDepthMethod`; `_conditional_minimal_depth.py:50-64`, `:161-174`,
`_minimal_depth.py:79-80`. -/
def CmdMethod.view {J : Type} [LinearOrder J] (E : CmdEnv F J K) (s : CmdMethod F K) : View F I K where
  name := cmdName
  ovo := s.ovo.map (fun t => t.map CmdRow.toOvo)
  ova := none
  imp := s.importance.map (fun t => t.map ImpRow.toFeat)
  impAsc := if s.impObj then some true else none
  asc := true
  directed := true
  full := none
  needsOva := false
  cmp := (CmdMethod.compareOvo E s).map (fun t => t.map CmdRow.toOvo)

/-- A `SplitScoreMethod`; `_split_score.py:56-58`, `:187-197`. -/
def SsMethod.view (sort : PairSort F K) (s : SsMethod F I K) : View F I K where
  name := splitScoreName
  ovo := s.ovo.map (fun t => t.map SsRow.toOvo)
  ova := none
  imp := s.importance.map (fun t => t.map ImpRow.toFeat)
  impAsc := s.impMetric.map (fun m => match m with
    | some m => m.impAscending
    | none => false)
  asc := s.ascending
  directed := false
  full := s.fullResult
  needsOva := false
  cmp := compareBase sort s.ascending (s.ovo.map (fun t => t.map SsRow.toOvo))

end Views

end Artemis
