import Verif.Model.Comparator

/-!
# Plots and comparisons when column names need not be strings

`Model/Visual`, `Model/Method` and `Model/Comparator` assume that the names of features are strings. A data frame may have other names (the
columns of `pd.DataFrame(array)` are the numbers 0, 1, ...), and Sejong Oh's method can be fitted on such data.
Here `isStr f` says whether the name `f` is a string, and the places where a name that is none raises are added:

* `artemis/visualizer/_visualizer.py:354`: `ovo[f1] + ":" + ovo[f2]` is a TypeError if a name is not a string,
* `_visualizer.py:634`: `scores[f.lower()] = ...`; the right-hand side is evaluated first, then `f.lower` is an AttributeError,
* `artemis/comparison/_method_comparator.py:235-237` and `:211`: `"-".join(...)` is a TypeError.

The other functions are the same again. The methods for partial dependence reject such data (`Model/Keywords`), the names in boosted trees are
strings always, and a forest has names (`feature_names_in_`, used by conditional minimal depth) only if all of them are strings; so
`plot_lollipop`, `plot_barchart_conditional` and `_compare_ovo` are as before.
-/

namespace Artemis

section Names
variable {F I J K : Type} [LinearOrder F] [LinearOrder J] [Field K] [LinearOrder K]

/-- `x`, unless a row has a name that is not a string -/
def needStr (isStr : F → Bool) (rows : List (OvoRow F K)) {α : Type} (x : Except Err α) : Except Err α :=
  if rows.all (fun r => isStr r.f1 && isStr r.f2) then x else .error .typeError

/-- The loop of `heatScores`: `scores[f.lower()] = ...`; `_visualizer.py:632-634`. -/
def heatStepS (isStr : F → Bool) (lower : F → F) (score : F → Except Err (Num K)) (acc : Dict F (Num K)) (f : F) :
    Except Err (Dict F (Num K)) :=
  match score f with
  | .error e => .error e
  | .ok s => if isStr f then .ok (Dict.set acc (lower f) s) else .error .attributeError

/-- `heatScores` with `scores[f.lower()] = ...`; `_visualizer.py:630-634`. -/
def heatScoresS (isStr : F → Bool) (lower : F → F) (m : Mat F K) : Except Err (Dict F (Num K)) :=
  match diagSeries m with
  | .error e => .error e
  | .ok diag =>
    let l1 := maxSkip (diag.map Prod.snd)
    let l2 := maxSkip (m.cols.map (fun g => maxSkip (m.rows.map (fun f => m.cell f g))))
    m.rows.foldlM (heatStepS isStr lower (heatScore m diag l1 l2)) []

/-- `orderHeatmap`; `_visualizer.py:622-639`. -/
def orderHeatmapS (isStr : F → Bool) (E : VisEnv F K) (m : Mat F K) (asc : Bool) : Except Err (Mat F K) :=
  match heatScoresS isStr E.lower m with
  | .error e => .error e
  | .ok scores =>
    let ind := E.sortIdx (fun f => (Dict.get? scores (E.lower f)).getD .nan) asc m.rows
    .ok { rows := ind, cols := ind, cell := m.cell }

/-- `plotHeatmap`; `_visualizer.py:150-231`. -/
def plotHeatmapS (isStr : F → Bool) (E : VisEnv F K) (ovo : List (OvoRow F K)) (imp : Option (List (FeatRow F K))) (title : String)
    (asc impAsc directed : Bool) : Except Err (Panel F I K) :=
  match heatmapRows directed ovo imp with
  | .error e => .error e
  | .ok rows =>
    match orderHeatmapS isStr E (pivotFirst rows) asc with
    | .error e => .error e
    | .ok m => .ok (.heatmap (pickTitle title "Interaction matrix") impAsc asc m)

/-- `plotBars`; `_visualizer.py:334-367`. -/
def plotBarsS (isStr : F → Bool) (ovo : List (OvoRow F K)) (title : String) (o : Opts K) : Except Err (Panel F I K) :=
  needStr isStr ovo (.ok (plotBars ovo title o))

/-- `plotSummary`; `_visualizer.py:400-468`. -/
def plotSummaryS (isStr : F → Bool) (E : VisEnv F K) (cfg : VisConfig K) (a : PlotIn F I K) (title : String) (sub : SubOpts K) :
    Except Err (List (Panel F I K)) :=
  match plotHeatmapS isStr E a.ovo a.imp "default" a.asc false a.directed with
  | .error e => .error e
  | .ok h =>
    match plotGraph E cfg.graph a.ovo a.imp "default" false a.directed (SubOpts.pop sub "graph") with
    | .error e => .error e
    | .ok g =>
      match plotBarsS isStr a.ovo "default" (SubOpts.pop sub "bar_chart_ovo") with
      | .error e => .error e
      | .ok b =>
        match a.ova with
        | none => .ok [h, g, b, .caption (pickTitle title (a.method ++ " summary"))]
        | some t =>
          match plotBarsOva (some t) "default" (SubOpts.pop sub "bar_chart_ova") with
          | .error e => .error e
          | .ok b' => .ok [h, g, b, b', .caption (pickTitle title (a.method ++ " summary"))]

/-- `visPlot`; `_visualizer.py:26-106`. -/
def visPlotS (isStr : F → Bool) (E : VisEnv F K) (cfg : VisConfig K) (a : PlotIn F I K) (visType title : String) (o : Opts K)
    (sub : SubOpts K) : Except Err (List (Panel F I K)) :=
  if visType ∉ cfg.accepted then .error .visualizationNotSupported
  else if visType = "summary" then plotSummaryS isStr E cfg a title sub
  else if visType = "graph" then (plotGraph E cfg.graph a.ovo a.imp title a.asc a.directed o).map (fun p => [p])
  else if visType = "bar_chart_ova" then (plotBarsOva a.ova "default" o).map (fun p => [p])
  else if visType = "heatmap" then (plotHeatmapS isStr E a.ovo a.imp title a.asc a.impAsc a.directed).map (fun p => [p])
  else if visType = "bar_chart" then (plotBarsS isStr a.ovo title o).map (fun p => [p])
  else if visType = "lollipop" then (plotLollipop a.full title o).map (fun p => [p])
  else if visType = "bar_chart_conditional" then (plotConditional a.ovo a.imp title o).map (fun p => [p])
  else .ok []

/-- `View.plot`; `_method.py:141-151` and the `plot` of the subclasses. -/
def View.plotS (isStr : F → Bool) (E : VisEnv F K) (v : View F I K) (visType title : String) (o : Opts K) (sub : SubOpts K) :
    Except Err (List (Panel F I K)) :=
  if (if v.needsOva then v.ova.isNone else v.ovo.isNone) then .error .methodNotFitted
  else
    match v.impAsc with
    | none => .error .attributeError
    | some impAsc =>
      match configGet v.name with
      | .error e => .error e
      | .ok cfg =>
        match v.ovo with
        | none => if visType ∈ cfg.accepted then .error .attributeError else .error .visualizationNotSupported
        | some ovo => visPlotS isStr E cfg ⟨ovo, v.ova, v.imp, v.asc, impAsc, v.full, v.directed, v.name⟩ visType title o sub

/-- `_compare_ovo.apply(_alphabetical_order_pair, axis=1)`; `_method_comparator.py:179-180`, `:234-237`. -/
def orderedPairsS (isStr : F → Bool) (cmp : Except Err (List (OvoRow F K))) : Except Err (List (OvoRow F K)) :=
  match cmp with
  | .error e => .error e
  | .ok rows => needStr isStr rows (.ok rows)

/-- `rankBoth`; `_method_comparator.py:178-184`. -/
def rankBothS (isStr : F → Bool) (join : F → F → J) (m1 m2 : View F I K) : Except Err (List (K × K)) :=
  match orderedPairsS isStr m1.cmp with
  | .error e => .error e
  | .ok _ =>
    match orderedPairsS isStr m2.cmp with
    | .error e => .error e
    | .ok _ =>
      match rankEncoded join m1.cmp with
      | .error e => .error e
      | .ok c1 =>
        match rankEncoded join m2.cmp with
        | .error e => .error e
        | .ok c2 => .ok (bothCodes c1 c2)

/-- `correlation`; `_method_comparator.py:151-175`. -/
def correlationS [HasSqrt K] (isStr : F → Bool) (join : F → F → J) (kind : CorrKind) (m1 m2 : View F I K) : Except Err (Num K) :=
  match rankBothS isStr join m1 m2 with
  | .error e => .error e
  | .ok l => .ok (corr kind l)

end Names

end Artemis
