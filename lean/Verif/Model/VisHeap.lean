import Verif.Model.Method

/-!
# `_visualizer.py` with table objects

`Model/Visual` treats the drawing routines as functions of the contents of the tables. Here the tables are objects in memory that can be
changed in place, as `DataFrame`s can, and the routines of `artemis/visualizer/_visualizer.py` are modelled statement by statement with
the copies they make and the objects they change: `ovo_copy.loc[..., self.method] = ...`, `ovo_copy["Interaction"] = ...` and so on.
The tables of a method (`ovo`, `ova`, `feature_importance`, `full_result`) are handed to the visualizer as they are, not as copies
(`_method.py:144-151` and the `plot` of the subclasses).

Simplifications: results of `pd.concat`, `head`, `iloc[:k]`, boolean indexing, `join`, `set_index`, `pivot_table` and `sort_values` are new
objects that nobody changes later, so they are values here. The exception is `nodes` in `plot_lollipop`, an explicit copy whose column
`split_feature` is overwritten (lines 505-507); the overwritten column is not drawn and left out here.
-/

namespace Artemis

section Heap
variable {F I K : Type} [LinearOrder F] [Field K] [LinearOrder K]

/-- A table object: its rows, and the names of columns added to it. -/
inductive TabObj (F I K : Type)
  | pairs (rows : List (OvoRow F K)) (extra : List String)
  | feats (rows : List (FeatRow F K)) (extra : List String)
  | stats (rows : List (StatRow F I K)) (extra : List String)

/-- The table objects in memory; a reference is a position in this list. -/
abbrev TabMem (F I K : Type) := List (TabObj F I K)

/-- reading a table; AttributeError without such an object (`None`) -/
def derefTab (r : Nat) : PyM (TabMem F I K) (TabObj F I K) := fun m =>
  match m[r]? with
  | some t => (.ok t, m)
  | none => (.error .attributeError, m)

/-- `table.copy()` -/
def copyTab (r : Nat) : PyM (TabMem F I K) Nat :=
  PyM.seq (derefTab r) fun t => fun m => (.ok m.length, m ++ [t])

/-- an assignment that changes the object `r` in place -/
def changeTab (r : Nat) (f : TabObj F I K → TabObj F I K) : PyM (TabMem F I K) Unit :=
  PyM.seq (derefTab r) fun t => fun m => (.ok (), m.set r (f t))

/-- the rows of a table of pairs; AttributeError for `None` -/
def readPairs (r : Nat) : PyM (TabMem F I K) (List (OvoRow F K)) :=
  PyM.seq (derefTab r) fun t => match t with
    | .pairs rows _ => PyM.ret rows
    | _ => PyM.raise .keyError

/-- the rows of a table of features, `None` for `None` -/
def readFeats (r : Option Nat) : PyM (TabMem F I K) (Option (List (FeatRow F K))) :=
  match r with
  | none => PyM.ret none
  | some r => PyM.seq (derefTab r) fun t => match t with
    | .feats rows _ => PyM.ret (some rows)
    | _ => PyM.raise .keyError

/-- an assignment to the column of values (or to the columns of names) of a table of pairs -/
def TabObj.onRows (f : List (OvoRow F K) → List (OvoRow F K)) : TabObj F I K → TabObj F I K
  | .pairs rows ex => .pairs (f rows) ex
  | t => t

/-- `table[name] = ...` for a new column -/
def TabObj.addColumn (name : String) : TabObj F I K → TabObj F I K
  | .pairs rows ex => .pairs rows (ex ++ [name])
  | .feats rows ex => .feats rows (ex ++ [name])
  | .stats rows ex => .stats rows (ex ++ [name])

/-! ### Interaction graph -/

/-- Models: `_visualizer.py:598-607` (`_filter_insignificant_interactions`): changes the table, returns a copy of it. -/
def filterInsignificantH (asc : Bool) (t : K) (r : Nat) : PyM (TabMem F I K) Nat :=
  PyM.seq (changeTab r (TabObj.onRows (filterInsignificant asc t))) fun _ => copyTab r

/-- Models: `_visualizer.py:609-612` (`_scale_to_unit_interval`). -/
def scaleToUnitH (r : Nat) : PyM (TabMem F I K) Unit := changeTab r (TabObj.onRows scaleToUnit)

/-- Models: `_visualizer.py:614-617` (`_reverse_scale_for_ascending`). -/
def reverseScaleH (asc : Bool) (r : Nat) : PyM (TabMem F I K) Unit := changeTab r (TabObj.onRows (reverseScale asc))

/-- Models: `_visualizer.py:619-620` (`_map_to_width`). -/
def mapToWidthH (w : K) (r : Nat) : PyM (TabMem F I K) Unit := changeTab r (TabObj.onRows (mapToWidth w))

/-- Models: `_visualizer.py:322-332` (`_interactions_to_edge_widths`). -/
def edgeWidthsH (asc : Bool) (w : K) (r : Nat) : PyM (TabMem F I K) Unit :=
  PyM.seq (scaleToUnitH r) fun _ => PyM.seq (reverseScaleH asc r) fun _ => mapToWidthH w r

/-- Models: `_visualizer.py:233-320` (`plot_interaction_graph`). -/
def plotGraphH (E : VisEnv F K) (cfg : GraphCfg K) (ovo : Nat) (imp : Option Nat) (title : String) (asc directed : Bool)
    (o : Opts K) : PyM (TabMem F I K) (Panel F I K) :=
  PyM.seq (copyTab ovo) fun ovoCopy =>
  PyM.seq (filterInsignificantH asc (o.threshold.getD cfg.threshold) ovoCopy) fun noSig =>
  PyM.seq (edgeWidthsH asc (o.maxEdgeWidth.getD cfg.maxEdgeWidth) ovoCopy) fun _ =>
  PyM.seq (readPairs ovoCopy) fun widths =>
  PyM.seq (readFeats imp) fun t =>
  PyM.seq (PyM.lift (graphNodes widths t)) fun nodes =>
  if asc then PyM.ret (.graph (pickTitle title "Interaction graph") directed (edgeDict directed widths) nodes [])
  else PyM.seq (readPairs noSig) fun kept =>
    PyM.ret (.graph (pickTitle title "Interaction graph") directed (edgeDict directed widths) nodes
      (edgeLabels E (o.nHighest.getD cfg.nHighest) kept))

/-! ### Heatmap -/

/-- `ovo_copy[f1], ovo_copy[f2] = ovo_copy[f2], ovo_copy[f1]`; `_visualizer.py:178-182` -/
def swapNames (rows : List (OvoRow F K)) : List (OvoRow F K) := rows.map (fun r => ⟨r.f2, r.f1, r.val⟩)

/-- `ovo_all_pairs`; `_visualizer.py:177-185` -/
def allPairsH (directed : Bool) (ovo : Nat) : PyM (TabMem F I K) (List (OvoRow F K)) :=
  if directed then readPairs ovo
  else
    PyM.seq (copyTab ovo) fun ovoCopy =>
    PyM.seq (changeTab ovoCopy (TabObj.onRows swapNames)) fun _ =>
    PyM.seq (readPairs ovo) fun rows => PyM.seq (readPairs ovoCopy) fun swapped => PyM.ret (rows ++ swapped)

/-- Models: `_visualizer.py:150-231` (`plot_heatmap`). -/
def plotHeatmapH (E : VisEnv F K) (ovo : Nat) (imp : Option Nat) (title : String) (asc impAsc directed : Bool) :
    PyM (TabMem F I K) (Panel F I K) :=
  PyM.seq (allPairsH directed ovo) fun pairs =>
  PyM.seq (readFeats imp) fun t =>
  PyM.seq (readPairs ovo) fun rows =>
  PyM.seq (match t with
    | none => PyM.ret pairs
    | some t => PyM.seq (PyM.lift (importanceDiag rows t)) fun diag => PyM.ret (pairs ++ diag)) fun all =>
  PyM.seq (PyM.lift (orderHeatmap E (pivotFirst all) asc)) fun m =>
  PyM.ret (.heatmap (pickTitle title "Interaction matrix") impAsc asc m)

/-! ### Bar charts and lollipop -/

/-- Models: `_visualizer.py:334-367` (`plot_barchart_ovo`). -/
def plotBarsH (ovo : Nat) (title : String) (o : Opts K) : PyM (TabMem F I K) (Panel F I K) :=
  PyM.seq (copyTab ovo) fun ovoCopy =>
  PyM.seq (changeTab ovoCopy (TabObj.addColumn "Interaction")) fun _ =>
  PyM.seq (readPairs ovoCopy) fun rows => PyM.ret (.bars (pickTitle title "Pair interactions") (pyHead (o.topK.getD 10) rows))

/-- Models: `_visualizer.py:369-398` (`plot_barchart_ova`). -/
def plotBarsOvaH (ova : Option Nat) (title : String) (o : Opts K) : PyM (TabMem F I K) (Panel F I K) :=
  PyM.seq (readFeats ova) fun t => match t with
    | none => PyM.raise .attributeError
    | some t => PyM.ret (.barsOva (pickTitle title "Interaction with all other features") (pyHead (o.topK.getD 10) t))

/-- Models: `_visualizer.py:108-148` (`plot_barchart_conditional`). -/
def plotConditionalH (ovo : Nat) (imp : Option Nat) (title : String) (o : Opts K) : PyM (TabMem F I K) (Panel F I K) :=
  PyM.seq (copyTab ovo) fun toPlot =>
  PyM.seq (changeTab toPlot (TabObj.addColumn "Interaction")) fun _ =>
  PyM.seq (readPairs toPlot) fun rows =>
  PyM.seq (readFeats imp) fun t => PyM.lift (plotConditional rows t title o)

/-- Models: `_visualizer.py:470-554` (`plot_lollipop`). -/
def plotLollipopH (full : Option Nat) (title : String) (o : Opts K) : PyM (TabMem F I K) (Panel F I K) :=
  match full with
  | none => PyM.raise .attributeError
  | some full =>
    PyM.seq (copyTab full) fun fullCopy =>
    PyM.seq (changeTab fullCopy (TabObj.addColumn "pair_name")) fun _ =>
    PyM.seq (derefTab fullCopy) fun t => match t with
      | .stats rows _ => PyM.lift (plotLollipop (some rows) title o)
      | _ => PyM.raise .keyError

/-! ### `Visualizer.plot` and `plot` of the methods -/

/-- What a method object hands to its visualizer: references to its tables. -/
structure MethodRefs where
  name : String
  ovo : Option Nat
  ova : Option Nat
  imp : Option Nat
  impAsc : Option Bool
  asc : Bool
  directed : Bool
  full : Option Nat
  needsOva : Bool

/-- Models: `_visualizer.py:400-468` (`plot_summary`). -/
def plotSummaryH (E : VisEnv F K) (cfg : VisConfig K) (a : MethodRefs) (ovo : Nat) (title : String) (sub : SubOpts K) :
    PyM (TabMem F I K) (List (Panel F I K)) :=
  PyM.seq (plotHeatmapH E ovo a.imp "default" a.asc false a.directed) fun h =>
  PyM.seq (plotGraphH E cfg.graph ovo a.imp "default" false a.directed (SubOpts.pop sub "graph")) fun g =>
  PyM.seq (plotBarsH ovo "default" (SubOpts.pop sub "bar_chart_ovo")) fun b =>
  match a.ova with
  | none => PyM.ret [h, g, b, Panel.caption (pickTitle title (a.name ++ " summary"))]
  | some t => PyM.seq (plotBarsOvaH (some t) "default" (SubOpts.pop sub "bar_chart_ova")) fun b' =>
      PyM.ret [h, g, b, b', Panel.caption (pickTitle title (a.name ++ " summary"))]

/-- one drawing as a list -/
def oneDrawing (p : PyM (TabMem F I K) (Panel F I K)) : PyM (TabMem F I K) (List (Panel F I K)) := PyM.seq p fun p => PyM.ret [p]

/-- Models: `_visualizer.py:26-106` (`plot`). -/
def visPlotH (E : VisEnv F K) (cfg : VisConfig K) (a : MethodRefs) (impAsc : Bool) (ovo : Nat) (visType title : String) (o : Opts K)
    (sub : SubOpts K) : PyM (TabMem F I K) (List (Panel F I K)) :=
  if visType ∉ cfg.accepted then PyM.raise .visualizationNotSupported
  else if visType = "summary" then plotSummaryH E cfg a ovo title sub
  else if visType = "graph" then oneDrawing (plotGraphH E cfg.graph ovo a.imp title a.asc a.directed o)
  else if visType = "bar_chart_ova" then oneDrawing (plotBarsOvaH a.ova "default" o)
  else if visType = "heatmap" then oneDrawing (plotHeatmapH E ovo a.imp title a.asc impAsc a.directed)
  else if visType = "bar_chart" then oneDrawing (plotBarsH ovo title o)
  else if visType = "lollipop" then oneDrawing (plotLollipopH a.full title o)
  else if visType = "bar_chart_conditional" then oneDrawing (plotConditionalH ovo a.imp title o)
  else PyM.ret []

/-- Models: `_method.py:141-151` and the `plot` of the subclasses, as `View.plot`. -/
def MethodRefs.plot (E : VisEnv F K) (a : MethodRefs) (visType title : String) (o : Opts K) (sub : SubOpts K) :
    PyM (TabMem F I K) (List (Panel F I K)) :=
  if (if a.needsOva then a.ova.isNone else a.ovo.isNone) then PyM.raise .methodNotFitted
  else
    match a.impAsc with
    | none => PyM.raise .attributeError
    | some impAsc =>
      match configGet a.name with
      | .error e => PyM.raise e
      | .ok cfg =>
        match a.ovo with
        | none => if visType ∈ cfg.accepted then PyM.raise .attributeError else PyM.raise .visualizationNotSupported
        | some ovo => visPlotH E cfg a impAsc ovo visType title o sub

end Heap

end Artemis
