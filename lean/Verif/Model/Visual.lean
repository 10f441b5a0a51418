import Verif.Model.SplitScore
import Verif.Model.Perf

/-!
# `artemis/visualizer/_visualizer.py`, `artemis/visualizer/_configuration.py`, `artemis/_utilities/domain.py`

The data prepared for drawing. A drawing routine returns a `Panel`: what is handed to matplotlib, seaborn or networkx,
without colours, fonts, sizes of figures and number formats. `F` are feature names, `I` node IDs of trees, `K` finite
numbers.
-/

namespace Artemis

/-! ### Names -/

/-- `InteractionMethod`; `domain.py:4-9`. -/
def hStatName : String := "Friedman H-statistic Interaction Measure"
/-- see `hStatName` -/
def greenwellName : String := "Greenwell Variable Interaction Measure"
/-- see `hStatName` -/
def sejongName : String := "Sejong Oh Performance Based Interaction Measure"
/-- see `hStatName` -/
def splitScoreName : String := "Split Score Interaction Measure"
/-- see `hStatName` -/
def cmdName : String := "Conditional Minimal Depth Measure"

/-- `VisualizationConfigurationProvider.accepted_visualizations`; `_configuration.py:70-104` with the names of
`VisualizationType` (`domain.py:27-34`). -/
def acceptedVisualizations : Dict String (List String) :=
  [(hStatName, ["summary", "graph", "bar_chart_ova", "bar_chart", "heatmap"]),
   (sejongName, ["summary", "graph", "bar_chart", "heatmap"]),
   (greenwellName, ["summary", "graph", "bar_chart", "heatmap"]),
   (cmdName, ["summary", "graph", "bar_chart", "heatmap", "bar_chart_conditional"]),
   (splitScoreName, ["summary", "graph", "bar_chart", "heatmap", "lollipop"])]

section Config
variable {K : Type} [Field K]

/-- The numbers of `InteractionGraphConfiguration`; `_configuration.py:9-19`. -/
structure GraphCfg (K : Type) where
  maxEdgeWidth : K
  nHighest : Int
  threshold : K

/-- defaults of `InteractionGraphConfiguration` -/
def GraphCfg.default : GraphCfg K := ⟨20, 5, 5 / 100⟩

/-- `VisualizationConfiguration`; `_configuration.py:176-189` (only the parts that differ between methods). -/
structure VisConfig (K : Type) where
  accepted : List String
  graph : GraphCfg K

/-- `cls.accepted_visualizations[method]` -/
def acceptedOf (method : String) : Except Err (List String) :=
  match Dict.get? acceptedVisualizations method with
  | some l => .ok l
  | none => .error .keyError

/-- Models: `_configuration.py:106-172` (`VisualizationConfigurationProvider.get` and the private helpers). -/
def configGet (method : String) : Except Err (VisConfig K) :=
  if method = hStatName then (acceptedOf hStatName).map (fun l => ⟨l, .default⟩)
  else if method = greenwellName then (acceptedOf greenwellName).map (fun l => ⟨l, .default⟩)
  else if method = sejongName then (acceptedOf sejongName).map (fun l => ⟨l, { (GraphCfg.default : GraphCfg K) with threshold := 10 / 100 }⟩)
  else if method = splitScoreName then
    (acceptedOf splitScoreName).map (fun l => ⟨l, { (GraphCfg.default : GraphCfg K) with threshold := 10 / 100 }⟩)
  else if method = cmdName then
    (acceptedOf cmdName).map (fun l => ⟨l, { (GraphCfg.default : GraphCfg K) with threshold := 60 / 100, maxEdgeWidth := 3 }⟩)
  else .error .methodNotSupported

end Config

/-! ### Options and results -/

/-- `**kwargs` of `plot` (the numeric ones). -/
structure Opts (K : Type) where
  topK : Option Int := none
  maxEdgeWidth : Option K := none
  nHighest : Option Int := none
  threshold : Option K := none
  maxTrees : Option K := none
  maxDepth : Option Int := none
  labelThreshold : Option K := none
  labels : Option Bool := none

/-- The keyword arguments of a summary: names with dictionaries of options. -/
abbrev SubOpts (K : Type) := Dict String (Opts K)

/-- `kwargs.pop(name, None)`, then `{}` for `None`; `_visualizer.py:419-422` -/
def SubOpts.pop {K : Type} (sub : SubOpts K) (name : String) : Opts K := (Dict.get? sub name).getD {}

/-- A labelled matrix (`DataFrame`); `cell f g` is the entry in row `f`, column `g`. -/
structure Mat (F K : Type) where
  rows : List F
  cols : List F
  cell : F → F → Num K

/-- the entries in the order drawn -/
def Mat.table {F K : Type} (m : Mat F K) : List (List (Num K)) := m.rows.map (fun f => m.cols.map (fun g => m.cell f g))

/-- One drawing. -/
inductive Panel (F I K : Type)
  /-- matrix, and which of the colour maps of the diagonal and of the rest are reversed -/
  | heatmap (title : String) (impReversed interReversed : Bool) (mat : Mat F K)
  /-- edges with widths, nodes with relative sizes (`none`: all of one size), labelled edges -/
  | graph (title : String) (directed : Bool) (edges : Dict (F × F) (Num K)) (nodes : Option (List (F × Num K)))
      (labels : List (OvoRow F K))
  | bars (title : String) (rows : List (OvoRow F K))
  | barsOva (title : String) (rows : List (FeatRow F K))
  /-- roots; per depth the nodes; annotated nodes; annotated roots -/
  | lollipop (title : String) (roots : List (StatRow F I K)) (nodes : List (List (StatRow F I K)))
      (nodeLabels rootLabels : List (StatRow F I K))
  /-- interaction with the importance of its second feature (NaN if not listed) -/
  | conditional (title : String) (rows : List (OvoRow F K × Num K))
  /-- title of the whole figure -/
  | caption (title : String)

/-- `title = config.TITLE if title == "default" else title` -/
def pickTitle (title default : String) : String := if title = "default" then default else title

/-- `l.head(n)`, `l.iloc[:n]` -/
def pyHead {α : Type} (n : Int) (l : List α) : List α :=
  if 0 ≤ n then l.take n.toNat else l.take (l.length - (-n).toNat)

section Vis
variable {F I K : Type} [LinearOrder F] [Field K] [LinearOrder K]

/-- What the visualizer uses: `str.lower` and sorting. -/
structure VisEnv (F K : Type) where
  lower : F → F
  /-- `matrix.sort_index(key=score, ascending=asc).index` -/
  sortIdx : (F → Num K) → Bool → List F → List F
  /-- `ovo.sort_values(by=method, ascending=False)` -/
  sortDesc : List (OvoRow F K) → List (OvoRow F K)

/-- `Series.max()`: NaN left out, NaN if nothing is left -/
def maxSkip (l : List (Num K)) : Num K := (Num.max? (l.filter (fun x => !x.isNaN))).getD .nan
/-- `Series.min()` -/
def minSkip (l : List (Num K)) : Num K := (Num.min? (l.filter (fun x => !x.isNaN))).getD .nan

/-! ### Interaction graph -/

/-- One value in `_filter_insignificant_interactions`; `_visualizer.py:602-605`. -/
def significant (asc : Bool) (t : K) (v : Num K) : Num K :=
  if asc then (if Num.lt (.fin t) v then .fin 0 else v) else (if Num.lt v (.fin t) then .fin 0 else v)

/-- Models: `_visualizer.py:598-607` (`_filter_insignificant_interactions`). -/
def filterInsignificant (asc : Bool) (t : K) (ovo : List (OvoRow F K)) : List (OvoRow F K) :=
  ovo.map (fun r => { r with val := significant asc t r.val })

/-- Models: `_visualizer.py:609-612` (`_scale_to_unit_interval`). -/
def scaleToUnit (ovo : List (OvoRow F K)) : List (OvoRow F K) :=
  let m := minSkip (ovo.map OvoRow.val)
  let M := maxSkip (ovo.map OvoRow.val)
  ovo.map (fun r => { r with val := Num.div (Num.sub r.val m) (Num.sub M m) })

/-- Models: `_visualizer.py:614-617` (`_reverse_scale_for_ascending`). -/
def reverseScale (asc : Bool) (ovo : List (OvoRow F K)) : List (OvoRow F K) :=
  if asc then ovo.map (fun r => { r with val := if Num.lt (.fin 0) r.val then Num.sub (.fin 1) r.val else r.val }) else ovo

/-- Models: `_visualizer.py:619-620` (`_map_to_width`). -/
def mapToWidth (w : K) (ovo : List (OvoRow F K)) : List (OvoRow F K) :=
  ovo.map (fun r => { r with val := Num.mul r.val (.fin w) })

/-- Models: `_visualizer.py:322-332` (`_interactions_to_edge_widths`). -/
def edgeWidths (asc : Bool) (w : K) (ovo : List (OvoRow F K)) : List (OvoRow F K) :=
  mapToWidth w (reverseScale asc (scaleToUnit ovo))

/-- Models: `_visualizer.py:562-574` (`_edge_labels`); values are not rounded. Equal keys of the dictionary
overwrite each other in Python; tables do not list a pair twice in the same direction. -/
def edgeLabels (E : VisEnv F K) (n : Int) (ovo : List (OvoRow F K)) : List (OvoRow F K) :=
  pyHead n ((E.sortDesc ovo).filter (fun r => Num.lt (.fin 0) r.val))

/-- The key of an edge in the graph so far: in an undirected graph an edge is found under either order. -/
def edgeKey (directed : Bool) (G : Dict (F × F) (Num K)) (r : OvoRow F K) : F × F :=
  if !directed && (Dict.get? G (r.f1, r.f2)).isNone && (Dict.get? G (r.f2, r.f1)).isSome then (r.f2, r.f1) else (r.f1, r.f2)

/-- `nx.from_pandas_edgelist`; `_visualizer.py:278-284`: a later row overwrites the width of an edge. -/
def edgeDict (directed : Bool) (rows : List (OvoRow F K)) : Dict (F × F) (Num K) :=
  rows.foldl (fun G r => Dict.set G (edgeKey directed G r) r.val) []

/-- Sizes of the nodes; `_visualizer.py:293-301`. networkx raises NetworkXError for a node that is not in the graph. -/
def graphNodes (ovo : List (OvoRow F K)) (imp : Option (List (FeatRow F K))) : Except Err (Option (List (F × Num K))) :=
  match imp with
  | none => .ok none
  | some t =>
    if t.all (fun r => ovo.any (fun o => decide (o.f1 = r.f) || decide (o.f2 = r.f))) then
      .ok (some (t.map (fun r => (r.f, Num.div r.val (maxSkip (t.map FeatRow.val))))))
    else .error .networkXError

/-- Models: `_visualizer.py:233-320` (`plot_interaction_graph`). -/
def plotGraph (E : VisEnv F K) (cfg : GraphCfg K) (ovo : List (OvoRow F K)) (imp : Option (List (FeatRow F K)))
    (title : String) (asc directed : Bool) (o : Opts K) : Except Err (Panel F I K) :=
  let kept := filterInsignificant asc (o.threshold.getD cfg.threshold) ovo
  let widths := edgeWidths asc (o.maxEdgeWidth.getD cfg.maxEdgeWidth) kept
  match graphNodes ovo imp with
  | .error e => .error e
  | .ok nodes =>
    .ok (.graph (pickTitle title "Interaction graph") directed (edgeDict directed widths) nodes
      (if asc then [] else edgeLabels E (o.nHighest.getD cfg.nHighest) kept))

/-! ### Heatmap -/

/-- Models: `_visualizer.py:576-596` (`_feature_importance_diag`); `.values[0]` of nothing is an IndexError. -/
def importanceDiag (ovo : List (OvoRow F K)) (imp : List (FeatRow F K)) : Except Err (List (OvoRow F K)) :=
  ((ovo.map OvoRow.f1 ++ ovo.map OvoRow.f2).dedup).mapM (fun f =>
    match imp.find? (fun r => decide (r.f = f)) with
    | none => .error .indexError
    | some r => .ok ⟨f, f, r.val⟩)

/-- `ovo_all_pairs` of `_visualizer.py:177-191` -/
def heatmapRows (directed : Bool) (ovo : List (OvoRow F K)) (imp : Option (List (FeatRow F K))) : Except Err (List (OvoRow F K)) :=
  let pairs := if directed then ovo else ovo ++ ovo.map (fun r => ⟨r.f2, r.f1, r.val⟩)
  match imp with
  | none => .ok pairs
  | some t =>
    match importanceDiag ovo t with
    | .error e => .error e
    | .ok diag => .ok (pairs ++ diag)

/-- `pivot_table(method, f1, f2, aggfunc="first")`; `_visualizer.py:200-202`: sorted labels, the first number of each
group; groups without a number are dropped. -/
def pivotFirst (rows : List (OvoRow F K)) : Mat F K :=
  let ok := rows.filter (fun r => !r.val.isNaN)
  { rows := npUnique (ok.map OvoRow.f1)
    cols := npUnique (ok.map OvoRow.f2)
    cell := fun f g => ((ok.find? (fun r => decide (r.f1 = f ∧ r.f2 = g))).map OvoRow.val).getD .nan }

/-- Python's `max` of an iterable: keeps the first unless a later one is greater. -/
def pyMax : List (Num K) → Except Err (Num K)
  | [] => .error .valueError
  | x :: xs => .ok (xs.foldl (fun m y => if Num.lt m y then y else m) x)

/-- `pd.Series(np.diag(matrix), index=matrix.index)`; ValueError if the diagonal is too short. -/
def diagSeries (m : Mat F K) : Except Err (Dict F (Num K)) :=
  if m.rows.length ≤ m.cols.length then .ok ((m.rows.zip m.cols).map (fun q => (q.1, m.cell q.1 q.2))) else .error .valueError

/-- The score of a feature; `_visualizer.py:631-634`. -/
def heatScore (m : Mat F K) (diag : Dict F (Num K)) (l1 l2 : Num K) (f : F) : Except Err (Num K) :=
  match Dict.get? diag f with
  | none => .error .keyError
  | some d =>
    if f ∈ m.cols then
      match pyMax ((m.rows.erase f).map (fun g => m.cell g f)) with
      | .error e => .error e
      | .ok mx => .ok (Num.add (Num.div d l1) (Num.div mx l2))
    else .error .keyError

/-- The dictionary `scores`; `_visualizer.py:630-634`. Equal lower-case names overwrite each other. -/
def heatScores (lower : F → F) (m : Mat F K) : Except Err (Dict F (Num K)) :=
  match diagSeries m with
  | .error e => .error e
  | .ok diag =>
    let l1 := maxSkip (diag.map Prod.snd)
    let l2 := maxSkip (m.cols.map (fun g => maxSkip (m.rows.map (fun f => m.cell f g))))
    m.rows.foldlM (fun acc f => (heatScore m diag l1 l2 f).map (fun s => Dict.set acc (lower f) s)) []

/-- Models: `_visualizer.py:622-639` (`order_heatmap`). -/
def orderHeatmap (E : VisEnv F K) (m : Mat F K) (asc : Bool) : Except Err (Mat F K) :=
  match heatScores E.lower m with
  | .error e => .error e
  | .ok scores =>
    let ind := E.sortIdx (fun f => (Dict.get? scores (E.lower f)).getD .nan) asc m.rows
    .ok { rows := ind, cols := ind, cell := m.cell }

/-- Models: `_visualizer.py:150-231` (`plot_heatmap`). -/
def plotHeatmap (E : VisEnv F K) (ovo : List (OvoRow F K)) (imp : Option (List (FeatRow F K))) (title : String)
    (asc impAsc directed : Bool) : Except Err (Panel F I K) :=
  match heatmapRows directed ovo imp with
  | .error e => .error e
  | .ok rows =>
    match orderHeatmap E (pivotFirst rows) asc with
    | .error e => .error e
    | .ok m => .ok (.heatmap (pickTitle title "Interaction matrix") impAsc asc m)

/-! ### Bar charts -/

/-- Models: `_visualizer.py:334-367` (`plot_barchart_ovo`). -/
def plotBars (ovo : List (OvoRow F K)) (title : String) (o : Opts K) : Panel F I K :=
  .bars (pickTitle title "Pair interactions") (pyHead (o.topK.getD 10) ovo)

/-- Models: `_visualizer.py:369-398` (`plot_barchart_ova`); `None.head` is an AttributeError. -/
def plotBarsOva (ova : Option (List (FeatRow F K))) (title : String) (o : Opts K) : Except Err (Panel F I K) :=
  match ova with
  | none => .error .attributeError
  | some t => .ok (.barsOva (pickTitle title "Interaction with all other features") (pyHead (o.topK.getD 10) t))

/-- Models: `_visualizer.py:108-148` (`plot_barchart_conditional`); the importance table lists a feature at most once. -/
def plotConditional (ovo : List (OvoRow F K)) (imp : Option (List (FeatRow F K))) (title : String) (o : Opts K) :
    Except Err (Panel F I K) :=
  match imp with
  | none => .error .attributeError
  | some t => .ok (.conditional (pickTitle title "Random forest model summary")
      ((pyHead (o.topK.getD 15) ovo).map (fun r => (r, ((t.find? (fun q => decide (q.f = r.f2))).map FeatRow.val).getD .nan))))

/-! ### Lollipop -/

/-- `rows[rows["tree"] < q * rows["tree"].max()]` -/
def firstTrees (q : K) (rows : List (StatRow F I K)) : List (StatRow F I K) :=
  match ((rows.map (fun r => r.row.tree)).max? : Option Nat) with
  | none => []
  | some M => rows.filter (fun r => decide ((r.row.tree : K) < q * (M : K)))

/-- the rows of full depth between 1 and `d` that are not leaves; `_visualizer.py:500-504` -/
def lollipopNodes (d : Int) (full : List (StatRow F I K)) : List (StatRow F I K) :=
  full.filter (fun r => !r.row.leaf && (match r.row.depth with
    | some k => decide (0 < k ∧ k ≤ d)
    | none => false))

/-- Models: `_visualizer.py:470-554` (`plot_lollipop`). There are six colours and six markers; a larger depth is an
IndexError. -/
def plotLollipop (full : Option (List (StatRow F I K))) (title : String) (o : Opts K) : Except Err (Panel F I K) :=
  match full with
  | none => .error .attributeError
  | some rows =>
    let q := o.maxTrees.getD (20 / 100)
    let d := o.maxDepth.getD 1
    let roots := firstTrees q (rows.filter (fun r => decide (r.row.depth = some 0)))
    let nodes := firstTrees q (lollipopNodes d rows)
    if 5 < d then .error .indexError
    else
      let thr := Num.mul (.fin (o.labelThreshold.getD (10 / 100))) (maxSkip (roots.filterMap (fun r => r.row.gain.map Num.fin)))
      .ok (.lollipop (pickTitle title "Lollipop boosting model summary") roots
        ((List.range d.toNat).map (fun (i : Nat) => nodes.filter (fun r => decide (r.row.depth = some ((i : Int) + 1)))))
        (if o.labels.getD true then nodes.filter (fun r => r.interaction == some true) else [])
        (if o.labels.getD true then roots.filter (fun r => match r.row.gain with
          | some g => Num.le thr (.fin g)
          | none => false) else []))

/-! ### `Visualizer.plot` -/

/-- The arguments of `Visualizer.plot` taken from the method object. -/
structure PlotIn (F I K : Type) where
  ovo : List (OvoRow F K)
  ova : Option (List (FeatRow F K)) := none
  imp : Option (List (FeatRow F K)) := none
  asc : Bool := false
  impAsc : Bool := false
  full : Option (List (StatRow F I K)) := none
  directed : Bool := false
  /-- `self.method` of the visualizer -/
  method : String

/-- Models: `_visualizer.py:400-468` (`plot_summary`). The graph is drawn with the default `interactions_ascending_order`
(lines 434-442), the heatmap with the default `importance_ascending_order` (lines 424-433). -/
def plotSummary (E : VisEnv F K) (cfg : VisConfig K) (a : PlotIn F I K) (title : String) (sub : SubOpts K) :
    Except Err (List (Panel F I K)) :=
  let caption := Panel.caption (pickTitle title (a.method ++ " summary"))
  match plotHeatmap E a.ovo a.imp "default" a.asc false a.directed with
  | .error e => .error e
  | .ok h =>
    match plotGraph E cfg.graph a.ovo a.imp "default" false a.directed (SubOpts.pop sub "graph") with
    | .error e => .error e
    | .ok g =>
      match a.ova with
      | none => .ok [h, g, plotBars a.ovo "default" (SubOpts.pop sub "bar_chart_ovo"), caption]
      | some t =>
        match plotBarsOva (some t) "default" (SubOpts.pop sub "bar_chart_ova") with
        | .error e => .error e
        | .ok b => .ok [h, g, plotBars a.ovo "default" (SubOpts.pop sub "bar_chart_ovo"), b, caption]

/-- Models: `_visualizer.py:26-106` (`plot`), branch by branch. -/
def visPlot (E : VisEnv F K) (cfg : VisConfig K) (a : PlotIn F I K) (visType title : String) (o : Opts K) (sub : SubOpts K) :
    Except Err (List (Panel F I K)) :=
  if visType ∉ cfg.accepted then .error .visualizationNotSupported
  else if visType = "summary" then plotSummary E cfg a title sub
  else if visType = "graph" then (plotGraph E cfg.graph a.ovo a.imp title a.asc a.directed o).map (fun p => [p])
  else if visType = "bar_chart_ova" then (plotBarsOva a.ova "default" o).map (fun p => [p])
  else if visType = "heatmap" then (plotHeatmap E a.ovo a.imp title a.asc a.impAsc a.directed).map (fun p => [p])
  else if visType = "bar_chart" then .ok [plotBars a.ovo title o]
  else if visType = "lollipop" then (plotLollipop a.full title o).map (fun p => [p])
  else if visType = "bar_chart_conditional" then (plotConditional a.ovo a.imp title o).map (fun p => [p])
  else .ok []

end Vis

end Artemis
