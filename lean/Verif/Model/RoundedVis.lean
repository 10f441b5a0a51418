import Verif.Model.Rounded
import Verif.Model.Method

/-!
# The interaction graph in floating-point arithmetic

The same code as `plotGraph` in `Verif/Model/Visual.lean` (`artemis/visualizer/_visualizer.py:233-332`, `:598-620`), with every
arithmetic operation rounded (`Arith`). Comparisons, minima and maxima are exact. The sizes of the nodes are the ones handed to
networkx, not relative ones. Differences are never `-0.0` here (`x - x` is `0.0`), and no other zero is divided by.
-/

namespace Artemis
variable {F I K : Type} [LinearOrder F] [Field K] [LinearOrder K] (A : Arith K)

/-- Models: `_visualizer.py:609-612` (`_scale_to_unit_interval`), as `scaleToUnit`. -/
def scaleToUnitR (ovo : List (OvoRow F K)) : List (OvoRow F K) :=
  let m := minSkip (ovo.map OvoRow.val)
  let M := maxSkip (ovo.map OvoRow.val)
  ovo.map (fun r => { r with val := A.div (A.sub r.val m) (A.sub M m) })

/-- Models: `_visualizer.py:614-617` (`_reverse_scale_for_ascending`), as `reverseScale`. -/
def reverseScaleR (asc : Bool) (ovo : List (OvoRow F K)) : List (OvoRow F K) :=
  if asc then ovo.map (fun r => { r with val := if Num.lt (.fin 0) r.val then A.sub (.fin 1) r.val else r.val }) else ovo

/-- Models: `_visualizer.py:619-620` (`_map_to_width`), as `mapToWidth`. -/
def mapToWidthR (w : K) (ovo : List (OvoRow F K)) : List (OvoRow F K) :=
  ovo.map (fun r => { r with val := A.r (Num.mul r.val (.fin w)) })

/-- Models: `_visualizer.py:322-332` (`_interactions_to_edge_widths`), as `edgeWidths`. -/
def edgeWidthsR (asc : Bool) (w : K) (ovo : List (OvoRow F K)) : List (OvoRow F K) :=
  mapToWidthR A w (reverseScaleR A asc (scaleToUnitR A ovo))

/-- Sizes of the nodes; `_visualizer.py:293-301`, as `graphNodes`: `node_size * val / np.max(…)` from left to right. -/
def graphNodesR (size : K) (ovo : List (OvoRow F K)) (imp : Option (List (FeatRow F K))) : Except Err (Option (List (F × Num K))) :=
  match imp with
  | none => .ok none
  | some t =>
    if t.all (fun r => ovo.any (fun o => decide (o.f1 = r.f) || decide (o.f2 = r.f))) then
      .ok (some (t.map (fun r => (r.f, A.div (A.r (Num.mul (.fin size) r.val)) (maxSkip (t.map FeatRow.val))))))
    else .error .networkXError

/-- Models: `_visualizer.py:233-320` (`plot_interaction_graph`), as `plotGraph`. -/
def plotGraphR (E : VisEnv F K) (cfg : GraphCfg K) (size : K) (ovo : List (OvoRow F K)) (imp : Option (List (FeatRow F K)))
    (title : String) (asc directed : Bool) (o : Opts K) : Except Err (Panel F I K) :=
  let kept := filterInsignificant asc (o.threshold.getD cfg.threshold) ovo
  let widths := edgeWidthsR A asc (o.maxEdgeWidth.getD cfg.maxEdgeWidth) kept
  match graphNodesR A size ovo imp with
  | .error e => .error e
  | .ok nodes =>
    .ok (.graph (pickTitle title "Interaction graph") directed (edgeDict directed widths) nodes
      (if asc then [] else edgeLabels E (o.nHighest.getD cfg.nHighest) kept))

/-- The default numbers as floats: a default threshold such as `0.05` is the float next to it; `_configuration.py:9-19`. -/
def GraphCfg.floats (cfg : GraphCfg K) : GraphCfg K :=
  { cfg with threshold := match A.rnd cfg.threshold with
      | .fin t => t
      | _ => cfg.threshold }

/-- `plot("graph", title, max_edge_width=…, …, node_size=size)` of a method object, as `View.plot` and the branch for "graph" of
`visPlot`; `_method.py:141-151`, `_visualizer.py:26-106`. The default `node_size` is 1800 (`_configuration.py:17`). -/
def View.plotGraphR (E : VisEnv F K) (v : View F I K) (title : String) (o : Opts K) (size : K := 1800) :
    Except Err (List (Panel F I K)) :=
  if (if v.needsOva then v.ova.isNone else v.ovo.isNone) then .error .methodNotFitted
  else
    match v.impAsc with
    | none => .error .attributeError
    | some _ =>
      match configGet v.name with
      | .error e => .error e
      | .ok cfg =>
        if "graph" ∉ cfg.accepted then .error .visualizationNotSupported
        else
          match v.ovo with
          | none => .error .attributeError
          | some ovo =>
            (Artemis.plotGraphR A E (cfg.graph.floats A) size ovo v.imp title v.asc v.directed o).map (fun p => [p])

end Artemis
