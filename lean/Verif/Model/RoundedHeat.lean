import Verif.Model.Rounded
import Verif.Model.Method

/-!
# The heatmap in floating-point arithmetic

The same code as `plotHeatmap` in `Verif/Model/Visual.lean` (`artemis/visualizer/_visualizer.py:150-231`, `:622-639`), with every
arithmetic operation rounded (`Arith`). Only the scores that features are ordered by are computed (`x * 1` is exact), everything else is
copying and comparing.
-/

namespace Artemis
variable {F I K : Type} [LinearOrder F] [Field K] [LinearOrder K] (A : Arith K)

/-- The score of a feature; `_visualizer.py:631-634`, as `heatScore`. -/
def heatScoreR (m : Mat F K) (diag : Dict F (Num K)) (l1 l2 : Num K) (f : F) : Except Err (Num K) :=
  match Dict.get? diag f with
  | none => .error .keyError
  | some d =>
    if f ∈ m.cols then
      match pyMax ((m.rows.erase f).map (fun g => m.cell g f)) with
      | .error e => .error e
      | .ok mx => .ok (A.add (A.div d l1) (A.div mx l2))
    else .error .keyError

/-- The dictionary `scores`; `_visualizer.py:623-634`, as `heatScores`. -/
def heatScoresR (lower : F → F) (m : Mat F K) : Except Err (Dict F (Num K)) :=
  match diagSeries m with
  | .error e => .error e
  | .ok diag =>
    let l1 := maxSkip (diag.map Prod.snd)
    let l2 := maxSkip (m.cols.map (fun g => maxSkip (m.rows.map (fun f => m.cell f g))))
    m.rows.foldlM (fun acc f => (heatScoreR A m diag l1 l2 f).map (fun s => Dict.set acc (lower f) s)) []

/-- Models: `_visualizer.py:622-639` (`order_heatmap`), as `orderHeatmap`. -/
def orderHeatmapR (E : VisEnv F K) (m : Mat F K) (asc : Bool) : Except Err (Mat F K) :=
  match heatScoresR A E.lower m with
  | .error e => .error e
  | .ok scores =>
    let ind := E.sortIdx (fun f => (Dict.get? scores (E.lower f)).getD .nan) asc m.rows
    .ok { rows := ind, cols := ind, cell := m.cell }

/-- Models: `_visualizer.py:150-231` (`plot_heatmap`), as `plotHeatmap`. -/
def plotHeatmapR (E : VisEnv F K) (ovo : List (OvoRow F K)) (imp : Option (List (FeatRow F K))) (title : String)
    (asc impAsc directed : Bool) : Except Err (Panel F I K) :=
  match heatmapRows directed ovo imp with
  | .error e => .error e
  | .ok rows =>
    match orderHeatmapR A E (pivotFirst rows) asc with
    | .error e => .error e
    | .ok m => .ok (.heatmap (pickTitle title "Interaction matrix") impAsc asc m)

/-- `method.plot(vis_type="heatmap")`; as `View.plot` and the branch for "heatmap" of `visPlot`; `_method.py:141-151`,
`_visualizer.py:26-106`. -/
def View.plotHeatmapR (E : VisEnv F K) (v : View F I K) (title : String) : Except Err (List (Panel F I K)) :=
  if (if v.needsOva then v.ova.isNone else v.ovo.isNone) then .error .methodNotFitted
  else
    match v.impAsc with
    | none => .error .attributeError
    | some ia =>
      match (configGet v.name : Except Err (VisConfig K)) with
      | .error e => .error e
      | .ok cfg =>
        if "heatmap" ∉ cfg.accepted then .error .visualizationNotSupported
        else
          match v.ovo with
          | none => .error .attributeError
          | some ovo => (Artemis.plotHeatmapR A E ovo v.imp title v.asc ia v.directed).map (fun p => [p])

end Artemis
