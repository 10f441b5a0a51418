import Verif.Model.Visual

/-!
# Colours of the heatmap: `artemis/visualizer/_visualizer.py:165-171`, `:206-231`, `artemis/visualizer/_configuration.py:22-32`

`plot_heatmap` draws two seaborn heatmaps over each other: the diagonal (importance) and the rest (interactions). Each has its
own colour map and its own scale. Only the darkness of a cell is modelled.
-/

namespace Artemis

section Colours
variable {F K : Type} [DecidableEq F] [Field K] [LinearOrder K]

/-- Models: `_visualizer.py:165-167` with `_configuration.py:24-25`; `mine` is the keyword `interaction_color_map`. -/
def interactionMap (mine : Option String) (reversed : Bool) : String :=
  mine.getD (if !reversed then "Purples" else "Purples_r")

/-- Models: `_visualizer.py:168-171` with `_configuration.py:26-27`; `mine` is the keyword `importance_color_map`. -/
def importanceMap (mine : Option String) (reversed : Bool) : String :=
  mine.getD (if !reversed then "Greens" else "Greens_r")

/-- The cells seaborn draws with `mask=off_diag_mask` (`np.eye` of the size of the matrix); `_visualizer.py:206`, `:220-231`. -/
def offCells (m : Mat F K) : List (Num K) :=
  m.rows.zipIdx.flatMap (fun fi => (m.cols.zipIdx.filter (fun gj => decide (gj.2 ≠ fi.2))).map (fun gj => m.cell fi.1 gj.1))

/-- The cells seaborn draws with `mask=~off_diag_mask`; `_visualizer.py:208-219`. -/
def diagCells (m : Mat F K) : List (Num K) := (m.rows.zip m.cols).map (fun q => m.cell q.1 q.2)

/-- The position of a value on the colour scale: seaborn takes the least and the greatest number among the cells it draws,
matplotlib's `Normalize` maps them to 0 and 1 (everything to 0 if they coincide). -/
def scalePosition (drawn : List (Num K)) (x : Num K) : Num K :=
  if minSkip drawn = maxSkip drawn then .fin 0
  else Num.div (Num.sub x (minSkip drawn)) (Num.sub (maxSkip drawn) (minSkip drawn))

/-- The darkness of a position in a colour map of matplotlib. `Purples` and `Greens` go from light to dark; the suffix `_r`
reverses a colour map. Others are not modelled. -/
def darkness (map : String) (t : Num K) : Option (Num K) :=
  if map = "Purples" ∨ map = "Greens" then some t
  else if map = "Purples_r" ∨ map = "Greens_r" then some (Num.sub (.fin 1) t)
  else none

/-- Darkness of a cell off the diagonal showing `x`. -/
def interShade (m : Mat F K) (mine : Option String) (reversed : Bool) (x : Num K) : Option (Num K) :=
  darkness (interactionMap mine reversed) (scalePosition (offCells m) x)

/-- Darkness of a diagonal cell showing `x`. -/
def impShade (m : Mat F K) (mine : Option String) (reversed : Bool) (x : Num K) : Option (Num K) :=
  darkness (importanceMap mine reversed) (scalePosition (diagCells m) x)

end Colours

end Artemis
