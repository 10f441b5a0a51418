import Verif.Model.Visual
import Verif.Model.Rounded

/-!
# The texts on the edges of the interaction graph: `artemis/visualizer/_visualizer.py:569-574`

`Model/Visual` says which rows are labelled (`edgeLabels`); this is the dictionary of texts made of them. Numbers are exact.
-/

namespace Artemis

section EdgeTexts
variable {F K : Type} [LinearOrder F] [Field K] [LinearOrder K]

/-- NumPy's `round(x, 2)`: multiply, nearest integer (ties to even), divide. -/
def round2 [FloorRing K] : Num K → Num K
  | .fin x => .fin ((roundEven (x * 100) : K) / 100)
  | v => v

/-- Models: `_visualizer.py:570-574`: the dictionary, a later row overwrites an earlier one with the same key. -/
def edgeTexts [FloorRing K] (labels : List (OvoRow F K)) : Dict (F × F) (Num K) :=
  labels.foldl (fun d r => Dict.set d (r.f1, r.f2) (round2 r.val)) []

end EdgeTexts

end Artemis
