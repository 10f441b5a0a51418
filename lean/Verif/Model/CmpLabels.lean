import Verif.Model.Comparator
import Verif.Model.Rounded
import Verif.Model.Zenplot

/-!
# The texts of a comparison plot: `artemis/comparison/_method_comparator.py:119`, `:131-132`, `:187-219`

Where the labels of the pairs stand, what the correlation box says and what the title is. Numbers are exact. `random.random()`
is a parameter.
-/

namespace Artemis

/-- `math.pi`, `math.cos`, `math.sin` -/
class HasTrig (K : Type) where
  pi : K
  cos : K → K
  sin : K → K

/-- What is used of them. -/
class LawfulTrig (K : Type) [Field K] [LinearOrder K] [HasTrig K] : Prop where
  pi_pos : (0 : K) < HasTrig.pi
  circle : ∀ x : K, HasTrig.cos x * HasTrig.cos x + HasTrig.sin x * HasTrig.sin x = 1
  left : ∀ x : K, HasTrig.pi / 2 ≤ x → x ≤ HasTrig.pi + HasTrig.pi / 2 → HasTrig.cos x ≤ 0

section Labels
variable {F I J K : Type} [LinearOrder F] [LinearOrder J] [Field K] [LinearOrder K] [HasTrig K]

/-- Models: `artemis/_utilities/ops.py:57-59` (`point_left_side_circle`); `u` is what `random.random()` returned. -/
def pointLeftSideCircle (u : K) (x y r : Num K) : Num K × Num K :=
  let alpha := HasTrig.pi * u + HasTrig.pi / 2
  (Num.add (Num.mul r (.fin (HasTrig.cos alpha))) x, Num.add (Num.mul r (.fin (HasTrig.sin alpha))) y)

/-- Models: `_method_comparator.py:119` (`circle_r`). -/
def circleR (t1 t2 : List (OvoRow F K)) : Except Err (Num K) :=
  match pyMax (t1.map OvoRow.val) with
  | .error e => .error e
  | .ok a =>
    match pyMax (t2.map OvoRow.val) with
    | .error e => .error e
    | .ok b => .ok (Num.mul (.fin (2 / 10)) (pyMin2 a b))

/-- Models: `_method_comparator.py:207-219` (`_add_arrow`): the text (its two parts are joined by a dash), where the arrow points to,
where the text stands. Styles are dropped. -/
structure Arrow (F K : Type) where
  f1 : F
  f2 : F
  at_ : Num K × Num K
  text : Num K × Num K

/-- `str.capitalize` of the names of the correlations -/
def CorrKind.capitalized : CorrKind → String
  | .pearson => "Pearson"
  | .kendall => "Kendall"
  | .spearman => "Spearman"

/-- NumPy's `round(x, 3)`: multiply, nearest integer (ties to even), divide. -/
def round3 [FloorRing K] : Num K → Num K
  | .fin x => .fin ((roundEven (x * 1000) : K) / 1000)
  | v => v

/-- The texts of a comparison plot. -/
structure CmpTexts (F K : Type) where
  title : String
  arrows : List (Arrow F K)
  /-- heading and lines of the box: text before and number after the `=` -/
  box : Option (String × List (String × Num K))

/-- Models: `_method_comparator.py:87-149` with `_title_x_y` (`:187-190`), `_add_correlation_box` (`:193-204`) and `_add_arrow`
(`:207-219`): what `comparison_plot` draws and writes. `us i` is the random number of the `i`-th label. -/
def Comparator.comparisonTexts [HasSqrt K] [FloorRing K] (join : F → F → J) (m1 m2 : View F I K) (nLabels : Int) (addBox : Bool)
    (us : Nat → K) (c : Comparator F K) : Except Err (CmpPlot F K × CmpTexts F K) :=
  match Comparator.comparisonPlot join m1 m2 nLabels addBox c with
  | .error e => .error e
  | .ok p =>
    match m1.cmp with
    | .error e => .error e
    | .ok t1 =>
      match m2.cmp with
      | .error e => .error e
      | .ok t2 =>
        match circleR t1 t2 with
        | .error e => .error e
        | .ok r =>
          .ok (p, {
            title := m1.name ++ "\nand\n" ++ m2.name ++ "\nComparison"
            arrows := p.labels.zipIdx.map (fun q =>
              ⟨q.1.1, q.1.2.1, (q.1.2.2.1, q.1.2.2.2), pointLeftSideCircle (us q.2) q.1.2.2.1 q.1.2.2.2 r⟩)
            box := p.box.map (fun l => ("Feature pairs rank correlation", l.map (fun q => (q.1.capitalized, round3 q.2)))) })

end Labels

end Artemis
