import Mathlib.Algebra.Order.Field.Basic

/-!
# Scores of the features of a heatmap
-/

namespace Artemis.Spec
variable {F K : Type} [Field K] [LinearOrder K]

/-- `x` is the score of `f`: its diagonal entry relative to `D`, plus the greatest other entry of its column relative to `X` -/
def IsHeatScore (rows : List F) (v : F → F → K) (D X : K) (f : F) (x : K) : Prop :=
  ∃ c, x = v f f / D + c / X ∧ (∃ g ∈ rows, g ≠ f ∧ c = v g f) ∧ ∀ g ∈ rows, g ≠ f → v g f ≤ c

/-- `g` is at least as important as `f`, and its strongest interaction is at least as strong -/
def Dominates (rows : List F) (v : F → F → K) (g f : F) : Prop :=
  v f f ≤ v g g ∧ ∀ h ∈ rows, h ≠ f → ∃ h' ∈ rows, h' ≠ g ∧ v h f ≤ v h' g

end Artemis.Spec
