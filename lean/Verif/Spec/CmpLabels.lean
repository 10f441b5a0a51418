import Verif.Model.CmpLabels

/-!
# Specification of the labels of a comparison plot
-/

namespace Artemis.Spec

section
variable {K : Type} [Field K] [LinearOrder K]

/-- `x` is at least as strong as `y` for a method where smaller (`asc`) or greater values are stronger; every number is stronger than
NaN -/
def AtLeastAsStrong (asc : Bool) (x y : Num K) : Prop :=
  y = .nan ∨ (x ≠ .nan ∧ (if asc then Num.le x y = true else Num.le y x = true))

/-- `m` is the greatest of the numbers `l` -/
def IsGreatestOf (l : List K) (m : K) : Prop := m ∈ l ∧ ∀ x ∈ l, x ≤ m

/-- `q` lies on the circle of radius `r` about `p`, not to the right of `p` -/
def OnLeftOf (p q : K × K) (r : K) : Prop :=
  (q.1 - p.1) ^ 2 + (q.2 - p.2) ^ 2 = r ^ 2 ∧ q.1 ≤ p.1

/-- `y` is `x` written with three digits after the point: a multiple of 1/1000, off by at most half of that -/
def ThreeDigits (x y : K) : Prop := (∃ z : ℤ, y * 1000 = z) ∧ |y - x| ≤ 1 / 2000

end

end Artemis.Spec
