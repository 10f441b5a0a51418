import Verif.Spec.Rounding

/-!
# Order and rounding
-/

namespace Artemis
variable {K : Type} [Field K] [LinearOrder K]

/-- Rounding keeps the order, 0 and 1, and the computed difference of two different numbers of the format is not 0 (gradual underflow). -/
structure Arith.Ordered (A : Arith K) : Prop where
  mono : ∀ x y, x ≤ y → Num.le (A.rnd x) (A.rnd y) = true
  zero : A.rnd 0 = .fin 0
  one : A.rnd 1 = .fin 1
  differ : ∀ x y, A.rnd x = .fin x → A.rnd y = .fin y → x < y → A.rnd (y - x) ≠ .fin 0

/-- the threshold in use: the one given, otherwise the float next to the default one -/
def UsedThreshold (A : Arith K) (given : Option K) (default t : K) : Prop := given = some t ∨ (given = none ∧ A.rnd default = .fin t)

end Artemis
