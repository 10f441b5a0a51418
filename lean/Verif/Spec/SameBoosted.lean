import Verif.Spec.Gb

/-!
# Specification vocabulary: the same boosted trees listed differently
-/

namespace Artemis.Spec

variable {F F' I I' K : Type} [Mul K]

/-- `t'` is `t` with features renamed by `ρ`, gains multiplied by `c`, any IDs, any values at the leaves, and left and right
exchanged at any of the splits. -/
inductive SameBoosted (ρ : F → F') (c : K) : GTree F I K → GTree F' I' K → Prop
  | leaf (i j v v' w w') : SameBoosted ρ c (.leaf i v w) (.leaf j v' w')
  | split (i j f g w) {l r l' r'} : SameBoosted ρ c l l' → SameBoosted ρ c r r' →
      SameBoosted ρ c (.split i f g w l r) (.split j (ρ f) (c * g) w l' r')
  | mirrored (i j f g w) {l r l' r'} : SameBoosted ρ c l r' → SameBoosted ρ c r l' →
      SameBoosted ρ c (.split i f g w l r) (.split j (ρ f) (c * g) w l' r')

/-- The tree is not just a leaf. -/
def GTree.hasSplit : GTree F I K → Bool
  | .leaf _ _ _ => false
  | .split _ _ _ _ _ _ => true

/-- `ts'` consists of `n` copies of the same trees as `ts`, in any order, apart from trees that are just a leaf (boosting rounds
that found no split): of those either may have any number, anywhere. -/
def SameBoostedForest (ρ : F → F') (c : K) (n : Nat) (ts : List (GTree F I K)) (ts' : List (GTree F' I' K)) : Prop :=
  ∃ us, List.Forall₂ (SameBoosted ρ c) (ts.filter GTree.hasSplit) us ∧
    (ts'.filter GTree.hasSplit).Perm (List.replicate n us).flatten

end Artemis.Spec

namespace Artemis

/-- By what a metric is multiplied if all trees are taken `n` times: sums and frequencies, not means. -/
def SsMetric.timesTrees (n : Nat) : SsMetric → Nat
  | .sumGain | .sumCover | .rootFrequency | .weightedRootFrequency => n
  | _ => 1

/-- By what a metric is multiplied if all gains are multiplied by `c`. -/
def SsMetric.timesGain {K : Type} [One K] (c : K) : SsMetric → K
  | .sumGain | .meanGain => c
  | _ => 1

end Artemis
