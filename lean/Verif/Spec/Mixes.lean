import Verif.Model.Py

/-!
# Mixtures of observed values

Written from the data alone.
-/

namespace Artemis
namespace Spec

/-- every value of the row occurs in the data, in the same column -/
def Mixes {F V : Type*} (X : Frame F V) (r : Row F V) : Prop := ∀ f, ∃ r0 ∈ X.rows, r f = r0 f

/-- the two prediction functions answer alike (the same numbers or the same exception) whenever they are asked about
mixtures of observed values only -/
def SameOnMixes {F V N : Type*} (X : Frame F V) (p p' : Nat → List (Row F V) → Except Err (List N)) : Prop :=
  ∀ n rows, (∀ r ∈ rows, Mixes X r) → p' n rows = p n rows

end Spec
end Artemis
