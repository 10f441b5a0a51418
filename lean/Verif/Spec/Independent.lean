import Verif.Spec.Decomp

/-!
# Specification vocabulary: a feature that varies independently of the others in the data
-/

namespace Artemis.Spec
variable {F V : Type} [DecidableEq F]

/-- In the data, feature `f` varies independently of the other features: giving every row the `f`-value of every row
yields exactly the data again, each row as many times as there are rows. (True for instance of data that hold every
combination of some values of the features once.) -/
def Independent (X : Frame F V) (f : F) : Prop :=
  (X.rows.flatMap (fun r => X.rows.map (fun s => setF r f (s f)))).Perm
    (List.replicate X.rows.length X.rows).flatten

instance [DecidableEq (Row F V)] (X : Frame F V) (f : F) : Decidable (Independent X f) := by
  unfold Independent; infer_instance

/-- the variation over the data of the effect feature `f` has by itself -/
def effectSq {K : Type} [Field K] (u : Row F V → K) (X : Frame F V) (f : F) : K :=
  sumSq X (centred X (fun r => pd1 u X f (r f)))

end Artemis.Spec
