import Verif.Model.Py

/-!
# Data with missing values
-/

namespace Artemis.Spec

/-- some row has no value in some column; `miss` recognises `NaN` -/
def HasMissing {F V : Type} (miss : V → Bool) (X : Frame F V) : Prop := ∃ r ∈ X.rows, ∃ f ∈ X.cols, miss (r f) = true

end Artemis.Spec
