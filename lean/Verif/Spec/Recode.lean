import Verif.Spec.Spread
import Mathlib.Logic.Equiv.Defs
import Mathlib.Data.List.Basic

/-!
# Specification vocabulary: the same explanation task written down differently

Rows in another order or repeated, features renamed, values recoded, predictions rescaled.
-/

namespace Artemis.Spec
variable {F V F' V' K : Type}

/-- `l'` consists of the elements of `l` in any order, all of them repeated in the same proportion -/
def Proportional {α : Type} (l l' : List α) : Prop :=
  ∃ m n : Nat, 0 < m ∧ 0 < n ∧ (List.replicate m l).flatten.Perm (List.replicate n l').flatten

/-- new names for all features and, for each feature, new codes for its values (different codes for different values) -/
structure Recoding (F V F' V' : Type) where
  name : F ≃ F'
  code : F → V → V'
  inj : ∀ f, Function.Injective (code f)

/-- a row with the new names and codes -/
def Recoding.row (ρ : Recoding F V F' V') (r : Row F V) : Row F' V' :=
  fun f' => ρ.code (ρ.name.symm f') (r (ρ.name.symm f'))

/-- nothing changes -/
def Recoding.same (F V : Type) : Recoding F V F V := ⟨Equiv.refl F, fun _ => id, fun _ => Function.injective_id⟩

/-- The model `u'` on the rows `rows'` is the model `u` on the rows `rows` after recoding, reordering and repeating rows, and
with predictions `c * p + d` in place of `p`. -/
structure SameTask [Field K] (ρ : Recoding F V F' V') (c d : K) (u : Row F V → K) (rows : List (Row F V))
    (u' : Row F' V' → K) (rows' : List (Row F' V')) : Prop where
  model : ∀ r, u' (ρ.row r) = c * u r + d
  data : Proportional (rows.map ρ.row) rows'

end Artemis.Spec
