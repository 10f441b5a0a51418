import Verif.Model.Py
import Mathlib.Data.List.Dedup
import Mathlib.Data.List.ProdSigma

/-!
# Specification of the model evaluations that partial dependence needs

The rows that have to be scored, written directly from the data and without reference to the calculator.
-/

set_option linter.unusedSectionVars false
set_option linter.unusedVariables false
set_option linter.unusedSimpArgs false

namespace Artemis
namespace Spec
variable {F V : Type*} [DecidableEq F] [LinearOrder V]

/-- the rows needed for the partial dependence of one feature: every data row with every value of the feature -/
def rowsSingle (X : Frame F V) (f : F) : List (Row F V) :=
  (X.col f).dedup.flatMap fun v => X.rows.map fun r => fun h => if h = f then v else r h

/-- the rows needed for the all-but-one partial dependence: every pair of data rows, the other features of the
first with the feature of the second -/
def rowsMinus (X : Frame F V) (f : F) : List (Row F V) :=
  X.rows.flatMap fun ri => X.rows.map fun rj => fun h => if h ∈ X.cols ∧ h ≠ f then ri h else rj h

/-- the pairs of values wanted for two features: all combinations, or those of the data rows -/
def pairVals (all : Bool) (X : Frame F V) (f f' : F) : List (V × V) :=
  if all then (X.col f).dedup.product (X.col f').dedup else X.rows.map fun r => (r f, r f')

/-- the rows needed for the partial dependence of two features at the wanted pairs of values -/
def rowsPair (all : Bool) (X : Frame F V) (f f' : F) : List (Row F V) :=
  (pairVals all X f f').flatMap fun v =>
    X.rows.map fun r => fun h => if h = f then v.1 else if h = f' then v.2 else r h

end Spec

end Artemis
