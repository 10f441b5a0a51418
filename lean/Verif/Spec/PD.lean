import Verif.Model.Py

/-!
# Specification of partial dependence

Written without reference to the calculator: the brute-force definitions
(the same as `artemis/_utilities/ops.py:44-47`, `partial_dependence_value`).
-/

namespace Artemis

/-- The prediction function scores every row on its own with `g`, whenever it returns. -/
def RowWise {F V N : Type*} (g : Row F V → N) (p : Nat → List (Row F V) → Except Err (List N)) : Prop :=
  ∀ n rows ys, p n rows = .ok ys → ys = rows.map g

/-- The prediction function never raises. -/
def NeverFails {F V N : Type*} (p : Nat → List (Row F V) → Except Err (List N)) : Prop :=
  ∀ n rows, ∃ ys, p n rows = .ok ys

/-- The model looks at the listed columns only. -/
def ReadsOnly {F V N : Type*} (g : Row F V → N) (cols : List F) : Prop :=
  ∀ r r' : Row F V, (∀ f ∈ cols, r f = r' f) → g r = g r'

namespace Spec
variable {F V N : Type*} [DecidableEq F] [Flt N]

/-- mean prediction over the data with feature `f` set to `v` -/
def pdSingle (g : Row F V → N) (X : Frame F V) (f : F) (v : V) : N :=
  Flt.mean (X.rows.map (fun r => g (fun h => if h = f then v else r h)))

/-- mean prediction over the data with feature `f` set to `v` and feature `f'` set to `v'` -/
def pdPair (g : Row F V → N) (X : Frame F V) (f f' : F) (v v' : V) : N :=
  Flt.mean (X.rows.map (fun r => g (fun h => if h = f then v else if h = f' then v' else r h)))

/-- mean over the data rows `rj` of the prediction for `ri` with its value of `f` replaced by that of `rj` -/
def pdMinus (g : Row F V → N) (X : Frame F V) (f : F) (ri : Row F V) : N :=
  Flt.mean (X.rows.map (fun rj => g (fun h => if h = f then rj f else ri h)))

end Spec
end Artemis
