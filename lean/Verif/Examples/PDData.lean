import Verif.Model.Num
import Verif.Model.PDCalc
import Verif.Spec.PD
import Mathlib.Data.Fin.VecNotation

/-!
# A concrete data set used by the non-vacuity examples

Three features, four rows, a model with a product term.
-/

namespace Artemis.Ex

/-- 4 rows, feature 0 takes the values 0,1; feature 1 the values 0,1; feature 2 the values 1,5. -/
def exX : Frame (Fin 3) ℤ := ⟨[0, 1, 2], [![0, 0, 1], ![0, 1, 5], ![1, 1, 5], ![1, 0, 1]]⟩

/-- x0 * x1 + x2 -/
def exG (r : Row (Fin 3) ℤ) : Num ℚ := .fin ((r 0 * r 1 + r 2 : ℤ) : ℚ)

/-- the model as a prediction function that never raises -/
def exP : Nat → List (Row (Fin 3) ℤ) → Except Err (List (Num ℚ)) := fun _ rows => .ok (rows.map exG)

/-- the same model, but the third prediction call raises -/
def exPFail : Nat → List (Row (Fin 3) ℤ) → Except Err (List (Num ℚ)) := fun n rows =>
  if n = 2 then .error (.userError 7) else .ok (rows.map exG)

theorem rowWise_p : RowWise exG exP := by
  intro n rows ys h; cases h; rfl

theorem neverFails_p : NeverFails exP := fun _ rows => ⟨rows.map exG, rfl⟩

theorem rowWise_pFail : RowWise exG exPFail := by
  intro n rows ys h
  unfold exPFail at h
  split at h
  · cases h
  · cases h; rfl

theorem readsOnly_g : ReadsOnly exG exX.cols := by
  intro r r' h
  simp only [exG, h 0 (by decide), h 1 (by decide), h 2 (by decide)]

/-- boolean test for results of getters -/
def isOk (r : Except Err (List (Num ℚ))) (l : List (Num ℚ)) : Bool :=
  match r with
  | .ok l' => l' = l
  | .error _ => false

/-- was the call successful? -/
def ok {α : Type*} (r : Except Err α) : Bool :=
  match r with
  | .ok _ => true
  | .error _ => false

theorem ok_unit {r : Except Err Unit} (h : ok r = true) : r = .ok () := by
  cases r with
  | ok u => rfl
  | error e => cases h

end Artemis.Ex
