import Verif.Props.Sizes
import Verif.Props.UndefinedScores

/-!
# C107: accuracy of predictions that need not be finite
-/

set_option linter.unusedSectionVars false
set_option linter.unusedVariables false
set_option linter.unusedSimpArgs false

namespace Artemis
open Spec

variable {F V K G L : Type} [DecidableEq F] [DecidableEq L] [Field K] [LinearOrder K] [IsStrictOrderedRing K]
variable {R : Rng G} {model : ModelObj F V (Num K)} {X : LFrame L F V} {y : Target L K} {fs : List F} {n : Nat}
  {sort : List (FeatRow F K) → List (FeatRow F K)}

/-- the accuracy of predictions of any kind, also NaN and infinite ones, is the share of equal entries: a finite number -/
theorem accuracy_finite {yt yh : List (Num K)} (h : yh.length = yt.length) (hne : yt ≠ []) :
    accuracyM.calculate yt yh = .ok (.fin (average (List.zipWith (fun t q => if Num.eqv t q then (1 : K) else 0) yt yh))) := by
  have e : List.zipWith (fun t q : Num K => if Num.eqv t q then (.fin 1 : Num K) else .fin 0) yt yh =
      (List.zipWith (fun t q => if Num.eqv t q then (1 : K) else 0) yt yh).map Num.fin := by
    rw [List.map_zipWith]
    congr 1
    funext t q
    split <;> rfl
  have hn : List.zipWith (fun t q : Num K => if Num.eqv t q then (1 : K) else 0) yt yh ≠ [] := by
    intro h0
    have := congrArg List.length h0
    simp only [List.length_zipWith, h, Nat.min_self, List.length_nil] at this
    exact hne (List.length_eq_zero_iff.mp this)
  simp only [accuracyM, elementwise, if_pos h.symm, bind, Except.bind, e, mean_fin_list _ hn]

/-- a model that gives one prediction per row has scores, with accuracy -/
theorem scores_of_any_predictions {yt : List (Num K)} {len : Nat} {P : List (Row F V) → List (Num K)}
    (hP : PredictsNum model len P) (hy : yt.length = len) (hlen : 0 < len) :
    Scores model accuracyM yt len fun rows => average (List.zipWith (fun t q => if Num.eqv t q then (1 : K) else 0) yt (P rows)) := by
  obtain ⟨p, hp, h⟩ := hP
  refine ⟨p, hp, fun k rows hl => ⟨_, (h k rows hl).1, accuracy_finite ?_ ?_⟩⟩
  · rw [(h k rows hl).2, hy]
  · intro e
    rw [e] at hy
    simp at hy
    omega

/-- **C107, accuracy, any predictions.** One prediction per row, possibly NaN or infinite, non-empty data: the importances are finite and
lie between `a - 1` and `a`, where `a` is the share of rows predicted correctly. -/
theorem C107_accuracy_any_predictions_partial [HasSqrt K] {o : PermObj G F K} (hR : R.Lawful) (hsort : SortsBy FeatRow.val false sort)
    (hM : o.metric = accuracyM) {P : List (Row F V) → List (Num K)} (hP : PredictsNum model X.frame.rows.length P)
    (hy : y.values.length = X.frame.rows.length) (hX : X.frame.rows ≠ [])
    (hfs : ∀ f ∈ fs, f ∈ X.frame.cols) (hne : fs ≠ []) (hn : 0 < n) (calls : List (List (Row F V))) :
    ∃ t o' c', ∃ acc : K, PermObj.run sort R model X y n (some fs) o calls = (.ok t, o', c') ∧
      acc = average (List.zipWith (fun t q => if Num.eqv t q then (1 : K) else 0) y.values (P X.frame.rows)) ∧ 0 ≤ acc ∧ acc ≤ 1 ∧
      ∀ row ∈ t, ∃ x : K, row.val = .fin x ∧ acc - 1 ≤ x ∧ x ≤ acc := by
  have hs := scores_of_any_predictions hP hy (List.length_pos_iff.mpr hX)
  obtain ⟨t, o', c', h1, h2, h3, h4⟩ := C107_accuracy_importance_partial hR hsort hM (by rw [hM]; exact hs) hfs hne hn calls
  exact ⟨t, o', c', _, h1, rfl, h2, h3, h4⟩

section Cases
open Ex

/-- predictions: NaN where feature 0 is 1, infinite where it is 2, otherwise the product of the first two features -/
def wildPredict (r : Row (Fin 3) ℤ) : Num ℚ := if r 0 = 1 then .nan else if r 0 = 2 then .pinf else .fin ((r 0 * r 1 : ℤ) : ℚ)

def wildModel : ModelObj (Fin 3) ℤ (Num ℚ) :=
  { ident := 1, predict := some (fun _ rows => .ok (rows.map wildPredict)), predictProba := none }

/-- one row of three is predicted correctly, one prediction is NaN and one infinite -/
example : exPerfX.frame.rows.map wildPredict = [.nan, .pinf, .fin 12] ∧ ∃ t o' c', ∃ acc : ℚ,
    PermObj.run (L := Nat) (stableSort FeatRow.val false) exRng wildModel exPerfX exPerfY 2 (some [2, 0, 1])
      (⟨0, accuracyM, none⟩ : PermObj Nat (Fin 3) ℚ) [] = (.ok t, o', c') ∧ acc = 1 / 3 ∧
    ∀ row ∈ t, ∃ x : ℚ, row.val = .fin x ∧ acc - 1 ≤ x ∧ x ≤ acc := by
  refine ⟨by decide +kernel, ?_⟩
  obtain ⟨t, o', c', acc, h1, h2, _, _, h3⟩ := C107_accuracy_any_predictions_partial (model := wildModel) (X := exPerfX) (y := exPerfY)
    (P := fun rows => rows.map wildPredict) (sort := stableSort FeatRow.val false) (R := exRng) (n := 2) (fs := [2, 0, 1])
    (o := (⟨0, accuracyM, none⟩ : PermObj Nat (Fin 3) ℚ)) exRng_lawful (sortsBy_stableSort _ _) rfl
    ⟨_, rfl, fun k rows hl => ⟨rfl, by simpa using hl⟩⟩ rfl (by decide) (by simp [exPerfX]) (by simp) (by simp) []
  exact ⟨t, o', c', acc, h1, h2.trans (by decide +kernel), h3⟩

end Cases
end Artemis
