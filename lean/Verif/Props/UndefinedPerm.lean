import Verif.Props.UndefinedScores

/-!
# C117 for permutation importance called on its own
-/

set_option linter.unusedSectionVars false
set_option linter.unusedVariables false
set_option linter.unusedSimpArgs false

namespace Artemis
open Spec

section
variable {G L F V K : Type} [LinearOrder F] [DecidableEq L] [LinearOrder V] [Field K] [LinearOrder K] [IsStrictOrderedRing K]
  [HasSqrt K]
variable {R : Rng G} {sort : List (FeatRow F K) → List (FeatRow F K)} {model : ModelObj F V (Num K)} {X : LFrame L F V} {y : Target L K}

/-- **C117, permutation importance on its own, MSE and RMSE.** The call returns a table about exactly the requested features. If a prediction
for the data, or for a data set in which the feature was permuted, is NaN or infinite, the importance of the feature is NaN or infinite. -/
theorem C117_permutation_importance_partial {P : List (Row F V) → List (Num K)} {o : PermObj G F K} (hR : R.Lawful)
    (hsort : SortsBy FeatRow.val false sort) (hM : o.metric = mseM ∨ o.metric = rmseM)
    (hP : PredictsNum model X.frame.rows.length P) (hy : y.values.length = X.frame.rows.length)
    {fs : List F} (hf : ∀ f ∈ fs, f ∈ X.frame.cols) (hne : fs ≠ []) (n : Nat) (calls : List (List (Row F V))) :
    ∃ t o' c', PermObj.run sort R model X y n (some fs) o calls = (.ok t, o', c') ∧ o'.importance = some t ∧
      (∀ f, f ∈ t.map FeatRow.f ↔ f ∈ fs) ∧
      ∀ row ∈ t, ((∃ q ∈ P X.frame.rows, ¬ IsFinite q) → ¬ IsFinite row.val) ∧
        ∀ k, (turns fs n)[k]? = some row.f →
          (∃ q ∈ P (permuted X.frame [row.f] (nthPerm R X.frame.rows.length o.rng k)), ¬ IsFinite q) → ¬ IsFinite row.val := by
  obtain ⟨sc, hsc, hfin⟩ := scoresNum_of_predicts hM hP hy
  obtain ⟨ks, h2, h3, h4⟩ := permImportance_num hR hsc hf hne (n := n) o.rng calls sort
  simp only [PermObj.run, h4]
  refine ⟨_, _, _, rfl, rfl, ?_, ?_⟩
  · intro f
    rw [((hsort _).1.map FeatRow.f).mem_iff, List.map_map]
    simpa [Function.comp_def] using h3 f
  intro row hrow
  have hrow' := (hsort _).1.mem_iff.1 hrow
  obtain ⟨f, hfk, rfl⟩ := List.mem_map.1 hrow'
  constructor
  · rintro ⟨q, hq, hqn⟩ hv
    exact hqn (hfin _ rfl (isFinite_sub (isFinite_negIfClass hv)).2 q hq)
  · rintro k hk ⟨q, hq, hqn⟩ hv
    refine hqn (hfin _ (length_permuted _ _ _) ?_ q hq)
    apply isFinite_mean (isFinite_sub (isFinite_negIfClass hv)).1
    unfold turnScores
    obtain ⟨hk1, hk2⟩ := List.getElem?_eq_some_iff.1 hk
    refine List.mem_map.2 ⟨(f, sc (permuted X.frame [f] (nthPerm R X.frame.rows.length o.rng k))), ?_, rfl⟩
    rw [List.mem_filter]
    refine ⟨List.mem_mapIdx.2 ⟨k, hk1, by simp only [hk2]⟩, by simp⟩

end

section Cases
open Ex

example : ∃ t o' c', PermObj.run (G := Nat) (stableSort FeatRow.val false) exRng2 exInfPerf exPerfX exPerfY 2 (some [0, 1]) (⟨5, mseM, none⟩ : PermObj Nat (Fin 3) ℚ) [] = (.ok t, o', c') ∧
    o'.importance = some t := by
  obtain ⟨t, o', c', h1, h2, _⟩ := C117_permutation_importance_partial (o := (⟨5, mseM, none⟩ : PermObj _ (Fin 3) ℚ)) exRng2_lawful (sortsBy_stableSort FeatRow.val false) (.inl rfl)
    (exInfPerf_predicts _) (X := exPerfX) (y := exPerfY) rfl (fs := [0, 1]) (by decide) (by simp) 2 []
  exact ⟨t, o', c', h1, h2⟩

/-- permuting the first or the second feature makes the prediction infinite for some row -/
example : ((PermObj.run (stableSort FeatRow.val false) exRng2 exInfPerf exPerfX exPerfY 2 (some [0, 1]) (⟨5, mseM, none⟩ : PermObj _ (Fin 3) ℚ) []).2.1.importance.map
    (fun t => t.map (fun r => (r.f, r.val)))) = some [(0, .pinf), (1, .pinf)] := by decide +kernel

end Cases
end Artemis
