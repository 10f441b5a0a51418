import Verif.Model.RoundedPerf
import Verif.Model.RoundedGreenwell
import Verif.Model.RoundedAdditivity

/-!
# The rounded models in exact arithmetic are the exact models

With the arithmetic that does not round and adds up exactly, the definitions of `Verif/Model/RoundedPerf.lean` are those of
`Verif/Model/Perf.lean`, and the formulas of `Verif/Model/Rounded.lean`, `RoundedGreenwell.lean` and `RoundedAdditivity.lean` are those of
the exact model. (For the whole PD-based fits see C143, C145 and C149, which compare them with the exact values.)
-/

set_option linter.unusedSectionVars false

namespace Artemis
variable {F V K G L : Type} [DecidableEq F] [Field K] [LinearOrder K]

/-- exact arithmetic -/
def exactArith : Arith K := ⟨.fin, Num.sum⟩

section Ops
theorem exact_r (a : Num K) : exactArith.r a = a := by cases a <;> rfl
theorem exact_add : (exactArith : Arith K).add = Num.add := by funext a b; exact exact_r _
theorem exact_sub : (exactArith : Arith K).sub = Num.sub := by funext a b; exact exact_r _
theorem exact_sq : (exactArith : Arith K).sq = Num.sq := by funext a; exact exact_r _
theorem exact_div : (exactArith : Arith K).div = Num.div := by funext a b; exact exact_r _
theorem exact_sqrt [HasSqrt K] : (exactArith : Arith K).sqrt = Num.sqrt := by funext a; exact exact_r _
theorem exact_mean : (exactArith : Arith K).mean = Num.mean := by funext l; exact exact_r _
theorem exact_center : (exactArith : Arith K).center = Num.center := by
  funext l
  unfold Arith.center Num.center
  rw [exact_sub, exact_mean]
theorem exact_subB : (exactArith : Arith K).subB = Num.subB := by
  funext u v
  unfold Arith.subB Num.subB
  rw [exact_sub]
  rcases u with _ | ⟨x, _ | ⟨x', u⟩⟩ <;> rcases v with _ | ⟨y, _ | ⟨y', v⟩⟩ <;> rfl
end Ops

/-! ### Performance-based methods -/

theorem mse_exact : mseMR exactArith = (mseM : Metric K) := by
  unfold mseMR mseM
  rw [exact_sub, exact_sq, exact_mean]

theorem rmse_exact [HasSqrt K] : rmseMR exactArith = (rmseM : Metric K) := by
  unfold rmseMR rmseM
  rw [mse_exact, exact_sqrt]

theorem accuracy_exact : accuracyMR exactArith = (accuracyM : Metric K) := by
  unfold accuracyMR accuracyM
  rw [exact_mean]

theorem permuteScore_exact : permuteScoreR (F := F) (V := V) (G := G) (exactArith : Arith K) = permuteScore := by
  funext R model M y X fs ref
  unfold permuteScoreR permuteScore
  rw [exact_sub]

theorem interScore_exact : interScoreR (F := F) (V := V) (G := G) (exactArith : Arith K) = interScore := by
  funext R model M y X f1 f2 ref
  unfold interScoreR interScore
  rw [exact_sub, permuteScore_exact]

theorem perfOvo_exact : perfOvoR (F := F) (V := V) (G := G) (exactArith : Arith K) = perfOvo := by
  funext sort R model M y X pairs n
  unfold perfOvoR perfOvo
  rw [interScore_exact, exact_mean]

theorem permImportance_exact : permImportanceR (F := F) (V := V) (G := G) (exactArith : Arith K) = permImportance := by
  funext sort R model M y X fs n
  unfold permImportanceR permImportance
  rw [exact_sub, exact_mean]
  cases fs <;> rfl

theorem run_exact : PermObj.runR (F := F) (V := V) (G := G) (L := L) (exactArith : Arith K) = PermObj.run := by
  funext sort R model X y n fs o calls
  unfold PermObj.runR PermObj.run
  rw [permImportance_exact]
  rcases permImportance sort R model o.metric y.values X.frame fs n ⟨o.rng, calls⟩ with ⟨_ | _, _⟩ <;> rfl

/-- Sejong Oh's `fit` in exact arithmetic -/
theorem sejong_fit_exact [DecidableEq L] : Sejong.fitR (F := F) (V := V) (G := G) (L := L) (exactArith : Arith K) = Sejong.fit := by
  funext E a entropy s
  unfold Sejong.fitR Sejong.fit
  rw [perfOvo_exact, run_exact]
  rcases sampleBoth E.R E.toInt a.X a.y a.n s.rng with ⟨_ | ⟨Xs, ys⟩, g⟩
  · rfl
  · simp only
    split <;> rename_i h <;> simp only [h]
    split <;> rename_i h' <;> simp only [h']

/-! ### Formulas of the PD-based methods -/

section PD
variable [LinearOrder V] [HasSqrt K]

theorem hstatValue_exact (l l' l'' : List (Rounded (exactArith : Arith K))) (normalized : Bool) :
    hstatValueR exactArith l l' l'' normalized =
      hstatValue (l.map Rounded.val) (l'.map Rounded.val) (l''.map Rounded.val) normalized := by
  unfold hstatValueR hstatValue
  rw [exact_center, exact_subB, exact_sq, exact_div, exact_sqrt, exact_mean]
  rfl

theorem npStd_exact : npStdR (exactArith : Arith K) = npStd := by
  funext l
  unfold npStdR npStd
  rw [exact_center, exact_sq, exact_sqrt, exact_mean]

theorem rangeImp_exact : rangeImpR (exactArith : Arith K) = rangeImp := by
  funext l
  unfold rangeImpR rangeImp
  rw [exact_div, exact_sub]
  cases Num.max? l <;> cases Num.min? l <;> rfl

theorem stdev_exact : stdevR (exactStd (exactArith : Arith K)) = stdev := by
  funext l
  unfold stdevR stdev exactStd
  simp only [exact_r]

theorem condImp_exact : condImpR (exactArith : Arith K) (exactStd exactArith) = condImp := by
  funext b l
  unfold condImpR condImp
  rw [stdev_exact, rangeImp_exact]

theorem stdevOfImp_exact : stdevOfImpR (exactArith : Arith K) (exactStd exactArith) = stdevOfImp := by
  funext b l
  unfold stdevOfImpR stdevOfImp
  rw [stdev_exact, condImp_exact]

theorem rowSums_exact : rowSumsR (exactArith : Arith K) = rowSums := by
  funext n l
  rfl

end PD
end Artemis
