import Verif.Props.Sampling
import Verif.Model.SplitScore
import Verif.Model.CMD

/-!
# Property C111: what the random generator of an object is used for

Friedman's and Greenwell's methods, the stand-alone partial dependence importance, the additivity index.
-/

set_option linter.unusedSectionVars false
set_option linter.unusedVariables false
set_option linter.unusedSimpArgs false

namespace Artemis
open Spec

variable {F V K G L : Type} [DecidableEq F] [LinearOrder V] [DecidableEq L] [Field K] [LinearOrder K]
  [IsStrictOrderedRing K] [HasSqrt K]

/-- the generator after drawing the sample -/
theorem sample_rng (R : Rng G) (X : LFrame L F V) (n : Option Nat) (g : G) :
    (sampleIfNotNone R X n g).2 = match n with
      | none => g
      | some k => if k ≤ X.frame.rows.length then (R.sample g X.frame.rows.length k).2 else g := by
  unfold sampleIfNotNone
  cases n with
  | none => rfl
  | some k =>
    simp only
    by_cases h : X.frame.len < k
    · rw [if_pos h]
      exact (if_neg (Nat.not_le.2 h)).symm
    · rw [if_neg h]
      exact (if_pos (Nat.not_lt.1 h)).symm

theorem fitBase_rng (kind : PdKind) (E : PdEnv G F K) (a : PdArgs L F V K) (s0 : PdpMethod G L F V K) :
    (PdpMethod.fitBase kind E a s0).2.rng = (sampleIfNotNone E.R a.X a.n s0.rng).2 := by
  unfold PdpMethod.fitBase
  simp only
  cases sampleIfNotNone E.R a.X a.n s0.rng with
  | mk r g =>
    cases r with
    | error e => rfl
    | ok Xs =>
      simp only
      cases PdpMethod.chooseCalc a Xs (callable (getPredictFunction a.model a.predictFunction)) with
      | error e => rfl
      | ok co =>
        simp only [PdpMethod.onCalc]
        cases kind.ovo E Xs.frame (allIfNone a.X.frame.cols a.features)
          (combinations2 (allIfNone a.X.frame.cols a.features)) co.obj with
        | mk r1 c1 =>
          cases r1 with
          | error e => rfl
          | ok ovo =>
            simp only
            cases pdpImportance E.sortFeat (numIn E (allIfNone a.X.frame.cols a.features))
              (allIfNone a.X.frame.cols a.features) c1 with
            | mk r2 c2 => cases r2 <;> rfl

theorem onCalc_rng {α : Type} (m : PyM (Calc F V (Num K)) α) (s : PdpMethod G L F V K) :
    (PdpMethod.onCalc m s).2.rng = s.rng := by
  unfold PdpMethod.onCalc
  cases s.pdc <;> rfl

/-- **C111, one draw.** Whatever a fit does and whether it returns or raises, the generator of the object is left
where the drawing of the sample left it. -/
theorem C111_fit_draws_only_the_sample (kind : PdKind) (E : PdEnv G F K) (a : PdArgs L F V K)
    (s0 : PdpMethod G L F V K) :
    (PdpMethod.fit kind E a s0).2.rng =
      match a.n with
      | none => s0.rng
      | some k => if k ≤ a.X.frame.rows.length then (E.R.sample s0.rng a.X.frame.rows.length k).2 else s0.rng := by
  have hs := sample_rng E.R a.X a.n s0.rng
  rw [← hs, ← fitBase_rng kind E a s0]
  unfold PdpMethod.fit
  cases e : PdpMethod.fitBase kind E a s0 with
  | mk r s =>
    cases r with
    | error e => rfl
    | ok _ =>
      cases kind with
      | greenwell => rfl
      | friedman n =>
        simp only
        split
        · split
          · next Xs fs hx hf =>
            have := onCalc_rng (hstatOva E.sortFeat (callable s.predictFn) n Xs.frame fs) s
            cases e2 : PdpMethod.onCalc (hstatOva E.sortFeat (callable s.predictFn) n Xs.frame fs) s with
            | mk r2 s2 =>
              rw [e2] at this
              cases r2 <;> exact this
          · rfl
        · rfl

/-- **C111, one draw**, stand-alone importance -/
theorem C111_importance_draws_only_the_sample (E : PdEnv G F K) (a : PdArgs L F V K) (o : PdImpObj G L F V K) :
    (PdImpObj.run E a o).2.rng =
      match a.n with
      | none => o.rng
      | some k => if k ≤ a.X.frame.rows.length then (E.R.sample o.rng a.X.frame.rows.length k).2 else o.rng := by
  rw [← sample_rng E.R a.X a.n o.rng]
  unfold PdImpObj.run
  simp only
  cases sampleIfNotNone E.R a.X a.n o.rng with
  | mk r g =>
    cases r with
    | error e => rfl
    | ok Xs =>
      simp only
      cases PdpMethod.chooseCalc a Xs (callable (getPredictFunction a.model a.predictFunction)) with
      | error e => rfl
      | ok co =>
        simp only
        cases pdpImportance E.sortFeat (numIn E (allIfNone a.X.frame.cols a.features))
          (allIfNone a.X.frame.cols a.features) co.obj with
        | mk r2 c2 => cases r2 <;> rfl

/-- **C111, one draw**, additivity index -/
theorem C111_additivity_draws_only_the_sample (R : Rng G) (cp : F) (a : AddArgs L F V K) (m : AddMeter G L F V K) :
    (AddMeter.fit R cp a m).2.rng =
      match a.n with
      | none => m.rng
      | some k => if k ≤ a.X.frame.rows.length then (R.sample m.rng a.X.frame.rows.length k).2 else m.rng := by
  rw [← sample_rng R a.X a.n m.rng]
  unfold AddMeter.fit
  simp only
  cases sampleIfNotNone R a.X a.n m.rng with
  | mk r g =>
    cases r with
    | error e => rfl
    | ok Xs =>
      simp only
      cases PdpMethod.chooseCalc a.toPd Xs (callable (getPredictFunction a.model a.predictFunction)) with
      | error e => rfl
      | ok co =>
        simp only
        cases calcAdditivity cp (callable (getPredictFunction a.model a.predictFunction)) Xs.frame co.obj with
        | mk r2 c2 => cases r2 <;> rfl

theorem fitBase_change_rng (kind : PdKind) (E : PdEnv G F K) (R' : Rng G) (a : PdArgs L F V K)
    (s0 : PdpMethod G L F V K) (g' : G)
    (h : (sampleIfNotNone E.R a.X a.n s0.rng).1 = (sampleIfNotNone R' a.X a.n g').1) :
    PdpMethod.fitBase kind { E with R := R' } a { s0 with rng := g' } =
      ((PdpMethod.fitBase kind E a s0).1,
        { (PdpMethod.fitBase kind E a s0).2 with rng := (sampleIfNotNone R' a.X a.n g').2 }) := by
  unfold PdpMethod.fitBase
  simp only
  cases e1 : sampleIfNotNone E.R a.X a.n s0.rng with
  | mk r g =>
    cases e2 : sampleIfNotNone R' a.X a.n g' with
    | mk r' gg =>
      rw [e1, e2] at h
      simp only at h
      subst h
      cases r with
      | error e => rfl
      | ok Xs =>
        simp only
        cases PdpMethod.chooseCalc a Xs (callable (getPredictFunction a.model a.predictFunction)) with
        | error e => rfl
        | ok co =>
          simp only [PdpMethod.onCalc]
          have hk : kind.ovo { E with R := R' } Xs.frame (allIfNone a.X.frame.cols a.features)
            (combinations2 (allIfNone a.X.frame.cols a.features)) co.obj = kind.ovo E Xs.frame (allIfNone a.X.frame.cols a.features)
            (combinations2 (allIfNone a.X.frame.cols a.features)) co.obj := by cases kind <;> rfl
          have hn : numIn { E with R := R' } (allIfNone a.X.frame.cols a.features) =
            numIn E (allIfNone a.X.frame.cols a.features) := rfl
          rw [hk]
          cases kind.ovo E Xs.frame (allIfNone a.X.frame.cols a.features)
            (combinations2 (allIfNone a.X.frame.cols a.features)) co.obj with
          | mk r1 c1 =>
            cases r1 with
            | error e => rfl
            | ok ovo =>
              simp only [hn]
              cases pdpImportance E.sortFeat (numIn E (allIfNone a.X.frame.cols a.features))
                (allIfNone a.X.frame.cols a.features) c1 with
              | mk r2 c2 => cases r2 <;> rfl

/-- **C111, only the sample matters.** Two generators that draw the same sample give the same outcome and leave the
same object behind, up to the generators themselves. -/
theorem C111_only_the_sample_matters (kind : PdKind) (E : PdEnv G F K) (R' : Rng G) (a : PdArgs L F V K)
    (s0 : PdpMethod G L F V K) (g' : G)
    (h : (sampleIfNotNone E.R a.X a.n s0.rng).1 = (sampleIfNotNone R' a.X a.n g').1) :
    PdpMethod.fit kind { E with R := R' } a { s0 with rng := g' } =
      ((PdpMethod.fit kind E a s0).1,
        { (PdpMethod.fit kind E a s0).2 with rng := (sampleIfNotNone R' a.X a.n g').2 }) := by
  unfold PdpMethod.fit
  rw [fitBase_change_rng kind E R' a s0 g' h]
  cases e : PdpMethod.fitBase kind E a s0 with
  | mk r s =>
    cases r with
    | error e => rfl
    | ok _ =>
      cases kind with
      | greenwell => rfl
      | friedman n =>
        simp only
        by_cases ho : a.calculateOva = true
        · simp only [ho, if_true]
          obtain ⟨rng, model, pf, xs, fs, ps, pdc, ovo, ova, imp, io⟩ := s
          cases xs with
          | none => rfl
          | some Xs =>
            cases fs with
            | none => rfl
            | some fs =>
              cases pdc with
              | none => rfl
              | some co =>
                simp only [PdpMethod.onCalc]
                cases hstatOva E.sortFeat (callable pf) n Xs.frame fs co.obj with
                | mk r2 c2 => cases r2 <;> rfl
        · simp only [ho]
          rfl

/-- **C111, no sampling, no randomness.** With `n=None` the random state has no influence on the outcome of a fit. -/
theorem C111_no_sampling_no_randomness (kind : PdKind) (E : PdEnv G F K) (R' : Rng G) (a : PdArgs L F V K)
    (s0 : PdpMethod G L F V K) (g' : G) (hn : a.n = none) :
    PdpMethod.fit kind { E with R := R' } a { s0 with rng := g' } =
      ((PdpMethod.fit kind E a s0).1, { (PdpMethod.fit kind E a s0).2 with rng := g' }) := by
  have := C111_only_the_sample_matters kind E R' a s0 g' (by rw [hn]; rfl)
  rw [this, sample_rng, hn]

/-- **C111, no sampling, no randomness**, additivity index -/
theorem C111_additivity_no_sampling_no_randomness (R R' : Rng G) (cp : F) (a : AddArgs L F V K)
    (m : AddMeter G L F V K) (g' : G) (hn : a.n = none) :
    AddMeter.fit R' cp a { m with rng := g' } =
      ((AddMeter.fit R cp a m).1, { (AddMeter.fit R cp a m).2 with rng := g' }) := by
  unfold AddMeter.fit
  simp only [hn, sampleIfNotNone]
  cases PdpMethod.chooseCalc a.toPd a.X (callable (getPredictFunction a.model a.predictFunction)) with
  | error e => rfl
  | ok co =>
    simp only
    cases calcAdditivity cp (callable (getPredictFunction a.model a.predictFunction)) a.X.frame co.obj with
    | mk r2 c2 => cases r2 <;> rfl

/-- **C111, no sampling, no randomness**, stand-alone importance -/
theorem C111_importance_no_sampling_no_randomness (E : PdEnv G F K) (R' : Rng G) (a : PdArgs L F V K)
    (o : PdImpObj G L F V K) (g' : G) (hn : a.n = none) :
    PdImpObj.run { E with R := R' } a { o with rng := g' } =
      ((PdImpObj.run E a o).1, { (PdImpObj.run E a o).2 with rng := g' }) := by
  unfold PdImpObj.run
  simp only [hn, sampleIfNotNone]
  cases PdpMethod.chooseCalc a a.X (callable (getPredictFunction a.model a.predictFunction)) with
  | error e => rfl
  | ok co =>
    have hn : numIn { E with R := R' } (allIfNone a.X.frame.cols a.features) =
      numIn E (allIfNone a.X.frame.cols a.features) := rfl
    simp only [hn]
    cases pdpImportance E.sortFeat (numIn E (allIfNone a.X.frame.cols a.features))
      (allIfNone a.X.frame.cols a.features) co.obj with
    | mk r2 c2 => cases r2 <;> rfl

/-! ## C103 for the methods explaining trees -/

/-- **C103**, conditional minimal depth: whether or not the fit returns, the features and pairs recorded are those of
this forest -/
theorem C103_cmd_records_its_inputs {I : Type} (E : CmdEnv F I K) (m : Forest F) (s0 : CmdMethod F K) :
    (CmdMethod.fit E m s0).2.features = some m.columns ∧
    (CmdMethod.fit E m s0).2.pairs = some (combinations2 m.columns) := by
  unfold CmdMethod.fit
  simp only
  split
  · exact ⟨rfl, rfl⟩
  · split
    · exact ⟨rfl, rfl⟩
    · split <;> exact ⟨rfl, rfl⟩

/-- **C103**, split score: a returning fit records the two metrics it was asked for -/
theorem C103_split_score_records_its_metrics {I : Type} [LinearOrder F] [LinearOrder I] (E : SsEnv F K) (a : GbArg F I K)
    (inter imp : SsMetric) (onlyDef : Bool) (s0 s : SsMethod F I K)
    (hret : SsMethod.fit E a inter imp onlyDef s0 = (.ok (), s)) :
    s.metric = some inter ∧ s.impMetric = some (some imp) := by
  unfold SsMethod.fit at hret
  split at hret
  · cases hret
  simp only at hret
  split at hret
  · cases hret
  split at hret
  · cases hret
  split at hret
  · cases hret
  split at hret
  · cases hret
  · have := (Prod.mk.inj hret).2
    subst this
    exact ⟨rfl, rfl⟩

/-- **C103**, before any fit, methods explaining trees -/
theorem C103_new_tree_objects_are_empty {I : Type} :
    (∀ m : SsMethod F I K, m = SsMethod.new → m.metric.isNone ∧ m.fullResult.isNone ∧ m.fullOvo.isNone ∧ m.ovo.isNone ∧
      m.impMetric.isNone ∧ m.importance.isNone) ∧
    (∀ m : CmdMethod F K, m = CmdMethod.new → m.features.isNone ∧ m.pairs.isNone ∧ m.raw.isNone ∧ m.ovo.isNone ∧
      m.impObj = false ∧ m.importance.isNone) := by
  refine ⟨?_, ?_⟩ <;> rintro m rfl <;> simp [SsMethod.new, CmdMethod.new]

/-! ## Cases -/

section Cases
open Ex

/-- sampling 3 of 4 rows draws once, asking for 9 rows draws nothing -/
example : (PdpMethod.fit (G := Nat) (L := Nat) (K := ℚ) (.friedman true) exEnv { exArgs with n := some 3 }
    (PdpMethod.new 5)).2.rng = 6 :=
  C111_fit_draws_only_the_sample (.friedman true) (exEnv (K := ℚ)) { exArgs with n := some 3 } (PdpMethod.new (L := Nat) 5)
example : (PdpMethod.fit (G := Nat) (L := Nat) (K := ℚ) (.friedman true) exEnv { exArgs with n := some 9 }
    (PdpMethod.new 5)).2.rng = 5 :=
  C111_fit_draws_only_the_sample (.friedman true) (exEnv (K := ℚ)) { exArgs with n := some 9 } (PdpMethod.new (L := Nat) 5)

/-- two objects with different random states -/
example (s0 : PdpMethod Nat Nat (Fin 3) ℤ ℚ) (g' : Nat) :
    (PdpMethod.fit .greenwell { exEnv with R := exRng } exArgs { s0 with rng := g' }).2.ovo =
      (PdpMethod.fit .greenwell exEnv exArgs s0).2.ovo := by
  rw [C111_no_sampling_no_randomness .greenwell exEnv exRng exArgs s0 g' rfl]

end Cases

end Artemis
