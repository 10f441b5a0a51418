import Verif.Model.PdImportance
import Verif.Props.Greenwell
import Verif.Props.Sejong

/-!
# Properties C20 (stand-alone), C67, C31

Setting as in `Verif/Props/HStat.lean`; the generator of the importance object plays the role of the method's.
-/

set_option linter.unusedSectionVars false
set_option linter.unusedVariables false
set_option linter.unusedSimpArgs false

namespace Artemis
open Spec

variable {F V K G L : Type} [DecidableEq F] [LinearOrder V] [DecidableEq L] [Field K] [LinearOrder K]
  [IsStrictOrderedRing K] [HasSqrt K]
variable {g : Row F V → Num K} {E : PdEnv G F K} {a a' : PdArgs L F V K} {o o' : PdImpObj G L F V K}
  {s0 s : PdpMethod G L F V K} {Xs : LFrame L F V} {t : List (FeatRow F K)}

section helpers

/-- a returning call -/
theorem pdImp_ok (hs : FitSetup g E a (PdpMethod.new o.rng) Xs) (h : PdImpObj.run E a o = (.ok t, o')) :
    o'.importance = some t ∧ ∃ rows, a.feats.mapM (impRow E g Xs.frame a.feats) = .ok rows ∧
      t = (E.sortFeat rows).map FeatRow.fillna := by
  cases eX : sampleIfNotNone E.R a.X a.n o.rng with
  | mk rX rng =>
    have hXs := hs.sampled
    have eX' : sampleIfNotNone E.R a.X a.n (PdpMethod.new o.rng : PdpMethod G L F V K).rng = (rX, rng) := eX
    rw [eX'] at hXs
    simp only at hXs
    subst hXs
    unfold PdImpObj.run at h
    simp only [eX] at h
    cases ec : PdpMethod.chooseCalc a Xs a.pf with
    | error e =>
      unfold PdArgs.pf at ec
      simp only [ec] at h
      cases h
    | ok co =>
      have ch := chosen_of_ok hs ec
      unfold PdArgs.pf at ec
      simp only [ec] at h
      cases e2 : pdpImportance E.sortFeat (numIn E a.feats) a.feats co.obj with
      | mk r2 c2 =>
        have e2' : pdpImportance E.sortFeat (numIn E (allIfNone a.X.frame.cols a.features))
          (allIfNone a.X.frame.cols a.features) co.obj = (r2, c2) := e2
        simp only [e2'] at h
        cases r2 with
        | error e => cases h
        | ok imp =>
          obtain ⟨hf, hd, rowsI, hI1, hI2⟩ := imp_ok ch.good ch.same hs.reads e2
          cases h
          exact ⟨rfl, rowsI, hI1, hI2⟩

end helpers

/-- **C20**, stand-alone use: a returning call of `PartialDependenceBasedImportance.importance` on non-empty data
returns (and stores) a table listing exactly the requested features in non-increasing order of finite non-negative
values, 0 for ignored features. -/
theorem C20_standalone_pd_importance [LawfulSqrt K] {u : Row F V → K}
    (hs : FitSetup (finM u) E a (PdpMethod.new o.rng) Xs) (hX : Xs.frame.rows ≠ [])
    (hsort : SortsBy FeatRow.val false E.sortFeat) (h : PdImpObj.run E a o = (.ok t, o')) :
    o'.importance = some t ∧ (t.map (·.f)).Perm (a.features.getD a.X.frame.cols) ∧
      (∀ row ∈ t, ∃ k : K, row.val = .fin k ∧ 0 ≤ k) ∧
      t.Pairwise (fun r r' => Num.le r'.val r.val = true) ∧
      (∀ row ∈ t, Ignores u row.f → row.val = .fin 0) := by
  obtain ⟨h1, rows, h2, h3⟩ := pdImp_ok hs h
  exact ⟨h1, impTable_props hX hsort h2 h3⟩

/-- **C67.** The stand-alone importance of the same rows, predictions and features is exactly the
`feature_importance` table that a `fit` of either method leaves behind — whatever batch sizes, supplied calculators,
sampling and earlier history on the two sides. -/
theorem C67_standalone_importance_agrees_with_fit (kind : PdKind) (hs : FitSetup g E a s0 Xs)
    (hs' : FitSetup g E a' (PdpMethod.new o.rng) Xs)
    (hfeat : a'.features.getD a'.X.frame.cols = a.features.getD a.X.frame.cols)
    (hret : PdpMethod.fit kind E a s0 = (.ok (), s)) (h : PdImpObj.run E a' o = (.ok t, o')) :
    s.importance = some t := by
  obtain ⟨rows, h1, h2⟩ := (fit_ok hs hret).imp
  obtain ⟨_, rows', h3, h4⟩ := pdImp_ok hs' h
  have hf : a'.feats = a.feats := hfeat
  rw [hf, h1] at h3
  cases h3
  rw [h2, h4]

/-- **C67.** With a prediction function that never fails, whenever `fit` returned so does the stand-alone call. -/
theorem C67_standalone_importance_returns_partial (kind : PdKind) (hs : FitSetup g E a s0 Xs)
    (hs' : FitSetup g E a' (PdpMethod.new o.rng) Xs)
    (hfeat : a'.features.getD a'.X.frame.cols = a.features.getD a.X.frame.cols)
    (hnew : a'.pdCalculator = none) (hnf : NeverFails a'.pf)
    (hret : PdpMethod.fit kind E a s0 = (.ok (), s)) :
    ∃ t o', PdImpObj.run E a' o = (.ok t, o') ∧ s.importance = some t := by
  have r := fit_ok hs hret
  obtain ⟨rows, h1, h2⟩ := r.imp
  have hf : a'.feats = a.feats := hfeat
  suffices hh : ∃ t o', PdImpObj.run E a' o = (.ok t, o') by
    obtain ⟨t, o', h⟩ := hh
    exact ⟨t, o', h, C67_standalone_importance_agrees_with_fit kind hs hs' hfeat hret h⟩
  cases eX : sampleIfNotNone E.R a'.X a'.n o.rng with
  | mk rX rng =>
    have hXs := hs'.sampled
    have eX' : sampleIfNotNone E.R a'.X a'.n (PdpMethod.new o.rng : PdpMethod G L F V K).rng = (rX, rng) := eX
    rw [eX'] at hXs
    simp only at hXs
    subst hXs
    have ec : PdpMethod.chooseCalc a' Xs a'.pf = .ok ⟨a'.model.ident, Xs.labels, Calc.new a'.pf Xs.frame a'.batchsize⟩ := by
      simp only [PdpMethod.chooseCalc, hnew]
    have ch := chosen_of_ok hs' ec
    have hi := imp_ret (E := E) (fs := a'.feats) ch.good (by exact hnf) ch.same hs'.reads
      (by rw [hf]; exact r.valid.cols)
    rw [hf, h1, ← hf] at hi
    cases e2 : pdpImportance E.sortFeat (numIn E a'.feats) a'.feats (Calc.new a'.pf Xs.frame a'.batchsize) with
    | mk r2 c2 =>
      simp only [e2] at hi
      subst hi
      unfold PdImpObj.run
      have e2' : pdpImportance E.sortFeat (numIn E (allIfNone a'.X.frame.cols a'.features))
          (allIfNone a'.X.frame.cols a'.features) (Calc.new a'.pf Xs.frame a'.batchsize) =
          (Except.map (fun rows => (E.sortFeat rows).map FeatRow.fillna) (.ok rows), c2) := e2
      unfold PdArgs.pf at ec e2'
      simp only [eX, ec, e2']
      exact ⟨_, _, rfl⟩

/-! ## C31 -/

/-- **C31** for Friedman's and Greenwell's `fit`: leaving out `features` has exactly the effect of listing all columns. -/
theorem C31_pdp_fit_none_is_all_partial (kind : PdKind) (s0 : PdpMethod G L F V K) :
    PdpMethod.fit kind E { a with features := none } s0 =
      PdpMethod.fit kind E { a with features := some a.X.frame.cols } s0 := by
  simp only [PdpMethod.fit, PdpMethod.fitBase, PdpMethod.chooseCalc, allIfNone, Option.getD_none, Option.getD_some]

/-- **C31** for the stand-alone PD based importance. -/
theorem C31_pd_importance_none_is_all_partial (o : PdImpObj G L F V K) :
    PdImpObj.run E { a with features := none } o = PdImpObj.run E { a with features := some a.X.frame.cols } o := by
  simp only [PdImpObj.run, PdpMethod.chooseCalc, allIfNone, Option.getD_none, Option.getD_some]

/-- **C31** for Sejong Oh's `fit`. -/
theorem C31_sejong_fit_none_is_all_partial {E : PerfEnv G L F K} {a : SejongArgs L F V K} (ent : G)
    (s0 : Sejong G L F V K) :
    Sejong.fit E { a with features := none } ent s0 =
      Sejong.fit E { a with features := some a.X.frame.cols } ent s0 := by
  simp only [Sejong.fit, allIfNone, Option.getD_none, Option.getD_some]

/-- **C31 fails** for permutation importance, always: whatever the inputs, `features=None` never produces a table. -/
theorem C31_permutation_importance_none_never_works (sort : List (FeatRow F K) → List (FeatRow F K)) (R : Rng G)
    (model : ModelObj F V (Num K)) (X : LFrame L F V) (y : Target L K) (n : Nat) (o : PermObj G F K)
    (c : List (List (Row F V))) :
    ∃ e, (PermObj.run sort R model X y n none o c).1 = .error e ∧
      (∀ {sc : List (Row F V) → K}, Scores model o.metric y.values X.frame.rows.length sc → e = .typeError) := by
  unfold PermObj.run permImportance PyM.seq
  cases e : scoreOn model o.metric y.values X.frame ⟨o.rng, c⟩ with
  | mk r w =>
    cases r with
    | error x =>
      refine ⟨x, rfl, ?_⟩
      intro sc hsc
      rw [scoreOn_eq hsc rfl _] at e
      cases e
    | ok b => exact ⟨_, rfl, fun _ => rfl⟩

section Cases
open Ex

/-- C67 on the example of `Verif/Props/HStat.lean`, over the reals -/
example : ∃ s t o', PdpMethod.fit (G := Nat) (L := Nat) (K := ℝ) (.friedman true) exEnv exArgs (PdpMethod.new 0) =
      (.ok (), s) ∧
    PdImpObj.run (G := Nat) (L := Nat) (K := ℝ) exEnv exArgs (PdImpObj.new 0) = (.ok t, o') ∧ s.importance = some t := by
  obtain ⟨s, hs⟩ := exFitR true
  obtain ⟨t, o', h1, h2⟩ := C67_standalone_importance_returns_partial (a' := exArgs) (o := PdImpObj.new 0) _ (exSetup 0)
    (exSetup 0) rfl rfl exNever hs
  exact ⟨s, t, o', hs, h1, h2⟩

/-- the same data: all features listed works, none raises TypeError -/
example : (PermObj.run (L := Nat) (stableSort FeatRow.val false) exRng exPerfModel exPerfX exPerfY 2 none
    (⟨0, mseM, none⟩ : PermObj Nat (Fin 3) ℚ) []).1 = .error .typeError := by decide +kernel

end Cases
end Artemis
