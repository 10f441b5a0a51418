import Verif.Props.PdImportance
import Verif.Props.SuppliedMixes

/-!
# C67: the stand-alone importance returns, with a supplied calculator
-/

set_option linter.unusedSectionVars false
set_option linter.unusedVariables false
set_option linter.unusedSimpArgs false

namespace Artemis
open Spec

variable {F V L G K : Type} [DecidableEq F] [LinearOrder V] [DecidableEq L] [Field K] [LinearOrder K]
  [IsStrictOrderedRing K] [HasSqrt K]
variable {E : PdEnv G F K} {a a' : PdArgs L F V K} {s0 s : PdpMethod G L F V K} {o : PdImpObj G L F V K} {Xs : LFrame L F V}
  {g : Row F V → Num K}

/-- **C67, supplied calculator.** A calculator of any history whose prediction function never fails: it is refused because it belongs to
another model object or to other data, or the stand-alone call returns the table that the returning `fit` left behind. -/
theorem C67_standalone_importance_returns_supplied (kind : PdKind) (hs : FitSetup g E a s0 Xs)
    (hs' : FitSetup g E a' (PdpMethod.new o.rng) Xs)
    (hfeat : a'.features.getD a'.X.frame.cols = a.features.getD a.X.frame.cols)
    {co : CalcObj L F V K} (hco : a'.pdCalculator = some co) (hnf : NeverFails co.obj.predict)
    (hret : PdpMethod.fit kind E a s0 = (.ok (), s)) :
    (co.modelId = a'.model.ident → LFrame.equals ⟨co.labels, co.obj.X⟩ Xs = true →
      ∃ t o', PdImpObj.run E a' o = (.ok t, o') ∧ s.importance = some t) ∧
    (¬ (co.modelId = a'.model.ident ∧ LFrame.equals ⟨co.labels, co.obj.X⟩ Xs = true) →
      (PdImpObj.run E a' o).1 = .error .valueError ∧ (PdImpObj.run E a' o).2.importance = o.importance) := by
  cases eX : sampleIfNotNone E.R a'.X a'.n o.rng with
  | mk rX rng =>
    have hXs := hs'.sampled
    have eX' : sampleIfNotNone E.R a'.X a'.n (PdpMethod.new o.rng : PdpMethod G L F V K).rng = (rX, rng) := eX
    rw [eX'] at hXs
    simp only at hXs
    subst hXs
    constructor
    · intro hid heq
      have r := fit_ok hs hret
      obtain ⟨rows, h1, h2⟩ := r.imp
      have hf : a'.feats = a.feats := hfeat
      suffices hh : ∃ t o', PdImpObj.run E a' o = (.ok t, o') by
        obtain ⟨t, o', h⟩ := hh
        exact ⟨t, o', h, C67_standalone_importance_agrees_with_fit kind hs hs' hfeat hret h⟩
      have ec : PdpMethod.chooseCalc a' Xs a'.pf = .ok co := by
        simp [PdpMethod.chooseCalc, hco, hid, heq]
      have ch := chosen_of_ok hs' ec
      have hi := imp_ret (E := E) (fs := a'.feats) ch.good hnf ch.same hs'.reads (by rw [hf]; exact r.valid.cols)
      rw [hf, h1, ← hf] at hi
      cases e2 : pdpImportance E.sortFeat (numIn E a'.feats) a'.feats co.obj with
      | mk r2 c2 =>
        simp only [e2] at hi
        subst hi
        unfold PdImpObj.run
        have e2' : pdpImportance E.sortFeat (numIn E (allIfNone a'.X.frame.cols a'.features))
            (allIfNone a'.X.frame.cols a'.features) co.obj =
            (Except.map (fun rows => (E.sortFeat rows).map FeatRow.fillna) (.ok rows), c2) := e2
        unfold PdArgs.pf at ec
        simp only [eX, ec, e2']
        exact ⟨_, _, rfl⟩
    · intro hbad
      have ec : PdpMethod.chooseCalc a' Xs (callable (getPredictFunction a'.model a'.predictFunction)) = .error .valueError := by
        simp only [PdpMethod.chooseCalc, hco]
        by_cases hid : co.modelId = a'.model.ident
        · have : LFrame.equals ⟨co.labels, co.obj.X⟩ Xs = false := by
            cases h : LFrame.equals ⟨co.labels, co.obj.X⟩ Xs with
            | false => rfl
            | true => exact absurd ⟨hid, h⟩ hbad
          simp [hid, this]
        · simp [hid]
      simp only [PdImpObj.run, eX, ec]
      exact ⟨trivial, trivial⟩

/-- **C67.** Whenever `fit` returned and the prediction function never fails, the stand-alone call returns the table of the fit, with its
own calculator or with a supplied one of this model and these data. -/
theorem C67_standalone_importance_returns (kind : PdKind) (hs : FitSetup g E a s0 Xs)
    (hs' : FitSetup g E a' (PdpMethod.new o.rng) Xs)
    (hfeat : a'.features.getD a'.X.frame.cols = a.features.getD a.X.frame.cols)
    (hown : a'.pdCalculator = none → NeverFails a'.pf)
    (hsup : ∀ co, a'.pdCalculator = some co → NeverFails co.obj.predict ∧ co.modelId = a'.model.ident ∧
      LFrame.equals ⟨co.labels, co.obj.X⟩ Xs = true)
    (hret : PdpMethod.fit kind E a s0 = (.ok (), s)) :
    ∃ t o', PdImpObj.run E a' o = (.ok t, o') ∧ s.importance = some t := by
  cases e : a'.pdCalculator with
  | none => exact C67_standalone_importance_returns_partial kind hs hs' hfeat e (hown e) hret
  | some co =>
    obtain ⟨h1, h2, h3⟩ := hsup co e
    exact (C67_standalone_importance_returns_supplied kind hs hs' hfeat e h1 hret).1 h2 h3

section Cases
open Ex

/-- the calls of `C119_supplied_fails` meet the hypotheses -/
theorem cornerCall_setup (s0 : PdpMethod Nat Nat (Fin 2) ℤ ℚ) :
    FitSetup (fun r => .fin (cornerU 1 r : ℚ)) gridEnv (cornerCall 1 [0, 1, 2]) s0 cornerX where
  sampled := rfl
  rowWise := by intro n rows ys h; cases h; rfl
  reads := by
    intro r r' h
    have h0 := h 0 (by decide)
    have h1 := h 1 (by decide)
    simp [cornerU, h0, h1]
  cols_nodup := by decide
  history := by
    intro co h
    cases h
    exact ⟨_, _, [], _, by intro n rows ys h; cases h; rfl, rfl⟩

example : ∃ t o', PdImpObj.run gridEnv (cornerCall 1 [0, 1, 2]) (PdImpObj.new 0) = (.ok t, o') ∧
    (PdpMethod.fit (G := Nat) (.friedman true) gridEnv (cornerCall 1 [0, 1, 2]) (PdpMethod.new 0)).2.importance = some t := by
  have hr : PdpMethod.fit (G := Nat) (.friedman true) gridEnv (cornerCall 1 [0, 1, 2]) (PdpMethod.new 0) =
      (.ok (), (PdpMethod.fit (G := Nat) (.friedman true) gridEnv (cornerCall 1 [0, 1, 2]) (PdpMethod.new 0)).2) := by
    rw [← C119_supplied_fails.2.1]
  generalize (PdpMethod.fit (G := Nat) (.friedman true) gridEnv (cornerCall 1 [0, 1, 2]) (PdpMethod.new 0)).2 = s at hr ⊢
  have hnf : NeverFails (N := Num ℚ) (fun (_ : Nat) (rows : List (Row (Fin 2) ℤ)) => .ok (rows.map (fun r => .fin (cornerU 1 r : ℚ)))) :=
    fun n rows => ⟨_, rfl⟩
  have h := (C67_standalone_importance_returns_supplied (o := PdImpObj.new 0) (.friedman true) (cornerCall_setup (PdpMethod.new 0))
    (cornerCall_setup (PdpMethod.new 0)) rfl rfl hnf hr).1 rfl (by decide +kernel)
  exact h

end Cases
end Artemis
