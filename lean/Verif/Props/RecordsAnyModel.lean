import Verif.Props.AcceptedAdditivity

/-!
# C103: what a successful call leaves in the object, for any model
-/

set_option linter.unusedSectionVars false
set_option linter.unusedVariables false
set_option linter.unusedSimpArgs false

namespace Artemis
open Spec

variable {F V K G L : Type} [DecidableEq F] [LinearOrder V] [DecidableEq L] [Field K] [LinearOrder K]
  [IsStrictOrderedRing K] [HasSqrt K]
variable {E : PdEnv G F K} {a : PdArgs L F V K} {Xs : LFrame L F V}

/-- a supplied calculator went through public calls only -/
def PublicHistory (o : Option (CalcObj L F V K)) : Prop :=
  ∀ co, o = some co → ∃ (p : PF F V (Num K)) (X : Frame F V) (b : Int) (ops : List (PDOp F)), co.obj = runOps (Calc.new p X b) ops

/-- the calculator that the method uses: its identity, labels and data -/
theorem chosen_any {pf : PF F V (Num K)} {co : CalcObj L F V K} (hp : PublicHistory a.pdCalculator)
    (hc : PdpMethod.chooseCalc a Xs pf = .ok co) :
    co.modelId = a.model.ident ∧ co.labels = Xs.labels ∧ SameData co.obj.X Xs.frame ∧ OnMixes co.obj.X co.obj.predict co.obj ∧
      co.obj.predict = (match a.pdCalculator with | some co0 => co0.obj.predict | none => pf) := by
  unfold PdpMethod.chooseCalc at hc
  cases h : a.pdCalculator with
  | none =>
    simp only [h] at hc
    cases hc
    exact ⟨rfl, rfl, SameData.refl _, onMixes_new pf Xs.frame a.batchsize, rfl⟩
  | some co0 =>
    simp only [h] at hc
    by_cases h1 : co0.modelId = a.model.ident
    · by_cases h2 : LFrame.equals ⟨co0.labels, co0.obj.X⟩ Xs = true
      · simp [h1, h2] at hc
        subst hc
        obtain ⟨p, X, b, ops, hist⟩ := hp _ h
        have g0 : OnMixes X p co0.obj := hist ▸ (twin_runOps (sameOnMixes_refl X p) ops _ (onMixes_new p X b)).1
        obtain ⟨hl, hd⟩ := sameData_of_equals h2
        exact ⟨h1, hl, hd, by rw [g0.data, g0.predict]; exact g0, rfl⟩
      · simp [h1, h2] at hc
    · simp [h1] at hc

/-- **C103** for any model: the attributes after a successful `fit` of a partial dependence method are those of this call. -/
theorem C103_fit_records_any_model (kind : PdKind) {s0 s : PdpMethod G L F V K} (hp : PublicHistory a.pdCalculator)
    (hs : (sampleIfNotNone E.R a.X a.n s0.rng).1 = .ok Xs) (hret : PdpMethod.fit kind E a s0 = (.ok (), s)) :
    s.model = some a.model ∧ s.predictFn = getPredictFunction a.model a.predictFunction ∧
    s.features = some (a.features.getD a.X.frame.cols) ∧ s.pairs = some (combinations2 (a.features.getD a.X.frame.cols)) ∧
    s.xSampled = some Xs ∧
    ∃ co, s.pdc = some co ∧ co.modelId = a.model.ident ∧ co.labels = Xs.labels ∧ SameData co.obj.X Xs.frame ∧
      co.obj.predict = (match a.pdCalculator with | some co0 => co0.obj.predict | none => callable s.predictFn) := by
  cases eX : sampleIfNotNone E.R a.X a.n s0.rng with
  | mk rX rng =>
    rw [eX] at hs
    simp only at hs
    subst hs
    cases ec : PdpMethod.chooseCalc a Xs a.pf with
    | error e =>
      unfold PdArgs.pf at ec
      simp [PdpMethod.fit, PdpMethod.fitBase, eX, ec] at hret
    | ok co =>
      obtain ⟨h1, h2, h3, g0, h5⟩ := chosen_any hp ec
      rw [fit_eq kind E a s0 eX ec] at hret
      have fin : ∀ c : Calc F V (Num K), OnMixes co.obj.X co.obj.predict c →
          co.modelId = a.model.ident ∧ co.labels = Xs.labels ∧ SameData c.X Xs.frame ∧
          c.predict = (match a.pdCalculator with | some co0 => co0.obj.predict | none => a.pf) :=
        fun c h => ⟨h1, h2, h.data ▸ h3, h.predict.trans h5⟩
      have g1 := onMixes_ovo (Y := Xs.frame) kind E a.feats (combinations2 a.feats) g0
      cases q1 : kind.ovo E Xs.frame a.feats (combinations2 a.feats) co.obj with
      | mk r1 c1 =>
        rw [q1] at g1 hret
        cases r1 with
        | error e => cases hret
        | ok ovo =>
          simp only at hret
          have g2 := onMixes_importance E.sortFeat (numIn E a.feats) a.feats g1
          cases q2 : pdpImportance E.sortFeat (numIn E a.feats) a.feats c1 with
          | mk r2 c2 =>
            simp only [q2] at g2 hret
            cases r2 with
            | error e => cases hret
            | ok imp =>
              cases kind with
              | greenwell =>
                cases hret
                exact ⟨rfl, rfl, rfl, rfl, rfl, _, rfl, fin _ g2⟩
              | friedman n =>
                simp only at hret
                by_cases hov : a.calculateOva = true
                · simp only [hov, if_true] at hret
                  have g3 := onMixes_ova (q := a.pf) (Y := Xs.frame) E.sortFeat n a.feats g2
                  cases q3 : hstatOva E.sortFeat a.pf n Xs.frame a.feats c2 with
                  | mk r3 c3 =>
                    simp only [q3] at g3 hret
                    cases r3 with
                    | error e => cases hret
                    | ok ova =>
                      cases hret
                      exact ⟨rfl, rfl, rfl, rfl, rfl, _, rfl, fin _ g3⟩
                · simp only [hov, if_false] at hret
                  cases hret
                  exact ⟨rfl, rfl, rfl, rfl, rfl, _, rfl, fin _ g2⟩

/-- **C103** for any model: stand-alone importance. -/
theorem C103_importance_records_any_model {o o' : PdImpObj G L F V K} {t : List (FeatRow F K)} (hp : PublicHistory a.pdCalculator)
    (hs : (sampleIfNotNone E.R a.X a.n o.rng).1 = .ok Xs) (hret : PdImpObj.run E a o = (.ok t, o')) :
    o'.importance = some t ∧ o'.predictFn = getPredictFunction a.model a.predictFunction ∧
    o'.features = some (a.features.getD a.X.frame.cols) ∧ o'.xSampled = some Xs ∧
    ∃ co, o'.pdc = some co ∧ co.modelId = a.model.ident ∧ co.labels = Xs.labels ∧ SameData co.obj.X Xs.frame := by
  cases eX : sampleIfNotNone E.R a.X a.n o.rng with
  | mk rX rng =>
    rw [eX] at hs
    simp only at hs
    subst hs
    unfold PdImpObj.run at hret
    simp only [eX] at hret
    cases ec : PdpMethod.chooseCalc a Xs (callable (getPredictFunction a.model a.predictFunction)) with
    | error e => simp [ec] at hret
    | ok co =>
      obtain ⟨h1, h2, h3, g0, -⟩ := chosen_any hp ec
      simp only [ec] at hret
      have g1 := onMixes_importance E.sortFeat (numIn E (allIfNone a.X.frame.cols a.features)) (allIfNone a.X.frame.cols a.features) g0
      cases q : pdpImportance E.sortFeat (numIn E (allIfNone a.X.frame.cols a.features)) (allIfNone a.X.frame.cols a.features) co.obj with
      | mk r c1 =>
        simp only [q] at g1 hret
        cases r with
        | error e => cases hret
        | ok imp =>
          cases hret
          exact ⟨rfl, rfl, rfl, rfl, _, rfl, h1, h2, g1.data ▸ h3⟩

/-- **C103** for any model: the additivity meter; `preds` is an answer of the prediction function about the sampled rows. -/
theorem C103_additivity_records_any_model {A : AddArgs L F V K} {m0 m : AddMeter G L F V K} {cp : F} {v : Num K} {R : Rng G}
    (hp : PublicHistory A.pdCalculator) (hs : (sampleIfNotNone R A.X A.n m0.rng).1 = .ok Xs)
    (hret : AddMeter.fit R cp A m0 = (.ok v, m)) :
    m.index = some v ∧ m.model = some A.model ∧ m.predictFn = getPredictFunction A.model A.predictFunction ∧
    m.xSampled = some Xs ∧ (∃ ps k, m.preds = some ps ∧ callable m.predictFn k Xs.frame.rows = .ok ps) ∧
    ∃ co, m.pdc = some co ∧ co.modelId = A.model.ident ∧ co.labels = Xs.labels ∧ SameData co.obj.X Xs.frame := by
  cases eX : sampleIfNotNone R A.X A.n m0.rng with
  | mk rX rng =>
    rw [eX] at hs
    simp only at hs
    subst hs
    unfold AddMeter.fit at hret
    simp only [eX] at hret
    cases ec : PdpMethod.chooseCalc A.toPd Xs (callable (getPredictFunction A.model A.predictFunction)) with
    | error e => simp [ec] at hret
    | ok co =>
      obtain ⟨h1, h2, h3, g0, -⟩ := chosen_any (a := A.toPd) hp ec
      simp only [ec] at hret
      have g1 := onMixes_additivity (K := K) (q := callable (getPredictFunction A.model A.predictFunction)) (Y := Xs.frame) cp g0
      cases q : calcAdditivity cp (callable (getPredictFunction A.model A.predictFunction)) Xs.frame co.obj with
      | mk r c1 =>
        simp only [q] at g1 hret
        cases r with
        | error e => cases hret
        | ok out =>
          cases hret
          refine ⟨rfl, rfl, rfl, rfl, ?_, _, rfl, h1, h2, g1.data ▸ h3⟩
          unfold calcAdditivity PyM.seq at q
          split at q
          · next c2 _ =>
            beta_reduce at q
            split at q
            · cases q
            · next preds hpr =>
              split at q
              · cases q
              · split at q
                · cases q
                  exact ⟨preds, _, rfl, hpr⟩
                · cases q
          · cases q

section Cases
open Ex

/-- a model whose answer depends on how often it was asked and on its whole batch: not row-wise -/
def countingCall : PdArgs Nat (Fin 2) ℤ ℚ :=
  { cornerCall 1 [0, 1, 2] with
    model := { ident := 1, predict := some (fun n rows => .ok (rows.map fun r => .fin ((n : ℚ) + rows.length + r 0))), predictProba := none }
    predictFunction := none
    pdCalculator := none }

example : ∃ s, PdpMethod.fit (G := Nat) (.friedman true) gridEnv countingCall (PdpMethod.new 0) = (.ok (), s) ∧
    s.xSampled = some cornerX ∧ s.features = some [0, 1] ∧ s.pairs = some [(0, 1)] := by
  have h : (PdpMethod.fit (G := Nat) (.friedman true) gridEnv countingCall (PdpMethod.new 0)).1 = .ok () := by decide +kernel
  generalize e : PdpMethod.fit (G := Nat) (.friedman true) gridEnv countingCall (PdpMethod.new 0) = r at h
  obtain ⟨r1, s⟩ := r
  simp only at h
  subst h
  obtain ⟨-, -, h3, h4, h5, -⟩ := C103_fit_records_any_model (Xs := cornerX) (.friedman true)
    (by intro co h; cases h) rfl e
  exact ⟨s, rfl, h5, h3.trans (by decide +kernel), h4.trans (by decide +kernel)⟩

end Cases
end Artemis
