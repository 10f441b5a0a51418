import Verif.Proofs.TwinLemmas
import Verif.Model.Additivity
import Verif.Model.PdImportance
import Verif.Props.Ensemble
import Verif.Props.Sejong

/-!
# Properties C118 and C119: where the model is looked at

C118: every row the model is asked about is a mixture of observed values: each of its values occurs in the data, in the
same column. C119: models that answer alike on such rows are explained alike. Nothing is assumed about the models: they
may raise, and may answer differently at every call.
-/

set_option linter.unusedSectionVars false
set_option linter.unusedVariables false
set_option linter.unusedSimpArgs false

namespace Artemis
open Spec

theorem sameOnMixes_refl {F V N : Type} (X : Frame F V) (p : PF F V N) : SameOnMixes X p p := fun _ _ _ => rfl

theorem predictsAlike_refl {F V K : Type} (X : Frame F V) (m : ModelObj F V (Num K)) : PredictsAlike X m m := by
  unfold PredictsAlike
  cases e : m.predict with
  | none => trivial
  | some p => exact sameOnMixes_refl X p

section calculator
variable {F V N : Type} [DecidableEq F] [LinearOrder V] [Flt N]

/-- **C118, calculator.** Whatever is calculated, in whatever order, with whatever outcome: every row sent to the model
is a mixture of observed values. -/
theorem C118_calculator (p : PF F V N) (X : Frame F V) (b : Int) (ops : List (PDOp F)) :
    ∀ rows ∈ (runOps (Calc.new p X b) ops).calls, ∀ r ∈ rows, Mixes X r :=
  (twin_runOps (sameOnMixes_refl X p) ops _ (onMixes_new p X b)).1.calls

/-- **C119, calculator.** Two models that answer alike on mixtures of observed values: after any calculations the two
calculators return the same in every look-up, and every further calculation has the same outcome. -/
theorem C119_calculator {p p' : PF F V N} {X : Frame F V} (hp : SameOnMixes X p p') (b : Int) (ops : List (PDOp F)) :
    (∀ f vs, (runOps (Calc.new p' X b) ops).getSingle f vs = (runOps (Calc.new p X b) ops).getSingle f vs) ∧
    (∀ f f' vs, (runOps (Calc.new p' X b) ops).getPairs f f' vs = (runOps (Calc.new p X b) ops).getPairs f f' vs) ∧
    (∀ f, (runOps (Calc.new p' X b) ops).getMinus f = (runOps (Calc.new p X b) ops).getMinus f) ∧
    ∀ op : PDOp F, (op.run (runOps (Calc.new p' X b) ops)).1 = (op.run (runOps (Calc.new p X b) ops)).1 := by
  obtain ⟨h1, h2⟩ := twin_runOps hp ops _ (onMixes_new p X b)
  have e : (Calc.new p X b).withPredict p' = Calc.new p' X b := rfl
  rw [e] at h2
  rw [h2]
  refine ⟨fun _ _ => rfl, fun _ _ _ => rfl, fun _ => rfl, fun op => ?_⟩
  rw [(twin_op hp op _ h1).2.2]

end calculator

variable {F V K G L : Type} [DecidableEq F] [LinearOrder V] [DecidableEq L] [Field K] [LinearOrder K]
  [IsStrictOrderedRing K] [HasSqrt K]
variable {E : PdEnv G F K} {a : PdArgs L F V K} {s0 : PdpMethod G L F V K} {Xs : LFrame L F V}

section twins
variable {X : Frame F V} {p p' : PF F V (Num K)} (hp : SameOnMixes X p p')

/-- a look at the calculator that does not involve the prediction function -/
theorem twin_read {α : Type} {r : Calc F V (Num K) → Except Err α} (h : ∀ c : Calc F V (Num K), r (c.withPredict p') = r c) :
    Twin (OnMixes X p) (Calc.withPredict p') (fun _ => True) (fun c => (r c, c)) (fun c => (r c, c)) :=
  fun c hc => ⟨hc, fun _ _ => trivial, by simp only [h]⟩

include hp

theorem twin_ovo (kind : PdKind) (E : PdEnv G F K) (fs : List F) (ps : List (F × F)) :
    Twin (OnMixes X p) (Calc.withPredict p') (fun _ => True) (kind.ovo E X fs ps) (kind.ovo E X fs ps) := by
  cases kind with
  | friedman n =>
    refine Twin.seq (twin_pairs hp _ _) fun _ _ => Twin.seq (twin_single hp _) fun _ _ => twin_read fun c => ?_
    rfl
  | greenwell =>
    refine Twin.seq (twin_pairs hp _ _) fun _ _ => twin_read fun c => ?_
    rfl

theorem twin_pdpImportance (sort) (numeric : F → Bool) (fs : List F) :
    Twin (OnMixes X p) (Calc.withPredict p') (fun _ => True) (pdpImportance (K := K) sort numeric fs)
      (pdpImportance sort numeric fs) :=
  Twin.seq (twin_single hp _) fun _ _ => twin_read fun c => rfl

theorem twin_hstatOva (sort) (n : Bool) (fs : List F) :
    Twin (OnMixes X p) (Calc.withPredict p') (fun _ => True) (hstatOva (K := K) sort p n X fs)
      (hstatOva sort p' n X fs) := by
  refine Twin.seq (twin_minus hp _) fun _ _ => ?_
  intro c hc
  have e : p' (c.withPredict p').calls.length X.rows = p c.calls.length X.rows := hp _ _ fun _ => mixes_of_mem
  simp only [e]
  cases p c.calls.length X.rows with
  | error er => exact ⟨hc, fun _ _ => trivial, rfl⟩
  | ok preds => exact ⟨hc, fun _ _ => trivial, rfl⟩

theorem twin_calcAdditivity (cp : F) :
    Twin (OnMixes X p) (Calc.withPredict p') (fun _ => True) (calcAdditivity (K := K) cp p X)
      (calcAdditivity cp p' X) := by
  refine Twin.seq (twin_single hp _) fun _ _ => ?_
  intro c hc
  have e : p' (c.withPredict p').calls.length X.rows = p c.calls.length X.rows := hp _ _ fun _ => mixes_of_mem
  have e2 : ∀ preds, addColumn (K := K) X preds (c.withPredict p') = addColumn X preds c := fun _ => rfl
  simp only [e, e2]
  cases p c.calls.length X.rows with
  | error er => exact ⟨hc, fun _ _ => trivial, rfl⟩
  | ok preds =>
    simp only
    cases X.cols.mapM (addColumn X preds c) with
    | error er => exact ⟨hc, fun _ _ => trivial, rfl⟩
    | ok effs =>
      simp only
      split
      · exact ⟨hc, fun _ _ => trivial, rfl⟩
      · exact ⟨hc, fun _ _ => trivial, rfl⟩

end twins

/-- the arguments with another model and another prediction function -/
def PdArgs.withModel (a : PdArgs L F V K) (m' : ModelObj F V (Num K))
    (pf' : Option (ModelObj F V (Num K) → PF F V (Num K))) : PdArgs L F V K :=
  { a with model := m', predictFunction := pf' }

/-- what can be read off a fitted method, apart from the model itself -/
structure SameResults (s s' : PdpMethod G L F V K) : Prop where
  ovo : s'.ovo = s.ovo
  ova : s'.ova = s.ova
  importance : s'.importance = s.importance
  features : s'.features = s.features
  pairs : s'.pairs = s.pairs
  xSampled : s'.xSampled = s.xSampled
  rng : s'.rng = s.rng

/-- two fits without a given calculator -/
theorem fit_twin (kind : PdKind) (hnone : a.pdCalculator = none) {m' pf'}
    (hp : ∀ Xs, (sampleIfNotNone E.R a.X a.n s0.rng).1 = .ok Xs → SameOnMixes Xs.frame a.pf (a.withModel m' pf').pf) :
    (PdpMethod.fit kind E (a.withModel m' pf') s0).1 = (PdpMethod.fit kind E a s0).1 ∧
    SameResults (PdpMethod.fit kind E a s0).2 (PdpMethod.fit kind E (a.withModel m' pf') s0).2 ∧
    ∀ Xs, (sampleIfNotNone E.R a.X a.n s0.rng).1 = .ok Xs →
      ∃ co, (PdpMethod.fit kind E a s0).2.pdc = some co ∧ OnMixes Xs.frame a.pf co.obj := by
  cases eX : sampleIfNotNone E.R a.X a.n s0.rng with
  | mk rX rng =>
    cases rX with
    | error e =>
      have eX' : sampleIfNotNone E.R (a.withModel m' pf').X (a.withModel m' pf').n s0.rng = (.error e, rng) := eX
      simp only [PdpMethod.fit, PdpMethod.fitBase, eX, eX']
      exact ⟨trivial, ⟨rfl, rfl, rfl, rfl, rfl, rfl, rfl⟩, fun Xs h => by cases h⟩
    | ok Xs =>
      have hp := hp Xs (by rw [eX])
      have eX' : sampleIfNotNone E.R (a.withModel m' pf').X (a.withModel m' pf').n s0.rng = (.ok Xs, rng) := eX
      have hc : PdpMethod.chooseCalc a Xs a.pf =
          .ok ⟨a.model.ident, Xs.labels, Calc.new a.pf Xs.frame a.batchsize⟩ := by
        simp only [PdpMethod.chooseCalc, hnone]
      have hc' : PdpMethod.chooseCalc (a.withModel m' pf') Xs (a.withModel m' pf').pf =
          .ok ⟨m'.ident, Xs.labels, (Calc.new a.pf Xs.frame a.batchsize).withPredict (a.withModel m' pf').pf⟩ := by
        have : (a.withModel m' pf').pdCalculator = none := hnone
        simp only [PdpMethod.chooseCalc, this]
        rfl
      have g0 := onMixes_new a.pf Xs.frame a.batchsize
      rw [fit_eq kind E a s0 eX hc, fit_eq kind E (a.withModel m' pf') s0 eX' hc']
      have hf : (a.withModel m' pf').feats = a.feats := rfl
      have ho : (a.withModel m' pf').calculateOva = a.calculateOva := rfl
      rw [hf, ho]
      obtain ⟨g1, _, e1⟩ := twin_ovo hp kind E a.feats (combinations2 a.feats) _ g0
      simp only [e1]
      cases q1 : kind.ovo E Xs.frame a.feats (combinations2 a.feats) (Calc.new a.pf Xs.frame a.batchsize) with
      | mk r1 c1 =>
        rw [q1] at g1
        cases r1 with
        | error e =>
          refine ⟨rfl, ⟨rfl, rfl, rfl, rfl, rfl, rfl, rfl⟩, fun Ys h => ?_⟩
          cases h
          exact ⟨_, rfl, g1⟩
        | ok ovo =>
          simp only
          obtain ⟨g2, _, e2⟩ := twin_pdpImportance hp E.sortFeat (numIn E a.feats) a.feats _ g1
          simp only [e2]
          cases q2 : pdpImportance E.sortFeat (numIn E a.feats) a.feats c1 with
          | mk r2 c2 =>
            rw [q2] at g2
            cases r2 with
            | error e =>
              refine ⟨rfl, ⟨rfl, rfl, rfl, rfl, rfl, rfl, rfl⟩, fun Ys h => ?_⟩
              cases h
              exact ⟨_, rfl, g2⟩
            | ok imp =>
              simp only
              cases kind with
              | greenwell =>
                refine ⟨rfl, ⟨rfl, rfl, rfl, rfl, rfl, rfl, rfl⟩, fun Ys h => ?_⟩
                cases h
                exact ⟨_, rfl, g2⟩
              | friedman n =>
                simp only
                by_cases hov : a.calculateOva = true
                · simp only [hov, if_true]
                  obtain ⟨g3, _, e3⟩ := twin_hstatOva hp E.sortFeat n a.feats _ g2
                  simp only [e3]
                  cases q3 : hstatOva E.sortFeat a.pf n Xs.frame a.feats c2 with
                  | mk r3 c3 =>
                    rw [q3] at g3
                    cases r3 with
                    | error e =>
                      refine ⟨rfl, ⟨rfl, rfl, rfl, rfl, rfl, rfl, rfl⟩, fun Ys h => ?_⟩
                      cases h
                      exact ⟨_, rfl, g3⟩
                    | ok ova =>
                      refine ⟨rfl, ⟨rfl, rfl, rfl, rfl, rfl, rfl, rfl⟩, fun Ys h => ?_⟩
                      cases h
                      exact ⟨_, rfl, g3⟩
                · simp only [hov, if_false]
                  refine ⟨rfl, ⟨rfl, rfl, rfl, rfl, rfl, rfl, rfl⟩, fun Ys h => ?_⟩
                  cases h
                  exact ⟨_, rfl, g2⟩

/-- **C118, H-statistic and Greenwell.** Whether `fit` returns or raises: every row its calculator sent to the model is
a mixture of values of the drawn rows. (The one prediction `fit` asks for outside the calculator is for the drawn
rows themselves: `hstatOva`.) -/
theorem C118_fit (kind : PdKind) (hnone : a.pdCalculator = none)
    (hs : (sampleIfNotNone E.R a.X a.n s0.rng).1 = .ok Xs) :
    ∃ co, (PdpMethod.fit kind E a s0).2.pdc = some co ∧ ∀ rows ∈ co.obj.calls, ∀ r ∈ rows, Mixes Xs.frame r := by
  obtain ⟨_, _, h⟩ := fit_twin (E := E) (s0 := s0) kind hnone (m' := a.model) (pf' := a.predictFunction)
    (fun Xs _ => sameOnMixes_refl Xs.frame a.pf)
  obtain ⟨co, e, hm⟩ := h Xs hs
  exact ⟨co, e, hm.calls⟩

/-- **C119, H-statistic and Greenwell.** Two models that answer alike on mixtures of values of the drawn rows: `fit` has the
same outcome for both, and leaves the same tables. -/
theorem C119_fit_partial (kind : PdKind) (hnone : a.pdCalculator = none) {m' pf'}
    (hp : ∀ Xs, (sampleIfNotNone E.R a.X a.n s0.rng).1 = .ok Xs → SameOnMixes Xs.frame a.pf (a.withModel m' pf').pf) :
    (PdpMethod.fit kind E (a.withModel m' pf') s0).1 = (PdpMethod.fit kind E a s0).1 ∧
    (PdpMethod.fit kind E (a.withModel m' pf') s0).2.ovo = (PdpMethod.fit kind E a s0).2.ovo ∧
    (PdpMethod.fit kind E (a.withModel m' pf') s0).2.ova = (PdpMethod.fit kind E a s0).2.ova ∧
    (PdpMethod.fit kind E (a.withModel m' pf') s0).2.importance = (PdpMethod.fit kind E a s0).2.importance := by
  obtain ⟨h1, h2, _⟩ := fit_twin (E := E) (s0 := s0) kind hnone hp
  exact ⟨h1, h2.ovo, h2.ova, h2.importance⟩

/-! ### stand-alone importance -/

/-- two runs of the stand-alone importance -/
theorem importance_twin {t0 : PdImpObj G L F V K} (hnone : a.pdCalculator = none) {m' pf'}
    (hp : ∀ Xs, (sampleIfNotNone E.R a.X a.n t0.rng).1 = .ok Xs → SameOnMixes Xs.frame a.pf (a.withModel m' pf').pf) :
    (PdImpObj.run E (a.withModel m' pf') t0).1 = (PdImpObj.run E a t0).1 ∧
    (PdImpObj.run E (a.withModel m' pf') t0).2.importance = (PdImpObj.run E a t0).2.importance ∧
    ∀ Xs, (sampleIfNotNone E.R a.X a.n t0.rng).1 = .ok Xs →
      ∃ co, (PdImpObj.run E a t0).2.pdc = some co ∧ ∀ rows ∈ co.obj.calls, ∀ r ∈ rows, Mixes Xs.frame r := by
  cases eX : sampleIfNotNone E.R a.X a.n t0.rng with
  | mk rX rng =>
    cases rX with
    | error e =>
      have eX' : sampleIfNotNone E.R (a.withModel m' pf').X (a.withModel m' pf').n t0.rng = (.error e, rng) := eX
      simp only [PdImpObj.run, eX, eX']
      exact ⟨trivial, trivial, fun Xs h => by cases h⟩
    | ok Xs =>
      have hp := hp Xs (by rw [eX])
      have eX' : sampleIfNotNone E.R (a.withModel m' pf').X (a.withModel m' pf').n t0.rng = (.ok Xs, rng) := eX
      have hc : PdpMethod.chooseCalc a Xs (callable (getPredictFunction a.model a.predictFunction)) =
          .ok ⟨a.model.ident, Xs.labels, Calc.new a.pf Xs.frame a.batchsize⟩ := by
        simp only [PdpMethod.chooseCalc, hnone]
        rfl
      have hc' : PdpMethod.chooseCalc (a.withModel m' pf') Xs
          (callable (getPredictFunction (a.withModel m' pf').model (a.withModel m' pf').predictFunction)) =
          .ok ⟨m'.ident, Xs.labels, (Calc.new a.pf Xs.frame a.batchsize).withPredict (a.withModel m' pf').pf⟩ := by
        have : (a.withModel m' pf').pdCalculator = none := hnone
        simp only [PdpMethod.chooseCalc, this]
        rfl
      have g0 := onMixes_new a.pf Xs.frame a.batchsize
      simp only [PdImpObj.run, eX, eX', hc, hc']
      have hf : allIfNone (a.withModel m' pf').X.frame.cols (a.withModel m' pf').features =
          allIfNone a.X.frame.cols a.features := rfl
      rw [hf]
      obtain ⟨g2, _, e2⟩ := twin_pdpImportance hp E.sortFeat (numIn E (allIfNone a.X.frame.cols a.features))
        (allIfNone a.X.frame.cols a.features) _ g0
      simp only [e2]
      cases q2 : pdpImportance E.sortFeat (numIn E (allIfNone a.X.frame.cols a.features))
        (allIfNone a.X.frame.cols a.features) (Calc.new a.pf Xs.frame a.batchsize) with
      | mk r2 c2 =>
        rw [q2] at g2
        cases r2 with
        | error e =>
          refine ⟨rfl, rfl, fun Ys h => ?_⟩
          cases h
          exact ⟨_, rfl, g2.calls⟩
        | ok imp =>
          refine ⟨rfl, rfl, fun Ys h => ?_⟩
          cases h
          exact ⟨_, rfl, g2.calls⟩

/-- **C118, stand-alone importance.** -/
theorem C118_importance {t0 : PdImpObj G L F V K} (hnone : a.pdCalculator = none)
    (hs : (sampleIfNotNone E.R a.X a.n t0.rng).1 = .ok Xs) :
    ∃ co, (PdImpObj.run E a t0).2.pdc = some co ∧ ∀ rows ∈ co.obj.calls, ∀ r ∈ rows, Mixes Xs.frame r :=
  (importance_twin (E := E) (t0 := t0) hnone (m' := a.model) (pf' := a.predictFunction)
    (fun Xs _ => sameOnMixes_refl Xs.frame a.pf)).2.2 Xs hs

/-- **C119, stand-alone importance.** -/
theorem C119_importance_partial {t0 : PdImpObj G L F V K} (hnone : a.pdCalculator = none) {m' pf'}
    (hp : ∀ Xs, (sampleIfNotNone E.R a.X a.n t0.rng).1 = .ok Xs → SameOnMixes Xs.frame a.pf (a.withModel m' pf').pf) :
    (PdImpObj.run E (a.withModel m' pf') t0).1 = (PdImpObj.run E a t0).1 ∧
    (PdImpObj.run E (a.withModel m' pf') t0).2.importance = (PdImpObj.run E a t0).2.importance :=
  ⟨(importance_twin hnone hp).1, (importance_twin hnone hp).2.1⟩

/-! ### additivity -/

/-- two runs of the additivity meter -/
theorem additivity_twin {R : Rng G} {cp : F} {b : AddArgs L F V K} {t0 : AddMeter G L F V K}
    (hnone : b.pdCalculator = none) {m' pf'}
    (hp : ∀ Xs, (sampleIfNotNone R b.X b.n t0.rng).1 = .ok Xs →
      SameOnMixes Xs.frame b.toPd.pf (b.toPd.withModel m' pf').pf) :
    (AddMeter.fit R cp { b with model := m', predictFunction := pf' } t0).1 = (AddMeter.fit R cp b t0).1 ∧
    (AddMeter.fit R cp { b with model := m', predictFunction := pf' } t0).2.index = (AddMeter.fit R cp b t0).2.index ∧
    (AddMeter.fit R cp { b with model := m', predictFunction := pf' } t0).2.fullResult =
      (AddMeter.fit R cp b t0).2.fullResult ∧
    ∀ Xs, (sampleIfNotNone R b.X b.n t0.rng).1 = .ok Xs →
      ∃ co, (AddMeter.fit R cp b t0).2.pdc = some co ∧ ∀ rows ∈ co.obj.calls, ∀ r ∈ rows, Mixes Xs.frame r := by
  cases eX : sampleIfNotNone R b.X b.n t0.rng with
  | mk rX rng =>
    cases rX with
    | error e =>
      simp only [AddMeter.fit, eX]
      exact ⟨trivial, trivial, trivial, fun Xs h => by cases h⟩
    | ok Xs =>
      have hp := hp Xs (by rw [eX])
      have hc : PdpMethod.chooseCalc b.toPd Xs (callable (getPredictFunction b.model b.predictFunction)) =
          .ok ⟨b.model.ident, Xs.labels, Calc.new b.toPd.pf Xs.frame b.batchsize⟩ := by
        have : b.toPd.pdCalculator = none := hnone
        simp only [PdpMethod.chooseCalc, this]
        rfl
      have hc' : PdpMethod.chooseCalc ({ b with model := m', predictFunction := pf' } : AddArgs L F V K).toPd Xs
          (callable (getPredictFunction m' pf')) =
          .ok ⟨m'.ident, Xs.labels, (Calc.new b.toPd.pf Xs.frame b.batchsize).withPredict (b.toPd.withModel m' pf').pf⟩ := by
        have : ({ b with model := m', predictFunction := pf' } : AddArgs L F V K).toPd.pdCalculator = none := hnone
        simp only [PdpMethod.chooseCalc, this]
        rfl
      have g0 := onMixes_new b.toPd.pf Xs.frame b.batchsize
      obtain ⟨g2, _, e2⟩ := twin_calcAdditivity hp cp _ g0
      have q' : callable (getPredictFunction m' pf') = (b.toPd.withModel m' pf').pf := rfl
      have q : callable (getPredictFunction b.model b.predictFunction) = b.toPd.pf := rfl
      rw [q'] at hc'
      rw [q] at hc
      simp only [AddMeter.fit, eX, q, q', hc, hc', e2]
      cases q2 : calcAdditivity cp b.toPd.pf Xs.frame (Calc.new b.toPd.pf Xs.frame b.batchsize) with
      | mk r2 c2 =>
        rw [q2] at g2
        cases r2 with
        | error e =>
          refine ⟨rfl, rfl, rfl, fun Ys h => ?_⟩
          cases h
          exact ⟨_, rfl, g2.calls⟩
        | ok out =>
          refine ⟨rfl, rfl, rfl, fun Ys h => ?_⟩
          cases h
          exact ⟨_, rfl, g2.calls⟩

/-- **C118, additivity.** (The one prediction asked for outside the calculator is for the drawn rows.) -/
theorem C118_additivity {R : Rng G} {cp : F} {b : AddArgs L F V K} {t0 : AddMeter G L F V K}
    (hnone : b.pdCalculator = none) (hs : (sampleIfNotNone R b.X b.n t0.rng).1 = .ok Xs) :
    ∃ co, (AddMeter.fit R cp b t0).2.pdc = some co ∧ ∀ rows ∈ co.obj.calls, ∀ r ∈ rows, Mixes Xs.frame r :=
  (additivity_twin (R := R) (cp := cp) (t0 := t0) hnone (m' := b.model) (pf' := b.predictFunction)
    (fun Xs _ => sameOnMixes_refl Xs.frame b.toPd.pf)).2.2.2 Xs hs

/-- **C119, additivity.** -/
theorem C119_additivity_partial {R : Rng G} {cp : F} {b : AddArgs L F V K} {t0 : AddMeter G L F V K}
    (hnone : b.pdCalculator = none) {m' pf'}
    (hp : ∀ Xs, (sampleIfNotNone R b.X b.n t0.rng).1 = .ok Xs →
      SameOnMixes Xs.frame b.toPd.pf (b.toPd.withModel m' pf').pf) :
    (AddMeter.fit R cp { b with model := m', predictFunction := pf' } t0).1 = (AddMeter.fit R cp b t0).1 ∧
    (AddMeter.fit R cp { b with model := m', predictFunction := pf' } t0).2.index = (AddMeter.fit R cp b t0).2.index :=
  ⟨(additivity_twin hnone hp).1, (additivity_twin hnone hp).2.1⟩

/-! ### performance based methods -/

/-- two runs of Sejong Oh's method -/
theorem sejong_twin {E : PerfEnv G L F K} {b : SejongArgs L F V K} {t0 : Sejong G L F V K} {m' : ModelObj F V (Num K)}
    (hm : ∀ Xs ys, (sampleBoth E.R E.toInt b.X b.y b.n t0.rng).1 = .ok (Xs, ys) → PredictsAlike Xs.frame b.model m')
    (entropy : G) :
    (Sejong.fit E { b with model := m' } entropy t0) = (Sejong.fit E b entropy t0) ∧
    ∀ Xs ys, (sampleBoth E.R E.toInt b.X b.y b.n t0.rng).1 = .ok (Xs, ys) →
      ∃ new, (Sejong.fit E b entropy t0).2.calls = t0.calls ++ new ∧ ∀ rows ∈ new, ∀ r ∈ rows, Mixes Xs.frame r := by
  cases eX : sampleBoth E.R E.toInt b.X b.y b.n t0.rng with
  | mk rX rng =>
    cases rX with
    | error e =>
      simp only [Sejong.fit, eX]
      exact ⟨trivial, fun Xs ys h => by cases h⟩
    | ok q =>
      obtain ⟨Xs, ys⟩ := q
      have hm := hm Xs ys (by rw [eX])
      obtain ⟨g1, _, e1⟩ := twin_perfOvo (old := t0.calls) hm E.sortOvo E.R t0.metric ys.values
        (combinations2 (allIfNone b.X.frame.cols b.features)) b.nRepeat ⟨rng, t0.calls⟩ ⟨[], by simp, by simp⟩
      simp only [id] at e1
      simp only [Sejong.fit, eX, e1]
      cases q1 : perfOvo E.sortOvo E.R b.model t0.metric ys.values Xs.frame
          (combinations2 (allIfNone b.X.frame.cols b.features)) b.nRepeat ⟨rng, t0.calls⟩ with
      | mk r1 w =>
        rw [q1] at g1
        cases r1 with
        | error e =>
          refine ⟨rfl, fun Ys ys' h => ?_⟩
          cases h
          exact g1
        | ok ovo =>
          simp only [PermObj.run]
          obtain ⟨g2, _, e2⟩ := twin_permImportance (old := t0.calls) hm E.sortFeat E.R t0.metric ys.values
            (some (allIfNone b.X.frame.cols b.features)) b.nRepeat ⟨entropy, w.calls⟩ g1
          simp only [id] at e2
          simp only [e2]
          cases q2 : permImportance E.sortFeat E.R b.model t0.metric ys.values Xs.frame
              (some (allIfNone b.X.frame.cols b.features)) b.nRepeat ⟨entropy, w.calls⟩ with
          | mk r2 w2 =>
            rw [q2] at g2
            cases r2 with
            | error e =>
              refine ⟨trivial, fun Ys ys' h => ?_⟩
              cases h
              exact g2
            | ok imp =>
              refine ⟨trivial, fun Ys ys' h => ?_⟩
              cases h
              exact g2

/-- two runs of the permutation importance -/
theorem permutation_twin {sort : List (FeatRow F K) → List (FeatRow F K)} {R : Rng G} {m m' : ModelObj F V (Num K)}
    {X : LFrame L F V} (hm : PredictsAlike X.frame m m') (y : Target L K) (n : Nat) (features : Option (List F))
    (o : PermObj G F K) (calls : List (List (Row F V))) :
    PermObj.run sort R m' X y n features o calls = PermObj.run sort R m X y n features o calls ∧
    ∃ new, (PermObj.run sort R m X y n features o calls).2.2 = calls ++ new ∧
      ∀ rows ∈ new, ∀ r ∈ rows, Mixes X.frame r := by
  obtain ⟨g2, _, e2⟩ := twin_permImportance (old := calls) hm sort R o.metric y.values features n ⟨o.rng, calls⟩
    ⟨[], by simp, by simp⟩
  simp only [id] at e2
  simp only [PermObj.run, e2]
  cases q2 : permImportance sort R m o.metric y.values X.frame features n ⟨o.rng, calls⟩ with
  | mk r2 w2 =>
    rw [q2] at g2
    cases r2 with
    | error e => exact ⟨trivial, g2⟩
    | ok imp => exact ⟨trivial, g2⟩

/-- **C118, Sejong Oh.** Whether `fit` returns or raises: every row it had scored is a mixture of values of the drawn
rows. -/
theorem C118_sejong {E : PerfEnv G L F K} {b : SejongArgs L F V K} {t0 : Sejong G L F V K} {ys : Target L K}
    (hs : (sampleBoth E.R E.toInt b.X b.y b.n t0.rng).1 = .ok (Xs, ys)) (entropy : G) :
    ∃ new, (Sejong.fit E b entropy t0).2.calls = t0.calls ++ new ∧ ∀ rows ∈ new, ∀ r ∈ rows, Mixes Xs.frame r :=
  (sejong_twin (m' := b.model) (fun Xs _ _ => predictsAlike_refl Xs.frame b.model) entropy).2 Xs ys hs

/-- **C119, Sejong Oh.** A model that answers alike on mixtures of values of the drawn rows gets the same outcome and the
same tables (with the same random numbers). -/
theorem C119_sejong {E : PerfEnv G L F K} {b : SejongArgs L F V K} {t0 : Sejong G L F V K} {m' : ModelObj F V (Num K)}
    (hm : ∀ Xs ys, (sampleBoth E.R E.toInt b.X b.y b.n t0.rng).1 = .ok (Xs, ys) → PredictsAlike Xs.frame b.model m')
    (entropy : G) : Sejong.fit E { b with model := m' } entropy t0 = Sejong.fit E b entropy t0 :=
  (sejong_twin hm entropy).1

/-- **C118, permutation importance.** -/
theorem C118_permutation {sort : List (FeatRow F K) → List (FeatRow F K)} {R : Rng G} {m : ModelObj F V (Num K)}
    {X : LFrame L F V} (y : Target L K) (n : Nat) (features : Option (List F))
    (o : PermObj G F K) (calls : List (List (Row F V))) :
    ∃ new, (PermObj.run sort R m X y n features o calls).2.2 = calls ++ new ∧
      ∀ rows ∈ new, ∀ r ∈ rows, Mixes X.frame r :=
  (permutation_twin (predictsAlike_refl X.frame m) y n features o calls).2

/-- **C119, permutation importance.** -/
theorem C119_permutation {sort : List (FeatRow F K) → List (FeatRow F K)} {R : Rng G} {m m' : ModelObj F V (Num K)}
    {X : LFrame L F V} (hm : PredictsAlike X.frame m m') (y : Target L K) (n : Nat) (features : Option (List F))
    (o : PermObj G F K) (calls : List (List (Row F V))) :
    PermObj.run sort R m' X y n features o calls = PermObj.run sort R m X y n features o calls :=
  (permutation_twin hm y n features o calls).1

section Cases
open Ex

/-- `4 x y + 3 y` where both values are 1 or -1; elsewhere the model raises ValueError -/
def mixModel {K : Type} [Field K] : ModelObj (Fin 2) ℤ (Num K) where
  ident := 2
  predict := some fun _ rows =>
    if rows.all fun r => (r 0 == 1 || r 0 == -1) && (r 1 == 1 || r 1 == -1) then
      .ok (rows.map fun r => .fin (gridU 4 3 r)) else .error .valueError
  predictProba := none

theorem gridX_mixes {r : Row (Fin 2) ℤ} (h : Mixes gridX.frame r) (f : Fin 2) : r f = 1 ∨ r f = -1 := by
  obtain ⟨r0, h0, e⟩ := h f
  rw [e]
  have hf : ∀ f : Fin 2, f = 0 ∨ f = 1 := by decide
  have hf := hf f
  simp only [gridX, List.mem_cons, List.not_mem_nil, or_false] at h0
  rcases h0 with rfl | rfl | rfl | rfl <;> rcases hf with rfl | rfl <;> simp

/-- the hypothesis of C119: the model that raises elsewhere answers like `4 x y + 3 y` on mixtures of the data -/
theorem mixModel_same : SameOnMixes gridX.frame (gridArgs (K := ℚ) 4 3).pf ((gridArgs 4 3).withModel mixModel none).pf := by
  intro n rows h
  have : (rows.all fun r => (r 0 == 1 || r 0 == -1) && (r 1 == 1 || r 1 == -1)) = true := by
    rw [List.all_eq_true]
    intro r hr
    have h0 := gridX_mixes (h r hr) 0
    have h1 := gridX_mixes (h r hr) 1
    simp [h0, h1]
  simp only [PdArgs.pf, PdArgs.withModel, getPredictFunction, mixModel, callable, gridArgs, this, if_true]

/-- so the two are explained alike, and fitting the second does not raise -/
example : (PdpMethod.fit (K := ℚ) (.friedman true) gridEnv ((gridArgs 4 3).withModel mixModel none) (PdpMethod.new 0)).1 =
    (PdpMethod.fit (K := ℚ) (.friedman true) gridEnv (gridArgs 4 3) (PdpMethod.new 0)).1 :=
  (C119_fit_partial _ rfl (fun Xs h => by cases h; exact mixModel_same)).1

example : (PdpMethod.fit (K := ℚ) (.friedman true) gridEnv ((gridArgs 4 3).withModel mixModel none) (PdpMethod.new 0)).1 =
      .ok () ∧
    (PdpMethod.fit (K := ℚ) (.friedman true) gridEnv ((gridArgs 4 3).withModel mixModel none)
      (PdpMethod.new 0)).2.ovo.map (fun t => t.map (·.val)) = some [.fin (16 / 25)] := by
  decide +kernel

/-- three rows, (1, 1), (-1, -1) and (1, -1) -/
def cornerX : LFrame Nat (Fin 2) ℤ := ⟨[0, 1, 2], ⟨[0, 1], [![1, 1], ![-1, -1], ![1, -1]]⟩⟩

/-- `x y`, but `t` at (-1, 1) -/
def cornerU (t : ℤ) (r : Row (Fin 2) ℤ) : ℤ := if r 0 = -1 ∧ r 1 = 1 then t else r 0 * r 1

/-- the H-statistic of this model on these rows -/
def cornerH (n : Bool) (t : ℤ) : Option (List (Num ℚ)) :=
  (PdpMethod.fit (G := Nat) (.friedman n) gridEnv { gridArgs 0 0 with
    X := cornerX
    model := { ident := 1, predict := some (fun _ rows => .ok (rows.map (fun r => .fin (cornerU t r : ℚ)))), predictProba := none } }
    (PdpMethod.new 0)).2.ovo.map fun t => t.map (·.val)

/-- **C119 needs the mixtures.** Models that differ only at (-1, 1), which is in no row of the data, have different
H-statistics. -/
theorem C119_needs_mixtures :
    (∀ r ∈ cornerX.frame.rows, cornerU 1 r = cornerU (-1) r) ∧ cornerH true 1 ≠ cornerH true (-1) := by
  decide +kernel

example : cornerH true (-1) = some [.fin (4 / 9)] := by decide +kernel

end Cases
end Artemis
