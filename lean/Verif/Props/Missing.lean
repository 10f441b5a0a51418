import Verif.Spec.Missing
import Verif.Proofs.MissingLemmas
import Verif.Proofs.PerfReturns
import Verif.Props.HStat
import Verif.Props.Sejong
import Verif.Examples.FitData

/-!
# C120, C121: data with missing values
-/

set_option linter.unusedSectionVars false
set_option linter.unusedVariables false
set_option linter.unusedSimpArgs false

namespace Artemis
open Spec

section pd
variable {F V K G L : Type} [DecidableEq F] [LinearOrder V] [Field K] [LinearOrder K] [IsStrictOrderedRing K] [HasSqrt K] [DecidableEq L]
  {miss : V → Bool} {E : PdEnv G F K} {a : PdArgs L F V K} {s0 : PdpMethod G L F V K} {Xs : LFrame L F V}

theorem hasMissing_iff {X : Frame F V} : HasMissing miss X ↔ ∃ f ∈ X.cols, ∃ v ∈ X.col f, miss v = true := by
  unfold HasMissing Frame.col
  constructor
  · rintro ⟨r, hr, f, hf, h⟩
    exact ⟨f, hf, r f, List.mem_map_of_mem hr, h⟩
  · rintro ⟨f, hf, v, hv, h⟩
    obtain ⟨r, hr, rfl⟩ := List.mem_map.1 hv
    exact ⟨r, hr, f, hf, h⟩

theorem complete_iff {X : Frame F V} : Complete miss X ↔ ¬ HasMissing miss X := by
  rw [hasMissing_iff]
  unfold Complete
  simp only [not_exists, not_and, Bool.not_eq_true]

/-- the calculator passed to `fit`, if any, went through public calls only -/
def UsedCalc (miss : V → Bool) (a : PdArgs L F V K) : Prop := ∀ co, a.pdCalculator = some co →
  ∃ (p : PF F V (Num K)) (b : Int) (ops : List (PDOp F)) (X : Frame F V), co.obj = runOpsN miss (Calc.new p X b) ops

theorem usedCalc_none (h : a.pdCalculator = none) : UsedCalc miss a := fun co hco => by rw [h] at hco; cases hco

/-- the calculator `fit` works with -/
theorem kept_chosen {co : CalcObj L F V K} (hu : UsedCalc miss a) (h : PdpMethod.chooseCalc a Xs a.pf = .ok co) :
    (∃ p, Kept miss p co.obj.X co.obj) ∧ SameData co.obj.X Xs.frame ∧
      (a.pdCalculator = none → Kept miss a.pf co.obj.X co.obj ∧ co.obj.X = Xs.frame) := by
  unfold PdpMethod.chooseCalc at h
  cases e : a.pdCalculator with
  | none =>
    rw [e] at h
    cases h
    exact ⟨⟨_, kept_new _ _ _⟩, SameData.refl _, fun _ => ⟨kept_new _ _ _, rfl⟩⟩
  | some co0 =>
    rw [e] at h
    simp only at h
    split at h
    · cases h
    · split at h
      · cases h
      · next h2 =>
        cases h
        obtain ⟨p, b, ops, X, hobj⟩ := hu co e
        have hk : Kept miss p X co.obj := hobj ▸ kept_runOps ops _ (kept_new p X b)
        have hX := hk.data
        refine ⟨⟨p, by rw [hX]; exact hk⟩, (sameData_of_equals (A := ⟨co.labels, co.obj.X⟩) (B := Xs) (by simpa using h2)).2,
          fun h => by cases h⟩

theorem clean_chosen {co : CalcObj L F V K} (hu : UsedCalc miss a) (hc : Complete miss Xs.frame)
    (ec : PdpMethod.chooseCalc a Xs a.pf = .ok co) : CleanCalc miss co.obj := by
  unfold PdpMethod.chooseCalc at ec
  cases en : a.pdCalculator with
  | none => rw [en] at ec; cases ec; exact clean_new _ hc _
  | some co0 =>
    rw [en] at ec
    simp only at ec
    split at ec
    · cases ec
    · split at ec
      · cases ec
      · next h2 =>
        cases ec
        obtain ⟨p, b, ops, X, hobj⟩ := hu co en
        have hk : Kept miss p X co.obj := hobj ▸ kept_runOps ops _ (kept_new p X b)
        have hd := (sameData_of_equals (A := ⟨co.labels, co.obj.X⟩) (B := Xs) (by simpa using h2)).2
        have hX : Complete miss X := by
          intro f hf v hv
          rw [← hk.data] at hf hv
          rw [hd.col hf] at hv
          exact hc f (hd.cols ▸ hf) v hv
        rw [hobj, (clean_runOps ops _ (clean_new p hX b)).2]
        exact (clean_runOps ops _ (clean_new p hX b)).1

theorem hasMissing_same {X Y : Frame F V} (h : SameData X Y) (hm : HasMissing miss Y) :
    ∃ f ∈ X.cols, ∃ v ∈ X.col f, miss v = true := by
  obtain ⟨f, hf, v, hv, h'⟩ := hasMissing_iff.1 hm
  have hfX : f ∈ X.cols := by rw [h.cols]; exact hf
  exact ⟨f, hfX, v, by rw [h.col hfX]; exact hv, h'⟩

/-- `fit` in terms of its parts -/
theorem fitN_shape (kind : PdKind) (hs : (sampleIfNotNone E.R a.X a.n s0.rng).1 = .ok Xs)
    (hov : ∀ co, PdpMethod.chooseCalc a Xs a.pf = .ok co → ∀ ovo c1,
      kind.ovoN miss E Xs.frame a.feats (combinations2 a.feats) co.obj = (.ok ovo, c1) →
      ∃ e c2, pdpImportanceN miss E.sortFeat (numIn E a.feats) a.feats c1 = (.error e, c2)) :
    ∃ e, (PdpMethod.fitN miss kind E a s0).1 = .error e ∧
      (PdpMethod.chooseCalc a Xs a.pf = .error e ∨ ∃ co, PdpMethod.chooseCalc a Xs a.pf = .ok co ∧
        ((kind.ovoN miss E Xs.frame a.feats (combinations2 a.feats) co.obj).1 = .error e ∨
          ∃ ovo c1, kind.ovoN miss E Xs.frame a.feats (combinations2 a.feats) co.obj = (.ok ovo, c1) ∧
            (pdpImportanceN miss E.sortFeat (numIn E a.feats) a.feats c1).1 = .error e)) ∧
      (PdpMethod.fitN miss kind E a s0).2.importance = s0.importance ∧
      (PdpMethod.fitN miss kind E a s0).2.ova = s0.ova := by
  cases eX : sampleIfNotNone E.R a.X a.n s0.rng with
  | mk rX rng =>
    rw [eX] at hs
    cases hs
    unfold PdpMethod.fitN PdpMethod.fitBaseN
    simp only [eX]
    cases ec : PdpMethod.chooseCalc a Xs a.pf with
    | error e =>
      have ec' := ec
      simp only [PdArgs.pf] at ec'
      simp only [ec']
      refine ⟨e, rfl, Or.inl rfl, ?_, ?_⟩ <;> first | trivial | rfl
    | ok co =>
      have ec' := ec
      simp only [PdArgs.pf] at ec'
      simp only [ec', PdpMethod.onCalc]
      have hov' := hov co ec
      cases e1 : kind.ovoN miss E Xs.frame a.feats (combinations2 a.feats) co.obj with
      | mk r1 c1 =>
        have e1' := e1
        simp only [PdArgs.feats] at e1'
        cases r1 with
        | error e =>
          simp only [e1']
          refine ⟨e, rfl, Or.inr ⟨co, rfl, Or.inl (by rw [e1])⟩, ?_, ?_⟩ <;> first | trivial | rfl
        | ok ovo =>
          obtain ⟨e, c2, h2⟩ := hov' ovo c1 e1
          have h2' := h2
          simp only [PdArgs.feats] at h2'
          simp only [e1', h2']
          refine ⟨e, rfl, Or.inr ⟨co, rfl, Or.inr ⟨ovo, c1, e1, by rw [h2]⟩⟩, ?_, ?_⟩ <;> first | trivial | rfl

/-- **C120, H-statistic and Greenwell.** If the drawn rows have a missing value - in a requested column or in any other -
`fit` raises, and writes neither an importance table nor a one-versus-all table. -/
theorem C120_fit_raises (kind : PdKind) (hs : (sampleIfNotNone E.R a.X a.n s0.rng).1 = .ok Xs) (hm : HasMissing miss Xs.frame)
    (hu : UsedCalc miss a) :
    ∃ e, (PdpMethod.fitN miss kind E a s0).1 = .error e ∧ (PdpMethod.fitN miss kind E a s0).2.importance = s0.importance ∧
      (PdpMethod.fitN miss kind E a s0).2.ova = s0.ova := by
  obtain ⟨e, h1, _, h2⟩ := fitN_shape (miss := miss) (E := E) (s0 := s0) kind hs (by
    intro co hco ovo c1 h
    obtain ⟨⟨p, hk⟩, hd, _⟩ := kept_chosen hu hco
    have hB : Blame p (fun _ => True) := ⟨trivial, fun _ _ _ _ => trivial⟩
    have hk1 : Kept miss p co.obj.X c1 := by
      have := kept_of_triple (keeps_ovoN (Y := Xs.frame) (E := E) (fs := a.feats) (ps := combinations2 a.feats) hB (fun _ => trivial) kind) hk
      rw [h] at this
      exact this
    obtain ⟨f, hf, v, hv, hmv⟩ := hasMissing_same hd hm
    obtain ⟨e, he, _⟩ := (breaks_pdpImportanceN (sort := E.sortFeat) (num := numIn E a.feats) (fs := a.feats) hB hf hv hmv).fails hk1
    exact ⟨e, _, Prod.ext he rfl⟩)
  exact ⟨e, h1, h2⟩

/-- **C120, H-statistic: the exception.** For a known set of different features and a new calculator the exception is `IndexError`,
unless the model raised. -/
theorem C120_h_index_error_partial {n : Bool} (hs : (sampleIfNotNone E.R a.X a.n s0.rng).1 = .ok Xs) (hm : HasMissing miss Xs.frame)
    (hnone : a.pdCalculator = none) (hv : ValidFeatures Xs.frame a.feats) :
    (PdpMethod.fitN miss (.friedman n) E a s0).1 = .error .indexError ∨
      ∃ k rows e, a.pf k rows = .error e ∧ (PdpMethod.fitN miss (.friedman n) E a s0).1 = .error e := by
  have hB : Blame a.pf (fun e => e = .indexError ∨ ∃ k rows, a.pf k rows = .error e) :=
    ⟨Or.inl rfl, fun k rows e h => Or.inr ⟨k, rows, h⟩⟩
  have hco : ∀ co, PdpMethod.chooseCalc a Xs a.pf = .ok co → Kept miss a.pf Xs.frame co.obj := by
    intro co hco
    obtain ⟨h1, h2⟩ := (kept_chosen (usedCalc_none hnone) hco).2.2 hnone
    rw [← h2]; exact h1
  have himp : ∀ c1 : Calc F V (Num K), Kept miss a.pf Xs.frame c1 →
      ∃ e, (pdpImportanceN miss E.sortFeat (numIn E a.feats) a.feats c1).1 = .error e ∧
        (e = .indexError ∨ ∃ k rows, a.pf k rows = .error e) := by
    intro c1 hk
    obtain ⟨f, hf, v, hv, hmv⟩ := hasMissing_iff.1 hm
    obtain ⟨e, he, h, _⟩ := (breaks_pdpImportanceN (sort := E.sortFeat) (num := numIn E a.feats) (fs := a.feats) hB hf hv hmv).fails hk
    exact ⟨e, he, h⟩
  have hovo := keeps_hstatOvoN (miss := miss) (sort := E.sortOvo) (n := n) (Y := Xs.frame) hB rfl hv
  obtain ⟨e, h1, h2, _⟩ := fitN_shape (miss := miss) (E := E) (s0 := s0) (.friedman n) hs (by
    intro co hc ovo c1 h
    have hk1 := kept_of_triple hovo (hco co hc)
    simp only [PdKind.ovoN] at h
    rw [h] at hk1
    obtain ⟨e, he, _⟩ := himp c1 hk1
    exact ⟨e, _, Prod.ext he rfl⟩)
  have : e = .indexError ∨ ∃ k rows, a.pf k rows = .error e := by
    rcases h2 with h2 | ⟨co, hc, h2 | ⟨ovo, c1, h2, h3⟩⟩
    · unfold PdpMethod.chooseCalc at h2
      rw [hnone] at h2
      cases h2
    · exact ((hovo co.obj (hco co hc)).2 e h2).1
    · have hk1 := kept_of_triple hovo (hco co hc)
      simp only [PdKind.ovoN] at h2
      rw [h2] at hk1
      obtain ⟨e', he, h⟩ := himp c1 hk1
      rw [he] at h3
      cases h3
      exact h
  rcases this with rfl | ⟨k, rows, h⟩
  · exact Or.inl h1
  · exact Or.inr ⟨k, rows, e, h, h1⟩

/-- **C120, stand-alone importance.** -/
theorem C120_importance_raises_partial {t0 : PdImpObj G L F V K} (hs : (sampleIfNotNone E.R a.X a.n t0.rng).1 = .ok Xs)
    (hm : HasMissing miss Xs.frame) (hu : UsedCalc miss a) :
    ∃ e, (PdImpObj.runN miss E a t0).1 = .error e ∧ (PdImpObj.runN miss E a t0).2.importance = t0.importance ∧
      (a.pdCalculator = none → e = .indexError ∨ ∃ k rows, a.pf k rows = .error e) := by
  cases eX : sampleIfNotNone E.R a.X a.n t0.rng with
  | mk rX rng =>
    rw [eX] at hs
    cases hs
    unfold PdImpObj.runN
    simp only [eX]
    cases ec : PdpMethod.chooseCalc a Xs a.pf with
    | error e =>
      have ec' := ec
      simp only [PdArgs.pf] at ec'
      simp only [ec']
      refine ⟨e, rfl, by first | trivial | rfl, fun h => ?_⟩
      unfold PdpMethod.chooseCalc at ec
      rw [h] at ec
      cases ec
    | ok co =>
      have ec' := ec
      simp only [PdArgs.pf] at ec'
      simp only [ec']
      obtain ⟨⟨p, hk⟩, hd, hn⟩ := kept_chosen hu ec
      obtain ⟨f, hf, v, hv, hmv⟩ := hasMissing_same hd hm
      have hB : ∀ p : PF F V (Num K), Blame p (fun e => e = .indexError ∨ ∃ k rows, p k rows = .error e) := fun p =>
        ⟨Or.inl rfl, fun k rows e h => Or.inr ⟨k, rows, h⟩⟩
      have hbr := fun p => breaks_pdpImportanceN (sort := E.sortFeat) (num := numIn E (allIfNone a.X.frame.cols a.features))
        (fs := allIfNone a.X.frame.cols a.features) (hB p) hf hv hmv
      obtain ⟨e, he, _⟩ := (hbr p).fails hk
      have he' : pdpImportanceN miss E.sortFeat (numIn E (allIfNone a.X.frame.cols a.features)) (allIfNone a.X.frame.cols a.features) co.obj =
          (.error e, (pdpImportanceN miss E.sortFeat (numIn E (allIfNone a.X.frame.cols a.features))
            (allIfNone a.X.frame.cols a.features) co.obj).2) := Prod.ext he rfl
      rw [he']
      refine ⟨e, rfl, by first | trivial | rfl, fun h => ?_⟩
      obtain ⟨e2, he2, hb, _⟩ := (hbr a.pf).fails (hn h).1
      rw [he] at he2
      cases he2
      exact hb

/-- **C120, complete data.** Without missing values among the drawn rows everything is as described by the other properties, whose
model has no missing values: same outcome, same object. -/
theorem C120_complete_fit (kind : PdKind) (hs : (sampleIfNotNone E.R a.X a.n s0.rng).1 = .ok Xs) (hm : ¬ HasMissing miss Xs.frame)
    (hu : UsedCalc miss a) : PdpMethod.fitN miss kind E a s0 = PdpMethod.fit kind E a s0 := by
  have hc := complete_iff.2 hm
  cases eX : sampleIfNotNone E.R a.X a.n s0.rng with
  | mk rX rng =>
    rw [eX] at hs
    cases hs
    unfold PdpMethod.fitN PdpMethod.fit PdpMethod.fitBaseN PdpMethod.fitBase
    simp only [eX]
    cases ec : PdpMethod.chooseCalc a Xs a.pf with
    | error e =>
      have ec' := ec
      simp only [PdArgs.pf] at ec'
      simp only [ec']
    | ok co =>
      have ec' := ec
      simp only [PdArgs.pf] at ec'
      have hclean := clean_chosen hu hc ec
      simp only [ec', PdpMethod.onCalc]
      obtain ⟨i1, e1⟩ := alike_ovo hc kind E (allIfNone a.X.frame.cols a.features) (combinations2 (allIfNone a.X.frame.cols a.features))
        co.obj hclean
      rw [e1]
      cases g1 : kind.ovo E Xs.frame (allIfNone a.X.frame.cols a.features) (combinations2 (allIfNone a.X.frame.cols a.features)) co.obj with
      | mk r1 c1 =>
        rw [g1] at i1
        cases r1 with
        | error e => rfl
        | ok ovo =>
          simp only
          obtain ⟨i2, e2⟩ := alike_importance (miss := miss) E.sortFeat (numIn E (allIfNone a.X.frame.cols a.features))
            (allIfNone a.X.frame.cols a.features) c1 i1
          rw [e2]
          cases g2 : pdpImportance E.sortFeat (numIn E (allIfNone a.X.frame.cols a.features)) (allIfNone a.X.frame.cols a.features) c1 with
          | mk r2 c2 =>
            rw [g2] at i2
            cases r2 with
            | error e => rfl
            | ok imp =>
              simp only
              cases kind with
              | greenwell => rfl
              | friedman n =>
                simp only
                split
                · obtain ⟨i3, e3⟩ := alike_ova (miss := miss) hc E.sortFeat (callable (getPredictFunction a.model a.predictFunction)) n
                    (allIfNone a.X.frame.cols a.features) c2 i2
                  rw [e3]
                  rfl
                · rfl

theorem C120_complete_importance {t0 : PdImpObj G L F V K} (hs : (sampleIfNotNone E.R a.X a.n t0.rng).1 = .ok Xs)
    (hm : ¬ HasMissing miss Xs.frame) (hu : UsedCalc miss a) : PdImpObj.runN miss E a t0 = PdImpObj.run E a t0 := by
  have hc := complete_iff.2 hm
  cases eX : sampleIfNotNone E.R a.X a.n t0.rng with
  | mk rX rng =>
    rw [eX] at hs
    cases hs
    unfold PdImpObj.runN PdImpObj.run
    simp only [eX]
    cases ec : PdpMethod.chooseCalc a Xs a.pf with
    | error e =>
      have ec' := ec
      simp only [PdArgs.pf] at ec'
      simp only [ec']
    | ok co =>
      have ec' := ec
      simp only [PdArgs.pf] at ec'
      simp only [ec']
      rw [(alike_importance E.sortFeat (numIn E (allIfNone a.X.frame.cols a.features)) (allIfNone a.X.frame.cols a.features) co.obj
        (clean_chosen hu hc ec)).2]
      rfl

/-- **C120, the calculator on complete data.** -/
theorem C120_complete_calculator {p : PF F V (Num K)} {X : Frame F V} {b : Int} (ops : List (PDOp F)) (hm : ¬ HasMissing miss X) :
    runOpsN miss (Calc.new p X b) ops = runOps (Calc.new p X b) ops :=
  (clean_runOps ops _ (clean_new p (complete_iff.2 hm) b)).2

/-- **C120, the calculator itself.** After any history of calls - returning or raising - no partial dependence was stored for a
missing value, and asking for a column with a missing value raises. -/
theorem C120_calculator {p : PF F V (Num K)} {X : Frame F V} {b : Int} {ops : List (PDOp F)} {f : F} {v : V}
    (hf : f ∈ X.cols) (hv : v ∈ X.col f) (hm : miss v = true) {fs : Option (List F)} (hfs : f ∈ fs.getD X.cols) :
    (∃ e, (Calc.calculateSingleN miss fs (runOpsN miss (Calc.new p X b) ops)).1 = .error e) ∧
      (∀ vs, v ∈ vs → ∃ e, (runOpsN miss (Calc.new p X b) ops).getSingleN miss f vs = .error e) ∧
      ∃ t, (runOpsN miss (Calc.new p X b) ops).pdSingle.get? f = some t ∧ t.fValues = npUnique (X.col f) ∧
        ∀ (i : Nat) x, t.fValues[i]? = some v → t.pdValues[i]? = some x → Flt.isNaN x = true := by
  have hk : Kept miss p X (runOpsN miss (Calc.new p X b) ops) := kept_runOps ops _ (kept_new p X b)
  have hB : Blame p (fun _ => True) := ⟨trivial, fun _ _ _ _ => trivial⟩
  refine ⟨?_, ?_, ?_⟩
  · obtain ⟨e, he, _⟩ := (breaks_single hB (fs := fs) (fun _ _ => Or.inr trivial) hfs hf hv hm).fails hk
    exact ⟨e, he⟩
  · intro vs hvs
    cases e : (runOpsN miss (Calc.new p X b) ops).getSingleN miss f vs with
    | error er => exact ⟨er, rfl⟩
    | ok l =>
      obtain ⟨x, _, hx⟩ := exists_of_forall₂ (mapM_eq_ok e) hvs
      unfold Calc.lookupSingleN at hx
      split at hx
      · cases hx
      · rw [getIndexN_of_missing hm] at hx
        cases hx
  · cases e : (runOpsN miss (Calc.new p X b) ops).pdSingle.get? f with
    | none =>
      rw [Dict.get?_eq_none_iff, hk.skeys] at e
      exact absurd hf e
    | some t =>
      obtain ⟨h1, _, h3⟩ := hk.single _ _ e
      exact ⟨t, rfl, h1, fun i x hi hx => h3 i v x hi hm hx⟩

end pd

section additivity
variable {F V K G L : Type} [DecidableEq F] [LinearOrder V] [Field K] [LinearOrder K] [IsStrictOrderedRing K] [HasSqrt K] [DecidableEq L]
  {miss : V → Bool} {R : Rng G} {cp : F} {a : AddArgs L F V K} {s0 : AddMeter G L F V K} {Xs : LFrame L F V}

/-- **C120, additivity meter.** -/
theorem C120_additivity_raises_partial (hs : (sampleIfNotNone R a.X a.n s0.rng).1 = .ok Xs) (hm : HasMissing miss Xs.frame)
    (hu : UsedCalc miss a.toPd) :
    ∃ e, (AddMeter.fitN miss R cp a s0).1 = .error e ∧ (AddMeter.fitN miss R cp a s0).2.index = s0.index ∧
      (a.pdCalculator = none → e = .indexError ∨ ∃ k rows, a.toPd.pf k rows = .error e) := by
  cases eX : sampleIfNotNone R a.X a.n s0.rng with
  | mk rX rng =>
    rw [eX] at hs
    cases hs
    unfold AddMeter.fitN
    simp only [eX]
    cases ec : PdpMethod.chooseCalc a.toPd Xs a.toPd.pf with
    | error e =>
      have ec' := ec
      simp only [PdArgs.pf, AddArgs.toPd] at ec'
      simp only [AddArgs.toPd, ec']
      refine ⟨e, rfl, by first | trivial | rfl, fun h => ?_⟩
      unfold PdpMethod.chooseCalc at ec
      have h' : a.toPd.pdCalculator = none := h
      rw [h'] at ec
      cases ec
    | ok co =>
      have ec' := ec
      simp only [PdArgs.pf, AddArgs.toPd] at ec'
      simp only [AddArgs.toPd, ec']
      obtain ⟨⟨p, hk⟩, hd, hn⟩ := kept_chosen hu ec
      obtain ⟨f, hf, v, hv, hmv⟩ := hasMissing_same hd hm
      have hB : ∀ p : PF F V (Num K), Blame p (fun e => e = .indexError ∨ ∃ k rows, p k rows = .error e) := fun p =>
        ⟨Or.inl rfl, fun k rows e h => Or.inr ⟨k, rows, h⟩⟩
      have hbr := fun p => breaks_calcAdditivityN (Y := Xs.frame) (cp := cp) (pr := callable (getPredictFunction a.model a.predictFunction))
        (hB p) hf hv hmv
      obtain ⟨e, he, _⟩ := (hbr p).fails hk
      have he' : calcAdditivityN miss cp (callable (getPredictFunction a.model a.predictFunction)) Xs.frame co.obj =
          (.error e, (calcAdditivityN miss cp (callable (getPredictFunction a.model a.predictFunction)) Xs.frame co.obj).2) :=
        Prod.ext he rfl
      rw [he']
      refine ⟨e, rfl, by first | trivial | rfl, fun h => ?_⟩
      obtain ⟨e2, he2, hb, _⟩ := (hbr a.toPd.pf).fails (hn h).1
      rw [he] at he2
      cases he2
      exact hb

theorem C120_complete_additivity (hs : (sampleIfNotNone R a.X a.n s0.rng).1 = .ok Xs) (hm : ¬ HasMissing miss Xs.frame)
    (hu : UsedCalc miss a.toPd) : AddMeter.fitN miss R cp a s0 = AddMeter.fit R cp a s0 := by
  have hc := complete_iff.2 hm
  cases eX : sampleIfNotNone R a.X a.n s0.rng with
  | mk rX rng =>
    rw [eX] at hs
    cases hs
    unfold AddMeter.fitN AddMeter.fit
    simp only [eX]
    cases ec : PdpMethod.chooseCalc a.toPd Xs a.toPd.pf with
    | error e =>
      have ec' := ec
      simp only [PdArgs.pf, AddArgs.toPd] at ec'
      simp only [AddArgs.toPd, ec']
    | ok co =>
      have ec' := ec
      simp only [PdArgs.pf, AddArgs.toPd] at ec'
      simp only [AddArgs.toPd, ec']
      rw [(alike_additivity hc cp (callable (getPredictFunction a.model a.predictFunction)) co.obj (clean_chosen hu hc ec)).2]
      rfl

end additivity

/-! ### C121: the permutation methods -/

section perf
variable {F V K G L : Type} [DecidableEq F] [Field K] [LinearOrder K] [DecidableEq L]

variable {R : Rng G} {model : ModelObj F V (Num K)} {M : Metric K} {y : List (Num K)} {X : Frame F V}

/-- the three metrics of the package can be evaluated for vectors of the same length -/
theorem C121_metrics_answer [HasSqrt K] {M : Metric K} (hM : M = mseM ∨ M = rmseM ∨ M = accuracyM) {y yh : List (Num K)}
    (h : yh.length = y.length) : ∃ v, M.calculate y yh = .ok v := by
  rcases hM with rfl | rfl | rfl
  · exact ⟨_, by simp only [mseM, elementwise, if_pos h.symm, bind, Except.bind]; rfl⟩
  · exact ⟨_, by simp only [rmseM, mseM, elementwise, if_pos h.symm, bind, Except.bind]; rfl⟩
  · exact ⟨_, by simp only [accuracyM, elementwise, if_pos h.symm, bind, Except.bind]; rfl⟩

/-- **C121, `PermutationImportance`.** Let the model and the metric answer. For known features - at least one - a table is returned;
without features, or with an unknown one and at least one repetition, the call ends with KeyError. Nothing is asked of the values: they may be missing,
equal, of any type. -/
theorem C121_permutation_returns (hR : Rng.Lawful R) {X : LFrame L F V} {y : Target L K} {o : PermObj G F K}
    (ha : Answers model o.metric y.values X.frame.len) {fs : List F} (sort) (nRepeat : Nat) (calls : List (List (Row F V))) :
    ((∀ f ∈ fs, f ∈ X.frame.cols) → fs ≠ [] → ∃ t, (PermObj.run sort R model X y nRepeat (some fs) o calls).1 = .ok t ∧
      (PermObj.run sort R model X y nRepeat (some fs) o calls).2.1.importance = some t) ∧
    ((fs = [] ∨ (∃ f ∈ fs, f ∉ X.frame.cols) ∧ 0 < nRepeat) →
      (PermObj.run sort R model X y nRepeat (some fs) o calls).1 = .error .keyError) := by
  constructor
  · intro hfs hne
    obtain ⟨t, ht, _⟩ := (returns_permImportance (X := X.frame) hR ha hfs hne sort nRepeat).returns (s := ⟨o.rng, calls⟩) trivial
    refine ⟨t, ?_⟩
    have ht' : permImportance sort R model o.metric y.values X.frame (some fs) nRepeat ⟨o.rng, calls⟩ =
        (.ok t, (permImportance sort R model o.metric y.values X.frame (some fs) nRepeat ⟨o.rng, calls⟩).2) := Prod.ext ht rfl
    unfold PermObj.run
    rw [ht']
    exact ⟨rfl, rfl⟩
  · intro h
    obtain ⟨e, he, rfl⟩ := (fails_permImportance (X := X.frame) hR ha h sort).fails (s := ⟨o.rng, calls⟩) trivial
    have he' : permImportance sort R model o.metric y.values X.frame (some fs) nRepeat ⟨o.rng, calls⟩ =
        (.error .keyError, (permImportance sort R model o.metric y.values X.frame (some fs) nRepeat ⟨o.rng, calls⟩).2) := Prod.ext he rfl
    unfold PermObj.run
    rw [he']

/-- **C121, Sejong Oh's method.** The same for `fit`, on the drawn rows. -/
theorem C121_sejong_returns_partial [IsStrictOrderedRing K] [HasSqrt K] {E : PerfEnv G L F K} {a : SejongArgs L F V K} {entropy : G} {s0 : Sejong G L F V K} {Xs : LFrame L F V}
    {ys : Target L K} (hR : Rng.Lawful E.R) (hs : (sampleBoth E.R E.toInt a.X a.y a.n s0.rng).1 = .ok (Xs, ys))
    (ha : Answers a.model s0.metric ys.values Xs.frame.len) :
    ((∀ f ∈ a.feats, f ∈ a.X.frame.cols) → a.feats ≠ [] → (Sejong.fit E a entropy s0).1 = .ok () ∧
      (∃ t, (Sejong.fit E a entropy s0).2.ovo = some t) ∧ ∃ t, (Sejong.fit E a entropy s0).2.importance = some t) ∧
    ((a.feats = [] ∨ (∃ f ∈ a.feats, f ∉ a.X.frame.cols) ∧ 0 < a.nRepeat) → (Sejong.fit E a entropy s0).1 = .error .keyError) := by
  have hfe : allIfNone a.X.frame.cols a.features = a.feats := by
    unfold allIfNone SejongArgs.feats
    cases a.features <;> rfl
  cases eX : sampleBoth E.R E.toInt a.X a.y a.n s0.rng with
  | mk r g =>
    rw [eX] at hs
    cases hs
    have hcols := sampleBoth_cols eX
    rw [← hcols]
    unfold Sejong.fit
    simp only [eX, hfe]
    have hov : Triple (σ := Scored G F V) Always (perfOvo E.sortOvo E.R a.model s0.metric ys.values Xs.frame (combinations2 a.feats) a.nRepeat)
        (fun _ => Always) (fun e _ => e = .keyError) :=
      returns_perfOvo (B := fun e => e = .keyError) (X := Xs.frame) hR ha (fun q _ => ⟨Or.inr rfl, Or.inr rfl⟩) E.sortOvo a.nRepeat
    constructor
    · intro hfs hne
      obtain ⟨t, ht, _⟩ := (returns_perfOvo (B := fun _ => False) (X := Xs.frame) hR ha (ps := combinations2 a.feats)
        (fun q hq => ⟨Or.inl (hfs _ (mem_combinations2 hq).1), Or.inl (hfs _ (mem_combinations2 hq).2)⟩) E.sortOvo a.nRepeat).returns
        (s := ⟨g, s0.calls⟩) trivial
      cases e1 : perfOvo E.sortOvo E.R a.model s0.metric ys.values Xs.frame (combinations2 a.feats) a.nRepeat ⟨g, s0.calls⟩ with
      | mk r1 w =>
        rw [e1] at ht
        cases ht
        simp only
        obtain ⟨t2, ht2, _⟩ := (C121_permutation_returns (L := L) (X := Xs) (y := ys) (o := ⟨entropy, s0.metric, none⟩) hR ha E.sortFeat
          a.nRepeat w.calls).1 hfs hne
        cases e2 : PermObj.run E.sortFeat E.R a.model Xs ys a.nRepeat (some a.feats) ⟨entropy, s0.metric, none⟩ w.calls with
        | mk r2 w2 =>
          rw [e2] at ht2
          cases ht2
          obtain ⟨o2, calls2⟩ := w2
          exact ⟨rfl, ⟨_, rfl⟩, ⟨_, rfl⟩⟩
    · intro h
      have h1 := hov ⟨g, s0.calls⟩ trivial
      cases e1 : perfOvo E.sortOvo E.R a.model s0.metric ys.values Xs.frame (combinations2 a.feats) a.nRepeat ⟨g, s0.calls⟩ with
      | mk r1 w =>
        rw [e1] at h1
        cases r1 with
        | error e => rw [h1.2 e rfl]
        | ok t =>
          simp only
          have h2 := (C121_permutation_returns (L := L) (X := Xs) (y := ys) (o := ⟨entropy, s0.metric, none⟩) hR ha E.sortFeat
            a.nRepeat w.calls).2 h
          cases e2 : PermObj.run E.sortFeat E.R a.model Xs ys a.nRepeat (some a.feats) ⟨entropy, s0.metric, none⟩ w.calls with
          | mk r2 w2 =>
            rw [e2] at h2
            cases h2
            obtain ⟨o2, calls2⟩ := w2
            rfl

end perf

/-! ### Concrete cases -/

section Cases

open Ex

/-- the value 99 stands for `NaN`, which NumPy sorts last -/
def exMiss (v : ℤ) : Bool := v == 99

/-- three rows, column 2 has a missing value -/
def exMissX : LFrame Nat (Fin 3) ℤ := ⟨[5, 6, 7], ⟨[0, 1, 2], [![0, 1, 99], ![1, 0, 4], ![1, 1, 4]]⟩⟩

def exMissArgs {K : Type} [Field K] [LinearOrder K] [IsStrictOrderedRing K] : PdArgs Nat (Fin 3) ℤ K := { exArgs with X := exMissX }

theorem exMissX_has : HasMissing exMiss exMissX.frame := ⟨![0, 1, 99], by simp [exMissX], 2, by decide, rfl⟩

/-- the hypotheses of `C120_fit_raises` and `C120_h_index_error_partial` are met, with all features and with features 0 and 1 only -/
example : ∃ e, (PdpMethod.fitN exMiss .greenwell exEnv (exMissArgs (K := ℝ)) (PdpMethod.new 0)).1 = .error e :=
  let ⟨e, h, _⟩ := C120_fit_raises (a := exMissArgs (K := ℝ)) .greenwell rfl exMissX_has (usedCalc_none rfl)
  ⟨e, h⟩

example : (PdpMethod.fitN exMiss (.friedman true) exEnv { exMissArgs (K := ℝ) with features := some [0, 1] } (PdpMethod.new 0)).1 =
    .error .indexError := by
  refine (C120_h_index_error_partial (a := { exMissArgs (K := ℝ) with features := some [0, 1] }) rfl exMissX_has rfl
    (validFeatures_of_nodup (by decide) (by decide))).resolve_right ?_
  rintro ⟨k, rows, e, h, _⟩
  cases h

/-- **C120, columns that were not requested count too.** Column 2 is the only incomplete one, features 0 and 1 were requested, the pair
has been computed, and the call ends with IndexError. -/
theorem C120_unrequested_column_matters :
    (PdpMethod.fitN (K := ℚ) exMiss (.friedman false) exEnv { exMissArgs with features := some [0, 1] } (PdpMethod.new 0)).1 =
      .error .indexError ∧
    (PdpMethod.fitN (K := ℚ) exMiss (.friedman false) exEnv { exMissArgs with features := some [0, 1] } (PdpMethod.new 0)).2.ovo.map
      (fun t => t.map fun r => (r.f1, r.f2)) = some [((0 : Fin 3), (1 : Fin 3))] ∧
    (PdpMethod.fitN (K := ℚ) exMiss .greenwell exEnv { exMissArgs with features := some [0, 1] } (PdpMethod.new 0)).1 =
      .error .indexError :=
  ⟨by decide +kernel, by decide +kernel, by decide +kernel⟩

/-- complete data -/
example : PdpMethod.fitN (K := ℝ) exMiss (.friedman true) exEnv exArgs (PdpMethod.new 0) =
    PdpMethod.fit (.friedman true) exEnv exArgs (PdpMethod.new 0) :=
  C120_complete_fit (Xs := exLX) _ rfl (by rintro ⟨r, hr, f, _, h⟩; revert f; revert r; decide) (usedCalc_none rfl)

/-- the same rows are no obstacle to Sejong Oh's method -/
def exMissSArgs {K : Type} [Field K] : SejongArgs Nat (Fin 3) ℤ K :=
  { exSArgs with X := exMissX, features := some [2, 0, 2] }

theorem exMissAnswers {M : Metric ℝ} (hM : M = mseM ∨ M = rmseM ∨ M = accuracyM) : Answers (exMissSArgs (K := ℝ)).model M (exPerfY (K := ℝ)).values 3 where
  model := ⟨_, rfl, fun k rows h => ⟨_, rfl, by simpa using h⟩⟩
  metric := fun yh h => C121_metrics_answer hM (by simpa [exPerfY, Target.values] using h)

example (ent g : Nat) : (Sejong.fit (K := ℝ) exPerfEnv exMissSArgs ent (Sejong.new g accuracyM)).1 = .ok () :=
  ((C121_sejong_returns_partial (E := exPerfEnv) (a := exMissSArgs) exRng2_lawful rfl (exMissAnswers (Or.inr (Or.inr rfl)))).1
    (by show ∀ f ∈ [(2 : Fin 3), 0, 2], f ∈ [(0 : Fin 3), 1, 2]; decide) (by show [(2 : Fin 3), 0, 2] ≠ []; simp)).1

example (ent g : Nat) : (Sejong.fit (K := ℝ) exPerfEnv { exMissSArgs with features := some [] } ent (Sejong.new g mseM)).1 = .error .keyError :=
  (C121_sejong_returns_partial (E := exPerfEnv) (a := { exMissSArgs (K := ℝ) with features := some [] }) exRng2_lawful rfl
    (exMissAnswers (Or.inl rfl))).2 (Or.inl rfl)

end Cases

end Artemis
