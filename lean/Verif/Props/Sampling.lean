import Verif.Props.PdImportance
import Verif.Props.Predict

/-!
# Properties C100–C103: prediction functions next to calculators, sampling, recorded inputs

Friedman's and Greenwell's methods, the stand-alone partial dependence importance, the additivity index. Setting as in
`Verif/Props/HStat.lean`.
-/

set_option linter.unusedSectionVars false
set_option linter.unusedVariables false
set_option linter.unusedSimpArgs false

namespace Artemis
open Spec

namespace Spec

/-- `Y` consists of the rows of `X` at the positions `is`, in this order, with their labels, and has the same columns -/
structure RowsAt {L F V : Type} (X : LFrame L F V) (is : List Nat) (Y : LFrame L F V) : Prop where
  cols : Y.frame.cols = X.frame.cols
  rows : List.Forall₂ (fun i r => X.frame.rows[i]? = some r) is Y.frame.rows
  labels : List.Forall₂ (fun i l => X.labels[i]? = some l) is Y.labels

/-- `Y` is a sample of `k` different rows of `X` -/
def SampleOf {L F V : Type} (X : LFrame L F V) (k : Nat) (Y : LFrame L F V) : Prop :=
  ∃ is : List Nat, is.length = k ∧ is.Nodup ∧ RowsAt X is Y

end Spec

variable {F V K G L : Type} [DecidableEq F] [LinearOrder V] [DecidableEq L] [Field K] [LinearOrder K]
  [IsStrictOrderedRing K] [HasSqrt K]
variable {g : Row F V → Num K} {E : PdEnv G F K} {a a' : PdArgs L F V K} {o o' : PdImpObj G L F V K}
  {s0 s0' s s' : PdpMethod G L F V K} {Xs : LFrame L F V} {t : List (FeatRow F K)}

/-! ## C100: the prediction function given to `fit` -/

/-- **C100 fails** in general: next to a supplied calculator the prediction function has no influence at all on the tables of pairs
and of features; the calculator's own prediction function is explained. No assumption on model, data or calculator. -/
theorem C100_ignored_next_to_calculator (kind : PdKind) {co : CalcObj L F V K} (hco : a.pdCalculator = some co)
    (p : Option (ModelObj F V (Num K) → PF F V (Num K))) :
    (PdpMethod.fit kind E { a with predictFunction := p } s0).2.ovo = (PdpMethod.fit kind E a s0).2.ovo ∧
    (PdpMethod.fit kind E { a with predictFunction := p } s0).2.importance = (PdpMethod.fit kind E a s0).2.importance := by
  cases eX : sampleIfNotNone E.R a.X a.n s0.rng with
  | mk rX rng =>
    cases rX with
    | error e => simp [PdpMethod.fit, PdpMethod.fitBase, eX]
    | ok Xs =>
      have hi : ∀ q q', PdpMethod.chooseCalc { a with predictFunction := p } Xs q = PdpMethod.chooseCalc a Xs q' := by
        intro q q'; simp only [PdpMethod.chooseCalc, hco]
      cases ec : PdpMethod.chooseCalc a Xs a.pf with
      | error e =>
        have ec' := (hi (PdArgs.pf { a with predictFunction := p }) a.pf).trans ec
        unfold PdArgs.pf at ec ec'
        simp [PdpMethod.fit, PdpMethod.fitBase, eX, ec, ec']
      | ok c0 =>
        have ec' := (hi (PdArgs.pf { a with predictFunction := p }) a.pf).trans ec
        rw [fit_eq kind E a s0 eX ec, fit_eq kind E { a with predictFunction := p } s0 eX ec']
        have hf : PdArgs.feats { a with predictFunction := p } = a.feats := rfl
        rw [hf]
        cases e1 : kind.ovo E Xs.frame a.feats (combinations2 a.feats) c0.obj with
        | mk r1 c1 =>
          cases r1 with
          | error e => exact ⟨rfl, rfl⟩
          | ok ovo =>
            simp only
            cases e2 : pdpImportance E.sortFeat (numIn E a.feats) a.feats c1 with
            | mk r2 c2 =>
              cases r2 with
              | error e => exact ⟨rfl, rfl⟩
              | ok imp =>
                cases kind with
                | greenwell => exact ⟨rfl, rfl⟩
                | friedman n =>
                  simp only
                  by_cases ho : a.calculateOva = true
                  · simp only [if_pos ho]
                    cases e3 : hstatOva E.sortFeat a.pf n Xs.frame a.feats c2 with
                    | mk r3 c3 =>
                      cases e4 : hstatOva E.sortFeat (PdArgs.pf { a with predictFunction := p }) n Xs.frame a.feats c2 with
                      | mk r4 c4 => cases r3 <;> cases r4 <;> exact ⟨rfl, rfl⟩
                  · simp only [ho, if_false]
                    exact ⟨rfl, rfl⟩

/-- **C100** (partial: the supplied calculator was built with the same prediction function). What is explained is the prediction function
given to `fit`: all tables are those of a fit without calculator. Missing: calculators built with another function, for
which `C100_ignored_next_to_calculator`. -/
theorem C100_same_function_partial (kind : PdKind) {co : CalcObj L F V K} (hco : a.pdCalculator = some co)
    (hs : FitSetup g E { a with pdCalculator := none } s0 Xs) {b : Int} {ops : List (PDOp F)} {X : Frame F V}
    (hobj : co.obj = runOps (Calc.new a.pf X b) ops)
    (hret : PdpMethod.fit kind E a s0 = (.ok (), s)) (hret' : PdpMethod.fit kind E { a with pdCalculator := none } s0 = (.ok (), s')) :
    s.ovo = s'.ovo ∧ s.importance = s'.importance ∧
      (∀ n, kind = .friedman n → a.calculateOva = true → s.ova = s'.ova) := by
  have hs2 : FitSetup g E a s0 Xs := by
    refine ⟨hs.sampled, hs.rowWise, hs.reads, hs.cols_nodup, ?_⟩
    intro co' h
    rw [hco] at h
    cases h
    exact ⟨a.pf, b, ops, X, hs.rowWise, hobj⟩
  have := C15_reused_calculator_same_tables kind hs hs2 rfl hret' hret
  exact ⟨this.1, this.2.1, fun n hk ho => this.2.2 n hk ho ho⟩

/-- **C100 fails** for the stand-alone importance in the same way. -/
theorem C100_importance_ignored_next_to_calculator {co : CalcObj L F V K} (hco : a.pdCalculator = some co)
    (p : Option (ModelObj F V (Num K) → PF F V (Num K))) :
    (PdImpObj.run E { a with predictFunction := p } o).1 = (PdImpObj.run E a o).1 := by
  have hi : ∀ Xs q q', PdpMethod.chooseCalc { a with predictFunction := p } Xs q = PdpMethod.chooseCalc a Xs q' := by
    intro Xs q q'; simp only [PdpMethod.chooseCalc, hco]
  unfold PdImpObj.run
  cases eX : sampleIfNotNone E.R a.X a.n o.rng with
  | mk rX rng =>
    cases rX with
    | error e => simp [eX]
    | ok Xs =>
      simp only [eX, hi Xs _ (callable (getPredictFunction a.model a.predictFunction))]
      cases PdpMethod.chooseCalc a Xs (callable (getPredictFunction a.model a.predictFunction)) with
      | error e => rfl
      | ok c0 =>
        simp only
        cases pdpImportance E.sortFeat (numIn E (allIfNone a.X.frame.cols a.features)) (allIfNone a.X.frame.cols a.features) c0.obj with
        | mk r c => cases r <;> rfl

/-! ## C101: fitting on a sample -/

section sampling

theorem forall₂_filterMap_get {α : Type} (l : List α) {is : List Nat} (h : ∀ i ∈ is, i < l.length) :
    List.Forall₂ (fun i x => l[i]? = some x) is (is.filterMap (fun i => l[i]?)) := by
  induction is with
  | nil => exact .nil
  | cons i is ih =>
    have hi := h i (by simp)
    rw [List.filterMap_cons, List.getElem?_eq_getElem hi]
    exact .cons (List.getElem?_eq_getElem hi) (ih (fun j hj => h j (by simp [hj])))

theorem rowsAt_iloc {X : LFrame L F V} (hX : X.labels.length = X.frame.rows.length) {is : List Nat}
    (h : ∀ i ∈ is, i < X.frame.rows.length) : RowsAt X is (X.iloc is) where
  cols := rfl
  rows := forall₂_filterMap_get _ h
  labels := forall₂_filterMap_get _ (by rw [hX]; exact h)

theorem sample_enough {R : Rng G} (hR : R.Lawful) {X : LFrame L F V} (hX : X.labels.length = X.frame.rows.length) {k : Nat}
    (hk : k ≤ X.frame.rows.length) (rng : G) :
    ∃ Y rng', SampleOf X k Y ∧ sampleIfNotNone R X (some k) rng = (.ok Y, rng') := by
  have hlen : X.frame.len = X.frame.rows.length := rfl
  refine ⟨X.iloc (R.sample rng X.frame.len k).1, (R.sample rng X.frame.len k).2, ⟨(R.sample rng X.frame.len k).1,
    hR.sample_length _ _ _ hk, hR.sample_nodup _ _ _ hk, rowsAt_iloc hX (hR.sample_lt _ _ _ hk)⟩, ?_⟩
  simp only [sampleIfNotNone, hlen, Nat.not_lt.2 hk, if_false]

theorem sample_too_many {R : Rng G} {X : LFrame L F V} {k : Nat} (hk : X.frame.rows.length < k) (rng : G) :
    sampleIfNotNone R X (some k) rng = (.error .valueError, rng) := by
  simp only [sampleIfNotNone]
  rw [if_pos (show X.frame.len < k from hk)]

/-- **C101.** `fit(model, X, n=k)` does, for the generator state it is started in, exactly what `fit` without `n` does on `k` different
rows of `X` - same outcome, same state afterwards - except that the generator has advanced. -/
theorem C101_fit_is_fit_on_sample (kind : PdKind) (hR : E.R.Lawful) (hX : a.X.labels.length = a.X.frame.rows.length) {k : Nat}
    (hn : a.n = some k) (hk : k ≤ a.X.frame.rows.length) :
    ∃ Y rng', SampleOf a.X k Y ∧
      PdpMethod.fit kind E a s0 = PdpMethod.fit kind E { a with X := Y, n := none } { s0 with rng := rng' } ∧
      (PdpMethod.fit kind E a s0).2.xSampled = some Y := by
  obtain ⟨Y, rng', hY, e⟩ := sample_enough hR hX hk s0.rng
  refine ⟨Y, rng', hY, ?_, ?_⟩
  · have hcols : Y.frame.cols = a.X.frame.cols := by obtain ⟨_, _, _, h⟩ := hY; exact h.cols
    have hcc : ∀ q, PdpMethod.chooseCalc { a with X := Y, n := none } Y q = PdpMethod.chooseCalc a Y q := fun _ => rfl
    have hb : PdpMethod.fitBase kind E a s0 = PdpMethod.fitBase kind E { a with X := Y, n := none } { s0 with rng := rng' } := by
      unfold PdpMethod.fitBase
      simp only [hn, e, hcols, hcc]
      rfl
    unfold PdpMethod.fit
    rw [hb]
  · cases ec : PdpMethod.chooseCalc a Y a.pf with
    | error e' =>
      unfold PdArgs.pf at ec
      simp [PdpMethod.fit, PdpMethod.fitBase, hn, e, ec]
    | ok co =>
      rw [fit_eq kind E a s0 (by rw [hn]; exact e) ec]
      cases kind.ovo E Y.frame a.feats (combinations2 a.feats) co.obj with
      | mk r1 c1 =>
        cases r1 with
        | error e => rfl
        | ok ovo =>
          simp only
          cases pdpImportance E.sortFeat (numIn E a.feats) a.feats c1 with
          | mk r2 c2 =>
            cases r2 with
            | error e => rfl
            | ok imp =>
              cases kind with
              | greenwell => rfl
              | friedman n =>
                simp only
                by_cases ho : a.calculateOva = true
                · simp only [ho, if_true]
                  cases hstatOva E.sortFeat a.pf n Y.frame a.feats c2 with
                  | mk r3 c3 => cases r3 <;> rfl
                · simp only [ho, if_false]
                  rfl

/-- **C101**, too large a sample: ValueError; tables, features, pairs, sampled data and calculator stay what they were. -/
theorem C101_too_many (kind : PdKind) {k : Nat} (hn : a.n = some k) (hk : a.X.frame.rows.length < k) :
    ∃ s, PdpMethod.fit kind E a s0 = (.error .valueError, s) ∧ s.ovo = s0.ovo ∧ s.ova = s0.ova ∧ s.importance = s0.importance ∧
      s.xSampled = s0.xSampled ∧ s.features = s0.features ∧ s.pairs = s0.pairs ∧ s.pdc = s0.pdc ∧ s.rng = s0.rng := by
  have e := sample_too_many (R := E.R) (X := a.X) hk s0.rng
  refine ⟨{ s0 with predictFn := getPredictFunction a.model a.predictFunction, model := some a.model }, ?_, ?_⟩
  · simp [PdpMethod.fit, PdpMethod.fitBase, hn, e]
  · exact ⟨rfl, rfl, rfl, rfl, rfl, rfl, rfl, rfl⟩

/-- **C101** for the stand-alone importance -/
theorem C101_importance_is_importance_on_sample (hR : E.R.Lawful) (hX : a.X.labels.length = a.X.frame.rows.length) {k : Nat}
    (hn : a.n = some k) :
    (k ≤ a.X.frame.rows.length → ∃ Y rng', SampleOf a.X k Y ∧
      PdImpObj.run E a o = PdImpObj.run E { a with X := Y, n := none } { o with rng := rng' } ∧
      (PdImpObj.run E a o).2.xSampled = some Y) ∧
    (a.X.frame.rows.length < k → ∃ o', PdImpObj.run E a o = (.error .valueError, o') ∧ o'.importance = o.importance) := by
  constructor
  · intro hk
    obtain ⟨Y, rng', hY, e⟩ := sample_enough hR hX hk o.rng
    have hcols : Y.frame.cols = a.X.frame.cols := by obtain ⟨_, _, _, h⟩ := hY; exact h.cols
    have hcc : ∀ q, PdpMethod.chooseCalc { a with X := Y, n := none } Y q = PdpMethod.chooseCalc a Y q := fun _ => rfl
    refine ⟨Y, rng', hY, ?_, ?_⟩
    · unfold PdImpObj.run
      simp only [hn, e, hcols, hcc]
      rfl
    · unfold PdImpObj.run
      simp only [hn, e]
      cases PdpMethod.chooseCalc a Y (callable (getPredictFunction a.model a.predictFunction)) with
      | error e => rfl
      | ok co =>
        simp only
        cases pdpImportance E.sortFeat (numIn E (allIfNone a.X.frame.cols a.features)) (allIfNone a.X.frame.cols a.features) co.obj with
        | mk r c => cases r <;> rfl
  · intro hk
    have e := sample_too_many (R := E.R) (X := a.X) hk o.rng
    unfold PdImpObj.run
    simp only [hn, e]
    exact ⟨_, rfl, rfl⟩

/-- **C101** for the additivity index -/
theorem C101_additivity_is_additivity_of_sample {R : Rng G} {A : AddArgs L F V K} {m0 : AddMeter G L F V K} {cp : F} (hR : R.Lawful)
    (hX : A.X.labels.length = A.X.frame.rows.length) {k : Nat} (hn : A.n = some k) :
    (k ≤ A.X.frame.rows.length → ∃ Y rng', SampleOf A.X k Y ∧
      AddMeter.fit R cp A m0 = AddMeter.fit R cp { A with X := Y, n := none } { m0 with rng := rng' } ∧
      (AddMeter.fit R cp A m0).2.xSampled = some Y) ∧
    (A.X.frame.rows.length < k → ∃ m, AddMeter.fit R cp A m0 = (.error .valueError, m) ∧ m.index = m0.index ∧
      m.fullResult = m0.fullResult ∧ m.preds = m0.preds) := by
  constructor
  · intro hk
    obtain ⟨Y, rng', hY, e⟩ := sample_enough hR hX hk m0.rng
    have hcc : ∀ q, PdpMethod.chooseCalc (AddArgs.toPd { A with X := Y, n := none }) Y q = PdpMethod.chooseCalc A.toPd Y q := fun _ => rfl
    refine ⟨Y, rng', hY, ?_, ?_⟩
    · unfold AddMeter.fit
      simp only [hn, e, hcc]
      rfl
    · unfold AddMeter.fit
      simp only [hn, e]
      cases PdpMethod.chooseCalc A.toPd Y (callable (getPredictFunction A.model A.predictFunction)) with
      | error e => rfl
      | ok co =>
        simp only
        cases calcAdditivity cp (callable (getPredictFunction A.model A.predictFunction)) Y.frame co.obj with
        | mk r c => cases r <;> rfl
  · intro hk
    have e := sample_too_many (R := R) (X := A.X) hk m0.rng
    unfold AddMeter.fit
    simp only [hn, e]
    exact ⟨_, rfl, rfl, rfl, rfl⟩

end sampling

/-! ## C102: refitting with the method's own calculator -/

/-- **C102** (partial: without sampling). After a returning fit of either method, `fit` of the same object on the same model and
data with `pd_calculator=method.pd_calculator` returns and leaves the same tables. Missing: `n` given, see
`C102_fails_with_sampling`. -/
theorem C102_own_calculator_partial (kind : PdKind) (hs : FitSetup g E a s0 Xs) (hn : a.n = none) (hc : a.pdCalculator = none)
    (hp : NeverFails a.pf) (hret : PdpMethod.fit kind E a s0 = (.ok (), s)) :
    ∃ s2, PdpMethod.fit kind E { a with pdCalculator := s.pdc } s = (.ok (), s2) ∧ s2.ovo = s.ovo ∧
      s2.importance = s.importance ∧ s2.ova = s.ova := by
  have r := fit_ok hs hret
  have hXs : Xs = a.X := by
    have := hs.sampled
    simp only [hn, sampleIfNotNone] at this
    exact (Except.ok.inj this).symm
  obtain ⟨co, c', h1, h2, ⟨ops, h3⟩⟩ := r.pdc
  simp only [PdpMethod.chooseCalc, hc, Except.ok.injEq] at h1
  subst h1
  have hs2 : FitSetup g E { a with pdCalculator := s.pdc } s Xs := by
    refine ⟨?_, hs.rowWise, hs.reads, hs.cols_nodup, ?_⟩
    · simp only [hn, sampleIfNotNone, hXs]
    · intro co hco
      rw [h2] at hco
      cases hco
      exact ⟨a.pf, a.batchsize, ops, Xs.frame, hs.rowWise, h3⟩
  have hgood : OpStep g (Calc.new a.pf Xs.frame a.batchsize) c' := good_runs (good_new hs.rowWise _ _) ⟨ops, h3⟩
  have hnone : a = { a with pdCalculator := none, batchsize := a.batchsize } := by rw [← hc]
  have hs1 : FitSetup g E { a with pdCalculator := none, batchsize := a.batchsize } s0 Xs := by rw [← hnone]; exact hs
  have hret1 : (PdpMethod.fit kind E { a with pdCalculator := none, batchsize := a.batchsize } s0).1 = .ok () := by
    rw [← hnone, hret]
  have hret2 : (PdpMethod.fit kind E { a with pdCalculator := s.pdc } s).1 = .ok () := by
    refine (C15_reused_calculator_returns_iff kind a.batchsize hs2 (s0' := s0) hs1 (co := _) h2 rfl rfl ?_ hp ?_ r.valid).2 hret1
    · simp only [hgood.later.X]
      exact SameData.refl _
    · simp only [hgood.later.predict]
      exact hp
  obtain ⟨s2, e2⟩ := Ex.ret_of_fst hret2
  refine ⟨s2, e2, ?_⟩
  have := C15_reused_calculator_same_tables kind hs hs2 rfl hret e2
  refine ⟨this.1, this.2.1, ?_⟩
  have e := (fit_ok hs2 e2).ova
  cases kind with
  | greenwell => exact e
  | friedman n =>
    by_cases ho : a.calculateOva = true
    · exact this.2.2 n rfl ho ho
    · simp only [ho, if_false] at e
      exact e

/-! ## C103: what a fitted object says about its inputs -/

theorem fit_keeps_model (kind : PdKind) (hs : FitSetup g E a s0 Xs) {co : CalcObj L F V K} (ec : PdpMethod.chooseCalc a Xs a.pf = .ok co)
    (hret : PdpMethod.fit kind E a s0 = (.ok (), s)) :
    s.model = some a.model ∧ s.predictFn = getPredictFunction a.model a.predictFunction := by
  cases eX : sampleIfNotNone E.R a.X a.n s0.rng with
  | mk rX rng =>
    have hXs := hs.sampled
    rw [eX] at hXs
    simp only at hXs
    subst hXs
    have h2 : s = (PdpMethod.fit kind E a s0).2 := by rw [hret]
    rw [fit_eq kind E a s0 eX ec] at h2
    rw [h2]
    clear h2 hret
    cases kind.ovo E Xs.frame a.feats (combinations2 a.feats) co.obj with
    | mk r1 c1 =>
      cases r1 with
      | error e => exact ⟨rfl, rfl⟩
      | ok ovo =>
        simp only
        cases pdpImportance E.sortFeat (numIn E a.feats) a.feats c1 with
        | mk r2 c2 =>
          cases r2 with
          | error e => exact ⟨rfl, rfl⟩
          | ok imp =>
            cases kind with
            | greenwell => exact ⟨rfl, rfl⟩
            | friedman n =>
              simp only
              by_cases ho : a.calculateOva = true
              · simp only [if_pos ho]
                cases hstatOva E.sortFeat a.pf n Xs.frame a.feats c2 with
                | mk r3 c3 => cases r3 <;> exact ⟨rfl, rfl⟩
              · simp only [if_neg ho]
                exact ⟨rfl, rfl⟩

/-- **C103.** After a returning fit the attributes `model`, `predict_function`, `X_sampled`, `features_included`, `pairs` and
`pd_calculator` are those of this fit: the model and the function given (or selected, C65), the sampled data, the
requested features (all columns if none), all their pairs, a calculator for that model on data equal to the sample - the supplied one,
if there was one. Nothing is left from earlier fits. -/
theorem C103_fit_records_its_inputs (kind : PdKind) (hs : FitSetup g E a s0 Xs) (hret : PdpMethod.fit kind E a s0 = (.ok (), s)) :
    s.model = some a.model ∧ s.predictFn = getPredictFunction a.model a.predictFunction ∧
    s.features = some (a.features.getD a.X.frame.cols) ∧
    (∃ ps, s.pairs = some ps ∧ ∀ fs, s.features = some fs → ps = combinations2 fs) ∧
    s.xSampled = some Xs ∧
    ∃ co, s.pdc = some co ∧ co.modelId = a.model.ident ∧ co.labels = Xs.labels ∧ SameData co.obj.X Xs.frame ∧
      match a.pdCalculator with
      | some co0 => co.obj.predict = co0.obj.predict ∧ co.obj.batchsize = co0.obj.batchsize
      | none => co.obj.predict = callable s.predictFn ∧ co.obj.batchsize = a.batchsize := by
  have r := fit_ok hs hret
  obtain ⟨co, c', ec, h2, h3⟩ := r.pdc
  have ch := chosen_of_ok hs ec
  have st := good_runs ch.good h3
  refine ⟨?_, ?_, r.features, ⟨_, r.pairs, fun fs h => ?_⟩, r.xSampled, _, h2, ch.modelId, ch.labels, ?_, ?_⟩
  · exact (fit_keeps_model kind hs ec hret).1
  · exact (fit_keeps_model kind hs ec hret).2
  · rw [r.features] at h
    cases h
    rfl
  · rw [st.later.X]
    exact ch.same
  · have hp := st.later.predict
    have hb := st.later.batchsize
    unfold PdpMethod.chooseCalc at ec
    cases e : a.pdCalculator with
    | none =>
      rw [e] at ec
      cases ec
      simp only
      rw [(fit_keeps_model kind hs ch.eq hret).2]
      exact ⟨hp, hb⟩
    | some co0 =>
      rw [e] at ec
      simp only at ec
      split at ec
      · cases ec
      · split at ec
        · cases ec
        · cases ec
          exact ⟨hp, hb⟩

/-- **C103** for the stand-alone importance: the value returned is also the attribute `feature_importance`; sampled data, features,
prediction function and calculator are those of this call. -/
theorem C103_importance_records_its_inputs (hs : FitSetup g E a (PdpMethod.new o.rng) Xs) (hret : PdImpObj.run E a o = (.ok t, o')) :
    o'.importance = some t ∧ o'.predictFn = getPredictFunction a.model a.predictFunction ∧
    o'.features = some (a.features.getD a.X.frame.cols) ∧ o'.xSampled = some Xs ∧
    ∃ co, o'.pdc = some co ∧ co.modelId = a.model.ident ∧ co.labels = Xs.labels ∧ SameData co.obj.X Xs.frame := by
  cases eX : sampleIfNotNone E.R a.X a.n o.rng with
  | mk rX rng =>
    have hXs := hs.sampled
    have eX' : sampleIfNotNone E.R a.X a.n (PdpMethod.new o.rng : PdpMethod G L F V K).rng = (rX, rng) := eX
    rw [eX'] at hXs
    simp only at hXs
    subst hXs
    unfold PdImpObj.run at hret
    simp only [eX] at hret
    cases ec : PdpMethod.chooseCalc a Xs a.pf with
    | error e =>
      unfold PdArgs.pf at ec
      simp only [ec] at hret
      cases hret
    | ok co =>
      have ch := chosen_of_ok hs ec
      unfold PdArgs.pf at ec
      simp only [ec] at hret
      have ru := runs_pdpImportance co.obj E.sortFeat (numIn E (allIfNone a.X.frame.cols a.features)) (allIfNone a.X.frame.cols a.features)
      have st := good_runs ch.good ru
      cases e2 : pdpImportance E.sortFeat (numIn E (allIfNone a.X.frame.cols a.features)) (allIfNone a.X.frame.cols a.features) co.obj with
      | mk r2 c2 =>
        rw [e2] at st
        simp only [e2] at hret
        cases r2 with
        | error e => cases hret
        | ok imp =>
          cases hret
          refine ⟨rfl, rfl, rfl, rfl, _, rfl, ch.modelId, ch.labels, ?_⟩
          rw [st.later.X]
          exact ch.same

/-- **C103** for the additivity meter: the value returned is also the attribute `additivity_index`; model, prediction function,
sampled data, predictions and calculator are those of this call. -/
theorem C103_additivity_records_its_inputs {A : AddArgs L F V K} {m0 m : AddMeter G L F V K} {cp : F} {v : Num K}
    (hs : AddSetup g E A m0 Xs) (hret : AddMeter.fit E.R cp A m0 = (.ok v, m)) :
    m.index = some v ∧ m.model = some A.model ∧ m.predictFn = getPredictFunction A.model A.predictFunction ∧
    m.xSampled = some Xs ∧ m.preds = some (Xs.frame.rows.map g) ∧
    ∃ co, m.pdc = some co ∧ co.modelId = A.model.ident ∧ co.labels = Xs.labels ∧ SameData co.obj.X Xs.frame := by
  cases eX : sampleIfNotNone E.R A.X A.n m0.rng with
  | mk rX rng =>
    have hXs : rX = .ok Xs := by have := hs.sampled; simp only [AddArgs.toPd, PdpMethod.new, eX] at this; exact this
    subst hXs
    have hcc : callable (getPredictFunction A.model A.predictFunction) = A.toPd.pf := rfl
    cases ec : PdpMethod.chooseCalc A.toPd Xs A.toPd.pf with
    | error e =>
      unfold AddMeter.fit at hret
      simp only [eX, hcc, ec] at hret
      cases hret
    | ok co =>
      have ch := chosen_of_ok hs ec
      unfold AddMeter.fit at hret
      simp only [eX, hcc, ec] at hret
      cases eo : calcAdditivity cp A.toPd.pf Xs.frame co.obj with
      | mk r c' =>
        rw [eo] at hret
        cases r with
        | error e => cases hret
        | ok out =>
          have hout := calcAdditivity_ok ch.good ch.same hs.reads hs.cols_nodup hs.rowWise eo
          have hX : c'.X = co.obj.X := by
            have s1 := opStep_single ch.good none
            unfold calcAdditivity at eo
            obtain ⟨_, c1, e1, eo⟩ := seq_ok eo
            rw [e1] at s1
            have : c' = c1 := by
              revert eo
              split
              · intro h; cases h
              · split
                · intro h; cases h
                · split
                  · intro h; cases h; rfl
                  · intro h; cases h
            rw [this, s1.later.X]
          cases hret
          refine ⟨rfl, rfl, rfl, rfl, ?_, _, rfl, ch.modelId, ch.labels, ?_⟩
          · simp only [hout, addFinish]
          · simp only [hX]
            exact ch.same

/-- **C103** for Sejong Oh's method -/
theorem C103_sejong_records_its_inputs {E : PerfEnv G L F K} {a : SejongArgs L F V K} {s0 s : Sejong G L F V K} {ent : G}
    (hret : Sejong.fit E a ent s0 = (.ok (), s)) :
    s.features = some (a.features.getD a.X.frame.cols) ∧ s.metric = s0.metric ∧
    (∃ ps, s.pairs = some ps ∧ ∀ fs, s.features = some fs → ps = combinations2 fs) ∧
    ∃ Xs ys, s.xSampled = some Xs ∧ s.ySampled = some ys ∧ (sampleBoth E.R E.toInt a.X a.y a.n s0.rng).1 = .ok (Xs, ys) := by
  unfold Sejong.fit at hret
  simp only at hret
  split at hret
  · cases hret
  next Xs ys g e =>
  split at hret
  · cases hret
  next ovo w e1 =>
  split at hret
  · cases hret
  next imp ob calls e2 =>
  have := (Prod.mk.inj hret).2
  subst this
  exact ⟨rfl, rfl, ⟨_, rfl, fun fs h => by cases h; rfl⟩, Xs, ys, rfl, rfl, by rw [e]⟩

/-- **C103**, before any fit: every attribute of a new object is `None` (the methods then report "not fitted", C46). -/
theorem C103_new_objects_are_empty (rng : G) (M : Metric K) :
    (∀ m : PdpMethod G L F V K, m = PdpMethod.new rng → m.rng = rng ∧ m.model.isNone ∧ m.predictFn.isNone ∧ m.xSampled.isNone ∧
      m.features.isNone ∧ m.pairs.isNone ∧ m.pdc.isNone ∧ m.ovo.isNone ∧ m.ova.isNone ∧ m.importance.isNone ∧ m.impObj = false) ∧
    (∀ m : PdImpObj G L F V K, m = PdImpObj.new rng → m.rng = rng ∧ m.predictFn.isNone ∧ m.xSampled.isNone ∧ m.features.isNone ∧
      m.pdc.isNone ∧ m.importance.isNone) ∧
    (∀ m : AddMeter G L F V K, m = AddMeter.new rng → m.rng = rng ∧ m.model.isNone ∧ m.predictFn.isNone ∧ m.xSampled.isNone ∧
      m.pdc.isNone ∧ m.fullResult.isNone ∧ m.preds.isNone ∧ m.index.isNone) ∧
    (∀ m : Sejong G L F V K, m = Sejong.new rng M → m.rng = rng ∧ m.metric = M ∧ m.xSampled.isNone ∧ m.ySampled.isNone ∧ m.features.isNone ∧
      m.pairs.isNone ∧ m.ovo.isNone ∧ m.importance.isNone ∧ m.impObj = false ∧ m.calls = []) := by
  refine ⟨?_, ?_, ?_, ?_⟩ <;> rintro m rfl <;> simp [PdpMethod.new, PdImpObj.new, AddMeter.new, Sejong.new]

/-! ## Cases -/

section Cases
open Ex

/-- a calculator built with the prediction `x0 + x1 + x2` for the same model object and data -/
def exCoSum : CalcObj Nat (Fin 3) ℤ ℚ :=
  ⟨1, [10, 11, 12, 13], Calc.new (fun _ rows => .ok (rows.map (fun r => .fin ((r 0 + r 1 + r 2 : ℤ) : ℚ)))) exX 7⟩

/-- **C100 fails**, concretely: the model predicts `x0 * x1 + x2`, the calculator was built with `x0 + x1 + x2`; the fit is accepted and
reports that no pair interacts, while without the calculator features 0 and 1 interact. -/
theorem C100_fails :
    (PdpMethod.fit (G := Nat) (.friedman true) exEnv { exArgs with pdCalculator := some exCoSum, calculateOva := false } (PdpMethod.new 0)).1 = .ok () ∧
    ((PdpMethod.fit (G := Nat) (.friedman true) exEnv { exArgs with pdCalculator := some exCoSum, calculateOva := false }
      (PdpMethod.new 0)).2.ovo.getD []).all (fun r => decide (r.val = .fin 0)) = true ∧
    ((PdpMethod.fit (G := Nat) (.friedman true) exEnv (exArgs (K := ℚ)) (PdpMethod.new 0)).2.ovo.getD []).any
      (fun r => decide (r.f1 = 0 ∧ r.f2 = 1 ∧ r.val ≠ .fin 0)) = true :=
  ⟨by decide +kernel, by decide +kernel, by decide +kernel⟩

/-- a lawful generator whose samples depend on its state -/
def exRng3 : Rng Nat where
  sample g len n := (((List.range len).rotate g).take n, g + 1)
  perm g len := (List.range len, g + 1)

theorem exRng3_lawful : exRng3.Lawful where
  sample_length := by intro g len n h; simp [exRng3, h]
  sample_nodup := by
    intro g len n _
    exact (List.nodup_rotate.2 List.nodup_range).sublist (List.take_sublist _ _)
  sample_lt := by
    intro g len n h i hi
    have := List.mem_of_mem_take hi
    simpa using this
  perm_perm := by intro g len; exact List.Perm.refl _

/-- the environment with that generator -/
def exEnv3 : PdEnv Nat (Fin 3) ℚ := { exEnv with R := exRng3 }

/-- the fit on three sampled rows -/
def exFit3 := PdpMethod.fit (G := Nat) (L := Nat) (.friedman true) exEnv3 { exArgs with n := some 3, calculateOva := false } (PdpMethod.new 0)

/-- **C102 fails** with sampling: a method fitted with `n=3` and refitted in the same way with its own calculator draws another sample
and rejects the calculator. -/
theorem C102_fails_with_sampling : exRng3.Lawful ∧ exFit3.1 = .ok () ∧
    (PdpMethod.fit (G := Nat) (.friedman true) exEnv3 { exArgs with n := some 3, calculateOva := false, pdCalculator := exFit3.2.pdc }
      exFit3.2).1 = .error .valueError :=
  ⟨exRng3_lawful, by decide +kernel, by decide +kernel⟩

/-- C101: a proper sample of three rows, and more rows than there are -/
example : ∃ Y rng', SampleOf exLX 3 Y ∧
    exFit3 = PdpMethod.fit (G := Nat) (.friedman true) exEnv3 { exArgs with X := Y, n := none, calculateOva := false } (PdpMethod.new rng') := by
  obtain ⟨Y, rng', h, e, _⟩ := C101_fit_is_fit_on_sample (E := exEnv3) (a := { exArgs with n := some 3, calculateOva := false })
    (s0 := PdpMethod.new 0) (.friedman true) exRng3_lawful rfl (k := 3) rfl (by decide)
  exact ⟨Y, rng', h, e⟩
example : (PdpMethod.fit (G := Nat) (L := Nat) .greenwell exEnv3 { exArgs with n := some 5 } (PdpMethod.new 0)).1 = .error .valueError := by
  obtain ⟨s, h, _⟩ := C101_too_many (E := exEnv3) (a := { exArgs with n := some 5 }) (s0 := PdpMethod.new 0) .greenwell (k := 5) rfl (by decide)
  rw [h]

/-- C102, C103: the example without sampling -/
example (n : Bool) : ∃ s s2, PdpMethod.fit (G := Nat) (L := Nat) (K := ℝ) (.friedman n) exEnv exArgs (PdpMethod.new 0) = (.ok (), s) ∧
    PdpMethod.fit (.friedman n) exEnv { exArgs with pdCalculator := s.pdc } s = (.ok (), s2) ∧ s2.ovo = s.ovo ∧
    s.features = some [0, 1, 2] := by
  obtain ⟨s, hs⟩ := exFitR n
  obtain ⟨s2, h1, h2, _⟩ := C102_own_calculator_partial _ (exSetup 0) rfl rfl exNever hs
  exact ⟨s, s2, hs, h1, h2, (C103_fit_records_its_inputs _ (exSetup 0) hs).2.2.1⟩

end Cases

end Artemis
