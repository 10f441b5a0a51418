import Verif.Spec.History
import Verif.Model.Method
import Verif.Proofs.FitSpec

/-!
# What one call of `fit` can do to the result tables, for each of the five methods
-/

set_option linter.unusedSectionVars false
set_option linter.unusedVariables false
set_option linter.unusedSimpArgs false

namespace Artemis

/-- Result tables of a method object that `fit` writes in this order: pairs, (marker of the importance object), importance,
one-vs-all. A call stops somewhere on the way. -/
structure Progress {T U W : Type} (ok wantOva : Bool) (ovo ovo' : Option T) (imp imp' : Option U) (ova ova' : Option W)
    (obj obj' : Bool) : Prop where
  /-- stopped before the first table, after it, after the second, or finished -/
  stages : (ok = false ∧ ovo' = ovo ∧ imp' = imp ∧ ova' = ova ∧ obj' = obj) ∨
    (ok = false ∧ ovo'.isSome ∧ imp' = imp ∧ ova' = ova ∧ obj' = true) ∨
    (ok = false ∧ wantOva = true ∧ ovo'.isSome ∧ imp'.isSome ∧ ova' = ova ∧ obj' = true) ∨
    (ok = true ∧ ovo'.isSome ∧ imp'.isSome ∧ (if wantOva = true then ova'.isSome = true else ova' = ova) ∧ obj' = true)

/-- did the call return -/
def returned {α : Type} : Except Err α → Bool
  | .ok _ => true
  | .error _ => false

theorem returned_iff {r : Except Err Unit} : returned r = true ↔ r = .ok () := by
  cases r with
  | ok u => cases u; simp [returned]
  | error e => simp [returned]

section Pd
variable {F V K G L : Type} [DecidableEq F] [LinearOrder V] [DecidableEq L] [Field K] [LinearOrder K] [HasSqrt K]

/-- whether the call is to fill `ova` -/
def wantsOva (kind : PdKind) (a : PdArgs L F V K) : Bool :=
  match kind with
  | .friedman _ => a.calculateOva
  | .greenwell => false

theorem onCalc_keeps {α : Type} (m : PyM (Calc F V (Num K)) α) (s : PdpMethod G L F V K) {r s'}
    (h : PdpMethod.onCalc m s = (r, s')) :
    s'.ovo = s.ovo ∧ s'.importance = s.importance ∧ s'.ova = s.ova ∧ s'.impObj = s.impObj ∧
      s'.xSampled = s.xSampled ∧ s'.features = s.features := by
  unfold PdpMethod.onCalc at h
  split at h
  · cases h; simp
  · cases h; simp

theorem fitBase_progress (kind : PdKind) (E : PdEnv G F K) (a : PdArgs L F V K) (s0 : PdpMethod G L F V K) :
    Progress (returned (PdpMethod.fitBase kind E a s0).1) false s0.ovo (PdpMethod.fitBase kind E a s0).2.ovo
      s0.importance (PdpMethod.fitBase kind E a s0).2.importance s0.ova (PdpMethod.fitBase kind E a s0).2.ova
      s0.impObj (PdpMethod.fitBase kind E a s0).2.impObj ∧
    (returned (PdpMethod.fitBase kind E a s0).1 = true → (PdpMethod.fitBase kind E a s0).2.xSampled.isSome ∧
      (PdpMethod.fitBase kind E a s0).2.features.isSome) := by
  unfold PdpMethod.fitBase
  simp only []
  cases sampleIfNotNone E.R a.X a.n s0.rng with
  | mk rX rng =>
    cases rX with
    | error e => exact ⟨⟨.inl (by simp [returned])⟩, by simp [returned]⟩
    | ok Xs =>
      simp only []
      cases PdpMethod.chooseCalc a Xs (callable (getPredictFunction a.model a.predictFunction)) with
      | error e => exact ⟨⟨.inl (by simp [returned])⟩, by simp [returned]⟩
      | ok co =>
        simp only []
        generalize e1 : PdpMethod.onCalc (kind.ovo E Xs.frame (allIfNone a.X.frame.cols a.features)
          (combinations2 (allIfNone a.X.frame.cols a.features))) _ = w1
        obtain ⟨r1, s3⟩ := w1
        have k1 := onCalc_keeps _ _ e1
        simp only [] at k1
        cases r1 with
        | error e =>
          exact ⟨⟨.inl ⟨rfl, k1.1, k1.2.1, k1.2.2.1, k1.2.2.2.1⟩⟩, by simp [returned]⟩
        | ok ovo =>
          simp only []
          generalize e2 : PdpMethod.onCalc (pdpImportance (V := V) E.sortFeat (numIn E (allIfNone a.X.frame.cols a.features))
            (allIfNone a.X.frame.cols a.features)) _ = w2
          obtain ⟨r2, s4⟩ := w2
          have k2 := onCalc_keeps _ _ e2
          simp only [] at k2
          cases r2 with
          | error e =>
            exact ⟨⟨.inr (.inl ⟨rfl, by simp [k2.1], by rw [k2.2.1, k1.2.1], by rw [k2.2.2.1, k1.2.2.1], k2.2.2.2.1⟩)⟩,
              by simp [returned]⟩
          | ok imp =>
            refine ⟨⟨.inr (.inr (.inr ⟨rfl, by simp [k2.1], rfl, ?_, k2.2.2.2.1⟩))⟩, fun _ => ?_⟩
            · simp only [Bool.false_eq_true, if_false]; rw [k2.2.2.1, k1.2.2.1]
            · simp only []
              rw [k2.2.2.2.2.1, k1.2.2.2.2.1, k2.2.2.2.2.2, k1.2.2.2.2.2]
              simp

theorem pdFit_progress (kind : PdKind) (E : PdEnv G F K) (a : PdArgs L F V K) (s0 : PdpMethod G L F V K) :
    Progress (returned (PdpMethod.fit kind E a s0).1) (wantsOva kind a) s0.ovo (PdpMethod.fit kind E a s0).2.ovo
      s0.importance (PdpMethod.fit kind E a s0).2.importance s0.ova (PdpMethod.fit kind E a s0).2.ova
      s0.impObj (PdpMethod.fit kind E a s0).2.impObj := by
  obtain ⟨⟨p⟩, q⟩ := fitBase_progress kind E a s0
  unfold PdpMethod.fit
  cases eb : PdpMethod.fitBase kind E a s0 with
  | mk rb s =>
    rw [eb] at p q
    cases rb with
    | error e =>
      simp only [returned, reduceCtorEq, Bool.false_eq_true, false_and, or_false, true_and] at p ⊢
      rcases p with p | p
      · exact ⟨.inl ⟨rfl, p⟩⟩
      · exact ⟨.inr (.inl ⟨rfl, p⟩)⟩
    | ok u =>
      simp only [returned, Bool.true_eq_false, false_and, false_or, true_and, Bool.false_eq_true, if_false, forall_const] at p q ⊢
      cases kind with
      | greenwell => exact ⟨.inr (.inr (.inr ⟨rfl, p.1, p.2.1, by simpa [wantsOva] using p.2.2.1, p.2.2.2⟩))⟩
      | friedman n =>
        simp only []
        cases ho : a.calculateOva with
        | false =>
          exact ⟨.inr (.inr (.inr ⟨rfl, p.1, p.2.1, by simpa [wantsOva, ho] using p.2.2.1, p.2.2.2⟩))⟩
        | true =>
          obtain ⟨q1, q2⟩ := q
          obtain ⟨Xs, hX⟩ := Option.isSome_iff_exists.1 q1
          obtain ⟨fs, hf⟩ := Option.isSome_iff_exists.1 q2
          simp only [hX, hf, if_true]
          generalize e1 : PdpMethod.onCalc (hstatOva E.sortFeat (callable s.predictFn) n Xs.frame fs) s = w
          obtain ⟨r, s'⟩ := w
          have k := onCalc_keeps _ _ e1
          cases r with
          | error e =>
            exact ⟨.inr (.inr (.inl ⟨rfl, by simp [wantsOva, ho], by simp only [k.1]; exact p.1, by simp only [k.2.1]; exact p.2.1,
              by simp only [k.2.2.1]; exact p.2.2.1, by simp only [k.2.2.2.1]; exact p.2.2.2⟩))⟩
          | ok ova =>
            exact ⟨.inr (.inr (.inr ⟨rfl, by simp only [k.1]; exact p.1, by simp only [k.2.1]; exact p.2.1,
              by simp [wantsOva, ho], by simp only [k.2.2.2.1]; exact p.2.2.2⟩))⟩

end Pd

section Perf
variable {F V K G L : Type} [DecidableEq F] [DecidableEq L] [Field K] [LinearOrder K]

theorem sejongFit_progress (E : PerfEnv G L F K) (a : SejongArgs L F V K) (entropy : G) (s0 : Sejong G L F V K) :
    Progress (W := Unit) (returned (Sejong.fit E a entropy s0).1) false s0.ovo (Sejong.fit E a entropy s0).2.ovo
      s0.importance (Sejong.fit E a entropy s0).2.importance none none s0.impObj (Sejong.fit E a entropy s0).2.impObj := by
  unfold Sejong.fit
  simp only []
  cases sampleBoth E.R E.toInt a.X a.y a.n s0.rng with
  | mk r g =>
    cases r with
    | error e => exact ⟨.inl (by simp [returned])⟩
    | ok p =>
      obtain ⟨Xs, ys⟩ := p
      simp only []
      generalize perfOvo E.sortOvo E.R a.model s0.metric ys.values Xs.frame (combinations2 (allIfNone a.X.frame.cols a.features))
        a.nRepeat ⟨g, s0.calls⟩ = w1
      obtain ⟨r1, w⟩ := w1
      cases r1 with
      | error e => exact ⟨.inl (by simp [returned])⟩
      | ok ovo =>
        simp only []
        generalize PermObj.run E.sortFeat E.R a.model Xs ys a.nRepeat (some (allIfNone a.X.frame.cols a.features))
          ⟨entropy, s0.metric, none⟩ w.calls = w2
        obtain ⟨r2, o, calls⟩ := w2
        cases r2 with
        | error e => exact ⟨.inr (.inl (by simp [returned]))⟩
        | ok imp => exact ⟨.inr (.inr (.inr (by simp [returned])))⟩

end Perf

section Tree
variable {F I K : Type}

theorem cmdFit_progress [DecidableEq F] [Field K] [LinearOrder K] (E : CmdEnv F I K) (m : Forest F) (s0 : CmdMethod F K) :
    Progress (W := Unit) (returned (CmdMethod.fit E m s0).1) false s0.ovo (CmdMethod.fit E m s0).2.ovo
      s0.importance (CmdMethod.fit E m s0).2.importance none none s0.impObj (CmdMethod.fit E m s0).2.impObj := by
  unfold CmdMethod.fit
  simp only []
  cases cmdForest m.trees m.columns.length with
  | error e => exact ⟨.inl (by simp [returned])⟩
  | ok p =>
    obtain ⟨raw, trees⟩ := p
    simp only []
    cases summarise E.sortOvo m.columns raw with
    | error e => exact ⟨.inl (by simp [returned])⟩
    | ok ovo =>
      simp only []
      cases minimalDepthImportance E.sortImp m.columns (some trees) with
      | error e => exact ⟨.inr (.inl (by simp [returned]))⟩
      | ok imp => exact ⟨.inr (.inr (.inr (by simp [returned])))⟩

theorem ssFit_progress [LinearOrder F] [LinearOrder I] [Field K] [LinearOrder K] (E : SsEnv F K) (a : GbArg F I K) (inter imp : SsMetric)
    (onlyDef : Bool) (s0 : SsMethod F I K) :
    Progress (W := Unit) (returned (SsMethod.fit E a inter imp onlyDef s0).1) false s0.ovo (SsMethod.fit E a inter imp onlyDef s0).2.ovo
      s0.importance (SsMethod.fit E a inter imp onlyDef s0).2.importance none none
      s0.impMetric.isSome (SsMethod.fit E a inter imp onlyDef s0).2.impMetric.isSome := by
  unfold SsMethod.fit
  simp only []
  cases a.toHandler E.leafName with
  | error e => exact ⟨.inl (by simp [returned])⟩
  | ok h =>
    simp only []
    cases checkMetrics h.package inter imp with
    | error e => exact ⟨.inl (by simp [returned])⟩
    | ok u =>
      simp only []
      cases Artemis.fullResult h.package h.frame with
      | error e => exact ⟨.inl (by simp [returned])⟩
      | ok full =>
        simp only []
        cases getOvo E.sortOvo inter (getSummary E.sortSum onlyDef full) with
        | error e => exact ⟨.inl (by simp [returned])⟩
        | ok ovo =>
          simp only []
          cases ssImportance E none imp h.frame with
          | error e => exact ⟨.inr (.inl (by simp [returned]))⟩
          | ok t => exact ⟨.inr (.inr (.inr (by simp [returned])))⟩

end Tree

/-! ### consequences -/

section
variable {T U W : Type} {ok want : Bool} {ovo ovo' : Option T} {imp imp' : Option U} {ova ova' : Option W} {obj obj' : Bool}

theorem Progress.ovo_keeps (h : Progress ok want ovo ovo' imp imp' ova ova' obj obj') (h0 : ovo.isSome) : ovo'.isSome := by
  rcases h.stages with h | h | h | h
  · rw [h.2.1]; exact h0
  · exact h.2.1
  · exact h.2.2.1
  · exact h.2.1

theorem Progress.obj_keeps (h : Progress ok want ovo ovo' imp imp' ova ova' obj obj') (h0 : obj = true) : obj' = true := by
  rcases h.stages with h | h | h | h
  · rw [h.2.2.2.2]; exact h0
  · exact h.2.2.2.2
  · exact h.2.2.2.2.2
  · exact h.2.2.2.2

theorem Progress.ova_keeps (h : Progress ok want ovo ovo' imp imp' ova ova' obj obj') (h0 : ova.isSome) : ova'.isSome := by
  rcases h.stages with h | h | h | h
  · rw [h.2.2.2.1]; exact h0
  · rw [h.2.2.2.1]; exact h0
  · rw [h.2.2.2.2.1]; exact h0
  · have := h.2.2.2.1
    cases want
    · simp only [Bool.false_eq_true, if_false] at this; rw [this]; exact h0
    · simpa using this

theorem Progress.done (h : Progress ok want ovo ovo' imp imp' ova ova' obj obj') (h0 : ok = true) :
    ovo'.isSome ∧ imp'.isSome ∧ obj' = true := by
  rcases h.stages with h | h | h | h
  · rw [h0] at h; cases h.1
  · rw [h0] at h; cases h.1
  · rw [h0] at h; cases h.1
  · exact ⟨h.2.1, h.2.2.1, h.2.2.2.2⟩

theorem Progress.done_ova (h : Progress ok want ovo ovo' imp imp' ova ova' obj obj') (h0 : ok = true) (hw : want = true) :
    ova'.isSome := by
  rcases h.stages with h | h | h | h
  · rw [h0] at h; cases h.1
  · rw [h0] at h; cases h.1
  · rw [h0] at h; cases h.1
  · have := h.2.2.2.1
    rw [hw] at this; simpa using this

theorem Progress.no_ova (h : Progress ok want ovo ovo' imp imp' ova ova' obj obj') (hw : want = false) : ova' = ova := by
  rcases h.stages with h | h | h | h
  · exact h.2.2.2.1
  · exact h.2.2.2.1
  · exact h.2.2.2.2.1
  · have := h.2.2.2.1
    rw [hw] at this; simpa using this

theorem Progress.imp_keeps (h : Progress ok want ovo ovo' imp imp' ova ova' obj obj') (hw : want = false) (h0 : ok = false) :
    imp' = imp := by
  rcases h.stages with h | h | h | h
  · exact h.2.2.1
  · exact h.2.2.1
  · rw [hw] at h; cases h.2.1
  · rw [h0] at h; cases h.1

/-- an object with a table of pairs has an importance object -/
theorem Progress.obj_of_ovo (h : Progress ok want ovo ovo' imp imp' ova ova' obj obj') (h0 : ovo.isSome → obj = true) :
    ovo'.isSome → obj' = true := by
  rcases h.stages with h | h | h | h
  · rw [h.2.1, h.2.2.2.2]; exact h0
  · exact fun _ => h.2.2.2.2
  · exact fun _ => h.2.2.2.2.2
  · exact fun _ => h.2.2.2.2

theorem Progress.ovo_of_ova (h : Progress ok want ovo ovo' imp imp' ova ova' obj obj') (h0 : ova.isSome → ovo.isSome) :
    ova'.isSome → ovo'.isSome := by
  rcases h.stages with h | h | h | h
  · rw [h.2.1, h.2.2.2.1]; exact h0
  · exact fun _ => h.2.1
  · exact fun _ => h.2.2.1
  · exact fun _ => h.2.1

end

end Artemis
