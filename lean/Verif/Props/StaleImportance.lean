import Verif.Props.Sharing
import Verif.Model.PdImportance
import Verif.Props.HStat

/-!
# Property C113: the stand-alone importance with a calculator of older data
-/

set_option linter.unusedSectionVars false
set_option linter.unusedVariables false
set_option linter.unusedSimpArgs false

namespace Artemis
open Spec

variable {F V L G K : Type} [DecidableEq F] [LinearOrder V] [DecidableEq L] [Field K] [LinearOrder K]
  [IsStrictOrderedRing K] [HasSqrt K]
variable {E : PdEnv G F K} {a : PdArgs L F V K} {s0 s : PdpMethod G L F V K} {Xs : LFrame L F V}

/-- after a returning `fit` the calculator knows the partial dependence of every column -/
theorem fit_knows_single {g : Row F V → Num K} {kind : PdKind} (hs : FitSetup g E a s0 Xs) (hnone : a.pdCalculator = none)
    (h : PdpMethod.fit kind E a s0 = (.ok (), s)) {co : CalcObj L F V K} (hpdc : s.pdc = some co) :
    Good g co.obj ∧ co.obj.X = Xs.frame ∧ ∀ f ∈ Xs.frame.cols, DoneS g co.obj f := by
  obtain ⟨co', b, c1, c2, c3, h1, h2, h3, h4⟩ := fit_ops hs hnone h
  rw [hpdc] at h1
  cases h1
  have g0 := good_new hs.rowWise Xs.frame b
  have st2 : OpStep g (Calc.new a.pf Xs.frame b) c2 := by
    cases kind with
    | greenwell =>
      obtain ⟨e1, rfl⟩ := h2
      have := opStep_pairs g0 (some (combinations2 a.feats)) true
      rwa [e1] at this
    | friedman n =>
      obtain ⟨e1, e2⟩ := h2
      have t1 := opStep_pairs g0 (some (combinations2 a.feats)) false
      rw [e1] at t1
      have t2 := opStep_single t1.good (some a.feats)
      rw [e2] at t2
      exact t1.trans t2
  have hX2 : c2.X = Xs.frame := st2.later.X
  have st3 := opStep_single st2.good none
  have d3 := doneS_of_ok st2.good (features := none) (by rw [h3])
  rw [h3] at st3 d3
  have hX3 : c3.X = Xs.frame := st3.later.X.trans hX2
  have fin : OpStep g c3 co.obj := by
    cases kind with
    | greenwell =>
      simp only at h4
      rw [h4]
      exact OpStep.refl st3.good
    | friedman n =>
      simp only at h4
      split at h4
      · have := opStep_minus st3.good (some a.feats)
        rwa [h4] at this
      · rw [h4]
        exact OpStep.refl st3.good
  exact ⟨fin.good, fin.later.X.trans hX3, fun f hf => (d3 f (by simpa [hX2] using hf)).step fin⟩

/-- **C113 (stale importance).** Fit either method without sampling on non-empty data with finite predictions, change the frame in place in any way
that keeps the columns, and ask the stand-alone importance about the changed frame with the calculator of the fit (same features, same model object):
the importance of the *old* data is returned. -/
theorem C113_importance_reports_old_data {u : Row F V → K} {a' : PdArgs L F V K} {t : PdImpObj G L F V K}
    {co : CalcObj L F V K} (kind : PdKind) (hs : FitSetup (finM u) E a s0 Xs) (hn : a.n = none) (hnone : a.pdCalculator = none)
    (hret : PdpMethod.fit kind E a s0 = (.ok (), s)) (hpdc : s.pdc = some co)
    (hcols : a'.X.frame.cols = a.X.frame.cols) (hn' : a'.n = none) (hm : a'.model.ident = a.model.ident)
    (hf : a'.features = a.features) (hco : a'.pdCalculator = some (co.afterEdit a a'.X)) :
    ∃ imp t', PdImpObj.run E a' t = (.ok imp, t') ∧ t'.importance = some imp ∧ s.importance = some imp := by
  have hXs : Xs = a.X := by
    have := hs.sampled
    simp only [hn, sampleIfNotNone, Except.ok.injEq] at this
    exact this.symm
  subst hXs
  obtain ⟨hg, hX, hd⟩ := fit_knows_single hs hnone hret hpdc
  have r := fit_ok hs hret
  have hid : co.modelId = a.model.ident := by
    obtain ⟨co0, c', h1, h2, _⟩ := r.pdc
    simp only [PdpMethod.chooseCalc, hnone, Except.ok.injEq] at h1
    rw [h2] at hpdc
    cases hpdc
    subst h1
    rfl
  have hknown : ∀ f ∈ co.obj.X.cols, ∀ v ∈ co.obj.X.col f, ∃ x, cellS co.obj (f, v) = some x ∧ Flt.isNaN x = false := by
    intro f hf' v hv
    refine ⟨_, (hd f (by rw [← hX]; exact hf')).2 v hv, ?_⟩
    rw [hX] at hv ⊢
    refine finM_pd_number (fun h0 => ?_) f v
    simp [Frame.col, h0] at hv
  have noop : ∀ X' : Frame F V, X'.cols = a.X.frame.cols →
      Calc.calculateSingle none { co.obj with X := X' } = (.ok (), { co.obj with X := X' }) := fun X' h =>
    single_noop_any_frame hg.shape X' (by rw [hX]; exact h) hknown
  have hself : ({ co.obj with X := a.X.frame } : Calc F V (Num K)) = co.obj := by rw [← hX]
  have n0 := noop a.X.frame rfl
  rw [hself] at n0
  have n1 := noop a'.X.frame hcols
  obtain ⟨rows, hrows, himp⟩ := r.imp
  have e0 := pdpImportance_eq hg E.sortFeat (numIn E a.feats) (features := a.feats) (fun f hf => by rw [hX]; exact r.valid.cols f hf) (by rw [n0])
  have hrows' : a.feats.mapM (fun f => (impNum (numIn E a.feats f) (finM u) co.obj.X f).map (fun v => (⟨f, v⟩ : FeatRow F K))) = .ok rows := by
    rw [hX]
    exact hrows
  rw [hrows'] at e0
  have e1 : pdpImportance E.sortFeat (numIn E a.feats) a.feats { co.obj with X := a'.X.frame } =
      (.ok ((E.sortFeat rows).map FeatRow.fillna), { co.obj with X := a'.X.frame }) := by
    simp only [pdpImportance, PyM.seq, n0, n1] at e0 ⊢
    rw [calcImportance_congr (c' := { co.obj with X := a'.X.frame }) (c := co.obj) rfl]
    exact Prod.ext e0 rfl
  have ec := C113_edited_data_pass_the_check (a := a) hn hco (by rw [hid, hm]) (callable (getPredictFunction a'.model a'.predictFunction))
  have hfeats : allIfNone a'.X.frame.cols a'.features = a.feats := by simp [PdArgs.feats, allIfNone, hf, hcols]
  have hrun : (PdImpObj.run E a' t).1 = .ok ((E.sortFeat rows).map FeatRow.fillna) ∧
      (PdImpObj.run E a' t).2.importance = some ((E.sortFeat rows).map FeatRow.fillna) := by
    unfold PdImpObj.run
    simp only [hn', sampleIfNotNone, ec, hfeats, CalcObj.withFrame, e1, and_self]
  exact ⟨_, _, Prod.ext hrun.1 rfl, hrun.2, himp⟩

section Cases
open Ex

/-- the H-statistic on the example data, then the stand-alone importance of the edited data: with the calculator of the fit, and with one of its own -/
def exStale := PdImpObj.run (G := Nat) (L := Nat) (K := ℚ) exEnv
  { exArgs with X := exEdited, pdCalculator := (PdpMethod.fit (G := Nat) (L := Nat) (K := ℚ) (.friedman false) exEnv exArgs
      (PdpMethod.new 0)).2.pdc.map (·.afterEdit exArgs exEdited) } (PdImpObj.new 0)
def exFresh := PdImpObj.run (G := Nat) (L := Nat) (K := ℚ) exEnv { exArgs with X := exEdited } (PdImpObj.new 0)

example : (PdpMethod.fit (G := Nat) (L := Nat) (K := ℚ) (.friedman false) exEnv exArgs (PdpMethod.new 0)).1 = .ok () ∧
    (PdpMethod.fit (G := Nat) (L := Nat) (K := ℚ) (.friedman false) exEnv exArgs (PdpMethod.new 0)).2.importance = exStale.2.importance ∧
    exStale.2.importance.isSome = true ∧ exFresh.2.importance.isSome = true ∧ exStale.2.importance ≠ exFresh.2.importance := by
  decide +kernel

/-- the theorem for the same call, over the reals -/
example : ∃ (s : PdpMethod Nat Nat (Fin 3) ℤ ℝ) (co : CalcObj Nat (Fin 3) ℤ ℝ),
    PdpMethod.fit (.friedman true) exEnv exArgs (PdpMethod.new 0) = (.ok (), s) ∧ s.pdc = some co ∧
    ∃ imp t', PdImpObj.run exEnv { exArgs with X := exEdited, pdCalculator := some (co.afterEdit exArgs exEdited) } (PdImpObj.new 0) =
      (.ok imp, t') ∧ s.importance = some imp := by
  obtain ⟨s, h⟩ := exFitR true
  obtain ⟨co, _, _, _, _, hco, _⟩ := fit_ops (exSetup (K := ℝ) 0) rfl h
  obtain ⟨imp, t', h1, _, h2⟩ := C113_importance_reports_old_data (u := exU) (t := PdImpObj.new 0)
    (a' := { exArgs with X := exEdited, pdCalculator := some (co.afterEdit exArgs exEdited) }) _ (exSetup (K := ℝ) 0) rfl rfl h hco rfl rfl rfl rfl rfl
  exact ⟨s, co, h, hco, imp, t', h1, h2⟩

end Cases

end Artemis
