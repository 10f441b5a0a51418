import Verif.Props.Locality
import Verif.Props.SuppliedLimits

/-!
# C118 with a supplied calculator
-/

set_option linter.unusedSectionVars false
set_option linter.unusedVariables false
set_option linter.unusedSimpArgs false

namespace Artemis
open Spec

namespace Spec

/-- every value of the row in a column of the data occurs in that column -/
def MixesColumns {F V : Type} (X : Frame F V) (r : Row F V) : Prop := ∀ f ∈ X.cols, ∃ r0 ∈ X.rows, r f = r0 f

end Spec

variable {F V K G L : Type} [DecidableEq F] [LinearOrder V] [DecidableEq L] [Field K] [LinearOrder K]
  [IsStrictOrderedRing K] [HasSqrt K]
variable {E : PdEnv G F K} {a : PdArgs L F V K} {s0 : PdpMethod G L F V K} {Xs : LFrame L F V}

section keep
variable {X Y : Frame F V} {p q : PF F V (Num K)} {c : Calc F V (Num K)}

theorem onMixes_ovo (kind : PdKind) (E : PdEnv G F K) (fs : List F) (ps : List (F × F)) (hc : OnMixes X p c) :
    OnMixes X p (kind.ovo E Y fs ps c).2 := by
  have hp := sameOnMixes_refl X p
  have : Twin (OnMixes X p) (Calc.withPredict p) (fun _ => True) (kind.ovo E Y fs ps) (kind.ovo E Y fs ps) := by
    cases kind with
    | friedman n =>
      refine Twin.seq (twin_pairs hp _ _) fun _ _ => Twin.seq (twin_single hp _) fun _ _ => twin_read fun c => ?_
      rfl
    | greenwell =>
      refine Twin.seq (twin_pairs hp _ _) fun _ _ => twin_read fun c => ?_
      rfl
  exact (this c hc).1

theorem onMixes_importance (sort) (numeric : F → Bool) (fs : List F) (hc : OnMixes X p c) :
    OnMixes X p (pdpImportance (K := K) sort numeric fs c).2 :=
  (twin_pdpImportance (sameOnMixes_refl X p) sort numeric fs c hc).1

theorem onMixes_ova (sort) (n : Bool) (fs : List F) (hc : OnMixes X p c) :
    OnMixes X p (hstatOva (K := K) sort q n Y fs c).2 := by
  have h := (twin_minus (sameOnMixes_refl X p) (some fs) c hc).1
  unfold hstatOva PyM.seq
  cases e : Calc.calculateMinus (some fs) c with
  | mk r c1 =>
    rw [e] at h
    cases r with
    | error er => exact h
    | ok u =>
      simp only
      cases q c1.calls.length Y.rows with
      | error er => exact h
      | ok preds => exact h

theorem onMixes_additivity (cp : F) (hc : OnMixes X p c) : OnMixes X p (calcAdditivity (K := K) cp q Y c).2 := by
  have h := (twin_single (sameOnMixes_refl X p) none c hc).1
  unfold calcAdditivity PyM.seq
  cases e : Calc.calculateSingle none c with
  | mk r c1 =>
    rw [e] at h
    cases r with
    | error er => exact h
    | ok u =>
      simp only
      cases q c1.calls.length Y.rows with
      | error er => exact h
      | ok preds =>
        simp only
        cases Y.cols.mapM (addColumn Y preds c1) with
        | error er => exact h
        | ok effs =>
          simp only
          split
          · exact h
          · exact h

end keep

/-- a supplied calculator is refused with ValueError or taken as it is, and then its data are the drawn rows -/
theorem chooseCalc_supplied {co : CalcObj L F V K} (hco : a.pdCalculator = some co) (pf : PF F V (Num K)) :
    PdpMethod.chooseCalc a Xs pf = .error .valueError ∨
    (PdpMethod.chooseCalc a Xs pf = .ok co ∧ SameData co.obj.X Xs.frame) := by
  simp only [PdpMethod.chooseCalc, hco]
  by_cases h1 : co.modelId = a.model.ident
  · cases h2 : LFrame.equals ⟨co.labels, co.obj.X⟩ Xs with
    | false => simp [h1]
    | true => exact .inr ⟨by simp [h1], (sameData_of_equals h2).2⟩
  · simp [h1]

theorem mixesColumns_of {X Y : Frame F V} (h : SameData X Y) {r : Row F V} (hr : Mixes X r) : MixesColumns Y r := by
  intro f hf
  obtain ⟨r0, h0, e⟩ := hr f
  have hf' : f ∈ X.cols := h.cols ▸ hf
  have hm : r f ∈ Y.col f := by
    rw [← h.col hf', e]
    exact List.mem_map_of_mem (f := fun r : Row F V => r f) h0
  obtain ⟨r1, h1, e1⟩ := List.mem_map.mp hm
  exact ⟨r1, h1, e1.symm⟩

/-- **C118, H-statistic and Greenwell with a supplied calculator** of any history, whatever its prediction function: it is refused (and
nothing is asked), or, whether `fit` returns or raises, every row it ever sent to the model mixes values of the drawn rows. -/
theorem C118_fit_supplied (kind : PdKind) {co : CalcObj L F V K} (hco : a.pdCalculator = some co) {p : PF F V (Num K)}
    {X : Frame F V} {b : Int} {ops : List (PDOp F)} (hist : co.obj = runOps (Calc.new p X b) ops)
    (hs : (sampleIfNotNone E.R a.X a.n s0.rng).1 = .ok Xs) :
    ((PdpMethod.fit kind E a s0).1 = .error .valueError ∧ (PdpMethod.fit kind E a s0).2.pdc = s0.pdc) ∨
    ∃ co', (PdpMethod.fit kind E a s0).2.pdc = some co' ∧ ∀ rows ∈ co'.obj.calls, ∀ r ∈ rows, MixesColumns Xs.frame r := by
  cases eX : sampleIfNotNone E.R a.X a.n s0.rng with
  | mk rX rng =>
    rw [eX] at hs
    simp only at hs
    subst hs
    have g0 : OnMixes X p co.obj := hist ▸ (twin_runOps (sameOnMixes_refl X p) ops _ (onMixes_new p X b)).1
    rcases chooseCalc_supplied (Xs := Xs) hco a.pf with hc | ⟨hc, hd⟩
    · left
      have hc : PdpMethod.chooseCalc a Xs (callable (getPredictFunction a.model a.predictFunction)) = .error .valueError := hc
      simp only [PdpMethod.fit, PdpMethod.fitBase, eX, hc]
      exact ⟨trivial, trivial⟩
    · right
      rw [g0.data] at hd
      have fin : ∀ c : Calc F V (Num K), OnMixes X p c → ∀ rows ∈ c.calls, ∀ r ∈ rows, MixesColumns Xs.frame r :=
        fun c hc rows h1 r h2 => mixesColumns_of hd (hc.calls rows h1 r h2)
      rw [fit_eq kind E a s0 eX hc]
      have g1 := onMixes_ovo (Y := Xs.frame) kind E a.feats (combinations2 a.feats) g0
      cases q1 : kind.ovo E Xs.frame a.feats (combinations2 a.feats) co.obj with
      | mk r1 c1 =>
        rw [q1] at g1
        cases r1 with
        | error e => exact ⟨_, rfl, fin _ g1⟩
        | ok ovo =>
          simp only
          have g2 := onMixes_importance E.sortFeat (numIn E a.feats) a.feats g1
          cases q2 : pdpImportance E.sortFeat (numIn E a.feats) a.feats c1 with
          | mk r2 c2 =>
            simp only [q2] at g2
            cases r2 with
            | error e => exact ⟨_, rfl, fin _ g2⟩
            | ok imp =>
              cases kind with
              | greenwell => exact ⟨_, rfl, fin _ g2⟩
              | friedman n =>
                simp only
                by_cases hov : a.calculateOva = true
                · simp only [hov, if_true]
                  have g3 := onMixes_ova (q := a.pf) (Y := Xs.frame) E.sortFeat n a.feats g2
                  cases q3 : hstatOva E.sortFeat a.pf n Xs.frame a.feats c2 with
                  | mk r3 c3 =>
                    simp only [q3] at g3
                    cases r3 with
                    | error e => exact ⟨_, rfl, fin _ g3⟩
                    | ok ova => exact ⟨_, rfl, fin _ g3⟩
                · simp only [hov, if_false]
                  exact ⟨_, rfl, fin _ g2⟩

/-- **C118, stand-alone importance with a supplied calculator.** -/
theorem C118_importance_supplied {t0 : PdImpObj G L F V K} {co : CalcObj L F V K} (hco : a.pdCalculator = some co)
    {p : PF F V (Num K)} {X : Frame F V} {b : Int} {ops : List (PDOp F)} (hist : co.obj = runOps (Calc.new p X b) ops)
    (hs : (sampleIfNotNone E.R a.X a.n t0.rng).1 = .ok Xs) :
    ((PdImpObj.run E a t0).1 = .error .valueError ∧ (PdImpObj.run E a t0).2.pdc = t0.pdc) ∨
    ∃ co', (PdImpObj.run E a t0).2.pdc = some co' ∧ ∀ rows ∈ co'.obj.calls, ∀ r ∈ rows, MixesColumns Xs.frame r := by
  cases eX : sampleIfNotNone E.R a.X a.n t0.rng with
  | mk rX rng =>
    rw [eX] at hs
    simp only at hs
    subst hs
    have g0 : OnMixes X p co.obj := hist ▸ (twin_runOps (sameOnMixes_refl X p) ops _ (onMixes_new p X b)).1
    rcases chooseCalc_supplied (Xs := Xs) hco (callable (getPredictFunction a.model a.predictFunction)) with hc | ⟨hc, hd⟩
    · left
      simp only [PdImpObj.run, eX, hc]
      exact ⟨trivial, trivial⟩
    · right
      rw [g0.data] at hd
      have g1 := onMixes_importance E.sortFeat (numIn E (allIfNone a.X.frame.cols a.features)) (allIfNone a.X.frame.cols a.features) g0
      simp only [PdImpObj.run, eX, hc]
      cases q : pdpImportance E.sortFeat (numIn E (allIfNone a.X.frame.cols a.features)) (allIfNone a.X.frame.cols a.features) co.obj with
      | mk r1 c1 =>
        simp only [q] at g1
        cases r1 with
        | error e => exact ⟨_, rfl, fun rows h1 r h2 => mixesColumns_of hd (g1.calls rows h1 r h2)⟩
        | ok imp => exact ⟨_, rfl, fun rows h1 r h2 => mixesColumns_of hd (g1.calls rows h1 r h2)⟩

/-- **C118, additivity meter with a supplied calculator.** -/
theorem C118_additivity_supplied {R : Rng G} {cp : F} {d : AddArgs L F V K} {t0 : AddMeter G L F V K} {co : CalcObj L F V K}
    (hco : d.pdCalculator = some co) {p : PF F V (Num K)} {X : Frame F V} {b : Int} {ops : List (PDOp F)}
    (hist : co.obj = runOps (Calc.new p X b) ops) (hs : (sampleIfNotNone R d.X d.n t0.rng).1 = .ok Xs) :
    ((AddMeter.fit R cp d t0).1 = .error .valueError ∧ (AddMeter.fit R cp d t0).2.pdc = t0.pdc) ∨
    ∃ co', (AddMeter.fit R cp d t0).2.pdc = some co' ∧ ∀ rows ∈ co'.obj.calls, ∀ r ∈ rows, MixesColumns Xs.frame r := by
  cases eX : sampleIfNotNone R d.X d.n t0.rng with
  | mk rX rng =>
    rw [eX] at hs
    simp only at hs
    subst hs
    have g0 : OnMixes X p co.obj := hist ▸ (twin_runOps (sameOnMixes_refl X p) ops _ (onMixes_new p X b)).1
    rcases chooseCalc_supplied (a := d.toPd) (Xs := Xs) hco (callable (getPredictFunction d.model d.predictFunction)) with hc | ⟨hc, hd⟩
    · left
      simp only [AddMeter.fit, eX, hc]
      exact ⟨trivial, trivial⟩
    · right
      rw [g0.data] at hd
      have g1 := onMixes_additivity (q := callable (getPredictFunction d.model d.predictFunction)) (Y := Xs.frame) cp g0
      simp only [AddMeter.fit, eX, hc]
      cases q : calcAdditivity cp (callable (getPredictFunction d.model d.predictFunction)) Xs.frame co.obj with
      | mk r1 c1 =>
        rw [q] at g1
        cases r1 with
        | error e => exact ⟨_, rfl, fun rows h1 r h2 => mixesColumns_of hd (g1.calls rows h1 r h2)⟩
        | ok out => exact ⟨_, rfl, fun rows h1 r h2 => mixesColumns_of hd (g1.calls rows h1 r h2)⟩

section Cases
open Ex

/-- an accepted calculator that sends rows to the model, among them (-1, 1), which is no row of the data -/
example : ∃ co', (PdpMethod.fit (G := Nat) (.friedman true) gridEnv (cornerCall 1 [0, 1, 2]) (PdpMethod.new 0)).2.pdc = some co' ∧
    (∀ rows ∈ co'.obj.calls, ∀ r ∈ rows, MixesColumns cornerX.frame r) ∧
    ((PdpMethod.fit (G := Nat) (.friedman true) gridEnv (cornerCall 1 [0, 1, 2]) (PdpMethod.new 0)).2.pdc.map
      fun co => co.obj.calls.any fun rows => rows.any fun r => r 0 = -1 ∧ r 1 = 1) = some true := by
  have hok := C119_supplied_fails.2.1
  rcases C118_fit_supplied (E := gridEnv) (s0 := PdpMethod.new 0) (a := cornerCall 1 [0, 1, 2]) (Xs := cornerX) (.friedman true) rfl
    (ops := []) rfl rfl with ⟨h, _⟩ | ⟨co', h1, h2⟩
  · rw [hok] at h
    cases h
  · exact ⟨co', h1, h2, by decide +kernel⟩

end Cases
end Artemis
