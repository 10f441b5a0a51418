import Verif.Props.SuppliedImportance

/-!
# C16: a matching calculator is accepted, whatever the model does
-/

set_option linter.unusedSectionVars false
set_option linter.unusedVariables false
set_option linter.unusedSimpArgs false

namespace Artemis
open Spec

variable {F V K G L : Type} [DecidableEq F] [LinearOrder V] [DecidableEq L] [Field K] [LinearOrder K]
  [IsStrictOrderedRing K] [HasSqrt K]
variable {E : PdEnv G F K} {a : PdArgs L F V K} {s0 : PdpMethod G L F V K} {Xs : LFrame L F V}

/-- **C16, acceptance.** A calculator of the same model object and equal data becomes the calculator of the method, with its prediction
function, data and history of questions kept, whatever the model does (it may raise in the middle of `fit`). -/
theorem C16_matching_calculator_taken (kind : PdKind) {co : CalcObj L F V K} (hco : a.pdCalculator = some co)
    {p : PF F V (Num K)} {X : Frame F V} {b : Int} {ops : List (PDOp F)} (hist : co.obj = runOps (Calc.new p X b) ops)
    (hs : (sampleIfNotNone E.R a.X a.n s0.rng).1 = .ok Xs) (hid : co.modelId = a.model.ident)
    (heq : LFrame.equals ⟨co.labels, co.obj.X⟩ Xs = true) :
    ∃ co', (PdpMethod.fit kind E a s0).2.pdc = some co' ∧ co'.modelId = a.model.ident ∧ co'.labels = Xs.labels ∧
      co'.obj.predict = p ∧ co'.obj.X = X ∧ SameData co'.obj.X Xs.frame ∧ (PdpMethod.fit kind E a s0).2.xSampled = some Xs ∧
      (PdpMethod.fit kind E a s0).2.model.isSome ∧
      (PdpMethod.fit kind E a s0).2.features = some (a.features.getD a.X.frame.cols) := by
  cases eX : sampleIfNotNone E.R a.X a.n s0.rng with
  | mk rX rng =>
    rw [eX] at hs
    simp only at hs
    subst hs
    have g0 : OnMixes X p co.obj := hist ▸ (twin_runOps (sameOnMixes_refl X p) ops _ (onMixes_new p X b)).1
    have hc : PdpMethod.chooseCalc a Xs a.pf = .ok co := by simp [PdpMethod.chooseCalc, hco, hid, heq]
    obtain ⟨hl, hd⟩ := sameData_of_equals heq
    simp only [g0.data] at hl hd
    have fin : ∀ c : Calc F V (Num K), OnMixes X p c →
        co.modelId = a.model.ident ∧ co.labels = Xs.labels ∧ c.predict = p ∧ c.X = X ∧ SameData c.X Xs.frame :=
      fun c h => ⟨hid, hl, h.predict, h.data, h.data ▸ hd⟩
    rw [fit_eq kind E a s0 eX hc]
    have g1 := onMixes_ovo (Y := Xs.frame) kind E a.feats (combinations2 a.feats) g0
    cases q1 : kind.ovo E Xs.frame a.feats (combinations2 a.feats) co.obj with
    | mk r1 c1 =>
      rw [q1] at g1
      obtain ⟨f1, f2, f3, f4, f5⟩ := fin _ g1
      cases r1 with
      | error e => exact ⟨_, rfl, f1, f2, f3, f4, f5, rfl, rfl, rfl⟩
      | ok ovo =>
        simp only
        have g2 := onMixes_importance E.sortFeat (numIn E a.feats) a.feats g1
        cases q2 : pdpImportance E.sortFeat (numIn E a.feats) a.feats c1 with
        | mk r2 c2 =>
          simp only [q2] at g2
          obtain ⟨f1, f2, f3, f4, f5⟩ := fin _ g2
          cases r2 with
          | error e => exact ⟨_, rfl, f1, f2, f3, f4, f5, rfl, rfl, rfl⟩
          | ok imp =>
            cases kind with
            | greenwell => exact ⟨_, rfl, f1, f2, f3, f4, f5, rfl, rfl, rfl⟩
            | friedman n =>
              simp only
              by_cases hov : a.calculateOva = true
              · simp only [hov, if_true]
                have g3 := onMixes_ova (q := a.pf) (Y := Xs.frame) E.sortFeat n a.feats g2
                cases q3 : hstatOva E.sortFeat a.pf n Xs.frame a.feats c2 with
                | mk r3 c3 =>
                  simp only [q3] at g3
                  obtain ⟨f1, f2, f3, f4, f5⟩ := fin _ g3
                  cases r3 with
                  | error e => exact ⟨_, rfl, f1, f2, f3, f4, f5, rfl, rfl, rfl⟩
                  | ok ova => exact ⟨_, rfl, f1, f2, f3, f4, f5, rfl, rfl, rfl⟩
              · simp only [hov, if_false]
                exact ⟨_, rfl, f1, f2, f3, f4, f5, rfl, rfl, rfl⟩

section Cases
open Ex

/-- a model that always raises: its calculator is taken, and `fit` ends with the exception of the model -/
def raisingCall : PdArgs Nat (Fin 2) ℤ ℚ :=
  { cornerCall 1 [0, 1, 2] with
    model := { ident := 1, predict := some (fun _ _ => .error (.userError 7)), predictProba := none }
    pdCalculator := some ⟨1, [0, 1, 2], Calc.new (fun _ _ => .error (.userError 7)) cornerX.frame 100⟩ }

example : (PdpMethod.fit (G := Nat) (.friedman true) gridEnv raisingCall (PdpMethod.new 0)).1 = .error (.userError 7) ∧
    ∃ co', (PdpMethod.fit (G := Nat) (.friedman true) gridEnv raisingCall (PdpMethod.new 0)).2.pdc = some co' ∧ co'.labels = [0, 1, 2] := by
  refine ⟨by decide +kernel, ?_⟩
  obtain ⟨co', h1, _, h2, _⟩ := C16_matching_calculator_taken (E := gridEnv) (s0 := PdpMethod.new 0) (a := raisingCall) (Xs := cornerX)
    (.friedman true) rfl (ops := []) rfl rfl rfl (by decide +kernel)
  exact ⟨co', h1, h2⟩

end Cases
end Artemis
