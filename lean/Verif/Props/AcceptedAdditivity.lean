import Verif.Props.AcceptedAnyModel

/-!
# C16: a matching calculator is accepted by the additivity meter, whatever the model does
-/

set_option linter.unusedSectionVars false
set_option linter.unusedVariables false

namespace Artemis
open Spec

variable {F V K G L : Type} [DecidableEq F] [LinearOrder V] [DecidableEq L] [Field K] [LinearOrder K]
  [IsStrictOrderedRing K] [HasSqrt K]
variable {R : Rng G} {a : AddArgs L F V K} {s0 : AddMeter G L F V K} {Xs : LFrame L F V}

/-- **C16, acceptance (additivity).** A calculator of the same model object and equal data becomes the calculator of the meter, with its
prediction function and data kept, whatever the model does. -/
theorem C16_additivity_matching_calculator_taken (cp : F) {co : CalcObj L F V K} (hco : a.pdCalculator = some co)
    {p : PF F V (Num K)} {X : Frame F V} {b : Int} {ops : List (PDOp F)} (hist : co.obj = runOps (Calc.new p X b) ops)
    (hs : (sampleIfNotNone R a.X a.n s0.rng).1 = .ok Xs) (hid : co.modelId = a.model.ident)
    (heq : LFrame.equals ⟨co.labels, co.obj.X⟩ Xs = true) :
    ∃ co', (AddMeter.fit R cp a s0).2.pdc = some co' ∧ co'.modelId = a.model.ident ∧ co'.labels = Xs.labels ∧
      co'.obj.predict = p ∧ co'.obj.X = X ∧ SameData co'.obj.X Xs.frame ∧ (AddMeter.fit R cp a s0).2.xSampled = some Xs := by
  cases eX : sampleIfNotNone R a.X a.n s0.rng with
  | mk rX rng =>
    rw [eX] at hs
    simp only at hs
    subst hs
    have g0 : OnMixes X p co.obj := hist ▸ (twin_runOps (sameOnMixes_refl X p) ops _ (onMixes_new p X b)).1
    have hc : ∀ pf, PdpMethod.chooseCalc a.toPd Xs pf = .ok co := by
      intro pf
      simp [PdpMethod.chooseCalc, AddArgs.toPd, hco, hid, heq]
    obtain ⟨hl, hd⟩ := sameData_of_equals heq
    simp only [g0.data] at hl hd
    have g1 := onMixes_additivity (K := K) (q := callable (getPredictFunction a.model a.predictFunction)) (Y := Xs.frame) cp g0
    cases e : calcAdditivity cp (callable (getPredictFunction a.model a.predictFunction)) Xs.frame co.obj with
    | mk r c' =>
      rw [e] at g1
      simp only at g1
      refine ⟨{ co with obj := c' }, ?_, hid, hl, g1.predict, g1.data, g1.data ▸ hd, ?_⟩ <;>
        cases r <;> simp [AddMeter.fit, eX, hc, e]

section Cases
open Ex

/-- the model of `raisingCall`, given to the additivity meter -/
def raisingAdd : AddArgs Nat (Fin 2) ℤ ℚ :=
  { model := raisingCall.model, X := cornerX, n := none, predictFunction := none, batchsize := 100, pdCalculator := raisingCall.pdCalculator }

example : (AddMeter.fit exRng 1 raisingAdd (AddMeter.new (G := Nat) 0)).1 = .error (.userError 7) ∧
    ∃ co', (AddMeter.fit exRng 1 raisingAdd (AddMeter.new (G := Nat) 0)).2.pdc = some co' ∧ co'.labels = [0, 1, 2] := by
  refine ⟨by decide +kernel, ?_⟩
  obtain ⟨co', h1, _, h2, _⟩ := C16_additivity_matching_calculator_taken (R := exRng) (s0 := AddMeter.new 0) (a := raisingAdd)
    (Xs := cornerX) 1 rfl (ops := []) rfl rfl rfl (by decide +kernel)
  exact ⟨co', h1, h2⟩

end Cases
end Artemis
