import Verif.Props.HStat
import Verif.Props.Additivity

/-!
# Property C65: the prediction function
-/

set_option linter.unusedSectionVars false
set_option linter.unusedVariables false
set_option linter.unusedSimpArgs false

namespace Artemis
open Spec

section choose
variable {F V N : Type}

/-- **C65.** A user-supplied function wins; otherwise a model with `predict_proba` is asked for class-1 probabilities
(whether or not it also has `predict`); otherwise `predict` is used; a model with neither gives no function, and using
that is a TypeError. -/
theorem C65_documented_prediction_function (model : ModelObj F V N) :
    (∀ f, getPredictFunction model (some f) = some (f model)) ∧
    (∀ pp, model.predictProba = some pp → ∃ f, getPredictFunction model none = some f ∧
      ∀ k rows M, pp k rows = .ok M →
        (∀ col1, List.Forall₂ (fun row x => row[1]? = some x) M col1 → f k rows = .ok col1) ∧
        ((∃ row ∈ M, row.length < 2) → f k rows = .error .indexError)) ∧
    (∀ pp, model.predictProba = some pp → ∃ f, getPredictFunction model none = some f ∧
      ∀ k rows e, pp k rows = .error e → f k rows = .error e) ∧
    (∀ p, model.predictProba = none → model.predict = some p → getPredictFunction model none = some p) ∧
    (model.predictProba = none → model.predict = none → ∀ k rows,
      callable (getPredictFunction model none) k rows = .error .typeError) := by
  refine ⟨fun f => rfl, ?_, ?_, ?_, ?_⟩
  · intro pp h
    refine ⟨yhatProba pp, by simp [getPredictFunction, h], ?_⟩
    intro k rows M hM
    simp only [yhatProba, hM]
    constructor
    · intro col1 hc
      clear hM
      induction hc with
      | nil => rfl
      | cons h1 _ ih => simp [List.mapM_cons, h1, ih, bind, Except.bind, pure, Except.pure]
    · rintro ⟨row, hr, hl⟩
      clear hM
      induction M with
      | nil => cases hr
      | cons r M ih =>
        simp only [List.mapM_cons, bind, Except.bind]
        cases h1 : r[1]? with
        | none => rfl
        | some x =>
          rcases List.mem_cons.1 hr with rfl | hr
          · rw [List.getElem?_eq_none (by omega)] at h1; cases h1
          · simp only [ih hr]
  · intro pp h
    exact ⟨yhatProba pp, by simp [getPredictFunction, h], fun k rows e he => by simp [yhatProba, he]⟩
  · intro p h h'
    simp [getPredictFunction, h, h']
  · intro h h' k rows
    simp [getPredictFunction, h, h', callable]

end choose

section fits
variable {F V K G L : Type} [DecidableEq F] [LinearOrder V] [DecidableEq L] [Field K] [LinearOrder K]
  [IsStrictOrderedRing K] [HasSqrt K]
variable {E : PdEnv G F K} {a : PdArgs L F V K} {s0 : PdpMethod G L F V K}

/-- **C65.** Nothing else of the model matters to a PD-based `fit` that builds its own calculator: if another model
object (with another prediction argument) leads to the same prediction function, outcome and tables are the same. -/
theorem C65_fit_depends_on_prediction_function_only_partial (kind : PdKind) (hc : a.pdCalculator = none)
    {m' : ModelObj F V (Num K)} {p' : Option (ModelObj F V (Num K) → PF F V (Num K))}
    (hpf : getPredictFunction m' p' = getPredictFunction a.model a.predictFunction) :
    let r := PdpMethod.fit kind E a s0
    let r' := PdpMethod.fit kind E { a with model := m', predictFunction := p' } s0
    r'.1 = r.1 ∧ r'.2.ovo = r.2.ovo ∧ r'.2.ova = r.2.ova ∧ r'.2.importance = r.2.importance := by
  intro r r'
  cases eX : sampleIfNotNone E.R a.X a.n s0.rng with
  | mk rX rng =>
    cases rX with
    | error e =>
      have h1 : r = (.error e, r.2) := by
        simp only [r, PdpMethod.fit, PdpMethod.fitBase, eX]
      have h2 : r' = (.error e, r'.2) := by
        simp only [r', PdpMethod.fit, PdpMethod.fitBase, eX]
      refine ⟨by rw [h1, h2], ?_, ?_, ?_⟩ <;> simp only [r, r', PdpMethod.fit, PdpMethod.fitBase, eX]
    | ok Xs =>
      have hp : PdArgs.pf { a with model := m', predictFunction := p' } = a.pf := by
        simp only [PdArgs.pf, hpf]
      have c1 : PdpMethod.chooseCalc a Xs a.pf = .ok ⟨a.model.ident, Xs.labels, Calc.new a.pf Xs.frame a.batchsize⟩ := by
        simp only [PdpMethod.chooseCalc, hc]
      have c2 : PdpMethod.chooseCalc { a with model := m', predictFunction := p' } Xs
          (PdArgs.pf { a with model := m', predictFunction := p' }) =
          .ok ⟨m'.ident, Xs.labels, Calc.new a.pf Xs.frame a.batchsize⟩ := by
        rw [hp]; simp only [PdpMethod.chooseCalc, hc]
      have f1 : r = _ := fit_eq kind E a s0 eX c1
      have f2 : r' = _ := fit_eq kind E { a with model := m', predictFunction := p' } s0 eX c2
      have hfe : PdArgs.feats { a with model := m', predictFunction := p' } = a.feats := rfl
      rw [hp, hfe] at f2
      simp only at f1 f2
      rw [f1, f2]
      clear f1 f2 c1 c2
      cases e1 : kind.ovo E Xs.frame a.feats (combinations2 a.feats) (Calc.new a.pf Xs.frame a.batchsize) with
      | mk r1 c1 =>
        cases r1 with
        | error e => exact ⟨rfl, rfl, rfl, rfl⟩
        | ok ovo =>
          simp only
          cases e2 : pdpImportance E.sortFeat (numIn E a.feats) a.feats c1 with
          | mk r2 c2 =>
            cases r2 with
            | error e => exact ⟨rfl, rfl, rfl, rfl⟩
            | ok imp =>
              simp only
              cases kind with
              | greenwell => exact ⟨rfl, rfl, rfl, rfl⟩
              | friedman n =>
                simp only
                cases a.calculateOva with
                | false => exact ⟨rfl, rfl, rfl, rfl⟩
                | true =>
                  simp only [if_true]
                  cases e3 : hstatOva E.sortFeat a.pf n Xs.frame a.feats c2 with
                  | mk r3 c3 => cases r3 <;> exact ⟨rfl, rfl, rfl, rfl⟩

/-- **C65.** The same for the additivity meter. -/
theorem C65_additivity_depends_on_prediction_function_only_partial {a : AddArgs L F V K} {R : Rng G} {cp : F}
    {s0 : AddMeter G L F V K} (hc : a.pdCalculator = none)
    {m' : ModelObj F V (Num K)} {p' : Option (ModelObj F V (Num K) → PF F V (Num K))}
    (hpf : getPredictFunction m' p' = getPredictFunction a.model a.predictFunction) :
    let r := AddMeter.fit R cp a s0
    let r' := AddMeter.fit R cp { a with model := m', predictFunction := p' } s0
    r'.1 = r.1 ∧ r'.2.index = r.2.index := by
  intro r r'
  simp only [r, r', AddMeter.fit, hpf, PdpMethod.chooseCalc, AddArgs.toPd, hc]
  cases sampleIfNotNone R a.X a.n s0.rng with
  | mk rX rng =>
    cases rX with
    | error e => exact ⟨rfl, rfl⟩
    | ok Xs =>
      simp only
      cases calcAdditivity cp (callable (getPredictFunction a.model a.predictFunction)) Xs.frame
        (Calc.new (callable (getPredictFunction a.model a.predictFunction)) Xs.frame a.batchsize) with
      | mk r1 c1 => cases r1 <;> exact ⟨rfl, rfl⟩

end fits

section Cases
open Ex

/-- a classifier: `predict` gives labels, `predict_proba` gives two columns -/
def exClassifier : ModelObj (Fin 3) ℤ ℚ where
  ident := 7
  predict := some (fun _ rows => .ok (rows.map fun _ => 1))
  predictProba := some (fun _ rows => .ok (rows.map fun r => [1 - (r 0 : ℚ) / 10, (r 0 : ℚ) / 10]))

example : callable (getPredictFunction exClassifier none) 0 [fun _ => 3, fun _ => 7] = .ok [3 / 10, 7 / 10] := by
  decide +kernel
example : callable (getPredictFunction { exClassifier with predictProba := none } none) 0 [fun _ => 3] = .ok [1] := by
  decide +kernel
example : callable (getPredictFunction exClassifier (some fun m k rows => .ok (rows.map fun r => (r 1 : ℚ)))) 0
    [fun _ => 3] = .ok [3] := by decide +kernel

/-- a model with another identity and only `predict_proba`, given the first model's `predict` by hand: same H table -/
example : getPredictFunction (⟨99, none, some (fun _ rows => .error .keyError)⟩ : ModelObj (Fin 3) ℤ (Num ℚ))
      (some fun _ => fun _ rows => .ok (rows.map (fun r => .fin (exU r)))) =
    getPredictFunction (exArgs (K := ℚ)).model exArgs.predictFunction ∧ (exArgs (K := ℚ)).pdCalculator = none :=
  ⟨rfl, rfl⟩

end Cases
end Artemis
