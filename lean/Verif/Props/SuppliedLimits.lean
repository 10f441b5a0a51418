import Verif.Props.Locality
import Verif.Props.Labels
import Verif.Props.HStat
import Verif.Props.Predict

/-!
# C65, C119 and C123 with a supplied calculator

`fit` compares the model object and the labelled data with those of a supplied calculator (`_pdp.py:89-98`). So both properties
stop at calls that build their own calculator: another model object, or other row labels, beside the same calculator is an error.
The prediction function is not compared: the one of the calculator is used, not the argument of `fit` (C65).
-/

set_option linter.unusedSectionVars false
set_option linter.unusedVariables false
set_option linter.unusedSimpArgs false

namespace Artemis
open Spec

variable {F V L G K : Type} [DecidableEq F] [LinearOrder V] [DecidableEq L] [Field K] [LinearOrder K]
  [IsStrictOrderedRing K] [HasSqrt K]
variable {E : PdEnv G F K} {a : PdArgs L F V K} {s0 : PdpMethod G L F V K} {Xs : LFrame L F V}

/-- **C119, supplied calculator.** Another model object beside the calculator of the first one is refused, however alike the two models
answer; the tables stay what they were. -/
theorem C119_supplied_calculator_refused (kind : PdKind) {co : CalcObj L F V K} (hco : a.pdCalculator = some co)
    {m' : ModelObj F V (Num K)} {pf'} (hid : co.modelId ≠ m'.ident) (hsm : (sampleIfNotNone E.R a.X a.n s0.rng).1 = .ok Xs) :
    (PdpMethod.fit kind E (a.withModel m' pf') s0).1 = .error .valueError ∧
    (PdpMethod.fit kind E (a.withModel m' pf') s0).2.ovo = s0.ovo ∧
    (PdpMethod.fit kind E (a.withModel m' pf') s0).2.ova = s0.ova ∧
    (PdpMethod.fit kind E (a.withModel m' pf') s0).2.importance = s0.importance :=
  C16_mismatched_calculator_rejected (a := a.withModel m' pf') kind hco hsm (.inl hid)

/-- **C123, supplied calculator.** The same rows under other labels (no sample) beside the same calculator are refused; the tables stay
what they were. -/
theorem C123_supplied_calculator_refused (kind : PdKind) {co : CalcObj L F V K} (hco : a.pdCalculator = some co) (hn : a.n = none)
    {labels : List L} (hl : co.labels ≠ labels) :
    (PdpMethod.fit kind E { a with X := ⟨labels, a.X.frame⟩ } s0).1 = .error .valueError ∧
    (PdpMethod.fit kind E { a with X := ⟨labels, a.X.frame⟩ } s0).2.ovo = s0.ovo ∧
    (PdpMethod.fit kind E { a with X := ⟨labels, a.X.frame⟩ } s0).2.ova = s0.ova ∧
    (PdpMethod.fit kind E { a with X := ⟨labels, a.X.frame⟩ } s0).2.importance = s0.importance :=
  C16_mismatched_calculator_rejected (a := { a with X := ⟨labels, a.X.frame⟩ }) (Xs := ⟨labels, a.X.frame⟩) kind hco
    (by simp [hn, sampleIfNotNone]) (.inr (.inl hl))

section Cases
open Ex

/-- the call of `cornerH` with a calculator built beforehand for the model object 1 and the labels 0, 1, 2; the same function is
explained as model object `i`, under the row labels `labels` -/
def cornerCall (i : Nat) (labels : List Nat) : PdArgs Nat (Fin 2) ℤ ℚ :=
  { gridArgs 0 0 with
    X := ⟨labels, cornerX.frame⟩
    model := { ident := i, predict := some (fun _ rows => .ok (rows.map (fun r => .fin (cornerU 1 r : ℚ)))), predictProba := none }
    pdCalculator := some ⟨1, [0, 1, 2], Calc.new (fun _ rows => .ok (rows.map (fun r => .fin (cornerU 1 r : ℚ)))) cornerX.frame 100⟩ }

/-- **C119 fails with a supplied calculator**: two model objects with the same answers on all rows, one explained and one refused. -/
theorem C119_supplied_fails :
    (cornerCall 1 [0, 1, 2]).pf = (cornerCall 2 [0, 1, 2]).pf ∧
    (PdpMethod.fit (G := Nat) (.friedman true) gridEnv (cornerCall 1 [0, 1, 2]) (PdpMethod.new 0)).1 = .ok () ∧
    (PdpMethod.fit (G := Nat) (.friedman true) gridEnv (cornerCall 2 [0, 1, 2]) (PdpMethod.new 0)).1 = .error .valueError :=
  ⟨rfl, by decide +kernel, by decide +kernel⟩

/-- **C123 fails with a supplied calculator**: the same rows, one labelling explained and one refused. -/
theorem C123_supplied_fails :
    (PdpMethod.fit (G := Nat) (.friedman true) gridEnv (cornerCall 1 [0, 1, 2]) (PdpMethod.new 0)).1 = .ok () ∧
    (PdpMethod.fit (G := Nat) (.friedman true) gridEnv (cornerCall 1 [5, 6, 7]) (PdpMethod.new 0)).1 = .error .valueError :=
  ⟨by decide +kernel, by decide +kernel⟩

/-- **C65 fails with a supplied calculator**: the user's function (always 0) is the one `get_predict_function` returns, yet the table is
the one of the calculator's function; without the calculator the value is 0/0. -/
theorem C65_supplied_fails :
    let a : PdArgs Nat (Fin 2) ℤ ℚ := { cornerCall 1 [0, 1, 2] with predictFunction := some fun _ _ rows => .ok (rows.map fun _ => .fin 0) }
    (∀ k rows, a.pf k rows = .ok (rows.map fun _ => .fin 0)) ∧
    (PdpMethod.fit (G := Nat) (.friedman true) gridEnv a (PdpMethod.new 0)).2.ovo.map (fun t => t.map (·.val)) = cornerH true 1 ∧
    (PdpMethod.fit (G := Nat) (.friedman true) gridEnv { a with pdCalculator := none } (PdpMethod.new 0)).2.ovo.map
      (fun t => t.map (·.val)) ≠ cornerH true 1 :=
  ⟨fun _ _ => rfl, by decide +kernel, by decide +kernel⟩

/-- the hypotheses of the two refusals are met -/
example : (PdpMethod.fit (G := Nat) .greenwell gridEnv ((cornerCall 1 [0, 1, 2]).withModel (cornerCall 2 [0, 1, 2]).model none)
    (PdpMethod.new 0)).1 = .error .valueError :=
  (C119_supplied_calculator_refused (E := gridEnv) (a := cornerCall 1 [0, 1, 2]) (Xs := cornerX) .greenwell rfl (by decide) rfl).1

example : (PdpMethod.fit (G := Nat) .greenwell gridEnv { cornerCall 1 [0, 1, 2] with X := ⟨[5, 6, 7], (cornerCall 1 [0, 1, 2]).X.frame⟩ }
    (PdpMethod.new 0)).1 = .error .valueError :=
  (C123_supplied_calculator_refused (E := gridEnv) (a := cornerCall 1 [0, 1, 2]) .greenwell rfl rfl (by decide)).1

end Cases
end Artemis
