import Verif.Props.Undefined

/-!
# C128: prediction functions that return a wrong number of predictions

The metrics repeat a single prediction for all targets (NumPy broadcasting), so that a model returning one prediction whatever it is
asked goes unnoticed: `C128_single_prediction`, `C128_sejong_fails`.
-/

set_option linter.unusedSectionVars false
set_option linter.unusedVariables false
set_option linter.unusedSimpArgs false

namespace Artemis
open Spec

section
variable {G L F V K : Type} [LinearOrder F] [DecidableEq L] [LinearOrder V] [Field K] [LinearOrder K] [HasSqrt K]

/-- **C128, partial**: the additivity meter. If the function returns, for the data, a number of predictions other than the number of rows,
`fit` raises and no index is stored. -/
theorem C128_additivity_raises_partial {R : Rng G} {cp : F} {a : AddArgs L F V K} {s0 : AddMeter G L F V K} {Xs : LFrame L F V} {g : G}
    (hX : sampleIfNotNone R a.X a.n s0.rng = (.ok Xs, g)) (hne : Xs.frame.rows ≠ [])
    (hp : ∀ k preds, callable (getPredictFunction a.model a.predictFunction) k Xs.frame.rows = .ok preds →
      preds.length ≠ Xs.frame.len) :
    ∃ e, (AddMeter.fit R cp a s0).1 = .error e ∧ (AddMeter.fit R cp a s0).2.index = s0.index := by
  unfold AddMeter.fit
  simp only [hX]
  cases hc : PdpMethod.chooseCalc a.toPd Xs (callable (getPredictFunction a.model a.predictFunction)) with
  | error e => exact ⟨e, rfl, rfl⟩
  | ok co =>
    simp only
    have key : ∃ e c', calcAdditivity cp (callable (getPredictFunction a.model a.predictFunction)) Xs.frame co.obj = (.error e, c') := by
      unfold calcAdditivity PyM.seq
      cases h1 : Calc.calculateSingle none co.obj with
      | mk r c1 =>
        cases r with
        | error e => exact ⟨e, c1, rfl⟩
        | ok _ =>
          simp only
          cases h2 : callable (getPredictFunction a.model a.predictFunction) c1.calls.length Xs.frame.rows with
          | error e => exact ⟨e, c1, rfl⟩
          | ok preds =>
            simp only
            cases h3 : Xs.frame.cols.mapM (addColumn Xs.frame preds c1) with
            | error e => exact ⟨e, c1, rfl⟩
            | ok effs =>
              simp only
              rw [if_neg (hp _ _ h2)]
              exact ⟨_, _, rfl⟩
    obtain ⟨e, c', hk⟩ := key
    rw [hk]
    exact ⟨e, rfl, rfl⟩

/-- If moreover the partial dependence could be computed, the exception is a ValueError. -/
theorem C128_additivity_value_error {cp : F} {p : PF F V (Num K)} {X : Frame F V} {c c1 : Calc F V (Num K)} {preds : List (Num K)}
    {effs : List (F × List (Num K))} (h1 : Calc.calculateSingle none c = (.ok (), c1)) (h2 : p c1.calls.length X.rows = .ok preds)
    (h3 : X.cols.mapM (addColumn X preds c1) = .ok effs) (hp : preds.length ≠ X.len) :
    calcAdditivity cp p X c = (.error .valueError, c1) := by
  unfold calcAdditivity PyM.seq
  rw [h1]
  simp only [h2, h3]
  rw [if_neg hp]

theorem metric_length {M : Metric K} (hM : M = mseM ∨ M = rmseM ∨ M = accuracyM) {y yHat : List (Num K)} (h : yHat.length ≠ y.length)
    (h1 : yHat.length ≠ 1) (h1' : y.length ≠ 1) : M.calculate y yHat = .error .valueError := by
  have hz : ∀ f : Num K → Num K → Num K, elementwise f y yHat = .error .valueError := fun f => by
    unfold elementwise
    rw [if_neg (fun e => h e.symm)]
    match yHat, y, h1, h1' with
    | [], [], _, _ => rfl
    | [], _ :: _ :: _, _, _ => rfl
    | _ :: _ :: _, [], _, _ => rfl
    | _ :: _ :: _, _ :: _ :: _, _, _ => rfl
  rcases hM with rfl | rfl | rfl
  · simp only [mseM, hz]; rfl
  · simp only [rmseM, mseM, hz]; rfl
  · simp only [accuracyM, hz]; rfl

theorem scoreOn_length {M : Metric K} (hM : M = mseM ∨ M = rmseM ∨ M = accuracyM) {model : ModelObj F V (Num K)} {X : Frame F V}
    {y yHat : List (Num K)} {w : Scored G F V} {p : PF F V (Num K)} (hp : model.predict = some p)
    (hy : p w.calls.length X.rows = .ok yHat) (h : yHat.length ≠ y.length) (h1 : yHat.length ≠ 1) (h1' : y.length ≠ 1) :
    scoreOn model M y X w = (.error .valueError, { w with calls := w.calls ++ [X.rows] }) := by
  unfold scoreOn PyM.seq predictOn PyM.lift
  rw [hp]
  simp only [hy, metric_length hM h h1 h1']

/-- **C128, partial**: Sejong Oh's method with one of the metrics of the library. If the model returns, for the data, a number of predictions
other than the number of targets, `fit` raises ValueError, and the table of an earlier fit is still there. -/
theorem C128_sejong_raises_partial {E : PerfEnv G L F K} {a : SejongArgs L F V K} {s0 : Sejong G L F V K} {ent : G} {Xs : LFrame L F V}
    {ys : Target L K} {rng : G} (hsam : sampleBoth E.R E.toInt a.X a.y a.n s0.rng = (.ok (Xs, ys), rng))
    (hM : s0.metric = mseM ∨ s0.metric = rmseM ∨ s0.metric = accuracyM) {p : PF F V (Num K)} (hp : a.model.predict = some p)
    {yHat : List (Num K)} (hy : p s0.calls.length Xs.frame.rows = .ok yHat) (hl : yHat.length ≠ ys.values.length)
    (h1 : yHat.length ≠ 1) (h1' : ys.values.length ≠ 1) :
    (Sejong.fit E a ent s0).1 = .error .valueError ∧ (Sejong.fit E a ent s0).2.ovo = s0.ovo ∧
      (Sejong.fit E a ent s0).2.importance = s0.importance := by
  have hsc := scoreOn_length (G := G) (w := ⟨rng, s0.calls⟩) hM hp hy hl h1 h1'
  unfold Sejong.fit
  rw [hsam]
  simp only [perfOvo, PyM.seq, hsc]
  exact ⟨trivial, trivial, trivial⟩

/-- **C128, partial**: permutation importance, in the same way. -/
theorem C128_permutation_raises_partial {sort : List (FeatRow F K) → List (FeatRow F K)} {R : Rng G} {model : ModelObj F V (Num K)}
    {X : LFrame L F V} {y : Target L K} {n : Nat} {fs : Option (List F)} {o : PermObj G F K} {calls : List (List (Row F V))}
    (hM : o.metric = mseM ∨ o.metric = rmseM ∨ o.metric = accuracyM) {p : PF F V (Num K)} (hp : model.predict = some p)
    {yHat : List (Num K)} (hy : p calls.length X.frame.rows = .ok yHat) (hl : yHat.length ≠ y.values.length) (h1 : yHat.length ≠ 1)
    (h1' : y.values.length ≠ 1) :
    (PermObj.run sort R model X y n fs o calls).1 = .error .valueError ∧
      (PermObj.run sort R model X y n fs o calls).2.1.importance = o.importance := by
  have hsc := scoreOn_length (G := G) (w := ⟨o.rng, calls⟩) hM hp hy hl h1 h1'
  unfold PermObj.run
  simp only [permImportance, PyM.seq, hsc]
  exact ⟨trivial, trivial⟩

/-- A model that returns one prediction however many rows it is given is not noticed by the Sejong Oh method: NumPy repeats the prediction,
`fit` returns and reports 0 for every pair. -/
theorem C128_single_prediction [IsStrictOrderedRing K] {E : PerfEnv G L F K} {a : SejongArgs L F V K} {s0 : Sejong G L F V K}
    {Xs : LFrame L F V} {ys : Target L K} {g : G} {ts : List K} (hR : E.R.Lawful)
    (hsort : SortsBy (fun r : OvoRow F K => r.val.abs) false E.sortOvo)
    (hsam : sampleBoth E.R E.toInt a.X a.y a.n s0.rng = (.ok (Xs, ys), g)) (hM : s0.metric = mseM ∨ s0.metric = accuracyM)
    (hy : ys.values = ts.map Num.fin) (hts : ts ≠ []) {p : PF F V (Num K)} (hp : a.model.predict = some p) {c : K}
    (hc : ∀ k rows, p k rows = .ok [.fin c]) (hf : ∀ f ∈ a.feats, f ∈ a.X.frame.cols) (hnd : a.feats.Nodup) (hne : a.feats ≠ [])
    (hr : 0 < a.nRepeat) (ent : G) :
    ∃ s t, Sejong.fit E a ent s0 = (.ok (), s) ∧ s.ovo = some t ∧ ∀ row ∈ t, row.val = .fin 0 := by
  have hsc : ∃ z : K, s0.metric.calculate ys.values [.fin c] = .ok (.fin z) := by
    have key : ∀ (f : Num K → Num K → Num K) (f' : K → K), (∀ t, f (.fin t) (.fin c) = .fin (f' t)) →
        elementwise f (ts.map Num.fin) [.fin c] = .ok ((ts.map f').map Num.fin) := by
      intro f f' hf
      unfold elementwise
      split
      · next h =>
        match ts, h with
        | [t], _ => simp [hf]
      · simp [hf, Function.comp_def]
    have hne' : ∀ f' : K → K, ts.map f' ≠ [] := fun f' h => hts (List.map_eq_nil_iff.1 h)
    rw [hy]
    rcases hM with h | h
    · rw [h]
      simp only [mseM]
      rw [key _ (fun t => (c - t) * (c - t)) (fun t => by simp [Num.sq, Num.sub, Num.add, Num.neg, Num.mul, sub_eq_add_neg])]
      exact ⟨_, congrArg Except.ok (mean_fin_list _ (hne' _))⟩
    · rw [h]
      simp only [accuracyM]
      rw [key _ (fun t => if t = c then 1 else 0) (fun t => by
        have : Num.eqv (Num.fin t) (Num.fin c) = decide (t = c) := by
          rw [Bool.eq_iff_iff]
          simp [Num.eqv, Num.le, le_antisymm_iff]
        rw [this]
        by_cases e : t = c <;> simp [e])]
      exact ⟨_, congrArg Except.ok (mean_fin_list _ (hne' _))⟩
  obtain ⟨z, hz⟩ := hsc
  have hs : PerfSetup E a s0 Xs ys g (fun _ => z) :=
    ⟨hR, hsam, ⟨p, hp, fun k rows _ => ⟨_, hc k rows, hz⟩⟩, hf, hnd, hne, hr⟩
  have hig : ∀ f, ModelIgnores a.model f := by
    intro f q hq k k' rows rows' _
    rw [hp] at hq
    cases hq
    rw [hc, hc]
  obtain ⟨s, t, h1, h2, h3⟩ := C26_both_ignored_partial hs hsort ent
  exact ⟨s, t, h1, h2, fun row hrow => h3 row hrow (hig _) (hig _)⟩

end

section Cases
open Ex

/-- a model that returns the prediction of the last row only -/
def exLast : ModelObj (Fin 3) ℤ (Num ℚ) :=
  ⟨4, some (fun _ rows => .ok ((rows.drop (rows.length - 1)).map (fun r => .fin ((r 0 * r 1 : ℤ) : ℚ)))), none⟩

/-- **C128 is false for the Sejong Oh method** when a single prediction is returned: the prediction of the last row is compared with all
targets, and a number is reported for the pair. -/
theorem C128_sejong_fails :
    (Sejong.fit (K := ℚ) exPerfEnv { exSArgs with model := exLast, features := some [0, 1], nRepeat := 1 } 5
      (Sejong.new 1 mseM)).1 = .ok () ∧
    (Sejong.fit (K := ℚ) exPerfEnv { exSArgs with model := exLast, features := some [0, 1], nRepeat := 1 } 5
      (Sejong.new 1 mseM)).2.ovo.map (fun t => t.map (fun r => (r.f1, r.f2, r.val))) =
    some [((0 : Fin 3), (1 : Fin 3), .fin (176 / 3))] := by
  refine ⟨?_, ?_⟩ <;> decide +kernel

/-- the hypotheses of `C128_single_prediction` are met by the model that answers 3 -/
example : ∃ s t, Sejong.fit (K := ℚ) exPerfEnv { exSArgs with model := ⟨4, some (fun _ _ => .ok [.fin 3]), none⟩ } 5 (Sejong.new 1 mseM) =
    (.ok (), s) ∧ s.ovo = some t ∧ ∀ row ∈ t, row.val = .fin 0 :=
  C128_single_prediction (ts := [2, 0, 12]) (c := 3) exRng2_lawful (sortsBy_stableSort _ _) rfl (Or.inl rfl) rfl (by simp) rfl
    (fun _ _ => rfl) (fun f h => h) (by show [(0 : Fin 3), 1, 2].Nodup; decide) (by show [(0 : Fin 3), 1, 2] ≠ []; simp)
    (by simp [exSArgs]) 5

/-- the additive function `x0 + x2` -/
def exSum (r : Row (Fin 3) ℤ) : Num ℚ := .fin ((r 0 + r 2 : ℤ) : ℚ)

/-- a model with that prediction, but with no prediction for the first row it is given -/
def exShort : ModelObj (Fin 3) ℤ (Num ℚ) := ⟨4, some (fun _ rows => .ok ((rows.drop 1).map exSum)), none⟩

def exShortFit (m : ModelObj (Fin 3) ℤ (Num ℚ)) (k : PdKind) := PdpMethod.fit (G := Nat) (L := Nat) (K := ℚ) k exEnv
  { exArgs with model := m, features := some [0, 1], calculateOva := false } (PdpMethod.new 0)

/-- **C128 is false for the partial dependence based methods**: the model is additive, but a function that leaves out the prediction of the
first row shifts all others, and the H-statistic of two features of which one is not even used becomes 189/208. No exception is raised, nor
with Greenwell's method. With all predictions the value is 0. -/
theorem C128_fails : (exShortFit exShort (.friedman true)).1 = .ok () ∧
    (exShortFit exShort (.friedman true)).2.ovo.map (·.map (·.val)) = some [.fin (189 / 208)] ∧
    (exShortFit exShort .greenwell).1 = .ok () ∧
    (exShortFit { exShort with predict := some (fun _ rows => .ok (rows.map exSum)) } (.friedman true)).2.ovo.map (·.map (·.val)) =
      some [.fin 0] := by
  refine ⟨?_, ?_, ?_, ?_⟩ <;> decide +kernel

/-- the hypotheses of the partial theorems are met by this model: an error from the additivity meter -/
example : ∃ e, (AddMeter.fit (K := ℚ) (L := Nat) exRng (2 : Fin 3) ⟨exShort, exLX, none, none, 7, none⟩ (AddMeter.new 0)).1 = .error e := by
  obtain ⟨e, h, _⟩ := C128_additivity_raises_partial (R := exRng) (cp := (2 : Fin 3)) (a := ⟨exShort, exLX, none, none, 7, none⟩)
    (s0 := AddMeter.new 0) (Xs := exLX) (g := 0) rfl (by simp [exLX, exX]) (by
      intro k preds h
      cases h
      decide)
  exact ⟨e, h⟩

/-- and from permutation importance -/
example : ((PermObj.run (K := ℚ) (L := Nat) id exRng exShort exLX (.array [.fin 1, .fin 2, .fin 3, .fin 4]) 1 none
    ⟨0, mseM, none⟩ []).1 = .error .valueError) :=
  (C128_permutation_raises_partial (Or.inl rfl) rfl rfl (by decide) (by decide) (by decide)).1

end Cases
end Artemis
