import Verif.Model.AdditivitySteps
import Verif.Props.Additivity

/-!
# C122: the results kept by an additivity meter
-/

set_option linter.unusedSectionVars false
set_option linter.unusedVariables false
set_option linter.unusedSimpArgs false

namespace Artemis
open Spec

section helpers
variable {F V K G L : Type} [DecidableEq F] [LinearOrder V] [Field K] [LinearOrder K] [DecidableEq L]
  {R : Rng G} {cp : F} {a : AddArgs L F V K} {X : Frame F V} {preds : List (Num K)}

/-- the numbers of `full_result`, nothing for columns not yet computed -/
def fullNumbers (d : Dict F (FullCol V K)) : Dict F (List (Num K)) := d.map fun e => (e.1, e.2.numbers)

theorem fullNumbers_set (d : Dict F (FullCol V K)) (k : F) (v : FullCol V K) :
    fullNumbers (d.set k v) = (fullNumbers d).set k v.numbers := by
  induction d with
  | nil => rfl
  | cons e d ih =>
    obtain ⟨b, c⟩ := e
    unfold fullNumbers at ih ⊢
    simp only [Dict.set, List.map_cons]
    split
    · rfl
    · simp only [List.map_cons, ih]

theorem fullNumbers_get? (d : Dict F (FullCol V K)) (k : F) : (fullNumbers d).get? k = (d.get? k).map FullCol.numbers := by
  induction d with
  | nil => rfl
  | cons e d ih =>
    obtain ⟨b, c⟩ := e
    unfold fullNumbers at ih ⊢
    simp only [Dict.get?, List.map_cons]
    split
    · rfl
    · exact ih

theorem fullNumbers_foldl (effs : List (F × List (Num K))) : ∀ d : Dict F (FullCol V K),
    fullNumbers (effs.foldl (fun d e => d.set e.1 (.computed e.2)) d) = effs.foldl (fun d e => d.set e.1 e.2) (fullNumbers d) := by
  induction effs with
  | nil => exact fun d => rfl
  | cons e effs ih =>
    intro d
    simp only [List.foldl_cons]
    rw [ih, fullNumbers_set]
    rfl

theorem addColumn_name {c : Calc F V (Num K)} {f : F} {eff : F × List (Num K)} (h : addColumn X preds c f = .ok eff) : eff.1 = f := by
  unfold addColumn at h
  simp only [bind, Except.bind] at h
  split at h
  · cases h
  · split at h
    · cases h
    · cases h; rfl

theorem columns_run : ∀ (fs : List F) (s : AddSteps G L F V K) (co : CalcObj L F V K) (d : Dict F (FullCol V K)),
    s.pdc = some co → s.fullResult = some d →
    ∃ full, PyM.forEach fs (AddSteps.column X preds) s =
        ((fs.mapM (addColumn X preds co.obj)).map (fun _ => ()), { s with fullResult := some full }) ∧
      (∀ effs, fs.mapM (addColumn X preds co.obj) = .ok effs → full = effs.foldl (fun d e => d.set e.1 (.computed e.2)) d) ∧
      ((∀ f ∈ fs, f ∈ d.keys) → full.keys = d.keys) := by
  intro fs
  induction fs with
  | nil =>
    intro s co d hp hf
    refine ⟨d, ?_, ?_, fun _ => rfl⟩
    · rw [← hf]; rfl
    · intro effs h; cases h; rfl
  | cons f fs ih =>
    intro s co d hp hf
    obtain ⟨s1, s2, s3, s4, s5, s6, s7, s8⟩ := s
    subst hp
    subst hf
    simp only [PyM.forEach, PyM.seq, AddSteps.column, List.mapM_cons, bind, Except.bind]
    cases e : addColumn X preds co.obj f with
    | error er =>
      simp only
      refine ⟨d, rfl, ?_, fun _ => rfl⟩
      intro effs h; cases h
    | ok eff =>
      simp only
      obtain ⟨full, h1, h2, h3⟩ := ih ⟨s1, s2, s3, s4, some co, some (d.set f (.computed eff.2)), s7, s8⟩ co (d.set f (.computed eff.2)) rfl rfl
      refine ⟨full, ?_, ?_, ?_⟩
      · refine h1.trans ?_
        cases fs.mapM (addColumn X preds co.obj) <;> rfl
      · intro effs h
        cases em : fs.mapM (addColumn X preds co.obj) with
        | error er => rw [em] at h; cases h
        | ok effs' =>
          rw [em] at h
          cases h
          rw [h2 effs' em, List.foldl_cons, addColumn_name e]
      · intro h
        have hk := Dict.keys_set_of_mem (h f List.mem_cons_self) (FullCol.computed (V := V) eff.2)
        rw [h3 (fun g hg => by rw [hk]; exact h g (List.mem_cons_of_mem _ hg)), hk]

/-- the stepwise computation does what `calcAdditivity` says -/
theorem calculate_run {pr : PF F V (Num K)} {s : AddSteps G L F V K} {co : CalcObj L F V K} {d : Dict F (FullCol V K)}
    (hp : s.pdc = some co) (hf : s.fullResult = some d) (hd : fullNumbers d = X.cols.map fun f => (f, [])) :
    ∃ full prd, AddSteps.calculate cp pr X s = ((calcAdditivity cp pr X co.obj).1.map AddOut.index,
        { s with pdc := some { co with obj := (calcAdditivity cp pr X co.obj).2 }, fullResult := some full, preds := prd }) ∧
      (∀ out, (calcAdditivity cp pr X co.obj).1 = .ok out → fullNumbers full = out.full ∧ prd = some out.preds ∧
        ∃ effs, full = (effs.foldl (fun d e => d.set e.1 (.computed e.2)) d).set cp (.computed (Num.center out.preds)) ∧
          ∃ c, X.cols.mapM (addColumn X out.preds c) = .ok effs) ∧
      (∀ e, (calcAdditivity cp pr X co.obj).1 = .error e → full.keys = d.keys ∧
        (full = d ∧ prd = s.preds ∨ ∃ k p, pr k X.rows = .ok p ∧ prd = some p)) := by
  have hk : ∀ f ∈ X.cols, f ∈ d.keys := by
    intro f hf'
    have : (fullNumbers d).keys = X.cols := by rw [hd]; simp [Dict.keys, Function.comp_def]
    have h2 : (fullNumbers d).keys = d.keys := by simp [fullNumbers, Dict.keys, Function.comp_def]
    rw [← h2, this]; exact hf'
  unfold AddSteps.calculate calcAdditivity PyM.seq
  simp only [hp]
  cases e1 : Calc.calculateSingle none co.obj with
  | mk r1 c =>
    cases r1 with
    | error e =>
      simp only
      refine ⟨d, s.preds, ?_, fun out h => by (cases h), fun e h => ⟨rfl, Or.inl ⟨rfl, rfl⟩⟩⟩
      rw [← hf]; rfl
    | ok u =>
      simp only
      cases e2 : pr c.calls.length X.rows with
      | error e =>
        simp only
        refine ⟨d, s.preds, ?_, fun out h => by (cases h), fun e h => ⟨rfl, Or.inl ⟨rfl, rfl⟩⟩⟩
        rw [← hf]; rfl
      | ok p =>
        simp only
        obtain ⟨full, h1, h2, h3⟩ := columns_run (X := X) (preds := p) X.cols
          { s with pdc := some { co with obj := c }, preds := some p } { co with obj := c } d rfl hf
        rw [h1]
        cases em : X.cols.mapM (addColumn X p c) with
        | error e =>
          simp only [Except.map]
          exact ⟨full, some p, rfl, fun out h => by (cases h), fun e h => ⟨h3 hk, Or.inr ⟨_, p, e2, rfl⟩⟩⟩
        | ok effs =>
          simp only [Except.map, AddSteps.last]
          have hfull := h2 effs em
          have hnum : fullNumbers full = effs.foldl (fun (d : Dict F (List (Num K))) e => d.set e.1 e.2) (X.cols.map fun f => (f, [])) := by
            rw [hfull, fullNumbers_foldl, hd]
          by_cases hl : p.length = X.len
          · simp only [if_pos hl]
            refine ⟨full.set cp (.computed (Num.center p)), some p, ?_, ?_, fun e h => by cases h⟩
            · have hset : fullNumbers (full.set cp (.computed (Num.center p))) =
                  (effs.foldl (fun (d : Dict F (List (Num K))) e => d.set e.1 e.2) (X.cols.map fun f => (f, []))).set cp (Num.center p) := by
                rw [fullNumbers_set, hnum]
                rfl
              have hdrop : (full.set cp (.computed (Num.center p))).dropLast.map (fun e => e.2.numbers) =
                  ((effs.foldl (fun (d : Dict F (List (Num K))) e => d.set e.1 e.2) (X.cols.map fun f => (f, []))).set cp (Num.center p)).dropLast.map Prod.snd := by
                rw [← hset]
                unfold fullNumbers
                rw [← List.map_dropLast, List.map_map]
                rfl
              unfold addFinish
              simp only [hdrop, ← fullNumbers_get?, hset]
            · intro out h
              cases h
              refine ⟨?_, rfl, effs, by rw [hfull]; rfl, c, em⟩
              rw [fullNumbers_set, hnum]
              rfl
          · simp only [if_neg hl]
            exact ⟨full, some p, rfl, fun out h => by (cases h), fun e h => ⟨h3 hk, Or.inr ⟨_, p, e2, rfl⟩⟩⟩

/-- the two objects agree in what `Model/Additivity` records -/
structure SameMeter (s : AddSteps G L F V K) (m : AddMeter G L F V K) : Prop where
  rng : s.rng = m.rng
  model : s.model = m.model
  predictFn : s.predictFn = m.predictFn
  xSampled : s.xSampled = m.xSampled
  pdc : s.pdc = m.pdc
  index : s.index = m.index

theorem fullNumbers_copied : fullNumbers (K := K) (X.cols.map fun f => (f, FullCol.copied (X.col f))) = X.cols.map fun f => (f, []) := by
  simp [fullNumbers, FullCol.numbers, Function.comp_def]

/-- the stepwise `fit` refines `AddMeter.fit` -/
theorem steps_refine {s0 : AddSteps G L F V K} {m0 : AddMeter G L F V K} (h : SameMeter s0 m0) :
    (AddSteps.fit R cp a s0).1 = (AddMeter.fit R cp a m0).1 ∧ SameMeter (AddSteps.fit R cp a s0).2 (AddMeter.fit R cp a m0).2 ∧
      ∀ v, (AddMeter.fit R cp a m0).1 = .ok v → (AddSteps.fit R cp a s0).2.fullResult.map fullNumbers = (AddMeter.fit R cp a m0).2.fullResult ∧
        (AddSteps.fit R cp a s0).2.preds = (AddMeter.fit R cp a m0).2.preds := by
  unfold AddSteps.fit AddMeter.fit
  simp only [h.rng]
  cases eX : sampleIfNotNone R a.X a.n m0.rng with
  | mk r g =>
    cases r with
    | error e => exact ⟨rfl, ⟨rfl, rfl, rfl, h.xSampled, h.pdc, h.index⟩, fun v hv => by cases hv⟩
    | ok Xs =>
      simp only
      cases ec : PdpMethod.chooseCalc a.toPd Xs (callable (getPredictFunction a.model a.predictFunction)) with
      | error e => exact ⟨rfl, ⟨rfl, rfl, rfl, rfl, h.pdc, h.index⟩, fun v hv => by cases hv⟩
      | ok co =>
        simp only
        obtain ⟨full, prd, h1, h2, h3⟩ := calculate_run (cp := cp) (X := Xs.frame)
          (pr := callable (getPredictFunction a.model a.predictFunction))
          (s := { s0 with
            predictFn := getPredictFunction a.model a.predictFunction
            model := some a.model
            rng := g
            xSampled := some Xs
            pdc := some co
            fullResult := some (Xs.frame.cols.map fun f => (f, .copied (Xs.frame.col f))) }) (co := co) rfl rfl fullNumbers_copied
        rw [h1]
        cases ea : calcAdditivity cp (callable (getPredictFunction a.model a.predictFunction)) Xs.frame co.obj with
        | mk r c =>
          cases r with
          | error e => exact ⟨rfl, ⟨rfl, rfl, rfl, rfl, rfl, h.index⟩, fun v hv => by cases hv⟩
          | ok out =>
            rw [ea] at h2
            obtain ⟨h4, h5, _⟩ := h2 out rfl
            refine ⟨rfl, ⟨rfl, rfl, rfl, rfl, rfl, rfl⟩, fun v hv => ⟨?_, ?_⟩⟩
            · simp only [Except.map, Option.map_some, h4]
            · simp only [Except.map, h5]

theorem computed_of_numbers : ∀ (full : Dict F (FullCol V K)) (D : Dict F (List (Num K))), (∀ e ∈ D, e.2 ≠ []) → fullNumbers full = D →
    full = D.map fun e => (e.1, .computed e.2) := by
  intro full
  induction full with
  | nil => intro D _ h; subst h; rfl
  | cons e full ih =>
    intro D hD h
    subst h
    obtain ⟨f, c⟩ := e
    have h1 := ih (fullNumbers full) (fun e he => hD e (List.mem_cons_of_mem _ he)) rfl
    have h2 : c.numbers ≠ [] := hD (f, c.numbers) List.mem_cons_self
    cases c with
    | copied vs => exact absurd rfl h2
    | computed xs =>
      show _ = (f, FullCol.computed xs) :: (fullNumbers full).map _
      rw [← h1]

theorem addFinish_full [IsStrictOrderedRing K] {g : Row F V → Num K} (nd : X.cols.Nodup) (hcp : cp ∉ X.cols) :
    (addFinish cp X (X.rows.map g) (X.cols.map (fun f => (f, X.rows.map (addCol g X f))))).full =
      X.cols.map (fun f => (f, X.rows.map (addCol g X f))) ++ [(cp, Num.center (X.rows.map g))] := by
  have h1 := foldl_set_keys X.cols nd (fun f => X.rows.map (addCol g X f)) (fun _ => []) [] (by simp [Dict.keys])
  simp only [List.nil_append] at h1
  have hk : cp ∉ Dict.keys (X.cols.map (fun f => (f, X.rows.map (addCol g X f)))) := by
    simpa [Dict.keys, List.map_map, Function.comp_def] using hcp
  unfold addFinish
  simp only [h1]
  rw [Dict.set_not_mem _ _ _ hk]

theorem addFit_out [IsStrictOrderedRing K] [HasSqrt K] {g : Row F V → Num K} {E : PdEnv G F K} {s0 : AddMeter G L F V K} {Xs : LFrame L F V} {v : Num K}
    (hs : AddSetup g E a s0 Xs) (h : (AddMeter.fit E.R cp a s0).1 = .ok v) :
    let out := addFinish cp Xs.frame (Xs.frame.rows.map g) (Xs.frame.cols.map (fun f => (f, Xs.frame.rows.map (addCol g Xs.frame f))))
    (AddMeter.fit E.R cp a s0).2.fullResult = some out.full ∧ (AddMeter.fit E.R cp a s0).2.preds = some out.preds ∧
      (AddMeter.fit E.R cp a s0).2.index = some v ∧ (AddMeter.fit E.R cp a s0).2.xSampled = some Xs := by
  have hXs := hs.sampled
  simp only [AddArgs.toPd, PdpMethod.new] at hXs
  unfold AddMeter.fit at h ⊢
  cases eX : sampleIfNotNone E.R a.X a.n s0.rng with
  | mk rX rng =>
    rw [eX] at hXs
    simp only at hXs
    subst hXs
    have hcc : callable (getPredictFunction a.model a.predictFunction) = a.toPd.pf := rfl
    simp only [eX, hcc] at h ⊢
    cases ec : PdpMethod.chooseCalc a.toPd Xs a.toPd.pf with
    | error e => rw [ec] at h; cases h
    | ok co =>
      have ch := chosen_of_ok hs ec
      simp only [ec] at h ⊢
      cases eo : calcAdditivity cp a.toPd.pf Xs.frame co.obj with
      | mk r c' =>
        rw [eo] at h
        cases r with
        | error e => cases h
        | ok out =>
          have := calcAdditivity_ok ch.good ch.same hs.reads hs.cols_nodup hs.rowWise eo
          subst this
          cases h
          exact ⟨rfl, rfl, rfl, rfl⟩

end helpers

variable {F V K G L : Type} [DecidableEq F] [LinearOrder V] [Field K] [LinearOrder K] [IsStrictOrderedRing K] [HasSqrt K] [DecidableEq L]
variable {E : PdEnv G F K} {cp : F} {a : AddArgs L F V K} {s0 s : AddSteps G L F V K} {Xs : LFrame L F V}

/-- **C122, a `fit` that returns.** `full_result` has the columns of the data and one more; the column of a feature holds, row by row, the
partial dependence at the value in that row minus the average prediction, the last column the prediction minus the average prediction.
`preds` holds the predictions, and the index returned is the one that stays on the object. Nothing of an earlier fit is left. -/
theorem C122_results_belong_together_partial {u : Row F V → K} (hs : FitSetup (finM u) E a.toPd (PdpMethod.new s0.rng) Xs)
    (hne : Xs.frame.rows ≠ []) (hcp : cp ∉ Xs.frame.cols) {v : Num K} (h : AddSteps.fit E.R cp a s0 = (.ok v, s)) :
    let avg := average (Xs.frame.rows.map u)
    s.fullResult = some (Xs.frame.cols.map (fun f => (f, .computed (Xs.frame.rows.map fun r => .fin (pd1 u Xs.frame f (r f) - avg)))) ++
        [(cp, .computed (Xs.frame.rows.map fun r => .fin (u r - avg)))]) ∧
      s.preds = some (Xs.frame.rows.map fun r => .fin (u r)) ∧ s.index = some v ∧ s.xSampled = some Xs := by
  intro avg
  let m0 : AddMeter G L F V K := ⟨s0.rng, s0.model, s0.predictFn, s0.xSampled, s0.pdc, none, none, s0.index⟩
  obtain ⟨h1, h2, h3⟩ := steps_refine (R := E.R) (cp := cp) (a := a) (s0 := s0) (m0 := m0) ⟨rfl, rfl, rfl, rfl, rfl, rfl⟩
  rw [h] at h1 h2 h3
  have hok : (AddMeter.fit E.R cp a m0).1 = .ok v := h1.symm
  obtain ⟨h4, h5⟩ := h3 v hok
  obtain ⟨k1, k2, k3, k4⟩ := addFit_out (s0 := m0) hs hok
  have hm : Num.mean (Xs.frame.rows.map (finM u)) = .fin avg := Num.mean_fin Xs.frame.rows u hne
  have hc : ∀ f r, addCol (finM u) Xs.frame f r = .fin (pd1 u Xs.frame f (r f) - avg) := by
    intro f r
    simp only [addCol, hm, pdSingle_fin u hne, Num.sub_fin]
  have hc' : ∀ f, addCol (finM u) Xs.frame f = fun r => .fin (pd1 u Xs.frame f (r f) - avg) := fun f => funext (hc f)
  refine ⟨?_, ?_, ?_, ?_⟩
  · rw [k1, addFinish_full hs.cols_nodup hcp] at h4
    cases ef : s.fullResult with
    | none => rw [ef] at h4; cases h4
    | some full =>
      rw [ef] at h4
      simp only [Option.map_some, Option.some.injEq] at h4
      have := computed_of_numbers full _ (by
        intro e he
        simp only [List.mem_append, List.mem_map, List.mem_singleton] at he
        rcases he with ⟨f, _, rfl⟩ | rfl
        · simpa using hne
        · simpa [Num.center] using hne) h4
      rw [this]
      simp only [List.map_append, List.map_map, Function.comp_def, hc', List.map_cons, List.map_nil]
      have hcen : Num.center (Xs.frame.rows.map (finM u)) = Xs.frame.rows.map fun r => .fin (u r - avg) := by
        unfold Num.center
        simp only [hm, List.map_map, Function.comp_def, finM, Num.sub_fin]
      rw [hcen]
  · rw [h5, k2]; rfl
  · rw [h2.index]; exact k3
  · rw [h2.xSampled]; exact k4

/-- **C122, a `fit` that raises.** The index is never touched. If drawing the sample or choosing the calculator raised, neither are the
other results. Otherwise `full_result` has been replaced by a table with the columns of the *new* data, and `preds` are either the old ones
or what the model said for the new data. -/
theorem C122_failed_fit {R : Rng G} {e : Err} (h : AddSteps.fit R cp a s0 = (.error e, s)) :
    s.index = s0.index ∧
      ((∃ Xs co, (sampleIfNotNone R a.X a.n s0.rng).1 = .ok Xs ∧ PdpMethod.chooseCalc a.toPd Xs a.toPd.pf = .ok co ∧ s.xSampled = some Xs ∧
          (∃ full, s.fullResult = some full ∧ full.keys = Xs.frame.cols) ∧
          (s.preds = s0.preds ∨ ∃ k p, a.toPd.pf k Xs.frame.rows = .ok p ∧ s.preds = some p)) ∨
        (s.fullResult = s0.fullResult ∧ s.preds = s0.preds ∧ s.pdc = s0.pdc ∧
          ∀ Xs, (sampleIfNotNone R a.X a.n s0.rng).1 = .ok Xs → PdpMethod.chooseCalc a.toPd Xs a.toPd.pf = .error e)) := by
  unfold AddSteps.fit at h
  simp only at h
  cases eX : sampleIfNotNone R a.X a.n s0.rng with
  | mk r g =>
    rw [eX] at h
    cases r with
    | error e' =>
      cases h
      exact ⟨rfl, Or.inr ⟨rfl, rfl, rfl, fun Xs hX => by cases hX⟩⟩
    | ok Xs =>
      simp only at h
      have hcc : callable (getPredictFunction a.model a.predictFunction) = a.toPd.pf := rfl
      simp only [hcc] at h
      cases ec : PdpMethod.chooseCalc a.toPd Xs a.toPd.pf with
      | error e' =>
        rw [ec] at h
        cases h
        refine ⟨rfl, Or.inr ⟨rfl, rfl, rfl, fun Xs' hX => ?_⟩⟩
        cases hX
        exact ec
      | ok co =>
        rw [ec] at h
        simp only at h
        obtain ⟨full, prd, h1, h2, h3⟩ := calculate_run (cp := cp) (X := Xs.frame) (pr := a.toPd.pf)
          (s := { s0 with
            predictFn := getPredictFunction a.model a.predictFunction
            model := some a.model
            rng := g
            xSampled := some Xs
            pdc := some co
            fullResult := some (Xs.frame.cols.map fun f => (f, .copied (Xs.frame.col f))) }) (co := co) rfl rfl fullNumbers_copied
        rw [h1] at h
        cases ea : (calcAdditivity cp a.toPd.pf Xs.frame co.obj).1 with
        | ok out => rw [ea] at h; cases h
        | error e' =>
          rw [ea] at h
          obtain ⟨h4, h5⟩ := h3 e' ea
          cases h
          refine ⟨rfl, Or.inl ⟨Xs, co, rfl, ec, rfl, ⟨full, rfl, ?_⟩, ?_⟩⟩
          · rw [h4]; simp [Dict.keys, Function.comp_def]
          · rcases h5 with ⟨_, h5⟩ | ⟨k, p, hp, h5⟩
            · exact Or.inl h5
            · exact Or.inr ⟨k, p, hp, h5⟩

/-- **C122**, before any fit: a new object has no results at all. -/
theorem C122_new_object_is_empty {rng : G} (h : s = AddSteps.new rng) :
    s.rng = rng ∧ s.model.isNone ∧ s.predictFn.isNone ∧ s.xSampled.isNone ∧ s.pdc.isNone ∧ s.fullResult.isNone ∧ s.preds.isNone ∧
      s.index.isNone := by
  subst h
  simp [AddSteps.new]

/-- **C122**, what holds if `fit` raises: on a new object no index appears, and if drawing the sample or choosing the calculator raised the
object has no results at all. Missing: objects fitted before (`C122_fails`). -/
theorem C122_first_fit_partial {R : Rng G} {rng : G} {e : Err} (h : AddSteps.fit R cp a (AddSteps.new rng) = (.error e, s)) :
    s.index = none ∧ (s.preds = none ∨ ∃ Xs k p, s.xSampled = some Xs ∧ a.toPd.pf k Xs.frame.rows = .ok p ∧ s.preds = some p) ∧
      (s.fullResult = none ∨ ∃ Xs full, s.xSampled = some Xs ∧ s.fullResult = some full ∧ full.keys = Xs.frame.cols) ∧
      ((∀ Xs, (sampleIfNotNone R a.X a.n rng).1 = .ok Xs → PdpMethod.chooseCalc a.toPd Xs a.toPd.pf = .error e) →
        s.fullResult = none ∧ s.preds = none ∧ s.pdc = none) := by
  obtain ⟨h1, h2 | ⟨h2, h3, h4, h5⟩⟩ := C122_failed_fit h
  · obtain ⟨Xs, co, hX, hc, hx, ⟨full, hf, hk⟩, hp⟩ := h2
    refine ⟨h1, ?_, Or.inr ⟨Xs, full, hx, hf, hk⟩, fun hno => ?_⟩
    · rcases hp with hp | ⟨k, p, hp, e⟩
      · exact Or.inl hp
      · exact Or.inr ⟨Xs, k, p, hx, hp, e⟩
    · have := hno Xs hX
      rw [hc] at this
      cases this
  · exact ⟨h1, Or.inl h3, Or.inl h2, fun _ => ⟨h2, h3, h4⟩⟩

section Cases
open Ex

/-- the arguments of the first fit: an additive model -/
def exStepsOk : AddArgs Nat (Fin 4) ℤ ℚ := exAdd exSame (fun r => (r 0 : ℚ) ^ 2 + 3 * r 1) [0, 1, 2]

/-- the arguments of the second fit: other data, and a model that raises -/
def exStepsBad : AddArgs Nat (Fin 4) ℤ ℚ :=
  { exAdd [fun _ => 7, fun _ => 8, fun _ => 9] (fun r => (r 0 : ℚ)) [0, 1] with
    model := ⟨2, some (fun _ _ => .error .valueError), none⟩ }

/-- a third one: on a calculator whose table is filled, with a model answering with too few numbers -/
def exStepsShort : AddArgs Nat (Fin 4) ℤ ℚ :=
  { exAdd [fun _ => 7, fun _ => 8] (fun r => (r 0 : ℚ)) [0, 1] with
    model := ⟨2, some (fun _ rs => .ok (rs.map (fun r => .fin (r 0 : ℚ)) |>.drop 1)), none⟩ }

deriving instance DecidableEq for FullCol

/-- the object after the first fit -/
def exSteps1 : AddSteps Nat Nat (Fin 4) ℤ ℚ := (AddSteps.fit exRng 3 exStepsOk (AddSteps.new 0)).2

/-- a new object and a model that raises: a copy of the data is left in `full_result`, no index -/
example : (AddSteps.fit exRng 3 exStepsBad (AddSteps.new (G := Nat) (L := Nat) 0)).1 = .error .valueError ∧
    (AddSteps.fit exRng 3 exStepsBad (AddSteps.new (G := Nat) (L := Nat) 0)).2.index = none := by
  refine ⟨?_, ?_⟩ <;> decide +kernel

/-- the first fit, in numbers -/
example : (AddSteps.fit exRng 3 exStepsOk (AddSteps.new (G := Nat) (L := Nat) 0)).1 = .ok (.fin 1) ∧
    exSteps1.fullResult.map fullNumbers = some [(0, [.fin (-1/2), .fin (1/2)]), (1, [.fin (-3/2), .fin (3/2)]), (2, [.fin 0, .fin 0]),
      (3, [.fin (-2), .fin 2])] ∧
    exSteps1.preds = some [.fin 0, .fin 4] := by
  refine ⟨?_, ?_, ?_⟩ <;> decide +kernel

/-- **C122 is false for a `fit` that raises**: the index and the predictions are those of the first data, the table beside them is a copy of
the second data. -/
theorem C122_fails :
    (AddSteps.fit exRng 3 exStepsBad exSteps1).1 = .error .valueError ∧
      (AddSteps.fit exRng 3 exStepsBad exSteps1).2.index = some (.fin 1) ∧
      (AddSteps.fit exRng 3 exStepsBad exSteps1).2.preds = some [.fin 0, .fin 4] ∧
      (AddSteps.fit exRng 3 exStepsBad exSteps1).2.fullResult = some [(0, .copied [7, 8, 9]), (1, .copied [7, 8, 9])] := by
  refine ⟨?_, ?_, ?_, ?_⟩ <;> decide +kernel

/-- the branch in which the predictions are the new ones -/
example : (AddSteps.fit exRng 3 exStepsShort exSteps1).1 = .error .valueError ∧
      (AddSteps.fit exRng 3 exStepsShort exSteps1).2.index = some (.fin 1) ∧
      (AddSteps.fit exRng 3 exStepsShort exSteps1).2.preds = some [.fin 8] := by
  refine ⟨?_, ?_, ?_⟩ <;> decide +kernel

/-- the hypotheses of `C122_results_belong_together_partial` hold in a concrete case -/
example (E : PdEnv Nat (Fin 4) ℝ) : FitSetup (finM exAddU) E (exAdd exSame exAddU [0, 1, 2]).toPd (PdpMethod.new (AddSteps.new (L := Nat) (F := Fin 4) (V := ℤ) (K := ℝ) 0).rng)
    ⟨[0, 1], ⟨[0, 1, 2], exSame⟩⟩ :=
  exAddSetup E exAddU (by intro r r' h; simp only [finM, exAddU, h 0 (by decide), h 1 (by decide)])

end Cases
end Artemis
