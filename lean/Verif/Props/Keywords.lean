import Verif.Proofs.KeywordLemmas
import Verif.Proofs.FitSpec
import Verif.Examples.FitData

/-!
# C124: column names
-/

set_option linter.unusedSectionVars false
set_option linter.unusedVariables false
set_option linter.unusedSimpArgs false

namespace Artemis
open Spec

namespace Spec

/-- all columns have names that Python accepts for keyword arguments -/
def Accepted {F V : Type} (kw : F → Bool) (X : Frame F V) : Prop := ∀ f ∈ X.cols, kw f = true

end Spec

section pd
variable {F V K G L : Type} [DecidableEq F] [LinearOrder V] [Field K] [LinearOrder K] [HasSqrt K] [DecidableEq L]
  {kw : F → Bool} {E : PdEnv G F K} {a : PdArgs L F V K} {s0 : PdpMethod G L F V K} {Xs : LFrame L F V}

/-- the calculator passed to `fit`, if any, went through public calls only -/
def UsedKw (kw : F → Bool) (a : PdArgs L F V K) : Prop := ∀ co, a.pdCalculator = some co →
  ∃ (p : PF F V (Num K)) (b : Int) (ops : List (PDOp F)) (X : Frame F V), co.obj = runOpsKw kw (Calc.new p X b) ops

theorem usedKw_none (h : a.pdCalculator = none) : UsedKw kw a := fun co hco => by rw [h] at hco; cases hco

/-- the calculator `fit` works with, when all names are accepted -/
theorem named_chosen {co : CalcObj L F V K} (hu : UsedKw kw a) (hX : Accepted kw Xs.frame)
    (h : PdpMethod.chooseCalc a Xs a.pf = .ok co) : Named kw co.obj := by
  unfold PdpMethod.chooseCalc at h
  cases e : a.pdCalculator with
  | none => rw [e] at h; cases h; exact named_new _ hX _
  | some co0 =>
    rw [e] at h
    simp only at h
    split at h
    · cases h
    · split at h
      · cases h
      · next h2 =>
        cases h
        obtain ⟨p, b, ops, X, hobj⟩ := hu co e
        have hd := (sameData_of_equals (A := ⟨co.labels, co.obj.X⟩) (B := Xs) (by simpa using h2)).2
        have hXX : Accepted kw X := by
          intro f hf
          refine hX f ?_
          rw [← hd.cols, hobj, runOpsKw_data]
          exact hf
        have := named_runOps (kw := kw) ops (Calc.new p X b) (named_new p hXX b)
        rw [hobj, this.2]
        exact this.1

/-- and when the name of a column is not -/
theorem stuck_chosen {co : CalcObj L F V K} (hu : UsedKw kw a) {f : F} (hf : f ∈ Xs.frame.cols) (hk : kw f = false) (hX : Xs.frame.rows ≠ [])
    (h : PdpMethod.chooseCalc a Xs a.pf = .ok co) : f ∈ co.obj.X.cols ∧ Stuck co.obj.X f co.obj := by
  unfold PdpMethod.chooseCalc at h
  cases e : a.pdCalculator with
  | none => rw [e] at h; cases h; exact ⟨hf, stuck_new _ hf hX _⟩
  | some co0 =>
    rw [e] at h
    simp only at h
    split at h
    · cases h
    · split at h
      · cases h
      · next h2 =>
        cases h
        obtain ⟨p, b, ops, X, hobj⟩ := hu co e
        have hd := (sameData_of_equals (A := ⟨co.labels, co.obj.X⟩) (B := Xs) (by simpa using h2)).2
        have hXX : co.obj.X = X := by rw [hobj, runOpsKw_data]
        simp only [hXX] at hd ⊢
        have hfX : f ∈ X.cols := by rw [hd.cols]; exact hf
        refine ⟨hfX, ?_⟩
        rw [hobj]
        refine stuck_runOps hk ops _ (stuck_new p hfX ?_ b)
        intro h0
        have := hd.rows.length_eq
        rw [h0] at this
        exact hX (List.length_eq_zero_iff.1 this.symm)

theorem cols_chosen {co : CalcObj L F V K} (hu : UsedKw kw a) (h : PdpMethod.chooseCalc a Xs a.pf = .ok co) : co.obj.X.cols = Xs.frame.cols := by
  unfold PdpMethod.chooseCalc at h
  cases e : a.pdCalculator with
  | none => rw [e] at h; cases h; rfl
  | some co0 =>
    rw [e] at h
    simp only at h
    split at h
    · cases h
    · split at h
      · cases h
      · next h2 =>
        cases h
        exact (sameData_of_equals (A := ⟨co.labels, co.obj.X⟩) (B := Xs) (by simpa using h2)).2.cols

/-- **C124, accepted names, H-statistic and Greenwell.** If every column has an accepted name, everything is as described by the other
properties: same outcome, same object. -/
theorem C124_accepted_fit (kind : PdKind) (hs : (sampleIfNotNone E.R a.X a.n s0.rng).1 = .ok Xs) (hX : Accepted kw Xs.frame)
    (hu : UsedKw kw a) : PdpMethod.fitKw kw kind E a s0 = PdpMethod.fit kind E a s0 := by
  cases eX : sampleIfNotNone E.R a.X a.n s0.rng with
  | mk rX rng =>
    rw [eX] at hs
    cases hs
    unfold PdpMethod.fitKw PdpMethod.fit PdpMethod.fitBaseKw PdpMethod.fitBase
    simp only [eX]
    cases ec : PdpMethod.chooseCalc a Xs a.pf with
    | error e =>
      have ec' := ec
      simp only [PdArgs.pf] at ec'
      simp only [ec']
    | ok co =>
      have ec' := ec
      simp only [PdArgs.pf] at ec'
      have hn := named_chosen hu hX ec
      simp only [ec', PdpMethod.onCalc]
      obtain ⟨i1, e1⟩ := sameNamed_ovo (Y := Xs.frame) kind E (allIfNone a.X.frame.cols a.features)
        (combinations2 (allIfNone a.X.frame.cols a.features)) co.obj hn
      rw [e1]
      cases g1 : kind.ovo E Xs.frame (allIfNone a.X.frame.cols a.features) (combinations2 (allIfNone a.X.frame.cols a.features)) co.obj with
      | mk r1 c1 =>
        rw [g1] at i1
        cases r1 with
        | error e => rfl
        | ok ovo =>
          simp only
          obtain ⟨i2, e2⟩ := sameNamed_importance (kw := kw) E.sortFeat (numIn E (allIfNone a.X.frame.cols a.features))
            (allIfNone a.X.frame.cols a.features) c1 i1
          rw [e2]
          cases g2 : pdpImportance E.sortFeat (numIn E (allIfNone a.X.frame.cols a.features)) (allIfNone a.X.frame.cols a.features) c1 with
          | mk r2 c2 =>
            rw [g2] at i2
            cases r2 with
            | error e => rfl
            | ok imp =>
              simp only
              cases kind with
              | greenwell => rfl
              | friedman n =>
                simp only
                split
                · obtain ⟨i3, e3⟩ := sameNamed_ova (kw := kw) (Y := Xs.frame) E.sortFeat
                    (callable (getPredictFunction a.model a.predictFunction)) n (allIfNone a.X.frame.cols a.features) c2 i2
                  rw [e3]
                  rfl
                · rfl

/-- **C124: `TypeError` is the only difference.** For arbitrary names `fit` does what it does for accepted ones, or raises `TypeError`. -/
theorem C124_only_type_error (kind : PdKind) (E : PdEnv G F K) (a : PdArgs L F V K) (s0 : PdpMethod G L F V K) :
    PdpMethod.fitKw kw kind E a s0 = PdpMethod.fit kind E a s0 ∨ (PdpMethod.fitKw kw kind E a s0).1 = .error .typeError := by
  cases eX : sampleIfNotNone E.R a.X a.n s0.rng with
  | mk rX rng =>
    unfold PdpMethod.fitKw PdpMethod.fit PdpMethod.fitBaseKw PdpMethod.fitBase
    simp only [eX]
    cases rX with
    | error e => exact Or.inl rfl
    | ok Xs =>
      simp only
      cases ec : PdpMethod.chooseCalc a Xs (callable (getPredictFunction a.model a.predictFunction)) with
      | error e => exact Or.inl rfl
      | ok co =>
        simp only [PdpMethod.onCalc]
        rcases cut_ovo (kw := kw) (Y := Xs.frame) kind E (allIfNone a.X.frame.cols a.features)
          (combinations2 (allIfNone a.X.frame.cols a.features)) co.obj with e1 | e1
        · rw [e1]
          cases g1 : kind.ovo E Xs.frame (allIfNone a.X.frame.cols a.features) (combinations2 (allIfNone a.X.frame.cols a.features)) co.obj with
          | mk r1 c1 =>
            cases r1 with
            | error e => exact Or.inl rfl
            | ok ovo =>
              simp only
              rcases cut_importance (kw := kw) E.sortFeat (numIn E (allIfNone a.X.frame.cols a.features))
                (allIfNone a.X.frame.cols a.features) c1 with e2 | e2
              · rw [e2]
                cases g2 : pdpImportance E.sortFeat (numIn E (allIfNone a.X.frame.cols a.features)) (allIfNone a.X.frame.cols a.features) c1 with
                | mk r2 c2 =>
                  cases r2 with
                  | error e => exact Or.inl rfl
                  | ok imp =>
                    simp only
                    cases kind with
                    | greenwell => exact Or.inl rfl
                    | friedman n =>
                      simp only
                      split
                      · rcases cut_ova (kw := kw) (Y := Xs.frame) E.sortFeat (callable (getPredictFunction a.model a.predictFunction)) n
                          (allIfNone a.X.frame.cols a.features) c2 with e3 | e3
                        · rw [e3]; exact Or.inl rfl
                        · right
                          generalize hstatOvaKw kw E.sortFeat (callable (getPredictFunction a.model a.predictFunction)) n Xs.frame
                            (allIfNone a.X.frame.cols a.features) c2 = q at e3
                          obtain ⟨r, c⟩ := q
                          simp only at e3
                          subst e3
                          rfl
                      · exact Or.inl rfl
              · right
                generalize pdpImportanceKw kw E.sortFeat (numIn E (allIfNone a.X.frame.cols a.features))
                  (allIfNone a.X.frame.cols a.features) c1 = q at e2
                obtain ⟨r, c⟩ := q
                simp only at e2
                subst e2
                rfl
        · right
          generalize kind.ovoKw kw E Xs.frame (allIfNone a.X.frame.cols a.features)
            (combinations2 (allIfNone a.X.frame.cols a.features)) co.obj = q at e1
          obtain ⟨r, c⟩ := q
          simp only at e1
          subst e1
          rfl

/-- **C124, H-statistic and Greenwell.** If the drawn rows have a column - requested or not - whose name is not accepted, `fit` raises and
writes neither an importance table nor a one-versus-all table. The exception is `TypeError`, or the one the same call would have raised with
accepted names as well. -/
theorem C124_fit_raises (kind : PdKind) (hs : (sampleIfNotNone E.R a.X a.n s0.rng).1 = .ok Xs) (hX : ¬ Accepted kw Xs.frame)
    (hr : Xs.frame.rows ≠ []) (hu : UsedKw kw a) :
    ∃ e, (PdpMethod.fitKw kw kind E a s0).1 = .error e ∧ (PdpMethod.fitKw kw kind E a s0).2.importance = s0.importance ∧
      (PdpMethod.fitKw kw kind E a s0).2.ova = s0.ova ∧ (e = .typeError ∨ (PdpMethod.fit kind E a s0).1 = .error e) := by
  have hex : ∃ f ∈ Xs.frame.cols, kw f = false := by
    unfold Accepted at hX
    push Not at hX
    obtain ⟨f, hf, h⟩ := hX
    exact ⟨f, hf, by simpa using h⟩
  obtain ⟨f, hf, hk⟩ := hex
  have key : ∃ e, (PdpMethod.fitKw kw kind E a s0).1 = .error e ∧ (PdpMethod.fitKw kw kind E a s0).2.importance = s0.importance ∧
      (PdpMethod.fitKw kw kind E a s0).2.ova = s0.ova := by
    cases eX : sampleIfNotNone E.R a.X a.n s0.rng with
    | mk rX rng =>
      rw [eX] at hs
      cases hs
      unfold PdpMethod.fitKw PdpMethod.fitBaseKw
      simp only [eX]
      cases ec : PdpMethod.chooseCalc a Xs a.pf with
      | error e =>
        have ec' := ec
        simp only [PdArgs.pf] at ec'
        simp only [ec']
        refine ⟨e, rfl, ?_, ?_⟩ <;> first | trivial | rfl
      | ok co =>
        have ec' := ec
        simp only [PdArgs.pf] at ec'
        obtain ⟨hfc, hst⟩ := stuck_chosen hu hf hk hr ec
        simp only [ec', PdpMethod.onCalc]
        have h1 := stuck_after (stuck_ovo (Y := Xs.frame) hk kind E (allIfNone a.X.frame.cols a.features)
          (combinations2 (allIfNone a.X.frame.cols a.features))) hst
        generalize kind.ovoKw kw E Xs.frame (allIfNone a.X.frame.cols a.features)
            (combinations2 (allIfNone a.X.frame.cols a.features)) co.obj = q at h1
        obtain ⟨r1, c1⟩ := q
        cases r1 with
        | error e =>
          simp only
          refine ⟨e, rfl, ?_, ?_⟩ <;> first | trivial | rfl
        | ok ovo =>
          simp only
          obtain ⟨e, he, _⟩ := (raises_importance hk hfc E.sortFeat (numIn E (allIfNone a.X.frame.cols a.features))
            (allIfNone a.X.frame.cols a.features)).fails h1
          simp only at he
          generalize pdpImportanceKw kw E.sortFeat (numIn E (allIfNone a.X.frame.cols a.features))
            (allIfNone a.X.frame.cols a.features) c1 = q at he
          obtain ⟨r, c⟩ := q
          simp only at he
          subst he
          refine ⟨e, rfl, ?_, ?_⟩ <;> first | trivial | rfl
  obtain ⟨e, h1, h2, h3⟩ := key
  refine ⟨e, h1, h2, h3, ?_⟩
  rcases C124_only_type_error (kw := kw) kind E a s0 with h | h
  · exact Or.inr (by rw [← h]; exact h1)
  · rw [h1] at h
    cases h
    exact Or.inl rfl

/-- **C124, stand-alone importance.** -/
theorem C124_importance {t0 : PdImpObj G L F V K} (hs : (sampleIfNotNone E.R a.X a.n t0.rng).1 = .ok Xs) (hu : UsedKw kw a) :
    (Accepted kw Xs.frame → PdImpObj.runKw kw E a t0 = PdImpObj.run E a t0) ∧
    (¬ Accepted kw Xs.frame → Xs.frame.rows ≠ [] → ∃ e, (PdImpObj.runKw kw E a t0).1 = .error e ∧
      (PdImpObj.runKw kw E a t0).2.importance = t0.importance ∧ (e = .typeError ∨ (PdImpObj.run E a t0).1 = .error e)) := by
  cases eX : sampleIfNotNone E.R a.X a.n t0.rng with
  | mk rX rng =>
    rw [eX] at hs
    cases hs
    unfold PdImpObj.runKw PdImpObj.run
    simp only [eX]
    cases ec : PdpMethod.chooseCalc a Xs a.pf with
    | error e =>
      have ec' := ec
      simp only [PdArgs.pf] at ec'
      simp only [ec']
      exact ⟨fun _ => by first | trivial | rfl, fun _ _ => ⟨e, rfl, by first | trivial | rfl, Or.inr (by first | trivial | rfl)⟩⟩
    | ok co =>
      have ec' := ec
      simp only [PdArgs.pf] at ec'
      simp only [ec']
      constructor
      · intro hX
        rw [(sameNamed_importance E.sortFeat (numIn E (allIfNone a.X.frame.cols a.features)) (allIfNone a.X.frame.cols a.features) co.obj
          (named_chosen hu hX ec)).2]
        rfl
      · intro hX hr
        have hex : ∃ f ∈ Xs.frame.cols, kw f = false := by
          unfold Accepted at hX
          push Not at hX
          obtain ⟨f, hf, h⟩ := hX
          exact ⟨f, hf, by simpa using h⟩
        obtain ⟨f, hf, hk⟩ := hex
        obtain ⟨hfc, hst⟩ := stuck_chosen hu hf hk hr ec
        obtain ⟨e, he, _⟩ := (raises_importance hk hfc E.sortFeat (numIn E (allIfNone a.X.frame.cols a.features))
          (allIfNone a.X.frame.cols a.features)).fails hst
        rcases cut_importance (kw := kw) E.sortFeat (numIn E (allIfNone a.X.frame.cols a.features))
          (allIfNone a.X.frame.cols a.features) co.obj with h | h
        · rw [h] at he ⊢
          generalize pdpImportance E.sortFeat (numIn E (allIfNone a.X.frame.cols a.features)) (allIfNone a.X.frame.cols a.features) co.obj = q at he
          obtain ⟨r, c⟩ := q
          simp only at he
          subst he
          exact ⟨e, rfl, rfl, Or.inr rfl⟩
        · rw [he] at h
          cases h
          generalize pdpImportanceKw kw E.sortFeat (numIn E (allIfNone a.X.frame.cols a.features)) (allIfNone a.X.frame.cols a.features) co.obj = q at he
          obtain ⟨r, c⟩ := q
          simp only at he
          subst he
          exact ⟨_, rfl, rfl, Or.inl rfl⟩

/-- **C124, requested columns.** If the column is among at least two requested features, the pairs come out with the same exception: no
interaction table is written either. -/
theorem C124_no_pairs (kind : PdKind) (hs : (sampleIfNotNone E.R a.X a.n s0.rng).1 = .ok Xs) {f g : F} (hf : f ∈ Xs.frame.cols)
    (hk : kw f = false) (hr : Xs.frame.rows ≠ []) (hu : UsedKw kw a) (hfa : f ∈ a.feats) (hga : g ∈ a.feats) (hg : g ∈ Xs.frame.cols) (hne : f ≠ g) :
    ∃ e, (PdpMethod.fitKw kw kind E a s0).1 = .error e ∧ (PdpMethod.fitKw kw kind E a s0).2.ovo = s0.ovo := by
  have hq : ∃ q ∈ combinations2 a.feats, (q.1 = f ∨ q.2 = f) ∧ q.1 ∈ Xs.frame.cols ∧ q.2 ∈ Xs.frame.cols ∧ q.1 ≠ q.2 := by
    rcases mem_combinations2_or hfa hga hne with h | h
    · exact ⟨_, h, Or.inl rfl, hf, hg, hne⟩
    · exact ⟨_, h, Or.inr rfl, hg, hf, hne.symm⟩
  obtain ⟨q, hq, hqf, hq1, hq2, hqn⟩ := hq
  cases eX : sampleIfNotNone E.R a.X a.n s0.rng with
  | mk rX rng =>
    rw [eX] at hs
    cases hs
    unfold PdpMethod.fitKw PdpMethod.fitBaseKw
    simp only [eX]
    cases ec : PdpMethod.chooseCalc a Xs a.pf with
    | error e =>
      have ec' := ec
      simp only [PdArgs.pf] at ec'
      simp only [ec']
      refine ⟨e, rfl, ?_⟩
      first | trivial | rfl
    | ok co =>
      have ec' := ec
      simp only [PdArgs.pf] at ec'
      obtain ⟨hfc, hst⟩ := stuck_chosen hu hf hk hr ec
      have hcols : co.obj.X.cols = Xs.frame.cols := cols_chosen hu ec
      simp only [ec', PdpMethod.onCalc]
      obtain ⟨e, he, _⟩ := (raises_ovo (Y := Xs.frame) hk kind E (allIfNone a.X.frame.cols a.features) hq
        (by rw [hcols]; exact mem_combinations2_or hq1 hq2 hqn) hqf).fails hst
      simp only [PdArgs.feats] at he
      generalize kind.ovoKw kw E Xs.frame (allIfNone a.X.frame.cols a.features)
          (combinations2 (allIfNone a.X.frame.cols a.features)) co.obj = q at he
      obtain ⟨r1, c1⟩ := q
      simp only at he
      subst he
      refine ⟨e, rfl, ?_⟩
      first | trivial | rfl

/-- **C124, the calculator.** After any history of calls, asking for a column whose name is not accepted, for a pair it belongs to, or for the
partial dependence on all columns but another one raises `TypeError` (or what the model raises for requests before it), and
all these entries are still what they were in a new calculator. -/
theorem C124_calculator {p : PF F V (Num K)} {X : Frame F V} {b : Int} {ops : List (PDOp F)} {f : F} (hf : f ∈ X.cols) (hk : kw f = false)
    (hr : X.rows ≠ []) {op : PDOp F} (hop : (∃ fs, op = .single fs ∧ f ∈ fs.getD X.cols) ∨
      (∃ ps all q, op = .pairs ps all ∧ q ∈ ps.getD (combinations2 X.cols) ∧ q.1 ∈ X.cols ∧ q.2 ∈ X.cols ∧ q.1 ≠ q.2 ∧ (q.1 = f ∨ q.2 = f)) ∨
      (∃ fs g, op = .minus fs ∧ g ∈ fs.getD X.cols ∧ g ∈ X.cols ∧ g ≠ f)) :
    (∃ e, (op.runKw kw (runOpsKw kw (Calc.new p X b) ops)).1 = .error e ∧
      (e = .typeError ∨ (op.run (runOpsKw kw (Calc.new p X b) ops)).1 = .error e)) ∧
    (runOpsKw kw (Calc.new p X b) ops).pdSingle.get? f = (Calc.new p X b).pdSingle.get? f ∧
    (∀ k ∈ combinations2 X.cols, k.1 = f ∨ k.2 = f →
      (runOpsKw kw (Calc.new p X b) ops).pdPairs.get? k = (Calc.new p X b).pdPairs.get? k) ∧
    (∀ g ∈ X.cols, g ≠ f → (runOpsKw kw (Calc.new p X b) ops).pdMinus.get? g = (Calc.new p X b).pdMinus.get? g) := by
  have hst0 := stuck_new p hf hr b
  have hst := stuck_runOps hk ops _ hst0
  refine ⟨?_, hst.single.trans hst0.single.symm, fun k h1 h2 => (hst.pairs k h1 h2).trans (hst0.pairs k h1 h2).symm,
    fun g h1 h2 => (hst.minus g h1 h2).trans (hst0.minus g h1 h2).symm⟩
  have main : ∀ {m m' : PyM (Calc F V (Num K)) Unit}, Raises X f m' → Cut m m' → ∃ e, (m' (runOpsKw kw (Calc.new p X b) ops)).1 = .error e ∧
      (e = .typeError ∨ (m (runOpsKw kw (Calc.new p X b) ops)).1 = .error e) := by
    intro m m' hm hc
    obtain ⟨e, he, _⟩ := hm.fails hst
    refine ⟨e, he, ?_⟩
    rcases hc (runOpsKw kw (Calc.new p X b) ops) with h | h
    · exact Or.inr (by rw [← h]; exact he)
    · rw [he] at h
      cases h
      exact Or.inl rfl
  rcases hop with ⟨fs, rfl, h⟩ | ⟨ps, all, q, rfl, h, h1, h2, h3, h4⟩ | ⟨fs, g, rfl, h, h1, h2⟩
  · exact main (raises_single hk h) (cut_single fs)
  · exact main (raises_pairs hk all h (mem_combinations2_or h1 h2 h3) h4) (cut_pairs ps all)
  · exact main (raises_minus hk h h1 h2) (cut_minus fs)

/-- **C124, the calculator, accepted names.** -/
theorem C124_accepted_calculator {p : PF F V (Num K)} {X : Frame F V} {b : Int} (ops : List (PDOp F)) (hX : Accepted kw X) :
    runOpsKw kw (Calc.new p X b) ops = runOps (Calc.new p X b) ops :=
  (named_runOps ops _ (named_new p hX b)).2

end pd

section additivity
variable {F V K G L : Type} [DecidableEq F] [LinearOrder V] [Field K] [LinearOrder K] [HasSqrt K] [DecidableEq L]
  {kw : F → Bool} {R : Rng G} {cp : F} {a : AddArgs L F V K} {s0 : AddMeter G L F V K} {Xs : LFrame L F V}

/-- **C124, additivity meter.** -/
theorem C124_additivity (hs : (sampleIfNotNone R a.X a.n s0.rng).1 = .ok Xs) (hu : UsedKw kw a.toPd) :
    (Accepted kw Xs.frame → AddMeter.fitKw kw R cp a s0 = AddMeter.fit R cp a s0) ∧
    (¬ Accepted kw Xs.frame → Xs.frame.rows ≠ [] → ∃ e, (AddMeter.fitKw kw R cp a s0).1 = .error e ∧
      (AddMeter.fitKw kw R cp a s0).2.index = s0.index ∧ (e = .typeError ∨ (AddMeter.fit R cp a s0).1 = .error e)) := by
  cases eX : sampleIfNotNone R a.X a.n s0.rng with
  | mk rX rng =>
    rw [eX] at hs
    cases hs
    unfold AddMeter.fitKw AddMeter.fit
    simp only [eX]
    cases ec : PdpMethod.chooseCalc a.toPd Xs a.toPd.pf with
    | error e =>
      have ec' := ec
      simp only [PdArgs.pf, AddArgs.toPd] at ec'
      simp only [AddArgs.toPd, ec']
      exact ⟨fun _ => by first | trivial | rfl, fun _ _ => ⟨e, rfl, by first | trivial | rfl, Or.inr (by first | trivial | rfl)⟩⟩
    | ok co =>
      have ec' := ec
      simp only [PdArgs.pf, AddArgs.toPd] at ec'
      simp only [AddArgs.toPd, ec']
      constructor
      · intro hX
        rw [(sameNamed_additivity cp (callable (getPredictFunction a.model a.predictFunction)) co.obj (named_chosen hu hX ec)).2]
        rfl
      · intro hX hr
        have hex : ∃ f ∈ Xs.frame.cols, kw f = false := by
          unfold Accepted at hX
          push Not at hX
          obtain ⟨f, hf, h⟩ := hX
          exact ⟨f, hf, by simpa using h⟩
        obtain ⟨f, hf, hk⟩ := hex
        obtain ⟨hfc, hst⟩ := stuck_chosen hu hf hk hr ec
        obtain ⟨e, he, _⟩ := (raises_additivity (Y := Xs.frame) hk hfc cp (callable (getPredictFunction a.model a.predictFunction))).fails hst
        rcases cut_additivity (kw := kw) (Y := Xs.frame) cp (callable (getPredictFunction a.model a.predictFunction)) co.obj with h | h
        · rw [h] at he ⊢
          generalize calcAdditivity cp (callable (getPredictFunction a.model a.predictFunction)) Xs.frame co.obj = q at he
          obtain ⟨r, c⟩ := q
          simp only at he
          subst he
          exact ⟨e, rfl, rfl, Or.inr rfl⟩
        · rw [he] at h
          cases h
          generalize calcAdditivityKw kw cp (callable (getPredictFunction a.model a.predictFunction)) Xs.frame co.obj = q at he
          obtain ⟨r, c⟩ := q
          simp only at he
          subst he
          exact ⟨_, rfl, rfl, Or.inl rfl⟩

end additivity

/-! ### Concrete cases -/

section Cases

open Ex

/-- column 2 has a name that is not accepted -/
def exKw (f : Fin 3) : Bool := f != 2

/-- the hypotheses of `C124_fit_raises` are met, for all features and for features 0 and 1 only -/
example : ∃ e, (PdpMethod.fitKw exKw .greenwell exEnv (exArgs (K := ℝ)) (PdpMethod.new 0)).1 = .error e :=
  let ⟨e, h, _⟩ := C124_fit_raises (kw := exKw) (E := exEnv) (a := exArgs (K := ℝ)) (s0 := PdpMethod.new 0) (Xs := exLX) .greenwell rfl
    (fun h => by have := h 2 (by decide); revert this; decide) (by decide) (usedKw_none rfl)
  ⟨e, h⟩

/-- column 2 is one of three requested features -/
example : ∃ e, (PdpMethod.fitKw exKw (.friedman true) exEnv (exArgs (K := ℝ)) (PdpMethod.new 0)).1 = .error e ∧
    (PdpMethod.fitKw exKw (.friedman true) exEnv (exArgs (K := ℝ)) (PdpMethod.new 0)).2.ovo = none :=
  C124_no_pairs (kw := exKw) (E := exEnv) (a := exArgs (K := ℝ)) (s0 := PdpMethod.new 0) (Xs := exLX) (f := 2) (g := 0) (.friedman true) rfl
    (by decide) rfl (by decide) (usedKw_none rfl) (by decide) (by decide) (by decide) (by decide)

/-- **C124, columns that were not requested count too.** Features 0 and 1 were requested, their pair has been computed, and the call ends
with `TypeError` because of column 2. -/
theorem C124_unrequested_column_matters :
    (PdpMethod.fitKw (K := ℚ) exKw (.friedman false) exEnv { exArgs with features := some [0, 1] } (PdpMethod.new 0)).1 =
      .error .typeError ∧
    (PdpMethod.fitKw (K := ℚ) exKw (.friedman false) exEnv { exArgs with features := some [0, 1] } (PdpMethod.new 0)).2.ovo.map
      (fun t => t.map fun r => (r.f1, r.f2)) = some [((0 : Fin 3), (1 : Fin 3))] ∧
    (PdpMethod.fitKw (K := ℚ) exKw .greenwell exEnv { exArgs with features := some [0, 1] } (PdpMethod.new 0)).1 =
      .error .typeError ∧
    (PdpMethod.fit (K := ℚ) .greenwell exEnv { exArgs with features := some [0, 1] } (PdpMethod.new 0)).1 = .ok () :=
  ⟨by decide +kernel, by decide +kernel, by decide +kernel, by decide +kernel⟩

/-- all names accepted -/
example : PdpMethod.fitKw (K := ℝ) (fun _ => true) (.friedman true) exEnv exArgs (PdpMethod.new 0) =
    PdpMethod.fit (.friedman true) exEnv exArgs (PdpMethod.new 0) :=
  C124_accepted_fit (Xs := exLX) _ rfl (fun _ _ => rfl) (usedKw_none rfl)

end Cases

end Artemis
