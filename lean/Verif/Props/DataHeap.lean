import Verif.Proofs.AddHeapLemmas
import Verif.Props.Sejong
import Verif.Props.AddSteps

set_option linter.unusedSectionVars false
set_option linter.unusedVariables false
set_option linter.unusedSimpArgs false

/-!
# C131: explaining leaves the caller's data alone
-/

namespace Artemis

/-- Specification: every object that was in memory before is there afterwards, with the same contents. -/
def Spec.Untouched {α : Type} (before after : List α) : Prop := ∀ (o : Nat) (x : α), before[o]? = some x → after[o]? = some x

/-- Specification: the same, for all objects but `r`. -/
def Spec.UntouchedBut {α : Type} (r : Nat) (before after : List α) : Prop :=
  ∀ (o : Nat) (x : α), o ≠ r → before[o]? = some x → after[o]? = some x

open Spec

variable {G L F V K : Type} [DecidableEq F] [DecidableEq L] [Field K] [LinearOrder K]

theorem untouched_of_append {α : Type} {l ext : List α} : Untouched l (l ++ ext) := fun _ _ h => getElem?_ext h

theorem sampleBothH_error {R : Rng G} {toInt : L → Option Int} {r : Nat} {y : Target L K} {n : Option Nat} {s : PMem G L F V}
    {X : LFrame L F V} (hX : s.mem[r]? = some X) {e : Err} {g : G} (h : sampleBoth R toInt X y n s.rng = (.error e, g)) :
    sampleBothH R toInt r y n s = (.error e, { s with rng := g }) := by
  simp [sampleBothH, PyM.seq, getFrame, hX, h]

theorem sampleBothH_ok {R : Rng G} {toInt : L → Option Int} {r : Nat} {y : Target L K} {n : Option Nat} {s : PMem G L F V}
    {X Xs : LFrame L F V} {ys : Target L K} (hX : s.mem[r]? = some X) {g : G} (h : sampleBoth R toInt X y n s.rng = (.ok (Xs, ys), g)) :
    ∃ x ext, sampleBothH R toInt r y n s = (.ok (x, ys), ⟨s.mem ++ ext, g, s.calls⟩) ∧ (s.mem ++ ext)[x]? = some Xs ∧
      (n = none → x = r) ∧ (n ≠ none → x = s.mem.length) := by
  cases n with
  | none =>
    refine ⟨r, [], by simp [sampleBothH, PyM.seq, getFrame, hX, h], ?_, by simp, by simp⟩
    simp only [sampleBoth, Prod.mk.injEq, Except.ok.injEq] at h
    simp [hX, h.1.1]
  | some k => exact ⟨s.mem.length, [Xs], by simp [sampleBothH, PyM.seq, getFrame, hX, h], by simp, by simp, by simp⟩

section sejong
variable {E : PerfEnv G L F K} {m : HModel F V K} {r : Nat} {a : SejongArgs L F V K} {X : LFrame L F V}

/-- Working on frame objects gives what `Model/Perf` computes on values: same outcome, same attributes, same frames handed to the model;
`X_sampled` is an object with the contents recorded there, the caller's own without `n`; and objects are only added. -/
theorem sejong_heap_refines (hm : ∀ Y, m.touch Y = Y) (s0 : SejongH G L F V K) (t0 : Sejong G L F V K) (hX : s0.mem[r]? = some X)
    (hobj : s0.obj = { t0 with xSampled := s0.obj.xSampled }) (hx : s0.xRef.bind (s0.mem[·]?) = t0.xSampled) (ent : G) :
    (SejongH.fit E m r a ent s0).1 = (Sejong.fit E { a with model := m.obj, X := X } ent t0).1 ∧
    (SejongH.fit E m r a ent s0).2.obj
      = { (Sejong.fit E { a with model := m.obj, X := X } ent t0).2 with xSampled := s0.obj.xSampled } ∧
    (SejongH.fit E m r a ent s0).2.xRef.bind ((SejongH.fit E m r a ent s0).2.mem[·]?)
      = (Sejong.fit E { a with model := m.obj, X := X } ent t0).2.xSampled ∧
    ∃ ext, (SejongH.fit E m r a ent s0).2.mem = s0.mem ++ ext := by
  obtain ⟨mem, xr, obj⟩ := s0
  simp only at hX hobj hx
  have hrng : obj.rng = t0.rng := by rw [hobj]
  have hcalls : obj.calls = t0.calls := by rw [hobj]
  have hmet : obj.metric = t0.metric := by rw [hobj]
  unfold SejongH.fit Sejong.fit
  simp only [hX, hrng, hcalls]
  rcases hs : sampleBoth E.R E.toInt X a.y a.n t0.rng with ⟨res, g⟩
  cases res with
  | error e =>
    simp only [sampleBothH_error (s := ⟨mem, t0.rng, t0.calls⟩) hX hs]
    refine ⟨trivial, ?_, hx, [], by simp⟩
    conv_lhs => rw [hobj]
  | ok p =>
    obtain ⟨Xs, ys⟩ := p
    obtain ⟨x, ext, hx2, hx1, -, -⟩ := sampleBothH_ok (s := ⟨mem, t0.rng, t0.calls⟩) hX hs
    simp only [hx2, hmet]
    obtain ⟨ext1, e1⟩ := SimsAt.perfOvo hm (G := G) (R := E.R) (M := t0.metric) (y := ys.values) E.sortOvo
      (combinations2 (allIfNone X.frame.cols a.features)) a.nRepeat ⟨mem ++ ext, g, t0.calls⟩ hx1
    simp only at e1
    simp only [e1]
    rcases hp : perfOvo E.sortOvo E.R m.obj t0.metric ys.values Xs.frame (combinations2 (allIfNone X.frame.cols a.features)) a.nRepeat
      ⟨g, t0.calls⟩ with ⟨res, w⟩
    cases res with
    | error e =>
      refine ⟨rfl, ?_, getElem?_ext hx1, ext ++ ext1, by simp [List.append_assoc]⟩
      first
      | rfl
      | (simp only; conv_lhs => rw [hobj])
    | ok ovo =>
      obtain ⟨ext2, e2⟩ := SimsAt.permImportance hm (G := G) (R := E.R) (M := t0.metric) (y := ys.values) E.sortFeat
        (some (allIfNone X.frame.cols a.features)) a.nRepeat ⟨mem ++ ext ++ ext1, ent, w.calls⟩ (getElem?_ext hx1)
      simp only at e2
      simp only [e2, PermObj.run]
      rcases permImportance E.sortFeat E.R m.obj t0.metric ys.values Xs.frame (some (allIfNone X.frame.cols a.features)) a.nRepeat
        ⟨ent, w.calls⟩ with ⟨res, w'⟩
      cases res with
      | error e =>
        refine ⟨rfl, ?_, getElem?_ext (getElem?_ext hx1), ext ++ ext1 ++ ext2, by simp [List.append_assoc]⟩
        simp only
        conv_lhs => rw [hobj]
      | ok imp => exact ⟨rfl, rfl, getElem?_ext (getElem?_ext hx1), ext ++ ext1 ++ ext2, by simp [List.append_assoc]⟩

/-- C131: `SejongOhMethod.fit` changes no frame that existed before, in particular not the caller's, however it ends. -/
theorem C131_sejong (hm : ∀ Y, m.touch Y = Y) (s0 : SejongH G L F V K) (hX : s0.mem[r]? = some X) (ent : G) :
    Untouched s0.mem (SejongH.fit E m r a ent s0).2.mem := by
  obtain ⟨-, -, -, ext, e⟩ := sejong_heap_refines (E := E) (a := a) hm s0
    { s0.obj with xSampled := s0.xRef.bind (s0.mem[·]?) } hX rfl rfl ent
  rw [e]; exact untouched_of_append

/-- C131: the results are those of the computation on values, and `X_sampled` is the caller's object exactly when no sample was drawn. -/
theorem C131_sejong_same_results (hm : ∀ Y, m.touch Y = Y) (s0 : SejongH G L F V K) (hX : s0.mem[r]? = some X) (ent : G) :
    (SejongH.fit E m r a ent s0).1 = (Sejong.fit E { a with model := m.obj, X := X } ent s0.obj).1 ∧
    (SejongH.fit E m r a ent s0).2.obj.ovo = (Sejong.fit E { a with model := m.obj, X := X } ent s0.obj).2.ovo ∧
    (SejongH.fit E m r a ent s0).2.obj.importance = (Sejong.fit E { a with model := m.obj, X := X } ent s0.obj).2.importance ∧
    ((SejongH.fit E m r a ent s0).1 = .ok () →
      ((SejongH.fit E m r a ent s0).2.xRef.bind ((SejongH.fit E m r a ent s0).2.mem[·]?)
        = (Sejong.fit E { a with model := m.obj, X := X } ent s0.obj).2.xSampled) ∧
      ((SejongH.fit E m r a ent s0).2.xRef = some r ↔ a.n = none)) := by
  have hdrop : ∀ xs, Sejong.fit E { a with model := m.obj, X := X } ent { s0.obj with xSampled := xs }
      = ((Sejong.fit E { a with model := m.obj, X := X } ent s0.obj).1,
         { (Sejong.fit E { a with model := m.obj, X := X } ent s0.obj).2 with
            xSampled := match (sampleBoth E.R E.toInt X a.y a.n s0.obj.rng).1 with
              | .error _ => xs
              | .ok p => some p.1 }) := by
    intro xs
    unfold Sejong.fit
    simp only
    rcases sampleBoth E.R E.toInt X a.y a.n s0.obj.rng with ⟨res, g⟩
    cases res with
    | error e => rfl
    | ok p =>
      obtain ⟨Xs, ys⟩ := p
      simp only
      rcases perfOvo E.sortOvo E.R m.obj s0.obj.metric ys.values Xs.frame (combinations2 (allIfNone X.frame.cols a.features)) a.nRepeat
        ⟨g, s0.obj.calls⟩ with ⟨res, w⟩
      cases res with
      | error e => rfl
      | ok ovo =>
        simp only
        rcases PermObj.run E.sortFeat E.R m.obj Xs ys a.nRepeat (some (allIfNone X.frame.cols a.features)) ⟨ent, s0.obj.metric, none⟩
          w.calls with ⟨res, o, w'⟩
        cases res <;> rfl
  obtain ⟨h1, h2, h3, -⟩ := sejong_heap_refines (E := E) (a := a) hm s0
    { s0.obj with xSampled := s0.xRef.bind (s0.mem[·]?) } hX rfl rfl ent
  rw [hdrop] at h1 h2 h3
  refine ⟨h1, by rw [h2], by rw [h2], fun hok => ⟨?_, ?_⟩⟩
  · rw [h3]
    rw [hok] at h1
    simp only at h1
    revert h1
    unfold Sejong.fit
    simp only
    rcases sampleBoth E.R E.toInt X a.y a.n s0.obj.rng with ⟨res, g⟩
    cases res with
    | error e => intro h; cases h
    | ok p =>
      obtain ⟨Xs, ys⟩ := p
      intro _
      simp only
      rcases perfOvo E.sortOvo E.R m.obj s0.obj.metric ys.values Xs.frame (combinations2 (allIfNone X.frame.cols a.features)) a.nRepeat
        ⟨g, s0.obj.calls⟩ with ⟨res, w⟩
      cases res with
      | error e => rfl
      | ok ovo =>
        simp only
        rcases PermObj.run E.sortFeat E.R m.obj Xs ys a.nRepeat (some (allIfNone X.frame.cols a.features)) ⟨ent, s0.obj.metric, none⟩
          w.calls with ⟨res, o, w'⟩
        cases res <;> rfl
  · have hr : r < s0.mem.length := (List.getElem?_eq_some_iff.1 hX).1
    revert hok
    unfold SejongH.fit
    simp only [hX]
    rcases hs : sampleBoth E.R E.toInt X a.y a.n s0.obj.rng with ⟨res, g⟩
    cases res with
    | error e => simp only [sampleBothH_error (s := ⟨s0.mem, s0.obj.rng, s0.obj.calls⟩) hX hs]; intro h; cases h
    | ok p =>
      obtain ⟨Xs, ys⟩ := p
      obtain ⟨x, ext, hx2, hx1, hn1, hn2⟩ := sampleBothH_ok (s := ⟨s0.mem, s0.obj.rng, s0.obj.calls⟩) hX hs
      simp only [hx2]
      have hiff : (some x : Option Nat) = some r ↔ a.n = none := by
        constructor
        · intro h
          by_contra hc
          have := hn2 hc
          simp only [Option.some.injEq] at h
          simp only at this
          omega
        · intro h; rw [hn1 h]
      rcases perfOvoH E.sortOvo E.R m s0.obj.metric ys.values x (combinations2 (allIfNone X.frame.cols a.features)) a.nRepeat
        ⟨s0.mem ++ ext, g, s0.obj.calls⟩ with ⟨res, w⟩
      cases res with
      | error e => simp
      | ok ovo =>
        simp only
        rcases permImportanceH E.sortFeat E.R m s0.obj.metric ys.values x (some (allIfNone X.frame.cols a.features)) a.nRepeat
          ⟨w.mem, ent, w.calls⟩ with ⟨res, w'⟩
        cases res with
        | error e => intro h; cases h
        | ok imp => intro _; exact hiff

/-- C131: even with a model that changes the frames it is asked about, at most the caller's frame itself is changed, and with `n` not even
that one: the model only ever sees the sample and copies of it. -/
theorem C131_sejong_any_model (s0 : SejongH G L F V K) (ent : G) :
    UntouchedBut r s0.mem (SejongH.fit E m r a ent s0).2.mem ∧
    (a.n ≠ none → Untouched s0.mem (SejongH.fit E m r a ent s0).2.mem) := by
  have main : ∀ o x, s0.mem[o]? = some x → (o ≠ r ∨ a.n ≠ none) → (SejongH.fit E m r a ent s0).2.mem[o]? = some x := by
    intro o x ho hor
    have hlo : o < s0.mem.length := (List.getElem?_eq_some_iff.1 ho).1
    unfold SejongH.fit
    cases hX : s0.mem[r]? with
    | none => exact ho
    | some X =>
      simp only
      rcases hs : sampleBoth E.R E.toInt X a.y a.n s0.obj.rng with ⟨res, g⟩
      cases res with
      | error e => simp only [sampleBothH_error (s := ⟨s0.mem, s0.obj.rng, s0.obj.calls⟩) hX hs]; exact ho
      | ok p =>
        obtain ⟨Xs, ys⟩ := p
        obtain ⟨x', ext, he, -, hn1, hn2⟩ := sampleBothH_ok (s := ⟨s0.mem, s0.obj.rng, s0.obj.calls⟩) hX hs
        have hne : x' ≠ o := by
          by_cases hn : a.n = none
          · rw [hn1 hn]
            rcases hor with h | h
            · exact fun e => h e.symm
            · exact absurd hn h
          · rw [hn2 hn]; exact fun e => absurd hlo (by simp only at e; omega)
        have hmo : (s0.mem ++ ext)[o]? = some x := getElem?_ext ho
        simp only [he]
        have hl' : o < (s0.mem ++ ext).length := (List.getElem?_eq_some_iff.1 hmo).1
        obtain ⟨k1, k2⟩ := KeepsObj.perfOvo (G := G) (m := m) (R := E.R) (M := s0.obj.metric) (y := ys.values) hne E.sortOvo
          (combinations2 (allIfNone X.frame.cols a.features)) a.nRepeat ⟨s0.mem ++ ext, g, s0.obj.calls⟩ hl'
        rcases hp : perfOvoH E.sortOvo E.R m s0.obj.metric ys.values x' (combinations2 (allIfNone X.frame.cols a.features)) a.nRepeat
          ⟨s0.mem ++ ext, g, s0.obj.calls⟩ with ⟨res, w⟩
        rw [hp] at k1 k2
        simp only at k1 k2
        cases res with
        | error e => exact k1.trans hmo
        | ok ovo =>
          simp only
          obtain ⟨j1, j2⟩ := KeepsObj.permImportance (G := G) (m := m) (R := E.R) (M := s0.obj.metric) (y := ys.values) hne E.sortFeat
            (some (allIfNone X.frame.cols a.features)) a.nRepeat ⟨w.mem, ent, w.calls⟩ (lt_of_lt_of_le hl' k2)
          rcases hq : permImportanceH E.sortFeat E.R m s0.obj.metric ys.values x' (some (allIfNone X.frame.cols a.features)) a.nRepeat
            ⟨w.mem, ent, w.calls⟩ with ⟨res, w'⟩
          rw [hq] at j1 j2
          simp only at j1 j2
          cases res with
          | error e => exact (j1.trans k1).trans hmo
          | ok imp => exact (j1.trans k1).trans hmo
  exact ⟨fun o x h ho => main o x ho (.inl h), fun hn o x ho => main o x ho (.inr hn)⟩

end sejong

/-- C131: `PermutationImportance.importance` changes no frame that existed before, however it ends, and computes what `Model/Perf` does. -/
theorem C131_importance {m : HModel F V K} (hm : ∀ Y, m.touch Y = Y) {M : Metric K} {y : List (Num K)} {R : Rng G} {r : Nat}
    {X : LFrame L F V} (sort : List (FeatRow F K) → List (FeatRow F K)) (fs : Option (List F)) (n : Nat) (s : PMem G L F V)
    (hX : s.mem[r]? = some X) :
    Untouched s.mem (permImportanceH sort R m M y r fs n s).2.mem ∧
    (permImportanceH sort R m M y r fs n s).1 = (permImportance sort R m.obj M y X.frame fs n ⟨s.rng, s.calls⟩).1 := by
  obtain ⟨ext, e⟩ := SimsAt.permImportance hm (R := R) (M := M) (y := y) sort fs n s hX
  rw [e]
  exact ⟨untouched_of_append, rfl⟩

section additivity

theorem setSample_ok [LinearOrder V] {R : Rng G} {r : Nat} {n : Option Nat} {mem : List (MFrame L F V K)} {xr fr : Option Nat}
    {X Xs : LFrame L F V} {g0 g : G} (hX : mem[r]? = some (MFrame.fresh X)) (hs : sampleIfNotNone R X n g0 = (.ok Xs, g)) :
    ∃ x ext, (mem ++ ext)[x]? = some (MFrame.fresh Xs) ∧
      ∀ obj : AddSteps G L F V K, AddH.setSample r n Xs ⟨mem, xr, fr, obj⟩ = ⟨mem ++ ext, some x, fr, obj⟩ := by
  cases n with
  | none =>
    simp only [sampleIfNotNone, Prod.mk.injEq, Except.ok.injEq] at hs
    exact ⟨r, [], by simp [hX, hs.1], by simp [AddH.setSample]⟩
  | some k => exact ⟨mem.length, [MFrame.fresh Xs], by simp, by simp [AddH.setSample]⟩

variable [LinearOrder V] {R : Rng G} {cp : F} {touch : Frame F V → Frame F V} {r : Nat} {a : AddArgs L F V K} {X : LFrame L F V}

/-- The meter on frame objects gives what `Model/AdditivitySteps` computes on values, and objects are only added. -/
theorem additivity_heap_refines (ht : ∀ Y, touch Y = Y) (s0 : AddH G L F V K) (t0 : AddSteps G L F V K)
    (hX : s0.mem[r]? = some (MFrame.fresh X))
    (hobj : s0.obj = { t0 with xSampled := s0.obj.xSampled, fullResult := s0.obj.fullResult })
    (hx : s0.xRef.bind (fun x => s0.mem[x]?.map MFrame.base) = t0.xSampled) :
    (AddH.fit R cp touch r a s0).1 = (AddSteps.fit R cp { a with X := X } t0).1 ∧
    (AddH.fit R cp touch r a s0).2.obj
      = { (AddSteps.fit R cp { a with X := X } t0).2 with xSampled := s0.obj.xSampled, fullResult := s0.obj.fullResult } ∧
    (AddH.fit R cp touch r a s0).2.xRef.bind (fun x => (AddH.fit R cp touch r a s0).2.mem[x]?.map MFrame.base)
      = (AddSteps.fit R cp { a with X := X } t0).2.xSampled ∧
    ((∀ x, s0.fullRef = some x → x < s0.mem.length) → s0.fullRef.bind (fun x => s0.mem[x]?.map MFrame.cols) = t0.fullResult →
      (AddH.fit R cp touch r a s0).2.fullRef.bind (fun x => (AddH.fit R cp touch r a s0).2.mem[x]?.map MFrame.cols)
        = (AddSteps.fit R cp { a with X := X } t0).2.fullResult) ∧
    ((AddH.fit R cp touch r a s0).2.fullRef = s0.fullRef ∨ ∃ k, (AddH.fit R cp touch r a s0).2.fullRef = some k ∧ s0.mem.length ≤ k) ∧
    ∃ ext, (AddH.fit R cp touch r a s0).2.mem = s0.mem ++ ext := by
  obtain ⟨mem, xr, fr, obj⟩ := s0
  simp only at hX hobj hx
  have hrng : obj.rng = t0.rng := by rw [hobj]
  have hfs : ∀ ext : List (MFrame L F V K), (∀ x, fr = some x → x < mem.length) → (fr.bind fun x => mem[x]?.map MFrame.cols) = t0.fullResult →
      (fr.bind fun x => (mem ++ ext)[x]?.map MFrame.cols) = t0.fullResult := by
    intro ext hin hf
    cases fr with
    | none => exact hf
    | some x =>
      simp only [Option.bind_some] at hf ⊢
      rw [List.getElem?_append_left (hin x rfl)]; exact hf
  unfold AddH.fit AddSteps.fit
  simp only [hX, isData_fresh, if_true, show (MFrame.fresh (K := K) X).base = X from rfl, hrng]
  rcases hs : sampleIfNotNone R X a.n t0.rng with ⟨res, g⟩
  cases res with
  | error e =>
    refine ⟨rfl, ?_, hx, fun _ hf => hf, .inl rfl, [], by simp⟩
    simp only
    conv_lhs => rw [hobj]
  | ok Xs =>
    simp only
    -- `X_sampled` as an object
    obtain ⟨x, ext, hx1, hx2⟩ := setSample_ok (r := r) (n := a.n) (fr := fr) (xr := xr) hX hs
    simp only [hx2, AddH.x, Option.bind_some, hx1]
    have hch : PdpMethod.chooseCalc { a.toPd with X := X } Xs (callable (getPredictFunction a.model a.predictFunction))
        = PdpMethod.chooseCalc ({ a with X := X } : AddArgs L F V K).toPd Xs (callable (getPredictFunction a.model a.predictFunction)) := rfl
    rw [hch]
    cases PdpMethod.chooseCalc ({ a with X := X } : AddArgs L F V K).toPd Xs (callable (getPredictFunction a.model a.predictFunction)) with
    | error e =>
      refine ⟨rfl, ?_, by simp [hx1, MFrame.fresh], ?_, .inl rfl, ext, rfl⟩
      · simp only
        conv_lhs => rw [hobj]
      · exact hfs ext
    | ok co =>
      simp only
      obtain ⟨t', full', e1, e2, e3⟩ := calculate_heapOf (G := G) (mem0 := mem ++ ext) (b := Xs) (xs := obj.xSampled) (fr := obj.fullResult) ht hx1 cp
        (callable (getPredictFunction a.model a.predictFunction))
        { t0 with predictFn := getPredictFunction a.model a.predictFunction, model := some a.model, rng := g, xSampled := some Xs, pdc := some co }
        (Xs.frame.cols.map fun f => (f, .copied (Xs.frame.col f))) (co := co) rfl
      have hst : heapOf (mem ++ ext) Xs x obj.xSampled obj.fullResult
          { t0 with predictFn := getPredictFunction a.model a.predictFunction, model := some a.model, rng := g, xSampled := some Xs, pdc := some co }
          (Xs.frame.cols.map fun f => (f, .copied (Xs.frame.col f)))
          = (⟨mem ++ ext ++ [MFrame.fresh Xs], some x, some (mem ++ ext).length,
              { obj with predictFn := getPredictFunction a.model a.predictFunction, model := some a.model, rng := g, pdc := some co }⟩ : AddH G L F V K) := by
        have : obj.preds = t0.preds := by rw [hobj]
        have h2 : obj.index = t0.index := by rw [hobj]
        simp only [heapOf, MFrame.fresh, this, h2]
      rw [hst] at e1 e2
      rcases hc : AddH.calculate cp (callable (getPredictFunction a.model a.predictFunction)) touch
        (⟨mem ++ ext ++ [MFrame.fresh Xs], some x, some (mem ++ ext).length,
              { obj with predictFn := getPredictFunction a.model a.predictFunction, model := some a.model, rng := g, pdc := some co }⟩ : AddH G L F V K)
        with ⟨res, w⟩
      rw [hc] at e1 e2
      simp only at e1 e2
      subst e2
      simp only [e1]
      have hmx : (mem ++ ext ++ [(⟨Xs, full'⟩ : MFrame L F V K)])[x]? = some (MFrame.fresh Xs) := getElem?_ext hx1
      simp only at e3
      cases res with
      | error e =>
        refine ⟨rfl, rfl, ?_, ?_, .inr ⟨_, rfl, by simp⟩, ext ++ [⟨Xs, full'⟩], by simp [heapOf, List.append_assoc]⟩
        · simp only [heapOf, Option.bind_some, hmx, e3]; rfl
        · intro _ _; simp [heapOf]
      | ok v =>
        refine ⟨rfl, rfl, ?_, ?_, .inr ⟨_, rfl, by simp⟩, ext ++ [⟨Xs, full'⟩], by simp [heapOf, List.append_assoc]⟩
        · simp only [heapOf, Option.bind_some, hmx, e3]; rfl
        · intro _ _; simp [heapOf]

/-- C131: `AdditivityMeter.fit` changes no frame that existed before, in particular not the caller's, however it ends. -/
theorem C131_additivity (ht : ∀ Y, touch Y = Y) (s0 : AddH G L F V K) (hX : s0.mem[r]? = some (MFrame.fresh X)) :
    Untouched s0.mem (AddH.fit R cp touch r a s0).2.mem := by
  obtain ⟨-, -, -, -, -, ext, e⟩ := additivity_heap_refines (R := R) (cp := cp) (a := a) ht s0
    { s0.obj with xSampled := s0.xRef.bind (fun x => s0.mem[x]?.map MFrame.base) } hX rfl rfl
  rw [e]; exact untouched_of_append

/-- C131: a new meter returns what the computation on values returns, with the same full result; and `full_result` is an object of its own. -/
theorem C131_additivity_same_results (ht : ∀ Y, touch Y = Y) (rng : G) (mem : List (MFrame L F V K)) (hX : mem[r]? = some (MFrame.fresh X)) :
    (AddH.fit R cp touch r a ⟨mem, none, none, AddSteps.new rng⟩).1 = (AddSteps.fit R cp { a with X := X } (AddSteps.new rng)).1 ∧
    ((AddH.fit R cp touch r a ⟨mem, none, none, AddSteps.new rng⟩).2.fullRef.bind
        fun x => (AddH.fit R cp touch r a ⟨mem, none, none, AddSteps.new rng⟩).2.mem[x]?.map MFrame.cols)
      = (AddSteps.fit R cp { a with X := X } (AddSteps.new rng)).2.fullResult ∧
    (AddH.fit R cp touch r a ⟨mem, none, none, AddSteps.new rng⟩).2.fullRef ≠ some r := by
  obtain ⟨h1, -, -, h4, h5, -⟩ := additivity_heap_refines (R := R) (cp := cp) (a := a) (touch := touch) (r := r) (X := X) ht
    ⟨mem, none, none, AddSteps.new rng⟩ (AddSteps.new rng) hX rfl rfl
  refine ⟨h1, h4 (by simp) rfl, ?_⟩
  have hlt : r < mem.length := (List.getElem?_eq_some_iff.1 hX).1
  rcases h5 with h | ⟨k, h, hk⟩
  · rw [h]; simp
  · rw [h]; simp only [ne_eq, Option.some.injEq]; simp only at hk; omega

/-- C131: even with a prediction function that changes the frames it is given, at most the caller's frame itself is changed, and with `n` not
even that one. -/
theorem C131_additivity_any_model (s0 : AddH G L F V K) :
    UntouchedBut r s0.mem (AddH.fit R cp touch r a s0).2.mem ∧
    (a.n ≠ none → Untouched s0.mem (AddH.fit R cp touch r a s0).2.mem) := by
  have main : ∀ o x, s0.mem[o]? = some x → (o ≠ r ∨ a.n ≠ none) → (AddH.fit R cp touch r a s0).2.mem[o]? = some x := by
    intro o x ho hor
    have hlo : o < s0.mem.length := (List.getElem?_eq_some_iff.1 ho).1
    unfold AddH.fit
    simp only
    cases hX : s0.mem[r]? with
    | none => exact ho
    | some d =>
      simp only
      by_cases hd : d.isData = true
      · simp only [hd, if_true]
        rcases hs : sampleIfNotNone R d.base a.n s0.obj.rng with ⟨res, g⟩
        cases res with
        | error e => exact ho
        | ok Xs =>
          simp only
          obtain ⟨x', ext, hne, he⟩ : ∃ (x' : Nat) (ext : List (MFrame L F V K)), x' ≠ o ∧
              ∀ obj : AddSteps G L F V K, AddH.setSample r a.n Xs ⟨s0.mem, s0.xRef, s0.fullRef, obj⟩
                = ⟨s0.mem ++ ext, some x', s0.fullRef, obj⟩ := by
            cases hn : a.n with
            | none =>
              rcases hor with h | h
              · exact ⟨r, [], fun e => h e.symm, by simp [AddH.setSample]⟩
              · exact absurd hn h
            | some k => exact ⟨s0.mem.length, [MFrame.fresh Xs], by omega, by simp [AddH.setSample]⟩
          have hmo : (s0.mem ++ ext)[o]? = some x := getElem?_ext ho
          have hlo' : o < (s0.mem ++ ext).length := by simp; omega
          simp only [he]
          split
          · exact hmo
          · simp only [AddH.x, Option.bind_some]
            split
            · exact hmo
            · rename_i co _ _ ox hox
              obtain ⟨-, -, k3⟩ := OnlyOwn.calculate (G := G) cp (callable (getPredictFunction a.model a.predictFunction)) touch
                ⟨s0.mem ++ ext ++ [ox], some x', some (s0.mem ++ ext).length,
                  { s0.obj with predictFn := getPredictFunction a.model a.predictFunction, model := some a.model, rng := g, pdc := some co }⟩
              have k := k3 o (by simpa using hne) (by simp only [ne_eq, Option.some.injEq]; omega)
              have hmo' : (s0.mem ++ ext ++ [ox])[o]? = some x := getElem?_ext hmo
              split
              · rename_i hq; rw [hq] at k; exact k.trans hmo'
              · rename_i hq; rw [hq] at k; exact k.trans hmo'
      · simp only [hd]; exact ho
  exact ⟨fun o x h ho => main o x ho (.inl h), fun hn o x ho => main o x ho (.inr hn)⟩

end additivity

section Cases
open Ex

/-- the example model, and one that overwrites column 0 of the frames it is asked about -/
def exQuiet {K : Type} [Field K] : HModel (Fin 3) ℤ K := ⟨exPerfModel, id⟩
def exRude {K : Type} [Field K] : HModel (Fin 3) ℤ K := ⟨exPerfModel, fun Y => { Y with rows := Y.rows.map fun r => Function.update r 0 9 }⟩

/-- the values of an object's columns -/
def cells (o : Option (LFrame Nat (Fin 3) ℤ)) : Option (List (List ℤ)) := o.map fun X => X.frame.rows.map fun r => [r 0, r 1, r 2]

/-- the hypotheses of `C131_sejong` are met; the fit returns, three objects per repetition and pair and one for the importance are added, and the
first two objects are the same as before -/
example : (SejongH.fit (K := ℚ) exPerfEnv exQuiet 1 exSArgs2 5 ⟨[exPerfX, exPerfX], none, Sejong.new 0 mseM⟩).1 = .ok () ∧
    (SejongH.fit (K := ℚ) exPerfEnv exQuiet 1 exSArgs2 5 ⟨[exPerfX, exPerfX], none, Sejong.new 0 mseM⟩).2.mem.length = 6 ∧
    cells ((SejongH.fit (K := ℚ) exPerfEnv exQuiet 1 exSArgs2 5 ⟨[exPerfX, exPerfX], none, Sejong.new 0 mseM⟩).2.mem[1]?) = cells (some exPerfX) :=
  ⟨by decide +kernel, by decide +kernel, by decide +kernel⟩

/-- C131: without `n` the model is handed the caller's own frame: a model that changes what it is given changes it; with `n` it cannot. -/
theorem C131_handed_over :
    (SejongH.fit (K := ℚ) exPerfEnv exRude 0 exSArgs2 5 ⟨[exPerfX], none, Sejong.new 0 mseM⟩).1 = .ok () ∧
    cells ((SejongH.fit (K := ℚ) exPerfEnv exRude 0 exSArgs2 5 ⟨[exPerfX], none, Sejong.new 0 mseM⟩).2.mem[0]?) ≠ cells (some exPerfX) ∧
    (SejongH.fit (K := ℚ) exPerfEnv exRude 0 { exSArgs2 with n := some 3 } 5 ⟨[exPerfX], none, Sejong.new 0 mseM⟩).1 = .ok () ∧
    cells ((SejongH.fit (K := ℚ) exPerfEnv exRude 0 { exSArgs2 with n := some 3 } 5 ⟨[exPerfX], none, Sejong.new 0 mseM⟩).2.mem[0]?)
      = cells (some exPerfX) :=
  ⟨by decide +kernel, by decide +kernel, by decide +kernel, by decide +kernel⟩

/-- the meter on an object -/
example : (AddH.fit exRng 3 id 0 exStepsOk ⟨[MFrame.fresh exStepsOk.X], none, none, AddSteps.new 0⟩).1 = .ok (.fin 1) ∧
    (AddH.fit exRng 3 id 0 exStepsOk ⟨[MFrame.fresh exStepsOk.X], none, none, AddSteps.new 0⟩).2.xRef = some 0 ∧
    (AddH.fit exRng 3 id 0 exStepsOk ⟨[MFrame.fresh exStepsOk.X], none, none, AddSteps.new 0⟩).2.fullRef = some 1 :=
  ⟨by decide +kernel, by decide +kernel, by decide +kernel⟩

end Cases

end Artemis
