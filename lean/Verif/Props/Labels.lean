import Verif.Model.Additivity
import Verif.Model.PdImportance
import Verif.Props.Sejong

/-!
# C123: row labels do not matter
-/

set_option linter.unusedSectionVars false
set_option linter.unusedVariables false
set_option linter.unusedSimpArgs false

namespace Artemis
open Spec

namespace Spec
variable {F V K G L L' : Type} [DecidableEq F] [LinearOrder V] [Field K] [LinearOrder K]

/-- everything a user can read off a fitted H-statistic or Greenwell object, row labels aside -/
structure SameView (s : PdpMethod G L F V K) (s' : PdpMethod G L' F V K) : Prop where
  rng : s.rng = s'.rng
  model : s.model = s'.model
  predictFn : s.predictFn = s'.predictFn
  data : s.xSampled.map LFrame.frame = s'.xSampled.map LFrame.frame
  features : s.features = s'.features
  pairs : s.pairs = s'.pairs
  pdc : s.pdc.map (fun co => (co.modelId, co.obj)) = s'.pdc.map (fun co => (co.modelId, co.obj))
  ovo : s.ovo = s'.ovo
  ova : s.ova = s'.ova
  importance : s.importance = s'.importance
  impObj : s.impObj = s'.impObj

/-- the same call on the same data with other row labels -/
structure SameCall (a : PdArgs L F V K) (a' : PdArgs L' F V K) : Prop where
  model : a.model = a'.model
  data : a.X.frame = a'.X.frame
  n : a.n = a'.n
  predictFunction : a.predictFunction = a'.predictFunction
  features : a.features = a'.features
  batchsize : a.batchsize = a'.batchsize
  ova : a.calculateOva = a'.calculateOva
  own : a.pdCalculator = none
  own' : a'.pdCalculator = none

/-- data and targets belong together row by row: an array of targets beside the labels 0, 1, 2, …, or a Series with the labels of the data,
each label once -/
def Fits (toInt : L → Option Int) (X : LFrame L F V) (y : Target L K) : Prop :=
  X.labels.length = X.frame.rows.length ∧ y.values.length = X.frame.rows.length ∧
    ((∃ v, y = .array v ∧ ∀ (i : Nat) l, X.labels[i]? = some l → toInt l = some (i : Int)) ∨
      (∃ v, y = .series X.labels v ∧ X.labels.Nodup))
end Spec

section helpers
variable {F V K G L L' : Type} [DecidableEq F] [LinearOrder V] [Field K] [LinearOrder K] [DecidableEq L] [DecidableEq L']

theorem sample_view (R : Rng G) {X : LFrame L F V} {X' : LFrame L' F V} (h : X.frame = X'.frame) (n : Option Nat) (g : G) :
    (∃ e g', sampleIfNotNone R X n g = (.error e, g') ∧ sampleIfNotNone R X' n g = (.error e, g')) ∨
    (∃ Xs Xs' g', sampleIfNotNone R X n g = (.ok Xs, g') ∧ sampleIfNotNone R X' n g = (.ok Xs', g') ∧ Xs.frame = Xs'.frame) := by
  cases n with
  | none => exact Or.inr ⟨X, X', g, rfl, rfl, h⟩
  | some k =>
    unfold sampleIfNotNone
    simp only [h]
    split
    · exact Or.inl ⟨_, _, rfl, rfl⟩
    · exact Or.inr ⟨_, _, _, rfl, rfl, by simp only [LFrame.iloc, h]⟩

variable [HasSqrt K]

theorem onCalc_view {α : Type} (m : PyM (Calc F V (Num K)) α) {s : PdpMethod G L F V K} {s' : PdpMethod G L' F V K} (h : SameView s s') :
    (PdpMethod.onCalc m s).1 = (PdpMethod.onCalc m s').1 ∧ SameView (PdpMethod.onCalc m s).2 (PdpMethod.onCalc m s').2 := by
  obtain ⟨a1, a2, a3, a4, a5, a6, a7, a8, a9, a10, a11⟩ := s
  obtain ⟨b1, b2, b3, b4, b5, b6, b7, b8, b9, b10, b11⟩ := s'
  obtain ⟨h1, h2, h3, h4, h5, h6, h7, h8, h9, h10, h11⟩ := h
  simp only at h1 h2 h3 h4 h5 h6 h7 h8 h9 h10 h11
  unfold PdpMethod.onCalc
  cases a7 with
  | none =>
    cases b7 with
    | none => exact ⟨rfl, h1, h2, h3, h4, h5, h6, rfl, h8, h9, h10, h11⟩
    | some _ => cases h7
  | some co =>
    cases b7 with
    | none => cases h7
    | some co' =>
      obtain ⟨c1, c2, c3⟩ := co
      obtain ⟨d1, d2, d3⟩ := co'
      simp only [Option.map_some, Option.some.injEq, Prod.mk.injEq] at h7
      obtain ⟨rfl, rfl⟩ := h7
      exact ⟨rfl, h1, h2, h3, h4, h5, h6, rfl, h8, h9, h10, h11⟩

theorem onCalc_labels {α : Type} (m : PyM (Calc F V (Num K)) α) (s : PdpMethod G L F V K) :
    (PdpMethod.onCalc m s).2.xSampled = s.xSampled ∧ (PdpMethod.onCalc m s).2.features = s.features := by
  unfold PdpMethod.onCalc
  split <;> exact ⟨rfl, rfl⟩

theorem fitBase_view (kind : PdKind) (E : PdEnv G F K) {a : PdArgs L F V K} {a' : PdArgs L' F V K} {s : PdpMethod G L F V K}
    {s' : PdpMethod G L' F V K} (ha : SameCall a a') (h : SameView s s') :
    (PdpMethod.fitBase kind E a s).1 = (PdpMethod.fitBase kind E a' s').1 ∧
      SameView (PdpMethod.fitBase kind E a s).2 (PdpMethod.fitBase kind E a' s').2 ∧
      ((PdpMethod.fitBase kind E a s).1 = .ok () → ∃ Xs Xs' fs, (PdpMethod.fitBase kind E a s).2.xSampled = some Xs ∧
        (PdpMethod.fitBase kind E a' s').2.xSampled = some Xs' ∧ Xs.frame = Xs'.frame ∧
        (PdpMethod.fitBase kind E a s).2.features = some fs ∧ (PdpMethod.fitBase kind E a' s').2.features = some fs) := by
  unfold PdpMethod.fitBase PdpMethod.chooseCalc
  simp only [ha.own, ha.own', ← h.rng, ← ha.n, ← ha.model, ← ha.predictFunction, ← ha.batchsize, ← ha.features, ← ha.data]
  rcases sample_view E.R ha.data a.n s.rng with ⟨e, g', h1, h2⟩ | ⟨Xs, Xs', g', h1, h2, h3⟩
  · rw [h1, h2]
    exact ⟨rfl, ⟨rfl, rfl, rfl, h.data, h.features, h.pairs, h.pdc, h.ovo, h.ova, h.importance, h.impObj⟩, fun hk => by cases hk⟩
  · rw [h1, h2]
    simp only [← h3]
    generalize hfs : allIfNone a.X.frame.cols a.features = fs
    generalize hpf : callable (getPredictFunction a.model a.predictFunction) = pf
    obtain ⟨k1, k2⟩ := onCalc_view (kind.ovo E Xs.frame fs (combinations2 fs))
      (s := { s with
        predictFn := getPredictFunction a.model a.predictFunction
        model := some a.model
        rng := g'
        xSampled := some Xs
        features := some fs
        pairs := some (combinations2 fs)
        pdc := some ⟨a.model.ident, Xs.labels, Calc.new pf Xs.frame a.batchsize⟩ })
      (s' := { s' with
        predictFn := getPredictFunction a.model a.predictFunction
        model := some a.model
        rng := g'
        xSampled := some Xs'
        features := some fs
        pairs := some (combinations2 fs)
        pdc := some ⟨a.model.ident, Xs'.labels, Calc.new pf Xs.frame a.batchsize⟩ })
      ⟨rfl, rfl, rfl, by simp only [Option.map_some, h3], rfl, rfl, rfl, h.ovo, h.ova, h.importance, h.impObj⟩
    have kx := onCalc_labels (kind.ovo E Xs.frame fs (combinations2 fs))
      { s with
        predictFn := getPredictFunction a.model a.predictFunction
        model := some a.model
        rng := g'
        xSampled := some Xs
        features := some fs
        pairs := some (combinations2 fs)
        pdc := some ⟨a.model.ident, Xs.labels, Calc.new pf Xs.frame a.batchsize⟩ }
    have kx' := onCalc_labels (kind.ovo E Xs.frame fs (combinations2 fs))
      { s' with
        predictFn := getPredictFunction a.model a.predictFunction
        model := some a.model
        rng := g'
        xSampled := some Xs'
        features := some fs
        pairs := some (combinations2 fs)
        pdc := some ⟨a.model.ident, Xs'.labels, Calc.new pf Xs.frame a.batchsize⟩ }
    revert k1 k2 kx kx'
    generalize PdpMethod.onCalc (kind.ovo E Xs.frame fs (combinations2 fs))
      { s with
        predictFn := getPredictFunction a.model a.predictFunction
        model := some a.model
        rng := g'
        xSampled := some Xs
        features := some fs
        pairs := some (combinations2 fs)
        pdc := some ⟨a.model.ident, Xs.labels, Calc.new pf Xs.frame a.batchsize⟩ } = o
    generalize PdpMethod.onCalc (kind.ovo E Xs.frame fs (combinations2 fs))
      { s' with
        predictFn := getPredictFunction a.model a.predictFunction
        model := some a.model
        rng := g'
        xSampled := some Xs'
        features := some fs
        pairs := some (combinations2 fs)
        pdc := some ⟨a.model.ident, Xs'.labels, Calc.new pf Xs.frame a.batchsize⟩ } = o'
    intro k1 k2 kx kx'
    obtain ⟨r, t⟩ := o
    obtain ⟨r', t'⟩ := o'
    simp only at k1 k2 kx kx'
    subst k1
    cases r with
    | error e => exact ⟨rfl, k2, fun hk => by cases hk⟩
    | ok ovo =>
      simp only
      have k3 : SameView { t with ovo := some ovo, impObj := true } { t' with ovo := some ovo, impObj := true } :=
        ⟨k2.rng, k2.model, k2.predictFn, k2.data, k2.features, k2.pairs, k2.pdc, rfl, k2.ova, k2.importance, rfl⟩
      obtain ⟨m1, m2⟩ := onCalc_view (pdpImportance E.sortFeat (numIn E fs) fs) k3
      have mx := onCalc_labels (pdpImportance E.sortFeat (numIn E fs) fs) { t with ovo := some ovo, impObj := true }
      have mx' := onCalc_labels (pdpImportance E.sortFeat (numIn E fs) fs) { t' with ovo := some ovo, impObj := true }
      revert m1 m2 mx mx'
      generalize PdpMethod.onCalc (pdpImportance E.sortFeat (numIn E fs) fs) { t with ovo := some ovo, impObj := true } = q
      generalize PdpMethod.onCalc (pdpImportance E.sortFeat (numIn E fs) fs) { t' with ovo := some ovo, impObj := true } = q'
      intro m1 m2 mx mx'
      obtain ⟨r, u⟩ := q
      obtain ⟨r', u'⟩ := q'
      simp only at m1 m2 mx mx'
      subst m1
      cases r with
      | error e => exact ⟨rfl, m2, fun hk => by cases hk⟩
      | ok imp =>
        refine ⟨rfl, ⟨m2.rng, m2.model, m2.predictFn, m2.data, m2.features, m2.pairs, m2.pdc, m2.ovo, m2.ova, rfl, m2.impObj⟩, fun _ =>
          ⟨Xs, Xs', fs, ?_, ?_, h3, ?_, ?_⟩⟩
        · exact mx.1.trans kx.1
        · exact mx'.1.trans kx'.1
        · exact mx.2.trans kx.2
        · exact mx'.2.trans kx'.2

theorem sampleBoth_view [IsStrictOrderedRing K] {R : Rng G} (hR : R.Lawful) {toInt : L → Option Int} {toInt' : L' → Option Int} {X : LFrame L F V} {X' : LFrame L' F V}
    {y : Target L K} {y' : Target L' K} (hX : X.frame = X'.frame) (hy : y.values = y'.values) (n : Option Nat)
    (hf : n = none ∨ (Fits toInt X y ∧ Fits toInt' X' y')) (g : G) :
    (∃ e g', sampleBoth R toInt X y n g = (.error e, g') ∧ sampleBoth R toInt' X' y' n g = (.error e, g')) ∨
    (∃ Xs Xs' ys ys' g', sampleBoth R toInt X y n g = (.ok (Xs, ys), g') ∧ sampleBoth R toInt' X' y' n g = (.ok (Xs', ys'), g') ∧
      Xs.frame = Xs'.frame ∧ ys.values = ys'.values) := by
  cases n with
  | none => exact Or.inr ⟨X, X', y, y', g, rfl, rfl, hX, hy⟩
  | some k =>
    rcases hf with hf | ⟨hf, hf'⟩
    · cases hf
    by_cases hk : X.frame.len < k
    · refine Or.inl ⟨.valueError, g, ?_, ?_⟩
      · simp only [sampleBoth, sampleIfNotNone, if_pos hk]
      · simp only [sampleBoth, sampleIfNotNone, ← hX, if_pos hk]
    · have one : ∀ {M : Type} [DecidableEq M] {ti : M → Option Int} {Z : LFrame M F V} {w : Target M K} (hf : Fits ti Z w), ¬ Z.frame.len < k →
          ∃ ws, sampleBoth R ti Z w (some k) g = (.ok (Z.iloc (R.sample g Z.frame.len k).1, ws), (R.sample g Z.frame.len k).2) ∧
            ws.values = (R.sample g Z.frame.len k).1.filterMap (fun i => w.values[i]?) := by
        intro M _ ti Z w ⟨f1, f2, f3⟩ hk
        have hlt := hR.sample_lt g Z.frame.len k (Nat.le_of_not_lt hk)
        have hlen : Z.frame.len = Z.frame.rows.length := rfl
        rcases f3 with ⟨v, hv, hl⟩ | ⟨v, hv, hnd⟩
        · subst hv
          have hvl : v.length = Z.frame.rows.length := f2
          have h := getIndex_array ti v Z.labels hl (by omega) (R.sample g Z.frame.len k).1 (by rw [hvl]; exact hlt)
          refine ⟨.array ((R.sample g Z.frame.len k).1.filterMap (fun i => v[i]?)), ?_, rfl⟩
          simp only [sampleBoth, sampleIfNotNone, if_neg hk, Target.getIndex]
          have h' : (Z.iloc (R.sample g Z.frame.len k).1).labels.mapM (labelAsPos ti v) = _ := h
          rw [h']
          rfl
        · subst hv
          have hvl : v.length = Z.frame.rows.length := f2
          obtain ⟨r, hr1, hr2⟩ := getIndex_series v Z.labels hnd (by omega) (R.sample g Z.frame.len k).1 (by rw [hvl]; exact hlt)
          refine ⟨.series (r.flatten.map Prod.fst) (r.flatten.map Prod.snd), ?_, hr2⟩
          simp only [sampleBoth, sampleIfNotNone, if_neg hk, Target.getIndex]
          have h' : (Z.iloc (R.sample g Z.frame.len k).1).labels.mapM (labelHits Z.labels v) = _ := hr1
          rw [h']
          rfl
      obtain ⟨ws, h1, h2⟩ := one hf hk
      obtain ⟨ws', h1', h2'⟩ := one hf' (by rw [← hX]; exact hk)
      rw [← hX] at h1' h2'
      exact Or.inr ⟨_, _, _, _, _, h1, h1', by simp only [LFrame.iloc, hX], by rw [h2, h2', hy]⟩

end helpers

section pd
variable {F V K G L L' : Type} [DecidableEq F] [LinearOrder V] [Field K] [LinearOrder K] [DecidableEq L] [DecidableEq L'] [HasSqrt K]

/-- **C123, H-statistic and Greenwell.** Two calls on the same rows whose labels (even the type of the labels) differ have the same outcome
and leave the same tables behind — whatever the model, and also if an exception occurs. -/
theorem C123_pd_methods_partial (kind : PdKind) (E : PdEnv G F K) {a : PdArgs L F V K} {a' : PdArgs L' F V K} {s : PdpMethod G L F V K}
    {s' : PdpMethod G L' F V K} (ha : SameCall a a') (h : SameView s s') :
    (PdpMethod.fit kind E a s).1 = (PdpMethod.fit kind E a' s').1 ∧ SameView (PdpMethod.fit kind E a s).2 (PdpMethod.fit kind E a' s').2 := by
  obtain ⟨h1, h2, h3⟩ := fitBase_view kind E ha h
  unfold PdpMethod.fit
  revert h1 h2 h3
  generalize PdpMethod.fitBase kind E a s = o
  generalize PdpMethod.fitBase kind E a' s' = o'
  intro h1 h2 h3
  obtain ⟨r, t⟩ := o
  obtain ⟨r', t'⟩ := o'
  simp only at h1 h2 h3
  subst h1
  cases r with
  | error e => exact ⟨rfl, h2⟩
  | ok _ =>
    obtain ⟨Xs, Xs', fs, e1, e2, e3, e4, e5⟩ := h3 rfl
    cases kind with
    | greenwell => exact ⟨rfl, h2⟩
    | friedman normalized =>
      simp only [← ha.ova]
      cases a.calculateOva with
      | false => exact ⟨rfl, h2⟩
      | true =>
        simp only [e1, e2, e4, e5, ← e3, ← h2.predictFn, if_true]
        obtain ⟨m1, m2⟩ := onCalc_view (hstatOva E.sortFeat (callable t.predictFn) normalized Xs.frame fs) h2
        revert m1 m2
        generalize PdpMethod.onCalc (hstatOva E.sortFeat (callable t.predictFn) normalized Xs.frame fs) t = q
        generalize PdpMethod.onCalc (hstatOva E.sortFeat (callable t.predictFn) normalized Xs.frame fs) t' = q'
        intro m1 m2
        obtain ⟨r, u⟩ := q
        obtain ⟨r', u'⟩ := q'
        simp only at m1 m2
        subst m1
        cases r with
        | error e => exact ⟨rfl, m2⟩
        | ok ova => exact ⟨rfl, m2.rng, m2.model, m2.predictFn, m2.data, m2.features, m2.pairs, m2.pdc, m2.ovo, rfl, m2.importance, m2.impObj⟩

/-- **C123, stand-alone importance.** -/
theorem C123_pd_importance_partial (E : PdEnv G F K) {a : PdArgs L F V K} {a' : PdArgs L' F V K} {s : PdImpObj G L F V K}
    {s' : PdImpObj G L' F V K} (ha : SameCall a a') (hr : s.rng = s'.rng) (hi : s.importance = s'.importance) :
    (PdImpObj.run E a s).1 = (PdImpObj.run E a' s').1 ∧ (PdImpObj.run E a s).2.rng = (PdImpObj.run E a' s').2.rng ∧
      (PdImpObj.run E a s).2.importance = (PdImpObj.run E a' s').2.importance := by
  unfold PdImpObj.run PdpMethod.chooseCalc
  simp only [ha.own, ha.own', ← hr, ← ha.n, ← ha.model, ← ha.predictFunction, ← ha.batchsize, ← ha.features, ← ha.data]
  rcases sample_view E.R ha.data a.n s.rng with ⟨e, g', h1, h2⟩ | ⟨Xs, Xs', g', h1, h2, h3⟩
  · rw [h1, h2]
    exact ⟨rfl, rfl, hi⟩
  · rw [h1, h2]
    simp only [← h3]
    cases pdpImportance E.sortFeat (numIn E (allIfNone a.X.frame.cols a.features)) (allIfNone a.X.frame.cols a.features)
        (Calc.new (callable (getPredictFunction a.model a.predictFunction)) Xs.frame a.batchsize) with
    | mk r c =>
      cases r with
      | error e => exact ⟨rfl, rfl, hi⟩
      | ok imp => exact ⟨rfl, rfl, rfl⟩

/-- **C123, additivity meter.** -/
theorem C123_additivity_partial (R : Rng G) (cp : F) {a : AddArgs L F V K} {a' : AddArgs L' F V K} {s : AddMeter G L F V K}
    {s' : AddMeter G L' F V K} (ha : SameCall a.toPd a'.toPd) (hr : s.rng = s'.rng) (hi : s.index = s'.index)
    (hf : s.fullResult = s'.fullResult) (hp : s.preds = s'.preds) :
    (AddMeter.fit R cp a s).1 = (AddMeter.fit R cp a' s').1 ∧ (AddMeter.fit R cp a s).2.rng = (AddMeter.fit R cp a' s').2.rng ∧
      (AddMeter.fit R cp a s).2.index = (AddMeter.fit R cp a' s').2.index ∧
      (AddMeter.fit R cp a s).2.fullResult = (AddMeter.fit R cp a' s').2.fullResult ∧
      (AddMeter.fit R cp a s).2.preds = (AddMeter.fit R cp a' s').2.preds := by
  obtain ⟨h1, h2, h3, h4, h5, h6, h7, h8, h9⟩ := ha
  simp only [AddArgs.toPd] at h1 h2 h3 h4 h5 h6 h7 h8 h9
  unfold AddMeter.fit PdpMethod.chooseCalc
  simp only [AddArgs.toPd, h8, h9, ← hr, ← h3, ← h1, ← h4, ← h6]
  rcases sample_view R h2 a.n s.rng with ⟨e, g', k1, k2⟩ | ⟨Xs, Xs', g', k1, k2, k3⟩
  · rw [k1, k2]
    exact ⟨rfl, rfl, hi, hf, hp⟩
  · rw [k1, k2]
    simp only [← k3]
    cases calcAdditivity cp (callable (getPredictFunction a.model a.predictFunction)) Xs.frame
        (Calc.new (callable (getPredictFunction a.model a.predictFunction)) Xs.frame a.batchsize) with
    | mk r c =>
      cases r with
      | error e => exact ⟨rfl, rfl, hi, hf, hp⟩
      | ok out => exact ⟨rfl, rfl, rfl, rfl, rfl⟩

end pd

section perf
variable {F V K G L L' : Type} [DecidableEq F] [LinearOrder V] [Field K] [LinearOrder K] [DecidableEq L] [DecidableEq L'] [HasSqrt K]

/-- **C123, Sejong Oh's method.** The same rows and targets, labelled in two ways that both fit (or explained without drawing a sample, and
then labelled in any way at all): the same outcome, the same tables, the same frames scored, the generator in the same state. -/
theorem C123_sejong [IsStrictOrderedRing K] {E : PerfEnv G L F K} {E' : PerfEnv G L' F K} (hR : E.R.Lawful) (hE : E.R = E'.R ∧ E.sortOvo = E'.sortOvo ∧ E.sortFeat = E'.sortFeat)
    {a : SejongArgs L F V K} {a' : SejongArgs L' F V K} (hm : a.model = a'.model) (hX : a.X.frame = a'.X.frame) (hy : a.y.values = a'.y.values)
    (hn : a.n = a'.n) (hrep : a.nRepeat = a'.nRepeat) (hfs : a.features = a'.features)
    (hfit : a.n = none ∨ (Fits E.toInt a.X a.y ∧ Fits E'.toInt a'.X a'.y)) (ent : G)
    {s : Sejong G L F V K} {s' : Sejong G L' F V K} (hr : s.rng = s'.rng) (hM : s.metric = s'.metric) (ho : s.ovo = s'.ovo)
    (hi : s.importance = s'.importance) (hc : s.calls = s'.calls) :
    (Sejong.fit E a ent s).1 = (Sejong.fit E' a' ent s').1 ∧ (Sejong.fit E a ent s).2.rng = (Sejong.fit E' a' ent s').2.rng ∧
      (Sejong.fit E a ent s).2.ovo = (Sejong.fit E' a' ent s').2.ovo ∧
      (Sejong.fit E a ent s).2.importance = (Sejong.fit E' a' ent s').2.importance ∧
      (Sejong.fit E a ent s).2.calls = (Sejong.fit E' a' ent s').2.calls := by
  obtain ⟨R, ti, so, sf⟩ := E
  obtain ⟨R', ti', so', sf'⟩ := E'
  obtain ⟨e1, e2, e3⟩ := hE
  simp only at e1 e2 e3 hR hfit
  subst e1 e2 e3
  unfold Sejong.fit PermObj.run
  simp only [← hr, ← hM, ← hn, ← hm, ← hrep, ← hfs, ← hX, ← hc]
  rcases sampleBoth_view hR hX hy a.n hfit s.rng with ⟨e, g', k1, k2⟩ | ⟨Xs, Xs', ys, ys', g', k1, k2, k3, k4⟩
  · rw [k1, k2]
    exact ⟨rfl, rfl, ho, hi, rfl⟩
  · rw [k1, k2]
    simp only [← k3, ← k4]
    cases perfOvo so R a.model s.metric ys.values Xs.frame (combinations2 (allIfNone a.X.frame.cols a.features)) a.nRepeat ⟨g', s.calls⟩ with
    | mk r w =>
      cases r with
      | error e => exact ⟨rfl, rfl, ho, hi, rfl⟩
      | ok ovo =>
        simp only
        cases permImportance sf R a.model s.metric ys.values Xs.frame (some (allIfNone a.X.frame.cols a.features)) a.nRepeat ⟨ent, w.calls⟩ with
        | mk r w' =>
          cases r with
          | error e => exact ⟨rfl, rfl, rfl, hi, rfl⟩
          | ok imp => exact ⟨rfl, rfl, rfl, rfl, rfl⟩

/-- **C123, stand-alone permutation importance**: labels are never used. -/
theorem C123_permutation_importance (sort : List (FeatRow F K) → List (FeatRow F K)) (R : Rng G) (model : ModelObj F V (Num K))
    {X : LFrame L F V} {X' : LFrame L' F V} (hX : X.frame = X'.frame) {y : Target L K} {y' : Target L' K} (hy : y.values = y'.values)
    (nRepeat : Nat) (features : Option (List F)) (o : PermObj G F K) (calls : List (List (Row F V))) :
    PermObj.run sort R model X y nRepeat features o calls = PermObj.run sort R model X' y' nRepeat features o calls := by
  unfold PermObj.run
  rw [hX, hy]

end perf

section Cases
open Ex

/-- the data of the running example with text labels -/
def exArgsText : PdArgs String (Fin 3) ℤ ℚ where
  model := exModel
  X := ⟨exLX.labels.map (fun i => s!"r{i}"), exLX.frame⟩
  n := none
  predictFunction := none
  features := none
  batchsize := 7
  pdCalculator := none
  calculateOva := true

example : SameCall (exArgs (K := ℚ)) exArgsText := ⟨rfl, rfl, rfl, rfl, rfl, rfl, rfl, rfl, rfl⟩

/-- rows labelled 7, 5, 6 with a Series of targets, against rows labelled 0, 1, 2 with an array -/
example : Fits (fun l : Nat => some (l : Int)) (⟨[7, 5, 6], exPerfX.frame⟩ : LFrame Nat (Fin 3) ℤ) (.series [7, 5, 6] [.fin (5 : ℚ), .fin 6, .fin 7]) ∧
    Fits (fun l : Nat => some (l : Int)) (⟨[0, 1, 2], exPerfX.frame⟩ : LFrame Nat (Fin 3) ℤ) (.array [.fin (5 : ℚ), .fin 6, .fin 7]) := by
  refine ⟨⟨rfl, rfl, Or.inr ⟨_, rfl, by decide⟩⟩, ⟨rfl, rfl, Or.inl ⟨_, rfl, ?_⟩⟩⟩
  intro i l h
  match i, h with
  | 0, h => cases h; rfl
  | 1, h => cases h; rfl
  | 2, h => cases h; rfl

/-- **the condition is needed**: the rows of `C28_fails_silently`, labelled 1, 2, 0 and 0, 1, 2, the same array of targets, two different tables -/
theorem C123_needs_fitting_labels :
    ((Sejong.fit (K := ℚ) exPerfEnv exSArgs4 0 (Sejong.new 0 mseM)).2.ovo).map (fun t => t.map OvoRow.val) ≠
    ((Sejong.fit (K := ℚ) exPerfEnv { exSArgs4 with X := ⟨[0, 1, 2], exPerfX.frame⟩ } 0 (Sejong.new 0 mseM)).2.ovo).map (fun t => t.map OvoRow.val) := by
  decide +kernel

end Cases
end Artemis
