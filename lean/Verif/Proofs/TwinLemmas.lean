import Verif.Spec.Mixes
import Verif.Model.PdpMethod
import Verif.Model.Perf
import Verif.Proofs.Basics
import Verif.Proofs.PDCalcHist
import Verif.Proofs.FitSpec

/-!
# Two runs of the same code with two models

Helper lemmas: a program and its twin (the same program with another prediction function) keep an invariant and do the
same.
-/

set_option linter.unusedSectionVars false
set_option linter.unusedVariables false
set_option linter.unusedSimpArgs false

namespace Artemis
open Spec

/-- started in a state with the invariant, `m` keeps it and returns only values with `Q`; its twin `m'`, started in the
twin state, ends in the twin state with the same outcome -/
def Twin {σ α : Type*} (I : σ → Prop) (sw : σ → σ) (Q : α → Prop) (m m' : PyM σ α) : Prop :=
  ∀ s, I s → I (m s).2 ∧ (∀ a, (m s).1 = .ok a → Q a) ∧ m' (sw s) = ((m s).1, sw (m s).2)

section generic
variable {σ α β : Type*} {I : σ → Prop} {sw : σ → σ}

theorem Twin.ret {Q : α → Prop} {a : α} (h : Q a) : Twin I sw Q (PyM.ret a) (PyM.ret a) :=
  fun s hs => ⟨hs, fun b hb => by cases hb; exact h, rfl⟩

theorem Twin.raise {Q : α → Prop} (e : Err) : Twin I sw Q (PyM.raise e) (PyM.raise e) :=
  fun s hs => ⟨hs, fun b hb => (by cases hb), rfl⟩

theorem Twin.lift {Q : α → Prop} {e : Except Err α} (h : ∀ a, e = .ok a → Q a) : Twin I sw Q (PyM.lift e) (PyM.lift e) :=
  fun s hs => ⟨hs, h, rfl⟩

theorem Twin.seq {Q : α → Prop} {Q' : β → Prop} {m m' : PyM σ α} {k k' : α → PyM σ β} (h : Twin I sw Q m m')
    (hk : ∀ a, Q a → Twin I sw Q' (k a) (k' a)) : Twin I sw Q' (PyM.seq m k) (PyM.seq m' k') := by
  intro s hs
  obtain ⟨h1, h2, h3⟩ := h s hs
  unfold PyM.seq
  rw [h3]
  cases e : m s with
  | mk r s1 =>
    rw [e] at h1 h2
    cases r with
    | error er => exact ⟨h1, fun b hb => (by cases hb), rfl⟩
    | ok a => exact hk a (h2 a rfl) s1 h1

theorem Twin.weaken {Q Q' : α → Prop} {m m' : PyM σ α} (h : Twin I sw Q m m') (hq : ∀ a, Q a → Q' a) : Twin I sw Q' m m' :=
  fun s hs => ⟨(h s hs).1, fun a ha => hq a ((h s hs).2.1 a ha), (h s hs).2.2⟩

theorem Twin.forEach {as : List α} {b b' : α → PyM σ Unit} (h : ∀ a ∈ as, Twin I sw (fun _ => True) (b a) (b' a)) :
    Twin I sw (fun _ => True) (PyM.forEach as b) (PyM.forEach as b') := by
  induction as with
  | nil => exact Twin.ret trivial
  | cons a as ih =>
    exact Twin.seq (h a List.mem_cons_self) fun _ _ => ih fun x hx => h x (List.mem_cons_of_mem _ hx)

theorem Twin.mapList {bs : List β} {m m' : β → PyM σ α} (h : ∀ b ∈ bs, Twin I sw (fun _ => True) (m b) (m' b)) :
    Twin I sw (fun _ => True) (PyM.mapList bs m) (PyM.mapList bs m') := by
  induction bs with
  | nil => exact Twin.ret trivial
  | cons b bs ih =>
    exact Twin.seq (h b List.mem_cons_self) fun _ _ =>
      Twin.seq (ih fun x hx => h x (List.mem_cons_of_mem _ hx)) fun _ _ => Twin.ret trivial

theorem Twin.fold {Q : α → Prop} {bs : List β} {m m' : α → β → PyM σ α}
    (h : ∀ a b, Q a → Twin I sw Q (m a b) (m' a b)) {a : α} (ha : Q a) :
    Twin I sw Q (PyM.fold bs m a) (PyM.fold bs m' a) := by
  induction bs generalizing a with
  | nil => exact Twin.ret ha
  | cons b bs ih => exact Twin.seq (h a b ha) fun a' ha' => ih ha'

end generic

theorem mixes_of_mem {F V : Type} {X : Frame F V} {r : Row F V} (h : r ∈ X.rows) : Mixes X r := fun _ => ⟨r, h, rfl⟩

/-! ### the calculator -/

section calculator
variable {F V N : Type} [DecidableEq F] [LinearOrder V] [Flt N] {X : Frame F V} {p p' : PF F V N}

/-- the calculator holds observed values only and asked about mixtures of them only -/
structure OnMixes (X : Frame F V) (p : PF F V N) (c : Calc F V N) : Prop where
  predict : c.predict = p
  data : c.X = X
  single : ∀ f t, c.pdSingle.get? f = some t → ∀ v ∈ t.fValues, v ∈ X.col f
  pairs : ∀ k t, c.pdPairs.get? k = some t → (∀ v ∈ t.f1Values, v ∈ X.col k.1) ∧ ∀ v ∈ t.f2Values, v ∈ X.col k.2
  calls : ∀ rows ∈ c.calls, ∀ r ∈ rows, Mixes X r

/-- the same object with the other prediction function -/
def Calc.withPredict (p' : PF F V N) (c : Calc F V N) : Calc F V N := { c with predict := p' }

theorem mem_col_iff {f : F} {v : V} : v ∈ X.col f ↔ ∃ r0 ∈ X.rows, v = r0 f := by
  simp only [Frame.col, List.mem_map, eq_comm]

theorem mixes_update {r : Row F V} (h : Mixes X r) {f : F} {v : V} (hv : v ∈ X.col f) : Mixes X (Function.update r f v) := by
  intro h'
  by_cases e : h' = f
  · subst e
    rw [Function.update_self]
    exact mem_col_iff.1 hv
  · rw [Function.update_of_ne e]
    exact h h'

theorem mixes_blockSingle {f : F} {v : V} (hv : v ∈ X.col f) : ∀ r ∈ blockSingle X (f, v), Mixes X r := by
  intro r hr
  simp only [blockSingle, Frame.assign, List.mem_map] at hr
  obtain ⟨r0, h0, rfl⟩ := hr
  exact mixes_update (mixes_of_mem h0) hv

theorem mixes_blockPair {k : F × F} {v : V × V} (h1 : v.1 ∈ X.col k.1) (h2 : v.2 ∈ X.col k.2) :
    ∀ r ∈ blockPair X (k, v), Mixes X r := by
  intro r hr
  simp only [blockPair, Frame.assign, List.map_map, List.mem_map, Function.comp_apply] at hr
  obtain ⟨r0, h0, rfl⟩ := hr
  exact mixes_update (mixes_update (mixes_of_mem h0) h1) h2

theorem mixes_blockMinus (k : F × Nat) : ∀ r ∈ blockMinus X k, Mixes X r := by
  intro r hr
  unfold blockMinus at hr
  cases e : X.rows[k.2]? with
  | none => rw [e] at hr; cases hr
  | some ri =>
    rw [e] at hr
    simp only [List.mem_map] at hr
    obtain ⟨rj, hj, rfl⟩ := hr
    intro f
    simp only
    split
    · exact ⟨ri, List.mem_of_getElem? e, rfl⟩
    · exact ⟨rj, hj, rfl⟩

theorem onMixes_new (p : PF F V N) (X : Frame F V) (b : Int) : OnMixes X p (Calc.new p X b) := by
  refine ⟨rfl, rfl, ?_, ?_, fun rows h => by cases h⟩
  · intro f t h v hv
    have hm := Dict.mem_of_get? h
    simp only [Calc.new, List.mem_map] at hm
    obtain ⟨f', _, he⟩ := hm
    obtain ⟨rfl, rfl⟩ := Prod.mk.inj he
    exact mem_npUnique.1 hv
  · intro k t h
    have hm := Dict.mem_of_get? h
    simp only [Calc.new, List.mem_map] at hm
    obtain ⟨k', _, he⟩ := hm
    obtain ⟨rfl, rfl⟩ := Prod.mk.inj he
    exact ⟨fun v hv => mem_npUnique.1 hv, fun v hv => mem_npUnique.1 hv⟩

variable (hp : SameOnMixes X p p')
include hp

theorem twin_callPredict {rows : List (Row F V)} (hr : ∀ r ∈ rows, Mixes X r) :
    Twin (OnMixes X p) (Calc.withPredict p') (fun _ => True) (Calc.callPredict rows) (Calc.callPredict rows) := by
  intro c hc
  refine ⟨⟨hc.predict, hc.data, hc.single, hc.pairs, ?_⟩, fun _ _ => trivial, ?_⟩
  · intro rows' h
    simp only [Calc.callPredict, List.mem_append, List.mem_singleton] at h
    rcases h with h | rfl
    · exact hc.calls _ h
    · exact hr
  · simp only [Calc.callPredict, Calc.withPredict, hc.predict, hp _ _ hr]

theorem twin_storeSingle (y : List N) (e) :
    Twin (OnMixes X p) (Calc.withPredict p') (fun _ => True) (Calc.storeSingle y e) (Calc.storeSingle y e) := by
  intro c hc
  refine ⟨?_, fun _ _ => trivial, ?_⟩
  · unfold Calc.storeSingle
    cases e1 : c.pdSingle.get? e.1.1 with
    | none => exact hc
    | some t =>
      simp only
      cases e2 : getIndex t.fValues e.1.2 with
      | error _ => exact hc
      | ok i =>
        refine ⟨hc.predict, hc.data, ?_, hc.pairs, hc.calls⟩
        intro f t' h v hv
        simp only [Dict.get?_set] at h
        split at h
        · next hf => cases h; subst hf; exact hc.single _ _ e1 v hv
        · exact hc.single _ _ h v hv
  · unfold Calc.storeSingle
    simp only [Calc.withPredict]
    cases e1 : c.pdSingle.get? e.1.1 with
    | none => rfl
    | some t =>
      simp only
      cases e2 : getIndex t.fValues e.1.2 with
      | error _ => rfl
      | ok i => rfl

theorem twin_storePair (y : List N) (e) :
    Twin (OnMixes X p) (Calc.withPredict p') (fun _ => True) (Calc.storePair y e) (Calc.storePair y e) := by
  intro c hc
  refine ⟨?_, fun _ _ => trivial, ?_⟩
  · unfold Calc.storePair
    cases e1 : c.pdPairs.get? e.1.1 with
    | none => exact hc
    | some t =>
      simp only
      cases e2 : getIndex t.f1Values e.1.2.1 with
      | error _ => exact hc
      | ok i =>
        simp only
        cases e3 : getIndex t.f2Values e.1.2.2 with
        | error _ => exact hc
        | ok j =>
          refine ⟨hc.predict, hc.data, hc.single, ?_, hc.calls⟩
          intro f t' h
          simp only [Dict.get?_set] at h
          split at h
          · next hf => cases h; subst hf; have := hc.pairs _ _ e1; exact this
          · exact hc.pairs _ _ h
  · unfold Calc.storePair
    simp only [Calc.withPredict]
    cases e1 : c.pdPairs.get? e.1.1 with
    | none => rfl
    | some t =>
      simp only
      cases e2 : getIndex t.f1Values e.1.2.1 with
      | error _ => rfl
      | ok i =>
        simp only
        cases e3 : getIndex t.f2Values e.1.2.2 with
        | error _ => rfl
        | ok j => rfl

theorem twin_storeMinus (y : List N) (e) :
    Twin (OnMixes X p) (Calc.withPredict p') (fun _ => True) (Calc.storeMinus y e) (Calc.storeMinus y e) := by
  intro c hc
  refine ⟨?_, fun _ _ => trivial, ?_⟩
  · unfold Calc.storeMinus
    cases e1 : c.pdMinus.get? e.1.1 with
    | none => exact hc
    | some t => exact ⟨hc.predict, hc.data, hc.single, hc.pairs, hc.calls⟩
  · unfold Calc.storeMinus
    simp only [Calc.withPredict]
    cases e1 : c.pdMinus.get? e.1.1 with
    | none => rfl
    | some t => rfl

/-- what the loops keep: the calculator and the queue hold mixtures of observed values -/
def RunMixes {κ : Type} (X : Frame F V) (p : PF F V N) (s : Run κ F V N) : Prop :=
  OnMixes X p s.1 ∧ ∀ r ∈ s.2.xFull, Mixes X r

/-- the twin of a running calculation -/
def runTwin {κ : Type} (p' : PF F V N) (s : Run κ F V N) : Run κ F V N := (s.1.withPredict p', s.2)

variable {κ : Type} [DecidableEq κ] {fill : Loc κ F V → PyM (Calc F V N) Unit}

theorem twin_flush (hf : ∀ l : Loc κ F V, (∀ r ∈ l.xFull, Mixes X r) →
      Twin (OnMixes X p) (Calc.withPredict p') (fun _ => True) (fill l) (fill l)) :
    Twin (RunMixes X p) (runTwin p') (fun _ => True) (flush fill) (flush fill) := by
  rintro ⟨c, l⟩ ⟨hc, hl⟩
  obtain ⟨h1, _, h3⟩ := hf l hl c hc
  simp only [flush, runTwin] at *
  rw [h3]
  cases e : fill l c with
  | mk r c' =>
    rw [e] at h1
    cases r with
    | ok _ => exact ⟨⟨h1, fun r hr => by cases hr⟩, fun _ _ => trivial, rfl⟩
    | error _ => exact ⟨⟨h1, hl⟩, fun _ _ => trivial, rfl⟩

theorem twin_flushIfFull (hf : ∀ l : Loc κ F V, (∀ r ∈ l.xFull, Mixes X r) →
      Twin (OnMixes X p) (Calc.withPredict p') (fun _ => True) (fill l) (fill l)) :
    Twin (RunMixes X p) (runTwin p') (fun _ => True) (flushIfFull fill) (flushIfFull fill) := by
  intro s hs
  have := twin_flush hp hf s hs
  unfold flushIfFull
  by_cases h : (s.2.curLen : Int) > s.1.batchsize
  · have h' : ((runTwin p' s).2.curLen : Int) > (runTwin p' s).1.batchsize := h
    rw [if_pos h, if_pos h']
    exact this
  · have h' : ¬ ((runTwin p' s).2.curLen : Int) > (runTwin p' s).1.batchsize := h
    rw [if_neg h, if_neg h']
    exact ⟨hs, fun _ _ => trivial, rfl⟩

theorem twin_flushRest (hf : ∀ l : Loc κ F V, (∀ r ∈ l.xFull, Mixes X r) →
      Twin (OnMixes X p) (Calc.withPredict p') (fun _ => True) (fill l) (fill l)) :
    Twin (RunMixes X p) (runTwin p') (fun _ => True) (flushRest fill) (flushRest fill) := by
  intro s hs
  have := twin_flush hp hf s hs
  unfold flushRest
  by_cases h : s.2.curLen > 0
  · have h' : (runTwin p' s).2.curLen > 0 := h
    rw [if_pos h, if_pos h']
    exact this
  · have h' : ¬ (runTwin p' s).2.curLen > 0 := h
    rw [if_neg h, if_neg h']
    exact ⟨hs, fun _ _ => trivial, rfl⟩

theorem twin_withLoc {b : PyM (Run κ F V N) Unit} (h : Twin (RunMixes X p) (runTwin p') (fun _ => True) b b) :
    Twin (OnMixes X p) (Calc.withPredict p') (fun _ => True) (withLoc b) (withLoc b) := by
  intro c hc
  obtain ⟨h1, _, h3⟩ := h (c, Loc.empty) ⟨hc, fun r hr => by cases hr⟩
  refine ⟨h1.1, fun _ _ => trivial, ?_⟩
  simp only [runTwin] at h3
  simp only [withLoc, h3]

theorem twin_fillSingle (l : Loc (F × V) F V) (hl : ∀ r ∈ l.xFull, Mixes X r) :
    Twin (OnMixes X p) (Calc.withPredict p') (fun _ => True) (Calc.fillSingle l) (Calc.fillSingle l) :=
  Twin.seq (twin_callPredict hp hl) fun y _ => Twin.forEach fun e _ => twin_storeSingle hp y e

theorem twin_fillPairs (l : Loc ((F × F) × (V × V)) F V) (hl : ∀ r ∈ l.xFull, Mixes X r) :
    Twin (OnMixes X p) (Calc.withPredict p') (fun _ => True) (Calc.fillPairs l) (Calc.fillPairs l) :=
  Twin.seq (twin_callPredict hp hl) fun y _ => Twin.forEach fun e _ => twin_storePair hp y e

theorem twin_fillMinus (l : Loc (F × Nat) F V) (hl : ∀ r ∈ l.xFull, Mixes X r) :
    Twin (OnMixes X p) (Calc.withPredict p') (fun _ => True) (Calc.fillMinus l) (Calc.fillMinus l) :=
  Twin.seq (twin_callPredict hp hl) fun y _ => Twin.forEach fun e _ => twin_storeMinus hp y e

omit hp in
theorem mixes_foldl_add {α : Type} {as : List α} {xLen : Nat} {key : α → κ} {block : α → List (Row F V)}
    (h : ∀ a ∈ as, ∀ r ∈ block a, Mixes X r) (l : Loc κ F V) (hl : ∀ r ∈ l.xFull, Mixes X r) :
    ∀ r ∈ (as.foldl (fun l a => l.add xLen (key a) (block a)) l).xFull, Mixes X r := by
  induction as generalizing l with
  | nil => exact hl
  | cons a as ih =>
    refine ih (fun x hx => h x (List.mem_cons_of_mem _ hx)) _ ?_
    intro r hr
    simp only [Loc.add, List.mem_append] at hr
    rcases hr with hr | hr
    · exact hl r hr
    · exact h a List.mem_cons_self r hr

theorem twin_singleBody (f : F) : Twin (RunMixes X p) (runTwin p') (fun _ => True) (Calc.singleBody f) (Calc.singleBody f) := by
  rintro ⟨c, l⟩ ⟨hc, hl⟩
  unfold Calc.singleBody
  simp only [runTwin, Calc.withPredict]
  cases e1 : c.pdSingle.get? f with
  | none => exact ⟨⟨hc, hl⟩, fun _ _ => trivial, rfl⟩
  | some t =>
    simp only
    split
    · refine twin_flushIfFull hp (twin_fillSingle hp) (c, _) ⟨hc, ?_⟩
      refine mixes_foldl_add (fun v hv => ?_) l hl
      rw [hc.data]
      exact mixes_blockSingle (hc.single _ _ e1 v hv)
    · exact ⟨⟨hc, hl⟩, fun _ _ => trivial, rfl⟩

theorem twin_minusBody (f : F) : Twin (RunMixes X p) (runTwin p') (fun _ => True) (Calc.minusBody f) (Calc.minusBody f) := by
  rintro ⟨c, l⟩ ⟨hc, hl⟩
  unfold Calc.minusBody
  simp only [runTwin, Calc.withPredict]
  cases e1 : c.pdMinus.get? f with
  | none => exact ⟨⟨hc, hl⟩, fun _ _ => trivial, rfl⟩
  | some t =>
    simp only
    split
    · refine twin_flushIfFull hp (twin_fillMinus hp) (c, _) ⟨hc, ?_⟩
      refine mixes_foldl_add (fun i hi => ?_) l hl
      rw [hc.data]
      exact mixes_blockMinus _
    · exact ⟨⟨hc, hl⟩, fun _ _ => trivial, rfl⟩

omit hp in
theorem mem_of_getIndex {l : List V} {v : V} {i : Nat} (h : getIndex l v = .ok i) : v ∈ l := by
  by_contra hn
  rw [getIndex_of_not_mem hn] at h
  cases h

theorem twin_pairValueBody (k : F × F) (v : V × V) :
    Twin (RunMixes X p) (runTwin p') (fun _ => True) (Calc.pairValueBody k v) (Calc.pairValueBody k v) := by
  rintro ⟨c, l⟩ ⟨hc, hl⟩
  unfold Calc.pairValueBody
  simp only [runTwin, Calc.withPredict]
  cases e1 : c.pdPairs.get? k with
  | none => exact ⟨⟨hc, hl⟩, fun _ _ => trivial, rfl⟩
  | some t =>
    simp only
    cases e2 : getIndex t.f1Values v.1 with
    | error _ => exact ⟨⟨hc, hl⟩, fun _ _ => trivial, rfl⟩
    | ok i =>
      simp only
      cases e3 : getIndex t.f2Values v.2 with
      | error _ => exact ⟨⟨hc, hl⟩, fun _ _ => trivial, rfl⟩
      | ok j =>
        simp only
        cases e4 : (t.pdValues[i]?).bind (fun row => row[j]?) with
        | none => exact ⟨⟨hc, hl⟩, fun _ _ => trivial, rfl⟩
        | some x =>
          simp only
          split
          · refine twin_flushIfFull hp (twin_fillPairs hp) (c, _) ⟨hc, ?_⟩
            obtain ⟨h1, h2⟩ := hc.pairs _ _ e1
            intro r hr
            simp only [Loc.add, List.mem_append] at hr
            rcases hr with hr | hr
            · exact hl r hr
            · rw [hc.data] at hr
              exact mixes_blockPair (h1 _ (mem_of_getIndex e2)) (h2 _ (mem_of_getIndex e3)) r hr
          · exact ⟨⟨hc, hl⟩, fun _ _ => trivial, rfl⟩

theorem twin_pairBody (all : Bool) (q : F × F) :
    Twin (RunMixes X p) (runTwin p') (fun _ => True) (Calc.pairBody all q) (Calc.pairBody all q) := by
  intro s hs
  unfold Calc.pairBody
  have hk : (runTwin p' s).1.pairKey q = s.1.pairKey q := rfl
  have hv : ∀ k, (runTwin p' s).1.pairValues all k = s.1.pairValues all k := fun _ => rfl
  simp only [hk, hv]
  cases e : s.1.pairValues all (s.1.pairKey q) with
  | error er => exact ⟨hs, fun _ _ => trivial, rfl⟩
  | ok vs => exact Twin.forEach (fun v _ => twin_pairValueBody hp _ v) s hs

theorem twin_single (fs : Option (List F)) :
    Twin (OnMixes X p) (Calc.withPredict p') (fun _ => True) (Calc.calculateSingle fs) (Calc.calculateSingle fs) :=
  fun c hc => twin_withLoc hp (Twin.seq (Twin.forEach fun f _ => twin_singleBody hp f)
    fun _ _ => twin_flushRest hp (twin_fillSingle hp)) c hc

theorem twin_minus (fs : Option (List F)) :
    Twin (OnMixes X p) (Calc.withPredict p') (fun _ => True) (Calc.calculateMinus fs) (Calc.calculateMinus fs) :=
  fun c hc => twin_withLoc hp (Twin.seq (Twin.forEach fun f _ => twin_minusBody hp f)
    fun _ _ => twin_flushRest hp (twin_fillMinus hp)) c hc

theorem twin_pairs (ps : Option (List (F × F))) (all : Bool) :
    Twin (OnMixes X p) (Calc.withPredict p') (fun _ => True) (Calc.calculatePairs ps all) (Calc.calculatePairs ps all) :=
  fun c hc => twin_withLoc hp (Twin.seq (Twin.forEach fun f _ => twin_pairBody hp all f)
    fun _ _ => twin_flushRest hp (twin_fillPairs hp)) c hc

theorem twin_op (op : PDOp F) :
    Twin (OnMixes X p) (Calc.withPredict p') (fun _ => True) (op.run : PyM (Calc F V N) Unit) op.run := by
  cases op with
  | single fs => exact twin_single hp fs
  | pairs ps all => exact twin_pairs hp ps all
  | minus fs => exact twin_minus hp fs

theorem twin_runOps (ops : List (PDOp F)) : ∀ c : Calc F V N, OnMixes X p c →
    OnMixes X p (runOps c ops) ∧ runOps (c.withPredict p') ops = (runOps c ops).withPredict p' := by
  induction ops with
  | nil => exact fun c hc => ⟨hc, rfl⟩
  | cons op ops ih =>
    intro c hc
    obtain ⟨h1, _, h3⟩ := twin_op hp op c hc
    simp only [runOps, h3]
    exact ih _ h1

end calculator

/-! ### the performance based methods -/

section perf
variable {F V K G L : Type} [DecidableEq F] [Field K] [LinearOrder K] {X : Frame F V}
  {m m' : ModelObj F V (Num K)} {old : List (List (Row F V))}

/-- both models have a `predict` method or neither has, and the methods answer alike on mixtures of observed values -/
def PredictsAlike (X : Frame F V) (m m' : ModelObj F V (Num K)) : Prop :=
  match m.predict, m'.predict with
  | none, none => True
  | some p, some p' => SameOnMixes X p p'
  | _, _ => False

/-- all rows of a frame are mixtures of observed values -/
def FrameMixes (X Y : Frame F V) : Prop := ∀ r ∈ Y.rows, Mixes X r

/-- after the frames `old`, only mixtures of observed values were scored -/
def ScoredMixes (X : Frame F V) (old : List (List (Row F V))) (s : Scored G F V) : Prop :=
  ∃ new, s.calls = old ++ new ∧ ∀ rows ∈ new, ∀ r ∈ rows, Mixes X r

theorem npTake_mem {α : Type} {v w : List α} {q : List Nat} (h : npTake v q = .ok w) : ∀ x ∈ w, x ∈ v := by
  intro x hx
  obtain ⟨i, _, hi⟩ := exists_of_forall₂ (mapM_eq_ok h).flip hx
  cases e : v[i]? with
  | none => rw [e] at hi; cases hi
  | some y => rw [e] at hi; cases hi; exact List.mem_of_getElem? e

theorem colE_mem {Y : Frame F V} (hY : FrameMixes X Y) {f : F} {v : List V} (h : Y.colE f = .ok v) :
    ∀ x ∈ v, ∃ r0 ∈ X.rows, x = r0 f := by
  unfold Frame.colE at h
  split at h
  · cases h
    intro x hx
    simp only [Frame.col, List.mem_map] at hx
    obtain ⟨r, hr, rfl⟩ := hx
    exact hY r hr f
  · cases h

theorem setCol_mixes {Y Z : Frame F V} (hY : FrameMixes X Y) {f : F} {v : List V} (hv : ∀ x ∈ v, ∃ r0 ∈ X.rows, x = r0 f)
    (h : Y.setCol f v = .ok Z) : FrameMixes X Z := by
  unfold Frame.setCol at h
  split at h
  · cases h
    intro r hr
    rw [← List.map_uncurry_zip_eq_zipWith, List.mem_map] at hr
    obtain ⟨⟨r0, x⟩, hm, rfl⟩ := hr
    have h1 := (List.of_mem_zip hm)
    intro f'
    by_cases e : f' = f
    · subst e
      rw [Function.uncurry_apply_pair, Function.update_self]
      exact hv x h1.2
    · rw [Function.uncurry_apply_pair, Function.update_of_ne e]
      exact hY r0 h1.1 f'
  · cases h

theorem permuteCols_mixes (q : List Nat) : ∀ (fs : List F) (Y Z : Frame F V), FrameMixes X Y →
    permuteCols q fs Y = .ok Z → FrameMixes X Z := by
  intro fs
  induction fs with
  | nil => intro Y Z hY h; cases h; exact hY
  | cons f fs ih =>
    intro Y Z hY h
    simp only [permuteCols, bind, Except.bind] at h
    cases e1 : Y.colE f with
    | error _ => rw [e1] at h; cases h
    | ok v =>
      rw [e1] at h
      simp only at h
      cases e2 : npTake v q with
      | error _ => rw [e2] at h; cases h
      | ok v' =>
        rw [e2] at h
        simp only at h
        cases e3 : Y.setCol f v' with
        | error _ => rw [e3] at h; cases h
        | ok Y' =>
          rw [e3] at h
          exact ih Y' Z (setCol_mixes hY (fun x hx => colE_mem hY e1 x (npTake_mem e2 x hx)) e3) h

theorem twin_drawPerm (R : Rng G) (n : Nat) :
    Twin (ScoredMixes X old) id (fun _ => True) (drawPerm (F := F) (V := V) R n) (drawPerm R n) :=
  fun s hs => ⟨hs, fun _ _ => trivial, rfl⟩

variable (hm : PredictsAlike X m m')
include hm

theorem twin_scoreOn (M : Metric K) (y : List (Num K)) {Y : Frame F V} (hY : FrameMixes X Y) :
    Twin (ScoredMixes (G := G) X old) id (fun _ => True) (scoreOn m M y Y) (scoreOn m' M y Y) := by
  refine Twin.seq (Q := fun _ => True) ?_ fun _ _ => Twin.lift fun _ _ => trivial
  intro s hs
  unfold PredictsAlike at hm
  unfold predictOn
  cases e : m.predict with
  | none =>
    cases e' : m'.predict with
    | none => exact ⟨hs, fun _ _ => trivial, rfl⟩
    | some p' => rw [e, e'] at hm; exact hm.elim
  | some p =>
    cases e' : m'.predict with
    | none => rw [e, e'] at hm; exact hm.elim
    | some p' =>
      rw [e, e'] at hm
      refine ⟨?_, fun _ _ => trivial, ?_⟩
      · obtain ⟨new, hn, hs⟩ := hs
        refine ⟨new ++ [Y.rows], by simp only [hn, List.append_assoc], ?_⟩
        intro rows h
        simp only [List.mem_append, List.mem_singleton] at h
        rcases h with h | rfl
        · exact hs _ h
        · exact hY
      · simp only [id, hm _ _ hY]

theorem twin_permuteScore (R : Rng G) (M : Metric K) (y : List (Num K)) (fs : List F) (ref : Num K) :
    Twin (ScoredMixes X old) id (fun _ => True) (permuteScore R m M y X fs ref) (permuteScore R m' M y X fs ref) :=
  Twin.seq (twin_drawPerm R _) fun q _ =>
    Twin.seq (Q := FrameMixes X) (Twin.lift fun Z hZ => permuteCols_mixes q fs X Z (fun _ => mixes_of_mem) hZ) fun Z hZ =>
      Twin.seq (twin_scoreOn hm M y hZ) fun _ _ => Twin.ret trivial

theorem twin_interScore (R : Rng G) (M : Metric K) (y : List (Num K)) (f1 f2 : F) (ref : Num K) :
    Twin (ScoredMixes X old) id (fun _ => True) (interScore R m M y X f1 f2 ref) (interScore R m' M y X f1 f2 ref) :=
  Twin.seq (twin_permuteScore hm R M y _ _) fun _ _ => Twin.seq (twin_permuteScore hm R M y _ _) fun _ _ =>
    Twin.seq (twin_permuteScore hm R M y _ _) fun _ _ => Twin.ret trivial

theorem twin_perfOvo (sort) (R : Rng G) (M : Metric K) (y : List (Num K)) (pairs : List (F × F)) (n : Nat) :
    Twin (ScoredMixes X old) id (fun _ => True) (perfOvo sort R m M y X pairs n) (perfOvo sort R m' M y X pairs n) :=
  Twin.seq (twin_scoreOn hm M y fun _ => mixes_of_mem) fun ref _ =>
    Twin.seq (Twin.mapList fun q _ => Twin.seq (Twin.mapList fun _ _ =>
      Twin.seq (twin_interScore hm R M y _ _ ref) fun _ _ => Twin.ret trivial) fun _ _ => Twin.ret trivial) fun _ _ =>
        Twin.ret trivial

theorem twin_corruptStep (R : Rng G) (M : Metric K) (y : List (Num K)) (acc : Frame F V × Dict F (List (Num K))) (f : F)
    (hacc : FrameMixes X acc.1) :
    Twin (ScoredMixes X old) id (fun b : Frame F V × Dict F (List (Num K)) => FrameMixes X b.1)
      (corruptStep R m M y X acc f) (corruptStep R m' M y X acc f) :=
  Twin.seq (Q := fun v => ∀ x ∈ v, ∃ r0 ∈ X.rows, x = r0 f) (Twin.lift fun v hv => colE_mem hacc hv) fun v hv =>
  Twin.seq (twin_drawPerm R _) fun q _ =>
  Twin.seq (Q := fun v => ∀ x ∈ v, ∃ r0 ∈ X.rows, x = r0 f)
    (Twin.lift fun w hw x hx => hv x (npTake_mem hw x hx)) fun w hw =>
  Twin.seq (Q := FrameMixes X) (Twin.lift fun Z hZ => setCol_mixes hacc hw hZ) fun Z hZ =>
  Twin.seq (twin_scoreOn hm M y hZ) fun sc _ => by
    cases acc.2.get? f with
    | none => exact Twin.raise _
    | some l =>
      exact Twin.seq (Q := fun v => ∀ x ∈ v, ∃ r0 ∈ X.rows, x = r0 f)
        (Twin.lift fun v hv => colE_mem (Y := X) (fun _ => mixes_of_mem) hv) fun o ho =>
        Twin.seq (Q := FrameMixes X) (Twin.lift fun W hW => setCol_mixes hZ ho hW) fun W hW => Twin.ret hW

theorem twin_permImportance (sort) (R : Rng G) (M : Metric K) (y : List (Num K)) (features : Option (List F)) (n : Nat) :
    Twin (ScoredMixes X old) id (fun _ => True) (permImportance sort R m M y X features n)
      (permImportance sort R m' M y X features n) :=
  Twin.seq (twin_scoreOn hm M y fun _ => mixes_of_mem) fun base _ => by
    cases features with
    | none => exact Twin.raise _
    | some fs =>
      refine Twin.seq (Q := fun _ => True) (Twin.seq (Q := fun b => FrameMixes X b.1)
        (Twin.fold (fun a _ ha => Twin.fold (fun b f hb => twin_corruptStep hm R M y b f hb) ha)
          (fun _ => mixes_of_mem)) fun _ _ => Twin.ret trivial) fun d _ => ?_
      split
      · exact Twin.raise _
      · exact Twin.ret trivial

end perf
end Artemis
