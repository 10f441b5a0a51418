import Verif.Model.Keywords
import Verif.Proofs.MissingLemmas
import Verif.Proofs.PDCalcObs

/-!
# Partial dependence code on frames with arbitrary column names

Helper lemmas.
-/

set_option linter.unusedSectionVars false
set_option linter.unusedVariables false
set_option linter.unusedSimpArgs false

namespace Artemis
open Spec

/-! ### the only difference is a `TypeError` -/

/-- the second program does what the first does, or raises `TypeError` -/
def Cut {σ α : Type} (m m' : PyM σ α) : Prop := ∀ s, m' s = m s ∨ (m' s).1 = .error .typeError

section cut
variable {σ α β : Type}

theorem Cut.refl (m : PyM σ α) : Cut m m := fun _ => Or.inl rfl

theorem Cut.seq {m m' : PyM σ α} {k k' : α → PyM σ β} (h : Cut m m') (hk : ∀ a, Cut (k a) (k' a)) :
    Cut (PyM.seq m k) (PyM.seq m' k') := by
  intro s
  unfold PyM.seq
  rcases h s with h | h
  · rw [h]
    cases m s with
    | mk r s1 =>
      cases r with
      | error er => exact Or.inl rfl
      | ok a => exact hk a s1
  · right
    cases e : m' s with
    | mk r s1 =>
      rw [e] at h
      simp only at h
      subst h
      rfl

theorem Cut.forEach {as : List α} {b b' : α → PyM σ Unit} (h : ∀ a ∈ as, Cut (b a) (b' a)) :
    Cut (PyM.forEach as b) (PyM.forEach as b') := by
  induction as with
  | nil => exact Cut.refl _
  | cons a as ih => exact Cut.seq (h a List.mem_cons_self) fun _ => ih fun x hx => h x (List.mem_cons_of_mem _ hx)

end cut

section calculator
variable {F V N κ : Type} [DecidableEq F] [LinearOrder V] [Flt N] {kw : F → Bool}

theorem Cut.withLoc {b b' : PyM (Run κ F V N) Unit} (h : Cut b b') : Cut (withLoc b) (withLoc b') := by
  intro c
  unfold Artemis.withLoc
  rcases h (c, Loc.empty) with h | h
  · exact Or.inl (by rw [h])
  · exact Or.inr h

theorem cut_singleBody (f : F) : Cut (Calc.singleBody (V := V) (N := N) f) (Calc.singleBodyKw kw f) := by
  intro s
  unfold Calc.singleBody Calc.singleBodyKw
  cases s.1.pdSingle.get? f with
  | none => exact Or.inl rfl
  | some t =>
    simp only
    split
    · split
      · exact Or.inl rfl
      · exact Or.inr rfl
    · exact Or.inl rfl

theorem cut_pairValueBody (k : F × F) (v : V × V) : Cut (Calc.pairValueBody (N := N) k v) (Calc.pairValueBodyKw kw k v) := by
  intro s
  unfold Calc.pairValueBody Calc.pairValueBodyKw
  cases s.1.pdPairs.get? k with
  | none => exact Or.inl rfl
  | some t =>
    simp only
    cases getIndex t.f1Values v.1 with
    | error e => exact Or.inl rfl
    | ok i =>
      simp only
      cases getIndex t.f2Values v.2 with
      | error e => exact Or.inl rfl
      | ok j =>
        simp only
        cases (t.pdValues[i]?).bind (fun row => row[j]?) with
        | none => exact Or.inl rfl
        | some x =>
          simp only
          split
          · split
            · exact Or.inl rfl
            · exact Or.inr rfl
          · exact Or.inl rfl

theorem cut_minusBody (f : F) : Cut (Calc.minusBody (V := V) (N := N) f) (Calc.minusBodyKw kw f) := by
  intro s
  unfold Calc.minusBody Calc.minusBodyKw
  cases s.1.pdMinus.get? f with
  | none => exact Or.inl rfl
  | some t =>
    simp only
    split
    · split
      · exact Or.inl rfl
      · exact Or.inr rfl
    · exact Or.inl rfl

theorem cut_pairBody (all : Bool) (q : F × F) : Cut (Calc.pairBody (V := V) (N := N) all q) (Calc.pairBodyKw kw all q) := by
  intro s
  unfold Calc.pairBody Calc.pairBodyKw
  simp only
  cases s.1.pairValues all (s.1.pairKey q) with
  | error er => exact Or.inl rfl
  | ok vs => exact Cut.forEach (fun v _ => cut_pairValueBody _ v) s

theorem cut_single (fs : Option (List F)) : Cut (Calc.calculateSingle (V := V) (N := N) fs) (Calc.calculateSingleKw kw fs) :=
  fun c => Cut.withLoc (Cut.seq (Cut.forEach fun f _ => cut_singleBody f) fun _ => Cut.refl _) c

theorem cut_pairs (ps : Option (List (F × F))) (all : Bool) :
    Cut (Calc.calculatePairs (V := V) (N := N) ps all) (Calc.calculatePairsKw kw ps all) :=
  fun c => Cut.withLoc (Cut.seq (Cut.forEach fun f _ => cut_pairBody all f) fun _ => Cut.refl _) c

theorem cut_minus (fs : Option (List F)) : Cut (Calc.calculateMinus (V := V) (N := N) fs) (Calc.calculateMinusKw kw fs) :=
  fun c => Cut.withLoc (Cut.seq (Cut.forEach fun f _ => cut_minusBody f) fun _ => Cut.refl _) c

/-- one call of a public `calculate_*` method, on a frame with arbitrary column names -/
def PDOp.runKw (kw : F → Bool) : PDOp F → PyM (Calc F V N) Unit
  | .single fs => Calc.calculateSingleKw kw fs
  | .pairs ps all => Calc.calculatePairsKw kw ps all
  | .minus fs => Calc.calculateMinusKw kw fs

/-- the calculator after a history of calls -/
def runOpsKw (kw : F → Bool) (c : Calc F V N) : List (PDOp F) → Calc F V N
  | [] => c
  | op :: ops => runOpsKw kw (op.runKw kw c).2 ops

end calculator

section methods
variable {F V K G : Type} [DecidableEq F] [LinearOrder V] [Field K] [LinearOrder K] [HasSqrt K] {kw : F → Bool} {Y : Frame F V}

theorem cut_ovo (kind : PdKind) (E : PdEnv G F K) (fs : List F) (ps : List (F × F)) :
    Cut (kind.ovo E Y fs ps) (kind.ovoKw kw E Y fs ps) := by
  cases kind with
  | friedman n => exact Cut.seq (cut_pairs _ _) fun _ => Cut.seq (cut_single _) fun _ => Cut.refl _
  | greenwell => exact Cut.seq (cut_pairs _ _) fun _ => Cut.refl _

theorem cut_importance (sort) (num : F → Bool) (fs : List F) :
    Cut (pdpImportance (V := V) (K := K) sort num fs) (pdpImportanceKw kw sort num fs) :=
  Cut.seq (cut_single _) fun _ => Cut.refl _

theorem cut_ova (sort) (p : PF F V (Num K)) (n : Bool) (fs : List F) :
    Cut (hstatOva sort p n Y fs) (hstatOvaKw kw sort p n Y fs) :=
  Cut.seq (cut_minus _) fun _ => Cut.refl _

theorem cut_additivity (cp : F) (p : PF F V (Num K)) : Cut (calcAdditivity cp p Y) (calcAdditivityKw kw cp p Y) :=
  Cut.seq (cut_single _) fun _ => Cut.refl _

end methods

/-! ### all names accepted -/

section named
variable {F V N κ : Type} [DecidableEq F] [LinearOrder V] [Flt N] {kw : F → Bool}

/-- the calculator knows accepted names only -/
structure Named (kw : F → Bool) (c : Calc F V N) : Prop where
  data : ∀ f ∈ c.X.cols, kw f = true
  single : ∀ f ∈ c.pdSingle.keys, kw f = true
  pairs : ∀ k ∈ c.pdPairs.keys, kw k.1 = true ∧ kw k.2 = true

theorem named_new (p : PF F V N) {X : Frame F V} (hX : ∀ f ∈ X.cols, kw f = true) (b : Int) : Named kw (Calc.new p X b) := by
  refine ⟨hX, ?_, ?_⟩
  · intro f hf
    simp only [Calc.new, Dict.keys, List.map_map, Function.comp_def, List.map_id'] at hf
    exact hX f hf
  · intro k hk
    simp only [Calc.new, Dict.keys, List.map_map, Function.comp_def, List.map_id'] at hk
    exact ⟨hX _ (mem_combinations2 hk).1, hX _ (mem_combinations2 hk).2⟩

/-- the program keeps this -/
abbrev KeepsNames (kw : F → Bool) {α : Type} (m : PyM (Calc F V N) α) : Prop := ∀ c, Named kw c → Named kw (m c).2

theorem keepsNames_seq {α β : Type} {m : PyM (Calc F V N) α} {k : α → PyM (Calc F V N) β} (h : KeepsNames kw m) (hk : ∀ a, KeepsNames kw (k a)) :
    KeepsNames kw (PyM.seq m k) := fun c hc => (Alike.seq (fun s hs => ⟨h s hs, rfl⟩) (fun a s hs => ⟨hk a s hs, rfl⟩) c hc : _ ∧ PyM.seq m k c = _).1

theorem keepsNames_forEach {α : Type} {as : List α} {b : α → PyM (Calc F V N) Unit} (h : ∀ a ∈ as, KeepsNames kw (b a)) :
    KeepsNames kw (PyM.forEach as b) := fun c hc =>
  (Alike.forEach (b' := b) (fun a ha s hs => ⟨h a ha s hs, rfl⟩) c hc).1

theorem keepsNames_callPredict (rows : List (Row F V)) : KeepsNames (N := N) kw (Calc.callPredict rows) :=
  fun c hc => ⟨hc.data, hc.single, hc.pairs⟩

theorem keepsNames_storeSingle (y : List N) (e : (F × V) × (Nat × Nat)) : KeepsNames kw (Calc.storeSingle y e) := by
  intro c hc
  unfold Calc.storeSingle
  cases e1 : c.pdSingle.get? e.1.1 with
  | none => exact hc
  | some t =>
    simp only
    cases getIndex t.fValues e.1.2 with
    | error _ => exact hc
    | ok i =>
      refine ⟨hc.data, ?_, hc.pairs⟩
      have hm : e.1.1 ∈ c.pdSingle.keys := by rw [← Dict.get?_isSome_iff, e1]; rfl
      intro f hf
      simp only [Dict.keys_set_of_mem hm] at hf
      exact hc.single f hf

theorem keepsNames_storePair (y : List N) (e : ((F × F) × (V × V)) × (Nat × Nat)) : KeepsNames kw (Calc.storePair y e) := by
  intro c hc
  unfold Calc.storePair
  cases e1 : c.pdPairs.get? e.1.1 with
  | none => exact hc
  | some t =>
    simp only
    cases getIndex t.f1Values e.1.2.1 with
    | error _ => exact hc
    | ok i =>
      simp only
      cases getIndex t.f2Values e.1.2.2 with
      | error _ => exact hc
      | ok j =>
        refine ⟨hc.data, hc.single, ?_⟩
        have hm : e.1.1 ∈ c.pdPairs.keys := by rw [← Dict.get?_isSome_iff, e1]; rfl
        intro f hf
        simp only [Dict.keys_set_of_mem hm] at hf
        exact hc.pairs f hf

theorem keepsNames_storeMinus (y : List N) (e : (F × Nat) × (Nat × Nat)) : KeepsNames (V := V) kw (Calc.storeMinus y e) := by
  intro c hc
  unfold Calc.storeMinus
  cases c.pdMinus.get? e.1.1 with
  | none => exact hc
  | some t => exact ⟨hc.data, hc.single, hc.pairs⟩

theorem keepsNames_fillSingle (l : Loc (F × V) F V) : KeepsNames (N := N) kw (Calc.fillSingle l) :=
  keepsNames_seq (keepsNames_callPredict _) fun y => keepsNames_forEach fun e _ => keepsNames_storeSingle y e

theorem keepsNames_fillPairs (l : Loc ((F × F) × (V × V)) F V) : KeepsNames (N := N) kw (Calc.fillPairs l) :=
  keepsNames_seq (keepsNames_callPredict _) fun y => keepsNames_forEach fun e _ => keepsNames_storePair y e

theorem keepsNames_fillMinus (l : Loc (F × Nat) F V) : KeepsNames (N := N) kw (Calc.fillMinus l) :=
  keepsNames_seq (keepsNames_callPredict _) fun y => keepsNames_forEach fun e _ => keepsNames_storeMinus y e

variable {fill : Loc κ F V → PyM (Calc F V N) Unit}

theorem named_flush (hf : ∀ l, KeepsNames kw (fill l)) (s : Run κ F V N) (hs : Named kw s.1) : Named kw (flush fill s).2.1 := by
  obtain ⟨c, l⟩ := s
  have h1 := hf l c hs
  simp only [flush]
  cases e : fill l c with
  | mk r c' =>
    rw [e] at h1
    cases r with
    | ok _ => exact h1
    | error _ => exact h1

theorem named_flushIfFull (hf : ∀ l, KeepsNames kw (fill l)) (s : Run κ F V N) (hs : Named kw s.1) : Named kw (flushIfFull fill s).2.1 := by
  unfold flushIfFull
  split
  · exact named_flush hf s hs
  · exact hs

theorem named_flushRest (hf : ∀ l, KeepsNames kw (fill l)) (s : Run κ F V N) (hs : Named kw s.1) : Named kw (flushRest fill s).2.1 := by
  unfold flushRest
  split
  · exact named_flush hf s hs
  · exact hs

/-- both programs do the same on a calculator that knows accepted names only -/
abbrev SameNamed (kw : F → Bool) (b b' : PyM (Run κ F V N) Unit) : Prop := Alike (fun s : Run κ F V N => Named kw s.1) b b'

theorem sameNamed_withLoc {b b' : PyM (Run κ F V N) Unit} (h : SameNamed kw b b') : Alike (Named kw) (withLoc b) (withLoc b') := by
  intro c hc
  obtain ⟨h1, h2⟩ := h (c, Loc.empty) hc
  refine ⟨h1, ?_⟩
  unfold withLoc
  rw [h2]

theorem sameNamed_singleBody (f : F) : SameNamed (V := V) (N := N) kw (Calc.singleBody f) (Calc.singleBodyKw kw f) := by
  intro s hs
  unfold Calc.singleBody Calc.singleBodyKw
  cases e1 : s.1.pdSingle.get? f with
  | none => exact ⟨hs, rfl⟩
  | some t =>
    have hk : kw f = true := hs.single f (by rw [← Dict.get?_isSome_iff, e1]; rfl)
    simp only [hk, or_true, if_true]
    refine ⟨?_, trivial⟩
    split
    · exact named_flushIfFull keepsNames_fillSingle _ hs
    · exact hs

theorem sameNamed_pairValueBody (k : F × F) (v : V × V) : SameNamed (N := N) kw (Calc.pairValueBody k v) (Calc.pairValueBodyKw kw k v) := by
  intro s hs
  unfold Calc.pairValueBody Calc.pairValueBodyKw
  cases e1 : s.1.pdPairs.get? k with
  | none => exact ⟨hs, rfl⟩
  | some t =>
    have hk := hs.pairs k (by rw [← Dict.get?_isSome_iff, e1]; rfl)
    simp only [hk, and_self, if_true]
    refine ⟨?_, rfl⟩
    cases getIndex t.f1Values v.1 with
    | error _ => exact hs
    | ok i =>
      simp only
      cases getIndex t.f2Values v.2 with
      | error _ => exact hs
      | ok j =>
        simp only
        cases (t.pdValues[i]?).bind (fun row => row[j]?) with
        | none => exact hs
        | some x =>
          simp only
          split
          · exact named_flushIfFull keepsNames_fillPairs _ hs
          · exact hs

theorem sameNamed_pairBody (all : Bool) (q : F × F) : SameNamed (V := V) (N := N) kw (Calc.pairBody all q) (Calc.pairBodyKw kw all q) := by
  intro s hs
  unfold Calc.pairBody Calc.pairBodyKw
  simp only
  cases s.1.pairValues all (s.1.pairKey q) with
  | error er => exact ⟨hs, rfl⟩
  | ok vs => exact Alike.forEach (fun v _ => sameNamed_pairValueBody _ v) s hs

theorem sameNamed_minusBody (f : F) : SameNamed (V := V) (N := N) kw (Calc.minusBody f) (Calc.minusBodyKw kw f) := by
  intro s hs
  unfold Calc.minusBody Calc.minusBodyKw
  cases s.1.pdMinus.get? f with
  | none => exact ⟨hs, rfl⟩
  | some t =>
    have hk : ∀ g ∈ s.1.X.cols, g ≠ f → kw g = true := fun g hg _ => hs.data g hg
    simp only [if_pos (Or.inr hk : s.1.X.len = 0 ∨ _)]
    refine ⟨?_, trivial⟩
    split
    · exact named_flushIfFull keepsNames_fillMinus _ hs
    · exact hs

theorem sameNamed_single (fs : Option (List F)) :
    Alike (Named (V := V) (N := N) kw) (Calc.calculateSingle fs) (Calc.calculateSingleKw kw fs) := fun c hc =>
  sameNamed_withLoc (Alike.seq (Alike.forEach fun f _ => sameNamed_singleBody f) fun _ s hs => ⟨named_flushRest keepsNames_fillSingle s hs, rfl⟩) c hc

theorem sameNamed_pairs (ps : Option (List (F × F))) (all : Bool) :
    Alike (Named (V := V) (N := N) kw) (Calc.calculatePairs ps all) (Calc.calculatePairsKw kw ps all) := fun c hc =>
  sameNamed_withLoc (Alike.seq (Alike.forEach fun f _ => sameNamed_pairBody all f) fun _ s hs => ⟨named_flushRest keepsNames_fillPairs s hs, rfl⟩) c hc

theorem sameNamed_minus (fs : Option (List F)) :
    Alike (Named (V := V) (N := N) kw) (Calc.calculateMinus fs) (Calc.calculateMinusKw kw fs) := fun c hc =>
  sameNamed_withLoc (Alike.seq (Alike.forEach fun f _ => sameNamed_minusBody f) fun _ s hs => ⟨named_flushRest keepsNames_fillMinus s hs, rfl⟩) c hc

theorem sameNamed_op (op : PDOp F) : Alike (Named (V := V) (N := N) kw) op.run (op.runKw kw) := by
  cases op with
  | single fs => exact sameNamed_single fs
  | pairs ps all => exact sameNamed_pairs ps all
  | minus fs => exact sameNamed_minus fs

theorem named_runOps (ops : List (PDOp F)) : ∀ c : Calc F V N, Named kw c →
    Named kw (runOps c ops) ∧ runOpsKw kw c ops = runOps c ops := by
  induction ops with
  | nil => exact fun c hc => ⟨hc, rfl⟩
  | cons op ops ih =>
    intro c hc
    obtain ⟨h1, h2⟩ := sameNamed_op op c hc
    simp only [runOps, runOpsKw, h2]
    exact ih _ h1

end named

section namedMethods
variable {F V K G : Type} [DecidableEq F] [LinearOrder V] [Field K] [LinearOrder K] [HasSqrt K] {kw : F → Bool} {Y : Frame F V}

theorem sameNamed_ovo (kind : PdKind) (E : PdEnv G F K) (fs : List F) (ps : List (F × F)) :
    Alike (Named kw) (kind.ovo E Y fs ps) (kind.ovoKw kw E Y fs ps) := by
  cases kind with
  | friedman n => exact Alike.seq (sameNamed_pairs _ _) fun _ => Alike.seq (sameNamed_single _) fun _ c hc => ⟨hc, rfl⟩
  | greenwell => exact Alike.seq (sameNamed_pairs _ _) fun _ c hc => ⟨hc, rfl⟩

theorem sameNamed_importance (sort) (num : F → Bool) (fs : List F) :
    Alike (Named (V := V) kw) (pdpImportance (K := K) sort num fs) (pdpImportanceKw kw sort num fs) :=
  Alike.seq (sameNamed_single _) fun _ c hc => ⟨hc, rfl⟩

theorem sameNamed_ova (sort) (p : PF F V (Num K)) (n : Bool) (fs : List F) :
    Alike (Named kw) (hstatOva sort p n Y fs) (hstatOvaKw kw sort p n Y fs) := by
  refine Alike.seq (sameNamed_minus _) fun _ c hc => ⟨?_, rfl⟩
  cases p c.calls.length Y.rows <;> exact hc

theorem sameNamed_additivity (cp : F) (p : PF F V (Num K)) :
    Alike (Named kw) (calcAdditivity cp p Y) (calcAdditivityKw kw cp p Y) := by
  refine Alike.seq (sameNamed_single _) fun _ c hc => ⟨?_, rfl⟩
  cases p c.calls.length Y.rows with
  | error e => exact hc
  | ok preds =>
    simp only
    cases Y.cols.mapM (addColumn Y preds c) with
    | error _ => exact hc
    | ok effs =>
      simp only
      split <;> exact hc

end namedMethods

/-! ### a name that is not accepted -/

section stuck
variable {F V N : Type} [DecidableEq F] [LinearOrder V] [Flt N] {kw : F → Bool} {f : F} {X : Frame F V}

/-- nothing is ever known about the column, about the pairs it belongs to, or about the other columns as opposed to it: all these entries are
those of a new calculator -/
structure Stuck (X : Frame F V) (f : F) (c : Calc F V N) : Prop where
  data : c.X = X
  rows : X.rows ≠ []
  col : f ∈ X.cols
  pkeys : c.pdPairs.keys = combinations2 X.cols
  single : c.pdSingle.get? f = some ⟨npUnique (X.col f), List.replicate (npUnique (X.col f)).length Flt.nan⟩
  pairs : ∀ k ∈ combinations2 X.cols, k.1 = f ∨ k.2 = f → c.pdPairs.get? k = some ⟨npUnique (X.col k.1), npUnique (X.col k.2),
    List.replicate (npUnique (X.col k.1)).length (List.replicate (npUnique (X.col k.2)).length Flt.nan)⟩
  minus : ∀ g ∈ X.cols, g ≠ f → c.pdMinus.get? g = some (List.replicate X.len Flt.nan)

abbrev StaysStuck (X : Frame F V) (f : F) {α : Type} (m : PyM (Calc F V N) α) : Prop :=
  Triple (Stuck X f) m (fun _ => Stuck X f) (fun _ c => Stuck X f c)

/-- the program cannot return -/
abbrev Raises (X : Frame F V) (f : F) {α : Type} (m : PyM (Calc F V N) α) : Prop :=
  Triple (Stuck X f) m (fun _ _ => False) (fun _ c => Stuck X f c)

theorem stuck_new (p : PF F V N) (hf : f ∈ X.cols) (hX : X.rows ≠ []) (b : Int) : Stuck X f (Calc.new p X b) where
  data := rfl
  rows := hX
  col := hf
  pkeys := by simp [Calc.new, Dict.keys, Function.comp_def]
  single := by simp only [Calc.new, Dict.get?_map, if_pos hf]
  pairs := fun k hk _ => by simp only [Calc.new, Dict.get?_map, if_pos hk]
  minus := fun g hg _ => by simp only [Calc.new, Dict.get?_map, if_pos hg]

theorem npUnique_col_ne_nil (hX : X.rows ≠ []) (g : F) : npUnique (X.col g) ≠ [] := by
  obtain ⟨r, hr⟩ := List.exists_mem_of_ne_nil _ hX
  exact List.ne_nil_of_mem (mem_npUnique.2 (List.mem_map_of_mem (f := fun r => r g) hr))

theorem any_isNaN_replicate {n : Nat} (h : n ≠ 0) : (List.replicate n (Flt.nan : N)).any Flt.isNaN = true :=
  List.any_eq_true.2 ⟨Flt.nan, List.mem_replicate.2 ⟨h, rfl⟩, Flt.isNaN_nan⟩

theorem stuck_of_all {α : Type} {m : PyM (Calc F V N) α} (h : ∀ c, Stuck X f c → Stuck X f (m c).2) : StaysStuck X f m :=
  fun c hc => ⟨fun _ _ => h c hc, fun _ _ => h c hc⟩

theorem stuck_callPredict (rows : List (Row F V)) : StaysStuck (N := N) X f (Calc.callPredict rows) :=
  stuck_of_all fun c hc => ⟨hc.data, hc.rows, hc.col, hc.pkeys, hc.single, hc.pairs, hc.minus⟩

theorem stuck_storeSingle (y : List N) {e : (F × V) × (Nat × Nat)} (he : e.1.1 ≠ f) : StaysStuck X f (Calc.storeSingle y e) := by
  refine stuck_of_all fun c hc => ?_
  unfold Calc.storeSingle
  cases c.pdSingle.get? e.1.1 with
  | none => exact hc
  | some t =>
    simp only
    cases getIndex t.fValues e.1.2 with
    | error _ => exact hc
    | ok i =>
      refine ⟨hc.data, hc.rows, hc.col, hc.pkeys, ?_, hc.pairs, hc.minus⟩
      simp only [Dict.get?_set, if_neg (Ne.symm he)]
      exact hc.single

theorem stuck_storePair (y : List N) {e : ((F × F) × (V × V)) × (Nat × Nat)} (he : e.1.1.1 ≠ f ∧ e.1.1.2 ≠ f) :
    StaysStuck X f (Calc.storePair y e) := by
  refine stuck_of_all fun c hc => ?_
  unfold Calc.storePair
  cases e1 : c.pdPairs.get? e.1.1 with
  | none => exact hc
  | some t =>
    simp only
    cases getIndex t.f1Values e.1.2.1 with
    | error _ => exact hc
    | ok i =>
      simp only
      cases getIndex t.f2Values e.1.2.2 with
      | error _ => exact hc
      | ok j =>
        have hm : e.1.1 ∈ c.pdPairs.keys := by rw [← Dict.get?_isSome_iff, e1]; rfl
        refine ⟨hc.data, hc.rows, hc.col, ?_, hc.single, ?_, hc.minus⟩
        · simp only [Dict.keys_set_of_mem hm]
          exact hc.pkeys
        · intro k hk hf
          have hne : ¬ k = e.1.1 := by
            rintro rfl
            rcases hf with h | h
            · exact he.1 h
            · exact he.2 h
          simp only [Dict.get?_set, if_neg hne]
          exact hc.pairs k hk hf

theorem stuck_storeMinus (y : List N) {e : (F × Nat) × (Nat × Nat)} (he : e.1.1 = f) : StaysStuck X f (Calc.storeMinus y e) := by
  refine stuck_of_all fun c hc => ?_
  unfold Calc.storeMinus
  cases c.pdMinus.get? e.1.1 with
  | none => exact hc
  | some t =>
    refine ⟨hc.data, hc.rows, hc.col, hc.pkeys, hc.single, hc.pairs, ?_⟩
    intro g hg hgf
    simp only [Dict.get?_set, he, if_neg hgf]
    exact hc.minus g hg hgf

theorem stuck_fillSingle {l : Loc (F × V) F V} (hl : ∀ k ∈ l.ranges.keys, k.1 ≠ f) : StaysStuck (N := N) X f (Calc.fillSingle l) :=
  Triple.seq (stuck_callPredict _) fun y => Triple.forEach fun e he => stuck_storeSingle y (hl _ (List.mem_map_of_mem he))

theorem stuck_fillPairs {l : Loc ((F × F) × (V × V)) F V} (hl : ∀ k ∈ l.ranges.keys, k.1.1 ≠ f ∧ k.1.2 ≠ f) :
    StaysStuck (N := N) X f (Calc.fillPairs l) :=
  Triple.seq (stuck_callPredict _) fun y => Triple.forEach fun e he => stuck_storePair y (hl _ (List.mem_map_of_mem he))

theorem stuck_fillMinus {l : Loc (F × Nat) F V} (hl : ∀ k ∈ l.ranges.keys, k.1 = f) : StaysStuck (N := N) X f (Calc.fillMinus l) :=
  Triple.seq (stuck_callPredict _) fun y => Triple.forEach fun e he => stuck_storeMinus y (hl _ (List.mem_map_of_mem he))

/-- the queue holds harmless requests only -/
def StuckQueue {κ : Type} (ok : κ → Prop) (X : Frame F V) (f : F) (s : Run κ F V N) : Prop := Stuck X f s.1 ∧ ∀ k ∈ s.2.ranges.keys, ok k

theorem stuckQueue_empty {κ : Type} {ok : κ → Prop} {s : Run κ F V N} (h : Stuck X f s.1 ∧ s.2 = Loc.empty) : StuckQueue ok X f s :=
  ⟨h.1, fun k hk => by rw [h.2] at hk; cases hk⟩

theorem stuck_flush {κ : Type} {ok : κ → Prop} {fill : Loc κ F V → PyM (Calc F V N) Unit}
    (hf : ∀ l : Loc κ F V, (∀ k ∈ l.ranges.keys, ok k) → StaysStuck X f (fill l)) : ∀ s, StuckQueue ok X f s → Triple (fun c => c = s.1) (fill s.2)
    (fun _ c => StuckQueue ok X f (c, Loc.empty)) (fun _ c => Stuck X f c) := fun s hs =>
  (hf s.2 hs.2).weaken (fun c hc => hc ▸ hs.1) (fun _ c h => ⟨h, fun k hk => by cases hk⟩) (fun _ _ h => h)

theorem stuck_loop {κ α : Type} {ok : κ → Prop} {fill : Loc κ F V → PyM (Calc F V N) Unit}
    (hf : ∀ l : Loc κ F V, (∀ k ∈ l.ranges.keys, ok k) → StaysStuck X f (fill l)) {as : List α} {b : α → PyM (Run κ F V N) Unit}
    (hb : ∀ a, Triple (StuckQueue ok X f) (b a) (fun _ => StuckQueue ok X f) (fun _ s => Stuck X f s.1)) :
    StaysStuck X f (withLoc (PyM.seq (PyM.forEach as b) fun _ => flushRest fill)) := by
  refine Triple.withLoc (I := Stuck X f) (Q := Stuck X f) (P := fun _ c => Stuck X f c) (Triple.seq (Q := fun _ => StuckQueue ok X f) ?_ fun _ => ?_)
  · exact (Triple.forEach fun g _ => hb g).weaken (fun _ h => stuckQueue_empty h) (fun _ _ h => h) (fun _ _ h => h)
  · exact (Triple.flushRest (stuck_flush hf) (fun _ h _ => h)).weaken (fun _ h => h) (fun _ _ h => h.1) (fun _ _ h => h)

theorem stuck_loop_raises {κ α : Type} {ok : κ → Prop} {fill : Loc κ F V → PyM (Calc F V N) Unit} {as : List α} {b : α → PyM (Run κ F V N) Unit}
    (hb : ∀ a, Triple (StuckQueue ok X f) (b a) (fun _ => StuckQueue ok X f) (fun _ s => Stuck X f s.1)) {a0 : α} (ha : a0 ∈ as)
    (h0 : Triple (StuckQueue ok X f) (b a0) (fun _ _ => False) (fun _ s => Stuck X f s.1)) :
    Raises X f (withLoc (PyM.seq (PyM.forEach as b) fun _ => flushRest fill)) := by
  refine Triple.withLoc (I := Stuck X f) (Q := fun _ => False) (P := fun _ c => Stuck X f c) (Triple.seq (Q := fun _ _ => False) ?_ fun _ => ?_)
  · exact (Triple.forEach_some (J := fun _ => False) (fun g _ => hb g) (fun g _ s hs => hs.elim) ha h0).weaken (fun _ h => stuckQueue_empty h)
      (fun _ _ h => h) (fun _ _ h => h)
  · exact fun s hs => hs.elim

theorem stuck_singleBody (hk : kw f = false) (g : F) :
    Triple (StuckQueue (N := N) (fun k : F × V => k.1 ≠ f) X f) (Calc.singleBodyKw kw g)
      (fun _ s => StuckQueue (fun k : F × V => k.1 ≠ f) X f s ∧ g ≠ f) (fun _ s => Stuck X f s.1) := by
  by_cases hgf : g = f
  · subst hgf
    rintro ⟨c, l⟩ hs
    have hne := npUnique_col_ne_nil hs.1.rows g
    unfold Calc.singleBodyKw
    simp only [hs.1.single, any_isNaN_replicate (fun h => hne (List.length_eq_zero_iff.1 h)), hne, hk, Bool.false_eq_true, or_self, if_true, if_false]
    exact ⟨fun _ h => (by cases h), fun _ _ => hs.1⟩
  · rintro ⟨c, l⟩ hs
    unfold Calc.singleBodyKw
    cases e1 : c.pdSingle.get? g with
    | none => exact ⟨fun _ h => (by cases h), fun _ _ => hs.1⟩
    | some t =>
      simp only
      split
      · split
        · have := Triple.flushIfFull (N := N) (stuck_flush fun l => stuck_fillSingle) (fun _ h => h) (c, _)
            (show StuckQueue (fun k : F × V => k.1 ≠ f) X f (c, t.fValues.foldl
              (fun l v => l.add c.X.len (g, v) (blockSingle c.X (g, v))) l) from ⟨hs.1, fun k hk => by
              rw [foldl_add_keys (p := c.predict) (B := fun _ => True) ⟨trivial, fun _ _ _ _ => trivial⟩] at hk
              rcases hk with hk | ⟨v, _, rfl⟩
              · exact hs.2 k hk
              · exact hgf⟩)
          exact ⟨fun a ha => ⟨this.1 a ha, hgf⟩, this.2⟩
        · exact ⟨fun _ h => (by cases h), fun _ _ => hs.1⟩
      · exact ⟨fun _ _ => ⟨hs, hgf⟩, fun _ h => by cases h⟩

theorem stuck_single (hk : kw f = false) (fs : Option (List F)) : StaysStuck (N := N) X f (Calc.calculateSingleKw kw fs) :=
  fun c hc => stuck_loop (fun l => stuck_fillSingle) (fun g => (stuck_singleBody hk g).weaken (fun _ h => h) (fun _ _ h => h.1) (fun _ _ h => h)) c hc

/-- asking for the column raises -/
theorem raises_single (hk : kw f = false) {fs : Option (List F)} (hf : f ∈ fs.getD X.cols) :
    Raises (N := N) X f (Calc.calculateSingleKw kw fs) := fun c hc =>
  stuck_loop_raises (fun g => (stuck_singleBody hk g).weaken (fun _ h => h) (fun _ _ h => h.1) (fun _ _ h => h)) (hc.data.symm ▸ hf)
    ((stuck_singleBody hk f).weaken (fun _ h => h) (fun _ _ h => h.2 rfl) (fun _ _ h => h)) c hc

theorem stuck_pairValueBody (hk : kw f = false) (q : F × F) (v : V × V) :
    Triple (StuckQueue (N := N) (fun k : (F × F) × (V × V) => k.1.1 ≠ f ∧ k.1.2 ≠ f) X f) (Calc.pairValueBodyKw kw q v)
      (fun _ => StuckQueue (fun k : (F × F) × (V × V) => k.1.1 ≠ f ∧ k.1.2 ≠ f) X f) (fun _ s => Stuck X f s.1) := by
  rintro ⟨c, l⟩ hs
  unfold Calc.pairValueBodyKw
  cases c.pdPairs.get? q with
  | none => exact ⟨fun _ h => (by cases h), fun _ _ => hs.1⟩
  | some t =>
    simp only
    cases getIndex t.f1Values v.1 with
    | error _ => exact ⟨fun _ h => (by cases h), fun _ _ => hs.1⟩
    | ok i =>
      simp only
      cases getIndex t.f2Values v.2 with
      | error _ => exact ⟨fun _ h => (by cases h), fun _ _ => hs.1⟩
      | ok j =>
        simp only
        cases (t.pdValues[i]?).bind (fun row => row[j]?) with
        | none => exact ⟨fun _ h => (by cases h), fun _ _ => hs.1⟩
        | some x =>
          simp only
          split
          · split
            · next hkk =>
              refine Triple.flushIfFull (stuck_flush fun l => stuck_fillPairs) (fun _ h => h) (c, _) ⟨hs.1, fun k hk' => ?_⟩
              simp only [Loc.add, Dict.mem_keys_set] at hk'
              rcases hk' with rfl | hk'
              · refine ⟨fun h => ?_, fun h => ?_⟩
                · simp only at h
                  rw [h, hk] at hkk
                  exact Bool.noConfusion hkk.1
                · simp only at h
                  rw [h, hk] at hkk
                  exact Bool.noConfusion hkk.2
              · exact hs.2 k hk'
            · exact ⟨fun _ h => (by cases h), fun _ _ => hs.1⟩
          · exact ⟨fun _ _ => hs, fun _ h => by cases h⟩

theorem raises_pairValueBody (hk : kw f = false) {q : F × F} (hq : q ∈ combinations2 X.cols) (hf : q.1 = f ∨ q.2 = f) {v : V × V}
    (hv : v.1 ∈ X.col q.1 ∧ v.2 ∈ X.col q.2) :
    Triple (StuckQueue (N := N) (fun k : (F × F) × (V × V) => k.1.1 ≠ f ∧ k.1.2 ≠ f) X f) (Calc.pairValueBodyKw kw q v)
      (fun _ _ => False) (fun _ s => Stuck X f s.1) := by
  rintro ⟨c, l⟩ hs
  unfold Calc.pairValueBodyKw
  have h1 := mem_npUnique.2 hv.1
  have h2 := mem_npUnique.2 hv.2
  have i1 := List.idxOf_lt_length_iff.2 h1
  have i2 := List.idxOf_lt_length_iff.2 h2
  have hx : ((List.replicate (npUnique (X.col q.1)).length (List.replicate (npUnique (X.col q.2)).length (Flt.nan : N)))[(npUnique (X.col q.1)).idxOf v.1]?).bind
      (fun row => row[(npUnique (X.col q.2)).idxOf v.2]?) = some Flt.nan := by
    rw [List.getElem?_replicate, if_pos i1]
    simp only [Option.bind_some]
    rw [List.getElem?_replicate, if_pos i2]
  have hkk : ¬ (kw q.1 = true ∧ kw q.2 = true) := by
    rintro ⟨k1, k2⟩
    rcases hf with h | h
    · rw [h, hk] at k1; cases k1
    · rw [h, hk] at k2; cases k2
  simp only [hs.1.pairs q hq hf, getIndex_of_mem h1, getIndex_of_mem h2, hx, Flt.isNaN_nan, if_true, if_neg hkk]
  exact ⟨fun _ h => (by cases h), fun _ _ => hs.1⟩

theorem stuck_pairBody (hk : kw f = false) (all : Bool) (q : F × F) :
    Triple (StuckQueue (N := N) (fun k : (F × F) × (V × V) => k.1.1 ≠ f ∧ k.1.2 ≠ f) X f) (Calc.pairBodyKw kw all q)
      (fun _ => StuckQueue (fun k : (F × F) × (V × V) => k.1.1 ≠ f ∧ k.1.2 ≠ f) X f) (fun _ s => Stuck X f s.1) := by
  intro s hs
  unfold Calc.pairBodyKw
  simp only
  cases s.1.pairValues all (s.1.pairKey q) with
  | error er => exact ⟨fun _ h => (by cases h), fun _ _ => hs.1⟩
  | ok vs =>
    simp only
    exact Triple.forEach (P := fun _ s => Stuck X f s.1) (fun v _ => stuck_pairValueBody hk _ v) s hs

theorem raises_pairBody (hk : kw f = false) (all : Bool) {q : F × F} (hq : q ∈ combinations2 X.cols ∨ q.swap ∈ combinations2 X.cols)
    (hf : q.1 = f ∨ q.2 = f) :
    Triple (StuckQueue (N := N) (fun k : (F × F) × (V × V) => k.1.1 ≠ f ∧ k.1.2 ≠ f) X f) (Calc.pairBodyKw kw all q)
      (fun _ _ => False) (fun _ s => Stuck X f s.1) := by
  intro s hs
  have hkey : s.1.pairKey q ∈ combinations2 X.cols ∧ ((s.1.pairKey q).1 = f ∨ (s.1.pairKey q).2 = f) := by
    unfold Calc.pairKey
    rw [hs.1.pkeys]
    split
    · next h => exact ⟨h, hf⟩
    · next h => exact ⟨hq.resolve_left h, hf.symm⟩
  obtain ⟨r, hr⟩ := List.exists_mem_of_ne_nil _ hs.1.rows
  have hcol : ∀ g, r g ∈ X.col g := fun g => List.mem_map_of_mem (f := fun r => r g) hr
  have hvs : ∃ vs, s.1.pairValues all (s.1.pairKey q) = .ok vs ∧ (r (s.1.pairKey q).1, r (s.1.pairKey q).2) ∈ vs := by
    unfold Calc.pairValues
    cases all with
    | true =>
      simp only [hs.1.pairs _ hkey.1 hkey.2, if_true]
      refine ⟨_, rfl, List.mem_flatMap.2 ⟨_, mem_npUnique.2 (hcol _), List.mem_map.2 ⟨_, mem_npUnique.2 (hcol _), rfl⟩⟩⟩
    | false =>
      simp only [hs.1.data, if_pos (mem_combinations2 hkey.1), Bool.false_eq_true, if_false]
      refine ⟨_, rfl, ?_⟩
      simp only [Frame.col, List.zip_map', List.mem_map]
      exact ⟨r, hr, rfl⟩
  obtain ⟨vs, h1, h2⟩ := hvs
  unfold Calc.pairBodyKw
  simp only [h1]
  exact Triple.forEach_some (P := fun _ s => Stuck X f s.1) (J := fun _ => False) (fun v _ => stuck_pairValueBody hk _ v) (fun v _ s hs => hs.elim) h2
    (raises_pairValueBody hk hkey.1 hkey.2 ⟨hcol _, hcol _⟩) s hs

theorem stuck_pairs (hk : kw f = false) (ps : Option (List (F × F))) (all : Bool) : StaysStuck (N := N) X f (Calc.calculatePairsKw kw ps all) :=
  fun c hc => stuck_loop (fun l => stuck_fillPairs) (fun g => stuck_pairBody hk all g) c hc

theorem raises_pairs (hk : kw f = false) {ps : Option (List (F × F))} (all : Bool) {q : F × F} (hq : q ∈ ps.getD (combinations2 X.cols))
    (hc2 : q ∈ combinations2 X.cols ∨ q.swap ∈ combinations2 X.cols) (hf : q.1 = f ∨ q.2 = f) :
    Raises (N := N) X f (Calc.calculatePairsKw kw ps all) := fun c hc =>
  stuck_loop_raises (fun g => stuck_pairBody hk all g) (hc.pkeys.symm ▸ hq) (raises_pairBody hk all hc2 hf) c hc

theorem stuck_minusBody (hk : kw f = false) (g : F) :
    Triple (StuckQueue (N := N) (fun k : F × Nat => k.1 = f) X f) (Calc.minusBodyKw kw g)
      (fun _ s => StuckQueue (fun k : F × Nat => k.1 = f) X f s ∧ (g ∈ X.cols → g = f)) (fun _ s => Stuck X f s.1) := by
  rintro ⟨c, l⟩ hs
  have hlen : X.len ≠ 0 := fun h => hs.1.rows (List.length_eq_zero_iff.1 h)
  by_cases hgf : g = f
  · unfold Calc.minusBodyKw
    cases c.pdMinus.get? g with
    | none => exact ⟨fun _ h => (by cases h), fun _ _ => hs.1⟩
    | some t =>
      simp only
      split
      · split
        · have := Triple.flushIfFull (N := N) (stuck_flush fun l => stuck_fillMinus) (fun _ h => h) (c, _)
            (show StuckQueue (fun k : F × Nat => k.1 = f) X f (c, (List.range c.X.len).foldl
              (fun l i => l.add c.X.len (g, i) (blockMinus c.X (g, i))) l) from ⟨hs.1, fun k hk => by
              rw [foldl_add_keys (p := c.predict) (B := fun _ => True) ⟨trivial, fun _ _ _ _ => trivial⟩] at hk
              rcases hk with hk | ⟨v, _, rfl⟩
              · exact hs.2 k hk
              · exact hgf⟩)
          exact ⟨fun a ha => ⟨this.1 a ha, fun _ => hgf⟩, this.2⟩
        · exact ⟨fun _ h => (by cases h), fun _ _ => hs.1⟩
      · exact ⟨fun _ _ => ⟨hs, fun _ => hgf⟩, fun _ h => by cases h⟩
  · have hno : ¬ (c.X.len = 0 ∨ ∀ g' ∈ c.X.cols, g' ≠ g → kw g' = true) := by
      rw [hs.1.data]
      rintro (h | h)
      · exact hlen h
      · have := h f hs.1.col (Ne.symm hgf)
        rw [hk] at this
        cases this
    unfold Calc.minusBodyKw
    cases e1 : c.pdMinus.get? g with
    | none => exact ⟨fun _ h => (by cases h), fun _ _ => hs.1⟩
    | some t =>
      simp only
      split
      · exact ⟨fun _ h => (by cases h), fun _ _ => hs.1⟩
      · next h =>
        refine ⟨fun _ _ => ⟨hs, fun hg => ?_⟩, fun _ h => by cases h⟩
        have := hs.1.minus g hg hgf
        rw [e1] at this
        cases this
        exact absurd (any_isNaN_replicate hlen) h

theorem stuck_minus (hk : kw f = false) (fs : Option (List F)) : StaysStuck (N := N) X f (Calc.calculateMinusKw kw fs) :=
  fun c hc => stuck_loop (fun l => stuck_fillMinus) (fun g => (stuck_minusBody hk g).weaken (fun _ h => h) (fun _ _ h => h.1) (fun _ _ h => h)) c hc

/-- so does asking for all columns but another one -/
theorem raises_minus (hk : kw f = false) {fs : Option (List F)} {g : F} (hg : g ∈ fs.getD X.cols) (hgc : g ∈ X.cols) (hgf : g ≠ f) :
    Raises (N := N) X f (Calc.calculateMinusKw kw fs) := fun c hc =>
  stuck_loop_raises (fun g => (stuck_minusBody hk g).weaken (fun _ h => h) (fun _ _ h => h.1) (fun _ _ h => h)) (hc.data.symm ▸ hg)
    ((stuck_minusBody hk g).weaken (fun _ h => h) (fun _ _ h => hgf (h.2 hgc)) (fun _ _ h => h)) c hc

theorem stuck_after {α : Type} {m : PyM (Calc F V N) α} {c : Calc F V N} (h : StaysStuck X f m) (hc : Stuck X f c) : Stuck X f (m c).2 := by
  obtain ⟨h1, h2⟩ := h c hc
  cases e : (m c).1 with
  | ok a => exact h1 a e
  | error er => exact h2 er e

theorem stuck_runOps (hk : kw f = false) (ops : List (PDOp F)) : ∀ c : Calc F V N, Stuck X f c → Stuck X f (runOpsKw kw c ops) := by
  induction ops with
  | nil => exact fun c hc => hc
  | cons op ops ih =>
    intro c hc
    refine ih _ ?_
    cases op with
    | single fs => exact stuck_after (stuck_single hk fs) hc
    | pairs ps all => exact stuck_after (stuck_pairs hk ps all) hc
    | minus fs => exact stuck_after (stuck_minus hk fs) hc

end stuck

section stuckMethods
variable {F V K G : Type} [DecidableEq F] [LinearOrder V] [Field K] [LinearOrder K] [HasSqrt K] {kw : F → Bool} {X Y : Frame F V} {f : F}

theorem stuck_ovo (hk : kw f = false) (kind : PdKind) (E : PdEnv G F K) (fs : List F) (ps : List (F × F)) :
    StaysStuck X f (kind.ovoKw kw E Y fs ps) := by
  have last : ∀ {α : Type} (k : Calc F V (Num K) → Except Err α), StaysStuck X f (fun c => (k c, c)) := fun k c hc =>
    ⟨fun _ _ => hc, fun _ _ => hc⟩
  cases kind with
  | friedman n => exact Triple.seq (stuck_pairs hk _ _) fun _ => Triple.seq (stuck_single hk _) fun _ => last _
  | greenwell => exact Triple.seq (stuck_pairs hk _ _) fun _ => last _

theorem raises_ovo (hk : kw f = false) (kind : PdKind) (E : PdEnv G F K) (fs : List F) {ps : List (F × F)} {q : F × F} (hq : q ∈ ps)
    (hc2 : q ∈ combinations2 X.cols ∨ q.swap ∈ combinations2 X.cols) (hf : q.1 = f ∨ q.2 = f) : Raises X f (kind.ovoKw kw E Y fs ps) := by
  cases kind with
  | friedman n => exact Triple.seq (raises_pairs hk (ps := some ps) false hq hc2 hf) fun _ _ h => h.elim
  | greenwell => exact Triple.seq (raises_pairs hk (ps := some ps) true hq hc2 hf) fun _ _ h => h.elim

theorem raises_importance (hk : kw f = false) (hf : f ∈ X.cols) (sort) (num : F → Bool) (fs : List F) :
    Raises X f (pdpImportanceKw (V := V) (K := K) kw sort num fs) :=
  Triple.seq (raises_single hk (fs := none) hf) fun _ _ h => h.elim

theorem raises_additivity (hk : kw f = false) (hf : f ∈ X.cols) (cp : F) (p : PF F V (Num K)) :
    Raises X f (calcAdditivityKw kw cp p Y) :=
  Triple.seq (raises_single hk (fs := none) hf) fun _ _ h => h.elim

end stuckMethods

section data
variable {F V K : Type} [DecidableEq F] [LinearOrder V] [Field K] [LinearOrder K] {kw : F → Bool}

/-- no call changes the data of the calculator -/
theorem runOpsKw_data (ops : List (PDOp F)) {p : PF F V (Num K)} {X : Frame F V} {b : Int} :
    (runOpsKw kw (Calc.new p X b) ops).X = X := by
  have keep : ∀ (op : PDOp F) (c : Calc F V (Num K)), (op.runKw kw c).2.X = c.X := by
    intro op c
    have hX : ∀ {κ : Type} {fill : Loc κ F V → PyM (Calc F V (Num K)) Unit}, (∀ l c, (fill l c).2.X = c.X) →
        ∀ s : Run κ F V (Num K), (flush fill s).2.1.X = s.1.X := by
      intro κ fill h s
      unfold flush
      have := h s.2 s.1
      cases e : fill s.2 s.1 with
      | mk r c' =>
        rw [e] at this
        cases r <;> exact this
    have full : ∀ {κ : Type} {fill : Loc κ F V → PyM (Calc F V (Num K)) Unit}, (∀ l c, (fill l c).2.X = c.X) →
        ∀ s : Run κ F V (Num K), (flushIfFull fill s).2.1.X = s.1.X := by
      intro κ fill h s
      unfold flushIfFull
      split
      · exact hX h s
      · rfl
    have rest : ∀ {κ : Type} {fill : Loc κ F V → PyM (Calc F V (Num K)) Unit}, (∀ l c, (fill l c).2.X = c.X) →
        ∀ s : Run κ F V (Num K), (flushRest fill s).2.1.X = s.1.X := by
      intro κ fill h s
      unfold flushRest
      split
      · exact hX h s
      · rfl
    have seq : ∀ {σ α β : Type} (g : σ → Frame F V) {m : PyM σ α} {k : α → PyM σ β}, (∀ s, g (m s).2 = g s) → (∀ a s, g (k a s).2 = g s) →
        ∀ s, g (PyM.seq m k s).2 = g s := by
      intro σ α β g m k hm hk s
      have := hm s
      unfold PyM.seq
      cases e : m s with
      | mk r s1 =>
        rw [e] at this
        cases r with
        | error _ => exact this
        | ok a => rw [← this]; exact hk a s1
    have each : ∀ {σ α : Type} (g : σ → Frame F V) {as : List α} {b : α → PyM σ Unit}, (∀ a s, g (b a s).2 = g s) →
        ∀ s, g (PyM.forEach as b s).2 = g s := by
      intro σ α g as b hb
      induction as with
      | nil => exact fun s => rfl
      | cons a as ih => exact fun s => seq g (hb a) (fun _ => ih) s
    have fS : ∀ (l : Loc (F × V) F V) (c : Calc F V (Num K)), (Calc.fillSingle l c).2.X = c.X := fun l =>
      seq Calc.X (fun _ => rfl) fun y => each Calc.X fun e c => by
        unfold Calc.storeSingle
        split
        · rfl
        · split <;> rfl
    have fP : ∀ (l : Loc ((F × F) × (V × V)) F V) (c : Calc F V (Num K)), (Calc.fillPairs l c).2.X = c.X := fun l =>
      seq Calc.X (fun _ => rfl) fun y => each Calc.X fun e c => by
        unfold Calc.storePair
        split
        · rfl
        · split
          · rfl
          · split <;> rfl
    have fM : ∀ (l : Loc (F × Nat) F V) (c : Calc F V (Num K)), (Calc.fillMinus l c).2.X = c.X := fun l =>
      seq Calc.X (fun _ => rfl) fun y => each Calc.X fun e c => by
        unfold Calc.storeMinus
        split <;> rfl
    cases op with
    | single fs =>
      refine seq (fun s : Run (F × V) F V (Num K) => s.1.X) (each (fun s : Run (F × V) F V (Num K) => s.1.X) fun f s => ?_) (fun _ => rest fS) (c, Loc.empty)
      unfold Calc.singleBodyKw
      split
      · rfl
      · split
        · split
          · exact full fS _
          · rfl
        · rfl
    | pairs ps all =>
      refine seq (fun s : Run ((F × F) × (V × V)) F V (Num K) => s.1.X) (each (fun s : Run ((F × F) × (V × V)) F V (Num K) => s.1.X) fun q s => ?_) (fun _ => rest fP) (c, Loc.empty)
      unfold Calc.pairBodyKw
      simp only
      split
      · rfl
      · refine each (fun s : Run ((F × F) × (V × V)) F V (Num K) => s.1.X) (fun v s => ?_) s
        unfold Calc.pairValueBodyKw
        split
        · rfl
        · split
          · rfl
          · split
            · rfl
            · split
              · rfl
              · split
                · split
                  · exact full fP _
                  · rfl
                · rfl
    | minus fs =>
      refine seq (fun s : Run (F × Nat) F V (Num K) => s.1.X) (each (fun s : Run (F × Nat) F V (Num K) => s.1.X) fun f s => ?_) (fun _ => rest fM) (c, Loc.empty)
      unfold Calc.minusBodyKw
      split
      · rfl
      · split
        · split
          · exact full fM _
          · rfl
        · rfl
  have all : ∀ (ops : List (PDOp F)) (c : Calc F V (Num K)), (runOpsKw kw c ops).X = c.X := by
    intro ops
    induction ops with
    | nil => exact fun c => rfl
    | cons op ops ih => exact fun c => (ih _).trans (keep op c)
  exact all ops _

end data

end Artemis
