import Verif.Model.Missing
import Verif.Proofs.Hoare
import Verif.Proofs.TwinLemmas
import Verif.Proofs.GwLemmas

/-!
# Partial dependence code on data with missing values

Helper lemmas.
-/

set_option linter.unusedSectionVars false
set_option linter.unusedVariables false
set_option linter.unusedSimpArgs false

namespace Artemis
open Spec

section index
variable {V : Type} [DecidableEq V] {miss : V → Bool}

theorem getIndexN_of_present {v : V} (h : miss v = false) (l : List V) : getIndexN miss l v = getIndex l v := by
  have : (fun x => decide (x = v) && !miss v) = fun x => decide (x = v) := by funext x; simp [h]
  unfold getIndexN getIndex
  rw [this]
  rfl

theorem getIndexN_of_missing {v : V} (h : miss v = true) (l : List V) : getIndexN miss l v = .error .indexError := by
  have : l.findIdx? (fun x => decide (x = v) && !miss v) = none := by
    rw [List.findIdx?_eq_none_iff]
    intro x _
    simp [h]
  simp [getIndexN, this]

theorem getIndexN_ok {v : V} {l : List V} {i : Nat} (h : getIndexN miss l v = .ok i) : miss v = false ∧ l[i]? = some v := by
  cases hm : miss v with
  | true => rw [getIndexN_of_missing hm] at h; cases h
  | false =>
    rw [getIndexN_of_present hm] at h
    refine ⟨rfl, ?_⟩
    by_cases hv : v ∈ l
    · rw [getIndex_of_mem hv] at h
      cases h
      rw [List.getElem?_eq_getElem (List.idxOf_lt_length_iff.2 hv), List.getElem_idxOf]
    · rw [getIndex_of_not_mem hv] at h; cases h

theorem getIndexN_error {v : V} {l : List V} {e : Err} (h : getIndexN miss l v = .error e) : e = .indexError := by
  unfold getIndexN at h
  split at h
  · cases h
  · cases h; rfl

end index

section calculator
variable {F V N : Type} [DecidableEq F] [LinearOrder V] [Flt N] {miss : V → Bool} {p : PF F V N} {X : Frame F V}
  {B : Err → Prop}

/-- what every call keeps: nothing is ever stored for a missing value -/
structure Kept (miss : V → Bool) (p : PF F V N) (X : Frame F V) (c : Calc F V N) : Prop where
  predict : c.predict = p
  data : c.X = X
  skeys : c.pdSingle.keys = X.cols
  single : ∀ f t, c.pdSingle.get? f = some t → t.fValues = npUnique (X.col f) ∧ t.pdValues.length = t.fValues.length ∧
    ∀ (i : Nat) v x, t.fValues[i]? = some v → miss v = true → t.pdValues[i]? = some x → Flt.isNaN x = true
  pkeys : c.pdPairs.keys = combinations2 X.cols
  pairs : ∀ k t, c.pdPairs.get? k = some t → t.f1Values = npUnique (X.col k.1) ∧ t.f2Values = npUnique (X.col k.2)

/-- the errors that can be expected: `IndexError`, those of the model, and (for features that are not columns) `KeyError` -/
structure Blame (p : PF F V N) (B : Err → Prop) : Prop where
  index : B .indexError
  model : ∀ n rows e, p n rows = .error e → B e

theorem kept_new (p : PF F V N) (X : Frame F V) (b : Int) : Kept miss p X (Calc.new p X b) := by
  refine ⟨rfl, rfl, ?_, ?_, ?_, ?_⟩
  · simp [Calc.new, Dict.keys, Function.comp_def]
  · intro f t h
    have hm := Dict.mem_of_get? h
    simp only [Calc.new, List.mem_map] at hm
    obtain ⟨f', _, he⟩ := hm
    obtain ⟨rfl, rfl⟩ := Prod.mk.inj he
    refine ⟨rfl, by simp, ?_⟩
    intro i v x _ _ hx
    have := List.mem_of_getElem? hx
    rw [List.mem_replicate] at this
    rw [this.2]
    exact Flt.isNaN_nan
  · simp [Calc.new, Dict.keys, Function.comp_def]
  · intro k t h
    have hm := Dict.mem_of_get? h
    simp only [Calc.new, List.mem_map] at hm
    obtain ⟨k', _, he⟩ := hm
    obtain ⟨rfl, rfl⟩ := Prod.mk.inj he
    exact ⟨rfl, rfl⟩

/-- shorthand for the triples below -/
abbrev Keeps (miss : V → Bool) (p : PF F V N) (X : Frame F V) (B : Err → Prop) {α : Type} (m : PyM (Calc F V N) α) : Prop :=
  Triple (Kept miss p X) m (fun _ => Kept miss p X) (fun e c => B e ∧ Kept miss p X c)

/-- the program raises, whatever happens -/
abbrev Breaks (miss : V → Bool) (p : PF F V N) (X : Frame F V) (B : Err → Prop) {α : Type} (m : PyM (Calc F V N) α) : Prop :=
  Triple (Kept miss p X) m (fun _ _ => False) (fun e c => B e ∧ Kept miss p X c)

variable (hB : Blame p B)
include hB

theorem keeps_callPredict (rows : List (Row F V)) : Keeps miss p X B (Calc.callPredict rows) := by
  intro c hc
  have hk : Kept miss p X (Calc.callPredict rows c).2 := ⟨hc.predict, hc.data, hc.skeys, hc.single, hc.pkeys, hc.pairs⟩
  refine ⟨fun _ _ => hk, fun e he => ⟨?_, hk⟩⟩
  simp only [Calc.callPredict, hc.predict] at he
  exact hB.model _ _ _ he

/-- the feature is a column, or `KeyError` is to be expected -/
def Known (X : Frame F V) (B : Err → Prop) (f : F) : Prop := f ∈ X.cols ∨ B .keyError

theorem keeps_storeSingleN (y : List N) {e : (F × V) × (Nat × Nat)} (hf : Known X B e.1.1) :
    Triple (Kept miss p X) (Calc.storeSingleN miss y e) (fun _ c => Kept miss p X c ∧ miss e.1.2 = false)
      (fun e c => B e ∧ Kept miss p X c) := by
  intro c hc
  unfold Calc.storeSingleN
  cases e1 : c.pdSingle.get? e.1.1 with
  | none =>
    refine ⟨fun _ h => (by cases h), fun er h => ?_⟩
    cases h
    refine ⟨?_, hc⟩
    rcases hf with hf | hf
    · rw [Dict.get?_eq_none_iff, hc.skeys] at e1
      exact absurd hf e1
    · exact hf
  | some t =>
    simp only
    cases e2 : getIndexN miss t.fValues e.1.2 with
    | error er =>
      refine ⟨fun _ h => (by cases h), fun er' h => ?_⟩
      cases h
      rw [getIndexN_error e2]
      exact ⟨hB.index, hc⟩
    | ok i =>
      obtain ⟨hm, hi⟩ := getIndexN_ok e2
      refine ⟨fun _ _ => ⟨⟨hc.predict, hc.data, ?_, ?_, hc.pkeys, hc.pairs⟩, hm⟩, fun er' h => by cases h⟩
      · rw [Dict.keys_set_of_mem]
        · exact hc.skeys
        · rw [← Dict.get?_isSome_iff, e1]; rfl
      · intro f t' h
        simp only [Dict.get?_set] at h
        split at h
        · next hf' =>
          cases h
          subst hf'
          obtain ⟨h1, h2, h3⟩ := hc.single _ _ e1
          refine ⟨h1, by simpa using h2, ?_⟩
          intro j v x hv hmv hx
          simp only at hv hx
          rw [List.getElem?_set] at hx
          by_cases hij : i = j
          · subst hij
            rw [hi] at hv
            cases hv
            rw [hm] at hmv
            cases hmv
          · rw [if_neg hij] at hx
            exact h3 j v x hv hmv hx
        · exact hc.single _ _ h

theorem keeps_storePairN (y : List N) {e : ((F × F) × (V × V)) × (Nat × Nat)} (hf : e.1.1 ∈ combinations2 X.cols ∨ B .keyError) :
    Keeps miss p X B (Calc.storePairN miss y e) := by
  intro c hc
  unfold Calc.storePairN
  cases e1 : c.pdPairs.get? e.1.1 with
  | none =>
    refine ⟨fun _ h => (by cases h), fun er h => ?_⟩
    cases h
    refine ⟨?_, hc⟩
    rcases hf with hf | hf
    · rw [Dict.get?_eq_none_iff, hc.pkeys] at e1
      exact absurd hf e1
    · exact hf
  | some t =>
    simp only
    cases e2 : getIndexN miss t.f1Values e.1.2.1 with
    | error er =>
      refine ⟨fun _ h => (by cases h), fun er' h => ?_⟩
      cases h
      rw [getIndexN_error e2]
      exact ⟨hB.index, hc⟩
    | ok i =>
      simp only
      cases e3 : getIndexN miss t.f2Values e.1.2.2 with
      | error er =>
        refine ⟨fun _ h => (by cases h), fun er' h => ?_⟩
        cases h
        rw [getIndexN_error e3]
        exact ⟨hB.index, hc⟩
      | ok j =>
        refine ⟨fun _ _ => ⟨hc.predict, hc.data, hc.skeys, hc.single, ?_, ?_⟩, fun er' h => by cases h⟩
        · rw [Dict.keys_set_of_mem]
          · exact hc.pkeys
          · rw [← Dict.get?_isSome_iff, e1]; rfl
        · intro f t' h
          simp only [Dict.get?_set] at h
          split at h
          · next hf' =>
            cases h
            subst hf'
            have := hc.pairs _ _ e1
            exact this
          · exact hc.pairs _ _ h

theorem keeps_storeMinus (y : List N) {e : (F × Nat) × (Nat × Nat)} (hk : B .keyError) :
    Keeps miss p X B (Calc.storeMinus y e) := by
  intro c hc
  unfold Calc.storeMinus
  cases e1 : c.pdMinus.get? e.1.1 with
  | none => exact ⟨fun _ h => (by cases h), fun er h => (by cases h; exact ⟨hk, hc⟩)⟩
  | some t =>
    exact ⟨fun _ _ => ⟨hc.predict, hc.data, hc.skeys, hc.single, hc.pkeys, hc.pairs⟩, fun er' h => by cases h⟩

theorem keeps_fillSingleN {l : Loc (F × V) F V} (hl : ∀ k ∈ l.ranges.keys, Known X B k.1) :
    Keeps miss p X B (Calc.fillSingleN miss l) :=
  Triple.seq (keeps_callPredict hB _) fun y => Triple.forEach fun e he =>
    (keeps_storeSingleN hB y (hl _ (List.mem_map_of_mem he))).weaken (fun _ h => h) (fun _ _ h => h.1) (fun _ _ h => h)

theorem breaks_fillSingleN {l : Loc (F × V) F V} (hl : ∀ k ∈ l.ranges.keys, Known X B k.1)
    {k : F × V} (hk : k ∈ l.ranges.keys) (hm : miss k.2 = true) : Breaks miss p X B (Calc.fillSingleN miss l) := by
  refine Triple.seq (keeps_callPredict hB _) fun y => ?_
  simp only [Dict.keys, List.mem_map] at hk
  obtain ⟨e, he, rfl⟩ := hk
  have hs : ∀ e ∈ l.ranges, _ := fun e he => keeps_storeSingleN (miss := miss) hB y (e := e) (hl _ (List.mem_map_of_mem he))
  refine Triple.forEach_some (J := fun _ => False) (fun e he => ?_) (fun e he s hs => hs.elim) he ?_
  · exact (hs e he).weaken (fun _ h => h) (fun _ _ h => h.1) (fun _ _ h => h)
  · refine (hs e he).weaken (fun _ h => h) (fun _ _ h => ?_) (fun _ _ h => h)
    rw [hm] at h
    exact Bool.noConfusion h.2

theorem keeps_fillPairsN {l : Loc ((F × F) × (V × V)) F V} (hl : ∀ k ∈ l.ranges.keys, k.1 ∈ combinations2 X.cols ∨ B .keyError) :
    Keeps miss p X B (Calc.fillPairsN miss l) :=
  Triple.seq (keeps_callPredict hB _) fun y => Triple.forEach fun e he =>
    keeps_storePairN hB y (hl _ (List.mem_map_of_mem he))

theorem keeps_fillMinus (l : Loc (F × Nat) F V) (hk : B .keyError) : Keeps miss p X B (Calc.fillMinus l) :=
  Triple.seq (keeps_callPredict hB _) fun y => Triple.forEach fun e he => keeps_storeMinus hB y hk

/-- the queue holds requests for known features only -/
def QueueS (miss : V → Bool) (p : PF F V N) (X : Frame F V) (B : Err → Prop) (s : Run (F × V) F V N) : Prop :=
  Kept miss p X s.1 ∧ ∀ k ∈ s.2.ranges.keys, Known X B k.1

/-- and one for a missing value -/
def BadQueue (miss : V → Bool) (p : PF F V N) (X : Frame F V) (B : Err → Prop) (s : Run (F × V) F V N) : Prop :=
  QueueS miss p X B s ∧ 0 < s.2.curLen ∧ ∃ k ∈ s.2.ranges.keys, miss k.2 = true

theorem foldl_add_keys {κ α : Type} [DecidableEq κ] {as : List α} {xLen : Nat} {key : α → κ} {block : α → List (Row F V)}
    (l : Loc κ F V) (k : κ) :
    k ∈ (as.foldl (fun l a => l.add xLen (key a) (block a)) l).ranges.keys ↔ k ∈ l.ranges.keys ∨ ∃ a ∈ as, k = key a := by
  induction as generalizing l with
  | nil => simp
  | cons a as ih =>
    rw [List.foldl_cons, ih]
    simp only [Loc.add, Dict.mem_keys_set, List.mem_cons, exists_eq_or_imp]
    tauto

theorem foldl_add_curLen {κ α : Type} [DecidableEq κ] {as : List α} {xLen : Nat} {key : α → κ} {block : α → List (Row F V)}
    (l : Loc κ F V) :
    (as.foldl (fun l a => l.add xLen (key a) (block a)) l).curLen = l.curLen + as.length * xLen := by
  induction as generalizing l with
  | nil => simp
  | cons a as ih =>
    rw [List.foldl_cons, ih]
    simp only [Loc.add, List.length_cons]
    ring

theorem keeps_flushS : ∀ s, QueueS miss p X B s → Triple (fun c => c = s.1) (Calc.fillSingleN miss s.2)
    (fun _ c => QueueS miss p X B (c, Loc.empty)) (fun e c => B e ∧ Kept miss p X c) := fun s hs =>
  (keeps_fillSingleN hB hs.2).weaken (fun c hc => hc ▸ hs.1) (fun _ c h => ⟨h, fun k hk => by cases hk⟩) (fun _ _ h => h)

theorem breaks_flushS {Q : Run (F × V) F V N → Prop} : ∀ s, BadQueue miss p X B s → Triple (fun c => c = s.1) (Calc.fillSingleN miss s.2)
    (fun _ c => Q (c, Loc.empty)) (fun e c => B e ∧ Kept miss p X c) := by
  rintro s ⟨hs, _, k, hk, hm⟩
  exact (breaks_fillSingleN hB hs.2 hk hm).weaken (fun c hc => hc ▸ hs.1) (fun _ c h => h.elim) (fun _ _ h => h)

theorem keeps_singleBodyN {f : F} (hf : Known X B f) :
    Triple (QueueS miss p X B) (Calc.singleBodyN miss f) (fun _ => QueueS miss p X B) (fun e s => B e ∧ Kept miss p X s.1) := by
  rintro ⟨c, l⟩ hs
  unfold Calc.singleBodyN
  cases e1 : c.pdSingle.get? f with
  | none =>
    refine ⟨fun _ h => (by cases h), fun er h => ?_⟩
    cases h
    refine ⟨?_, hs.1⟩
    rcases hf with hf | hf
    · rw [Dict.get?_eq_none_iff, hs.1.skeys] at e1
      exact absurd hf e1
    · exact hf
  | some t =>
    simp only
    split
    · refine Triple.flushIfFull (keeps_flushS hB) (fun _ h => h) (c, _) ⟨hs.1, fun k hk => ?_⟩
      rw [foldl_add_keys hB] at hk
      rcases hk with hk | ⟨a, _, rfl⟩
      · exact hs.2 k hk
      · exact hf
    · exact ⟨fun _ _ => hs, fun e h => by cases h⟩

theorem keeps_bad_singleBodyN {f : F} (hf : Known X B f) :
    Triple (BadQueue miss p X B) (Calc.singleBodyN miss f) (fun _ => BadQueue miss p X B) (fun e s => B e ∧ Kept miss p X s.1) := by
  rintro ⟨c, l⟩ ⟨hs, h0, k0, hk0, hm⟩
  unfold Calc.singleBodyN
  cases e1 : c.pdSingle.get? f with
  | none =>
    refine ⟨fun _ h => (by cases h), fun er h => ?_⟩
    cases h
    refine ⟨?_, hs.1⟩
    rcases hf with hf | hf
    · rw [Dict.get?_eq_none_iff, hs.1.skeys] at e1
      exact absurd hf e1
    · exact hf
  | some t =>
    simp only
    split
    · refine Triple.flushIfFull (breaks_flushS hB) (fun _ h => h) (c, _) ⟨⟨hs.1, fun k hk => ?_⟩, ?_, k0, ?_, hm⟩
      · rw [foldl_add_keys hB] at hk
        rcases hk with hk | ⟨a, _, rfl⟩
        · exact hs.2 k hk
        · exact hf
      · rw [foldl_add_curLen hB]
        exact Nat.lt_of_lt_of_le h0 (Nat.le_add_right _ _)
      · rw [foldl_add_keys hB]
        exact Or.inl hk0
    · exact ⟨fun _ _ => ⟨hs, h0, k0, hk0, hm⟩, fun e h => by cases h⟩

/-- the body of the loop for the feature with the missing value -/
theorem bad_singleBodyN {f : F} {v : V} (hf : f ∈ X.cols) (hv : v ∈ X.col f) (hm : miss v = true) :
    Triple (QueueS miss p X B) (Calc.singleBodyN miss f) (fun _ => BadQueue miss p X B) (fun e s => B e ∧ Kept miss p X s.1) := by
  rintro ⟨c, l⟩ hs
  unfold Calc.singleBodyN
  cases e1 : c.pdSingle.get? f with
  | none =>
    rw [Dict.get?_eq_none_iff, hs.1.skeys] at e1
    exact absurd hf e1
  | some t =>
    obtain ⟨h1, h2, h3⟩ := hs.1.single _ _ e1
    have hvt : v ∈ t.fValues := by rw [h1]; exact mem_npUnique.2 hv
    obtain ⟨i, hi, hiv⟩ := List.getElem_of_mem hvt
    have hi' : i < t.pdValues.length := h2 ▸ hi
    have hnan := h3 i v _ (by rw [List.getElem?_eq_getElem hi, hiv]) hm (List.getElem?_eq_getElem hi')
    have hany : t.pdValues.any Flt.isNaN = true := List.any_eq_true.2 ⟨_, List.getElem_mem hi', hnan⟩
    simp only
    rw [if_pos hany]
    refine Triple.flushIfFull (breaks_flushS hB) (fun _ h => h) (c, _) ⟨⟨hs.1, fun k hk => ?_⟩, ?_, (f, v), ?_, hm⟩
    · rw [foldl_add_keys hB] at hk
      rcases hk with hk | ⟨a, _, rfl⟩
      · exact hs.2 k hk
      · exact Or.inl hf
    · rw [foldl_add_curLen hB, hs.1.data]
      have h4 : 0 < t.fValues.length := List.length_pos_of_mem hvt
      have h5 : 0 < X.len := by
        simp only [Frame.col, List.mem_map] at hv
        obtain ⟨r, hr, _⟩ := hv
        exact List.length_pos_of_mem hr
      exact Nat.lt_of_lt_of_le (Nat.mul_pos h4 h5) (Nat.le_add_left _ _)
    · rw [foldl_add_keys hB]
      exact Or.inr ⟨v, hvt, rfl⟩

theorem keeps_single {fs : Option (List F)} (hf : ∀ f ∈ fs.getD X.cols, Known X B f) :
    Keeps miss p X B (Calc.calculateSingleN miss fs) := by
  intro c hc
  unfold Calc.calculateSingleN
  refine (Triple.withLoc (I := Kept miss p X) (Q := Kept miss p X) (P := fun e c => B e ∧ Kept miss p X c) (Triple.seq (Q := fun _ => QueueS miss p X B) ?_ fun _ => ?_)) c hc
  · refine (Triple.forEach fun f h => keeps_singleBodyN hB (hf f (hc.data ▸ h))).weaken ?_ (fun _ _ h => h) (fun _ _ h => h)
    rintro s ⟨h1, h2⟩
    refine ⟨h1, fun k hk => ?_⟩
    rw [h2] at hk
    cases hk
  · exact (Triple.flushRest (keeps_flushS hB) (fun _ h _ => h)).weaken (fun _ h => h) (fun _ _ h => h.1) (fun _ _ h => h)

/-- a missing value in a column that is looked at stops the calculation -/
theorem breaks_single {fs : Option (List F)} (hf : ∀ f ∈ fs.getD X.cols, Known X B f) {f : F} {v : V} (hfs : f ∈ fs.getD X.cols)
    (hfc : f ∈ X.cols) (hv : v ∈ X.col f) (hm : miss v = true) : Breaks miss p X B (Calc.calculateSingleN miss fs) := by
  intro c hc
  unfold Calc.calculateSingleN
  refine (Triple.withLoc (I := Kept miss p X) (Q := fun _ => False) (P := fun e c => B e ∧ Kept miss p X c) (Triple.seq (Q := fun _ => BadQueue miss p X B) ?_ fun _ => ?_)) c hc
  · refine (Triple.forEach_some (fun f h => keeps_singleBodyN hB (hf f (hc.data ▸ h)))
      (fun f h => keeps_bad_singleBodyN hB (hf f (hc.data ▸ h))) (hc.data.symm ▸ hfs) (bad_singleBodyN hB hfc hv hm)).weaken ?_
      (fun _ _ h => h) (fun _ _ h => h)
    rintro s ⟨h1, h2⟩
    refine ⟨h1, fun k hk => ?_⟩
    rw [h2] at hk
    cases hk
  · exact (Triple.flushRest (J := BadQueue miss p X B) (Q := fun _ => False) (P := fun e c => B e ∧ Kept miss p X c)
      (breaks_flushS (Q := fun _ => False) hB) (fun s h h0 => absurd h.2.1 (by omega)))

/-- the queue of pairs -/
def QueueP (miss : V → Bool) (p : PF F V N) (X : Frame F V) (B : Err → Prop) (s : Run ((F × F) × (V × V)) F V N) : Prop :=
  Kept miss p X s.1 ∧ ∀ k ∈ s.2.ranges.keys, k.1 ∈ combinations2 X.cols ∨ B .keyError

theorem keeps_flushP : ∀ s, QueueP miss p X B s → Triple (fun c => c = s.1) (Calc.fillPairsN miss s.2)
    (fun _ c => QueueP miss p X B (c, Loc.empty)) (fun e c => B e ∧ Kept miss p X c) := fun s hs =>
  (keeps_fillPairsN hB hs.2).weaken (fun c hc => hc ▸ hs.1) (fun _ c h => ⟨h, fun k hk => by cases hk⟩) (fun _ _ h => h)

theorem keeps_pairValueBodyN {k : F × F} (hk : k ∈ combinations2 X.cols ∨ B .keyError) (v : V × V) :
    Triple (QueueP miss p X B) (Calc.pairValueBodyN miss k v) (fun _ => QueueP miss p X B) (fun e s => B e ∧ Kept miss p X s.1) := by
  rintro ⟨c, l⟩ hs
  unfold Calc.pairValueBodyN
  cases e1 : c.pdPairs.get? k with
  | none =>
    refine ⟨fun _ h => (by cases h), fun er h => ?_⟩
    cases h
    refine ⟨?_, hs.1⟩
    rcases hk with hk | hk
    · rw [Dict.get?_eq_none_iff, hs.1.pkeys] at e1
      exact absurd hk e1
    · exact hk
  | some t =>
    simp only
    cases e2 : getIndexN miss t.f1Values v.1 with
    | error er =>
      refine ⟨fun _ h => (by cases h), fun er' h => ?_⟩
      cases h
      rw [getIndexN_error e2]
      exact ⟨hB.index, hs.1⟩
    | ok i =>
      simp only
      cases e3 : getIndexN miss t.f2Values v.2 with
      | error er =>
        refine ⟨fun _ h => (by cases h), fun er' h => ?_⟩
        cases h
        rw [getIndexN_error e3]
        exact ⟨hB.index, hs.1⟩
      | ok j =>
        simp only
        cases e4 : (t.pdValues[i]?).bind (fun row => row[j]?) with
        | none =>
          refine ⟨fun _ h => (by cases h), fun er' h => ?_⟩
          cases h
          exact ⟨hB.index, hs.1⟩
        | some x =>
          simp only
          split
          · refine Triple.flushIfFull (keeps_flushP hB) (fun _ h => h) (c, _) ⟨hs.1, fun k' hk' => ?_⟩
            simp only [Loc.add, Dict.mem_keys_set] at hk'
            rcases hk' with rfl | hk'
            · exact hk
            · exact hs.2 _ hk'
          · exact ⟨fun _ _ => hs, fun e h => by cases h⟩

/-- the pair consists of two different columns, or `KeyError` is to be expected -/
def KnownPair (X : Frame F V) (B : Err → Prop) (q : F × F) : Prop :=
  (q ∈ combinations2 X.cols ∨ q.swap ∈ combinations2 X.cols) ∨ B .keyError

omit hB in
theorem kept_pairKey {c : Calc F V N} (hc : Kept miss p X c) {q : F × F} (hq : KnownPair X B q) :
    c.pairKey q ∈ combinations2 X.cols ∨ B .keyError := by
  rcases hq with hq | hq
  · left
    unfold Calc.pairKey
    rw [hc.pkeys]
    rcases hq with hq | hq
    · rw [if_pos hq]; exact hq
    · split
      · assumption
      · exact hq
  · exact Or.inr hq

theorem keeps_pairBodyN {q : F × F} (hq : KnownPair X B q) (all : Bool) :
    Triple (QueueP miss p X B) (Calc.pairBodyN miss all q) (fun _ => QueueP miss p X B) (fun e s => B e ∧ Kept miss p X s.1) := by
  intro s hs
  have hk := kept_pairKey hs.1 hq
  unfold Calc.pairBodyN
  simp only
  cases e1 : s.1.pairValues all (s.1.pairKey q) with
  | error er =>
    refine ⟨fun _ h => (by cases h), fun er' h => ?_⟩
    cases h
    refine ⟨?_, hs.1⟩
    have : er = .keyError ∧ ¬ (s.1.pairKey q ∈ combinations2 X.cols) := by
      unfold Calc.pairValues at e1
      split at e1
      · split at e1
        · next h => cases e1; rw [Dict.get?_eq_none_iff, hs.1.pkeys] at h; exact ⟨rfl, h⟩
        · cases e1
      · split at e1
        · cases e1
        · next h => cases e1; exact ⟨rfl, fun hm => h (by rw [hs.1.data]; exact mem_combinations2 hm)⟩
    rcases hk with hk | hk
    · exact absurd hk this.2
    · rw [this.1]; exact hk
  | ok vs => exact Triple.forEach (fun v _ => keeps_pairValueBodyN hB hk v) s hs

theorem keeps_pairs {ps : Option (List (F × F))} (hp : ∀ q ∈ ps.getD (combinations2 X.cols), KnownPair X B q) (all : Bool) :
    Keeps miss p X B (Calc.calculatePairsN miss ps all) := by
  intro c hc
  unfold Calc.calculatePairsN
  refine (Triple.withLoc (I := Kept miss p X) (Q := Kept miss p X) (P := fun e c => B e ∧ Kept miss p X c) (Triple.seq (Q := fun _ => QueueP miss p X B) ?_ fun _ => ?_)) c hc
  · refine (Triple.forEach fun f h => keeps_pairBodyN hB (hp f (hc.pkeys ▸ h)) all).weaken ?_ (fun _ _ h => h) (fun _ _ h => h)
    rintro s ⟨h1, h2⟩
    refine ⟨h1, fun k hk => ?_⟩
    rw [h2] at hk
    cases hk
  · exact (Triple.flushRest (keeps_flushP hB) (fun _ h _ => h)).weaken (fun _ h => h) (fun _ _ h => h.1) (fun _ _ h => h)

theorem keeps_minus (fs : Option (List F)) (hk : B .keyError) : Keeps miss p X B (Calc.calculateMinus fs) := by
  have hfl : ∀ s : Run (F × Nat) F V N, Kept miss p X s.1 → Triple (fun c => c = s.1) (Calc.fillMinus s.2)
      (fun _ c => Kept miss p X ((c, Loc.empty) : Run (F × Nat) F V N).1) (fun e c => B e ∧ Kept miss p X c) := fun s hs =>
    (keeps_fillMinus hB s.2 hk).weaken (fun c hc => hc ▸ hs) (fun _ c h => h) (fun _ _ h => h)
  intro c hc
  unfold Calc.calculateMinus
  refine (Triple.withLoc (I := Kept miss p X) (Q := Kept miss p X) (P := fun e c => B e ∧ Kept miss p X c) (Triple.seq (Q := fun _ s => Kept miss p X s.1) ?_ fun _ => ?_)) c hc
  · refine (Triple.forEach (I := fun s => Kept miss p X s.1) fun f h => ?_).weaken (fun s h => h.1) (fun _ _ h => h) (fun _ _ h => h)
    rintro ⟨c, l⟩ hs
    unfold Calc.minusBody
    cases e1 : c.pdMinus.get? f with
    | none => exact ⟨fun _ h => (by cases h), fun er h => (by cases h; exact ⟨hk, hs⟩)⟩
    | some t =>
      simp only
      split
      · exact Triple.flushIfFull (J := fun s => Kept miss p X s.1) (Q := fun s => Kept miss p X s.1) hfl (fun _ h => h) (c, _) hs
      · exact ⟨fun _ _ => hs, fun e h => by cases h⟩
  · exact (Triple.flushRest (J := fun s => Kept miss p X s.1) (Q := fun s => Kept miss p X s.1) hfl (fun _ h _ => h))

/-- one call of a public `calculate_*` method, on data that may have missing values -/
def PDOp.runN (miss : V → Bool) : PDOp F → PyM (Calc F V N) Unit
  | .single fs => Calc.calculateSingleN miss fs
  | .pairs ps all => Calc.calculatePairsN miss ps all
  | .minus fs => Calc.calculateMinus fs

/-- the calculator after a history of calls -/
def runOpsN (miss : V → Bool) (c : Calc F V N) : List (PDOp F) → Calc F V N
  | [] => c
  | op :: ops => runOpsN miss (op.runN miss c).2 ops

omit hB in
theorem kept_of_triple {α : Type} {m : PyM (Calc F V N) α} {c : Calc F V N} (h : Keeps miss p X B m) (hc : Kept miss p X c) :
    Kept miss p X (m c).2 := by
  obtain ⟨h1, h2⟩ := h c hc
  cases e : (m c).1 with
  | ok a => exact h1 a e
  | error er => exact (h2 er e).2

omit hB in
theorem kept_op (op : PDOp F) {c : Calc F V N} (hc : Kept miss p X c) : Kept miss p X (op.runN miss c).2 := by
  have hB : Blame p (fun _ => True) := ⟨trivial, fun _ _ _ _ => trivial⟩
  cases op with
  | single fs => exact kept_of_triple (keeps_single hB fun _ _ => Or.inr trivial) hc
  | pairs ps all => exact kept_of_triple (keeps_pairs hB (fun _ _ => Or.inr trivial) all) hc
  | minus fs => exact kept_of_triple (keeps_minus hB fs trivial) hc

omit hB in
theorem kept_runOps (ops : List (PDOp F)) : ∀ c : Calc F V N, Kept miss p X c → Kept miss p X (runOpsN miss c ops) := by
  induction ops with
  | nil => exact fun c hc => hc
  | cons op ops ih => exact fun c hc => ih _ (kept_op op hc)

end calculator

/-! ### the look-ups of the H-statistic -/

section methods
variable {F V K : Type} [DecidableEq F] [LinearOrder V] [Field K] [LinearOrder K] [HasSqrt K] {miss : V → Bool}
  {p : PF F V (Num K)} {X Y : Frame F V} {B : Err → Prop}

theorem getSingleN_error {c : Calc F V (Num K)} (hc : Kept miss p X c) {f : F} (hf : f ∈ X.cols) {vs : List V} {e : Err}
    (h : c.getSingleN miss f vs = .error e) : e = .indexError := by
  obtain ⟨v, _, hv⟩ := exists_of_mapM_error h
  unfold Calc.lookupSingleN at hv
  split at hv
  · next h => rw [Dict.get?_eq_none_iff, hc.skeys] at h; exact absurd hf h
  · split at hv
    · next h' => cases hv; exact getIndexN_error h'
    · split at hv
      · cases hv; rfl
      · cases hv

theorem getPairsN_error {c : Calc F V (Num K)} (hc : Kept miss p X c) {q : F × F}
    (hq : q ∈ combinations2 X.cols ∨ q.swap ∈ combinations2 X.cols) {vs : List (V × V)} {e : Err}
    (h : c.getPairsN miss q.1 q.2 vs = .error e) : e = .indexError := by
  unfold Calc.getPairsN at h
  split at h
  · next hn =>
    rw [Dict.get?_eq_none_iff, hc.pkeys] at hn
    have := kept_pairKey (B := fun e => e ≠ .keyError) hc (Or.inl hq)
    rcases this with this | this
    · exact absurd this hn
    · exact absurd rfl this
  · obtain ⟨v, _, hv⟩ := exists_of_mapM_error h
    unfold PairTab.lookupN at hv
    split at hv
    · next h' => cases hv; exact getIndexN_error h'
    · split at hv
      · next h' => cases hv; exact getIndexN_error h'
      · split at hv
        · cases hv; rfl
        · cases hv

theorem hstatPairN_error {c : Calc F V (Num K)} (hc : Kept miss p X c) {n : Bool} (hY : Y.cols = X.cols) {q : F × F}
    (hq : q ∈ combinations2 X.cols ∨ q.swap ∈ combinations2 X.cols) {e : Err}
    (h : hstatPairN miss n Y c q = .error e) : e = .indexError := by
  have hm : q.1 ∈ X.cols ∧ q.2 ∈ X.cols := by
    rcases hq with hq | hq
    · exact mem_combinations2 hq
    · exact (mem_combinations2 hq).symm
  have e1 : Y.colE q.1 = .ok (Y.col q.1) := by unfold Frame.colE; rw [hY, if_pos hm.1]
  have e2 : Y.colE q.2 = .ok (Y.col q.2) := by unfold Frame.colE; rw [hY, if_pos hm.2]
  simp only [hstatPairN, bind, Except.bind, e1, e2] at h
  cases g1 : c.getSingleN miss q.1 (Y.col q.1) with
  | error e' => rw [g1] at h; cases h; exact getSingleN_error hc hm.1 g1
  | ok l1 =>
    rw [g1] at h
    simp only at h
    cases g2 : c.getSingleN miss q.2 (Y.col q.2) with
    | error e' => rw [g2] at h; cases h; exact getSingleN_error hc hm.2 g2
    | ok l2 =>
      rw [g2] at h
      simp only at h
      cases g3 : c.getPairsN miss q.1 q.2 ((Y.col q.1).zip (Y.col q.2)) with
      | error e' => rw [g3] at h; cases h; exact getPairsN_error hc hq g3
      | ok l3 =>
        rw [g3] at h
        simp only at h
        have hl1 := (mapM_eq_ok g1).length_eq
        have hl2 := (mapM_eq_ok g2).length_eq
        have hl3 : l3.length = Y.len := by
          unfold Calc.getPairsN at g3
          split at g3
          · cases g3
          · have := (mapM_eq_ok g3).length_eq
            rw [← this]
            split <;> simp [Frame.col, Frame.len]
        have hval : ∃ x, hstatValue l1 l2 l3 n = .ok x :=
          ⟨_, hstatValue_eq n (by rw [← hl1, hl3]; simp [Frame.col, Frame.len]) (by rw [← hl2, hl3]; simp [Frame.col, Frame.len])⟩
        obtain ⟨x, hx⟩ := hval
        rw [hx] at h
        cases h

theorem keeps_hstatOvoN (hB : Blame p B) {sort} {n : Bool} (hY : Y.cols = X.cols) {fs : List F} (hv : ValidFeatures X fs) :
    Keeps miss p X B (hstatOvoN (K := K) miss sort n Y fs (combinations2 fs)) := by
  have hp : ∀ q ∈ combinations2 fs, q ∈ combinations2 X.cols ∨ q.swap ∈ combinations2 X.cols := fun q hq =>
    mem_combinations2_or (hv.cols _ (mem_combinations2 hq).1) (hv.cols _ (mem_combinations2 hq).2) (hv.ne _ hq)
  refine Triple.seq (keeps_pairs hB (ps := some (combinations2 fs)) (fun q hq => Or.inl (hp q hq)) false) fun _ => ?_
  refine Triple.seq (keeps_single hB (fs := some fs) fun f hf => Or.inl (hv.cols f hf)) fun _ => ?_
  intro c hc
  refine ⟨fun a _ => hc, fun e he => ?_⟩
  simp only at he
  split at he
  · next e' h' =>
    cases he
    obtain ⟨q, hq, hqe⟩ := exists_of_mapM_error h'
    rw [hstatPairN_error hc hY (hp q hq) hqe]
    exact ⟨hB.index, hc⟩
  · cases he

/-- the computation of the pairs, with whatever error -/
theorem keeps_ovoN {G : Type} (hB : Blame p B) (hall : ∀ e, B e) (kind : PdKind) {E : PdEnv G F K} {fs : List F} {ps : List (F × F)} :
    Keeps miss p X B (kind.ovoN miss E Y fs ps) := by
  have last : ∀ {α : Type} (k : Calc F V (Num K) → Except Err α), Keeps miss p X B (fun c => (k c, c)) := fun k c hc =>
    ⟨fun _ _ => hc, fun e _ => ⟨hall e, hc⟩⟩
  cases kind with
  | friedman n =>
    refine Triple.seq (keeps_pairs hB (fun q hq => Or.inr (hall _)) false) fun _ => ?_
    exact Triple.seq (keeps_single hB fun f hf => Or.inr (hall _)) fun _ => last _
  | greenwell => exact Triple.seq (keeps_pairs hB (fun q hq => Or.inr (hall _)) true) fun _ => last _

theorem breaks_pdpImportanceN (hB : Blame p B) {sort} {num : F → Bool} {fs : List F} {f : F} {v : V}
    (hf : f ∈ X.cols) (hv : v ∈ X.col f) (hm : miss v = true) : Breaks miss p X B (pdpImportanceN (K := K) miss sort num fs) :=
  Triple.seq (breaks_single hB (fun f hf => Or.inl hf) hf hf hv hm) fun _ _ h => h.elim

theorem breaks_calcAdditivityN (hB : Blame p B) {cp : F} {pr : PF F V (Num K)} {f : F} {v : V}
    (hf : f ∈ X.cols) (hv : v ∈ X.col f) (hm : miss v = true) : Breaks miss p X B (calcAdditivityN (K := K) miss cp pr Y) :=
  Triple.seq (breaks_single hB (fun f hf => Or.inl hf) hf hf hv hm) fun _ _ h => h.elim

end methods

/-! ### nothing is missing -/

/-- from a state with the invariant both programs do the same and keep it -/
def Alike {σ α : Type} (I : σ → Prop) (m m' : PyM σ α) : Prop := ∀ s, I s → I (m s).2 ∧ m' s = m s

section alike
variable {σ α β : Type} {I : σ → Prop}

theorem Alike.seq {m m' : PyM σ α} {k k' : α → PyM σ β} (h : Alike I m m') (hk : ∀ a, Alike I (k a) (k' a)) :
    Alike I (PyM.seq m k) (PyM.seq m' k') := by
  intro s hs
  obtain ⟨h1, h2⟩ := h s hs
  unfold PyM.seq
  rw [h2]
  cases e : m s with
  | mk r s1 =>
    rw [e] at h1
    cases r with
    | error er => exact ⟨h1, rfl⟩
    | ok a => exact hk a s1 h1

theorem Alike.forEach {as : List α} {b b' : α → PyM σ Unit} (h : ∀ a ∈ as, Alike I (b a) (b' a)) :
    Alike I (PyM.forEach as b) (PyM.forEach as b') := by
  induction as with
  | nil => exact fun s hs => ⟨hs, rfl⟩
  | cons a as ih =>
    exact Alike.seq (h a List.mem_cons_self) fun _ => ih fun x hx => h x (List.mem_cons_of_mem _ hx)

end alike

section clean
variable {F V N κ : Type} [DecidableEq F] [LinearOrder V] [Flt N] {miss : V → Bool}

/-- no value of a column is missing -/
def Complete (miss : V → Bool) (X : Frame F V) : Prop := ∀ f ∈ X.cols, ∀ v ∈ X.col f, miss v = false

/-- the calculator knows no missing value -/
structure CleanCalc (miss : V → Bool) (c : Calc F V N) : Prop where
  data : Complete miss c.X
  single : ∀ f t, c.pdSingle.get? f = some t → ∀ v ∈ t.fValues, miss v = false
  pairs : ∀ k t, c.pdPairs.get? k = some t → (∀ v ∈ t.f1Values, miss v = false) ∧ ∀ v ∈ t.f2Values, miss v = false

/-- neither do the calculator and its queue -/
def CleanRun (clean : κ → Prop) (miss : V → Bool) (s : Run κ F V N) : Prop := CleanCalc miss s.1 ∧ ∀ k ∈ s.2.ranges.keys, clean k

theorem clean_new (p : PF F V N) {X : Frame F V} (hX : Complete miss X) (b : Int) : CleanCalc miss (Calc.new p X b) := by
  refine ⟨hX, ?_, ?_⟩
  · intro f t h v hv
    have hm := Dict.mem_of_get? h
    simp only [Calc.new, List.mem_map] at hm
    obtain ⟨f', hf, he⟩ := hm
    obtain ⟨rfl, rfl⟩ := Prod.mk.inj he
    exact hX f' hf v (mem_npUnique.1 hv)
  · intro k t h
    have hm := Dict.mem_of_get? h
    simp only [Calc.new, List.mem_map] at hm
    obtain ⟨k', hk, he⟩ := hm
    obtain ⟨rfl, rfl⟩ := Prod.mk.inj he
    exact ⟨fun v hv => hX _ (mem_combinations2 hk).1 v (mem_npUnique.1 hv),
      fun v hv => hX _ (mem_combinations2 hk).2 v (mem_npUnique.1 hv)⟩

variable {clean : κ → Prop} {fill fill' : Loc κ F V → PyM (Calc F V N) Unit}

theorem alike_flush (hf : ∀ l : Loc κ F V, (∀ k ∈ l.ranges.keys, clean k) → Alike (CleanCalc miss) (fill l) (fill' l)) :
    Alike (CleanRun clean miss) (flush fill) (flush fill') := by
  rintro ⟨c, l⟩ ⟨hc, hl⟩
  obtain ⟨h1, h2⟩ := hf l hl c hc
  simp only [flush]
  rw [h2]
  cases e : fill l c with
  | mk r c' =>
    rw [e] at h1
    cases r with
    | ok _ => exact ⟨⟨h1, fun k hk => by cases hk⟩, rfl⟩
    | error _ => exact ⟨⟨h1, hl⟩, rfl⟩

theorem alike_flushIfFull (hf : ∀ l : Loc κ F V, (∀ k ∈ l.ranges.keys, clean k) → Alike (CleanCalc miss) (fill l) (fill' l)) :
    Alike (CleanRun clean miss) (flushIfFull fill) (flushIfFull fill') := by
  intro s hs
  unfold flushIfFull
  split
  · exact alike_flush hf s hs
  · exact ⟨hs, rfl⟩

theorem alike_flushRest (hf : ∀ l : Loc κ F V, (∀ k ∈ l.ranges.keys, clean k) → Alike (CleanCalc miss) (fill l) (fill' l)) :
    Alike (CleanRun clean miss) (flushRest fill) (flushRest fill') := by
  intro s hs
  unfold flushRest
  split
  · exact alike_flush hf s hs
  · exact ⟨hs, rfl⟩

theorem alike_withLoc {b b' : PyM (Run κ F V N) Unit} (h : Alike (CleanRun clean miss) b b') :
    Alike (CleanCalc miss) (withLoc b) (withLoc b') := by
  intro c hc
  obtain ⟨h1, h2⟩ := h (c, Loc.empty) ⟨hc, fun k hk => by cases hk⟩
  refine ⟨h1.1, ?_⟩
  unfold withLoc
  rw [h2]

theorem alike_callPredict (rows : List (Row F V)) :
    Alike (CleanCalc (N := N) miss) (Calc.callPredict rows) (Calc.callPredict rows) :=
  fun c hc => ⟨⟨hc.data, hc.single, hc.pairs⟩, rfl⟩

theorem alike_storeSingle (y : List N) {e : (F × V) × (Nat × Nat)} (he : miss e.1.2 = false) :
    Alike (CleanCalc miss) (Calc.storeSingle y e) (Calc.storeSingleN miss y e) := by
  intro c hc
  unfold Calc.storeSingle Calc.storeSingleN
  simp only [getIndexN_of_present he]
  refine ⟨?_, rfl⟩
  cases e1 : c.pdSingle.get? e.1.1 with
  | none => exact hc
  | some t =>
    simp only
    cases e2 : getIndex t.fValues e.1.2 with
    | error _ => exact hc
    | ok i =>
      refine ⟨hc.data, ?_, hc.pairs⟩
      intro f t' h
      simp only [Dict.get?_set] at h
      split at h
      · next hf => cases h; subst hf; have := hc.single _ _ e1; exact this
      · exact hc.single _ _ h

theorem alike_storePair (y : List N) {e : ((F × F) × (V × V)) × (Nat × Nat)} (he : miss e.1.2.1 = false ∧ miss e.1.2.2 = false) :
    Alike (CleanCalc miss) (Calc.storePair y e) (Calc.storePairN miss y e) := by
  intro c hc
  unfold Calc.storePair Calc.storePairN
  simp only [getIndexN_of_present he.1, getIndexN_of_present he.2]
  refine ⟨?_, rfl⟩
  cases e1 : c.pdPairs.get? e.1.1 with
  | none => exact hc
  | some t =>
    simp only
    cases e2 : getIndex t.f1Values e.1.2.1 with
    | error _ => exact hc
    | ok i =>
      simp only
      cases e3 : getIndex t.f2Values e.1.2.2 with
      | error _ => exact hc
      | ok j =>
        refine ⟨hc.data, hc.single, ?_⟩
        intro f t' h
        simp only [Dict.get?_set] at h
        split at h
        · next hf => cases h; subst hf; have := hc.pairs _ _ e1; exact this
        · exact hc.pairs _ _ h

theorem alike_fillSingle (l : Loc (F × V) F V) (hl : ∀ k ∈ l.ranges.keys, miss k.2 = false) :
    Alike (CleanCalc (N := N) miss) (Calc.fillSingle l) (Calc.fillSingleN miss l) :=
  Alike.seq (alike_callPredict _) fun y => Alike.forEach fun e he => alike_storeSingle y (hl _ (List.mem_map_of_mem he))

theorem alike_fillPairs (l : Loc ((F × F) × (V × V)) F V) (hl : ∀ k ∈ l.ranges.keys, miss k.2.1 = false ∧ miss k.2.2 = false) :
    Alike (CleanCalc (N := N) miss) (Calc.fillPairs l) (Calc.fillPairsN miss l) :=
  Alike.seq (alike_callPredict _) fun y => Alike.forEach fun e he => alike_storePair y (hl _ (List.mem_map_of_mem he))

theorem alike_singleBody (f : F) : Alike (CleanRun (N := N) (fun k : F × V => miss k.2 = false) miss) (Calc.singleBody f)
    (Calc.singleBodyN miss f) := by
  rintro ⟨c, l⟩ ⟨hc, hl⟩
  unfold Calc.singleBody Calc.singleBodyN
  cases e1 : c.pdSingle.get? f with
  | none => exact ⟨⟨hc, hl⟩, rfl⟩
  | some t =>
    simp only
    split
    · refine alike_flushIfFull alike_fillSingle (c, _) ⟨hc, fun k hk => ?_⟩
      rw [foldl_add_keys (p := c.predict) (B := fun _ => True) ⟨trivial, fun _ _ _ _ => trivial⟩] at hk
      rcases hk with hk | ⟨v, hv, rfl⟩
      · exact hl k hk
      · exact hc.single _ _ e1 v hv
    · exact ⟨⟨hc, hl⟩, rfl⟩

theorem alike_pairValueBody (k : F × F) {v : V × V} (hv : miss v.1 = false ∧ miss v.2 = false) :
    Alike (CleanRun (N := N) (fun k : (F × F) × (V × V) => miss k.2.1 = false ∧ miss k.2.2 = false) miss) (Calc.pairValueBody k v)
      (Calc.pairValueBodyN miss k v) := by
  rintro ⟨c, l⟩ ⟨hc, hl⟩
  unfold Calc.pairValueBody Calc.pairValueBodyN
  simp only [getIndexN_of_present hv.1, getIndexN_of_present hv.2]
  cases e1 : c.pdPairs.get? k with
  | none => exact ⟨⟨hc, hl⟩, rfl⟩
  | some t =>
    simp only
    cases e2 : getIndex t.f1Values v.1 with
    | error _ => exact ⟨⟨hc, hl⟩, rfl⟩
    | ok i =>
      simp only
      cases e3 : getIndex t.f2Values v.2 with
      | error _ => exact ⟨⟨hc, hl⟩, rfl⟩
      | ok j =>
        simp only
        cases e4 : (t.pdValues[i]?).bind (fun row => row[j]?) with
        | none => exact ⟨⟨hc, hl⟩, rfl⟩
        | some x =>
          simp only
          split
          · refine alike_flushIfFull alike_fillPairs (c, _) ⟨hc, fun k' hk' => ?_⟩
            simp only [Loc.add, Dict.mem_keys_set] at hk'
            rcases hk' with rfl | hk'
            · exact hv
            · exact hl k' hk'
          · exact ⟨⟨hc, hl⟩, rfl⟩

theorem alike_pairBody (all : Bool) (q : F × F) :
    Alike (CleanRun (N := N) (fun k : (F × F) × (V × V) => miss k.2.1 = false ∧ miss k.2.2 = false) miss) (Calc.pairBody all q)
      (Calc.pairBodyN miss all q) := by
  intro s hs
  unfold Calc.pairBody Calc.pairBodyN
  simp only
  cases e : s.1.pairValues all (s.1.pairKey q) with
  | error er => exact ⟨hs, rfl⟩
  | ok vs =>
    refine Alike.forEach (fun v hv => alike_pairValueBody _ ?_) s hs
    unfold Calc.pairValues at e
    split at e
    · split at e
      · cases e
      · next t ht =>
        cases e
        obtain ⟨h1, h2⟩ := hs.1.pairs _ _ ht
        simp only [List.mem_flatMap, List.mem_map] at hv
        obtain ⟨a, ha, b, hb, rfl⟩ := hv
        exact ⟨h1 a ha, h2 b hb⟩
    · split at e
      · next h =>
        cases e
        have := List.of_mem_zip hv
        exact ⟨hs.1.data _ h.1 _ this.1, hs.1.data _ h.2 _ this.2⟩
      · cases e

theorem alike_single (fs : Option (List F)) :
    Alike (CleanCalc (V := V) (N := N) miss) (Calc.calculateSingle fs) (Calc.calculateSingleN miss fs) :=
  fun c hc => alike_withLoc (Alike.seq (Alike.forEach fun f _ => alike_singleBody f) fun _ => alike_flushRest alike_fillSingle) c hc

theorem alike_pairs (ps : Option (List (F × F))) (all : Bool) :
    Alike (CleanCalc (V := V) (N := N) miss) (Calc.calculatePairs ps all) (Calc.calculatePairsN miss ps all) :=
  fun c hc => alike_withLoc (Alike.seq (Alike.forEach fun f _ => alike_pairBody all f) fun _ => alike_flushRest alike_fillPairs) c hc

theorem alike_minus (fs : Option (List F)) :
    Alike (CleanCalc (V := V) (N := N) miss) (Calc.calculateMinus fs) (Calc.calculateMinus fs) := by
  have hfill : ∀ l : Loc (F × Nat) F V, (∀ k ∈ l.ranges.keys, True) →
      Alike (CleanCalc (N := N) miss) (Calc.fillMinus l) (Calc.fillMinus l) := fun l _ =>
    Alike.seq (alike_callPredict _) fun y => Alike.forEach fun e he => by
      intro c hc
      refine ⟨?_, rfl⟩
      unfold Calc.storeMinus
      cases e1 : c.pdMinus.get? e.1.1 with
      | none => exact hc
      | some t => exact ⟨hc.data, hc.single, hc.pairs⟩
  refine fun c hc => alike_withLoc (clean := fun _ => True) (Alike.seq (Alike.forEach fun f _ => ?_) fun _ => alike_flushRest hfill) c hc
  rintro ⟨c, l⟩ ⟨hc, hl⟩
  refine ⟨?_, rfl⟩
  unfold Calc.minusBody
  cases e1 : c.pdMinus.get? f with
  | none => exact ⟨hc, hl⟩
  | some t =>
    simp only
    split
    · refine (alike_flushIfFull (clean := fun _ => True) hfill _ ?_).1
      exact ⟨hc, fun _ _ => trivial⟩
    · exact ⟨hc, hl⟩

theorem alike_op (op : PDOp F) : Alike (CleanCalc (V := V) (N := N) miss) op.run (op.runN miss) := by
  cases op with
  | single fs => exact alike_single fs
  | pairs ps all => exact alike_pairs ps all
  | minus fs => exact alike_minus fs

theorem clean_runOps (ops : List (PDOp F)) : ∀ c : Calc F V N, CleanCalc miss c →
    CleanCalc miss (runOps c ops) ∧ runOpsN miss c ops = runOps c ops := by
  induction ops with
  | nil => exact fun c hc => ⟨hc, rfl⟩
  | cons op ops ih =>
    intro c hc
    obtain ⟨h1, h2⟩ := alike_op op c hc
    simp only [runOps, runOpsN, h2]
    exact ih _ h1

theorem getSingleN_eq {c : Calc F V N} {f : F} {vs : List V} (h : ∀ v ∈ vs, miss v = false) :
    c.getSingleN miss f vs = c.getSingle f vs := by
  refine mapM_congr fun v hv => ?_
  unfold Calc.lookupSingleN Calc.lookupSingle
  simp only [getIndexN_of_present (h v hv)]
  rfl

theorem getPairsN_eq {c : Calc F V N} {f f' : F} {vs : List (V × V)} (h : ∀ v ∈ vs, miss v.1 = false ∧ miss v.2 = false) :
    c.getPairsN miss f f' vs = c.getPairs f f' vs := by
  unfold Calc.getPairsN Calc.getPairs
  cases ht : c.pdPairs.get? (c.pairKey (f, f')) with
  | none => rfl
  | some t =>
    simp only
    refine mapM_congr fun v hv => ?_
    have hv' : miss v.1 = false ∧ miss v.2 = false := by
      split at hv
      · obtain ⟨w, hw, rfl⟩ := List.mem_map.1 hv
        exact (h w hw).symm
      · exact h v hv
    unfold PairTab.lookupN PairTab.lookup
    simp only [getIndexN_of_present hv'.1, getIndexN_of_present hv'.2]
    rfl

end clean

section cleanMethods
variable {F V K : Type} [DecidableEq F] [LinearOrder V] [Field K] [LinearOrder K] [HasSqrt K] {miss : V → Bool} {Y : Frame F V}

theorem hstatPairN_eq (hY : Complete miss Y) (n : Bool) (c : Calc F V (Num K)) (q : F × F) :
    hstatPairN miss n Y c q = hstatPair n Y c q := by
  unfold hstatPairN hstatPair
  by_cases h1 : q.1 ∈ Y.cols
  · by_cases h2 : q.2 ∈ Y.cols
    · simp only [Frame.colE, if_pos h1, if_pos h2, bind, Except.bind]
      rw [getSingleN_eq (hY _ h1), getSingleN_eq (hY _ h2), getPairsN_eq]
      intro v hv
      have := List.of_mem_zip hv
      exact ⟨hY _ h1 _ this.1, hY _ h2 _ this.2⟩
    · simp only [Frame.colE, if_pos h1, if_neg h2, bind, Except.bind]
      rw [getSingleN_eq (hY _ h1)]
  · simp only [Frame.colE, if_neg h1, bind, Except.bind]

theorem hstatFeatureN_eq (hY : Complete miss Y) (n : Bool) (preds : List (Num K)) (c : Calc F V (Num K)) (f : F) :
    hstatFeatureN miss n Y preds c f = hstatFeature n Y preds c f := by
  unfold hstatFeatureN hstatFeature
  by_cases h1 : f ∈ Y.cols
  · simp only [Frame.colE, if_pos h1, bind, Except.bind]
    rw [getSingleN_eq (hY _ h1)]
  · simp only [Frame.colE, if_neg h1, bind, Except.bind]

theorem addColumnN_eq (hY : Complete miss Y) (preds : List (Num K)) (c : Calc F V (Num K)) (f : F) :
    addColumnN miss Y preds c f = addColumn Y preds c f := by
  unfold addColumnN addColumn
  by_cases h1 : f ∈ Y.cols
  · simp only [Frame.colE, if_pos h1, bind, Except.bind]
    rw [getSingleN_eq (hY _ h1)]
  · simp only [Frame.colE, if_neg h1, bind, Except.bind]

theorem alike_ovo {G : Type} (hY : Complete miss Y) (kind : PdKind) (E : PdEnv G F K) (fs : List F) (ps : List (F × F)) :
    Alike (CleanCalc miss) (kind.ovo E Y fs ps) (kind.ovoN miss E Y fs ps) := by
  cases kind with
  | friedman n =>
    refine Alike.seq (alike_pairs _ _) fun _ => Alike.seq (alike_single _) fun _ c hc => ⟨hc, ?_⟩
    have : hstatPairN miss n Y c = hstatPair n Y c := funext (hstatPairN_eq hY n c)
    rw [this]
    rfl
  | greenwell => exact Alike.seq (alike_pairs _ _) fun _ c hc => ⟨hc, rfl⟩

theorem alike_importance (sort) (num : F → Bool) (fs : List F) :
    Alike (CleanCalc (V := V) miss) (pdpImportance (K := K) sort num fs) (pdpImportanceN miss sort num fs) :=
  Alike.seq (alike_single _) fun _ c hc => ⟨hc, rfl⟩

theorem alike_ova (hY : Complete miss Y) (sort) (p : PF F V (Num K)) (n : Bool) (fs : List F) :
    Alike (CleanCalc miss) (hstatOva sort p n Y fs) (hstatOvaN miss sort p n Y fs) := by
  refine Alike.seq (alike_minus _) fun _ c hc => ?_
  cases e : p c.calls.length Y.rows with
  | error er => exact ⟨hc, rfl⟩
  | ok preds =>
    have : hstatFeatureN miss n Y preds c = hstatFeature n Y preds c := funext (hstatFeatureN_eq hY n preds c)
    simp only [this]
    exact ⟨hc, rfl⟩

theorem alike_additivity (hY : Complete miss Y) (cp : F) (p : PF F V (Num K)) :
    Alike (CleanCalc miss) (calcAdditivity cp p Y) (calcAdditivityN miss cp p Y) := by
  refine Alike.seq (alike_single _) fun _ c hc => ?_
  cases e : p c.calls.length Y.rows with
  | error er => exact ⟨hc, rfl⟩
  | ok preds =>
    have : addColumnN miss Y preds c = addColumn Y preds c := funext (addColumnN_eq hY preds c)
    simp only [this]
    refine ⟨?_, rfl⟩
    cases Y.cols.mapM (addColumn Y preds c) with
    | error _ => exact hc
    | ok effs =>
      simp only
      split <;> exact hc

end cleanMethods

end Artemis
