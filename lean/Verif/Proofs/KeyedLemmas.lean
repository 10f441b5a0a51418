import Verif.Proofs.KeywordLemmas

/-!
# The tables of a calculator keep their keys

Helper lemmas: whatever the prediction function returns.
-/

set_option linter.unusedSectionVars false
set_option linter.unusedVariables false
set_option linter.unusedSimpArgs false

namespace Artemis

section known
variable {F V N κ : Type} [DecidableEq F] [LinearOrder V] [Flt N] {X : Frame F V}

/-- the tables of the calculator are about the columns of `X` and their pairs -/
structure Keyed (X : Frame F V) (c : Calc F V N) : Prop where
  data : c.X = X
  single : c.pdSingle.keys = X.cols
  pairs : c.pdPairs.keys = combinations2 X.cols
  minus : c.pdMinus.keys = X.cols

theorem keyed_new (p : PF F V N) (X : Frame F V) (b : Int) : Keyed X (Calc.new p X b) :=
  ⟨rfl, keys_map _ _, keys_map _ _, keys_map _ _⟩

/-- the program keeps this -/
abbrev KeepsKeyed (X : Frame F V) {α : Type} (m : PyM (Calc F V N) α) : Prop := ∀ c, Keyed X c → Keyed X (m c).2

/-- the same for a program with a queue -/
abbrev KeepsKeyedR (X : Frame F V) (m : PyM (Run κ F V N) Unit) : Prop := ∀ s, Keyed X s.1 → Keyed X (m s).2.1

theorem keyed_storeSingle (y : List N) (e : (F × V) × (Nat × Nat)) : KeepsKeyed X (Calc.storeSingle y e) := by
  intro c hc
  unfold Calc.storeSingle
  cases e1 : c.pdSingle.get? e.1.1 with
  | none => exact hc
  | some t =>
    simp only
    cases getIndex t.fValues e.1.2 with
    | error _ => exact hc
    | ok i =>
      have hm : e.1.1 ∈ c.pdSingle.keys := by rw [← Dict.get?_isSome_iff, e1]; rfl
      exact ⟨hc.data, by simp only [Dict.keys_set_of_mem hm]; exact hc.single, hc.pairs, hc.minus⟩

theorem keyed_storePair (y : List N) (e : ((F × F) × (V × V)) × (Nat × Nat)) : KeepsKeyed X (Calc.storePair y e) := by
  intro c hc
  unfold Calc.storePair
  cases e1 : c.pdPairs.get? e.1.1 with
  | none => exact hc
  | some t =>
    simp only
    cases getIndex t.f1Values e.1.2.1 with
    | error _ => exact hc
    | ok i =>
      simp only
      cases getIndex t.f2Values e.1.2.2 with
      | error _ => exact hc
      | ok j =>
        have hm : e.1.1 ∈ c.pdPairs.keys := by rw [← Dict.get?_isSome_iff, e1]; rfl
        exact ⟨hc.data, hc.single, by simp only [Dict.keys_set_of_mem hm]; exact hc.pairs, hc.minus⟩

theorem keyed_storeMinus (y : List N) (e : (F × Nat) × (Nat × Nat)) : KeepsKeyed (V := V) X (Calc.storeMinus y e) := by
  intro c hc
  unfold Calc.storeMinus
  cases e1 : c.pdMinus.get? e.1.1 with
  | none => exact hc
  | some t =>
    have hm : e.1.1 ∈ c.pdMinus.keys := by rw [← Dict.get?_isSome_iff, e1]; rfl
    exact ⟨hc.data, hc.single, hc.pairs, by simp only [Dict.keys_set_of_mem hm]; exact hc.minus⟩

theorem keyed_callPredict (rows : List (Row F V)) : KeepsKeyed (N := N) X (Calc.callPredict rows) :=
  fun c hc => ⟨hc.data, hc.single, hc.pairs, hc.minus⟩

theorem keyed_fillSingle (l : Loc (F × V) F V) : KeepsKeyed (N := N) X (Calc.fillSingle l) :=
  stay_seq (keyed_callPredict _) fun y => stay_forEach (keyed_storeSingle y)

theorem keyed_fillPairs (l : Loc ((F × F) × (V × V)) F V) : KeepsKeyed (N := N) X (Calc.fillPairs l) :=
  stay_seq (keyed_callPredict _) fun y => stay_forEach (keyed_storePair y)

theorem keyed_fillMinus (l : Loc (F × Nat) F V) : KeepsKeyed (N := N) X (Calc.fillMinus l) :=
  stay_seq (keyed_callPredict _) fun y => stay_forEach (keyed_storeMinus y)

variable {fill : Loc κ F V → PyM (Calc F V N) Unit}

theorem keyed_flush (hf : ∀ l, KeepsKeyed X (fill l)) : KeepsKeyedR X (flush fill) := by
  rintro ⟨c, l⟩ hs
  have h1 := hf l c hs
  simp only [flush]
  cases e : fill l c with
  | mk r c' =>
    rw [e] at h1
    cases r with
    | ok _ => exact h1
    | error _ => exact h1

theorem keyed_flushIfFull (hf : ∀ l, KeepsKeyed X (fill l)) : KeepsKeyedR X (flushIfFull fill) := by
  intro s hs
  unfold flushIfFull
  split
  · exact keyed_flush hf s hs
  · exact hs

theorem keyed_flushRest (hf : ∀ l, KeepsKeyed X (fill l)) : KeepsKeyedR X (flushRest fill) := by
  intro s hs
  unfold flushRest
  split
  · exact keyed_flush hf s hs
  · exact hs

theorem keyed_singleBody (f : F) : KeepsKeyedR (V := V) (N := N) X (Calc.singleBody f) := by
  intro s hs
  unfold Calc.singleBody
  cases s.1.pdSingle.get? f with
  | none => exact hs
  | some t =>
    simp only
    split
    · exact keyed_flushIfFull keyed_fillSingle _ hs
    · exact hs

theorem keyed_pairValueBody (k : F × F) (v : V × V) : KeepsKeyedR (N := N) X (Calc.pairValueBody k v) := by
  intro s hs
  unfold Calc.pairValueBody
  cases s.1.pdPairs.get? k with
  | none => exact hs
  | some t =>
    simp only
    cases getIndex t.f1Values v.1 with
    | error _ => exact hs
    | ok i =>
      simp only
      cases getIndex t.f2Values v.2 with
      | error _ => exact hs
      | ok j =>
        simp only
        cases (t.pdValues[i]?).bind (fun row => row[j]?) with
        | none => exact hs
        | some x =>
          simp only
          split
          · exact keyed_flushIfFull keyed_fillPairs _ hs
          · exact hs

theorem keyed_pairBody (all : Bool) (q : F × F) : KeepsKeyedR (V := V) (N := N) X (Calc.pairBody all q) := by
  intro s hs
  unfold Calc.pairBody
  simp only
  cases s.1.pairValues all (s.1.pairKey q) with
  | error er => exact hs
  | ok vs => exact stay_forEach (I := fun s : Run _ F V N => Keyed X s.1) (fun v => keyed_pairValueBody _ v) s hs

theorem keyed_minusBody (f : F) : KeepsKeyedR (V := V) (N := N) X (Calc.minusBody f) := by
  intro s hs
  unfold Calc.minusBody
  cases s.1.pdMinus.get? f with
  | none => exact hs
  | some t =>
    simp only
    split
    · exact keyed_flushIfFull keyed_fillMinus _ hs
    · exact hs

theorem keyed_single (fs : Option (List F)) : KeepsKeyed (V := V) (N := N) X (Calc.calculateSingle fs) := fun c hc =>
  stay_seq (I := fun s : Run _ F V N => Keyed X s.1) (stay_forEach keyed_singleBody)
    (fun _ => keyed_flushRest keyed_fillSingle) (c, Loc.empty) hc

theorem keyed_pairs (ps : Option (List (F × F))) (all : Bool) : KeepsKeyed (V := V) (N := N) X (Calc.calculatePairs ps all) := fun c hc =>
  stay_seq (I := fun s : Run _ F V N => Keyed X s.1) (stay_forEach (keyed_pairBody all))
    (fun _ => keyed_flushRest keyed_fillPairs) (c, Loc.empty) hc

theorem keyed_minus (fs : Option (List F)) : KeepsKeyed (V := V) (N := N) X (Calc.calculateMinus fs) := fun c hc =>
  stay_seq (I := fun s : Run _ F V N => Keyed X s.1) (stay_forEach keyed_minusBody)
    (fun _ => keyed_flushRest keyed_fillMinus) (c, Loc.empty) hc

theorem keyed_op (op : PDOp F) : KeepsKeyed (V := V) (N := N) X op.run := by
  cases op with
  | single fs => exact keyed_single fs
  | pairs ps all => exact keyed_pairs ps all
  | minus fs => exact keyed_minus fs

theorem keyed_runOps (ops : List (PDOp F)) : ∀ c : Calc F V N, Keyed X c → Keyed X (runOps c ops) := by
  induction ops with
  | nil => exact fun c hc => hc
  | cons op ops ih => exact fun c hc => ih _ (keyed_op op c hc)

/-- a pair table exists for pairs of two different columns only -/
theorem keyed_pairKey {c : Calc F V N} (h : Keyed X c) (nd : X.cols.Nodup) {q : F × F} (hq : c.pairKey q ∈ c.pdPairs.keys) :
    q.1 ∈ X.cols ∧ q.2 ∈ X.cols ∧ q.1 ≠ q.2 := by
  rw [h.pairs] at hq
  unfold Calc.pairKey at hq
  split at hq
  · exact ⟨(mem_combinations2 hq).1, (mem_combinations2 hq).2, ne_of_mem_combinations2 nd hq⟩
  · exact ⟨(mem_combinations2 hq).2, (mem_combinations2 hq).1, (ne_of_mem_combinations2 nd hq).symm⟩

end known

section methods
variable {F V K G L : Type} [DecidableEq F] [LinearOrder V] [Field K] [LinearOrder K] [HasSqrt K] [DecidableEq L]
  {X : Frame F V} {c : Calc F V (Num K)}

/-- a list in which all pairs are pairs of different elements has no repetition -/
theorem nodup_of_combinations2 {α : Type*} : ∀ {l : List α}, (∀ p ∈ combinations2 l, p.1 ≠ p.2) → l.Nodup
  | [], _ => List.nodup_nil
  | a :: l, h => by
    simp only [combinations2, List.mem_append, List.mem_map] at h
    refine List.nodup_cons.2 ⟨?_, nodup_of_combinations2 fun p hp => h p (Or.inr hp)⟩
    intro ha
    exact h (a, a) (Or.inl ⟨a, ha, rfl⟩) rfl

theorem hstatPair_inv (hk : Keyed X c) (nd : X.cols.Nodup) {Y : Frame F V} {b : Bool} {q : F × F} {r : OvoRow F K}
    (h : hstatPair b Y c q = .ok r) : q.1 ∈ X.cols ∧ q.2 ∈ X.cols ∧ q.1 ≠ q.2 := by
  have key : c.pairKey q ∈ c.pdPairs.keys := by
    rw [← Dict.get?_isSome_iff]
    cases e : c.pdPairs.get? (c.pairKey q) with
    | some t => rfl
    | none =>
      exfalso
      revert h
      unfold hstatPair Calc.getPairs
      rw [e]
      simp only [bind, Except.bind]
      cases Y.colE q.1 with
      | error e => simp
      | ok v1 =>
        simp only
        cases c.getSingle q.1 v1 with
        | error e => simp
        | ok p1 =>
          simp only
          cases Y.colE q.2 with
          | error e => simp
          | ok v2 =>
            simp only
            cases c.getSingle q.2 v2 with
            | error e => simp
            | ok p2 => simp
  exact keyed_pairKey hk nd key

theorem pairKey_pairKey (c : Calc F V (Num K)) (q : F × F) (h : c.pairKey (c.pairKey q) ∈ c.pdPairs.keys) : c.pairKey q ∈ c.pdPairs.keys := by
  unfold Calc.pairKey at h ⊢
  by_cases h1 : q ∈ c.pdPairs.keys
  · rw [if_pos h1]; exact h1
  · rw [if_neg h1] at h ⊢
    by_cases h2 : (q.2, q.1) ∈ c.pdPairs.keys
    · exact h2
    · rw [if_neg h2] at h
      exact absurd h h1

theorem greenwellPair_inv (hk : Keyed X c) (nd : X.cols.Nodup) {num : F → Bool} {q : F × F} {r : OvoRow F K}
    (h : greenwellPair num c q = .ok r) : q.1 ∈ X.cols ∧ q.2 ∈ X.cols ∧ q.1 ≠ q.2 := by
  refine keyed_pairKey hk nd (pairKey_pairKey c q ?_)
  rw [← Dict.get?_isSome_iff]
  cases e : c.pdPairs.get? (c.pairKey (c.pairKey q)) with
  | some t => rfl
  | none =>
    exfalso
    revert h
    unfold greenwellPair Calc.getPairsAll
    simp only [bind, Except.bind]
    rw [show ((c.pairKey q).1, (c.pairKey q).2) = c.pairKey q from rfl, e]
    simp

theorem mapM_ok_all {α β : Type*} {f : α → Except Err β} {l : List α} {r : List β} (h : l.mapM f = .ok r) :
    ∀ a ∈ l, ∃ b, f a = .ok b := by
  have h := mapM_eq_ok h
  clear * - h
  induction h with
  | nil => intro a ha; cases ha
  | cons h1 _ ih =>
    intro a ha
    rcases List.mem_cons.1 ha with rfl | h2
    · exact ⟨_, h1⟩
    · exact ih a h2

end methods

end Artemis
