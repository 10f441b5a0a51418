import Verif.Model.Handles
import Verif.Proofs.ShapeAny

/-!
# Helper lemmas: complete arrays are never assigned again, NaN written into an array does no harm
-/

set_option linter.unusedSectionVars false
set_option linter.unusedVariables false
set_option linter.unusedSimpArgs false

namespace Artemis

variable {F V N : Type} [DecidableEq F] [LinearOrder V] [Flt N]

theorem stay_forEach_mem {σ α : Type*} {I : σ → Prop} {as : List α} {b : α → PyM σ Unit} (h : ∀ a ∈ as, ∀ s, I s → I (b a s).2) :
    ∀ s, I s → I (PyM.forEach as b s).2 := by
  induction as with
  | nil => exact fun s hs => hs
  | cons a as ih =>
    exact stay_seq (h a List.mem_cons_self) fun _ => ih fun x hx => h x (List.mem_cons_of_mem _ hx)

section generic
variable {κ : Type} {J : Calc F V N → Prop} {ok : κ → Prop} {fill : Loc κ F V → PyM (Calc F V N) Unit}

/-- the invariant of a loop: `J` for the calculator, only harmless cells queued -/
abbrev Queued (J : Calc F V N → Prop) (ok : κ → Prop) (s : Run κ F V N) : Prop := J s.1 ∧ ∀ e ∈ s.2.ranges, ok e.1

theorem queued_flush (hf : ∀ l : Loc κ F V, (∀ e ∈ l.ranges, ok e.1) → ∀ c, J c → J (fill l c).2) :
    ∀ s, Queued J ok s → Queued J ok (flush fill s).2 := by
  rintro ⟨c, l⟩ ⟨hs, hl⟩
  have h1 := hf l hl c hs
  simp only [flush]
  cases e : fill l c with
  | mk r c' =>
    rw [e] at h1
    cases r with
    | ok _ => exact ⟨h1, by simp [Loc.empty]⟩
    | error _ => exact ⟨h1, hl⟩

theorem queued_flushIfFull (hf : ∀ l : Loc κ F V, (∀ e ∈ l.ranges, ok e.1) → ∀ c, J c → J (fill l c).2) :
    ∀ s, Queued J ok s → Queued J ok (flushIfFull fill s).2 := by
  intro s hs
  unfold flushIfFull
  split
  · exact queued_flush hf s hs
  · exact hs

theorem queued_flushRest (hf : ∀ l : Loc κ F V, (∀ e ∈ l.ranges, ok e.1) → ∀ c, J c → J (fill l c).2) :
    ∀ s, Queued J ok s → Queued J ok (flushRest fill s).2 := by
  intro s hs
  unfold flushRest
  split
  · exact queued_flush hf s hs
  · exact hs

theorem dict_set_mem {α β : Type} [DecidableEq α] {d : Dict α β} {k : α} {v : β} {e : α × β} (h : e ∈ d.set k v) : e ∈ d ∨ e = (k, v) := by
  induction d with
  | nil => simp [Dict.set] at h; exact Or.inr h
  | cons hd tl ih =>
    obtain ⟨k', v'⟩ := hd
    simp only [Dict.set] at h
    split at h
    · rcases List.mem_cons.1 h with h | h
      · exact Or.inr (by rw [h]; congr)
      · exact Or.inl (List.mem_cons_of_mem _ h)
    · rcases List.mem_cons.1 h with h | h
      · exact Or.inl (h ▸ List.mem_cons_self)
      · exact (ih h).imp (List.mem_cons_of_mem _) id

theorem queue_add [DecidableEq κ] {l : Loc κ F V} (hl : ∀ e ∈ l.ranges, ok e.1) (n : Nat) {k : κ} (hk : ok k) (b : List (Row F V)) :
    ∀ e ∈ (l.add n k b).ranges, ok e.1 := by
  intro e he
  rcases dict_set_mem he with h | h
  · exact hl e h
  · rw [h]; exact hk

theorem queue_fold [DecidableEq κ] {α : Type} (as : List α) (key : α → κ) (hk : ∀ a ∈ as, ok (key a)) (n : Nat) (b : α → List (Row F V)) :
    ∀ l : Loc κ F V, (∀ e ∈ l.ranges, ok e.1) → ∀ e ∈ (as.foldl (fun l a => l.add n (key a) (b a)) l).ranges, ok e.1 := by
  induction as with
  | nil => exact fun l hl => hl
  | cons a as ih =>
    exact fun l hl => ih (fun x hx => hk x (List.mem_cons_of_mem _ hx)) _ (queue_add hl n (hk a List.mem_cons_self) _)

end generic

/-! ### Complete arrays are left alone -/

theorem keep_single {f : F} {t : SingleTab V N} (hn : t.pdValues.any Flt.isNaN = false) (fs : Option (List F)) :
    ∀ c : Calc F V N, c.pdSingle.get? f = some t → (Calc.calculateSingle fs c).2.pdSingle.get? f = some t := by
  intro c hc
  have hfill : ∀ l : Loc (F × V) F V, (∀ e ∈ l.ranges, e.1.1 ≠ f) → ∀ c : Calc F V N, c.pdSingle.get? f = some t →
      (Calc.fillSingle l c).2.pdSingle.get? f = some t := by
    intro l hl
    refine stay_seq (I := fun c : Calc F V N => c.pdSingle.get? f = some t) (fun c h => h) fun y =>
      stay_forEach_mem (I := fun c : Calc F V N => c.pdSingle.get? f = some t) fun e he c h => ?_
    unfold Calc.storeSingle
    cases c.pdSingle.get? e.1.1 with
    | none => exact h
    | some t' =>
      simp only
      cases getIndex t'.fValues e.1.2 with
      | error _ => exact h
      | ok i => simp only [Dict.get?_set, if_neg (hl e he).symm]; exact h
  let I : Run (F × V) F V N → Prop := Queued (fun c => c.pdSingle.get? f = some t) (fun k => k.1 ≠ f)
  refine (stay_seq (I := I) (stay_forEach (I := I) ?_) (fun _ => queued_flushRest hfill) (c, Loc.empty) ⟨hc, by simp [Loc.empty]⟩).1
  rintro f' ⟨c', l⟩ ⟨h1, h2⟩
  simp only [Calc.singleBody]
  cases e : c'.pdSingle.get? f' with
  | none => exact ⟨h1, h2⟩
  | some t' =>
    simp only
    by_cases hnan : t'.pdValues.any Flt.isNaN = true
    · rw [if_pos hnan]
      have hne : f' ≠ f := by
        rintro rfl
        simp only at h1; rw [h1] at e; cases e; rw [hn] at hnan; cases hnan
      exact queued_flushIfFull hfill _ ⟨h1, queue_fold (ok := fun k : F × V => k.1 ≠ f) _ _ (fun _ _ => hne) _ _ _ h2⟩
    · rw [if_neg hnan]; exact ⟨h1, h2⟩

theorem keep_minus {f : F} {t : List N} (hn : t.any Flt.isNaN = false) (fs : Option (List F)) :
    ∀ c : Calc F V N, c.pdMinus.get? f = some t → (Calc.calculateMinus fs c).2.pdMinus.get? f = some t := by
  intro c hc
  have hfill : ∀ l : Loc (F × Nat) F V, (∀ e ∈ l.ranges, e.1.1 ≠ f) → ∀ c : Calc F V N, c.pdMinus.get? f = some t →
      (Calc.fillMinus l c).2.pdMinus.get? f = some t := by
    intro l hl
    refine stay_seq (I := fun c : Calc F V N => c.pdMinus.get? f = some t) (fun c h => h) fun y =>
      stay_forEach_mem (I := fun c : Calc F V N => c.pdMinus.get? f = some t) fun e he c h => ?_
    unfold Calc.storeMinus
    cases c.pdMinus.get? e.1.1 with
    | none => exact h
    | some t' => simp only [Dict.get?_set, if_neg (hl e he).symm]; exact h
  let I : Run (F × Nat) F V N → Prop := Queued (fun c => c.pdMinus.get? f = some t) (fun k => k.1 ≠ f)
  refine (stay_seq (I := I) (stay_forEach (I := I) ?_) (fun _ => queued_flushRest hfill) (c, Loc.empty) ⟨hc, by simp [Loc.empty]⟩).1
  rintro f' ⟨c', l⟩ ⟨h1, h2⟩
  simp only [Calc.minusBody]
  cases e : c'.pdMinus.get? f' with
  | none => exact ⟨h1, h2⟩
  | some t' =>
    simp only
    by_cases hnan : t'.any Flt.isNaN = true
    · rw [if_pos hnan]
      have hne : f' ≠ f := by
        rintro rfl
        simp only at h1; rw [h1] at e; cases e; rw [hn] at hnan; cases hnan
      exact queued_flushIfFull hfill _ ⟨h1, queue_fold (ok := fun k : F × Nat => k.1 ≠ f) _ _ (fun _ _ => hne) _ _ _ h2⟩
    · rw [if_neg hnan]; exact ⟨h1, h2⟩

theorem keep_pairs {k : F × F} {t : PairTab V N} (hn : ∀ row ∈ t.pdValues, row.any Flt.isNaN = false) (ps : Option (List (F × F))) (all : Bool) :
    ∀ c : Calc F V N, c.pdPairs.get? k = some t → (Calc.calculatePairs ps all c).2.pdPairs.get? k = some t := by
  intro c hc
  have hfill : ∀ l : Loc ((F × F) × (V × V)) F V, (∀ e ∈ l.ranges, e.1.1 ≠ k) → ∀ c : Calc F V N, c.pdPairs.get? k = some t →
      (Calc.fillPairs l c).2.pdPairs.get? k = some t := by
    intro l hl
    refine stay_seq (I := fun c : Calc F V N => c.pdPairs.get? k = some t) (fun c h => h) fun y =>
      stay_forEach_mem (I := fun c : Calc F V N => c.pdPairs.get? k = some t) fun e he c h => ?_
    unfold Calc.storePair
    cases c.pdPairs.get? e.1.1 with
    | none => exact h
    | some t' =>
      simp only
      cases getIndex t'.f1Values e.1.2.1 with
      | error _ => exact h
      | ok i =>
        simp only
        cases getIndex t'.f2Values e.1.2.2 with
        | error _ => exact h
        | ok j => simp only [Dict.get?_set, if_neg (hl e he).symm]; exact h
  let I : Run ((F × F) × (V × V)) F V N → Prop := Queued (fun c => c.pdPairs.get? k = some t) (fun q => q.1 ≠ k)
  refine (stay_seq (I := I) (stay_forEach (I := I) ?_) (fun _ => queued_flushRest hfill) (c, Loc.empty) ⟨hc, by simp [Loc.empty]⟩).1
  rintro q ⟨c', l⟩ hI
  simp only [Calc.pairBody]
  cases c'.pairValues all (c'.pairKey q) with
  | error _ => exact hI
  | ok vs =>
    refine stay_forEach (I := I) ?_ (c', l) hI
    rintro v ⟨c', l⟩ ⟨h1, h2⟩
    simp only [Calc.pairValueBody]
    cases e : c'.pdPairs.get? _ with
    | none => exact ⟨h1, h2⟩
    | some t' =>
      simp only
      cases e1 : getIndex t'.f1Values v.1 with
      | error _ => exact ⟨h1, h2⟩
      | ok i =>
        simp only
        cases e2 : getIndex t'.f2Values v.2 with
        | error _ => exact ⟨h1, h2⟩
        | ok j =>
          simp only
          cases e3 : (t'.pdValues[i]?).bind (fun row => row[j]?) with
          | none => exact ⟨h1, h2⟩
          | some x =>
            simp only
            by_cases hx : Flt.isNaN x = true
            · rw [if_pos hx]
              refine queued_flushIfFull hfill _ ⟨h1, queue_add (ok := fun q : (F × F) × (V × V) => q.1 ≠ k) h2 _ ?_ _⟩
              intro hk
              simp only at hk
              rw [hk] at e
              simp only at h1
              rw [h1] at e; cases e
              obtain ⟨row, hr, hj⟩ := Option.bind_eq_some_iff.1 e3
              have := hn row (List.mem_of_getElem? hr)
              rw [List.any_eq_false] at this
              exact this x (List.mem_of_getElem? hj) hx
            · rw [if_neg hx]; exact ⟨h1, h2⟩

/-! ### Each calculation assigns to its own table only -/

theorem stay_single {J : Calc F V N → Prop} (h1 : ∀ rows c, J c → J (Calc.callPredict rows c).2)
    (h2 : ∀ y e c, J c → J (Calc.storeSingle y e c).2) (fs : Option (List F)) : ∀ c, J c → J (Calc.calculateSingle fs c).2 := by
  intro c hc
  have hfill : ∀ l : Loc (F × V) F V, (∀ e ∈ l.ranges, True) → ∀ c, J c → J (Calc.fillSingle l c).2 :=
    fun l _ => stay_seq (h1 _) fun y => stay_forEach (h2 y)
  let I : Run (F × V) F V N → Prop := Queued J (fun _ => True)
  refine (stay_seq (I := I) (stay_forEach (I := I) ?_) (fun _ => queued_flushRest hfill) (c, Loc.empty) ⟨hc, by simp [Loc.empty]⟩).1
  rintro f' ⟨c', l⟩ hI
  simp only [Calc.singleBody]
  cases c'.pdSingle.get? f' with
  | none => exact hI
  | some t' =>
    simp only
    split
    · exact queued_flushIfFull hfill _ ⟨hI.1, fun _ _ => trivial⟩
    · exact hI

theorem stay_minus {J : Calc F V N → Prop} (h1 : ∀ rows c, J c → J (Calc.callPredict rows c).2)
    (h2 : ∀ y e c, J c → J (Calc.storeMinus y e c).2) (fs : Option (List F)) : ∀ c, J c → J (Calc.calculateMinus fs c).2 := by
  intro c hc
  have hfill : ∀ l : Loc (F × Nat) F V, (∀ e ∈ l.ranges, True) → ∀ c, J c → J (Calc.fillMinus l c).2 :=
    fun l _ => stay_seq (h1 _) fun y => stay_forEach (h2 y)
  let I : Run (F × Nat) F V N → Prop := Queued J (fun _ => True)
  refine (stay_seq (I := I) (stay_forEach (I := I) ?_) (fun _ => queued_flushRest hfill) (c, Loc.empty) ⟨hc, by simp [Loc.empty]⟩).1
  rintro f' ⟨c', l⟩ hI
  simp only [Calc.minusBody]
  cases c'.pdMinus.get? f' with
  | none => exact hI
  | some t' =>
    simp only
    split
    · exact queued_flushIfFull hfill _ ⟨hI.1, fun _ _ => trivial⟩
    · exact hI

theorem stay_pairs {J : Calc F V N → Prop} (h1 : ∀ rows c, J c → J (Calc.callPredict rows c).2)
    (h2 : ∀ y e c, J c → J (Calc.storePair y e c).2) (ps : Option (List (F × F))) (all : Bool) :
    ∀ c, J c → J (Calc.calculatePairs ps all c).2 := by
  intro c hc
  have hfill : ∀ l : Loc ((F × F) × (V × V)) F V, (∀ e ∈ l.ranges, True) → ∀ c, J c → J (Calc.fillPairs l c).2 :=
    fun l _ => stay_seq (h1 _) fun y => stay_forEach (h2 y)
  let I : Run ((F × F) × (V × V)) F V N → Prop := Queued J (fun _ => True)
  refine (stay_seq (I := I) (stay_forEach (I := I) ?_) (fun _ => queued_flushRest hfill) (c, Loc.empty) ⟨hc, by simp [Loc.empty]⟩).1
  rintro q ⟨c', l⟩ hI
  simp only [Calc.pairBody]
  cases c'.pairValues all (c'.pairKey q) with
  | error _ => exact hI
  | ok vs =>
    refine stay_forEach (I := I) ?_ (c', l) hI
    rintro v ⟨c', l⟩ hI
    simp only [Calc.pairValueBody]
    cases c'.pdPairs.get? _ with
    | none => exact hI
    | some t' =>
      simp only
      cases getIndex t'.f1Values v.1 with
      | error _ => exact hI
      | ok i =>
        simp only
        cases getIndex t'.f2Values v.2 with
        | error _ => exact hI
        | ok j =>
          simp only
          cases (t'.pdValues[i]?).bind (fun row => row[j]?) with
          | none => exact hI
          | some x =>
            simp only
            split
            · exact queued_flushIfFull hfill _ ⟨hI.1, fun _ _ => trivial⟩
            · exact hI

theorem storeSingle_others (y : List N) (e : (F × V) × (Nat × Nat)) (c : Calc F V N) :
    (Calc.storeSingle y e c).2.pdPairs = c.pdPairs ∧ (Calc.storeSingle y e c).2.pdMinus = c.pdMinus := by
  unfold Calc.storeSingle
  cases c.pdSingle.get? e.1.1 with
  | none => exact ⟨rfl, rfl⟩
  | some t =>
    simp only
    cases getIndex t.fValues e.1.2 with
    | error _ => exact ⟨rfl, rfl⟩
    | ok i => exact ⟨rfl, rfl⟩

theorem storePair_others (y : List N) (e : ((F × F) × (V × V)) × (Nat × Nat)) (c : Calc F V N) :
    (Calc.storePair y e c).2.pdSingle = c.pdSingle ∧ (Calc.storePair y e c).2.pdMinus = c.pdMinus := by
  unfold Calc.storePair
  cases c.pdPairs.get? e.1.1 with
  | none => exact ⟨rfl, rfl⟩
  | some t =>
    simp only
    cases getIndex t.f1Values e.1.2.1 with
    | error _ => exact ⟨rfl, rfl⟩
    | ok i =>
      simp only
      cases getIndex t.f2Values e.1.2.2 with
      | error _ => exact ⟨rfl, rfl⟩
      | ok j => exact ⟨rfl, rfl⟩

theorem storeMinus_others (y : List N) (e : (F × Nat) × (Nat × Nat)) (c : Calc F V N) :
    (Calc.storeMinus y e c).2.pdSingle = c.pdSingle ∧ (Calc.storeMinus y e c).2.pdPairs = c.pdPairs := by
  unfold Calc.storeMinus
  cases c.pdMinus.get? e.1.1 with
  | none => exact ⟨rfl, rfl⟩
  | some t => exact ⟨rfl, rfl⟩

/-- a complete array of the single table survives every calculation -/
theorem single_sticks {f : F} {t : SingleTab V N} (hn : t.pdValues.any Flt.isNaN = false) (op : PDOp F) (c : Calc F V N)
    (hc : c.pdSingle.get? f = some t) : (op.run c).2.pdSingle.get? f = some t := by
  cases op with
  | single fs => exact keep_single hn fs c hc
  | pairs ps all =>
    exact stay_pairs (J := fun c => c.pdSingle.get? f = some t) (fun _ _ h => h) (fun y e c h => by rw [(storePair_others y e c).1]; exact h) ps all c hc
  | minus fs =>
    exact stay_minus (J := fun c => c.pdSingle.get? f = some t) (fun _ _ h => h) (fun y e c h => by rw [(storeMinus_others y e c).1]; exact h) fs c hc

theorem pair_sticks {k : F × F} {t : PairTab V N} (hn : ∀ row ∈ t.pdValues, row.any Flt.isNaN = false) (op : PDOp F) (c : Calc F V N)
    (hc : c.pdPairs.get? k = some t) : (op.run c).2.pdPairs.get? k = some t := by
  cases op with
  | single fs =>
    exact stay_single (J := fun c => c.pdPairs.get? k = some t) (fun _ _ h => h) (fun y e c h => by rw [(storeSingle_others y e c).1]; exact h) fs c hc
  | pairs ps all => exact keep_pairs hn ps all c hc
  | minus fs =>
    exact stay_minus (J := fun c => c.pdPairs.get? k = some t) (fun _ _ h => h) (fun y e c h => by rw [(storeMinus_others y e c).2]; exact h) fs c hc

theorem minus_sticks {f : F} {t : List N} (hn : t.any Flt.isNaN = false) (op : PDOp F) (c : Calc F V N)
    (hc : c.pdMinus.get? f = some t) : (op.run c).2.pdMinus.get? f = some t := by
  cases op with
  | single fs =>
    exact stay_single (J := fun c => c.pdMinus.get? f = some t) (fun _ _ h => h) (fun y e c h => by rw [(storeSingle_others y e c).2]; exact h) fs c hc
  | pairs ps all =>
    exact stay_pairs (J := fun c => c.pdMinus.get? f = some t) (fun _ _ h => h) (fun y e c h => by rw [(storePair_others y e c).2]; exact h) ps all c hc
  | minus fs => exact keep_minus hn fs c hc

/-! ### NaN written into an array of the calculator -/

variable {g : Row F V → N}

theorem good_writeNaN {c : Calc F V N} (hg : Good g c) (a : ArrRef F) (i j : Nat) : Good g (c.writeArr a i j Flt.nan).2 := by
  cases a with
  | single f =>
    simp only [Calc.writeArr]
    cases ht : c.pdSingle.get? f with
    | none => exact hg
    | some t =>
      simp only
      split
      · have hs := hg.shape
        have hkey : f ∈ c.pdSingle.keys := by rw [← Dict.get?_isSome_iff, ht]; rfl
        obtain ⟨h1, h2⟩ := hs.single _ _ ht
        refine ⟨⟨?_, ?_, hs.pair_keys, hs.pair, hs.minus_keys, hs.minus⟩, ?_, hg.soundP, hg.soundM, hg.rowWise⟩
        · simp only [Dict.keys_set_of_mem hkey]; exact hs.single_keys
        · intro f' t' ht'
          simp only [Dict.get?_set] at ht'
          split at ht'
          · next hf => cases ht'; subst hf; exact ⟨h1, by simp [h2]⟩
          · exact hs.single _ _ ht'
        · rintro ⟨f', v⟩ x hx
          have hold := hg.soundS (f', v)
          change cellS _ (f', v) = some x at hx
          change ∀ x, cellS c (f', v) = some x → _ at hold
          simp only [cellS, Dict.get?_set] at hx hold
          by_cases hf : f' = f
          · subst hf
            simp only [if_true, Option.bind_some, ht] at hx hold
            by_cases hv : v ∈ t.fValues
            · simp only [hv, if_true] at hx hold
              rw [List.getElem?_set] at hx
              split at hx
              · cases hx; exact Or.inl rfl
              · exact hold x hx
            · simp [hv] at hx
          · simp only [hf, if_false] at hx
            exact hold x hx
      · exact hg
  | pair k =>
    simp only [Calc.writeArr]
    cases ht : c.pdPairs.get? k with
    | none => exact hg
    | some t =>
      simp only
      cases hrow : t.pdValues[i]? with
      | none => exact hg
      | some row =>
        simp only
        split
        · have hs := hg.shape
          have hkey : k ∈ c.pdPairs.keys := by rw [← Dict.get?_isSome_iff, ht]; rfl
          obtain ⟨h1, h2, h3, h4⟩ := hs.pair _ _ ht
          refine ⟨⟨hs.single_keys, hs.single, ?_, ?_, hs.minus_keys, hs.minus⟩, hg.soundS, ?_, hg.soundM, hg.rowWise⟩
          · simp only [Dict.keys_set_of_mem hkey]; exact hs.pair_keys
          · intro f' t' ht'
            simp only [Dict.get?_set] at ht'
            split at ht'
            · next hf =>
              cases ht'; subst hf
              refine ⟨h1, h2, by simp [h3], ?_⟩
              intro r hr
              rcases List.mem_or_eq_of_mem_set hr with h | h
              · exact h4 r h
              · rw [h, List.length_set]; exact h4 row (List.mem_of_getElem? hrow)
            · exact hs.pair _ _ ht'
          · rintro ⟨k', v⟩ x hx
            have hold := hg.soundP (k', v)
            change cellP _ (k', v) = some x at hx
            change ∀ x, cellP c (k', v) = some x → _ at hold
            simp only [cellP, Dict.get?_set] at hx hold
            by_cases hf : k' = k
            · subst hf
              simp only [if_true, Option.bind_some, ht] at hx hold
              by_cases hv : v.1 ∈ t.f1Values ∧ v.2 ∈ t.f2Values
              · simp only [hv, if_true, and_self] at hx hold
                rw [List.getElem?_set] at hx
                split at hx
                · next he =>
                  split at hx
                  · simp only [Option.bind_some] at hx
                    rw [List.getElem?_set] at hx
                    split at hx
                    · cases hx; exact Or.inl rfl
                    · rw [← he, hrow] at hold
                      exact hold x hx
                  · cases hx
                · exact hold x hx
              · simp [hv] at hx
            · simp only [hf, if_false] at hx
              exact hold x hx
        · exact hg
  | minus f =>
    simp only [Calc.writeArr]
    cases ht : c.pdMinus.get? f with
    | none => exact hg
    | some t =>
      simp only
      split
      · have hs := hg.shape
        have hkey : f ∈ c.pdMinus.keys := by rw [← Dict.get?_isSome_iff, ht]; rfl
        have h1 := hs.minus _ _ ht
        refine ⟨⟨hs.single_keys, hs.single, hs.pair_keys, hs.pair, ?_, ?_⟩, hg.soundS, hg.soundP, ?_, hg.rowWise⟩
        · simp only [Dict.keys_set_of_mem hkey]; exact hs.minus_keys
        · intro f' t' ht'
          simp only [Dict.get?_set] at ht'
          split at ht'
          · next hf => cases ht'; subst hf; simp [h1]
          · exact hs.minus _ _ ht'
        · rintro ⟨f', n⟩ x hx
          have hold := hg.soundM (f', n)
          change cellM _ (f', n) = some x at hx
          change ∀ x, cellM c (f', n) = some x → _ at hold
          simp only [cellM, Dict.get?_set] at hx hold
          by_cases hf : f' = f
          · subst hf
            simp only [if_true, Option.bind_some, ht] at hx hold
            rw [List.getElem?_set] at hx
            split at hx
            · cases hx; exact Or.inl rfl
            · exact hold x hx
          · simp only [hf, if_false] at hx
            exact hold x hx
      · exact hg

theorem shaped_writeArr {X : Frame F V} (a : ArrRef F) (i j : Nat) (x : N) (c : Calc F V N) (hc : ShapedOn X c) :
    ShapedOn X (c.writeArr a i j x).2 := by
  obtain ⟨hs, hX⟩ := hc
  cases a with
  | single f =>
    simp only [Calc.writeArr]
    cases ht : c.pdSingle.get? f with
    | none => exact ⟨hs, hX⟩
    | some t =>
      simp only
      split
      · have hkey : f ∈ c.pdSingle.keys := by rw [← Dict.get?_isSome_iff, ht]; rfl
        obtain ⟨h1, h2⟩ := hs.single _ _ ht
        refine ⟨⟨?_, ?_, hs.pair_keys, hs.pair, hs.minus_keys, hs.minus⟩, hX⟩
        · simp only [Dict.keys_set_of_mem hkey]; exact hs.single_keys
        · intro f' t' ht'
          simp only [Dict.get?_set] at ht'
          split at ht'
          · next hf => cases ht'; subst hf; exact ⟨h1, by simp [h2]⟩
          · exact hs.single _ _ ht'
      · exact ⟨hs, hX⟩
  | pair k =>
    simp only [Calc.writeArr]
    cases ht : c.pdPairs.get? k with
    | none => exact ⟨hs, hX⟩
    | some t =>
      simp only
      cases hrow : t.pdValues[i]? with
      | none => exact ⟨hs, hX⟩
      | some row =>
        simp only
        split
        · have hkey : k ∈ c.pdPairs.keys := by rw [← Dict.get?_isSome_iff, ht]; rfl
          obtain ⟨h1, h2, h3, h4⟩ := hs.pair _ _ ht
          refine ⟨⟨hs.single_keys, hs.single, ?_, ?_, hs.minus_keys, hs.minus⟩, hX⟩
          · simp only [Dict.keys_set_of_mem hkey]; exact hs.pair_keys
          · intro f' t' ht'
            simp only [Dict.get?_set] at ht'
            split at ht'
            · next hf =>
              cases ht'; subst hf
              refine ⟨h1, h2, by simp [h3], ?_⟩
              intro r hr
              rcases List.mem_or_eq_of_mem_set hr with h | h
              · exact h4 r h
              · rw [h, List.length_set]; exact h4 row (List.mem_of_getElem? hrow)
            · exact hs.pair _ _ ht'
        · exact ⟨hs, hX⟩
  | minus f =>
    simp only [Calc.writeArr]
    cases ht : c.pdMinus.get? f with
    | none => exact ⟨hs, hX⟩
    | some t =>
      simp only
      split
      · have hkey : f ∈ c.pdMinus.keys := by rw [← Dict.get?_isSome_iff, ht]; rfl
        have h1 := hs.minus _ _ ht
        refine ⟨⟨hs.single_keys, hs.single, hs.pair_keys, hs.pair, ?_, ?_⟩, hX⟩
        · simp only [Dict.keys_set_of_mem hkey]; exact hs.minus_keys
        · intro f' t' ht'
          simp only [Dict.get?_set] at ht'
          split at ht'
          · next hf => cases ht'; subst hf; simp [h1]
          · exact hs.minus _ _ ht'
      · exact ⟨hs, hX⟩

theorem writeArr_cfg (c : Calc F V N) (a : ArrRef F) (i j : Nat) (x : N) :
    (c.writeArr a i j x).2.X = c.X ∧ (c.writeArr a i j x).2.predict = c.predict ∧ (c.writeArr a i j x).2.batchsize = c.batchsize ∧
      (c.writeArr a i j x).2.calls = c.calls := by
  cases a with
  | single f =>
    simp only [Calc.writeArr]
    cases c.pdSingle.get? f with
    | none => exact ⟨rfl, rfl, rfl, rfl⟩
    | some t => simp only; split <;> exact ⟨rfl, rfl, rfl, rfl⟩
  | pair k =>
    simp only [Calc.writeArr]
    cases c.pdPairs.get? k with
    | none => exact ⟨rfl, rfl, rfl, rfl⟩
    | some t =>
      simp only
      cases t.pdValues[i]? with
      | none => exact ⟨rfl, rfl, rfl, rfl⟩
      | some row => simp only; split <;> exact ⟨rfl, rfl, rfl, rfl⟩
  | minus f =>
    simp only [Calc.writeArr]
    cases c.pdMinus.get? f with
    | none => exact ⟨rfl, rfl, rfl, rfl⟩
    | some t => simp only; split <;> exact ⟨rfl, rfl, rfl, rfl⟩

end Artemis
