import Verif.Proofs.PDCalcObs

/-!
# The tables of a calculator keep their shape

Helper lemmas: whatever the prediction function returns (no row-wise model is assumed).
-/

set_option linter.unusedSectionVars false
set_option linter.unusedVariables false
set_option linter.unusedSimpArgs false

namespace Artemis

theorem stay_seq {σ α β : Type*} {I : σ → Prop} {m : PyM σ α} {k : α → PyM σ β} (h : ∀ s, I s → I (m s).2) (hk : ∀ a s, I s → I (k a s).2) :
    ∀ s, I s → I (PyM.seq m k s).2 := by
  intro s hs
  unfold PyM.seq
  have h1 := h s hs
  cases e : m s with
  | mk r s1 =>
    rw [e] at h1
    cases r with
    | error er => exact h1
    | ok a => exact hk a s1 h1

theorem stay_forEach {σ α : Type*} {I : σ → Prop} {as : List α} {b : α → PyM σ Unit} (h : ∀ a s, I s → I (b a s).2) :
    ∀ s, I s → I (PyM.forEach as b s).2 := by
  induction as with
  | nil => exact fun s hs => hs
  | cons a as ih => exact stay_seq (h a) fun _ => ih

section
variable {F V N κ : Type*} [DecidableEq F] [LinearOrder V] [Flt N]

/-- a calculator on `X` whose tables have the right shape -/
abbrev ShapedOn (X : Frame F V) (c : Calc F V N) : Prop := Shape c ∧ c.X = X

variable {X : Frame F V}

theorem shaped_storeSingle (y : List N) (e : (F × V) × (Nat × Nat)) :
    ∀ c, ShapedOn X c → ShapedOn X (Calc.storeSingle y e c).2 := by
  rintro c ⟨hs, hX⟩
  by_cases hk : (cellS c e.1).isSome
  · obtain ⟨c', h1, h2, h3, _⟩ := storeSingle_spec c y e.1 e.2 hs hk
    rw [show Calc.storeSingle y e c = _ from h1]
    exact ⟨h2, h3.1.trans hX⟩
  · have hn : ∀ t i, c.pdSingle.get? e.1.1 = some t → getIndex t.fValues e.1.2 = .ok i → False := by
      intro t i ht hi
      apply hk
      rw [isSome_cellS hs, ← hs.single_keys, ← Dict.get?_isSome_iff, ht]
      refine ⟨rfl, ?_⟩
      rw [← mem_npUnique, ← (hs.single _ _ ht).1]
      by_contra hv
      rw [getIndex_of_not_mem hv] at hi; cases hi
    unfold Calc.storeSingle
    cases e1 : c.pdSingle.get? e.1.1 with
    | none => exact ⟨hs, hX⟩
    | some t =>
      simp only
      cases e2 : getIndex t.fValues e.1.2 with
      | error _ => exact ⟨hs, hX⟩
      | ok i => exact (hn t i e1 e2).elim

theorem shaped_storePair (y : List N) (e : ((F × F) × (V × V)) × (Nat × Nat)) :
    ∀ c, ShapedOn X c → ShapedOn X (Calc.storePair y e c).2 := by
  rintro c ⟨hs, hX⟩
  by_cases hk : (cellP c e.1).isSome
  · obtain ⟨c', h1, h2, h3, _⟩ := storePair_spec c y e.1 e.2 hs hk
    rw [show Calc.storePair y e c = _ from h1]
    exact ⟨h2, h3.1.trans hX⟩
  · have hn : ∀ t i j, c.pdPairs.get? e.1.1 = some t → getIndex t.f1Values e.1.2.1 = .ok i →
        getIndex t.f2Values e.1.2.2 = .ok j → False := by
      intro t i j ht hi hj
      apply hk
      rw [isSome_cellP hs, ← hs.pair_keys, ← Dict.get?_isSome_iff, ht]
      refine ⟨rfl, ?_, ?_⟩
      · rw [← mem_npUnique, ← (hs.pair _ _ ht).1]
        by_contra hv
        rw [getIndex_of_not_mem hv] at hi; cases hi
      · rw [← mem_npUnique, ← (hs.pair _ _ ht).2.1]
        by_contra hv
        rw [getIndex_of_not_mem hv] at hj; cases hj
    unfold Calc.storePair
    cases e1 : c.pdPairs.get? e.1.1 with
    | none => exact ⟨hs, hX⟩
    | some t =>
      simp only
      cases e2 : getIndex t.f1Values e.1.2.1 with
      | error _ => exact ⟨hs, hX⟩
      | ok i =>
        simp only
        cases e3 : getIndex t.f2Values e.1.2.2 with
        | error _ => exact ⟨hs, hX⟩
        | ok j => exact (hn t i j e1 e2 e3).elim

theorem shaped_storeMinus (y : List N) (e : (F × Nat) × (Nat × Nat)) :
    ∀ c : Calc F V N, ShapedOn X c → ShapedOn X (Calc.storeMinus y e c).2 := by
  rintro c ⟨hs, hX⟩
  unfold Calc.storeMinus
  cases e1 : c.pdMinus.get? e.1.1 with
  | none => exact ⟨hs, hX⟩
  | some t =>
    refine ⟨⟨hs.single_keys, hs.single, hs.pair_keys, hs.pair, ?_, ?_⟩, hX⟩
    · have hm : e.1.1 ∈ c.pdMinus.keys := by rw [← Dict.get?_isSome_iff, e1]; rfl
      simp only [Dict.keys_set_of_mem hm]; exact hs.minus_keys
    · intro f' t' ht'
      simp only [Dict.get?_set] at ht'
      split at ht'
      · next hf => cases ht'; simp [hs.minus _ _ e1]
      · exact hs.minus _ _ ht'

theorem shaped_callPredict (rows : List (Row F V)) :
    ∀ c : Calc F V N, ShapedOn X c → ShapedOn X (Calc.callPredict rows c).2 :=
  fun c hc => ⟨Fam.shape_call hc.1 _, hc.2⟩

variable {fill : Loc κ F V → PyM (Calc F V N) Unit}

theorem shaped_flush (hf : ∀ l c, ShapedOn X c → ShapedOn X (fill l c).2) :
    ∀ s, ShapedOn X s.1 → ShapedOn X (flush fill s).2.1 := by
  rintro ⟨c, l⟩ hs
  have h1 := hf l c hs
  simp only [flush]
  cases e : fill l c with
  | mk r c' =>
    rw [e] at h1
    cases r with
    | ok _ => exact h1
    | error _ => exact h1

theorem shaped_flushIfFull (hf : ∀ l c, ShapedOn X c → ShapedOn X (fill l c).2) :
    ∀ s, ShapedOn X s.1 → ShapedOn X (flushIfFull fill s).2.1 := by
  intro s hs
  unfold flushIfFull
  split
  · exact shaped_flush hf s hs
  · exact hs

theorem shaped_flushRest (hf : ∀ l c, ShapedOn X c → ShapedOn X (fill l c).2) :
    ∀ s, ShapedOn X s.1 → ShapedOn X (flushRest fill s).2.1 := by
  intro s hs
  unfold flushRest
  split
  · exact shaped_flush hf s hs
  · exact hs

theorem shaped_fillSingle (l : Loc (F × V) F V) : ∀ c : Calc F V N, ShapedOn X c → ShapedOn X (Calc.fillSingle l c).2 :=
  stay_seq (shaped_callPredict _) fun y => stay_forEach (shaped_storeSingle y)

theorem shaped_fillPairs (l : Loc ((F × F) × (V × V)) F V) :
    ∀ c : Calc F V N, ShapedOn X c → ShapedOn X (Calc.fillPairs l c).2 :=
  stay_seq (shaped_callPredict _) fun y => stay_forEach (shaped_storePair y)

theorem shaped_fillMinus (l : Loc (F × Nat) F V) : ∀ c : Calc F V N, ShapedOn X c → ShapedOn X (Calc.fillMinus l c).2 :=
  stay_seq (shaped_callPredict _) fun y => stay_forEach (shaped_storeMinus y)

theorem shaped_singleBody (f : F) :
    ∀ s : Run (F × V) F V N, ShapedOn X s.1 → ShapedOn X (Calc.singleBody f s).2.1 := by
  intro s hs
  unfold Calc.singleBody
  cases s.1.pdSingle.get? f with
  | none => exact hs
  | some t =>
    simp only
    split
    · exact shaped_flushIfFull shaped_fillSingle _ hs
    · exact hs

theorem shaped_minusBody (f : F) :
    ∀ s : Run (F × Nat) F V N, ShapedOn X s.1 → ShapedOn X (Calc.minusBody f s).2.1 := by
  intro s hs
  unfold Calc.minusBody
  cases s.1.pdMinus.get? f with
  | none => exact hs
  | some t =>
    simp only
    split
    · exact shaped_flushIfFull shaped_fillMinus _ hs
    · exact hs

theorem shaped_pairValueBody (k : F × F) (v : V × V) :
    ∀ s : Run ((F × F) × (V × V)) F V N, ShapedOn X s.1 → ShapedOn X (Calc.pairValueBody k v s).2.1 := by
  intro s hs
  unfold Calc.pairValueBody
  cases s.1.pdPairs.get? k with
  | none => exact hs
  | some t =>
    simp only
    cases getIndex t.f1Values v.1 with
    | error _ => exact hs
    | ok i =>
      simp only
      cases getIndex t.f2Values v.2 with
      | error _ => exact hs
      | ok j =>
        simp only
        cases (t.pdValues[i]?).bind (fun row => row[j]?) with
        | none => exact hs
        | some x =>
          simp only
          split
          · exact shaped_flushIfFull shaped_fillPairs _ hs
          · exact hs

theorem shaped_pairBody (all : Bool) (q : F × F) :
    ∀ s : Run ((F × F) × (V × V)) F V N, ShapedOn X s.1 → ShapedOn X (Calc.pairBody all q s).2.1 := by
  intro s hs
  simp only [Calc.pairBody]
  cases s.1.pairValues all (s.1.pairKey q) with
  | error _ => exact hs
  | ok vs => exact stay_forEach (I := fun s => ShapedOn X s.1) (shaped_pairValueBody _) s hs

/-- **Any history leaves the tables in shape**, for every prediction function. -/
theorem shaped_op (op : PDOp F) : ∀ c : Calc F V N, ShapedOn X c → ShapedOn X (op.run c).2 := by
  intro c hc
  cases op with
  | single fs =>
    exact stay_seq (I := fun s : Run (F × V) F V N => ShapedOn X s.1) (stay_forEach (I := fun s : Run (F × V) F V N => ShapedOn X s.1) shaped_singleBody)
      (fun _ => shaped_flushRest shaped_fillSingle) (c, Loc.empty) hc
  | pairs ps all =>
    exact stay_seq (I := fun s : Run ((F × F) × (V × V)) F V N => ShapedOn X s.1)
      (stay_forEach (I := fun s : Run ((F × F) × (V × V)) F V N => ShapedOn X s.1) (shaped_pairBody all))
      (fun _ => shaped_flushRest shaped_fillPairs) (c, Loc.empty) hc
  | minus fs =>
    exact stay_seq (I := fun s : Run (F × Nat) F V N => ShapedOn X s.1) (stay_forEach (I := fun s : Run (F × Nat) F V N => ShapedOn X s.1) shaped_minusBody)
      (fun _ => shaped_flushRest shaped_fillMinus) (c, Loc.empty) hc

theorem shaped_runOps (ops : List (PDOp F)) : ∀ c : Calc F V N, ShapedOn X c → ShapedOn X (runOps c ops) := by
  induction ops with
  | nil => exact fun c hc => hc
  | cons op ops ih => exact fun c hc => ih _ (shaped_op op c hc)

theorem shaped_history (p : Nat → List (Row F V) → Except Err (List N)) (X : Frame F V) (b : Int) (ops : List (PDOp F)) :
    Shape (runOps (Calc.new p X b) ops) ∧ (runOps (Calc.new p X b) ops).X = X :=
  shaped_runOps ops _ ⟨shape_new p X b, rfl⟩

end

end Artemis
