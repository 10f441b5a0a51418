import Verif.Model.DataHeap

set_option linter.unusedSectionVars false
set_option linter.unusedVariables false
set_option linter.unusedSimpArgs false

/-!
# Lemmas for the performance based methods with frame objects
-/

namespace Artemis

variable {G L F V K : Type} [DecidableEq F] [DecidableEq L] [Field K] [LinearOrder K]

/-- The function `h` on objects does what `f` does on values, creates objects, and changes no object. -/
def SimsAt {α : Type} (r : Nat) (X : LFrame L F V) (h : PyM (PMem G L F V) α) (f : PyM (Scored G F V) α) : Prop :=
  ∀ s : PMem G L F V, s.mem[r]? = some X →
    ∃ ext, h s = ((f ⟨s.rng, s.calls⟩).1, ⟨s.mem ++ ext, (f ⟨s.rng, s.calls⟩).2.rng, (f ⟨s.rng, s.calls⟩).2.calls⟩)

theorem getElem?_ext {α : Type} {l ext : List α} {r : Nat} {x : α} (h : l[r]? = some x) : (l ++ ext)[r]? = some x := by
  have := (List.getElem?_eq_some_iff.1 h).1
  rw [List.getElem?_append_left this]; exact h

theorem SimsAt.ret {α : Type} {r : Nat} {X : LFrame L F V} (a : α) : SimsAt (G := G) r X (PyM.ret a) (PyM.ret a) :=
  fun s _ => ⟨[], by simp [PyM.ret]⟩

theorem SimsAt.raise {α : Type} {r : Nat} {X : LFrame L F V} (e : Err) : SimsAt (G := G) (α := α) r X (PyM.raise e) (PyM.raise e) :=
  fun s _ => ⟨[], by simp [PyM.raise]⟩

theorem SimsAt.seq {α β : Type} {r : Nat} {X : LFrame L F V} {h : PyM (PMem G L F V) α} {f : PyM (Scored G F V) α}
    {k : α → PyM (PMem G L F V) β} {k' : α → PyM (Scored G F V) β} (h1 : SimsAt r X h f) (h2 : ∀ a, SimsAt r X (k a) (k' a)) :
    SimsAt r X (PyM.seq h k) (PyM.seq f k') := by
  intro s hs
  obtain ⟨ext, e⟩ := h1 s hs
  rcases hf : f ⟨s.rng, s.calls⟩ with ⟨res, w⟩
  rw [hf] at e
  cases res with
  | error er => exact ⟨ext, by simp [PyM.seq, e, hf]⟩
  | ok a =>
    obtain ⟨ext2, e2⟩ := h2 a ⟨s.mem ++ ext, w.rng, w.calls⟩ (getElem?_ext hs)
    refine ⟨ext ++ ext2, ?_⟩
    simp only [PyM.seq, e, hf]
    simp only at e2
    rw [e2]
    simp [List.append_assoc]

theorem SimsAt.mapList {α β : Type} {r : Nat} {X : LFrame L F V} (l : List β) {h : β → PyM (PMem G L F V) α}
    {f : β → PyM (Scored G F V) α} (hb : ∀ b, SimsAt r X (h b) (f b)) : SimsAt r X (PyM.mapList l h) (PyM.mapList l f) := by
  induction l with
  | nil => exact SimsAt.ret []
  | cons b l ih => exact (hb b).seq fun a => ih.seq fun as => SimsAt.ret (a :: as)

theorem SimsAt.times {α : Type} {r : Nat} {X : LFrame L F V} (n : Nat) {h : PyM (PMem G L F V) α}
    {f : PyM (Scored G F V) α} (hb : SimsAt r X h f) : SimsAt r X (PyM.times n h) (PyM.times n f) := by
  unfold PyM.times
  exact SimsAt.mapList _ fun _ => hb

section pieces
variable {m : HModel F V K} (hm : ∀ Y, m.touch Y = Y) {M : Metric K} {y : List (Num K)} {R : Rng G}

include hm in
/-- scoring an object with a model that changes nothing -/
theorem scoreOnH_at {r : Nat} {s : PMem G L F V} {X : LFrame L F V} (h : s.mem[r]? = some X) :
    scoreOnH m M y r s = ((scoreOn m.obj M y X.frame ⟨s.rng, s.calls⟩).1,
      ⟨s.mem, (scoreOn (G := G) m.obj M y X.frame ⟨s.rng, s.calls⟩).2.rng, (scoreOn (G := G) m.obj M y X.frame ⟨s.rng, s.calls⟩).2.calls⟩) := by
  have hset : s.mem.set r X = s.mem := by
    obtain ⟨hl, e⟩ := List.getElem?_eq_some_iff.1 h
    rw [← e]; exact List.set_getElem_self hl
  unfold scoreOnH scoreOn predictOnH predictOn
  simp only [PyM.seq, getFrame, h, hm]
  cases hp : m.obj.predict with
  | none => simp
  | some p =>
    simp only [hset]
    cases p s.calls.length X.frame.rows with
    | error e => simp
    | ok v => simp [PyM.lift]

include hm in
theorem SimsAt.score {r : Nat} {X : LFrame L F V} : SimsAt (G := G) r X (scoreOnH m M y r) (scoreOn m.obj M y X.frame) :=
  fun s hs => ⟨[], by rw [scoreOnH_at hm hs]; simp⟩

theorem getFrame_last (mem : List (LFrame L F V)) (Y : LFrame L F V) (g : G) (cs : List (List (Row F V))) :
    getFrame mem.length (⟨mem ++ [Y], g, cs⟩ : PMem G L F V) = (.ok Y, ⟨mem ++ [Y], g, cs⟩) := by
  simp [getFrame]

theorem assignCol_last (mem : List (LFrame L F V)) (Y : LFrame L F V) (g : G) (cs : List (List (Row F V))) (f : F) (vs : List V) :
    assignCol mem.length f vs (⟨mem ++ [Y], g, cs⟩ : PMem G L F V) =
      match Y.frame.setCol f vs with
      | .error e => (.error e, ⟨mem ++ [Y], g, cs⟩)
      | .ok Z => (.ok (), ⟨mem ++ [{ Y with frame := Z }], g, cs⟩) := by
  unfold assignCol
  simp only [PyM.seq, getFrame_last, PyM.lift]
  cases Y.frame.setCol f vs <;> simp

theorem permuteLoop_last (mem : List (LFrame L F V)) (g : G) (cs : List (List (Row F V))) (p : List Nat) (fs : List F) :
    ∀ Y : LFrame L F V, ∃ Y' : LFrame L F V,
      PyM.forEach fs (permuteColH mem.length p) (⟨mem ++ [Y], g, cs⟩ : PMem G L F V)
        = ((permuteCols p fs Y.frame).map (fun _ => ()), ⟨mem ++ [Y'], g, cs⟩)
      ∧ ∀ Z, permuteCols p fs Y.frame = .ok Z → Y' = { Y with frame := Z } := by
  induction fs with
  | nil => intro Y; exact ⟨Y, by simp [PyM.forEach, PyM.ret, permuteCols, Except.map], by simp [permuteCols]⟩
  | cons f fs ih =>
    intro Y
    simp only [PyM.forEach, PyM.seq, permuteColH, getFrame_last, PyM.lift, permuteCols, bind, Except.bind]
    cases Y.frame.colE f with
    | error e => exact ⟨Y, by simp [Except.map], by simp⟩
    | ok v =>
      cases hv : npTake v p with
      | error e => exact ⟨Y, by simp [Except.map, hv], by simp [hv]⟩
      | ok v' =>
        simp only [hv, assignCol_last]
        cases Y.frame.setCol f v' with
        | error e => exact ⟨Y, by simp [Except.map], by simp⟩
        | ok Z => exact ih { Y with frame := Z }

include hm in
theorem SimsAt.permute {r : Nat} {X : LFrame L F V} (fs : List F) (ref : Num K) :
    SimsAt (G := G) r X (permuteScoreH R m M y r fs ref) (permuteScore R m.obj M y X.frame fs ref) := by
  intro s hs
  unfold permuteScoreH permuteScore copyFrame
  have hs' : (s.mem ++ [X])[r]? = some X := getElem?_ext hs
  obtain ⟨Y', e1, e2⟩ := permuteLoop_last s.mem (R.perm s.rng X.frame.len).2 s.calls (R.perm s.rng X.frame.len).1 fs X
  simp only [PyM.seq, getFrame, hs, newFrame, hs', drawPermH, drawPerm, e1, PyM.lift]
  cases hc : permuteCols (R.perm s.rng X.frame.len).1 fs X.frame with
  | error e => exact ⟨[Y'], by simp [Except.map]⟩
  | ok Z =>
    have := e2 Z hc
    subst this
    refine ⟨[{ X with frame := Z }], ?_⟩
    simp only [Except.map]
    rw [scoreOnH_at hm (X := { X with frame := Z }) (by simp)]
    simp only
    rcases scoreOn m.obj M y Z ⟨(R.perm s.rng X.frame.len).2, s.calls⟩ with ⟨res, w⟩
    cases res <;> simp [PyM.ret]

include hm in
theorem SimsAt.inter {r : Nat} {X : LFrame L F V} (f1 f2 : F) (ref : Num K) :
    SimsAt (G := G) r X (interScoreH R m M y r f1 f2 ref) (interScore R m.obj M y X.frame f1 f2 ref) :=
  (SimsAt.permute hm _ _).seq fun _ => (SimsAt.permute hm _ _).seq fun _ => (SimsAt.permute hm _ _).seq fun _ => SimsAt.ret _

include hm in
theorem SimsAt.perfOvo {r : Nat} {X : LFrame L F V} (sort : List (OvoRow F K) → List (OvoRow F K)) (pairs : List (F × F)) (n : Nat) :
    SimsAt (G := G) r X (perfOvoH sort R m M y r pairs n) (Artemis.perfOvo sort R m.obj M y X.frame pairs n) :=
  (SimsAt.score hm).seq fun _ =>
    (SimsAt.mapList _ fun _ => (SimsAt.times _ ((SimsAt.inter hm _ _ _).seq fun _ => SimsAt.ret _)).seq fun _ => SimsAt.ret _).seq
      fun _ => SimsAt.ret _

/-! ### The loop of the permutation importance -/

/-- As `SimsAt`, for code working on the last object, whose contents are the first component of the value-level state. -/
def SimsLast (mem : List (LFrame L F V)) (ls : List L) {δ : Type} (h : δ → PyM (PMem G L F V) δ)
    (f : Frame F V × δ → PyM (Scored G F V) (Frame F V × δ)) : Prop :=
  ∀ (Y : Frame F V) (d : δ) (g : G) (cs : List (List (Row F V))), ∃ Y' : Frame F V,
    h d ⟨mem ++ [⟨ls, Y⟩], g, cs⟩ = ((f (Y, d) ⟨g, cs⟩).1.map Prod.snd, ⟨mem ++ [⟨ls, Y'⟩], (f (Y, d) ⟨g, cs⟩).2.rng, (f (Y, d) ⟨g, cs⟩).2.calls⟩)
    ∧ ∀ r, (f (Y, d) ⟨g, cs⟩).1 = .ok r → Y' = r.1

theorem SimsLast.fold {mem : List (LFrame L F V)} {ls : List L} {δ β : Type} (l : List β) {h : δ → β → PyM (PMem G L F V) δ}
    {f : Frame F V × δ → β → PyM (Scored G F V) (Frame F V × δ)} (hb : ∀ b, SimsLast mem ls (fun d => h d b) (fun a => f a b)) :
    SimsLast mem ls (fun d => PyM.fold l h d) (fun a => PyM.fold l f a) := by
  induction l with
  | nil =>
    intro Y d g cs
    exact ⟨Y, by simp [PyM.fold, PyM.ret, Except.map], by simp [PyM.fold, PyM.ret]⟩
  | cons b l ih =>
    intro Y d g cs
    obtain ⟨Y', e1, e2⟩ := hb b Y d g cs
    simp only [PyM.fold, PyM.seq] at e1 e2 ⊢
    rcases hf : f (Y, d) b ⟨g, cs⟩ with ⟨res, w⟩
    rw [hf] at e1 e2
    cases res with
    | error e => exact ⟨Y', by simp [e1, Except.map], by simp⟩
    | ok a =>
      obtain ⟨Ya, da⟩ := a
      have : Y' = Ya := e2 _ rfl
      subst this
      simp only [e1, Except.map]
      exact ih Y' da w.rng w.calls

include hm in
theorem SimsLast.corrupt {mem : List (LFrame L F V)} {X : LFrame L F V} {r : Nat} (hr : mem[r]? = some X) (f : F) :
    SimsLast (G := G) mem X.labels (fun d => corruptStepH R m M y r mem.length d f) (fun a => corruptStep R m.obj M y X.frame a f) := by
  intro Y d g cs
  unfold corruptStepH corruptStep
  simp only [PyM.seq, getFrame_last, PyM.lift, drawPermH, drawPerm]
  cases Y.colE f with
  | error e => exact ⟨Y, by simp [Except.map], by simp⟩
  | ok v =>
    simp only
    cases hv : npTake v (R.perm g v.length).1 with
    | error e => exact ⟨Y, by simp [Except.map], by simp⟩
    | ok v' =>
      simp only [assignCol_last]
      cases Y.setCol f v' with
      | error e => exact ⟨Y, by simp [Except.map], by simp⟩
      | ok Z =>
        simp only
        rw [scoreOnH_at hm (X := ⟨X.labels, Z⟩) (by simp)]
        simp only
        rcases scoreOn m.obj M y Z ⟨(R.perm g v.length).2, cs⟩ with ⟨res, w⟩
        cases res with
        | error e => exact ⟨Z, by simp [Except.map], by simp⟩
        | ok sc =>
          simp only
          cases d.get? f with
          | none => exact ⟨Z, by simp [PyM.raise, Except.map], by simp [PyM.raise]⟩
          | some l =>
            have hr' : (mem ++ [⟨X.labels, Z⟩])[r]? = some X := getElem?_ext hr
            simp only [PyM.seq, PyM.lift, getFrame, hr']
            cases X.frame.colE f with
            | error e => exact ⟨Z, by simp [Except.map], by simp⟩
            | ok orig =>
              simp only [assignCol_last]
              cases Z.setCol f orig with
              | error e => exact ⟨Z, by simp [Except.map], by simp⟩
              | ok Z' => exact ⟨Z', by simp [PyM.ret, Except.map], by simp [PyM.ret]⟩

include hm in
theorem SimsAt.corrupted {r : Nat} {X : LFrame L F V} (fs : List F) (n : Nat) :
    SimsAt (G := G) r X (corruptedScoresH R m M y r fs n) (corruptedScores R m.obj M y X.frame fs n) := by
  intro s hs
  obtain ⟨Y', e1, -⟩ := SimsLast.fold (G := G) (mem := s.mem) (ls := X.labels) (δ := Dict F (List (Num K))) (List.range n)
    (h := fun d _ => PyM.fold fs (corruptStepH R m M y r s.mem.length) d)
    (f := fun a _ => PyM.fold fs (corruptStep R m.obj M y X.frame) a)
    (fun _ => SimsLast.fold fs (fun f => SimsLast.corrupt hm hs f)) X.frame
    (fs.foldl (fun d f => d.set f []) []) s.rng s.calls
  refine ⟨[⟨X.labels, Y'⟩], ?_⟩
  unfold corruptedScoresH corruptedScores copyFrame
  simp only [PyM.seq, getFrame, hs, newFrame]
  simp only at e1
  refine e1.trans ?_
  rcases PyM.fold (List.range n) (fun acc x => PyM.fold fs (corruptStep R m.obj M y X.frame) acc)
    (X.frame, List.foldl (fun d f => Dict.set d f []) [] fs) ⟨s.rng, s.calls⟩ with ⟨res, w⟩
  cases res <;> simp [Except.map, PyM.ret]

include hm in
theorem SimsAt.permImportance {r : Nat} {X : LFrame L F V} (sort : List (FeatRow F K) → List (FeatRow F K)) (fs : Option (List F)) (n : Nat) :
    SimsAt (G := G) r X (permImportanceH sort R m M y r fs n) (Artemis.permImportance sort R m.obj M y X.frame fs n) := by
  refine (SimsAt.score hm).seq fun base => ?_
  cases fs with
  | none => exact SimsAt.raise _
  | some fs =>
    refine (SimsAt.corrupted hm fs n).seq fun d => ?_
    by_cases h : d.isEmpty = true
    · simp only [h, if_true]; exact SimsAt.raise _
    · simp only [h]; exact SimsAt.ret _

end pieces

/-! ### Objects that are not touched, whatever the model does to the frames it is given -/

/-- `m` leaves the object `o` alone, and removes none. -/
def KeepsObj {α : Type} (o : Nat) (m : PyM (PMem G L F V) α) : Prop :=
  ∀ s : PMem G L F V, o < s.mem.length → (m s).2.mem[o]? = s.mem[o]? ∧ s.mem.length ≤ (m s).2.mem.length

section keeps
variable {α β : Type} {o : Nat}

theorem KeepsObj.pure {h : PyM (PMem G L F V) α} (hp : ∀ s, (h s).2.mem = s.mem) : KeepsObj o h :=
  fun s _ => by rw [hp]; exact ⟨rfl, le_rfl⟩

theorem KeepsObj.seq {h : PyM (PMem G L F V) α} {k : α → PyM (PMem G L F V) β} (h1 : KeepsObj o h) (h2 : ∀ a, KeepsObj o (k a)) :
    KeepsObj o (PyM.seq h k) := by
  intro s hs
  obtain ⟨a1, a2⟩ := h1 s hs
  unfold PyM.seq
  rcases hh : h s with ⟨res, w⟩
  rw [hh] at a1 a2
  cases res with
  | error e => exact ⟨a1, a2⟩
  | ok a =>
    obtain ⟨b1, b2⟩ := h2 a w (lt_of_lt_of_le hs a2)
    exact ⟨b1.trans a1, a2.trans b2⟩

theorem KeepsObj.ret (a : α) : KeepsObj o (PyM.ret a : PyM (PMem G L F V) α) := .pure fun _ => rfl
theorem KeepsObj.raise (e : Err) : KeepsObj o (PyM.raise e : PyM (PMem G L F V) α) := .pure fun _ => rfl
theorem KeepsObj.lift (a : Except Err α) : KeepsObj o (PyM.lift a : PyM (PMem G L F V) α) := .pure fun s => by cases a <;> rfl

theorem KeepsObj.get (r : Nat) : KeepsObj o (getFrame r : PyM (PMem G L F V) _) :=
  .pure fun s => by unfold getFrame; cases s.mem[r]? <;> rfl

theorem KeepsObj.new (X : LFrame L F V) : KeepsObj o (newFrame X : PyM (PMem G L F V) _) := by
  intro s hs
  simp [newFrame, List.getElem?_append_left hs]

theorem KeepsObj.draw (R : Rng G) (n : Nat) : KeepsObj o (drawPermH R n : PyM (PMem G L F V) _) :=
  .pure fun s => rfl

theorem KeepsObj.forEach (l : List β) {h : β → PyM (PMem G L F V) Unit} (hb : ∀ b, KeepsObj o (h b)) : KeepsObj o (PyM.forEach l h) := by
  induction l with
  | nil => exact .ret _
  | cons b l ih => exact (hb b).seq fun _ => ih

theorem KeepsObj.mapList (l : List β) {h : β → PyM (PMem G L F V) α} (hb : ∀ b, KeepsObj o (h b)) : KeepsObj o (PyM.mapList l h) := by
  induction l with
  | nil => exact .ret _
  | cons b l ih => exact (hb b).seq fun _ => ih.seq fun _ => .ret _

theorem KeepsObj.times (n : Nat) {h : PyM (PMem G L F V) α} (hb : KeepsObj o h) : KeepsObj o (PyM.times n h) :=
  .mapList _ fun _ => hb

theorem KeepsObj.fold (l : List β) {h : α → β → PyM (PMem G L F V) α} (hb : ∀ a b, KeepsObj o (h a b)) (a : α) :
    KeepsObj o (PyM.fold l h a) := by
  induction l generalizing a with
  | nil => exact .ret _
  | cons b l ih => exact (hb a b).seq fun a' => ih a'

/-- a copy is a new object, so what is done with it may do anything to it -/
theorem KeepsObj.copy {r : Nat} {k : Nat → PyM (PMem G L F V) β} (hk : ∀ c, c ≠ o → KeepsObj o (k c)) :
    KeepsObj o (PyM.seq (copyFrame r) k) := by
  intro s hs
  unfold copyFrame PyM.seq getFrame newFrame
  cases hX : s.mem[r]? with
  | none => simp
  | some X =>
    simp only
    obtain ⟨b1, b2⟩ := hk s.mem.length (by omega) ⟨s.mem ++ [X], s.rng, s.calls⟩ (by simp; omega)
    refine ⟨b1.trans (by simp [List.getElem?_append_left hs]), ?_⟩
    simp at b2; omega

variable {m : HModel F V K} {M : Metric K} {y : List (Num K)} {R : Rng G}

theorem KeepsObj.assign {c : Nat} (h : c ≠ o) (f : F) (vs : List V) : KeepsObj o (assignCol c f vs : PyM (PMem G L F V) _) := by
  unfold assignCol
  refine (KeepsObj.get c).seq fun X => (KeepsObj.lift _).seq fun Y => ?_
  intro s hs
  simp [List.getElem?_set_ne h]

theorem KeepsObj.score {c : Nat} (h : c ≠ o) : KeepsObj o (scoreOnH m M y c : PyM (PMem G L F V) _) := by
  unfold scoreOnH predictOnH
  refine KeepsObj.seq ((KeepsObj.get c).seq fun X => ?_) fun _ => .lift _
  intro s hs
  cases m.obj.predict with
  | none => simp
  | some p => simp [List.getElem?_set_ne h]

/-- Scoring permuted data leaves every object alone that existed before. -/
theorem KeepsObj.permute (r : Nat) (fs : List F) (ref : Num K) : KeepsObj o (permuteScoreH R m M y r fs ref : PyM (PMem G L F V) _) :=
  KeepsObj.copy fun c hc => (KeepsObj.get r).seq fun X => (KeepsObj.draw R _).seq fun p =>
    (KeepsObj.forEach _ fun f => (KeepsObj.get c).seq fun _ => (KeepsObj.lift _).seq fun _ => (KeepsObj.lift _).seq fun _ =>
      KeepsObj.assign hc _ _).seq fun _ => (KeepsObj.score hc).seq fun _ => .ret _

theorem KeepsObj.perfOvo {r : Nat} (h : r ≠ o) (sort : List (OvoRow F K) → List (OvoRow F K)) (pairs : List (F × F)) (n : Nat) :
    KeepsObj o (perfOvoH sort R m M y r pairs n : PyM (PMem G L F V) _) :=
  (KeepsObj.score h).seq fun _ =>
    (KeepsObj.mapList _ fun _ => (KeepsObj.times _ (KeepsObj.seq
      ((KeepsObj.permute _ _ _).seq fun _ => (KeepsObj.permute _ _ _).seq fun _ => (KeepsObj.permute _ _ _).seq fun _ => .ret _)
        fun _ => .ret _)).seq fun _ => .ret _).seq fun _ => .ret _

theorem KeepsObj.corrupted (r : Nat) (fs : List F) (n : Nat) : KeepsObj o (corruptedScoresH R m M y r fs n : PyM (PMem G L F V) _) := by
  refine KeepsObj.copy fun c hc => KeepsObj.fold _ (fun d _ => KeepsObj.fold _ (fun d f => ?_) d) _
  unfold corruptStepH
  refine (KeepsObj.get c).seq fun _ => (KeepsObj.lift _).seq fun _ => (KeepsObj.draw R _).seq fun _ => (KeepsObj.lift _).seq fun _ =>
    (KeepsObj.assign hc _ _).seq fun _ => (KeepsObj.score hc).seq fun _ => ?_
  cases d.get? f with
  | none => exact .raise _
  | some l => exact (KeepsObj.get r).seq fun _ => (KeepsObj.lift _).seq fun _ => (KeepsObj.assign hc _ _).seq fun _ => .ret _

theorem KeepsObj.permImportance {r : Nat} (h : r ≠ o) (sort : List (FeatRow F K) → List (FeatRow F K)) (fs : Option (List F)) (n : Nat) :
    KeepsObj o (permImportanceH sort R m M y r fs n : PyM (PMem G L F V) _) := by
  refine (KeepsObj.score h).seq fun base => ?_
  cases fs with
  | none => exact .raise _
  | some fs =>
    refine (KeepsObj.corrupted _ _ _).seq fun d => ?_
    by_cases hd : d.isEmpty = true
    · simp only [hd, if_true]; exact .raise _
    · simp only [hd]; exact .ret _

end keeps

end Artemis
