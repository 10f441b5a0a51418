import Verif.Proofs.Hoare
import Verif.Proofs.Basics
import Verif.Model.Perf

/-!
# When the permutation methods return

Helper lemmas for C121.
-/

set_option linter.unusedSectionVars false
set_option linter.unusedVariables false
set_option linter.unusedSimpArgs false

namespace Artemis

section perf
variable {F V K G L : Type} [DecidableEq F] [Field K] [LinearOrder K]

theorem Triple.mapList {σ α β : Type*} {I : σ → Prop} {P : Err → σ → Prop} {l : List β} {b : β → PyM σ α}
    (h : ∀ x ∈ l, Triple I (b x) (fun _ => I) P) : Triple I (PyM.mapList l b) (fun _ => I) P := by
  induction l with
  | nil => exact Triple.ret fun s hs => hs
  | cons x xs ih =>
    exact Triple.seq (h x List.mem_cons_self) fun a => Triple.seq (ih fun y hy => h y (List.mem_cons_of_mem _ hy)) fun as =>
      Triple.ret fun s hs => hs

theorem Triple.fold {σ α β : Type*} {J : α → σ → Prop} {P : Err → σ → Prop} {l : List β} {b : α → β → PyM σ α}
    (h : ∀ acc, ∀ x ∈ l, Triple (J acc) (b acc x) J P) : ∀ acc, Triple (J acc) (PyM.fold l b acc) J P := by
  induction l with
  | nil => exact fun acc => Triple.ret fun s hs => hs
  | cons x xs ih =>
    exact fun acc => Triple.seq (h acc x List.mem_cons_self) fun a => ih (fun acc y hy => h acc y (List.mem_cons_of_mem _ hy)) a

/-- a program that cannot raise -/
theorem Triple.returns {σ α : Type*} {I : σ → Prop} {m : PyM σ α} {Q : α → σ → Prop} (h : Triple I m Q (fun _ _ => False)) {s : σ}
    (hs : I s) : ∃ a, (m s).1 = .ok a ∧ Q a (m s).2 := by
  obtain ⟨h1, h2⟩ := h s hs
  cases e : (m s).1 with
  | ok a => exact ⟨a, rfl, h1 a e⟩
  | error er => exact (h2 er e).elim

variable {R : Rng G} {model : ModelObj F V (Num K)} {M : Metric K} {y : List (Num K)} {X : Frame F V} {B : Err → Prop} {nRepeat : Nat}

/-- the model answers every frame with as many rows as the data, one prediction per row, and the metric can be evaluated on them -/
structure Answers (model : ModelObj F V (Num K)) (M : Metric K) (y : List (Num K)) (m : Nat) : Prop where
  model : ∃ p, model.predict = some p ∧ ∀ k (rows : List (Row F V)), rows.length = m → ∃ yh, p k rows = .ok yh ∧ yh.length = m
  metric : ∀ yh, yh.length = m → ∃ v, M.calculate y yh = .ok v

abbrev Always {σ : Type*} : σ → Prop := fun _ => True

theorem returns_score (ha : Answers model M y X.len) {Y : Frame F V} (hY : Y.len = X.len) {I : Scored G F V → Prop} :
    Triple (σ := Scored G F V) I (scoreOn model M y Y) (fun _ => Always) (fun e _ => B e) := by
  obtain ⟨p, hp, hans⟩ := ha.model
  intro s _
  unfold scoreOn PyM.seq predictOn
  obtain ⟨yh, h1, h2⟩ := hans s.calls.length Y.rows hY
  obtain ⟨v, hv⟩ := ha.metric yh h2
  simp only [hp, h1, PyM.lift, hv]
  exact ⟨fun _ _ => trivial, fun e he => by cases he⟩

/-- a value with `q`, or an error with `B` -/
def Gives {α : Type*} (e : Except Err α) (q : α → Prop) (B : Err → Prop) : Prop := (∀ a, e = .ok a → q a) ∧ ∀ er, e = .error er → B er

theorem Gives.ok {α : Type*} {a : α} {q : α → Prop} (h : q a) : Gives (.ok a) q B := ⟨fun b hb => by cases hb; exact h, fun e he => by cases he⟩

theorem Gives.error {α : Type*} {e : Err} {q : α → Prop} (h : B e) : Gives (.error e : Except Err α) q B :=
  ⟨fun b hb => (by cases hb), fun e he => (by cases he; exact h)⟩

theorem Gives.bind {α β : Type} {e : Except Err α} {k : α → Except Err β} {q : α → Prop} {q' : β → Prop} (h : Gives e q B)
    (hk : ∀ a, q a → Gives (k a) q' B) : Gives (e >>= k) q' B := by
  cases e with
  | error er => exact Gives.error (h.2 er rfl)
  | ok a => exact hk a (h.1 a rfl)

theorem Triple.liftGives {σ α : Type*} {I : σ → Prop} {e : Except Err α} {q : α → Prop} (h : ∀ s, I s → Gives e q B) :
    Triple I (PyM.lift e) (fun a _ => q a) (fun e _ => B e) :=
  fun s hs => ⟨fun a ha => (h s hs).1 a ha, fun er he => (h s hs).2 er he⟩

theorem npTake_gives {α : Type*} {v : List α} {p : List Nat} (h : ∀ i ∈ p, i < v.length) : Gives (npTake v p) (fun w => w.length = p.length) B := by
  suffices ∃ w, npTake v p = .ok w ∧ w.length = p.length by
    obtain ⟨w, hw, hl⟩ := this
    rw [hw]; exact Gives.ok hl
  unfold npTake
  induction p with
  | nil => exact ⟨[], rfl, rfl⟩
  | cons i is ih =>
    obtain ⟨w, h1, h2⟩ := ih fun j hj => h j (List.mem_cons_of_mem _ hj)
    refine ⟨v[i]'(h i List.mem_cons_self) :: w, ?_, by simp [h2]⟩
    rw [List.mapM_cons, h1, List.getElem?_eq_getElem (h i List.mem_cons_self)]
    rfl

/-- same columns, same number of rows -/
def SameSize (X Y : Frame F V) : Prop := Y.cols = X.cols ∧ Y.len = X.len

theorem setCol_gives {Y : Frame F V} {f : F} {vs : List V} (hY : SameSize X Y) (h : vs.length = X.len) :
    Gives (Y.setCol f vs) (SameSize X) B := by
  unfold Frame.setCol
  rw [if_pos (h.trans hY.2.symm)]
  refine Gives.ok ⟨hY.1, ?_⟩
  have := hY.2
  unfold Frame.len at this h ⊢
  simp [h, this]

theorem colE_gives {Y : Frame F V} {f : F} (hY : SameSize X Y) (hf : f ∈ X.cols ∨ B .keyError) :
    Gives (Y.colE f) (fun v => v.length = X.len) B := by
  unfold Frame.colE
  by_cases h : f ∈ Y.cols
  · rw [if_pos h]
    exact Gives.ok (by rw [← hY.2]; simp [Frame.col, Frame.len])
  · rw [if_neg h]
    exact Gives.error (hf.resolve_left fun h' => h (hY.1 ▸ h'))

theorem permuteCols_gives {p : List Nat} (hp : p.Perm (List.range X.len)) : ∀ (fs : List F) (Y : Frame F V), SameSize X Y →
    (∀ f ∈ fs, f ∈ X.cols ∨ B .keyError) → Gives (permuteCols p fs Y) (SameSize X) B
  | [], Y, hY, _ => Gives.ok hY
  | f :: fs, Y, hY, hfs => by
    refine Gives.bind (colE_gives hY (hfs f List.mem_cons_self)) fun v hv => Gives.bind (npTake_gives (v := v) (p := p) (fun i hi => by
      rw [hv]; exact List.mem_range.1 (hp.mem_iff.1 hi))) fun w hw => Gives.bind (setCol_gives (f := f) (vs := w) hY
        (by rw [hw, hp.length_eq, List.length_range])) fun Z hZ => ?_
    exact permuteCols_gives hp fs Z hZ fun g hg => hfs g (List.mem_cons_of_mem _ hg)

theorem triple_drawPerm (hR : Rng.Lawful R) (n : Nat) {I : Scored G F V → Prop} :
    Triple (σ := Scored G F V) I (drawPerm R n) (fun p _ => p.Perm (List.range n)) (fun e _ => B e) :=
  fun s _ => ⟨fun p hp => by cases hp; exact hR.perm_perm s.rng n, fun e he => by cases he⟩

/-- a hypothesis about the state that is about values only -/
theorem Triple.given {σ α : Type*} {q : Prop} {m : PyM σ α} {Q : α → σ → Prop} {P : Err → σ → Prop} (h : q → Triple Always m Q P) :
    Triple (fun _ => q) m Q P := fun s hs => h hs s trivial

theorem returns_permuteScore (hR : Rng.Lawful R) (ha : Answers model M y X.len) {fs : List F} (hfs : ∀ f ∈ fs, f ∈ X.cols ∨ B .keyError)
    (ref : Num K) :
    Triple (σ := Scored G F V) Always (permuteScore R model M y X fs ref) (fun _ => Always) (fun e _ => B e) := by
  refine Triple.seq (triple_drawPerm hR _) fun p => Triple.given fun hp => ?_
  refine Triple.seq (Triple.liftGives fun _ _ => permuteCols_gives hp fs X ⟨rfl, rfl⟩ hfs) fun Xp => Triple.given fun hXp => ?_
  exact Triple.seq (returns_score ha hXp.2) fun sc => Triple.ret fun _ _ => trivial

theorem returns_interScore (hR : Rng.Lawful R) (ha : Answers model M y X.len) {f g : F} (hf : f ∈ X.cols ∨ B .keyError)
    (hg : g ∈ X.cols ∨ B .keyError) (ref : Num K) :
    Triple (σ := Scored G F V) Always (interScore R model M y X f g ref) (fun _ => Always) (fun e _ => B e) := by
  refine Triple.seq (returns_permuteScore hR ha (by simpa using hf) ref) fun _ => Triple.seq (returns_permuteScore hR ha (by simpa using hg) ref)
    fun _ => Triple.seq (returns_permuteScore hR ha (fun h hh => ?_) ref) fun _ => Triple.ret fun _ _ => trivial
  rcases List.mem_cons.1 hh with rfl | hh
  · exact hf
  · rw [List.mem_singleton.1 hh]; exact hg

theorem returns_perfOvo (hR : Rng.Lawful R) (ha : Answers model M y X.len) {ps : List (F × F)}
    (hps : ∀ q ∈ ps, (q.1 ∈ X.cols ∨ B .keyError) ∧ (q.2 ∈ X.cols ∨ B .keyError)) (sort) (nRepeat : Nat) :
    Triple (σ := Scored G F V) Always (perfOvo sort R model M y X ps nRepeat) (fun _ => Always) (fun e _ => B e) := by
  refine Triple.seq (returns_score ha rfl) fun ref => Triple.seq (Q := fun _ => Always) (Triple.mapList fun q hq => ?_) fun rows => Triple.ret fun _ _ => trivial
  exact Triple.seq (Q := fun _ => Always) (Triple.mapList fun _ _ => Triple.seq (returns_interScore hR ha (hps q hq).1 (hps q hq).2 ref) fun _ =>
    Triple.ret fun _ _ => trivial) fun _ => Triple.ret fun _ _ => trivial

/-- what the local variables of `_corrupted_scores` satisfy -/
def GoodAcc (X : Frame F V) (fs : List F) (acc : Frame F V × Dict F (List (Num K))) : Prop :=
  SameSize X acc.1 ∧ (∀ f ∈ fs, acc.2.get? f ≠ none) ∧ (fs ≠ [] → acc.2 ≠ [])

theorem dict_set_ne_nil {A C : Type*} [DecidableEq A] (d : Dict A C) (k : A) (v : C) : d.set k v ≠ [] := by
  intro h
  have := Dict.get?_set d k v k
  rw [h, if_pos rfl] at this
  cases this

theorem returns_corruptStep (hR : Rng.Lawful R) (ha : Answers model M y X.len) {fs : List F} 
    (acc : Frame F V × Dict F (List (Num K))) (f : F) (hf : f ∈ fs) (hfs : f ∈ X.cols ∨ B .keyError) :
    Triple (σ := Scored G F V) (fun _ => GoodAcc X fs acc) (corruptStep R model M y X acc f) (fun acc _ => GoodAcc X fs acc)
      (fun e _ => B e) := by
  refine Triple.given fun ⟨h1, h2, h3⟩ => ?_
  refine Triple.seq (Triple.liftGives fun _ _ => colE_gives h1 hfs) fun v => Triple.given fun hv => ?_
  refine Triple.seq (triple_drawPerm hR _) fun p => Triple.given fun hp => ?_
  refine Triple.seq (Triple.liftGives fun _ _ => npTake_gives (v := v) (p := p) fun i hi => List.mem_range.1 (hp.mem_iff.1 hi))
    fun w => Triple.given fun hw => ?_
  refine Triple.seq (Triple.liftGives fun _ _ => setCol_gives (f := f) (vs := w) h1
    (by rw [hw, hp.length_eq, List.length_range, hv])) fun Xp => Triple.given fun hXp => ?_
  refine Triple.seq (returns_score ha hXp.2) fun sc => ?_
  cases e : acc.2.get? f with
  | none => exact absurd e (h2 f hf)
  | some l =>
    refine Triple.seq (Triple.liftGives fun _ _ => colE_gives (Y := X) ⟨rfl, rfl⟩ hfs) fun o => Triple.given fun ho => ?_
    refine Triple.seq (Triple.liftGives fun _ _ => setCol_gives (f := f) (vs := o) hXp ho) fun Xr => Triple.given fun hXr => ?_
    refine Triple.ret fun s _ => ⟨hXr, fun g hg => ?_, fun _ => dict_set_ne_nil _ _ _⟩
    rw [Dict.get?_set]
    split
    · simp
    · exact h2 g hg

theorem fails_corruptStep {fs : List F} (acc : Frame F V × Dict F (List (Num K))) (f : F) (hf : f ∉ X.cols) :
    Triple (σ := Scored G F V) (fun _ => GoodAcc X fs acc) (corruptStep R model M y X acc f) (fun _ _ => False)
      (fun e _ => e = .keyError) := by
  refine Triple.given fun ⟨h1, _⟩ => ?_
  refine Triple.seq (Q := fun _ _ => False) ?_ fun v => fun s hs => hs.elim
  have : acc.1.colE f = .error .keyError := by
    unfold Frame.colE
    rw [if_neg (h1.1 ▸ hf)]
  rw [this]
  exact Triple.liftGives fun _ _ => Gives.error rfl

theorem Triple.fold_fails {σ α β : Type*} {J : α → σ → Prop} {P : Err → σ → Prop} {l : List β} {b : α → β → PyM σ α}
    (h : ∀ acc, ∀ x ∈ l, Triple (J acc) (b acc x) J P) {x0 : β} (hx : x0 ∈ l)
    (h0 : ∀ acc, Triple (J acc) (b acc x0) (fun _ _ => False) P) : ∀ acc, Triple (J acc) (PyM.fold l b acc) (fun _ _ => False) P := by
  induction l with
  | nil => cases hx
  | cons x xs ih =>
    intro acc
    rcases List.mem_cons.1 hx with e | hx'
    · subst e
      exact Triple.seq (h0 acc) fun a s hs => hs.elim
    · exact Triple.seq (h acc x List.mem_cons_self) fun a => ih (fun acc y hy => h acc y (List.mem_cons_of_mem _ hy)) hx' a

theorem good_start {fs : List F} : GoodAcc (K := K) X fs (X, fs.foldl (fun d f => d.set f []) []) := by
  have key : ∀ (l : List F) (d : Dict F (List (Num K))) f, (f ∈ l ∨ d.get? f ≠ none) → (l.foldl (fun d f => d.set f []) d).get? f ≠ none := by
    intro l
    induction l with
    | nil => intro d f h; simpa using h
    | cons g l ih =>
      intro d f h
      refine ih _ f ?_
      rw [Dict.get?_set]
      by_cases hgf : f = g
      · right; rw [if_pos hgf]; simp
      · rw [if_neg hgf]
        rcases h with h | h
        · exact Or.inl ((List.mem_cons.1 h).resolve_left hgf)
        · exact Or.inr h
  refine ⟨⟨rfl, rfl⟩, fun f hf => key fs [] f (Or.inl hf), fun hne h => ?_⟩
  obtain ⟨f, hf⟩ := List.exists_mem_of_ne_nil fs hne
  have := key fs [] f (Or.inl hf)
  simp only at h
  rw [h] at this
  exact this rfl

theorem returns_permImportance (hR : Rng.Lawful R) (ha : Answers model M y X.len) {fs : List F} (hfs : ∀ f ∈ fs, f ∈ X.cols) (hne : fs ≠ [])
    (sort) (nRepeat : Nat) :
    Triple (σ := Scored G F V) Always (permImportance sort R model M y X (some fs) nRepeat) (fun _ => Always) (fun _ _ => False) := by
  refine Triple.seq (returns_score (B := fun _ => False) ha rfl) fun base => ?_
  refine Triple.seq (Q := fun (d : Dict F (List (Num K))) _ => d ≠ []) ?_ fun d => ?_
  · refine Triple.seq (Q := fun acc _ => GoodAcc X fs acc) ?_ fun acc => Triple.ret fun s h => h.2.2 hne
    have := Triple.fold (J := fun acc (_ : Scored G F V) => GoodAcc X fs acc) (P := fun _ _ => False) (l := List.range nRepeat)
      (b := fun acc _ => PyM.fold fs (corruptStep R model M y X) acc)
      (fun acc _ _ => Triple.fold (fun acc f hf => returns_corruptStep (B := fun _ => False) hR ha acc f hf (Or.inl (hfs f hf))) acc)
      (X, fs.foldl (fun d f => d.set f []) [])
    exact this.weaken (fun _ _ => good_start) (fun _ _ h => h) (fun _ _ h => h)
  · refine Triple.given fun hd => ?_
    have : d.isEmpty = false := by cases d with | nil => exact absurd rfl hd | cons _ _ => rfl
    simp only [this]
    exact Triple.ret fun _ _ => trivial

theorem fails_permImportance (hR : Rng.Lawful R) (ha : Answers model M y X.len) {fs : List F}
    (hfs : fs = [] ∨ (∃ f ∈ fs, f ∉ X.cols) ∧ 0 < nRepeat) (sort) :
    Triple (σ := Scored G F V) Always (permImportance sort R model M y X (some fs) nRepeat) (fun _ _ => False) (fun e _ => e = .keyError) := by
  refine Triple.seq (returns_score (B := fun e => e = .keyError) ha rfl) fun base => ?_
  rcases hfs with rfl | ⟨⟨f, hf, hfX⟩, hn⟩
  · refine Triple.seq (Q := fun (d : Dict F (List (Num K))) _ => d = []) ?_ fun d => Triple.given fun hd => ?_
    · have : ∀ (l : List Nat) (acc : Frame F V × Dict F (List (Num K))), acc.2 = [] → ∀ s : Scored G F V,
          ∃ acc', PyM.fold l (fun acc (_ : Nat) => PyM.fold ([] : List F) (corruptStep R model M y X) acc) acc s = (.ok acc', s) ∧ acc'.2 = [] := by
        intro l
        induction l with
        | nil => exact fun acc h s => ⟨acc, rfl, h⟩
        | cons i l ih => exact fun acc h s => ih acc h s
      intro s _
      obtain ⟨acc', h1, h2⟩ := this (List.range nRepeat) (X, []) rfl s
      unfold corruptedScores PyM.seq
      simp only [List.foldl_nil]
      rw [h1]
      exact ⟨fun a ha => by cases ha; exact h2, fun e he => by cases he⟩
    · subst hd
      intro s _
      exact ⟨fun a ha => (by cases ha), fun e he => (by cases he; rfl)⟩
  · refine Triple.seq (Q := fun _ _ => False) (Triple.seq (Q := fun _ _ => False) ?_ fun acc s hs => hs.elim) fun d s hs => hs.elim
    have hJ : ∀ acc : Frame F V × Dict F (List (Num K)), Triple (σ := Scored G F V) (fun _ => GoodAcc X fs acc)
        (PyM.fold fs (corruptStep R model M y X) acc) (fun _ _ => False) (fun e _ => e = .keyError) := fun acc =>
      Triple.fold_fails (J := fun acc (_ : Scored G F V) => GoodAcc X fs acc)
        (fun acc f hf => returns_corruptStep (B := fun e => e = .keyError) hR ha acc f hf (Or.inr rfl)) hf
        (fun acc => fails_corruptStep acc f hfX) acc
    have := Triple.fold_fails (J := fun acc (_ : Scored G F V) => GoodAcc X fs acc) (P := fun e _ => e = .keyError) (l := List.range nRepeat)
      (b := fun acc _ => PyM.fold fs (corruptStep R model M y X) acc) (fun acc _ _ => (hJ acc).vacuous) (List.mem_range.2 hn) hJ
      (X, fs.foldl (fun d f => d.set f []) [])
    exact this.weaken (fun _ _ => good_start) (fun _ _ h => h) (fun _ _ h => h)

end perf

end Artemis
