import Verif.Proofs.DataHeapLemmas

set_option linter.unusedSectionVars false
set_option linter.unusedVariables false
set_option linter.unusedSimpArgs false

/-!
# Lemmas for the additivity meter with frame objects
-/

namespace Artemis

variable {G L F V K : Type} [DecidableEq F] [DecidableEq L] [Field K] [LinearOrder K] [LinearOrder V]

theorem get?_fresh (X : LFrame L F V) (f : F) :
    (MFrame.fresh (K := K) X).cols.get? f = if f ∈ X.frame.cols then some (.copied (X.frame.col f)) else none := by
  unfold MFrame.fresh
  generalize X.frame.cols = cs
  induction cs with
  | nil => simp [Dict.get?]
  | cons c cs ih =>
    simp only [List.map_cons, Dict.get?]
    by_cases h : c = f
    · subst h; simp
    · have h' : ¬ f = c := fun e => h e.symm
      simp only at ih
      simp [h, h', ih]

theorem isData_fresh (X : LFrame L F V) : (MFrame.fresh (K := K) X).isData = true := by
  simp [MFrame.isData, MFrame.fresh]

/-- The heap state belonging to a state `t` of the meter on values, with the contents `full` of `full_result`; `xs`, `fr` are the unused
attributes. -/
def heapOf (mem0 : List (MFrame L F V K)) (b : LFrame L F V) (x : Nat) (xs : Option (LFrame L F V)) (fr : Option (Dict F (FullCol V K)))
    (t : AddSteps G L F V K) (full : Dict F (FullCol V K)) : AddH G L F V K :=
  ⟨mem0 ++ [⟨b, full⟩], some x, some mem0.length, { t with xSampled := xs, fullResult := fr }⟩

variable {mem0 : List (MFrame L F V K)} {b X : LFrame L F V} {x : Nat} {xs : Option (LFrame L F V)} {fr : Option (Dict F (FullCol V K))}

theorem assign_heapOf (t : AddSteps G L F V K) (full : Dict F (FullCol V K)) (f : F) (l : List (Num K)) :
    AddH.assign f l (heapOf mem0 b x xs fr t full) = (.ok (), heapOf mem0 b x xs fr t (full.set f (.computed l))) := by
  simp [AddH.assign, heapOf]

theorem column_heapOf (hx : mem0[x]? = some (MFrame.fresh X)) (preds : List (Num K)) {f : F} (hf : f ∈ X.frame.cols)
    (t : AddSteps G L F V K) (full : Dict F (FullCol V K)) {co : CalcObj L F V K} (hco : t.pdc = some co) :
    ∃ full', AddSteps.column X.frame preds f { t with fullResult := some full }
        = ((AddH.column preds f (heapOf mem0 b x xs fr t full)).1, { t with fullResult := some full' })
      ∧ (AddH.column preds f (heapOf mem0 b x xs fr t full)).2 = heapOf mem0 b x xs fr t full' := by
  have hg : (heapOf mem0 b x xs fr t full).x.bind (fun o => o.cols.get? f) = some (.copied (X.frame.col f)) := by
    simp only [AddH.x, heapOf, Option.bind_some, getElem?_ext hx, get?_fresh, hf, if_true]
  have hp : (heapOf mem0 b x xs fr t full).obj.pdc = some co := hco
  have hc : X.frame.colE f = .ok (X.frame.col f) := by simp [Frame.colE, hf]
  unfold AddH.column AddSteps.column
  simp only [hg, hp, hco, addColumn, hc, bind, Except.bind]
  cases co.obj.getSingle f (X.frame.col f) with
  | error e => exact ⟨full, by simp⟩
  | ok pd =>
    exact ⟨full.set f (.computed (pd.map fun x => Num.sub x (Num.mean preds))), by simp only [assign_heapOf], by simp only [assign_heapOf]⟩

theorem columns_heapOf (hx : mem0[x]? = some (MFrame.fresh X)) (preds : List (Num K)) (fs : List F) (hf : ∀ f ∈ fs, f ∈ X.frame.cols)
    (t : AddSteps G L F V K) {co : CalcObj L F V K} (hco : t.pdc = some co) : ∀ full : Dict F (FullCol V K),
    ∃ full', PyM.forEach fs (AddSteps.column X.frame preds) { t with fullResult := some full }
        = ((PyM.forEach fs (AddH.column preds) (heapOf mem0 b x xs fr t full)).1, { t with fullResult := some full' })
      ∧ (PyM.forEach fs (AddH.column preds) (heapOf mem0 b x xs fr t full)).2 = heapOf mem0 b x xs fr t full' := by
  induction fs with
  | nil => intro full; exact ⟨full, rfl, rfl⟩
  | cons f fs ih =>
    intro full
    obtain ⟨f1, e1, e2⟩ := column_heapOf (b := b) (xs := xs) (fr := fr) hx preds (hf f (by simp)) t full hco
    obtain ⟨f2, e3, e4⟩ := ih (fun f h => hf f (by simp [h])) f1
    rcases hh : AddH.column preds f (heapOf mem0 b x xs fr t full) with ⟨res, w⟩
    rw [hh] at e1 e2
    simp only at e1 e2
    subst e2
    cases res with
    | error e => exact ⟨f1, by simp [PyM.forEach, PyM.seq, e1, hh], by simp [PyM.forEach, PyM.seq, hh]⟩
    | ok u => exact ⟨f2, by simp only [PyM.forEach, PyM.seq, e1, hh]; exact e3, by simp only [PyM.forEach, PyM.seq, hh]; exact e4⟩

theorem last_heapOf (cp : F) (preds : List (Num K)) (t : AddSteps G L F V K) (full : Dict F (FullCol V K)) (Y : Frame F V) :
    ∃ full', AddSteps.last cp Y preds { t with fullResult := some full }
        = ((AddH.last cp Y.len preds (heapOf mem0 b x xs fr t full)).1, { t with fullResult := some full' })
      ∧ (AddH.last cp Y.len preds (heapOf mem0 b x xs fr t full)).2 = heapOf mem0 b x xs fr t full' := by
  unfold AddH.last AddSteps.last
  by_cases h : preds.length = Y.len
  · refine ⟨full.set cp (.computed (Num.center preds)), ?_, ?_⟩
    · simp only [h, if_true, PyM.seq, assign_heapOf]
      simp [heapOf]
    · simp only [h, if_true, PyM.seq, assign_heapOf]
      simp [heapOf]
  · exact ⟨full, by simp [h, PyM.raise]⟩

/-- the whole calculation, with a prediction function that changes nothing -/
theorem calculate_heapOf {touch : Frame F V → Frame F V} (ht : ∀ Y, touch Y = Y) (hx : mem0[x]? = some (MFrame.fresh X)) (cp : F)
    (pf : PF F V (Num K)) (t : AddSteps G L F V K) (full : Dict F (FullCol V K)) {co : CalcObj L F V K} (hco : t.pdc = some co) :
    ∃ t' full', AddSteps.calculate cp pf X.frame { t with fullResult := some full }
        = ((AddH.calculate cp pf touch (heapOf mem0 b x xs fr t full)).1, { t' with fullResult := some full' })
      ∧ (AddH.calculate cp pf touch (heapOf mem0 b x xs fr t full)).2 = heapOf mem0 b x xs fr t' full' ∧ t'.xSampled = t.xSampled := by
  unfold AddH.calculate AddSteps.calculate
  have hp : (heapOf mem0 b x xs fr t full).obj.pdc = some co := hco
  simp only [hp, hco]
  rcases Calc.calculateSingle none co.obj with ⟨res, c⟩
  cases res with
  | error e => exact ⟨{ t with pdc := some { co with obj := c } }, full, by simp, by simp [heapOf], rfl⟩
  | ok u =>
    have hxx : (heapOf mem0 b x xs fr t full).mem[x]? = some (MFrame.fresh X) := getElem?_ext hx
    have hxr : (heapOf mem0 b x xs fr t full).xRef = some x := rfl
    have hset : (heapOf mem0 b x xs fr t full).mem.set x (MFrame.fresh X) = (heapOf mem0 b x xs fr t full).mem := by
      obtain ⟨hl, e⟩ := List.getElem?_eq_some_iff.1 hxx
      rw [← e]; exact List.set_getElem_self hl
    have hb : (MFrame.fresh (K := K) X).base = X := rfl
    have hsame : ({ X with frame := touch X.frame } : LFrame L F V) = X := by rw [ht]
    simp only [hxr, Option.bind_some, hxx, Option.map_some, isData_fresh, if_true, hb, hsame, hset]
    cases pf c.calls.length X.frame.rows with
    | error e => exact ⟨{ t with pdc := some { co with obj := c } }, full, by simp, by simp [heapOf], rfl⟩
    | ok preds =>
      simp only
      let t1 : AddSteps G L F V K := { t with pdc := some { co with obj := c }, preds := some preds }
      obtain ⟨f1, e1, e2⟩ := columns_heapOf (b := b) (xs := xs) (fr := fr) hx preds X.frame.cols (fun _ h => h) t1 (co := { co with obj := c }) rfl full
      obtain ⟨f2, e3, e4⟩ := last_heapOf (mem0 := mem0) (b := b) (x := x) (xs := xs) (fr := fr) cp preds t1 f1 X.frame
      have eA : ∀ s : AddH G L F V K, s = heapOf mem0 b x xs fr t1 full →
          ∃ full', PyM.seq (PyM.forEach X.frame.cols (AddSteps.column X.frame preds)) (fun _ => AddSteps.last cp X.frame preds)
              { t1 with fullResult := some full }
            = ((PyM.seq (PyM.forEach X.frame.cols (AddH.column preds)) (fun _ => AddH.last cp X.frame.len preds) s).1,
                { t1 with fullResult := some full' })
          ∧ (PyM.seq (PyM.forEach X.frame.cols (AddH.column preds)) (fun _ => AddH.last cp X.frame.len preds) s).2
            = heapOf mem0 b x xs fr t1 full' := by
        rintro s rfl
        rcases hh : PyM.forEach X.frame.cols (AddH.column preds) (heapOf mem0 b x xs fr t1 full) with ⟨res, w⟩
        rw [hh] at e1 e2
        simp only at e1 e2
        subst e2
        cases res with
        | error e => exact ⟨f1, by simp only [PyM.seq, e1, hh], by simp only [PyM.seq, hh]⟩
        | ok u => exact ⟨f2, by simp only [PyM.seq, e1, hh]; exact e3, by simp only [PyM.seq, hh]; exact e4⟩
      obtain ⟨f3, e5, e6⟩ := eA _ (by simp only [heapOf]; rfl)
      exact ⟨t1, f3, e5, e6, rfl⟩

/-! ### Objects that are not touched -/

/-- `m` changes at most the objects `X_sampled` and `full_result`, and keeps the references. -/
def OnlyOwn {α : Type} (m : PyM (AddH G L F V K) α) : Prop :=
  ∀ s : AddH G L F V K, (m s).2.xRef = s.xRef ∧ (m s).2.fullRef = s.fullRef ∧
    ∀ o, s.xRef ≠ some o → s.fullRef ≠ some o → (m s).2.mem[o]? = s.mem[o]?

theorem OnlyOwn.seq {α β : Type} {h : PyM (AddH G L F V K) α} {k : α → PyM (AddH G L F V K) β} (h1 : OnlyOwn h) (h2 : ∀ a, OnlyOwn (k a)) :
    OnlyOwn (PyM.seq h k) := by
  intro s
  have a := h1 s
  unfold PyM.seq
  rcases hh : h s with ⟨res, w⟩
  rw [hh] at a
  obtain ⟨a1, a2, a3⟩ := a
  cases res with
  | error e => exact ⟨a1, a2, a3⟩
  | ok v =>
    obtain ⟨b1, b2, b3⟩ := h2 v w
    exact ⟨b1.trans a1, b2.trans a2, fun o p q => (b3 o (by rw [a1]; exact p) (by rw [a2]; exact q)).trans (a3 o p q)⟩

theorem OnlyOwn.assign (f : F) (l : List (Num K)) : OnlyOwn (AddH.assign f l : PyM (AddH G L F V K) _) := by
  rintro ⟨mem, xr, fr, obj⟩
  unfold AddH.assign
  cases fr with
  | none => simp
  | some r =>
    simp only [Option.bind_some]
    cases hm : mem[r]? with
    | none => simp
    | some o =>
      simp only [Option.map_some]
      refine ⟨trivial, trivial, fun o' _ h => ?_⟩
      have : r ≠ o' := fun e => h (by rw [e])
      simp [List.getElem?_set_ne this]

theorem OnlyOwn.id_of {α : Type} {m : PyM (AddH G L F V K) α} (h : ∀ s, (m s).2 = s) : OnlyOwn m := fun s => by rw [h]; simp

theorem OnlyOwn.column (preds : List (Num K)) (f : F) : OnlyOwn (AddH.column preds f : PyM (AddH G L F V K) _) := by
  intro s
  unfold AddH.column
  split
  · split
    · simp
    · exact OnlyOwn.assign _ _ s
  all_goals simp

theorem OnlyOwn.forEach {β : Type} (l : List β) {h : β → PyM (AddH G L F V K) Unit} (hb : ∀ b, OnlyOwn (h b)) : OnlyOwn (PyM.forEach l h) := by
  induction l with
  | nil => exact OnlyOwn.id_of fun _ => rfl
  | cons b l ih => exact (hb b).seq fun _ => ih

theorem OnlyOwn.last (cp : F) (n : Nat) (preds : List (Num K)) : OnlyOwn (AddH.last cp n preds : PyM (AddH G L F V K) _) := by
  unfold AddH.last
  split
  · refine (OnlyOwn.assign _ _).seq fun _ => OnlyOwn.id_of fun s => ?_
    split <;> rfl
  · exact OnlyOwn.id_of fun _ => rfl

theorem OnlyOwn.calculate (cp : F) (pf : PF F V (Num K)) (touch : Frame F V → Frame F V) :
    OnlyOwn (AddH.calculate cp pf touch : PyM (AddH G L F V K) _) := by
  rintro ⟨mem, xr, fr, obj⟩
  unfold AddH.calculate
  cases obj.pdc with
  | none => simp
  | some co =>
    simp only
    rcases Calc.calculateSingle none co.obj with ⟨res, c⟩
    cases res with
    | error e => simp
    | ok u =>
      simp only
      cases xr with
      | none => simp
      | some r =>
        simp only [Option.bind_some]
        cases hm : mem[r]? with
        | none => simp
        | some o =>
          simp only [Option.map_some]
          have hne : ∀ (o' : Nat) (z : MFrame L F V K), some r ≠ some o' → (mem.set r z)[o']? = mem[o']? := by
            intro o' z h
            exact List.getElem?_set_ne (fun e => h (by rw [e]))
          by_cases hd : o.isData = true
          · simp only [hd, if_true]
            cases pf c.calls.length o.base.frame.rows with
            | error e => exact ⟨rfl, rfl, fun o' h _ => hne o' _ h⟩
            | ok preds =>
              obtain ⟨b1, b2, b3⟩ := ((OnlyOwn.forEach o.base.frame.cols (OnlyOwn.column (G := G) (L := L) (V := V) preds)).seq fun _ =>
                OnlyOwn.last cp o.base.frame.len preds) ⟨mem.set r (MFrame.fresh { o.base with frame := touch o.base.frame }), some r, fr,
                  { obj with pdc := some { co with obj := c }, preds := some preds }⟩
              exact ⟨b1, b2, fun o' h h' => (b3 o' h h').trans (hne o' _ h)⟩
          · simp only [hd]; exact ⟨rfl, rfl, fun _ _ _ => rfl⟩

end Artemis
