import Verif.Model.PdHeap
import Verif.Proofs.ShapeAny

/-!
# Helper lemmas: the partial dependence code on frame objects does what it does on values
-/

set_option linter.unusedSectionVars false
set_option linter.unusedVariables false
set_option linter.unusedSimpArgs false

namespace Artemis

section
variable {G L F V K : Type} [DecidableEq F] [LinearOrder V] [Field K] [LinearOrder K]

/-- the frame of the calculator is what it was at construction -/
def PdMem.Held (s : PdMem L F V K) : Prop := (s.mem[s.xr]?).map (·.frame) = some s.c.X

/-- code on objects that computes what the code on values computes and leaves all existing objects alone -/
def Lifts {σH σ α : Type} (p : σH → PdMem L F V K) (q : σH → σ) (mH : PyM σH α) (m : PyM σ α) : Prop :=
  ∀ s, (p s).Held → (mH s).1 = (m (q s)).1 ∧ q (mH s).2 = (m (q s)).2 ∧ (p (mH s).2).xr = (p s).xr ∧ (p (mH s).2).Held ∧
    ∃ new, (p (mH s).2).mem = (p s).mem ++ new

section generic
variable {σH σ α β : Type} {p : σH → PdMem L F V K} {q : σH → σ}

theorem Lifts.seq {mH : PyM σH α} {m : PyM σ α} {kH : α → PyM σH β} {k : α → PyM σ β} (h : Lifts p q mH m) (hk : ∀ a, Lifts p q (kH a) (k a)) :
    Lifts p q (PyM.seq mH kH) (PyM.seq m k) := by
  intro s hs
  obtain ⟨h1, h2, h3, h4, new, h5⟩ := h s hs
  unfold PyM.seq
  cases e : mH s with
  | mk r s' =>
    rw [e] at h1 h2 h3 h4 h5
    cases e' : m (q s) with
    | mk r' t' =>
      rw [e'] at h1 h2
      simp only at h1 h2 h3 h4 h5
      subst h1 h2
      cases r with
      | error er => exact ⟨rfl, rfl, h3, h4, new, h5⟩
      | ok a =>
        obtain ⟨g1, g2, g3, g4, new', g5⟩ := hk a s' h4
        exact ⟨g1, g2, g3.trans h3, g4, new ++ new', by rw [g5, h5, List.append_assoc]⟩

theorem Lifts.ret (a : α) : Lifts p q (PyM.ret a) (PyM.ret a) := fun s hs => ⟨rfl, rfl, rfl, hs, [], by simp [PyM.ret]⟩

theorem Lifts.forEach {as : List α} {bH : α → PyM σH Unit} {b : α → PyM σ Unit} (h : ∀ a, Lifts p q (bH a) (b a)) :
    Lifts p q (PyM.forEach as bH) (PyM.forEach as b) := by
  induction as with
  | nil => exact Lifts.ret ()
  | cons a as ih => exact Lifts.seq (h a) fun _ => ih

end generic

/-- the view of a calculator in memory -/
abbrev LiftsC {α : Type} (mH : PyM (PdMem L F V K) α) (m : PyM (Calc F V (Num K)) α) : Prop := Lifts id PdMem.c mH m
/-- the same inside a loop -/
abbrev LiftsR {κ α : Type} (mH : PyM (RunH κ L F V K) α) (m : PyM (Run κ F V (Num K)) α) : Prop :=
  Lifts (σH := RunH κ L F V K) Prod.fst (fun s => (s.1.c, s.2)) mH m

theorem held_append {s : PdMem L F V K} (hs : s.Held) (new : List (LFrame L F V)) (c : Calc F V (Num K)) (hX : c.X = s.c.X) :
    (⟨s.mem ++ new, c, s.xr⟩ : PdMem L F V K).Held := by
  unfold PdMem.Held at hs ⊢
  simp only
  cases e : s.mem[s.xr]? with
  | none => rw [e] at hs; cases hs
  | some X => rw [List.getElem?_append_left (List.getElem?_eq_some_iff.1 e).1, e, hX, ← hs, e]

theorem held_mem {s : PdMem L F V K} (hs : s.Held) : ∃ lab, s.mem[s.xr]? = some ⟨lab, s.c.X⟩ := by
  unfold PdMem.Held at hs
  cases e : s.mem[s.xr]? with
  | none => rw [e] at hs; cases hs
  | some X =>
    rw [e] at hs
    simp only [Option.map_some, Option.some.injEq] at hs
    exact ⟨X.labels, by rw [← hs]⟩

theorem lifts_tables {α : Type} {m : PyM (Calc F V (Num K)) α} (hm : ∀ c, (m c).2.X = c.X) :
    LiftsC (L := L) (PdMem.onTables m) m := by
  intro s hs
  refine ⟨rfl, rfl, rfl, ?_, [], by simp [PdMem.onTables]⟩
  have := held_append hs [] (m s.c).2 (hm s.c)
  simp only [List.append_nil] at this
  exact this

theorem storeSingle_X (y : List (Num K)) (e : (F × V) × (Nat × Nat)) (c : Calc F V (Num K)) : (Calc.storeSingle y e c).2.X = c.X := by
  unfold Calc.storeSingle
  cases c.pdSingle.get? e.1.1 with
  | none => rfl
  | some t => simp only; cases getIndex t.fValues e.1.2 <;> rfl

theorem storePair_X (y : List (Num K)) (e : ((F × F) × (V × V)) × (Nat × Nat)) (c : Calc F V (Num K)) : (Calc.storePair y e c).2.X = c.X := by
  unfold Calc.storePair
  cases c.pdPairs.get? e.1.1 with
  | none => rfl
  | some t =>
    simp only
    cases getIndex t.f1Values e.1.2.1 with
    | error _ => rfl
    | ok i => simp only; cases getIndex t.f2Values e.1.2.2 <;> rfl

theorem storeMinus_X (y : List (Num K)) (e : (F × Nat) × (Nat × Nat)) (c : Calc F V (Num K)) : (Calc.storeMinus y e c).2.X = c.X := by
  unfold Calc.storeMinus
  cases c.pdMinus.get? e.1.1 <;> rfl

variable {touch : Frame F V → Frame F V}

theorem lifts_ask (rows : List (Row F V)) : LiftsC (L := L) (K := K) (PdMem.ask touch rows) (Calc.callPredict rows) := by
  intro s hs
  obtain ⟨lab, hm⟩ := held_mem (s := s) hs
  have e : PdMem.ask touch rows s = (s.c.predict s.c.calls.length rows,
      { s with c := { s.c with calls := s.c.calls ++ [rows] }, mem := s.mem ++ [⟨[], touch ⟨s.c.X.cols, rows⟩⟩] }) := by
    simp only [PdMem.ask, PdMem.withX, hm]
  rw [e]
  exact ⟨rfl, rfl, rfl, held_append hs _ _ rfl, _, rfl⟩

theorem lifts_fillSingle (l : Loc (F × V) F V) : LiftsC (L := L) (K := K) (PdMem.fillSingle touch l) (Calc.fillSingle l) :=
  Lifts.seq (lifts_ask _) fun y => Lifts.forEach fun e => lifts_tables (storeSingle_X y e)

theorem lifts_fillPairs (l : Loc ((F × F) × (V × V)) F V) : LiftsC (L := L) (K := K) (PdMem.fillPairs touch l) (Calc.fillPairs l) :=
  Lifts.seq (lifts_ask _) fun y => Lifts.forEach fun e => lifts_tables (storePair_X y e)

theorem lifts_fillMinus (l : Loc (F × Nat) F V) : LiftsC (L := L) (K := K) (PdMem.fillMinus touch l) (Calc.fillMinus l) :=
  Lifts.seq (lifts_ask _) fun y => Lifts.forEach fun e => lifts_tables (storeMinus_X y e)

section runs
variable {κ : Type} {fillH : Loc κ F V → PyM (PdMem L F V K) Unit} {fill : Loc κ F V → PyM (Calc F V (Num K)) Unit}

theorem lifts_flush (hf : ∀ l, LiftsC (fillH l) (fill l)) : LiftsR (flushH fillH) (flush fill) := by
  rintro ⟨s, l⟩ hs
  obtain ⟨h1, h2, h3, h4, new, h5⟩ := hf l s hs
  simp only [flushH, flush]
  cases e : fillH l s with
  | mk r s' =>
    rw [e] at h1 h2 h3 h4 h5
    cases e' : fill l s.c with
    | mk r' t' =>
      rw [e'] at h1 h2
      simp only [id] at h1 h2 h3 h4 h5
      subst h1 h2
      cases r with
      | ok _ => exact ⟨rfl, rfl, h3, h4, new, h5⟩
      | error _ => exact ⟨rfl, rfl, h3, h4, new, h5⟩

theorem lifts_noop : LiftsR (κ := κ) (L := L) (F := F) (V := V) (K := K) (fun s => (.ok (), s)) (fun s => (.ok (), s)) := Lifts.ret ()

theorem lifts_flushIfFull (hf : ∀ l, LiftsC (fillH l) (fill l)) : LiftsR (flushIfFullH fillH) (flushIfFull fill) := by
  rintro ⟨s, l⟩ hs
  simp only [flushIfFullH, flushIfFull]
  by_cases h : (l.curLen : Int) > s.c.batchsize
  · rw [if_pos h, if_pos h]; exact lifts_flush hf (s, l) hs
  · rw [if_neg h, if_neg h]; exact lifts_noop (s, l) hs

theorem lifts_flushRest (hf : ∀ l, LiftsC (fillH l) (fill l)) : LiftsR (flushRestH fillH) (flushRest fill) := by
  rintro ⟨s, l⟩ hs
  simp only [flushRestH, flushRest]
  by_cases h : l.curLen > 0
  · rw [if_pos h, if_pos h]; exact lifts_flush hf (s, l) hs
  · rw [if_neg h, if_neg h]; exact lifts_noop (s, l) hs

theorem lifts_withLoc {bH : PyM (RunH κ L F V K) Unit} {b : PyM (Run κ F V (Num K)) Unit} (h : LiftsR bH b) : LiftsC (withLocH bH) (withLoc b) := by
  intro s hs
  obtain ⟨h1, h2, h3, h4, h5⟩ := h (s, Loc.empty) hs
  refine ⟨h1, ?_, h3, h4, h5⟩
  exact congrArg Prod.fst h2

theorem fails_lifts {r : RunH κ L F V K} (hs : r.1.Held) (e : Err) :
    (Except.error e : Except Err Unit) = .error e ∧ ((r.1.c, r.2) : Run κ F V (Num K)) = (r.1.c, r.2) ∧ r.1.xr = r.1.xr ∧ r.1.Held ∧
      ∃ new, r.1.mem = r.1.mem ++ new := ⟨rfl, rfl, rfl, hs, [], by simp⟩

end runs

theorem lifts_singleBody (f : F) : LiftsR (L := L) (K := K) (PdMem.singleBody touch f) (Calc.singleBody f) := by
  rintro ⟨s, l⟩ hs
  obtain ⟨lab, hm⟩ := held_mem (s := s) hs
  simp only [PdMem.singleBody, Calc.singleBody]
  cases s.c.pdSingle.get? f with
  | none => exact ⟨rfl, rfl, rfl, hs, [], by simp⟩
  | some t =>
    simp only
    by_cases h : t.pdValues.any Flt.isNaN = true
    · rw [if_pos h, if_pos h]
      simp only [RunH.withX, hm]
      exact lifts_flushIfFull lifts_fillSingle (s, _) hs
    · rw [if_neg h, if_neg h]; exact ⟨rfl, rfl, rfl, hs, [], by simp⟩

theorem lifts_minusBody (f : F) : LiftsR (L := L) (K := K) (PdMem.minusBody touch f) (Calc.minusBody f) := by
  rintro ⟨s, l⟩ hs
  obtain ⟨lab, hm⟩ := held_mem (s := s) hs
  simp only [PdMem.minusBody, Calc.minusBody]
  cases s.c.pdMinus.get? f with
  | none => exact ⟨rfl, rfl, rfl, hs, [], by simp⟩
  | some t =>
    simp only
    by_cases h : t.any Flt.isNaN = true
    · rw [if_pos h, if_pos h]
      simp only [RunH.withX, hm]
      exact lifts_flushIfFull lifts_fillMinus (s, _) hs
    · rw [if_neg h, if_neg h]; exact ⟨rfl, rfl, rfl, hs, [], by simp⟩

theorem lifts_pairValueBody (k : F × F) (v : V × V) : LiftsR (L := L) (K := K) (PdMem.pairValueBody touch k v) (Calc.pairValueBody k v) := by
  rintro ⟨s, l⟩ hs
  obtain ⟨lab, hm⟩ := held_mem (s := s) hs
  simp only [PdMem.pairValueBody, Calc.pairValueBody]
  cases s.c.pdPairs.get? k with
  | none => exact ⟨rfl, rfl, rfl, hs, [], by simp⟩
  | some t =>
    simp only
    cases getIndex t.f1Values v.1 with
    | error _ => exact ⟨rfl, rfl, rfl, hs, [], by simp⟩
    | ok i =>
      simp only
      cases getIndex t.f2Values v.2 with
      | error _ => exact ⟨rfl, rfl, rfl, hs, [], by simp⟩
      | ok j =>
        simp only
        cases (t.pdValues[i]?).bind (fun row => row[j]?) with
        | none => exact ⟨rfl, rfl, rfl, hs, [], by simp⟩
        | some x =>
          simp only
          by_cases h : Flt.isNaN x = true
          · rw [if_pos h, if_pos h]
            simp only [RunH.withX, hm]
            exact lifts_flushIfFull lifts_fillPairs (s, _) hs
          · rw [if_neg h, if_neg h]; exact ⟨rfl, rfl, rfl, hs, [], by simp⟩

theorem pairValues_same (c : Calc F V (Num K)) (all : Bool) (k : F × F) : PdMem.pairValues c.X c all k = c.pairValues all k := by
  unfold PdMem.pairValues Calc.pairValues
  by_cases h : all = true
  · rw [if_pos h, if_pos h]; cases c.pdPairs.get? k <;> rfl
  · rw [if_neg h, if_neg h]

theorem lifts_pairBody (all : Bool) (k : F × F) : LiftsR (L := L) (K := K) (PdMem.pairBody touch all k) (Calc.pairBody all k) := by
  rintro ⟨s, l⟩ hs
  obtain ⟨lab, hm⟩ := held_mem (s := s) hs
  simp only [PdMem.pairBody, Calc.pairBody, RunH.withX, hm, pairValues_same]
  cases s.c.pairValues all (s.c.pairKey k) with
  | error _ => exact ⟨rfl, rfl, rfl, hs, [], by simp⟩
  | ok vs => exact Lifts.forEach (lifts_pairValueBody _) (s, l) hs

theorem lifts_single (features : Option (List F)) :
    LiftsC (L := L) (K := K) (PdMem.calculateSingle touch features) (Calc.calculateSingle features) := by
  intro s hs
  obtain ⟨lab, hm⟩ := held_mem (s := s) hs
  simp only [PdMem.calculateSingle, Calc.calculateSingle, PdMem.withX, hm]
  exact lifts_withLoc (Lifts.seq (Lifts.forEach lifts_singleBody) fun _ => lifts_flushRest lifts_fillSingle) s hs

theorem lifts_minus (features : Option (List F)) :
    LiftsC (L := L) (K := K) (PdMem.calculateMinus touch features) (Calc.calculateMinus features) := by
  intro s hs
  obtain ⟨lab, hm⟩ := held_mem (s := s) hs
  simp only [PdMem.calculateMinus, Calc.calculateMinus, PdMem.withX, hm]
  exact lifts_withLoc (Lifts.seq (Lifts.forEach lifts_minusBody) fun _ => lifts_flushRest lifts_fillMinus) s hs

theorem lifts_pairs (ps : Option (List (F × F))) (all : Bool) :
    LiftsC (L := L) (K := K) (PdMem.calculatePairs touch ps all) (Calc.calculatePairs ps all) := by
  intro s hs
  simp only [PdMem.calculatePairs, Calc.calculatePairs]
  exact lifts_withLoc (Lifts.seq (Lifts.forEach (lifts_pairBody all)) fun _ => lifts_flushRest lifts_fillPairs) s hs


/-! ### The methods -/

/-- `Lifts` for code that also reads the object `xs`. -/
def LiftsAt {α : Type} (xs : Nat) (Xs : LFrame L F V) (mH : PyM (PdMem L F V K) α) (m : PyM (Calc F V (Num K)) α) : Prop :=
  ∀ s, s.Held → s.mem[xs]? = some Xs → (mH s).1 = (m s.c).1 ∧ (mH s).2.c = (m s.c).2 ∧ (mH s).2.xr = s.xr ∧ (mH s).2.Held ∧
    ∃ new, (mH s).2.mem = s.mem ++ new

section methods
variable {xs : Nat} {Xs : LFrame L F V} {α β : Type}

theorem LiftsAt.of {mH : PyM (PdMem L F V K) α} {m : PyM (Calc F V (Num K)) α} (h : LiftsC mH m) : LiftsAt xs Xs mH m := fun s hs _ => h s hs

theorem getElem?_grown {s s' : List (LFrame L F V)} (h : ∃ new, s' = s ++ new) (hx : s[xs]? = some Xs) : s'[xs]? = some Xs := by
  obtain ⟨new, rfl⟩ := h
  rw [List.getElem?_append_left (List.getElem?_eq_some_iff.1 hx).1, hx]

theorem LiftsAt.seq {mH : PyM (PdMem L F V K) α} {m : PyM (Calc F V (Num K)) α} {kH : α → PyM (PdMem L F V K) β} {k : α → PyM (Calc F V (Num K)) β}
    (h : LiftsAt xs Xs mH m) (hk : ∀ a, LiftsAt xs Xs (kH a) (k a)) : LiftsAt xs Xs (PyM.seq mH kH) (PyM.seq m k) := by
  intro s hs hx
  obtain ⟨h1, h2, h3, h4, h5⟩ := h s hs hx
  unfold PyM.seq
  cases e : mH s with
  | mk r s' =>
    rw [e] at h1 h2 h3 h4 h5
    cases e' : m s.c with
    | mk r' t' =>
      rw [e'] at h1 h2
      simp only at h1 h2 h3 h4 h5
      subst h1 h2
      cases r with
      | error er => exact ⟨rfl, rfl, h3, h4, h5⟩
      | ok a =>
        obtain ⟨g1, g2, g3, g4, new', g5⟩ := hk a s' h4 (getElem?_grown h5 hx)
        obtain ⟨new, h5⟩ := h5
        exact ⟨g1, g2, g3.trans h3, g4, new ++ new', by rw [g5, h5, List.append_assoc]⟩

/-- code that only reads the tables and the frame -/
theorem liftsAt_read (f : Frame F V → Calc F V (Num K) → Except Err α) :
    LiftsAt xs Xs (PdMem.frameOf xs fun X s => (f X s.c, s)) (fun c => (f Xs.frame c, c)) := by
  intro s hs hx
  have e : PdMem.frameOf xs (fun X s => (f X s.c, s)) s = (f Xs.frame s.c, s) := by simp only [PdMem.frameOf, hx]
  rw [e]
  exact ⟨rfl, rfl, rfl, hs, [], by simp⟩

theorem liftsAt_tables (f : Calc F V (Num K) → Except Err α) :
    LiftsAt xs Xs (fun s => (f s.c, s)) (fun c => (f c, c)) := fun s hs hx => ⟨rfl, rfl, rfl, hs, [], by simp⟩

variable [HasSqrt K]

theorem liftsAt_ovo (kind : PdKind) (E : PdEnv G F K) (fs : List F) (ps : List (F × F)) :
    LiftsAt xs Xs (kind.ovoH E touch xs fs ps) (kind.ovo E Xs.frame fs ps) := by
  cases kind with
  | friedman nrm =>
    exact LiftsAt.seq (.of (lifts_pairs _ _)) fun _ => LiftsAt.seq (.of (lifts_single _)) fun _ =>
      liftsAt_read fun X c => match ps.mapM (hstatPair nrm X c) with
        | .error e => .error e
        | .ok rows => .ok ((E.sortOvo rows).map OvoRow.fillna)
  | greenwell =>
    exact LiftsAt.seq (.of (lifts_pairs _ _)) fun _ =>
      liftsAt_tables fun c => match ps.mapM (greenwellPair (numIn E fs) c) with
        | .error e => .error e
        | .ok rows => .ok ((E.sortOvo rows).map OvoRow.fillna)

theorem liftsAt_importance (sort : List (FeatRow F K) → List (FeatRow F K)) (numeric : F → Bool) (fs : List F) :
    LiftsAt xs Xs (PdMem.pdpImportance touch sort numeric fs) (pdpImportance sort numeric fs) :=
  LiftsAt.seq (.of (lifts_single _)) fun _ =>
    liftsAt_tables fun c => match fs.mapM (calcImportance numeric c) with
      | .error e => .error e
      | .ok rows => .ok ((sort rows).map FeatRow.fillna)

theorem list_set_same {γ : Type} {l : List γ} {i : Nat} {x : γ} (h : l[i]? = some x) : l.set i x = l := by
  obtain ⟨hlt, rfl⟩ := List.getElem?_eq_some_iff.1 h
  exact List.set_getElem_self hlt

theorem liftsAt_ova (ht : ∀ Y, touch Y = Y) (sort : List (FeatRow F K) → List (FeatRow F K)) (predict : PF F V (Num K)) (nrm : Bool) (fs : List F) :
    LiftsAt xs Xs (PdMem.hstatOva touch xs sort predict nrm fs) (hstatOva sort predict nrm Xs.frame fs) := by
  refine LiftsAt.seq (.of (lifts_minus _)) fun _ => ?_
  intro s hs hx
  have ea : PdMem.askAbout touch xs predict s = (predict s.c.calls.length Xs.frame.rows, s) := by
    simp only [PdMem.askAbout, hx, ht]
    have : s.mem.set xs { Xs with frame := Xs.frame } = s.mem := list_set_same hx
    rw [this]
  simp only [PyM.seq, ea]
  cases predict s.c.calls.length Xs.frame.rows with
  | error e => exact ⟨rfl, rfl, rfl, hs, [], by simp⟩
  | ok preds =>
    simp only
    exact liftsAt_read (fun X c => match fs.mapM (hstatFeature nrm X preds c) with
        | .error e => .error e
        | .ok rows => .ok ((sort rows).map FeatRow.fillna)) s hs hx

/-- On the calculator of the method. -/
theorem onCalc_lifts {mH : PyM (PdMem L F V K) α} {m : PyM (Calc F V (Num K)) α} (h : LiftsAt xs Xs mH m) {s : PdFitH G L F V K} {t : PdpMethod G L F V K}
    {i xr : Nat} {co : CalcObj L F V K} (hs : s.pdc = some (i, xr, co.obj)) (ht : t.pdc = some co)
    (hh : (⟨s.mem, co.obj, xr⟩ : PdMem L F V K).Held) (hx : s.mem[xs]? = some Xs) :
    ∃ r c' ext, PdFitH.onCalc mH s = (r, { s with mem := s.mem ++ ext, pdc := some (i, xr, c') }) ∧
      PdpMethod.onCalc m t = (r, { t with pdc := some { co with obj := c' } }) ∧
      (⟨s.mem ++ ext, c', xr⟩ : PdMem L F V K).Held ∧ (s.mem ++ ext)[xs]? = some Xs := by
  obtain ⟨h1, h2, h3, h4, new, h5⟩ := h _ hh hx
  unfold PdFitH.onCalc PdpMethod.onCalc
  simp only [hs, ht]
  cases e : mH ⟨s.mem, co.obj, xr⟩ with
  | mk r s' =>
    rw [e] at h1 h2 h3 h4 h5
    cases e' : m co.obj with
    | mk r' c' =>
      rw [e'] at h1 h2
      simp only at h1 h2 h3 h4 h5
      subst h1 h2
      obtain ⟨mem', c', xr'⟩ := s'
      simp only at h3 h5
      subst h3 h5
      exact ⟨r, c', new, rfl, rfl, h4, getElem?_grown ⟨new, rfl⟩ hx⟩

end methods

/-! ### Memory only grows, whatever the calculator's frame is -/

/-- code that creates objects but changes none -/
def Grows {σ α : Type} (p : σ → PdMem L F V K) (m : PyM σ α) : Prop := ∀ s, ∃ new, (p (m s).2).mem = (p s).mem ++ new

section grows
variable {σ α β κ : Type} {p : σ → PdMem L F V K}

theorem Grows.seq {m : PyM σ α} {k : α → PyM σ β} (h : Grows p m) (hk : ∀ a, Grows p (k a)) : Grows p (PyM.seq m k) := by
  intro s
  obtain ⟨new, h⟩ := h s
  unfold PyM.seq
  cases e : m s with
  | mk r s' =>
    rw [e] at h
    cases r with
    | error er => exact ⟨new, h⟩
    | ok a =>
      obtain ⟨new', h'⟩ := hk a s'
      exact ⟨new ++ new', by simp only [h']; rw [h, List.append_assoc]⟩

theorem Grows.same {m : PyM σ α} (h : ∀ s, (p (m s).2).mem = (p s).mem) : Grows p m := fun s => ⟨[], by rw [h s]; simp⟩

theorem Grows.forEach {as : List α} {b : α → PyM σ Unit} (h : ∀ a, Grows p (b a)) : Grows p (PyM.forEach as b) := by
  induction as with
  | nil => exact .same fun _ => rfl
  | cons a as ih => exact .seq (h a) fun _ => ih

/-- growth of a calculator's memory -/
abbrev GrowsC (m : PyM (PdMem L F V K) α) : Prop := Grows id m
/-- growth inside a loop -/
abbrev GrowsR (m : PyM (RunH κ L F V K) α) : Prop := Grows (σ := RunH κ L F V K) Prod.fst m

theorem grows_tables (m : PyM (Calc F V (Num K)) α) : GrowsC (L := L) (PdMem.onTables m) := .same fun _ => rfl

theorem grows_withX {k : Frame F V → PyM (PdMem L F V K) α} (h : ∀ X, GrowsC (k X)) : GrowsC (PdMem.withX k) := by
  intro s
  unfold PdMem.withX
  cases s.mem[s.xr]? with
  | none => exact ⟨[], by simp⟩
  | some X => exact h _ s

theorem grows_runX {k : Frame F V → PyM (RunH κ L F V K) α} (h : ∀ X, GrowsR (k X)) : GrowsR (RunH.withX k) := by
  intro s
  unfold RunH.withX
  cases s.1.mem[s.1.xr]? with
  | none => exact ⟨[], by simp⟩
  | some X => exact h _ s

theorem grows_ask (rows : List (Row F V)) : GrowsC (L := L) (K := K) (PdMem.ask touch rows) := grows_withX fun X s => ⟨_, rfl⟩

theorem grows_flush {fillH : Loc κ F V → PyM (PdMem L F V K) Unit} (hf : ∀ l, GrowsC (fillH l)) : GrowsR (flushH fillH) := by
  rintro ⟨s, l⟩
  obtain ⟨new, h⟩ := hf l s
  simp only [flushH]
  cases e : fillH l s with
  | mk r s' => rw [e] at h; cases r <;> exact ⟨new, h⟩

theorem grows_flushIfFull {fillH : Loc κ F V → PyM (PdMem L F V K) Unit} (hf : ∀ l, GrowsC (fillH l)) : GrowsR (flushIfFullH fillH) := by
  rintro ⟨s, l⟩
  simp only [flushIfFullH]
  by_cases h : (l.curLen : Int) > s.c.batchsize
  · rw [if_pos h]; exact grows_flush hf (s, l)
  · rw [if_neg h]; exact ⟨[], by simp⟩

theorem grows_flushRest {fillH : Loc κ F V → PyM (PdMem L F V K) Unit} (hf : ∀ l, GrowsC (fillH l)) : GrowsR (flushRestH fillH) := by
  rintro ⟨s, l⟩
  simp only [flushRestH]
  by_cases h : l.curLen > 0
  · rw [if_pos h]; exact grows_flush hf (s, l)
  · rw [if_neg h]; exact ⟨[], by simp⟩

theorem grows_withLoc {b : PyM (RunH κ L F V K) Unit} (h : GrowsR b) : GrowsC (withLocH b) := fun s => h (s, Loc.empty)

theorem grows_fillSingle (l : Loc (F × V) F V) : GrowsC (L := L) (K := K) (PdMem.fillSingle touch l) :=
  .seq (grows_ask _) fun _ => .forEach fun _ => grows_tables _
theorem grows_fillPairs (l : Loc ((F × F) × (V × V)) F V) : GrowsC (L := L) (K := K) (PdMem.fillPairs touch l) :=
  .seq (grows_ask _) fun _ => .forEach fun _ => grows_tables _
theorem grows_fillMinus (l : Loc (F × Nat) F V) : GrowsC (L := L) (K := K) (PdMem.fillMinus touch l) :=
  .seq (grows_ask _) fun _ => .forEach fun _ => grows_tables _

theorem grows_step {fillH : Loc κ F V → PyM (PdMem L F V K) Unit} (hf : ∀ l, GrowsC (fillH l)) (g : Frame F V → RunH κ L F V K → Loc κ F V) :
    GrowsR (RunH.withX fun X s => flushIfFullH fillH (s.1, g X s)) := grows_runX fun X s => grows_flushIfFull hf (s.1, g X s)

theorem grows_singleBody (f : F) : GrowsR (L := L) (K := K) (PdMem.singleBody touch f) := by
  intro s
  simp only [PdMem.singleBody]
  cases s.1.c.pdSingle.get? f with
  | none => exact ⟨[], by simp⟩
  | some t =>
    simp only
    by_cases h : t.pdValues.any Flt.isNaN = true
    · rw [if_pos h]; exact grows_step grows_fillSingle _ s
    · rw [if_neg h]; exact ⟨[], by simp⟩

theorem grows_minusBody (f : F) : GrowsR (L := L) (K := K) (PdMem.minusBody touch f) := by
  intro s
  simp only [PdMem.minusBody]
  cases s.1.c.pdMinus.get? f with
  | none => exact ⟨[], by simp⟩
  | some t =>
    simp only
    by_cases h : t.any Flt.isNaN = true
    · rw [if_pos h]; exact grows_step grows_fillMinus _ s
    · rw [if_neg h]; exact ⟨[], by simp⟩

theorem grows_pairValueBody (k : F × F) (v : V × V) : GrowsR (L := L) (K := K) (PdMem.pairValueBody touch k v) := by
  intro s
  simp only [PdMem.pairValueBody]
  cases s.1.c.pdPairs.get? k with
  | none => exact ⟨[], by simp⟩
  | some t =>
    simp only
    cases getIndex t.f1Values v.1 with
    | error _ => exact ⟨[], by simp⟩
    | ok i =>
      simp only
      cases getIndex t.f2Values v.2 with
      | error _ => exact ⟨[], by simp⟩
      | ok j =>
        simp only
        cases (t.pdValues[i]?).bind (fun row => row[j]?) with
        | none => exact ⟨[], by simp⟩
        | some x =>
          simp only
          by_cases h : Flt.isNaN x = true
          · rw [if_pos h]; exact grows_step grows_fillPairs _ s
          · rw [if_neg h]; exact ⟨[], by simp⟩

theorem grows_pairBody (all : Bool) (k : F × F) : GrowsR (L := L) (K := K) (PdMem.pairBody touch all k) := by
  refine grows_runX fun X s => ?_
  cases PdMem.pairValues X s.1.c all (s.1.c.pairKey k) with
  | error _ => exact ⟨[], by simp⟩
  | ok vs => exact Grows.forEach (grows_pairValueBody _) s

theorem grows_single (fs : Option (List F)) : GrowsC (L := L) (K := K) (PdMem.calculateSingle touch fs) :=
  grows_withX fun X => grows_withLoc (.seq (.forEach grows_singleBody) fun _ => grows_flushRest grows_fillSingle)
theorem grows_minus (fs : Option (List F)) : GrowsC (L := L) (K := K) (PdMem.calculateMinus touch fs) :=
  grows_withX fun X => grows_withLoc (.seq (.forEach grows_minusBody) fun _ => grows_flushRest grows_fillMinus)
theorem grows_pairs (ps : Option (List (F × F))) (all : Bool) : GrowsC (L := L) (K := K) (PdMem.calculatePairs touch ps all) := fun s =>
  grows_withLoc (.seq (.forEach (grows_pairBody all)) fun _ => grows_flushRest grows_fillPairs) s

theorem grows_frameOf {r : Nat} {k : Frame F V → PyM (PdMem L F V K) α} (h : ∀ X, GrowsC (k X)) : GrowsC (PdMem.frameOf r k) := by
  intro s
  unfold PdMem.frameOf
  cases s.mem[r]? with
  | none => exact ⟨[], by simp⟩
  | some X => exact h _ s

variable [HasSqrt K] {xs : Nat}

theorem grows_ovo (kind : PdKind) (E : PdEnv G F K) (fs : List F) (ps : List (F × F)) : GrowsC (L := L) (kind.ovoH E touch xs fs ps) := by
  cases kind with
  | friedman nrm => exact .seq (grows_pairs _ _) fun _ => .seq (grows_single _) fun _ => grows_frameOf fun X => .same fun _ => rfl
  | greenwell => exact .seq (grows_pairs _ _) fun _ => .same fun _ => rfl

theorem grows_importance (sort : List (FeatRow F K) → List (FeatRow F K)) (numeric : F → Bool) (fs : List F) :
    GrowsC (L := L) (PdMem.pdpImportance touch sort numeric fs) := .seq (grows_single _) fun _ => .same fun _ => rfl

end grows

end
end Artemis
