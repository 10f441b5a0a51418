import Verif.Proofs.PDFit

/-!
# Result of `fit` of the partial-dependence based methods

The tables left behind by a successful `fit`, expressed through brute-force partial dependence.
-/

set_option linter.unusedSectionVars false
set_option linter.unusedVariables false
set_option linter.unusedSimpArgs false

namespace Artemis
open Fam

section Same
variable {F V : Type} [DecidableEq F]

/-- The two frames have the same columns and the same cell values. -/
structure SameData (X Y : Frame F V) : Prop where
  cols : X.cols = Y.cols
  rows : List.Forall₂ (fun r r' => ∀ f ∈ X.cols, r f = r' f) X.rows Y.rows

theorem SameData.refl (X : Frame F V) : SameData X X :=
  ⟨rfl, by induction X.rows with
    | nil => exact .nil
    | cons r l ih => exact .cons (fun _ _ => rfl) ih⟩

theorem SameData.symm {X Y : Frame F V} (h : SameData X Y) : SameData Y X := by
  refine ⟨h.cols.symm, ?_⟩
  have := h.rows
  rw [h.cols] at this
  exact this.flip.imp (fun a b hab f hf => (hab f hf).symm)

theorem SameData.map_rows {N : Type*} {X Y : Frame F V} (h : SameData X Y) {u u' : Row F V → N}
    (hu : ∀ r r', (∀ f ∈ X.cols, r f = r' f) → u r = u' r') : X.rows.map u = Y.rows.map u' := by
  have := h.rows
  generalize X.rows = l at this
  generalize Y.rows = l' at this
  induction this with
  | nil => rfl
  | cons h1 _ ih => rw [List.map_cons, List.map_cons, ih, hu _ _ h1]

theorem SameData.col {X Y : Frame F V} (h : SameData X Y) {f : F} (hf : f ∈ X.cols) : X.col f = Y.col f :=
  h.map_rows (fun _ _ hr => hr f hf)

theorem SameData.len {X Y : Frame F V} (h : SameData X Y) : X.len = Y.len := by
  unfold Frame.len
  exact h.rows.length_eq

theorem SameData.colE {X Y : Frame F V} (h : SameData X Y) (f : F) : X.colE f = Y.colE f := by
  unfold Frame.colE
  by_cases hf : f ∈ X.cols
  · rw [if_pos hf, if_pos (h.cols ▸ hf), h.col hf]
  · rw [if_neg hf, if_neg (h.cols ▸ hf)]

variable {N : Type*} [Flt N] {g : Row F V → N}

theorem SameData.pdSingle {X Y : Frame F V} (h : SameData X Y) (hr : ReadsOnly g X.cols) (f : F) (v : V) :
    Spec.pdSingle g X f v = Spec.pdSingle g Y f v := by
  unfold Spec.pdSingle
  congr 1
  refine h.map_rows (fun r r' hrr => hr _ _ (fun k hk => ?_))
  simp only [hrr k hk]

theorem SameData.pdPair {X Y : Frame F V} (h : SameData X Y) (hr : ReadsOnly g X.cols) (f f' : F) (v v' : V) :
    Spec.pdPair g X f f' v v' = Spec.pdPair g Y f f' v v' := by
  unfold Spec.pdPair
  congr 1
  refine h.map_rows (fun r r' hrr => hr _ _ (fun k hk => ?_))
  simp only [hrr k hk]

theorem SameData.pdMinus {X Y : Frame F V} (h : SameData X Y) (hr : ReadsOnly g X.cols) (f : F)
    {ri ri' : Row F V} (hi : ∀ f ∈ X.cols, ri f = ri' f) :
    Spec.pdMinus g X f ri = Spec.pdMinus g Y f ri' := by
  unfold Spec.pdMinus
  congr 1
  refine h.map_rows (fun r r' hrr => hr _ _ (fun k hk => ?_))
  by_cases e : k = f
  · subst e; simp only [if_true, hrr k hk]
  · simp only [e, if_false, hi k hk]

theorem SameData.canonPair {X Y : Frame F V} (h : SameData X Y) (q : F × F) : canonPair X q = canonPair Y q := by
  unfold Artemis.canonPair
  rw [h.cols]

theorem sameData_of_equals {L : Type} [DecidableEq L] [DecidableEq V] {A B : LFrame L F V}
    (h : LFrame.equals A B = true) : A.labels = B.labels ∧ SameData A.frame B.frame := by
  unfold LFrame.equals at h
  simp only [Bool.and_eq_true, decide_eq_true_eq, List.all_eq_true] at h
  obtain ⟨⟨⟨h1, h2⟩, h3⟩, h4⟩ := h
  refine ⟨h1, h3, ?_⟩
  rw [List.forall₂_iff_get]
  refine ⟨h2, ?_⟩
  intro i hi hi' f hf
  have := h4 f hf
  have e : (A.frame.col f)[i]? = (B.frame.col f)[i]? := by rw [this]
  simp only [Frame.col, List.getElem?_map] at e
  rw [List.getElem?_eq_getElem hi, List.getElem?_eq_getElem hi'] at e
  simpa using e

theorem equals_of_sameData {L : Type} [DecidableEq L] [DecidableEq V] {A B : LFrame L F V}
    (h1 : A.labels = B.labels) (h2 : SameData A.frame B.frame) : LFrame.equals A B = true := by
  unfold LFrame.equals
  simp only [Bool.and_eq_true, decide_eq_true_eq, List.all_eq_true]
  exact ⟨⟨⟨h1, h2.len⟩, h2.cols⟩, fun f hf => h2.col hf⟩

end Same

section Tables
variable {F V K : Type} [DecidableEq F] [LinearOrder V] [Field K] [LinearOrder K] [IsStrictOrderedRing K]
  [HasSqrt K] {g : Row F V → Num K}

theorem SameData.hPair {X Y : Frame F V} (h : SameData X Y) (hr : ReadsOnly g X.cols) (n : Bool) {f f' : F}
    (hf : f ∈ X.cols) (hf' : f' ∈ X.cols) : hPair n g X f f' = hPair n g Y f f' := by
  unfold Artemis.hPair
  congr 1 <;> refine h.map_rows (fun r r' hrr => ?_)
  · rw [h.pdSingle hr, hrr f hf]
  · rw [h.pdSingle hr, hrr f' hf']
  · rw [h.pdPair hr, hrr f hf, hrr f' hf']

theorem SameData.hFeat {X Y : Frame F V} (h : SameData X Y) (hr : ReadsOnly g X.cols) (n : Bool) {f : F}
    (hf : f ∈ X.cols) : hFeat n g X f = hFeat n g Y f := by
  unfold Artemis.hFeat
  congr 1 <;> refine h.map_rows (fun r r' hrr => ?_)
  · rw [h.pdSingle hr, hrr f hf]
  · exact h.pdMinus hr f hrr
  · exact hr _ _ hrr

theorem SameData.impNum {X Y : Frame F V} (h : SameData X Y) (hr : ReadsOnly g X.cols) (b : Bool) {f : F}
    (hf : f ∈ X.cols) : impNum b g X f = impNum b g Y f := by
  have : Spec.pdSingle g X f = Spec.pdSingle g Y f := funext (h.pdSingle hr f)
  unfold Artemis.impNum
  rw [this, h.col hf]

/-! ### Greenwell -/

/-- the two averaged conditional importances of a pair, from brute-force partial dependences -/
def gwNum (n1 n2 : Bool) (g : Row F V → Num K) (X : Frame F V) (f f' : F) : Except Err (Num K) := do
  let resJ ← stdevOfImp n2 ((npUnique (X.col f)).map (fun v =>
    (npUnique (X.col f')).map (fun v' => Spec.pdPair g X f f' v v')))
  let resI ← stdevOfImp n1 ((npUnique (X.col f')).map (fun v' =>
    (npUnique (X.col f)).map (fun v => Spec.pdPair g X f f' v v')))
  .ok (Num.div (Num.add resJ resI) (.fin 2))

theorem SameData.gwNum {X Y : Frame F V} (h : SameData X Y) (hr : ReadsOnly g X.cols) (n1 n2 : Bool) {f f' : F}
    (hf : f ∈ X.cols) (hf' : f' ∈ X.cols) : gwNum n1 n2 g X f f' = gwNum n1 n2 g Y f f' := by
  have : Spec.pdPair g X f f' = Spec.pdPair g Y f f' := by
    funext v v'; exact h.pdPair hr f f' v v'
  unfold Artemis.gwNum
  rw [this, h.col hf, h.col hf']

theorem columns_map {α β γ : Type*} (A : List α) (B : List β) (u : α → β → γ) :
    columns B.length (A.map (fun a => B.map (u a))) = B.map (fun b => A.map (fun a => u a b)) := by
  apply List.ext_getElem
  · simp [columns]
  intro j h1 h2
  have hj : j < B.length := by simpa using h2
  simp only [columns, List.getElem_map, List.getElem_range, List.filterMap_map]
  rw [← List.filterMap_eq_map]
  apply List.filterMap_congr
  intro a _
  simp [hj]

theorem columns_head {V' : Type*} (A B : List V') (u : V' → V' → Num K) (h : A = [] → B = []) :
    columns (((A.map (fun a => B.map (u a))).headD []).length) (A.map (fun a => B.map (u a))) =
      B.map (fun b => A.map (fun a => u a b)) := by
  cases A with
  | nil => rw [h rfl]; rfl
  | cons a A =>
    simp only [List.map_cons, List.headD_cons, List.length_map]
    have := columns_map (a :: A) B u
    simpa only [List.map_cons] using this

theorem npUnique_eq_nil_iff {l : List V} : npUnique l = [] ↔ l = [] := by
  constructor
  · intro h
    cases l with
    | nil => rfl
    | cons a l =>
      have : a ∈ npUnique (a :: l) := mem_npUnique.2 List.mem_cons_self
      rw [h] at this
      cases this
  · rintro rfl; rfl

theorem greenwellPair_done {c : Calc F V (Num K)} (hs : Shape c) {q : F × F}
    (hq : canonPair c.X q ∈ combinations2 c.X.cols) (hne : (canonPair c.X q).1 ≠ (canonPair c.X q).2)
    (d : DoneP g c true q) (numeric : F → Bool) :
    greenwellPair numeric c q =
      (gwNum (numeric (canonPair c.X q).1) (numeric (canonPair c.X q).2) g c.X (canonPair c.X q).1
        (canonPair c.X q).2).map (fun v => ⟨(canonPair c.X q).1, (canonPair c.X q).2, v⟩) := by
  have hcc : canonPair c.X (canonPair c.X q) = canonPair c.X q := if_pos hq
  have d' : DoneP g c true (canonPair c.X q) := by
    unfold DoneP at d ⊢
    rw [hcc]; exact d
  unfold greenwellPair gwNum
  have hnil : npUnique (c.X.col (canonPair c.X q).1) = [] → npUnique (c.X.col (canonPair c.X q).2) = [] := by
    rw [npUnique_eq_nil_iff, npUnique_eq_nil_iff]
    simp [Frame.col]
  simp only [pairKey_eq hs, bind, Except.bind, getPairsAll_done hs hq hne d']
  rw [columns_head _ _ _ hnil]
  cases stdevOfImp (numeric (canonPair c.X q).2) ((npUnique (c.X.col (canonPair c.X q).1)).map (fun v =>
    (npUnique (c.X.col (canonPair c.X q).2)).map (fun v' =>
      Spec.pdPair g c.X (canonPair c.X q).1 (canonPair c.X q).2 v v'))) with
  | error e => rfl
  | ok x =>
    simp only
    cases stdevOfImp (numeric (canonPair c.X q).1) ((npUnique (c.X.col (canonPair c.X q).2)).map (fun v' =>
      (npUnique (c.X.col (canonPair c.X q).1)).map (fun v =>
        Spec.pdPair g c.X (canonPair c.X q).1 (canonPair c.X q).2 v v'))) <;> rfl

/-- The raw row of a pair in Greenwell's table (labelled in column order), or the exception. -/
def gwRow (numeric : F → Bool) (g : Row F V → Num K) (X : Frame F V) (q : F × F) : Except Err (OvoRow F K) :=
  (gwNum (numeric (canonPair X q).1) (numeric (canonPair X q).2) g X (canonPair X q).1
    (canonPair X q).2).map (fun v => ⟨(canonPair X q).1, (canonPair X q).2, v⟩)

theorem opStep_greenwellOvo {c : Calc F V (Num K)} (hg : Good g c) (sort) (numeric : F → Bool)
    (pairs : List (F × F)) : OpStep g c (greenwellOvo sort numeric pairs c).2 := by
  unfold greenwellOvo
  refine opStep_seq (opStep_pairs hg _ _) (fun _ c1 h1 => OpStep.refl h1.good)

theorem canonPair_ne {X : Frame F V} {q : F × F} (h : q.1 ≠ q.2) : (canonPair X q).1 ≠ (canonPair X q).2 := by
  unfold canonPair
  split
  · exact h
  · exact fun e => h e.symm

theorem greenwellOvo_eq {c : Calc F V (Num K)} (hg : Good g c) (sort) (numeric : F → Bool)
    {pairs : List (F × F)} (hp : ∀ q ∈ pairs, q.1 ∈ c.X.cols ∧ q.2 ∈ c.X.cols ∧ q.1 ≠ q.2)
    (h1 : (Calc.calculatePairs (some pairs) true c).1 = .ok ()) :
    (greenwellOvo sort numeric pairs c).1 =
      (pairs.mapM (gwRow numeric g c.X)).map (fun rows => (sort rows).map OvoRow.fillna) := by
  have s1 := opStep_pairs hg (some pairs) true
  have dp := doneP_of_ok hg h1
  cases e1 : Calc.calculatePairs (some pairs) true c with
  | mk r1 c1 =>
    rw [e1] at h1 s1 dp
    simp only at h1 s1 dp
    subst h1
    have hm : pairs.mapM (greenwellPair numeric c1) = pairs.mapM (gwRow numeric g c.X) := by
      apply mapM_congr
      intro q hq
      obtain ⟨m1, m2, hne⟩ := hp q hq
      have hcm := canonPair_mem m1 m2 hne
      have := greenwellPair_done (g := g) (c := c1) s1.good.shape (q := q)
        (by rw [s1.later.X]; exact hcm) (canonPair_ne hne) ((dp q hq).1 hcm) numeric
      rw [s1.later.X] at this
      exact this
    simp only [greenwellOvo, PyM.seq, e1, hm]
    cases List.mapM (gwRow numeric g c.X) pairs <;> rfl

theorem greenwellOvo_valid {c c' : Calc F V (Num K)} (hg : Good g c) (nd : c.X.cols.Nodup) {sort}
    {numeric : F → Bool} {pairs : List (F × F)} {rows}
    (h : greenwellOvo sort numeric pairs c = (.ok rows, c')) :
    (∀ q ∈ pairs, q.1 ∈ c.X.cols ∧ q.2 ∈ c.X.cols ∧ q.1 ≠ q.2) ∧
      (Calc.calculatePairs (some pairs) true c).1 = .ok () := by
  unfold greenwellOvo at h
  obtain ⟨_, c1, e1, h⟩ := seq_ok h
  have o1 : (Calc.calculatePairs (some pairs) true c).1 = .ok () := by rw [e1]
  have dp := doneP_of_ok hg o1
  refine ⟨fun q hq => ?_, o1⟩
  have hb := (dp q hq).2
  rw [← canonPair_mem_iff nd]
  by_contra hc
  exact hb ⟨hc, Or.inl rfl⟩

end Tables

section Runs
variable {F V K : Type} [DecidableEq F] [LinearOrder V] [Field K] [LinearOrder K]

/-- `c'` is `c` after some sequence of public calls. -/
def Runs (c c' : Calc F V (Num K)) : Prop := ∃ ops : List (PDOp F), c' = runOps c ops

theorem Runs.refl (c : Calc F V (Num K)) : Runs c c := ⟨[], rfl⟩
theorem Runs.trans {a b c : Calc F V (Num K)} (h : Runs a b) (h' : Runs b c) : Runs a c := by
  obtain ⟨o, rfl⟩ := h
  obtain ⟨o', rfl⟩ := h'
  exact ⟨o ++ o', (runOps_append a o o').symm⟩
theorem runs_op (c : Calc F V (Num K)) (op : PDOp F) : Runs c (op.run c).2 := ⟨[op], rfl⟩

theorem runs_seq {α β : Type} {c : Calc F V (Num K)} {m : PyM (Calc F V (Num K)) α}
    {k : α → PyM (Calc F V (Num K)) β} (h1 : Runs c (m c).2)
    (h2 : ∀ a c1, Runs c1 (k a c1).2) : Runs c (PyM.seq m k c).2 := by
  unfold PyM.seq
  cases e : m c with
  | mk r c1 =>
    rw [e] at h1
    cases r with
    | ok a => exact h1.trans (h2 a c1)
    | error e => exact h1

variable [HasSqrt K]

theorem runs_hstatOvo (c : Calc F V (Num K)) (sort) (n : Bool) (X : Frame F V) (fs : List F) (ps) :
    Runs c (hstatOvo sort n X fs ps c).2 :=
  runs_seq (runs_op c (.pairs (some ps) false)) (fun _ c1 =>
    runs_seq (runs_op c1 (.single (some fs))) (fun _ c2 => Runs.refl c2))

theorem runs_greenwellOvo (c : Calc F V (Num K)) (sort) (numeric : F → Bool) (ps) :
    Runs c (greenwellOvo sort numeric ps c).2 :=
  runs_seq (runs_op c (.pairs (some ps) true)) (fun _ c1 => Runs.refl c1)

theorem runs_pdpImportance (c : Calc F V (Num K)) (sort) (numeric : F → Bool) (fs) :
    Runs c (pdpImportance sort numeric fs c).2 :=
  runs_seq (runs_op c (.single none)) (fun _ c1 => Runs.refl c1)

theorem runs_hstatOva (c : Calc F V (Num K)) (sort) (predict : PF F V (Num K)) (n : Bool) (X : Frame F V) (fs) :
    Runs c (hstatOva sort predict n X fs c).2 := by
  refine runs_seq (runs_op c (.minus (some fs))) (fun _ c1 => ?_)
  cases predict c1.calls.length X.rows <;> exact Runs.refl c1

theorem runs_ovo {G : Type} (kind : PdKind) (E : PdEnv G F K) (X : Frame F V) (fs : List F) (ps)
    (c : Calc F V (Num K)) : Runs c (kind.ovo E X fs ps c).2 := by
  cases kind with
  | friedman n => exact runs_hstatOvo ..
  | greenwell => exact runs_greenwellOvo ..

end Runs

/-! ### fit -/
section Fit
variable {F V K G L : Type} [DecidableEq F] [LinearOrder V] [DecidableEq L] [Field K] [LinearOrder K]
  [IsStrictOrderedRing K] [HasSqrt K] {g : Row F V → Num K}

/-- the list of features the explanation is restricted to -/
def PdArgs.feats (a : PdArgs L F V K) : List F := allIfNone a.X.frame.cols a.features

/-- the prediction function in use -/
def PdArgs.pf (a : PdArgs L F V K) : PF F V (Num K) := callable (getPredictFunction a.model a.predictFunction)

/-- the state after the first half of `fit` -/
def PdpMethod.prepared (s0 : PdpMethod G L F V K) (a : PdArgs L F V K) (rng : G) (Xs : LFrame L F V) :
    PdpMethod G L F V K :=
  { s0 with
    predictFn := getPredictFunction a.model a.predictFunction, model := some a.model, rng := rng,
    xSampled := some Xs, features := some a.feats, pairs := some (combinations2 a.feats) }

theorem fitBase_eq (kind : PdKind) (E : PdEnv G F K) (a : PdArgs L F V K) (s0 : PdpMethod G L F V K)
    {Xs : LFrame L F V} {rng : G} {co : CalcObj L F V K}
    (hX : sampleIfNotNone E.R a.X a.n s0.rng = (.ok Xs, rng))
    (hc : PdpMethod.chooseCalc a Xs a.pf = .ok co) :
    PdpMethod.fitBase kind E a s0 =
      match kind.ovo E Xs.frame a.feats (combinations2 a.feats) co.obj with
      | (.error e, c1) => (.error e, { s0.prepared a rng Xs with pdc := some { co with obj := c1 } })
      | (.ok ovo, c1) =>
        match pdpImportance E.sortFeat (numIn E a.feats) a.feats c1 with
        | (.error e, c2) => (.error e, { s0.prepared a rng Xs with
            pdc := some { co with obj := c2 }, ovo := some ovo, impObj := true })
        | (.ok imp, c2) => (.ok (), { s0.prepared a rng Xs with
            pdc := some { co with obj := c2 }, ovo := some ovo, impObj := true, importance := some imp }) := by
  unfold PdpMethod.fitBase
  unfold PdArgs.pf at hc
  simp only [hX, hc, PdpMethod.onCalc]
  cases e1 : kind.ovo E Xs.frame a.feats (combinations2 a.feats) co.obj with
  | mk r1 c1 =>
    have e1' := e1
    simp only [PdArgs.feats] at e1'
    cases r1 with
    | error e => simp only [e1']; rfl
    | ok ovo =>
      simp only [e1']
      cases e2 : pdpImportance E.sortFeat (numIn E a.feats) a.feats c1 with
      | mk r2 c2 =>
        have e2' := e2
        simp only [PdArgs.feats] at e2'
        cases r2 with
        | error e => simp only [e2']; rfl
        | ok imp => simp only [e2']; rfl

/-- the state of `fit` after the one-vs-all part -/
theorem fit_eq (kind : PdKind) (E : PdEnv G F K) (a : PdArgs L F V K) (s0 : PdpMethod G L F V K)
    {Xs : LFrame L F V} {rng : G} {co : CalcObj L F V K}
    (hX : sampleIfNotNone E.R a.X a.n s0.rng = (.ok Xs, rng))
    (hc : PdpMethod.chooseCalc a Xs a.pf = .ok co) :
    PdpMethod.fit kind E a s0 =
      match kind.ovo E Xs.frame a.feats (combinations2 a.feats) co.obj with
      | (.error e, c1) => (.error e, { s0.prepared a rng Xs with pdc := some { co with obj := c1 } })
      | (.ok ovo, c1) =>
        match pdpImportance E.sortFeat (numIn E a.feats) a.feats c1 with
        | (.error e, c2) => (.error e, { s0.prepared a rng Xs with
            pdc := some { co with obj := c2 }, ovo := some ovo, impObj := true })
        | (.ok imp, c2) =>
          match kind with
          | .greenwell => (.ok (), { s0.prepared a rng Xs with
              pdc := some { co with obj := c2 }, ovo := some ovo, impObj := true, importance := some imp })
          | .friedman n =>
            if a.calculateOva then
              match hstatOva E.sortFeat a.pf n Xs.frame a.feats c2 with
              | (.error e, c3) => (.error e, { s0.prepared a rng Xs with
                  pdc := some { co with obj := c3 }, ovo := some ovo, impObj := true, importance := some imp })
              | (.ok ova, c3) => (.ok (), { s0.prepared a rng Xs with
                  pdc := some { co with obj := c3 }, ovo := some ovo, impObj := true, importance := some imp,
                  ova := some ova })
            else (.ok (), { s0.prepared a rng Xs with
              pdc := some { co with obj := c2 }, ovo := some ovo, impObj := true, importance := some imp }) := by
  unfold PdpMethod.fit
  rw [fitBase_eq kind E a s0 hX hc]
  cases e1 : kind.ovo E Xs.frame a.feats (combinations2 a.feats) co.obj with
  | mk r1 c1 =>
    cases r1 with
    | error e => rfl
    | ok ovo =>
      simp only
      cases e2 : pdpImportance E.sortFeat (numIn E a.feats) a.feats c1 with
      | mk r2 c2 =>
        cases r2 with
        | error e => rfl
        | ok imp =>
          simp only
          cases kind with
          | greenwell => rfl
          | friedman n =>
            simp only
            by_cases ho : a.calculateOva = true
            · simp only [ho, if_true, PdpMethod.prepared, PdpMethod.onCalc, PdArgs.pf]
              cases e3 : hstatOva E.sortFeat a.pf n Xs.frame a.feats c2 with
              | mk r3 c3 =>
                simp only [PdArgs.pf] at e3
                cases r3 with
                | error e => simp only [e3]
                | ok ova => simp only [e3]
            · simp only [ho, if_false]; rfl

/-- Everything `fit` may rely on: the drawn sample, a row-wise prediction function looking at the columns only,
distinct column names, and - if a calculator is supplied - that it went through nothing but public calls with a
prediction function equivalent to the one in use. -/
structure FitSetup (g : Row F V → Num K) (E : PdEnv G F K) (a : PdArgs L F V K) (s0 : PdpMethod G L F V K)
    (Xs : LFrame L F V) : Prop where
  sampled : (sampleIfNotNone E.R a.X a.n s0.rng).1 = .ok Xs
  rowWise : RowWise g a.pf
  reads : ReadsOnly g Xs.frame.cols
  cols_nodup : Xs.frame.cols.Nodup
  history : ∀ co, a.pdCalculator = some co →
    ∃ (p : PF F V (Num K)) (b : Int) (ops : List (PDOp F)) (X : Frame F V),
      RowWise g p ∧ co.obj = runOps (Calc.new p X b) ops

/-- a usable calculator was chosen -/
structure Chosen (g : Row F V → Num K) (a : PdArgs L F V K) (Xs : LFrame L F V) (co : CalcObj L F V K) : Prop where
  eq : PdpMethod.chooseCalc a Xs a.pf = .ok co
  good : Good g co.obj
  same : SameData co.obj.X Xs.frame
  labels : co.labels = Xs.labels
  modelId : co.modelId = a.model.ident

theorem chosen_of_ok {E : PdEnv G F K} {a : PdArgs L F V K} {s0 : PdpMethod G L F V K} {Xs : LFrame L F V}
    (hs : FitSetup g E a s0 Xs) {co : CalcObj L F V K} (h : PdpMethod.chooseCalc a Xs a.pf = .ok co) :
    Chosen g a Xs co := by
  have h' := h
  unfold PdpMethod.chooseCalc at h
  cases e : a.pdCalculator with
  | none =>
    rw [e] at h
    simp only [Except.ok.injEq] at h
    subst h
    exact ⟨h', good_new hs.rowWise _ _, SameData.refl _, rfl, rfl⟩
  | some co0 =>
    rw [e] at h
    simp only at h
    split at h
    · cases h
    · next h1 =>
      split at h
      · cases h
      · next h2 =>
        cases h
        obtain ⟨p, b, ops, X, hw, hobj⟩ := hs.history co e
        have := sameData_of_equals (A := ⟨co.labels, co.obj.X⟩) (B := Xs) (by simpa using h2)
        refine ⟨h', ?_, this.2, this.1, by simpa using h1⟩
        rw [hobj]
        exact good_runOps (good_new hw X b) ops

/-! the pieces of the tables, as functions of brute-force partial dependence -/

/-- the one-vs-one H table -/
def hTable (E : PdEnv G F K) (n : Bool) (g : Row F V → Num K) (X : Frame F V) (fs : List F) : List (OvoRow F K) :=
  (E.sortOvo ((combinations2 fs).map (hRow n g X))).map OvoRow.fillna

/-- the one-vs-all H table -/
def hTableOva (E : PdEnv G F K) (n : Bool) (g : Row F V → Num K) (X : Frame F V) (fs : List F) :
    List (FeatRow F K) :=
  (E.sortFeat (fs.map (fun f => ⟨f, hFeat n g X f⟩))).map FeatRow.fillna

/-- importance row of a feature -/
def impRow (E : PdEnv G F K) (g : Row F V → Num K) (X : Frame F V) (fs : List F) (f : F) :
    Except Err (FeatRow F K) :=
  (impNum (numIn E fs f) g X f).map (fun v => ⟨f, v⟩)

/-- raw rows of the one-vs-one table -/
def ovoRows (kind : PdKind) (E : PdEnv G F K) (g : Row F V → Num K) (X : Frame F V) (fs : List F) :
    Except Err (List (OvoRow F K)) :=
  match kind with
  | .friedman n => .ok ((combinations2 fs).map (hRow n g X))
  | .greenwell => (combinations2 fs).mapM (gwRow (numIn E fs) g X)

theorem hstatOvo_congr {X Y : Frame F V} (h : SameData X Y) (sort) (n : Bool) (fs : List F) (ps : List (F × F)) :
    hstatOvo (K := K) sort n X fs ps = hstatOvo sort n Y fs ps := by
  have : ∀ c : Calc F V (Num K), hstatPair n X c = hstatPair n Y c := by
    intro c; funext q; simp only [hstatPair, h.colE]
  unfold hstatOvo
  simp only [this]

theorem hRow_congr {X Y : Frame F V} (h : SameData X Y) (hr : ReadsOnly g X.cols) (n : Bool) {fs : List F}
    (hv : ∀ f ∈ fs, f ∈ X.cols) :
    (combinations2 fs).map (hRow n g X) = (combinations2 fs).map (hRow n g Y) := by
  apply List.map_congr_left
  intro q hq
  have := mem_combinations2 hq
  simp only [hRow, h.hPair hr n (hv _ this.1) (hv _ this.2)]

theorem gwRow_congr {X Y : Frame F V} (h : SameData X Y) (hr : ReadsOnly g X.cols) (num : F → Bool) {q : F × F}
    (h1 : q.1 ∈ X.cols) (h2 : q.2 ∈ X.cols) : gwRow num g X q = gwRow num g Y q := by
  unfold gwRow
  rw [h.canonPair q]
  have : (canonPair Y q).1 ∈ X.cols ∧ (canonPair Y q).2 ∈ X.cols := by
    unfold canonPair
    split
    · exact ⟨h1, h2⟩
    · exact ⟨h2, h1⟩
  rw [h.gwNum hr _ _ this.1 this.2]

/-- The one-vs-one part, when it returns. -/
theorem ovo_ok {kind : PdKind} {E : PdEnv G F K} {X : Frame F V} {fs : List F} {c c' : Calc F V (Num K)}
    (hg : Good g c) (hsame : SameData c.X X) (hr : ReadsOnly g X.cols) (nd : X.cols.Nodup) {ovo}
    (h : kind.ovo E X fs (combinations2 fs) c = (.ok ovo, c')) (hf : ∀ f ∈ fs, f ∈ X.cols) :
    ValidFeatures X fs ∧ ∃ rows, ovoRows kind E g X fs = .ok rows ∧ ovo = (E.sortOvo rows).map OvoRow.fillna := by
  have hr' : ReadsOnly g c.X.cols := by rw [hsame.cols]; exact hr
  have nd' : c.X.cols.Nodup := by rw [hsame.cols]; exact nd
  have hf' : ∀ f ∈ fs, f ∈ c.X.cols := by rw [hsame.cols]; exact hf
  cases kind with
  | friedman n =>
    simp only [PdKind.ovo] at h
    rw [← hstatOvo_congr hsame] at h
    have hv := hstatOvo_valid hg nd' h
    refine ⟨⟨hf, hv.ne⟩, _, rfl, ?_⟩
    rw [hstatOvo_ok hg h hv, hRow_congr hsame hr' n hf']
  | greenwell =>
    simp only [PdKind.ovo] at h
    obtain ⟨hv, o1⟩ := greenwellOvo_valid hg nd' h
    have := greenwellOvo_eq hg E.sortOvo (numIn E fs) hv o1
    rw [h] at this
    have hm : (combinations2 fs).mapM (gwRow (numIn E fs) g c.X) = (combinations2 fs).mapM (gwRow (numIn E fs) g X) :=
      mapM_congr (fun q hq => gwRow_congr hsame hr' _ (hv q hq).1 (hv q hq).2.1)
    rw [hm] at this
    refine ⟨⟨hf, fun q hq => (hv q hq).2.2⟩, ?_⟩
    simp only [ovoRows]
    cases em : (combinations2 fs).mapM (gwRow (numIn E fs) g X) with
    | error e => rw [em] at this; cases this
    | ok rows =>
      rw [em] at this
      exact ⟨rows, rfl, by simpa [Except.map] using this⟩

theorem exists_of_forall₂ {α β : Type*} {R : α → β → Prop} {l : List α} {r : List β} (h : List.Forall₂ R l r) {a : α}
    (ha : a ∈ l) : ∃ b ∈ r, R a b := by
  induction h with
  | nil => cases ha
  | cons h1 _ ih =>
    rcases List.mem_cons.1 ha with rfl | ha
    · exact ⟨_, List.mem_cons_self, h1⟩
    · obtain ⟨b, hb, hR⟩ := ih ha
      exact ⟨b, List.mem_cons_of_mem _ hb, hR⟩

/-- The importance part, when it returns. -/
theorem imp_ok {E : PdEnv G F K} {X : Frame F V} {fs : List F} {c c' : Calc F V (Num K)}
    (hg : Good g c) (hsame : SameData c.X X) (hr : ReadsOnly g X.cols) {imp}
    (h : pdpImportance E.sortFeat (numIn E fs) fs c = (.ok imp, c')) :
    (∀ f ∈ fs, f ∈ X.cols) ∧ (∀ f ∈ X.cols, DoneS g c' f) ∧
      ∃ rows, fs.mapM (impRow E g X fs) = .ok rows ∧ imp = (E.sortFeat rows).map FeatRow.fillna := by
  have hr' : ReadsOnly g c.X.cols := by rw [hsame.cols]; exact hr
  have h0 := h
  unfold pdpImportance at h
  obtain ⟨u, c1, e1, h⟩ := seq_ok h
  have s1 := opStep_single hg none
  have o1 : (Calc.calculateSingle none c).1 = .ok () := by rw [e1]
  have ds := doneS_of_ok hg o1
  rw [e1] at s1 ds
  have hX : c1.X = c.X := s1.later.X
  have hf : ∀ f ∈ fs, f ∈ X.cols := by
    intro f hf
    cases em : fs.mapM (calcImportance (numIn E fs) c1) with
    | error e => rw [em] at h; cases h
    | ok rs =>
      have hF := mapM_eq_ok em
      obtain ⟨r, _, hr⟩ := exists_of_forall₂ hF hf
      by_contra hn
      have hn' : f ∉ c1.X.cols := by rw [hX, hsame.cols]; exact hn
      unfold calcImportance at hr
      rw [getSingleAll_none s1.good.shape f hn'] at hr
      cases hr
  have hfc : c1 = c' := by
    cases em : fs.mapM (calcImportance (numIn E fs) c1) with
    | error e => rw [em] at h; cases h
    | ok rs => rw [em] at h; exact (Prod.mk.inj h).2
  refine ⟨hf, ?_, ?_⟩
  · rw [← hfc]
    intro f hf
    exact ds f (by simpa [hsame.cols] using hf)
  · have := pdpImportance_eq hg E.sortFeat (numIn E fs) (features := fs)
      (by rw [hsame.cols]; exact hf) o1
    rw [h0] at this
    have hm : fs.mapM (fun f => (impNum (numIn E fs f) g c.X f).map (fun v => (⟨f, v⟩ : FeatRow F K))) =
        fs.mapM (impRow E g X fs) := by
      apply mapM_congr
      intro f hf'
      unfold impRow
      rw [hsame.impNum hr' _ (by rw [hsame.cols]; exact hf f hf')]
    rw [hm] at this
    cases em : fs.mapM (impRow E g X fs) with
    | error e => rw [em] at this; cases this
    | ok rows =>
      rw [em] at this
      exact ⟨rows, rfl, by simpa [Except.map] using this⟩

/-- What a returning `fit` leaves behind. -/
structure FitResult (kind : PdKind) (E : PdEnv G F K) (g : Row F V → Num K) (a : PdArgs L F V K)
    (s0 : PdpMethod G L F V K) (Xs : LFrame L F V) (s : PdpMethod G L F V K) : Prop where
  valid : ValidFeatures Xs.frame a.feats
  ovo : ∃ rows, ovoRows kind E g Xs.frame a.feats = .ok rows ∧ s.ovo = some ((E.sortOvo rows).map OvoRow.fillna)
  imp : ∃ rows, a.feats.mapM (impRow E g Xs.frame a.feats) = .ok rows ∧
    s.importance = some ((E.sortFeat rows).map FeatRow.fillna)
  ova : s.ova = match kind with
    | .greenwell => s0.ova
    | .friedman n => if a.calculateOva then some (hTableOva E n g Xs.frame a.feats) else s0.ova
  pdc : ∃ co c', PdpMethod.chooseCalc a Xs a.pf = .ok co ∧ s.pdc = some { co with obj := c' } ∧ Runs co.obj c'
  xSampled : s.xSampled = some Xs
  features : s.features = some a.feats
  pairs : s.pairs = some (combinations2 a.feats)

theorem hstatOva_ok' {E : PdEnv G F K} {X : Frame F V} {fs : List F} {c c' : Calc F V (Num K)} {n : Bool}
    {predict : PF F V (Num K)} (hg : Good g c) (hsame : SameData c.X X) (hr : ReadsOnly g X.cols)
    (hw : RowWise g predict) (hd : ∀ f ∈ fs, DoneS g c f) {rows}
    (h : hstatOva E.sortFeat predict n X fs c = (.ok rows, c')) : rows = hTableOva E n g X fs := by
  have hr' : ReadsOnly g c.X.cols := by rw [hsame.cols]; exact hr
  have hcols : ∀ f ∈ fs, f ∈ c.X.cols := fun f hf => (hd f hf).1
  unfold hstatOva at h
  obtain ⟨_, c1, e1, h⟩ := seq_ok h
  have s1 := opStep_minus hg (some fs)
  have dm := doneM_of_ok hg (features := some fs) (by rw [e1])
  rw [e1] at s1 dm
  have hX : c1.X = c.X := s1.later.X
  cases ep : predict c1.calls.length X.rows with
  | error e => simp only [ep] at h; cases h
  | ok preds =>
    have hpr := hw _ _ _ ep
    subst hpr
    have hm : fs.mapM (hstatFeature n X (X.rows.map g) c1) =
        .ok (fs.map (fun f => (⟨f, hFeat n g X f⟩ : FeatRow F K))) := by
      refine mapM_ok (fun f hf => ?_)
      have := hstatFeature_done (g := g) s1.good.shape ((hd f hf).step s1) (dm f hf)
        (by simp only [hX]; exact hr') n
      simp only [hX] at this
      have hrows : c.X.rows.map g = X.rows.map g := hsame.map_rows (fun r r' h => hr' r r' h)
      rw [hrows, hsame.hFeat hr' n (hcols f hf)] at this
      have hc : hstatFeature n c.X (X.rows.map g) c1 f = hstatFeature n X (X.rows.map g) c1 f := by
        unfold hstatFeature
        rw [hsame.colE]
      rw [hc] at this
      exact this
    simp only [ep, hm] at h
    cases h
    rfl

theorem good_runs {c c' : Calc F V (Num K)} (hg : Good g c) (h : Runs c c') : OpStep g c c' := by
  obtain ⟨ops, rfl⟩ := h
  exact opStep_runOps hg ops

theorem SameData.trans {X Y Z : Frame F V} (h : SameData X Y) (h' : Y = Z) : SameData X Z := h' ▸ h

/-- A returning `fit` leaves behind the tables built from brute-force partial dependence. -/
theorem fit_ok {kind : PdKind} {E : PdEnv G F K} {a : PdArgs L F V K} {s0 s : PdpMethod G L F V K}
    {Xs : LFrame L F V} (hs : FitSetup g E a s0 Xs) (h : PdpMethod.fit kind E a s0 = (.ok (), s)) :
    FitResult kind E g a s0 Xs s := by
  cases eX : sampleIfNotNone E.R a.X a.n s0.rng with
  | mk rX rng =>
    have hXs := hs.sampled
    rw [eX] at hXs
    simp only at hXs
    subst hXs
    cases ec : PdpMethod.chooseCalc a Xs a.pf with
    | error e =>
      exfalso
      unfold PdpMethod.fit PdpMethod.fitBase at h
      unfold PdArgs.pf at ec
      simp only [eX, ec] at h
      cases h
    | ok co =>
      have ch := chosen_of_ok hs ec
      rw [fit_eq kind E a s0 eX ec] at h
      cases e1 : kind.ovo E Xs.frame a.feats (combinations2 a.feats) co.obj with
      | mk r1 c1 =>
        have ru1 : Runs co.obj c1 := by have := runs_ovo kind E Xs.frame a.feats (combinations2 a.feats) co.obj; rwa [e1] at this
        have st1 := good_runs ch.good ru1
        have same1 : SameData c1.X Xs.frame := by rw [st1.later.X]; exact ch.same
        cases r1 with
        | error e => rw [e1] at h; cases h
        | ok ovo =>
          rw [e1] at h
          simp only at h
          cases e2 : pdpImportance E.sortFeat (numIn E a.feats) a.feats c1 with
          | mk r2 c2 =>
            have ru2 : Runs c1 c2 := by have := runs_pdpImportance c1 E.sortFeat (numIn E a.feats) a.feats; rwa [e2] at this
            have st2 := good_runs st1.good ru2
            have same2 : SameData c2.X Xs.frame := by rw [st2.later.X]; exact same1
            cases r2 with
            | error e => rw [e2] at h; cases h
            | ok imp =>
              rw [e2] at h
              simp only at h
              obtain ⟨hf, hd, rowsI, hI1, hI2⟩ := imp_ok st1.good same1 hs.reads e2
              obtain ⟨hv, rowsO, hO1, hO2⟩ := ovo_ok ch.good ch.same hs.reads hs.cols_nodup e1 hf
              subst hI2 hO2
              cases kind with
              | greenwell =>
                simp only at h
                have := (Prod.mk.inj h).2
                subst this
                exact ⟨hv, ⟨rowsO, hO1, rfl⟩, ⟨rowsI, hI1, rfl⟩, rfl, ⟨co, c2, ec, rfl, ru1.trans ru2⟩, rfl, rfl, rfl⟩
              | friedman n =>
                simp only at h
                by_cases ho : a.calculateOva = true
                · rw [if_pos ho] at h
                  cases e3 : hstatOva E.sortFeat a.pf n Xs.frame a.feats c2 with
                  | mk r3 c3 =>
                    have ru3 : Runs c2 c3 := by
                      have := runs_hstatOva c2 E.sortFeat a.pf n Xs.frame a.feats; rwa [e3] at this
                    rw [e3] at h
                    cases r3 with
                    | error e => cases h
                    | ok ova =>
                      have hova := hstatOva_ok' st2.good same2 hs.reads hs.rowWise (fun f hf' => hd f (hf f hf')) e3
                      subst hova
                      simp only at h
                      have := (Prod.mk.inj h).2
                      subst this
                      exact ⟨hv, ⟨rowsO, hO1, rfl⟩, ⟨rowsI, hI1, rfl⟩, by simp [ho],
                        ⟨co, c3, ec, rfl, (ru1.trans ru2).trans ru3⟩, rfl, rfl, rfl⟩
                · rw [if_neg ho] at h
                  have := (Prod.mk.inj h).2
                  subst this
                  exact ⟨hv, ⟨rowsO, hO1, rfl⟩, ⟨rowsI, hI1, rfl⟩, by simp [ho, PdpMethod.prepared],
                    ⟨co, c2, ec, rfl, ru1.trans ru2⟩, rfl, rfl, rfl⟩

/-! ### when fit returns -/

theorem ovo_ret {kind : PdKind} {E : PdEnv G F K} {X : Frame F V} {fs : List F} {c : Calc F V (Num K)}
    (hg : Good g c) (hp : NeverFails c.predict) (hsame : SameData c.X X) (hr : ReadsOnly g X.cols)
    (hv : ValidFeatures X fs) :
    (kind.ovo E X fs (combinations2 fs) c).1 =
      (ovoRows kind E g X fs).map (fun rows => (E.sortOvo rows).map OvoRow.fillna) := by
  have hr' : ReadsOnly g c.X.cols := by rw [hsame.cols]; exact hr
  have hf' : ∀ f ∈ fs, f ∈ c.X.cols := by rw [hsame.cols]; exact hv.cols
  have hv' : ValidFeatures c.X fs := ⟨hf', hv.ne⟩
  cases kind with
  | friedman n =>
    simp only [PdKind.ovo, ovoRows]
    rw [← hstatOvo_congr hsame]
    obtain ⟨c', e⟩ := hstatOvo_ret hg hp E.sortOvo n hv'
    rw [e, hRow_congr hsame hr' n hf']
    rfl
  | greenwell =>
    have hq : ∀ q ∈ combinations2 fs, q.1 ∈ c.X.cols ∧ q.2 ∈ c.X.cols ∧ q.1 ≠ q.2 := fun q hq => by
      have m := mem_combinations2 hq
      exact ⟨hf' _ m.1, hf' _ m.2, hv.ne q hq⟩
    have o1 : (Calc.calculatePairs (some (combinations2 fs)) true c).1 = .ok () :=
      run_ok hg hp (.pairs (some (combinations2 fs)) true) hq
    simp only [PdKind.ovo, ovoRows]
    rw [greenwellOvo_eq hg E.sortOvo (numIn E fs) hq o1]
    congr 1
    exact mapM_congr (fun q hq' => gwRow_congr hsame hr' _ (hq q hq').1 (hq q hq').2.1)

theorem imp_ret {E : PdEnv G F K} {X : Frame F V} {fs : List F} {c : Calc F V (Num K)}
    (hg : Good g c) (hp : NeverFails c.predict) (hsame : SameData c.X X) (hr : ReadsOnly g X.cols)
    (hv : ∀ f ∈ fs, f ∈ X.cols) :
    (pdpImportance E.sortFeat (numIn E fs) fs c).1 =
      (fs.mapM (impRow E g X fs)).map (fun rows => (E.sortFeat rows).map FeatRow.fillna) := by
  have hr' : ReadsOnly g c.X.cols := by rw [hsame.cols]; exact hr
  have hf' : ∀ f ∈ fs, f ∈ c.X.cols := by rw [hsame.cols]; exact hv
  have o1 : (Calc.calculateSingle none c).1 = .ok () :=
    run_ok hg hp (.single none) (fun f hf => hf)
  rw [pdpImportance_eq hg E.sortFeat (numIn E fs) hf' o1]
  congr 1
  apply mapM_congr
  intro f hf
  unfold impRow
  rw [hsame.impNum hr' _ (hf' f hf)]

theorem hstatOva_ret' {E : PdEnv G F K} {X : Frame F V} {fs : List F} {c : Calc F V (Num K)} {n : Bool}
    {predict : PF F V (Num K)} (hg : Good g c) (hp : NeverFails c.predict) (hsame : SameData c.X X)
    (hr : ReadsOnly g X.cols) (hw : RowWise g predict) (hp' : NeverFails predict)
    (hd : ∀ f ∈ fs, DoneS g c f) : ∃ rows, (hstatOva E.sortFeat predict n X fs c).1 = .ok rows := by
  have hr' : ReadsOnly g c.X.cols := by rw [hsame.cols]; exact hr
  have s1 := opStep_minus hg (some fs)
  have o1 : (Calc.calculateMinus (some fs) c).1 = .ok () :=
    run_ok hg hp (.minus (some fs)) (fun f hf => (hd f hf).1)
  have dm := doneM_of_ok hg o1
  cases e1 : Calc.calculateMinus (some fs) c with
  | mk r1 c1 =>
    rw [e1] at s1 o1 dm
    simp only at o1 s1 dm
    subst o1
    have hX : c1.X = c.X := s1.later.X
    obtain ⟨preds, ep⟩ := hp' c1.calls.length X.rows
    have hpr := hw _ _ _ ep
    subst hpr
    have hm : ∃ rows, fs.mapM (hstatFeature n X (X.rows.map g) c1) = .ok rows := by
      refine (fun h => (mapM_exists_ok h).imp (fun _ h => h.1)) (fun f hf => ?_)
      have := hstatFeature_done (g := g) s1.good.shape ((hd f hf).step s1) (dm f hf)
        (by simp only [hX]; exact hr') n
      simp only [hX] at this
      have hrows : c.X.rows.map g = X.rows.map g := hsame.map_rows (fun r r' h => hr' r r' h)
      rw [hrows] at this
      have hc : hstatFeature n c.X (X.rows.map g) c1 f = hstatFeature n X (X.rows.map g) c1 f := by
        unfold hstatFeature
        rw [hsame.colE]
      rw [hc] at this
      exact ⟨_, this⟩
    obtain ⟨rows, hm⟩ := hm
    refine ⟨(E.sortFeat rows).map FeatRow.fillna, ?_⟩
    simp only [hstatOva, PyM.seq, e1, ep, hm]

/-- With a prediction function that never raises, a supplied calculator of the same model and data (or none) and
distinct known features, `fit` returns exactly when no row of the two tables is an exception. -/
theorem fit_returns {kind : PdKind} {E : PdEnv G F K} {a : PdArgs L F V K} {s0 : PdpMethod G L F V K}
    {Xs : LFrame L F V} (hs : FitSetup g E a s0 Xs) {co : CalcObj L F V K}
    (hc : PdpMethod.chooseCalc a Xs a.pf = .ok co) (hp : NeverFails a.pf) (hpc : NeverFails co.obj.predict)
    (hv : ValidFeatures Xs.frame a.feats)
    {e : Err} :
    ((PdpMethod.fit kind E a s0).1 = .ok () ↔
      (∃ rows, ovoRows kind E g Xs.frame a.feats = .ok rows) ∧
      (∃ rows, a.feats.mapM (impRow E g Xs.frame a.feats) = .ok rows)) ∧
    ((∃ rows, a.feats.mapM (impRow E g Xs.frame a.feats) = .ok rows) →
      ((PdpMethod.fit kind E a s0).1 = .error e ↔ ovoRows kind E g Xs.frame a.feats = .error e)) := by
  cases eX : sampleIfNotNone E.R a.X a.n s0.rng with
  | mk rX rng =>
    have hXs := hs.sampled
    rw [eX] at hXs
    simp only at hXs
    subst hXs
    have ch := chosen_of_ok hs hc
    rw [fit_eq kind E a s0 eX hc]
    have hO := ovo_ret (kind := kind) (E := E) ch.good hpc ch.same hs.reads hv
    cases e1 : kind.ovo E Xs.frame a.feats (combinations2 a.feats) co.obj with
    | mk r1 c1 =>
      have ru1 : Runs co.obj c1 := by have := runs_ovo kind E Xs.frame a.feats (combinations2 a.feats) co.obj; rwa [e1] at this
      have st1 := good_runs ch.good ru1
      have same1 : SameData c1.X Xs.frame := by rw [st1.later.X]; exact ch.same
      have hpc1 : NeverFails c1.predict := by rw [st1.later.predict]; exact hpc
      rw [e1] at hO
      simp only at hO
      cases eo : ovoRows kind E g Xs.frame a.feats with
      | error er =>
        rw [eo] at hO
        subst hO
        refine ⟨⟨fun h => (by cases h), fun h => (by obtain ⟨⟨_, h⟩, _⟩ := h; cases h)⟩, fun _ => ?_⟩
        exact ⟨fun h => (by cases h; rfl), fun h => by cases h; rfl⟩
      | ok rowsO =>
        rw [eo] at hO
        subst hO
        simp only [Except.map]
        have hI := imp_ret (E := E) st1.good hpc1 same1 hs.reads hv.cols
        cases e2 : pdpImportance E.sortFeat (numIn E a.feats) a.feats c1 with
        | mk r2 c2 =>
          have ru2 : Runs c1 c2 := by have := runs_pdpImportance c1 E.sortFeat (numIn E a.feats) a.feats; rwa [e2] at this
          have st2 := good_runs st1.good ru2
          have same2 : SameData c2.X Xs.frame := by rw [st2.later.X]; exact same1
          have hpc2 : NeverFails c2.predict := by rw [st2.later.predict]; exact hpc1
          rw [e2] at hI
          simp only at hI
          cases ei : a.feats.mapM (impRow E g Xs.frame a.feats) with
          | error er =>
            rw [ei] at hI
            subst hI
            refine ⟨⟨fun h => (by cases h), fun h => by obtain ⟨_, ⟨_, h⟩⟩ := h; cases h⟩, fun ⟨_, h⟩ => by cases h⟩
          | ok rowsI =>
            rw [ei] at hI
            subst hI
            simp only [Except.map]
            have key : ∀ (k : PdKind), (match k with
                | .greenwell => True
                | .friedman n => ∃ ova c3, hstatOva E.sortFeat a.pf n Xs.frame a.feats c2 = (.ok ova, c3)) := by
              intro k
              cases k with
              | greenwell => trivial
              | friedman n =>
                obtain ⟨_, hd, _⟩ := imp_ok st1.good same1 hs.reads e2
                obtain ⟨rows, hrows⟩ := hstatOva_ret' (E := E) (n := n) st2.good hpc2 same2 hs.reads hs.rowWise hp
                  (fun f hf' => hd f (hv.cols f hf'))
                exact ⟨rows, _, Prod.ext hrows rfl⟩
            have key := key kind
            cases kind with
            | greenwell =>
              simp
            | friedman n =>
              obtain ⟨ova, c3, e3⟩ := key
              simp only [e3]
              by_cases ho : a.calculateOva = true <;> simp [ho]

end Fit
end Artemis
