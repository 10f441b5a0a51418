import Verif.Proofs.RoundErrors
import Verif.Proofs.GwLemmas

/-!
# The tables of `friedmanR` in terms of brute-force partial dependence
-/

set_option linter.unusedSectionVars false
set_option linter.unusedVariables false
set_option linter.unusedSimpArgs false

namespace Artemis
open Spec Fam

section RoundTables
variable {F V K : Type} [DecidableEq F] [LinearOrder V] [Field K] [LinearOrder K] [IsStrictOrderedRing K]
  [HasSqrt K] {A : Arith K} {ι : Type}

/-- rounded centred value of one row -/
def ctrR (A : Arith K) (rows : List ι) (p : ι → Num K) (i : ι) : Num K := A.sub (p i) (A.mean (rows.map p))

/-- rounded numerator of one row -/
def gapR (A : Arith K) (rows : List ι) (p q w : ι → Num K) (i : ι) : Num K :=
  A.sub (A.sub (ctrR A rows w i) (ctrR A rows p i)) (ctrR A rows q i)

/-- rounded H from the partial dependences of the rows -/
def hRowsR (A : Arith K) (n : Bool) (rows : List ι) (p q w : ι → Num K) : Num K :=
  if n then A.div (A.sum (rows.map fun i => A.sq (gapR A rows p q w i))) (A.sum (rows.map fun i => A.sq (ctrR A rows w i)))
  else A.sqrt (A.mean (rows.map fun i => A.sq (gapR A rows p q w i)))

theorem center_rows (rows : List ι) (p : ι → Num K) : A.center (rows.map p) = rows.map (ctrR A rows p) := by
  simp only [Arith.center, List.map_map]
  rfl

theorem subB_rows (rows : List ι) (p q : ι → Num K) : A.subB (rows.map p) (rows.map q) = .ok (rows.map fun i => A.sub (p i) (q i)) := by
  unfold Arith.subB
  rw [if_pos (by simp)]
  congr 1
  induction rows with
  | nil => rfl
  | cons i l ih => simp only [List.map_cons, List.zipWith_cons_cons, ih]

theorem hstatValueR_rows (n : Bool) (rows : List ι) (p q w : ι → Rounded A) :
    hstatValueR A (rows.map p) (rows.map q) (rows.map w) n =
      .ok (hRowsR A n rows (fun i => (p i).val) (fun i => (q i).val) (fun i => (w i).val)) := by
  have e : ∀ p : ι → Rounded A, (rows.map p).map Rounded.val = rows.map fun i => (p i).val := fun p => by rw [List.map_map]; rfl
  unfold hstatValueR
  simp only [e, center_rows, subB_rows, bind, Except.bind, List.map_map]
  rfl

variable {g : Row F V → Rounded A}

/-- rounded H of a pair -/
def hPairR (n : Bool) (g : Row F V → Rounded A) (X : Frame F V) (f f' : F) : Num K :=
  hRowsR A n X.rows (fun r => (pdSingle g X f (r f)).val) (fun r => (pdSingle g X f' (r f')).val)
    (fun r => (pdPair g X f f' (r f) (r f')).val)

/-- rounded one-versus-all H of a feature -/
def hFeatR (n : Bool) (g : Row F V → Rounded A) (X : Frame F V) (f : F) : Num K :=
  hRowsR A n X.rows (fun r => (pdSingle g X f (r f)).val) (fun r => (pdMinus g X f r).val) (fun r => (g r).val)

theorem hstatPairR_done {c : Calc F V (Rounded A)} (hs : Shape c) {q : F × F} (hne : q.1 ≠ q.2)
    (d1 : DoneS g c q.1) (d2 : DoneS g c q.2) (d : DoneP g c false q) (n : Bool) :
    hstatPairR A n c.X c q = .ok ⟨q.1, q.2, hPairR n g c.X q.1 q.2⟩ := by
  unfold hstatPairR
  simp only [Frame.colE, d1.1, d2.1, if_true, bind, Except.bind, getSingle_done d1, getSingle_done d2,
    getPairs_done hs hne d]
  rw [hstatValueR_rows]
  rfl

theorem opStep_of_run {N : Type} [Flt N] {g : Row F V → N} {c c' : Calc F V N} (hg : Good g c) {op : PDOp F} {r : Except Err Unit}
    (e : op.run c = (r, c')) : OpStep g c c' := by
  have := opStep_run hg op
  rwa [e] at this

theorem hstatOvoR_ret {c : Calc F V (Rounded A)} (hg : Good g c) (hp : NeverFails c.predict) (sort) (n : Bool) {fs : List F}
    (hv : ValidFeatures c.X fs) : ∃ c', hstatOvoR A sort n c.X fs (combinations2 fs) c =
      (.ok ((sort ((combinations2 fs).map fun q => ⟨q.1, q.2, hPairR n g c.X q.1 q.2⟩)).map OvoRow.fillna), c') ∧
      OpStep g c c' ∧ ∀ f ∈ fs, DoneS g c' f := by
  have o1 : (Calc.calculatePairs (some (combinations2 fs)) false c).1 = .ok () :=
    run_ok hg hp (.pairs (some (combinations2 fs)) false) (fun q hq => by
      have hq' := mem_combinations2 (p := q) hq
      exact ⟨hv.cols _ hq'.1, hv.cols _ hq'.2, hv.ne q hq⟩)
  have dp := doneP_of_ok hg o1
  cases e1 : Calc.calculatePairs (some (combinations2 fs)) false c with
  | mk r1 c1 =>
    have s1 : OpStep g c c1 := opStep_of_run hg (op := .pairs (some (combinations2 fs)) false) e1
    rw [e1] at o1 dp
    simp only at o1 dp
    subst o1
    have o2 : (Calc.calculateSingle (some fs) c1).1 = .ok () :=
      run_ok s1.good (by rw [s1.later.predict]; exact hp) (.single (some fs)) (fun f hf => by
        rw [s1.later.X]; exact hv.cols f hf)
    have ds := doneS_of_ok s1.good o2
    cases e2 : Calc.calculateSingle (some fs) c1 with
    | mk r2 c2 =>
      have s2 : OpStep g c1 c2 := opStep_of_run s1.good (op := .single (some fs)) e2
      rw [e2] at o2 ds
      simp only at o2 ds
      subst o2
      have hX : c2.X = c.X := s2.later.X.trans s1.later.X
      have hm : (combinations2 fs).mapM (hstatPairR A n c.X c2) =
          .ok ((combinations2 fs).map fun q => ⟨q.1, q.2, hPairR n g c.X q.1 q.2⟩) := by
        refine mapM_ok (fun q hq => ?_)
        have hq' := mem_combinations2 (p := q) hq
        have hne := hv.ne q hq
        have := hstatPairR_done (g := g) s2.good.shape hne (ds _ hq'.1) (ds _ hq'.2)
          (((dp q hq).1 (canonPair_mem (hv.cols _ hq'.1) (hv.cols _ hq'.2) hne)).step s2) n
        rw [hX] at this
        exact this
      refine ⟨c2, ?_, s1.trans s2, fun f hf => ds f hf⟩
      simp only [hstatOvoR, PyM.seq, e1, e2, hm]

theorem hstatFeatureR_done {c : Calc F V (Rounded A)} (hs : Shape c) {f : F}
    (d1 : DoneS g c f) (d : DoneM g c f) (hr : ReadsOnly g c.X.cols) (n : Bool) :
    hstatFeatureR A n c.X (c.X.rows.map g) c f = .ok ⟨f, hFeatR n g c.X f⟩ := by
  unfold hstatFeatureR
  simp only [Frame.colE, d1.1, if_true, bind, Except.bind, getSingle_done d1, getMinus_done hs d hr]
  rw [hstatValueR_rows]
  rfl

theorem hstatOvaR_ret {c : Calc F V (Rounded A)} (hg : Good g c) (hp : NeverFails c.predict) (sort)
    {predict : PF F V (Rounded A)} (hw : RowWise g predict) (hp' : NeverFails predict)
    (hr : ReadsOnly g c.X.cols) (n : Bool) {fs : List F} (hd : ∀ f ∈ fs, DoneS g c f) :
    ∃ c', hstatOvaR A sort predict n c.X fs c =
      (.ok ((sort (fs.map (fun f => ⟨f, hFeatR n g c.X f⟩))).map FeatRow.fillna), c') := by
  have o1 : (Calc.calculateMinus (some fs) c).1 = .ok () :=
    run_ok hg hp (.minus (some fs)) (fun f hf => (hd f hf).1)
  have dm := doneM_of_ok hg o1
  cases e1 : Calc.calculateMinus (some fs) c with
  | mk r1 c1 =>
    have s1 : OpStep g c c1 := opStep_of_run hg (op := .minus (some fs)) e1
    rw [e1] at o1 dm
    simp only at o1 dm
    subst o1
    have hX : c1.X = c.X := s1.later.X
    obtain ⟨preds, ep⟩ := hp' c1.calls.length c.X.rows
    have hpr := hw _ _ _ ep
    subst hpr
    have hm : fs.mapM (hstatFeatureR A n c.X (c.X.rows.map g) c1) =
        .ok (fs.map (fun f => (⟨f, hFeatR n g c.X f⟩ : FeatRow F K))) := by
      refine mapM_ok (fun f hf => ?_)
      have := hstatFeatureR_done (g := g) s1.good.shape ((hd f hf).step s1) (dm f hf)
        (by simp only [hX]; exact hr) n
      simp only [hX] at this
      exact this
    refine ⟨c1, ?_⟩
    simp only [hstatOvaR, PyM.seq, e1, ep, hm]

/-- rounded importance of a feature -/
def impNumR (b : Bool) (g : Row F V → Rounded A) (X : Frame F V) (f : F) : Num K :=
  let l := (npUnique (X.col f)).map fun v => (pdSingle g X f v).val
  if b then npStdR A l else (rangeImpR A l).toOption.getD .nan

theorem rangeImpR_ok {l : List (Num K)} (h : l ≠ []) : ∃ v, rangeImpR A l = .ok v := by
  cases l with
  | nil => exact absurd rfl h
  | cons a l => exact ⟨_, rfl⟩

theorem calcImportanceR_done {c : Calc F V (Rounded A)} (hs : Shape c) (hX : c.X.rows ≠ []) {f : F} (d1 : DoneS g c f)
    (numeric : F → Bool) : calcImportanceR A numeric c f = .ok ⟨f, impNumR (numeric f) g c.X f⟩ := by
  unfold calcImportanceR impNumR
  simp only [bind, Except.bind, getSingleAll_done hs d1, List.map_map, Function.comp_def]
  cases numeric f with
  | true => rfl
  | false =>
    obtain ⟨v, e⟩ := rangeImpR_ok (A := A) (l := (npUnique (c.X.col f)).map fun v => (pdSingle g c.X f v).val)
      (by simpa using col_ne_nil hX f)
    simp [e, Except.toOption]

theorem pdpImportanceR_ret {c : Calc F V (Rounded A)} (hg : Good g c) (hp : NeverFails c.predict) (hX : c.X.rows ≠ []) (sort)
    (numeric : F → Bool) {fs : List F} (hf : ∀ f ∈ fs, f ∈ c.X.cols) : ∃ c', pdpImportanceR A sort numeric fs c =
      (.ok ((sort (fs.map fun f => ⟨f, impNumR (numeric f) g c.X f⟩)).map FeatRow.fillna), c') ∧ OpStep g c c' := by
  have o1 : (Calc.calculateSingle none c).1 = .ok () := run_ok hg hp (.single none) (fun f hf => hf)
  have ds := doneS_of_ok hg o1
  cases e1 : Calc.calculateSingle none c with
  | mk r1 c1 =>
    have s1 : OpStep g c c1 := opStep_of_run hg (op := .single none) e1
    rw [e1] at o1 ds
    simp only at o1 ds
    subst o1
    have hX1 : c1.X = c.X := s1.later.X
    have hm : fs.mapM (calcImportanceR A numeric c1) = .ok (fs.map fun f => ⟨f, impNumR (numeric f) g c.X f⟩) := by
      refine mapM_ok (fun f hf' => ?_)
      have := calcImportanceR_done s1.good.shape (by rw [hX1]; exact hX) (ds f (hf f hf')) numeric
      rw [hX1] at this
      exact this
    refine ⟨c1, ?_, s1⟩
    simp only [pdpImportanceR, PyM.seq, e1, hm]

/-- The tables of the rounded H-statistic method are the brute-force ones. -/
theorem friedmanR_ret (sortOvo sortFeat) (numeric : F → Bool) (n : Bool) {predict : PF F V (Rounded A)} (hw : RowWise g predict)
    (hp : NeverFails predict) {X : Frame F V} (hX : X.rows ≠ []) (hr : ReadsOnly g X.cols) {fs : List F} (hv : ValidFeatures X fs)
    (b : Int) : friedmanR A sortOvo sortFeat numeric n predict X fs b =
      .ok ((sortOvo ((combinations2 fs).map fun q => ⟨q.1, q.2, hPairR n g X q.1 q.2⟩)).map OvoRow.fillna,
        (sortFeat (fs.map (fun f => ⟨f, hFeatR n g X f⟩))).map FeatRow.fillna,
        (sortFeat (fs.map fun f => ⟨f, impNumR (numeric f) g X f⟩)).map FeatRow.fillna) := by
  have hg := good_new hw X b
  obtain ⟨c1, e1, s1, d1⟩ := hstatOvoR_ret (A := A) hg (by exact hp) sortOvo n hv
  have hX1 : c1.X = X := s1.later.X
  have hp1 : c1.predict = predict := s1.later.predict
  obtain ⟨c2, e2, s2⟩ := pdpImportanceR_ret (A := A) s1.good (by rw [hp1]; exact hp) (by rw [hX1]; exact hX) sortFeat
    (fun f => numeric f && decide (f ∈ fs)) (fs := fs) (by rw [hX1]; exact hv.cols)
  have hX2 : c2.X = X := s2.later.X.trans hX1
  have hp2 : c2.predict = predict := s2.later.predict.trans hp1
  obtain ⟨c3, e3⟩ := hstatOvaR_ret (A := A) s2.good (by rw [hp2]; exact hp) sortFeat hw hp (by rw [hX2]; exact hr) n
    (fs := fs) (fun f hf => (d1 f hf).step s2)
  rw [hX2] at e3
  rw [hX1] at e2
  have e1' : hstatOvoR A sortOvo n X fs (combinations2 fs) (Calc.new predict X b) = _ := e1
  unfold friedmanR
  simp only [PyM.seq, e1', e2, e3]
  have : (fs.map fun f => (⟨f, impNumR (numeric f && decide (f ∈ fs)) g X f⟩ : FeatRow F K)) =
      fs.map fun f => ⟨f, impNumR (numeric f) g X f⟩ := List.map_congr_left fun f hf => by simp [hf]
  rw [this]
  rfl

end RoundTables
end Artemis
