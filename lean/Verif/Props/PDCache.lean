import Verif.Props.PD
import Verif.Proofs.ShapeAny

/-! # Properties C04–C09: batching, caching, lookups of the partial dependence calculator -/

set_option linter.unusedSectionVars false
set_option linter.unusedVariables false
set_option linter.unusedSimpArgs false

namespace Artemis
open Fam

variable {F V N : Type*} [DecidableEq F] [LinearOrder V] [Flt N]
variable {g : Row F V → N} {p : Nat → List (Row F V) → Except Err (List N)}

/-! ## C04 -/

/-- A request that only names columns (and, for pairs, two different ones). -/
def PDOp.Valid (X : Frame F V) : PDOp F → Prop
  | .single fs => ∀ f ∈ fs.getD X.cols, f ∈ X.cols
  | .pairs ps _ => ∀ q ∈ ps.getD (combinations2 X.cols), q.1 ∈ X.cols ∧ q.2 ∈ X.cols ∧ q.1 ≠ q.2
  | .minus fs => ∀ f ∈ fs.getD X.cols, f ∈ X.cols

/-- All getters of the two calculators agree on everything (values and exceptions). -/
structure SameAnswers (c c' : Calc F V N) : Prop where
  single : ∀ f vs, c.getSingle f vs = c'.getSingle f vs
  singleAll : ∀ f, c.getSingleAll f = c'.getSingleAll f
  pairs : ∀ f f' vs, c.getPairs f f' vs = c'.getPairs f f' vs
  pairsAll : ∀ f f', c.getPairsAll f f' = c'.getPairsAll f f'
  minus : ∀ f, c.getMinus f = c'.getMinus f

theorem sameAnswers_of_cells {c c' : Calc F V N} (hs : Shape c) (hs' : Shape c') (hX : c.X = c'.X)
    (hS : ∀ k, cellS c k = cellS c' k) (hP : ∀ k, cellP c k = cellP c' k)
    (hM : ∀ k, cellM c k = cellM c' k) : SameAnswers c c' := by
  have eS := single_ext hs hs' hX hS
  have eP := pair_ext hs hs' hX hP
  have eM := minus_ext hs hs' hX hM
  have ek : ∀ q, c.pairKey q = c'.pairKey q := by
    intro q; rw [pairKey_eq hs, pairKey_eq hs', hX]
  constructor
  · intro f vs
    unfold Calc.getSingle
    apply mapM_congr
    intro v _
    simp only [Calc.lookupSingle, eS]
  · intro f; simp only [Calc.getSingleAll, eS]
  · intro f f' vs; simp only [Calc.getPairs, ek, eP]
  · intro f f'; simp only [Calc.getPairsAll, ek, eP]
  · intro f; simp only [Calc.getMinus, eM]

/-- same cells in all three tables -/
structure SameCells (c c' : Calc F V N) : Prop where
  X : c.X = c'.X
  S : ∀ k, cellS c k = cellS c' k
  P : ∀ k, cellP c k = cellP c' k
  M : ∀ k, cellM c k = cellM c' k

theorem post_cells_eq {κ : Type*} [DecidableEq κ] {fam : Fam κ F V N} {B1 B2 : Nat} {keys : List κ}
    {c1 c2 d1 d2 : Calc F V N} (p1 : Post fam g B1 keys c1 d1) (p2 : Post fam g B2 keys c2 d2)
    (hX : c1.X = c2.X) (h : ∀ k, fam.cell c1 k = fam.cell c2 k) (k : κ) :
    fam.cell d1 k = fam.cell d2 k := by
  by_cases hk : k ∈ keys
  · rw [p1.done k hk, p2.done k hk, (fam.frm_cfg _ _ p1.frm).1, (fam.frm_cfg _ _ p2.frm).1, hX]
  · rw [p1.keep k hk, p2.keep k hk, h]

theorem run_ok {c : Calc F V N} (hg : Good g c) (hp : NeverFails c.predict) (op : PDOp F)
    (hv : op.Valid c.X) : (op.run c).1 = .ok () := by
  cases op with
  | single fs =>
    have := calculateSingle_spec hg.shape hg.soundS hg.rowWise fs _
      (fun f _ => Nat.mul_le_mul_right _ (length_npUnique_le _ f))
    simp only [PDOp.run]
    cases e : Calc.calculateSingle fs c with
    | mk r c' =>
      rw [e] at this
      cases r with
      | ok u => rfl
      | error err =>
        rcases this.2 with ⟨⟨f, hf', hn⟩, -⟩ | ⟨n, rows, he⟩
        · exact absurd (hv f hf') hn
        · obtain ⟨ys, hy⟩ := hp n rows
          rw [hy] at he; cases he
  | pairs ps all =>
    have := calculatePairs_spec hg.shape hg.soundP hg.rowWise ps all
    simp only [PDOp.run]
    cases e : Calc.calculatePairs ps all c with
    | mk r c' =>
      rw [e] at this
      cases r with
      | ok u => rfl
      | error err =>
        rcases this.2 with ⟨⟨q, hq, hb⟩, -⟩ | ⟨n, rows, he⟩
        · have h := hv q hq
          exact absurd hb (not_badPair all h.1 h.2.1 h.2.2)
        · obtain ⟨ys, hy⟩ := hp n rows
          rw [hy] at he; cases he
  | minus fs =>
    have := calculateMinus_spec hg.shape hg.soundM hg.rowWise fs
    simp only [PDOp.run]
    cases e : Calc.calculateMinus fs c with
    | mk r c' =>
      rw [e] at this
      cases r with
      | ok u => rfl
      | error err =>
        rcases this.2 with ⟨⟨f, hf', hn⟩, -⟩ | ⟨n, rows, he⟩
        · exact absurd (hv f hf') hn
        · obtain ⟨ys, hy⟩ := hp n rows
          rw [hy] at he; cases he

theorem run_sameCells {c1 c2 : Calc F V N} (hg1 : Good g c1) (hg2 : Good g c2) (h : SameCells c1 c2)
    (op : PDOp F) (o1 : (op.run c1).1 = .ok ()) (o2 : (op.run c2).1 = .ok ()) :
    SameCells (op.run c1).2 (op.run c2).2 := by
  cases op with
  | single fs =>
    obtain ⟨_, p1⟩ := single_post hg1 o1 _ (fun f _ => Nat.mul_le_mul_right _ (length_npUnique_le _ f))
    obtain ⟨_, p2⟩ := single_post hg2 o2 _ (fun f _ => Nat.mul_le_mul_right _ (length_npUnique_le _ f))
    rw [← h.X] at p2
    have f1 := p1.frm
    have f2 := p2.frm
    simp only [famS] at f1 f2
    refine ⟨?_, post_cells_eq p1 p2 h.X h.S, ?_, ?_⟩
    · change (Calc.calculateSingle fs c1).2.X = (Calc.calculateSingle fs c2).2.X
      rw [f1.1, f2.1, h.X]
    · intro k
      change cellP (Calc.calculateSingle fs c1).2 k = cellP (Calc.calculateSingle fs c2).2 k
      have := h.P k
      simp only [cellP, f1.2.2.2.1, f2.2.2.2.1] at this ⊢
      exact this
    · intro k
      change cellM (Calc.calculateSingle fs c1).2 k = cellM (Calc.calculateSingle fs c2).2 k
      have := h.M k
      simp only [cellM, f1.2.2.2.2, f2.2.2.2.2] at this ⊢
      exact this
  | pairs ps all =>
    obtain ⟨_, p1⟩ := pairs_post hg1 o1
    obtain ⟨_, p2⟩ := pairs_post hg2 o2
    rw [← h.X] at p2
    have f1 := p1.frm
    have f2 := p2.frm
    simp only [famP] at f1 f2
    refine ⟨?_, ?_, post_cells_eq p1 p2 h.X h.P, ?_⟩
    · change (Calc.calculatePairs ps all c1).2.X = (Calc.calculatePairs ps all c2).2.X
      rw [f1.1, f2.1, h.X]
    · intro k
      change cellS (Calc.calculatePairs ps all c1).2 k = cellS (Calc.calculatePairs ps all c2).2 k
      have := h.S k
      simp only [cellS, f1.2.2.2.1, f2.2.2.2.1] at this ⊢
      exact this
    · intro k
      change cellM (Calc.calculatePairs ps all c1).2 k = cellM (Calc.calculatePairs ps all c2).2 k
      have := h.M k
      simp only [cellM, f1.2.2.2.2, f2.2.2.2.2] at this ⊢
      exact this
  | minus fs =>
    obtain ⟨_, p1⟩ := minus_post hg1 o1
    obtain ⟨_, p2⟩ := minus_post hg2 o2
    rw [← h.X] at p2
    have f1 := p1.frm
    have f2 := p2.frm
    simp only [famM] at f1 f2
    refine ⟨?_, ?_, ?_, post_cells_eq p1 p2 h.X h.M⟩
    · change (Calc.calculateMinus fs c1).2.X = (Calc.calculateMinus fs c2).2.X
      rw [f1.1, f2.1, h.X]
    · intro k
      change cellS (Calc.calculateMinus fs c1).2 k = cellS (Calc.calculateMinus fs c2).2 k
      have := h.S k
      simp only [cellS, f1.2.2.2.1, f2.2.2.2.1] at this ⊢
      exact this
    · intro k
      change cellP (Calc.calculateMinus fs c1).2 k = cellP (Calc.calculateMinus fs c2).2 k
      have := h.P k
      simp only [cellP, f1.2.2.2.2, f2.2.2.2.2] at this ⊢
      exact this

theorem runOps_sameCells {c1 c2 : Calc F V N} (hg1 : Good g c1) (hg2 : Good g c2)
    (hp1 : NeverFails c1.predict) (hp2 : NeverFails c2.predict) (h : SameCells c1 c2)
    (ops : List (PDOp F)) (hv : ∀ op ∈ ops, op.Valid c1.X) :
    SameCells (runOps c1 ops) (runOps c2 ops) := by
  induction ops generalizing c1 c2 with
  | nil => exact h
  | cons op ops ih =>
    have v1 := hv op (by simp)
    have o1 := run_ok hg1 hp1 op v1
    have o2 := run_ok hg2 hp2 op (h.X ▸ v1)
    have s1 := opStep_run hg1 op
    have s2 := opStep_run hg2 op
    refine ih s1.good s2.good (by rw [s1.later.predict]; exact hp1) (by rw [s2.later.predict]; exact hp2)
      (run_sameCells hg1 hg2 h op o1 o2) ?_
    intro op' ho
    rw [s1.later.X]; exact hv op' (List.mem_cons_of_mem _ ho)

/-- **C04.** The same sequence of valid requests with two different batch sizes (and even two prediction
functions that differ in nothing but how they are called) answers every query identically. -/
theorem C04_batchsize_irrelevant {p' : Nat → List (Row F V) → Except Err (List N)}
    (hw : RowWise g p) (hw' : RowWise g p') (hp : NeverFails p) (hp' : NeverFails p')
    (X : Frame F V) (b b' : Int) (ops : List (PDOp F)) (hv : ∀ op ∈ ops, op.Valid X) :
    SameAnswers (runOps (Calc.new p X b) ops) (runOps (Calc.new p' X b') ops) := by
  have g1 := good_new hw X b
  have g2 := good_new hw' X b'
  have h0 : SameCells (Calc.new p X b) (Calc.new p' X b') := ⟨rfl, fun k => rfl, fun k => rfl, fun k => rfl⟩
  have h := runOps_sameCells g1 g2 hp hp' h0 ops hv
  exact sameAnswers_of_cells (good_runOps g1 ops).shape (good_runOps g2 ops).shape h.X h.S h.P h.M

/-! ## C05 -/

theorem getSingle_one {c : Calc F V N} {f : F} {v : V} {x : N} :
    c.getSingle f [v] = .ok [x] ↔ cellS c (f, v) = some x := by
  rw [← lookupSingle_eq]
  unfold Calc.getSingle
  rw [mapM_cons_except]
  cases c.lookupSingle f v <;> simp [List.mapM_nil, pure, Except.pure]

theorem lookupPairCell_eq {c : Calc F V N} (hs : Shape c) {k : F × F} {v : V × V} {x : N} :
    lookupPairCell c k v = .ok x ↔ cellP c (k, v) = some x := by
  unfold lookupPairCell
  constructor
  · intro h
    split at h
    · cases h
    · cases hc : cellP c (k, v) with
      | none => rw [hc] at h; cases h
      | some y => rw [hc] at h; cases h; rfl
  · intro h
    have := (isSome_cellP hs (k, v)).1 (by rw [h]; rfl)
    rw [if_neg (by simp [this.2.1, this.2.2]), h]

theorem getPairs_one {c : Calc F V N} (hs : Shape c) {f f' : F} {v : V × V} {x : N} :
    c.getPairs f f' [v] = .ok [x] ↔
      cellP c (canonPair c.X (f, f'), if canonPair c.X (f, f') ≠ (f, f') then v.swap else v) = some x := by
  rw [getPairs_char hs]
  by_cases hm : canonPair c.X (f, f') ∈ combinations2 c.X.cols
  · rw [if_neg (by simpa using hm), ← lookupPairCell_eq hs]
    by_cases hc : canonPair c.X (f, f') ≠ (f, f')
    · rw [if_pos hc, if_pos hc, List.map_singleton, mapM_cons_except]
      cases lookupPairCell c (canonPair c.X (f, f')) v.swap <;> simp [List.mapM_nil, pure, Except.pure]
    · rw [if_neg hc, if_neg hc, mapM_cons_except]
      cases lookupPairCell c (canonPair c.X (f, f')) v <;> simp [List.mapM_nil, pure, Except.pure]
  · rw [if_pos hm]
    simp only [reduceCtorEq, false_iff]
    intro h
    exact hm ((isSome_cellP hs _).1 (by rw [h]; rfl)).1

theorem truthP_canon (g : Row F V → N) (X : Frame F V) (f f' : F) (v : V × V) (hne : f ≠ f') :
    famP.truth g X (canonPair X (f, f'), if canonPair X (f, f') ≠ (f, f') then v.swap else v) =
      Spec.pdPair g X f f' v.1 v.2 := by
  by_cases hin : (f, f') ∈ combinations2 X.cols
  · have hc : canonPair X (f, f') = (f, f') := if_pos hin
    rw [hc, if_neg (by simp)]
    exact truthP g X f f' v.1 v.2 hne
  · have hc : canonPair X (f, f') = (f', f) := if_neg hin
    rw [hc, if_pos (by simp; intro h _; exact hne h.symm), pdPair_swap g X f f' v.1 v.2 hne]
    exact truthP g X f' f v.2 v.1 hne.symm

/-- **C05 (sound), single.** After any history (with failures of the model anywhere), a stored single value is
NaN or the brute-force value. -/
theorem C05_sound_single (hw : RowWise g p) (X : Frame F V) (b : Int) (ops : List (PDOp F)) (f : F) (v : V)
    (x : N) (h : (runOps (Calc.new p X b) ops).getSingle f [v] = .ok [x]) :
    x = Flt.nan ∨ x = Spec.pdSingle g X f v := by
  have hg := good_runOps (good_new hw X b) ops
  have := hg.soundS (f, v) x (getSingle_one.1 h)
  rwa [ops_X hw, truthS] at this

/-- **C05 (sound), pairs.** -/
theorem C05_sound_pairs (hw : RowWise g p) (X : Frame F V) (b : Int) (ops : List (PDOp F)) (f f' : F)
    (hne : f ≠ f') (v : V × V) (x : N) (h : (runOps (Calc.new p X b) ops).getPairs f f' [v] = .ok [x]) :
    x = Flt.nan ∨ x = Spec.pdPair g X f f' v.1 v.2 := by
  have hg := good_runOps (good_new hw X b) ops
  have := hg.soundP _ x ((getPairs_one hg.shape).1 h)
  rwa [ops_X hw, truthP_canon g X f f' v hne] at this

/-- **C05 (sound), minus-single.** -/
theorem C05_sound_minus (hw : RowWise g p) (X : Frame F V) (hr : ReadsOnly g X.cols) (b : Int)
    (ops : List (PDOp F)) (f : F) (ys : List N) (h : (runOps (Calc.new p X b) ops).getMinus f = .ok ys) :
    List.Forall₂ (fun r y => y = Flt.nan ∨ y = Spec.pdMinus g X f r) X.rows ys := by
  have hg := good_runOps (good_new hw X b) ops
  have hX := ops_X hw X b ops
  by_cases hf : f ∈ X.cols
  · obtain ⟨ys', e, hl, hi⟩ := getMinus_char hg.shape f (by rw [hX]; exact hf)
    rw [e] at h; cases h
    rw [hX] at hl
    rw [List.forall₂_iff_get]
    refine ⟨hl.symm, ?_⟩
    intro i h1 h2
    have := hg.soundM (f, i) ys[i] (by
      change cellM _ _ = _
      rw [← hi i, List.getElem?_eq_getElem h2])
    rw [hX, truthM g X hr f i h1] at this
    exact this
  · rw [getMinus_none hg.shape f (by rw [hX]; exact hf)] at h; cases h

/-- does a call request this single feature? -/
def PDOp.requestsS (X : Frame F V) (f : F) : PDOp F → Prop
  | .single fs => f ∈ fs.getD X.cols
  | _ => False
/-- does a call request this pair (in either order)? -/
def PDOp.requestsP (X : Frame F V) (f f' : F) : PDOp F → Prop
  | .pairs ps _ => (f, f') ∈ ps.getD (combinations2 X.cols) ∨ (f', f) ∈ ps.getD (combinations2 X.cols)
  | _ => False
/-- does a call request this feature of the all-but-one table? -/
def PDOp.requestsM (X : Frame F V) (f : F) : PDOp F → Prop
  | .minus fs => f ∈ fs.getD X.cols
  | _ => False

theorem E_of_op {c : Calc F V N} (hg : Good g c) (op : PDOp F) :
    (∀ k, (¬ ∃ fs, op = .single fs ∧ k ∈ reqS c.X fs) → cellS (op.run c).2 k = cellS c k) ∧
    (∀ k, (¬ ∃ ps all, op = .pairs ps all ∧ k ∈ reqP c.X ps all) → cellP (op.run c).2 k = cellP c k) ∧
    (∀ k, (¬ ∃ fs, op = .minus fs ∧ k ∈ reqM c.X fs) → cellM (op.run c).2 k = cellM c k) := by
  cases op with
  | single fs =>
    have h := calculateSingle_spec hg.shape hg.soundS hg.rowWise fs _
      (fun f _ => Nat.mul_le_mul_right _ (length_npUnique_le _ f))
    simp only [PDOp.run]
    cases e : Calc.calculateSingle fs c with
    | mk r c' =>
      rw [e] at h
      have hE : EInv famS g (reqS c.X fs) c c' := by
        cases r with
        | ok u => exact h.2.toE
        | error err => exact h.1
      have hf := hE.frm
      simp only [famS] at hf
      refine ⟨fun k hk => hE.keep k (fun hc => hk ⟨fs, rfl, hc⟩), fun k _ => ?_, fun k _ => ?_⟩
      · simp only [cellP, hf.2.2.2.1]
      · simp only [cellM, hf.2.2.2.2]
  | pairs ps all =>
    have h := calculatePairs_spec hg.shape hg.soundP hg.rowWise ps all
    simp only [PDOp.run]
    cases e : Calc.calculatePairs ps all c with
    | mk r c' =>
      rw [e] at h
      have hE : EInv famP g (reqP c.X ps all) c c' := by
        cases r with
        | ok u => exact h.2.toE
        | error err => exact h.1
      have hf := hE.frm
      simp only [famP] at hf
      refine ⟨fun k _ => ?_, fun k hk => hE.keep k (fun hc => hk ⟨ps, all, rfl, hc⟩), fun k _ => ?_⟩
      · simp only [cellS, hf.2.2.2.1]
      · simp only [cellM, hf.2.2.2.2]
  | minus fs =>
    have h := calculateMinus_spec hg.shape hg.soundM hg.rowWise fs
    simp only [PDOp.run]
    cases e : Calc.calculateMinus fs c with
    | mk r c' =>
      rw [e] at h
      have hE : EInv famM g (reqM c.X fs) c c' := by
        cases r with
        | ok u => exact h.2.toE
        | error err => exact h.1
      have hf := hE.frm
      simp only [famM] at hf
      refine ⟨fun k _ => ?_, fun k _ => ?_, fun k hk => hE.keep k (fun hc => hk ⟨fs, rfl, hc⟩)⟩
      · simp only [cellS, hf.2.2.2.1]
      · simp only [cellP, hf.2.2.2.2]

theorem keep_runOps {c : Calc F V N} (hg : Good g c) (ops : List (PDOp F)) :
    (∀ k : F × V, (∀ op ∈ ops, ¬ op.requestsS c.X k.1) → cellS (runOps c ops) k = cellS c k) ∧
    (∀ k : (F × F) × (V × V), (∀ op ∈ ops, ¬ op.requestsP c.X k.1.1 k.1.2) →
      cellP (runOps c ops) k = cellP c k) ∧
    (∀ k : F × Nat, (∀ op ∈ ops, ¬ op.requestsM c.X k.1) → cellM (runOps c ops) k = cellM c k) := by
  induction ops generalizing c with
  | nil => exact ⟨fun _ _ => rfl, fun _ _ => rfl, fun _ _ => rfl⟩
  | cons op ops ih =>
    have s := opStep_run hg op
    obtain ⟨i1, i2, i3⟩ := ih s.good
    obtain ⟨e1, e2, e3⟩ := E_of_op hg op
    rw [s.later.X] at i1 i2 i3
    refine ⟨fun k hk => ?_, fun k hk => ?_, fun k hk => ?_⟩
    · refine (i1 k (fun o ho => hk o (List.mem_cons_of_mem _ ho))).trans (e1 k ?_)
      rintro ⟨fs, rfl, hm⟩
      refine hk _ List.mem_cons_self ?_
      simp only [reqS, List.mem_flatMap, keysS, List.mem_map] at hm
      obtain ⟨f, hf, v, _, rfl⟩ := hm
      exact hf
    · refine (i2 k (fun o ho => hk o (List.mem_cons_of_mem _ ho))).trans (e2 k ?_)
      rintro ⟨ps, all, rfl, hm⟩
      refine hk _ List.mem_cons_self ?_
      simp only [reqP, List.mem_flatMap, keysP, List.mem_map] at hm
      obtain ⟨q, hq, v, _, rfl⟩ := hm
      simp only [canonPair, PDOp.requestsP]
      split
      · exact Or.inl hq
      · exact Or.inr hq
    · refine (i3 k (fun o ho => hk o (List.mem_cons_of_mem _ ho))).trans (e3 k ?_)
      rintro ⟨fs, rfl, hm⟩
      refine hk _ List.mem_cons_self ?_
      simp only [reqM, List.mem_flatMap, keysM, List.mem_map] at hm
      obtain ⟨f, hf, v, _, rfl⟩ := hm
      exact hf

theorem new_cellS_eq (X : Frame F V) (b : Int) {f : F} {v : V} (hf : f ∈ X.cols) (hv : v ∈ X.col f) :
    cellS (Calc.new p X b) (f, v) = some Flt.nan := by
  obtain ⟨x, hx⟩ := Option.isSome_iff_exists.1 ((isSome_cellS (shape_new p X b) (f, v)).2 ⟨hf, hv⟩)
  rw [hx, new_nan_S p X b _ _ hx]

theorem new_cellP_eq (X : Frame F V) (b : Int) {k : (F × F) × (V × V)} (hf : k.1 ∈ combinations2 X.cols)
    (h1 : k.2.1 ∈ X.col k.1.1) (h2 : k.2.2 ∈ X.col k.1.2) :
    cellP (Calc.new p X b) k = some Flt.nan := by
  obtain ⟨x, hx⟩ := Option.isSome_iff_exists.1 ((isSome_cellP (shape_new p X b) k).2 ⟨hf, h1, h2⟩)
  rw [hx, new_nan_P p X b _ _ hx]

theorem new_cellM_eq (X : Frame F V) (b : Int) {f : F} {i : Nat} (hf : f ∈ X.cols) (hi : i < X.len) :
    cellM (Calc.new p X b) (f, i) = some Flt.nan := by
  obtain ⟨x, hx⟩ := Option.isSome_iff_exists.1 ((isSome_cellM (shape_new p X b) (f, i)).2 ⟨hf, hi⟩)
  rw [hx, new_nan_M p X b _ _ hx]

/-- **C05 (unrequested).** A feature, pair or all-but-one feature that no call of the history asked for is
still NaN everywhere. -/
theorem C05_unrequested_is_nan (hw : RowWise g p) (X : Frame F V) (b : Int) (ops : List (PDOp F)) :
    (∀ f ∈ X.cols, (∀ op ∈ ops, ¬ op.requestsS X f) → ∀ v ∈ X.col f,
      (runOps (Calc.new p X b) ops).getSingle f [v] = .ok [Flt.nan]) ∧
    (∀ f ∈ X.cols, ∀ f' ∈ X.cols, f ≠ f' → (∀ op ∈ ops, ¬ op.requestsP X f f') → ∀ v ∈ X.col f,
      ∀ v' ∈ X.col f', (runOps (Calc.new p X b) ops).getPairs f f' [(v, v')] = .ok [Flt.nan]) ∧
    (∀ f ∈ X.cols, (∀ op ∈ ops, ¬ op.requestsM X f) →
      (runOps (Calc.new p X b) ops).getMinus f = .ok (List.replicate X.len Flt.nan)) := by
  have hg0 := good_new hw X b
  have hg := good_runOps hg0 ops
  have hX := ops_X hw X b ops
  obtain ⟨k1, k2, k3⟩ := keep_runOps hg0 ops
  refine ⟨?_, ?_, ?_⟩
  · intro f hf hreq v hv
    rw [getSingle_one, k1 (f, v) hreq]
    exact new_cellS_eq X b hf hv
  · intro f hf f' hf' hne hreq v hv v' hv'
    rw [getPairs_one hg.shape, hX]
    have hcm := canonPair_mem (X := X) (p := (f, f')) hf hf' hne
    by_cases hin : (f, f') ∈ combinations2 X.cols
    · have hc : canonPair X (f, f') = (f, f') := if_pos hin
      rw [hc, if_neg (by simp), k2 ((f, f'), (v, v')) hreq]
      exact new_cellP_eq X b hin hv hv'
    · have hc : canonPair X (f, f') = (f', f) := if_neg hin
      rw [hc] at hcm
      rw [hc, if_pos (by simp; intro h _; exact hne h.symm), k2 ((f', f), (v, v').swap) ?_]
      · exact new_cellP_eq X b hcm hv' hv
      · intro op ho hr
        apply hreq op ho
        cases op with
        | pairs ps all => simp only [PDOp.requestsP] at hr ⊢; exact hr.symm
        | single fs => exact hr
        | minus fs => exact hr
  · intro f hf hreq
    obtain ⟨ys, e, hl, hi⟩ := getMinus_char hg.shape f (by rw [hX]; exact hf)
    rw [e]
    congr 1
    rw [hX] at hl
    refine List.eq_replicate_iff.2 ⟨hl, ?_⟩
    intro y hy
    obtain ⟨i, h1, h2⟩ := List.mem_iff_getElem.1 hy
    have := hi i
    rw [List.getElem?_eq_getElem h1, k3 (f, i) hreq, new_cellM_eq X b hf (by omega), h2] at this
    exact (Option.some.inj this)

theorem CellStep.mono {κ : Type*} [DecidableEq κ] {fam : Fam κ F V N} {c c' : Calc F V N}
    (h : CellStep fam g c c') (hs : fam.Sound g c) {k : κ} {x : N} (hx : fam.cell c k = some x)
    (hn : Flt.isNaN x = false) : fam.cell c' k = some x := by
  rcases h k with h1 | h1
  · rw [h1, hx]
  · rcases hs k x hx with h2 | h2
    · rw [h2, Flt.isNaN_nan] at hn; cases hn
    · rw [h1.2, h2]

/-- **C05 (monotone).** A stored number (not NaN) is never changed by later calls, whatever they are and
whether they fail or not. -/
theorem C05_monotone (hw : RowWise g p) (X : Frame F V) (b : Int) (ops later : List (PDOp F)) :
    (∀ f v x, (runOps (Calc.new p X b) ops).getSingle f [v] = .ok [x] → Flt.isNaN x = false →
      (runOps (Calc.new p X b) (ops ++ later)).getSingle f [v] = .ok [x]) ∧
    (∀ f f' v x, (runOps (Calc.new p X b) ops).getPairs f f' [v] = .ok [x] → Flt.isNaN x = false →
      (runOps (Calc.new p X b) (ops ++ later)).getPairs f f' [v] = .ok [x]) ∧
    (∀ f (ys : List N) (i : Nat) (y : N), (runOps (Calc.new p X b) ops).getMinus f = .ok ys → ys[i]? = some y →
      Flt.isNaN y = false → ∃ ys', (runOps (Calc.new p X b) (ops ++ later)).getMinus f = .ok ys' ∧
        ys'[i]? = some y) := by
  have hg := good_runOps (good_new hw X b) ops
  have hX := ops_X hw X b ops
  rw [runOps_append]
  have st := opStep_runOps hg later
  refine ⟨?_, ?_, ?_⟩
  · intro f v x h hn
    rw [getSingle_one] at h ⊢
    exact st.S.mono hg.soundS h hn
  · intro f f' v x h hn
    rw [getPairs_one hg.shape] at h
    rw [getPairs_one st.good.shape, st.later.X]
    exact st.P.mono hg.soundP h hn
  · intro f ys i y h hy hn
    by_cases hf : f ∈ X.cols
    · obtain ⟨ys1, e1, l1, i1⟩ := getMinus_char hg.shape f (by rw [hX]; exact hf)
      obtain ⟨ys2, e2, l2, i2⟩ := getMinus_char st.good.shape f (by rw [st.later.X, hX]; exact hf)
      rw [e1] at h; cases h
      refine ⟨ys2, e2, ?_⟩
      rw [i2]
      exact st.M.mono hg.soundM (by change cellM _ _ = _; rw [← i1, hy]) hn
    · rw [getMinus_none hg.shape f (by rw [hX]; exact hf)] at h; cases h

/-! ## C06 -/

/-- **C06, single.** After a request has succeeded, repeating it (or any part of it) at any later time makes no
prediction call and changes nothing, if no brute-force value asked for is itself NaN. -/
theorem C06_no_requery_single (hw : RowWise g p) (X : Frame F V) (b : Int) (ops later : List (PDOp F))
    (features : Option (List F)) (again : List F)
    (hret : (Calc.calculateSingle features (runOps (Calc.new p X b) ops)).1 = .ok ())
    (hsub : ∀ f ∈ again, f ∈ features.getD X.cols)
    (hnn : ∀ f ∈ again, ∀ v ∈ X.col f, Flt.isNaN (Spec.pdSingle g X f v) = false) :
    let c := runOps (Calc.calculateSingle features (runOps (Calc.new p X b) ops)).2 later
    Calc.calculateSingle (some again) c = (.ok (), c) := by
  intro c
  have hX := ops_X hw X b ops
  have hg := good_runOps (good_new hw X b) ops
  obtain ⟨hcols, post⟩ := single_post hg hret _
    (fun f _ => Nat.mul_le_mul_right _ (length_npUnique_le _ f))
  have g1 : Good g (Calc.calculateSingle features (runOps (Calc.new p X b) ops)).2 :=
    (opStep_run hg (.single features)).good
  have st := opStep_runOps g1 later
  have hX1 := (famS.frm_cfg _ _ post.frm).1.trans hX
  have hX2 : c.X = X := st.later.X.trans hX1
  rw [hX] at hcols post
  apply calculateSingle_noop st.good.shape
  · intro f hf; rw [hX2]; exact hcols f (hsub f hf)
  · intro f hf v hv
    rw [hX2] at hv
    have hf' : f ∈ again := hf
    have hk : (f, v) ∈ reqS X features := by
      simp only [reqS, List.mem_flatMap, keysS, List.mem_map]
      exact ⟨f, hsub f hf', v, mem_npUnique.2 hv, rfl⟩
    have := post.done _ hk
    rw [hX1, truthS] at this
    exact ⟨_, st.S.mono g1.soundS this (hnn f hf' v hv), hnn f hf' v hv⟩

/-- **C06, pairs.** -/
theorem C06_no_requery_pairs (hw : RowWise g p) (X : Frame F V) (b : Int) (ops later : List (PDOp F))
    (pairs : Option (List (F × F))) (all : Bool) (again : List (F × F))
    (hret : (Calc.calculatePairs pairs all (runOps (Calc.new p X b) ops)).1 = .ok ())
    (hsub : ∀ q ∈ again, q.1 ∈ X.cols ∧ q.2 ∈ X.cols ∧ q.1 ≠ q.2 ∧ q ∈ pairs.getD (combinations2 X.cols))
    (hnn : ∀ q ∈ again, ∀ v ∈ X.col q.1, ∀ v' ∈ X.col q.2,
      Flt.isNaN (Spec.pdPair g X q.1 q.2 v v') = false) :
    let c := runOps (Calc.calculatePairs pairs all (runOps (Calc.new p X b) ops)).2 later
    Calc.calculatePairs (some again) all c = (.ok (), c) := by
  intro c
  have hX := ops_X hw X b ops
  have hg := good_runOps (good_new hw X b) ops
  obtain ⟨_, post⟩ := pairs_post hg hret
  have g1 : Good g (Calc.calculatePairs pairs all (runOps (Calc.new p X b) ops)).2 :=
    (opStep_run hg (.pairs pairs all)).good
  have st := opStep_runOps g1 later
  have hX1 := (famP.frm_cfg _ _ post.frm).1.trans hX
  have hX2 : c.X = X := st.later.X.trans hX1
  rw [hX] at post
  apply calculatePairs_noop st.good.shape
  · intro q hq
    rw [hX2]
    have := hsub q hq
    exact canonPair_mem this.1 this.2.1 this.2.2.1
  · intro k hk
    rw [hX2] at hk
    simp only [reqP, Option.getD_some, List.mem_flatMap] at hk
    obtain ⟨q, hq, hk⟩ := hk
    have hq' := hsub q hq
    have hk' : k ∈ reqP X pairs all := by
      simp only [reqP, List.mem_flatMap]
      exact ⟨q, hq'.2.2.2, hk⟩
    have := post.done _ hk'
    rw [hX1] at this
    have hnan : Flt.isNaN (famP.truth g X k) = false := by
      simp only [keysP, List.mem_map] at hk
      obtain ⟨v, hv, rfl⟩ := hk
      have hm := mem_valsP hv
      by_cases hin : q ∈ combinations2 X.cols
      · have hc : canonPair X q = q := if_pos hin
        rw [hc] at hm ⊢
        have := truthP g X q.1 q.2 v.1 v.2 hq'.2.2.1
        rw [show ((q, v) : (F × F) × (V × V)) = ((q.1, q.2), (v.1, v.2)) from rfl, this]
        exact hnn q hq v.1 hm.1 v.2 hm.2
      · have hc : canonPair X q = (q.2, q.1) := if_neg hin
        rw [hc] at hm ⊢
        have := truthP g X q.2 q.1 v.1 v.2 hq'.2.2.1.symm
        rw [show (((q.2, q.1), v) : (F × F) × (V × V)) = ((q.2, q.1), (v.1, v.2)) from rfl, this,
          ← pdPair_swap g X q.1 q.2 v.2 v.1 hq'.2.2.1]
        exact hnn q hq v.2 hm.2 v.1 hm.1
    exact ⟨_, st.P.mono g1.soundP this hnan, hnan⟩

/-- **C06, minus-single.** -/
theorem C06_no_requery_minus (hw : RowWise g p) (X : Frame F V) (hr : ReadsOnly g X.cols) (b : Int)
    (ops later : List (PDOp F)) (features : Option (List F)) (again : List F)
    (hret : (Calc.calculateMinus features (runOps (Calc.new p X b) ops)).1 = .ok ())
    (hsub : ∀ f ∈ again, f ∈ features.getD X.cols)
    (hnn : ∀ f ∈ again, ∀ r ∈ X.rows, Flt.isNaN (Spec.pdMinus g X f r) = false) :
    let c := runOps (Calc.calculateMinus features (runOps (Calc.new p X b) ops)).2 later
    Calc.calculateMinus (some again) c = (.ok (), c) := by
  intro c
  have hX := ops_X hw X b ops
  have hg := good_runOps (good_new hw X b) ops
  obtain ⟨hcols, post⟩ := minus_post hg hret
  have g1 : Good g (Calc.calculateMinus features (runOps (Calc.new p X b) ops)).2 :=
    (opStep_run hg (.minus features)).good
  have st := opStep_runOps g1 later
  have hX1 := (famM.frm_cfg _ _ post.frm).1.trans hX
  have hX2 : c.X = X := st.later.X.trans hX1
  rw [hX] at hcols post
  apply calculateMinus_noop st.good.shape
  · intro f hf; rw [hX2]; exact hcols f (hsub f hf)
  · intro f hf i hi
    rw [hX2] at hi
    have hf' : f ∈ again := hf
    have hk : (f, i) ∈ reqM X features := by
      simp only [reqM, List.mem_flatMap, keysM, List.mem_map]
      exact ⟨f, hsub f hf', i, List.mem_range.2 hi, rfl⟩
    have := post.done _ hk
    rw [hX1, truthM g X hr f i hi] at this
    have hn := hnn f hf' _ (List.getElem_mem (show i < X.rows.length from hi))
    exact ⟨_, st.M.mono g1.soundM this hn, hn⟩

/-! ## C07 -/

/-- The batching contract for the prediction calls `new` made during one request. -/
def Spec.Batched (b : Int) (step : Nat) (new : List (List (Row F V))) : Prop :=
  (∀ call ∈ new, call ≠ [] ∧ (call.length : Int) ≤ max b 0 + step) ∧
  ∀ call ∈ new.dropLast, b < call.length

/-- **C07, single.** Every prediction call of a successful request except the last has more than `batchsize`
rows, none is empty, none exceeds the batch size by more than the rows of one feature; and every row scored is a
row of the data with a requested feature set to one of its values. -/
theorem C07_batches_single (hw : RowWise g p) (X : Frame F V) (b : Int) (ops : List (PDOp F))
    (features : Option (List F)) (step : Nat)
    (hstep : ∀ f ∈ features.getD X.cols, (X.col f).dedup.length * X.rows.length ≤ step)
    (hret : (Calc.calculateSingle features (runOps (Calc.new p X b) ops)).1 = .ok ()) :
    ∃ new, (Calc.calculateSingle features (runOps (Calc.new p X b) ops)).2.calls =
        (runOps (Calc.new p X b) ops).calls ++ new ∧ Spec.Batched b step new ∧
      ∀ call ∈ new, ∀ row ∈ call, ∃ f ∈ features.getD X.cols, ∃ v ∈ X.col f, ∃ r ∈ X.rows,
        row = fun h => if h = f then v else r h := by
  have hX := ops_X hw X b ops
  have hb := ops_batch hw X b ops
  have hg := good_runOps (good_new hw X b) ops
  obtain ⟨_, post⟩ := single_post hg hret step (by
    rw [hX]; intro f hf
    have := hstep f hf
    simpa [npUnique, Frame.len] using this)
  have hcfg := famS.frm_cfg _ _ post.frm
  rw [hX] at post hcfg
  obtain ⟨new, e, h1, h2⟩ := post.trace
  rw [hcfg.2.2, hb] at h1 h2
  rw [hcfg.1] at h1
  refine ⟨new, e, ⟨fun call hc => ⟨List.ne_nil_of_length_pos (h1 call hc).2.1, (h1 call hc).2.2⟩, h2⟩, ?_⟩
  intro call hc row hrow
  obtain ⟨ks, e', hks⟩ := (h1 call hc).1
  rw [e'] at hrow
  obtain ⟨k, hk, hrow⟩ := List.mem_flatMap.1 hrow
  have hreq := hks k hk
  simp only [reqS, List.mem_flatMap, keysS, List.mem_map, mem_npUnique] at hreq
  obtain ⟨f, hf, v, hv, rfl⟩ := hreq
  simp only [famS, blockSingle, Frame.assign, List.mem_map] at hrow
  obtain ⟨r, hr, rfl⟩ := hrow
  refine ⟨f, hf, v, hv, r, hr, ?_⟩
  funext h
  simp [Function.update_apply]

/-- **C07, pairs.** -/
theorem C07_batches_pairs (hw : RowWise g p) (X : Frame F V) (b : Int) (ops : List (PDOp F))
    (pairs : Option (List (F × F))) (all : Bool)
    (hret : (Calc.calculatePairs pairs all (runOps (Calc.new p X b) ops)).1 = .ok ()) :
    ∃ new, (Calc.calculatePairs pairs all (runOps (Calc.new p X b) ops)).2.calls =
        (runOps (Calc.new p X b) ops).calls ++ new ∧ Spec.Batched b X.rows.length new ∧
      ∀ call ∈ new, ∀ row ∈ call, ∃ f f', ((f, f') ∈ pairs.getD (combinations2 X.cols) ∨
          (f', f) ∈ pairs.getD (combinations2 X.cols)) ∧ ∃ v ∈ X.col f, ∃ v' ∈ X.col f', ∃ r ∈ X.rows,
        row = fun h => if h = f' then v' else if h = f then v else r h := by
  have hX := ops_X hw X b ops
  have hb := ops_batch hw X b ops
  have hg := good_runOps (good_new hw X b) ops
  obtain ⟨_, post⟩ := pairs_post hg hret
  have hcfg := famP.frm_cfg _ _ post.frm
  rw [hX] at post hcfg
  obtain ⟨new, e, h1, h2⟩ := post.trace
  rw [hcfg.2.2, hb] at h1 h2
  rw [hcfg.1] at h1
  refine ⟨new, e, ⟨fun call hc => ⟨List.ne_nil_of_length_pos (h1 call hc).2.1, (h1 call hc).2.2⟩, h2⟩, ?_⟩
  intro call hc row hrow
  obtain ⟨ks, e', hks⟩ := (h1 call hc).1
  rw [e'] at hrow
  obtain ⟨k, hk, hrow⟩ := List.mem_flatMap.1 hrow
  have hreq := hks k hk
  simp only [reqP, List.mem_flatMap, keysP, List.mem_map] at hreq
  obtain ⟨q, hq, v, hv, rfl⟩ := hreq
  have hm := mem_valsP hv
  simp only [famP, blockPair, Frame.assign, List.mem_map] at hrow
  obtain ⟨r', ⟨r, hr, rfl⟩, rfl⟩ := hrow
  refine ⟨(canonPair X q).1, (canonPair X q).2, ?_, v.1, hm.1, v.2, hm.2, r, hr, ?_⟩
  · unfold canonPair
    split
    · exact Or.inl hq
    · exact Or.inr hq
  · funext h
    simp [Function.update_apply]

/-- **C07, minus-single.** -/
theorem C07_batches_minus (hw : RowWise g p) (X : Frame F V) (b : Int) (ops : List (PDOp F))
    (features : Option (List F))
    (hret : (Calc.calculateMinus features (runOps (Calc.new p X b) ops)).1 = .ok ()) :
    ∃ new, (Calc.calculateMinus features (runOps (Calc.new p X b) ops)).2.calls =
        (runOps (Calc.new p X b) ops).calls ++ new ∧
      Spec.Batched b (X.rows.length * X.rows.length) new ∧
      ∀ call ∈ new, ∀ row ∈ call, ∃ f ∈ features.getD X.cols, ∃ ri ∈ X.rows, ∃ rj ∈ X.rows,
        ∀ h ∈ X.cols, row h = if h = f then rj h else ri h := by
  have hX := ops_X hw X b ops
  have hb := ops_batch hw X b ops
  have hg := good_runOps (good_new hw X b) ops
  obtain ⟨_, post⟩ := minus_post hg hret
  have hcfg := famM.frm_cfg _ _ post.frm
  rw [hX] at post hcfg
  obtain ⟨new, e, h1, h2⟩ := post.trace
  rw [hcfg.2.2, hb] at h1 h2
  rw [hcfg.1] at h1
  refine ⟨new, e, ⟨fun call hc => ⟨List.ne_nil_of_length_pos (h1 call hc).2.1, (h1 call hc).2.2⟩, h2⟩, ?_⟩
  intro call hc row hrow
  obtain ⟨ks, e', hks⟩ := (h1 call hc).1
  rw [e'] at hrow
  obtain ⟨k, hk, hrow⟩ := List.mem_flatMap.1 hrow
  have hreq := hks k hk
  simp only [reqM, List.mem_flatMap, keysM, List.mem_map, List.mem_range] at hreq
  obtain ⟨f, hf, i, hi, rfl⟩ := hreq
  have hi' : i < X.rows.length := hi
  simp only [famM, blockMinus, List.getElem?_eq_getElem hi', List.mem_map] at hrow
  obtain ⟨rj, hr, rfl⟩ := hrow
  refine ⟨f, hf, X.rows[i], List.getElem_mem hi', rj, hr, ?_⟩
  intro h hh
  by_cases hhf : h = f
  · simp [hhf]
  · simp [hhf, hh]

/-! ## C08 -/

/-- **C08.** Asking for a pair in the other order with swapped values gives the same answer (value or
exception), in every reachable calculator state. -/
theorem C08_pair_lookup_symmetric (p : Nat → List (Row F V) → Except Err (List N)) (X : Frame F V) (nd : X.cols.Nodup) (b : Int)
    (ops : List (PDOp F)) (f f' : F) (hne : f ≠ f') (vs : List (V × V)) :
    (runOps (Calc.new p X b) ops).getPairs f f' vs =
      (runOps (Calc.new p X b) ops).getPairs f' f (vs.map Prod.swap) := by
  obtain ⟨hg, hX⟩ := shaped_history p X b ops
  rw [getPairs_char hg, getPairs_char hg, hX]
  have hss : (vs.map Prod.swap).map Prod.swap = vs := by simp
  have n1 : ((f, f') : F × F) ≠ (f', f) := fun h => hne (Prod.mk.inj h).1
  by_cases h1 : (f, f') ∈ combinations2 X.cols
  · have h2 := not_mem_combinations2_swap nd h1
    have c1 : canonPair X (f, f') = (f, f') := if_pos h1
    have c2 : canonPair X (f', f) = (f, f') := if_neg h2
    simp only [c1, c2, h1, not_true, if_false, ne_eq, n1, not_false_iff, if_true, hss]
  · have c1 : canonPair X (f, f') = (f', f) := if_neg h1
    by_cases h2 : (f', f) ∈ combinations2 X.cols
    · have c2 : canonPair X (f', f) = (f', f) := if_pos h2
      simp only [c1, c2, h2, not_true, if_false, ne_eq, n1.symm, not_false_iff, if_true]
    · have c2 : canonPair X (f', f) = (f, f') := if_neg h2
      rw [c1, c2, if_pos h1, if_pos h2]

/-! ## C09 -/

/-- **C09, single.** Unknown feature: KeyError (as soon as a value is asked for); unknown value: IndexError;
otherwise one number per requested value. -/
theorem C09_lookup_single (p : Nat → List (Row F V) → Except Err (List N)) (X : Frame F V) (b : Int) (ops : List (PDOp F)) (f : F)
    (vs : List V) :
    (f ∉ X.cols → vs ≠ [] → (runOps (Calc.new p X b) ops).getSingle f vs = .error .keyError) ∧
    (f ∈ X.cols → (∃ v ∈ vs, v ∉ X.col f) →
      (runOps (Calc.new p X b) ops).getSingle f vs = .error .indexError) ∧
    (f ∈ X.cols → (∀ v ∈ vs, v ∈ X.col f) →
      ∃ ys, (runOps (Calc.new p X b) ops).getSingle f vs = .ok ys ∧ ys.length = vs.length) := by
  obtain ⟨hg, hX⟩ := shaped_history p X b ops
  have hch := fun v => lookupSingle_char hg f v
  simp only [hX] at hch
  have hok : f ∈ X.cols → ∀ v, v ∈ X.col f →
      ∃ y, (runOps (Calc.new p X b) ops).lookupSingle f v = .ok y := by
    intro hf v hv
    obtain ⟨x, hx⟩ := Option.isSome_iff_exists.1
      ((isSome_cellS hg (f, v)).2 (by rw [hX]; exact ⟨hf, hv⟩))
    exact ⟨x, (lookupSingle_eq _ _ _ _).2 hx⟩
  refine ⟨?_, ?_, ?_⟩
  · intro hf hne
    apply mapM_error
    · intro v _; left; rw [hch, if_pos hf]
    · obtain ⟨v, hv⟩ := List.exists_mem_of_ne_nil vs hne
      exact ⟨v, hv, by rw [hch, if_pos hf]⟩
  · rintro hf ⟨v, hv, hn⟩
    apply mapM_error
    · intro w _
      by_cases hw' : w ∈ X.col f
      · exact Or.inr (hok hf w hw')
      · left; rw [hch, if_neg (by simpa using hf), if_pos hw']
    · exact ⟨v, hv, by rw [hch, if_neg (by simpa using hf), if_pos hn]⟩
  · intro hf hall
    exact mapM_exists_ok (fun v hv => hok hf v (hall v hv))

/-- **C09, pairs.** Anything but two different columns: KeyError; unknown value: IndexError; otherwise one
number per requested pair of values. -/
theorem C09_lookup_pairs (p : Nat → List (Row F V) → Except Err (List N)) (X : Frame F V) (nd : X.cols.Nodup) (b : Int)
    (ops : List (PDOp F)) (f f' : F) (vs : List (V × V)) :
    (¬ (f ∈ X.cols ∧ f' ∈ X.cols ∧ f ≠ f') →
      (runOps (Calc.new p X b) ops).getPairs f f' vs = .error .keyError) ∧
    ((f ∈ X.cols ∧ f' ∈ X.cols ∧ f ≠ f') → (∃ v ∈ vs, v.1 ∉ X.col f ∨ v.2 ∉ X.col f') →
      (runOps (Calc.new p X b) ops).getPairs f f' vs = .error .indexError) ∧
    ((f ∈ X.cols ∧ f' ∈ X.cols ∧ f ≠ f') → (∀ v ∈ vs, v.1 ∈ X.col f ∧ v.2 ∈ X.col f') →
      ∃ ys, (runOps (Calc.new p X b) ops).getPairs f f' vs = .ok ys ∧ ys.length = vs.length) := by
  obtain ⟨hg, hX⟩ := shaped_history p X b ops
  have hm := canonPair_mem_iff (X := X) nd (p := (f, f'))
  rw [getPairs_char hg, hX]
  have hok : ∀ k ∈ combinations2 X.cols, ∀ v : V × V, v.1 ∈ X.col k.1 → v.2 ∈ X.col k.2 →
      ∃ y, lookupPairCell (runOps (Calc.new p X b) ops) k v = .ok y := by
    intro k hk v h1 h2
    obtain ⟨x, hx⟩ := Option.isSome_iff_exists.1
      ((isSome_cellP hg (k, v)).2 (by rw [hX]; exact ⟨hk, h1, h2⟩))
    exact ⟨x, (lookupPairCell_eq hg).2 hx⟩
  have herr : ∀ k, ∀ v : V × V, (v.1 ∉ X.col k.1 ∨ v.2 ∉ X.col k.2) →
      lookupPairCell (runOps (Calc.new p X b) ops) k v = .error .indexError := by
    intro k v h
    simp only [lookupPairCell, hX]; rw [if_pos h]
  refine ⟨?_, ?_, ?_⟩
  · intro h; rw [if_pos (fun hc => h (hm.1 hc))]
  · rintro h ⟨v, hv, hbad⟩
    have hk := hm.2 h
    rw [if_neg (by simpa using hk)]
    unfold canonPair at hk ⊢
    by_cases hin : (f, f') ∈ combinations2 X.cols
    · rw [if_pos hin] at hk ⊢
      rw [if_neg (by simp)]
      apply mapM_error
      · intro w _
        by_cases hw' : w.1 ∈ X.col f ∧ w.2 ∈ X.col f'
        · exact Or.inr (hok _ hk w hw'.1 hw'.2)
        · left; apply herr; exact not_and_or.1 hw'
      · exact ⟨v, hv, herr _ _ hbad⟩
    · rw [if_neg hin] at hk ⊢
      rw [if_pos (by simp; intro e _; exact h.2.2 e.symm)]
      apply mapM_error
      · intro w _
        by_cases hw' : w.1 ∈ X.col f' ∧ w.2 ∈ X.col f
        · exact Or.inr (hok _ hk w hw'.1 hw'.2)
        · left; apply herr; exact not_and_or.1 hw'
      · exact ⟨v.swap, List.mem_map.2 ⟨v, hv, rfl⟩, herr _ _ hbad.symm⟩
  · intro h hall
    have hk := hm.2 h
    rw [if_neg (by simpa using hk)]
    unfold canonPair at hk ⊢
    by_cases hin : (f, f') ∈ combinations2 X.cols
    · rw [if_pos hin] at hk ⊢
      rw [if_neg (by simp)]
      exact mapM_exists_ok (fun v hv => hok _ hk v (hall v hv).1 (hall v hv).2)
    · rw [if_neg hin] at hk ⊢
      rw [if_pos (by simp; intro e _; exact h.2.2 e.symm)]
      obtain ⟨ys, e, hl⟩ := mapM_exists_ok (f := lookupPairCell (runOps (Calc.new p X b) ops) (f', f))
        (l := vs.map Prod.swap) (fun w hw' => by
          obtain ⟨v, hv, rfl⟩ := List.mem_map.1 hw'
          exact hok _ hk _ (hall v hv).2 (hall v hv).1)
      exact ⟨ys, e, by simpa using hl⟩

/-! ## Concrete cases meeting the hypotheses -/

section Cases
open Ex

/-- C04: valid requests; batch sizes 0 and 100 make a different number of prediction calls -/
example : (∀ op ∈ ([.single none, .pairs (some [(2, 0)]) true, .minus (some [1])] : List (PDOp (Fin 3))),
      op.Valid exX) ∧
    (runOps (Calc.new exP exX 0) [.single none, .pairs (some [(2, 0)]) true, .minus (some [1])]).calls.length = 8 ∧
    (runOps (Calc.new exP exX 100) [.single none, .pairs (some [(2, 0)]) true, .minus (some [1])]).calls.length = 3 := by
  refine ⟨?_, by decide +kernel, by decide +kernel⟩
  intro op ho
  simp only [List.mem_cons, List.not_mem_nil, or_false] at ho
  rcases ho with rfl | rfl | rfl
  · simp [PDOp.Valid]
  · simp [PDOp.Valid]; decide
  · simp [PDOp.Valid]; decide

/-- **C04**, failing requests are excluded for a reason: a request that raises part-way (here the pair `(0, 0)`) leaves
behind what had been scored before, and how much that is depends on the batch size. -/
theorem C04_failed_request_depends_on_batchsize :
    ∃ (ops : List (PDOp (Fin 3))), ¬ SameAnswers (runOps (Calc.new exP exX 0) ops) (runOps (Calc.new exP exX 100) ops) := by
  refine ⟨[.pairs (some [(0, 1), (0, 0)]) true], fun h => ?_⟩
  have h1 := h.pairs 0 1 [(0, 0)]
  have h2 : isOk ((runOps (Calc.new exP exX 100) [.pairs (some [(0, 1), (0, 0)]) true]).getPairs 0 1 [(0, 0)]) [.nan] = true := by
    decide +kernel
  rw [← h1] at h2
  revert h2
  decide +kernel

/-- C05: in a partly failed history some cells are numbers, others still NaN -/
example : isOk ((runOps (Calc.new exPFail exX 5) [.pairs none true]).getPairs 0 1 [(0, 0), (0, 1)])
      [.fin 3, .fin 3] = true ∧
    isOk ((runOps (Calc.new exPFail exX 5) [.pairs none true]).getPairs 1 2 [(0, 1)]) [.nan] = true ∧
    isOk ((runOps (Calc.new exPFail exX 5) [.pairs none true]).getSingle 1 [0]) [.nan] = true := by
  decide +kernel

/-- C06: the repeated request really makes no call, although the first one made some -/
example : (Calc.calculateSingle none (Calc.new exP exX 5)).2.calls.length = 3 ∧
    (Calc.calculateSingle (some [1]) (Calc.calculateSingle none (Calc.new exP exX 5)).2).2.calls.length = 3 ∧
    (∀ f ∈ exX.cols, ∀ v ∈ exX.col f, Flt.isNaN (Spec.pdSingle exG exX f v) = false) := by decide +kernel

/-- C07: all pairs with batch size 5: calls on 8 rows (more than 5, at most 5 + 4) -/
example : (Calc.calculatePairs none true (Calc.new exP exX 5)).2.calls.map List.length = [8, 8, 8, 8, 8, 8] ∧
    (Calc.calculatePairs none true (Calc.new exP exX 9)).2.calls.map List.length = [12, 12, 12, 12] ∧
    (Calc.calculateMinus none (Calc.new exP exX 20)).2.calls.map List.length = [32, 16] := by decide +kernel

/-- C08/C09: both orders agree; unknown values and features raise -/
example : isOk ((Calc.calculatePairs none true (Calc.new exP exX 5)).2.getPairs 0 2 [(1, 5)]) [.fin (11/2)] = true ∧
    isOk ((Calc.calculatePairs none true (Calc.new exP exX 5)).2.getPairs 2 0 [(5, 1)]) [.fin (11/2)] = true ∧
    ok ((Calc.new exP exX 5).getPairs 0 2 [(5, 1)]) = false ∧ ok ((Calc.new exP exX 5).getPairs 0 0 []) = false ∧
    ok ((Calc.new exP exX 5).getSingle 0 [7]) = false := by decide +kernel

end Cases

end Artemis
