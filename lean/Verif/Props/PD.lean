import Verif.Proofs.PDCalcObs
import Verif.Examples.PDData

/-!
# Properties C01–C09: the partial dependence calculator

Everything is quantified over an abstract float type (only NaN, a NaN test and *some* mean), so the theorems
hold for IEEE doubles bit by bit. The prediction function may raise at any call.
`runOps (Calc.new p X b) ops` is the calculator after an arbitrary history of public calls, successful or not.
-/

set_option linter.unusedSectionVars false
set_option linter.unusedVariables false

namespace Artemis
open Fam

variable {F V N : Type*} [DecidableEq F] [LinearOrder V] [Flt N]
variable {g : Row F V → N} {p : Nat → List (Row F V) → Except Err (List N)}

section helpers
variable {c : Calc F V N}

theorem ops_X (hw : RowWise g p) (X : Frame F V) (b : Int) (ops : List (PDOp F)) :
    (runOps (Calc.new p X b) ops).X = X :=
  (opStep_runOps (good_new hw X b) ops).later.X

theorem ops_predict (hw : RowWise g p) (X : Frame F V) (b : Int) (ops : List (PDOp F)) :
    (runOps (Calc.new p X b) ops).predict = p :=
  (opStep_runOps (good_new hw X b) ops).later.predict

theorem ops_batch (hw : RowWise g p) (X : Frame F V) (b : Int) (ops : List (PDOp F)) :
    (runOps (Calc.new p X b) ops).batchsize = b :=
  (opStep_runOps (good_new hw X b) ops).later.batchsize

theorem single_post (hg : Good g c) {features : Option (List F)}
    (h : (Calc.calculateSingle features c).1 = .ok ()) (B : Nat)
    (hB : ∀ f ∈ features.getD c.X.cols, (npUnique (c.X.col f)).length * c.X.len ≤ B) :
    (∀ f ∈ features.getD c.X.cols, f ∈ c.X.cols) ∧
      Post famS g B (reqS c.X features) c (Calc.calculateSingle features c).2 := by
  have := calculateSingle_spec hg.shape hg.soundS hg.rowWise features B hB
  cases e : Calc.calculateSingle features c with
  | mk r c' =>
    rw [e] at this h
    simp only at h; subst h
    exact ⟨by simpa using this.1, this.2⟩

theorem minus_post (hg : Good g c) {features : Option (List F)}
    (h : (Calc.calculateMinus features c).1 = .ok ()) :
    (∀ f ∈ features.getD c.X.cols, f ∈ c.X.cols) ∧
      Post famM g (c.X.len * c.X.len) (reqM c.X features) c (Calc.calculateMinus features c).2 := by
  have := calculateMinus_spec hg.shape hg.soundM hg.rowWise features
  cases e : Calc.calculateMinus features c with
  | mk r c' =>
    rw [e] at this h
    simp only at h; subst h
    exact ⟨by simpa using this.1, this.2⟩

theorem pairs_post (hg : Good g c) {pairs : Option (List (F × F))} {all : Bool}
    (h : (Calc.calculatePairs pairs all c).1 = .ok ()) :
    (∀ q ∈ pairs.getD (combinations2 c.X.cols), ¬ badPair all c.X q) ∧
      Post famP g c.X.len (reqP c.X pairs all) c (Calc.calculatePairs pairs all c).2 := by
  have := calculatePairs_spec hg.shape hg.soundP hg.rowWise pairs all
  cases e : Calc.calculatePairs pairs all c with
  | mk r c' =>
    rw [e] at this h
    simp only at h; subst h
    refine ⟨?_, this.2⟩
    intro q hq hb; exact this.1 ⟨q, hq, hb⟩
end helpers

/-! ## C01 -/

/-- the same for a calculator whose entries are NaN or right -/
theorem single_of_good {c : Calc F V N} (hg : Good g c) {X : Frame F V} (hX : c.X = X)
    (features : Option (List F))
    (hret : (Calc.calculateSingle features c).1 = .ok ()) :
    ∀ f ∈ features.getD X.cols, ∀ vs : List V, (∀ v ∈ vs, v ∈ X.col f) →
      (Calc.calculateSingle features c).2.getSingle f vs =
        .ok (vs.map (Spec.pdSingle g X f)) := by
  intro f hf vs hvs
  obtain ⟨hcols, post⟩ := single_post hg hret _
    (fun f _ => Nat.mul_le_mul_right _ (length_npUnique_le _ f))
  rw [hX] at hcols post
  have hX' := (famS.frm_cfg _ _ post.frm).1
  rw [hX] at hX'
  refine mapM_ok (fun v hv => ?_)
  rw [lookupSingle_char post.shape, hX']
  have hk : (f, v) ∈ reqS X features := by
    simp only [reqS, List.mem_flatMap, keysS, List.mem_map]
    exact ⟨f, hf, v, mem_npUnique.2 (hvs v hv), rfl⟩
  have := post.done _ hk
  rw [hX', truthS] at this
  rw [if_neg (by simpa using hcols f hf), if_neg (by simpa using hvs v hv)]
  change cellS _ (f, v) = _ at this
  rw [this]

/-- the whole array, for a calculator whose entries are NaN or right -/
theorem single_all_of_good {c : Calc F V N} (hg : Good g c) {X : Frame F V} (hX : c.X = X)
    (features : Option (List F))
    (hret : (Calc.calculateSingle features c).1 = .ok ()) :
    ∀ f ∈ features.getD X.cols, ∃ us : List V, us.Pairwise (· < ·) ∧ (∀ v, v ∈ us ↔ v ∈ X.col f) ∧
      (Calc.calculateSingle features c).2.getSingleAll f =
        .ok (us.map (Spec.pdSingle g X f)) := by
  intro f hf
  refine ⟨npUnique (X.col f), sorted_npUnique _, fun v => mem_npUnique, ?_⟩
  obtain ⟨hcols, post⟩ := single_post hg hret _
    (fun f _ => Nat.mul_le_mul_right _ (length_npUnique_le _ f))
  rw [hX] at hcols post
  have hX' := (famS.frm_cfg _ _ post.frm).1
  rw [hX] at hX'
  obtain ⟨ys, e, hl, hi⟩ := getSingleAll_char post.shape f (by rw [hX']; exact hcols f hf)
  rw [e]
  congr 1
  rw [hX'] at hl hi
  apply List.ext_getElem?
  intro i
  by_cases h : i < (npUnique (X.col f)).length
  · have hk : (f, (npUnique (X.col f))[i]) ∈ reqS X features := by
      simp only [reqS, List.mem_flatMap, keysS, List.mem_map]
      exact ⟨f, hf, _, List.getElem_mem h, rfl⟩
    have := post.done _ hk
    rw [hX', truthS] at this
    rw [hi i h, List.getElem?_map, List.getElem?_eq_getElem h]
    exact this
  · rw [List.getElem?_eq_none (by omega), List.getElem?_eq_none (by simpa using h)]

/-- **C01.** If `calculate_pd_single(features)` returns, then for each requested feature and every value of it
in the data, `get_pd_single` is the brute-force mean prediction. -/
theorem C01_single_pd_is_brute_force (hw : RowWise g p) (X : Frame F V) (b : Int) (ops : List (PDOp F))
    (features : Option (List F))
    (hret : (Calc.calculateSingle features (runOps (Calc.new p X b) ops)).1 = .ok ()) :
    ∀ f ∈ features.getD X.cols, ∀ vs : List V, (∀ v ∈ vs, v ∈ X.col f) →
      (Calc.calculateSingle features (runOps (Calc.new p X b) ops)).2.getSingle f vs =
        .ok (vs.map (Spec.pdSingle g X f)) :=
  single_of_good (good_runOps (good_new hw X b) ops) (ops_X hw X b ops) features hret

/-- **C01**, whole array: without explicit values the getter returns one brute-force mean per distinct
value, in increasing order of the values. -/
theorem C01_single_pd_all_values (hw : RowWise g p) (X : Frame F V) (b : Int) (ops : List (PDOp F))
    (features : Option (List F))
    (hret : (Calc.calculateSingle features (runOps (Calc.new p X b) ops)).1 = .ok ()) :
    ∀ f ∈ features.getD X.cols, ∃ us : List V, us.Pairwise (· < ·) ∧ (∀ v, v ∈ us ↔ v ∈ X.col f) ∧
      (Calc.calculateSingle features (runOps (Calc.new p X b) ops)).2.getSingleAll f =
        .ok (us.map (Spec.pdSingle g X f)) :=
  single_all_of_good (good_runOps (good_new hw X b) ops) (ops_X hw X b ops) features hret

/-- **C01**, termination without exception: the call returns whenever the prediction function never raises
and all requested features are columns. -/
theorem C01_single_pd_returns (hw : RowWise g p) (hp : NeverFails p) (X : Frame F V) (b : Int)
    (ops : List (PDOp F)) (features : Option (List F)) (hf : ∀ f ∈ features.getD X.cols, f ∈ X.cols) :
    (Calc.calculateSingle features (runOps (Calc.new p X b) ops)).1 = .ok () := by
  have hX := ops_X hw X b ops
  have hP := ops_predict hw X b ops
  have hg := good_runOps (good_new hw X b) ops
  have := calculateSingle_spec hg.shape hg.soundS hg.rowWise features _
    (fun f _ => Nat.mul_le_mul_right _ (length_npUnique_le _ f))
  cases e : Calc.calculateSingle features (runOps (Calc.new p X b) ops) with
  | mk r c' =>
    rw [e] at this
    cases r with
    | ok u => rfl
    | error err =>
      rcases this.2 with ⟨⟨f, hf', hn⟩, -⟩ | ⟨n, rows, he⟩
      · rw [hX] at hf' hn; exact absurd (hf f hf') hn
      · rw [hP] at he
        obtain ⟨ys, hy⟩ := hp n rows
        rw [hy] at he; cases he

/-! ## C02 -/

theorem not_badPair {X : Frame F V} {q : F × F} (all : Bool) (h1 : q.1 ∈ X.cols) (h2 : q.2 ∈ X.cols)
    (hne : q.1 ≠ q.2) : ¬ badPair all X q := fun h => h.1 (canonPair_mem h1 h2 hne)

/-- The pairs of values that a request covers, per the documentation: all combinations of observed values, or
just the combinations observed in some row. -/
def Spec.covered (all : Bool) (X : Frame F V) (f f' : F) (v : V × V) : Prop :=
  if all then v.1 ∈ X.col f ∧ v.2 ∈ X.col f' else ∃ r ∈ X.rows, r f = v.1 ∧ r f' = v.2

theorem mem_zip_map {α β γ : Type*} (l : List α) (f : α → β) (h : α → γ) (x : β × γ) :
    x ∈ (l.map f).zip (l.map h) ↔ ∃ a ∈ l, f a = x.1 ∧ h a = x.2 := by
  rw [List.zip_map', List.mem_map]
  constructor
  · rintro ⟨a, ha, rfl⟩; exact ⟨a, ha, rfl, rfl⟩
  · rintro ⟨a, ha, h1, h2⟩; exact ⟨a, ha, Prod.ext h1 h2⟩

omit [DecidableEq F] in
theorem mem_valsP_iff {all : Bool} {X : Frame F V} {k : F × F} {v : V × V} :
    v ∈ valsP all X k ↔ Spec.covered all X k.1 k.2 v := by
  cases all with
  | true =>
    simp only [valsP, Spec.covered, if_true, List.mem_flatMap, List.mem_map, mem_npUnique]
    constructor
    · rintro ⟨a, ha, b, hb, rfl⟩; exact ⟨ha, hb⟩
    · rintro ⟨ha, hb⟩; exact ⟨v.1, ha, v.2, hb, rfl⟩
  | false =>
    simp only [valsP, Spec.covered, Bool.false_eq_true, if_false, Frame.col]
    exact mem_zip_map _ _ _ _

theorem covered_swap {all : Bool} {X : Frame F V} {f f' : F} {v : V × V}
    (h : Spec.covered all X f f' v) : Spec.covered all X f' f v.swap := by
  cases all with
  | true => simp only [Spec.covered, if_true] at h ⊢; exact ⟨h.2, h.1⟩
  | false =>
    simp only [Spec.covered, Bool.false_eq_true, if_false] at h ⊢
    obtain ⟨r, hr, h1, h2⟩ := h; exact ⟨r, hr, h2, h1⟩

theorem covered_mem {all : Bool} {X : Frame F V} {f f' : F} {v : V × V}
    (h : Spec.covered all X f f' v) : v.1 ∈ X.col f ∧ v.2 ∈ X.col f' :=
  mem_valsP (k := (f, f')) (mem_valsP_iff.2 h)

/-- the same for a calculator whose entries are NaN or right -/
theorem pair_of_good {c : Calc F V N} (hg : Good g c) {X : Frame F V} (hX : c.X = X) (pairs : Option (List (F × F))) (all : Bool)
    (hret : (Calc.calculatePairs pairs all c).1 = .ok ()) :
    ∀ f f', f ∈ X.cols → f' ∈ X.cols → f ≠ f' →
      ((f, f') ∈ pairs.getD (combinations2 X.cols) ∨ (f', f) ∈ pairs.getD (combinations2 X.cols)) →
      X.cols.Nodup →
      ∀ vs : List (V × V), (∀ v ∈ vs, Spec.covered all X f f' v) →
      (Calc.calculatePairs pairs all c).2.getPairs f f' vs =
        .ok (vs.map (fun v => Spec.pdPair g X f f' v.1 v.2)) := by
  intro f f' hf hf' hne hreq nd vs hvs
  obtain ⟨_, post⟩ := pairs_post hg hret
  rw [hX] at post
  have hX' := (famP.frm_cfg _ _ post.frm).1
  rw [hX] at hX'
  have hcm : canonPair X (f, f') ∈ combinations2 X.cols := canonPair_mem hf hf' hne
  have hcs : canonPair X (f', f) = canonPair X (f, f') := by
    unfold canonPair
    rcases mem_combinations2_or hf hf' hne with h | h
    · rw [if_pos h, if_neg (not_mem_combinations2_swap nd h)]
    · rw [if_pos h, if_neg (not_mem_combinations2_swap nd h)]
  rw [getPairs_char post.shape, hX', if_neg (by simpa using hcm)]
  -- the stored key was requested
  have hreqk : ∀ w ∈ valsP all X (canonPair X (f, f')), (canonPair X (f, f'), w) ∈ reqP X pairs all := by
    intro w hw'
    simp only [reqP, List.mem_flatMap, keysP, List.mem_map]
    rcases hreq with h | h
    · exact ⟨(f, f'), h, w, hw', rfl⟩
    · exact ⟨(f', f), h, w, by rw [hcs]; exact hw', by rw [hcs]⟩
  by_cases hin : (f, f') ∈ combinations2 X.cols
  · have hc : canonPair X (f, f') = (f, f') := if_pos hin
    rw [hc] at hreqk ⊢
    rw [if_neg (by simp)]
    refine mapM_ok (fun v hv => ?_)
    have hm := covered_mem (hvs v hv)
    have := post.done _ (hreqk v (mem_valsP_iff.2 (hvs v hv)))
    rw [hX', truthP g X f f' v.1 v.2 hne] at this
    change cellP _ ((f, f'), v) = _ at this
    simp only [lookupPairCell, hX', this, hm.1, hm.2, not_true, or_self, if_false]
  · have hc : canonPair X (f, f') = (f', f) := if_neg hin
    rw [hc] at hreqk ⊢
    rw [if_pos (by simp; intro h _; exact hne h.symm)]
    have : (vs.map (fun v => Spec.pdPair g X f f' v.1 v.2)) =
        (vs.map Prod.swap).map (fun v => Spec.pdPair g X f' f v.1 v.2) := by
      rw [List.map_map]
      apply List.map_congr_left
      intro v _
      simp only [Function.comp, Prod.fst_swap, Prod.snd_swap]
      exact pdPair_swap g X f f' v.1 v.2 hne
    rw [this]
    refine mapM_ok (fun w hw' => ?_)
    obtain ⟨v, hv, rfl⟩ := List.mem_map.1 hw'
    have hcov := covered_swap (hvs v hv)
    have hm := covered_mem hcov
    have := post.done _ (hreqk v.swap (mem_valsP_iff.2 hcov))
    rw [hX', truthP g X f' f v.swap.1 v.swap.2 hne.symm] at this
    change cellP _ ((f', f), v.swap) = _ at this
    simp only [lookupPairCell, hX', this, hm.1, hm.2, not_true, or_self, if_false]

/-- **C02.** If `calculate_pd_pairs(pairs, all_combinations)` returns, then for each requested pair of
distinct columns, in whichever order it is asked for, and all value pairs covered by the request,
`get_pd_pairs` is the brute-force mean prediction. -/
theorem C02_pair_pd_is_brute_force (hw : RowWise g p) (X : Frame F V) (b : Int)
    (ops : List (PDOp F)) (pairs : Option (List (F × F))) (all : Bool)
    (hret : (Calc.calculatePairs pairs all (runOps (Calc.new p X b) ops)).1 = .ok ()) :
    ∀ f f', f ∈ X.cols → f' ∈ X.cols → f ≠ f' →
      ((f, f') ∈ pairs.getD (combinations2 X.cols) ∨ (f', f) ∈ pairs.getD (combinations2 X.cols)) →
      X.cols.Nodup →
      ∀ vs : List (V × V), (∀ v ∈ vs, Spec.covered all X f f' v) →
      (Calc.calculatePairs pairs all (runOps (Calc.new p X b) ops)).2.getPairs f f' vs =
        .ok (vs.map (fun v => Spec.pdPair g X f f' v.1 v.2)) :=
  pair_of_good (good_runOps (good_new hw X b) ops) (ops_X hw X b ops) pairs all hret

/-- **C02**, termination without exception. -/
theorem C02_pair_pd_returns (hw : RowWise g p) (hp : NeverFails p) (X : Frame F V) (b : Int)
    (ops : List (PDOp F)) (pairs : Option (List (F × F))) (all : Bool) (nd : X.cols.Nodup)
    (hf : ∀ l, pairs = some l → ∀ q ∈ l, q.1 ∈ X.cols ∧ q.2 ∈ X.cols ∧ q.1 ≠ q.2) :
    (Calc.calculatePairs pairs all (runOps (Calc.new p X b) ops)).1 = .ok () := by
  have hX := ops_X hw X b ops
  have hP := ops_predict hw X b ops
  have hg := good_runOps (good_new hw X b) ops
  have := calculatePairs_spec hg.shape hg.soundP hg.rowWise pairs all
  cases e : Calc.calculatePairs pairs all (runOps (Calc.new p X b) ops) with
  | mk r c' =>
    rw [e] at this
    cases r with
    | ok u => rfl
    | error err =>
      rcases this.2 with ⟨⟨q, hq, hb⟩, -⟩ | ⟨n, rows, he⟩
      · rw [hX] at hq hb
        have : q.1 ∈ X.cols ∧ q.2 ∈ X.cols ∧ q.1 ≠ q.2 := by
          cases pairs with
          | none =>
            exact ⟨(mem_combinations2 hq).1, (mem_combinations2 hq).2, ne_of_mem_combinations2 nd hq⟩
          | some l => exact hf l rfl q hq
        exact absurd hb (not_badPair all this.1 this.2.1 this.2.2)
      · rw [hP] at he
        obtain ⟨ys, hy⟩ := hp n rows
        rw [hy] at he; cases he

/-! ## C03 -/

/-- the same for a calculator whose entries are NaN or right -/
theorem minus_of_good {c : Calc F V N} (hg : Good g c) {X : Frame F V} (hX : c.X = X) (hr : ReadsOnly g X.cols) (features : Option (List F))
    (hret : (Calc.calculateMinus features c).1 = .ok ()) :
    ∀ f ∈ features.getD X.cols,
      (Calc.calculateMinus features c).2.getMinus f =
        .ok (X.rows.map (Spec.pdMinus g X f)) := by
  intro f hf
  obtain ⟨hcols, post⟩ := minus_post hg hret
  rw [hX] at hcols post
  have hX' := (famM.frm_cfg _ _ post.frm).1
  rw [hX] at hX'
  obtain ⟨ys, e, hl, hi⟩ := getMinus_char post.shape f (by rw [hX']; exact hcols f hf)
  rw [e]
  congr 1
  rw [hX'] at hl
  apply List.ext_getElem?
  intro i
  by_cases h : i < X.len
  · have hk : (f, i) ∈ reqM X features := by
      simp only [reqM, List.mem_flatMap, keysM, List.mem_map]
      exact ⟨f, hf, _, List.mem_range.2 h, rfl⟩
    have := post.done _ hk
    rw [hX', truthM g X hr f i h] at this
    rw [hi i, List.getElem?_map, List.getElem?_eq_getElem (show i < X.rows.length from h)]
    exact this
  · rw [List.getElem?_eq_none (by omega), List.getElem?_eq_none (by simpa [Frame.len] using h)]

/-- **C03.** If `calculate_pd_minus_single(features)` returns, then entry `i` of `get_pd_minus_single(f)` is
the mean over all rows `j` of the prediction for row `i` with its `f` replaced by row `j`'s `f`. -/
theorem C03_minus_pd_is_brute_force (hw : RowWise g p) (X : Frame F V) (hr : ReadsOnly g X.cols) (b : Int)
    (ops : List (PDOp F)) (features : Option (List F))
    (hret : (Calc.calculateMinus features (runOps (Calc.new p X b) ops)).1 = .ok ()) :
    ∀ f ∈ features.getD X.cols,
      (Calc.calculateMinus features (runOps (Calc.new p X b) ops)).2.getMinus f =
        .ok (X.rows.map (Spec.pdMinus g X f)) :=
  minus_of_good (good_runOps (good_new hw X b) ops) (ops_X hw X b ops) hr features hret

/-- **C03**, termination without exception. -/
theorem C03_minus_pd_returns (hw : RowWise g p) (hp : NeverFails p) (X : Frame F V) (b : Int)
    (ops : List (PDOp F)) (features : Option (List F)) (hf : ∀ f ∈ features.getD X.cols, f ∈ X.cols) :
    (Calc.calculateMinus features (runOps (Calc.new p X b) ops)).1 = .ok () := by
  have hX := ops_X hw X b ops
  have hP := ops_predict hw X b ops
  have hg := good_runOps (good_new hw X b) ops
  have := calculateMinus_spec hg.shape hg.soundM hg.rowWise features
  cases e : Calc.calculateMinus features (runOps (Calc.new p X b) ops) with
  | mk r c' =>
    rw [e] at this
    cases r with
    | ok u => rfl
    | error err =>
      rcases this.2 with ⟨⟨f, hf', hn⟩, -⟩ | ⟨n, rows, he⟩
      · rw [hX] at hf' hn; exact absurd (hf f hf') hn
      · rw [hP] at he
        obtain ⟨ys, hy⟩ := hp n rows
        rw [hy] at he; cases he

/-! ## Concrete cases meeting the hypotheses -/

section Cases
open Ex

/-- a history with a failed request in it, then a successful one: the hypotheses of C01 hold and the numbers are
the means -/
example : ok (Calc.calculateSingle (some [2, 0, 0]) (runOps (Calc.new exPFail exX 5)
      [.pairs none true, .minus (some [1]), .single (some [1])])).1 = true ∧
    ok (Calc.calculatePairs none true (Calc.new exPFail exX 5)).1 = false ∧
    isOk ((Calc.calculateSingle (some [2, 0, 0]) (runOps (Calc.new exPFail exX 5)
      [.pairs none true, .minus (some [1]), .single (some [1])])).2.getSingle 0 [0, 1, 0])
      [.fin 3, .fin (7/2), .fin 3] = true := by decide +kernel

example : (Calc.calculateSingle (some [2, 0, 0]) (runOps (Calc.new exPFail exX 5) [.pairs none true])).2.getSingle
    0 [0, 1] = .ok [Spec.pdSingle exG exX 0 0, Spec.pdSingle exG exX 0 1] :=
  C01_single_pd_is_brute_force rowWise_pFail exX 5 [.pairs none true] (some [2, 0, 0])
    (ok_unit (by decide +kernel)) 0 (by decide) [0, 1] (by decide)

/-- C02: pairs given in the "wrong" order; values observed together, then all combinations -/
example : isOk ((Calc.calculatePairs (some [(2, 0)]) false (Calc.new exP exX 5)).2.getPairs 2 0 [(5, 0), (1, 1)])
      [.fin 5, .fin (3/2)] = true ∧
    isOk ((Calc.calculatePairs (some [(1, 0)]) true (Calc.new exP exX (-3))).2.getPairs 1 0 [(1, 1), (0, 1)])
      [.fin 4, .fin 3] = true := by decide +kernel

/-- C03 -/
example : isOk ((Calc.calculateMinus none (Calc.new exP exX 7)).2.getMinus 0)
      [.fin 1, .fin (11/2), .fin (11/2), .fin 1] = true := by decide +kernel

end Cases

end Artemis
