import Verif.Props.PDCache
import Verif.Model.PdpMethod
import Verif.Proofs.NumLemmas

/-!
# What the partial-dependence based methods compute, in terms of brute-force partial dependence

Intermediate characterisations used by the property files.
-/

set_option linter.unusedSectionVars false
set_option linter.unusedVariables false
set_option linter.unusedSimpArgs false

namespace Artemis
open Fam

section Done
variable {F V N : Type*} [DecidableEq F] [LinearOrder V] [Flt N] {g : Row F V → N}

/-- all single values of `f` are stored and right -/
def DoneS (g : Row F V → N) (c : Calc F V N) (f : F) : Prop :=
  f ∈ c.X.cols ∧ ∀ v ∈ c.X.col f, cellS c (f, v) = some (Spec.pdSingle g c.X f v)

/-- the covered values of a stored pair are right -/
def DoneP (g : Row F V → N) (c : Calc F V N) (all : Bool) (q : F × F) : Prop :=
  canonPair c.X q ∈ combinations2 c.X.cols ∧
  ∀ v ∈ valsP all c.X (canonPair c.X q), cellP c (canonPair c.X q, v) = some (famP.truth g c.X (canonPair c.X q, v))

/-- all entries of the all-but-one table of `f` are stored and right -/
def DoneM (g : Row F V → N) (c : Calc F V N) (f : F) : Prop :=
  f ∈ c.X.cols ∧ ∀ i, i < c.X.len → cellM c (f, i) = some (famM.truth g c.X (f, i))

theorem CellStep.keep_truth {κ : Type*} [DecidableEq κ] {fam : Fam κ F V N} {c c' : Calc F V N}
    (h : CellStep fam g c c') {k : κ} (hx : fam.cell c k = some (fam.truth g c.X k)) :
    fam.cell c' k = some (fam.truth g c.X k) := by
  rcases h k with h1 | h1
  · rw [h1, hx]
  · exact h1.2

theorem DoneS.step {c c' : Calc F V N} (h : OpStep g c c') {f : F} (d : DoneS g c f) : DoneS g c' f := by
  obtain ⟨d1, d2⟩ := d
  refine ⟨by rw [h.later.X]; exact d1, ?_⟩
  intro v hv
  rw [h.later.X] at hv ⊢
  have := h.S.keep_truth (k := (f, v)) (by rw [truthS]; exact d2 v hv)
  rwa [truthS] at this

theorem DoneP.step {c c' : Calc F V N} (h : OpStep g c c') {all : Bool} {q : F × F} (d : DoneP g c all q) :
    DoneP g c' all q := by
  obtain ⟨d1, d2⟩ := d
  unfold DoneP
  rw [h.later.X]
  exact ⟨d1, fun v hv => h.P.keep_truth (d2 v hv)⟩

theorem DoneM.step {c c' : Calc F V N} (h : OpStep g c c') {f : F} (d : DoneM g c f) : DoneM g c' f := by
  obtain ⟨d1, d2⟩ := d
  unfold DoneM
  rw [h.later.X]
  exact ⟨d1, fun v hv => h.M.keep_truth (d2 v hv)⟩

theorem doneS_of_ok {c : Calc F V N} (hg : Good g c) {features : Option (List F)}
    (h : (Calc.calculateSingle features c).1 = .ok ()) :
    ∀ f ∈ features.getD c.X.cols, DoneS g (Calc.calculateSingle features c).2 f := by
  intro f hf
  obtain ⟨hcols, post⟩ := single_post hg h _ (fun f _ => Nat.mul_le_mul_right _ (length_npUnique_le _ f))
  have hX' := (famS.frm_cfg _ _ post.frm).1
  refine ⟨by rw [hX']; exact hcols f hf, ?_⟩
  intro v hv
  rw [hX'] at hv
  have hk : (f, v) ∈ reqS c.X features := by
    simp only [reqS, List.mem_flatMap, keysS, List.mem_map]
    exact ⟨f, hf, v, mem_npUnique.2 hv, rfl⟩
  have := post.done _ hk
  rwa [truthS] at this

theorem doneM_of_ok {c : Calc F V N} (hg : Good g c) {features : Option (List F)}
    (h : (Calc.calculateMinus features c).1 = .ok ()) :
    ∀ f ∈ features.getD c.X.cols, DoneM g (Calc.calculateMinus features c).2 f := by
  intro f hf
  obtain ⟨hcols, post⟩ := minus_post hg h
  have hX' := (famM.frm_cfg _ _ post.frm).1
  refine ⟨by rw [hX']; exact hcols f hf, ?_⟩
  intro i hi
  rw [hX'] at hi
  have hk : (f, i) ∈ reqM c.X features := by
    simp only [reqM, List.mem_flatMap, keysM, List.mem_map]
    exact ⟨f, hf, i, List.mem_range.2 hi, rfl⟩
  exact post.done _ hk

/-- the values asked for are right even when the pair is unknown (then there are none) -/
theorem doneP_of_ok {c : Calc F V N} (hg : Good g c) {pairs : List (F × F)} {all : Bool}
    (h : (Calc.calculatePairs (some pairs) all c).1 = .ok ()) :
    ∀ q ∈ pairs, (canonPair c.X q ∈ combinations2 c.X.cols → DoneP g (Calc.calculatePairs (some pairs) all c).2 all q) ∧
      ¬ badPair all c.X q := by
  intro q hq
  obtain ⟨hb, post⟩ := pairs_post hg h
  have hX' := (famP.frm_cfg _ _ post.frm).1
  refine ⟨fun hcm => ?_, hb q hq⟩
  unfold DoneP
  rw [hX']
  refine ⟨hcm, ?_⟩
  intro v hv
  have hk : (canonPair c.X q, v) ∈ reqP c.X (some pairs) all := by
    simp only [reqP, List.mem_flatMap, keysP, List.mem_map]
    exact ⟨q, hq, v, hv, rfl⟩
  have := post.done _ hk
  rwa [hX'] at this

theorem getSingle_done {c : Calc F V N} {f : F} (d : DoneS g c f) :
    c.getSingle f (c.X.col f) = .ok (c.X.rows.map (fun r => Spec.pdSingle g c.X f (r f))) := by
  have : c.getSingle f (c.X.col f) = .ok ((c.X.col f).map (Spec.pdSingle g c.X f)) := by
    refine mapM_ok (fun v hv => ?_)
    rw [lookupSingle_eq]
    exact d.2 v hv
  rw [this]
  simp [Frame.col, Function.comp_def]

theorem getSingleAll_done {c : Calc F V N} (hs : Shape c) {f : F} (d : DoneS g c f) :
    c.getSingleAll f = .ok ((npUnique (c.X.col f)).map (Spec.pdSingle g c.X f)) := by
  obtain ⟨ys, e, hl, hi⟩ := getSingleAll_char hs f d.1
  rw [e]
  congr 1
  apply List.ext_getElem?
  intro i
  by_cases h : i < (npUnique (c.X.col f)).length
  · rw [hi i h, d.2 _ (mem_npUnique.1 (List.getElem_mem h)), List.getElem?_map, List.getElem?_eq_getElem h]
    rfl
  · rw [List.getElem?_eq_none (by omega), List.getElem?_eq_none (by simpa using h)]

theorem getMinus_done {c : Calc F V N} (hs : Shape c) {f : F} (d : DoneM g c f)
    (hr : ReadsOnly g c.X.cols) : c.getMinus f = .ok (c.X.rows.map (Spec.pdMinus g c.X f)) := by
  obtain ⟨ys, e, hl, hi⟩ := getMinus_char hs f d.1
  rw [e]
  congr 1
  apply List.ext_getElem?
  intro i
  by_cases h : i < c.X.len
  · rw [hi i, d.2 i h, truthM g c.X hr f i h, List.getElem?_map,
      List.getElem?_eq_getElem (show i < c.X.rows.length from h)]
    rfl
  · rw [List.getElem?_eq_none (by omega), List.getElem?_eq_none (by simpa [Frame.len] using h)]

theorem getPairs_done {c : Calc F V N} (hs : Shape c) {f f' : F} (hne : f ≠ f') (d : DoneP g c false (f, f')) :
    c.getPairs f f' ((c.X.col f).zip (c.X.col f')) =
      .ok (c.X.rows.map (fun r => Spec.pdPair g c.X f f' (r f) (r f'))) := by
  obtain ⟨hcm, d2⟩ := d
  have hz : (c.X.col f).zip (c.X.col f') = c.X.rows.map (fun r => (r f, r f')) := by
    simp [Frame.col, List.zip_map']
  rw [getPairs_char hs, if_neg (by simpa using hcm), hz]
  by_cases hin : (f, f') ∈ combinations2 c.X.cols
  · have hc : canonPair c.X (f, f') = (f, f') := if_pos hin
    rw [hc, if_neg (by simp)]
    rw [hc] at d2
    have := mapM_ok (f := lookupPairCell c (f, f')) (l := c.X.rows.map (fun r => (r f, r f')))
      (h := fun v => Spec.pdPair g c.X f f' v.1 v.2) (by
        intro v hv
        obtain ⟨r, hr, rfl⟩ := List.mem_map.1 hv
        rw [lookupPairCell_eq hs, ← truthP g c.X f f' _ _ hne]
        apply d2
        rw [mem_valsP_iff]
        simp only [Spec.covered, Bool.false_eq_true, if_false]
        exact ⟨r, hr, rfl, rfl⟩)
    rw [this, List.map_map]; rfl
  · have hc : canonPair c.X (f, f') = (f', f) := if_neg hin
    rw [hc, if_pos (by simp; intro h _; exact hne h.symm), List.map_map]
    rw [hc] at d2
    have := mapM_ok (f := lookupPairCell c (f', f)) (l := c.X.rows.map (Prod.swap ∘ fun r => (r f, r f')))
      (h := fun v => Spec.pdPair g c.X f f' v.2 v.1) (by
        intro v hv
        obtain ⟨r, hr, rfl⟩ := List.mem_map.1 hv
        rw [lookupPairCell_eq hs, pdPair_swap g c.X f f' _ _ hne, ← truthP g c.X f' f _ _ hne.symm]
        apply d2
        rw [mem_valsP_iff]
        simp only [Spec.covered, Bool.false_eq_true, if_false]
        exact ⟨r, hr, rfl, rfl⟩)
    rw [this, List.map_map]; rfl

/-- the full matrix of a stored pair -/
theorem getPairsAll_done {c : Calc F V N} (hs : Shape c) {k : F × F} (hk : k ∈ combinations2 c.X.cols)
    (hne : k.1 ≠ k.2) (d : DoneP g c true k) :
    c.getPairsAll k.1 k.2 = .ok ((npUnique (c.X.col k.1)).map (fun v =>
      (npUnique (c.X.col k.2)).map (fun v' => Spec.pdPair g c.X k.1 k.2 v v'))) := by
  have hc : canonPair c.X k = k := if_pos hk
  obtain ⟨_, d2⟩ := d
  rw [hc] at d2
  have hkey : k ∈ c.pdPairs.keys := by rw [hs.pair_keys]; exact hk
  obtain ⟨t, ht⟩ := Option.isSome_iff_exists.1 ((Dict.get?_isSome_iff _ _).2 hkey)
  obtain ⟨t1, t2, t3, t4⟩ := hs.pair _ _ ht
  have hpk : c.pairKey (k.1, k.2) = k := by rw [pairKey_eq hs]; exact hc
  simp only [Calc.getPairsAll, hpk, ht]
  congr 1
  apply List.ext_getElem
  · rw [t3, t1]; simp
  intro i h1 h2
  rw [List.getElem_map]
  have hi : i < (npUnique (c.X.col k.1)).length := by simpa using h2
  apply List.ext_getElem
  · rw [t4 _ (List.getElem_mem h1), t2]; simp
  intro j h3 h4
  have hj : j < (npUnique (c.X.col k.2)).length := by simpa using h4
  rw [List.getElem_map]
  have hm1 := List.getElem_mem hi
  have hm2 := List.getElem_mem hj
  have := d2 ((npUnique (c.X.col k.1))[i], (npUnique (c.X.col k.2))[j]) (by
    rw [mem_valsP_iff]; simp only [Spec.covered, if_true]
    exact ⟨mem_npUnique.1 hm1, mem_npUnique.1 hm2⟩)
  have hT := truthP g c.X k.1 k.2 (npUnique (c.X.col k.1))[i] (npUnique (c.X.col k.2))[j] hne
  rw [show ((k.1, k.2) : F × F) = k from rfl] at hT
  rw [hT] at this
  simp only [cellP, ht, Option.bind_some, t1, t2] at this
  rw [if_pos ⟨hm1, hm2⟩, List.Nodup.idxOf_getElem (nodup_npUnique _),
    List.Nodup.idxOf_getElem (nodup_npUnique _), List.getElem?_eq_getElem h1, Option.bind_some,
    List.getElem?_eq_getElem h3] at this
  exact Option.some.inj this

end Done


section Tables
variable {F V K : Type} [DecidableEq F] [LinearOrder V] [Field K] [LinearOrder K] [IsStrictOrderedRing K]
  [HasSqrt K] {g : Row F V → Num K}

/-- the number computed by `_calculate_hstat_value` for vectors of equal length -/
def hNum (normalized : Bool) (u v w : List (Num K)) : Num K :=
  if normalized then
    Num.div (Num.sum ((Num.subV (Num.subV (Num.center w) (Num.center u)) (Num.center v)).map Num.sq))
      (Num.sum ((Num.center w).map Num.sq))
  else Num.sqrt (Num.mean ((Num.subV (Num.subV (Num.center w) (Num.center u)) (Num.center v)).map Num.sq))

omit [IsStrictOrderedRing K] in
theorem hstatValue_eq (normalized : Bool) {u v w : List (Num K)} (h1 : u.length = w.length)
    (h2 : v.length = w.length) : hstatValue u v w normalized = .ok (hNum normalized u v w) := by
  have e1 : Num.subB (Num.center w) (Num.center u) = .ok (Num.subV (Num.center w) (Num.center u)) := if_pos (by simp [Num.center, h1])
  have e2 : Num.subB (Num.subV (Num.center w) (Num.center u)) (Num.center v) =
      .ok (Num.subV (Num.subV (Num.center w) (Num.center u)) (Num.center v)) := if_pos (by simp [Num.center, Num.subV, h1, h2])
  simp only [hstatValue, hNum, e1, e2, bind, Except.bind]

/-- H of a pair from brute-force partial dependences -/
def hPair (normalized : Bool) (g : Row F V → Num K) (X : Frame F V) (f f' : F) : Num K :=
  hNum normalized (X.rows.map (fun r => Spec.pdSingle g X f (r f)))
    (X.rows.map (fun r => Spec.pdSingle g X f' (r f')))
    (X.rows.map (fun r => Spec.pdPair g X f f' (r f) (r f')))

/-- one-vs-all H of a feature from brute-force partial dependences -/
def hFeat (normalized : Bool) (g : Row F V → Num K) (X : Frame F V) (f : F) : Num K :=
  hNum normalized (X.rows.map (fun r => Spec.pdSingle g X f (r f))) (X.rows.map (Spec.pdMinus g X f))
    (X.rows.map g)

theorem seq_ok {σ α β : Type*} {m : PyM σ α} {k : α → PyM σ β} {s s' : σ} {b : β}
    (h : PyM.seq m k s = (.ok b, s')) : ∃ a s1, m s = (.ok a, s1) ∧ k a s1 = (.ok b, s') := by
  unfold PyM.seq at h
  cases e : m s with
  | mk r s1 =>
    rw [e] at h
    cases r with
    | ok a => exact ⟨a, s1, rfl, h⟩
    | error e => cases h

theorem mapM_eq_ok {α β : Type*} {f : α → Except Err β} {l : List α} {r : List β}
    (h : l.mapM f = .ok r) : List.Forall₂ (fun a b => f a = .ok b) l r := by
  induction l generalizing r with
  | nil => simp [pure, Except.pure] at h; subst h; exact .nil
  | cons a l ih =>
    rw [mapM_cons_except] at h
    cases ea : f a with
    | error e => rw [ea] at h; cases h
    | ok b =>
      rw [ea] at h
      cases el : l.mapM f with
      | error e => rw [el] at h; cases h
      | ok bs => rw [el] at h; cases h; exact .cons ea (ih el)

theorem hstatPair_done {c : Calc F V (Num K)} (hs : Shape c) {q : F × F} (hne : q.1 ≠ q.2)
    (d1 : DoneS g c q.1) (d2 : DoneS g c q.2) (d : DoneP g c false q) (normalized : Bool) :
    hstatPair normalized c.X c q = .ok ⟨q.1, q.2, hPair normalized g c.X q.1 q.2⟩ := by
  unfold hstatPair
  simp only [Frame.colE, d1.1, d2.1, if_true, bind, Except.bind, getSingle_done d1, getSingle_done d2,
    getPairs_done hs hne d]
  rw [hstatValue_eq normalized (by simp) (by simp)]
  rfl

/-- A row of the raw (unsorted) one-vs-one H table -/
def hRow (normalized : Bool) (g : Row F V → Num K) (X : Frame F V) (q : F × F) : OvoRow F K :=
  ⟨q.1, q.2, hPair normalized g X q.1 q.2⟩

/-- `features` are columns, and the pairs consist of different features -/
structure ValidFeatures (X : Frame F V) (features : List F) : Prop where
  cols : ∀ f ∈ features, f ∈ X.cols
  ne : ∀ q ∈ combinations2 features, q.1 ≠ q.2

theorem validFeatures_of_nodup {X : Frame F V} {features : List F} (h : ∀ f ∈ features, f ∈ X.cols)
    (nd : features.Nodup) : ValidFeatures X features :=
  ⟨h, fun q hq => ne_of_mem_combinations2 nd (a := q.1) (b := q.2) hq⟩

theorem opStep_single {c : Calc F V (Num K)} (hg : Good g c) (fs : Option (List F)) :
    OpStep g c (Calc.calculateSingle fs c).2 := opStep_run hg (.single fs)
theorem opStep_pairs {c : Calc F V (Num K)} (hg : Good g c) (ps : Option (List (F × F))) (all : Bool) :
    OpStep g c (Calc.calculatePairs ps all c).2 := opStep_run hg (.pairs ps all)
theorem opStep_minus {c : Calc F V (Num K)} (hg : Good g c) (fs : Option (List F)) :
    OpStep g c (Calc.calculateMinus fs c).2 := opStep_run hg (.minus fs)

theorem opStep_seq {α β : Type} {c : Calc F V (Num K)} {m : PyM (Calc F V (Num K)) α}
    {k : α → PyM (Calc F V (Num K)) β} (h1 : OpStep g c (m c).2)
    (h2 : ∀ a c1, OpStep g c c1 → OpStep g c1 (k a c1).2) : OpStep g c (PyM.seq m k c).2 := by
  unfold PyM.seq
  cases e : m c with
  | mk r c1 =>
    rw [e] at h1
    cases r with
    | ok a => exact h1.trans (h2 a c1 h1)
    | error e => exact h1

theorem opStep_hstatOvo {c : Calc F V (Num K)} (hg : Good g c) (sort) (normalized : Bool) (X : Frame F V)
    (features : List F) (pairs : List (F × F)) :
    OpStep g c (hstatOvo sort normalized X features pairs c).2 := by
  unfold hstatOvo
  refine opStep_seq (opStep_pairs hg _ _) (fun _ c1 h1 => ?_)
  refine opStep_seq (opStep_single h1.good _) (fun _ c2 h2 => ?_)
  exact OpStep.refl h2.good

/-- If the one-vs-one computation returns, its table is the brute-force one. -/
theorem hstatOvo_ok {c c' : Calc F V (Num K)} (hg : Good g c) {sort} {normalized : Bool}
    {features : List F} {rows : List (OvoRow F K)}
    (h : hstatOvo sort normalized c.X features (combinations2 features) c = (.ok rows, c'))
    (hv : ValidFeatures c.X features) :
    rows = (sort ((combinations2 features).map (hRow normalized g c.X))).map OvoRow.fillna := by
  unfold hstatOvo at h
  obtain ⟨_, c1, e1, h⟩ := seq_ok h
  obtain ⟨_, c2, e2, h⟩ := seq_ok h
  have s1 := opStep_pairs hg (some (combinations2 features)) false
  have dp := doneP_of_ok hg (pairs := combinations2 features) (all := false) (by rw [e1])
  rw [e1] at s1 dp
  have s2 := opStep_single s1.good (some features)
  have ds := doneS_of_ok s1.good (features := some features) (by rw [e2])
  rw [e2] at s2 ds
  have hX : c2.X = c.X := s2.later.X.trans s1.later.X
  have hm : (combinations2 features).mapM (hstatPair normalized c.X c2) =
      .ok ((combinations2 features).map (hRow normalized g c.X)) := by
    refine mapM_ok (fun q hq => ?_)
    have hq' := mem_combinations2 (p := q) hq
    have hne := hv.ne q hq
    have := hstatPair_done (g := g) s2.good.shape hne (ds _ hq'.1) (ds _ hq'.2)
      (((dp q hq).1 (canonPair_mem (hv.cols _ hq'.1) (hv.cols _ hq'.2) hne)).step s2) normalized
    rw [hX] at this
    exact this
  rw [hm] at h
  cases h
  rfl

theorem hstatOvo_ret {c : Calc F V (Num K)} (hg : Good g c) (hp : NeverFails c.predict) (sort)
    (normalized : Bool) {features : List F} (hv : ValidFeatures c.X features) :
    ∃ c', hstatOvo sort normalized c.X features (combinations2 features) c =
      (.ok ((sort ((combinations2 features).map (hRow normalized g c.X))).map OvoRow.fillna), c') := by
  have s1 := opStep_pairs hg (some (combinations2 features)) false
  have o1 : (Calc.calculatePairs (some (combinations2 features)) false c).1 = .ok () :=
    run_ok hg hp (.pairs (some (combinations2 features)) false) (fun q hq => by
      have hq' := mem_combinations2 (p := q) hq
      exact ⟨hv.cols _ hq'.1, hv.cols _ hq'.2, hv.ne q hq⟩)
  have dp := doneP_of_ok hg o1
  cases e1 : Calc.calculatePairs (some (combinations2 features)) false c with
  | mk r1 c1 =>
    rw [e1] at s1 o1 dp
    simp only at o1 s1 dp
    subst o1
    have s2 := opStep_single s1.good (some features)
    have o2 : (Calc.calculateSingle (some features) c1).1 = .ok () :=
      run_ok s1.good (by rw [s1.later.predict]; exact hp) (.single (some features)) (fun f hf => by
        rw [s1.later.X]; exact hv.cols f hf)
    have ds := doneS_of_ok s1.good o2
    cases e2 : Calc.calculateSingle (some features) c1 with
    | mk r2 c2 =>
      rw [e2] at s2 o2 ds
      simp only at o2 s2 ds
      subst o2
      have hX : c2.X = c.X := s2.later.X.trans s1.later.X
      have hm : (combinations2 features).mapM (hstatPair normalized c.X c2) =
          .ok ((combinations2 features).map (hRow normalized g c.X)) := by
        refine mapM_ok (fun q hq => ?_)
        have hq' := mem_combinations2 (p := q) hq
        have hne := hv.ne q hq
        have := hstatPair_done (g := g) s2.good.shape hne (ds _ hq'.1) (ds _ hq'.2)
          (((dp q hq).1 (canonPair_mem (hv.cols _ hq'.1) (hv.cols _ hq'.2) hne)).step s2) normalized
        rw [hX] at this
        exact this
      refine ⟨c2, ?_⟩
      simp only [hstatOvo, PyM.seq, e1, e2, hm]

/-- returning implies that the features were valid -/
theorem hstatOvo_valid {c c' : Calc F V (Num K)} (hg : Good g c) {sort} {normalized : Bool}
    (nd : c.X.cols.Nodup) {features : List F} {rows : List (OvoRow F K)}
    (h : hstatOvo sort normalized c.X features (combinations2 features) c = (.ok rows, c')) :
    ValidFeatures c.X features := by
  unfold hstatOvo at h
  obtain ⟨_, c1, e1, h⟩ := seq_ok h
  obtain ⟨_, c2, e2, h⟩ := seq_ok h
  have s1 := opStep_pairs hg (some (combinations2 features)) false
  rw [e1] at s1
  have s2 := opStep_single s1.good (some features)
  have ds := doneS_of_ok s1.good (features := some features) (by rw [e2])
  rw [e2] at s2 ds
  have hX : c2.X = c.X := s2.later.X.trans s1.later.X
  refine ⟨fun f hf => by have := (ds f hf).1; rwa [hX] at this, ?_⟩
  intro q hq
  cases em : (combinations2 features).mapM (hstatPair normalized c.X c2) with
  | error e => rw [em] at h; cases h
  | ok rs =>
    have := mapM_eq_ok em
    obtain ⟨r, hr⟩ : ∃ r, hstatPair normalized c.X c2 q = .ok r := by
      clear h em
      generalize combinations2 features = ps at this hq
      induction this with
      | nil => cases hq
      | cons h1 _ ih =>
        rcases List.mem_cons.1 hq with rfl | hq
        · exact ⟨_, h1⟩
        · exact ih hq
    intro heq
    have hk : c2.getPairs q.1 q.2 ((c.X.col q.1).zip (c.X.col q.2)) = .error .keyError := by
      rw [getPairs_char s2.good.shape, if_pos]
      rw [hX, canonPair_mem_iff nd]
      exact fun hh => hh.2.2 heq
    unfold hstatPair at hr
    have m1 := mem_combinations2 (p := q) hq
    have n1 : q.1 ∈ c.X.cols := by have := (ds _ m1.1).1; rwa [hX] at this
    have n2 : q.2 ∈ c.X.cols := by have := (ds _ m1.2).1; rwa [hX] at this
    simp only [bind, Except.bind, Frame.colE, n1, n2, if_true, hk] at hr
    repeat' split at hr
    all_goals cases hr

theorem hstatFeature_done {c : Calc F V (Num K)} (hs : Shape c) {f : F}
    (d1 : DoneS g c f) (d : DoneM g c f) (hr : ReadsOnly g c.X.cols) (normalized : Bool) :
    hstatFeature normalized c.X (c.X.rows.map g) c f = .ok ⟨f, hFeat normalized g c.X f⟩ := by
  unfold hstatFeature
  simp only [Frame.colE, d1.1, if_true, bind, Except.bind, getSingle_done d1, getMinus_done hs d hr]
  rw [hstatValue_eq normalized (by simp) (by simp)]
  rfl

theorem opStep_hstatOva {c : Calc F V (Num K)} (hg : Good g c) (sort) (predict) (normalized : Bool)
    (X : Frame F V) (features : List F) : OpStep g c (hstatOva sort predict normalized X features c).2 := by
  unfold hstatOva
  refine opStep_seq (opStep_minus hg _) (fun _ c1 h1 => ?_)
  cases predict c1.calls.length X.rows <;> exact OpStep.refl h1.good

/-- If the one-vs-all computation returns, its table is the brute-force one. -/
theorem hstatOva_ok {c c' : Calc F V (Num K)} (hg : Good g c) {sort} {predict : PF F V (Num K)}
    (hw : RowWise g predict) (hr : ReadsOnly g c.X.cols) {normalized : Bool}
    {features : List F} {rows : List (FeatRow F K)} (hd : ∀ f ∈ features, DoneS g c f)
    (h : hstatOva sort predict normalized c.X features c = (.ok rows, c')) :
    rows = (sort (features.map (fun f => ⟨f, hFeat normalized g c.X f⟩))).map FeatRow.fillna := by
  unfold hstatOva at h
  obtain ⟨_, c1, e1, h⟩ := seq_ok h
  have s1 := opStep_minus hg (some features)
  have dm := doneM_of_ok hg (features := some features) (by rw [e1])
  rw [e1] at s1 dm
  have hX : c1.X = c.X := s1.later.X
  cases ep : predict c1.calls.length c.X.rows with
  | error e => simp only [ep] at h; cases h
  | ok preds =>
    have hpr := hw _ _ _ ep
    subst hpr
    have hm : features.mapM (hstatFeature normalized c.X (c.X.rows.map g) c1) =
        .ok (features.map (fun f => (⟨f, hFeat normalized g c.X f⟩ : FeatRow F K))) := by
      refine mapM_ok (fun f hf => ?_)
      have := hstatFeature_done (g := g) s1.good.shape ((hd f hf).step s1) (dm f hf)
        (by simp only [hX]; exact hr) normalized
      simp only [hX] at this
      exact this
    simp only [ep, hm] at h
    cases h
    rfl

theorem hstatOva_ret {c : Calc F V (Num K)} (hg : Good g c) (hp : NeverFails c.predict) (sort)
    {predict : PF F V (Num K)} (hw : RowWise g predict) (hp' : NeverFails predict)
    (hr : ReadsOnly g c.X.cols) (normalized : Bool) {features : List F} (hd : ∀ f ∈ features, DoneS g c f) :
    ∃ c', hstatOva sort predict normalized c.X features c =
      (.ok ((sort (features.map (fun f => ⟨f, hFeat normalized g c.X f⟩))).map FeatRow.fillna), c') := by
  have s1 := opStep_minus hg (some features)
  have o1 : (Calc.calculateMinus (some features) c).1 = .ok () :=
    run_ok hg hp (.minus (some features)) (fun f hf => (hd f hf).1)
  have dm := doneM_of_ok hg o1
  cases e1 : Calc.calculateMinus (some features) c with
  | mk r1 c1 =>
    rw [e1] at s1 o1 dm
    simp only at o1 s1 dm
    subst o1
    have hX : c1.X = c.X := s1.later.X
    obtain ⟨preds, ep⟩ := hp' c1.calls.length c.X.rows
    have hpr := hw _ _ _ ep
    subst hpr
    have hm : features.mapM (hstatFeature normalized c.X (c.X.rows.map g) c1) =
        .ok (features.map (fun f => (⟨f, hFeat normalized g c.X f⟩ : FeatRow F K))) := by
      refine mapM_ok (fun f hf => ?_)
      have := hstatFeature_done (g := g) s1.good.shape ((hd f hf).step s1) (dm f hf)
        (by simp only [hX]; exact hr) normalized
      simp only [hX] at this
      exact this
    refine ⟨c1, ?_⟩
    simp only [hstatOva, PyM.seq, e1, ep, hm]

/-! ### PD based importance -/

/-- importance of a feature from brute-force partial dependences -/
def impNum (numeric : Bool) (g : Row F V → Num K) (X : Frame F V) (f : F) : Except Err (Num K) :=
  if numeric then .ok (npStd ((npUnique (X.col f)).map (Spec.pdSingle g X f)))
  else rangeImp ((npUnique (X.col f)).map (Spec.pdSingle g X f))

theorem calcImportance_done {c : Calc F V (Num K)} (hs : Shape c) {f : F} (d1 : DoneS g c f)
    (numeric : F → Bool) :
    calcImportance numeric c f = (impNum (numeric f) g c.X f).map (fun v => ⟨f, v⟩) := by
  unfold calcImportance impNum
  simp only [bind, Except.bind, getSingleAll_done hs d1]
  cases numeric f <;> simp [Except.map]

theorem opStep_pdpImportance {c : Calc F V (Num K)} (hg : Good g c) (sort) (numeric : F → Bool)
    (features : List F) : OpStep g c (pdpImportance sort numeric features c).2 := by
  unfold pdpImportance
  refine opStep_seq (opStep_single hg _) (fun _ c1 h1 => OpStep.refl h1.good)

theorem mapM_exceptMap {α β : Type} {f : α → Except Err β} {l : List α} {r : List β} :
    List.Forall₂ (fun a b => f a = .ok b) l r → l.mapM f = .ok r := by
  intro h
  induction h with
  | nil => rfl
  | cons h1 _ ih => rw [mapM_cons_except, h1, ih]

theorem pdpImportance_eq {c : Calc F V (Num K)} (hg : Good g c) (sort) (numeric : F → Bool)
    {features : List F} (hf : ∀ f ∈ features, f ∈ c.X.cols)
    (h1 : (Calc.calculateSingle none c).1 = .ok ()) :
    (pdpImportance sort numeric features c).1 =
      (features.mapM (fun f => (impNum (numeric f) g c.X f).map (fun v => (⟨f, v⟩ : FeatRow F K)))).map
        (fun rows => (sort rows).map FeatRow.fillna) := by
  have s1 := opStep_single hg none
  have ds := doneS_of_ok hg h1
  cases e1 : Calc.calculateSingle none c with
  | mk r1 c1 =>
    rw [e1] at h1 s1 ds
    simp only at h1 s1 ds
    subst h1
    have hm : features.mapM (calcImportance numeric c1) =
        features.mapM (fun f => (impNum (numeric f) g c.X f).map (fun v => (⟨f, v⟩ : FeatRow F K))) := by
      apply mapM_congr
      intro f hf'
      have := calcImportance_done s1.good.shape (ds f (hf f hf')) numeric
      rw [s1.later.X] at this
      exact this
    simp only [pdpImportance, PyM.seq, e1, hm]
    cases List.mapM (fun f => (impNum (numeric f) g c.X f).map (fun v => (⟨f, v⟩ : FeatRow F K))) features <;> rfl

end Tables

end Artemis
