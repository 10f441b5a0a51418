import Verif.Proofs.GbImportance
import Verif.Proofs.NumLemmas

/-!
# Properties C39–C45, C71 and C31 for the split score

`E` holds the sorting routines and the name that marks leaves, `ts` is the forest the model holds and `p` its package.
-/

set_option linter.unusedSectionVars false
set_option linter.unusedVariables false
set_option linter.unusedSimpArgs false

namespace Artemis

variable {F I K : Type} [LinearOrder F] [DecidableEq I] [Field K] [LinearOrder K]

/-! ## C39 -/

theorem packageOf_eq (pkg rest : List Char) (h : '.' ∉ pkg) : packageOf (pkg ++ '.' :: rest) = pkg := by
  unfold packageOf
  induction pkg with
  | nil => simp
  | cons c pkg ih =>
    simp only [List.mem_cons, not_or] at h
    have : c ≠ '.' := fun e => h.1 e.symm
    rw [List.cons_append, List.takeWhile_cons]
    simp [this, ih h.2]

/-- **C39** A model whose top-level package is not a supported one is refused and the method is left as it was. -/
theorem C39_unsupported_package (E : SsEnv F K) (pkg rest : List Char) (hdot : '.' ∉ pkg) (hx : pkg ≠ "xgboost".toList)
    (hl : pkg ≠ "lightgbm".toList) (raw : RawTrees F I K) (inter imp : SsMetric) (onlyDef : Bool) (s0 : SsMethod F I K) :
    SsMethod.fit E (.model ⟨pkg ++ '.' :: rest, raw⟩) inter imp onlyDef s0 = (.error .modelNotSupported, s0) := by
  simp only [SsMethod.fit, GbArg.toHandler, unifyStructure, packageOf_eq pkg rest hdot, if_neg hx, if_neg hl]

/-- **C39** The same for a class without a module in its name (`<class 'int'>`, `<class 'NoneType'>`). -/
theorem C39_unsupported_builtin (E : SsEnv F K) (cls : List Char) (hdot : '.' ∉ cls) (hx : cls ≠ "xgboost".toList)
    (hl : cls ≠ "lightgbm".toList) (raw : RawTrees F I K) (inter imp : SsMetric) (onlyDef : Bool) (s0 : SsMethod F I K) :
    SsMethod.fit E (.model ⟨cls, raw⟩) inter imp onlyDef s0 = (.error .modelNotSupported, s0) := by
  have hp : packageOf cls = cls := by
    have h := List.takeWhile_append_of_pos (p := fun c => !decide (c = '.')) (l₁ := cls) (l₂ := [])
      (fun c hc => by have : c ≠ '.' := fun h => hdot (h ▸ hc)
                      simp [this])
    simpa [packageOf] using h
  simp only [SsMethod.fit, GbArg.toHandler, unifyStructure, hp, if_neg hx, if_neg hl]

/-- **C39** Cover metrics of a LightGBM model are refused before any table is computed. -/
theorem C39_lightgbm_cover_refused (E : SsEnv F K) (rest : List Char) (rows : List (LgbRow F I K)) (inter imp : SsMetric)
    (hm : inter = .meanCover ∨ inter = .sumCover ∨ imp = .meanCover ∨ imp = .sumCover) (onlyDef : Bool) (s0 : SsMethod F I K) :
    SsMethod.fit E (.model ⟨"lightgbm".toList ++ '.' :: rest, .lgb rows⟩) inter imp onlyDef s0
      = (.error .metricNotSupported, { s0 with metric := some inter }) := by
  have hp := packageOf_eq "lightgbm".toList rest (by decide)
  have hne : "lightgbm".toList ≠ "xgboost".toList := by decide
  have hc : checkMetrics .lightgbm inter imp = .error .metricNotSupported := by
    rcases hm with rfl | rfl | rfl | rfl
    · rfl
    · rfl
    · cases inter <;> rfl
    · cases inter <;> rfl
  simp only [SsMethod.fit, GbArg.toHandler, unifyStructure, hp, if_neg hne, if_pos rfl, hc]
  simp [hc]

/-- not one of the two "not supported" exceptions -/
def Plain {α : Type} (r : Except Err α) : Prop := r ≠ .error .modelNotSupported ∧ r ≠ .error .metricNotSupported

theorem plain_ok {α : Type} (a : α) : Plain (.ok a : Except Err α) := ⟨fun h => (by cases h), fun h => (by cases h)⟩

theorem plain_foldlM {α β : Type} {f : β → α → Except Err β} (h : ∀ b a, Plain (f b a)) (l : List α) : ∀ b, Plain (l.foldlM f b) := by
  induction l with
  | nil => intro b; exact plain_ok b
  | cons a l ih =>
    intro b
    rw [List.foldlM_cons]
    have := h b a
    cases hb : f b a with
    | error e => rw [hb] at this; exact ⟨fun h' => this.1 (by cases h'; rfl), fun h' => this.2 (by cases h'; rfl)⟩
    | ok b' => exact ih b'

theorem plain_mapM {α β : Type} {f : α → Except Err β} (h : ∀ a, Plain (f a)) (l : List α) : Plain (l.mapM f) := by
  induction l with
  | nil => exact plain_ok _
  | cons a l ih =>
    rw [List.mapM_cons]
    have := h a
    cases ha : f a with
    | error e => rw [ha] at this; exact ⟨fun h' => this.1 (by cases h'; rfl), fun h' => this.2 (by cases h'; rfl)⟩
    | ok b =>
      cases hl : l.mapM f with
      | error e => rw [hl] at ih; exact ⟨fun h' => ih.1 (by cases h'; rfl), fun h' => ih.2 (by cases h'; rfl)⟩
      | ok bs => exact plain_ok _

theorem plain_error {α β : Type} {r : Except Err α} {e : Err} (h : Plain r) (he : r = .error e) : Plain (.error e : Except Err β) := by
  subst he
  exact ⟨fun h' => h.1 (by cases h'; rfl), fun h' => h.2 (by cases h'; rfl)⟩

theorem plain_markChild (p : Package) (i : Nat) (c : Option I) (tree : List (StatRow F I K)) : Plain (markChild p i c tree) := by
  unfold markChild
  split
  · exact ⟨fun h => (by cases h), fun h => (by cases h)⟩
  · split
    · exact plain_ok _
    · split
      · exact ⟨fun h => (by cases h), fun h => (by cases h)⟩
      · split
        · rename_i e he
          unfold depthSucc at he
          split at he
          · cases he
          · split at he
            · cases he; exact ⟨fun h => (by cases h), fun h => (by cases h)⟩
            · cases he
        · exact plain_ok _

theorem plain_fullResult (p : Package) (frame : List (GbRow F I K)) : Plain (fullResult p frame) := by
  unfold fullResult
  have hm := plain_mapM (fun t => plain_foldlM (f := statStep p) (fun b a => by
    unfold statStep
    split
    · exact ⟨fun h => (by cases h), fun h => (by cases h)⟩
    · simp only []
      split
      · rename_i e he; exact plain_error (plain_markChild _ _ _ _) he
      · exact plain_markChild _ _ _ _) ((List.range (frame.filter (fun r => decide (r.tree = t))).length).filter
        (fun i => (((frame.filter (fun r => decide (r.tree = t)))[i]?).map (fun r => !r.leaf)).getD false))
      ((frame.filter (fun r => decide (r.tree = t))).map StatRow.ofRow)) (npUnique (frame.map GbRow.tree))
  split
  · rename_i e he; exact plain_error hm he
  · split
    · exact plain_ok _
    · exact ⟨fun h => (by cases h), fun h => (by cases h)⟩

theorem plain_depthChild (i : Nat) (c : Option I) (tree : List (GbRow F I K)) : Plain (depthChild i c tree) := by
  unfold depthChild
  split
  · exact ⟨fun h => (by cases h), fun h => (by cases h)⟩
  · split
    · exact plain_ok _
    · split
      · exact ⟨fun h => (by cases h), fun h => (by cases h)⟩
      · split
        · exact ⟨fun h => (by cases h), fun h => (by cases h)⟩
        · exact plain_ok _

theorem plain_calcDepth (frame : List (GbRow F I K)) : Plain (calcDepth frame) := by
  unfold calcDepth
  have hm := plain_mapM (fun t => plain_foldlM (f := depthSplitStep (F := F) (I := I) (K := K)) (fun b a => by
    unfold depthSplitStep
    split
    · exact ⟨fun h => (by cases h), fun h => (by cases h)⟩
    · split
      · exact ⟨fun h => (by cases h), fun h => (by cases h)⟩
      · simp only []
        split
        · rename_i e he; exact plain_error (plain_depthChild _ _ _) he
        · exact plain_depthChild _ _ _) ((List.range (frame.filter (fun r => decide (r.tree = t))).length).filter
        (fun i => (((frame.filter (fun r => decide (r.tree = t)))[i]?).map (fun r => !r.leaf)).getD false))
      (frame.filter (fun r => decide (r.tree = t)))) (npUnique (frame.map GbRow.tree))
  split
  · rename_i e he; exact plain_error hm he
  · exact plain_ok _

theorem plain_impStat (rows : List (GbRow F I K)) (f : F) : Plain (impStat rows f) := by
  have hw : ∀ g : List (GbRow F I K), Plain (weightedDepth g) := by
    intro g
    unfold weightedDepth
    have hm := plain_mapM (f := depthGain (F := F) (I := I) (K := K)) (fun r => by
      unfold depthGain
      split
      · exact plain_ok _
      · exact ⟨fun h => (by cases h), fun h => (by cases h)⟩) g
    split
    · rename_i e he; exact plain_error hm he
    · split
      · exact ⟨fun h => (by cases h), fun h => (by cases h)⟩
      · exact plain_ok _
  unfold impStat
  simp only []
  split
  · rename_i e he; exact plain_error (hw _) he
  · exact plain_ok _

theorem plain_ssImportance (E : SsEnv F K) (features : Option (List F)) (m : SsMetric) (frame : List (GbRow F I K)) :
    Plain (ssImportance E features m frame) := by
  have hall : ∀ fr : List (GbRow F I K), Plain (allImportance E.leafName E.sortFull features m fr) := by
    intro fr
    unfold allImportance
    simp only []
    split
    · rename_i e he; exact plain_error (plain_mapM (plain_impStat _) _) he
    · exact ⟨fun h => (by cases h), fun h => (by cases h)⟩
    · split
      · exact ⟨fun h => (by cases h), fun h => (by cases h)⟩
      · exact ⟨fun h => (by cases h), fun h => (by cases h)⟩
      · exact plain_ok _
  unfold ssImportance
  split
  · rename_i e he
    split at he
    · exact plain_error (plain_calcDepth frame) he
    · cases he
  · split
    · rename_i e he; exact plain_error (hall _) he
    · exact plain_ok _

/-- **C39** Every other combination is accepted: for an XGBoost model any metrics, for a LightGBM model any metrics that
do not need covers, never lead to one of the two "not supported" exceptions. -/
theorem C39_otherwise_accepted (E : SsEnv F K) (rest : List Char) (inter imp : SsMetric) (onlyDef : Bool) (s0 : SsMethod F I K) :
    (∀ rows, Plain (SsMethod.fit E (.model ⟨"xgboost".toList ++ '.' :: rest, .xgb rows⟩) inter imp onlyDef s0).1) ∧
    (inter ≠ .meanCover → inter ≠ .sumCover → imp ≠ .meanCover → imp ≠ .sumCover →
      ∀ rows, Plain (SsMethod.fit E (.model ⟨"lightgbm".toList ++ '.' :: rest, .lgb rows⟩) inter imp onlyDef s0).1) := by
  have key : ∀ (a : GbArg F I K) (h : Handler F I K), a.toHandler E.leafName = .ok h → checkMetrics h.package inter imp = .ok () →
      Plain (SsMethod.fit E a inter imp onlyDef s0).1 := by
    intro a h ha hc
    unfold SsMethod.fit
    simp only [ha, hc]
    have h1 := plain_fullResult h.package h.frame
    cases e1 : Artemis.fullResult h.package h.frame with
    | error e => exact plain_error h1 e1
    | ok full =>
      simp only []
      cases e2 : getOvo E.sortOvo inter (getSummary E.sortSum onlyDef full) with
      | error e =>
        simp only []
        cases inter <;> simp [getOvo] at e2 <;> subst e2 <;> exact ⟨fun h => (by cases h), fun h => (by cases h)⟩
      | ok ovo =>
        simp only []
        have h3 := plain_ssImportance E none imp h.frame
        cases e3 : ssImportance E none imp h.frame with
        | error e => exact plain_error h3 e3
        | ok r => exact plain_ok _
  refine ⟨?_, ?_⟩
  · intro rows
    have hp := packageOf_eq "xgboost".toList rest (by decide)
    exact key _ ⟨.xgboost, rows.map (unifyXgb E.leafName)⟩ (by simp only [GbArg.toHandler, unifyStructure, hp, if_pos]) rfl
  · intro h1 h2 h3 h4 rows
    have hp := packageOf_eq "lightgbm".toList rest (by decide)
    have hne : "lightgbm".toList ≠ "xgboost".toList := by decide
    refine key _ ⟨.lightgbm, rows.map unifyLgb⟩ (by simp only [GbArg.toHandler, unifyStructure, hp, if_neg hne, if_pos]) ?_
    simp [checkMetrics, SsMetric.lgbmUnsupported, h1, h2, h3, h4]

/-- **C39** A handler built from a model can be given instead of the model. -/
theorem C39_handler_instead_of_model (E : SsEnv F K) (m : GbModel F I K) (h : Handler F I K)
    (hm : unifyStructure E.leafName m = .ok h) (inter imp : SsMetric) (onlyDef : Bool) (s0 : SsMethod F I K) :
    SsMethod.fit E (.handler h) inter imp onlyDef s0 = SsMethod.fit E (.model m) inter imp onlyDef s0 := by
  simp only [SsMethod.fit, GbArg.toHandler, hm]

/-! ## The state after `fit` -/

variable {E : SsEnv F K} {ts : List (GTree F I K)} {p : Package} {m : GbModel F I K}

theorem checkMetrics_ok {inter imp : SsMetric} (h1 : inter.availableFor p) (h2 : imp.availableFor p) : checkMetrics p inter imp = .ok () := by
  cases p with
  | xgboost => rfl
  | lightgbm =>
    obtain ⟨a, b⟩ := h1 rfl
    obtain ⟨c, d⟩ := h2 rfl
    simp [checkMetrics, SsMetric.lgbmUnsupported, a, b, c, d]

/-- the table of interactions -/
def ssOvoRows (inter : SsMetric) (summary : List (SumRow F K)) : List (SsRow F K) :=
  summary.map (fun r => ⟨r.parent, r.child, (r.metric inter).getD .nan⟩)

theorem getOvo_ok {sort : Bool → List (SsRow F K) → List (SsRow F K)} {inter : SsMetric} (h : inter.isInteraction) (summary : List (SumRow F K)) :
    getOvo sort inter summary = .ok (sort (decide (inter = .meanDepth)) (ssOvoRows inter summary)) := by
  rcases h with rfl | rfl | rfl | rfl | rfl <;> rfl

theorem fit_state (H : GbForest E.leafName ts p m) {inter imp : SsMetric} (h1 : inter.availableFor p) (h2 : imp.availableFor p)
    (onlyDef : Bool) (s0 : SsMethod F I K) :
    ∃ frame A, Framed E.leafName p ts frame A ∧ unifyStructure E.leafName m = .ok ⟨p, frame⟩ ∧
      ((∃ s ∈ forestSplits ts, s.parent.isSome = true) →
        (SsMethod.fit E (.model m) inter imp onlyDef s0).2.fullResult = some (finalRows ts.length A) ∧
        (SsMethod.fit E (.model m) inter imp onlyDef s0).2.fullOvo = some (getSummary E.sortSum onlyDef (finalRows ts.length A)) ∧
        (inter.isInteraction →
          (SsMethod.fit E (.model m) inter imp onlyDef s0).2.ovo
            = some (E.sortOvo (decide (inter = .meanDepth)) (ssOvoRows inter (getSummary E.sortSum onlyDef (finalRows ts.length A)))) ∧
          (∀ e, ssImportance E none imp frame = .error e → (SsMethod.fit E (.model m) inter imp onlyDef s0).1 = .error e) ∧
          (∀ full t, ssImportance E none imp frame = .ok (full, t) →
            (SsMethod.fit E (.model m) inter imp onlyDef s0).1 = .ok () ∧
            (SsMethod.fit E (.model m) inter imp onlyDef s0).2.importance = some t ∧
            (SsMethod.fit E (.model m) inter imp onlyDef s0).2.impMetric = some (some imp)))) ∧
      ((¬ ∃ s ∈ forestSplits ts, s.parent.isSome = true) →
        SsMethod.fit E (.model m) inter imp onlyDef s0 = (.error .keyError, { s0 with metric := some inter })) := by
  obtain ⟨frame, A, hu, hF⟩ := framed_of_forest H
  refine ⟨frame, A, hF, hu, ?_, ?_⟩
  · intro hex
    have hfull := fullResult_eq hF
    rw [if_pos ((finalRows_any hF).2 hex)] at hfull
    unfold SsMethod.fit
    simp only [GbArg.toHandler, hu, checkMetrics_ok h1 h2, hfull]
    refine ⟨?_, ?_, ?_⟩
    · cases getOvo E.sortOvo inter (getSummary E.sortSum onlyDef (finalRows ts.length A)) with
      | error e => rfl
      | ok ovo =>
        simp only []
        cases ssImportance E none imp frame with
        | error e => rfl
        | ok r => rfl
    · cases getOvo E.sortOvo inter (getSummary E.sortSum onlyDef (finalRows ts.length A)) with
      | error e => rfl
      | ok ovo =>
        simp only []
        cases ssImportance E none imp frame with
        | error e => rfl
        | ok r => rfl
    · intro hi
      rw [getOvo_ok hi]
      simp only []
      refine ⟨?_, ?_, ?_⟩
      · cases ssImportance E none imp frame with
        | error e => rfl
        | ok r => rfl
      · intro e he; rw [he]
      · intro full t ht; rw [ht]; exact ⟨rfl, rfl, rfl⟩
  · intro hex
    have hfull := fullResult_eq hF
    rw [if_neg (fun h => hex ((finalRows_any hF).1 h))] at hfull
    unfold SsMethod.fit
    simp only [GbArg.toHandler, hu, checkMetrics_ok h1 h2, hfull]

/-! ## C40 -/

/-- **C40** After fitting a forest with at least one split below a root, the rows of `full_result` that are splits show
exactly the splits of the forest: tree, ID, true depth, feature, gain and cover, the parent's feature, gain and cover
(missing for roots), and `interaction` true exactly when the split gains more than its parent on another feature
(missing for roots). Leaves have no parent and no `interaction`. -/
theorem C40_node_statistics (H : GbForest E.leafName ts p m) {inter imp : SsMetric} (h1 : inter.availableFor p)
    (h2 : imp.availableFor p) (hex : ∃ s ∈ forestSplits ts, s.parent.isSome = true) (onlyDef : Bool) (s0 : SsMethod F I K) :
    ∃ full, (SsMethod.fit E (.model m) inter imp onlyDef s0).2.fullResult = some full ∧
      ((full.filter (fun r => !r.row.leaf)).map StatRow.view).Perm ((forestSplits ts).map (Split.view p)) ∧
      ∀ r ∈ full, r.row.leaf = true → r.parentName = none ∧ r.parentGain = none ∧ r.parentCover = none ∧ r.interaction = none := by
  obtain ⟨frame, A, hF, _, h, _⟩ := fit_state H h1 h2 onlyDef s0
  refine ⟨_, (h hex).1, finalRows_view hF, ?_⟩
  intro r hr hl
  obtain ⟨a, b, c, d, _⟩ := finalRows_leaf hF r hr hl
  exact ⟨a, b, c, d⟩

/-! ## C41 -/

/-- **C41** `full_ovo` has one row for every ordered pair of features for which a split counts, with the aggregates of
exactly those splits; the frequencies add up to the number of splits that count. `ovo` shows the selected metric of
these rows. If only defined interactions are asked for, the two features of a pair differ. -/
theorem C41_summary (hE : E.Lawful) (H : GbForest E.leafName ts p m) {inter imp : SsMetric} (hi : inter.isInteraction)
    (h1 : inter.availableFor p) (h2 : imp.availableFor p) (hex : ∃ s ∈ forestSplits ts, s.parent.isSome = true)
    (onlyDef : Bool) (s0 : SsMethod F I K) :
    ∃ summary ovo, (SsMethod.fit E (.model m) inter imp onlyDef s0).2.fullOvo = some summary ∧
      (SsMethod.fit E (.model m) inter imp onlyDef s0).2.ovo = some ovo ∧
      (∀ r ∈ summary, SumRowOk p onlyDef ts r) ∧
      (summary.map (fun r => (r.parent, r.child))).Nodup ∧
      (∀ a b, pairSplits onlyDef ts a b ≠ [] → ∃ r ∈ summary, r.parent = a ∧ r.child = b) ∧
      (summary.map SumRow.frequency).sum = ((forestSplits ts).filter (Split.counts onlyDef)).length ∧
      ovo.Perm (summary.map (fun r => ⟨r.parent, r.child, (r.metric inter).getD .nan⟩)) ∧
      (∀ r ∈ summary, (r.metric inter).isSome) ∧
      (onlyDef = true → ∀ r ∈ ovo, r.f1 ≠ r.f2) := by
  obtain ⟨frame, A, hF, _, h, _⟩ := fit_state H h1 h2 onlyDef s0
  obtain ⟨_, hs, ho⟩ := h hex
  obtain ⟨g1, g2, g3, g4⟩ := getSummary_ok hF onlyDef (sort := E.sortSum) (fun l => (hE.sum l).1)
  refine ⟨_, _, hs, (ho hi).1, g1, g2, g3, g4, (hE.ovo _ _).1, ?_, ?_⟩
  · intro r _
    rcases hi with rfl | rfl | rfl | rfl | rfl <;> rfl
  · intro hd r hr
    obtain ⟨q, hq, rfl⟩ := List.mem_map.1 ((hE.ovo _ _).1.mem_iff.1 hr)
    obtain ⟨s, hs⟩ := List.exists_mem_of_ne_nil _ (g1 q hq).occurs
    unfold pairSplits at hs
    obtain ⟨_, hs⟩ := List.mem_filter.1 hs
    simp only [hd, Split.counts, if_true, Bool.and_eq_true, decide_eq_true_eq] at hs
    obtain ⟨⟨hint, hpar⟩, hfe⟩ := hs
    intro e
    simp only [] at e
    cases hp : s.parent with
    | none => rw [hp] at hpar; cases hpar
    | some x =>
      rw [hp] at hpar
      simp only [Option.map_some, Option.some.injEq] at hpar
      unfold Split.interacts at hint
      rw [hp] at hint
      simp only [Bool.and_eq_true, decide_eq_true_eq] at hint
      exact hint.2 (by rw [hfe, hpar, e])

/-- **C41** The table of all pairs is sorted by the sum of gains, largest first, whatever metric was chosen. -/
theorem C41_full_sorted (hE : E.Lawful) (H : GbForest E.leafName ts p m) {inter imp : SsMetric}
    (h1 : inter.availableFor p) (h2 : imp.availableFor p) (hex : ∃ s ∈ forestSplits ts, s.parent.isSome = true)
    (onlyDef : Bool) (s0 : SsMethod F I K) :
    ∃ summary, (SsMethod.fit E (.model m) inter imp onlyDef s0).2.fullOvo = some summary ∧
      summary.Pairwise (fun r s => Num.keyLE false r.sumGain s.sumGain = true) := by
  obtain ⟨frame, A, hF, _, h, _⟩ := fit_state H h1 h2 onlyDef s0
  obtain ⟨_, hs, _⟩ := h hex
  exact ⟨_, hs, (hE.sum _).2⟩

/-! ## C42 -/

theorem keyLE_fin_false {x y : K} (h : Num.keyLE false (.fin x) (.fin y) = true) : y ≤ x := by
  simpa [Num.keyLE] using h

theorem keyLE_fin_true {x y : K} (h : Num.keyLE true (.fin x) (.fin y) = true) : x ≤ y := by
  simpa [Num.keyLE] using h

theorem sumRow_fin {onlyDef : Bool} {r : SumRow F K} (h : SumRowOk p onlyDef ts r) {inter : SsMetric} (hi : inter.isInteraction)
    (ha : inter.availableFor p) : ∃ x, (r.metric inter).getD .nan = .fin x := by
  rcases hi with rfl | rfl | rfl | rfl | rfl
  · exact ⟨_, h.sumGain⟩
  · cases p with
    | xgboost => exact ⟨_, (h.coverX rfl).1⟩
    | lightgbm => exact absurd rfl (ha rfl).2
  · exact ⟨_, h.meanGain⟩
  · cases p with
    | xgboost => exact ⟨_, (h.coverX rfl).2⟩
    | lightgbm => exact absurd rfl (ha rfl).1
  · exact ⟨_, h.meanDepth⟩

/-- **C42** `ovo` lists the strongest interaction first: values are finite and never increase down the table, except for
`mean_depth`, where a smaller depth is stronger and values never decrease. -/
theorem C42_ovo_order (hE : E.Lawful) (H : GbForest E.leafName ts p m) {inter imp : SsMetric} (hi : inter.isInteraction)
    (h1 : inter.availableFor p) (h2 : imp.availableFor p) (hex : ∃ s ∈ forestSplits ts, s.parent.isSome = true)
    (onlyDef : Bool) (s0 : SsMethod F I K) :
    ∃ ovo, (SsMethod.fit E (.model m) inter imp onlyDef s0).2.ovo = some ovo ∧
      ovo.Pairwise (fun r s => ∃ x y, r.val = .fin x ∧ s.val = .fin y ∧ if inter = .meanDepth then x ≤ y else y ≤ x) ∧
      (SsMethod.fit E (.model m) inter imp onlyDef s0).2.ascending = decide (inter = .meanDepth) := by
  obtain ⟨frame, A, hF, hu, h, _⟩ := fit_state H h1 h2 onlyDef s0
  obtain ⟨_, hs, ho⟩ := h hex
  obtain ⟨g1, _⟩ := getSummary_ok hF onlyDef (sort := E.sortSum) (fun l => (hE.sum l).1)
  have hfin : ∀ r ∈ ssOvoRows inter (getSummary E.sortSum onlyDef (finalRows ts.length A)), ∃ x, r.val = .fin x := by
    intro r hr
    obtain ⟨q, hq, rfl⟩ := List.mem_map.1 hr
    exact sumRow_fin (g1 q hq) hi h1
  obtain ⟨hp, hpw⟩ := hE.ovo (decide (inter = .meanDepth)) (ssOvoRows inter (getSummary E.sortSum onlyDef (finalRows ts.length A)))
  refine ⟨_, (ho hi).1, ?_, ?_⟩
  · refine List.Pairwise.imp_of_mem ?_ hpw
    intro r s hr hs hk
    obtain ⟨x, hx⟩ := hfin r (hp.mem_iff.1 hr)
    obtain ⟨y, hy⟩ := hfin s (hp.mem_iff.1 hs)
    refine ⟨x, y, hx, hy, ?_⟩
    rw [hx, hy] at hk
    by_cases e : inter = .meanDepth
    · rw [if_pos e]; rw [decide_eq_true e] at hk; exact keyLE_fin_true hk
    · rw [if_neg e]; rw [decide_eq_false e] at hk; exact keyLE_fin_false hk
  · have hmet : (SsMethod.fit E (.model m) inter imp onlyDef s0).2.metric = some inter := by
      have hfull := fullResult_eq hF
      rw [if_pos ((finalRows_any hF).2 hex)] at hfull
      unfold SsMethod.fit
      simp only [GbArg.toHandler, hu, checkMetrics_ok h1 h2, hfull, getOvo_ok hi]
      cases ssImportance E none imp frame <;> rfl
    unfold SsMethod.ascending
    rw [hmet]
    rfl

/-! ## C43 -/

theorem isImportance_ne {imp : SsMetric} (h : imp.isImportance) : imp ≠ .frequency ∧ imp ≠ .other := by
  rcases h with h | h | h | h
  · rcases h with h | h | h | h | h <;> simp [h]
  all_goals simp [h]

/-- **C43** (partial: some split lies below a root, no feature bears the name that marks leaves, and the gains of no used
feature add up to 0): `fit` completes with any documented metrics the package supports. -/
theorem C43_fit_completes_partial (hE : E.Lawful) (H : GbForest E.leafName ts p m) {inter imp : SsMetric} (hi : inter.isInteraction)
    (him : imp.isImportance) (h1 : inter.availableFor p) (h2 : imp.availableFor p)
    (hex : ∃ s ∈ forestSplits ts, s.parent.isSome = true) (hnl : NoLeafName E.leafName ts)
    (hgain : ∀ s ∈ forestSplits ts, gainSum (featSplits ts s.feat) ≠ 0) (onlyDef : Bool) (s0 : SsMethod F I K) :
    (SsMethod.fit E (.model m) inter imp onlyDef s0).1 = .ok () := by
  obtain ⟨frame, A, hF, _, h, _⟩ := fit_state H h1 h2 onlyDef s0
  have hgain' : ∀ f, featSplits ts f ≠ [] → gainSum (featSplits ts f) ≠ 0 := by
    intro f hf
    obtain ⟨s, hs⟩ := List.exists_mem_of_ne_nil _ hf
    obtain ⟨h3, h4⟩ := List.mem_filter.1 hs
    have := hgain s h3
    rwa [of_decide_eq_true h4] at this
  obtain ⟨s, hs, _⟩ := id hex
  obtain ⟨full, e, _⟩ := ssImportance_ok E (fun k l => (hE.full k l).1) hF hnl (features := none) (fun fs e => by cases e)
    (isImportance_ne him) ⟨s, hs, rfl⟩ hgain'
  exact (((h hex).2.2 hi).2.2 _ _ e).1

/-- **C43** Positive gains are enough for the condition on gains above. -/
theorem C43_positive_gains [IsStrictOrderedRing K] (hpos : ∀ s ∈ forestSplits ts, 0 < s.gain) :
    ∀ s ∈ forestSplits ts, gainSum (featSplits ts s.feat) ≠ 0 := by
  intro s hs
  apply ne_of_gt
  unfold gainSum
  have hmem : s ∈ featSplits ts s.feat := List.mem_filter.2 ⟨hs, by simp⟩
  have hall : ∀ x ∈ featSplits ts s.feat, 0 < x.gain := fun x hx => hpos x (List.mem_filter.1 hx).1
  generalize featSplits ts s.feat = l at hmem hall
  induction l with
  | nil => cases hmem
  | cons a l ih =>
    rw [List.map_cons, List.sum_cons]
    have ha := hall a (List.mem_cons_self ..)
    have : 0 ≤ (l.map (fun s => s.gain)).sum := by
      apply List.sum_nonneg
      intro x hx
      obtain ⟨y, hy, rfl⟩ := List.mem_map.1 hx
      exact le_of_lt (hall y (List.mem_cons_of_mem _ hy))
    exact add_pos_of_pos_of_nonneg ha this

/-- **C43 fails** for every forest without a split below a root (stumps and single leaves), whatever the metrics: `fit`
raises a KeyError, having only stored the metric. -/
theorem C43_stumps_fail (H : GbForest E.leafName ts p m) {inter imp : SsMetric} (h1 : inter.availableFor p)
    (h2 : imp.availableFor p) (hno : ∀ s ∈ forestSplits ts, s.parent = none) (onlyDef : Bool) (s0 : SsMethod F I K) :
    SsMethod.fit E (.model m) inter imp onlyDef s0 = (.error .keyError, { s0 with metric := some inter }) := by
  obtain ⟨frame, A, hF, _, _, h⟩ := fit_state H h1 h2 onlyDef s0
  apply h
  rintro ⟨s, hs, hp⟩
  rw [hno s hs] at hp
  cases hp

/-- **C43 fails** as soon as the gains of a used feature add up to 0: `fit` does not complete. -/
theorem C43_zero_gain_fails (H : GbForest E.leafName ts p m) {inter imp : SsMetric} (hi : inter.isInteraction)
    (h1 : inter.availableFor p) (h2 : imp.availableFor p) (hnl : NoLeafName E.leafName ts)
    (hz : ∃ s ∈ forestSplits ts, gainSum (featSplits ts s.feat) = 0) (onlyDef : Bool) (s0 : SsMethod F I K) :
    (SsMethod.fit E (.model m) inter imp onlyDef s0).1 ≠ .ok () := by
  obtain ⟨frame, A, hF, _, h, h'⟩ := fit_state H h1 h2 onlyDef s0
  by_cases hex : ∃ s ∈ forestSplits ts, s.parent.isSome = true
  · obtain ⟨s, hs, hz⟩ := hz
    obtain ⟨frame', e1, hp⟩ := depths_ok hF
    have htup := selectRows_tup hF hnl (features := none) (fun fs e => by cases e) hp
    have hocc : featSplits ts s.feat ≠ [] := by
      intro hn
      have : s ∈ featSplits ts s.feat := List.mem_filter.2 ⟨hs, by simp⟩
      rw [hn] at this; cases this
    have hkey := (mem_impKeys htup s.feat).2 ⟨rfl, hocc⟩
    have herr := (impStat_ok htup (f := s.feat) rfl hocc).1 hz
    have hm : ∀ ks : List F, s.feat ∈ ks → ∃ e, ks.mapM (impStat (selectRows E.leafName none frame')) = .error e := by
      intro ks
      induction ks with
      | nil => intro hk; cases hk
      | cons k ks ih =>
        intro hk
        rw [List.mapM_cons]
        cases hk1 : impStat (selectRows E.leafName none frame') k with
        | error e => exact ⟨e, rfl⟩
        | ok r =>
          rcases List.mem_cons.1 hk with rfl | hk
          · rw [herr] at hk1; cases hk1
          · obtain ⟨e, he⟩ := ih hk
            exact ⟨e, by rw [he]; rfl⟩
    obtain ⟨e, he⟩ := hm _ hkey
    have himp : ssImportance E none imp frame = .error e := by
      unfold ssImportance
      rw [e1]
      simp only [allImportance, he]
    rw [((h hex).2.2 hi).2.1 e himp]
    intro hc; cases hc
  · rw [h' hex]
    intro hc; cases hc

/-- **C43**, exactly: with documented metrics the package supports and no feature bearing the name that marks leaves, `fit`
completes if and only if some split lies below a root and the gains of no used feature add up to 0. -/
theorem C43_completes_iff (hE : E.Lawful) (H : GbForest E.leafName ts p m) {inter imp : SsMetric} (hi : inter.isInteraction)
    (him : imp.isImportance) (h1 : inter.availableFor p) (h2 : imp.availableFor p) (hnl : NoLeafName E.leafName ts)
    (onlyDef : Bool) (s0 : SsMethod F I K) :
    (SsMethod.fit E (.model m) inter imp onlyDef s0).1 = .ok () ↔
      (∃ s ∈ forestSplits ts, s.parent.isSome = true) ∧ ∀ s ∈ forestSplits ts, gainSum (featSplits ts s.feat) ≠ 0 := by
  constructor
  · intro h
    refine ⟨?_, fun s hs hz => C43_zero_gain_fails H hi h1 h2 hnl ⟨s, hs, hz⟩ onlyDef s0 h⟩
    by_contra hno
    have hno' : ∀ s ∈ forestSplits ts, s.parent = none := by
      intro s hs
      cases hp : s.parent with
      | none => rfl
      | some x => exact absurd ⟨s, hs, by rw [hp]; rfl⟩ hno
    rw [C43_stumps_fail H h1 h2 hno' onlyDef s0] at h
    cases h
  · exact fun h => C43_fit_completes_partial hE H hi him h1 h2 h.1 hnl h.2 onlyDef s0

/-! ## C44 -/

/-- not a single leaf -/
def GTree.isSplit : GTree F I K → Bool
  | .leaf _ _ _ => false
  | .split _ _ _ _ _ _ => true

/-- number of trees that are not a single leaf -/
def splitTrees (ts : List (GTree F I K)) : Nat := ts.countP GTree.isSplit

/-- the importance of a model: table of all metrics, and the selected one -/
def importanceOf (E : SsEnv F K) (features : Option (List F)) (imp : SsMetric) (m : GbModel F I K) :
    Except Err (List (ImpStat F K) × List (ImpRow F K)) :=
  match unifyStructure E.leafName m with
  | .error e => .error e
  | .ok h => ssImportance E features imp h.frame

/-- **C44** For every forest whose features are not called like the mark of leaves and whose features' gains do not add up
to 0: the importance lists exactly the selected features that are used in a split, each once, with the aggregates of
exactly its splits and roots (`ImpStatOk`); the table returned shows the selected metric of these rows. -/
theorem C44_importance_metrics (hE : E.Lawful) (H : GbForest E.leafName ts p m) {imp : SsMetric} (him : imp.isImportance)
    (hnl : NoLeafName E.leafName ts) {features : Option (List F)} (hf : ∀ fs, features = some fs → E.leafName ∉ fs)
    (hused : ∃ s ∈ forestSplits ts, selected features s.feat = true)
    (hgain : ∀ s ∈ forestSplits ts, gainSum (featSplits ts s.feat) ≠ 0) :
    ∃ full table, importanceOf E features imp m = .ok (full, table) ∧
      (∀ r ∈ full, ImpStatOk p features ts r) ∧ (full.map ImpStat.feat).Nodup ∧
      (∀ f, f ∈ full.map ImpStat.feat ↔ selected features f = true ∧ featSplits ts f ≠ []) ∧
      table.Perm (full.map (fun r => ⟨r.feat, (r.metric imp).getD .nan⟩)) := by
  obtain ⟨frame, A, hu, hF⟩ := framed_of_forest H
  have hgain' : ∀ f, featSplits ts f ≠ [] → gainSum (featSplits ts f) ≠ 0 := by
    intro f hf
    obtain ⟨s, hs⟩ := List.exists_mem_of_ne_nil _ hf
    obtain ⟨h3, h4⟩ := List.mem_filter.1 hs
    have := hgain s h3
    rwa [of_decide_eq_true h4] at this
  obtain ⟨full, e, g1, g2, g3, _⟩ := ssImportance_ok E (fun k l => (hE.full k l).1) hF hnl hf (isImportance_ne him) hused hgain'
  refine ⟨full, _, ?_, g1, g2, g3, (hE.imp _).1⟩
  unfold importanceOf
  rw [hu]
  exact e

/-- **C44** `fit` stores this importance (all features). -/
theorem C44_fit_stores_importance (H : GbForest E.leafName ts p m) {inter imp : SsMetric} (hi : inter.isInteraction)
    (h1 : inter.availableFor p) (h2 : imp.availableFor p) (hex : ∃ s ∈ forestSplits ts, s.parent.isSome = true)
    {full : List (ImpStat F K)} {table : List (ImpRow F K)} (ht : importanceOf E none imp m = .ok (full, table))
    (onlyDef : Bool) (s0 : SsMethod F I K) :
    (SsMethod.fit E (.model m) inter imp onlyDef s0).1 = .ok () ∧
    (SsMethod.fit E (.model m) inter imp onlyDef s0).2.importance = some table ∧
    (SsMethod.fit E (.model m) inter imp onlyDef s0).2.impMetric = some (some imp) := by
  obtain ⟨frame, A, hF, hu, h, _⟩ := fit_state H h1 h2 onlyDef s0
  unfold importanceOf at ht
  rw [hu] at ht
  exact ((h hex).2.2 hi).2.2 full table ht

theorem roots_of_tree (T : GTree F I K) (t : Nat) : ((T.splits t none 0).filter (fun s => decide (s.depth = 0))).length
    = if T.isSplit then 1 else 0 := by
  cases T with
  | leaf i v c => rfl
  | split i f g c l r =>
    simp only [GTree.splits, List.filter_cons, decide_true, if_true, List.length_cons]
    have : ((l.splits t (some (f, g, c)) 1 ++ r.splits t (some (f, g, c)) 1).filter (fun s => decide (s.depth = 0))) = [] := by
      rw [List.filter_eq_nil_iff]
      intro s hs
      rw [decide_eq_true_eq]
      have hd : 0 < s.depth := by
        rcases List.mem_append.1 hs with h | h
        · rcases (l.splits_depth t _ _ s h).2 with ⟨h, _⟩ | ⟨h, _⟩ <;> omega
        · rcases (r.splits_depth t _ _ s h).2 with ⟨h, _⟩ | ⟨h, _⟩ <;> omega
      omega
    rw [this]; rfl

theorem roots_count (ts : List (GTree F I K)) : ((forestSplits ts).filter (fun s => decide (s.depth = 0))).length = splitTrees ts := by
  unfold forestSplits splitTrees
  have : ∀ n, (((ts.zipIdx n).map (fun q => q.1.splits q.2 none 0)).flatten.filter (fun s => decide (s.depth = 0))).length
      = ts.countP GTree.isSplit := by
    induction ts with
    | nil => intro n; rfl
    | cons T ts ih =>
      intro n
      rw [List.zipIdx_cons, List.map_cons, List.flatten_cons, List.filter_append, List.length_append, ih, roots_of_tree,
        List.countP_cons]
      cases T <;> simp [GTree.isSplit, Nat.add_comm]
  exact this 0

/-- **C44** The root frequencies of all features add up to the number of trees with a split. -/
theorem C44_root_frequencies_add_up (hE : E.Lawful) (H : GbForest E.leafName ts p m) {imp : SsMetric} (him : imp.isImportance)
    (hnl : NoLeafName E.leafName ts) (hused : forestSplits ts ≠ [])
    (hgain : ∀ s ∈ forestSplits ts, gainSum (featSplits ts s.feat) ≠ 0) :
    ∃ full table, importanceOf E none imp m = .ok (full, table) ∧
      Num.sum (full.map (fun r => r.rootFrequency.fillna0)) = .ofNat (splitTrees ts) := by
  obtain ⟨s, hs⟩ := List.exists_mem_of_ne_nil _ hused
  obtain ⟨full, table, e, h1, h2, h3, h4⟩ := C44_importance_metrics hE H him hnl (features := none) (fun fs e => by cases e)
    ⟨s, hs, rfl⟩ hgain
  refine ⟨full, table, e, ?_⟩
  have e1 : full.map (fun r => r.rootFrequency.fillna0) = full.map (fun r => Num.fin ((featRoots ts r.feat).length : K)) := by
    apply List.map_congr_left
    intro r hr
    rw [(h1 r hr).rootFrequency]
    split
    · rename_i h; simp [h]
    · rfl
  rw [e1, Num.sum_fin]
  have e2 : (full.map (fun r => ((featRoots ts r.feat).length : K))).sum = ((full.map (fun r => (featRoots ts r.feat).length)).sum : K) := by
    clear e e1 h1 h2 h3 h4
    induction full with
    | nil => simp
    | cons a l ih => simp [ih]
  rw [e2, ← roots_count]
  have hperm := perm_groups Split.feat ((forestSplits ts).filter (fun s => decide (s.depth = 0))) (full.map ImpStat.feat) h2
  have hself : ((forestSplits ts).filter (fun s => decide (s.depth = 0))).filter (fun x => decide (x.feat ∈ full.map ImpStat.feat))
      = (forestSplits ts).filter (fun s => decide (s.depth = 0)) := by
    rw [List.filter_eq_self]
    intro x hx
    rw [decide_eq_true_eq, h3]
    refine ⟨rfl, ?_⟩
    intro hn
    have : x ∈ featSplits ts x.feat := List.mem_filter.2 ⟨(List.mem_filter.1 hx).1, by simp⟩
    rw [hn] at this; cases this
  rw [hself] at hperm
  rw [hperm.length_eq, List.length_flatten, List.map_map, List.map_map]
  have e3 : full.map (fun r => (featRoots ts r.feat).length)
      = full.map (List.length ∘ (fun k => ((forestSplits ts).filter (fun s => decide (s.depth = 0))).filter (fun x => decide (x.feat = k))) ∘ ImpStat.feat) := by
    apply List.map_congr_left
    intro r _
    simp only [Function.comp, featRoots, featSplits]
    rw [List.filter_filter, List.filter_filter]
    congr 1
    apply List.filter_congr
    intro x _
    exact Bool.and_comm _ _
  rw [e3]
  rfl

/-! ## C45 -/

theorem table_sorted (hE : E.Lawful) {features : Option (List F)} {imp : SsMetric} {full : List (ImpStat F K)} {table : List (ImpRow F K)}
    (ht : importanceOf E features imp m = .ok (full, table)) :
    table.Pairwise (fun r s => Num.keyLE false r.val s.val = true) := by
  unfold importanceOf at ht
  split at ht
  · cases ht
  · unfold ssImportance at ht
    split at ht
    · cases ht
    · split at ht
      · cases ht
      · cases ht
        exact (hE.imp _).2

/-- `s` does not beat `r` in a table where larger is more important -/
def NotAbove (s r : Num K) : Prop := s = .nan ∨ Num.le s r = true

/-- **C45** (partial: the two depth metrics are left out) For metrics where a larger value is more important, the first
row of the table holds the most important feature, whatever features were selected. -/
theorem C45_most_important_first_partial (hE : E.Lawful) {features : Option (List F)} {imp : SsMetric}
    (hd : imp ≠ .meanDepth ∧ imp ≠ .meanWeightedDepth) {full : List (ImpStat F K)} {r : ImpRow F K} {rest : List (ImpRow F K)}
    (ht : importanceOf E features imp m = .ok (full, r :: rest)) :
    imp.impAscending = false ∧ ∀ s ∈ rest, NotAbove s.val r.val := by
  have hs := table_sorted hE ht
  refine ⟨by simp [SsMetric.impAscending, hd.1, hd.2], ?_⟩
  intro s hs'
  have := (List.pairwise_cons.1 hs).1 s hs'
  unfold Num.keyLE at this
  by_cases h1 : s.val.isNaN = true
  · exact Or.inl ((Num.isNaN_iff _).1 h1)
  · rw [if_neg h1] at this
    split at this
    · cases this
    · exact Or.inr (by simpa using this)

/-- **C45 fails** for the two depth metrics: a smaller depth is declared more important, but the first row always holds the
largest value, so it is the least important feature. -/
theorem C45_depth_metrics_backwards (hE : E.Lawful) {features : Option (List F)} {imp : SsMetric}
    (hd : imp = .meanDepth ∨ imp = .meanWeightedDepth) {full : List (ImpStat F K)} {r : ImpRow F K} {rest : List (ImpRow F K)}
    (ht : importanceOf E features imp m = .ok (full, r :: rest)) :
    imp.impAscending = true ∧ ∀ s ∈ rest, NotAbove s.val r.val := by
  have hs := table_sorted hE ht
  refine ⟨by rcases hd with rfl | rfl <;> rfl, ?_⟩
  intro s hs'
  have := (List.pairwise_cons.1 hs).1 s hs'
  unfold Num.keyLE at this
  by_cases h1 : s.val.isNaN = true
  · exact Or.inl ((Num.isNaN_iff _).1 h1)
  · rw [if_neg h1] at this
    split at this
    · cases this
    · exact Or.inr (by simpa using this)

/-! ## C31 for the split score importance -/

theorem feats_filter (rows : List (GbRow F I K)) : rows.filterMap GbRow.feat = (rows.filter (fun r => r.feat.isSome)).filterMap GbRow.feat := by
  induction rows with
  | nil => rfl
  | cons r rows ih =>
    rw [List.filter_cons]
    cases hr : r.feat with
    | none => simp [hr, ih]
    | some x => simp [hr, ih]

theorem ofFeature_filter (rows : List (GbRow F I K)) (f : F) : ofFeature rows f = ofFeature (rows.filter (fun r => r.feat.isSome)) f := by
  unfold ofFeature
  rw [List.filter_filter]
  apply List.filter_congr
  intro r _
  cases r.feat <;> simp

theorem rootRows_filter (rows : List (GbRow F I K)) : (rootRows rows).filter (fun r => r.feat.isSome)
    = rootRows (rows.filter (fun r => r.feat.isSome)) := by
  unfold rootRows
  rw [List.filter_filter, List.filter_filter]
  apply List.filter_congr
  intro r _
  exact Bool.and_comm _ _

theorem impStat_filter (rows : List (GbRow F I K)) (f : F) : impStat rows f = impStat (rows.filter (fun r => r.feat.isSome)) f := by
  have e1 := ofFeature_filter rows f
  have e2 : ofFeature (rootRows rows) f = ofFeature (rootRows (rows.filter (fun r => r.feat.isSome))) f := by
    rw [ofFeature_filter, rootRows_filter]
  have e3 : totalRootGain rows = totalRootGain (rows.filter (fun r => r.feat.isSome)) := by
    unfold totalRootGain
    rw [← rootRows_filter, List.filter_filter]
    simp only [Bool.and_self]
  unfold impStat
  rw [e1, e2, e3]

theorem allImportance_none (E : SsEnv F K) (fs : List F) (hfs : E.leafName ∉ fs) (imp : SsMetric) (frame : List (GbRow F I K))
    (hall : ∀ r ∈ frame, ∀ f, r.feat = some f → f ≠ E.leafName → f ∈ fs) :
    allImportance E.leafName E.sortFull none imp frame = allImportance E.leafName E.sortFull (some fs) imp frame := by
  have hsel : (selectRows E.leafName none frame).filter (fun r => r.feat.isSome)
      = (selectRows E.leafName (some fs) frame).filter (fun r => r.feat.isSome) := by
    simp only [selectRows]
    rw [List.filter_filter, List.filter_filter]
    apply List.filter_congr
    intro r hr
    cases hf : r.feat with
    | none => rfl
    | some f =>
      have := hall r hr f hf
      by_cases e : f = E.leafName
      · subst e; simp [hfs]
      · simp [e, this e]
  have hmap : (npUnique ((selectRows E.leafName none frame).filterMap GbRow.feat)).mapM (impStat (selectRows E.leafName none frame))
      = (npUnique ((selectRows E.leafName (some fs) frame).filterMap GbRow.feat)).mapM (impStat (selectRows E.leafName (some fs) frame)) := by
    rw [feats_filter (selectRows E.leafName none frame), feats_filter (selectRows E.leafName (some fs) frame), hsel,
      funext (impStat_filter (selectRows E.leafName none frame)), funext (impStat_filter (selectRows E.leafName (some fs) frame)), hsel]
  simp only [allImportance, hmap]

/-- **C31** for the split score importance: leaving out `features` has exactly the effect of listing all features of the
forest (none of them called like the mark of leaves); features that no split uses may be listed as well. -/
theorem C31_split_score_none_is_all_partial (H : GbForest E.leafName ts p m) (fs : List F) (hfs : E.leafName ∉ fs)
    (hall : ∀ s ∈ forestSplits ts, s.feat ∈ fs) (imp : SsMetric) :
    importanceOf E none imp m = importanceOf E (some fs) imp m := by
  obtain ⟨frame, A, hu, hF⟩ := framed_of_forest H
  obtain ⟨frame', e, hp⟩ := depths_ok hF
  have := allImportance_none E fs hfs imp frame' (by
    intro r hr f hf hne
    obtain ⟨x, hx, rfl⟩ := List.mem_map.1 (hp.mem_iff.1 hr)
    cases hl : x.row.leaf with
    | true =>
      rcases (finalRows_leaf hF x hx hl).2.2.2.2 with h | h
      · rw [h] at hf; cases hf
      · rw [h] at hf; exact absurd (Option.some.inj hf).symm hne
    | false =>
      have : x.view ∈ (forestSplits ts).map (Split.view p) :=
        (finalRows_view hF).mem_iff.1 (List.mem_map.2 ⟨x, List.mem_filter.2 ⟨hx, by simp [hl]⟩, rfl⟩)
      obtain ⟨s, hs, es⟩ := List.mem_map.1 this
      have h1 : x.row.feat = some s.feat := (congrArg StatView.feat es).symm
      rw [h1] at hf
      rw [← Option.some.inj hf]
      exact hall s hs)
  simp only [importanceOf, hu, ssImportance, e, this]

/-! ## C71 -/

/-- **C71 fails**: a feature called like the mark of leaves is never listed by the importance of a model, however much
the model uses it. -/
theorem C71_leaf_name_never_listed (hE : E.Lawful) {imp : SsMetric} {full : List (ImpStat F K)} {table : List (ImpRow F K)}
    (ht : importanceOf E none imp m = .ok (full, table)) : ∀ r ∈ table, r.f ≠ E.leafName := by
  have hkey : ∀ (fr : List (GbRow F I K)) (fl : List (ImpStat F K)), allImportance E.leafName E.sortFull none imp fr = .ok fl →
      ∀ r ∈ fl, r.feat ≠ E.leafName := by
    intro fr fl h
    unfold allImportance at h
    simp only [] at h
    split at h
    · cases h
    · cases h
    · rename_i s ss hm
      have hfe : ∀ r ∈ (s :: ss), r.feat ≠ E.leafName := by
        have h2 := mapM_eq_ok hm
        intro r hr
        obtain ⟨f, hf, hfr⟩ : ∃ f ∈ npUnique ((selectRows E.leafName none fr).filterMap GbRow.feat), impStat (selectRows E.leafName none fr) f = .ok r := by
          clear hm h
          revert h2 hr
          generalize npUnique ((selectRows E.leafName none fr).filterMap GbRow.feat) = ks
          generalize s :: ss = l
          intro h2 hr
          induction h2 with
          | nil => cases hr
          | cons h3 _ ih =>
            rcases List.mem_cons.1 hr with rfl | hr
            · exact ⟨_, List.mem_cons_self .., h3⟩
            · obtain ⟨f, hf, e⟩ := ih hr
              exact ⟨f, List.mem_cons_of_mem _ hf, e⟩
        have hrf : r.feat = f := by
          unfold impStat at hfr
          simp only [] at hfr
          split at hfr
          · cases hfr
          · cases hfr; rfl
        rw [hrf]
        intro e
        subst e
        rw [mem_npUnique, List.mem_filterMap] at hf
        obtain ⟨x, hx, ex⟩ := hf
        simp only [selectRows, List.mem_filter, ex, decide_true] at hx
        exact absurd hx.2 (by simp)
      split at h
      · cases h
      · cases h
      · cases h
        intro r hr
        exact hfe r ((hE.full _ _).1.mem_iff.1 hr)
  unfold importanceOf at ht
  split at ht
  · cases ht
  · unfold ssImportance at ht
    split at ht
    · cases ht
    · split at ht
      · cases ht
      · rename_i fl hfl
        cases ht
        intro r hr
        obtain ⟨q, hq, rfl⟩ := List.mem_map.1 ((hE.imp _).1.mem_iff.1 hr)
        exact hkey _ _ hfl q hq

/-- **C71** (partial: no feature is called like the mark of leaves) every feature used in a split is listed. -/
theorem C71_used_features_listed_partial (hE : E.Lawful) (H : GbForest E.leafName ts p m) {imp : SsMetric} (him : imp.isImportance)
    (hnl : NoLeafName E.leafName ts) (hgain : ∀ s ∈ forestSplits ts, gainSum (featSplits ts s.feat) ≠ 0)
    {s : Split F I K} (hs : s ∈ forestSplits ts) :
    ∃ full table, importanceOf E none imp m = .ok (full, table) ∧ ∃ r ∈ table, r.f = s.feat := by
  obtain ⟨full, table, e, _, _, h3, h4⟩ := C44_importance_metrics hE H him hnl (features := none) (fun fs e => by cases e)
    ⟨s, hs, rfl⟩ hgain
  refine ⟨full, table, e, ?_⟩
  have : s.feat ∈ full.map ImpStat.feat := (h3 s.feat).2 ⟨rfl, by
    intro hn
    have : s ∈ featSplits ts s.feat := List.mem_filter.2 ⟨hs, by simp⟩
    rw [hn] at this; cases this⟩
  obtain ⟨q, hq, eq⟩ := List.mem_map.1 this
  exact ⟨_, h4.mem_iff.2 (List.mem_map.2 ⟨q, hq, rfl⟩), eq⟩

/-! ## Cases -/

section Cases

/-- stable sorts; feature 99 is the mark of leaves -/
def exSsEnv : SsEnv Nat ℚ where
  leafName := 99
  sortSum := stableSort SumRow.sumGain false
  sortOvo := fun asc => stableSort SsRow.val asc
  sortFull := fun key => stableSort key false
  sortImp := stableSort ImpRow.val false

theorem exSsEnv_lawful : exSsEnv.Lawful :=
  ⟨sortsBy_stableSort _ _, fun _ => sortsBy_stableSort _ _, fun _ => sortsBy_stableSort _ _, sortsBy_stableSort _ _⟩

/-- a tree with a root on feature 0 and below it a better split on feature 1 -/
def exGT : GTree Nat Nat ℚ := .split 0 0 1 10 (.split 1 1 2 6 (.leaf 3 0 3) (.leaf 4 0 3)) (.leaf 2 0 4)

/-- a stump -/
def exStump : GTree Nat Nat ℚ := .split 0 0 1 10 (.leaf 1 0 6) (.leaf 2 0 4)

/-- an XGBoost model of the tree and the stump -/
def exXgb : GbModel Nat Nat ℚ :=
  ⟨"xgboost.sklearn.XGBRegressor".toList, .xgb (exGT.xgbRows 99 0 id ++ exStump.xgbRows 99 1 id)⟩

/-- a LightGBM model of the tree, its rows listed in reverse order -/
def exLgb : GbModel Nat Nat ℚ := ⟨"lightgbm.sklearn.LGBMRegressor".toList, .lgb (exGT.lgbRows 0 0).reverse⟩

theorem exXgb_forest : GbForest 99 [exGT, exStump] .xgboost exXgb := by
  refine GbForest.xgboost _ _ (by decide) ⟨by decide, by decide, ?_, by decide, by unfold NoLeafName; decide⟩
  intro t T hT
  match t, hT with
  | 0, hT =>
    cases hT
    exact ⟨id, by decide, List.Perm.of_eq rfl⟩
  | 1, hT =>
    cases hT
    exact ⟨id, by decide, List.Perm.of_eq rfl⟩

theorem exLgb_forest : GbForest 99 [exGT] .lightgbm exLgb := by
  refine GbForest.lightgbm _ _ (by decide) ⟨by decide, by decide, ?_⟩
  intro t T hT
  match t, hT with
  | 0, hT =>
    cases hT
    refine List.Perm.trans (List.Perm.of_eq ?_) (List.reverse_perm _)
    rfl

theorem exGT_below : ∃ s ∈ forestSplits [exGT, exStump], s.parent.isSome = true :=
  ⟨⟨0, 1, 1, 1, 2, 6, some (0, 1, 10)⟩, by simp [forestSplits, exGT, exStump, GTree.splits], rfl⟩

theorem exGT_below' : ∃ s ∈ forestSplits [exGT], s.parent.isSome = true :=
  ⟨⟨0, 1, 1, 1, 2, 6, some (0, 1, 10)⟩, by simp [forestSplits, exGT, GTree.splits], rfl⟩

theorem exGT_pos : ∀ s ∈ forestSplits [exGT, exStump], 0 < s.gain := by decide +kernel

theorem exGT_pos' : ∀ s ∈ forestSplits [exGT], 0 < s.gain := by decide +kernel

theorem avail_gain (p : Package) : SsMetric.meanGain.availableFor p := fun _ => ⟨by decide, by decide⟩

/-- C40, C41, C42 and C43 apply to both models -/
example : (SsMethod.fit exSsEnv (.model exXgb) .meanGain .meanGain true SsMethod.new).1 = .ok () :=
  C43_fit_completes_partial exSsEnv_lawful exXgb_forest (by simp [SsMetric.isInteraction]) (by simp [SsMetric.isImportance, SsMetric.isInteraction])
    (avail_gain _) (avail_gain _) exGT_below (by unfold NoLeafName; decide) (C43_positive_gains exGT_pos) true _

example : (SsMethod.fit exSsEnv (.model exLgb) .meanGain .meanGain true SsMethod.new).1 = .ok () :=
  C43_fit_completes_partial exSsEnv_lawful exLgb_forest (by simp [SsMetric.isInteraction]) (by simp [SsMetric.isImportance, SsMetric.isInteraction])
    (avail_gain _) (avail_gain _) exGT_below' (by unfold NoLeafName; decide) (C43_positive_gains exGT_pos') true _

example := C40_node_statistics (E := exSsEnv) exXgb_forest (avail_gain _) (avail_gain _) exGT_below true SsMethod.new
example := C40_node_statistics (E := exSsEnv) exLgb_forest (avail_gain _) (avail_gain _) exGT_below' true SsMethod.new

/-- the one interaction found -/
example : ((SsMethod.fit exSsEnv (.model exXgb) .meanGain .meanGain true SsMethod.new).2.ovo.map
    (fun l => l.map (fun r => (r.f1, r.f2, r.val)))) = some [(0, 1, .fin 2)] := by decide +kernel

/-- C43 fails for a model of one stump -/
example : SsMethod.fit exSsEnv (.model ⟨"xgboost.core.Booster".toList, .xgb (exStump.xgbRows 99 0 id)⟩) .meanGain .meanGain true SsMethod.new
    = (.error .keyError, { SsMethod.new with metric := some .meanGain }) := by
  refine C43_stumps_fail (E := exSsEnv) (ts := [exStump]) (p := .xgboost) ?_ (avail_gain _) (avail_gain _) ?_ true _
  · refine GbForest.xgboost _ _ (by decide) ⟨by decide, by decide, ?_, by decide, by unfold NoLeafName; decide⟩
    intro t T hT
    match t, hT with
    | 0, hT =>
      cases hT
      exact ⟨id, by decide, List.Perm.of_eq rfl⟩
  · intro s hs
    simp [forestSplits, exStump, GTree.splits] at hs
    simp [hs]

/-- the table of an importance -/
def tableOf {F K : Type} (r : Except Err (List (ImpStat F K) × List (ImpRow F K))) : Option (List (F × Num K)) :=
  match r with
  | .ok (_, t) => some (t.map (fun r => (r.f, r.val)))
  | .error _ => none

/-- C45 fails: with `mean_depth`, feature 1 (depth 1) is listed before feature 0 (always at the root), although smaller
depths are declared more important. -/
theorem C45_fails : tableOf (importanceOf exSsEnv none .meanDepth exXgb) = some [(1, .fin 1), (0, .fin 0)] ∧
    SsMetric.impAscending .meanDepth = true := by decide +kernel

/-- C45 and C44 with a gain metric -/
example : tableOf (importanceOf exSsEnv none .sumGain exXgb) = some [(0, .fin 2), (1, .fin 2)] := by decide +kernel

/-- C44: feature 0 roots both trees, feature 1 none -/
example : tableOf (importanceOf exSsEnv none .rootFrequency exXgb) = some [(0, .fin 2), (1, .nan)] := by decide +kernel

/-- C71 fails: a LightGBM model with a feature called like the mark of leaves at its root -/
theorem C71_fails : tableOf (importanceOf exSsEnv none .sumGain
    (⟨"lightgbm.basic.Booster".toList, .lgb ((GTree.split 0 99 5 0 (.split 1 1 2 0 (.leaf 3 0 0) (.leaf 4 0 0)) (.leaf 2 0 0)).lgbRows 0 0)⟩ :
      GbModel Nat Nat ℚ)) = some [(1, .fin 2)] := by decide +kernel

/-- C39: a scikit-learn model -/
example : SsMethod.fit exSsEnv (.model ⟨"sklearn".toList ++ '.' :: "ensemble.X".toList, exXgb.raw⟩) .meanGain .meanGain true SsMethod.new
    = (.error .modelNotSupported, SsMethod.new) :=
  C39_unsupported_package exSsEnv _ _ (by decide) (by decide) (by decide) _ _ _ _ _

/-- C31 for the example -/
example : importanceOf exSsEnv none .sumGain exXgb = importanceOf exSsEnv (some [1, 0, 7]) .sumGain exXgb :=
  C31_split_score_none_is_all_partial exXgb_forest _ (by decide) (by decide) _

end Cases

end Artemis
