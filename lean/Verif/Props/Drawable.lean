import Verif.Props.Summary

/-!
# C59: plots of a fitted method can be drawn
-/

set_option linter.unusedSectionVars false
set_option linter.unusedVariables false
set_option linter.unusedSimpArgs false

namespace Artemis
open Spec

section General
variable {F I K : Type} [LinearOrder F] [Field K] [LinearOrder K]

/-- The tables of a method fit together: they are about the same features, and there is a pair of different features with a
number. For a directed table the importance has no NaN. -/
structure Matching (v : View F I K) (ovo : List (OvoRow F K)) (imp : List (FeatRow F K)) : Prop where
  has_ovo : v.ovo = some ovo
  has_imp : v.imp = some imp
  pairs_listed : ∀ r ∈ ovo, (∃ q ∈ imp, q.f = r.f1) ∧ ∃ q ∈ imp, q.f = r.f2
  imp_paired : ∀ q ∈ imp, ∃ r ∈ ovo, r.f1 = q.f ∨ r.f2 = q.f
  pair : ∃ r ∈ ovo, r.f1 ≠ r.f2 ∧ (v.directed = false → r.val ≠ .nan)
  numbers : v.directed = true → ∀ q ∈ imp, q.val ≠ .nan

theorem graph_returns {v : View F I K} {ovo : List (OvoRow F K)} {imp : List (FeatRow F K)} (h : Matching v ovo imp)
    (E : VisEnv F K) (cfg : GraphCfg K) (title : String) (asc directed : Bool) (o : Opts K) :
    ∃ p : Panel F I K, plotGraph E cfg ovo (some imp) title asc directed o = .ok p := by
  unfold plotGraph graphNodes
  have : (imp.all fun r => ovo.any fun o => decide (o.f1 = r.f) || decide (o.f2 = r.f)) = true := by
    rw [List.all_eq_true]
    intro q hq
    obtain ⟨r, hr, e⟩ := h.imp_paired q hq
    rw [List.any_eq_true]
    refine ⟨r, hr, ?_⟩
    simpa using e
  simp only [this, if_true]
  exact ⟨_, rfl⟩

theorem nodup_pivot_rows (rows : List (OvoRow F K)) : (pivotFirst rows).rows.Nodup := nodup_npUnique _

theorem heatmap_returns {v : View F I K} {ovo : List (OvoRow F K)} {imp : List (FeatRow F K)} (h : Matching v ovo imp)
    (E : VisEnv F K) (title : String) (asc impAsc : Bool) :
    ∃ p : Panel F I K, plotHeatmap E ovo (some imp) title asc impAsc v.directed = .ok p := by
  obtain ⟨diag, hd⟩ := importanceDiag_returns h.pairs_listed
  obtain ⟨d1, d2⟩ := importanceDiag_ok hd
  unfold plotHeatmap heatmapRows
  simp only [hd]
  set rows := (if v.directed = true then ovo else ovo ++ ovo.map (fun r => (⟨r.f2, r.f1, r.val⟩ : OvoRow F K))) ++ diag with hrows
  obtain ⟨r0, hr0, hne, hnum⟩ := h.pair
  have hmem : ∀ r ∈ ovo, r ∈ rows := by
    intro r hr
    rw [hrows, List.mem_append]
    left
    split
    · exact hr
    · exact List.mem_append_left _ hr
  have hdiag : ∀ r ∈ diag, r ∈ rows := fun r hr => List.mem_append_right _ hr
  have hsq : (pivotFirst rows).rows = (pivotFirst rows).cols ∧ r0.f1 ∈ (pivotFirst rows).rows ∧ r0.f2 ∈ (pivotFirst rows).rows := by
    cases hdir : v.directed with
    | false =>
      have hswap : ∀ r, r ∈ rows → ∃ q ∈ rows, q.f1 = r.f2 ∧ q.f2 = r.f1 ∧ q.val = r.val := by
        intro r hr
        rw [hrows, hdir, if_neg (by simp), List.mem_append, List.mem_append] at hr
        rcases hr with (hr | hr) | hr
        · refine ⟨⟨r.f2, r.f1, r.val⟩, ?_, rfl, rfl, rfl⟩
          rw [hrows, hdir, if_neg (by simp), List.mem_append, List.mem_append]
          exact .inl (.inr (List.mem_map.2 ⟨r, hr, rfl⟩))
        · obtain ⟨q, hq, rfl⟩ := List.mem_map.1 hr
          exact ⟨q, hmem q hq, rfl, rfl, rfl⟩
        · exact ⟨r, hdiag r hr, (d1 r hr).1, (d1 r hr).1.symm, rfl⟩
      refine ⟨npUnique_ext fun f => ?_, ?_, ?_⟩
      · have e1 := mem_pivot_rows rows f
        have e2 := mem_pivot_cols rows f
        simp only [pivotFirst, mem_npUnique] at e1 e2
        rw [e1, e2]
        constructor
        · rintro ⟨r, hr, hv, rfl⟩
          obtain ⟨q, hq, h1, h2, h3⟩ := hswap r hr
          exact ⟨q, hq, by rw [h3]; exact hv, h2⟩
        · rintro ⟨r, hr, hv, rfl⟩
          obtain ⟨q, hq, h1, h2, h3⟩ := hswap r hr
          exact ⟨q, hq, by rw [h3]; exact hv, h1⟩
      · exact (mem_pivot_rows _ _).2 ⟨r0, hmem r0 hr0, hnum hdir, rfl⟩
      · obtain ⟨q, hq, h1, h2, h3⟩ := hswap r0 (hmem r0 hr0)
        exact (mem_pivot_rows _ _).2 ⟨q, hq, by rw [h3]; exact hnum hdir, h1⟩
    | true =>
      have hfeat : ∀ r ∈ rows, ∃ o ∈ ovo, (o.f1 = r.f1 ∨ o.f2 = r.f1) := by
        intro r hr
        rw [hrows, hdir, if_pos rfl, List.mem_append] at hr
        rcases hr with hr | hr
        · exact ⟨r, hr, .inl rfl⟩
        · exact (d1 r hr).2.2
      have hfeat' : ∀ r ∈ rows, ∃ o ∈ ovo, (o.f1 = r.f2 ∨ o.f2 = r.f2) := by
        intro r hr
        rw [hrows, hdir, if_pos rfl, List.mem_append] at hr
        rcases hr with hr | hr
        · exact ⟨r, hr, .inr rfl⟩
        · rw [← (d1 r hr).1]; exact (d1 r hr).2.2
      have hin : ∀ o ∈ ovo, ∀ f, (o.f1 = f ∨ o.f2 = f) → f ∈ (pivotFirst rows).rows ∧ f ∈ (pivotFirst rows).cols := by
        intro o ho f hf
        obtain ⟨r, hr, h1, h2⟩ := d2 o ho f hf
        obtain ⟨_, ⟨q, hq, _, hv⟩, _⟩ := d1 r hr
        have hnn : r.val ≠ .nan := by rw [← hv]; exact h.numbers hdir q hq
        exact ⟨(mem_pivot_rows _ _).2 ⟨r, hdiag r hr, hnn, h1⟩, (mem_pivot_cols _ _).2 ⟨r, hdiag r hr, hnn, h2⟩⟩
      refine ⟨npUnique_ext fun f => ?_, (hin r0 hr0 _ (.inl rfl)).1, (hin r0 hr0 _ (.inr rfl)).1⟩
      have e1 := mem_pivot_rows rows f
      have e2 := mem_pivot_cols rows f
      constructor
      · intro hf
        have hf : f ∈ (pivotFirst rows).rows := by simpa only [pivotFirst, mem_npUnique] using hf
        obtain ⟨r, hr, _, rfl⟩ := e1.1 hf
        obtain ⟨o, ho, he⟩ := hfeat r hr
        simpa only [pivotFirst, mem_npUnique] using (hin o ho _ he).2
      · intro hf
        have hf : f ∈ (pivotFirst rows).cols := by simpa only [pivotFirst, mem_npUnique] using hf
        obtain ⟨r, hr, _, rfl⟩ := e2.1 hf
        obtain ⟨o, ho, he⟩ := hfeat' r hr
        simpa only [pivotFirst, mem_npUnique] using (hin o ho _ he).1
  obtain ⟨hsq, hm1, hm2⟩ := hsq
  have hlen : (pivotFirst rows).rows.length ≠ 1 := by
    intro hl
    obtain ⟨x, hx⟩ := List.length_eq_one_iff.1 hl
    rw [hx, List.mem_singleton] at hm1 hm2
    exact hne (hm1.trans hm2.symm)
  obtain ⟨s, hs⟩ := heatScores_returns E.lower (pivotFirst rows) hsq (nodup_pivot_rows rows) hlen
  unfold orderHeatmap
  simp only [hs]
  exact ⟨_, rfl⟩

/-- **C59, partial** If the tables of a method fit together, every plot of the method can be drawn (lollipop plots: up to
depth 5). Missing: fitted methods whose tables do not fit together, see the failures below. -/
theorem C59_drawable_partial {v : View F I K} (hr : Ready v) (hn : v.name ∈ methodNames) {ovo : List (OvoRow F K)}
    {imp : List (FeatRow F K)} (h : Matching v ovo imp) (hova : v.name = hStatName → v.ova.isSome = true)
    (hfull : v.name = splitScoreName → v.full.isSome = true) (E : VisEnv F K) {visType : String} (hp : HasPlot v.name visType)
    (title : String) {o : Opts K} (hd : visType = "lollipop" → ∀ d, o.maxDepth = some d → d ≤ 5) (sub : SubOpts K) :
    ∃ ps, v.plot E visType title o sub = .ok ps := by
  obtain ⟨cfg, hc, hacc⟩ := (C53_unknown_method (K := K) v.name).2 hn
  obtain ⟨ovo', ia, ho, _, hplot⟩ := plot_of_ready hr hc
  rw [h.has_ovo] at ho
  cases ho
  rw [hplot]
  have hm := (hacc visType).2 hp
  unfold visPlot
  rw [if_neg (not_not.2 hm), h.has_imp]
  obtain ⟨ph, eh⟩ := heatmap_returns h E title v.asc ia
  obtain ⟨ph', eh'⟩ := heatmap_returns h E "default" v.asc false
  obtain ⟨pg, eg⟩ := graph_returns h E cfg.graph title v.asc v.directed o
  obtain ⟨pg', eg'⟩ := graph_returns h E cfg.graph "default" false v.directed (SubOpts.pop sub "graph")
  have hov : ∀ t ti (o' : Opts K), ∃ p : Panel F I K, plotBarsOva (some t : Option (List (FeatRow F K))) ti o' = .ok p :=
    fun t ti o' => ⟨_, rfl⟩
  rcases hp with rfl | rfl | rfl | rfl | ⟨hnm, rfl⟩ | ⟨hnm, rfl⟩ | ⟨hnm, rfl⟩
  · rw [if_neg (by decide), if_neg (by decide), if_neg (by decide), if_pos rfl]
    simp only [eh]
    exact ⟨_, rfl⟩
  · rw [if_neg (by decide), if_neg (by decide), if_neg (by decide), if_neg (by decide), if_pos rfl]
    exact ⟨_, rfl⟩
  · rw [if_neg (by decide), if_pos rfl]
    simp only [eg]
    exact ⟨_, rfl⟩
  · rw [if_pos rfl]
    unfold plotSummary
    simp only [eh', eg']
    cases v.ova with
    | none => exact ⟨_, rfl⟩
    | some t => exact ⟨_, rfl⟩
  · rw [if_neg (by decide), if_neg (by decide), if_pos rfl]
    obtain ⟨t, ht⟩ := Option.isSome_iff_exists.1 (hova hnm)
    simp only [ht]
    exact ⟨_, rfl⟩
  · rw [if_neg (by decide), if_neg (by decide), if_neg (by decide), if_neg (by decide), if_neg (by decide), if_neg (by decide), if_pos rfl]
    exact ⟨_, rfl⟩
  · rw [if_neg (by decide), if_neg (by decide), if_neg (by decide), if_neg (by decide), if_neg (by decide), if_pos rfl]
    obtain ⟨t, ht⟩ := Option.isSome_iff_exists.1 (hfull hnm)
    simp only [ht, plotLollipop]
    rw [if_neg]
    · exact ⟨_, rfl⟩
    · cases hod : o.maxDepth with
      | none => show ¬ (5 : Int) < 1; decide
      | some d => have := hd rfl d hod; show ¬ 5 < d; omega

/-- **C59 fails**: an important feature that is in no pair makes networkx raise on the graph. -/
theorem C59_unpaired_feature_fails {v : View F I K} (hr : Ready v) (hn : v.name ∈ methodNames) {ovo : List (OvoRow F K)}
    {imp : List (FeatRow F K)} (ho : v.ovo = some ovo) (hi : v.imp = some imp) {q : FeatRow F K} (hq : q ∈ imp)
    (hnone : ∀ r ∈ ovo, r.f1 ≠ q.f ∧ r.f2 ≠ q.f) (E : VisEnv F K) (title : String) (o : Opts K) (sub : SubOpts K) :
    v.plot E "graph" title o sub = .error .networkXError := by
  obtain ⟨cfg, hc, hacc⟩ := (C53_unknown_method (K := K) v.name).2 hn
  obtain ⟨ovo', ia, ho', _, hplot⟩ := plot_of_ready hr hc
  rw [ho] at ho'
  cases ho'
  rw [hplot]
  have hm := (hacc "graph").2 (by simp [HasPlot])
  unfold visPlot
  rw [if_neg (not_not.2 hm), if_neg (by decide), if_pos rfl, hi]
  unfold plotGraph graphNodes
  have : (imp.all fun r => ovo.any fun o => decide (o.f1 = r.f) || decide (o.f2 = r.f)) = false := by
    rw [List.all_eq_false]
    refine ⟨q, hq, ?_⟩
    rw [Bool.not_eq_true, List.any_eq_false]
    intro r hr
    simp [hnone r hr]
  simp only [this]
  rfl

/-- **C59 fails**: a feature in a pair that is not listed by the importance makes the heatmap and the summary raise
IndexError. -/
theorem C59_unlisted_feature_fails {v : View F I K} (hr : Ready v) (hn : v.name ∈ methodNames) {ovo : List (OvoRow F K)}
    {imp : List (FeatRow F K)} (ho : v.ovo = some ovo) (hi : v.imp = some imp) {r : OvoRow F K} (hro : r ∈ ovo)
    (hnone : (∀ q ∈ imp, q.f ≠ r.f1) ∨ ∀ q ∈ imp, q.f ≠ r.f2) (E : VisEnv F K) (title : String) (o : Opts K) (sub : SubOpts K) :
    v.plot E "heatmap" title o sub = .error .indexError ∧ v.plot E "summary" title o sub = .error .indexError := by
  obtain ⟨cfg, hc, hacc⟩ := (C53_unknown_method (K := K) v.name).2 hn
  obtain ⟨ovo', ia, ho', _, hplot⟩ := plot_of_ready hr hc
  rw [ho] at ho'
  cases ho'
  have hdiag : importanceDiag ovo imp = .error .indexError := by
    cases hd : importanceDiag ovo imp with
    | error e =>
      have := raises_importanceDiag ovo imp e hd
      simp only [List.mem_singleton] at this
      rw [this]
    | ok diag =>
      exfalso
      obtain ⟨d1, d2⟩ := importanceDiag_ok hd
      rcases hnone with hnone | hnone
      · obtain ⟨x, hx, h1, _⟩ := d2 r hro _ (.inl rfl)
        obtain ⟨_, ⟨q, hq, e, _⟩, _⟩ := d1 x hx
        exact hnone q hq (e.trans h1)
      · obtain ⟨x, hx, h1, _⟩ := d2 r hro _ (.inr rfl)
        obtain ⟨_, ⟨q, hq, e, _⟩, _⟩ := d1 x hx
        exact hnone q hq (e.trans h1)
  have hheat : ∀ ti a b d, plotHeatmap (I := I) E ovo (some imp) ti a b d = .error .indexError := by
    intro ti a b d
    unfold plotHeatmap heatmapRows
    simp only [hdiag]
  constructor
  · rw [hplot]
    have hm := (hacc "heatmap").2 (by simp [HasPlot])
    unfold visPlot
    rw [if_neg (not_not.2 hm), if_neg (by decide), if_neg (by decide), if_neg (by decide), if_pos rfl, hi]
    simp only [hheat]
    rfl
  · rw [hplot]
    have hm := (hacc "summary").2 (by simp [HasPlot])
    unfold visPlot
    rw [if_neg (not_not.2 hm), if_pos rfl, hi]
    unfold plotSummary
    simp only [hheat]

end General

/-! ## After `fit` -/

section PD
variable {F I V K G L : Type} [LinearOrder F] [LinearOrder I] [LinearOrder V] [DecidableEq L] [Field K] [LinearOrder K]
  [IsStrictOrderedRing K] [HasSqrt K]
variable {g : Row F V → Num K} {E : PdEnv G F K} {a : PdArgs L F V K} {s0 s : PdpMethod G L F V K} {Xs : LFrame L F V}

theorem fillna0_ne_nan (x : Num K) : x.fillna0 ≠ .nan := by
  cases x <;> simp [Num.fillna0, Num.isNaN]

theorem pd_ready (sort : PairSort F K) (kind : PdKind) (hova : kind ≠ .greenwell → a.calculateOva = true)
    (hret : PdpMethod.fit kind E a s0 = (.ok (), s)) : Ready (PdpMethod.view (I := I) sort kind s) := by
  have hok : (PdpMethod.fit kind E a s0).1 = .ok () := by rw [hret]
  have h := pdFit_progress kind E a s0
  have hd := h.done (returned_iff.2 hok)
  rw [hret] at hd
  simp only at hd
  cases kind with
  | greenwell => exact ⟨hd.1, by simp only [PdpMethod.view, hd.2.2]; rfl, fun e => by cases e⟩
  | friedman n =>
    have ho := h.done_ova (returned_iff.2 hok) (hova (by simp))
    rw [hret] at ho
    exact ⟨hd.1, by simp only [PdpMethod.view, hd.2.2]; rfl, fun _ => ho⟩

theorem pd_imp_features {kind : PdKind} (hs : FitSetup g E a s0 Xs) (hsortF : SortsBy FeatRow.val false E.sortFeat)
    (hret : PdpMethod.fit kind E a s0 = (.ok (), s)) : ∃ t, s.importance = some t ∧ (t.map FeatRow.f).Perm a.feats ∧
      ∀ q ∈ t, q.val ≠ .nan := by
  obtain ⟨rows, h1, h2⟩ := (fit_ok hs hret).imp
  have hF := mapM_eq_ok h1
  have hnames : rows.map FeatRow.f = a.feats := by
    have : List.Forall₂ (fun f (row : FeatRow F K) => row.f = f) a.feats rows := hF.imp (fun f row h => by
      unfold impRow at h
      cases e : impNum (numIn E a.feats f) g Xs.frame f with
      | error e' => rw [e] at h; cases h
      | ok v => rw [e] at h; cases h; rfl)
    clear hF h1 h2
    generalize a.feats = fs at this
    induction this with
    | nil => rfl
    | cons h1 _ ih => simp [h1, ih]
  refine ⟨_, h2, ?_, ?_⟩
  · have e : ((E.sortFeat rows).map FeatRow.fillna).map FeatRow.f = (E.sortFeat rows).map FeatRow.f := by
      rw [List.map_map]; rfl
    rw [e, ← hnames]
    exact (hsortF rows).1.map _
  · intro q hq
    obtain ⟨r, _, rfl⟩ := List.mem_map.1 hq
    exact fillna0_ne_nan _

/-- **C59**, Friedman's H-statistic (with its one-vs-all part) and Greenwell's method: after a returning `fit` for at least
two different features every plot of the method can be drawn, whatever the values. -/
theorem C59_pd_methods (kind : PdKind) (hs : FitSetup g E a s0 Xs) (hsort : SortsBy OvoRow.val false E.sortOvo)
    (hsortF : SortsBy FeatRow.val false E.sortFeat) (hfs : (a.features.getD a.X.frame.cols).Nodup)
    (htwo : 2 ≤ (a.features.getD a.X.frame.cols).length) (hova : kind ≠ .greenwell → a.calculateOva = true)
    (hret : PdpMethod.fit kind E a s0 = (.ok (), s)) (sort : PairSort F K) (E' : VisEnv F K) {visType : String}
    (hp : HasPlot (PdpMethod.view (I := I) sort kind s).name visType) (title : String) (o : Opts K) (sub : SubOpts K) :
    ∃ ps, (PdpMethod.view (I := I) sort kind s).plot E' visType title o sub = .ok ps := by
  obtain ⟨t, ht, _, hone, hfeat⟩ := C13_one_row_per_pair kind hs hsort hfs hret
  obtain ⟨imp, hi, hperm, hnum⟩ := pd_imp_features hs hsortF hret
  have hval : ∀ r ∈ t, r.val ≠ .nan := by
    intro r hr
    obtain ⟨rows, _, h2⟩ := (fit_ok hs hret).ovo
    rw [ht] at h2
    cases h2
    obtain ⟨x, _, rfl⟩ := List.mem_map.1 hr
    exact fillna0_ne_nan _
  have hready := pd_ready (I := I) sort kind hova hret
  have hmem : ∀ f, (∃ q ∈ imp, q.f = f) ↔ f ∈ a.features.getD a.X.frame.cols := by
    intro f
    rw [← List.mem_map, hperm.mem_iff]
    rfl
  have hother : ∀ f ∈ a.features.getD a.X.frame.cols, ∃ f' ∈ a.features.getD a.X.frame.cols, f ≠ f' := by
    intro f hf
    by_contra hn
    push Not at hn
    have : a.features.getD a.X.frame.cols = [f] := by
      generalize a.features.getD a.X.frame.cols = l at hfs htwo hn
      match l, htwo with
      | x :: y :: l, _ =>
        exfalso
        have h1 := hn x (by simp)
        have h2 := hn y (by simp)
        rw [List.nodup_cons] at hfs
        exact hfs.1 (by rw [← h1, h2]; simp)
    rw [this] at htwo
    simp at htwo
  have hpair : ∀ f ∈ a.features.getD a.X.frame.cols, ∃ r ∈ t, r.f1 ≠ r.f2 ∧ (r.f1 = f ∨ r.f2 = f) := by
    intro f hf
    obtain ⟨f', hf', hne⟩ := hother f hf
    have := hone f hf f' hf' hne
    have hpos : 0 < t.countP (fun r => decide (r.isPair f f')) := by omega
    obtain ⟨r, hr, hp⟩ := List.countP_pos_iff.1 hpos
    refine ⟨r, hr, (hfeat r hr).2.2, ?_⟩
    rcases of_decide_eq_true hp with ⟨h, _⟩ | ⟨_, h⟩
    · exact .inl h
    · exact .inr h
  refine C59_drawable_partial (ovo := t) (imp := imp) hready ?_ ⟨ht, hi, ?_, ?_, ?_, ?_⟩ ?_ ?_ E' hp title ?_ sub
  · cases kind <;> simp [PdpMethod.view, methodNames]
  · exact fun r hr => ⟨(hmem _).2 (hfeat r hr).1, (hmem _).2 (hfeat r hr).2.1⟩
  · intro q hq
    obtain ⟨r, hr, _, he⟩ := hpair q.f ((hmem _).1 ⟨q, hq, rfl⟩)
    exact ⟨r, hr, he⟩
  · obtain ⟨f, hf⟩ : ∃ f, f ∈ a.features.getD a.X.frame.cols := by
      generalize a.features.getD a.X.frame.cols = l at htwo
      match l, htwo with
      | x :: l, _ => exact ⟨x, by simp⟩
    obtain ⟨r, hr, hne, _⟩ := hpair f hf
    exact ⟨r, hr, hne, fun _ => hval r hr⟩
  · intro e; cases e
  · cases kind with
    | friedman n => exact fun _ => hready.2.2 rfl
    | greenwell =>
      intro e
      exact absurd e (by show greenwellName ≠ hStatName; decide)
  · intro e
    cases kind with
    | friedman n => exact absurd e (by show hStatName ≠ splitScoreName; decide)
    | greenwell => exact absurd e (by show greenwellName ≠ splitScoreName; decide)
  · rintro rfl
    cases kind with
    | friedman n => exact absurd hp (by simp [HasPlot, PdpMethod.view, hStatName, cmdName, splitScoreName])
    | greenwell => exact absurd hp (by simp [HasPlot, PdpMethod.view, greenwellName, hStatName, cmdName, splitScoreName])

/-- **C59 fails** for a single requested feature: `fit` may return, but the graph raises NetworkXError. -/
theorem C59_single_feature_fails (kind : PdKind) (hs : FitSetup g E a s0 Xs) (hsort : SortsBy OvoRow.val false E.sortOvo)
    (hsortF : SortsBy FeatRow.val false E.sortFeat) {f : F} (hfs : a.features.getD a.X.frame.cols = [f])
    (hova : kind ≠ .greenwell → a.calculateOva = true) (hret : PdpMethod.fit kind E a s0 = (.ok (), s)) (sort : PairSort F K)
    (E' : VisEnv F K) (title : String) (o : Opts K) (sub : SubOpts K) :
    (PdpMethod.view (I := I) sort kind s).plot E' "graph" title o sub = .error .networkXError := by
  obtain ⟨t, ht, hlen, _⟩ := C13_one_row_per_pair kind hs hsort (by rw [hfs]; simp) hret
  rw [hfs] at hlen
  have : t = [] := by cases t <;> simp_all
  subst this
  obtain ⟨imp, hi, hperm, _⟩ := pd_imp_features hs hsortF hret
  have hm : f ∈ imp.map FeatRow.f := hperm.mem_iff.2 (by show f ∈ a.features.getD a.X.frame.cols; rw [hfs]; simp)
  obtain ⟨q, hq, rfl⟩ := List.mem_map.1 hm
  refine C59_unpaired_feature_fails (pd_ready sort kind hova hret) ?_ ht hi hq (fun r hr => by cases hr) E' title o sub
  cases kind <;> simp [PdpMethod.view, methodNames]

end PD

section Sejong
variable {F I V K G L : Type} [LinearOrder F] [LinearOrder I] [LinearOrder V] [DecidableEq L] [Field K] [LinearOrder K]
  [IsStrictOrderedRing K] [HasSqrt K]
variable {E : PerfEnv G L F K} {a : SejongArgs L F V K} {s0 : Sejong G L F V K} {Xs : LFrame L F V} {ys : Target L K} {g : G}
  {sc : List (Row F V) → K}

theorem sejong_fit_imp (hs : PerfSetup E a s0 Xs ys g sc) (entropy : G) (hsortF : SortsBy FeatRow.val false E.sortFeat) :
    ∃ t, (Sejong.fit E a entropy s0).2.importance = some t ∧ (∀ f, f ∈ t.map FeatRow.f ↔ f ∈ a.feats) ∧ (∀ q ∈ t, q.val ≠ .nan) ∧
      ∀ q ∈ t, ∀ q' ∈ t, q.f = q'.f → q.val = q'.val := by
  have h1 := perfOvo_eq hs.lawful hs.scores (pairs_ok hs) hs.repeats g s0.calls E.sortOvo
  have hcols := sampleBoth_cols hs.sampled
  obtain ⟨ks, h2, h3, h4⟩ := run_eq (sort := E.sortFeat) (o := ⟨entropy, s0.metric, none⟩) (X := Xs) (y := ys)
    hs.lawful hs.scores (fs := a.feats) (fun f hf => by rw [hcols]; exact hs.feats_cols f hf) hs.feats_ne hs.repeats
    (s0.calls ++ [Xs.frame.rows] ++
          pairFrames Xs.frame (nthPerm E.R Xs.frame.rows.length g) a.nRepeat (combinations2 a.feats))
  have hf : allIfNone a.X.frame.cols a.features = a.feats := rfl
  unfold Sejong.fit
  simp only [hs.sampled, hf, h1, h4]
  refine ⟨_, rfl, ?_, ?_, ?_⟩
  · intro f
    rw [((hsortF _).1.map FeatRow.f).mem_iff, List.map_map, ← h3 f]
    have : ∀ (u : F → Num K), ks.map (FeatRow.f ∘ fun f => (⟨f, u f⟩ : FeatRow F K)) = ks := by
      intro u
      conv_rhs => rw [← List.map_id ks]
      rfl
    rw [this]
  · intro q hq
    obtain ⟨f, _, rfl⟩ := List.mem_map.1 ((hsortF _).1.mem_iff.1 hq)
    simp
  · intro q hq q' hq' e
    obtain ⟨f, _, rfl⟩ := List.mem_map.1 ((hsortF _).1.mem_iff.1 hq)
    obtain ⟨f', _, rfl⟩ := List.mem_map.1 ((hsortF _).1.mem_iff.1 hq')
    cases e
    rfl

/-- **C59**, Sejong Oh's method: for at least two different features `fit` returns and every plot of the method can be
drawn. -/
theorem C59_sejong (hs : PerfSetup E a s0 Xs ys g sc) (hsort : SortsBy (fun r : OvoRow F K => r.val.abs) false E.sortOvo)
    (hsortF : SortsBy FeatRow.val false E.sortFeat) (htwo : 2 ≤ (a.features.getD a.X.frame.cols).length) (entropy : G)
    (sort : PairSort F K) (E' : VisEnv F K) {visType : String} (hp : HasPlot sejongName visType) (title : String) (o : Opts K)
    (sub : SubOpts K) :
    (Sejong.fit E a entropy s0).1 = .ok () ∧
    ∃ ps, (Sejong.view (I := I) sort (Sejong.fit E a entropy s0).2).plot E' visType title o sub = .ok ps := by
  obtain ⟨s, t, hfit, ht, _, hone, hfeat⟩ := C13_sejong_one_row_per_pair hs hsort entropy
  obtain ⟨s', t', hfit', ht', _, hval, _⟩ := C24_mean_absolute_nonadditive_change hs hsort entropy
  rw [hfit] at hfit'
  cases hfit'
  rw [ht] at ht'
  cases ht'
  obtain ⟨imp, hi, hmem, hnum, _⟩ := sejong_fit_imp hs entropy hsortF
  rw [hfit] at hi ⊢
  refine ⟨rfl, ?_⟩
  have hd := (sejongFit_progress E a entropy s0).done (returned_iff.2 (by rw [hfit]))
  rw [hfit] at hd
  simp only at hd hi ⊢
  have hfs : (a.features.getD a.X.frame.cols).Nodup := hs.feats_nodup
  have hmem' : ∀ f, (∃ q ∈ imp, q.f = f) ↔ f ∈ a.features.getD a.X.frame.cols := by
    intro f
    rw [← List.mem_map, hmem]
    rfl
  have hother : ∀ f ∈ a.features.getD a.X.frame.cols, ∃ f' ∈ a.features.getD a.X.frame.cols, f ≠ f' := by
    intro f hf
    by_contra hn
    push Not at hn
    generalize a.features.getD a.X.frame.cols = l at hfs htwo hn
    match l, htwo with
    | x :: y :: l, _ =>
      have h1 := hn x (by simp)
      have h2 := hn y (by simp)
      rw [List.nodup_cons] at hfs
      exact hfs.1 (by rw [← h1, h2]; simp)
  have hpair : ∀ f ∈ a.features.getD a.X.frame.cols, ∃ r ∈ t, r.f1 ≠ r.f2 ∧ (r.f1 = f ∨ r.f2 = f) := by
    intro f hf
    obtain ⟨f', hf', hne⟩ := hother f hf
    have := hone f hf f' hf' hne
    have hpos : 0 < t.countP (fun r => decide (r.isPair f f')) := by omega
    obtain ⟨r, hr, hp⟩ := List.countP_pos_iff.1 hpos
    refine ⟨r, hr, (hfeat r hr).2.2, ?_⟩
    rcases of_decide_eq_true hp with ⟨h, _⟩ | ⟨_, h⟩
    · exact .inl h
    · exact .inr h
  refine C59_drawable_partial (ovo := t) (imp := imp) ⟨hd.1, by simp only [Sejong.view, hd.2.2]; rfl, fun e => by cases e⟩ ?_
    ⟨ht, hi, ?_, ?_, ?_, ?_⟩ ?_ ?_ E' hp title ?_ sub
  · simp [Sejong.view, methodNames]
  · exact fun r hr => ⟨(hmem' _).2 (hfeat r hr).1, (hmem' _).2 (hfeat r hr).2.1⟩
  · intro q hq
    obtain ⟨r, hr, _, he⟩ := hpair q.f ((hmem' _).1 ⟨q, hq, rfl⟩)
    exact ⟨r, hr, he⟩
  · obtain ⟨f, hf⟩ : ∃ f, f ∈ a.features.getD a.X.frame.cols := by
      generalize a.features.getD a.X.frame.cols = l at htwo
      match l, htwo with
      | x :: l, _ => exact ⟨x, by simp⟩
    obtain ⟨r, hr, hne, _⟩ := hpair f hf
    refine ⟨r, hr, hne, fun _ => ?_⟩
    obtain ⟨x, hx, _⟩ := hval r hr
    rw [hx]
    simp
  · intro e; cases e
  · intro e
    exact absurd e (by show sejongName ≠ hStatName; decide)
  · intro e
    exact absurd e (by show sejongName ≠ splitScoreName; decide)
  · rintro rfl
    exact absurd hp (by simp [HasPlot, hStatName, cmdName, splitScoreName, sejongName])

end Sejong

section CMD
variable {F I J K : Type} [LinearOrder F] [LinearOrder J] [Field K] [LinearOrder K]

theorem cmd_ready (E : CmdEnv F J K) {m : Forest F} {s0 : CmdMethod F K} (h : (CmdMethod.fit E m s0).1 = .ok ()) :
    Ready (CmdMethod.view (I := I) E (CmdMethod.fit E m s0).2) := by
  have hd := (cmdFit_progress E m s0).done (returned_iff.2 h)
  exact ⟨by simp only [CmdMethod.view, Option.isSome_map]; exact hd.1, by simp only [CmdMethod.view, hd.2.2]; rfl, fun e => by cases e⟩

/-- **C59**, conditional minimal depth: if each of the at least two columns is used by some tree, `fit` returns and every plot
of the method can be drawn. -/
theorem C59_cmd_all_used (E : CmdEnv F J K) (hE : SortsCmd E.sortOvo) (hI : SortsBy ImpRow.val true E.sortImp) {m : Forest F}
    {ts : List LTree} (h : ForestOf m ts) (htwo : 2 ≤ m.columns.length) (hused : ∀ i < m.columns.length, ∃ t ∈ ts, Uses t i)
    (s0 : CmdMethod F K) (E' : VisEnv F K) {visType : String} (hp : HasPlot cmdName visType) (title : String) (o : Opts K)
    (sub : SubOpts K) :
    (CmdMethod.fit E m s0).1 = .ok () ∧
    ∃ ps, (CmdMethod.view (I := I) E (CmdMethod.fit E m s0).2).plot E' visType title o sub = .ok ps := by
  obtain ⟨t0, ht0, hu0⟩ := hused 0 (by omega)
  have hts : ts ≠ [] := List.ne_nil_of_mem ht0
  have hc : m.columns ≠ [] := by intro e; rw [e] at htwo; simp at htwo
  obtain ⟨rows, ho, _, hfeat, hrow, _⟩ := C36_table E hE h hts hc s0
  obtain ⟨hok, imp, hi, _, hmem, hmean, _⟩ := (C37_minimal_depth_importance E hE hI h hts hc s0).1 ⟨t0, ht0, _, hu0⟩
  refine ⟨hok, ?_⟩
  have hmem' : ∀ f, (∃ q ∈ imp.map ImpRow.toFeat, q.f = f) ↔ f ∈ m.columns := by
    intro f
    constructor
    · rintro ⟨q, hq, rfl⟩
      obtain ⟨r, hr, rfl⟩ := List.mem_map.1 hq
      obtain ⟨i, hi, _⟩ := (hmem r.f).1 (List.mem_map.2 ⟨r, hr, rfl⟩)
      exact List.mem_of_getElem? hi
    · intro hf
      obtain ⟨i, hi'⟩ := List.getElem?_of_mem hf
      have hlt : i < m.columns.length := (List.getElem?_eq_some_iff.1 hi').1
      have := (hmem f).2 ⟨i, hi', hused i hlt⟩
      obtain ⟨r, hr, rfl⟩ := List.mem_map.1 this
      exact ⟨r.toFeat, List.mem_map.2 ⟨r, hr, rfl⟩, rfl⟩
  have hpair : ∀ f ∈ m.columns, ∃ r ∈ rows.map CmdRow.toOvo, r.f1 ≠ r.f2 ∧ (r.f1 = f ∨ r.f2 = f) := by
    intro f hf
    obtain ⟨i, hi'⟩ := List.getElem?_of_mem hf
    have hlt : i < m.columns.length := (List.getElem?_eq_some_iff.1 hi').1
    obtain ⟨j, g, hj, hne⟩ : ∃ j g, m.columns[j]? = some g ∧ f ≠ g := by
      have hnd := h.names
      by_cases h0 : i = 0
      · refine ⟨1, m.columns[1], List.getElem?_eq_getElem (by omega), ?_⟩
        intro e
        rw [List.getElem?_eq_getElem hlt] at hi'
        have := (List.Nodup.getElem_inj_iff hnd).1 ((Option.some.inj hi').trans e)
        omega
      · refine ⟨0, m.columns[0], List.getElem?_eq_getElem (by omega), ?_⟩
        intro e
        rw [List.getElem?_eq_getElem hlt] at hi'
        have := (List.Nodup.getElem_inj_iff hnd).1 ((Option.some.inj hi').trans e)
        omega
    obtain ⟨r, hr, _⟩ := hrow i j f g hi' hj hne
    have hr' : r ∈ rows.filter (fun r => decide (r.root = f ∧ r.var = g)) := by rw [hr]; simp
    obtain ⟨h1, h2⟩ := List.mem_filter.1 hr'
    have := of_decide_eq_true h2
    refine ⟨r.toOvo, List.mem_map.2 ⟨r, h1, rfl⟩, ?_, .inl this.1⟩
    exact (hfeat r h1).2.2
  refine C59_drawable_partial (ovo := rows.map CmdRow.toOvo) (imp := imp.map ImpRow.toFeat) (cmd_ready E hok) ?_
    ⟨?_, ?_, ?_, ?_, ?_, ?_⟩ ?_ ?_ E' hp title ?_ sub
  · simp [CmdMethod.view, methodNames]
  · simp only [CmdMethod.view, ho, Option.map_some]
  · simp only [CmdMethod.view, hi, Option.map_some]
  · intro r hr
    obtain ⟨x, hx, rfl⟩ := List.mem_map.1 hr
    exact ⟨(hmem' _).2 (hfeat x hx).1, (hmem' _).2 (hfeat x hx).2.1⟩
  · intro q hq
    obtain ⟨r, hr, _, he⟩ := hpair q.f ((hmem' _).1 ⟨q, hq, rfl⟩)
    exact ⟨r, hr, he⟩
  · obtain ⟨r, hr, hne, _⟩ := hpair (m.columns[0]'(by omega)) (List.getElem_mem _)
    exact ⟨r, hr, hne, fun e => by cases e⟩
  · intro _ q hq
    obtain ⟨r, hr, rfl⟩ := List.mem_map.1 hq
    obtain ⟨i, hi', hui⟩ := (hmem r.f).1 (List.mem_map.2 ⟨r, hr, rfl⟩)
    obtain ⟨xs, h1, h2⟩ := hmean r hr i hi'
    obtain ⟨t, ht, hu⟩ := hui
    have hx : xs ≠ [] := by
      rintro rfl
      have := List.forall₂_nil_right_iff.1 h1
      exact List.not_mem_nil (this ▸ List.mem_filter.2 ⟨ht, by simpa using hu⟩)
    show r.val ≠ .nan
    rw [h2, meanNat, if_neg hx]
    simp
  · intro e
    exact absurd e (by show cmdName ≠ hStatName; decide)
  · intro e
    exact absurd e (by show cmdName ≠ splitScoreName; decide)
  · rintro rfl
    exact absurd hp (by simp [HasPlot, hStatName, cmdName, splitScoreName])

/-- **C59 fails** for conditional minimal depth whenever there is a column that no tree uses (and some split at all): `fit`
returns, but heatmap and summary raise IndexError. -/
theorem C59_cmd_unused_column_fails (E : CmdEnv F J K) (hE : SortsCmd E.sortOvo) (hI : SortsBy ImpRow.val true E.sortImp)
    {m : Forest F} {ts : List LTree} (h : ForestOf m ts) {i : Nat} (hi : i < m.columns.length) (hun : ∀ t ∈ ts, ¬ Uses t i)
    (hsplit : ∃ t ∈ ts, ∃ f, Uses t f) (s0 : CmdMethod F K) (E' : VisEnv F K) (title : String) (o : Opts K) (sub : SubOpts K) :
    (CmdMethod.fit E m s0).1 = .ok () ∧
    (CmdMethod.view (I := I) E (CmdMethod.fit E m s0).2).plot E' "heatmap" title o sub = .error .indexError ∧
    (CmdMethod.view (I := I) E (CmdMethod.fit E m s0).2).plot E' "summary" title o sub = .error .indexError := by
  obtain ⟨t0, ht0, f0, hu0⟩ := hsplit
  have hts : ts ≠ [] := List.ne_nil_of_mem ht0
  have hc : m.columns ≠ [] := by intro e; rw [e] at hi; simp at hi
  obtain ⟨rows, ho, _, hfeat, hrow, _⟩ := C36_table E hE h hts hc s0
  obtain ⟨hok, imp, himp, _, hmem, hmean, _⟩ := (C37_minimal_depth_importance E hE hI h hts hc s0).1 ⟨t0, ht0, _, hu0⟩
  refine ⟨hok, ?_⟩
  have hf0 : f0 < m.columns.length := h.cols t0 ht0 f0 hu0
  have hne : m.columns[i] ≠ m.columns[f0] := by
    intro e
    have := (List.Nodup.getElem_inj_iff h.names).1 e
    subst this
    exact hun t0 ht0 hu0
  obtain ⟨r, hr, _⟩ := hrow i f0 _ _ (List.getElem?_eq_getElem hi) (List.getElem?_eq_getElem hf0) hne
  have hr' : r ∈ rows.filter (fun r => decide (r.root = m.columns[i] ∧ r.var = m.columns[f0])) := by rw [hr]; simp
  obtain ⟨h1, h2⟩ := List.mem_filter.1 hr'
  have hroot := (of_decide_eq_true h2).1
  refine C59_unlisted_feature_fails (ovo := rows.map CmdRow.toOvo) (imp := imp.map ImpRow.toFeat) (cmd_ready E hok)
    (by simp [CmdMethod.view, methodNames]) (by simp only [CmdMethod.view, ho, Option.map_some])
    (by simp only [CmdMethod.view, himp, Option.map_some]) (r := r.toOvo) (List.mem_map.2 ⟨r, h1, rfl⟩) (.inl ?_) E' title o sub
  intro q hq e
  obtain ⟨x, hx, rfl⟩ := List.mem_map.1 hq
  obtain ⟨j, hj, t, ht, hu⟩ := (hmem x.f).1 (List.mem_map.2 ⟨x, hx, rfl⟩)
  have hjl : j < m.columns.length := (List.getElem?_eq_some_iff.1 hj).1
  rw [List.getElem?_eq_getElem hjl] at hj
  have he : m.columns[j] = m.columns[i] := (Option.some.inj hj).trans ((show x.f = r.root from e).trans hroot)
  have := (List.Nodup.getElem_inj_iff h.names).1 he
  subst this
  exact hun t ht hu

end CMD

section SplitScore
variable {F I K : Type} [LinearOrder F] [LinearOrder I] [Field K] [LinearOrder K] [IsStrictOrderedRing K]
variable {E : SsEnv F K} {ts : List (GTree F I K)} {p : Package} {m : GbModel F I K}

theorem tree_parent_feat (T : GTree F I K) : ∀ (t : Nat) (q : Option (F × K × K)) (k : Nat), ∀ s ∈ T.splits t q k, ∀ x,
    s.parent = some x → q = some x ∨ ∃ s' ∈ T.splits t q k, s'.feat = x.1 := by
  induction T with
  | leaf i v c => intro t q k s hs; cases hs
  | split i f g c l r ihl ihr =>
    intro t q k s hs x hx
    simp only [GTree.splits, List.mem_cons, List.mem_append] at hs ⊢
    rcases hs with rfl | hs | hs
    · exact .inl hx
    · right
      rcases ihl _ _ _ s hs x hx with h | ⟨s', h1, h2⟩
      · cases h
        exact ⟨_, .inl rfl, rfl⟩
      · exact ⟨s', .inr (.inl h1), h2⟩
    · right
      rcases ihr _ _ _ s hs x hx with h | ⟨s', h1, h2⟩
      · cases h
        exact ⟨_, .inl rfl, rfl⟩
      · exact ⟨s', .inr (.inr h1), h2⟩

theorem parent_feat {s : Split F I K} (hs : s ∈ forestSplits ts) {x : F × K × K} (hx : s.parent = some x) :
    ∃ s' ∈ forestSplits ts, s'.feat = x.1 := by
  unfold forestSplits at hs ⊢
  obtain ⟨l, hl, hs⟩ := List.mem_flatten.1 hs
  obtain ⟨q, hq, rfl⟩ := List.mem_map.1 hl
  rcases tree_parent_feat q.1 _ _ _ s hs x hx with h | ⟨s', h1, h2⟩
  · cases h
  · exact ⟨s', List.mem_flatten.2 ⟨_, hl, h1⟩, h2⟩

/-- which pairs and features the tables of split score list -/
theorem ss_tables (hE : E.Lawful) (H : GbForest E.leafName ts p m) {inter imp : SsMetric} (hi : inter.isInteraction)
    (him : imp.isImportance) (h1 : inter.availableFor p) (h2 : imp.availableFor p)
    (hex : ∃ s ∈ forestSplits ts, s.parent.isSome = true) (hnl : NoLeafName E.leafName ts)
    (hgain : ∀ s ∈ forestSplits ts, gainSum (featSplits ts s.feat) ≠ 0) (onlyDef : Bool) (s0 : SsMethod F I K)
    (sort : PairSort F K) :
    (SsMethod.fit E (.model m) inter imp onlyDef s0).1 = .ok () ∧
    ∃ ovo t, (SsMethod.view sort (SsMethod.fit E (.model m) inter imp onlyDef s0).2).ovo = some ovo ∧
      (SsMethod.view sort (SsMethod.fit E (.model m) inter imp onlyDef s0).2).imp = some t ∧
      Ready (SsMethod.view sort (SsMethod.fit E (.model m) inter imp onlyDef s0).2) ∧
      (SsMethod.view sort (SsMethod.fit E (.model m) inter imp onlyDef s0).2).full.isSome = true ∧
      (∀ a b, (∃ r ∈ ovo, r.f1 = a ∧ r.f2 = b) ↔ pairSplits onlyDef ts a b ≠ []) ∧ (∀ r ∈ ovo, r.val ≠ .nan) ∧
      ∀ f, (∃ q ∈ t, q.f = f) ↔ ∃ s ∈ forestSplits ts, s.feat = f := by
  obtain ⟨summary, ovo, _, ho, a1, a2, a3, _, a5, _⟩ := C41_summary hE H hi h1 h2 hex onlyDef s0
  obtain ⟨s, hs, _⟩ := id hex
  obtain ⟨full, t, e, b1, _, b3, b4⟩ := C44_importance_metrics hE H him hnl (features := none) (fun fs e => by cases e) ⟨s, hs, rfl⟩ hgain
  obtain ⟨c1, c2, c3⟩ := C44_fit_stores_importance H hi h1 h2 hex e onlyDef s0
  obtain ⟨res, d1, _⟩ := C40_node_statistics H h1 h2 hex onlyDef s0
  refine ⟨c1, ovo.map SsRow.toOvo, t.map ImpRow.toFeat, ?_, ?_, ?_, ?_, ?_, ?_, ?_⟩
  · simp only [SsMethod.view, ho, Option.map_some]
  · simp only [SsMethod.view, c2, Option.map_some]
  · refine ⟨by simp only [SsMethod.view, ho]; rfl, by simp only [SsMethod.view, c3]; rfl, fun e => by cases e⟩
  · simp only [SsMethod.view, d1]; rfl
  · intro a b
    constructor
    · rintro ⟨r, hr, rfl, rfl⟩
      obtain ⟨x, hx, rfl⟩ := List.mem_map.1 hr
      obtain ⟨q, hq, rfl⟩ := List.mem_map.1 (a5.mem_iff.1 hx)
      exact (a1 q hq).occurs
    · intro hab
      obtain ⟨q, hq, rfl, rfl⟩ := a3 a b hab
      exact ⟨_, List.mem_map.2 ⟨_, a5.mem_iff.2 (List.mem_map.2 ⟨q, hq, rfl⟩), rfl⟩, rfl, rfl⟩
  · intro r hr
    obtain ⟨x, hx, rfl⟩ := List.mem_map.1 hr
    obtain ⟨q, hq, rfl⟩ := List.mem_map.1 (a5.mem_iff.1 hx)
    obtain ⟨y, hy⟩ := sumRow_fin (a1 q hq) hi h1
    show (q.metric inter).getD .nan ≠ .nan
    rw [hy]
    simp
  · intro f
    have hf : (∃ q ∈ t.map ImpRow.toFeat, q.f = f) ↔ f ∈ full.map ImpStat.feat := by
      constructor
      · rintro ⟨q, hq, rfl⟩
        obtain ⟨x, hx, rfl⟩ := List.mem_map.1 hq
        obtain ⟨y, hy, rfl⟩ := List.mem_map.1 (b4.mem_iff.1 hx)
        exact List.mem_map.2 ⟨y, hy, rfl⟩
      · intro h
        obtain ⟨y, hy, rfl⟩ := List.mem_map.1 h
        exact ⟨_, List.mem_map.2 ⟨_, b4.mem_iff.2 (List.mem_map.2 ⟨y, hy, rfl⟩), rfl⟩, rfl⟩
    rw [hf, b3]
    constructor
    · rintro ⟨_, h⟩
      obtain ⟨s, hs⟩ := List.exists_mem_of_ne_nil _ h
      obtain ⟨h3, h4⟩ := List.mem_filter.1 hs
      exact ⟨s, h3, of_decide_eq_true h4⟩
    · rintro ⟨s, hs, rfl⟩
      refine ⟨rfl, fun e => ?_⟩
      have : s ∈ featSplits ts s.feat := List.mem_filter.2 ⟨hs, by simp⟩
      rw [e] at this
      cases this

/-- **C59**, split score: if every feature the model splits on takes part in an interaction that counts, and some such
interaction is between different features, `fit` returns and every plot of the method can be drawn. -/
theorem C59_split_score (hE : E.Lawful) (H : GbForest E.leafName ts p m) {inter imp : SsMetric} (hi : inter.isInteraction)
    (him : imp.isImportance) (h1 : inter.availableFor p) (h2 : imp.availableFor p) (hnl : NoLeafName E.leafName ts)
    (hgain : ∀ s ∈ forestSplits ts, gainSum (featSplits ts s.feat) ≠ 0) {onlyDef : Bool}
    (hpair : ∃ s ∈ forestSplits ts, s.counts onlyDef = true ∧ ∃ x, s.parent = some x ∧ x.1 ≠ s.feat)
    (hall : ∀ s ∈ forestSplits ts, ∃ s' ∈ forestSplits ts, s'.counts onlyDef = true ∧
      (s'.feat = s.feat ∨ s'.parent.map (fun x => x.1) = some s.feat))
    (s0 : SsMethod F I K) (sort : PairSort F K) (E' : VisEnv F K) {visType : String} (hp : HasPlot splitScoreName visType)
    (title : String) {o : Opts K} (hd : visType = "lollipop" → ∀ d, o.maxDepth = some d → d ≤ 5) (sub : SubOpts K) :
    (SsMethod.fit E (.model m) inter imp onlyDef s0).1 = .ok () ∧
    ∃ ps, (SsMethod.view sort (SsMethod.fit E (.model m) inter imp onlyDef s0).2).plot E' visType title o sub = .ok ps := by
  have hex : ∃ s ∈ forestSplits ts, s.parent.isSome = true := by
    obtain ⟨s, hs, _, x, hx, _⟩ := hpair
    exact ⟨s, hs, by rw [hx]; rfl⟩
  obtain ⟨hok, ovo, t, ho, ht, hr, hfull, hovo, hnum, hf⟩ := ss_tables hE H hi him h1 h2 hex hnl hgain onlyDef s0 sort
  refine ⟨hok, ?_⟩
  have hsplit : ∀ s ∈ forestSplits ts, s.counts onlyDef = true → ∀ x, s.parent = some x → ∃ r ∈ ovo, r.f1 = x.1 ∧ r.f2 = s.feat := by
    intro s hs hc x hx
    rw [hovo]
    have : s ∈ pairSplits onlyDef ts x.1 s.feat := List.mem_filter.2 ⟨hs, by simp [hc, hx]⟩
    exact List.ne_nil_of_mem this
  have hback : ∀ r ∈ ovo, ∃ s ∈ forestSplits ts, s.counts onlyDef = true ∧ s.feat = r.f2 ∧ ∃ x, s.parent = some x ∧ x.1 = r.f1 := by
    intro r hr
    have := (hovo r.f1 r.f2).1 ⟨r, hr, rfl, rfl⟩
    obtain ⟨s, hs⟩ := List.exists_mem_of_ne_nil _ this
    obtain ⟨h3, h4⟩ := List.mem_filter.1 hs
    simp only [Bool.and_eq_true, decide_eq_true_eq] at h4
    obtain ⟨x, hx, e⟩ := Option.map_eq_some_iff.1 h4.1.2
    exact ⟨s, h3, h4.1.1, h4.2, x, hx, e⟩
  refine C59_drawable_partial hr (by simp [SsMethod.view, methodNames]) ⟨ho, ht, ?_, ?_, ?_, ?_⟩ ?_ (fun _ => hfull) E' hp title hd sub
  · intro r hr
    obtain ⟨s, hs, _, e1, x, hx, e2⟩ := hback r hr
    exact ⟨(hf _).2 (by obtain ⟨s', hs', e⟩ := parent_feat hs hx; exact ⟨s', hs', e.trans e2⟩), (hf _).2 ⟨s, hs, e1⟩⟩
  · intro q hq
    obtain ⟨s, hs, e⟩ := (hf q.f).1 ⟨q, hq, rfl⟩
    obtain ⟨s', hs', hc, he⟩ := hall s hs
    have hpar : ∃ x, s'.parent = some x := by
      cases hpp : s'.parent with
      | some x => exact ⟨x, rfl⟩
      | none =>
        exfalso
        unfold Split.counts Split.interacts at hc
        rw [hpp] at hc
        cases onlyDef <;> cases hc
    obtain ⟨x, hx⟩ := hpar
    obtain ⟨r, hr, e1, e2⟩ := hsplit s' hs' hc x hx
    refine ⟨r, hr, ?_⟩
    rcases he with he | he
    · exact .inr (by rw [e2, he, e])
    · rw [hx] at he
      exact .inl (by rw [e1, ← e]; exact Option.some.inj he)
  · obtain ⟨s, hs, hc, x, hx, hne⟩ := hpair
    obtain ⟨r, hr, e1, e2⟩ := hsplit s hs hc x hx
    exact ⟨r, hr, by rw [e1, e2]; exact hne, fun _ => hnum r hr⟩
  · intro e; cases e
  · intro e
    exact absurd e (by show splitScoreName ≠ hStatName; decide)

/-- **C59 fails** for split score whenever the model splits on a feature that takes part in no interaction that counts:
`fit` returns, but the graph raises NetworkXError. -/
theorem C59_split_score_lone_feature_fails (hE : E.Lawful) (H : GbForest E.leafName ts p m) {inter imp : SsMetric}
    (hi : inter.isInteraction) (him : imp.isImportance) (h1 : inter.availableFor p) (h2 : imp.availableFor p)
    (hnl : NoLeafName E.leafName ts) (hgain : ∀ s ∈ forestSplits ts, gainSum (featSplits ts s.feat) ≠ 0) {onlyDef : Bool}
    (hex : ∃ s ∈ forestSplits ts, s.parent.isSome = true) {s : Split F I K} (hs : s ∈ forestSplits ts)
    (hlone : ∀ s' ∈ forestSplits ts, s'.counts onlyDef = true → s'.feat ≠ s.feat ∧ s'.parent.map (fun x => x.1) ≠ some s.feat)
    (s0 : SsMethod F I K) (sort : PairSort F K) (E' : VisEnv F K) (title : String) (o : Opts K) (sub : SubOpts K) :
    (SsMethod.fit E (.model m) inter imp onlyDef s0).1 = .ok () ∧
    (SsMethod.view sort (SsMethod.fit E (.model m) inter imp onlyDef s0).2).plot E' "graph" title o sub = .error .networkXError := by
  obtain ⟨hok, ovo, t, ho, ht, hr, hfull, hovo, hnum, hf⟩ := ss_tables hE H hi him h1 h2 hex hnl hgain onlyDef s0 sort
  refine ⟨hok, ?_⟩
  obtain ⟨q, hq, e⟩ := (hf s.feat).2 ⟨s, hs, rfl⟩
  refine C59_unpaired_feature_fails hr (by simp [SsMethod.view, methodNames]) ho ht hq ?_ E' title o sub
  intro r hr
  have := (hovo r.f1 r.f2).1 ⟨r, hr, rfl, rfl⟩
  obtain ⟨s', hs'⟩ := List.exists_mem_of_ne_nil _ this
  obtain ⟨h3, h4⟩ := List.mem_filter.1 hs'
  simp only [Bool.and_eq_true, decide_eq_true_eq] at h4
  obtain ⟨g1, g2⟩ := hlone s' h3 h4.1.1
  rw [e]
  refine ⟨fun hh => g2 ?_, fun hh => g1 (h4.2.trans hh)⟩
  rw [h4.1.2, hh]

end SplitScore

/-! ## Cases -/

section Cases
open Ex

/-- C59 for Friedman's H-statistic on the example data -/
example (E' : VisEnv (Fin 3) ℝ) : ∃ s : PdpMethod Nat Nat (Fin 3) ℤ ℝ, PdpMethod.fit (.friedman true) exEnv exArgs (PdpMethod.new 0) = (.ok (), s) ∧
    ∃ ps, (PdpMethod.view (I := Nat) (fun _ => id) (.friedman true) s).plot E' "summary" "default" {} [] = .ok ps := by
  obtain ⟨s, h⟩ := exFitR true
  exact ⟨s, h, C59_pd_methods (.friedman true) (exSetup 0) (sortsBy_stableSort _ _) (sortsBy_stableSort _ _) (by decide) (by decide)
    (fun _ => rfl) h _ E' (by simp [HasPlot]) _ _ _⟩

/-- C59 for Sejong Oh's method on the example data -/
example (E' : VisEnv _ ℝ) : ∃ ps, (Sejong.view (I := Nat) (fun _ => id) (Sejong.fit exPerfEnv exSArgs 0 (Sejong.new 0 rmseM)).2).plot E'
    "heatmap" "default" {} [] = .ok ps := by
  obtain ⟨sc, h⟩ := exPerfSetup 0
  exact (C59_sejong h (sortsBy_stableSort _ _) (sortsBy_stableSort _ _) (by decide) 0 _ E' (by simp [HasPlot]) _ _ _).2

/-- C59 for split score: all plots of the fitted example -/
example : ∀ t ∈ ["summary", "graph", "bar_chart", "heatmap", "lollipop"],
    ((exTwoWayFit.view exPairSort).plot exVisNat t "default" {} []).isOk = true := by decide +kernel

/-- the hypotheses of `C59_split_score` hold for it -/
example : ∃ ps, (SsMethod.view exPairSort (SsMethod.fit exSsEnv (.model exTwoWay) .meanGain .meanGain true SsMethod.new).2).plot exVisNat
    "summary" "default" {} [] = .ok ps :=
  (C59_split_score exSsEnv_lawful exTwoWay_fit.1 (by simp [SsMetric.isInteraction]) (by simp [SsMetric.isImportance, SsMetric.isInteraction])
    (avail_gain _) (avail_gain _) (by unfold NoLeafName; decide) (C43_positive_gains (by decide +kernel))
    ⟨⟨0, 1, 1, 1, 10, 6, some (0, 1, 10)⟩, by simp [forestSplits, exTwoWayTrees, GTree.splits], by decide +kernel, _, rfl, by decide⟩ (by decide +kernel) _ _ _
    (by simp [HasPlot]) _ (by simp) _).2

/-- the two failures for tree methods: conditional minimal depth with an unused column -/
theorem C59_cmd_fails :
    (CmdMethod.fit (exCmdEnv ℚ) ⟨[[97], [98]], [[⟨1, 2, 0⟩, ⟨-1, -1, -2⟩, ⟨-1, -1, -2⟩]]⟩ CmdMethod.new).1 = .ok () ∧
    ((CmdMethod.view (I := Nat) (exCmdEnv ℚ) (CmdMethod.fit (exCmdEnv ℚ) ⟨[[97], [98]], [[⟨1, 2, 0⟩, ⟨-1, -1, -2⟩, ⟨-1, -1, -2⟩]]⟩
      CmdMethod.new).2).plot exVisList "heatmap" "default" {} []).map (fun _ => ()) = .error .indexError := by
  constructor <;> decide +kernel

/-- and split score with a stump on a feature of its own -/
theorem C59_split_score_fails :
    (SsMethod.fit exSsEnv (.model ⟨"xgboost.sklearn.XGBRegressor".toList,
      .xgb (exGT.xgbRows 99 0 id ++ (GTree.split 0 5 1 10 (.leaf 1 0 6) (.leaf 2 0 4)).xgbRows 99 1 id)⟩) .meanGain .meanGain true
      (SsMethod.new (I := Nat))).1 = .ok () ∧
    ((SsMethod.view exPairSort (SsMethod.fit exSsEnv (.model ⟨"xgboost.sklearn.XGBRegressor".toList,
      .xgb (exGT.xgbRows 99 0 id ++ (GTree.split 0 5 1 10 (.leaf 1 0 6) (.leaf 2 0 4)).xgbRows 99 1 id)⟩) .meanGain .meanGain true
      (SsMethod.new (I := Nat))).2).plot exVisNat "graph" "default" {} []).map (fun _ => ()) = .error .networkXError := by
  constructor <;> decide +kernel

end Cases

end Artemis
