import Verif.Model.VisNames
import Verif.Props.Drawable
import Verif.Props.Sejong

/-!
# C127: plots and comparisons of tables whose names are not strings
-/

set_option linter.unusedSectionVars false
set_option linter.unusedVariables false
set_option linter.unusedSimpArgs false

namespace Artemis
open Spec

section Names
variable {F I J K : Type} [LinearOrder F] [LinearOrder J] [Field K] [LinearOrder K]

theorem needStr_all {isStr : F → Bool} {rows : List (OvoRow F K)} (h : ∀ r ∈ rows, isStr r.f1 = true ∧ isStr r.f2 = true) {α : Type}
    (x : Except Err α) : needStr isStr rows x = x := by
  unfold needStr
  rw [if_pos]
  rw [List.all_eq_true]
  intro r hr
  rw [(h r hr).1, (h r hr).2]; rfl

theorem needStr_not {isStr : F → Bool} {rows : List (OvoRow F K)} {r : OvoRow F K} (hr : r ∈ rows)
    (h : isStr r.f1 = false ∨ isStr r.f2 = false) {α : Type} (x : Except Err α) : needStr isStr rows x = .error .typeError := by
  unfold needStr
  rw [if_neg]
  intro hall
  have := List.all_eq_true.1 hall r hr
  rcases h with h | h <;> rw [h] at this <;> simp at this

/-- two loops that differ only for names that are no strings -/
theorem scores_loop {A : Type} {isStr : F → Bool} {gS gP : A → F → Except Err A} (h1 : ∀ acc f, isStr f = true → gS acc f = gP acc f)
    (h2 : ∀ acc f d, isStr f = false → gP acc f = .ok d → gS acc f = .error .attributeError)
    (h3 : ∀ acc f d, gS acc f = .ok d → isStr f = true) : ∀ (l : List F) (acc : A),
    ((∀ f ∈ l, isStr f = true) → l.foldlM gS acc = l.foldlM gP acc) ∧
    (∀ d, l.foldlM gS acc = .ok d → ∀ f ∈ l, isStr f = true) ∧
    (∀ d, l.foldlM gP acc = .ok d → (∃ f ∈ l, isStr f = false) → l.foldlM gS acc = .error .attributeError) := by
  intro l
  induction l with
  | nil => exact fun acc => ⟨fun _ => rfl, fun _ _ f hf => absurd hf List.not_mem_nil, fun _ _ ⟨f, hf, _⟩ => absurd hf List.not_mem_nil⟩
  | cons f l ih =>
    intro acc
    simp only [List.foldlM_cons]
    cases hf : isStr f with
    | false =>
      refine ⟨fun h => ?_, fun d h => ?_, fun d h _ => ?_⟩
      · have := h f List.mem_cons_self
        rw [hf] at this; cases this
      · cases hg : gS acc f with
        | error e => rw [hg] at h; cases h
        | ok a => have := h3 acc f a hg; rw [hf] at this; cases this
      · cases hg : gP acc f with
        | error e => rw [hg] at h; cases h
        | ok a => rw [h2 acc f a hf hg]; rfl
    | true =>
      rw [h1 acc f hf]
      cases hg : gP acc f with
      | error e =>
        refine ⟨fun _ => rfl, ?_, ?_⟩ <;> intro d h <;> cases h
      | ok a =>
        obtain ⟨i1, i2, i3⟩ := ih a
        refine ⟨fun h => i1 (fun g hg => h g (List.mem_cons_of_mem _ hg)), fun d h g hg => ?_, fun d h ⟨g, hg, hgs⟩ => ?_⟩
        · rcases List.mem_cons.1 hg with rfl | hg
          · exact hf
          · exact i2 d h g hg
        · rcases List.mem_cons.1 hg with rfl | hg
          · rw [hf] at hgs; cases hgs
          · exact i3 d h ⟨g, hg, hgs⟩

theorem scores_step (isStr : F → Bool) (lower : F → F) (score : F → Except Err (Num K)) (l : List F)
    {gP : Dict F (Num K) → F → Except Err (Dict F (Num K))} (eP : gP = fun acc f => (score f).map (fun s => Dict.set acc (lower f) s)) :
    ((∀ f ∈ l, isStr f = true) → l.foldlM (heatStepS isStr lower score) [] = l.foldlM gP []) ∧
    (∀ d, l.foldlM (heatStepS isStr lower score) [] = .ok d → ∀ f ∈ l, isStr f = true) ∧
    (∀ d, l.foldlM gP [] = .ok d → (∃ f ∈ l, isStr f = false) → l.foldlM (heatStepS isStr lower score) [] = .error .attributeError) := by
  subst eP
  apply scores_loop
  · intro acc f h
    unfold heatStepS
    cases score f <;> simp [h, Except.map]
  · intro acc f d h hp
    cases hs : score f with
    | error e => simp only [hs, Except.map] at hp; cases hp
    | ok s => simp [heatStepS, hs, h]
  · intro acc f d hp
    cases hs : score f with
    | error e => simp only [heatStepS, hs] at hp; cases hp
    | ok s =>
      cases hf : isStr f with
      | true => rfl
      | false => simp [heatStepS, hs, hf] at hp

theorem orderHeatmapS_eq {isStr : F → Bool} (E : VisEnv F K) (m : Mat F K) (asc : Bool) (h : ∀ f ∈ m.rows, isStr f = true) :
    orderHeatmapS isStr E m asc = orderHeatmap E m asc := by
  unfold orderHeatmapS orderHeatmap heatScoresS heatScores
  cases diagSeries m with
  | error e => rfl
  | ok d =>
    simp only
    rw [(scores_step isStr E.lower (heatScore m d _ _) m.rows rfl).1 h]
    rfl

theorem orderHeatmapS_ok {isStr : F → Bool} {E : VisEnv F K} {m m' : Mat F K} {asc : Bool} (h : orderHeatmapS isStr E m asc = .ok m') :
    ∀ f ∈ m.rows, isStr f = true := by
  unfold orderHeatmapS heatScoresS at h
  cases hd : diagSeries m with
  | error e => rw [hd] at h; cases h
  | ok d =>
    rw [hd] at h
    simp only at h
    split at h
    · cases h
    · rename_i sc hsc
      exact (scores_step isStr E.lower (heatScore m d _ _) m.rows rfl).2.1 sc hsc

theorem orderHeatmapS_error {isStr : F → Bool} {E : VisEnv F K} {m m' : Mat F K} {asc : Bool} (h : orderHeatmap E m asc = .ok m')
    (hn : ∃ f ∈ m.rows, isStr f = false) : orderHeatmapS isStr E m asc = .error .attributeError := by
  unfold orderHeatmap heatScores at h
  unfold orderHeatmapS heatScoresS
  cases hd : diagSeries m with
  | error e => rw [hd] at h; cases h
  | ok d =>
    rw [hd] at h
    simp only at h ⊢
    split at h
    · cases h
    · rename_i sc hsc
      rw [(scores_step isStr E.lower (heatScore m d _ _) m.rows rfl).2.2 sc hsc hn]

/-- all names of the tables that a plot uses are strings -/
def AllStrings (isStr : F → Bool) (v : View F I K) : Prop :=
  ∀ t, v.ovo = some t → ∀ r ∈ t, isStr r.f1 = true ∧ isStr r.f2 = true

theorem heat_rows_strings {isStr : F → Bool} {directed : Bool} {ovo : List (OvoRow F K)} {imp : Option (List (FeatRow F K))}
    {rows : List (OvoRow F K)} (h : heatmapRows directed ovo imp = .ok rows) (hs : ∀ r ∈ ovo, isStr r.f1 = true ∧ isStr r.f2 = true) :
    ∀ f ∈ (pivotFirst rows).rows, isStr f = true := by
  intro f hf
  obtain ⟨r, hr, rfl⟩ := List.mem_map.1 (mem_npUnique.1 hf)
  rcases (heatmapRows_mem h).1 r (List.mem_filter.1 hr).1 with h1 | ⟨_, h1⟩ | ⟨e, _, _, _, q, hq, h1⟩
  · exact (hs _ h1).1
  · exact (hs _ h1).2
  · rcases h1 with h1 | h1
    · rw [← h1]; exact (hs q hq).1
    · rw [← h1]; exact (hs q hq).2

theorem plotHeatmapS_eq {isStr : F → Bool} (E : VisEnv F K) {ovo : List (OvoRow F K)} (imp : Option (List (FeatRow F K))) (title : String)
    (asc impAsc directed : Bool) (hs : ∀ r ∈ ovo, isStr r.f1 = true ∧ isStr r.f2 = true) :
    (plotHeatmapS isStr E ovo imp title asc impAsc directed : Except Err (Panel F I K)) =
      plotHeatmap E ovo imp title asc impAsc directed := by
  unfold plotHeatmapS plotHeatmap
  cases hr : heatmapRows directed ovo imp with
  | error e => rfl
  | ok rows =>
    simp only
    rw [orderHeatmapS_eq E (pivotFirst rows) asc (heat_rows_strings hr hs)]
    cases orderHeatmap E (pivotFirst rows) asc <;> rfl

/-- **C127** If the names in the table of pairs are strings, the plots and the rank correlations are those of the other models: all
properties of plots and comparisons hold for tables with string names. -/
theorem C127_strings_partial [HasSqrt K] {isStr : F → Bool} {v : View F I K} (hs : AllStrings isStr v) :
    (∀ (E : VisEnv F K) (visType title : String) (o : Opts K) (sub : SubOpts K),
      v.plotS isStr E visType title o sub = v.plot E visType title o sub) ∧
    (∀ (w : View F I K) (join : F → F → J) (kind : CorrKind), (∀ t, v.cmp = .ok t → ∀ r ∈ t, isStr r.f1 = true ∧ isStr r.f2 = true) →
      (∀ t, w.cmp = .ok t → ∀ r ∈ t, isStr r.f1 = true ∧ isStr r.f2 = true) →
      correlationS isStr join kind v w = correlation join kind v w) := by
  constructor
  · intro E visType title o sub
    unfold View.plotS View.plot
    cases ho : v.ovo with
    | none => rfl
    | some ovo =>
      have hs' := hs ovo ho
      have hb : ∀ (t : String) (o : Opts K), (plotBarsS isStr ovo t o : Except Err (Panel F I K)) = .ok (plotBars ovo t o) :=
        fun t o => needStr_all hs' _
      have hv : ∀ (cfg : VisConfig K) (ia : Bool), visPlotS isStr E cfg ⟨ovo, v.ova, v.imp, v.asc, ia, v.full, v.directed, v.name⟩ visType title o sub =
          visPlot E cfg ⟨ovo, v.ova, v.imp, v.asc, ia, v.full, v.directed, v.name⟩ visType title o sub := by
        intro cfg ia
        simp only [visPlotS, visPlot, plotSummaryS, plotSummary, plotHeatmapS_eq E v.imp _ _ _ _ hs', hb]
        rfl
      simp only [hv]
      rfl
  · intro w join kind hv hw
    unfold correlationS correlation
    have : rankBothS isStr join v w = rankBoth join v w := by
      unfold rankBothS rankBoth orderedPairsS
      cases h1 : v.cmp with
      | error e => simp only [rankEncoded]
      | ok t1 =>
        simp only [needStr_all (hv t1 h1)]
        cases h2 : w.cmp with
        | error e => 
          simp only [rankEncoded]
        | ok t2 =>
          simp only [needStr_all (hw t2 h2)]
          rfl
    rw [this]
    rfl

/-- **C127** The graph and the bar chart of one-vs-all values do not look into names. -/
theorem C127_graph_any_names (isStr : F → Bool) (v : View F I K) (E : VisEnv F K) (title : String) (o : Opts K) (sub : SubOpts K) :
    v.plotS isStr E "graph" title o sub = v.plot E "graph" title o sub ∧
    v.plotS isStr E "bar_chart_ova" title o sub = v.plot E "bar_chart_ova" title o sub := by
  constructor
  · unfold View.plotS View.plot
    simp only [visPlotS, visPlot, show ¬ ("graph" = "summary") by decide, if_false, if_true]
    rfl
  · unfold View.plotS View.plot
    simp only [visPlotS, visPlot, show ¬ ("bar_chart_ova" = "summary") by decide, show ¬ ("bar_chart_ova" = "graph") by decide, if_false,
      if_true]
    rfl

theorem plotS_inv {isStr : F → Bool} {v : View F I K} {ovo : List (OvoRow F K)} (ho : v.ovo = some ovo) {E : VisEnv F K} {visType title : String}
    {o : Opts K} {sub : SubOpts K} {ps : List (Panel F I K)} (h : v.plotS isStr E visType title o sub = .ok ps) :
    ∃ ia cfg, visType ∈ cfg.accepted ∧
      visPlotS isStr E cfg ⟨ovo, v.ova, v.imp, v.asc, ia, v.full, v.directed, v.name⟩ visType title o sub = .ok ps := by
  unfold View.plotS at h
  by_cases hfit : (if v.needsOva then v.ova.isNone else v.ovo.isNone) = true
  · rw [if_pos hfit] at h; cases h
  · rw [if_neg hfit] at h
    cases hi : v.impAsc with
    | none => rw [hi] at h; cases h
    | some ia =>
      rw [hi] at h
      simp only at h
      cases hc : (configGet v.name : Except Err (VisConfig K)) with
      | error e => rw [hc] at h; cases h
      | ok cfg =>
        rw [hc] at h
        simp only [ho] at h
        by_cases ha : visType ∈ cfg.accepted
        · exact ⟨ia, cfg, ha, h⟩
        · unfold visPlotS at h
          rw [if_pos ha] at h; cases h

theorem plotS_of_plot (isStr : F → Bool) {v : View F I K} {ovo : List (OvoRow F K)} (ho : v.ovo = some ovo) {E : VisEnv F K}
    {visType title : String} {o : Opts K} {sub : SubOpts K} {ps : List (Panel F I K)} (h : v.plot E visType title o sub = .ok ps) :
    ∃ ia cfg, visType ∈ cfg.accepted ∧
      visPlot E cfg ⟨ovo, v.ova, v.imp, v.asc, ia, v.full, v.directed, v.name⟩ visType title o sub = .ok ps ∧
      v.plotS isStr E visType title o sub =
        visPlotS isStr E cfg ⟨ovo, v.ova, v.imp, v.asc, ia, v.full, v.directed, v.name⟩ visType title o sub := by
  obtain ⟨ovo', ia, cfg, ho', hi, hc, hacc, hp⟩ := view_plot_inv h
  rw [ho] at ho'; cases ho'
  refine ⟨ia, cfg, hacc, hp, ?_⟩
  unfold View.plot at h
  unfold View.plotS
  by_cases hfit : (if v.needsOva then v.ova.isNone else v.ovo.isNone) = true
  · rw [if_pos hfit] at h; cases h
  · rw [if_neg hfit, hi, hc, ho]

/-- **C127** A bar chart of a table with a name that is not a string raises a TypeError. -/
theorem C127_bar_chart_raises {isStr : F → Bool} {v : View F I K} {ovo : List (OvoRow F K)} (ho : v.ovo = some ovo) {r : OvoRow F K}
    (hr : r ∈ ovo) (hn : isStr r.f1 = false ∨ isStr r.f2 = false) {E : VisEnv F K} {title : String} {o : Opts K} {sub : SubOpts K}
    {ps : List (Panel F I K)} (h : v.plot E "bar_chart" title o sub = .ok ps) :
    v.plotS isStr E "bar_chart" title o sub = .error .typeError := by
  obtain ⟨ia, cfg, hacc, _, e⟩ := plotS_of_plot isStr ho h
  rw [e]
  unfold visPlotS
  rw [if_neg (not_not.2 hacc), if_neg (by decide), if_neg (by decide), if_neg (by decide), if_neg (by decide), if_pos rfl]
  simp only [plotBarsS, needStr_not hr hn, Except.map]

theorem row_in_matrix {isStr : F → Bool} {directed : Bool} {ovo : List (OvoRow F K)} {imp : Option (List (FeatRow F K))}
    {rows : List (OvoRow F K)} (h : heatmapRows directed ovo imp = .ok rows) {r : OvoRow F K} (hr : r ∈ ovo) (hv : r.val ≠ .nan)
    (hn : isStr r.f1 = false ∨ (directed = false ∧ isStr r.f2 = false)) : ∃ f ∈ (pivotFirst rows).rows, isStr f = false := by
  have hm := (heatmapRows_mem h).2.1 r hr
  have hval : ∀ q : OvoRow F K, q.val = r.val → (!q.val.isNaN) = true := by
    intro q e
    rw [e]
    cases hx : r.val with
    | nan => exact absurd hx hv
    | fin x => rfl
    | pinf => rfl
    | ninf => rfl
  rcases hn with hn | ⟨hd, hn⟩
  · exact ⟨r.f1, mem_npUnique.2 (List.mem_map.2 ⟨r, List.mem_filter.2 ⟨hm.1, hval r rfl⟩, rfl⟩), hn⟩
  · exact ⟨r.f2, mem_npUnique.2 (List.mem_map.2 ⟨_, List.mem_filter.2 ⟨hm.2 hd, hval _ rfl⟩, rfl⟩), hn⟩

/-- **C127** The default plot (the heatmap) of a table with a row whose value is not NaN and whose names are not both strings never
returns a picture, nor does the summary; where the heatmap would be drawn for string names, the error is an AttributeError. -/
theorem C127_heatmap_raises {isStr : F → Bool} {v : View F I K} {ovo : List (OvoRow F K)} (ho : v.ovo = some ovo) {r : OvoRow F K}
    (hr : r ∈ ovo) (hv : r.val ≠ .nan) (hn : isStr r.f1 = false ∨ (v.directed = false ∧ isStr r.f2 = false)) (E : VisEnv F K)
    (title : String) (o : Opts K) (sub : SubOpts K) :
    (∀ ps, v.plotS isStr E "heatmap" title o sub ≠ .ok ps) ∧
    (∀ ps, v.plotS isStr E "summary" title o sub ≠ .ok ps) ∧
    (∀ ps, v.plot E "heatmap" title o sub = .ok ps → v.plotS isStr E "heatmap" title o sub = .error .attributeError) ∧
    (∀ ps, v.plot E "summary" title o sub = .ok ps → v.plotS isStr E "summary" title o sub = .error .attributeError) := by
  have hno : ∀ (t : String) (a b : Bool) (p : Panel F I K), plotHeatmapS isStr E ovo v.imp t a b v.directed ≠ .ok p := by
    intro t a b p h
    unfold plotHeatmapS at h
    split at h
    · cases h
    · rename_i rows hrows
      split at h
      · cases h
      · rename_i m hm
        obtain ⟨f, hf, hff⟩ := row_in_matrix hrows hr hv hn
        have := orderHeatmapS_ok hm f hf
        rw [hff] at this; cases this
  have herr : ∀ (t : String) (a b : Bool) (p : Panel F I K), plotHeatmap E ovo v.imp t a b v.directed = .ok p →
      (plotHeatmapS isStr E ovo v.imp t a b v.directed : Except Err (Panel F I K)) = .error .attributeError := by
    intro t a b p h
    unfold plotHeatmap at h
    unfold plotHeatmapS
    split at h
    · cases h
    · rename_i rows hrows
      split at h
      · cases h
      · rename_i m hm
        simp only [hrows]
        rw [orderHeatmapS_error hm (row_in_matrix hrows hr hv hn)]
  refine ⟨fun ps h => ?_, fun ps h => ?_, fun ps h => ?_, fun ps h => ?_⟩
  · obtain ⟨ia, cfg, hacc, hp⟩ := plotS_inv ho h
    unfold visPlotS at hp
    rw [if_neg (not_not.2 hacc), if_neg (by decide), if_neg (by decide), if_neg (by decide), if_pos rfl] at hp
    simp only at hp
    generalize hx : (plotHeatmapS isStr E ovo v.imp title v.asc ia v.directed : Except Err (Panel F I K)) = x at hp
    cases x with
    | error e => cases hp
    | ok p => exact hno _ _ _ _ hx
  · obtain ⟨ia, cfg, hacc, hp⟩ := plotS_inv ho h
    unfold visPlotS at hp
    rw [if_neg (not_not.2 hacc), if_pos rfl] at hp
    unfold plotSummaryS at hp
    split at hp
    · cases hp
    · rename_i hx
      exact hno _ _ _ _ hx
  · obtain ⟨ia, cfg, hacc, hp, e⟩ := plotS_of_plot isStr ho h
    rw [e]
    unfold visPlot at hp
    rw [if_neg (not_not.2 hacc), if_neg (by decide), if_neg (by decide), if_neg (by decide), if_pos rfl] at hp
    unfold visPlotS
    rw [if_neg (not_not.2 hacc), if_neg (by decide), if_neg (by decide), if_neg (by decide), if_pos rfl]
    simp only at hp ⊢
    generalize hx : (plotHeatmap E ovo v.imp title v.asc ia v.directed : Except Err (Panel F I K)) = x at hp
    cases x with
    | error e => cases hp
    | ok p => rw [herr _ _ _ _ hx]; rfl
  · obtain ⟨ia, cfg, hacc, hp, e⟩ := plotS_of_plot isStr ho h
    rw [e]
    unfold visPlot at hp
    rw [if_neg (not_not.2 hacc), if_pos rfl] at hp
    unfold visPlotS
    rw [if_neg (not_not.2 hacc), if_pos rfl]
    unfold plotSummary at hp
    unfold plotSummaryS
    simp only at hp ⊢
    generalize hx : (plotHeatmap E ovo v.imp "default" v.asc false v.directed : Except Err (Panel F I K)) = x at hp
    cases x with
    | error e => cases hp
    | ok p => rw [herr _ _ _ _ hx]

/-- **C127** A rank correlation with a table that has a name that is not a string raises; if the tables exist, a TypeError. -/
theorem C127_correlation_raises [HasSqrt K] {isStr : F → Bool} {v w : View F I K} {t u : List (OvoRow F K)} (hv : v.cmp = .ok t)
    (hw : w.cmp = .ok u) {r : OvoRow F K} (hr : r ∈ t ∨ r ∈ u) (hn : isStr r.f1 = false ∨ isStr r.f2 = false) (join : F → F → J)
    (kind : CorrKind) : correlationS isStr join kind v w = .error .typeError := by
  unfold correlationS rankBothS orderedPairsS
  rw [hv, hw]
  rcases hr with hr | hr
  · simp only [needStr_not hr hn]
  · simp only [needStr_not hr hn]
    unfold needStr
    by_cases ha : t.all (fun r => isStr r.f1 && isStr r.f2) = true
    · rw [if_pos ha]
    · rw [if_neg ha]

end Names

section Sejong
variable {G L F V K I J : Type} [LinearOrder F] [LinearOrder J] [DecidableEq L] [Field K] [LinearOrder K] [IsStrictOrderedRing K] [HasSqrt K]

/-- **C127** After a fit of Sejong Oh's method on at least two features of which one has a name that is not a string, neither the default
plot nor the summary nor the bar chart can be drawn, and a rank correlation with any method raises a TypeError; the result tables are there,
and the graph is drawn as for string names. -/
theorem C127_sejong_fails {E : PerfEnv G L F K} {a : SejongArgs L F V K} {s0 : Sejong G L F V K} {Xs : LFrame L F V} {ys : Target L K} {g : G}
    {sc : List (Row F V) → K} (hs : PerfSetup E a s0 Xs ys g sc)
    (hsort : SortsBy (fun r : OvoRow F K => r.val.abs) false E.sortOvo) (entropy : G) {isStr : F → Bool} {f g' : F} (hf : f ∈ a.feats)
    (hg : g' ∈ a.feats) (hfg : f ≠ g') (hn : isStr f = false) {sort : PairSort F K} (hsp : ∀ asc l, (sort asc l).Perm l) :
    ∃ s t, Sejong.fit E a entropy s0 = (.ok (), s) ∧ s.ovo = some t ∧
      ∀ (Ev : VisEnv F K) (title : String) (o : Opts K) (sub : SubOpts K),
        (∀ ps, (Sejong.view (I := I) sort s).plotS isStr Ev "heatmap" title o sub ≠ .ok ps) ∧
        (∀ ps, (Sejong.view (I := I) sort s).plotS isStr Ev "summary" title o sub ≠ .ok ps) ∧
        (∀ ps, (Sejong.view (I := I) sort s).plotS isStr Ev "bar_chart" title o sub ≠ .ok ps) ∧
        (Sejong.view (I := I) sort s).plotS isStr Ev "graph" title o sub = (Sejong.view (I := I) sort s).plot Ev "graph" title o sub ∧
        ∀ (w : View F I K) (u : List (OvoRow F K)) (join : F → F → J) (kind : CorrKind), w.cmp = .ok u →
          correlationS isStr join kind (Sejong.view sort s) w = .error .typeError ∧
          correlationS isStr join kind w (Sejong.view sort s) = .error .typeError := by
  obtain ⟨s, t, h1, h2, _, h4, _⟩ := C13_sejong_one_row_per_pair hs hsort entropy
  obtain ⟨s', t', h1', h2', _, hv, _⟩ := C24_mean_absolute_nonadditive_change hs hsort entropy
  have e := h1.symm.trans h1'
  have e' : s = s' := by injection e
  subst e'
  rw [h2] at h2'
  cases h2'
  obtain ⟨r, hr, hp⟩ : ∃ r ∈ t, r.isPair f g' := by
    have hc := h4 f hf g' hg hfg
    have : 0 < t.countP (fun r => decide (r.isPair f g')) := by omega
    obtain ⟨r, hr, hp⟩ := List.countP_pos_iff.1 this
    exact ⟨r, hr, of_decide_eq_true hp⟩
  obtain ⟨x, hx, _⟩ := hv r hr
  have hnn : isStr r.f1 = false ∨ isStr r.f2 = false := by
    rcases hp with ⟨e, _⟩ | ⟨_, e⟩
    · left; rw [e]; exact hn
    · right; rw [e]; exact hn
  have hcmp : (Sejong.view (I := I) sort s).cmp = .ok (sort false t) := by simp only [Sejong.view, compareBase, h2]
  have hr' : r ∈ sort false t := (hsp false t).mem_iff.2 hr
  refine ⟨s, t, h1, h2, fun Ev title o sub => ?_⟩
  have hh := C127_heatmap_raises (v := Sejong.view (I := I) sort s) h2 hr (by rw [hx]; intro h; cases h)
    (hnn.imp_right (fun h => ⟨rfl, h⟩)) Ev title o sub
  refine ⟨hh.1, hh.2.1, fun ps h => ?_, (C127_graph_any_names isStr _ Ev title o sub).1, fun w u join kind hw =>
    ⟨C127_correlation_raises hcmp hw (Or.inl hr') hnn join kind, C127_correlation_raises hw hcmp (Or.inr hr') hnn join kind⟩⟩
  obtain ⟨ia, cfg, hacc, hp⟩ := plotS_inv (v := Sejong.view (I := I) sort s) h2 h
  unfold visPlotS at hp
  rw [if_neg (not_not.2 hacc), if_neg (by decide), if_neg (by decide), if_neg (by decide), if_neg (by decide), if_pos rfl] at hp
  simp only [plotBarsS, needStr_not hr hnn, Except.map] at hp
  cases hp

end Sejong

section Cases

/-- C127: the hypotheses of the theorem about Sejong Oh's method hold for the example; all names are numbers -/
example : ∃ s t, Sejong.fit (K := ℝ) exPerfEnv exSArgs 5 (Sejong.new 0 rmseM) = (.ok (), s) ∧ s.ovo = some t ∧
    ∀ (Ev : VisEnv (Fin 3) ℝ) (ps : List (Panel (Fin 3) Unit ℝ)),
      (Sejong.view (fun asc l => l) s).plotS (fun _ => false) Ev "heatmap" "default" {} [] ≠ .ok ps := by
  obtain ⟨sc, h⟩ := exPerfSetup 0
  obtain ⟨s, t, h1, h2, h3⟩ := C127_sejong_fails (I := Unit) (J := Nat) (isStr := fun _ => false) (f := 0) (g' := 1) h
    (sortsBy_stableSort _ _) 5 (by show (0 : Fin 3) ∈ [0, 1, 2]; simp) (by show (1 : Fin 3) ∈ [0, 1, 2]; simp) (by decide) rfl
    (sort := fun asc l => l) (fun _ l => List.Perm.refl l)
  exact ⟨s, t, h1, h2, fun Ev ps => (h3 Ev "default" {} []).1 ps⟩

/-- the kind of error -/
def errOf {α : Type} : Except Err α → Option Err
  | .error e => some e
  | .ok _ => none

/-- C127 on a table of three pairs, features 1 and 2 named by numbers: the heatmap is an AttributeError, the bar chart a TypeError, the
graph is drawn; with string names all are drawn -/
example : errOf ((exShow sejongName exRowsH (some exImpH) false false).plotS (fun f => f == 0) exVis "heatmap" "default" {} []) =
      some .attributeError ∧
    errOf ((exShow sejongName exRowsH (some exImpH) false false).plotS (fun f => f == 0) exVis "summary" "default" {} []) =
      some .attributeError ∧
    errOf ((exShow sejongName exRowsH (some exImpH) false false).plotS (fun f => f == 0) exVis "bar_chart" "default" {} []) =
      some .typeError ∧
    errOf ((exShow sejongName exRowsH (some exImpH) false false).plotS (fun f => f == 0) exVis "graph" "default" {} []) = none ∧
    errOf ((exShow sejongName exRowsH (some exImpH) false false).plotS (fun _ => true) exVis "heatmap" "default" {} []) = none ∧
    errOf ((exShow sejongName exRowsH (some exImpH) false false).plotS (fun _ => true) exVis "summary" "default" {} []) = none ∧
    errOf ((exShow sejongName exRowsH (some exImpH) false false).plotS (fun _ => true) exVis "bar_chart" "default" {} []) = none := by
  decide +kernel

end Cases
end Artemis
