import Verif.Props.Heatmap

/-!
# C64, C73-C76, C79: bar charts, the summary, titles, the lollipop plot
-/

set_option linter.unusedSectionVars false
set_option linter.unusedVariables false
set_option linter.unusedSimpArgs false

namespace Artemis
open Spec

section Plots
variable {F I K : Type} [LinearOrder F] [Field K] [LinearOrder K]

/-! ## C73 -/

/-- The names of visualizations in the documentation of `plot`: `_method.py:91` (Greenwell, Sejong Oh),
`_friedman_h_statistic.py:129`, `_conditional_minimal_depth.py:104`, `_split_score.py:120`. -/
def documented (name : String) : List String :=
  if name = hStatName then ["heatmap", "bar_chart", "graph", "bar_chart_ova", "summary"]
  else if name = cmdName then ["heatmap", "bar_chart", "graph", "bar_chart_conditional", "summary"]
  else if name = splitScoreName then ["heatmap", "bar_chart", "graph", "lolliplot", "summary"]
  else ["heatmap", "bar_chart", "graph", "summary"]

/-- **C73, partial** Every documented name is accepted by every fitted method except split score.
Missing: the name documented for the lollipop plot of split score, see `C73_fails`. -/
theorem C73_documented_accepted_partial {v : View F I K} (h : Ready v) (hn : v.name ∈ methodNames) (hss : v.name ≠ splitScoreName)
    {visType : String} (hd : visType ∈ documented v.name) (E : VisEnv F K) (title : String) (o : Opts K) (sub : SubOpts K) :
    v.plot E visType title o sub ≠ .error .visualizationNotSupported := by
  rw [Ne, C53_rejects_exactly h hn, not_not]
  unfold documented at hd
  unfold HasPlot
  split at hd
  · next e => simp only [List.mem_cons, List.not_mem_nil, or_false] at hd; tauto
  · split at hd
    · next e => simp only [List.mem_cons, List.not_mem_nil, or_false] at hd; tauto
    · simp only [List.mem_cons, List.not_mem_nil, or_false] at hd; tauto

/-- **C73 fails** for split score: the documented name `lolliplot` is rejected by every fitted object; the other documented
names and the undocumented `lollipop` are accepted. -/
theorem C73_fails {v : View F I K} (h : Ready v) (hss : v.name = splitScoreName) (E : VisEnv F K) (title : String) (o : Opts K)
    (sub : SubOpts K) :
    "lolliplot" ∈ documented v.name ∧ v.plot E "lolliplot" title o sub = .error .visualizationNotSupported ∧
    ∀ visType, visType ∈ documented v.name → visType ≠ "lolliplot" → v.plot E visType title o sub ≠ .error .visualizationNotSupported := by
  have hn : v.name ∈ methodNames := by rw [hss]; decide
  refine ⟨by rw [hss]; decide, ?_, ?_⟩
  · rw [C53_rejects_exactly h hn, hss]
    unfold HasPlot
    decide
  · intro t ht hne
    rw [Ne, C53_rejects_exactly h hn, not_not]
    have hdoc : documented v.name = ["heatmap", "bar_chart", "graph", "lolliplot", "summary"] := by rw [hss]; decide
    rw [hdoc] at ht
    simp only [List.mem_cons, List.not_mem_nil, or_false] at ht
    unfold HasPlot
    tauto

/-! ## C74, C79 -/

/-- the four plots every method has are accepted -/
theorem base_accepted {name : String} {cfg : VisConfig K} (h : configGet name = .ok cfg) {t : String}
    (ht : t = "heatmap" ∨ t = "bar_chart" ∨ t = "graph" ∨ t = "summary") : t ∈ cfg.accepted := by
  have hn : name ∈ methodNames := by
    by_contra hn
    rw [(C53_unknown_method name).1.2 hn] at h
    cases h
  obtain ⟨cfg', hc', hacc⟩ := (C53_unknown_method (K := K) name).2 hn
  rw [h] at hc'; cases hc'
  rw [hacc]
  unfold HasPlot
  tauto

/-- what a summary consists of -/
theorem summary_inv {v : View F I K} {E : VisEnv F K} {title : String} {o : Opts K} {sub : SubOpts K} {ps : List (Panel F I K)}
    (h : v.plot E "summary" title o sub = .ok ps) :
    ∃ ovo ia cfg ph pg, v.ovo = some ovo ∧ v.impAsc = some ia ∧ configGet v.name = .ok cfg ∧
      plotHeatmap E ovo v.imp "default" v.asc false v.directed = .ok ph ∧
      plotGraph E cfg.graph ovo v.imp "default" false v.directed (SubOpts.pop sub "graph") = .ok pg ∧
      ps = [ph, pg, plotBars ovo "default" (SubOpts.pop sub "bar_chart_ovo")] ++
        (v.ova.toList.map (fun t => Panel.barsOva "Interaction with all other features"
          (pyHead ((SubOpts.pop sub "bar_chart_ova").topK.getD 10) t))) ++ [.caption (pickTitle title (v.name ++ " summary"))] := by
  obtain ⟨ovo, ia, cfg, ho, hi, hc, hacc, hp⟩ := view_plot_inv h
  unfold visPlot at hp
  rw [if_neg (not_not.2 hacc), if_pos rfl] at hp
  unfold plotSummary at hp
  simp only [] at hp
  split at hp
  · cases hp
  · next ph hph =>
    split at hp
    · cases hp
    · next pg hpg =>
      refine ⟨ovo, ia, cfg, ph, pg, ho, hi, hc, hph, hpg, ?_⟩
      split at hp
      · next hov => cases hp; simp [hov]
      · next t hov =>
        simp only [plotBarsOva] at hp
        cases hp
        simp [hov, pickTitle]

/-- **C74, partial** For methods where larger is stronger, for interactions and for importance, a summary consists of the
heatmap, the graph and the bar chart that `plot` draws separately with the options given for them, a one-vs-all chart if
there is a table for it (for the H-statistic the one drawn separately), and the title.
Missing: conditional minimal depth, see `C74_cmd_summary_graph`, `C74_cmd_summary_heatmap` and `C74_fails`. -/
theorem C74_summary_partial {v : View F I K} (hready : Ready v) (hasc : v.asc = false) (hia : v.impAsc = some false) {E : VisEnv F K}
    {title : String} {o : Opts K} {sub : SubOpts K} {ps : List (Panel F I K)} (h : v.plot E "summary" title o sub = .ok ps) :
    ∃ ph pg pb, v.plot E "heatmap" "default" {} [] = .ok [ph] ∧ v.plot E "graph" "default" (SubOpts.pop sub "graph") [] = .ok [pg] ∧
      v.plot E "bar_chart" "default" (SubOpts.pop sub "bar_chart_ovo") [] = .ok [pb] ∧
      (v.ova = none → ps = [ph, pg, pb, .caption (pickTitle title (v.name ++ " summary"))]) ∧
      (v.ova.isSome = true → ∃ po, ps = [ph, pg, pb, po, .caption (pickTitle title (v.name ++ " summary"))] ∧
        (v.name = hStatName → v.plot E "bar_chart_ova" "default" (SubOpts.pop sub "bar_chart_ova") [] = .ok [po])) := by
  obtain ⟨ovo, ia, cfg, ph, pg, ho, hi, hc, hph, hpg, rfl⟩ := summary_inv h
  obtain ⟨ovo', ia', ho', hi', hp⟩ := plot_of_ready hready hc
  rw [ho] at ho'; cases ho'
  rw [hi] at hi'; cases hi'
  rw [hi] at hia; cases hia
  refine ⟨ph, pg, plotBars ovo "default" (SubOpts.pop sub "bar_chart_ovo"), ?_, ?_, ?_, ?_, ?_⟩
  · rw [hp]
    unfold visPlot
    rw [if_neg (not_not.2 (base_accepted hc (by simp))), if_neg (by decide), if_neg (by decide), if_neg (by decide), if_pos rfl]
    simp only [hph]
    rfl
  · rw [hp]
    unfold visPlot
    rw [if_neg (not_not.2 (base_accepted hc (by simp))), if_neg (by decide), if_pos rfl]
    simp only [hasc, hpg]
    rfl
  · rw [hp]
    unfold visPlot
    rw [if_neg (not_not.2 (base_accepted hc (by simp))), if_neg (by decide), if_neg (by decide), if_neg (by decide), if_neg (by decide),
      if_pos rfl]
  · intro hov; rw [hov]; rfl
  · intro hov
    obtain ⟨t, ht⟩ := Option.isSome_iff_exists.1 hov
    refine ⟨_, by rw [ht]; rfl, ?_⟩
    intro hn
    rw [hp]
    unfold visPlot
    have hacc : "bar_chart_ova" ∈ cfg.accepted := by
      obtain ⟨cfg', hc', hacc⟩ := (C53_unknown_method (K := K) v.name).2 (by rw [hn]; decide)
      rw [hc] at hc'; cases hc'
      rw [hacc]
      unfold HasPlot
      simp [hn]
    rw [if_neg (not_not.2 hacc), if_neg (by decide), if_neg (by decide), if_pos rfl, ht]
    rfl

/-- **C74 fails** for conditional minimal depth, graph: the summary draws the graph of an object for which larger is
stronger. Together with `C54_widths_partial` (for that object): the weakest pair gets the widest edge. -/
theorem C74_cmd_summary_graph {v : View F I K} (hready : Ready v) {E : VisEnv F K} {title : String} {o : Opts K} {sub : SubOpts K}
    {ps : List (Panel F I K)} (h : v.plot E "summary" title o sub = .ok ps) :
    ∃ ph pg pb rest, ps = ph :: pg :: pb :: rest ∧
      ({ v with asc := false } : View F I K).plot E "graph" "default" (SubOpts.pop sub "graph") [] = .ok [pg] := by
  obtain ⟨ovo, ia, cfg, ph, pg, ho, hi, hc, hph, hpg, rfl⟩ := summary_inv h
  have hready' : Ready ({ v with asc := false } : View F I K) := hready
  obtain ⟨ovo', ia', ho', hi', hp⟩ := plot_of_ready hready' hc
  simp only [ho, Option.some.injEq] at ho'
  subst ho'
  refine ⟨ph, pg, plotBars ovo "default" (SubOpts.pop sub "bar_chart_ovo"), _, rfl, ?_⟩
  rw [hp]
  unfold visPlot
  rw [if_neg (not_not.2 (base_accepted hc (by simp))), if_neg (by decide), if_pos rfl]
  simp only [hpg]
  rfl

/-- **C74**, heatmap: the summary shows the same matrix as the separate heatmap, but always with the colours for "larger
importance values are more important". -/
theorem C74_cmd_summary_heatmap {v : View F I K} (hready : Ready v) {E : VisEnv F K} {title : String} {o : Opts K} {sub : SubOpts K}
    {ps : List (Panel F I K)} (h : v.plot E "summary" title o sub = .ok ps) :
    ∃ ti m rest, ps = .heatmap ti false v.asc m :: rest ∧ ∀ ia, v.impAsc = some ia →
      v.plot E "heatmap" "default" {} [] = .ok [.heatmap ti ia v.asc m] := by
  obtain ⟨ovo, ia, cfg, ph, pg, ho, hi, hc, hph, hpg, rfl⟩ := summary_inv h
  obtain ⟨ovo', ia', ho', hi', hp⟩ := plot_of_ready hready hc
  rw [ho] at ho'; cases ho'
  rw [hi] at hi'; cases hi'
  unfold plotHeatmap at hph
  cases hr : heatmapRows v.directed ovo v.imp with
  | error e => rw [hr] at hph; cases hph
  | ok rows =>
    rw [hr] at hph
    simp only [] at hph
    cases hm : orderHeatmap E (pivotFirst rows) v.asc with
    | error e => rw [hm] at hph; cases hph
    | ok m =>
      rw [hm] at hph
      cases hph
      refine ⟨_, m, _, rfl, ?_⟩
      intro ia'' e
      rw [hi] at e; cases e
      rw [hp]
      unfold visPlot
      rw [if_neg (not_not.2 (base_accepted hc (by simp))), if_neg (by decide), if_neg (by decide), if_neg (by decide), if_pos rfl]
      unfold plotHeatmap
      simp only [hr, hm]
      rfl

/-- **C79, partial** The options given for the graph and the one-vs-all chart of a summary under their names are used, and no
others.
Missing: the options of the bar chart are not looked up under its name, see `C79_bar_chart_ignored`. -/
theorem C79_options_partial {v : View F I K} (hready : Ready v) (hasc : v.asc = false) (hia : v.impAsc = some false)
    (hn : v.name = hStatName) {E : VisEnv F K} {title : String} {o : Opts K} {sub : SubOpts K} {ps : List (Panel F I K)}
    (h : v.plot E "summary" title o sub = .ok ps) {og oo : Opts K} (hg : Dict.get? sub "graph" = some og)
    (hoo : Dict.get? sub "bar_chart_ova" = some oo) (hov : v.ova.isSome = true) :
    ∃ ph pg pb po c, ps = [ph, pg, pb, po, c] ∧ v.plot E "graph" "default" og [] = .ok [pg] ∧
      v.plot E "bar_chart_ova" "default" oo [] = .ok [po] := by
  obtain ⟨ph, pg, pb, _, h2, _, _, h5⟩ := C74_summary_partial hready hasc hia h
  obtain ⟨po, rfl, h6⟩ := h5 hov
  refine ⟨ph, pg, pb, po, _, rfl, ?_, ?_⟩
  · rw [← h2]; simp [SubOpts.pop, hg]
  · rw [← h6 hn]; simp [SubOpts.pop, hoo]

/-- **C79 fails** for the bar chart: options given under its visualization name `bar_chart` are never looked at. -/
theorem C79_bar_chart_ignored (v : View F I K) (E : VisEnv F K) (title : String) (o : Opts K) (sub : SubOpts K) (ob : Opts K) :
    v.plot E "summary" title o (Dict.set sub "bar_chart" ob) = v.plot E "summary" title o sub := by
  have hpop : ∀ name : String, name ≠ "bar_chart" → SubOpts.pop (Dict.set sub "bar_chart" ob) name = SubOpts.pop sub name := by
    intro name hne
    unfold SubOpts.pop
    rw [Dict.get?_set, if_neg hne]
  unfold View.plot visPlot plotSummary
  simp only [hpop "graph" (by decide), hpop "bar_chart_ovo" (by decide), hpop "bar_chart_ova" (by decide)]

/-! ## C75 -/

/-- the titles on a figure -/
def Panel.title : Panel F I K → String
  | .heatmap t _ _ _ => t
  | .graph t _ _ _ _ => t
  | .bars t _ => t
  | .barsOva t _ => t
  | .lollipop t _ _ _ _ => t
  | .conditional t _ => t
  | .caption t => t

/-- **C75, partial** A title other than `"default"` appears on the figure, for all plots but the one-vs-all chart; all plots
but the summary have no other title.
Missing: the one-vs-all chart, see `C75_fails`. -/
theorem C75_title_partial {v : View F I K} {E : VisEnv F K} {visType title : String} {o : Opts K} {sub : SubOpts K}
    {ps : List (Panel F I K)} (h : v.plot E visType title o sub = .ok ps) (ht : title ≠ "default") (hv : visType ≠ "bar_chart_ova") :
    (∃ p ∈ ps, p.title = title) ∧ (visType ≠ "summary" → ∀ p ∈ ps, p.title = title) := by
  have key : visType ≠ "summary" → ∃ p, ps = [p] ∧ p.title = title := by
    intro hs
    obtain ⟨ovo, ia, cfg, _, _, hc, hacc, hp⟩ := view_plot_inv h
    have hn : v.name ∈ methodNames := by
      by_contra hn
      rw [(C53_unknown_method v.name).1.2 hn] at hc
      cases hc
    have hmap : ∀ {r : Except Err (Panel F I K)} {ps}, r.map (fun p => [p]) = .ok ps → ∃ p, r = .ok p ∧ ps = [p] := by
      intro r ps hr
      cases r with
      | error e => cases hr
      | ok p => cases hr; exact ⟨p, rfl, rfl⟩
    have hpick : ∀ d, pickTitle title d = title := fun d => by unfold pickTitle; rw [if_neg ht]
    unfold visPlot at hp
    rw [if_neg (not_not.2 hacc), if_neg hs] at hp
    simp only [if_neg hv] at hp
    split at hp
    · obtain ⟨p, hq, rfl⟩ := hmap hp
      refine ⟨p, rfl, ?_⟩
      unfold plotGraph at hq
      simp only [] at hq
      split at hq
      · cases hq
      · cases hq; exact hpick _
    · first
      | split at hp
        · obtain ⟨p, hq, rfl⟩ := hmap hp
          refine ⟨p, rfl, ?_⟩
          unfold plotHeatmap at hq
          split at hq
          · cases hq
          · split at hq
            · cases hq
            · cases hq; exact hpick _
        · split at hp
          · cases hp; exact ⟨_, rfl, hpick _⟩
          · split at hp
            · obtain ⟨p, hq, rfl⟩ := hmap hp
              refine ⟨p, rfl, ?_⟩
              unfold plotLollipop at hq
              split at hq
              · cases hq
              · simp only [] at hq
                split at hq
                · cases hq
                · cases hq; exact hpick _
            · split at hp
              · obtain ⟨p, hq, rfl⟩ := hmap hp
                refine ⟨p, rfl, ?_⟩
                unfold plotConditional at hq
                split at hq
                · cases hq
                · cases hq; exact hpick _
              · have := (C53_one_routine hn h).1
                unfold HasPlot at this
                tauto
  constructor
  · by_cases hs : visType = "summary"
    · subst hs
      obtain ⟨ovo, ia, cfg, ph, pg, _, _, _, _, _, rfl⟩ := summary_inv h
      refine ⟨.caption (pickTitle title (v.name ++ " summary")), by simp, ?_⟩
      simp [Panel.title, pickTitle, ht]
    · obtain ⟨p, rfl, hp⟩ := key hs
      exact ⟨p, List.mem_singleton.2 rfl, hp⟩
  · intro hs p hp
    obtain ⟨p', rfl, hp'⟩ := key hs
    rw [List.mem_singleton] at hp
    rw [hp]; exact hp'

/-- **C75 fails** for the one-vs-all chart: the title given is never used. -/
theorem C75_fails {v : View F I K} {E : VisEnv F K} {title : String} {o : Opts K} {sub : SubOpts K}
    {ps : List (Panel F I K)} (h : v.plot E "bar_chart_ova" title o sub = .ok ps) :
    ∃ p, ps = [p] ∧ p.title = "Interaction with all other features" := by
  obtain ⟨ovo, ia, cfg, _, _, hc, hacc, hp⟩ := view_plot_inv h
  unfold visPlot at hp
  rw [if_neg (not_not.2 hacc), if_neg (by decide), if_neg (by decide), if_pos rfl] at hp
  simp only [plotBarsOva] at hp
  split at hp
  · cases hp
  · cases hp; exact ⟨_, rfl, rfl⟩

/-! ## C76 -/

/-- **C76, partial** The bar chart: the first `k` rows of the table (all of them if there are fewer); if the table is sorted
by strength, as after a fit of a method other than conditional minimal depth, they are drawn in the order of strength and no
row left out is stronger than one drawn. Pairs are different if the table lists a pair once.
Missing: conditional minimal depth sorts by the number of occurrences first, see `C76_cmd_fails`. -/
theorem C76_strongest_partial {v : View F I K} {E : VisEnv F K} {title : String} {o : Opts K} {sub : SubOpts K}
    {ps : List (Panel F I K)} (h : v.plot E "bar_chart" title o sub = .ok ps) {ovo : List (OvoRow F K)} (ho : v.ovo = some ovo)
    (hs : ovo.Pairwise (fun r q => Num.keyLE v.asc r.val q.val = true)) {k : Nat} (hk : (k : Int) = o.topK.getD 10) :
    ∃ ti shown rest, ps = [.bars ti shown] ∧ ovo = shown ++ rest ∧ shown.length = min k ovo.length ∧
      shown.Pairwise (fun r q => Num.keyLE v.asc r.val q.val = true) ∧
      (∀ r ∈ shown, ∀ q ∈ rest, Num.keyLE v.asc r.val q.val = true) ∧ (OncePerPair ovo → OncePerPair shown) := by
  obtain ⟨ovo', ia, cfg, ho', _, hc, hacc, hp⟩ := view_plot_inv h
  rw [ho] at ho'; cases ho'
  unfold visPlot at hp
  rw [if_neg (not_not.2 hacc), if_neg (by decide), if_neg (by decide), if_neg (by decide), if_neg (by decide), if_pos rfl] at hp
  cases hp
  simp only [plotBars]
  rw [← hk]
  have he : pyHead (k : Int) ovo = ovo.take k := by unfold pyHead; rw [if_pos (by omega)]; rfl
  rw [he]
  have hs' := hs
  rw [← List.take_append_drop k ovo, List.pairwise_append] at hs'
  exact ⟨_, _, ovo.drop k, rfl, (List.take_append_drop k ovo).symm, by rw [List.length_take], hs'.1, hs'.2.2,
    fun h => h.sublist (List.take_sublist k ovo)⟩

/-- **C76**, one-vs-all chart: the first `k` rows of the one-vs-all table, likewise. -/
theorem C76_ova {v : View F I K} {E : VisEnv F K} {title : String} {o : Opts K} {sub : SubOpts K}
    {ps : List (Panel F I K)} (h : v.plot E "bar_chart_ova" title o sub = .ok ps) {k : Nat} (hk : (k : Int) = o.topK.getD 10) :
    ∃ ova, v.ova = some ova ∧ (ova.Pairwise (fun r q => Num.keyLE false r.val q.val = true) →
      ∃ ti shown rest, ps = [.barsOva ti shown] ∧ ova = shown ++ rest ∧ shown.length = min k ova.length ∧
        shown.Pairwise (fun r q => Num.keyLE false r.val q.val = true) ∧
        (∀ r ∈ shown, ∀ q ∈ rest, Num.keyLE false r.val q.val = true)) := by
  obtain ⟨ovo, ia, cfg, _, _, hc, hacc, hp⟩ := view_plot_inv h
  unfold visPlot at hp
  rw [if_neg (not_not.2 hacc), if_neg (by decide), if_neg (by decide), if_pos rfl] at hp
  simp only [plotBarsOva] at hp
  split at hp
  · cases hp
  · next ova hov =>
    cases hp
    refine ⟨ova, hov, fun hs => ?_⟩
    rw [← hk]
    have he : pyHead (k : Int) ova = ova.take k := by unfold pyHead; rw [if_pos (by omega)]; rfl
    rw [he]
    have hs' := hs
    rw [← List.take_append_drop k ova, List.pairwise_append] at hs'
    exact ⟨_, _, ova.drop k, rfl, (List.take_append_drop k ova).symm, by rw [List.length_take], hs'.1, hs'.2.2⟩

/-! ## C86 -/

/-- **C86 (table).** The conditional bar chart shows the first `top_k` rows (15 by default) in the order of the table; the marker of a row
is the importance of its second feature, NaN if the importance table does not list it. -/
theorem C86_conditional {v : View F I K} {E : VisEnv F K} {title : String} {o : Opts K} {sub : SubOpts K}
    {ps : List (Panel F I K)} (h : v.plot E "bar_chart_conditional" title o sub = .ok ps) {k : Nat} (hk : (k : Int) = o.topK.getD 15) :
    ∃ ovo imp ti shown rest, v.ovo = some ovo ∧ v.imp = some imp ∧ ps = [.conditional ti shown] ∧ ovo = shown.map Prod.fst ++ rest ∧
      shown.length = min k ovo.length ∧
      ∀ x ∈ shown, ((∀ q ∈ imp, q.f ≠ x.1.f2) → x.2 = .nan) ∧
        ((imp.map FeatRow.f).Nodup → ∀ q ∈ imp, q.f = x.1.f2 → x.2 = q.val) := by
  obtain ⟨ovo, ia, cfg, ho, _, hc, hacc, hp⟩ := view_plot_inv h
  unfold visPlot at hp
  rw [if_neg (not_not.2 hacc), if_neg (by decide), if_neg (by decide), if_neg (by decide), if_neg (by decide), if_neg (by decide),
    if_neg (by decide), if_pos rfl] at hp
  simp only [plotConditional] at hp
  split at hp
  · cases hp
  · next imp hi =>
    cases hp
    rw [← hk]
    have he : pyHead (k : Int) ovo = ovo.take k := by unfold pyHead; rw [if_pos (by omega)]; rfl
    rw [he]
    refine ⟨ovo, imp, _, _, ovo.drop k, ho, hi, rfl, ?_, by rw [List.length_map, List.length_take], ?_⟩
    · rw [List.map_map]
      show ovo = (ovo.take k).map id ++ _
      rw [List.map_id, List.take_append_drop]
    · intro x hx
      obtain ⟨r, hr, rfl⟩ := List.mem_map.1 hx
      constructor
      · intro hne
        have : imp.find? (fun q => decide (q.f = r.f2)) = none := by
          rw [List.find?_eq_none]
          intro q hq
          simpa using hne q hq
        simp only [this, Option.map_none, Option.getD_none]
      · intro nd q hq hqf
        cases hfd : imp.find? (fun q => decide (q.f = r.f2)) with
        | none =>
          rw [List.find?_eq_none] at hfd
          exact absurd hqf (by simpa using hfd q hq)
        | some q' =>
          have h1 := List.mem_of_find?_eq_some hfd
          have h2 : q'.f = r.f2 := by simpa using List.find?_some hfd
          have : q' = q := List.inj_on_of_nodup_map nd h1 hq (h2.trans hqf.symm)
          simp only [hfd, Option.map_some, Option.getD_some, this]

end Plots

/-! ## C64 -/

section Lollipop
variable {F I K : Type} [LinearOrder F] [Field K] [LinearOrder K] [IsStrictOrderedRing K]

theorem firstTrees_mem {q : K} {rows : List (StatRow F I K)} {r : StatRow F I K} :
    r ∈ firstTrees q rows ↔ r ∈ rows ∧ ∃ M, (∃ s ∈ rows, s.row.tree = M) ∧ (∀ s ∈ rows, s.row.tree ≤ M) ∧ (r.row.tree : K) < q * (M : K) := by
  unfold firstTrees
  cases hm : (rows.map (fun r => r.row.tree)).max? with
  | none =>
    rw [List.max?_eq_none_iff, List.map_eq_nil_iff] at hm
    subst hm
    simp
  | some M =>
    rw [List.max?_eq_some_iff] at hm
    obtain ⟨h1, h2⟩ := hm
    obtain ⟨s, hs, e⟩ := List.mem_map.1 h1
    show r ∈ rows.filter (fun r => decide ((r.row.tree : K) < q * (M : K))) ↔ _
    rw [List.mem_filter, decide_eq_true_iff]
    refine and_congr_right fun hr => ⟨fun h => ⟨M, ⟨s, hs, e⟩, fun t ht => h2 _ (List.mem_map.2 ⟨t, ht, rfl⟩), h⟩, ?_⟩
    rintro ⟨M', ⟨s', hs', rfl⟩, hle, hlt⟩
    have : s'.row.tree = M := le_antisymm (h2 _ (List.mem_map.2 ⟨s', hs', rfl⟩)) (by rw [← e]; exact hle s hs)
    rw [← this]; exact hlt

/-- what the lollipop plot shows -/
theorem lolli_inv {v : View F I K} {E : VisEnv F K} {title : String} {o : Opts K} {sub : SubOpts K} {ps : List (Panel F I K)}
    (h : v.plot E "lollipop" title o sub = .ok ps) :
    ∃ full, v.full = some full ∧ ¬ 5 < o.maxDepth.getD 1 ∧ ∃ ti roots nodes nl rl, ps = [.lollipop ti roots
      ((List.range (o.maxDepth.getD 1).toNat).map (fun (i : Nat) => nodes.filter (fun r => decide (r.row.depth = some ((i : Int) + 1))))) nl rl] ∧
      roots = firstTrees (o.maxTrees.getD (20 / 100)) (full.filter (fun r => decide (r.row.depth = some 0))) ∧
      nodes = firstTrees (o.maxTrees.getD (20 / 100)) (lollipopNodes (o.maxDepth.getD 1) full) ∧
      nl = (if o.labels.getD true then nodes.filter (fun r => r.interaction == some true) else []) ∧
      rl = (if o.labels.getD true then roots.filter (fun r => match r.row.gain with
          | some g => Num.le (Num.mul (.fin (o.labelThreshold.getD (10 / 100))) (maxSkip (roots.filterMap (fun r => r.row.gain.map Num.fin)))) (.fin g)
          | none => false) else []) := by
  obtain ⟨ovo, ia, cfg, _, _, hc, hacc, hp⟩ := view_plot_inv h
  unfold visPlot at hp
  rw [if_neg (not_not.2 hacc), if_neg (by decide), if_neg (by decide), if_neg (by decide), if_neg (by decide), if_neg (by decide),
    if_pos rfl] at hp
  unfold plotLollipop at hp
  simp only [] at hp
  split at hp
  · cases hp
  · next full hf =>
    split at hp
    · cases hp
    · next hd =>
      cases hp
      exact ⟨full, hf, hd, _, _, _, _, _, rfl, rfl, rfl, rfl, rfl⟩

/-- an inner node of the model that lies at depth 1 to `d` -/
def InnerNode (full : List (StatRow F I K)) (d : Int) (r : StatRow F I K) : Prop :=
  r ∈ full ∧ r.row.leaf = false ∧ ∃ k : Int, r.row.depth = some k ∧ 0 < k ∧ k ≤ d

theorem mem_lollipopNodes {full : List (StatRow F I K)} {d : Int} {r : StatRow F I K} :
    r ∈ lollipopNodes d full ↔ InnerNode full d r := by
  unfold lollipopNodes InnerNode
  rw [List.mem_filter, Bool.and_eq_true, Bool.not_eq_true']
  refine and_congr_right fun _ => and_congr_right fun _ => ?_
  cases hd : r.row.depth with
  | none => simp
  | some k => simp

/-- **C64, partial** The lollipop plot shows roots and inner nodes of trees of the model only, each at its depth, at most
`max_depth` deep; roots (nodes) of exactly the trees whose number is less than the fraction of the greatest number of a tree
with a root (with a node to be shown).
Missing: the number shown is not the requested fraction, see `C64_all_hides_last` and `C64_single_tree_empty`. -/
theorem C64_roots_partial {v : View F I K} {E : VisEnv F K} {title : String} {o : Opts K} {sub : SubOpts K} {ps : List (Panel F I K)}
    (h : v.plot E "lollipop" title o sub = .ok ps) :
    ∃ full ti roots nodes nl rl, v.full = some full ∧ ps = [.lollipop ti roots nodes nl rl] ∧
      (∀ r, r ∈ roots ↔ (r ∈ full ∧ r.row.depth = some 0) ∧ ∃ M, (∃ s ∈ full, s.row.depth = some 0 ∧ s.row.tree = M) ∧
        (∀ s ∈ full, s.row.depth = some 0 → s.row.tree ≤ M) ∧ (r.row.tree : K) < o.maxTrees.getD (20 / 100) * (M : K)) ∧
      (∀ (i : Nat) (l : List (StatRow F I K)), nodes[i]? = some l → ∀ r, r ∈ l ↔ (r ∈ full ∧ r.row.leaf = false ∧ r.row.depth = some ((i : Int) + 1)) ∧
        ∃ M, (∃ s, InnerNode full (o.maxDepth.getD 1) s ∧ s.row.tree = M) ∧ (∀ s, InnerNode full (o.maxDepth.getD 1) s → s.row.tree ≤ M) ∧
          (r.row.tree : K) < o.maxTrees.getD (20 / 100) * (M : K)) ∧
      (nodes.length : Int) = max 0 (o.maxDepth.getD 1) := by
  obtain ⟨full, hf, hd, ti, roots, nodes, nl, rl, rfl, rfl, rfl, _, _⟩ := lolli_inv h
  refine ⟨full, ti, _, _, nl, rl, hf, rfl, ?_, ?_, ?_⟩
  · intro r
    rw [firstTrees_mem]
    simp only [List.mem_filter, decide_eq_true_eq, and_imp, and_assoc]
  · intro i l hl r
    rw [List.getElem?_map, Option.map_eq_some_iff] at hl
    obtain ⟨j, hj, rfl⟩ := hl
    have hi : i < (o.maxDepth.getD 1).toNat := by
      by_contra hlt
      rw [List.getElem?_eq_none (by simpa using hlt)] at hj
      cases hj
    rw [List.getElem?_range hi] at hj
    cases hj
    rw [List.mem_filter, firstTrees_mem, decide_eq_true_iff]
    simp only [mem_lollipopNodes]
    constructor
    · rintro ⟨⟨⟨h1, h2, _⟩, M, ⟨s, hs, e⟩, h3⟩, h4⟩
      exact ⟨⟨h1, h2, h4⟩, M, ⟨s, hs, e⟩, h3⟩
    · rintro ⟨⟨h1, h2, h4⟩, M, ⟨s, hs, e⟩, h3⟩
      exact ⟨⟨⟨h1, h2, _, h4, by omega, by omega⟩, M, ⟨s, hs, e⟩, h3⟩, h4⟩
  · rw [List.length_map, List.length_range]
    omega

/-- **C87.** The labels of the lollipop plot: with `labels` (the default) exactly the nodes shown that are interactions, and exactly the
roots shown whose gain is at least the threshold times the greatest gain of a root shown; without `labels` none. -/
theorem C87_lollipop_labels {v : View F I K} {E : VisEnv F K} {title : String} {o : Opts K} {sub : SubOpts K} {ps : List (Panel F I K)}
    (h : v.plot E "lollipop" title o sub = .ok ps) :
    ∃ ti roots nodes nl rl, ps = [.lollipop ti roots nodes nl rl] ∧
      (o.labels.getD true = false → nl = [] ∧ rl = []) ∧
      (o.labels.getD true = true →
        (∀ r, r ∈ nl ↔ (∃ l ∈ nodes, r ∈ l) ∧ r.interaction = some true) ∧
        (∀ r, r ∈ rl ↔ r ∈ roots ∧ ∃ g, r.row.gain = some g ∧ ∃ M, (∃ s ∈ roots, s.row.gain = some M) ∧
          (∀ s ∈ roots, ∀ g', s.row.gain = some g' → g' ≤ M) ∧ o.labelThreshold.getD (10 / 100) * M ≤ g)) := by
  obtain ⟨full, hf, hd, ti, roots, nodes, nl, rl, rfl, hr, hn, hnl, hrl⟩ := lolli_inv h
  refine ⟨ti, roots, _, nl, rl, rfl, ?_, ?_⟩
  · intro e
    rw [e] at hnl hrl
    exact ⟨hnl, hrl⟩
  · intro e
    rw [e, if_pos rfl] at hnl hrl
    constructor
    · intro r
      rw [hnl, List.mem_filter]
      constructor
      · rintro ⟨h1, h2⟩
        refine ⟨?_, by simpa using h2⟩
        have h3 := h1
        rw [hn, firstTrees_mem, mem_lollipopNodes] at h3
        obtain ⟨⟨_, _, k, hk, k0, k1⟩, _⟩ := h3
        refine ⟨_, List.mem_map.2 ⟨(k - 1).toNat, List.mem_range.2 (by omega), rfl⟩, ?_⟩
        rw [List.mem_filter, decide_eq_true_iff, hk]
        refine ⟨h1, ?_⟩
        congr 1
        omega
      · rintro ⟨⟨l, hl, hrl⟩, h2⟩
        obtain ⟨i, _, rfl⟩ := List.mem_map.1 hl
        exact ⟨(List.mem_filter.1 hrl).1, by simpa using h2⟩
    · intro r
      rw [hrl, List.mem_filter]
      refine and_congr_right fun hroot => ?_
      cases hg : r.row.gain with
      | none => simp
      | some g =>
        simp only [Option.some.injEq, exists_eq_left']
        have hgs : roots.filterMap (fun r => r.row.gain.map (Num.fin (K := K))) = (roots.filterMap (fun r => r.row.gain)).map Num.fin := by
          rw [List.map_filterMap]
        have hmem : g ∈ roots.filterMap (fun r => r.row.gain) := List.mem_filterMap.2 ⟨r, hroot, hg⟩
        obtain ⟨M, hM, e1, e2⟩ := maxSkip_fin (roots.filterMap (fun r => r.row.gain)) (fun x => x) (List.ne_nil_of_mem hmem)
        rw [hgs]
        have e1 : maxSkip ((roots.filterMap (fun r => r.row.gain)).map Num.fin) = Num.fin M := e1
        rw [e1]
        have hle : Num.le (Num.mul (.fin (o.labelThreshold.getD (10 / 100))) (.fin M)) (.fin g) =
          decide (o.labelThreshold.getD (10 / 100) * M ≤ g) := rfl
        rw [hle, decide_eq_true_iff]
        have hmax : ∀ s ∈ roots, ∀ g', s.row.gain = some g' → g' ≤ M := fun s hs g' hg' => e2 g' (List.mem_filterMap.2 ⟨s, hs, hg'⟩)
        constructor
        · intro hl
          obtain ⟨s, hs, hsM⟩ := List.mem_filterMap.1 hM
          exact ⟨M, ⟨s, hs, hsM⟩, hmax, hl⟩
        · rintro ⟨M', ⟨s, hs, hsM⟩, hmax', hl⟩
          obtain ⟨t, ht, htM⟩ := List.mem_filterMap.1 hM
          have : M' = M := le_antisymm (hmax s hs M' hsM) (hmax' t ht M htM)
          rw [← this]; exact hl

/-- **C64 fails**, `max_trees = 1` should show all trees: the root of the last tree is never shown. -/
theorem C64_all_hides_last {v : View F I K} {E : VisEnv F K} {title : String} {o : Opts K} {sub : SubOpts K} {ps : List (Panel F I K)}
    (h : v.plot E "lollipop" title o sub = .ok ps) (hq : o.maxTrees = some 1) {full : List (StatRow F I K)} (hf : v.full = some full)
    {r : StatRow F I K} (hr : r ∈ full) (h0 : r.row.depth = some 0) (hlast : ∀ s ∈ full, s.row.depth = some 0 → s.row.tree ≤ r.row.tree) :
    ∃ ti roots nodes nl rl, ps = [.lollipop ti roots nodes nl rl] ∧ r ∉ roots ∧
      ∀ s ∈ full, s.row.depth = some 0 → s.row.tree < r.row.tree → s ∈ roots := by
  obtain ⟨full', ti, roots, nodes, nl, rl, hf', rfl, h1, _⟩ := C64_roots_partial h
  rw [hf] at hf'; cases hf'
  refine ⟨ti, roots, nodes, nl, rl, rfl, ?_, ?_⟩
  · rw [h1]
    rintro ⟨_, M, ⟨s, hs, hs0, rfl⟩, hle, hlt⟩
    rw [hq, Option.getD_some, one_mul, Nat.cast_lt] at hlt
    exact absurd (hlast s hs hs0) (not_le.2 hlt)
  · intro s hs hs0 hlt
    rw [h1]
    refine ⟨⟨hs, hs0⟩, r.row.tree, ⟨r, hr, h0, rfl⟩, hlast, ?_⟩
    rw [hq, Option.getD_some, one_mul, Nat.cast_lt]
    exact hlt

/-- **C64 fails** for a model of a single tree (number 0): nothing is shown, whatever the fraction. -/
theorem C64_single_tree_empty {v : View F I K} {E : VisEnv F K} {title : String} {o : Opts K} {sub : SubOpts K} {ps : List (Panel F I K)}
    (h : v.plot E "lollipop" title o sub = .ok ps) {full : List (StatRow F I K)} (hf : v.full = some full)
    (hone : ∀ s ∈ full, s.row.tree = 0) :
    ∃ ti roots nodes nl rl, ps = [.lollipop ti roots nodes nl rl] ∧ roots = [] := by
  obtain ⟨full', ti, roots, nodes, nl, rl, hf', rfl, h1, _⟩ := C64_roots_partial h
  rw [hf] at hf'; cases hf'
  refine ⟨ti, roots, nodes, nl, rl, rfl, ?_⟩
  rw [List.eq_nil_iff_forall_not_mem]
  intro r hr
  obtain ⟨⟨hr1, _⟩, M, ⟨s, hs, _, rfl⟩, _, hlt⟩ := (h1 r).1 hr
  rw [hone s hs, hone r hr1] at hlt
  simp at hlt

end Lollipop

/-! ## Cases -/

section Cases

/-- the edges of the graph and the reversal of the colours of importance in a summary -/
def summaryOf {F I : Type} (r : Except Err (List (Panel F I ℚ))) : Option (Bool × Dict (F × F) (Num ℚ)) :=
  match r with
  | .ok (.heatmap _ a _ _ :: .graph _ _ edges _ _ :: _) => some (a, edges)
  | _ => none

/-- a table of conditional minimal depths -/
def exRowsC : List (OvoRow (Fin 4) ℚ) := [⟨0, 1, .fin (1 / 10)⟩, ⟨1, 0, .fin (2 / 10)⟩, ⟨2, 0, .fin (4 / 10)⟩, ⟨0, 2, .fin 1⟩]

/-- **C74 fails** for conditional minimal depth, where 1/10 is the strongest value of the table and 1 the weakest: in the
separate graph the strongest pair has the widest edge and the weakest one is removed, in the summary only the weakest one is
left, with the maximal width. The colours of importance are reversed in one and not in the other. -/
theorem C74_fails :
    edgesOf ((exShow cmdName exRowsC (some exImpH) true true).plot exVis "graph" "default" {} []) =
      some [((0, 1), .fin (9 / 4)), ((1, 0), .fin (3 / 2)), ((2, 0), .fin 0), ((0, 2), .fin 0)] ∧
    summaryOf ((exShow cmdName exRowsC (some exImpH) true true).plot exVis "summary" "default" {} []) =
      some (false, [((0, 1), .fin 0), ((1, 0), .fin 0), ((2, 0), .fin 0), ((0, 2), .fin 3)]) ∧
    (exShow cmdName exRowsC (some exImpH) true true).impAsc = some true := by
  refine ⟨?_, ?_, rfl⟩ <;> decide +kernel

/-- C74 where it holds -/
example : ∃ ph pg pb, (exShow greenwellName exRowsH (some exImpH) false false).plot exVis "summary" "T" {} [] =
    .ok [ph, pg, pb, .caption "T"] ∧
    (exShow greenwellName exRowsH (some exImpH) false false).plot exVis "graph" "default" {} [] = .ok [pg] := by
  have hs : (summaryOf ((exShow greenwellName exRowsH (some exImpH) false false).plot exVis "summary" "T" {} [])).isSome = true := by
    decide +kernel
  cases hr : (exShow greenwellName exRowsH (some exImpH) false false).plot exVis "summary" "T" {} [] with
  | error e => rw [hr] at hs; cases hs
  | ok ps =>
    obtain ⟨ph, pg, pb, _, h2, _, h4, _⟩ := C74_summary_partial (v := exShow greenwellName exRowsH (some exImpH) false false)
      ⟨rfl, rfl, by intro e; cases e⟩ rfl rfl hr
    have := h4 rfl
    refine ⟨ph, pg, pb, ?_, h2⟩
    rw [this]
    simp [pickTitle]

/-- bars of a chart -/
def barsOf {F I : Type} (r : Except Err (List (Panel F I ℚ))) : Option (List (OvoRow F ℚ)) :=
  match r with
  | .ok [.bars _ rows] => some rows
  | _ => none

/-- C76: the two strongest of three -/
example : barsOf ((exShow greenwellName exRowsH (some exImpH) false false).plot exVis "bar_chart" "default" { topK := some 2 } []) =
    some [⟨0, 1, .fin (8 / 10)⟩, ⟨0, 2, .fin (5 / 10)⟩] := by decide +kernel

example : exRowsH.Pairwise (fun r q => Num.keyLE false r.val q.val = true) := by decide +kernel

/-- features "a", "b", "c": a tree splitting on a, then b, then c, and a tree splitting on a, then c -/
def exChains : Forest (List Nat) := ⟨[[97], [98], [99]],
  [[⟨1, 2, 0⟩, ⟨-1, -1, -2⟩, ⟨3, 4, 1⟩, ⟨-1, -1, -2⟩, ⟨5, 6, 2⟩, ⟨-1, -1, -2⟩, ⟨-1, -1, -2⟩],
   [⟨1, 2, 0⟩, ⟨-1, -1, -2⟩, ⟨3, 4, 2⟩, ⟨-1, -1, -2⟩, ⟨-1, -1, -2⟩]]⟩

/-- a visualizer for the names of the forest examples -/
def exVisList : VisEnv (List Nat) ℚ where
  lower := id
  sortIdx := stableSort
  sortDesc := stableSort OvoRow.val false

/-- **C76 fails** for conditional minimal depth: with `top_k = 1` the chart shows the pair (a, c) with depth 1/2, although
(a, b) has depth 0. -/
theorem C76_cmd_fails : (CmdMethod.fit (exCmdEnv ℚ) exChains CmdMethod.new).1 = .ok () ∧
    barsOf ((CmdMethod.view (I := Nat) (exCmdEnv ℚ) (CmdMethod.fit (exCmdEnv ℚ) exChains CmdMethod.new).2).plot exVisList "bar_chart"
      "default" { topK := some 1 } []) = some [⟨[97], [99], .fin (1 / 2)⟩] ∧
    ((CmdMethod.view (I := Nat) (exCmdEnv ℚ) (CmdMethod.fit (exCmdEnv ℚ) exChains CmdMethod.new).2).ovo.map
      (fun t => decide ((⟨[97], [98], .fin 0⟩ : OvoRow (List Nat) ℚ) ∈ t))) = some true := by
  refine ⟨?_, ?_, ?_⟩ <;> decide +kernel

/-- trees and depths in a lollipop plot -/
def lolliOf {F I : Type} (r : Except Err (List (Panel F I ℚ))) : Option (List Nat × List (List Nat)) :=
  match r with
  | .ok [.lollipop _ roots nodes _ _] => some (roots.map (fun r => r.row.tree), nodes.map (fun l => l.map (fun r => r.row.tree)))
  | _ => none

/-- bars and markers of a conditional bar chart -/
def condOf {F I : Type} (r : Except Err (List (Panel F I ℚ))) : Option (List (OvoRow F ℚ × Num ℚ)) :=
  match r with
  | .ok [.conditional _ rows] => some rows
  | _ => none

/-- C86: two bars; the marker is the importance of the second feature of the row, not of the first -/
example : condOf ((exShow cmdName exRowsC (some [⟨0, .fin 5⟩, ⟨1, .fin 7⟩]) true true).plot exVis "bar_chart_conditional" "default"
    { topK := some 3 } []) =
    some [(⟨0, 1, .fin (1 / 10)⟩, .fin 7), (⟨1, 0, .fin (2 / 10)⟩, .fin 5), (⟨2, 0, .fin (4 / 10)⟩, .fin 5)] := by decide +kernel

/-- C86: no marker for a feature that is not listed -/
example : condOf ((exShow cmdName exRowsC (some [⟨0, .fin 5⟩]) true true).plot exVis "bar_chart_conditional" "default"
    { topK := some 1 } []) = some [(⟨0, 1, .fin (1 / 10)⟩, .nan)] := by decide +kernel

/-- labels of nodes (child feature) and of roots (feature) in a lollipop plot -/
def lolliLabels {F I : Type} (r : Except Err (List (Panel F I ℚ))) : Option (List Nat × List Nat) :=
  match r with
  | .ok [.lollipop _ _ _ nl rl] => some (nl.map (fun r => r.row.tree), rl.map (fun r => r.row.tree))
  | _ => none

/-- C64: with `max_trees = 1` the second of two trees is missing -/
example : lolliOf ((exTwoWayFit.view exPairSort).plot exVisNat "lollipop" "default" { maxTrees := some 1 } []) = some ([0], [[0, 0]]) := by
  decide +kernel

/-- C64: with `max_trees = 2` both trees are shown -/
example : lolliOf ((exTwoWayFit.view exPairSort).plot exVisNat "lollipop" "default" { maxTrees := some 2 } []) =
    some ([0, 1], [[0, 0, 1]]) := by decide +kernel

/-- C87: the root of the second tree has half of the gain of the first one, it is labelled for the threshold 1/2 and not above;
without labels there is none -/
example : lolliLabels ((exTwoWayFit.view exPairSort).plot exVisNat "lollipop" "default"
      { maxTrees := some 2, labelThreshold := some (1 / 2) } []) = some ([0, 0, 1], [0, 1]) ∧
    lolliLabels ((exTwoWayFit.view exPairSort).plot exVisNat "lollipop" "default"
      { maxTrees := some 2, labelThreshold := some (3 / 5) } []) = some ([0, 0, 1], [0]) ∧
    lolliLabels ((exTwoWayFit.view exPairSort).plot exVisNat "lollipop" "default"
      { maxTrees := some 2, labels := some false } []) = some ([], []) := by
  refine ⟨?_, ?_, ?_⟩ <;> decide +kernel

/-- C73 for the fitted split score object -/
example : (exTwoWayFit.view exPairSort).plot exVisNat "lolliplot" "default" {} [] = .error .visualizationNotSupported :=
  (C73_fails (v := exTwoWayFit.view exPairSort) (by unfold Ready; decide +kernel) rfl exVisNat "default" {} []).2.1

/-- C79: asking for one bar in the summary has no effect -/
example : (exShow greenwellName exRowsH (some exImpH) false false).plot exVis "summary" "default" {} [("bar_chart", { topK := some 1 })] =
    (exShow greenwellName exRowsH (some exImpH) false false).plot exVis "summary" "default" {} [] :=
  C79_bar_chart_ignored _ _ _ _ [] _

end Cases

end Artemis
