import Verif.Proofs.VisLemmas
import Verif.Props.Comparator

/-!
# C53-C56: which plots there are, and the interaction graph
-/

set_option linter.unusedSectionVars false
set_option linter.unusedVariables false
set_option linter.unusedSimpArgs false

namespace Artemis
open Spec

/-! ## C53 -/

section Accept
variable {F I K : Type} [LinearOrder F] [Field K] [LinearOrder K]

/-- the five methods -/
def methodNames : List String := [hStatName, greenwellName, sejongName, cmdName, splitScoreName]

/-- The plots of a method: four for all of them and one more for three of them. -/
def HasPlot (method visType : String) : Prop :=
  visType = "heatmap" ∨ visType = "bar_chart" ∨ visType = "graph" ∨ visType = "summary" ∨
    (method = hStatName ∧ visType = "bar_chart_ova") ∨ (method = cmdName ∧ visType = "bar_chart_conditional") ∨
    (method = splitScoreName ∧ visType = "lollipop")

/-- kinds of drawings -/
inductive PanelKind
  | heatmap | graph | bars | barsOva | lollipop | conditional | caption
  deriving DecidableEq

/-- the kind of a drawing -/
def Panel.kind : Panel F I K → PanelKind
  | .heatmap .. => .heatmap
  | .graph .. => .graph
  | .bars .. => .bars
  | .barsOva .. => .barsOva
  | .lollipop .. => .lollipop
  | .conditional .. => .conditional
  | .caption .. => .caption

/-- what a request draws: one drawing, and for a summary three or (with a one-vs-all table) four and a title -/
def Draws (visType : String) (withOva : Bool) (ks : List PanelKind) : Prop :=
  (visType = "heatmap" ∧ ks = [.heatmap]) ∨ (visType = "graph" ∧ ks = [.graph]) ∨ (visType = "bar_chart" ∧ ks = [.bars]) ∨
    (visType = "bar_chart_ova" ∧ ks = [.barsOva]) ∨ (visType = "lollipop" ∧ ks = [.lollipop]) ∨
    (visType = "bar_chart_conditional" ∧ ks = [.conditional]) ∨
    (visType = "summary" ∧ ks = if withOva then [.heatmap, .graph, .bars, .barsOva, .caption] else [.heatmap, .graph, .bars, .caption])

/-- **C53**, configuration: exactly the five method names are known. -/
theorem C53_unknown_method (name : String) :
    (configGet (K := K) name = .error .methodNotSupported ↔ name ∉ methodNames) ∧
    (name ∈ methodNames → ∃ cfg : VisConfig K, configGet name = .ok cfg ∧ ∀ t, t ∈ cfg.accepted ↔ HasPlot name t) := by
  have key : name ∈ methodNames → ∃ cfg : VisConfig K, configGet name = .ok cfg ∧ ∀ t, t ∈ cfg.accepted ↔ HasPlot name t := by
    intro h
    simp only [methodNames, List.mem_cons, List.not_mem_nil, or_false] at h
    have aux : ∀ (l : List String) (P : String → Prop), (∀ t, t ∈ l → P t) → (∀ t, P t → t ∈ l) → ∀ t, t ∈ l ↔ P t :=
      fun l P h1 h2 t => ⟨h1 t, h2 t⟩
    rcases h with rfl | rfl | rfl | rfl | rfl
    all_goals
      refine ⟨_, rfl, fun t => ?_⟩
      simp only [HasPlot, hStatName, greenwellName, sejongName, cmdName, splitScoreName, acceptedVisualizations, List.mem_cons,
        List.not_mem_nil, or_false, String.reduceEq, false_and, true_and, false_or]
      tauto
  refine ⟨?_, key⟩
  constructor
  · intro h hn
    obtain ⟨cfg, hc, _⟩ := key hn
    rw [hc] at h; cases h
  · intro h
    simp only [methodNames, List.mem_cons, List.not_mem_nil, or_false, not_or] at h
    unfold configGet
    rw [if_neg h.1, if_neg h.2.1, if_neg h.2.2.1, if_neg h.2.2.2.2, if_neg h.2.2.2.1]

/-- the object has been fitted far enough for `plot` to look at the request -/
def Ready (v : View F I K) : Prop :=
  v.ovo.isSome = true ∧ v.impAsc.isSome = true ∧ (v.needsOva = true → v.ova.isSome = true)

theorem plot_of_ready {v : View F I K} (h : Ready v) {cfg : VisConfig K} (hc : configGet v.name = .ok cfg) :
    ∃ ovo impAsc, v.ovo = some ovo ∧ v.impAsc = some impAsc ∧ ∀ (E : VisEnv F K) visType title o sub,
      v.plot E visType title o sub =
        visPlot E cfg ⟨ovo, v.ova, v.imp, v.asc, impAsc, v.full, v.directed, v.name⟩ visType title o sub := by
  obtain ⟨h1, h2, h3⟩ := h
  obtain ⟨ovo, ho⟩ := Option.isSome_iff_exists.1 h1
  obtain ⟨ia, hi⟩ := Option.isSome_iff_exists.1 h2
  refine ⟨ovo, ia, ho, hi, ?_⟩
  intro E visType title o sub
  unfold View.plot
  have hb : (if v.needsOva = true then v.ova.isNone else v.ovo.isNone) = false := by
    split
    · next hn => have := h3 hn; rw [Option.isNone_eq_false_iff]; exact this
    · rw [Option.isNone_eq_false_iff]; exact h1
  rw [hb, if_neg (by simp), hi, hc, ho]

/-- **C53**, requests: for every text, `plot` of a fitted method raises VisualizationNotSupportedException exactly if the
text does not name a plot of the method. -/
theorem C53_rejects_exactly {v : View F I K} (h : Ready v) (hn : v.name ∈ methodNames) (E : VisEnv F K)
    (visType title : String) (o : Opts K) (sub : SubOpts K) :
    v.plot E visType title o sub = .error .visualizationNotSupported ↔ ¬ HasPlot v.name visType := by
  obtain ⟨cfg, hc, hacc⟩ := (C53_unknown_method (K := K) v.name).2 hn
  obtain ⟨ovo, ia, _, _, hp⟩ := plot_of_ready h hc
  rw [hp, ← hacc]
  constructor
  · intro he hm
    have := raises_visPlot E cfg _ visType title o sub hm _ he
    exact absurd this (by decide)
  · intro hm
    unfold visPlot
    rw [if_pos hm]

/-- **C53**, routines: whatever is drawn is what was asked for, and nothing else. -/
theorem C53_one_routine {v : View F I K} (hn : v.name ∈ methodNames) {E : VisEnv F K} {visType title : String} {o : Opts K}
    {sub : SubOpts K} {ps : List (Panel F I K)} (h : v.plot E visType title o sub = .ok ps) :
    HasPlot v.name visType ∧ Draws visType v.ova.isSome (ps.map Panel.kind) := by
  obtain ⟨ovo, ia, cfg, _, _, hc, hacc, hp⟩ := view_plot_inv h
  obtain ⟨cfg', hc', hacc'⟩ := (C53_unknown_method (K := K) v.name).2 hn
  rw [hc] at hc'
  cases hc'
  have hhas := (hacc' visType).1 hacc
  refine ⟨hhas, ?_⟩
  have hgraph : ∀ {ti asc d o' p}, plotGraph (I := I) E cfg.graph ovo v.imp ti asc d o' = .ok p → p.kind = .graph := by
    intro ti asc d o' p hp
    unfold plotGraph at hp
    simp only [] at hp
    split at hp
    · cases hp
    · cases hp; rfl
  have hheat : ∀ {ti a b d p}, plotHeatmap (I := I) E ovo v.imp ti a b d = .ok p → p.kind = .heatmap := by
    intro ti a b d p hp
    unfold plotHeatmap at hp
    split at hp
    · cases hp
    · split at hp
      · cases hp
      · cases hp; rfl
  have hova : ∀ {t ti o' p}, plotBarsOva (I := I) (F := F) (K := K) t ti o' = .ok p → p.kind = .barsOva := by
    intro t ti o' p hp
    unfold plotBarsOva at hp
    split at hp
    · cases hp
    · cases hp; rfl
  have hmap : ∀ {r : Except Err (Panel F I K)} {ps}, r.map (fun p => [p]) = .ok ps → ∃ p, r = .ok p ∧ ps = [p] := by
    intro r ps hr
    cases r with
    | error e => cases hr
    | ok p => cases hr; exact ⟨p, rfl, rfl⟩
  unfold visPlot at hp
  rw [if_neg (not_not.2 hacc)] at hp
  simp only [] at hp
  split at hp
  · next ht =>
    unfold plotSummary at hp
    simp only [] at hp
    split at hp
    · cases hp
    · next p1 hp1 =>
      split at hp
      · cases hp
      · next p2 hp2 =>
        split at hp
        · next hov =>
          cases hp
          simp only [Draws, ht, true_and, List.map_cons, List.map_nil, hheat hp1, hgraph hp2, hov, Option.isSome_none]
          simp [plotBars, Panel.kind]
        · next t hov =>
          split at hp
          · cases hp
          · next p3 hp3 =>
            cases hp
            simp only [Draws, ht, true_and, List.map_cons, List.map_nil, hheat hp1, hgraph hp2, hova hp3, hov, Option.isSome_some]
            simp [plotBars, Panel.kind]
  · split at hp
    · next ht =>
      obtain ⟨p, hq, rfl⟩ := hmap hp
      simp [Draws, ht, hgraph hq]
    · split at hp
      · next ht =>
        obtain ⟨p, hq, rfl⟩ := hmap hp
        simp [Draws, ht, hova hq]
      · split at hp
        · next ht =>
          obtain ⟨p, hq, rfl⟩ := hmap hp
          simp [Draws, ht, hheat hq]
        · split at hp
          · next ht =>
            cases hp
            simp [Draws, ht, plotBars, Panel.kind]
          · split at hp
            · next ht =>
              obtain ⟨p, hq, rfl⟩ := hmap hp
              have : p.kind = .lollipop := by
                unfold plotLollipop at hq
                split at hq
                · cases hq
                · simp only [] at hq
                  split at hq
                  · cases hq
                  · cases hq; rfl
              simp [Draws, ht, this]
            · split at hp
              · next ht =>
                obtain ⟨p, hq, rfl⟩ := hmap hp
                have : p.kind = .conditional := by
                  unfold plotConditional at hq
                  split at hq
                  · cases hq
                  · cases hq; rfl
                simp [Draws, ht, this]
              · next h1 h2 h3 h4 h5 h6 h7 =>
                unfold HasPlot at hhas
                tauto

end Accept

section ReadyAfterFit
variable {F I J V K G L : Type} [LinearOrder F] [LinearOrder J] [LinearOrder I] [LinearOrder V] [DecidableEq L] [Field K]
  [LinearOrder K] [HasSqrt K]

/-- **C53**, when this applies: after a returning `fit`, followed by any calls of `fit`, the object is ready (for the
H-statistic: after a call with the one-vs-all part switched on), and its name is one of the five. -/
theorem C53_ready_after_fit (sort : PairSort F K) (kind : PdKind) (E : PdEnv G F K) (E' : PerfEnv G L F K)
    (E'' : CmdEnv F J K) (E3 : SsEnv F K) :
    (∀ hist (s : PdpMethod G L F V K), ∀ c ∈ fitCalls (PdpMethod.fit kind E) hist s, Succeeds (PdpMethod.fit kind E) c →
      (kind ≠ .greenwell → c.1.calculateOva = true) →
      Ready (PdpMethod.view (I := I) sort kind (runFits (PdpMethod.fit kind E) hist s))) ∧
    (∀ hist (s : Sejong G L F V K), ∀ c ∈ fitCalls (sejongCall E') hist s, Succeeds (sejongCall E') c →
      Ready (Sejong.view (I := I) sort (runFits (sejongCall E') hist s))) ∧
    (∀ hist (s : CmdMethod F K), ∀ c ∈ fitCalls (CmdMethod.fit E'') hist s, Succeeds (CmdMethod.fit E'') c →
      Ready (CmdMethod.view (I := I) E'' (runFits (CmdMethod.fit E'') hist s))) ∧
    (∀ hist (s : SsMethod F I K), ∀ c ∈ fitCalls (ssCall E3) hist s, Succeeds (ssCall E3) c →
      Ready (SsMethod.view sort (runFits (ssCall E3) hist s))) ∧
    (∀ (s : PdpMethod G L F V K) (s' : Sejong G L F V K) (s'' : CmdMethod F K) (s3 : SsMethod F I K),
      (PdpMethod.view (I := I) sort kind s).name ∈ methodNames ∧ (Sejong.view (I := I) sort s').name ∈ methodNames ∧
      (CmdMethod.view (I := I) E'' s'').name ∈ methodNames ∧ (SsMethod.view sort s3).name ∈ methodNames) := by
  refine ⟨?_, ?_, ?_, ?_, ?_⟩
  · intro hist s c hc hs ho
    have h := runFits_once (P := fun s : PdpMethod G L F V K => s.ovo.isSome = true ∧ s.impObj = true) (PdpMethod.fit kind E)
      (fun a s h => ⟨(pdFit_progress kind E a s).ovo_keeps h.1, (pdFit_progress kind E a s).obj_keeps h.2⟩) (ok := fun _ => True)
      (fun a s h _ => ⟨((pdFit_progress kind E a s).done (returned_iff.2 h)).1,
        ((pdFit_progress kind E a s).done (returned_iff.2 h)).2.2⟩) hc hs trivial
    cases kind with
    | greenwell => exact ⟨h.1, by simp only [PdpMethod.view, h.2]; rfl, fun e => by cases e⟩
    | friedman n =>
      have h' := runFits_once (P := fun s : PdpMethod G L F V K => s.ova.isSome = true) (PdpMethod.fit (.friedman n) E)
        (fun a s h => (pdFit_progress (.friedman n) E a s).ova_keeps h) (ok := fun a => a.calculateOva = true)
        (fun a s h ho => (pdFit_progress (.friedman n) E a s).done_ova (returned_iff.2 h) ho) hc hs (ho (by simp))
      exact ⟨h.1, by simp only [PdpMethod.view, h.2]; rfl, fun _ => h'⟩
  · intro hist s c hc hs
    have h := runFits_once (P := fun s : Sejong G L F V K => s.ovo.isSome = true ∧ s.impObj = true) (sejongCall E')
      (fun a s h => ⟨(sejongFit_progress E' a.1 a.2 s).ovo_keeps h.1, (sejongFit_progress E' a.1 a.2 s).obj_keeps h.2⟩)
      (ok := fun _ => True)
      (fun a s h _ => ⟨((sejongFit_progress E' a.1 a.2 s).done (returned_iff.2 h)).1,
        ((sejongFit_progress E' a.1 a.2 s).done (returned_iff.2 h)).2.2⟩) hc hs trivial
    exact ⟨h.1, by simp only [Sejong.view, h.2]; rfl, fun e => by cases e⟩
  · intro hist s c hc hs
    have h := runFits_once (P := fun s : CmdMethod F K => s.ovo.isSome = true ∧ s.impObj = true) (CmdMethod.fit E'')
      (fun a s h => ⟨(cmdFit_progress E'' a s).ovo_keeps h.1, (cmdFit_progress E'' a s).obj_keeps h.2⟩) (ok := fun _ => True)
      (fun a s h _ => ⟨((cmdFit_progress E'' a s).done (returned_iff.2 h)).1,
        ((cmdFit_progress E'' a s).done (returned_iff.2 h)).2.2⟩) hc hs trivial
    exact ⟨by simp only [CmdMethod.view, Option.isSome_map]; exact h.1, by simp only [CmdMethod.view, h.2]; rfl, fun e => by cases e⟩
  · intro hist s c hc hs
    have h := runFits_once (P := fun s : SsMethod F I K => s.ovo.isSome = true ∧ s.impMetric.isSome = true) (ssCall E3)
      (fun a s h => ⟨(ssFit_progress E3 a.1 a.2.1 a.2.2.1 a.2.2.2 s).ovo_keeps h.1,
        (ssFit_progress E3 a.1 a.2.1 a.2.2.1 a.2.2.2 s).obj_keeps h.2⟩) (ok := fun _ => True)
      (fun a s h _ => ⟨((ssFit_progress E3 a.1 a.2.1 a.2.2.1 a.2.2.2 s).done (returned_iff.2 h)).1,
        ((ssFit_progress E3 a.1 a.2.1 a.2.2.1 a.2.2.2 s).done (returned_iff.2 h)).2.2⟩) hc hs trivial
    exact ⟨by simp only [SsMethod.view, Option.isSome_map]; exact h.1,
      by simp only [SsMethod.view, Option.isSome_map]; exact h.2, fun e => by cases e⟩
  · intro s s' s'' s3
    refine ⟨?_, by simp [Sejong.view, methodNames], by simp [CmdMethod.view, methodNames], by simp [SsMethod.view, methodNames]⟩
    cases kind <;> simp [PdpMethod.view, methodNames]

end ReadyAfterFit

/-! ## C54, C55: widths of edges -/

section Widths
variable {F I K : Type} [LinearOrder F] [Field K] [LinearOrder K] [IsStrictOrderedRing K]

/-- The value of a pair after thresholding: 0 if it is too weak. -/
def keptValue (asc : Bool) (t x : K) : K := if asc = true then (if t < x then 0 else x) else (if x < t then 0 else x)

theorem filter_vals {asc : Bool} {t : K} {ovo : List (OvoRow F K)} {u : OvoRow F K → K} (hu : ∀ r ∈ ovo, r.val = .fin (u r)) :
    filterInsignificant asc t ovo = ovo.map (fun r => ⟨r.f1, r.f2, .fin (keptValue asc t (u r))⟩) := by
  unfold filterInsignificant
  refine List.map_congr_left fun r hr => ?_
  unfold significant keptValue
  rw [hu r hr]
  cases asc with
  | true => simp only [if_true, lt_fin, decide_eq_true_eq]; split <;> rfl
  | false => simp only [Bool.false_eq_true, if_false, lt_fin, decide_eq_true_eq]; split <;> rfl

/-- what the graph of a method object shows -/
theorem graph_inv {v : View F I K} {E : VisEnv F K} {title : String} {o : Opts K} {sub : SubOpts K} {ps : List (Panel F I K)}
    (h : v.plot E "graph" title o sub = .ok ps) :
    ∃ (ovo : List (OvoRow F K)) (cfg : VisConfig K) (nodes : Option (List (F × Num K))), v.ovo = some ovo ∧ configGet v.name = .ok cfg ∧
      graphNodes ovo v.imp = .ok nodes ∧
      ps = [.graph (pickTitle title "Interaction graph") v.directed
        (edgeDict v.directed (edgeWidths v.asc (o.maxEdgeWidth.getD cfg.graph.maxEdgeWidth)
          (filterInsignificant v.asc (o.threshold.getD cfg.graph.threshold) ovo))) nodes
        (if v.asc then [] else edgeLabels E (o.nHighest.getD cfg.graph.nHighest)
          (filterInsignificant v.asc (o.threshold.getD cfg.graph.threshold) ovo))] := by
  obtain ⟨ovo, ia, cfg, ho, _, hc, hacc, hp⟩ := view_plot_inv h
  unfold visPlot at hp
  rw [if_neg (not_not.2 hacc), if_neg (by decide), if_pos rfl] at hp
  simp only [] at hp
  unfold plotGraph at hp
  simp only [] at hp
  cases hn : graphNodes ovo v.imp with
  | error e => rw [hn] at hp; cases hp
  | ok nodes =>
    rw [hn] at hp
    cases hp
    exact ⟨ovo, cfg, nodes, ho, hc, hn, rfl⟩

/-- The graph shows an edge of width `w r` for each row `r` of `ovo`, and no other edge. -/
def ShowsWidths (directed : Bool) (ovo : List (OvoRow F K)) (ps : List (Panel F I K)) (w : OvoRow F K → K) : Prop :=
  ∃ title edges nodes labels, ps = [.graph title directed edges nodes labels] ∧
    (∀ r ∈ ovo, Dict.get? edges (r.f1, r.f2) = some (.fin (w r))) ∧
    (∀ k ∈ Dict.keys edges, ∃ r ∈ ovo, k = (r.f1, r.f2)) ∧ (Dict.keys edges).Nodup

theorem graph_widths {v : View F I K} {E : VisEnv F K} {title : String} {o : Opts K} {sub : SubOpts K} {ps : List (Panel F I K)}
    (h : v.plot E "graph" title o sub = .ok ps) {ovo : List (OvoRow F K)} (ho : v.ovo = some ovo)
    (hd : DistinctEdges v.directed ovo) {u : OvoRow F K → K} (hu : ∀ r ∈ ovo, r.val = .fin (u r)) {cfg : VisConfig K}
    (hc : configGet v.name = .ok cfg) {t W : K} (ht : t = o.threshold.getD cfg.graph.threshold)
    (hW : W = o.maxEdgeWidth.getD cfg.graph.maxEdgeWidth)
    (hdiff : ∃ r ∈ ovo, ∃ q ∈ ovo, keptValue v.asc t (u r) ≠ keptValue v.asc t (u q)) :
    ∃ m M, (∃ a ∈ ovo, m = keptValue v.asc t (u a)) ∧ (∃ b ∈ ovo, M = keptValue v.asc t (u b)) ∧ m < M ∧
      (∀ r ∈ ovo, m ≤ keptValue v.asc t (u r) ∧ keptValue v.asc t (u r) ≤ M) ∧
      ShowsWidths v.directed ovo ps (fun r => widthOf v.asc W m M (keptValue v.asc t (u r))) := by
  obtain ⟨ovo', cfg', nodes, ho', hc', _, rfl⟩ := graph_inv h
  rw [ho] at ho'; cases ho'
  rw [hc] at hc'; cases hc'
  rw [← ht, ← hW, filter_vals hu]
  generalize hkk : ovo.map (fun r => (⟨r.f1, r.f2, .fin (keptValue v.asc t (u r))⟩ : OvoRow F K)) = kept
  have hku : ∀ r ∈ kept, r.val = .fin (Num.toK r.val) := by
    intro r hr
    rw [← hkk] at hr
    obtain ⟨q, _, rfl⟩ := List.mem_map.1 hr
    rfl
  obtain ⟨r0, hr0, q0, hq0, hne⟩ := hdiff
  have hnil : kept ≠ [] := by
    rw [← hkk]
    intro e
    rw [List.map_eq_nil_iff] at e
    rw [e] at hr0
    cases hr0
  obtain ⟨a, ha, b, hb, h1, h2, h3⟩ := minmax_of_fin kept (fun r => Num.toK r.val) hku hnil
  have hmem : ∀ r ∈ ovo, (⟨r.f1, r.f2, .fin (keptValue v.asc t (u r))⟩ : OvoRow F K) ∈ kept := by
    intro r hr; rw [← hkk]; exact List.mem_map.2 ⟨r, hr, rfl⟩
  have hbounds : ∀ r ∈ ovo, Num.toK a.val ≤ keptValue v.asc t (u r) ∧ keptValue v.asc t (u r) ≤ Num.toK b.val :=
    fun r hr => h3 _ (hmem r hr)
  have hlt : Num.toK a.val < Num.toK b.val := by
    rcases ((hbounds r0 hr0).1.trans (hbounds r0 hr0).2).lt_or_eq with hl | he
    · exact hl
    · exfalso
      apply hne
      have b1 := hbounds r0 hr0
      have b2 := hbounds q0 hq0
      rw [← he] at b1 b2
      exact le_antisymm (b1.2.trans b2.1) (b2.2.trans b1.1)
  have hew := edgeWidths_fin v.asc W kept (fun r => Num.toK r.val) hku h1 h2 hlt.ne
  refine ⟨Num.toK a.val, Num.toK b.val, ?_, ?_, hlt, hbounds, _, _, nodes, _, rfl, ?_, ?_, ?_⟩
  · rw [← hkk] at ha
    obtain ⟨q, hq, rfl⟩ := List.mem_map.1 ha
    exact ⟨q, hq, rfl⟩
  · rw [← hkk] at hb
    obtain ⟨q, hq, rfl⟩ := List.mem_map.1 hb
    exact ⟨q, hq, rfl⟩
  all_goals
    rw [hew, ← hkk, List.map_map]
    have he : ((fun r : OvoRow F K => (⟨r.f1, r.f2, .fin (widthOf v.asc W (Num.toK a.val) (Num.toK b.val) (Num.toK r.val))⟩ : OvoRow F K)) ∘
        fun r => (⟨r.f1, r.f2, .fin (keptValue v.asc t (u r))⟩ : OvoRow F K)) =
        fun r => ⟨r.f1, r.f2, .fin (widthOf v.asc W (Num.toK a.val) (Num.toK b.val) (keptValue v.asc t (u r)))⟩ := rfl
    rw [he]
  · intro r hr
    exact get?_edges _ hd hr
  · intro k hk
    rw [keys_edges _ hd] at hk
    obtain ⟨r, hr, rfl⟩ := List.mem_map.1 hk
    exact ⟨r, hr, rfl⟩
  · rw [keys_edges _ hd, List.Nodup, List.pairwise_map]
    exact hd.imp fun hn e => hn.1 (by simpa using e)

theorem unit_bounds {m M x : K} (hlt : m < M) (h : m ≤ x ∧ x ≤ M) : 0 ≤ (x - m) / (M - m) ∧ (x - m) / (M - m) ≤ 1 := by
  have : 0 < M - m := sub_pos.2 hlt
  exact ⟨div_nonneg (sub_nonneg.2 h.1) this.le, (div_le_one this).2 (sub_le_sub_right h.2 m)⟩

/-- the default width and threshold of each method are not negative -/
theorem C54_defaults {name : String} {cfg : VisConfig K} (h : configGet name = .ok cfg) :
    0 < cfg.graph.maxEdgeWidth ∧ 0 < cfg.graph.threshold ∧ 0 < cfg.graph.nHighest := by
  have h20 : (0 : K) < 20 := by norm_num
  have h3 : (0 : K) < 3 := by norm_num
  have h5 : (0 : K) < 5 / 100 := by norm_num
  have h10 : (0 : K) < 10 / 100 := by norm_num
  have h60 : (0 : K) < 60 / 100 := by norm_num
  unfold configGet at h
  split at h
  · cases h; exact ⟨h20, h5, by show (0 : Int) < 5; decide⟩
  · split at h
    · cases h; exact ⟨h20, h5, by show (0 : Int) < 5; decide⟩
    · split at h
      · cases h; exact ⟨h20, h10, by show (0 : Int) < 5; decide⟩
      · split at h
        · cases h; exact ⟨h20, h10, by show (0 : Int) < 5; decide⟩
        · split at h
          · cases h; exact ⟨h3, h60, by show (0 : Int) < 5; decide⟩
          · cases h

/-- **C54, partial** Interaction graph of a method where larger is stronger, drawn from finite values with at least two
different ones left after thresholding, with a threshold that is not negative (or values that are not): every width is
between 0 and the maximal width, a stronger pair never gets a thinner edge, the strongest pair gets the maximal width, and a
pair below the threshold gets width 0.
Missing: infinite values (`C54_infinite_fails`) and negative thresholds (`C54_negative_threshold_fails`). -/
theorem C54_widths_partial {v : View F I K} (hasc : v.asc = false) {E : VisEnv F K} {title : String} {o : Opts K} {sub : SubOpts K}
    {ps : List (Panel F I K)} (h : v.plot E "graph" title o sub = .ok ps) {ovo : List (OvoRow F K)} (ho : v.ovo = some ovo)
    (hd : DistinctEdges v.directed ovo) {u : OvoRow F K → K} (hu : ∀ r ∈ ovo, r.val = .fin (u r)) {cfg : VisConfig K}
    (hc : configGet v.name = .ok cfg) {t W : K} (ht : t = o.threshold.getD cfg.graph.threshold)
    (hW : W = o.maxEdgeWidth.getD cfg.graph.maxEdgeWidth) (hW0 : 0 ≤ W) (ht0 : 0 ≤ t ∨ ∀ r ∈ ovo, 0 ≤ u r)
    (hdiff : ∃ r ∈ ovo, ∃ q ∈ ovo, keptValue false t (u r) ≠ keptValue false t (u q)) :
    ∃ w, ShowsWidths v.directed ovo ps w ∧ (∀ r ∈ ovo, 0 ≤ w r ∧ w r ≤ W) ∧
      (∀ r ∈ ovo, ∀ q ∈ ovo, u r ≤ u q → w r ≤ w q) ∧
      (∀ r ∈ ovo, (∀ q ∈ ovo, u q ≤ u r) → w r = W) ∧
      (∀ r ∈ ovo, u r < t → w r = 0) ∧
      (0 < W → ∀ r ∈ ovo, ∀ q ∈ ovo, t ≤ u r → u r < u q → w r < w q) := by
  rw [← hasc] at hdiff
  obtain ⟨m, M, ⟨a, ha, hm⟩, ⟨b, hb, hM⟩, hlt, hbd, hshow⟩ := graph_widths h ho hd hu hc ht hW hdiff
  rw [hasc] at hm hM hbd hshow
  have hpos : 0 < M - m := sub_pos.2 hlt
  have hw : ∀ x, widthOf false W m M x = (x - m) / (M - m) * W := by intro x; simp [widthOf]
  have hmono : ∀ r ∈ ovo, ∀ q ∈ ovo, u r ≤ u q → keptValue false t (u r) ≤ keptValue false t (u q) := by
    intro r hr q hq hrq
    simp only [keptValue, Bool.false_eq_true, if_false]
    split
    · split
      · exact le_refl _
      · next h2 =>
        rcases ht0 with h0 | h0
        · exact h0.trans (not_lt.1 h2)
        · exact h0 q hq
    · next h1 =>
      rw [if_neg (not_lt.2 ((not_lt.1 h1).trans hrq))]
      exact hrq
  have hwm : ∀ r ∈ ovo, ∀ q ∈ ovo, keptValue false t (u r) ≤ keptValue false t (u q) →
      widthOf false W m M (keptValue false t (u r)) ≤ widthOf false W m M (keptValue false t (u q)) := by
    intro r _ q _ hrq
    rw [hw, hw]
    exact mul_le_mul_of_nonneg_right (div_le_div_of_nonneg_right (sub_le_sub_right hrq m) hpos.le) hW0
  refine ⟨_, hshow, ?_, ?_, ?_, ?_, ?_⟩
  · intro r hr
    have := unit_bounds hlt (hbd r hr)
    simp only [hw]
    exact ⟨mul_nonneg this.1 hW0, mul_le_of_le_one_left hW0 this.2⟩
  · intro r hr q hq hrq
    exact hwm r hr q hq (hmono r hr q hq hrq)
  · intro r hr hmax
    have : keptValue false t (u r) = M := le_antisymm (hbd r hr).2 (by rw [hM]; exact hmono b hb r hr (hmax b hb))
    simp only [hw, this]
    rw [div_self hpos.ne', one_mul]
  · intro r hr hrt
    have h0 : keptValue false t (u r) = 0 := by simp [keptValue, hrt]
    have hall : ∀ q ∈ ovo, 0 ≤ keptValue false t (u q) := by
      intro q hq
      simp only [keptValue, Bool.false_eq_true, if_false]
      split
      · exact le_refl _
      · next h2 =>
        rcases ht0 with h0 | h0
        · exact h0.trans (not_lt.1 h2)
        · exact h0 q hq
    have hm0 : m = 0 := le_antisymm (by rw [← h0]; exact (hbd r hr).1) (by rw [hm]; exact hall a ha)
    show widthOf false W m M (keptValue false t (u r)) = 0
    rw [hw, h0, hm0, sub_self, zero_div, zero_mul]
  · intro hWp r hr q hq htr hrq
    have e1 : keptValue false t (u r) = u r := by simp [keptValue, not_lt.2 htr]
    have e2 : keptValue false t (u q) = u q := by simp [keptValue, not_lt.2 (htr.trans hrq.le)]
    simp only [hw, e1, e2]
    exact mul_lt_mul_of_pos_right (div_lt_div_of_pos_right (sub_lt_sub_right hrq m) hpos) hWp

/-- tables that list each pair once have different edges -/
theorem distinctEdges_of_once {t : List (OvoRow F K)} (h : OncePerPair t) : DistinctEdges false t := by
  refine h.imp fun {r q} hn => ⟨fun e => hn (Or.inl e), fun _ e => hn (Or.inr ⟨e.1, e.2⟩)⟩

/-- **C55**, bounds: for methods where smaller is stronger all widths are between 0 and the maximal width. -/
theorem C55_bounds {v : View F I K} (hasc : v.asc = true) {E : VisEnv F K} {title : String} {o : Opts K} {sub : SubOpts K}
    {ps : List (Panel F I K)} (h : v.plot E "graph" title o sub = .ok ps) {ovo : List (OvoRow F K)} (ho : v.ovo = some ovo)
    (hd : DistinctEdges v.directed ovo) {u : OvoRow F K → K} (hu : ∀ r ∈ ovo, r.val = .fin (u r)) {cfg : VisConfig K}
    (hc : configGet v.name = .ok cfg) {t W : K} (ht : t = o.threshold.getD cfg.graph.threshold)
    (hW : W = o.maxEdgeWidth.getD cfg.graph.maxEdgeWidth) (hW0 : 0 ≤ W)
    (hdiff : ∃ r ∈ ovo, ∃ q ∈ ovo, keptValue true t (u r) ≠ keptValue true t (u q)) :
    ∃ w, ShowsWidths v.directed ovo ps w ∧ ∀ r ∈ ovo, 0 ≤ w r ∧ w r ≤ W := by
  rw [← hasc] at hdiff
  obtain ⟨m, M, _, _, hlt, hbd, hshow⟩ := graph_widths h ho hd hu hc ht hW hdiff
  rw [hasc] at hbd hshow
  refine ⟨_, hshow, ?_⟩
  intro r hr
  have hb := unit_bounds hlt (hbd r hr)
  simp only [widthOf]
  split
  · exact ⟨mul_nonneg (sub_nonneg.2 hb.2) hW0, mul_le_of_le_one_left hW0 (sub_le_self _ hb.1)⟩
  · exact ⟨mul_nonneg hb.1 hW0, mul_le_of_le_one_left hW0 hb.2⟩

/-- **C55, partial** If the threshold removes at least one pair and the remaining values are positive, then among the pairs
kept a stronger one never gets a thinner edge, strictly stronger ones get thicker edges, and removed pairs get width 0.
Missing: tables from which nothing is removed or with the value 0, see `C55_strongest_hidden` and `C55_zero_hidden`. -/
theorem C55_order_partial {v : View F I K} (hasc : v.asc = true) {E : VisEnv F K} {title : String} {o : Opts K} {sub : SubOpts K}
    {ps : List (Panel F I K)} (h : v.plot E "graph" title o sub = .ok ps) {ovo : List (OvoRow F K)} (ho : v.ovo = some ovo)
    (hd : DistinctEdges v.directed ovo) {u : OvoRow F K → K} (hu : ∀ r ∈ ovo, r.val = .fin (u r)) {cfg : VisConfig K}
    (hc : configGet v.name = .ok cfg) {t W : K} (ht : t = o.threshold.getD cfg.graph.threshold)
    (hW : W = o.maxEdgeWidth.getD cfg.graph.maxEdgeWidth) (hW0 : 0 < W) (hpos : ∀ r ∈ ovo, 0 < u r) (hrem : ∃ r ∈ ovo, t < u r)
    (hkept : ∃ r ∈ ovo, u r ≤ t) :
    ∃ w, ShowsWidths v.directed ovo ps w ∧
      (∀ r ∈ ovo, ∀ q ∈ ovo, u r ≤ t → u q ≤ t → (u r ≤ u q ↔ w q ≤ w r)) ∧
      (∀ r ∈ ovo, t < u r → w r = 0) := by
  obtain ⟨r0, hr0, hr0t⟩ := hrem
  obtain ⟨q0, hq0, hq0t⟩ := hkept
  have k1 : ∀ r, u r ≤ t → keptValue true t (u r) = u r := by intro r h; simp [keptValue, not_lt.2 h]
  have k2 : ∀ r, t < u r → keptValue true t (u r) = 0 := by intro r h; simp [keptValue, h]
  have hdiff : ∃ r ∈ ovo, ∃ q ∈ ovo, keptValue v.asc t (u r) ≠ keptValue v.asc t (u q) := by
    refine ⟨r0, hr0, q0, hq0, ?_⟩
    rw [hasc, k1 _ hq0t, k2 _ hr0t]
    exact (hpos q0 hq0).ne
  obtain ⟨m, M, ⟨a, ha, hm⟩, _, hlt, hbd, hshow⟩ := graph_widths h ho hd hu hc ht hW hdiff
  rw [hasc] at hm hbd hshow
  have hm0 : m = 0 := by
    apply le_antisymm
    · rw [← k2 r0 hr0t]; exact (hbd r0 hr0).1
    · rw [hm]
      unfold keptValue
      rw [if_pos rfl]
      split
      · exact le_refl _
      · exact (hpos a ha).le
  subst hm0
  have hw : ∀ r ∈ ovo, u r ≤ t → widthOf true W 0 M (keptValue true t (u r)) = (1 - u r / M) * W := by
    intro r hr hrt
    rw [k1 r hrt]
    simp only [widthOf, sub_zero, true_and]
    rw [if_pos (div_pos (hpos r hr) hlt)]
  refine ⟨_, hshow, ?_, ?_⟩
  · intro r hr q hq hrt hqt
    simp only [hw r hr hrt, hw q hq hqt]
    rw [mul_le_mul_iff_left₀ hW0, sub_le_sub_iff_left, div_le_div_iff_of_pos_right hlt]
  · intro r hr hrt
    simp only [k2 r hrt, widthOf]
    simp

/-- **C55 fails** when no pair is removed by the threshold: the strongest pair gets width 0, thinner than a weaker pair. -/
theorem C55_strongest_hidden {v : View F I K} (hasc : v.asc = true) {E : VisEnv F K} {title : String} {o : Opts K} {sub : SubOpts K}
    {ps : List (Panel F I K)} (h : v.plot E "graph" title o sub = .ok ps) {ovo : List (OvoRow F K)} (ho : v.ovo = some ovo)
    (hd : DistinctEdges v.directed ovo) {u : OvoRow F K → K} (hu : ∀ r ∈ ovo, r.val = .fin (u r)) {cfg : VisConfig K}
    (hc : configGet v.name = .ok cfg) {t W : K} (ht : t = o.threshold.getD cfg.graph.threshold)
    (hW : W = o.maxEdgeWidth.getD cfg.graph.maxEdgeWidth) (hW0 : 0 < W) (hall : ∀ r ∈ ovo, u r ≤ t) {r q s : OvoRow F K}
    (hr : r ∈ ovo) (hq : q ∈ ovo) (hs : s ∈ ovo) (hmin : ∀ p ∈ ovo, u r ≤ u p) (hrq : u r < u q) (hqs : u q < u s) :
    ∃ w, ShowsWidths v.directed ovo ps w ∧ w r = 0 ∧ 0 < w q := by
  have k1 : ∀ r ∈ ovo, keptValue true t (u r) = u r := by intro r hr; simp [keptValue, not_lt.2 (hall r hr)]
  have hdiff : ∃ r ∈ ovo, ∃ q ∈ ovo, keptValue v.asc t (u r) ≠ keptValue v.asc t (u q) := by
    refine ⟨r, hr, q, hq, ?_⟩
    rw [hasc, k1 r hr, k1 q hq]
    exact hrq.ne
  obtain ⟨m, M, ⟨a, ha, hm⟩, _, hlt, hbd, hshow⟩ := graph_widths h ho hd hu hc ht hW hdiff
  rw [hasc] at hm hbd hshow
  have hmr : m = u r := by
    apply le_antisymm
    · rw [← k1 r hr]; exact (hbd r hr).1
    · rw [hm, k1 a ha]; exact hmin a ha
  have hM : u q < M := hqs.trans_le (by rw [← k1 s hs]; exact (hbd s hs).2)
  subst hmr
  have hd0 : 0 < M - u r := sub_pos.2 hlt
  refine ⟨_, hshow, ?_, ?_⟩
  · simp only [k1 r hr, widthOf]
    simp
  · simp only [k1 q hq, widthOf, true_and]
    rw [if_pos (div_pos (sub_pos.2 hrq) hd0)]
    refine mul_pos (sub_pos.2 ((div_lt_one hd0).2 (sub_lt_sub_right hM _))) hW0

/-- **C55 fails** for pairs with the value 0, the strongest there is (all other values positive): they get width 0. -/
theorem C55_zero_hidden {v : View F I K} (hasc : v.asc = true) {E : VisEnv F K} {title : String} {o : Opts K} {sub : SubOpts K}
    {ps : List (Panel F I K)} (h : v.plot E "graph" title o sub = .ok ps) {ovo : List (OvoRow F K)} (ho : v.ovo = some ovo)
    (hd : DistinctEdges v.directed ovo) {u : OvoRow F K → K} (hu : ∀ r ∈ ovo, r.val = .fin (u r)) {cfg : VisConfig K}
    (hc : configGet v.name = .ok cfg) {t W : K} (ht : t = o.threshold.getD cfg.graph.threshold)
    (hW : W = o.maxEdgeWidth.getD cfg.graph.maxEdgeWidth) (hW0 : 0 < W) (ht0 : 0 ≤ t) (hnn : ∀ r ∈ ovo, 0 ≤ u r) {r q s : OvoRow F K}
    (hr : r ∈ ovo) (hq : q ∈ ovo) (hs : s ∈ ovo) (hr0 : u r = 0) (hrq : 0 < u q) (hqs : u q < u s) (hst : u s ≤ t) :
    ∃ w, ShowsWidths v.directed ovo ps w ∧ w r = 0 ∧ 0 < w q := by
  have kn : ∀ r ∈ ovo, 0 ≤ keptValue true t (u r) := by
    intro p hp
    unfold keptValue
    rw [if_pos rfl]
    split
    · exact le_refl _
    · exact hnn p hp
  have kr : keptValue true t (u r) = 0 := by simp [keptValue, hr0]
  have kq : keptValue true t (u q) = u q := by simp [keptValue, not_lt.2 (hqs.le.trans hst)]
  have ks : keptValue true t (u s) = u s := by simp [keptValue, not_lt.2 hst]
  have hdiff : ∃ r ∈ ovo, ∃ q ∈ ovo, keptValue v.asc t (u r) ≠ keptValue v.asc t (u q) := by
    refine ⟨r, hr, q, hq, ?_⟩
    rw [hasc, kr, kq]
    exact hrq.ne
  obtain ⟨m, M, ⟨a, ha, hm⟩, _, hlt, hbd, hshow⟩ := graph_widths h ho hd hu hc ht hW hdiff
  rw [hasc] at hm hbd hshow
  have hm0 : m = 0 := le_antisymm (by rw [← kr]; exact (hbd r hr).1) (by rw [hm]; exact kn a ha)
  subst hm0
  have hM : u q < M := hqs.trans_le (by rw [← ks]; exact (hbd s hs).2)
  refine ⟨_, hshow, ?_, ?_⟩
  · simp only [kr, widthOf]
    simp
  · simp only [kq, widthOf, true_and, sub_zero]
    rw [if_pos (div_pos hrq hlt)]
    exact mul_pos (sub_pos.2 ((div_lt_one hlt).2 hM)) hW0

end Widths

/-! ## C56: labels of edges, C78: sizes of nodes -/

section Labels
variable {F I K : Type} [LinearOrder F] [Field K] [LinearOrder K] [IsStrictOrderedRing K]

/-- a pair that is to be taken note of: a positive value that is not below the threshold -/
def Significant (t : K) (r : OvoRow F K) : Bool := !Num.lt r.val (.fin t) && Num.lt (.fin 0) r.val

theorem filter_significant (t : K) (ovo : List (OvoRow F K)) :
    (filterInsignificant false t ovo).filter (fun r => Num.lt (.fin 0) r.val) = ovo.filter (Significant t) := by
  unfold filterInsignificant
  induction ovo with
  | nil => rfl
  | cons r ovo ih =>
    rw [List.map_cons, List.filter_cons, List.filter_cons, ih]
    simp only [significant, Bool.false_eq_true, if_false, Significant]
    by_cases h : Num.lt r.val (.fin t) = true
    · simp only [h, if_true, lt_fin, lt_irrefl, decide_false, Bool.false_eq_true, if_false, Bool.not_true, Bool.false_and]
    · rw [if_neg h]
      simp [h]

/-- **C56** The labelled edges are at most `n_highest_with_labels` rows of the table, each with a positive value that is not
below the threshold; no row of this kind that is left without label is stronger than a labelled one, and there are such rows
only if the number of labels is exhausted. (Methods where smaller is stronger: no labels at all.) -/
theorem C56_labels {v : View F I K} {E : VisEnv F K} (hE : SortsBy OvoRow.val false E.sortDesc) {title : String} {o : Opts K}
    {sub : SubOpts K} {ps : List (Panel F I K)} (h : v.plot E "graph" title o sub = .ok ps) {ovo : List (OvoRow F K)}
    (ho : v.ovo = some ovo) {cfg : VisConfig K} (hc : configGet v.name = .ok cfg) {t : K} {n : Nat}
    (ht : t = o.threshold.getD cfg.graph.threshold) (hn : (n : Int) = o.nHighest.getD cfg.graph.nHighest) :
    ∃ ti edges nodes labels rest, ps = [.graph ti v.directed edges nodes labels] ∧ labels.length ≤ n ∧
      (v.asc = true → labels = []) ∧
      (v.asc = false → (labels ++ rest).Perm (ovo.filter (Significant t)) ∧
        (∀ l ∈ labels, ∀ r ∈ rest, Num.le r.val l.val = true) ∧ (rest ≠ [] → labels.length = n)) := by
  obtain ⟨ovo', cfg', nodes, ho', hc', _, rfl⟩ := graph_inv h
  rw [ho] at ho'; cases ho'
  rw [hc] at hc'; cases hc'
  rw [← ht, ← hn]
  generalize hl : (E.sortDesc (filterInsignificant v.asc t ovo)).filter (fun r => Num.lt (.fin 0) r.val) = l
  have hlab : edgeLabels E (n : Int) (filterInsignificant v.asc t ovo) = l.take n := by
    unfold edgeLabels pyHead
    rw [if_pos (by omega), hl]
    rfl
  refine ⟨_, _, nodes, _, l.drop n, rfl, ?_, ?_, ?_⟩
  · split
    · simp
    · rw [hlab, List.length_take]; omega
  · intro ha; rw [if_pos ha]
  · intro ha
    rw [if_neg (by simp [ha]), hlab, List.take_append_drop]
    obtain ⟨hp, hpw⟩ := hE (filterInsignificant v.asc t ovo)
    have hpl : l.Pairwise (fun a b => Num.keyLE false a.val b.val = true) := by rw [← hl]; exact hpw.filter _
    have hpos : ∀ r ∈ l, r.val ≠ .nan := by
      intro r hr e
      rw [← hl, List.mem_filter, e] at hr
      exact absurd hr.2 (by simp [Num.lt, Num.le])
    refine ⟨?_, ?_, ?_⟩
    · rw [← hl]
      refine (hp.filter _).trans (List.Perm.of_eq ?_)
      rw [ha]
      exact filter_significant t ovo
    · intro a hat b hbd
      have h1 := hpl
      rw [← List.take_append_drop n l, List.pairwise_append] at h1
      have h2 := h1.2.2 a hat b hbd
      have ha' := hpos a (List.mem_of_mem_take hat)
      have hb' := hpos b (List.mem_of_mem_drop hbd)
      unfold Num.keyLE at h2
      rw [if_neg (fun e => hb' ((Num.isNaN_iff _).1 e)), if_neg (fun e => ha' ((Num.isNaN_iff _).1 e))] at h2
      simpa using h2
    · intro hd
      rw [List.length_take]
      have : n < l.length := by
        by_contra hlt
        exact hd (List.drop_eq_nil_of_le (by omega))
      omega

/-- **C78, partial** The nodes of the graph are the features of the importance table, in its order; the feature with the
greatest importance value has the full size, and a greater importance value means a larger node.
Missing: for conditional minimal depth a smaller importance value means a more important feature, see `C78_reversed`. -/
theorem C78_sizes_partial {v : View F I K} {E : VisEnv F K} {title : String} {o : Opts K} {sub : SubOpts K}
    {ps : List (Panel F I K)} (h : v.plot E "graph" title o sub = .ok ps) {imp : List (FeatRow F K)} (hi : v.imp = some imp)
    {u : FeatRow F K → K} (hu : ∀ r ∈ imp, r.val = .fin (u r)) (hpos : ∃ r ∈ imp, 0 < u r) :
    ∃ ti edges labels, ∃ size : FeatRow F K → K, ps = [.graph ti v.directed edges (some (imp.map (fun r => (r.f, .fin (size r))))) labels] ∧
      (∀ r ∈ imp, size r ≤ 1) ∧ (∀ r ∈ imp, (∀ q ∈ imp, u q ≤ u r) → size r = 1) ∧
      (∀ r ∈ imp, ∀ q ∈ imp, u r < u q ↔ size r < size q) := by
  obtain ⟨ovo, cfg, nodes, _, _, hn, rfl⟩ := graph_inv h
  rw [hi] at hn
  unfold graphNodes at hn
  simp only [] at hn
  split at hn
  · cases hn
    obtain ⟨r0, hr0, hr0p⟩ := hpos
    have he : imp.map FeatRow.val = imp.map (fun r => .fin (u r)) := List.map_congr_left hu
    obtain ⟨a, ha, hmax, hle⟩ := maxSkip_fin imp u (List.ne_nil_of_mem hr0)
    rw [he, hmax]
    have hap : 0 < u a := hr0p.trans_le (hle r0 hr0)
    have hnodes : imp.map (fun r => (r.f, Num.div r.val (.fin (u a)))) = imp.map (fun r => (r.f, .fin (u r / u a))) := by
      refine List.map_congr_left fun r hr => ?_
      rw [hu r hr]
      simp [Num.div, hap.ne']
    rw [hnodes]
    refine ⟨_, _, _, fun r => u r / u a, rfl, ?_, ?_, ?_⟩
    · intro r hr; exact (div_le_one hap).2 (hle r hr)
    · intro r hr hm
      rw [div_eq_one_iff_eq hap.ne']
      exact le_antisymm (hle r hr) (hm a ha)
    · intro r _ q _
      exact (div_lt_div_iff_of_pos_right hap).symm
  · cases hn

/-- **C78 fails** where a smaller importance value means a more important feature (`importance_ascending_order`): the more
important of two features gets the smaller node. -/
theorem C78_reversed {v : View F I K} (hasc : v.impAsc = some true) {E : VisEnv F K} {title : String} {o : Opts K} {sub : SubOpts K}
    {ps : List (Panel F I K)} (h : v.plot E "graph" title o sub = .ok ps) {imp : List (FeatRow F K)} (hi : v.imp = some imp)
    {u : FeatRow F K → K} (hu : ∀ r ∈ imp, r.val = .fin (u r)) (hpos : ∃ r ∈ imp, 0 < u r) {r q : FeatRow F K} (hr : r ∈ imp)
    (hq : q ∈ imp) (hlt : u r < u q) :
    ∃ ti edges nodes labels x y, ps = [.graph ti v.directed edges (some nodes) labels] ∧ (r.f, .fin x) ∈ nodes ∧
      (q.f, .fin y) ∈ nodes ∧ x < y := by
  obtain ⟨ti, edges, labels, size, rfl, _, _, h3⟩ := C78_sizes_partial h hi hu hpos
  exact ⟨ti, edges, _, labels, size r, size q, rfl, List.mem_map.2 ⟨r, hr, rfl⟩, List.mem_map.2 ⟨q, hq, rfl⟩, (h3 r hr q hq).1 hlt⟩

end Labels

/-! ## Cases -/

section Cases

/-- a visualizer with stable sorting -/
def exVis : VisEnv (Fin 4) ℚ where
  lower := id
  sortIdx := stableSort
  sortDesc := stableSort OvoRow.val false

theorem exVis_lawful : (∀ key asc, SortsBy key asc (exVis.sortIdx key asc)) ∧ SortsBy OvoRow.val false exVis.sortDesc :=
  ⟨fun key asc => sortsBy_stableSort key asc, sortsBy_stableSort _ _⟩

/-- a method object with given tables -/
def exShow (name : String) (rows : List (OvoRow (Fin 4) ℚ)) (imp : Option (List (FeatRow (Fin 4) ℚ))) (asc directed : Bool) :
    View (Fin 4) Unit ℚ where
  name := name
  ovo := some rows
  ova := none
  imp := imp
  impAsc := some asc
  asc := asc
  directed := directed
  full := none
  needsOva := false
  cmp := .ok rows

/-- what a single graph shows: edges, nodes, labelled edges with values -/
def graphOf (r : Except Err (List (Panel (Fin 4) Unit ℚ))) :
    Option (List ((Fin 4 × Fin 4) × Num ℚ) × Option (List (Fin 4 × Num ℚ)) × List (OvoRow (Fin 4) ℚ)) :=
  match r with
  | .ok [.graph _ _ edges nodes labels] => some (edges, nodes, labels)
  | _ => none

theorem graphOf_some {r : Except Err (List (Panel (Fin 4) Unit ℚ))} {x} (h : graphOf r = some x) :
    ∃ ti d, r = .ok [.graph ti d x.1 x.2.1 x.2.2] := by
  unfold graphOf at h
  split at h
  · cases h; exact ⟨_, _, rfl⟩
  · cases h

def exRowsH : List (OvoRow (Fin 4) ℚ) := [⟨0, 1, .fin (8 / 10)⟩, ⟨0, 2, .fin (5 / 10)⟩, ⟨1, 2, .fin (1 / 100)⟩]
def exImpH : List (FeatRow (Fin 4) ℚ) := [⟨0, .fin 4⟩, ⟨1, .fin 2⟩, ⟨2, .fin 1⟩]

/-- C54, C56, C78 on a table with one pair below the threshold -/
example :
    let g := graphOf ((exShow greenwellName exRowsH (some exImpH) false false).plot exVis "graph" "default" { nHighest := some 1 } [])
    g.map (·.1) = some [((0, 1), .fin 20), ((0, 2), .fin (25 / 2)), ((1, 2), .fin 0)] ∧
    g.map (·.2.1) = some (some [(0, .fin 1), (1, .fin (1 / 2)), (2, .fin (1 / 4))]) ∧
    g.map (·.2.2) = some [⟨0, 1, .fin (8 / 10)⟩] := by
  refine ⟨?_, ?_, ?_⟩ <;> decide +kernel

example : OncePerPair exRowsH := by
  unfold OncePerPair SamePair OvoRow.isPair
  decide +kernel

/-- the hypotheses of `C54_widths_partial` hold here -/
example : ∃ ps w, (exShow greenwellName exRowsH (some exImpH) false false).plot exVis "graph" "default" {} [] = .ok ps ∧
    ShowsWidths false exRowsH ps w ∧ ∀ r ∈ exRowsH, 0 ≤ w r ∧ w r ≤ 20 := by
  have hs : (graphOf ((exShow greenwellName exRowsH (some exImpH) false false).plot exVis "graph" "default" {} [])).isSome = true := by
    decide +kernel
  obtain ⟨x, hx⟩ := Option.isSome_iff_exists.1 hs
  obtain ⟨ti, d, h⟩ := graphOf_some hx
  obtain ⟨w, h1, h2, _⟩ := C54_widths_partial (v := exShow greenwellName exRowsH (some exImpH) false false) rfl h
    (ovo := exRowsH) rfl (distinctEdges_of_once (by unfold OncePerPair SamePair OvoRow.isPair; decide +kernel))
    (u := fun r => Num.toK r.val) (by decide +kernel) (cfg := ⟨["summary", "graph", "bar_chart", "heatmap"], .default⟩) rfl
    rfl rfl (by decide +kernel) (Or.inr (by decide +kernel))
    ⟨⟨0, 1, .fin (8 / 10)⟩, by decide +kernel, ⟨1, 2, .fin (1 / 100)⟩, by decide +kernel, by decide +kernel⟩
  exact ⟨_, w, h, h1, h2⟩

/-- **C54 fails** for infinite values (the H-statistic can be infinite, see C66): the strongest pair has no width at all. -/
theorem C54_infinite_fails : ∃ (v : View (Fin 4) Unit ℚ) (rows : List (OvoRow (Fin 4) ℚ)), v.ovo = some rows ∧ v.asc = false ∧
    v.name = hStatName ∧ OncePerPair rows ∧ (∀ r ∈ rows, ∀ x, r.val = .fin x → 0 ≤ x) ∧
    (graphOf (v.plot exVis "graph" "default" {} [])).map Prod.fst =
      some [((0, 1), .nan), ((0, 2), .fin 0), ((1, 2), .fin 0)] ∧ (⟨0, 1, .pinf⟩ : OvoRow (Fin 4) ℚ) ∈ rows := by
  refine ⟨exShow hStatName [⟨0, 1, .pinf⟩, ⟨0, 2, .fin (5 / 10)⟩, ⟨1, 2, .fin (1 / 10)⟩] none false false, _, rfl, rfl, rfl, ?_, ?_, ?_, ?_⟩
  · unfold OncePerPair SamePair OvoRow.isPair
    decide +kernel
  · intro r hr x hx
    simp only [List.mem_cons, List.not_mem_nil, or_false] at hr
    rcases hr with rfl | rfl | rfl <;> cases hx <;> norm_num
  · decide +kernel
  · decide +kernel

/-- **C54 fails** for tables with negative values and a negative threshold: the weakest pair gets the widest edge. -/
theorem C54_negative_threshold_fails : ∃ (v : View (Fin 4) Unit ℚ) (rows : List (OvoRow (Fin 4) ℚ)), v.ovo = some rows ∧
    v.asc = false ∧ OncePerPair rows ∧ rows = [⟨0, 1, .fin (-1)⟩, ⟨0, 2, .fin (-2)⟩, ⟨1, 2, .fin (-5)⟩] ∧
    (graphOf (v.plot exVis "graph" "default" { threshold := some (-3) } [])).map Prod.fst =
      some [((0, 1), .fin 10), ((0, 2), .fin 0), ((1, 2), .fin 20)] := by
  refine ⟨exShow hStatName [⟨0, 1, .fin (-1)⟩, ⟨0, 2, .fin (-2)⟩, ⟨1, 2, .fin (-5)⟩] none false false, _, rfl, rfl, ?_, rfl, ?_⟩
  · unfold OncePerPair SamePair OvoRow.isPair
    decide +kernel
  · decide +kernel

/-- C55 where it holds: the last pair is removed -/
example : (graphOf ((exShow cmdName [⟨0, 1, .fin (1 / 10)⟩, ⟨1, 0, .fin (2 / 10)⟩, ⟨2, 0, .fin (4 / 10)⟩, ⟨0, 2, .fin 1⟩] none true true).plot
    exVis "graph" "default" {} [])).map Prod.fst =
    some [((0, 1), .fin (9 / 4)), ((1, 0), .fin (3 / 2)), ((2, 0), .fin 0), ((0, 2), .fin 0)] := by
  decide +kernel

/-- **C55 fails**, a case of `C55_strongest_hidden`: nothing is removed. -/
theorem C55_fails : (graphOf ((exShow cmdName [⟨0, 1, .fin (1 / 10)⟩, ⟨1, 0, .fin (2 / 10)⟩, ⟨2, 0, .fin (4 / 10)⟩] none true true).plot
    exVis "graph" "default" {} [])).map Prod.fst =
    some [((0, 1), .fin 0), ((1, 0), .fin 2), ((2, 0), .fin 0)] := by
  decide +kernel

/-- a case of `C55_zero_hidden`: the value 0 -/
example : (graphOf ((exShow cmdName [⟨0, 1, .fin 0⟩, ⟨1, 0, .fin (2 / 10)⟩, ⟨2, 0, .fin (4 / 10)⟩, ⟨0, 2, .fin 1⟩] none true true).plot
    exVis "graph" "default" {} [])).map Prod.fst =
    some [((0, 1), .fin 0), ((1, 0), .fin (3 / 2)), ((2, 0), .fin 0), ((0, 2), .fin 0)] := by
  decide +kernel

/-- C53: a request another method has -/
example : (exShow greenwellName exRowsH none false false).plot exVis "lollipop" "default" {} [] = .error .visualizationNotSupported := by
  rfl

end Cases

end Artemis
