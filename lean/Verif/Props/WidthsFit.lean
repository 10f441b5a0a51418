import Verif.Props.PlotFit

/-!
# Property C55 after `fit`

The edges of the interaction graph of conditional minimal depth, in terms of the columns of the data.
-/

set_option linter.unusedSectionVars false
set_option linter.unusedVariables false
set_option linter.unusedSimpArgs false

namespace Artemis
open Spec

variable {F I J K : Type} [LinearOrder F] [LinearOrder I] [LinearOrder J] [Field K] [LinearOrder K] [IsStrictOrderedRing K]

/-- **C55** after `fit` of conditional minimal depth on a forest that uses each of its at least two columns: if the values `d` of the table are positive,
and the threshold `t` removes some pairs and keeps some, the graph has an edge for each ordered pair of different columns and no other; widths are
between 0 and the maximal width `W`; removed pairs get width 0, and among the pairs kept a smaller value means a wider edge. -/
theorem C55_after_fit_partial (E : CmdEnv F J K) (hE : SortsCmd E.sortOvo) (hI : SortsBy ImpRow.val true E.sortImp) {m : Forest F}
    {ts : List LTree} (h : ForestOf m ts) (htwo : 2 ≤ m.columns.length) (hused : ∀ i < m.columns.length, ∃ t ∈ ts, Uses t i)
    (s0 : CmdMethod F K) (E' : VisEnv F K) (title : String) (o : Opts K) (sub : SubOpts K) {cfg : VisConfig K}
    (hc : configGet cmdName = .ok cfg) {t W : K} (ht : t = o.threshold.getD cfg.graph.threshold)
    (hW : W = o.maxEdgeWidth.getD cfg.graph.maxEdgeWidth) (hW0 : 0 < W) {d : F → F → K} {rows : List (CmdRow F K)}
    (hrows : (CmdMethod.fit E m s0).2.ovo = some rows) (hd : ∀ r ∈ rows, r.val = .fin (d r.root r.var))
    (hpos : ∀ f ∈ m.columns, ∀ g ∈ m.columns, f ≠ g → 0 < d f g)
    (hrem : ∃ f ∈ m.columns, ∃ g ∈ m.columns, f ≠ g ∧ t < d f g) (hkept : ∃ f ∈ m.columns, ∃ g ∈ m.columns, f ≠ g ∧ d f g ≤ t) :
    ∃ ti edges nodes labels, ∃ w : F → F → K,
      (CmdMethod.view (I := I) E (CmdMethod.fit E m s0).2).plot E' "graph" title o sub = .ok [.graph ti true edges nodes labels] ∧
      (Dict.keys edges).Nodup ∧ (∀ k ∈ Dict.keys edges, k.1 ∈ m.columns ∧ k.2 ∈ m.columns ∧ k.1 ≠ k.2) ∧
      (∀ f ∈ m.columns, ∀ g ∈ m.columns, f ≠ g → Dict.get? edges (f, g) = some (.fin (w f g)) ∧ 0 ≤ w f g ∧ w f g ≤ W ∧
        (t < d f g → w f g = 0) ∧
        (∀ f' ∈ m.columns, ∀ g' ∈ m.columns, f' ≠ g' → d f g ≤ t → d f' g' ≤ t → (d f g ≤ d f' g' ↔ w f' g' ≤ w f g))) := by
  obtain ⟨t0, ht0, hu0⟩ := hused 0 (by omega)
  have hts : ts ≠ [] := List.ne_nil_of_mem ht0
  have hcne : m.columns ≠ [] := by intro e; rw [e] at htwo; simp at htwo
  obtain ⟨rows', ho, _, hfeat, hrow, _⟩ := C36_table E hE h hts hcne s0
  rw [hrows] at ho
  cases ho
  obtain ⟨_, ps, hps⟩ := C59_cmd_all_used (I := I) E hE hI h htwo hused s0 E' (visType := "graph") (Or.inr (Or.inr (Or.inl rfl))) title o sub
  have hov : (CmdMethod.view (I := I) E (CmdMethod.fit E m s0).2).ovo = some (rows.map CmdRow.toOvo) := by
    simp only [CmdMethod.view, hrows, Option.map_some]
  have hdist : DistinctEdges true (rows.map CmdRow.toOvo) := by
    unfold DistinctEdges
    rw [List.pairwise_map]
    exact (cmd_distinct hfeat hrow).imp fun hne => ⟨hne, fun e => by cases e⟩
  have hu : ∀ r ∈ rows.map CmdRow.toOvo, r.val = .fin (d r.f1 r.f2) := by
    intro r hr
    obtain ⟨q, hq, rfl⟩ := List.mem_map.1 hr
    exact hd q hq
  -- the row of an ordered pair
  have hfind : ∀ f ∈ m.columns, ∀ g ∈ m.columns, f ≠ g → ∃ r ∈ rows.map CmdRow.toOvo, r.f1 = f ∧ r.f2 = g := by
    intro f hf g hg hne
    obtain ⟨i, hi'⟩ := List.getElem?_of_mem hf
    obtain ⟨j, hj⟩ := List.getElem?_of_mem hg
    obtain ⟨q, hq, _⟩ := hrow i j _ _ hi' hj hne
    have hm : q ∈ rows.filter (fun r => decide (r.root = f ∧ r.var = g)) := by rw [hq]; simp
    obtain ⟨h1, h2⟩ := List.mem_filter.1 hm
    exact ⟨q.toOvo, List.mem_map_of_mem h1, of_decide_eq_true h2⟩
  have hin : ∀ r ∈ rows.map CmdRow.toOvo, r.f1 ∈ m.columns ∧ r.f2 ∈ m.columns ∧ r.f1 ≠ r.f2 := by
    intro r hr
    obtain ⟨q, hq, rfl⟩ := List.mem_map.1 hr
    exact hfeat q hq
  have hpos' : ∀ r ∈ rows.map CmdRow.toOvo, 0 < d r.f1 r.f2 := fun r hr => hpos _ (hin r hr).1 _ (hin r hr).2.1 (hin r hr).2.2
  have hrem' : ∃ r ∈ rows.map CmdRow.toOvo, t < d r.f1 r.f2 := by
    obtain ⟨f, hf, g, hg, hne, hlt⟩ := hrem
    obtain ⟨r, hr, rfl, rfl⟩ := hfind f hf g hg hne
    exact ⟨r, hr, hlt⟩
  have hkept' : ∃ r ∈ rows.map CmdRow.toOvo, d r.f1 r.f2 ≤ t := by
    obtain ⟨f, hf, g, hg, hne, hlt⟩ := hkept
    obtain ⟨r, hr, rfl, rfl⟩ := hfind f hf g hg hne
    exact ⟨r, hr, hlt⟩
  obtain ⟨w, hw, hord, hz⟩ := C55_order_partial rfl hps hov hdist (u := fun r => d r.f1 r.f2) hu hc ht hW hW0 hpos' hrem' hkept'
  obtain ⟨w', hw', hb⟩ := C55_bounds rfl hps hov hdist (u := fun r => d r.f1 r.f2) hu hc ht hW hW0.le (by
    obtain ⟨r, hr, hlt⟩ := hrem'
    obtain ⟨q, hq, hle⟩ := hkept'
    refine ⟨r, hr, q, hq, ?_⟩
    have := hpos' q hq
    simp only [keptValue, if_true]
    rw [if_pos hlt, if_neg (not_lt.2 hle)]
    exact this.ne)
  obtain ⟨ti, edges, nodes, labels, rfl, e1, e2, e3⟩ := hw
  obtain ⟨_, _, _, _, e, f1, _⟩ := hw'
  cases e
  have hww : ∀ r ∈ rows.map CmdRow.toOvo, w' r = w r := by
    intro r hr
    have := e1 r hr
    rw [f1 r hr] at this
    exact Num.fin.inj (Option.some.inj this)
  have hval : ∀ r ∈ rows.map CmdRow.toOvo, r = ⟨r.f1, r.f2, .fin (d r.f1 r.f2)⟩ := by
    intro r hr
    have := hu r hr
    cases r
    simp_all
  refine ⟨ti, edges, nodes, labels, fun f g => w ⟨f, g, .fin (d f g)⟩, hps, e3, ?_, ?_⟩
  · intro k hk
    obtain ⟨r, hr, rfl⟩ := e2 k hk
    exact hin r hr
  · intro f hf g hg hne
    obtain ⟨r, hr, rfl, rfl⟩ := hfind f hf g hg hne
    have er := hval r hr
    simp only [← er]
    refine ⟨e1 r hr, by rw [← hww r hr]; exact (hb r hr).1, by rw [← hww r hr]; exact (hb r hr).2, hz r hr, ?_⟩
    intro f' hf' g' hg' hne' h1 h2
    obtain ⟨q, hq, rfl, rfl⟩ := hfind f' hf' g' hg' hne'
    rw [← hval q hq]
    exact hord r hr q hq h1 h2

section Cases
open Ex

/-- three splits on column 0 above one on column 1, and the same tree as scikit-learn stores it -/
def exPlumb : LTree := .node 0 0 (.leaf 1) (.node 2 0 (.leaf 3) (.node 4 0 (.leaf 5) (.node 6 1 (.leaf 7) (.leaf 8))))
def exPlumbA : SkTree := [⟨1, 2, 0⟩, ⟨-1, -1, -2⟩, ⟨3, 4, 0⟩, ⟨-1, -1, -2⟩, ⟨5, 6, 0⟩, ⟨-1, -1, -2⟩, ⟨7, 8, 1⟩, ⟨-1, -1, -2⟩, ⟨-1, -1, -2⟩]
def exPlumbForest : Forest (List Nat) := ⟨[[97], [98]], [exPlumbA]⟩

theorem exPlumb_of : ForestOf exPlumbForest [exPlumb] := by
  refine ⟨by decide, .cons ⟨⟨rfl, ?_, List.Perm.refl _⟩, rfl⟩ .nil, ?_⟩
  · simp [exPlumb, exPlumbA, LTree.Stores, LTree.id]
  · intro t ht f hf
    rw [List.mem_singleton.1 ht] at hf
    obtain ⟨k, s, h, hs⟩ := hf
    unfold exPlumb at h
    show f < 2
    cases h with
    | here => simp [LTree.Splits] at hs; omega
    | left h => cases h; cases hs
    | right h => cases h with
      | here => simp [LTree.Splits] at hs; omega
      | left h => cases h; cases hs
      | right h => cases h with
        | here => simp [LTree.Splits] at hs; omega
        | left h => cases h; cases hs
        | right h => cases h with
          | here => simp [LTree.Splits] at hs; omega
          | left h => cases h; cases hs
          | right h => cases h; cases hs

/-- the values are 2 and 1; with threshold 3/2 the pair with the value 2 is removed -/
example : ∃ ti edges nodes labels, ∃ w : ℚ, (CmdMethod.view (I := Nat) (exCmdEnv ℚ) (CmdMethod.fit (exCmdEnv ℚ) exPlumbForest CmdMethod.new).2).plot
    exVisList "graph" "default" { threshold := some (3 / 2) } [] = .ok [.graph ti true edges nodes labels] ∧ w = 0 ∧
    Dict.get? edges ([97], [98]) = some (.fin w) := by
  have hv : (CmdMethod.fit (exCmdEnv ℚ) exPlumbForest CmdMethod.new).2.ovo.map (fun t => t.map fun r => (r.root, r.val)) =
      some [([97], .fin 2), ([98], .fin 1)] := by decide +kernel
  obtain ⟨rows, hrows⟩ : ∃ rows, (CmdMethod.fit (exCmdEnv ℚ) exPlumbForest CmdMethod.new).2.ovo = some rows := by
    cases e : (CmdMethod.fit (exCmdEnv ℚ) exPlumbForest CmdMethod.new).2.ovo with
    | none => rw [e] at hv; cases hv
    | some rows => exact ⟨rows, rfl⟩
  rw [hrows] at hv
  have hd : ∀ r ∈ rows, r.val = .fin (if r.root = [97] then 2 else 1 : ℚ) := by
    intro r hr
    have : (r.root, r.val) ∈ [([97], Num.fin (2 : ℚ)), ([98], .fin 1)] := by
      rw [← Option.some.inj hv]
      exact List.mem_map_of_mem (f := fun r : CmdRow (List Nat) ℚ => (r.root, r.val)) hr
    simp only [List.mem_cons, Prod.mk.injEq, List.not_mem_nil, or_false] at this
    rcases this with ⟨e1, e2⟩ | ⟨e1, e2⟩ <;> simp [e1, e2]
  obtain ⟨ti, e, n, l, w, h, _, _, hw⟩ := C55_after_fit_partial (I := Nat) (exCmdEnv ℚ) sortsCmd_cmdSort (sortsBy_stableSort _ _) exPlumb_of (by decide)
    (by
      intro i hi
      have : i = 0 ∨ i = 1 := by have : i < 2 := hi; omega
      rcases this with rfl | rfl
      · exact ⟨exPlumb, by simp, 0, _, .here _, rfl⟩
      · exact ⟨exPlumb, by simp, 3, _, .right (.right (.right (.here _))), rfl⟩)
    CmdMethod.new exVisList "default" { threshold := some (3 / 2) } [] (cfg := _) rfl (t := 3 / 2) rfl (W := _) rfl (by decide +kernel)
    (d := fun f _ => if f = [97] then 2 else 1) (rows := rows) (by convert hrows) hd
    (by intro f _ g _ _; split <;> norm_num) ⟨[97], by decide, [98], by decide, by decide, by norm_num⟩
    ⟨[98], by decide, [97], by decide, by decide, by norm_num⟩
  obtain ⟨h1, h0, _, h2, _⟩ := hw [97] (by decide) [98] (by decide) (by decide)
  exact ⟨ti, e, n, l, w [97] [98], by convert h, h2 (by norm_num), by convert h1⟩

end Cases

end Artemis
