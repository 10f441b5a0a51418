import Verif.Props.Heatmap

/-!
# C163: one edge per pair in an undirected interaction graph
-/

set_option linter.unusedSectionVars false
set_option linter.unusedVariables false
set_option linter.unusedSimpArgs false

namespace Artemis
open Spec

section Dictionary
variable {F K : Type} [LinearOrder F]

/-- Adding the edges of `rows` one after the other leaves one edge per pair of features, under one of the two orders of the pair, with
the value of the last row about it. -/
structure OneEdge (rows : List (OvoRow F K)) (G : Dict (F × F) (Num K)) : Prop where
  nodup : (Dict.keys G).Nodup
  once : ∀ a b, (a, b) ∈ Dict.keys G → (b, a) ∈ Dict.keys G → a = b
  sound : ∀ k ∈ Dict.keys G, ∃ r ∈ rows, r.isPair k.1 k.2
  last : ∀ r ∈ rows, ∃ k, (k = (r.f1, r.f2) ∨ k = (r.f2, r.f1)) ∧ ∃ pre q post, rows = pre ++ q :: post ∧ SamePair q r ∧
    (∀ p ∈ post, ¬ SamePair p r) ∧ Dict.get? G k = some q.val

theorem edgeDict_one (rows : List (OvoRow F K)) : OneEdge rows (edgeDict false rows) := by
  induction rows using List.reverseRecOn with
  | nil =>
    exact ⟨List.nodup_nil, fun a b h => (List.not_mem_nil h).elim, fun k h => (List.not_mem_nil h).elim,
      fun r hr => (List.not_mem_nil hr).elim⟩
  | append_singleton rows x ih =>
    have e : edgeDict false (rows ++ [x]) = Dict.set (edgeDict false rows) (edgeKey false (edgeDict false rows) x) x.val := by
      unfold edgeDict
      rw [List.foldl_append]
      rfl
    rw [e]
    generalize edgeDict false rows = G at ih ⊢
    -- the key is one of the two orders, and the other one is not in the dictionary
    have key : ∃ k, edgeKey false G x = k ∧ (k = (x.f1, x.f2) ∨ k = (x.f2, x.f1)) ∧ (k.swap ∈ Dict.keys G → k.1 = k.2) := by
      refine ⟨_, rfl, ?_⟩
      unfold edgeKey
      cases h1 : Dict.get? G (x.f1, x.f2) with
      | some y =>
        simp only [Bool.not_false, Option.isNone_some, Bool.and_false, Bool.false_and, Bool.false_eq_true, if_false, true_or, true_and]
        intro h
        have : (x.f1, x.f2) ∈ Dict.keys G := by rw [← Dict.get?_isSome_iff, h1]; rfl
        exact ih.once _ _ this h
      | none =>
        cases h2 : Dict.get? G (x.f2, x.f1) with
        | some y =>
          simp only [Bool.not_false, Option.isNone_none, Option.isSome_some, Bool.and_true, if_true, or_true, true_and]
          intro h
          have h : (x.f1, x.f2) ∈ Dict.keys G := h
          rw [← Dict.get?_isSome_iff, h1] at h
          cases h
        | none =>
          simp only [Bool.not_false, Option.isNone_none, Option.isSome_none, Bool.and_false, Bool.false_eq_true, if_false, true_or,
            true_and]
          intro h
          have h : (x.f2, x.f1) ∈ Dict.keys G := h
          rw [← Dict.get?_isSome_iff, h2] at h
          cases h
    obtain ⟨k, ek, hk, hswap⟩ := key
    rw [ek]
    have same : ∀ a b : F, (a, b) = k → x.isPair a b := by
      intro a b h
      rcases hk with rfl | rfl
      · cases h; exact Or.inl ⟨rfl, rfl⟩
      · cases h; exact Or.inr ⟨rfl, rfl⟩
    refine ⟨Dict.nodup_keys_set ih.nodup _ _, ?_, ?_, ?_⟩
    · intro a b ha hb
      rw [Dict.mem_keys_set] at ha hb
      rcases ha with ha | ha
      · rcases hb with hb | hb
        · rw [← ha] at hb; exact (Prod.mk.inj hb).2
        · rw [← ha] at hswap; exact hswap hb
      · rcases hb with hb | hb
        · rw [← hb] at hswap; exact (hswap ha).symm
        · exact ih.once a b ha hb
    · intro j hj
      rw [Dict.mem_keys_set] at hj
      rcases hj with rfl | hj
      · exact ⟨x, by simp, same _ _ rfl⟩
      · obtain ⟨r, hr, h⟩ := ih.sound j hj
        exact ⟨r, List.mem_append_left _ hr, h⟩
    · intro r hr
      by_cases hs : SamePair x r
      · refine ⟨k, ?_, rows, x, [], rfl, hs, fun p hp => (List.not_mem_nil hp).elim, ?_⟩
        · rcases hs with ⟨h1, h2⟩ | ⟨h1, h2⟩ <;> rw [h1, h2] at hk
          · exact hk
          · exact hk.symm
        · rw [Dict.get?_set, if_pos rfl]
      · have hr' : r ∈ rows := by
          rcases List.mem_append.1 hr with h | h
          · exact h
          · rw [List.mem_singleton] at h
            subst h
            exact absurd (Or.inl ⟨rfl, rfl⟩) hs
        obtain ⟨j, hj, pre, q, post, h1, h2, h3, h4⟩ := ih.last r hr'
        refine ⟨j, hj, pre, q, post ++ [x], by rw [h1, List.append_assoc, List.cons_append], h2, ?_, ?_⟩
        · intro p hp
          rcases List.mem_append.1 hp with hp | hp
          · exact h3 p hp
          · rw [List.mem_singleton] at hp; subst hp; exact hs
        · rw [Dict.get?_set, if_neg, h4]
          intro hjk
          apply hs
          rcases hj with rfl | rfl
          · exact same _ _ hjk
          · exact (same _ _ hjk).symm

end Dictionary

section Graph
variable {F I K : Type} [LinearOrder F] [Field K] [LinearOrder K] [IsStrictOrderedRing K]

/-- the width belonging to an interaction value `x`, where `m` and `M` are the least and the greatest value after thresholding -/
def widthFor (asc : Bool) (t W : K) (m M x : Num K) : Num K :=
  let s := Num.div (Num.sub (significant asc t x) m) (Num.sub M m)
  Num.mul (if asc = true ∧ Num.lt (.fin 0) s = true then Num.sub (.fin 1) s else s) (.fin W)

theorem edgeWidths_eq (asc : Bool) (t W : K) (ovo : List (OvoRow F K)) :
    edgeWidths asc W (filterInsignificant asc t ovo) = ovo.map (fun r => ⟨r.f1, r.f2,
      widthFor asc t W (minSkip (ovo.map (fun r => significant asc t r.val))) (maxSkip (ovo.map (fun r => significant asc t r.val))) r.val⟩) := by
  unfold edgeWidths mapToWidth reverseScale scaleToUnit filterInsignificant
  cases asc <;> simp only [List.map_map, if_true, Bool.false_eq_true, if_false] <;>
    · refine List.map_congr_left fun r _ => ?_
      simp [widthFor, Function.comp_def]

/-- **C163** In an undirected interaction graph every pair of features of the table has exactly one edge, and no other pair has one; if
a pair is listed more than once, in the same or in the opposite order, the width is that of the row listed last. -/
theorem C163_one_edge {v : View F I K} (hdir : v.directed = false) {E : VisEnv F K} {title : String} {o : Opts K} {sub : SubOpts K}
    {ps : List (Panel F I K)} (h : v.plot E "graph" title o sub = .ok ps) {ovo : List (OvoRow F K)} (ho : v.ovo = some ovo) {cfg : VisConfig K}
    (hc : configGet v.name = .ok cfg) {t W : K} (ht : t = o.threshold.getD cfg.graph.threshold)
    (hW : W = o.maxEdgeWidth.getD cfg.graph.maxEdgeWidth) :
    ∃ ti edges nodes labels m M, ps = [.graph ti false edges nodes labels] ∧
      m = minSkip (ovo.map (fun r => significant v.asc t r.val)) ∧ M = maxSkip (ovo.map (fun r => significant v.asc t r.val)) ∧
      (Dict.keys edges).Nodup ∧ (∀ a b, (a, b) ∈ Dict.keys edges → (b, a) ∈ Dict.keys edges → a = b) ∧
      (∀ k ∈ Dict.keys edges, ∃ r ∈ ovo, r.isPair k.1 k.2) ∧
      ∀ r ∈ ovo, ∃ k, (k = (r.f1, r.f2) ∨ k = (r.f2, r.f1)) ∧ ∃ pre q post, ovo = pre ++ q :: post ∧ SamePair q r ∧
        (∀ p ∈ post, ¬ SamePair p r) ∧ Dict.get? edges k = some (widthFor v.asc t W m M q.val) := by
  obtain ⟨ovo', cfg', nodes, ho', hc', _, rfl⟩ := graph_inv h
  rw [ho] at ho'; cases ho'
  rw [hc] at hc'; cases hc'
  rw [← ht, ← hW, edgeWidths_eq, hdir]
  generalize hm : minSkip (ovo.map (fun r => significant v.asc t r.val)) = m
  generalize hM : maxSkip (ovo.map (fun r => significant v.asc t r.val)) = M
  have one := edgeDict_one (ovo.map (fun r => (⟨r.f1, r.f2, widthFor v.asc t W m M r.val⟩ : OvoRow F K)))
  refine ⟨_, _, nodes, _, m, M, rfl, rfl, rfl, one.nodup, one.once, ?_, ?_⟩
  · intro k hk
    obtain ⟨r, hr, hp⟩ := one.sound k hk
    obtain ⟨q, hq, rfl⟩ := List.mem_map.1 hr
    exact ⟨q, hq, hp⟩
  · intro r hr
    obtain ⟨k, hk, pre, q, post, h1, h2, h3, h4⟩ := one.last _ (List.mem_map.2 ⟨r, hr, rfl⟩)
    obtain ⟨pre', rest, e1, e2, e3⟩ := List.map_eq_append_iff.1 h1
    obtain ⟨q', post', e4, e5, e6⟩ := List.map_eq_cons_iff.1 e3
    subst e4 e5 e6
    refine ⟨k, hk, pre', q', post', e1, h2, ?_, h4⟩
    intro p hp
    exact h3 ⟨p.f1, p.f2, widthFor v.asc t W m M p.val⟩ (List.mem_map.2 ⟨p, hp, rfl⟩)

/-- **C163**, tables sorted from strong to weak: of the rows about the same two features the graph shows the weakest. -/
theorem C163_weakest {v : View F I K} (hdir : v.directed = false) {E : VisEnv F K} {title : String} {o : Opts K} {sub : SubOpts K}
    {ps : List (Panel F I K)} (h : v.plot E "graph" title o sub = .ok ps) {ovo : List (OvoRow F K)} (ho : v.ovo = some ovo) {cfg : VisConfig K}
    (hc : configGet v.name = .ok cfg) {t W : K} (ht : t = o.threshold.getD cfg.graph.threshold)
    (hW : W = o.maxEdgeWidth.getD cfg.graph.maxEdgeWidth)
    (hs : ovo.Pairwise (fun r s => Num.keyLE v.asc r.val s.val = true)) :
    ∃ ti edges nodes labels m M, ps = [.graph ti false edges nodes labels] ∧
      m = minSkip (ovo.map (fun r => significant v.asc t r.val)) ∧ M = maxSkip (ovo.map (fun r => significant v.asc t r.val)) ∧
      ∀ r ∈ ovo, ∃ k, (k = (r.f1, r.f2) ∨ k = (r.f2, r.f1)) ∧ ∃ q ∈ ovo, SamePair q r ∧
        (∀ p ∈ ovo, SamePair p r → p = q ∨ Num.keyLE v.asc p.val q.val = true) ∧
        Dict.get? edges k = some (widthFor v.asc t W m M q.val) := by
  obtain ⟨ti, edges, nodes, labels, m, M, e, hm, hM, _, _, _, hl⟩ := C163_one_edge hdir h ho hc ht hW
  refine ⟨ti, edges, nodes, labels, m, M, e, hm, hM, ?_⟩
  intro r hr
  obtain ⟨k, hk, pre, q, post, h1, h2, h3, h4⟩ := hl r hr
  refine ⟨k, hk, q, by rw [h1]; simp, h2, ?_, h4⟩
  intro p hp hpr
  rw [h1] at hp hs
  rcases List.mem_append.1 hp with hp | hp
  · exact Or.inr ((List.pairwise_append.1 hs).2.2 p hp q List.mem_cons_self)
  · rcases List.mem_cons.1 hp with hp | hp
    · exact Or.inl hp
    · exact absurd hpr (h3 p hp)

end Graph

section SplitScore
variable {F I K : Type} [LinearOrder F] [LinearOrder I] [Field K] [LinearOrder K] [IsStrictOrderedRing K]

/-- **C163** for split score, whose tables list the two orders of a pair as two interactions: the graph drawn after `fit` has one edge for
the two, with the width of the weaker one. -/
theorem C163_split_score {E : SsEnv F K} {ts : List (GTree F I K)} {p : Package} {m : GbModel F I K} (hE : E.Lawful)
    (H : GbForest E.leafName ts p m) {inter imp : SsMetric} (hi : inter.isInteraction)
    (h1 : inter.availableFor p) (h2 : imp.availableFor p) (hex : ∃ s ∈ forestSplits ts, s.parent.isSome = true)
    (onlyDef : Bool) (s0 : SsMethod F I K) {sort : PairSort F K} {E' : VisEnv F K} {title : String} {o : Opts K} {sub : SubOpts K}
    {ps : List (Panel F I K)}
    (h : ((SsMethod.fit E (.model m) inter imp onlyDef s0).2.view sort).plot E' "graph" title o sub = .ok ps) :
    ∃ ovo ti edges nodes labels lo hi, (SsMethod.fit E (.model m) inter imp onlyDef s0).2.ovo = some ovo ∧
      ps = [.graph ti false edges nodes labels] ∧
      ∀ r ∈ ovo, ∃ k, (k = (r.f1, r.f2) ∨ k = (r.f2, r.f1)) ∧ ∃ q ∈ ovo, ((q.f1 = r.f1 ∧ q.f2 = r.f2) ∨ (q.f1 = r.f2 ∧ q.f2 = r.f1)) ∧
        (∀ s ∈ ovo, (s.f1 = r.f1 ∧ s.f2 = r.f2) ∨ (s.f1 = r.f2 ∧ s.f2 = r.f1) →
          s = q ∨ ∃ x y, s.val = .fin x ∧ q.val = .fin y ∧ if inter = .meanDepth then x ≤ y else y ≤ x) ∧
        Dict.get? edges k = some (widthFor (decide (inter = .meanDepth)) (o.threshold.getD (10 / 100)) (o.maxEdgeWidth.getD 20) lo hi q.val) := by
  obtain ⟨ovo, e1, hs, e2⟩ := C42_ovo_order hE H hi h1 h2 hex onlyDef s0
  have hv : ((SsMethod.fit E (.model m) inter imp onlyDef s0).2.view sort).ovo = some (ovo.map SsRow.toOvo) := by
    simp only [SsMethod.view, e1, Option.map_some]
  have hasc : ((SsMethod.fit E (.model m) inter imp onlyDef s0).2.view sort).asc = decide (inter = .meanDepth) := e2
  obtain ⟨ti, edges, nodes, labels, lo, hi', e3, _, _, _, _, _, hl⟩ := C163_one_edge rfl h hv (cfg := ⟨_, _⟩) rfl rfl rfl
  refine ⟨ovo, ti, edges, nodes, labels, lo, hi', e1, e3, ?_⟩
  intro r hr
  obtain ⟨k, hk, pre, q, post, g1, g2, g3, g4⟩ := hl _ (List.mem_map.2 ⟨r, hr, rfl⟩)
  obtain ⟨pre', rest, f1, f2, f3⟩ := List.map_eq_append_iff.1 g1
  obtain ⟨q', post', f4, f5, f6⟩ := List.map_eq_cons_iff.1 f3
  subst f2 f4 f5 f6
  rw [hasc] at g4
  refine ⟨k, hk, q', by rw [f1]; simp, g2, ?_, g4⟩
  intro s hs' hsr
  rw [f1] at hs' hs
  rcases List.mem_append.1 hs' with hp | hp
  · exact Or.inr ((List.pairwise_append.1 hs).2.2 s hp q' List.mem_cons_self)
  · rcases List.mem_cons.1 hp with hp | hp
    · exact Or.inl hp
    · exact absurd hsr (g3 s.toOvo (List.mem_map.2 ⟨s, hp, rfl⟩))

end SplitScore

section Cases

/-- a table with the pair 0, 1 in both orders: the graph shows the row listed last, 0.4, that is a fifth of the way from 0.3 to 0.8 -/
example : (graphOf ((exShow splitScoreName [⟨0, 1, .fin (8 / 10)⟩, ⟨0, 2, .fin (5 / 10)⟩, ⟨1, 0, .fin (4 / 10)⟩, ⟨1, 2, .fin (3 / 10)⟩] none
    false false).plot exVis "graph" "default" {} [])).map (·.1) =
    some [((0, 1), .fin 4), ((0, 2), .fin 8), ((1, 2), .fin 0)] := by decide +kernel

/-- the hypotheses of `C163_split_score` hold for `exTwoWay` -/
example : ∃ ps ovo ti edges nodes labels, (exTwoWayFit.view exPairSort).plot exVisNat "graph" "default" {} [] = .ok ps ∧
    exTwoWayFit.ovo = some ovo ∧ ps = [.graph ti false edges nodes labels] ∧ 2 < ovo.length := by
  have hs : (edgesOf ((exTwoWayFit.view exPairSort).plot exVisNat "graph" "default" {} [])).isSome = true := by decide +kernel
  cases hp : (exTwoWayFit.view exPairSort).plot exVisNat "graph" "default" {} [] with
  | error e => rw [hp] at hs; cases hs
  | ok ps =>
    obtain ⟨ovo, ti, edges, nodes, labels, _, _, h1, h2, _⟩ := C163_split_score exSsEnv_lawful exTwoWay_fit.1
      (inter := .meanGain) (imp := .meanGain) (by unfold SsMetric.isInteraction; tauto) (fun e => by cases e) (fun e => by cases e) (by decide +kernel) true SsMethod.new hp
    have h3 : exTwoWayFit.ovo.map List.length = some 3 := by decide +kernel
    refine ⟨ps, ovo, ti, edges, nodes, labels, rfl, h1, h2, ?_⟩
    have h1' : exTwoWayFit.ovo = some ovo := h1
    rw [h1'] at h3
    have := Option.some.inj h3
    omega

end Cases

end Artemis
