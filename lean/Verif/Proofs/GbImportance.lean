import Verif.Proofs.GbSummary

/-!
# Split score importance
-/

set_option linter.unusedSectionVars false
set_option linter.unusedVariables false
set_option linter.unusedSimpArgs false

namespace Artemis

section
variable {F I K : Type} [LinearOrder F] [DecidableEq I] [Field K] [LinearOrder K]

/-- every row has a node number -/
def Numbered (tree : List (StatRow F I K)) : Prop := ∀ r ∈ tree, r.row.node.isSome = true

/-- result of the loop without the columns about the parent -/
def dropCols (r : Except Err (List (StatRow F I K))) : Except Err (List (GbRow F I K)) :=
  match r with
  | .error e => .error e
  | .ok l => .ok (l.map StatRow.row)

theorem depthChild_sim (i : Nat) (c : Option I) (tree : List (StatRow F I K)) :
    depthChild i c (tree.map StatRow.row) = dropCols (markChild .xgboost i c tree) := by
  unfold depthChild markChild
  rw [List.find?_map]
  have e : ((fun r : GbRow F I K => decide (some r.id = c)) ∘ StatRow.row) = (fun r : StatRow F I K => decide (some r.row.id = c)) := rfl
  rw [e]
  cases tree.find? (fun r => decide (some r.row.id = c)) with
  | none => rfl
  | some ch =>
    simp only [Option.map_some]
    cases hl : ch.row.leaf with
    | true => rfl
    | false =>
      simp only [Bool.false_eq_true, if_false, List.getElem?_map]
      cases tree[i]? with
      | none => rfl
      | some parent =>
        simp only [Option.map_some, depthSucc]
        cases parent.row.depth with
        | none => rfl
        | some d =>
          simp only [dropCols, List.map_map]
          congr 1
          apply List.map_congr_left
          intro r _
          simp only [Function.comp]
          split <;> rfl

theorem markChild_numbered {i : Nat} {c : Option I} {tree tree' : List (StatRow F I K)} (h : Numbered tree)
    (e : markChild .xgboost i c tree = .ok tree') : Numbered tree' := by
  unfold markChild at e
  split at e
  · cases e
  · split at e
    · cases e; exact h
    · split at e
      · cases e
      · split at e
        · cases e
        · cases e
          intro r hr
          obtain ⟨s, hs, rfl⟩ := List.mem_map.1 hr
          have := h s hs
          split <;> exact this

theorem depthStep_sim {tree : List (StatRow F I K)} (h : Numbered tree) (i : Nat) :
    depthSplitStep (tree.map StatRow.row) i = dropCols (statStep .xgboost tree i) ∧
      ∀ tree', statStep .xgboost tree i = .ok tree' → Numbered tree' := by
  unfold depthSplitStep statStep
  rw [List.getElem?_map]
  cases hi : tree[i]? with
  | none => exact ⟨rfl, fun _ h => by cases h⟩
  | some r =>
    have hr := h r (List.mem_of_getElem? hi)
    obtain ⟨n, hn⟩ := Option.isSome_iff_exists.1 hr
    simp only [Option.map_some, hn, true_and, Option.some.injEq]
    have e1 : (if n = 0 then (tree.map StatRow.row).set i { r.row with depth := some 0 } else tree.map StatRow.row)
        = (if n = 0 then tree.set i { r with row := { r.row with depth := some 0 } } else tree).map StatRow.row := by
      split
      · rw [List.map_set]
      · rfl
    have h1 : Numbered (if n = 0 then tree.set i { r with row := { r.row with depth := some 0 } } else tree) := by
      split
      · intro x hx
        rcases List.mem_or_eq_of_mem_set hx with hx | rfl
        · exact h x hx
        · exact hr
      · exact h
    simp only [hn] at e1 h1 ⊢
    rw [e1]
    generalize (if n = 0 then tree.set i _ else tree) = tree1 at h1 ⊢
    rw [depthChild_sim]
    cases hm : markChild .xgboost i r.row.left tree1 with
    | error e => exact ⟨rfl, fun _ h => by cases h⟩
    | ok tree2 =>
      have h2 := markChild_numbered h1 hm
      exact ⟨depthChild_sim i _ tree2, fun tree' e => markChild_numbered h2 e⟩

theorem depthFold_sim (idx : List Nat) : ∀ tree : List (StatRow F I K), Numbered tree →
    idx.foldlM depthSplitStep (tree.map StatRow.row) = dropCols (idx.foldlM (statStep .xgboost) tree) := by
  induction idx with
  | nil => intro tree _; rfl
  | cons i idx ih =>
    intro tree h
    rw [List.foldlM_cons, List.foldlM_cons]
    obtain ⟨h1, h2⟩ := depthStep_sim h i
    rw [h1]
    cases hs : statStep .xgboost tree i with
    | error e => rfl
    | ok tree' => exact ih tree' (h2 tree' hs)

/-- The depths of the importance are those of the interactions. -/
theorem depthOneTree_eq {rows : List (GbRow F I K)} (h : ∀ r ∈ rows, r.node.isSome = true) :
    depthOneTree rows = dropCols (prepareStats .xgboost rows) := by
  unfold depthOneTree prepareStats
  rw [← depthFold_sim]
  · rw [List.map_map]
    congr 1
    exact (List.map_id rows).symm
  · intro r hr
    obtain ⟨s, hs, rfl⟩ := List.mem_map.1 hr
    exact h s hs

variable {p : Package} {leafName : F} {ts : List (GTree F I K)} {frame : List (GbRow F I K)} {A : Nat → List (Ann F I K)}

theorem perm_frame (H : Framed leafName p ts frame A) :
    frame.Perm (((List.range ts.length).map (fun t => (A t).map Ann.row)).flatten) := by
  have h := perm_groups_npUnique GbRow.tree frame
  rw [H.trees] at h
  have e : (List.range ts.length).map (fun k => frame.filter (fun x => decide (x.tree = k)))
      = (List.range ts.length).map (fun t => (A t).map Ann.row) := by
    apply List.map_congr_left
    intro t ht
    exact H.rows t (List.mem_range.1 ht)
  rw [e] at h
  exact h

/-- The table the importance works on: the rows of `full_result`. -/
theorem depths_ok (H : Framed leafName p ts frame A) :
    ∃ frame', (if frame.any (fun r => r.depth.isNone) then calcDepth frame else .ok frame) = .ok frame' ∧
      frame'.Perm ((finalRows ts.length A).map StatRow.row) := by
  cases p with
  | xgboost =>
    by_cases hany : frame.any (fun r => r.depth.isNone) = true
    · rw [if_pos hany]
      refine ⟨(finalRows ts.length A).map StatRow.row, ?_, List.Perm.refl _⟩
      unfold calcDepth
      rw [H.trees]
      have : (List.range ts.length).mapM (fun t => depthOneTree (frame.filter (fun r => decide (r.tree = t))))
          = Except.ok ((List.range ts.length).map (fun t => ((A t).map Ann.fin).map StatRow.row)) := by
        apply mapM_ok
        intro t ht
        rw [depthOneTree_eq (fun r hr => H.nodes rfl r (List.mem_filter.1 hr).1), H.rows t (List.mem_range.1 ht),
          prepareStats_ok (H.ann t (List.mem_range.1 ht))]
        rfl
      rw [this]
      simp only [finalRows, List.map_flatten, List.map_map]
      congr 2
      apply List.map_congr_left
      intro t _
      simp [Function.comp]
    · rw [if_neg hany]
      refine ⟨frame, rfl, ?_⟩
      have hnil : frame = [] := by
        cases hf : frame with
        | nil => rfl
        | cons r l =>
          exfalso
          apply hany
          rw [List.any_eq_true]
          have hr : r ∈ frame := by rw [hf]; simp
          refine ⟨r, hr, ?_⟩
          obtain ⟨x, hx, hrx⟩ := List.mem_flatten.1 ((perm_frame H).mem_iff.1 hr)
          obtain ⟨t, ht, rfl⟩ := List.mem_map.1 hx
          obtain ⟨a, ha, rfl⟩ := List.mem_map.1 hrx
          rw [(H.ann t (List.mem_range.1 ht)).depX rfl a ha]
          rfl
      have h0 := H.trees
      rw [hnil] at h0
      have hlen : ts.length = 0 := by
        have := congrArg List.length h0
        simpa [npUnique] using this.symm
      rw [hnil, hlen]
      simp [finalRows]
  | lightgbm =>
    have hdep : ∀ r ∈ frame, r.depth.isNone = false := by
      intro r hr
      obtain ⟨x, hx, hrx⟩ := List.mem_flatten.1 ((perm_frame H).mem_iff.1 hr)
      obtain ⟨t, ht, rfl⟩ := List.mem_map.1 hx
      obtain ⟨a, ha, rfl⟩ := List.mem_map.1 hrx
      rw [(H.ann t (List.mem_range.1 ht)).depL rfl a ha]
      rfl
    have hany : ¬ frame.any (fun r => r.depth.isNone) = true := by
      rw [List.any_eq_true]
      rintro ⟨r, hr, h⟩
      rw [hdep r hr] at h
      cases h
    rw [if_neg hany]
    refine ⟨frame, rfl, (perm_frame H).trans ?_⟩
    unfold finalRows
    rw [List.map_flatten, List.map_map]
    have : (List.range ts.length).map (fun t => (A t).map Ann.row)
        = (List.range ts.length).map (List.map StatRow.row ∘ fun t => (A t).map Ann.fin) := by
      apply List.map_congr_left
      intro t ht
      simp only [Function.comp, List.map_map]
      apply List.map_congr_left
      intro a ha
      have hd := (H.ann t (List.mem_range.1 ht)).depL rfl a ha
      obtain ⟨r, pr, dp⟩ := a
      obtain ⟨tt, n, id, f, l, rr, g, c, lf, dd⟩ := r
      simp only at hd
      subst hd
      simp only [Function.comp, Ann.fin]
      split
      · rfl
      · split <;> rfl
    rw [this]

/-- depth, feature, gain and cover of a row -/
def GbRow.tup (r : GbRow F I K) : Option Int × Option F × Option K × Option K := (r.depth, r.feat, r.gain, r.cover)

/-- depth, feature, gain and cover of a split -/
def Split.tup (p : Package) (s : Split F I K) : Option Int × Option F × Option K × Option K :=
  (some (s.depth : Int), some s.feat, some s.gain, shownCover p s.cover)

/-- The rows the importance is computed from show the splits of the selected features. -/
theorem selectRows_tup (H : Framed leafName p ts frame A) (hnl : NoLeafName leafName ts) {features : Option (List F)}
    (hf : ∀ fs, features = some fs → leafName ∉ fs) {frame' : List (GbRow F I K)}
    (hp : frame'.Perm ((finalRows ts.length A).map StatRow.row)) :
    ((((selectRows leafName features frame').filter (fun r => r.feat.isSome))).map GbRow.tup).Perm
      (((forestSplits ts).filter (fun s => selected features s.feat)).map (Split.tup p)) := by
  -- what the selection does on rows
  let P : Option F → Bool := fun o => match o with
    | none => false
    | some f => (!decide (f = leafName)) && selected features f
  have e1 : (selectRows leafName features frame').filter (fun r => r.feat.isSome) = frame'.filter (fun r => P r.feat) := by
    cases features with
    | none =>
      simp only [selectRows]
      rw [List.filter_filter]
      apply List.filter_congr
      intro r _
      cases r.feat with
      | none => rfl
      | some f => simp [P, selected]
    | some fs =>
      simp only [selectRows]
      rw [List.filter_filter]
      apply List.filter_congr
      intro r _
      cases r.feat with
      | none => rfl
      | some f =>
        have := hf fs rfl
        by_cases h : f ∈ fs
        · have hne : f ≠ leafName := fun e => this (e ▸ h)
          simp [P, selected, h, hne]
        · simp [P, selected, h]
  rw [e1]
  have h1 := (hp.filter (fun r => P r.feat)).map GbRow.tup
  refine h1.trans ?_
  rw [List.filter_map, List.map_map]
  have hv := ((finalRows_view H).filter (fun v => P v.feat)).map (fun v => (v.depth, v.feat, v.gain, v.cover))
  rw [List.filter_map, List.filter_map, List.filter_filter, List.map_map, List.map_map] at hv
  have e2 : (finalRows ts.length A).filter ((fun r => P r.feat) ∘ StatRow.row)
      = (finalRows ts.length A).filter (fun a => ((fun v => P v.feat) ∘ StatRow.view) a && !a.row.leaf) := by
    apply List.filter_congr
    intro r hr
    simp only [Function.comp, StatRow.view]
    cases hl : r.row.leaf with
    | false => simp
    | true =>
      rcases (finalRows_leaf H r hr hl).2.2.2.2 with h | h <;> simp [h, P]
  have e3 : (forestSplits ts).filter ((fun v => P v.feat) ∘ Split.view p) = (forestSplits ts).filter (fun s => selected features s.feat) := by
    apply List.filter_congr
    intro s hs
    simp [P, Split.view, hnl s hs]
  rw [e2, ← e3]
  exact hv

theorem weightedDepth_eq {g : List (GbRow F I K)} {l : List (Split F I K)} (h : (g.map GbRow.tup).Perm (l.map (Split.tup p))) :
    weightedDepth g = if gainSum l = 0 then .error .zeroDivisionError
      else .ok (.fin ((l.map (fun s => (s.depth : K) * s.gain)).sum / gainSum l)) := by
  have hsome : ∀ r ∈ g, ∃ s : Split F I K, r.depth = some (s.depth : Int) ∧ r.gain = some s.gain := by
    intro r hr
    obtain ⟨s, _, e⟩ := List.mem_map.1 (h.mem_iff.1 (List.mem_map.2 ⟨r, hr, rfl⟩))
    exact ⟨s, (congrArg (fun x => x.1) e).symm, (congrArg (fun x => x.2.2.1) e).symm⟩
  have hmap : g.mapM depthGain = Except.ok (g.map (fun r => (((r.depth.getD 0 : Int) : K), r.gain.getD 0))) := by
    apply mapM_ok
    intro r hr
    obtain ⟨s, h1, h2⟩ := hsome r hr
    simp [depthGain, h1, h2]
  have hps : (g.map (fun r => (((r.depth.getD 0 : Int) : K), r.gain.getD 0))).Perm (l.map (fun s => ((s.depth : K), s.gain))) := by
    have h2 := h.map (fun x : Option Int × Option F × Option K × Option K => (((x.1.getD 0 : Int) : K), x.2.2.1.getD 0))
    rw [List.map_map, List.map_map] at h2
    have e : ((fun x : Option Int × Option F × Option K × Option K => (((x.1.getD 0 : Int) : K), x.2.2.1.getD 0)) ∘ Split.tup (I := I) p)
        = fun s => ((s.depth : K), s.gain) := by
      funext s
      simp [Split.tup]
    rw [e] at h2
    exact h2
  unfold weightedDepth
  rw [hmap]
  simp only []
  rw [(hps.map Prod.snd).sum_eq, (hps.map (fun q => q.1 * q.2)).sum_eq, List.map_map, List.map_map]
  rfl

theorem rows_of_feature {rows : List (GbRow F I K)} {l : List (Split F I K)}
    (h : ((rows.filter (fun r => r.feat.isSome)).map GbRow.tup).Perm (l.map (Split.tup p))) (f : F) :
    ((ofFeature rows f).map GbRow.tup).Perm ((l.filter (fun s => decide (s.feat = f))).map (Split.tup p)) ∧
    ((ofFeature (rootRows rows) f).map GbRow.tup).Perm
      (((l.filter (fun s => decide (s.feat = f))).filter (fun s => decide (s.depth = 0))).map (Split.tup p)) ∧
    ((((rootRows rows).filter (fun r => r.feat.isSome))).map GbRow.tup).Perm ((l.filter (fun s => decide (s.depth = 0))).map (Split.tup p)) := by
  have key : ∀ Q : Option Int × Option F × Option K × Option K → Bool, (∀ r : GbRow F I K, r.feat = none → Q r.tup = false ∨ True) →
      (((rows.filter (fun r => r.feat.isSome)).filter (fun r => Q r.tup)).map GbRow.tup).Perm
        ((l.filter (fun s => Q (s.tup p))).map (Split.tup p)) := by
    intro Q _
    have h2 := h.filter Q
    rw [List.filter_map, List.filter_map] at h2
    exact h2
  refine ⟨?_, ?_, ?_⟩
  · have := key (fun x => decide (x.2.1 = some f)) (fun _ _ => Or.inr trivial)
    rw [List.filter_filter] at this
    have e : ofFeature rows f = rows.filter (fun a => decide (a.tup.2.1 = some f) && a.feat.isSome) := by
      unfold ofFeature
      apply List.filter_congr
      intro r _
      cases hr : r.feat with
      | none => simp [GbRow.tup, hr]
      | some x => simp [GbRow.tup, hr]
    rw [e]
    have e2 : l.filter (fun s => decide (s.feat = f)) = l.filter (fun s => decide ((s.tup p).2.1 = some f)) := by
      apply List.filter_congr; intro s _; simp [Split.tup]
    rw [e2]
    exact this
  · have := key (fun x => decide (x.2.1 = some f) && decide (x.1 = some 0)) (fun _ _ => Or.inr trivial)
    rw [List.filter_filter] at this
    have e : ofFeature (rootRows rows) f
        = rows.filter (fun a => (decide (a.tup.2.1 = some f) && decide (a.tup.1 = some 0)) && a.feat.isSome) := by
      unfold ofFeature rootRows
      rw [List.filter_filter]
      apply List.filter_congr
      intro r _
      cases hr : r.feat with
      | none => simp [GbRow.tup, hr]
      | some x => simp [GbRow.tup, hr]
    rw [e, List.filter_filter]
    have e2 : l.filter (fun a => decide (a.depth = 0) && decide (a.feat = f))
        = l.filter (fun s => decide ((s.tup p).2.1 = some f) && decide ((s.tup p).1 = some 0)) := by
      apply List.filter_congr; intro s _; simp [Split.tup, Bool.and_comm]
    rw [e2]
    exact this
  · have := key (fun x => decide (x.1 = some 0)) (fun _ _ => Or.inr trivial)
    have e : (rootRows rows).filter (fun r => r.feat.isSome)
        = (rows.filter (fun r => r.feat.isSome)).filter (fun r => decide (r.tup.1 = some 0)) := by
      unfold rootRows
      rw [List.filter_filter, List.filter_filter]
      apply List.filter_congr
      intro r _
      rw [Bool.and_comm]
      rfl
    rw [e]
    have e2 : l.filter (fun s => decide (s.depth = 0)) = l.filter (fun s => decide ((s.tup p).1 = some 0)) := by
      apply List.filter_congr; intro s _; simp [Split.tup]
    rw [e2]
    exact this

theorem filterMap_gain_sum {rows : List (GbRow F I K)} {l : List (Split F I K)} (h : (rows.map GbRow.tup).Perm (l.map (Split.tup p))) :
    (rows.filterMap GbRow.gain).sum = gainSum l := by
  have h2 := h.filterMap (fun x => x.2.2.1)
  rw [List.filterMap_map, List.filterMap_map] at h2
  have e : l.filterMap ((fun x : Option Int × Option F × Option K × Option K => x.2.2.1) ∘ Split.tup p) = l.map Split.gain := by
    rw [← List.filterMap_eq_map]; rfl
  rw [e] at h2
  exact h2.sum_eq

/-- The metrics of one feature. -/
theorem impStat_ok {rows : List (GbRow F I K)} {features : Option (List F)}
    (h : ((rows.filter (fun r => r.feat.isSome)).map GbRow.tup).Perm
      (((forestSplits ts).filter (fun s => selected features s.feat)).map (Split.tup p)))
    {f : F} (hsel : selected features f = true) (hocc : featSplits ts f ≠ []) :
    (gainSum (featSplits ts f) = 0 → impStat rows f = .error .zeroDivisionError) ∧
    (gainSum (featSplits ts f) ≠ 0 → ∃ r, impStat rows f = .ok r ∧ r.feat = f ∧ ImpStatOk p features ts r) := by
  obtain ⟨h1, h2, h3⟩ := rows_of_feature h f
  have e : ((forestSplits ts).filter (fun s => selected features s.feat)).filter (fun s => decide (s.feat = f)) = featSplits ts f := by
    unfold featSplits
    rw [List.filter_filter]
    apply List.filter_congr
    intro s _
    by_cases hs : s.feat = f
    · simp [hs, hsel]
    · simp [hs]
  rw [e] at h1 h2
  change ((ofFeature (rootRows rows) f).map GbRow.tup).Perm ((featRoots ts f).map (Split.tup p)) at h2
  have hwd := weightedDepth_eq h1
  constructor
  · intro hz
    unfold impStat
    simp only [hwd, if_pos hz]
  · intro hz
    unfold impStat
    simp only [hwd, if_neg hz]
    refine ⟨_, rfl, rfl, ?_⟩
    have hg := h1.map (fun x => x.2.2.1)
    have hd := h1.map (fun x => x.1)
    have hc := h1.map (fun x => x.2.2.2)
    have hrg := h2.map (fun x => x.2.2.1)
    rw [List.map_map, List.map_map] at hg hd hc hrg
    have hempty : (ofFeature (rootRows rows) f).isEmpty = true ↔ featRoots ts f = [] := by
      have := h2.length_eq
      rw [List.length_map, List.length_map] at this
      rw [List.isEmpty_iff, ← List.length_eq_zero_iff, this, List.length_eq_zero_iff]
    have hlen : (ofFeature (rootRows rows) f).length = (featRoots ts f).length := by
      have := h2.length_eq
      rwa [List.length_map, List.length_map] at this
    refine ⟨hocc, sumOpt_perm (u := Split.gain) hg, meanOpt_perm (u := Split.gain) hg hocc,
      meanSome_perm (u := Split.depth) hd hocc, ?_, ?_, ?_, ?_, rfl⟩
    · intro hx; subst hx
      exact ⟨sumOpt_perm (u := Split.cover) hc, meanOpt_perm (u := Split.cover) hc hocc⟩
    · intro hx; subst hx
      exact ⟨sumOpt_none hc, meanOpt_none hc⟩
    · simp only [hempty, hlen]
    · simp only [hempty, hlen]
      have e1 : sumOpt ((ofFeature (rootRows rows) f).map GbRow.gain) = .fin (gainSum (featRoots ts f)) :=
        sumOpt_perm (u := Split.gain) hrg
      have e2 : totalRootGain rows
          = gainSum ((forestSplits ts).filter (fun s => selected features s.feat && decide (s.depth = 0))) := by
        unfold totalRootGain
        rw [filterMap_gain_sum h3, List.filter_filter]
        congr 1
        apply List.filter_congr
        intro s _
        exact Bool.and_comm _ _
      rw [e1, e2]

/-- the features listed: those selected that are used in a split -/
theorem mem_impKeys {rows : List (GbRow F I K)} {features : Option (List F)}
    (h : ((rows.filter (fun r => r.feat.isSome)).map GbRow.tup).Perm
      (((forestSplits ts).filter (fun s => selected features s.feat)).map (Split.tup p))) (f : F) :
    f ∈ npUnique (rows.filterMap GbRow.feat) ↔ selected features f = true ∧ featSplits ts f ≠ [] := by
  rw [mem_npUnique, List.mem_filterMap]
  constructor
  · rintro ⟨r, hr, e⟩
    have : r.tup ∈ (rows.filter (fun r => r.feat.isSome)).map GbRow.tup :=
      List.mem_map.2 ⟨r, List.mem_filter.2 ⟨hr, by simp [e]⟩, rfl⟩
    obtain ⟨s, hs, es⟩ := List.mem_map.1 (h.mem_iff.1 this)
    obtain ⟨hs1, hs2⟩ := List.mem_filter.1 hs
    have ef : s.feat = f := by
      have := congrArg (fun x => x.2.1) es
      simp only [Split.tup, GbRow.tup, e, Option.some.injEq] at this
      exact this
    refine ⟨by rw [← ef]; exact hs2, ?_⟩
    intro hn
    have : s ∈ featSplits ts f := List.mem_filter.2 ⟨hs1, by simp [ef]⟩
    rw [hn] at this
    cases this
  · rintro ⟨h1, h2⟩
    obtain ⟨s, hs⟩ := List.exists_mem_of_ne_nil _ h2
    obtain ⟨hs1, hs2⟩ := List.mem_filter.1 hs
    rw [decide_eq_true_eq] at hs2
    have : s.tup p ∈ ((forestSplits ts).filter (fun s => selected features s.feat)).map (Split.tup p) :=
      List.mem_map.2 ⟨s, List.mem_filter.2 ⟨hs1, by rw [hs2]; exact h1⟩, rfl⟩
    obtain ⟨r, hr, er⟩ := List.mem_map.1 (h.mem_iff.2 this)
    refine ⟨r, (List.mem_filter.1 hr).1, ?_⟩
    have := congrArg (fun x => x.2.1) er
    simp only [Split.tup, GbRow.tup] at this
    rw [this, hs2]

/-- The whole importance: one right row for every selected feature that is used. -/
theorem ssImportance_ok (E : SsEnv F K) (hE : ∀ k l, (E.sortFull k l).Perm l)
    (H : Framed E.leafName p ts frame A) (hnl : NoLeafName E.leafName ts) {features : Option (List F)}
    (hf : ∀ fs, features = some fs → E.leafName ∉ fs) {m : SsMetric} (hm : m ≠ .frequency ∧ m ≠ .other)
    (hused : ∃ s ∈ forestSplits ts, selected features s.feat = true)
    (hgain : ∀ f, featSplits ts f ≠ [] → gainSum (featSplits ts f) ≠ 0) :
    ∃ full, ssImportance E features m frame = .ok (full, selectMetric E.sortImp m full) ∧
      (∀ r ∈ full, ImpStatOk p features ts r) ∧ (full.map ImpStat.feat).Nodup ∧
      (∀ f, f ∈ full.map ImpStat.feat ↔ selected features f = true ∧ featSplits ts f ≠ []) ∧
      ∃ l, full = E.sortFull (fun r => (r.metric m).getD .nan) l := by
  obtain ⟨frame', e1, hp⟩ := depths_ok H
  have htup := selectRows_tup H hnl hf hp
  have hkeys := mem_impKeys htup
  obtain ⟨l, hl, hprop⟩ : ∃ l, (npUnique ((selectRows E.leafName features frame').filterMap GbRow.feat)).mapM
      (impStat (selectRows E.leafName features frame')) = .ok l ∧
      List.Forall₂ (fun f r => r.feat = f ∧ ImpStatOk p features ts r)
        (npUnique ((selectRows E.leafName features frame').filterMap GbRow.feat)) l := by
    have hall := fun f hfk => (impStat_ok htup ((hkeys f).1 hfk).1 ((hkeys f).1 hfk).2).2 (hgain f ((hkeys f).1 hfk).2)
    revert hall
    generalize npUnique ((selectRows E.leafName features frame').filterMap GbRow.feat) = ks
    intro hall
    induction ks with
    | nil => exact ⟨[], rfl, List.Forall₂.nil⟩
    | cons k ks ih =>
      obtain ⟨l, h1, h2⟩ := ih (fun f hfk => hall f (List.mem_cons_of_mem _ hfk))
      obtain ⟨r, h3, h4⟩ := hall k (List.mem_cons_self ..)
      refine ⟨r :: l, ?_, List.Forall₂.cons h4 h2⟩
      rw [List.mapM_cons, h3, h1]
      rfl
  have hfeat : l.map ImpStat.feat = npUnique ((selectRows E.leafName features frame').filterMap GbRow.feat) := by
    clear hl
    revert hprop
    generalize npUnique ((selectRows E.leafName features frame').filterMap GbRow.feat) = ks
    intro hprop
    induction hprop with
    | nil => rfl
    | cons h _ ih => simp [h.1, ih]
  have hok : ∀ r ∈ l, ImpStatOk p features ts r := by
    intro r hr
    clear hl hfeat
    revert hprop
    generalize npUnique ((selectRows E.leafName features frame').filterMap GbRow.feat) = ks
    intro hprop
    induction hprop with
    | nil => cases hr
    | cons h _ ih =>
      rcases List.mem_cons.1 hr with rfl | hr
      · exact h.2
      · exact ih hr
  have hne : l ≠ [] := by
    intro e
    obtain ⟨s, hs, hsel⟩ := hused
    have : s.feat ∈ npUnique ((selectRows E.leafName features frame').filterMap GbRow.feat) := by
      rw [hkeys]
      refine ⟨hsel, ?_⟩
      intro hn
      have : s ∈ featSplits ts s.feat := List.mem_filter.2 ⟨hs, by simp⟩
      rw [hn] at this; cases this
    rw [← hfeat, e] at this
    cases this
  have hperm := hE (fun r => (r.metric m).getD .nan) l
  refine ⟨E.sortFull (fun r => (r.metric m).getD .nan) l, ?_, ?_, ?_, ?_, l, rfl⟩
  · have hall : allImportance E.leafName E.sortFull features m frame' = .ok (E.sortFull (fun r => (r.metric m).getD .nan) l) := by
      unfold allImportance
      simp only [hl]
      cases l with
      | nil => exact absurd rfl hne
      | cons s ss =>
        cases m <;> first | rfl | exact absurd rfl hm.1 | exact absurd rfl hm.2
    unfold ssImportance
    rw [e1]
    simp only [hall]
  · intro r hr; exact hok r (hperm.mem_iff.1 hr)
  · rw [(hperm.map _).nodup_iff, hfeat]; exact nodup_npUnique _
  · intro f
    rw [(hperm.map _).mem_iff, hfeat]
    exact hkeys f

end

end Artemis
