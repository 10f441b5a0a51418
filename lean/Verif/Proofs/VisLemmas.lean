import Verif.Model.Method
import Verif.Proofs.GwLemmas

/-! # Helper lemmas about the data prepared for drawing -/

set_option linter.unusedSectionVars false
set_option linter.unusedVariables false
set_option linter.unusedSimpArgs false

namespace Artemis

section Errors

/-- the only exceptions the call can raise are those listed -/
def RaisesOnly {α : Type} (S : List Err) (r : Except Err α) : Prop := ∀ e, r = .error e → e ∈ S

theorem raisesOnly_ok {α : Type} {S : List Err} (a : α) : RaisesOnly S (.ok a) := by
  intro e h; cases h

theorem raisesOnly_error {α : Type} {S : List Err} {e : Err} (h : e ∈ S) : RaisesOnly S (.error e : Except Err α) := by
  intro e' h'; cases h'; exact h

theorem raisesOnly_map {α β : Type} {S : List Err} {r : Except Err α} (f : α → β) (h : RaisesOnly S r) : RaisesOnly S (r.map f) := by
  cases r with
  | ok a => exact raisesOnly_ok _
  | error e => intro e' h'; cases h'; exact h _ rfl

theorem raisesOnly_mapM {α β : Type} {S : List Err} {f : α → Except Err β} {l : List α} (h : ∀ a ∈ l, RaisesOnly S (f a)) :
    RaisesOnly S (l.mapM f) := by
  induction l with
  | nil => exact raisesOnly_ok _
  | cons a l ih =>
    rw [mapM_cons_except]
    have h1 := h a List.mem_cons_self
    have h2 := ih (fun b hb => h b (List.mem_cons_of_mem _ hb))
    cases e1 : f a with
    | error e => rw [e1] at h1; exact raisesOnly_error (h1 _ rfl)
    | ok b =>
      cases e2 : l.mapM f with
      | error e => rw [e2] at h2; exact raisesOnly_error (h2 _ rfl)
      | ok bs => exact raisesOnly_ok _

theorem raisesOnly_foldlM {α β : Type} {S : List Err} {f : β → α → Except Err β} {l : List α} (h : ∀ b, ∀ a ∈ l, RaisesOnly S (f b a)) :
    ∀ b, RaisesOnly S (l.foldlM f b) := by
  induction l with
  | nil => intro b; exact raisesOnly_ok _
  | cons a l ih =>
    intro b
    rw [List.foldlM_cons]
    have h1 := h b a List.mem_cons_self
    cases e1 : f b a with
    | error e => rw [e1] at h1; exact raisesOnly_error (h1 _ rfl)
    | ok b' => exact ih (fun b c hc => h b c (List.mem_cons_of_mem _ hc)) b'

end Errors

section Vis
variable {F I K : Type} [LinearOrder F] [Field K] [LinearOrder K]

/-! ### What can go wrong -/

/-- exceptions of the drawing routines -/
def drawErrors : List Err := [.indexError, .valueError, .keyError, .networkXError, .attributeError]

theorem raises_graphNodes (ovo : List (OvoRow F K)) (imp) : RaisesOnly [.networkXError] (graphNodes ovo imp) := by
  unfold graphNodes
  split
  · exact raisesOnly_ok _
  · split
    · exact raisesOnly_ok _
    · exact raisesOnly_error (by simp)

theorem raises_plotGraph (E : VisEnv F K) (cfg ovo imp title asc directed o) :
    RaisesOnly [.networkXError] (plotGraph (I := I) E cfg ovo imp title asc directed o) := by
  unfold plotGraph
  simp only []
  split
  · next e he => exact raisesOnly_error (raises_graphNodes _ _ _ he)
  · exact raisesOnly_ok _

theorem raises_importanceDiag (ovo : List (OvoRow F K)) (imp) : RaisesOnly [.indexError] (importanceDiag ovo imp) := by
  unfold importanceDiag
  refine raisesOnly_mapM fun f _ => ?_
  split
  · exact raisesOnly_error (by simp)
  · exact raisesOnly_ok _

theorem raises_heatScores (lower : F → F) (m : Mat F K) : RaisesOnly [.valueError, .keyError] (heatScores lower m) := by
  unfold heatScores
  split
  · next e he =>
    unfold diagSeries at he
    split at he
    · cases he
    · cases he; exact raisesOnly_error (by simp)
  · next diag _ =>
    simp only []
    refine raisesOnly_foldlM (fun b f _ => raisesOnly_map _ ?_) _
    unfold heatScore
    split
    · exact raisesOnly_error (by simp)
    · split
      · split
        · next e he =>
          unfold pyMax at he
          split at he
          · cases he; exact raisesOnly_error (by simp)
          · cases he
        · exact raisesOnly_ok _
      · exact raisesOnly_error (by simp)

theorem raises_plotHeatmap (E : VisEnv F K) (ovo imp title asc impAsc directed) :
    RaisesOnly [.indexError, .valueError, .keyError] (plotHeatmap (I := I) E ovo imp title asc impAsc directed) := by
  unfold plotHeatmap
  split
  · next e he =>
    unfold heatmapRows at he
    simp only [] at he
    split at he
    · cases he
    · split at he
      · next e' he' =>
        cases he
        have := raises_importanceDiag _ _ _ he'
        simp only [List.mem_singleton] at this
        subst this
        exact raisesOnly_error (by simp)
      · cases he
  · split
    · next e he =>
      unfold orderHeatmap at he
      split at he
      · next e' he' =>
        cases he
        have := raises_heatScores _ _ _ he'
        exact raisesOnly_error (List.mem_cons_of_mem _ this)
      · cases he
    · exact raisesOnly_ok _

theorem raises_plotBarsOva (ova : Option (List (FeatRow F K))) (title o) :
    RaisesOnly [.attributeError] (plotBarsOva (I := I) ova title o) := by
  unfold plotBarsOva
  split
  · exact raisesOnly_error (by simp)
  · exact raisesOnly_ok _

theorem raises_plotLollipop (full : Option (List (StatRow F I K))) (title o) :
    RaisesOnly [.attributeError, .indexError] (plotLollipop full title o) := by
  unfold plotLollipop
  split
  · exact raisesOnly_error (by simp)
  · simp only []
    split
    · exact raisesOnly_error (by simp)
    · exact raisesOnly_ok _

theorem raises_plotConditional (ovo : List (OvoRow F K)) (imp title o) :
    RaisesOnly [.attributeError] (plotConditional (I := I) ovo imp title o) := by
  unfold plotConditional
  split
  · exact raisesOnly_error (by simp)
  · exact raisesOnly_ok _

theorem raisesOnly_mono {α : Type} {S T : List Err} {r : Except Err α} (h : RaisesOnly S r) (hst : ∀ e ∈ S, e ∈ T) :
    RaisesOnly T r := fun e he => hst e (h e he)

theorem raises_plotSummary (E : VisEnv F K) (cfg : VisConfig K) (a : PlotIn F I K) (title sub) :
    RaisesOnly drawErrors (plotSummary E cfg a title sub) := by
  unfold plotSummary
  simp only []
  split
  · next e he => exact raisesOnly_error (raisesOnly_mono (raises_plotHeatmap _ _ _ _ _ _ _) (by decide) _ he)
  · split
    · next e he => exact raisesOnly_error (raisesOnly_mono (raises_plotGraph _ _ _ _ _ _ _ _) (by decide) _ he)
    · split
      · exact raisesOnly_ok _
      · split
        · next e he => exact raisesOnly_error (raisesOnly_mono (raises_plotBarsOva _ _ _) (by decide) _ he)
        · exact raisesOnly_ok _

/-- a supported visualization raises only what a drawing routine raises -/
theorem raises_visPlot (E : VisEnv F K) (cfg : VisConfig K) (a : PlotIn F I K) (visType title o sub) (h : visType ∈ cfg.accepted) :
    RaisesOnly drawErrors (visPlot E cfg a visType title o sub) := by
  unfold visPlot
  rw [if_neg (not_not.2 h)]
  split_ifs
  · exact raises_plotSummary _ _ _ _ _
  · exact raisesOnly_map _ (raisesOnly_mono (raises_plotGraph _ _ _ _ _ _ _ _) (by decide))
  · exact raisesOnly_map _ (raisesOnly_mono (raises_plotBarsOva _ _ _) (by decide))
  · exact raisesOnly_map _ (raisesOnly_mono (raises_plotHeatmap _ _ _ _ _ _ _) (by decide))
  · exact raisesOnly_ok _
  · exact raisesOnly_map _ (raisesOnly_mono (raises_plotLollipop _ _ _) (by decide))
  · exact raisesOnly_map _ (raisesOnly_mono (raises_plotConditional _ _ _ _) (by decide))
  · exact raisesOnly_ok _

/-- what a returning `plot` has run -/
theorem view_plot_inv {E : VisEnv F K} {v : View F I K} {visType title : String} {o : Opts K} {sub : SubOpts K}
    {ps : List (Panel F I K)} (h : v.plot E visType title o sub = .ok ps) :
    ∃ ovo impAsc cfg, v.ovo = some ovo ∧ v.impAsc = some impAsc ∧ configGet v.name = .ok cfg ∧ visType ∈ cfg.accepted ∧
      visPlot E cfg ⟨ovo, v.ova, v.imp, v.asc, impAsc, v.full, v.directed, v.name⟩ visType title o sub = .ok ps := by
  unfold View.plot at h
  generalize hb : (if v.needsOva = true then v.ova.isNone else v.ovo.isNone) = b at h
  cases b with
  | true => rw [if_pos rfl] at h; cases h
  | false =>
    rw [if_neg (by simp)] at h
    split at h
    · cases h
    · next impAsc hi =>
      split at h
      · cases h
      · next cfg hc =>
        split at h
        · split at h <;> cases h
        · next ovo ho =>
          refine ⟨ovo, impAsc, cfg, ho, hi, hc, ?_, h⟩
          by_contra hn
          unfold visPlot at h
          rw [if_pos hn] at h
          cases h

/-! ### Widths of edges -/

/-- the number, 0 for infinities and NaN -/
def Num.toK : Num K → K
  | .fin x => x
  | _ => 0

theorem filter_notNaN_fin {α : Type} (l : List α) (u : α → K) :
    (l.map (fun a => (.fin (u a) : Num K))).filter (fun x => !x.isNaN) = l.map (fun a => .fin (u a)) := by
  rw [List.filter_eq_self]
  intro x hx
  obtain ⟨a, _, rfl⟩ := List.mem_map.1 hx
  rfl

theorem maxSkip_fin [IsStrictOrderedRing K] {α : Type} (l : List α) (u : α → K) (h : l ≠ []) :
    ∃ a ∈ l, maxSkip (l.map (fun a => (.fin (u a) : Num K))) = .fin (u a) ∧ ∀ b ∈ l, u b ≤ u a := by
  obtain ⟨m, h1, ⟨a, ha, rfl⟩, h3⟩ := max?_fin l u h
  refine ⟨a, ha, ?_, h3⟩
  unfold maxSkip
  rw [filter_notNaN_fin, h1]
  rfl

theorem minSkip_fin [IsStrictOrderedRing K] {α : Type} (l : List α) (u : α → K) (h : l ≠ []) :
    ∃ a ∈ l, minSkip (l.map (fun a => (.fin (u a) : Num K))) = .fin (u a) ∧ ∀ b ∈ l, u a ≤ u b := by
  obtain ⟨m, h1, ⟨a, ha, rfl⟩, h3⟩ := min?_fin l u h
  refine ⟨a, ha, ?_, h3⟩
  unfold minSkip
  rw [filter_notNaN_fin, h1]
  rfl

theorem lt_fin (x y : K) : Num.lt (.fin x) (.fin y) = decide (x < y) := by
  unfold Num.lt Num.le
  by_cases h : x < y
  · simp [h, h.le]
  · simp only [h, decide_false]
    rcases (not_lt.1 h).eq_or_lt with h' | h'
    · simp [h']
    · simp [not_le.2 h', h'.le]

/-- One width as a number: scaled to the unit interval, turned over for ascending order, times the maximal width. -/
def widthOf (asc : Bool) (w m M x : K) : K :=
  (if asc = true ∧ 0 < (x - m) / (M - m) then 1 - (x - m) / (M - m) else (x - m) / (M - m)) * w

theorem edgeWidths_fin [IsStrictOrderedRing K] (asc : Bool) (w : K) (ovo : List (OvoRow F K)) (u : OvoRow F K → K)
    (hu : ∀ r ∈ ovo, r.val = .fin (u r)) {m M : K} (hm : minSkip (ovo.map OvoRow.val) = .fin m)
    (hM : maxSkip (ovo.map OvoRow.val) = .fin M) (hne : m ≠ M) :
    edgeWidths asc w ovo = ovo.map (fun r => ⟨r.f1, r.f2, .fin (widthOf asc w m M (u r))⟩) := by
  have hd : M - m ≠ 0 := sub_ne_zero.2 (Ne.symm hne)
  have h1 : scaleToUnit ovo = ovo.map (fun r => ⟨r.f1, r.f2, .fin ((u r - m) / (M - m))⟩) := by
    unfold scaleToUnit
    simp only [hm, hM]
    refine List.map_congr_left fun r hr => ?_
    rw [hu r hr]
    simp only [Num.sub, Num.neg, Num.add, Num.div, ← sub_eq_add_neg, if_neg hd]
  unfold edgeWidths mapToWidth reverseScale
  rw [h1]
  cases asc with
  | false =>
    simp only [Bool.false_eq_true, if_false, List.map_map]
    refine List.map_congr_left fun r _ => ?_
    simp [widthOf, Num.mul]
  | true =>
    simp only [if_true, List.map_map]
    refine List.map_congr_left fun r _ => ?_
    simp only [Function.comp, widthOf, lt_fin, decide_eq_true_eq, true_and]
    split <;> simp only [Num.mul, Num.sub, Num.neg, Num.add, sub_eq_add_neg]

theorem minmax_of_fin [IsStrictOrderedRing K] (ovo : List (OvoRow F K)) (u : OvoRow F K → K) (hu : ∀ r ∈ ovo, r.val = .fin (u r)) (h : ovo ≠ []) :
    ∃ a ∈ ovo, ∃ b ∈ ovo, minSkip (ovo.map OvoRow.val) = .fin (u a) ∧ maxSkip (ovo.map OvoRow.val) = .fin (u b) ∧
      ∀ r ∈ ovo, u a ≤ u r ∧ u r ≤ u b := by
  have he : ovo.map OvoRow.val = ovo.map (fun r => .fin (u r)) := List.map_congr_left hu
  rw [he]
  obtain ⟨a, ha, h1, h2⟩ := minSkip_fin ovo u h
  obtain ⟨b, hb, h3, h4⟩ := maxSkip_fin ovo u h
  exact ⟨a, ha, b, hb, h1, h3, fun r hr => ⟨h2 r hr, h4 r hr⟩⟩

/-! ### The edges of the graph -/

/-- the rows can be told apart by the edges they stand for -/
def DistinctEdges (directed : Bool) (t : List (OvoRow F K)) : Prop :=
  t.Pairwise (fun r q => ¬ (r.f1 = q.f1 ∧ r.f2 = q.f2) ∧ (directed = false → ¬ (r.f1 = q.f2 ∧ r.f2 = q.f1)))

theorem dict_set_fresh {α β : Type} [DecidableEq α] (d : Dict α β) (k : α) (v : β) (h : k ∉ d.keys) :
    Dict.set d k v = d ++ [(k, v)] := by
  induction d with
  | nil => rfl
  | cons x d ih =>
    obtain ⟨a, b⟩ := x
    simp only [Dict.keys, List.map_cons, List.mem_cons, not_or] at h
    simp only [Dict.set, if_neg (Ne.symm h.1), List.cons_append]
    rw [ih h.2]

theorem edgeDict_aux (directed : Bool) (rows : List (OvoRow F K)) (hd : DistinctEdges directed rows) :
    ∀ G : Dict (F × F) (Num K), (∀ r ∈ rows, (r.f1, r.f2) ∉ Dict.keys G ∧ (directed = false → (r.f2, r.f1) ∉ Dict.keys G)) →
      rows.foldl (fun G r => Dict.set G (edgeKey directed G r) r.val) G = G ++ rows.map (fun r => ((r.f1, r.f2), r.val)) := by
  induction rows with
  | nil => intro G _; simp
  | cons r rows ih =>
    intro G hG
    have hd' := List.pairwise_cons.1 hd
    have hr := hG r List.mem_cons_self
    have hk : edgeKey directed G r = (r.f1, r.f2) := by
      unfold edgeKey
      cases directed with
      | true => simp
      | false =>
        have := hr.2 rfl
        rw [← Dict.get?_eq_none_iff] at this
        simp [this]
    rw [List.foldl_cons, hk, dict_set_fresh _ _ _ hr.1, ih hd'.2]
    · simp
    · intro q hq
      have h1 := hG q (List.mem_cons_of_mem _ hq)
      have h2 := hd'.1 q hq
      constructor
      · rw [Dict.keys, List.map_append, List.mem_append, not_or]
        refine ⟨h1.1, ?_⟩
        simp only [List.map_cons, List.map_nil, List.mem_singleton, Prod.mk.injEq]
        rintro ⟨e1, e2⟩
        exact h2.1 ⟨e1.symm, e2.symm⟩
      · intro hdir
        rw [Dict.keys, List.map_append, List.mem_append, not_or]
        refine ⟨h1.2 hdir, ?_⟩
        simp only [List.map_cons, List.map_nil, List.mem_singleton, Prod.mk.injEq]
        rintro ⟨e1, e2⟩
        exact h2.2 hdir ⟨e1.symm, e2.symm⟩

theorem edgeDict_eq {directed : Bool} {rows : List (OvoRow F K)} (hd : DistinctEdges directed rows) :
    edgeDict directed rows = rows.map (fun r => ((r.f1, r.f2), r.val)) := by
  unfold edgeDict
  rw [edgeDict_aux directed rows hd [] (by simp [Dict.keys])]
  rfl

theorem distinctEdges_map {directed : Bool} {t : List (OvoRow F K)} (v : OvoRow F K → Num K) (h : DistinctEdges directed t) :
    DistinctEdges directed (t.map (fun r => (⟨r.f1, r.f2, v r⟩ : OvoRow F K))) := by
  unfold DistinctEdges
  rw [List.pairwise_map]
  exact h

theorem get?_edges {directed : Bool} {t : List (OvoRow F K)} (v : OvoRow F K → Num K) (h : DistinctEdges directed t)
    {r : OvoRow F K} (hr : r ∈ t) :
    Dict.get? (edgeDict directed (t.map (fun r => (⟨r.f1, r.f2, v r⟩ : OvoRow F K)))) (r.f1, r.f2) = some (v r) := by
  rw [edgeDict_eq (distinctEdges_map v h), List.map_map]
  refine Dict.get?_of_mem ?_ (List.mem_map.2 ⟨r, hr, rfl⟩)
  simp only [Dict.keys, List.map_map, List.Nodup, List.pairwise_map]
  refine h.imp fun hn e => hn.1 ?_
  simp only [Function.comp, Prod.mk.injEq] at e
  exact e

theorem keys_edges {directed : Bool} {t : List (OvoRow F K)} (v : OvoRow F K → Num K) (h : DistinctEdges directed t) :
    Dict.keys (edgeDict directed (t.map (fun r => (⟨r.f1, r.f2, v r⟩ : OvoRow F K)))) = t.map (fun r => (r.f1, r.f2)) := by
  rw [edgeDict_eq (distinctEdges_map v h), List.map_map, Dict.keys, List.map_map]
  rfl

/-! ### Heatmap -/

theorem mem_pivot_rows (rows : List (OvoRow F K)) (f : F) :
    f ∈ (pivotFirst rows).rows ↔ ∃ r ∈ rows, r.val ≠ .nan ∧ r.f1 = f := by
  simp only [pivotFirst, mem_npUnique, List.mem_map, List.mem_filter, Bool.not_eq_true', and_assoc]
  constructor
  · rintro ⟨r, hr, hn, hf⟩
    refine ⟨r, hr, fun e => ?_, hf⟩
    rw [e] at hn; cases hn
  · rintro ⟨r, hr, hn, hf⟩
    refine ⟨r, hr, ?_, hf⟩
    rw [Bool.eq_false_iff]
    exact fun e => hn ((Num.isNaN_iff _).1 e)

theorem mem_pivot_cols (rows : List (OvoRow F K)) (f : F) :
    f ∈ (pivotFirst rows).cols ↔ ∃ r ∈ rows, r.val ≠ .nan ∧ r.f2 = f := by
  simp only [pivotFirst, mem_npUnique, List.mem_map, List.mem_filter, Bool.not_eq_true', and_assoc]
  constructor
  · rintro ⟨r, hr, hn, hf⟩
    refine ⟨r, hr, fun e => ?_, hf⟩
    rw [e] at hn; cases hn
  · rintro ⟨r, hr, hn, hf⟩
    refine ⟨r, hr, ?_, hf⟩
    rw [Bool.eq_false_iff]
    exact fun e => hn ((Num.isNaN_iff _).1 e)

/-- two sorted lists without repetition with the same members are equal -/
theorem npUnique_ext {V : Type} [LinearOrder V] {a b : List V} (h : ∀ x, x ∈ a ↔ x ∈ b) : npUnique a = npUnique b := by
  have hp : (npUnique a).Perm (npUnique b) :=
    (List.perm_ext_iff_of_nodup (nodup_npUnique a) (nodup_npUnique b)).2 fun x => by rw [mem_npUnique, mem_npUnique, h]
  exact hp.eq_of_pairwise (le := (· ≤ ·)) (fun _ _ _ _ h1 h2 => le_antisymm h1 h2)
    ((sorted_npUnique a).imp le_of_lt) ((sorted_npUnique b).imp le_of_lt)

theorem pivot_cell (rows : List (OvoRow F K)) (f g : F) :
    (pivotFirst rows).cell f g = .nan ∧ (∀ r ∈ rows, r.f1 = f → r.f2 = g → r.val = .nan) ∨
    ∃ r ∈ rows, r.f1 = f ∧ r.f2 = g ∧ r.val ≠ .nan ∧ (pivotFirst rows).cell f g = r.val := by
  cases hf : (rows.filter (fun r => !r.val.isNaN)).find? (fun r => decide (r.f1 = f ∧ r.f2 = g)) with
  | none =>
    left
    refine ⟨by simp only [pivotFirst, hf]; rfl, ?_⟩
    intro r hr h1 h2
    by_contra hn
    have := List.find?_eq_none.1 hf r (List.mem_filter.2 ⟨hr, by
      rw [Bool.not_eq_true', Bool.eq_false_iff]; exact fun e => hn ((Num.isNaN_iff _).1 e)⟩)
    simp [h1, h2] at this
  | some r =>
    right
    have h1 := List.find?_some hf
    have h2 := List.mem_filter.1 (List.mem_of_find?_eq_some hf)
    simp only [decide_eq_true_eq] at h1
    refine ⟨r, h2.1, h1.1, h1.2, fun e => ?_, by simp only [pivotFirst, hf]; rfl⟩
    have h3 := h2.2
    rw [e] at h3
    cases h3

/-- the cell of an entry all of whose rows agree -/
theorem pivot_cell_of (rows : List (OvoRow F K)) {f g : F} {v : Num K} {r : OvoRow F K} (hr : r ∈ rows) (h1 : r.f1 = f)
    (h2 : r.f2 = g) (h : ∀ r ∈ rows, r.f1 = f → r.f2 = g → r.val = v) : (pivotFirst rows).cell f g = v := by
  rcases pivot_cell rows f g with ⟨e, hn⟩ | ⟨q, hq, e1, e2, _, e⟩
  · rw [e, ← h r hr h1 h2, hn r hr h1 h2]
  · rw [e, h q hq e1 e2]

theorem importanceDiag_ok {ovo : List (OvoRow F K)} {imp : List (FeatRow F K)} {diag : List (OvoRow F K)}
    (h : importanceDiag ovo imp = .ok diag) :
    (∀ r ∈ diag, r.f1 = r.f2 ∧ (∃ q ∈ imp, q.f = r.f1 ∧ q.val = r.val) ∧ ∃ o ∈ ovo, o.f1 = r.f1 ∨ o.f2 = r.f1) ∧
    ∀ o ∈ ovo, ∀ f, o.f1 = f ∨ o.f2 = f → ∃ r ∈ diag, r.f1 = f ∧ r.f2 = f := by
  have hF := mapM_eq_ok h
  have key : ∀ (fs : List F) (ds : List (OvoRow F K)), List.Forall₂ (fun f d => (match imp.find? (fun r => decide (r.f = f)) with
      | none => (.error .indexError : Except Err (OvoRow F K))
      | some r => .ok ⟨f, f, r.val⟩) = .ok d) fs ds →
      (∀ r ∈ ds, r.f1 = r.f2 ∧ (∃ q ∈ imp, q.f = r.f1 ∧ q.val = r.val) ∧ r.f1 ∈ fs) ∧ ∀ f ∈ fs, ∃ r ∈ ds, r.f1 = f ∧ r.f2 = f := by
    intro fs ds hfd
    induction hfd with
    | nil => simp
    | @cons f d fs ds h1 _ ih =>
      have hd : d.f1 = f ∧ d.f2 = f ∧ ∃ q ∈ imp, q.f = f ∧ q.val = d.val := by
        split at h1
        · cases h1
        · next q hq =>
          cases h1
          exact ⟨rfl, rfl, q, List.mem_of_find?_eq_some hq, by simpa using List.find?_some hq, rfl⟩
      constructor
      · intro r hr
        rcases List.mem_cons.1 hr with rfl | hr
        · refine ⟨by rw [hd.1, hd.2.1], ?_, by rw [hd.1]; exact List.mem_cons_self⟩
          rw [hd.1]; exact hd.2.2
        · obtain ⟨a, b, c⟩ := ih.1 r hr
          exact ⟨a, b, List.mem_cons_of_mem _ c⟩
      · intro g hg
        rcases List.mem_cons.1 hg with rfl | hg
        · exact ⟨d, List.mem_cons_self, hd.1, hd.2.1⟩
        · obtain ⟨r, hr, e⟩ := ih.2 g hg
          exact ⟨r, List.mem_cons_of_mem _ hr, e⟩
  obtain ⟨k1, k2⟩ := key _ _ hF
  constructor
  · intro r hr
    obtain ⟨a, b, c⟩ := k1 r hr
    refine ⟨a, b, ?_⟩
    rw [List.mem_dedup, List.mem_append, List.mem_map, List.mem_map] at c
    rcases c with ⟨o, ho, e⟩ | ⟨o, ho, e⟩
    · exact ⟨o, ho, Or.inl e⟩
    · exact ⟨o, ho, Or.inr e⟩
  · intro o ho f hf
    apply k2
    rw [List.mem_dedup, List.mem_append, List.mem_map, List.mem_map]
    rcases hf with e | e
    · exact Or.inl ⟨o, ho, e⟩
    · exact Or.inr ⟨o, ho, e⟩

theorem importanceDiag_returns {ovo : List (OvoRow F K)} {imp : List (FeatRow F K)}
    (h : ∀ o ∈ ovo, (∃ q ∈ imp, q.f = o.f1) ∧ ∃ q ∈ imp, q.f = o.f2) : ∃ diag, importanceDiag ovo imp = .ok diag := by
  unfold importanceDiag
  have := mapM_exists_ok (l := (ovo.map OvoRow.f1 ++ ovo.map OvoRow.f2).dedup) (f := fun f =>
    match imp.find? (fun r => decide (r.f = f)) with
    | none => (.error .indexError : Except Err (OvoRow F K))
    | some r => .ok ⟨f, f, r.val⟩) (fun f hf => by
      have hq : ∃ q ∈ imp, q.f = f := by
        rw [List.mem_dedup, List.mem_append, List.mem_map, List.mem_map] at hf
        rcases hf with ⟨o, ho, e⟩ | ⟨o, ho, e⟩
        · rw [← e]; exact (h o ho).1
        · rw [← e]; exact (h o ho).2
      obtain ⟨q, hq, e⟩ := hq
      cases hfi : imp.find? (fun r => decide (r.f = f)) with
      | none => have := List.find?_eq_none.1 hfi q hq; simp [e] at this
      | some r => exact ⟨_, rfl⟩)
  obtain ⟨bs, hb, _⟩ := this
  exact ⟨bs, hb⟩

/-- the scores can be computed for every square matrix that does not have exactly one row -/
theorem heatScores_returns (lower : F → F) (m : Mat F K) (hsq : m.rows = m.cols) (hn : m.rows.Nodup) (h1 : m.rows.length ≠ 1) :
    ∃ s, heatScores lower m = .ok s := by
  unfold heatScores diagSeries
  rw [if_pos (by rw [hsq])]
  simp only []
  generalize maxSkip (K := K) _ = l1
  generalize maxSkip (K := K) _ = l2
  have hs : ∀ f ∈ m.rows, ∃ s, heatScore m ((m.rows.zip m.cols).map (fun q => (q.1, m.cell q.1 q.2))) l1 l2 f = .ok s := by
    intro f hf
    have hd : (Dict.get? ((m.rows.zip m.cols).map (fun q => (q.1, m.cell q.1 q.2))) f).isSome := by
      rw [Dict.get?_isSome_iff, Dict.keys, List.map_map]
      have : (Prod.fst ∘ fun q : F × F => (q.1, m.cell q.1 q.2)) = Prod.fst := rfl
      rw [this, List.map_fst_zip (by rw [hsq])]
      exact hf
    obtain ⟨d, hd⟩ := Option.isSome_iff_exists.1 hd
    unfold heatScore
    rw [hd]
    simp only []
    rw [if_pos (by rw [← hsq]; exact hf)]
    have hne : (m.rows.erase f).map (fun g => m.cell g f) ≠ [] := by
      intro e
      have := congrArg List.length e
      rw [List.length_map, List.length_erase_of_mem hf] at this
      have : m.rows.length ≤ 1 := by simp at this; omega
      have hp : 0 < m.rows.length := List.length_pos_of_mem hf
      omega
    cases hl : (m.rows.erase f).map (fun g => m.cell g f) with
    | nil => exact absurd hl hne
    | cons x xs => exact ⟨_, rfl⟩
  generalize ((m.rows.zip m.cols).map (fun q => (q.1, m.cell q.1 q.2))) = dg at hs
  clear h1 hn hsq
  generalize hrr : m.rows = rs at hs
  have : ∀ (rs : List F) (acc : Dict F (Num K)), (∀ f ∈ rs, ∃ s, heatScore m dg l1 l2 f = .ok s) →
      ∃ s, rs.foldlM (fun acc f => (heatScore m dg l1 l2 f).map (fun s => Dict.set acc (lower f) s)) acc = .ok s := by
    intro rs
    induction rs with
    | nil => intro acc _; exact ⟨acc, rfl⟩
    | cons f rs ih =>
      intro acc h
      obtain ⟨s, hs⟩ := h f List.mem_cons_self
      rw [List.foldlM_cons, hs]
      exact ih _ (fun g hg => h g (List.mem_cons_of_mem _ hg))
  exact this rs [] hs

/-- what the dictionary of scores holds if lower-case names are different -/
theorem foldl_scores (lower : F → F) (sc : F → Except Err (Num K)) :
    ∀ (rs : List F) (acc s : Dict F (Num K)), (∀ f ∈ rs, ∀ g ∈ rs, lower f = lower g → f = g) →
      rs.foldlM (fun acc f => (sc f).map (fun s => Dict.set acc (lower f) s)) acc = .ok s →
      (∀ f ∈ rs, ∃ x, sc f = .ok x ∧ Dict.get? s (lower f) = some x) ∧
      ∀ k, (∀ f ∈ rs, lower f ≠ k) → Dict.get? s k = Dict.get? acc k := by
  intro rs
  induction rs with
  | nil => intro acc s _ h; cases h; exact ⟨by simp, fun _ _ => rfl⟩
  | cons f rs ih =>
    intro acc s hinj h
    rw [List.foldlM_cons] at h
    cases hf : sc f with
    | error e => rw [hf] at h; cases h
    | ok x =>
      rw [hf] at h
      obtain ⟨h1, h2⟩ := ih (Dict.set acc (lower f) x) s
        (fun a ha b hb => hinj a (List.mem_cons_of_mem _ ha) b (List.mem_cons_of_mem _ hb)) h
      constructor
      · intro g hg
        by_cases hgr : g ∈ rs
        · exact h1 g hgr
        · rcases List.mem_cons.1 hg with rfl | hg
          · refine ⟨x, hf, ?_⟩
            rw [h2 _ (fun b hb e => hgr (by rw [← hinj b (List.mem_cons_of_mem _ hb) g List.mem_cons_self e]; exact hb)),
              Dict.get?_set, if_pos rfl]
          · exact absurd hg hgr
      · intro k hk
        rw [h2 k (fun g hg => hk g (List.mem_cons_of_mem _ hg)), Dict.get?_set, if_neg]
        exact fun e => hk f List.mem_cons_self e.symm

theorem pyMax_fin {α : Type} (l : List α) (u : α → K) (h : l ≠ []) :
    ∃ a ∈ l, pyMax (l.map (fun a => (.fin (u a) : Num K))) = .ok (.fin (u a)) ∧ ∀ b ∈ l, u b ≤ u a := by
  have key : ∀ (l : List α) (c : α), ∃ a, (a = c ∨ a ∈ l) ∧
      (l.map (fun a => (.fin (u a) : Num K))).foldl (fun m y => if Num.lt m y then y else m) (.fin (u c)) = .fin (u a) ∧
      u c ≤ u a ∧ ∀ b ∈ l, u b ≤ u a := by
    intro l
    induction l with
    | nil => intro c; exact ⟨c, Or.inl rfl, rfl, le_refl _, by simp⟩
    | cons b l ih =>
      intro c
      rw [List.map_cons, List.foldl_cons, lt_fin]
      by_cases hlt : u c < u b
      · rw [if_pos (by simpa using hlt)]
        obtain ⟨a, ha, e, h1, h2⟩ := ih b
        refine ⟨a, ?_, e, hlt.le.trans h1, ?_⟩
        · rcases ha with rfl | ha
          · exact Or.inr List.mem_cons_self
          · exact Or.inr (List.mem_cons_of_mem _ ha)
        · intro d hd
          rcases List.mem_cons.1 hd with rfl | hd
          · exact h1
          · exact h2 d hd
      · rw [if_neg (by simpa using hlt)]
        obtain ⟨a, ha, e, h1, h2⟩ := ih c
        refine ⟨a, ?_, e, h1, ?_⟩
        · rcases ha with rfl | ha
          · exact Or.inl rfl
          · exact Or.inr (List.mem_cons_of_mem _ ha)
        · intro d hd
          rcases List.mem_cons.1 hd with rfl | hd
          · exact (not_lt.1 hlt).trans h1
          · exact h2 d hd
  cases l with
  | nil => exact absurd rfl h
  | cons c l =>
    obtain ⟨a, ha, e, h1, h2⟩ := key l c
    refine ⟨a, ?_, by rw [List.map_cons, pyMax, e], ?_⟩
    · rcases ha with rfl | ha
      · exact List.mem_cons_self
      · exact List.mem_cons_of_mem _ ha
    · intro b hb
      rcases List.mem_cons.1 hb with rfl | hb
      · exact h1
      · exact h2 b hb

end Vis

end Artemis
