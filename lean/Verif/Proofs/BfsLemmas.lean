import Verif.Proofs.TreeLemmas

/-!
# The level-order traversal
-/

set_option linter.unusedSectionVars false
set_option linter.unusedVariables false
set_option linter.unusedSimpArgs false

namespace Artemis
open Spec

theorem get?_appendNodes (ks : List Int) (nd : ks.Nodup) (w : Int → List Nat) (d : Dict Int (List Nat)) (f : Int) :
    Dict.get? (appendNodes (ks.map (fun k => (k, w k))) d) f =
      if f ∈ ks then some ((Dict.get? d f).getD [] ++ w f) else Dict.get? d f := by
  unfold appendNodes
  induction ks generalizing d with
  | nil => simp
  | cons k ks ih =>
    obtain ⟨hk, nd'⟩ := List.nodup_cons.1 nd
    rw [List.map_cons, List.foldl_cons, ih nd', Dict.get?_set]
    by_cases hf : f = k
    · subst hf
      rw [if_neg hk, if_pos rfl, if_pos List.mem_cons_self]
    · have : f ∈ k :: ks ↔ f ∈ ks := by simp [hf]
      simp only [this]
      by_cases h2 : f ∈ ks
      · simp [h2, hf]
      · simp [h2, hf]

theorem nodup_appendNodes (g : List (Int × List Nat)) (d : Dict Int (List Nat)) (nd : d.keys.Nodup) :
    (appendNodes g d).keys.Nodup := by
  unfold appendNodes
  induction g generalizing d with
  | nil => exact nd
  | cons x g ih => exact ih _ (Dict.nodup_keys_set nd _ _)

/-- ids of the nodes in `L` splitting on `f`, in the order of `L` -/
def splitIds (L : List (Nat × LTree)) (f : Int) : List Nat :=
  (L.filter (fun e => decide (featI e.2 = f))).map (fun e => e.2.id)

theorem splitIds_append (L L' : List (Nat × LTree)) (f : Int) : splitIds (L ++ L') f = splitIds L f ++ splitIds L' f := by
  simp [splitIds]

/-- the dictionary lists the nodes of `L` by split variable -/
def DictIs (d : Dict Int (List Nat)) (L : List (Nat × LTree)) : Prop :=
  ∀ f, Dict.get? d f = if splitIds L f = [] then none else some (splitIds L f)

theorem getD_dictIs {d : Dict Int (List Nat)} {L : List (Nat × LTree)} (h : DictIs d L) (f : Int) :
    (Dict.get? d f).getD [] = splitIds L f := by
  rw [h f]
  split
  · next e => simp [e]
  · rfl

theorem splitIds_level (k : Nat) (ts : List LTree) (f : Int) :
    splitIds (ts.map (fun t => (k, t))) f =
      ((ts.map (fun t => (featI t, t.id))).filter (fun r => decide (r.1 = f))).map Prod.snd := by
  unfold splitIds
  induction ts with
  | nil => rfl
  | cons t ts ih =>
    simp only [List.map_cons, List.filter_cons]
    by_cases h : featI t = f <;> simp [h, ih]

theorem splitIds_level_ne (k : Nat) (ts : List LTree) (f : Int) :
    splitIds (ts.map (fun t => (k, t))) f ≠ [] ↔ f ∈ ts.map featI := by
  unfold splitIds
  rw [Ne, List.map_eq_nil_iff, List.filter_eq_nil_iff]
  simp

theorem mapM_loc {A : SkTree} {ts : List LTree} (h : ∀ t ∈ ts, t.Stores A) :
    (ts.map LTree.id).mapM (SkTree.loc A) = .ok (ts.map (fun t => ⟨leftI t, rightI t, featI t⟩)) := by
  rw [List.mapM_map]
  refine mapM_ok (fun t ht => ?_)
  simp only [Function.comp, SkTree.loc, stores_get (h t ht)]

theorem splitVarToIds_eq {A : SkTree} {ts : List LTree} (h : ∀ t ∈ ts, t.Stores A) (k : Nat) :
    splitVarToIds A (ts.map LTree.id) = .ok ((npUnique (ts.map featI)).map
      (fun f => (f, splitIds (ts.map (fun t => (k, t))) f))) := by
  have : (ts.map LTree.id).mapM (fun i => (SkTree.loc A i).map (fun n => (n.feat, i))) =
      .ok (ts.map (fun t => (featI t, t.id))) := by
    rw [List.mapM_map]
    refine mapM_ok (fun t ht => ?_)
    simp only [Function.comp, SkTree.loc, stores_get (h t ht), Except.map]
  unfold splitVarToIds
  rw [this]
  simp only [splitIds_level, List.map_map, Function.comp_def]

theorem filter_children (ts : List LTree) :
    ((ts.map leftI).filter (fun c => decide (0 ≤ c))).map Int.toNat = (ts.filterMap leftT).map LTree.id ∧
    ((ts.map rightI).filter (fun c => decide (0 ≤ c))).map Int.toNat = (ts.filterMap rightT).map LTree.id := by
  induction ts with
  | nil => exact ⟨rfl, rfl⟩
  | cons t ts ih =>
    cases t with
    | leaf i =>
      have e1 : (LTree.leaf i :: ts).filterMap leftT = ts.filterMap leftT := rfl
      have e2 : (LTree.leaf i :: ts).filterMap rightT = ts.filterMap rightT := rfl
      rw [e1, e2]
      simpa [leftI, rightI] using ih
    | node i f l r => simpa [leftI, rightI, leftT, rightT] using ih

theorem nextLevel_eq {A : SkTree} {ts : List LTree} (h : ∀ t ∈ ts, t.Stores A) :
    nextLevel A (ts.map LTree.id) = .ok ((nextT ts).map LTree.id) := by
  unfold nextLevel
  rw [mapM_loc h]
  simp only [List.map_map, Function.comp_def, List.filter_append, List.map_append, nextT]
  have := filter_children ts
  rw [← this.1, ← this.2]

theorem stores_lt {A : SkTree} {t : LTree} (h : t.Stores A) : t.id < A.length := by
  have := stores_get h
  exact (List.getElem?_eq_some_iff.1 this).1

theorem setDepths_eq {A : SkTree} {ts : List LTree} (h : ∀ t ∈ ts, t.Stores A) (k : Nat) {depth : List Nat}
    (hd : depth.length = A.length) :
    setDepths depth (ts.map LTree.id) k =
      .ok ((ts.map (fun t => (k, t))).foldl (fun ds e => ds.set e.2.id e.1) depth) := by
  unfold setDepths
  rw [if_pos]
  · congr 1
    rw [List.foldl_map, List.foldl_map]
  · rw [List.all_eq_true]
    intro i hi
    obtain ⟨t, ht, rfl⟩ := List.mem_map.1 hi
    simpa [hd] using stores_lt (h t ht)

theorem length_foldl_set (L : List (Nat × LTree)) (depth : List Nat) :
    (L.foldl (fun ds e => ds.set e.2.id e.1) depth).length = depth.length := by
  induction L generalizing depth with
  | nil => rfl
  | cons e L ih => rw [List.foldl_cons, ih, List.length_set]

theorem get_foldl_set {L : List (Nat × LTree)} (nd : (L.map (fun e => e.2.id)).Nodup) {depth : List Nat}
    {e : Nat × LTree} (he : e ∈ L) (hl : e.2.id < depth.length) :
    (L.foldl (fun ds e => ds.set e.2.id e.1) depth)[e.2.id]? = some e.1 := by
  induction L generalizing depth with
  | nil => cases he
  | cons x L ih =>
    rw [List.map_cons, List.nodup_cons] at nd
    rw [List.foldl_cons]
    rcases List.mem_cons.1 he with rfl | he
    · have key : ∀ (L : List (Nat × LTree)) (ds : List Nat), e.2.id ∉ L.map (fun e => e.2.id) →
          (L.foldl (fun ds e => ds.set e.2.id e.1) ds)[e.2.id]? = ds[e.2.id]? := by
        intro L
        induction L with
        | nil => intros; rfl
        | cons y L ih =>
          intro ds hy
          simp only [List.map_cons, List.mem_cons, not_or] at hy
          rw [List.foldl_cons, ih _ hy.2, List.getElem?_set_ne (Ne.symm hy.1)]
      rw [key L _ nd.1, List.getElem?_set_self hl]
    · exact ih nd.2 he (by rw [List.length_set]; exact hl)

theorem bfsLoop_spec {A : SkTree} {n : Nat} {ts : List LTree} (hst : ∀ t ∈ ts, t.Stores A) (hn : sizeL ts ≤ n)
    (k : Nat) {depth : List Nat} (hd : depth.length = A.length) {d : Dict Int (List Nat)} {L : List (Nat × LTree)}
    (hdict : DictIs d L) (nd : d.keys.Nodup) :
    ∃ d', bfsLoop A (n + 1) (ts.map LTree.id) k depth d =
        some (.ok ((levelOrder n k ts).foldl (fun ds e => ds.set e.2.id e.1) depth, d')) ∧
      DictIs d' (L ++ levelOrder n k ts) ∧ d'.keys.Nodup := by
  induction n generalizing ts k depth d L with
  | zero =>
    have := sizeL_zero (Nat.le_zero.1 hn)
    subst this
    refine ⟨d, rfl, ?_, nd⟩
    simpa [levelOrder] using hdict
  | succ n ih =>
    cases ts with
    | nil =>
      have hlo : ∀ n k, levelOrder n k [] = [] := by
        intro n
        induction n with
        | zero => intro k; rfl
        | succ n ih => intro k; simp [levelOrder, nextT, ih]
      refine ⟨d, ?_, ?_, nd⟩
      · rw [hlo]; rfl
      · rw [hlo]; simpa using hdict
    | cons t ts =>
      have hn' : sizeL (nextT (t :: ts)) ≤ n := by
        have := sizeL_next (t :: ts)
        simp only [List.length_cons] at this
        omega
      have hst' : ∀ s ∈ nextT (t :: ts), s.Stores A := by
        intro s hs
        obtain ⟨t', ht', h1⟩ := mem_nextT.1 hs
        exact at_stores h1 (hst t' ht')
      have hdict' : DictIs (appendNodes ((npUnique ((t :: ts).map featI)).map
          (fun f => (f, splitIds ((t :: ts).map (fun t => (k, t))) f))) d) (L ++ (t :: ts).map (fun t => (k, t))) := by
        intro f
        rw [get?_appendNodes _ (nodup_npUnique _), splitIds_append, getD_dictIs hdict, hdict f]
        by_cases hf : f ∈ (t :: ts).map featI
        · rw [if_pos (mem_npUnique.2 hf)]
          have := (splitIds_level_ne k (t :: ts) f).2 hf
          rw [if_neg]
          simp only [List.append_eq_nil_iff, not_and]
          exact fun _ => this
        · rw [if_neg (fun h => hf (mem_npUnique.1 h))]
          have : splitIds ((t :: ts).map (fun t => (k, t))) f = [] := by
            by_contra h
            exact hf ((splitIds_level_ne k (t :: ts) f).1 h)
          rw [this, List.append_nil]
      obtain ⟨d', h1, h2, h3⟩ := ih hst' hn' (k + 1)
        (depth := ((t :: ts).map (fun t => (k, t))).foldl (fun ds e => ds.set e.2.id e.1) depth)
        (by rw [length_foldl_set, hd]) hdict' (nodup_appendNodes _ _ nd)
      refine ⟨d', ?_, ?_, h3⟩
      · have e1 := setDepths_eq hst k hd
        have e2 := splitVarToIds_eq hst k
        have e3 := nextLevel_eq hst
        rw [List.map_cons] at e1 e2 e3 ⊢
        rw [bfsLoop, e1]
        simp only
        rw [e2]
        simp only
        rw [e3]
        simp only
        rw [h1]
        simp only [levelOrder, List.foldl_append, List.map_cons]
      · rw [levelOrder]
        rw [List.append_assoc] at h2
        exact h2

/-- The traversal of a stored tree: depths and split lists are those of the level order. -/
theorem bfs_eq {A : SkTree} {t : LTree} (h : TreeArray A t) :
    ∃ depths d, bfs A = .ok (depths, d) ∧ depths.length = A.length ∧
      (∀ k s, At t k s → depths[s.id]? = some k) ∧ d.keys.Nodup ∧
      ∀ f, Dict.get? d f = if f = -2 ∨ splitIds (levelOrder A.length 0 [t]) f = [] then none
        else some (splitIds (levelOrder A.length 0 [t]) f) := by
  have hlen : t.ids.length = A.length := by rw [h.ids.length_eq, List.length_range]
  have hsz : sizeL [t] = A.length := by simp [sizeL, hlen]
  obtain ⟨d, h1, h2, h3⟩ := bfsLoop_spec (A := A) (n := A.length) (ts := [t]) (by simpa using h.stores) (by omega) 0
    (depth := List.replicate A.length 0) (by simp) (d := []) (L := []) (by intro f; rfl) (by simp [Dict.keys])
  rw [List.nil_append] at h2
  have hmem : ∀ k s, (k, s) ∈ levelOrder A.length 0 [t] ↔ At t k s := by
    intro k s
    rw [mem_levelOrder (by omega)]
    simp
  have hnd : ((levelOrder A.length 0 [t]).map (fun e => e.2.id)).Nodup := by
    have := levelOrder_ids (n := A.length) (k := 0) (ts := [t]) (by omega)
    rw [this.nodup_iff]
    simp only [List.flatMap_cons, List.flatMap_nil, List.append_nil]
    rw [h.ids.nodup_iff]
    exact List.nodup_range
  -- there is a leaf
  have hleaf : splitIds (levelOrder A.length 0 [t]) (-2) ≠ [] := by
    have : ∀ t : LTree, ∃ k i, At t k (.leaf i) := by
      intro t
      induction t with
      | leaf i => exact ⟨0, i, .here _⟩
      | node i f l r ih _ => obtain ⟨k, j, h⟩ := ih; exact ⟨k + 1, j, .left h⟩
    obtain ⟨k, i, hk⟩ := this t
    intro e
    have hm : i ∈ splitIds (levelOrder A.length 0 [t]) (-2) :=
      List.mem_map.2 ⟨(k, .leaf i), List.mem_filter.2 ⟨(hmem _ _).2 hk, by simp [featI]⟩, rfl⟩
    rw [e] at hm
    cases hm
  have hkey : (-2 : Int) ∈ d.keys := by
    rw [← Dict.get?_isSome_iff, h2, if_neg hleaf]
    rfl
  refine ⟨(levelOrder A.length 0 [t]).foldl (fun ds e => ds.set e.2.id e.1) (List.replicate A.length 0),
    d.filter (fun e => !decide (e.1 = -2)), ?_, ?_, ?_, ?_, ?_⟩
  · have e0 : [t].map LTree.id = [0] := by simp [h.root]
    rw [e0] at h1
    unfold bfs
    rw [h1]
    simp only [Dict.del, if_pos hkey]
  · rw [length_foldl_set]; simp
  · intro k s hs
    exact get_foldl_set hnd ((hmem k s).2 hs) (by
      have := stores_lt (at_stores hs h.stores)
      simpa using this)
  · exact (List.filter_sublist.map Prod.fst).nodup h3
  · intro f
    have hfil : ∀ (d : Dict Int (List Nat)), Dict.get? (d.filter (fun e => !decide (e.1 = -2))) f =
        if f = -2 then none else Dict.get? d f := by
      intro d
      induction d with
      | nil => simp [Dict.get?]
      | cons e d ih =>
        obtain ⟨a, b⟩ := e
        by_cases ha : a = -2
        · subst ha
          simp only [List.filter_cons, decide_true, Bool.not_true, Bool.false_eq_true, if_false, ih, Dict.get?]
          by_cases hf : f = -2
          · simp [hf]
          · rw [if_neg hf, if_neg hf, if_neg (fun h => hf h.symm)]
        · simp only [List.filter_cons, ha, decide_false, Bool.not_false, if_true, Dict.get?, ih]
          by_cases hf : a = f
          · subst hf; rw [if_pos rfl, if_neg ha]; simp
          · simp [hf]
    rw [hfil]
    by_cases hf : f = -2
    · simp [hf]
    · rw [if_neg hf, h2 f]
      simp [hf]

end Artemis
