import Verif.Proofs.BfsLemmas

/-!
# Conditional minimal depth of one tree
-/

set_option linter.unusedSectionVars false
set_option linter.unusedVariables false
set_option linter.unusedSimpArgs false

namespace Artemis
open Spec

/-! ### Split lists -/

/-- What the traversal of a stored tree gives. -/
structure Traversed (A : SkTree) (t : LTree) (depths : List Nat) (d : Dict Int (List Nat)) : Prop where
  len : depths.length = A.length
  depth : ∀ k s, At t k s → depths[s.id]? = some k
  nodup : d.keys.Nodup
  used : ∀ f : Nat, Uses t f → ∃ l, Dict.get? d (f : Int) = some l ∧ l ≠ [] ∧ l.Nodup ∧
    (∀ i, i ∈ l ↔ ∃ k s, At t k s ∧ s.Splits f ∧ s.id = i) ∧
    l.Pairwise (fun i j => depths.getD i 0 ≤ depths.getD j 0)
  unused : ∀ f : Nat, ¬ Uses t f → Dict.get? d (f : Int) = none
  neg : ∀ f : Int, f < 0 → Dict.get? d f = none

theorem featI_neg {t : LTree} (h : featI t < 0) : featI t = -2 := by
  cases t with
  | leaf i => rfl
  | node i f l r => simp [featI] at h; omega

theorem bfs_traversed {A : SkTree} {t : LTree} (h : TreeArray A t) :
    ∃ depths d, bfs A = .ok (depths, d) ∧ Traversed A t depths d := by
  obtain ⟨depths, d, h1, h2, h3, h4, h5⟩ := bfs_eq h
  have hlen : t.ids.length = A.length := by rw [h.ids.length_eq, List.length_range]
  have hsz : sizeL [t] = A.length := by simp [sizeL, hlen]
  have hmem : ∀ k s, (k, s) ∈ levelOrder A.length 0 [t] ↔ At t k s := by
    intro k s
    rw [mem_levelOrder (by omega)]
    simp
  have hnd : ((levelOrder A.length 0 [t]).map (fun e => e.2.id)).Nodup := by
    have := levelOrder_ids (n := A.length) (k := 0) (ts := [t]) (by omega)
    rw [this.nodup_iff]
    simp only [List.flatMap_cons, List.flatMap_nil, List.append_nil]
    rw [h.ids.nodup_iff]
    exact List.nodup_range
  have hsp : ∀ (f : Int) i, i ∈ splitIds (levelOrder A.length 0 [t]) f ↔ ∃ k s, At t k s ∧ featI s = f ∧ s.id = i := by
    intro f i
    simp only [splitIds, List.mem_map, List.mem_filter, decide_eq_true_eq]
    constructor
    · rintro ⟨⟨k, s⟩, ⟨h1, h2⟩, rfl⟩; exact ⟨k, s, (hmem k s).1 h1, h2, rfl⟩
    · rintro ⟨k, s, h1, h2, rfl⟩; exact ⟨(k, s), ⟨(hmem k s).2 h1, h2⟩, rfl⟩
  refine ⟨depths, d, h1, h2, h3, h4, ?_, ?_, ?_⟩
  · rintro f ⟨k, s, hs, hf⟩
    have hne : splitIds (levelOrder A.length 0 [t]) f ≠ [] :=
      List.ne_nil_of_mem ((hsp f s.id).2 ⟨k, s, hs, featI_eq.2 hf, rfl⟩)
    refine ⟨_, ?_, hne, ?_, ?_, ?_⟩
    · rw [h5, if_neg]
      rintro (h | h)
      · omega
      · exact hne h
    · exact (List.filter_sublist.map _).nodup hnd
    · intro i
      rw [hsp]
      simp only [featI_eq]
    · unfold splitIds
      rw [List.pairwise_map]
      refine List.Pairwise.imp_of_mem ?_ ((levelOrder_sorted A.length 0 [t]).filter _)
      rintro ⟨k, s⟩ ⟨k', s'⟩ ha hb hab
      have e1 := h3 k s ((hmem k s).1 (List.mem_filter.1 ha).1)
      have e2 := h3 k' s' ((hmem k' s').1 (List.mem_filter.1 hb).1)
      simp only [List.getD_eq_getElem?_getD, e1, e2, Option.getD_some]
      exact hab
  · intro f hf
    rw [h5, if_pos]
    right
    by_contra hne
    obtain ⟨i, hi⟩ := List.exists_mem_of_ne_nil _ hne
    obtain ⟨k, s, h1, h2, _⟩ := (hsp f i).1 hi
    exact hf ⟨k, s, h1, featI_eq.1 h2⟩
  · intro f hf
    rw [h5, if_pos]
    by_contra hne
    push Not at hne
    obtain ⟨i, hi⟩ := List.exists_mem_of_ne_nil _ hne.2
    obtain ⟨k, s, h1, h2, _⟩ := (hsp f i).1 hi
    exact hne.1 (by rw [← h2]; exact featI_neg (by rw [h2]; exact hf))

/-! ### Depth-first numbering -/

/-- depths in preorder -/
def depthList : Nat → LTree → List Nat
  | d, .leaf _ => [d]
  | d, .node _ _ l r => d :: (depthList (d + 1) l ++ depthList (d + 1) r)

theorem length_depthList (d : Nat) (t : LTree) : (depthList d t).length = t.ids.length := by
  induction t generalizing d with
  | leaf i => rfl
  | node i f l r ihl ihr => simp [depthList, LTree.ids, ihl, ihr]

theorem depthList_cons (d : Nat) (t : LTree) : ∃ rest, depthList d t = d :: rest ∧ ∀ x ∈ rest, d < x := by
  have hge : ∀ (t : LTree) d, ∀ x ∈ depthList d t, d ≤ x := by
    intro t
    induction t with
    | leaf i => intro d x hx; simp [depthList] at hx; omega
    | node i f l r ihl ihr =>
      intro d x hx
      simp only [depthList, List.mem_cons, List.mem_append] at hx
      rcases hx with rfl | hx | hx
      · exact Nat.le_refl _
      · have := ihl _ _ hx; omega
      · have := ihr _ _ hx; omega
  cases t with
  | leaf i => exact ⟨[], rfl, by simp⟩
  | node i f l r =>
    refine ⟨_, rfl, ?_⟩
    intro x hx
    rcases List.mem_append.1 hx with hx | hx
    · have := hge _ _ _ hx; omega
    · have := hge _ _ _ hx; omega

theorem depthList_last (d : Nat) (t : LTree) : (depthList d t).getLast? = some (d + t.lastDepth) := by
  induction t generalizing d with
  | leaf i => simp [depthList, LTree.lastDepth]
  | node i f l r ihl ihr =>
    have hne : depthList (d + 1) r ≠ [] := by
      intro h; have := ihr (d + 1); rw [h] at this; cases this
    simp only [depthList, LTree.lastDepth]
    rw [List.getLast?_cons, List.getLast?_append, ihr (d + 1)]
    simp
    omega

theorem zip_spec (d : Nat) (t : LTree) : ∀ e ∈ t.ids.zip (depthList d t), ∃ k s, At t k s ∧ s.id = e.1 ∧ e.2 = d + k := by
  induction t generalizing d with
  | leaf i =>
    intro e he
    simp [LTree.ids, depthList] at he
    subst he
    exact ⟨0, _, .here _, rfl, rfl⟩
  | node i f l r ihl ihr =>
    intro e he
    simp only [LTree.ids, depthList, List.zip_cons_cons, List.mem_cons] at he
    rw [List.zip_append (by rw [length_depthList])] at he
    rcases he with rfl | he
    · exact ⟨0, _, .here _, rfl, rfl⟩
    · rcases List.mem_append.1 he with he | he
      · obtain ⟨k, s, h1, h2, h3⟩ := ihl _ _ he
        exact ⟨k + 1, s, .left h1, h2, by omega⟩
      · obtain ⟨k, s, h1, h2, h3⟩ := ihr _ _ he
        exact ⟨k + 1, s, .right h1, h2, by omega⟩

theorem split_at {t s : LTree} {k : Nat} (h : At t k s) (d : Nat) :
    ∃ pre post pre' post', t.ids = pre ++ (s.ids ++ post) ∧ depthList d t = pre' ++ (depthList (d + k) s ++ post') ∧
      pre.length = pre'.length ∧ ∀ x, post'.head? = some x → x ≤ d + k := by
  induction h generalizing d with
  | here t => exact ⟨[], [], [], [], by simp, by simp, rfl, by simp⟩
  | left h ih =>
    rename_i i f l r k s
    obtain ⟨pre, post, pre', post', h1, h2, h3, h4⟩ := ih (d + 1)
    refine ⟨i :: pre, post ++ r.ids, d :: pre', post' ++ depthList (d + 1) r, ?_, ?_, by simp [h3], ?_⟩
    · simp [LTree.ids, h1]
    · simp only [depthList, h2, List.cons_append, List.append_assoc]
      rw [show d + 1 + k = d + (k + 1) by omega]
    · intro x hx
      cases post' with
      | nil =>
        obtain ⟨rest, hr, _⟩ := depthList_cons (d + 1) r
        rw [List.nil_append, hr] at hx
        simp at hx
        omega
      | cons y ys =>
        have := h4 y rfl
        simp at hx
        omega
  | right h ih =>
    rename_i i f l r k s
    obtain ⟨pre, post, pre', post', h1, h2, h3, h4⟩ := ih (d + 1)
    refine ⟨i :: (l.ids ++ pre), post, d :: (depthList (d + 1) l ++ pre'), post', ?_, ?_, ?_, ?_⟩
    · simp [LTree.ids, h1]
    · simp only [depthList, h2, List.cons_append, List.append_assoc]
      rw [show d + 1 + k = d + (k + 1) by omega]
    · simp [h3, length_depthList]
    · intro x hx; have := h4 x hx; omega

theorem depths_eq {A : SkTree} {t : LTree} {depths : List Nat} {d : Dict Int (List Nat)} (hT : TreeArray A t)
    (h : Traversed A t depths d) (hdf : DepthFirst t) : depths = depthList 0 t := by
  have hlen : t.ids.length = A.length := by rw [hT.ids.length_eq, List.length_range]
  apply List.ext_getElem?
  intro j
  by_cases hj : j < A.length
  · have h1 : t.ids[j]? = some j := by
      rw [hdf, List.getElem?_range (by omega)]
    have hj' : j < (depthList 0 t).length := by rw [length_depthList]; omega
    have h2 : (depthList 0 t)[j]? = some ((depthList 0 t)[j]) := List.getElem?_eq_getElem hj'
    have hz : (j, (depthList 0 t)[j]) ∈ t.ids.zip (depthList 0 t) := by
      apply List.mem_of_getElem? (i := j)
      rw [List.getElem?_zip_eq_some]
      exact ⟨h1, h2⟩
    obtain ⟨k, s, h3, h4, h5⟩ := zip_spec 0 t _ hz
    simp only at h4 h5
    have := h.depth k s h3
    rw [h4] at this
    rw [this, h2, h5]
    simp
  · rw [List.getElem?_eq_none (by rw [h.len]; omega), List.getElem?_eq_none (by rw [length_depthList]; omega)]

/-- The subtree of `s` occupies an interval of ids, and the code finds its end. -/
theorem subtree_interval {A : SkTree} {t s : LTree} {k : Nat} {depths : List Nat} {d : Dict Int (List Nat)}
    (hT : TreeArray A t) (h : Traversed A t depths d) (hdf : DepthFirst t) (hs : At t k s) :
    s.ids = List.range' s.id s.ids.length ∧ s.id + s.ids.length ≤ A.length ∧
    maxIdInSubtree k s.id depths depths.length = s.id + s.ids.length - 1 ∧
    depths[s.id + s.ids.length - 1]? = some (k + s.lastDepth) := by
  have hlen : t.ids.length = A.length := by rw [hT.ids.length_eq, List.length_range]
  have hde := depths_eq hT h hdf
  obtain ⟨pre, post, pre', post', h1, h2, h3, h4⟩ := split_at hs 0
  rw [Nat.zero_add] at h2 h4
  have hpos : 0 < s.ids.length := List.length_pos_of_mem (id_mem_ids s)
  have hidr : s.ids = List.range' pre.length s.ids.length := by
    have e : pre ++ (s.ids ++ post) = List.range A.length := by rw [← h1, hdf, hlen]
    have e' : s.ids = ((List.range A.length).drop pre.length).take s.ids.length := by
      rw [← e]; simp
    have hle : pre.length + s.ids.length ≤ A.length := by
      have := congrArg List.length e
      simp at this
      omega
    rw [List.range_eq_range', List.drop_range', List.take_range'_of_length_ge (by omega)] at e'
    simpa using e'
  have hid : s.id = pre.length := by
    have : s.ids.head? = some s.id := by cases s <;> rfl
    rw [hidr] at this
    rw [List.head?_range'] at this
    simp at this
    exact this.2.symm
  have hle : pre.length + s.ids.length ≤ A.length := by
    have := congrArg List.length h1
    simp at this
    omega
  rw [hid]
  refine ⟨hidr, hle, ?_, ?_⟩
  · obtain ⟨rest, hr1, hr2⟩ := depthList_cons k s
    have hrl : rest.length + 1 = s.ids.length := by
      rw [← length_depthList k s, hr1]; rfl
    have hget : ∀ j, pre.length < j → j < pre.length + s.ids.length → k < depths.getD j 0 := by
      intro j hj1 hj2
      rw [hde, h2, hr1]
      have : ((pre' ++ (k :: rest ++ post')).getD j 0) = rest.getD (j - pre.length - 1) 0 := by
        rw [List.getD_eq_getElem?_getD, List.getD_eq_getElem?_getD, List.getElem?_append_right (by omega), ← h3]
        rw [List.getElem?_append_left (by simp; omega)]
        rw [show j - pre.length = (j - pre.length - 1) + 1 by omega, List.getElem?_cons_succ]
        simp
      rw [this]
      apply hr2
      rw [List.getD_eq_getElem?_getD, List.getElem?_eq_getElem (by omega), Option.getD_some]
      exact List.getElem_mem _
    unfold maxIdInSubtree
    cases hp : post' with
    | nil =>
      have hAl : A.length = pre.length + s.ids.length := by
        have := congrArg List.length h2
        rw [length_depthList, hp] at this
        simp [length_depthList] at this
        omega
      have hnil : (List.range depths.length).filter (fun j => decide (depths.getD j 0 ≤ k) && decide (pre.length < j)) = [] := by
        rw [List.filter_eq_nil_iff]
        intro j hj
        rw [List.mem_range, h.len] at hj
        simp only [Bool.and_eq_true, decide_eq_true_eq, not_and]
        intro h5 h6
        have := hget j h6 (by omega)
        omega
      rw [hnil]
      simp only [List.min?_nil, h.len]
      omega
    | cons x xs =>
      have hx : x ≤ k := h4 x (by rw [hp]; rfl)
      have hAl : pre.length + s.ids.length < A.length := by
        have := congrArg List.length h2
        rw [length_depthList, hp] at this
        simp [length_depthList] at this
        omega
      have hgx : depths.getD (pre.length + s.ids.length) 0 = x := by
        rw [hde, h2, hp, List.getD_eq_getElem?_getD, List.getElem?_append_right (by omega),
          List.getElem?_append_right (by rw [length_depthList]; omega), length_depthList]
        rw [show pre.length + s.ids.length - pre'.length - s.ids.length = 0 by omega]
        rfl
      have hmin : ((List.range depths.length).filter (fun j => decide (depths.getD j 0 ≤ k) && decide (pre.length < j))).min?
          = some (pre.length + s.ids.length) := by
        rw [List.min?_eq_some_iff]
        constructor
        · rw [List.mem_filter, List.mem_range, h.len]
          refine ⟨hAl, ?_⟩
          simp only [Bool.and_eq_true, decide_eq_true_eq]
          rw [hgx]
          exact ⟨hx, by omega⟩
        · intro j hj
          rw [List.mem_filter] at hj
          simp only [Bool.and_eq_true, decide_eq_true_eq] at hj
          by_contra hlt
          have := hget j hj.2.2 (by omega)
          omega
      rw [hmin]
  · have hlast := depthList_last k s
    rw [List.getLast?_eq_getElem?, length_depthList] at hlast
    rw [hde, h2, List.getElem?_append_right (by omega), List.getElem?_append_left (by rw [length_depthList]; omega)]
    rw [show pre.length + s.ids.length - 1 - pre'.length = s.ids.length - 1 by omega]
    exact hlast

theorem id_inj {A : SkTree} {t s s' : LTree} {k k' : Nat} (hT : TreeArray A t) (h : At t k s) (h' : At t k' s')
    (e : s.id = s'.id) : k = k' ∧ s = s' :=
  at_unique (by rw [hT.ids.nodup_iff]; exact List.nodup_range) h h' e

theorem mem_sub_ids {s : LTree} {j : Nat} (hnd : s.ids.Nodup) :
    (j ∈ s.ids ∧ j ≠ s.id) ↔ ∃ m w, 0 < m ∧ At s m w ∧ w.id = j := by
  constructor
  · rintro ⟨h1, h2⟩
    obtain ⟨m, w, h3, h4⟩ := exists_at_of_mem h1
    refine ⟨m, w, ?_, h3, h4⟩
    rcases Nat.eq_zero_or_pos m with rfl | h
    · exact absurd (by rw [← h4, at_zero h3]) h2
    · exact h
  · rintro ⟨m, w, h1, h2, rfl⟩
    refine ⟨at_mem_ids h2, ?_⟩
    intro e
    have := (at_unique hnd h2 (.here s) e).1
    omega

theorem sub_nodup {A : SkTree} {t s : LTree} {k : Nat} (hT : TreeArray A t) (h : At t k s) : s.ids.Nodup := by
  obtain ⟨pre, post, _, _, h1, _⟩ := split_at h 0
  have : t.ids.Nodup := by rw [hT.ids.nodup_iff]; exact List.nodup_range
  rw [h1, List.nodup_append, List.nodup_append] at this
  exact this.2.1.1

/-- ids after the root up to the bound are the proper descendants -/
theorem in_subtree_iff {A : SkTree} {t s : LTree} {k : Nat} {depths : List Nat} {d : Dict Int (List Nat)}
    (hT : TreeArray A t) (h : Traversed A t depths d) (hdf : DepthFirst t) (hs : At t k s) (j : Nat) :
    (s.id < j ∧ j ≤ maxIdInSubtree k s.id depths depths.length) ↔ ∃ m w, 0 < m ∧ At s m w ∧ w.id = j := by
  obtain ⟨h1, h2, h3, h4⟩ := subtree_interval hT h hdf hs
  have hpos : 0 < s.ids.length := List.length_pos_of_mem (id_mem_ids s)
  rw [← mem_sub_ids (sub_nodup hT hs), h3]
  have : j ∈ s.ids ↔ s.id ≤ j ∧ j < s.id + s.ids.length := by
    rw [h1]
    simp only [List.mem_range'_1, List.length_range']
  rw [this]
  omega

/-! ### One pair -/

theorem nearest_exists {s : LTree} {g : Nat} (h : ∃ m w, 0 < m ∧ At s m w ∧ w.Splits g) : ∃ m, NearestBelow s g m := by
  classical
  have hex : ∃ m, 0 < m ∧ ∃ w, At s m w ∧ w.Splits g := by
    obtain ⟨m, w, h1, h2, h3⟩ := h; exact ⟨m, h1, w, h2, h3⟩
  refine ⟨Nat.find hex, (Nat.find_spec hex).1, (Nat.find_spec hex).2, ?_⟩
  intro m' w h1 h2 h3
  exact Nat.find_min' hex ⟨h1, w, h2, h3⟩

theorem nearest_unique {s : LTree} {g m m' : Nat} (h : NearestBelow s g m) (h' : NearestBelow s g m') : m = m' := by
  obtain ⟨a, ⟨w, b, c⟩, e⟩ := h
  obtain ⟨a', ⟨w', b', c'⟩, e'⟩ := h'
  have := e m' w' a' b' c'
  have := e' m w a b c
  omega

theorem contribution_exists (s : LTree) (g : Nat) : ∃ x, Contribution s g x := by
  by_cases h : ∃ m, NearestBelow s g m
  · obtain ⟨m, hm⟩ := h
    have := hm.1
    exact ⟨m - 1, .inl (by rw [show m - 1 + 1 = m by omega]; exact hm)⟩
  · exact ⟨_, .inr ⟨h, rfl⟩⟩

theorem contribution_unique {s : LTree} {g x y : Nat} (h : Contribution s g x) (h' : Contribution s g y) : x = y := by
  rcases h with h | ⟨h1, h2⟩ <;> rcases h' with h' | ⟨h1', h2'⟩
  · have := nearest_unique h h'; omega
  · exact absurd ⟨_, h⟩ h1'
  · exact absurd ⟨_, h'⟩ h1
  · omega

theorem mapM_arrGet {α : Type} {a : List α} (f : Nat → α) : ∀ {l : List Nat}, (∀ i ∈ l, a[i]? = some (f i)) →
    l.mapM (arrGet a) = .ok (l.map f)
  | [], _ => rfl
  | i :: is, h => by
    rw [mapM_cons_except]
    have h1 : arrGet a i = .ok (f i) := by unfold arrGet; rw [h i (by simp)]
    rw [h1, mapM_arrGet f (fun j hj => h j (by simp [hj]))]
    rfl

/-- One root of the innermost loop. -/
theorem cmdRoot_eq {A : SkTree} {t s : LTree} {k g : Nat} {depths : List Nat} {d : Dict Int (List Nat)} {l2 : List Nat}
    (hT : TreeArray A t) (h : Traversed A t depths d) (hdf : DepthFirst t) (hs : At t k s)
    (hl2 : ∀ i, i ∈ l2 ↔ ∃ k s, At t k s ∧ s.Splits g ∧ s.id = i) (acc : Option Int × Nat) :
    ∃ x, Contribution s g x ∧ ∃ o, cmdRoot depths l2 acc s.id = .ok (minInf acc.1 (x : Int), o) ∧
      ((∃ m, NearestBelow s g m) → o = 1) ∧ ((¬ ∃ m, NearestBelow s g m) → o = acc.2) := by
  have hrd : arrGet depths s.id = .ok k := by unfold arrGet; rw [h.depth k s hs]
  obtain ⟨h1, h2, h3, h4⟩ := subtree_interval hT h hdf hs
  have hbelow : ∀ j, j ∈ f2InSubtree s.id l2 (maxIdInSubtree k s.id depths depths.length) ↔
      ∃ m w, 0 < m ∧ At s m w ∧ w.Splits g ∧ w.id = j := by
    intro j
    unfold f2InSubtree
    rw [List.mem_filter]
    simp only [Bool.and_eq_true, decide_eq_true_eq]
    rw [in_subtree_iff hT h hdf hs, hl2]
    constructor
    · rintro ⟨⟨k', w', a, b, c⟩, m, w, e1, e2, e3⟩
      obtain ⟨_, rfl⟩ := id_inj hT a (at_trans hs e2) (c.trans e3.symm)
      exact ⟨m, w', e1, e2, b, c⟩
    · rintro ⟨m, w, e1, e2, e3, e4⟩
      exact ⟨⟨_, w, at_trans hs e2, e3, e4⟩, m, w, e1, e2, e4⟩
  unfold cmdRoot
  simp only [hrd]
  by_cases hne : ∃ m, NearestBelow s g m
  · obtain ⟨m, hm⟩ := hne
    obtain ⟨hm0, ⟨w, hw1, hw2⟩, hmin⟩ := hm
    have hmem := (hbelow w.id).2 ⟨m, w, hm0, hw1, hw2, rfl⟩
    have hds : ∀ j ∈ f2InSubtree s.id l2 (maxIdInSubtree k s.id depths depths.length), depths[j]? = some (depths.getD j 0) := by
      intro j hj
      obtain ⟨m', w', a, b, c, rfl⟩ := (hbelow j).1 hj
      have := h.depth _ _ (at_trans hs b)
      rw [List.getD_eq_getElem?_getD, this]; rfl
    rw [if_pos (List.length_pos_of_mem hmem), mapM_arrGet (fun j => depths.getD j 0) hds]
    have hmi : ((f2InSubtree s.id l2 (maxIdInSubtree k s.id depths depths.length)).map (fun j => depths.getD j 0)).min?
        = some (k + m) := by
      rw [List.min?_eq_some_iff]
      constructor
      · rw [List.mem_map]
        refine ⟨_, hmem, ?_⟩
        rw [List.getD_eq_getElem?_getD, h.depth _ _ (at_trans hs hw1)]; rfl
      · intro b hb
        obtain ⟨j, hj, rfl⟩ := List.mem_map.1 hb
        obtain ⟨m', w', a, b, c, rfl⟩ := (hbelow j).1 hj
        rw [List.getD_eq_getElem?_getD, h.depth _ _ (at_trans hs b)]
        have := hmin m' w' a b c
        simp
        omega
    simp only [hmi]
    refine ⟨m - 1, .inl ?_, 1, ?_, fun _ => rfl, fun hno => absurd ⟨m, hm0, ⟨w, hw1, hw2⟩, hmin⟩ hno⟩
    · rw [show m - 1 + 1 = m by omega]; exact ⟨hm0, ⟨w, hw1, hw2⟩, hmin⟩
    · congr 3
      push_cast
      omega
  · have hnil : f2InSubtree s.id l2 (maxIdInSubtree k s.id depths depths.length) = [] := by
      rw [List.eq_nil_iff_forall_not_mem]
      intro j hj
      obtain ⟨m', w', a, b, c, rfl⟩ := (hbelow j).1 hj
      exact hne (nearest_exists ⟨m', w', a, b, c⟩)
    have hub : arrGet depths (maxIdInSubtree k s.id depths depths.length) = .ok (k + s.lastDepth) := by
      unfold arrGet; rw [h3, h4]
    rw [hnil, hub]
    refine ⟨s.lastDepth, .inr ⟨hne, rfl⟩, acc.2, ?_, fun hyes => absurd hyes hne, fun _ => rfl⟩
    simp only [List.length_nil, gt_iff_lt, Nat.lt_irrefl, if_false]
    congr 3
    push_cast
    omega

/-- the smaller of an optional bound and a value -/
theorem cmdRoots_eq {A : SkTree} {t : LTree} {k g : Nat} {depths : List Nat} {d : Dict Int (List Nat)} {l2 : List Nat}
    (hT : TreeArray A t) (h : Traversed A t depths d) (hdf : DepthFirst t)
    (hl2 : ∀ i, i ∈ l2 ↔ ∃ k s, At t k s ∧ s.Splits g ∧ s.id = i) :
    ∀ (ss : List LTree), (∀ s ∈ ss, At t k s) → ∀ (acc : Option Int × Nat), (∀ z, acc.1 = some z → 0 ≤ z) → acc.2 ≤ 1 →
    ∃ v o, cmdRoots depths l2 (ss.map LTree.id) acc = .ok (v, o) ∧ o ≤ 1 ∧
      (o = 1 ↔ acc.2 = 1 ∨ ∃ s ∈ ss, ∃ m, NearestBelow s g m) ∧
      (v = none ↔ acc.1 = none ∧ ss = []) ∧
      (∀ x, v = some x → acc.1 = some x ∨ ∃ s ∈ ss, ∃ y : Nat, Contribution s g y ∧ x = y) ∧
      (∀ x, v = some x → (∀ z, acc.1 = some z → x ≤ z) ∧ ∀ s ∈ ss, ∀ y : Nat, Contribution s g y → x ≤ y)
  | [], _, acc, h0, h01 => ⟨acc.1, acc.2, rfl, h01, by simp, by simp, fun x hx => .inl hx,
      fun x hx => ⟨fun z hz => by rw [hx] at hz; cases hz; exact le_refl _, by simp⟩⟩
  | s :: ss, hss, acc, h0, h01 => by
    obtain ⟨x, hx, o, ho, ho1, ho2⟩ := cmdRoot_eq hT h hdf (hss s (by simp)) hl2 acc
    have hle : o ≤ 1 := by
      by_cases hc : ∃ m, NearestBelow s g m
      · rw [ho1 hc]
      · rw [ho2 hc]; exact h01
    have hmi : ∃ z, minInf acc.1 (x : Int) = some z ∧ (z = x ∨ acc.1 = some z) ∧ z ≤ x ∧ ∀ w, acc.1 = some w → z ≤ w := by
      cases ha : acc.1 with
      | none => exact ⟨x, rfl, .inl rfl, le_refl _, by simp⟩
      | some w =>
        refine ⟨min w x, rfl, ?_, min_le_right _ _, ?_⟩
        · rcases min_choice w (x : Int) with e | e
          · right; rw [e]
          · left; exact e
        · intro w' hw'; cases hw'; exact min_le_left _ _
    obtain ⟨z, hz, hz1, hz2, hz3⟩ := hmi
    rw [hz] at ho
    have hz0 : 0 ≤ z := by
      rcases hz1 with e | e
      · rw [e]; omega
      · exact h0 z e
    obtain ⟨v, o', h1, h2, h3, h4, h5, h6⟩ := cmdRoots_eq hT h hdf hl2 ss (fun s' hs' => hss s' (by simp [hs'])) (some z, o)
      (by intro w hw; cases hw; exact hz0) hle
    refine ⟨v, o', ?_, h2, ?_, ?_, ?_, ?_⟩
    · simp only [List.map_cons, cmdRoots, ho]; exact h1
    · rw [h3]
      simp only [List.mem_cons, exists_eq_or_imp]
      by_cases hc : ∃ m, NearestBelow s g m
      · simp [ho1 hc, hc]
      · simp [ho2 hc, hc]
    · rw [h4]; simp
    · intro y hy
      rcases h5 y hy with e | ⟨s', hs', w, hw⟩
      · cases e
        rcases hz1 with e | e
        · exact .inr ⟨s, by simp, x, hx, e⟩
        · exact .inl e
      · exact .inr ⟨s', by simp [hs'], w, hw⟩
    · intro y hy
      obtain ⟨e1, e2⟩ := h6 y hy
      have := e1 z rfl
      refine ⟨fun w hw => le_trans this (hz3 w hw), ?_⟩
      intro s' hs' w hw
      rcases List.mem_cons.1 hs' with rfl | hs'
      · rw [contribution_unique hw hx]; exact le_trans this hz2
      · exact e2 s' hs' w hw

/-- the highest splits -/
theorem highestSplits_eq {A : SkTree} {t : LTree} {f : Nat} {depths : List Nat} {d : Dict Int (List Nat)} {l : List Nat}
    (hT : TreeArray A t) (h : Traversed A t depths d) (hne : l ≠ [])
    (hl : ∀ i, i ∈ l ↔ ∃ k s, At t k s ∧ s.Splits f ∧ s.id = i)
    (hp : l.Pairwise (fun i j => depths.getD i 0 ≤ depths.getD j 0)) :
    ∃ k ss, highestSplits depths l = .ok (ss.map LTree.id) ∧ ss ≠ [] ∧ ∀ s, s ∈ ss ↔ Shallowest t f k s := by
  have hds : ∀ j ∈ l, depths[j]? = some (depths.getD j 0) := by
    intro j hj
    obtain ⟨k, s, a, b, rfl⟩ := (hl j).1 hj
    rw [List.getD_eq_getElem?_getD, h.depth _ _ a]; rfl
  obtain ⟨i0, is, rfl⟩ := List.exists_cons_of_ne_nil hne
  have hlt : ∀ (l : List Nat), (∀ i ∈ l, ∃ k s, At t k s ∧ s.Splits f ∧ s.id = i) → ∃ ss : List LTree, ss.map LTree.id = l ∧
      ∀ s ∈ ss, (∃ k, At t k s) ∧ s.Splits f := by
    intro l
    induction l with
    | nil => intro _; exact ⟨[], rfl, by simp⟩
    | cons a l ih =>
      intro hh
      obtain ⟨ss, e1, e2⟩ := ih (fun i hi => hh i (by simp [hi]))
      obtain ⟨k, s, e3, e4, e5⟩ := hh a (by simp)
      refine ⟨s :: ss, by simp [e1, e5], ?_⟩
      intro s' hs'
      rcases List.mem_cons.1 hs' with rfl | hs'
      · exact ⟨⟨k, e3⟩, e4⟩
      · exact e2 s' hs'
  have hzip : ∀ (l : List Nat) (p : Nat → Bool) (f : Nat → Nat), ((l.zip (l.map f)).filter (fun e => p e.2)).map Prod.fst =
      l.filter (fun i => p (f i)) := by
    intro l p f
    induction l with
    | nil => rfl
    | cons a l ih =>
      simp only [List.map_cons, List.zip_cons_cons, List.filter_cons]
      by_cases hp : p (f a) = true
      · rw [if_pos hp, if_pos hp, List.map_cons, ih]
      · rw [if_neg hp, if_neg hp, ih]
  have heq : highestSplits depths (i0 :: is) =
      .ok ((i0 :: is).filter (fun i => decide (depths.getD i 0 = depths.getD i0 0))) := by
    unfold highestSplits
    rw [mapM_arrGet (fun j => depths.getD j 0) hds]
    simp only [List.map_cons]
    rw [← hzip (i0 :: is) (fun x => decide (x = depths.getD i0 0)) (fun j => depths.getD j 0)]
    rfl
  obtain ⟨ss, e1, e2⟩ := hlt ((i0 :: is).filter (fun i => decide (depths.getD i 0 = depths.getD i0 0)))
    (fun i hi => (hl i).1 (List.mem_filter.1 hi).1)
  refine ⟨depths.getD i0 0, ss, by rw [heq, e1], ?_, ?_⟩
  · intro hss
    rw [hss] at e1
    have : i0 ∈ (i0 :: is).filter (fun i => decide (depths.getD i 0 = depths.getD i0 0)) := by
      rw [List.mem_filter]; simp
    rw [← e1] at this
    cases this
  · have hmin : ∀ k' s', At t k' s' → s'.Splits f → depths.getD i0 0 ≤ k' := by
      intro k' s' a b
      have hm := (hl s'.id).2 ⟨k', s', a, b, rfl⟩
      have hd : depths.getD s'.id 0 = k' := by rw [List.getD_eq_getElem?_getD, h.depth _ _ a]; rfl
      rcases List.mem_cons.1 hm with e | hm
      · rw [← hd, e]
      · rw [← hd]; exact (List.pairwise_cons.1 hp).1 _ hm
    intro s
    constructor
    · intro hs
      obtain ⟨⟨k, a⟩, b⟩ := e2 s hs
      have : s.id ∈ ss.map LTree.id := List.mem_map_of_mem hs
      rw [e1, List.mem_filter] at this
      have hd : depths.getD s.id 0 = k := by rw [List.getD_eq_getElem?_getD, h.depth _ _ a]; rfl
      have hk : k = depths.getD i0 0 := by rw [← hd]; exact of_decide_eq_true this.2
      rw [← hk]
      refine ⟨a, b, ?_⟩
      rw [hk]; exact hmin
    · rintro ⟨a, b, c⟩
      have hd : depths.getD s.id 0 = depths.getD i0 0 := by rw [List.getD_eq_getElem?_getD, h.depth _ _ a]; rfl
      have : s.id ∈ ss.map LTree.id := by
        rw [e1, List.mem_filter]
        exact ⟨(hl _).2 ⟨_, s, a, b, rfl⟩, by rw [hd]; simp⟩
      obtain ⟨s', hs', e⟩ := List.mem_map.1 this
      obtain ⟨⟨k', a'⟩, b'⟩ := e2 s' hs'
      rw [← (id_inj hT a' a e).2]; exact hs'

theorem shallowest_depth {t s s' : LTree} {f k k' : Nat} (h : Shallowest t f k s) (h' : Shallowest t f k' s') : k = k' := by
  have := h.2.2 _ _ h'.1 h'.2.1
  have := h'.2.2 _ _ h.1 h.2.1
  omega

/-- The value of an ordered pair in a tree. -/
theorem cmdPair_eq {A : SkTree} {t : LTree} {depths : List Nat} {d : Dict Int (List Nat)}
    (hT : TreeArray A t) (h : Traversed A t depths d) (hdf : DepthFirst t) (f g : Nat) :
    (Uses t f → Uses t g → ∃ (x : Nat) (o : Nat), cmdPair d depths f g = .ok (some (x : Int), o) ∧ CondDepth t f g x ∧ o ≤ 1 ∧
      (o = 1 ↔ OccursBelow t f g)) ∧
    (¬ (Uses t f ∧ Uses t g) → cmdPair d depths f g = .ok (none, 0)) := by
  constructor
  · intro hf hg
    obtain ⟨l1, a1, a2, a3, a4, a5⟩ := h.used f hf
    obtain ⟨l2, b1, b2, b3, b4, b5⟩ := h.used g hg
    obtain ⟨k, ss, c1, c2, c3⟩ := highestSplits_eq hT h a2 a4 a5
    obtain ⟨v, o, d1, d2, d3, d4, d5, d6⟩ := cmdRoots_eq hT h hdf b4 ss (fun s hs => ((c3 s).1 hs).1) (none, 0)
      (by simp) (by simp)
    have hv : v ≠ none := by
      intro e; exact c2 (d4.1 e).2
    obtain ⟨x, rfl⟩ := Option.ne_none_iff_exists'.1 hv
    rcases d5 x rfl with e | ⟨s, hs, y, hy, rfl⟩
    · cases e
    · refine ⟨y, o, ?_, ⟨⟨k, s, (c3 s).1 hs, hy⟩, ?_⟩, d2, ?_⟩
      · unfold cmdPair
        simp only [a1, b1, c1]
        exact d1
      · intro k' s' y' hs' hy'
        have hk := shallowest_depth hs' ((c3 s).1 hs)
        subst hk
        have := (d6 _ rfl).2 s' ((c3 s').2 hs') y' hy'
        omega
      · rw [d3]
        simp only [Nat.zero_ne_one, false_or]
        constructor
        · rintro ⟨s, hs, m, hm⟩; exact ⟨k, s, m, (c3 s).1 hs, hm⟩
        · rintro ⟨k', s', m, hs', hm⟩
          have hk := shallowest_depth hs' ((c3 s).1 hs)
          subst hk
          exact ⟨s', (c3 s').2 hs', m, hm⟩
  · intro hn
    unfold cmdPair
    by_cases hf : Uses t f
    · rw [h.unused g (fun hg => hn ⟨hf, hg⟩)]
      cases Dict.get? d (f : Int) <;> rfl
    · rw [h.unused f hf]

end Artemis
