import Verif.Proofs.CmdForest
import Verif.Proofs.NumLemmas
import Mathlib.Data.List.Lex
import Mathlib.Order.Defs.LinearOrder

/-!
# C33–C38: conditional minimal depth
-/

set_option linter.unusedSectionVars false
set_option linter.unusedVariables false
set_option linter.unusedSimpArgs false

namespace Artemis
open Spec

/-- **C33.** The level-order traversal of a stored tree (any numbering with root 0) returns; every node gets its distance
from the root; the list of a column holds exactly the internal nodes that split on it, each once, shallowest first;
columns that are not used, and the leaf marker, are not keys. -/
theorem C33_traversal {A : SkTree} {t : LTree} (h : TreeArray A t) :
    ∃ depths d, bfs A = .ok (depths, d) ∧ depths.length = A.length ∧
      (∀ k s, At t k s → depths[s.id]? = some k) ∧
      (∀ f : Nat, Uses t f → ∃ l, Dict.get? d (f : Int) = some l ∧ l.Nodup ∧
        (∀ i, i ∈ l ↔ ∃ k s, At t k s ∧ s.Splits f ∧ s.id = i) ∧
        l.Pairwise (fun i j => ∀ k k' s s', At t k s → At t k' s' → s.id = i → s'.id = j → k ≤ k')) ∧
      (∀ f : Nat, ¬ Uses t f → Dict.get? d (f : Int) = none) ∧
      ∀ f : Int, f < 0 → Dict.get? d f = none := by
  obtain ⟨depths, d, h1, h2⟩ := bfs_traversed h
  refine ⟨depths, d, h1, h2.len, h2.depth, ?_, h2.unused, h2.neg⟩
  intro f hf
  obtain ⟨l, e1, e2, e3, e4, e5⟩ := h2.used f hf
  refine ⟨l, e1, e3, e4, e5.imp ?_⟩
  intro i j hij k k' s s' hs hs' hi hj
  have a := h2.depth k s hs
  have b := h2.depth k' s' hs'
  rw [hi] at a
  rw [hj] at b
  simpa [List.getD_eq_getElem?_getD, a, b] using hij

/-- **C34.** With depth-first numbering the ids from `r + 1` up to the computed bound are exactly the ids of the proper
descendants of `r` (and the bound is an id of the tree). -/
theorem C34_interval_is_subtree {A : SkTree} {t : LTree} (h : TreeArray A t) (hdf : DepthFirst t) {k : Nat} {s : LTree}
    (hs : At t k s) {depths : List Nat} {d : Dict Int (List Nat)} (hb : bfs A = .ok (depths, d)) :
    maxIdInSubtree k s.id depths depths.length < A.length ∧
    ∀ j, (s.id < j ∧ j ≤ maxIdInSubtree k s.id depths depths.length) ↔ ∃ m w, 0 < m ∧ At s m w ∧ w.id = j := by
  obtain ⟨depths', d', h1, h2⟩ := bfs_traversed h
  rw [hb] at h1
  obtain ⟨rfl, rfl⟩ := Prod.mk.inj (Except.ok.inj h1)
  obtain ⟨_, e2, e3, _⟩ := subtree_interval h h2 hdf hs
  have hpos : 0 < s.ids.length := List.length_pos_of_mem (id_mem_ids s)
  exact ⟨by omega, in_subtree_iff h h2 hdf hs⟩

/-- **C34**, the list selected for a feature: exactly the splits on it strictly below the node. -/
theorem C34_selected_nodes {A : SkTree} {t : LTree} (h : TreeArray A t) (hdf : DepthFirst t) {k : Nat} {s : LTree}
    (hs : At t k s) {depths : List Nat} {d : Dict Int (List Nat)} (hb : bfs A = .ok (depths, d)) {g : Nat} {l : List Nat}
    (hl : Dict.get? d (g : Int) = some l) :
    ∀ j, j ∈ f2InSubtree s.id l (maxIdInSubtree k s.id depths depths.length) ↔
      ∃ m w, 0 < m ∧ At s m w ∧ w.Splits g ∧ w.id = j := by
  obtain ⟨depths', d', h1, h2⟩ := bfs_traversed h
  rw [hb] at h1
  obtain ⟨rfl, rfl⟩ := Prod.mk.inj (Except.ok.inj h1)
  have hu : Uses t g := by
    by_contra hn
    rw [h2.unused g hn] at hl
    cases hl
  obtain ⟨l', e1, _, _, e4, _⟩ := h2.used g hu
  rw [hl] at e1
  cases e1
  intro j
  unfold f2InSubtree
  rw [List.mem_filter]
  simp only [Bool.and_eq_true, decide_eq_true_eq]
  rw [in_subtree_iff h h2 hdf hs, e4]
  constructor
  · rintro ⟨⟨k', w', a, b, c⟩, m, w, e1, e2, e3⟩
    obtain ⟨_, rfl⟩ := id_inj h a (at_trans hs e2) (c.trans e3.symm)
    exact ⟨m, w', e1, e2, b, c⟩
  · rintro ⟨m, w, e1, e2, e3, e4⟩
    exact ⟨⟨_, w, at_trans hs e2, e3, e4⟩, m, w, e1, e2, e4⟩

/-- **C35.** One tree: the value of an ordered pair of columns both used is the conditional minimal depth, the flag
tells whether the second occurs below a shallowest split on the first; the value is missing (and the flag 0) iff one of
them is not used. -/
theorem C35_conditional_minimal_depth {A : SkTree} {t : LTree} (h : TreeArray A t) (hdf : DepthFirst t) (f g : Nat) :
    ∃ depths d v o, bfs A = .ok (depths, d) ∧ cmdPair d depths f g = .ok (v, o) ∧
      (v = none ↔ ¬ (Uses t f ∧ Uses t g)) ∧ (∀ z, v = some z → ∃ x : Nat, z = x ∧ CondDepth t f g x) ∧
      o ≤ 1 ∧ (o = 1 ↔ OccursBelow t f g) := by
  obtain ⟨depths, d, h1, h2⟩ := bfs_traversed h
  obtain ⟨e1, e2⟩ := cmdPair_eq h h2 hdf f g
  by_cases hu : Uses t f ∧ Uses t g
  · obtain ⟨x, o, a1, a2, a3, a4⟩ := e1 hu.1 hu.2
    refine ⟨depths, d, some (x : Int), o, h1, a1, ?_, ?_, a3, a4⟩
    · simp [hu.1, hu.2]
    · intro z hz; cases hz; exact ⟨x, rfl, a2⟩
  · refine ⟨depths, d, none, 0, h1, e2 hu, ?_, ?_, by simp, ?_⟩
    · simp only [true_iff]; exact hu
    · intro z hz; cases hz
    · constructor
      · intro h; cases h
      · intro h; exact absurd (occurs_uses h) hu

/-- The conditional minimal depth of a pair is unique, so C35 pins the value. -/
theorem C35_value_unique {t : LTree} {f g x y : Nat} (h : CondDepth t f g x) (h' : CondDepth t f g y) : x = y := by
  obtain ⟨⟨k, s, a, b⟩, c⟩ := h
  obtain ⟨⟨k', s', a', b'⟩, c'⟩ := h'
  have := c k' s' y a' b'
  have := c' k s x a b
  omega

section Forests
variable {F I K : Type} [DecidableEq F] [Field K] [LinearOrder K]

/-- what `fit` leaves behind for a forest with at least one tree and one column -/
theorem cmd_fit_ovo (E : CmdEnv F I K) (hE : SortsCmd E.sortOvo) {m : Forest F} {ts : List LTree} (h : ForestOf m ts)
    (hts : ts ≠ []) (hc : m.columns ≠ []) (s0 : CmdMethod F K) :
    ∃ rows dss, (CmdMethod.fit E m s0).2.ovo = some rows ∧
      List.Forall₂ (fun t (o : DepthSplit) => ∃ A, Traversed A t o.1 o.2) ts dss ∧
      (CmdMethod.fit E m s0) = (match minimalDepthImportance E.sortImp m.columns (some dss) with
        | .error e => (.error e, (CmdMethod.fit E m s0).2)
        | .ok imp => (.ok (), (CmdMethod.fit E m s0).2)) ∧
      (CmdMethod.fit E m s0).2.importance = (match minimalDepthImportance E.sortImp m.columns (some dss) with
        | .error e => s0.importance
        | .ok imp => some imp) ∧
      rows.length = m.columns.length * m.columns.length - m.columns.length ∧
      (∀ r ∈ rows, r.root ∈ m.columns ∧ r.var ∈ m.columns ∧ r.root ≠ r.var) ∧
      (∀ a b f g, m.columns[a]? = some f → m.columns[b]? = some g → f ≠ g → ∃ r,
        rows.filter (fun r => decide (r.root = f ∧ r.var = g)) = [r] ∧ IsMeanCondDepth ts a b r.val ∧
          r.occ = occurrences ts a b) ∧
      rows.Pairwise (fun r s => s.occ < r.occ ∨ (r.occ = s.occ ∧ Num.keyLE true r.val s.val = true)) := by
  obtain ⟨raw, dss, h1, h2, h3, h4⟩ := cmdForest_ok h.trees hts m.columns.length
  obtain ⟨rows, e1, e2⟩ := summarise_ok hE h.names hts hc h3 h4
  refine ⟨rows, dss, ?_, h2, ?_, ?_, e2⟩
  · simp only [CmdMethod.fit, h1, e1]
    cases minimalDepthImportance E.sortImp m.columns (some dss) <;> rfl
  · simp only [CmdMethod.fit, h1, e1]
    cases minimalDepthImportance E.sortImp m.columns (some dss) <;> rfl
  · simp only [CmdMethod.fit, h1, e1]
    cases minimalDepthImportance E.sortImp m.columns (some dss) <;> rfl

/-- **C36.** After `fit` the table has `p * p - p` rows, exactly one for every ordered pair of distinct features; its
value is the mean over the trees that use both (missing if there is none), `n_occurences` the number of trees in which
the second occurs below a shallowest split on the first; sorted by occurrences descending, then value ascending. -/
theorem C36_table (E : CmdEnv F I K) (hE : SortsCmd E.sortOvo) {m : Forest F} {ts : List LTree} (h : ForestOf m ts)
    (hts : ts ≠ []) (hc : m.columns ≠ []) (s0 : CmdMethod F K) :
    ∃ rows, (CmdMethod.fit E m s0).2.ovo = some rows ∧
      rows.length = m.columns.length * m.columns.length - m.columns.length ∧
      (∀ r ∈ rows, r.root ∈ m.columns ∧ r.var ∈ m.columns ∧ r.root ≠ r.var) ∧
      (∀ a b f g, m.columns[a]? = some f → m.columns[b]? = some g → f ≠ g → ∃ r,
        rows.filter (fun r => decide (r.root = f ∧ r.var = g)) = [r] ∧ IsMeanCondDepth ts a b r.val ∧
          r.occ = occurrences ts a b) ∧
      rows.Pairwise (fun r s => s.occ < r.occ ∨ (r.occ = s.occ ∧ Num.keyLE true r.val s.val = true)) := by
  obtain ⟨rows, dss, e1, _, _, _, e5⟩ := cmd_fit_ovo E hE h hts hc s0
  exact ⟨rows, e1, e5⟩

/-- **C36**, forests without trees: `fit` raises and the table is untouched. -/
theorem C36_no_trees (E : CmdEnv F I K) {m : Forest F} (h : m.trees = []) (s0 : CmdMethod F K) :
    (CmdMethod.fit E m s0).1 = .error .valueError ∧ (CmdMethod.fit E m s0).2.ovo = s0.ovo := by
  have : cmdForest m.trees m.columns.length = .error .valueError := by rw [h]; rfl
  simp [CmdMethod.fit, this]

/-- **C37.** If some tree has a split, `fit` returns and the importance table lists exactly the features used by some
tree, each once, with the mean over the trees using it of its minimal depth, in non-decreasing order. If no tree has a
split, `fit` raises and the importance is untouched. -/
theorem C37_minimal_depth_importance (E : CmdEnv F I K) (hE : SortsCmd E.sortOvo) (hI : SortsBy ImpRow.val true E.sortImp)
    {m : Forest F} {ts : List LTree} (h : ForestOf m ts) (hts : ts ≠ []) (hc : m.columns ≠ []) (s0 : CmdMethod F K) :
    ((∃ t ∈ ts, ∃ f, Uses t f) → (CmdMethod.fit E m s0).1 = .ok () ∧ ∃ rows,
      (CmdMethod.fit E m s0).2.importance = some rows ∧ (rows.map ImpRow.f).Nodup ∧
      (∀ f, f ∈ rows.map ImpRow.f ↔ ∃ i, m.columns[i]? = some f ∧ ∃ t ∈ ts, Uses t i) ∧
      (∀ r ∈ rows, ∀ i, m.columns[i]? = some r.f → IsMeanMinDepth ts i r.val) ∧
      rows.Pairwise (fun a b => Num.keyLE true a.val b.val = true)) ∧
    ((¬ ∃ t ∈ ts, ∃ f, Uses t f) → (CmdMethod.fit E m s0).1 = .error .keyError ∧
      (CmdMethod.fit E m s0).2.importance = s0.importance) := by
  obtain ⟨rows, dss, e1, e2, e3, e4, _⟩ := cmd_fit_ovo E hE h hts hc s0
  obtain ⟨i1, i2, i3⟩ := importance_ok hI h.names h.cols e2
  constructor
  · intro hu
    obtain ⟨imp, a1, a2, a3, a4⟩ := i1 hu
    rw [a1] at e3 e4
    refine ⟨by rw [e3], imp, e4, a3, a4, i3 imp a1, a2⟩
  · intro hu
    have := i2 hu
    rw [this] at e3 e4
    exact ⟨by rw [e3], e4⟩

/-! ### C38 -/

/-- the mean of two values; missing if one is missing -/
def mean2 : Num K → Num K → Num K
  | .fin x, .fin y => .fin ((x + y) / 2)
  | _, _ => .nan

theorem pairId_comm [LinearOrder F] (join : F → F → I) (a b : F) : pairId join a b = pairId join b a := by
  unfold pairId
  rcases lt_trichotomy a b with h | rfl | h
  · rw [if_neg (not_lt_of_gt h), if_pos h]
  · rfl
  · rw [if_pos h, if_neg (not_lt_of_gt h)]

/-- the two names of a row, in either order -/
def CmdRow.isPair (f g : F) (r : CmdRow F K) : Bool := decide ((r.root = f ∧ r.var = g) ∨ (r.root = g ∧ r.var = f))

theorem meanCondDepth_kinds {ts : List LTree} {a b : Nat} {v w : Num K} (hv : IsMeanCondDepth ts a b v)
    (hw : IsMeanCondDepth ts b a w) : (∃ x y, v = .fin x ∧ w = .fin y) ∨ (v = .nan ∧ w = .nan) := by
  classical
  obtain ⟨xs, h1, rfl⟩ := hv
  obtain ⟨ys, h2, rfl⟩ := hw
  have hl : xs.length = ys.length := by
    rw [← h1.length_eq, ← h2.length_eq]
    congr 1
    apply List.filter_congr
    intro t _
    simp [and_comm]
  unfold meanNat
  by_cases hx : xs = []
  · right
    subst hx
    have : ys = [] := by cases ys <;> simp_all
    simp [this]
  · left
    have : ys ≠ [] := by rintro rfl; simp at hl; exact hx hl
    rw [if_neg hx, if_neg this]
    exact ⟨_, _, rfl, rfl⟩

theorem nanMean_pair [IsStrictOrderedRing K] {l : List (Num K)} {v w : Num K} (hp : l.Perm [v, w])
    (hk : (∃ x y, v = .fin x ∧ w = .fin y) ∨ (v = .nan ∧ w = .nan)) : nanMean l = mean2 v w := by
  have hcases : l = [v, w] ∨ l = [w, v] := by
    match l, hp with
    | [a, b], hp =>
      have ha : a ∈ [v, w] := hp.mem_iff.1 (by simp)
      rcases List.mem_cons.1 ha with rfl | ha
      · left
        have := List.perm_cons a |>.1 hp
        rw [List.perm_singleton.1 this]
      · have hw : a = w := by simpa using ha
        subst hw
        right
        have := (hp.trans (List.Perm.swap _ _ _))
        have := List.perm_cons a |>.1 this
        rw [List.perm_singleton.1 this]
    | [], hp => exact absurd hp.length_eq (by simp)
    | [a], hp => exact absurd hp.length_eq (by simp)
    | a :: b :: c :: l, hp => exact absurd hp.length_eq (by simp)
  have hm : ∀ x y : K, nanMean [Num.fin x, Num.fin y] = .fin ((x + y) / 2) := by
    intro x y
    have : nanMean [Num.fin x, Num.fin y] = Num.mean ([x, y].map (fun a => Num.fin (id a))) := by
      simp [nanMean, Num.isNaN]
    rw [this, Num.mean_fin [x, y] id (by simp)]
    simp [avg]
  rcases hk with ⟨x, y, rfl, rfl⟩ | ⟨rfl, rfl⟩
  · rcases hcases with rfl | rfl
    · rw [hm]; rfl
    · rw [hm, add_comm]; rfl
  · rcases hcases with rfl | rfl <;> rfl

/-- **C38**, for feature names whose joined sorted pairs are all different. `_compare_ovo` then has exactly one row per
unordered pair of distinct features; its value is the mean of the two directed values (missing when they are);
ascending. Missing: names for which two different pairs give the same joined string (see
`C38_joined_names_can_collide`). -/
theorem C38_compare_merges_directions_partial [IsStrictOrderedRing K] [LinearOrder F] [LinearOrder I] (E : CmdEnv F I K) (hE : SortsCmd E.sortOvo)
    (hC : SortsBy CmdRow.val true E.sortCmp) {m : Forest F} {ts : List LTree} (h : ForestOf m ts) (hts : ts ≠ [])
    (hc : m.columns ≠ []) (s0 : CmdMethod F K)
    (hinj : ∀ a ∈ m.columns, ∀ b ∈ m.columns, ∀ c ∈ m.columns, ∀ e ∈ m.columns, pairId E.join a b = pairId E.join c e →
      (a = c ∧ b = e) ∨ (a = e ∧ b = c)) :
    ∃ rows out, (CmdMethod.fit E m s0).2.ovo = some rows ∧ CmdMethod.compareOvo E (CmdMethod.fit E m s0).2 = .ok out ∧
      (∀ r ∈ out, r.root ∈ m.columns ∧ r.var ∈ m.columns ∧ r.root ≠ r.var) ∧
      (∀ f ∈ m.columns, ∀ g ∈ m.columns, f ≠ g → ∃ r1 r2 r, rows.filter (fun r => decide (r.root = f ∧ r.var = g)) = [r1] ∧
        rows.filter (fun r => decide (r.root = g ∧ r.var = f)) = [r2] ∧
        out.filter (CmdRow.isPair f g) = [r] ∧ r.val = mean2 r1.val r2.val) ∧
      out.Pairwise (fun a b => Num.keyLE true a.val b.val = true) := by
  obtain ⟨rows, dss, e1, _, _, _, _, e5, e6, _⟩ := cmd_fit_ovo E hE h hts hc s0
  set s := (CmdMethod.fit E m s0).2 with hs
  let key : CmdRow F K → I := fun r => pairId E.join r.root r.var
  let ids := npUnique (rows.map key)
  let grp : I → List (CmdRow F K) := fun i => rows.filter (fun r => decide (key r = i))
  let φ : I → Option (CmdRow F K) := fun i =>
    match grp i with
    | [] => none
    | r :: rs => some ⟨r.root, r.var, nanMean ((r :: rs).map CmdRow.val), 0⟩
  have hout : CmdMethod.compareOvo E s = .ok (E.sortCmp (ids.filterMap φ)) := by
    unfold CmdMethod.compareOvo
    rw [e1]
    rfl
  have hsort := hC (ids.filterMap φ)
  -- every id gives the row of its group
  have hφ : ∀ i ∈ ids, ∃ r ∈ rows, key r = i ∧ φ i = some ⟨r.root, r.var, nanMean ((grp i).map CmdRow.val), 0⟩ := by
    intro i hi
    obtain ⟨r0, hr0, hk0⟩ := List.mem_map.1 (mem_npUnique.1 hi)
    have hne : grp i ≠ [] := List.ne_nil_of_mem (List.mem_filter.2 ⟨hr0, by simpa using hk0⟩)
    obtain ⟨r, rs, hg⟩ := List.exists_cons_of_ne_nil hne
    have hr : r ∈ grp i := by rw [hg]; simp
    have hr' := List.mem_filter.1 hr
    refine ⟨r, hr'.1, of_decide_eq_true hr'.2, ?_⟩
    simp only [φ, hg]
  have hmemout : ∀ q, q ∈ ids.filterMap φ ↔ ∃ i ∈ ids, φ i = some q := by
    intro q; rw [List.mem_filterMap]
  refine ⟨rows, _, e1, hout, ?_, ?_, hsort.2⟩
  · intro q hq
    obtain ⟨i, hi, hq'⟩ := (hmemout q).1 (hsort.1.mem_iff.1 hq)
    obtain ⟨r, hr, _, hr2⟩ := hφ i hi
    rw [hr2] at hq'
    cases hq'
    exact e5 r hr
  · intro f hf g hg hfg
    obtain ⟨a, ha⟩ := List.getElem?_of_mem hf
    obtain ⟨b, hb⟩ := List.getElem?_of_mem hg
    obtain ⟨r1, h11, h12, _⟩ := e6 a b f g ha hb hfg
    obtain ⟨r2, h21, h22, _⟩ := e6 b a g f hb ha hfg.symm
    have hr1 : r1 ∈ rows ∧ r1.root = f ∧ r1.var = g := by
      have : r1 ∈ rows.filter (fun r => decide (r.root = f ∧ r.var = g)) := by rw [h11]; simp
      rw [List.mem_filter] at this
      exact ⟨this.1, of_decide_eq_true this.2⟩
    -- a row of the pair is a row with that id
    have hkey : ∀ r ∈ rows, key r = pairId E.join f g ↔ r.isPair f g = true := by
      intro r hr
      obtain ⟨m1, m2, m3⟩ := e5 r hr
      simp only [key, CmdRow.isPair, decide_eq_true_eq]
      constructor
      · exact hinj _ m1 _ m2 _ hf _ hg
      · rintro (⟨h1, h2⟩ | ⟨h1, h2⟩)
        · rw [h1, h2]
        · rw [h1, h2, pairId_comm]
    have hgrp : (grp (pairId E.join f g)).Perm [r1, r2] := by
      have e : grp (pairId E.join f g) = rows.filter (fun r => decide (r.root = f ∧ r.var = g) || decide (r.root = g ∧ r.var = f)) := by
        apply List.filter_congr
        intro r hr
        have := hkey r hr
        by_cases hk : key r = pairId E.join f g
        · have := this.1 hk
          simp only [CmdRow.isPair, decide_eq_true_eq] at this
          simp [hk]
          exact this
        · have h' : ¬ (r.isPair f g = true) := fun h => hk (this.2 h)
          simp only [CmdRow.isPair, decide_eq_true_eq] at h'
          push Not at h'
          simp [hk]
          exact ⟨h'.1, h'.2⟩
      rw [e]
      have key2 : ∀ (l : List (CmdRow F K)), (l.filter (fun r => decide (r.root = f ∧ r.var = g) || decide (r.root = g ∧ r.var = f))).Perm
          (l.filter (fun r => decide (r.root = f ∧ r.var = g)) ++ l.filter (fun r => decide (r.root = g ∧ r.var = f))) := by
        intro l
        induction l with
        | nil => simp
        | cons r l ih =>
          by_cases c1 : r.root = f ∧ r.var = g
          · have c2 : ¬ (r.root = g ∧ r.var = f) := by
              rintro ⟨h1, h2⟩; exact hfg (c1.1.symm.trans h1)
            simp only [List.filter_cons, c1, c2, decide_true, decide_false, Bool.true_or, if_true, Bool.false_eq_true, if_false]
            simp only [and_self, decide_true, Bool.true_or, if_true, List.cons_append]
            rw [if_neg (by simp [hfg])]
            exact ih.cons _
          · by_cases c2 : r.root = g ∧ r.var = f
            · rw [List.filter_cons, if_pos (by simp [c2]), List.filter_cons, if_neg (by simpa using c1), List.filter_cons (p := fun r : CmdRow F K => decide (r.root = g ∧ r.var = f)), if_pos (by simpa using c2)]
              exact (ih.cons r).trans List.perm_middle.symm
            · rw [List.filter_cons, if_neg, List.filter_cons, if_neg (by simpa using c1), List.filter_cons (p := fun r : CmdRow F K => decide (r.root = g ∧ r.var = f)), if_neg (by simpa using c2)]
              · exact ih
              · intro hh
                rcases Bool.or_eq_true _ _ ▸ hh with hh | hh
                · exact c1 (of_decide_eq_true hh)
                · exact c2 (of_decide_eq_true hh)
      have := key2 rows
      rw [h11, h21] at this
      exact this
    have hid : pairId E.join f g ∈ ids := by
      rw [mem_npUnique]
      exact List.mem_map.2 ⟨r1, hr1.1, by simp only [key]; rw [hr1.2.1, hr1.2.2]⟩
    obtain ⟨r, hr, hr', hr''⟩ := hφ _ hid
    refine ⟨r1, r2, ⟨r.root, r.var, nanMean ((grp (pairId E.join f g)).map CmdRow.val), 0⟩, h11, h21, ?_, ?_⟩
    · have hfil : (ids.filterMap φ).filter (CmdRow.isPair f g) = [⟨r.root, r.var, nanMean ((grp (pairId E.join f g)).map CmdRow.val), 0⟩] := by
        rw [List.filter_filterMap]
        have hcount : ids.filter (fun i => decide (i = pairId E.join f g)) = [pairId E.join f g] := by
          have hnd := nodup_npUnique (rows.map key)
          have : (ids.filter (fun i => decide (i = pairId E.join f g))).length = 1 := by
            rw [← List.countP_eq_length_filter]
            have h1 := List.count_eq_one_of_mem hnd hid
            rw [← h1]
            unfold List.count
            apply List.countP_congr
            intro x _
            simp
          obtain ⟨x, hx⟩ := List.length_eq_one_iff.1 this
          have hxm : x ∈ ids.filter (fun i => decide (i = pairId E.join f g)) := by rw [hx]; simp
          rw [hx, of_decide_eq_true (List.mem_filter.1 hxm).2]
        have hfm : ∀ (l : List I), (∀ i ∈ l, i ∈ ids) → l.filterMap (fun x => Option.filter (CmdRow.isPair f g) (φ x)) =
            (l.filter (fun i => decide (i = pairId E.join f g))).filterMap φ := by
          intro l
          induction l with
          | nil => intro _; rfl
          | cons i l ih =>
            intro hl
            have ih' := ih (fun j hj => hl j (by simp [hj]))
            obtain ⟨q, hq1, hq2, hq3⟩ := hφ i (hl i (by simp))
            have hqk := hkey q hq1
            by_cases hi : i = pairId E.join f g
            · have hp : q.isPair f g = true := hqk.1 (hq2.trans hi)
              rw [List.filterMap_cons, hq3, List.filter_cons, if_pos (by simpa using hi), List.filterMap_cons, hq3, ih']
              have : Option.filter (CmdRow.isPair f g) (some (⟨q.root, q.var, nanMean ((grp i).map CmdRow.val), 0⟩ : CmdRow F K)) =
                  some ⟨q.root, q.var, nanMean ((grp i).map CmdRow.val), 0⟩ := by
                rw [Option.filter_some, if_pos]; exact hp
              rw [this]
            · have hp : ¬ q.isPair f g = true := fun hh => hi (hq2.symm.trans (hqk.2 hh))
              rw [List.filterMap_cons, hq3, List.filter_cons, if_neg (by simpa using hi), ih']
              have : Option.filter (CmdRow.isPair f g) (some (⟨q.root, q.var, nanMean ((grp i).map CmdRow.val), 0⟩ : CmdRow F K)) = none := by
                rw [Option.filter_some, if_neg]; exact hp
              rw [this]
        have := hfm ids (fun i hi => hi)
        rw [hcount] at this
        rw [this, List.filterMap_cons, hr'']
        rfl
      have hpm := hsort.1.filter (CmdRow.isPair f g)
      rw [hfil] at hpm
      exact List.perm_singleton.1 hpm
    · exact nanMean_pair (hgrp.map CmdRow.val) (meanCondDepth_kinds h12 h22)

end Forests

/-! ### Concrete cases -/
section Cases

/-- a sort as assumed by `SortsCmd` -/
def cmdSort {K : Type} [LinearOrder K] (l : List (CmdRow Nat K)) : List (CmdRow Nat K) :=
  l.insertionSort (fun r s => s.occ < r.occ ∨ (r.occ = s.occ ∧ Num.keyLE true r.val s.val = true))

theorem sortsCmd_cmdSort {K : Type} [Field K] [LinearOrder K] [IsStrictOrderedRing K] : SortsCmd (cmdSort (K := K)) := by
  intro l
  refine ⟨List.perm_insertionSort _ l, ?_⟩
  haveI : Std.Total (fun r s : CmdRow Nat K => s.occ < r.occ ∨ (r.occ = s.occ ∧ Num.keyLE true r.val s.val = true)) := ⟨by
    intro r s
    rcases Nat.lt_trichotomy r.occ s.occ with h | h | h
    · exact .inr (.inl h)
    · rcases Num.keyLE_total true r.val s.val with h' | h'
      · exact .inl (.inr ⟨h, h'⟩)
      · exact .inr (.inr ⟨h.symm, h'⟩)
    · exact .inl (.inl h)⟩
  haveI : IsTrans (CmdRow Nat K) (fun r s => s.occ < r.occ ∨ (r.occ = s.occ ∧ Num.keyLE true r.val s.val = true)) := ⟨by
    rintro a b c (h1 | ⟨h1, h1'⟩) (h2 | ⟨h2, h2'⟩)
    · exact .inl (by omega)
    · exact .inl (by omega)
    · exact .inl (by omega)
    · exact .inr ⟨by omega, Num.keyLE_trans h1' h2'⟩⟩
  exact List.pairwise_insertionSort _ l

/-- a tree splitting on column 0 at the root, on column 1 on both sides, on column 2 below the right one -/
def exTree : LTree := .node 0 0 (.node 1 1 (.leaf 2) (.leaf 3)) (.node 4 1 (.node 5 2 (.leaf 6) (.leaf 7)) (.leaf 8))

/-- the same tree as scikit-learn stores it -/
def exTreeA : SkTree := [⟨1, 4, 0⟩, ⟨2, 3, 1⟩, ⟨-1, -1, -2⟩, ⟨-1, -1, -2⟩, ⟨5, 8, 1⟩, ⟨6, 7, 2⟩, ⟨-1, -1, -2⟩,
  ⟨-1, -1, -2⟩, ⟨-1, -1, -2⟩]

theorem exTree_stored : TreeArray exTreeA exTree := by
  refine ⟨rfl, ?_, ?_⟩
  · simp [exTree, exTreeA, LTree.Stores, LTree.id]
  · exact List.Perm.refl _

theorem exTree_df : DepthFirst exTree := rfl

/-- a tree that splits only on column 1 -/
def exTree2 : LTree := .node 0 1 (.leaf 1) (.leaf 2)

/-- its array form -/
def exTree2A : SkTree := [⟨1, 2, 1⟩, ⟨-1, -1, -2⟩, ⟨-1, -1, -2⟩]

theorem exTree2_stored : TreeArray exTree2A exTree2 := by
  refine ⟨rfl, ?_, List.Perm.refl _⟩
  simp [exTree2, exTree2A, LTree.Stores, LTree.id]

/-- a tree numbered best-first (not depth-first): C33 applies to it as well -/
def exTree3 : LTree := .node 0 0 (.node 1 1 (.leaf 3) (.leaf 4)) (.leaf 2)

example : ∃ A, TreeArray A exTree3 := by
  refine ⟨[⟨1, 2, 0⟩, ⟨3, 4, 1⟩, ⟨-1, -1, -2⟩, ⟨-1, -1, -2⟩, ⟨-1, -1, -2⟩], rfl, ?_, ?_⟩
  · simp [exTree3, LTree.Stores, LTree.id]
  · decide

example : bfs exTreeA = .ok ([0, 1, 2, 2, 1, 2, 3, 3, 2], [(0, [0]), (1, [1, 4]), (2, [5])]) := by decide +kernel

example : (cmdPair [(0, [0]), (1, [1, 4]), (2, [5])] [0, 1, 2, 2, 1, 2, 3, 3, 2] 1 2) = .ok (some 0, 1) := by
  decide +kernel

example : CondDepth exTree 0 2 1 := by
  obtain ⟨depths, d, v, o, h1, h2, _, h4, _⟩ := C35_conditional_minimal_depth exTree_stored exTree_df 0 2
  have hb : bfs exTreeA = .ok ([0, 1, 2, 2, 1, 2, 3, 3, 2], [(0, [0]), (1, [1, 4]), (2, [5])]) := by decide +kernel
  rw [hb] at h1
  obtain ⟨rfl, rfl⟩ := Prod.mk.inj (Except.ok.inj h1)
  have hc : cmdPair [(0, [0]), (1, [1, 4]), (2, [5])] [0, 1, 2, 2, 1, 2, 3, 3, 2] 0 2 = .ok (some 1, 1) := by decide +kernel
  rw [hc] at h2
  obtain ⟨rfl, rfl⟩ := Prod.mk.inj (Except.ok.inj h2)
  obtain ⟨x, hx, hx'⟩ := h4 1 rfl
  have : x = 1 := by omega
  rw [← this]; exact hx'

theorem uses_exTree {f : Nat} : Uses exTree f ↔ f < 3 := by
  constructor
  · rintro ⟨k, s, h, hs⟩
    unfold exTree at h
    cases h with
    | here => simp [LTree.Splits] at hs; omega
    | left h => cases h with
      | here => simp [LTree.Splits] at hs; omega
      | left h => cases h; cases hs
      | right h => cases h; cases hs
    | right h => cases h with
      | here => simp [LTree.Splits] at hs; omega
      | left h => cases h with
        | here => simp [LTree.Splits] at hs; omega
        | left h => cases h; cases hs
        | right h => cases h; cases hs
      | right h => cases h; cases hs
  · intro h
    have : f = 0 ∨ f = 1 ∨ f = 2 := by omega
    rcases this with rfl | rfl | rfl
    · exact ⟨0, _, .here _, rfl⟩
    · exact ⟨1, _, .left (.here _), rfl⟩
    · exact ⟨2, _, .right (.left (.here _)), rfl⟩

theorem uses_exTree2 {f : Nat} (h : Uses exTree2 f) : f = 1 := by
  obtain ⟨k, s, h, hs⟩ := h
  unfold exTree2 at h
  cases h with
  | here => simp [LTree.Splits] at hs; omega
  | left h => cases h; cases hs
  | right h => cases h; cases hs

/-- a forest of the two trees; features are strings (lists of code points) "a", "ab", "b" -/
def exForest : Forest (List Nat) := ⟨[[97], [97, 98], [98]], [exTreeA, exTree2A]⟩

theorem exForest_of : ForestOf exForest [exTree, exTree2] := by
  refine ⟨by decide, .cons ⟨exTree_stored, exTree_df⟩ (.cons ⟨exTree2_stored, rfl⟩ .nil), ?_⟩
  intro t ht f hf
  rcases List.mem_cons.1 ht with rfl | ht
  · exact uses_exTree.1 hf
  · rw [List.mem_singleton.1 ht] at hf
    rw [uses_exTree2 hf]; decide

/-- sorting and joining for the examples -/
def exCmdEnv (K : Type) [Field K] [LinearOrder K] : CmdEnv (List Nat) (List Nat) K :=
  ⟨cmdSort, stableSort ImpRow.val true, stableSort CmdRow.val true, (· ++ ·)⟩

example : ∃ rows, (CmdMethod.fit (exCmdEnv ℚ) exForest CmdMethod.new).2.ovo = some rows ∧ rows.length = 6 := by
  obtain ⟨rows, h1, h2, _⟩ := C36_table (exCmdEnv ℚ) sortsCmd_cmdSort exForest_of (by simp) (by simp [exForest]) CmdMethod.new
  exact ⟨rows, h1, h2⟩

example : (CmdMethod.fit (exCmdEnv ℚ) exForest CmdMethod.new).1 = .ok () :=
  ((C37_minimal_depth_importance (exCmdEnv ℚ) sortsCmd_cmdSort (sortsBy_stableSort _ _) exForest_of (by simp)
    (by simp [exForest]) CmdMethod.new).1 ⟨exTree, by simp, 0, uses_exTree.2 (by omega)⟩).1

/-- the hypothesis of C38 holds for the names "a", "ab", "b" -/
example : ∀ a ∈ exForest.columns, ∀ b ∈ exForest.columns, ∀ c ∈ exForest.columns, ∀ e ∈ exForest.columns,
    pairId (· ++ ·) a b = pairId (· ++ ·) c e → (a = c ∧ b = e) ∨ (a = e ∧ b = c) := by decide +kernel

/-- features "a", "ab", "bc", "c"; a tree that uses all four -/
def exClash : Forest (List Nat) := ⟨[[97], [97, 98], [98, 99], [99]],
  [[⟨1, 2, 0⟩, ⟨-1, -1, -2⟩, ⟨3, 4, 1⟩, ⟨-1, -1, -2⟩, ⟨5, 6, 2⟩, ⟨-1, -1, -2⟩, ⟨7, 8, 3⟩, ⟨-1, -1, -2⟩, ⟨-1, -1, -2⟩]]⟩

/-- **C38** fails for some names: with features "a", "ab", "bc", "c" the pairs {a, bc} and {ab, c} are merged, the pair
{ab, c} has no row of its own. -/
theorem C38_joined_names_can_collide : ∃ (m : Forest (List Nat)) (f g : List Nat), m.columns.Nodup ∧ f ∈ m.columns ∧ g ∈ m.columns ∧
    f ≠ g ∧ (CmdMethod.fit (exCmdEnv ℚ) m CmdMethod.new).1 = .ok () ∧
    (CmdMethod.compareOvo (exCmdEnv ℚ) (CmdMethod.fit (exCmdEnv ℚ) m CmdMethod.new).2).map
      (fun out => out.filter (fun r => r.isPair f g) |>.length) = .ok 0 := by
  refine ⟨exClash, [97, 98], [99], by decide, by decide, by decide, by decide, by decide +kernel, by decide +kernel⟩

end Cases

end Artemis
