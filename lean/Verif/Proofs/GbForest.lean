import Verif.Proofs.GbLemmas
import Mathlib.Data.List.Sort
import Mathlib.Algebra.BigOperators.Group.List.Basic

/-!
# Tables of forests
-/

set_option linter.unusedSectionVars false
set_option linter.unusedVariables false
set_option linter.unusedSimpArgs false

namespace Artemis

section
variable {F I K : Type} [DecidableEq F] [DecidableEq I] [LinearOrder K]

/-- the annotated rows of a tree, given the row of each subtree -/
def GTree.ann (head : Nat → GTree F I K → GbRow F I K) : Option (GbRow F I K) → Nat → GTree F I K → List (Ann F I K)
  | par, k, .leaf i v c => [⟨head k (.leaf i v c), par, k⟩]
  | par, k, .split i f g c l r => ⟨head k (.split i f g c l r), par, k⟩ ::
      (l.ann head (some (head k (.split i f g c l r))) (k + 1) ++ r.ann head (some (head k (.split i f g c l r))) (k + 1))

/-- the depth in the table of a library -/
def initDepth (p : Package) (k : Nat) : Option Int :=
  match p with
  | .xgboost => none
  | .lightgbm => some (k : Int)

/-- what the row of a subtree must show -/
structure HeadOk (p : Package) (t : Nat) (head : Nat → GTree F I K → GbRow F I K) : Prop where
  tree : ∀ k T, (head k T).tree = t
  id : ∀ k T, (head k T).id = T.id
  left : ∀ k i f g c l r, (head k (.split i f g c l r)).left = some l.id
  right : ∀ k i f g c l r, (head k (.split i f g c l r)).right = some r.id
  feat : ∀ k i f g c l r, (head k (.split i f g c l r)).feat = some f
  gain : ∀ k i f g c l r, (head k (.split i f g c l r)).gain = some g
  cover : ∀ k i f g c l r, (head k (.split i f g c l r)).cover = shownCover p c
  depth : ∀ k T, (head k T).depth = initDepth p k

/-- leaves are marked as such -/
def GTree.Marked (head : Nat → GTree F I K → GbRow F I K) : GTree F I K → Prop
  | .leaf i v c => ∀ k, (head k (.leaf i v c)).leaf = true
  | .split i f g c l r => (∀ k, (head k (.split i f g c l r)).leaf = false) ∧ l.Marked head ∧ r.Marked head

variable {p : Package} {t : Nat} {head : Nat → GTree F I K → GbRow F I K}

theorem GTree.ann_ids (H : HeadOk p t head) (T : GTree F I K) : ∀ par k, (T.ann head par k).map (fun a => a.row.id) = T.ids := by
  induction T with
  | leaf i v c => intro par k; simp [GTree.ann, GTree.ids, H.id, GTree.id]
  | split i f g c l r ihl ihr => intro par k; simp [GTree.ann, GTree.ids, H.id, GTree.id, ihl, ihr]

theorem GTree.top_mem (T : GTree F I K) (par k) : (⟨head k T, par, k⟩ : Ann F I K) ∈ T.ann head par k := by
  cases T <;> simp [GTree.ann]

theorem GTree.ann_kids (H : HeadOk p t head) (T : GTree F I K) : ∀ par k, T.Marked head → ∀ a ∈ T.ann head par k, a.row.leaf = false →
    (∃ b ∈ T.ann head par k, a.row.left = some b.row.id ∧ b.par = some a.row ∧ b.dep = a.dep + 1) ∧
    (∃ b ∈ T.ann head par k, a.row.right = some b.row.id ∧ b.par = some a.row ∧ b.dep = a.dep + 1) := by
  induction T with
  | leaf i v c =>
    intro par k hm a ha hl
    simp only [GTree.ann, List.mem_singleton] at ha
    subst ha
    simp [hm k] at hl
  | split i f g c l r ihl ihr =>
    intro par k hm a ha hl
    simp only [GTree.ann, List.mem_cons, List.mem_append] at ha ⊢
    rcases ha with rfl | ha | ha
    · exact ⟨⟨_, Or.inr (Or.inl (l.top_mem _ _)), by rw [H.left, H.id], rfl, rfl⟩,
        ⟨_, Or.inr (Or.inr (r.top_mem _ _)), by rw [H.right, H.id], rfl, rfl⟩⟩
    · obtain ⟨⟨b, hb, h⟩, ⟨b', hb', h'⟩⟩ := ihl _ _ hm.2.1 a ha hl
      exact ⟨⟨b, Or.inr (Or.inl hb), h⟩, ⟨b', Or.inr (Or.inl hb'), h'⟩⟩
    · obtain ⟨⟨b, hb, h⟩, ⟨b', hb', h'⟩⟩ := ihr _ _ hm.2.2 a ha hl
      exact ⟨⟨b, Or.inr (Or.inr hb), h⟩, ⟨b', Or.inr (Or.inr hb'), h'⟩⟩

theorem GTree.ann_parent (H : HeadOk p t head) (T : GTree F I K) : ∀ par k, T.Marked head → ∀ b ∈ T.ann head par k,
    b = ⟨head k T, par, k⟩ ∨ ∃ a ∈ T.ann head par k, b.par = some a.row ∧ a.row.leaf = false ∧ b.dep = a.dep + 1 ∧
      (a.row.left = some b.row.id ∨ a.row.right = some b.row.id) := by
  induction T with
  | leaf i v c => intro par k hm b hb; simp only [GTree.ann, List.mem_singleton] at hb; exact Or.inl hb
  | split i f g c l r ihl ihr =>
    intro par k hm b hb
    simp only [GTree.ann, List.mem_cons, List.mem_append] at hb
    rcases hb with rfl | hb | hb
    · exact Or.inl rfl
    · refine Or.inr ?_
      rcases ihl _ _ hm.2.1 b hb with rfl | ⟨a, ha, h⟩
      · exact ⟨⟨head k (.split i f g c l r), par, k⟩, GTree.top_mem _ _ _, rfl, hm.1 k, rfl, Or.inl (by simp [H.left, H.id])⟩
      · exact ⟨a, by simp [GTree.ann, ha], h⟩
    · refine Or.inr ?_
      rcases ihr _ _ hm.2.2 b hb with rfl | ⟨a, ha, h⟩
      · exact ⟨⟨head k (.split i f g c l r), par, k⟩, GTree.top_mem _ _ _, rfl, hm.1 k, rfl, Or.inr (by simp [H.right, H.id])⟩
      · exact ⟨a, by simp [GTree.ann, ha], h⟩

theorem GTree.ann_depth (H : HeadOk p t head) (T : GTree F I K) : ∀ par k, ∀ a ∈ T.ann head par k, a.row.tree = t ∧
    a.row.depth = initDepth p a.dep := by
  induction T with
  | leaf i v c =>
    intro par k a ha
    simp only [GTree.ann, List.mem_singleton] at ha
    subst ha
    exact ⟨H.tree _ _, H.depth _ _⟩
  | split i f g c l r ihl ihr =>
    intro par k a ha
    simp only [GTree.ann, List.mem_cons, List.mem_append] at ha
    rcases ha with rfl | ha | ha
    · exact ⟨H.tree _ _, H.depth _ _⟩
    · exact ihl _ _ a ha
    · exact ihr _ _ a ha

/-- A table that lists the rows of a tree is annotated rightly. -/
theorem annotated_of_perm (H : HeadOk p t head) (T : GTree F I K) (hm : T.Marked head) (hnd : T.ids.Nodup)
    (hnum : p = .xgboost → ∀ a ∈ T.ann head none 0, (a.row.node = some 0 ↔ a.row.id = T.id))
    {anns : List (Ann F I K)} (hp : anns.Perm (T.ann head none 0))
    (hfirst : p = .xgboost → anns.Pairwise (fun a b => b.row.left ≠ some a.row.id ∧ b.row.right ≠ some a.row.id)) :
    Annotated p anns := by
  have hids := T.ann_ids H none 0
  have hnd' : ((T.ann head none 0).map (fun a => a.row.id)).Nodup := by rw [hids]; exact hnd
  have hpar := T.ann_parent H none 0 hm
  refine ⟨?_, ?_, ?_, ?_, ?_, ?_, ?_, ?_, hfirst⟩
  · exact ((hp.map _).nodup_iff).2 hnd'
  · intro a ha hl
    obtain ⟨⟨b, hb, h⟩, _⟩ := T.ann_kids H none 0 hm a (hp.mem_iff.1 ha) hl
    exact ⟨b, hp.mem_iff.2 hb, h⟩
  · intro a ha hl
    obtain ⟨_, ⟨b, hb, h⟩⟩ := T.ann_kids H none 0 hm a (hp.mem_iff.1 ha) hl
    exact ⟨b, hp.mem_iff.2 hb, h⟩
  · intro b hb q hq
    rcases hpar b (hp.mem_iff.1 hb) with rfl | ⟨a, ha, h1, h2, h3, h4⟩
    · cases hq
    · rw [h1] at hq
      have : a.row = q := Option.some.inj hq
      subst this
      exact ⟨a, hp.mem_iff.2 ha, rfl, h2, h3, h4⟩
  · intro a ha hn
    rcases hpar a (hp.mem_iff.1 ha) with rfl | ⟨b, hb, h1, _⟩
    · rfl
    · rw [hn] at h1; cases h1
  · intro hx a ha
    rw [hnum hx a (hp.mem_iff.1 ha)]
    have ham := hp.mem_iff.1 ha
    constructor
    · intro e
      have : a = ⟨head 0 T, none, 0⟩ := ann_eq_of_id hnd' ham (T.top_mem none 0) (by simp [e, H.id])
      rw [this]
    · intro e
      rcases hpar a ham with rfl | ⟨b, hb, h1, _⟩
      · exact H.id _ _
      · rw [e] at h1; cases h1
  · intro hx a ha
    have := (T.ann_depth H none 0 a (hp.mem_iff.1 ha)).2
    subst hx
    exact this
  · intro hx a ha
    have := (T.ann_depth H none 0 a (hp.mem_iff.1 ha)).2
    subst hx
    exact this

/-- the row of a parent shows the parent -/
def ParOk (p : Package) (par : Option (GbRow F I K)) (q : Option (F × K × K)) : Prop :=
  match par, q with
  | none, none => True
  | some r, some (f, g, c) => r.feat = some f ∧ r.gain = some g ∧ r.cover = shownCover p c
  | _, _ => False

/-- The final rows of the splits of a tree show its splits. -/
theorem GTree.fin_view (H : HeadOk p t head) (T : GTree F I K) : ∀ par q k, T.Marked head → ParOk p par q →
    (((T.ann head par k).map Ann.fin).filter (fun r => !r.row.leaf)).map StatRow.view = (T.splits t q k).map (Split.view p) := by
  induction T with
  | leaf i v c =>
    intro par q k hm hq
    have := hm k
    simp [GTree.ann, GTree.splits, Ann.fin, this, StatRow.ofRow]
  | split i f g c l r ihl ihr =>
    intro par q k hm hq
    have hl := hm.1 k
    have hpk : ParOk p (some (head k (.split i f g c l r))) (some (f, g, c)) := ⟨H.feat .., H.gain .., H.cover ..⟩
    have hview : (Ann.fin ⟨head k (.split i f g c l r), par, k⟩).view = Split.view p ⟨t, i, k, f, g, c, q⟩ ∧
        (Ann.fin ⟨head k (.split i f g c l r), par, k⟩).row.leaf = false := by
      have e1 := H.tree k (.split i f g c l r)
      have e2 := H.id k (.split i f g c l r)
      have e3 := H.feat k i f g c l r
      have e4 := H.gain k i f g c l r
      have e5 := H.cover k i f g c l r
      unfold Ann.fin
      simp only [hl, Bool.false_eq_true, if_false]
      match par, q, hq with
      | none, none, _ => exact ⟨by simp [StatRow.view, StatRow.ofRow, Split.view, e1, e2, e3, e4, e5, GTree.id], rfl⟩
      | some s, some (f', g', c'), ⟨h1, h2, h3⟩ =>
        refine ⟨?_, rfl⟩
        simp [StatRow.view, Split.view, Split.interacts, e1, e2, e3, e4, e5, GTree.id, h1, h2, h3, optLt]
    simp only [GTree.ann, GTree.splits, List.map_cons, List.map_append, List.filter_append, List.filter_cons]
    rw [if_pos (by rw [hview.2]; rfl), List.map_cons, List.map_append, hview.1, ihl _ _ _ hm.2.1 hpk, ihr _ _ _ hm.2.2 hpk]

omit [DecidableEq F] [DecidableEq I] [LinearOrder K] in
/-- rows of a tree are among those of its subtrees -/
theorem GTree.ann_head (T : GTree F I K) : ∀ par k, ∀ a ∈ T.ann head par k, ∃ k' S, a.row = head k' S := by
  induction T with
  | leaf i v c =>
    intro par k a ha
    simp only [GTree.ann, List.mem_singleton] at ha
    subst ha; exact ⟨_, _, rfl⟩
  | split i f g c l r ihl ihr =>
    intro par k a ha
    simp only [GTree.ann, List.mem_cons, List.mem_append] at ha
    rcases ha with rfl | ha | ha
    · exact ⟨_, _, rfl⟩
    · exact ihl _ _ a ha
    · exact ihr _ _ a ha

/-! ### The rows of the two libraries -/

/-- the row XGBoost lists for a subtree -/
def xgbHead (leafName : F) (t : Nat) (num : I → Nat) : GTree F I K → XgbRow F I K
  | .leaf i v c => ⟨t, num i, i, leafName, none, none, v, c⟩
  | .split i f g c l r => ⟨t, num i, i, f, some l.id, some r.id, g, c⟩

/-- the row LightGBM lists for a subtree -/
def lgbHead (t : Nat) (k : Nat) : GTree F I K → LgbRow F I K
  | .leaf i _ _ => ⟨t, k + 1, i, none, none, none, none⟩
  | .split i f g _ l r => ⟨t, k + 1, i, some l.id, some r.id, some f, some g⟩

theorem xgbHead_ok (leafName : F) (t : Nat) (num : I → Nat) :
    HeadOk (K := K) .xgboost t (fun _ T => unifyXgb leafName (xgbHead leafName t num T)) := by
  constructor <;> intros <;> first | rfl | (rename_i T; cases T <;> rfl)

theorem lgbHead_ok (t : Nat) : HeadOk (F := F) (I := I) (K := K) .lightgbm t (fun k T => unifyLgb (lgbHead t k T)) := by
  constructor <;> intros <;> first | rfl | (rename_i T; cases T <;> simp [unifyLgb, lgbHead, GTree.id, initDepth])

theorem xgb_ann_rows (leafName : F) (t : Nat) (num : I → Nat) (T : GTree F I K) : ∀ par k,
    (T.ann (fun _ T => unifyXgb leafName (xgbHead leafName t num T)) par k).map Ann.row
      = (T.xgbRows leafName t num).map (unifyXgb leafName) := by
  induction T with
  | leaf i v c => intro par k; rfl
  | split i f g c l r ihl ihr => intro par k; simp only [GTree.ann, GTree.xgbRows, List.map_cons, List.map_append, ihl, ihr]; rfl

theorem lgb_ann_rows (t : Nat) (T : GTree F I K) : ∀ par k,
    (T.ann (fun k T => unifyLgb (lgbHead t k T)) par k).map Ann.row = (T.lgbRows t k).map unifyLgb := by
  induction T with
  | leaf i v c => intro par k; rfl
  | split i f g c l r ihl ihr => intro par k; simp only [GTree.ann, GTree.lgbRows, List.map_cons, List.map_append, ihl, ihr]; rfl

theorem xgb_marked (leafName : F) (t : Nat) (num : I → Nat) (T : GTree F I K) : ∀ q k, (∀ s ∈ T.splits t q k, s.feat ≠ leafName) →
    T.Marked (fun _ T => unifyXgb leafName (xgbHead leafName t num T)) := by
  induction T with
  | leaf i v c => intro q k _ _; simp [unifyXgb, xgbHead]
  | split i f g c l r ihl ihr =>
    intro q k h
    refine ⟨fun _ => ?_, ihl (some (f, g, c)) (k + 1) ?_, ihr (some (f, g, c)) (k + 1) ?_⟩
    · have := h ⟨t, i, k, f, g, c, q⟩ (by simp [GTree.splits])
      exact decide_eq_false this
    · intro s hs; exact h s (by simp [GTree.splits, hs])
    · intro s hs; exact h s (by simp [GTree.splits, hs])

theorem lgb_marked (t : Nat) (T : GTree F I K) : T.Marked (fun k T => unifyLgb (lgbHead t k T)) := by
  induction T with
  | leaf i v c => intro _; rfl
  | split i f g c l r ihl ihr => exact ⟨fun _ => rfl, ihl, ihr⟩


/-- a permutation of a mapped list comes from a permutation of the list -/
theorem perm_map_lift {α β : Type} {f : α → β} {l : List β} {l' : List α} (h : l.Perm (l'.map f)) :
    ∃ m : List α, l = m.map f ∧ m.Perm l' := by
  have h1 := congrFun (congrFun (List.eq_map_comp_perm f) l) l'
  have h2 : Relation.Comp (fun (x : List β) (y : List α) => x = y.map f) (fun x y => x.Perm y) l l' := by
    rw [h1]; exact h
  obtain ⟨m, hm, hp⟩ := h2
  exact ⟨m, hm, hp⟩

/-- A unified table annotated tree by tree. -/
structure Framed (leafName : F) (p : Package) (ts : List (GTree F I K)) (frame : List (GbRow F I K)) (A : Nat → List (Ann F I K)) : Prop where
  trees : npUnique (frame.map GbRow.tree) = List.range ts.length
  rows : ∀ t, t < ts.length → frame.filter (fun r => decide (r.tree = t)) = (A t).map Ann.row
  ann : ∀ t, t < ts.length → Annotated p (A t)
  splits : ∀ (t : Nat) (T : GTree F I K), ts[t]? = some T →
    ((((A t).map Ann.fin).filter (fun r => !r.row.leaf)).map StatRow.view).Perm ((T.splits t none 0).map (Split.view p))
  leaves : ∀ t, t < ts.length → ∀ a ∈ A t, a.row.leaf = true → a.row.feat = none ∨ a.row.feat = some leafName
  nodes : p = .xgboost → ∀ r ∈ frame, r.node.isSome

theorem GTree.ids_ne_nil (T : GTree F I K) : T.ids ≠ [] := by cases T <;> simp [GTree.ids]

theorem npUnique_range {l : List Nat} {n : Nat} (h1 : ∀ t ∈ l, t < n) (h2 : ∀ t, t < n → t ∈ l) : npUnique l = List.range n := by
  have hp : (npUnique l).Perm (List.range n) := by
    rw [List.perm_ext_iff_of_nodup (nodup_npUnique l) List.nodup_range]
    intro t
    rw [mem_npUnique, List.mem_range]
    exact ⟨h1 t, h2 t⟩
  refine List.Perm.eq_of_pairwise (le := (· < ·)) ?_ (sorted_npUnique l) List.pairwise_lt_range hp
  intro a b _ _ hab hba
  exact absurd hab (not_lt.2 (le_of_lt hba))

theorem mem_of_getElem?_ts {ts : List (GTree F I K)} {t : Nat} (h : t < ts.length) : ∃ T, ts[t]? = some T := ⟨_, List.getElem?_eq_getElem h⟩

theorem mem_forestSplits {ts : List (GTree F I K)} {s : Split F I K} :
    s ∈ forestSplits ts ↔ ∃ (t : Nat) (T : GTree F I K), ts[t]? = some T ∧ s ∈ T.splits t none 0 := by
  unfold forestSplits
  rw [List.mem_flatten]
  constructor
  · rintro ⟨l, hl, hs⟩
    obtain ⟨⟨T, t⟩, hq, rfl⟩ := List.mem_map.1 hl
    exact ⟨t, T, List.mk_mem_zipIdx_iff_getElem?.1 hq, hs⟩
  · rintro ⟨t, T, h, hs⟩
    exact ⟨_, List.mem_map.2 ⟨(T, t), List.mk_mem_zipIdx_iff_getElem?.2 h, rfl⟩, hs⟩

theorem framed_xgb {leafName : F} {ts : List (GTree F I K)} {rows : List (XgbRow F I K)} (H : XgbForest leafName ts rows) :
    ∃ A, Framed leafName .xgboost ts (rows.map (unifyXgb leafName)) A := by
  have hex : ∀ t : Nat, ∃ anns : List (Ann F I K), ∀ T, ts[t]? = some T →
      (rows.map (unifyXgb leafName)).filter (fun r => decide (r.tree = t)) = anns.map Ann.row ∧ Annotated .xgboost anns ∧
      (((anns.map Ann.fin).filter (fun r => !r.row.leaf)).map StatRow.view).Perm ((T.splits t none 0).map (Split.view .xgboost)) ∧
      (∀ a ∈ anns, a.row.leaf = true → a.row.feat = none ∨ a.row.feat = some leafName) ∧ anns ≠ [] := by
    intro t
    cases hT : ts[t]? with
    | none => exact ⟨[], by simp⟩
    | some T =>
      obtain ⟨num, hnum, hperm⟩ := H.lists t T hT
      have hf : (rows.map (unifyXgb leafName)).filter (fun r => decide (r.tree = t))
          = (rows.filter (fun r => decide (r.tree = t))).map (unifyXgb leafName) := by
        rw [List.filter_map]; rfl
      have hp2 := hperm.map (unifyXgb leafName)
      rw [← xgb_ann_rows leafName t num T none 0] at hp2
      obtain ⟨anns, e, hp⟩ := perm_map_lift hp2
      have hm : T.Marked (fun _ T => unifyXgb leafName (xgbHead leafName t num T)) :=
        xgb_marked leafName t num T none 0 (fun s hs => H.noLeafName s (mem_forestSplits.2 ⟨t, T, hT, hs⟩))
      have hok := xgbHead_ok (K := K) leafName t num
      refine ⟨anns, fun T' hT' => ?_⟩
      cases hT'
      refine ⟨by rw [hf, e], annotated_of_perm hok T hm (H.nodup T (List.mem_of_getElem? hT)) ?_ hp ?_, ?_, ?_, ?_⟩
      · intro _ a ha
        obtain ⟨k', S, ea⟩ := T.ann_head none 0 a ha
        have hid : a.row.id ∈ T.ids := by
          rw [← T.ann_ids hok none 0]
          exact List.mem_map.2 ⟨a, ha, rfl⟩
        have hn : a.row.node = some (num a.row.id) := by
          rw [ea]; cases S <;> rfl
        rw [hn, Option.some.injEq]
        exact hnum _ hid
      · intro _
        have hpw : (rows.filter (fun r => decide (r.tree = t))).Pairwise (fun a b => b.yes ≠ some a.id ∧ b.no ≠ some a.id) := by
          have h1 := H.parentsFirst.filter (fun r => decide (r.tree = t))
          refine List.Pairwise.imp_of_mem ?_ h1
          intro a b ha hb h
          have ea := (List.mem_filter.1 ha).2
          have eb := (List.mem_filter.1 hb).2
          simp only [decide_eq_true_eq] at ea eb
          exact h (by rw [ea, eb])
        have h2 : ((rows.filter (fun r => decide (r.tree = t))).map (unifyXgb leafName)).Pairwise
            (fun a b => b.left ≠ some a.id ∧ b.right ≠ some a.id) := by
          rw [List.pairwise_map]; exact hpw
        rw [e, List.pairwise_map] at h2
        exact h2
      · rw [← T.fin_view hok none none 0 hm trivial]
        exact ((hp.map _).filter _).map _
      · intro a ha hl
        obtain ⟨k', S, ea⟩ := T.ann_head none 0 a (hp.mem_iff.1 ha)
        right
        rw [ea] at hl ⊢
        have : (xgbHead leafName t num S).feature = leafName := by simpa [unifyXgb] using hl
        simp [unifyXgb, this]
      · intro he
        subst he
        have := hp.nil_eq
        cases T <;> simp [GTree.ann] at this
  choose A hA using hex
  refine ⟨A, ?_, ?_, ?_, ?_, ?_, ?_⟩
  · refine npUnique_range ?_ ?_
    · intro t ht
      rw [List.map_map] at ht
      obtain ⟨r, hr, rfl⟩ := List.mem_map.1 ht
      exact H.inRange r hr
    · intro t ht
      obtain ⟨T, hT⟩ := mem_of_getElem?_ts ht
      obtain ⟨h1, _, _, _, h5⟩ := hA t T hT
      obtain ⟨a, ha⟩ := List.exists_mem_of_ne_nil _ h5
      have : a.row ∈ (rows.map (unifyXgb leafName)).filter (fun r => decide (r.tree = t)) := by
        rw [h1]; exact List.mem_map.2 ⟨a, ha, rfl⟩
      obtain ⟨h6, h7⟩ := List.mem_filter.1 this
      exact List.mem_map.2 ⟨a.row, h6, by simpa using h7⟩
  · intro t ht
    obtain ⟨T, hT⟩ := mem_of_getElem?_ts ht
    exact (hA t T hT).1
  · intro t ht
    obtain ⟨T, hT⟩ := mem_of_getElem?_ts ht
    exact (hA t T hT).2.1
  · intro t T hT
    exact (hA t T hT).2.2.1
  · intro t ht
    obtain ⟨T, hT⟩ := mem_of_getElem?_ts ht
    exact (hA t T hT).2.2.2.1
  · intro _ r hr
    obtain ⟨x, _, rfl⟩ := List.mem_map.1 hr
    rfl

theorem framed_lgb (leafName : F) {ts : List (GTree F I K)} {rows : List (LgbRow F I K)} (H : LgbForest ts rows) :
    ∃ A, Framed leafName .lightgbm ts (rows.map unifyLgb) A := by
  have hex : ∀ t : Nat, ∃ anns : List (Ann F I K), ∀ T, ts[t]? = some T →
      (rows.map unifyLgb).filter (fun r => decide (r.tree = t)) = anns.map Ann.row ∧ Annotated .lightgbm anns ∧
      (((anns.map Ann.fin).filter (fun r => !r.row.leaf)).map StatRow.view).Perm ((T.splits t none 0).map (Split.view .lightgbm)) ∧
      (∀ a ∈ anns, a.row.leaf = true → a.row.feat = none ∨ a.row.feat = some leafName) ∧ anns ≠ [] := by
    intro t
    cases hT : ts[t]? with
    | none => exact ⟨[], by simp⟩
    | some T =>
      have hperm := H.lists t T hT
      have hf : (rows.map unifyLgb).filter (fun r => decide (r.tree = t))
          = (rows.filter (fun r => decide (r.tree = t))).map unifyLgb := by
        rw [List.filter_map]; rfl
      have hp2 := hperm.map unifyLgb
      rw [← lgb_ann_rows t T none 0] at hp2
      obtain ⟨anns, e, hp⟩ := perm_map_lift hp2
      have hm := lgb_marked t T
      have hok := lgbHead_ok (F := F) (I := I) (K := K) t
      refine ⟨anns, fun T' hT' => ?_⟩
      cases hT'
      refine ⟨by rw [hf, e], annotated_of_perm hok T hm (H.nodup T (List.mem_of_getElem? hT)) (fun h => by cases h) hp
        (fun h => by cases h), ?_, ?_, ?_⟩
      · rw [← T.fin_view hok none none 0 hm trivial]
        exact ((hp.map _).filter _).map _
      · intro a ha hl
        obtain ⟨k', S, ea⟩ := T.ann_head none 0 a (hp.mem_iff.1 ha)
        left
        rw [ea] at hl ⊢
        simpa [unifyLgb] using hl
      · intro he
        subst he
        have := hp.nil_eq
        cases T <;> simp [GTree.ann] at this
  choose A hA using hex
  refine ⟨A, ?_, ?_, ?_, ?_, ?_, ?_⟩
  · refine npUnique_range ?_ ?_
    · intro t ht
      rw [List.map_map] at ht
      obtain ⟨r, hr, rfl⟩ := List.mem_map.1 ht
      exact H.inRange r hr
    · intro t ht
      obtain ⟨T, hT⟩ := mem_of_getElem?_ts ht
      obtain ⟨h1, _, _, _, h5⟩ := hA t T hT
      obtain ⟨a, ha⟩ := List.exists_mem_of_ne_nil _ h5
      have : a.row ∈ (rows.map unifyLgb).filter (fun r => decide (r.tree = t)) := by
        rw [h1]; exact List.mem_map.2 ⟨a, ha, rfl⟩
      obtain ⟨h6, h7⟩ := List.mem_filter.1 this
      exact List.mem_map.2 ⟨a.row, h6, by simpa using h7⟩
  · intro t ht
    obtain ⟨T, hT⟩ := mem_of_getElem?_ts ht
    exact (hA t T hT).1
  · intro t ht
    obtain ⟨T, hT⟩ := mem_of_getElem?_ts ht
    exact (hA t T hT).2.1
  · intro t T hT
    exact (hA t T hT).2.2.1
  · intro t ht
    obtain ⟨T, hT⟩ := mem_of_getElem?_ts ht
    exact (hA t T hT).2.2.2.1
  · intro h; cases h

/-- A model of a forest has a framed table. -/
theorem framed_of_forest {leafName : F} {ts : List (GTree F I K)} {p : Package} {m : GbModel F I K} (H : GbForest leafName ts p m) :
    ∃ frame A, unifyStructure leafName m = .ok ⟨p, frame⟩ ∧ Framed leafName p ts frame A := by
  cases H with
  | xgboost cls rows hc h =>
    obtain ⟨A, hA⟩ := framed_xgb h
    exact ⟨_, A, by simp [unifyStructure, hc], hA⟩
  | lightgbm cls rows hc h =>
    obtain ⟨A, hA⟩ := framed_lgb leafName h
    exact ⟨_, A, by simp [unifyStructure, hc], hA⟩

/-- all rows of `full_result` -/
def finalRows (n : Nat) (A : Nat → List (Ann F I K)) : List (StatRow F I K) := ((List.range n).map (fun t => (A t).map Ann.fin)).flatten

variable {leafName : F} {ts : List (GTree F I K)} {frame : List (GbRow F I K)} {A : Nat → List (Ann F I K)}

/-- The rows of `full_result` that are splits show the splits of the forest. -/
theorem finalRows_view (H : Framed leafName p ts frame A) :
    (((finalRows ts.length A).filter (fun r => !r.row.leaf)).map StatRow.view).Perm ((forestSplits ts).map (Split.view p)) := by
  unfold finalRows forestSplits
  rw [List.filter_flatten, List.map_flatten, List.map_flatten, List.map_map, List.map_map, List.map_map]
  apply List.Perm.flatten_congr
  rw [List.forall₂_iff_get]
  refine ⟨by simp, ?_⟩
  intro i h1 h2
  have h1 : i < ts.length := by simpa using h1
  simpa using H.splits i _ (List.getElem?_eq_getElem h1)

theorem Ann.fin_leaf (a : Ann F I K) : a.fin.row.leaf = a.row.leaf := by
  obtain ⟨d, e⟩ := a.fin_row; rw [e]

/-- leaves have no parent columns -/
theorem finalRows_leaf (H : Framed leafName p ts frame A) : ∀ r ∈ finalRows ts.length A, r.row.leaf = true →
    r.parentName = none ∧ r.parentGain = none ∧ r.parentCover = none ∧ r.interaction = none ∧
    (r.row.feat = none ∨ r.row.feat = some leafName) := by
  intro r hr hl
  unfold finalRows at hr
  obtain ⟨l, hl', hr'⟩ := List.mem_flatten.1 hr
  obtain ⟨t, ht, rfl⟩ := List.mem_map.1 hl'
  obtain ⟨a, ha, rfl⟩ := List.mem_map.1 hr'
  rw [Ann.fin_leaf] at hl
  have : a.fin = StatRow.ofRow a.row := by simp [Ann.fin, hl]
  rw [this]
  exact ⟨rfl, rfl, rfl, rfl, H.leaves t (List.mem_range.1 ht) a ha hl⟩

theorem fullResult_eq (H : Framed leafName p ts frame A) : fullResult p frame
    = if (finalRows ts.length A).any (fun r => r.interaction.isSome) then .ok (finalRows ts.length A) else .error .keyError := by
  unfold fullResult
  rw [H.trees]
  have : (List.range ts.length).mapM (fun t => prepareStats p (frame.filter (fun r => decide (r.tree = t))))
      = Except.ok ((List.range ts.length).map (fun t => (A t).map Ann.fin)) := by
    apply mapM_ok
    intro t ht
    have ht := List.mem_range.1 ht
    rw [H.rows t ht]
    exact prepareStats_ok (H.ann t ht)
  rw [this]
  rfl

/-- the parent columns exist iff some split has a parent -/
theorem finalRows_any (H : Framed leafName p ts frame A) :
    (finalRows ts.length A).any (fun r => r.interaction.isSome) = true ↔ ∃ s ∈ forestSplits ts, s.parent.isSome = true := by
  have hv := finalRows_view H
  rw [List.any_eq_true]
  constructor
  · rintro ⟨r, hr, hi⟩
    have hl : r.row.leaf = false := by
      cases h : r.row.leaf with
      | false => rfl
      | true => rw [(finalRows_leaf H r hr h).2.2.2.1] at hi; cases hi
    have : r.view ∈ (forestSplits ts).map (Split.view p) :=
      hv.mem_iff.1 (List.mem_map.2 ⟨r, List.mem_filter.2 ⟨hr, by simp [hl]⟩, rfl⟩)
    obtain ⟨s, hs, e⟩ := List.mem_map.1 this
    refine ⟨s, hs, ?_⟩
    have h1 : r.interaction = s.parent.map (fun _ => s.interacts) := by
      have := congrArg StatView.interaction e
      exact this.symm
    rw [h1] at hi
    simpa using hi
  · rintro ⟨s, hs, hp⟩
    have : s.view p ∈ ((finalRows ts.length A).filter (fun r => !r.row.leaf)).map StatRow.view :=
      hv.mem_iff.2 (List.mem_map.2 ⟨s, hs, rfl⟩)
    obtain ⟨r, hr, e⟩ := List.mem_map.1 this
    refine ⟨r, (List.mem_filter.1 hr).1, ?_⟩
    have h1 : r.interaction = s.parent.map (fun _ => s.interacts) := congrArg StatView.interaction e
    rw [h1]
    simpa using hp

end

end Artemis
