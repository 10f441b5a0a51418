import Verif.Props.Rounds
import Verif.Props.CMD
import Verif.Proofs.SameForest

/-!
# Property C137: growing a random forest

A forest whose trees are those of a first forest followed by those of a second one (`warm_start`, a forest grown in parts,
two forests merged). Setting as in `Verif/Props/CMD.lean`.
-/

set_option linter.unusedSectionVars false
set_option linter.unusedVariables false
set_option linter.unusedSimpArgs false

namespace Artemis
open Spec

/-- `v` is a mean of `v1`, taken over `n1` trees, and `v2`, taken over `n2` trees; a value over no tree is NaN and
does not count -/
def Spec.Pooled {K : Type} [Field K] (n1 n2 : Nat) (v1 v2 v : Num K) : Prop :=
  (n1 = 0 ∧ v1 = .nan ∧ v = v2) ∨ (n2 = 0 ∧ v2 = .nan ∧ v = v1) ∨
    (0 < n1 ∧ 0 < n2 ∧ ∃ x1 x2 x : K, v1 = .fin x1 ∧ v2 = .fin x2 ∧ v = .fin x ∧ ((n1 : K) + n2) * x = n1 * x1 + n2 * x2)

section helpers
variable {K : Type} [Field K] [LinearOrder K] [IsStrictOrderedRing K]

theorem meanNat_append (xs ys : List Nat) : Pooled xs.length ys.length (meanNat (K := K) xs) (meanNat ys) (meanNat (xs ++ ys)) := by
  unfold Pooled meanNat
  by_cases hx : xs = []
  · subst hx; simp
  by_cases hy : ys = []
  · subst hy; simp
  have hx' : 0 < xs.length := List.length_pos_iff.2 hx
  have hy' : 0 < ys.length := List.length_pos_iff.2 hy
  refine .inr (.inr ⟨hx', hy', _, _, _, if_neg hx, if_neg hy, if_neg (by simp [hx]), ?_⟩)
  have a : (xs.length : K) ≠ 0 := Nat.cast_ne_zero.2 hx'.ne'
  have b : (ys.length : K) ≠ 0 := Nat.cast_ne_zero.2 hy'.ne'
  have c : (xs.length : K) + ys.length ≠ 0 := by
    rw [← Nat.cast_add]; exact Nat.cast_ne_zero.2 (by omega)
  rw [List.map_append, List.sum_append, List.length_append, Nat.cast_add]
  field_simp

/-- a pooled value lies between the two it is made of -/
theorem pooled_between {n1 n2 : Nat} {x1 x2 x : K} (h : Pooled n1 n2 (.fin x1) (.fin x2) (.fin x)) : min x1 x2 ≤ x ∧ x ≤ max x1 x2 := by
  rcases h with ⟨_, h, _⟩ | ⟨_, h, _⟩ | ⟨h1, h2, y1, y2, y, e1, e2, e, h⟩
  · cases h
  · cases h
  · cases e1; cases e2; cases e
    have p1 : (0 : K) < n1 := Nat.cast_pos.2 h1
    have p2 : (0 : K) < n2 := Nat.cast_pos.2 h2
    constructor
    · by_contra hn
      obtain ⟨a, b⟩ := lt_min_iff.1 (not_le.1 hn)
      nlinarith
    · by_contra hn
      obtain ⟨a, b⟩ := max_lt_iff.1 (not_le.1 hn)
      nlinarith

theorem forall₂_unique {α β : Type} {R : α → β → Prop} (hu : ∀ a x y, R a x → R a y → x = y) : ∀ {l : List α} {xs ys : List β},
    List.Forall₂ R l xs → List.Forall₂ R l ys → xs = ys
  | _, _, _, .nil, .nil => rfl
  | _, _, _, .cons h t, .cons h' t' => by rw [hu _ _ _ h h', forall₂_unique hu t t']

theorem pooled_of {R : LTree → Nat → Prop} {p : LTree → Bool} (hu : ∀ t x y, R t x → R t y → x = y) {ts1 ts2 : List LTree}
    {xs1 xs2 xs : List Nat} (h1 : List.Forall₂ R (ts1.filter p) xs1) (h2 : List.Forall₂ R (ts2.filter p) xs2)
    (h : List.Forall₂ R ((ts1 ++ ts2).filter p) xs) :
    Pooled (ts1.countP p) (ts2.countP p) (meanNat (K := K) xs1) (meanNat xs2) (meanNat xs) := by
  rw [List.filter_append] at h
  have e : xs = xs1 ++ xs2 := forall₂_unique hu h (List.rel_append h1 h2)
  rw [e, List.countP_eq_length_filter, List.countP_eq_length_filter, h1.length_eq, h2.length_eq]
  exact meanNat_append _ _

open Classical in
theorem pooled_condDepth {ts1 ts2 : List LTree} {f g : Nat} {v1 v2 v : Num K} (h1 : IsMeanCondDepth ts1 f g v1)
    (h2 : IsMeanCondDepth ts2 f g v2) (h : IsMeanCondDepth (ts1 ++ ts2) f g v) :
    Pooled (ts1.countP fun t => decide (Uses t f ∧ Uses t g)) (ts2.countP fun t => decide (Uses t f ∧ Uses t g)) v1 v2 v := by
  obtain ⟨xs1, a1, rfl⟩ := h1
  obtain ⟨xs2, a2, rfl⟩ := h2
  obtain ⟨xs, a, rfl⟩ := h
  exact pooled_of (R := fun t x => CondDepth t f g x) (fun _ _ _ => condDepth_unique) a1 a2 a

open Classical in
theorem pooled_minDepth {ts1 ts2 : List LTree} {f : Nat} {v1 v2 v : Num K} (h1 : IsMeanMinDepth ts1 f v1)
    (h2 : IsMeanMinDepth ts2 f v2) (h : IsMeanMinDepth (ts1 ++ ts2) f v) :
    Pooled (ts1.countP fun t => decide (Uses t f)) (ts2.countP fun t => decide (Uses t f)) v1 v2 v := by
  obtain ⟨xs1, a1, rfl⟩ := h1
  obtain ⟨xs2, a2, rfl⟩ := h2
  obtain ⟨xs, a, rfl⟩ := h
  exact pooled_of (R := fun t x => MinDepth t f x) (fun _ _ _ => minDepth_unique) a1 a2 a

end helpers

section C137
variable {F I K : Type} [DecidableEq F] [Field K] [LinearOrder K] [IsStrictOrderedRing K]

theorem forestOf_append {m1 m2 m : Forest F} {ts1 ts2 : List LTree} (h1 : ForestOf m1 ts1) (h2 : ForestOf m2 ts2)
    (c1 : m1.columns = m.columns) (c2 : m2.columns = m.columns) (ht : m.trees = m1.trees ++ m2.trees) : ForestOf m (ts1 ++ ts2) := by
  refine ⟨c1 ▸ h1.names, by rw [ht]; exact List.rel_append h1.trees h2.trees, ?_⟩
  intro t hm f hf
  rcases List.mem_append.1 hm with a | a
  · exact c1 ▸ h1.cols t a f hf
  · exact c2 ▸ h2.cols t a f hf

open Classical in
/-- **C137**, the table of ordered pairs: `n_occurences` adds up and the conditional minimal depth is the mean of the two,
weighted by the numbers of trees using both features. -/
theorem C137_pairs (E : CmdEnv F I K) (hE : SortsCmd E.sortOvo) {m1 m2 m : Forest F} {ts1 ts2 : List LTree}
    (h1 : ForestOf m1 ts1) (h2 : ForestOf m2 ts2) (n1 : ts1 ≠ []) (n2 : ts2 ≠ []) (hc : m.columns ≠ [])
    (c1 : m1.columns = m.columns) (c2 : m2.columns = m.columns) (ht : m.trees = m1.trees ++ m2.trees) (s1 s2 s0 : CmdMethod F K) :
    ∃ t1 t2 t, (CmdMethod.fit E m1 s1).2.ovo = some t1 ∧ (CmdMethod.fit E m2 s2).2.ovo = some t2 ∧
      (CmdMethod.fit E m s0).2.ovo = some t ∧
      ∀ a b f g, m.columns[a]? = some f → m.columns[b]? = some g → f ≠ g → ∃ r1 r2 r,
        t1.filter (fun r => decide (r.root = f ∧ r.var = g)) = [r1] ∧ t2.filter (fun r => decide (r.root = f ∧ r.var = g)) = [r2] ∧
        t.filter (fun r => decide (r.root = f ∧ r.var = g)) = [r] ∧ r.occ = r1.occ + r2.occ ∧
        Pooled (ts1.countP fun t => decide (Uses t a ∧ Uses t b)) (ts2.countP fun t => decide (Uses t a ∧ Uses t b))
          r1.val r2.val r.val := by
  obtain ⟨t1, e1, _, _, p1, _⟩ := C36_table E hE h1 n1 (by rw [c1]; exact hc) s1
  obtain ⟨t2, e2, _, _, p2, _⟩ := C36_table E hE h2 n2 (by rw [c2]; exact hc) s2
  obtain ⟨t, e, _, _, p, _⟩ := C36_table E hE (forestOf_append h1 h2 c1 c2 ht) (by simp [n1]) hc s0
  refine ⟨t1, t2, t, e1, e2, e, ?_⟩
  intro a b f g ha hb hfg
  obtain ⟨r1, q1, d1, o1⟩ := p1 a b f g (by rw [c1]; exact ha) (by rw [c1]; exact hb) hfg
  obtain ⟨r2, q2, d2, o2⟩ := p2 a b f g (by rw [c2]; exact ha) (by rw [c2]; exact hb) hfg
  obtain ⟨r, q, d, o⟩ := p a b f g ha hb hfg
  refine ⟨r1, r2, r, q1, q2, q, ?_, pooled_condDepth d1 d2 d⟩
  rw [o, o1, o2]
  exact List.countP_append

open Classical in
/-- **C137**, minimal depth importance: a feature is listed iff one of the two forests lists it; listed by both, its value
is the mean of the two, weighted by the numbers of trees using it; listed by one, the value of that one. -/
theorem C137_importance (E : CmdEnv F I K) (hE : SortsCmd E.sortOvo) (hI : SortsBy ImpRow.val true E.sortImp)
    {m1 m2 m : Forest F} {ts1 ts2 : List LTree} (h1 : ForestOf m1 ts1) (h2 : ForestOf m2 ts2)
    (u1 : ∃ t ∈ ts1, ∃ f, Uses t f) (u2 : ∃ t ∈ ts2, ∃ f, Uses t f) (hc : m.columns ≠ [])
    (c1 : m1.columns = m.columns) (c2 : m2.columns = m.columns) (ht : m.trees = m1.trees ++ m2.trees) (s1 s2 s0 : CmdMethod F K) :
    ∃ t1 t2 t, (CmdMethod.fit E m1 s1).2.importance = some t1 ∧ (CmdMethod.fit E m2 s2).2.importance = some t2 ∧
      (CmdMethod.fit E m s0).2.importance = some t ∧
      (∀ f, f ∈ t.map ImpRow.f ↔ f ∈ t1.map ImpRow.f ∨ f ∈ t2.map ImpRow.f) ∧
      (∀ r ∈ t, ∀ r1 ∈ t1, ∀ r2 ∈ t2, r1.f = r.f → r2.f = r.f → ∀ i, m.columns[i]? = some r.f →
        Pooled (ts1.countP fun t => decide (Uses t i)) (ts2.countP fun t => decide (Uses t i)) r1.val r2.val r.val) ∧
      (∀ r ∈ t, ∀ r1 ∈ t1, r1.f = r.f → r.f ∉ t2.map ImpRow.f → r.val = r1.val) ∧
      (∀ r ∈ t, ∀ r2 ∈ t2, r2.f = r.f → r.f ∉ t1.map ImpRow.f → r.val = r2.val) := by
  have n1 : ts1 ≠ [] := by obtain ⟨t, h, _⟩ := u1; exact List.ne_nil_of_mem h
  have n2 : ts2 ≠ [] := by obtain ⟨t, h, _⟩ := u2; exact List.ne_nil_of_mem h
  obtain ⟨_, t1, e1, _, l1, p1, _⟩ := (C37_minimal_depth_importance E hE hI h1 n1 (by rw [c1]; exact hc) s1).1 u1
  obtain ⟨_, t2, e2, _, l2, p2, _⟩ := (C37_minimal_depth_importance E hE hI h2 n2 (by rw [c2]; exact hc) s2).1 u2
  obtain ⟨_, t, e, _, l, p, _⟩ := (C37_minimal_depth_importance E hE hI (forestOf_append h1 h2 c1 c2 ht) (by simp [n1]) hc s0).1
    (by obtain ⟨t, h, x⟩ := u1; exact ⟨t, List.mem_append_left _ h, x⟩)
  rw [c1] at l1 p1
  rw [c2] at l2 p2
  have hl : ∀ f, f ∈ t.map ImpRow.f ↔ f ∈ t1.map ImpRow.f ∨ f ∈ t2.map ImpRow.f := by
    intro f
    rw [l, l1, l2]
    constructor
    · rintro ⟨i, hi, t, hm, hu⟩
      rcases List.mem_append.1 hm with a | a
      · exact .inl ⟨i, hi, t, a, hu⟩
      · exact .inr ⟨i, hi, t, a, hu⟩
    · rintro (⟨i, hi, t, hm, hu⟩ | ⟨i, hi, t, hm, hu⟩)
      · exact ⟨i, hi, t, List.mem_append_left _ hm, hu⟩
      · exact ⟨i, hi, t, List.mem_append_right _ hm, hu⟩
  refine ⟨t1, t2, t, e1, e2, e, hl, ?_, ?_, ?_⟩
  · intro r hr r1 hr1 r2 hr2 f1 f2 i hi
    exact pooled_minDepth (p1 r1 hr1 i (by rw [f1]; exact hi)) (p2 r2 hr2 i (by rw [f2]; exact hi)) (p r hr i hi)
  · intro r hr r1 hr1 f1 hn
    obtain ⟨i, hi, _⟩ := (l r.f).1 (List.mem_map_of_mem hr)
    have z : ts2.filter (fun t => decide (Uses t i)) = [] := by
      rw [List.filter_eq_nil_iff]
      intro t hm hu
      exact hn ((l2 _).2 ⟨i, hi, t, hm, of_decide_eq_true hu⟩)
    have h2' : IsMeanMinDepth (K := K) ts2 i .nan := ⟨[], by rw [z]; exact .nil, by simp [meanNat]⟩
    have hr1' := p1 r1 hr1 i (by rw [f1]; exact hi)
    have := pooled_minDepth hr1' h2' (p r hr i hi)
    rcases this with ⟨_, a, b⟩ | ⟨_, _, b⟩ | ⟨_, _, _, _, _, _, b, _⟩
    · rw [a, b]
    · exact b
    · cases b
  · intro r hr r2 hr2 f2 hn
    obtain ⟨i, hi, _⟩ := (l r.f).1 (List.mem_map_of_mem hr)
    have z : ts1.filter (fun t => decide (Uses t i)) = [] := by
      rw [List.filter_eq_nil_iff]
      intro t hm hu
      exact hn ((l1 _).2 ⟨i, hi, t, hm, of_decide_eq_true hu⟩)
    have h1' : IsMeanMinDepth (K := K) ts1 i .nan := ⟨[], by rw [z]; exact .nil, by simp [meanNat]⟩
    have := pooled_minDepth h1' (p2 r2 hr2 i (by rw [f2]; exact hi)) (p r hr i hi)
    rcases this with ⟨_, _, b⟩ | ⟨_, a, b⟩ | ⟨_, _, _, _, _, b, _⟩
    · exact b
    · rw [a, b]
    · cases b

/-- **C137**, between: a pair (or a feature) with a value in both forests has in the merged one a value between the two, a
pair with no value in either has none, and one with a value in only one keeps it. -/
theorem C137_between {n1 n2 : Nat} {v1 v2 v : Num K} (h : Pooled n1 n2 v1 v2 v) :
    (∀ x1 x2, v1 = .fin x1 → v2 = .fin x2 → ∃ x, v = .fin x ∧ min x1 x2 ≤ x ∧ x ≤ max x1 x2) ∧
    (v1 = .nan → v = v2) ∧ (v2 = .nan → v = v1) := by
  refine ⟨?_, ?_, ?_⟩
  · rintro x1 x2 rfl rfl
    have h' := h
    rcases h with ⟨_, h, _⟩ | ⟨_, h, _⟩ | ⟨_, _, _, _, x, _, _, e, _⟩
    · cases h
    · cases h
    · exact ⟨x, e, pooled_between (e ▸ h')⟩
  · rintro rfl
    rcases h with ⟨_, _, h⟩ | ⟨_, e, h⟩ | ⟨_, _, _, _, _, e, _⟩
    · exact h
    · rw [h, e]
    · cases e
  · rintro rfl
    rcases h with ⟨_, e, h⟩ | ⟨_, _, h⟩ | ⟨_, _, _, _, _, _, e, _⟩
    · rw [h, e]
    · exact h
    · cases e

end C137

section Cases

/-- the first tree of the example forest alone -/
def exForestA : Forest (List Nat) := ⟨[[97], [97, 98], [98]], [exTreeA]⟩

/-- the second one alone -/
def exForestB : Forest (List Nat) := ⟨[[97], [97, 98], [98]], [exTree2A]⟩

theorem exForestA_of : ForestOf exForestA [exTree] :=
  ⟨exForest_of.names, .cons ⟨exTree_stored, exTree_df⟩ .nil, fun t ht f hf => exForest_of.cols t (List.mem_cons.2 (.inl (List.mem_singleton.1 ht))) f hf⟩

theorem exForestB_of : ForestOf exForestB [exTree2] :=
  ⟨exForest_of.names, .cons ⟨exTree2_stored, rfl⟩ .nil, fun t ht f hf => exForest_of.cols t (List.mem_cons_of_mem _ ht) f hf⟩

/-- the hypotheses of C137 hold for the two-tree forest cut after its first tree -/
example := C137_pairs (exCmdEnv ℚ) sortsCmd_cmdSort exForestA_of exForestB_of (by simp) (by simp) (m := exForest) (by simp [exForest])
  rfl rfl rfl CmdMethod.new CmdMethod.new CmdMethod.new

example := C137_importance (exCmdEnv ℚ) sortsCmd_cmdSort (sortsBy_stableSort _ _) exForestA_of exForestB_of
  ⟨exTree, by simp, 0, uses_exTree.2 (by omega)⟩ ⟨exTree2, by simp, 1, 0, _, .here _, by simp [exTree2, LTree.Splits]⟩
  (m := exForest) (by simp [exForest]) rfl rfl rfl CmdMethod.new CmdMethod.new CmdMethod.new

/-- feature 1 has minimal depth 1 in the first tree and 0 in the second, 1/2 in the forest of both -/
example : ((CmdMethod.fit (exCmdEnv ℚ) exForestA CmdMethod.new).2.importance.map fun t => (t.filter fun r => decide (r.f = [97, 98])).map ImpRow.val) = some [.fin 1] ∧
    ((CmdMethod.fit (exCmdEnv ℚ) exForestB CmdMethod.new).2.importance.map fun t => (t.filter fun r => decide (r.f = [97, 98])).map ImpRow.val) = some [.fin 0] ∧
    ((CmdMethod.fit (exCmdEnv ℚ) exForest CmdMethod.new).2.importance.map fun t => (t.filter fun r => decide (r.f = [97, 98])).map ImpRow.val) = some [.fin (1 / 2)] := by
  decide +kernel

end Cases
end Artemis
