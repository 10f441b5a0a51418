import Verif.Spec.SameForest
import Verif.Proofs.CmdForest

/-!
# Lemmas: `fit` of a forest whose nodes are numbered in any way
-/

set_option linter.unusedSectionVars false
set_option linter.unusedVariables false
set_option linter.unusedSimpArgs false

namespace Artemis
open Spec

theorem maxId_lt {rd r n : Nat} (depths : List Nat) (hr : r < n) : maxIdInSubtree rd r depths n < n := by
  unfold maxIdInSubtree
  split
  · rename_i m hm
    have := List.min?_mem hm
    rw [List.mem_filter, List.mem_range] at this
    omega
  · omega

theorem cmdRoot_returns {depths l2 : List Nat} (hl2 : ∀ j ∈ l2, j < depths.length) (acc : Option Int × Nat) {r : Nat}
    (hr : r < depths.length) : ∃ v o, cmdRoot depths l2 acc r = .ok (v, o) := by
  have hget : ∀ i, i < depths.length → arrGet depths i = .ok (depths.getD i 0) := by
    intro i hi
    unfold arrGet
    rw [List.getElem?_eq_getElem hi, List.getD_eq_getElem?_getD, List.getElem?_eq_getElem hi]; rfl
  unfold cmdRoot
  rw [hget r hr]
  simp only
  split
  · rename_i hpos
    have hm := mapM_arrGet (a := depths) (fun i => depths.getD i 0)
      (l := f2InSubtree r l2 (maxIdInSubtree (depths.getD r 0) r depths depths.length)) (by
        intro i hi
        have := hl2 i (List.mem_filter.1 hi).1
        rw [List.getD_eq_getElem?_getD, List.getElem?_eq_getElem this]; rfl)
    rw [hm]
    cases hmin : ((f2InSubtree r l2 (maxIdInSubtree (depths.getD r 0) r depths depths.length)).map (fun i => depths.getD i 0)).min? with
    | none =>
      rw [List.min?_eq_none_iff, List.map_eq_nil_iff] at hmin
      rw [hmin] at hpos
      exact absurd hpos (by simp)
    | some m => simp only [hmin]; exact ⟨_, _, rfl⟩
  · rw [hget _ (maxId_lt depths hr)]
    exact ⟨_, _, rfl⟩

theorem cmdRoots_returns {depths l2 : List Nat} (hl2 : ∀ j ∈ l2, j < depths.length) : ∀ (rs : List Nat) (acc : Option Int × Nat),
    (∀ r ∈ rs, r < depths.length) → ∃ v o, cmdRoots depths l2 rs acc = .ok (v, o)
  | [], acc, _ => ⟨acc.1, acc.2, rfl⟩
  | r :: rs, acc, h => by
    obtain ⟨v, o, e⟩ := cmdRoot_returns hl2 acc (h r (by simp))
    unfold cmdRoots
    rw [e]
    exact cmdRoots_returns hl2 rs (v, o) (fun r hr => h r (by simp [hr]))

theorem cmdPair_returns {A : SkTree} {t : LTree} {depths : List Nat} {d : Dict Int (List Nat)} (hT : TreeArray A t)
    (h : Traversed A t depths d) (f g : Nat) : ∃ v o, cmdPair d depths f g = .ok (v, o) := by
  have hlt : ∀ {g : Nat} {l : List Nat}, (∀ i, i ∈ l ↔ ∃ k s, At t k s ∧ s.Splits g ∧ s.id = i) → ∀ j ∈ l, j < depths.length := by
    intro g l hl j hj
    obtain ⟨k, s, a, b, rfl⟩ := (hl j).1 hj
    exact (List.getElem?_eq_some_iff.1 (h.depth k s a)).1
  by_cases hf : Uses t f
  · by_cases hg : Uses t g
    · obtain ⟨l1, a1, a2, a3, a4, a5⟩ := h.used f hf
      obtain ⟨l2, b1, b2, b3, b4, b5⟩ := h.used g hg
      obtain ⟨k, ss, c1, c2, c3⟩ := highestSplits_eq hT h a2 a4 a5
      unfold cmdPair
      simp only [a1, b1, c1]
      refine cmdRoots_returns (hlt b4) _ _ ?_
      intro r hr
      obtain ⟨s, hs, rfl⟩ := List.mem_map.1 hr
      exact (List.getElem?_eq_some_iff.1 (h.depth k s ((c3 s).1 hs).1)).1
    · unfold cmdPair
      rw [h.unused g hg]
      cases Dict.get? d (f : Int) <;> exact ⟨_, _, rfl⟩
  · unfold cmdPair
    rw [h.unused f hf]
    exact ⟨_, _, rfl⟩

theorem cmdOne_returns {A : SkTree} {t : LTree} (hT : TreeArray A t) (p : Nat) :
    ∃ rows ds, cmdOne p A = .ok (rows, ds) ∧ Traversed A t ds.1 ds.2 ∧ (∀ r ∈ rows, r.f1 < p ∧ r.f2 < p) ∧ rows.length = p * p := by
  obtain ⟨depths, d, hb, hd⟩ := bfs_traversed hT
  obtain ⟨rows, hr, _⟩ := mapM_exists_ok (f := fun q : Nat × Nat => (cmdPair d depths q.1 q.2).map
      (fun v => (⟨q.1, q.2, v.1, v.2⟩ : RawRow)))
      (l := (List.range p).flatMap (fun f1 => (List.range p).map (fun f2 => (f1, f2)))) (by
        intro q _
        obtain ⟨v, o, e⟩ := cmdPair_returns hT hd q.1 q.2
        exact ⟨_, by rw [e]; rfl⟩)
  have hf2 := mapM_eq_ok hr
  refine ⟨rows, (depths, d), ?_, hd, ?_, ?_⟩
  · unfold cmdOne
    rw [hb]
    simp only
    unfold cmdTree
    rw [hr]
    rfl
  · intro r hr'
    obtain ⟨i, hi⟩ := List.get_of_mem hr'
    rw [List.forall₂_iff_get] at hf2
    have hl : i.1 < ((List.range p).flatMap (fun f1 => (List.range p).map (fun f2 => (f1, f2)))).length := by rw [hf2.1]; exact i.2
    have := hf2.2 i.1 hl i.2
    set q := ((List.range p).flatMap (fun f1 => (List.range p).map (fun f2 => (f1, f2)))).get ⟨i.1, hl⟩ with hq
    have hqm : (q.1, q.2) ∈ (List.range p).flatMap (fun f1 => (List.range p).map (fun f2 => (f1, f2))) := List.get_mem _ _
    rw [mem_pairs] at hqm
    obtain ⟨v, o, e⟩ := cmdPair_returns hT hd q.1 q.2
    rw [e] at this
    have e' := Except.ok.inj this
    rw [← hi, ← e']
    exact hqm
  · rw [← hf2.length_eq]
    simp [List.length_flatMap, List.map_const']

theorem cmdForest_returns {trees : List SkTree} {ts : List LTree} (h : List.Forall₂ TreeArray trees ts) (hne : ts ≠ []) {p : Nat} (hp : 0 < p) :
    ∃ raw dss, cmdForest trees p = .ok (raw, dss) ∧ raw ≠ [] ∧
      List.Forall₂ (fun t (o : DepthSplit) => ∃ A, Traversed A t o.1 o.2) ts dss ∧ ∀ r ∈ raw, r.f1 < p ∧ r.f2 < p := by
  have key : ∃ out : List (List RawRow × DepthSplit), trees.mapM (cmdOne p) = .ok out ∧
      List.Forall₂ (fun t o => (∃ A, Traversed A t o.2.1 o.2.2) ∧ o.1 ≠ []) ts out ∧
      (∀ r ∈ (out.map Prod.fst).flatten, r.f1 < p ∧ r.f2 < p) := by
    clear hne
    induction h with
    | nil => exact ⟨[], rfl, .nil, by simp⟩
    | @cons A t As ts hA hrest ih =>
      obtain ⟨out, h1, h2, h3⟩ := ih
      obtain ⟨rows, ds, e1, e2, e3, e4⟩ := cmdOne_returns hA p
      refine ⟨(rows, ds) :: out, ?_, .cons ⟨⟨A, e2⟩, ?_⟩ h2, ?_⟩
      · rw [mapM_cons_except, e1, h1]
      · rintro rfl
        simp at e4
        omega
      · intro r hr
        rw [List.map_cons, List.flatten_cons, List.mem_append] at hr
        rcases hr with hr | hr
        · exact e3 r hr
        · exact h3 r hr
  obtain ⟨out, h1, h2, h3⟩ := key
  cases h2 with
  | nil => exact absurd rfl hne
  | @cons t x ts xs hx hxs =>
    refine ⟨_, _, by unfold cmdForest; rw [h1], ?_, ?_, h3⟩
    · intro e
      rw [List.map_cons, List.flatten_cons, List.append_eq_nil_iff] at e
      exact hx.2 e.1
    · rw [List.forall₂_map_right_iff]
      exact .cons hx.1 (hxs.imp (fun _ _ h => h.1))

section Agg
variable {F K : Type} [DecidableEq F] [Field K] [LinearOrder K]

theorem summarise_returns {sort : List (CmdRow Nat K) → List (CmdRow Nat K)} (hsort : SortsCmd sort) {columns : List F} {raw : List RawRow}
    (hne : raw ≠ []) (h1 : ∀ r ∈ raw, r.f1 < columns.length ∧ r.f2 < columns.length) : ∃ rows, summarise sort columns raw = .ok rows := by
  unfold summarise
  rw [if_neg (by simpa using hne)]
  obtain ⟨rows, hr, _⟩ := mapM_exists_ok (f := nameRow (K := K) columns)
    (l := sort ((npUnique (raw.map (fun r => toLex (r.f1, r.f2)))).map (fun q => cmdAgg raw (ofLex q)))) (by
      intro r hr
      have hr' := (hsort _).1.mem_iff.1 hr
      obtain ⟨q, hq, rfl⟩ := List.mem_map.1 hr'
      rw [mem_npUnique, List.mem_map] at hq
      obtain ⟨r0, hr0, rfl⟩ := hq
      obtain ⟨e1, e2⟩ := h1 r0 hr0
      have e3 := List.getElem?_eq_getElem e1
      have e4 := List.getElem?_eq_getElem e2
      exact ⟨_, by simp only [nameRow, cmdAgg, ofLex_toLex, e3, e4]; rfl⟩)
  rw [hr]
  exact ⟨_, rfl⟩

end Agg
end Artemis
