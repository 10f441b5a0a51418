import Verif.Spec.Trees
import Verif.Proofs.Basics
import Verif.Proofs.PDCalcObs
import Mathlib.Data.List.Perm.Basic
import Mathlib.Tactic.Linarith

/-!
# Lemmas about trees and the level order
-/

set_option linter.unusedSectionVars false
set_option linter.unusedVariables false
set_option linter.unusedSimpArgs false

namespace Artemis
open Spec

/-! ### Subtrees -/

theorem at_zero {t s : LTree} (h : At t 0 s) : s = t := by cases h; rfl

theorem at_leaf {i k : Nat} {s : LTree} (h : At (.leaf i) k s) : k = 0 ∧ s = .leaf i := by
  cases h; exact ⟨rfl, rfl⟩

theorem at_trans {t s w : LTree} {k m : Nat} (h : At t k s) (h' : At s m w) : At t (k + m) w := by
  induction h with
  | here t => simpa using h'
  | left _ ih => have := ih h'; rw [Nat.add_right_comm]; exact .left this
  | right _ ih => have := ih h'; rw [Nat.add_right_comm]; exact .right this

theorem id_mem_ids (t : LTree) : t.id ∈ t.ids := by cases t <;> simp [LTree.id, LTree.ids]

theorem at_mem_ids {t s : LTree} {k : Nat} (h : At t k s) : s.id ∈ t.ids := by
  induction h with
  | here t => exact id_mem_ids t
  | left _ ih => simp [LTree.ids, ih]
  | right _ ih => simp [LTree.ids, ih]

theorem exists_at_of_mem {t : LTree} {i : Nat} (h : i ∈ t.ids) : ∃ k s, At t k s ∧ s.id = i := by
  induction t with
  | leaf j => simp [LTree.ids] at h; exact ⟨0, _, .here _, h.symm⟩
  | node j f l r ihl ihr =>
    simp only [LTree.ids, List.mem_cons, List.mem_append] at h
    rcases h with rfl | h | h
    · exact ⟨0, _, .here _, rfl⟩
    · obtain ⟨k, s, h1, h2⟩ := ihl h; exact ⟨k + 1, s, .left h1, h2⟩
    · obtain ⟨k, s, h1, h2⟩ := ihr h; exact ⟨k + 1, s, .right h1, h2⟩

theorem at_ids_sub {t s : LTree} {k : Nat} (h : At t k s) : ∀ i ∈ s.ids, i ∈ t.ids := by
  intro i hi
  obtain ⟨m, w, h1, rfl⟩ := exists_at_of_mem hi
  exact at_mem_ids (at_trans h h1)

theorem at_unique {t s s' : LTree} {k k' : Nat} (nd : t.ids.Nodup) (h : At t k s) (h' : At t k' s')
    (e : s.id = s'.id) : k = k' ∧ s = s' := by
  induction h generalizing k' s' with
  | here t =>
    cases h' with
    | here => exact ⟨rfl, rfl⟩
    | left h' =>
      simp only [LTree.ids, List.nodup_cons] at nd
      exact absurd (List.mem_append_left _ (at_mem_ids h')) (by rw [← e]; exact nd.1)
    | right h' =>
      simp only [LTree.ids, List.nodup_cons] at nd
      exact absurd (List.mem_append_right _ (at_mem_ids h')) (by rw [← e]; exact nd.1)
  | left h ih =>
    simp only [LTree.ids, List.nodup_cons, List.nodup_append'] at nd
    cases h' with
    | here => exact absurd (List.mem_append_left _ (at_mem_ids h)) (by rw [e]; exact nd.1)
    | left h' => obtain ⟨rfl, rfl⟩ := ih nd.2.1 h' e; exact ⟨rfl, rfl⟩
    | right h' => exact absurd (e ▸ at_mem_ids h') (fun hm => nd.2.2.2 (at_mem_ids h) hm)
  | right h ih =>
    simp only [LTree.ids, List.nodup_cons, List.nodup_append'] at nd
    cases h' with
    | here => exact absurd (List.mem_append_right _ (at_mem_ids h)) (by rw [e]; exact nd.1)
    | left h' => exact absurd (e ▸ at_mem_ids h) (fun hm => nd.2.2.2 (at_mem_ids h') hm)
    | right h' => obtain ⟨rfl, rfl⟩ := ih nd.2.2.1 h' e; exact ⟨rfl, rfl⟩

theorem at_stores {A : SkTree} {t s : LTree} {k : Nat} (h : At t k s) (hs : t.Stores A) : s.Stores A := by
  induction h with
  | here => exact hs
  | left _ ih => exact ih hs.2.1
  | right _ ih => exact ih hs.2.2

/-- split variable as stored in the array -/
def featI : LTree → Int
  | .leaf _ => -2
  | .node _ f _ _ => f

theorem featI_eq {t : LTree} {f : Nat} : featI t = (f : Int) ↔ t.Splits f := by
  cases t with
  | leaf i => simp [featI, LTree.Splits]
  | node i g l r => simp [featI, LTree.Splits]

/-- children ids as stored in the array -/
def leftI : LTree → Int
  | .leaf _ => -1
  | .node _ _ l _ => l.id
def rightI : LTree → Int
  | .leaf _ => -1
  | .node _ _ _ r => r.id

theorem stores_get {A : SkTree} {t : LTree} (h : t.Stores A) : A[t.id]? = some ⟨leftI t, rightI t, featI t⟩ := by
  cases t with
  | leaf i => exact h
  | node i f l r => exact h.1

/-! ### Levels -/

def leftT : LTree → Option LTree
  | .leaf _ => none
  | .node _ _ l _ => some l
def rightT : LTree → Option LTree
  | .leaf _ => none
  | .node _ _ _ r => some r

/-- the next level, in the order of the code -/
def nextT (ts : List LTree) : List LTree := ts.filterMap leftT ++ ts.filterMap rightT

theorem nextT_perm (ts : List LTree) : (ts.map LTree.id ++ (nextT ts).flatMap LTree.ids).Perm (ts.flatMap LTree.ids) := by
  unfold nextT
  rw [List.flatMap_append]
  induction ts with
  | nil => simp
  | cons t ts ih =>
    cases t with
    | leaf i =>
      simp only [List.map_cons, List.filterMap_cons, leftT, rightT, List.flatMap_cons, LTree.ids, LTree.id,
        List.cons_append, List.nil_append]
      exact ih.cons _
    | node i f l r =>
      simp only [List.map_cons, List.filterMap_cons, leftT, rightT, List.flatMap_cons, LTree.ids, LTree.id,
        List.cons_append, List.append_assoc]
      refine List.Perm.cons _ ?_
      have e1 : (List.map LTree.id ts ++ (l.ids ++ (List.flatMap LTree.ids (List.filterMap leftT ts) ++
          (r.ids ++ List.flatMap LTree.ids (List.filterMap rightT ts))))).Perm
          (l.ids ++ (r.ids ++ (List.map LTree.id ts ++ (List.flatMap LTree.ids (List.filterMap leftT ts) ++
            List.flatMap LTree.ids (List.filterMap rightT ts))))) := by
        rw [List.perm_iff_count]
        intro a
        simp only [List.count_append]
        omega
      exact e1.trans ((ih.append_left r.ids).append_left l.ids)

theorem mem_nextT {ts : List LTree} {s : LTree} : s ∈ nextT ts ↔ ∃ t ∈ ts, At t 1 s := by
  unfold nextT
  simp only [List.mem_append, List.mem_filterMap]
  constructor
  · rintro (⟨t, ht, h⟩ | ⟨t, ht, h⟩)
    · cases t with
      | leaf i => cases h
      | node i f l r => cases h; exact ⟨_, ht, .left (.here _)⟩
    · cases t with
      | leaf i => cases h
      | node i f l r => cases h; exact ⟨_, ht, .right (.here _)⟩
  · rintro ⟨t, ht, h⟩
    cases h with
    | left h => rw [at_zero h]; exact Or.inl ⟨_, ht, rfl⟩
    | right h => rw [at_zero h]; exact Or.inr ⟨_, ht, rfl⟩

/-- the nodes below the trees `ts` with their depths, level by level -/
def levelOrder : Nat → Nat → List LTree → List (Nat × LTree)
  | 0, _, _ => []
  | n + 1, k, ts => ts.map (fun t => (k, t)) ++ levelOrder n (k + 1) (nextT ts)

/-- number of nodes -/
def sizeL (ts : List LTree) : Nat := (ts.flatMap LTree.ids).length

theorem sizeL_next (ts : List LTree) : sizeL (nextT ts) + ts.length = sizeL ts := by
  have := (nextT_perm ts).length_eq
  simp only [List.length_append, List.length_map] at this
  unfold sizeL
  omega

theorem sizeL_zero {ts : List LTree} (h : sizeL ts = 0) : ts = [] := by
  have := sizeL_next ts
  cases ts with
  | nil => rfl
  | cons => simp at this; omega

theorem at_succ {t s : LTree} {k : Nat} : At t (k + 1) s ↔ ∃ c, At t 1 c ∧ At c k s := by
  constructor
  · intro h
    cases h with
    | left h => exact ⟨_, .left (.here _), h⟩
    | right h => exact ⟨_, .right (.here _), h⟩
  · rintro ⟨c, h, h'⟩
    have := at_trans h h'
    rwa [Nat.add_comm] at this

theorem mem_levelOrder {n k : Nat} {ts : List LTree} (hn : sizeL ts ≤ n) {k' : Nat} {s : LTree} :
    (k', s) ∈ levelOrder n k ts ↔ ∃ t ∈ ts, ∃ j, k' = k + j ∧ At t j s := by
  induction n generalizing k ts with
  | zero =>
    have := sizeL_zero (Nat.le_zero.1 hn)
    subst this
    simp [levelOrder]
  | succ n ih =>
    by_cases hts : ts = []
    · subst hts
      have := (ih (k := k + 1) (ts := nextT []) (by simp [nextT, sizeL]))
      simp only [levelOrder, List.map_nil, List.nil_append, this]
      simp [nextT]
    have hpos : 0 < ts.length := List.length_pos_of_ne_nil hts
    have hn' : sizeL (nextT ts) ≤ n := by have := sizeL_next ts; omega
    simp only [levelOrder, List.mem_append, List.mem_map, ih hn']
    constructor
    · rintro (⟨t, ht, e⟩ | ⟨c, hc, j, rfl, hj⟩)
      · obtain ⟨rfl, rfl⟩ := Prod.mk.inj e; exact ⟨_, ht, 0, rfl, .here _⟩
      · obtain ⟨t, ht, h1⟩ := mem_nextT.1 hc
        exact ⟨t, ht, j + 1, by omega, at_succ.2 ⟨c, h1, hj⟩⟩
    · rintro ⟨t, ht, j, rfl, hj⟩
      cases j with
      | zero => rw [at_zero hj]; exact Or.inl ⟨t, ht, rfl⟩
      | succ j =>
        obtain ⟨c, h1, h2⟩ := at_succ.1 hj
        exact Or.inr ⟨c, mem_nextT.2 ⟨t, ht, h1⟩, j, by omega, h2⟩

theorem levelOrder_ids {n k : Nat} {ts : List LTree} (hn : sizeL ts ≤ n) :
    ((levelOrder n k ts).map (fun e => e.2.id)).Perm (ts.flatMap LTree.ids) := by
  induction n generalizing k ts with
  | zero => have := sizeL_zero (Nat.le_zero.1 hn); subst this; simp [levelOrder]
  | succ n ih =>
    by_cases hts : ts = []
    · subst hts
      have := (ih (k := k + 1) (ts := nextT []) (by simp [nextT, sizeL]))
      simpa [levelOrder, nextT] using this
    have hpos : 0 < ts.length := List.length_pos_of_ne_nil hts
    have hn' : sizeL (nextT ts) ≤ n := by have := sizeL_next ts; omega
    simp only [levelOrder, List.map_append, List.map_map, Function.comp_def]
    exact ((ih hn').append_left _).trans (nextT_perm ts)

theorem levelOrder_ge {n k : Nat} {ts : List LTree} : ∀ e ∈ levelOrder n k ts, k ≤ e.1 := by
  induction n generalizing k ts with
  | zero => simp [levelOrder]
  | succ n ih =>
    intro e he
    simp only [levelOrder, List.mem_append, List.mem_map] at he
    rcases he with ⟨t, _, rfl⟩ | he
    · exact Nat.le_refl _
    · have := ih e he; omega

theorem levelOrder_sorted (n k : Nat) (ts : List LTree) : (levelOrder n k ts).Pairwise (fun a b => a.1 ≤ b.1) := by
  induction n generalizing k ts with
  | zero => simp [levelOrder]
  | succ n ih =>
    simp only [levelOrder, List.pairwise_append]
    refine ⟨?_, ih _ _, ?_⟩
    · rw [List.pairwise_map]; exact List.pairwise_of_forall (fun _ _ => Nat.le_refl _)
    · intro a ha b hb
      obtain ⟨t, _, rfl⟩ := List.mem_map.1 ha
      have := levelOrder_ge b hb
      simp only
      omega

end Artemis
