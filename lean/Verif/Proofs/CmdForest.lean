import Verif.Proofs.CmdLemmas
import Verif.Proofs.PDFit
import Mathlib.Data.List.ProdSigma

/-!
# Conditional minimal depth of a forest
-/

set_option linter.unusedSectionVars false
set_option linter.unusedVariables false
set_option linter.unusedSimpArgs false

namespace Artemis
open Spec

/-! ### rows of one tree -/

/-- the pairs of columns -/
theorem pairs_nodup (p : Nat) : ((List.range p).flatMap (fun f1 => (List.range p).map (fun f2 => (f1, f2)))).Nodup := by
  have := (List.nodup_range (n := p)).product (List.nodup_range (n := p))
  exact this

theorem mem_pairs {p a b : Nat} : (a, b) ∈ (List.range p).flatMap (fun f1 => (List.range p).map (fun f2 => (f1, f2))) ↔
    a < p ∧ b < p := by
  simp

/-- what is expected of the row of a tree -/
def RowSpec (t : LTree) (a b : Nat) (v : Option Int) (o : Nat) : Prop :=
  (Uses t a ∧ Uses t b → ∃ x : Nat, v = some (x : Int) ∧ CondDepth t a b x) ∧ (¬ (Uses t a ∧ Uses t b) → v = none) ∧
  o ≤ 1 ∧ (o = 1 ↔ OccursBelow t a b)

theorem occurs_uses {t : LTree} {a b : Nat} (h : OccursBelow t a b) : Uses t a ∧ Uses t b := by
  obtain ⟨k, s, m, ⟨h1, h2, _⟩, _, ⟨w, h3, h4⟩, _⟩ := h
  exact ⟨⟨k, s, h1, h2⟩, ⟨_, w, at_trans h1 h3, h4⟩⟩

theorem filter_single {α β κ : Type} [DecidableEq κ] {R : α → β → Prop} {ka : α → κ} {kb : β → κ} {l : List α} {r : List β}
    (h : List.Forall₂ R l r) (hk : ∀ a b, R a b → kb b = ka a) (hnd : (l.map ka).Nodup) {a : α} (ha : a ∈ l) :
    ∃ b, R a b ∧ r.filter (fun b => decide (kb b = ka a)) = [b] := by
  induction h with
  | nil => cases ha
  | @cons x y xs ys hxy hrest ih =>
    rw [List.map_cons, List.nodup_cons] at hnd
    rcases List.mem_cons.1 ha with rfl | ha
    · refine ⟨y, hxy, ?_⟩
      rw [List.filter_cons, if_pos (by rw [hk _ _ hxy]; simp)]
      congr 1
      rw [List.filter_eq_nil_iff]
      intro b hb hc
      have hc' := of_decide_eq_true hc
      apply hnd.1
      have : ∃ a' ∈ xs, R a' b := by
        clear ih hnd
        induction hrest with
        | nil => cases hb
        | @cons x' y' xs' ys' h1 h2 ih' =>
          rcases List.mem_cons.1 hb with rfl | hb
          · exact ⟨x', by simp, h1⟩
          · obtain ⟨a', e1, e2⟩ := ih' (by
              rcases List.mem_cons.1 ha with h | h
              · simp [h]
              · simp) hb
            exact ⟨a', by simp [e1], e2⟩
      obtain ⟨a', e1, e2⟩ := this
      rw [← hc', hk _ _ e2]
      exact List.mem_map_of_mem e1
    · obtain ⟨b, e1, e2⟩ := ih hnd.2 ha
      refine ⟨b, e1, ?_⟩
      rw [List.filter_cons, if_neg, e2]
      rw [hk _ _ hxy]
      intro hc
      exact hnd.1 (by rw [of_decide_eq_true hc]; exact List.mem_map_of_mem ha)

theorem cmdOne_ok {A : SkTree} {t : LTree} (hT : TreeArray A t) (hdf : DepthFirst t) (p : Nat) :
    ∃ rows ds, cmdOne p A = .ok (rows, ds) ∧ Traversed A t ds.1 ds.2 ∧ (∀ r ∈ rows, r.f1 < p ∧ r.f2 < p) ∧
      ∀ a b, a < p → b < p → ∃ v o, rows.filter (fun r => decide ((r.f1, r.f2) = (a, b))) = [⟨a, b, v, o⟩] ∧
        RowSpec t a b v o := by
  obtain ⟨depths, d, hb, hd⟩ := bfs_traversed hT
  have hrow : ∀ q : Nat × Nat, ∃ v o, cmdPair d depths q.1 q.2 = .ok (v, o) ∧ RowSpec t q.1 q.2 v o := by
    rintro ⟨f, g⟩
    obtain ⟨h1, h2⟩ := cmdPair_eq hT hd hdf f g
    by_cases hu : Uses t f ∧ Uses t g
    · obtain ⟨x, o, e1, e2, e3, e4⟩ := h1 hu.1 hu.2
      exact ⟨_, o, e1, fun _ => ⟨x, rfl, e2⟩, fun hn => absurd hu hn, e3, e4⟩
    · refine ⟨_, _, h2 hu, fun hn => absurd hn hu, fun _ => rfl, by simp, ?_⟩
      constructor
      · intro h; simp at h
      · intro h; exact absurd (occurs_uses h) hu
  obtain ⟨rows, hr, _⟩ := mapM_exists_ok (f := fun q : Nat × Nat => (cmdPair d depths q.1 q.2).map
      (fun v => (⟨q.1, q.2, v.1, v.2⟩ : RawRow)))
      (l := (List.range p).flatMap (fun f1 => (List.range p).map (fun f2 => (f1, f2)))) (by
        intro q _
        obtain ⟨v, o, e, _⟩ := hrow q
        exact ⟨_, by rw [e]; rfl⟩)
  have hf2 := mapM_eq_ok hr
  have hf3 : List.Forall₂ (fun (q : Nat × Nat) (r : RawRow) => q ∈ (List.range p).flatMap (fun f1 => (List.range p).map (fun f2 => (f1, f2))) ∧ r.f1 = q.1 ∧ r.f2 = q.2 ∧ RowSpec t q.1 q.2 r.value r.occur)
      ((List.range p).flatMap (fun f1 => (List.range p).map (fun f2 => (f1, f2)))) rows := by
    rw [List.forall₂_iff_get] at hf2 ⊢
    refine ⟨hf2.1, fun i h1 h2 => ⟨List.get_mem _ _, ?_⟩⟩
    have := hf2.2 i h1 h2
    obtain ⟨v, o, e, hs⟩ := hrow (((List.range p).flatMap (fun f1 => (List.range p).map (fun f2 => (f1, f2)))).get ⟨i, h1⟩)
    rw [e] at this
    simp only [Except.map, Except.ok.injEq] at this
    rw [← this]
    exact ⟨rfl, rfl, hs⟩
  refine ⟨rows, (depths, d), ?_, hd, ?_, ?_⟩
  · unfold cmdOne
    rw [hb]
    simp only
    unfold cmdTree
    rw [hr]
    rfl
  · intro r hr'
    obtain ⟨q, h1, h2, h3, h4, _⟩ : ∃ q : Nat × Nat, q ∈ ((List.range p).flatMap (fun f1 => (List.range p).map (fun f2 => (f1, f2)))) ∧
        q ∈ ((List.range p).flatMap (fun f1 => (List.range p).map (fun f2 => (f1, f2)))) ∧ r.f1 = q.1 ∧ r.f2 = q.2 ∧ True := by
      obtain ⟨i, hi⟩ := List.get_of_mem hr'
      rw [List.forall₂_iff_get] at hf3
      have := hf3.2 i.1 (by rw [hf3.1]; exact i.2) i.2
      refine ⟨_, this.1, this.1, ?_, ?_, trivial⟩
      · rw [← hi]; exact this.2.1
      · rw [← hi]; exact this.2.2.1
    obtain ⟨q1, q2⟩ := q
    rw [mem_pairs] at h1
    simp only at h3 h4
    omega
  · intro a b ha hb'
    obtain ⟨r, ⟨_, h1, h2, h3⟩, h4⟩ := filter_single (ka := id) (kb := fun r : RawRow => (r.f1, r.f2)) hf3
      (by rintro ⟨x, y⟩ r ⟨_, e1, e2, _⟩; simp only at e1 e2; rw [e1, e2]; rfl)
      (by rw [List.map_id]; exact pairs_nodup p) (mem_pairs.2 ⟨ha, hb'⟩)
    refine ⟨r.value, r.occur, ?_, h3⟩
    simp only [id] at h4
    rw [h4]
    simp only at h1 h2
    rw [← h1, ← h2]

/-! ### the rows of the forest -/

theorem forest_rows {trees : List SkTree} {ts : List LTree}
    (h : List.Forall₂ (fun A t => TreeArray A t ∧ DepthFirst t) trees ts) (p : Nat) :
    ∃ out : List (List RawRow × DepthSplit), trees.mapM (cmdOne p) = .ok out ∧
      List.Forall₂ (fun t o => ∃ A, Traversed A t o.2.1 o.2.2) ts out ∧
      (∀ r ∈ (out.map Prod.fst).flatten, r.f1 < p ∧ r.f2 < p) ∧
      ∀ a b, a < p → b < p → List.Forall₂ (fun t (r : RawRow) => r.f1 = a ∧ r.f2 = b ∧ RowSpec t a b r.value r.occur) ts
        ((out.map Prod.fst).flatten.filter (fun r => decide ((r.f1, r.f2) = (a, b)))) := by
  induction h with
  | nil => exact ⟨[], rfl, .nil, by simp, fun a b _ _ => .nil⟩
  | @cons A t As ts hA hrest ih =>
    obtain ⟨out, h1, h2, h3, h4⟩ := ih
    obtain ⟨rows, ds, e1, e2, e3, e4⟩ := cmdOne_ok hA.1 hA.2 p
    refine ⟨(rows, ds) :: out, ?_, .cons ⟨A, e2⟩ h2, ?_, ?_⟩
    · rw [mapM_cons_except, e1, h1]
    · intro r hr
      rw [List.map_cons, List.flatten_cons, List.mem_append] at hr
      rcases hr with hr | hr
      · exact e3 r hr
      · exact h3 r hr
    · intro a b ha hb
      obtain ⟨v, o, e5, e6⟩ := e4 a b ha hb
      rw [List.map_cons, List.flatten_cons, List.filter_append, e5]
      exact .cons ⟨rfl, rfl, e6⟩ (h4 a b ha hb)

theorem cmdForest_ok {trees : List SkTree} {ts : List LTree}
    (h : List.Forall₂ (fun A t => TreeArray A t ∧ DepthFirst t) trees ts) (hne : ts ≠ []) (p : Nat) :
    ∃ raw dss, cmdForest trees p = .ok (raw, dss) ∧
      List.Forall₂ (fun t (o : DepthSplit) => ∃ A, Traversed A t o.1 o.2) ts dss ∧
      (∀ r ∈ raw, r.f1 < p ∧ r.f2 < p) ∧
      ∀ a b, a < p → b < p → List.Forall₂ (fun t (r : RawRow) => r.f1 = a ∧ r.f2 = b ∧ RowSpec t a b r.value r.occur) ts
        (raw.filter (fun r => decide ((r.f1, r.f2) = (a, b)))) := by
  obtain ⟨out, h1, h2, h3, h4⟩ := forest_rows h p
  have hout : out ≠ [] := by
    rintro rfl
    cases h2
    exact hne rfl
  obtain ⟨x, xs, rfl⟩ := List.exists_cons_of_ne_nil hout
  refine ⟨_, _, by unfold cmdForest; rw [h1], ?_, h3, h4⟩
  rw [List.forall₂_map_right_iff]
  exact h2

section Agg
variable {F K : Type} [DecidableEq F] [Field K] [LinearOrder K]

open Classical in
/-- the values of a pair in the trees that use both columns -/
theorem values_nat {ts : List LTree} {rows : List RawRow} {a b : Nat}
    (h : List.Forall₂ (fun t (r : RawRow) => r.f1 = a ∧ r.f2 = b ∧ RowSpec t a b r.value r.occur) ts rows) :
    ∃ xs : List Nat, List.Forall₂ (fun t x => CondDepth t a b x) (ts.filter (fun t => decide (Uses t a ∧ Uses t b))) xs ∧
      (rows.map RawRow.value).filterMap id = xs.map (fun (x : Nat) => (x : Int)) := by
  induction h with
  | nil => exact ⟨[], .nil, rfl⟩
  | @cons t r ts rs hr _ ih =>
    obtain ⟨xs, e1, e2⟩ := ih
    by_cases hu : Uses t a ∧ Uses t b
    · obtain ⟨x, hx, hc⟩ := hr.2.2.1 hu
      refine ⟨x :: xs, ?_, ?_⟩
      · rw [List.filter_cons, if_pos (by simpa using hu)]
        exact .cons hc e1
      · rw [List.map_cons, hx, List.filterMap_cons]
        simp only [id, List.map_cons]
        rw [← e2]
        rfl
    · refine ⟨xs, ?_, ?_⟩
      · rw [List.filter_cons, if_neg (by simpa using hu)]; exact e1
      · rw [List.map_cons, hr.2.2.2.1 hu, List.filterMap_cons]
        exact e2

theorem values_spec {ts : List LTree} {rows : List RawRow} {a b : Nat}
    (h : List.Forall₂ (fun t (r : RawRow) => r.f1 = a ∧ r.f2 = b ∧ RowSpec t a b r.value r.occur) ts rows) :
    IsMeanCondDepth ts a b (meanSome (rows.map RawRow.value) : Num K) ∧
      (rows.map RawRow.occur).sum = occurrences ts a b := by
  classical
  have key := values_nat h
  constructor
  · obtain ⟨xs, e1, e2⟩ := key
    refine ⟨xs, ?_, ?_⟩
    · convert e1
    · unfold meanSome meanNat
      simp only [e2]
      cases xs with
      | nil => simp
      | cons x xs => simp [Function.comp_def]
  · clear key
    unfold occurrences
    induction h with
    | nil => rfl
    | @cons t r ts rs hr _ ih =>
      rw [List.map_cons, List.sum_cons, List.countP_cons, ih]
      by_cases ho : OccursBelow t a b
      · rw [if_pos (by simpa using ho), (hr.2.2.2.2.2).2 ho]; omega
      · rw [if_neg (by simpa using ho)]
        have h1 := hr.2.2.2.2.1
        have h2 : r.occur ≠ 1 := fun e => ho ((hr.2.2.2.2.2).1 e)
        omega

/-! ### the summary -/

theorem npUnique_pairs {raw : List RawRow} {p : Nat} (h1 : ∀ r ∈ raw, r.f1 < p ∧ r.f2 < p)
    (h2 : ∀ a b, a < p → b < p → ∃ r ∈ raw, r.f1 = a ∧ r.f2 = b) :
    ((npUnique (raw.map (fun r => toLex (r.f1, r.f2)))).map ofLex).Perm
      ((List.range p).flatMap (fun f1 => (List.range p).map (fun f2 => (f1, f2)))) := by
  apply (List.perm_ext_iff_of_nodup _ (pairs_nodup p)).2
  · rintro ⟨a, b⟩
    rw [mem_pairs]
    constructor
    · intro h
      obtain ⟨q, hq, e⟩ := List.mem_map.1 h
      rw [mem_npUnique, List.mem_map] at hq
      obtain ⟨r, hr, e'⟩ := hq
      rw [← e'] at e
      obtain ⟨e1, e2⟩ := Prod.mk.inj e
      rw [← e1, ← e2]
      exact h1 r hr
    · rintro ⟨ha, hb⟩
      obtain ⟨r, hr, e1, e2⟩ := h2 a b ha hb
      refine List.mem_map.2 ⟨toLex (a, b), ?_, rfl⟩
      rw [mem_npUnique, List.mem_map]
      exact ⟨r, hr, by rw [e1, e2]⟩
  · exact (nodup_npUnique _).map ofLex.injective

theorem filter_forall₂ {α β : Type} {R : α → β → Prop} {l : List α} {r : List β} (h : List.Forall₂ R l r) (p : α → Bool) (q : β → Bool)
    (hpq : ∀ a b, R a b → p a = q b) : List.Forall₂ R (l.filter p) (r.filter q) := by
  induction h with
  | nil => exact .nil
  | cons h _ ih =>
    rw [List.filter_cons, List.filter_cons, hpq _ _ h]
    split
    · exact .cons h ih
    · exact ih

theorem pairwise_forall₂ {α β : Type} {R : α → β → Prop} {S : α → α → Prop} {T : β → β → Prop} {l : List α} {r : List β}
    (h : List.Forall₂ R l r) (hp : l.Pairwise S) (hST : ∀ a a' b b', R a b → R a' b' → S a a' → T b b') : r.Pairwise T := by
  induction h with
  | nil => exact .nil
  | @cons a b l r h hrest ih =>
    rw [List.pairwise_cons] at hp ⊢
    refine ⟨?_, ih hp.2⟩
    intro b' hb'
    obtain ⟨i, hi⟩ := List.get_of_mem hb'
    rw [List.forall₂_iff_get] at hrest
    have hl : i.1 < l.length := by rw [hrest.1]; exact i.2
    have := hrest.2 i.1 hl i.2
    rw [← hi]
    exact hST _ _ _ _ h this (hp.1 _ (List.get_mem _ _))

/-- What the summary consists of, whatever order `Q` the rows are brought into. -/
theorem summarise_gen {Q : Num K → Nat → Num K → Nat → Prop} {sort : List (CmdRow Nat K) → List (CmdRow Nat K)}
    (hsort : ∀ l, (sort l).Perm l ∧ (sort l).Pairwise (fun r s => Q r.val r.occ s.val s.occ)) {columns : List F}
    (hnd : columns.Nodup) {ts : List LTree} (hne : ts ≠ []) {raw : List RawRow} (hp : columns ≠ [])
    (h1 : ∀ r ∈ raw, r.f1 < columns.length ∧ r.f2 < columns.length)
    (h2 : ∀ a b, a < columns.length → b < columns.length →
      List.Forall₂ (fun t (r : RawRow) => r.f1 = a ∧ r.f2 = b ∧ RowSpec t a b r.value r.occur) ts
        (raw.filter (fun r => decide ((r.f1, r.f2) = (a, b))))) :
    ∃ rows, summarise sort columns raw = .ok rows ∧
      rows.length = columns.length * columns.length - columns.length ∧
      (∀ r ∈ rows, r.root ∈ columns ∧ r.var ∈ columns ∧ r.root ≠ r.var) ∧
      (∀ a b f g, columns[a]? = some f → columns[b]? = some g → f ≠ g → ∃ r,
        rows.filter (fun r => decide (r.root = f ∧ r.var = g)) = [r] ∧ IsMeanCondDepth ts a b r.val ∧
          r.occ = occurrences ts a b) ∧
      rows.Pairwise (fun r s => Q r.val r.occ s.val s.occ) := by
  have hex : ∀ a b, a < columns.length → b < columns.length → ∃ r ∈ raw, r.f1 = a ∧ r.f2 = b := by
    intro a b ha hb
    have := h2 a b ha hb
    have hl : 0 < (raw.filter (fun r => decide ((r.f1, r.f2) = (a, b)))).length := by
      rw [← this.length_eq]; exact List.length_pos_of_ne_nil hne
    obtain ⟨r, hr⟩ := List.exists_mem_of_length_pos hl
    rw [List.mem_filter] at hr
    have := of_decide_eq_true hr.2
    exact ⟨r, hr.1, (Prod.mk.inj this).1, (Prod.mk.inj this).2⟩
  have hperm := npUnique_pairs h1 hex
  set p := columns.length with hpdef
  set P := (List.range p).flatMap (fun f1 => (List.range p).map (fun f2 => (f1, f2))) with hP
  -- the aggregated table
  set agg : List (CmdRow Nat K) := (npUnique (raw.map (fun r => toLex (r.f1, r.f2)))).map (fun q => cmdAgg raw (ofLex q)) with hagg
  have haggP : agg.Perm (P.map (cmdAgg raw)) := by
    have : agg = ((npUnique (raw.map (fun r => toLex (r.f1, r.f2)))).map ofLex).map (cmdAgg raw) := by
      rw [List.map_map]; rfl
    rw [this]
    exact hperm.map _
  have hsp := hsort agg
  have hST : (sort agg).Perm (P.map (cmdAgg raw)) := hsp.1.trans haggP
  -- names
  have hlt : ∀ r ∈ sort agg, r.root < p ∧ r.var < p ∧ IsMeanCondDepth ts r.root r.var r.val ∧ r.occ = occurrences ts r.root r.var := by
    intro r hr
    obtain ⟨⟨a, b⟩, hq, rfl⟩ := List.mem_map.1 (hST.mem_iff.1 hr)
    have hq' := mem_pairs.1 hq
    refine ⟨hq'.1, hq'.2, ?_⟩
    have := values_spec (K := K) (h2 a b hq'.1 hq'.2)
    exact this
  let nm : CmdRow Nat K → CmdRow F K := fun r =>
    match columns[r.root]?, columns[r.var]? with
    | some a, some b => ⟨a, b, r.val, r.occ⟩
    | _, _ => ⟨columns.head hp, columns.head hp, r.val, r.occ⟩
  have hnm : ∀ r ∈ sort agg, nameRow columns r = .ok (nm r) ∧ columns[r.root]? = some (nm r).root ∧
      columns[r.var]? = some (nm r).var ∧ (nm r).val = r.val ∧ (nm r).occ = r.occ := by
    intro r hr
    obtain ⟨e1, e2, _⟩ := hlt r hr
    have e3 := List.getElem?_eq_getElem e1
    have e4 := List.getElem?_eq_getElem e2
    simp only [nm, nameRow, e3, e4]
    simp
  have hmap : (sort agg).mapM (nameRow columns) = .ok ((sort agg).map nm) := mapM_ok (fun r hr => (hnm r hr).1)
  have hraw : raw.isEmpty = false := by
    have hp0 : 0 < p := by rw [hpdef]; exact List.length_pos_of_ne_nil hp
    obtain ⟨r, hr, _⟩ := hex 0 0 hp0 hp0
    cases raw with
    | nil => cases hr
    | cons _ _ => rfl
  have hinj : ∀ {i j : Nat} {f : F}, columns[i]? = some f → columns[j]? = some f → i = j := by
    intro i j f hi hj
    obtain ⟨hi1, hi2⟩ := List.getElem?_eq_some_iff.1 hi
    obtain ⟨hj1, hj2⟩ := List.getElem?_eq_some_iff.1 hj
    exact (List.Nodup.getElem_inj_iff hnd).1 (hi2.trans hj2.symm)
  have hneq : ∀ r ∈ sort agg, ((nm r).var = (nm r).root ↔ r.var = r.root) := by
    intro r hr
    obtain ⟨_, e1, e2, _⟩ := hnm r hr
    constructor
    · intro e; exact hinj e2 (by rw [e]; exact e1)
    · intro e; rw [e, e1] at e2; exact (Option.some.inj e2).symm
  have hfil : ((sort agg).map nm).filter (fun r => !decide (r.var = r.root)) =
      ((sort agg).filter (fun r => !decide (r.var = r.root))).map nm := by
    rw [List.filter_map]
    congr 1
    apply List.filter_congr
    intro r hr
    simp only [Function.comp, hneq r hr]
  refine ⟨((sort agg).filter (fun r => !decide (r.var = r.root))).map nm, ?_, ?_, ?_, ?_, ?_⟩
  · unfold summarise
    rw [hraw]
    simp only [Bool.false_eq_true, if_false]
    rw [← hagg, hmap]
    simp only
    rw [hfil]
  · rw [List.length_map, (hST.filter _).length_eq, List.filter_map, List.length_map]
    have : (P.filter ((fun r : CmdRow Nat K => !decide (r.var = r.root)) ∘ cmdAgg raw)).length = p * p - p := by
      have hc : P.filter ((fun r : CmdRow Nat K => !decide (r.var = r.root)) ∘ cmdAgg raw) = P.filter (fun q => !decide (q.2 = q.1)) := rfl
      rw [hc, hP]
      have hlen : P.length = p * p := by rw [hP]; simp [List.length_flatMap]
      have hdiag : (P.filter (fun q => decide (q.2 = q.1))).length = p := by
        have : (P.filter (fun q => decide (q.2 = q.1))).Perm ((List.range p).map (fun a => (a, a))) := by
          apply (List.perm_ext_iff_of_nodup ((pairs_nodup p).filter _) _).2
          · rintro ⟨a, b⟩
            rw [List.mem_filter, mem_pairs]
            simp only [decide_eq_true_eq, List.mem_map, List.mem_range, Prod.mk.injEq]
            constructor
            · rintro ⟨⟨h1, h2⟩, rfl⟩; exact ⟨_, h2, rfl, rfl⟩
            · rintro ⟨c, h1, rfl, rfl⟩; exact ⟨⟨h1, h1⟩, rfl⟩
          · exact List.nodup_range.map (fun a b h => (Prod.mk.inj h).1)
        rw [this.length_eq]; simp
      have := List.length_eq_length_filter_add (l := P) (fun q : Nat × Nat => decide (q.2 = q.1))
      rw [hdiag, hlen] at this
      rw [hP] at this
      omega
    exact this
  · intro r hr
    obtain ⟨q, hq, rfl⟩ := List.mem_map.1 hr
    rw [List.mem_filter] at hq
    obtain ⟨_, e1, e2, _⟩ := hnm q hq.1
    refine ⟨List.mem_of_getElem? e1, List.mem_of_getElem? e2, ?_⟩
    intro e
    have := (hneq q hq.1).1 e.symm
    simp [this] at hq
  · intro a b f g ha hb hfg
    have ha' : a < p := (List.getElem?_eq_some_iff.1 ha).1
    have hb' : b < p := (List.getElem?_eq_some_iff.1 hb).1
    have hab : a ≠ b := by rintro rfl; rw [ha] at hb; exact hfg (Option.some.inj hb)
    have hone : ((sort agg).filter (fun r => decide (r.root = a ∧ r.var = b))).length = 1 := by
      rw [(hST.filter _).length_eq, List.filter_map, List.length_map]
      have hc : P.filter ((fun r : CmdRow Nat K => decide (r.root = a ∧ r.var = b)) ∘ cmdAgg raw) = P.filter (fun q => decide (q.1 = a ∧ q.2 = b)) := rfl
      rw [hc, ← List.countP_eq_length_filter]
      have : P.countP (fun q => decide (q.1 = a ∧ q.2 = b)) = P.count (a, b) := by
        unfold List.count
        apply List.countP_congr
        rintro ⟨x, y⟩ _
        simp
      rw [this, List.count_eq_one_of_mem (pairs_nodup p) (mem_pairs.2 ⟨ha', hb'⟩)]
    obtain ⟨r, hr⟩ := List.length_eq_one_iff.1 hone
    have hrm : r ∈ (sort agg).filter (fun r => decide (r.root = a ∧ r.var = b)) := by rw [hr]; simp
    rw [List.mem_filter] at hrm
    simp only [decide_eq_true_eq] at hrm
    obtain ⟨_, e1, e2, e3, e4⟩ := hnm r hrm.1
    obtain ⟨_, _, e5, e6⟩ := hlt r hrm.1
    rw [hrm.2.1, hrm.2.2] at e5 e6
    refine ⟨nm r, ?_, by rw [e3]; exact e5, by rw [e4]; exact e6⟩
    rw [List.filter_map, List.filter_filter]
    have : (sort agg).filter (fun r => ((fun r : CmdRow F K => decide (r.root = f ∧ r.var = g)) ∘ nm) r && !decide (r.var = r.root)) =
        (sort agg).filter (fun r => decide (r.root = a ∧ r.var = b)) := by
      apply List.filter_congr
      intro q hq
      obtain ⟨_, q1, q2, _⟩ := hnm q hq
      have i1 : (nm q).root = f ↔ q.root = a := by
        constructor
        · intro e; exact hinj (by rw [← e]; exact q1) ha
        · intro e; rw [e, ha] at q1; exact (Option.some.inj q1).symm
      have i2 : (nm q).var = g ↔ q.var = b := by
        constructor
        · intro e; exact hinj (by rw [← e]; exact q2) hb
        · intro e; rw [e, hb] at q2; exact (Option.some.inj q2).symm
      simp only [Function.comp, i1, i2]
      by_cases hq' : q.root = a ∧ q.var = b
      · simp [hq', hab.symm]
      · simp [hq']
    rw [this, hr]
    rfl
  · rw [List.pairwise_map]
    refine List.Pairwise.imp_of_mem ?_ (hsp.2.filter _)
    intro r s hr hs h
    obtain ⟨_, _, _, e3, e4⟩ := hnm r (List.mem_filter.1 hr).1
    obtain ⟨_, _, _, e3', e4'⟩ := hnm s (List.mem_filter.1 hs).1
    rw [e3, e4, e3', e4']
    exact h

/-- What the summary consists of. -/
theorem summarise_ok {sort : List (CmdRow Nat K) → List (CmdRow Nat K)} (hsort : SortsCmd sort) {columns : List F}
    (hnd : columns.Nodup) {ts : List LTree} (hne : ts ≠ []) {raw : List RawRow} (hp : columns ≠ [])
    (h1 : ∀ r ∈ raw, r.f1 < columns.length ∧ r.f2 < columns.length)
    (h2 : ∀ a b, a < columns.length → b < columns.length →
      List.Forall₂ (fun t (r : RawRow) => r.f1 = a ∧ r.f2 = b ∧ RowSpec t a b r.value r.occur) ts
        (raw.filter (fun r => decide ((r.f1, r.f2) = (a, b))))) :
    ∃ rows, summarise sort columns raw = .ok rows ∧
      rows.length = columns.length * columns.length - columns.length ∧
      (∀ r ∈ rows, r.root ∈ columns ∧ r.var ∈ columns ∧ r.root ≠ r.var) ∧
      (∀ a b f g, columns[a]? = some f → columns[b]? = some g → f ≠ g → ∃ r,
        rows.filter (fun r => decide (r.root = f ∧ r.var = g)) = [r] ∧ IsMeanCondDepth ts a b r.val ∧
          r.occ = occurrences ts a b) ∧
      rows.Pairwise (fun r s => s.occ < r.occ ∨ (r.occ = s.occ ∧ Num.keyLE true r.val s.val = true)) :=
  summarise_gen (Q := fun v o w o' => o' < o ∨ (o = o' ∧ Num.keyLE true v w = true)) hsort hnd hne hp h1 h2

/-! ### importance -/

/-- the depth of the first node of a list -/
def headDepth (depths l : List Nat) : Nat := depths.getD (l.headD 0) 0

theorem inner_fold (depths : List Nat) : ∀ (es : Dict Int (List Nat)) (acc : Dict Int (List Nat)), es.keys.Nodup → acc.keys.Nodup →
    (∀ e ∈ es, ∃ i is, e.2 = i :: is ∧ i < depths.length) →
    ∃ acc', es.foldlM (depthStep depths) acc = .ok acc' ∧ acc'.keys.Nodup ∧
      ∀ f, Dict.get? acc' f = (match Dict.get? es f with
        | none => Dict.get? acc f
        | some l => some ((Dict.get? acc f).getD [] ++ [headDepth depths l]))
  | [], acc, _, hacc, _ => ⟨acc, rfl, hacc, fun f => rfl⟩
  | (f0, l0) :: es, acc, hnd, hacc, hall => by
    obtain ⟨i, is, hl, hi⟩ := hall (f0, l0) (by simp)
    simp only at hl
    have hnd' : f0 ∉ Dict.keys es ∧ (Dict.keys es).Nodup := by
      rw [Dict.keys, List.map_cons, List.nodup_cons] at hnd; exact hnd
    have hg : arrGet depths i = .ok (headDepth depths l0) := by
      unfold arrGet headDepth
      rw [hl, List.getElem?_eq_getElem hi]
      simp [List.getD_eq_getElem?_getD, List.getElem?_eq_getElem hi]
    obtain ⟨acc', h1, h2, h3⟩ := inner_fold depths es (Dict.set acc f0 ((Dict.get? acc f0).getD [] ++ [headDepth depths l0])) hnd'.2
      (Dict.nodup_keys_set hacc _ _) (fun e he => hall e (by simp [he]))
    refine ⟨acc', ?_, h2, ?_⟩
    · have hstep : depthStep depths acc (f0, l0) = .ok (Dict.set acc f0 ((Dict.get? acc f0).getD [] ++ [headDepth depths l0])) := by
        unfold depthStep
        simp only [hl] at hg ⊢
        rw [hg]
      rw [List.foldlM_cons, hstep]
      exact h1
    · intro f
      rw [h3 f]
      by_cases hf : f = f0
      · subst hf
        have : Dict.get? es f = none := (Dict.get?_eq_none_iff _ _).2 hnd'.1
        rw [this]
        simp only [Dict.get?_set]
        simp [Dict.get?]
      · rw [Dict.get?_set]
        have e1 : Dict.get? ((f0, l0) :: es) f = Dict.get? es f := by
          simp only [Dict.get?]
          rw [if_neg (fun h => hf h.symm)]
        rw [e1]
        simp only [if_neg hf]

/-- the head of the list of a used feature has its minimal depth -/
theorem headDepth_min {A : SkTree} {t : LTree} {depths : List Nat} {d : Dict Int (List Nat)} (h : Traversed A t depths d) {f : Nat}
    {l : List Nat} (hl : Dict.get? d (f : Int) = some l) : MinDepth t f (headDepth depths l) := by
  have hu : Uses t f := by
    by_contra hn
    rw [h.unused f hn] at hl
    cases hl
  obtain ⟨l', h1, h2, h3, h4, h5⟩ := h.used f hu
  rw [hl] at h1
  cases h1
  obtain ⟨i, is, rfl⟩ := List.exists_cons_of_ne_nil h2
  obtain ⟨k, s, a, b, rfl⟩ := (h4 i).1 (by simp)
  have hk : headDepth depths (s.id :: is) = k := by
    simp [headDepth, List.getD_eq_getElem?_getD, h.depth k s a]
  rw [hk]
  refine ⟨s, a, b, ?_⟩
  intro k' s' a' b'
  have hd : depths.getD s'.id 0 = k' := by rw [List.getD_eq_getElem?_getD, h.depth _ _ a']; rfl
  have hd0 : depths.getD s.id 0 = k := by rw [List.getD_eq_getElem?_getD, h.depth _ _ a]; rfl
  rcases List.mem_cons.1 ((h4 s'.id).2 ⟨k', s', a', b', rfl⟩) with e | e
  · rw [← hd, ← hd0, e]
  · rw [← hd, ← hd0]; exact (List.pairwise_cons.1 h5).1 _ e

open Classical in
/-- the dictionary of depths after some trees -/
def DepthsOf (ts : List LTree) (d : Dict Int (List Nat)) : Prop :=
  d.keys.Nodup ∧ (∀ f : Int, f < 0 → Dict.get? d f = none) ∧
  ∀ f : Nat, ((∃ t ∈ ts, Uses t f) → ∃ ks, Dict.get? d (f : Int) = some ks ∧
      List.Forall₂ (fun t k => MinDepth t f k) (ts.filter (fun t => decide (Uses t f))) ks) ∧
    ((¬ ∃ t ∈ ts, Uses t f) → Dict.get? d (f : Int) = none)

theorem forall₂_append' {α β : Type} {R : α → β → Prop} {l l' : List α} {r r' : List β} (h : List.Forall₂ R l r)
    (h' : List.Forall₂ R l' r') : List.Forall₂ R (l ++ l') (r ++ r') := by
  induction h with
  | nil => exact h'
  | cons a _ ih => exact .cons a ih

theorem featureToDepth_ok {ts : List LTree} {dss : List DepthSplit}
    (h : List.Forall₂ (fun t (o : DepthSplit) => ∃ A, Traversed A t o.1 o.2) ts dss) :
    ∃ d, featureToDepth dss = .ok d ∧ DepthsOf ts d := by
  classical
  have key : ∀ (done : List LTree) (acc : Dict Int (List Nat)), DepthsOf done acc →
      ∃ d, dss.foldlM (fun acc ds => ds.2.foldlM (depthStep ds.1) acc) acc = .ok d ∧ DepthsOf (done ++ ts) d := by
    induction h with
    | nil => intro done acc hacc; exact ⟨acc, rfl, by rw [List.append_nil]; exact hacc⟩
    | @cons t o ts dss ho hrest ih =>
      intro done acc hacc
      obtain ⟨A, ho⟩ := ho
      obtain ⟨acc', h1, h2, h3⟩ := inner_fold o.1 o.2 acc ho.nodup hacc.1 (by
        rintro ⟨f, l⟩ he
        have hg := Dict.get?_of_mem ho.nodup he
        have hf : 0 ≤ f := by
          by_contra hn
          rw [ho.neg f (by omega)] at hg
          cases hg
        obtain ⟨n, rfl⟩ := Int.eq_ofNat_of_zero_le hf
        have hu : Uses t n := by
          by_contra hn
          have := ho.unused n hn
          rw [hg] at this
          cases this
        obtain ⟨l', e1, e2, _, e4, _⟩ := ho.used n hu
        have : l = l' := by
          have := hg.symm.trans e1
          exact Option.some.inj this
        subst this
        obtain ⟨i, is, rfl⟩ := List.exists_cons_of_ne_nil e2
        obtain ⟨k, s, a, b, rfl⟩ := (e4 i).1 (by simp)
        have := ho.depth k s a
        exact ⟨_, _, rfl, (List.getElem?_eq_some_iff.1 this).1⟩)
      have hd' : DepthsOf (done ++ [t]) acc' := by
        refine ⟨h2, ?_, ?_⟩
        · intro f hf
          rw [h3 f, ho.neg f hf]
          exact hacc.2.1 f hf
        · intro f
          by_cases hu : Uses t f
          · obtain ⟨l, e1, _⟩ := ho.used f hu
            have hm := headDepth_min ho e1
            have hg : Dict.get? acc' (f : Int) = some ((Dict.get? acc (f : Int)).getD [] ++ [headDepth o.1 l]) := by
              rw [h3, e1]
            constructor
            · intro _
              by_cases hd : ∃ t ∈ done, Uses t f
              · obtain ⟨ks, e2, e3⟩ := (hacc.2.2 f).1 hd
                refine ⟨ks ++ [headDepth o.1 l], by rw [hg, e2]; rfl, ?_⟩
                rw [List.filter_append, List.filter_cons, if_pos (by simpa using hu)]
                exact forall₂_append' e3 (.cons hm .nil)
              · have e2 := (hacc.2.2 f).2 hd
                refine ⟨[headDepth o.1 l], by rw [hg, e2]; rfl, ?_⟩
                have : done.filter (fun t => decide (Uses t f)) = [] := by
                  rw [List.filter_eq_nil_iff]
                  intro t' ht' hc
                  exact hd ⟨t', ht', by simpa using hc⟩
                rw [List.filter_append, this, List.filter_cons, if_pos (by simpa using hu)]
                exact .cons hm .nil
            · intro hn
              exact absurd ⟨t, by simp, hu⟩ hn
          · have hg : Dict.get? acc' (f : Int) = Dict.get? acc (f : Int) := by
              rw [h3, ho.unused f hu]
            have hiff : (∃ t' ∈ done ++ [t], Uses t' f) ↔ ∃ t' ∈ done, Uses t' f := by
              constructor
              · rintro ⟨t', ht', hu'⟩
                rcases List.mem_append.1 ht' with h | h
                · exact ⟨t', h, hu'⟩
                · rw [List.mem_singleton.1 h] at hu'; exact absurd hu' hu
              · rintro ⟨t', ht', hu'⟩; exact ⟨t', by simp [ht'], hu'⟩
            rw [hg, hiff]
            have : (done ++ [t]).filter (fun t => decide (Uses t f)) = done.filter (fun t => decide (Uses t f)) := by
              rw [List.filter_append, List.filter_cons, if_neg (by simpa using hu)]
              simp
            rw [this]
            exact hacc.2.2 f
      obtain ⟨d, e1, e2⟩ := ih (done ++ [t]) acc' hd'
      refine ⟨d, ?_, ?_⟩
      · rw [List.foldlM_cons, h1]
        exact e1
      · rw [List.append_assoc] at e2
        exact e2
  obtain ⟨d, h1, h2⟩ := key [] [] ⟨List.nodup_nil, fun _ _ => rfl, fun f => ⟨by simp, fun _ => rfl⟩⟩
  exact ⟨d, h1, h2⟩

theorem importance_gen {Q : Num K → Num K → Prop} {sort : List (ImpRow F K) → List (ImpRow F K)}
    (hsort : ∀ l, (sort l).Perm l ∧ (sort l).Pairwise (fun a b => Q a.val b.val)) {columns : List F}
    (hnd : columns.Nodup) {ts : List LTree} (hc : ∀ t ∈ ts, ∀ f, Uses t f → f < columns.length) {dss : List DepthSplit}
    (h : List.Forall₂ (fun t (o : DepthSplit) => ∃ A, Traversed A t o.1 o.2) ts dss) :
    ((∃ t ∈ ts, ∃ f, Uses t f) → ∃ rows, minimalDepthImportance sort columns (some dss) = .ok rows ∧
      rows.Pairwise (fun a b => Q a.val b.val) ∧ (rows.map ImpRow.f).Nodup ∧
      ∀ f, f ∈ rows.map ImpRow.f ↔ ∃ i, columns[i]? = some f ∧ ∃ t ∈ ts, Uses t i) ∧
    ((¬ ∃ t ∈ ts, ∃ f, Uses t f) → minimalDepthImportance sort columns (some dss) = .error .keyError) ∧
    ∀ rows, minimalDepthImportance sort columns (some dss) = .ok rows → ∀ r ∈ rows, ∀ i, columns[i]? = some r.f →
      IsMeanMinDepth ts i r.val := by
  classical
  obtain ⟨d, hd, hd1, hd2, hd3⟩ := featureToDepth_ok h
  have hkeys : ∀ f, f ∈ d.keys ↔ ∃ n : Nat, f = n ∧ ∃ t ∈ ts, Uses t n := by
    intro f
    rw [← Dict.get?_isSome_iff]
    constructor
    · intro hs
      have hf : 0 ≤ f := by
        by_contra hn
        rw [hd2 f (by omega)] at hs
        cases hs
      obtain ⟨n, rfl⟩ := Int.eq_ofNat_of_zero_le hf
      refine ⟨n, rfl, ?_⟩
      by_contra hn
      rw [(hd3 n).2 hn] at hs
      cases hs
    · rintro ⟨n, rfl, hn⟩
      obtain ⟨ks, e, _⟩ := (hd3 n).1 hn
      rw [e]; rfl
  let row : Int × List Nat → Except Err (ImpRow F K) := fun e => (colOf columns e.1).map (fun c =>
          (⟨c, .fin ((e.2.map (fun (k : Nat) => (k : K))).sum / e.2.length)⟩ : ImpRow F K))
  have hrow : ∀ e ∈ d, ∃ (n : Nat) (c : F), e.1 = n ∧ columns[n]? = some c ∧ (∃ t ∈ ts, Uses t n) ∧
      row e = .ok ⟨c, .fin ((e.2.map (fun (k : Nat) => (k : K))).sum / e.2.length)⟩ := by
    rintro ⟨f, ks⟩ he
    obtain ⟨n, rfl, t, ht, hu⟩ := (hkeys f).1 (List.mem_map.2 ⟨_, he, rfl⟩)
    have hlt := hc t ht n hu
    refine ⟨n, columns[n], rfl, List.getElem?_eq_getElem hlt, ⟨t, ht, hu⟩, ?_⟩
    simp only [row, colOf]
    rw [if_pos (by omega)]
    simp [hlt, Except.map]
  have hex : ∃ rs, d.mapM row = .ok rs := by
    obtain ⟨rs, e, _⟩ := mapM_exists_ok (f := row) (l := d) (fun e he => by
      obtain ⟨_, _, _, _, _, h⟩ := hrow e he; exact ⟨_, h⟩)
    exact ⟨rs, e⟩
  obtain ⟨rs, hrs⟩ := hex
  have hf2 := mapM_eq_ok hrs
  -- what a row is
  have hmem : ∀ r ∈ rs, ∃ e ∈ d, row e = .ok r := by
    intro r hr
    obtain ⟨i, hi⟩ := List.get_of_mem hr
    rw [List.forall₂_iff_get] at hf2
    have hl : i.1 < d.length := by rw [hf2.1]; exact i.2
    refine ⟨_, List.get_mem d ⟨i.1, hl⟩, ?_⟩
    rw [← hi]
    exact hf2.2 i.1 hl i.2
  have hmem' : ∀ e ∈ d, ∃ r ∈ rs, row e = .ok r := by
    intro e he
    obtain ⟨i, hi⟩ := List.get_of_mem he
    rw [List.forall₂_iff_get] at hf2
    have hl : i.1 < rs.length := by rw [← hf2.1]; exact i.2
    refine ⟨_, List.get_mem rs ⟨i.1, hl⟩, ?_⟩
    rw [← hi]
    exact hf2.2 i.1 i.2 hl
  have hinj : ∀ {i j : Nat} {f : F}, columns[i]? = some f → columns[j]? = some f → i = j := by
    intro i j f hi hj
    obtain ⟨hi1, hi2⟩ := List.getElem?_eq_some_iff.1 hi
    obtain ⟨hj1, hj2⟩ := List.getElem?_eq_some_iff.1 hj
    exact (List.Nodup.getElem_inj_iff hnd).1 (hi2.trans hj2.symm)
  have hnames : (rs.map ImpRow.f).Nodup := by
    have hd1' : d.Pairwise (fun a b => a.1 ≠ b.1) := by
      have := hd1
      rw [Dict.keys, List.Nodup, List.pairwise_map] at this
      exact this
    rw [List.Nodup, List.pairwise_map]
    have hf3 : List.Forall₂ (fun e r => e ∈ d ∧ row e = .ok r) d rs := by
      rw [List.forall₂_iff_get] at hf2 ⊢
      exact ⟨hf2.1, fun i h1 h2 => ⟨List.get_mem _ _, hf2.2 i h1 h2⟩⟩
    refine pairwise_forall₂ hf3 hd1' ?_
    rintro e e' r r' ⟨m1, h1⟩ ⟨m2, h2⟩ hne heq
    obtain ⟨n, c, a1, a2, _, a4⟩ := hrow e m1
    obtain ⟨n', c', b1, b2, _, b4⟩ := hrow e' m2
    rw [a4] at h1
    rw [b4] at h2
    cases h1
    cases h2
    simp only at heq
    subst heq
    exact hne (by rw [a1, b1, hinj a2 b2])
  have himp : minimalDepthImportance sort columns (some dss) = if rs.length = 0 then .error .keyError else .ok (sort rs) := by
    unfold minimalDepthImportance
    simp only [hd]
    have hrs' : d.mapM (fun e => (colOf columns e.1).map (fun c =>
          (⟨c, .fin ((e.2.map (fun (k : Nat) => (k : K))).sum / e.2.length)⟩ : ImpRow F K))) = .ok rs := hrs
    rw [hrs']
    cases rs <;> rfl
  refine ⟨?_, ?_, ?_⟩
  · rintro ⟨t, ht, f, hu⟩
    have hd0 : (f : Int) ∈ d.keys := (hkeys _).2 ⟨f, rfl, t, ht, hu⟩
    obtain ⟨e, he, _⟩ := List.mem_map.1 hd0
    obtain ⟨r0, hr0, _⟩ := hmem' e he
    have hne : rs ≠ [] := List.ne_nil_of_mem hr0
    obtain ⟨r1, rs1, hrs1⟩ := List.exists_cons_of_ne_nil hne
    have hs := hsort rs
    refine ⟨sort rs, by rw [himp, if_neg (by rw [hrs1]; simp)], hs.2, ?_, ?_⟩
    · rw [(hs.1.map _).nodup_iff]; exact hnames
    · intro g
      rw [(hs.1.map _).mem_iff]
      constructor
      · intro hg
        obtain ⟨r, hr, rfl⟩ := List.mem_map.1 hg
        obtain ⟨e, he, h1⟩ := hmem r hr
        obtain ⟨n, c, _, a2, a3, a4⟩ := hrow e he
        rw [a4] at h1
        cases h1
        exact ⟨n, a2, a3⟩
      · rintro ⟨i, hi, hu'⟩
        have hk := (hkeys (i : Int)).2 ⟨i, rfl, hu'⟩
        obtain ⟨e, he, he1⟩ := List.mem_map.1 hk
        obtain ⟨r, hr, h1⟩ := hmem' e he
        obtain ⟨n, c, a1, a2, a3, a4⟩ := hrow e he
        rw [a4] at h1
        cases h1
        have : n = i := by
          have := a1.symm.trans he1; omega
        subst this
        rw [a2] at hi
        cases hi
        exact List.mem_map.2 ⟨_, hr, rfl⟩
  · intro hn
    have hrs0 : rs = [] := by
      rw [List.eq_nil_iff_forall_not_mem]
      intro r hr
      obtain ⟨e, he, _⟩ := hmem r hr
      obtain ⟨n, _, _, _, ⟨t, ht, hu⟩, _⟩ := hrow e he
      exact hn ⟨t, ht, n, hu⟩
    rw [himp, hrs0]
    rfl
  · intro rows hrows r hr i hi
    have hr' : r ∈ rs := by
      rw [himp] at hrows
      by_cases h0 : rs.length = 0
      · rw [if_pos h0] at hrows; cases hrows
      · rw [if_neg h0] at hrows
        have := Except.ok.inj hrows
        rw [← this] at hr
        exact (hsort _).1.mem_iff.1 hr
    obtain ⟨e, he, h1⟩ := hmem r hr'
    obtain ⟨n, c, a1, a2, a3, a4⟩ := hrow e he
    rw [a4] at h1
    cases h1
    have hni := hinj a2 hi
    subst hni
    obtain ⟨ks, b1, b2⟩ := (hd3 n).1 a3
    have hg := Dict.get?_of_mem hd1 (k := e.1) (v := e.2) he
    rw [a1, b1] at hg
    have hks : e.2 = ks := (Option.some.inj hg).symm
    refine ⟨ks, by convert b2, ?_⟩
    have hne : ks ≠ [] := by
      rintro rfl
      have := b2.length_eq
      obtain ⟨t, ht, hu⟩ := a3
      have hm : t ∈ ts.filter (fun t => decide (Uses t n)) := by
        rw [List.mem_filter]; exact ⟨ht, by simpa using hu⟩
      rw [List.eq_nil_of_length_eq_zero this] at hm
      cases hm
    unfold meanNat
    rw [if_neg hne, hks]

theorem importance_ok {sort : List (ImpRow F K) → List (ImpRow F K)} (hsort : SortsBy ImpRow.val true sort) {columns : List F}
    (hnd : columns.Nodup) {ts : List LTree} (hc : ∀ t ∈ ts, ∀ f, Uses t f → f < columns.length) {dss : List DepthSplit}
    (h : List.Forall₂ (fun t (o : DepthSplit) => ∃ A, Traversed A t o.1 o.2) ts dss) :
    ((∃ t ∈ ts, ∃ f, Uses t f) → ∃ rows, minimalDepthImportance sort columns (some dss) = .ok rows ∧
      rows.Pairwise (fun a b => Num.keyLE true a.val b.val = true) ∧ (rows.map ImpRow.f).Nodup ∧
      ∀ f, f ∈ rows.map ImpRow.f ↔ ∃ i, columns[i]? = some f ∧ ∃ t ∈ ts, Uses t i) ∧
    ((¬ ∃ t ∈ ts, ∃ f, Uses t f) → minimalDepthImportance sort columns (some dss) = .error .keyError) ∧
    ∀ rows, minimalDepthImportance sort columns (some dss) = .ok rows → ∀ r ∈ rows, ∀ i, columns[i]? = some r.f →
      IsMeanMinDepth ts i r.val :=
  importance_gen (Q := fun v w => Num.keyLE true v w = true) hsort hnd hc h

end Agg

end Artemis
