import Verif.Proofs.PDCalcFam
import Verif.Spec.PDCost
import Mathlib.Data.List.Perm.Basic

/-! The requested keys of the three calculations, as rows of the specification (`Spec/PDCost`). -/

set_option linter.unusedSectionVars false
set_option linter.unusedVariables false
set_option linter.unusedSimpArgs false

namespace Artemis
open Spec

variable {F V N : Type*} [DecidableEq F] [LinearOrder V] [Flt N]
variable {g : Row F V → N} {p : Nat → List (Row F V) → Except Err (List N)}

theorem npUnique_perm_dedup (l : List V) : (npUnique l).Perm l.dedup := by
  unfold npUnique; exact List.perm_insertionSort _ _

theorem keysS_rows (X : Frame F V) (f : F) :
    ((keysS X f).flatMap (blockSingle X)).Perm (rowsSingle X f) := by
  unfold keysS rowsSingle
  rw [List.flatMap_map]
  have : (fun v => blockSingle X (f, v)) =
      fun v => X.rows.map fun r => fun h => if h = f then v else r h := by
    funext v
    simp only [blockSingle, Frame.assign]
    refine List.map_congr_left (fun r _ => ?_)
    funext h; simp [Function.update_apply]
  rw [this]
  exact (npUnique_perm_dedup _).flatMap_right _

theorem range_flatMap_get {α β : Type*} (l : List α) (h : α → List β) :
    ((List.range l.length).flatMap fun i => (l[i]?).elim [] h) =
      l.flatMap h := by
  induction l with
  | nil => rfl
  | cons a l ih =>
    rw [List.length_cons, List.range_succ_eq_map, List.flatMap_cons, List.flatMap_cons, List.flatMap_map, ← ih]
    simp

theorem keysM_rows (X : Frame F V) (f : F) :
    (keysM X f).flatMap (blockMinus X) = rowsMinus X f := by
  unfold keysM rowsMinus
  rw [List.flatMap_map, ← range_flatMap_get X.rows]
  have : (fun i => blockMinus X (f, i)) = fun i => (X.rows[i]?).elim [] (fun a =>
      X.rows.map fun rj => fun h => if h ∈ X.cols ∧ h ≠ f then a h else rj h) := by
    funext i
    unfold blockMinus
    cases X.rows[i]? <;> rfl
  rw [this]
  rfl

theorem valsP_perm (all : Bool) (X : Frame F V) (f f' : F) :
    (valsP all X (f, f')).Perm (pairVals all X f f') := by
  unfold valsP pairVals
  cases all with
  | true =>
    simp only [if_true]
    unfold List.product
    refine ((npUnique_perm_dedup (X.col f)).flatMap_right _).trans ?_
    refine List.Perm.flatMap_left _ (fun a _ => ?_)
    exact (npUnique_perm_dedup _).map _
  | false =>
    simp only [Bool.false_eq_true, if_false, Frame.col]
    rw [List.zip_map']

theorem pairVals_swap (all : Bool) (X : Frame F V) (f f' : F) :
    (pairVals all X f' f).Perm ((pairVals all X f f').map Prod.swap) := by
  unfold pairVals
  cases all with
  | true =>
    simp only [if_true]
    rw [List.perm_ext_iff_of_nodup]
    · rintro ⟨a, b⟩
      simp only [List.mem_map, List.pair_mem_product, Prod.exists, Prod.swap_prod_mk, Prod.mk.injEq]
      constructor
      · rintro ⟨h1, h2⟩; exact ⟨b, a, ⟨h2, h1⟩, rfl, rfl⟩
      · rintro ⟨x, y, ⟨h1, h2⟩, rfl, rfl⟩; exact ⟨h2, h1⟩
    · exact (List.nodup_dedup _).product (List.nodup_dedup _)
    · exact ((List.nodup_dedup _).product (List.nodup_dedup _)).map Prod.swap_injective
  | false => simp [Function.comp_def]

theorem keysP_rows (all : Bool) (X : Frame F V) (q : F × F) (hne : q.1 ≠ q.2) :
    ((keysP all X q).flatMap (blockPair X)).Perm (rowsPair all X q.1 q.2) := by
  obtain ⟨f, f'⟩ := q
  simp only at hne
  unfold keysP rowsPair
  rw [List.flatMap_map]
  unfold canonPair
  split
  · refine ((valsP_perm all X f f').flatMap_right _).trans (List.Perm.of_eq ?_)
    congr 1
    funext v
    simp only [blockPair, Frame.assign, List.map_map]
    refine List.map_congr_left (fun r _ => ?_)
    funext h
    simp only [Function.comp, Function.update_apply]
    by_cases h1 : h = f
    · subst h1; simp [hne]
    · simp [h1]
  · refine ((valsP_perm all X f' f).flatMap_right _).trans
      (((pairVals_swap all X f f').flatMap_right _).trans (List.Perm.of_eq ?_))
    rw [List.flatMap_map]
    congr 1
    funext v
    simp only [blockPair, Frame.assign, List.map_map]
    refine List.map_congr_left (fun r _ => ?_)
    funext h
    simp [Function.comp, Function.update_apply]

/-- the request of distinct features has no key twice -/
theorem reqS_nodup (X : Frame F V) (features : Option (List F)) (nd : (features.getD X.cols).Nodup) :
    (reqS X features).Nodup := by
  unfold reqS
  rw [List.nodup_flatMap]
  refine ⟨fun f _ => (nodup_npUnique _).map (fun a b h => (Prod.mk.inj h).2), ?_⟩
  refine nd.imp ?_
  intro a b hab k h1 h2
  simp only [keysS, List.mem_map] at h1 h2
  obtain ⟨v, _, rfl⟩ := h1
  obtain ⟨w, _, h⟩ := h2
  exact hab (Prod.mk.inj h).1.symm

theorem reqM_nodup (X : Frame F V) (features : Option (List F)) (nd : (features.getD X.cols).Nodup) :
    (reqM X features).Nodup := by
  unfold reqM
  rw [List.nodup_flatMap]
  refine ⟨fun f _ => (List.nodup_range).map (fun a b h => (Prod.mk.inj h).2), ?_⟩
  refine nd.imp ?_
  intro a b hab k h1 h2
  simp only [keysM, List.mem_map] at h1 h2
  obtain ⟨v, _, rfl⟩ := h1
  obtain ⟨w, _, h⟩ := h2
  exact hab (Prod.mk.inj h).1.symm

theorem reqP_nodup (X : Frame F V) (pairs : Option (List (F × F))) (all : Bool)
    (nd : (pairs.getD (combinations2 X.cols)).Pairwise (fun q q' => q ≠ q' ∧ q ≠ q'.swap))
    (hv : ∀ q ∈ pairs.getD (combinations2 X.cols), (pairVals all X q.1 q.2).Nodup) :
    (reqP X pairs all).Nodup := by
  unfold reqP
  rw [List.nodup_flatMap]
  refine ⟨fun q hq => ?_, ?_⟩
  · refine List.Nodup.map (fun a b h => (Prod.mk.inj h).2) ?_
    obtain ⟨f, f'⟩ := q
    have hn := hv _ hq
    unfold canonPair
    split
    · exact (valsP_perm all X f f').nodup_iff.2 hn
    · refine (valsP_perm all X f' f).nodup_iff.2 ((pairVals_swap all X f f').nodup_iff.2 ?_)
      exact hn.map Prod.swap_injective
  · refine nd.imp ?_
    intro a b hab k h1 h2
    simp only [keysP, List.mem_map] at h1 h2
    obtain ⟨v, _, rfl⟩ := h1
    obtain ⟨w, _, h⟩ := h2
    have h := (Prod.mk.inj h).1
    obtain ⟨a1, a2⟩ := a
    obtain ⟨b1, b2⟩ := b
    simp only [canonPair] at h
    simp only [ne_eq, Prod.mk.injEq, Prod.swap_prod_mk] at hab
    split at h <;> split at h <;> simp only [Prod.mk.injEq] at h <;> tauto

theorem flatMap_perm_flatMap {α β γ : Type*} (l : List α) (k : α → List β) (blk : β → List γ) (rows : α → List γ)
    (h : ∀ a ∈ l, ((k a).flatMap blk).Perm (rows a)) :
    ((l.flatMap k).flatMap blk).Perm (l.flatMap rows) := by
  rw [List.flatMap_assoc]
  exact List.Perm.flatMap_left _ h

theorem length_flatMap_const {α β : Type*} (l : List α) (k : α → List β) (n : Nat) (h : ∀ a ∈ l, (k a).length = n) :
    (l.flatMap k).length = l.length * n := by
  induction l with
  | nil => simp
  | cons a l ih =>
    rw [List.flatMap_cons, List.length_append, h a (by simp), ih (fun b hb => h b (List.mem_cons_of_mem _ hb)),
      List.length_cons, Nat.add_mul]
    omega

theorem length_flatMap_sum {α β : Type*} (l : List α) (k : α → List β) :
    (l.flatMap k).length = (l.map fun a => (k a).length).sum := by
  simp [List.length_flatMap]

end Artemis
