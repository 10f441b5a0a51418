import Verif.Spec.SameForest
import Verif.Proofs.CmdForest
import Mathlib.Algebra.Order.Ring.Cast

/-!
# Lemmas: what is the same in the same trees
-/

set_option linter.unusedSectionVars false
set_option linter.unusedVariables false
set_option linter.unusedSimpArgs false

namespace Artemis
open Spec

section tree
variable {swap : Bool} {σ : Nat → Nat} {t t' : LTree}

theorem Spec.SameTree.at (h : SameTree swap σ t t') {k : Nat} {s : LTree} (hs : At t k s) : ∃ s', At t' k s' ∧ SameTree swap σ s s' := by
  induction hs generalizing t' with
  | here t => exact ⟨t', .here _, h⟩
  | left _ ih =>
    cases h with
    | node i j f h1 h2 =>
      obtain ⟨s', a, b⟩ := ih h1
      exact ⟨s', .left a, b⟩
    | swapped i j f _ h1 h2 =>
      obtain ⟨s', a, b⟩ := ih h1
      exact ⟨s', .right a, b⟩
  | right _ ih =>
    cases h with
    | node i j f h1 h2 =>
      obtain ⟨s', a, b⟩ := ih h2
      exact ⟨s', .right a, b⟩
    | swapped i j f _ h1 h2 =>
      obtain ⟨s', a, b⟩ := ih h2
      exact ⟨s', .left a, b⟩

theorem Spec.SameTree.at' (h : SameTree swap σ t t') {k : Nat} {s' : LTree} (hs : At t' k s') : ∃ s, At t k s ∧ SameTree swap σ s s' := by
  induction hs generalizing t with
  | here t' => exact ⟨t, .here _, h⟩
  | left _ ih =>
    cases h with
    | node i j f h1 h2 =>
      obtain ⟨s', a, b⟩ := ih h1
      exact ⟨s', .left a, b⟩
    | swapped i j f _ h1 h2 =>
      obtain ⟨s', a, b⟩ := ih h2
      exact ⟨s', .right a, b⟩
  | right _ ih =>
    cases h with
    | node i j f h1 h2 =>
      obtain ⟨s', a, b⟩ := ih h2
      exact ⟨s', .right a, b⟩
    | swapped i j f _ h1 h2 =>
      obtain ⟨s', a, b⟩ := ih h1
      exact ⟨s', .left a, b⟩

theorem Spec.SameTree.splits (hσ : Function.Injective σ) (h : SameTree swap σ t t') (f : Nat) : t'.Splits (σ f) ↔ t.Splits f := by
  cases h with
  | leaf => exact Iff.rfl
  | node i j g => exact hσ.eq_iff
  | swapped i j g => exact hσ.eq_iff

theorem Spec.SameTree.lastDepth (h : SameTree false σ t t') : t'.lastDepth = t.lastDepth := by
  induction h with
  | leaf => rfl
  | node i j f _ _ _ ih => simp only [LTree.lastDepth, ih]
  | swapped i j f e => cases e

theorem Spec.SameTree.uses (hσ : Function.Injective σ) (h : SameTree swap σ t t') (f : Nat) : Uses t' (σ f) ↔ Uses t f := by
  constructor
  · rintro ⟨k, s', a, b⟩
    obtain ⟨s, a', hs⟩ := h.at' a
    exact ⟨k, s, a', (hs.splits hσ f).1 b⟩
  · rintro ⟨k, s, a, b⟩
    obtain ⟨s', a', hs⟩ := h.at a
    exact ⟨k, s', a', (hs.splits hσ f).2 b⟩

theorem Spec.SameTree.shallowest (hσ : Function.Injective σ) (h : SameTree swap σ t t') {f k : Nat} {s : LTree} (hs : Shallowest t f k s) :
    ∃ s', Shallowest t' (σ f) k s' ∧ SameTree swap σ s s' := by
  obtain ⟨a, b, c⟩ := hs
  obtain ⟨s', a', hss⟩ := h.at a
  refine ⟨s', ⟨a', (hss.splits hσ f).2 b, ?_⟩, hss⟩
  intro k' w' hw hf
  obtain ⟨w, hw', hww⟩ := h.at' hw
  exact c k' w hw' ((hww.splits hσ f).1 hf)

theorem Spec.SameTree.shallowest' (hσ : Function.Injective σ) (h : SameTree swap σ t t') {f k : Nat} {s' : LTree}
    (hs : Shallowest t' (σ f) k s') : ∃ s, Shallowest t f k s ∧ SameTree swap σ s s' := by
  obtain ⟨a, b, c⟩ := hs
  obtain ⟨s, a', hss⟩ := h.at' a
  refine ⟨s, ⟨a', (hss.splits hσ f).1 b, ?_⟩, hss⟩
  intro k' w hw hf
  obtain ⟨w', hw', hww⟩ := h.at hw
  exact c k' w' hw' ((hww.splits hσ f).2 hf)

theorem Spec.SameTree.nearest (hσ : Function.Injective σ) (h : SameTree swap σ t t') (g m : Nat) :
    NearestBelow t' (σ g) m ↔ NearestBelow t g m := by
  constructor
  · rintro ⟨a, ⟨w', b, c⟩, d⟩
    obtain ⟨w, b', hw⟩ := h.at' b
    refine ⟨a, ⟨w, b', (hw.splits hσ g).1 c⟩, ?_⟩
    intro m' v hm hv hg
    obtain ⟨v', hv', hvv⟩ := h.at hv
    exact d m' v' hm hv' ((hvv.splits hσ g).2 hg)
  · rintro ⟨a, ⟨w, b, c⟩, d⟩
    obtain ⟨w', b', hw⟩ := h.at b
    refine ⟨a, ⟨w', b', (hw.splits hσ g).2 c⟩, ?_⟩
    intro m' v' hm hv hg
    obtain ⟨v, hv', hvv⟩ := h.at' hv
    exact d m' v hm hv' ((hvv.splits hσ g).1 hg)

theorem Spec.SameTree.minDepth (hσ : Function.Injective σ) (h : SameTree swap σ t t') (f k : Nat) : MinDepth t' (σ f) k ↔ MinDepth t f k := by
  constructor
  · rintro ⟨s', hs⟩
    obtain ⟨s, a, _⟩ := h.shallowest' hσ hs
    exact ⟨s, a⟩
  · rintro ⟨s, hs⟩
    obtain ⟨s', a, _⟩ := h.shallowest hσ hs
    exact ⟨s', a⟩

theorem Spec.SameTree.occurs (hσ : Function.Injective σ) (h : SameTree swap σ t t') (f g : Nat) :
    OccursBelow t' (σ f) (σ g) ↔ OccursBelow t f g := by
  constructor
  · rintro ⟨k, s', m, hs, hm⟩
    obtain ⟨s, a, hss⟩ := h.shallowest' hσ hs
    exact ⟨k, s, m, a, (hss.nearest hσ g m).1 hm⟩
  · rintro ⟨k, s, m, hs, hm⟩
    obtain ⟨s', a, hss⟩ := h.shallowest hσ hs
    exact ⟨k, s', m, a, (hss.nearest hσ g m).2 hm⟩

theorem Spec.SameTree.contribution (hσ : Function.Injective σ) (h : SameTree swap σ t t') {g : Nat}
    (hsw : swap = false ∨ ∃ m, NearestBelow t g m) (x : Nat) : Contribution t' (σ g) x ↔ Contribution t g x := by
  unfold Contribution
  rw [h.nearest hσ]
  simp only [h.nearest hσ]
  refine or_congr Iff.rfl (and_congr_right (fun hn => ?_))
  rcases hsw with rfl | hm
  · rw [h.lastDepth]
  · exact absurd hm hn

theorem Spec.SameTree.condDepth (hσ : Function.Injective σ) (h : SameTree swap σ t t') {f g : Nat}
    (hsw : swap = false ∨ AlwaysBelow t f g) (x : Nat) : CondDepth t' (σ f) (σ g) x ↔ CondDepth t f g x := by
  have key : ∀ k s, Shallowest t f k s → (swap = false ∨ ∃ m, NearestBelow s g m) := fun k s hs =>
    hsw.imp id (fun hb => hb k s hs)
  constructor
  · rintro ⟨⟨k, s', a, b⟩, c⟩
    obtain ⟨s, a', hss⟩ := h.shallowest' hσ a
    refine ⟨⟨k, s, a', (hss.contribution hσ (key k s a') x).1 b⟩, ?_⟩
    intro k' w y hw hy
    obtain ⟨w', hw', hww⟩ := h.shallowest hσ hw
    exact c k' w' y hw' ((hww.contribution hσ (key k' w hw) y).2 hy)
  · rintro ⟨⟨k, s, a, b⟩, c⟩
    obtain ⟨s', a', hss⟩ := h.shallowest hσ a
    refine ⟨⟨k, s', a', (hss.contribution hσ (key k s a) x).2 b⟩, ?_⟩
    intro k' w' y hw hy
    obtain ⟨w, hw', hww⟩ := h.shallowest' hσ hw
    exact c k' w y hw' ((hww.contribution hσ (key k' w hw') y).1 hy)

end tree

/-! ### Means over forests -/

section means
variable {K : Type} [Field K] [LinearOrder K] [IsStrictOrderedRing K]

theorem meanNat_perm {xs ys : List Nat} (h : xs.Perm ys) : meanNat (K := K) xs = meanNat ys := by
  unfold meanNat
  have e : xs = [] ↔ ys = [] := by
    constructor
    · rintro rfl; exact List.nil_perm.1 h
    · rintro rfl; exact List.perm_nil.1 h
  by_cases hx : xs = []
  · rw [if_pos hx, if_pos (e.1 hx)]
  · rw [if_neg hx, if_neg (fun hy => hx (e.2 hy)), (h.map _).sum_eq, h.length_eq]

theorem natSum_repeat (xs : List Nat) (n : Nat) : (((List.replicate n xs).flatten).map (fun (x : Nat) => (x : K))).sum =
    n * (xs.map (fun (x : Nat) => (x : K))).sum := by
  induction n with
  | zero => simp
  | succ n ih =>
    rw [List.replicate_succ, List.flatten_cons, List.map_append, List.sum_append, ih]
    push_cast
    ring

theorem meanNat_repeat (xs : List Nat) {n : Nat} (hn : 0 < n) : meanNat (K := K) (List.replicate n xs).flatten = meanNat xs := by
  unfold meanNat
  have hn' : (n : K) ≠ 0 := Nat.cast_ne_zero.2 hn.ne'
  by_cases hx : xs = []
  · subst hx
    simp
  · have : (List.replicate n xs).flatten ≠ [] := by
      intro e
      rw [List.flatten_eq_nil_iff] at e
      exact hx (e xs (List.mem_replicate.2 ⟨hn.ne', rfl⟩))
    rw [if_neg hx, if_neg this, natSum_repeat]
    congr 1
    have hl : ((List.replicate n xs).flatten.length : K) = n * xs.length := by simp
    rw [hl, mul_div_mul_left _ _ hn']

theorem forall₂_eq_map {α β : Type} {R : α → β → Prop} {c : α → β} : ∀ {l : List α} {r : List β}, List.Forall₂ R l r →
    (∀ a ∈ l, ∀ b, R a b → b = c a) → r = l.map c
  | _, _, .nil, _ => rfl
  | _, _, .cons h t, hc => by
    rw [List.map_cons, hc _ List.mem_cons_self _ h, forall₂_eq_map t (fun a ha => hc a (List.mem_cons_of_mem _ ha))]

/-- a mean over the trees of `ts` that count equals the mean over `ts'`, if each tree of `ts'` has the same value -/
theorem means_eq {swap : Bool} {σ : Nat → Nat} {n : Nat} (hn : 0 < n) {ts ts' : List LTree} (h : SameTrees swap σ n ts ts')
    {P P' : LTree → Prop} [DecidablePred P] [DecidablePred P'] {R R' : LTree → Nat → Prop}
    (hP : ∀ t ∈ ts, ∀ t', SameTree swap σ t t' → (P' t' ↔ P t))
    (hR : ∀ t ∈ ts, P t → ∀ t', SameTree swap σ t t' → ∀ x, R' t' x ↔ R t x)
    (hu : ∀ t, ∀ x y, R t x → R t y → x = y) (hu' : ∀ t, ∀ x y, R' t x → R' t y → x = y)
    {xs xs' : List Nat} (hx : List.Forall₂ R (ts.filter (fun t => decide (P t))) xs)
    (hx' : List.Forall₂ R' (ts'.filter (fun t => decide (P' t))) xs') : meanNat (K := K) xs' = meanNat xs := by
  classical
  obtain ⟨us, h1, h2⟩ := h
  -- a function giving the value
  let c : LTree → Nat := fun t => if h : ∃ x, R' t x then Classical.choose h else 0
  have hc : ∀ t x, R' t x → x = c t := by
    intro t x hx
    have he : ∃ x, R' t x := ⟨x, hx⟩
    have := Classical.choose_spec he
    simp only [c, dif_pos he]
    exact hu' t _ _ hx this
  have e' : xs' = (ts'.filter (fun t => decide (P' t))).map c := forall₂_eq_map hx' (fun a _ b hb => hc a b hb)
  have e : xs = (us.filter (fun t => decide (P' t))).map c := by
    clear h2 hx' e'
    induction h1 generalizing xs with
    | nil => cases hx; rfl
    | @cons t u ts us htu _ ih =>
      have hPt := hP t List.mem_cons_self u htu
      by_cases hp : P t
      · rw [List.filter_cons_of_pos (by simpa using hp)] at hx
        rw [List.filter_cons_of_pos (by simpa using hPt.2 hp), List.map_cons]
        cases hx with
        | cons a b =>
          rw [← hc u _ ((hR t List.mem_cons_self hp u htu _).2 a)]
          rw [ih (fun t ht => hP t (List.mem_cons_of_mem _ ht)) (fun t ht => hR t (List.mem_cons_of_mem _ ht)) b]
      · rw [List.filter_cons_of_neg (by simpa using hp)] at hx
        rw [List.filter_cons_of_neg (by simpa using fun hq => hp (hPt.1 hq))]
        exact ih (fun t ht => hP t (List.mem_cons_of_mem _ ht)) (fun t ht => hR t (List.mem_cons_of_mem _ ht)) hx
  have hp : xs'.Perm (List.replicate n xs).flatten := by
    rw [e', e]
    refine ((h2.filter _).map c).trans ?_
    rw [List.filter_flatten, List.map_flatten, List.map_replicate, List.map_replicate]
  rw [meanNat_perm hp, meanNat_repeat _ hn]

theorem condDepth_unique {t : LTree} {f g x y : Nat} (h : CondDepth t f g x) (h' : CondDepth t f g y) : x = y := by
  obtain ⟨⟨k, s, a, b⟩, c⟩ := h
  obtain ⟨⟨k', s', a', b'⟩, c'⟩ := h'
  have := c k' s' y a' b'
  have := c' k s x a b
  omega

theorem minDepth_unique {t : LTree} {f x y : Nat} (h : MinDepth t f x) (h' : MinDepth t f y) : x = y := by
  obtain ⟨s, hs⟩ := h
  obtain ⟨s', hs'⟩ := h'
  exact shallowest_depth hs hs'

theorem meanCondDepth_same {swap : Bool} {σ : Nat → Nat} (hσ : Function.Injective σ) {n : Nat} (hn : 0 < n) {ts ts' : List LTree}
    (h : SameTrees swap σ n ts ts') {f g : Nat} (hsw : swap = false ∨ ∀ t ∈ ts, AlwaysBelow t f g) {v v' : Num K}
    (hv : IsMeanCondDepth ts f g v) (hv' : IsMeanCondDepth ts' (σ f) (σ g) v') : v' = v := by
  classical
  obtain ⟨xs, h1, rfl⟩ := hv
  obtain ⟨xs', h1', rfl⟩ := hv'
  refine means_eq hn h (P := fun t => Uses t f ∧ Uses t g) (P' := fun t => Uses t (σ f) ∧ Uses t (σ g))
    (R := fun t x => CondDepth t f g x) (R' := fun t x => CondDepth t (σ f) (σ g) x) ?_ ?_ ?_ ?_ (by convert h1) (by convert h1')
  · intro t _ t' ht
    rw [ht.uses hσ, ht.uses hσ]
  · intro t ht _ t' htt x
    exact htt.condDepth hσ (hsw.imp id (fun hb => hb t ht)) x
  · exact fun t x y => condDepth_unique
  · exact fun t x y => condDepth_unique

theorem meanMinDepth_same {swap : Bool} {σ : Nat → Nat} (hσ : Function.Injective σ) {n : Nat} (hn : 0 < n) {ts ts' : List LTree}
    (h : SameTrees swap σ n ts ts') {f : Nat} {v v' : Num K} (hv : IsMeanMinDepth ts f v) (hv' : IsMeanMinDepth ts' (σ f) v') : v' = v := by
  classical
  obtain ⟨xs, h1, rfl⟩ := hv
  obtain ⟨xs', h1', rfl⟩ := hv'
  refine means_eq hn h (P := fun t => Uses t f) (P' := fun t => Uses t (σ f))
    (R := fun t x => MinDepth t f x) (R' := fun t x => MinDepth t (σ f) x) ?_ ?_ ?_ ?_ (by convert h1) (by convert h1')
  · intro t _ t' ht
    rw [ht.uses hσ]
  · intro t ht _ t' htt x
    exact htt.minDepth hσ f x
  · exact fun t x y => minDepth_unique
  · exact fun t x y => minDepth_unique

theorem countP_repeat {α : Type} (p : α → Bool) (l : List α) (n : Nat) : (List.replicate n l).flatten.countP p = n * l.countP p := by
  induction n with
  | zero => simp
  | succ n ih => rw [List.replicate_succ, List.flatten_cons, List.countP_append, ih]; ring

theorem occurrences_same {swap : Bool} {σ : Nat → Nat} (hσ : Function.Injective σ) {n : Nat} {ts ts' : List LTree}
    (h : SameTrees swap σ n ts ts') (f g : Nat) : occurrences ts' (σ f) (σ g) = n * occurrences ts f g := by
  classical
  obtain ⟨us, h1, h2⟩ := h
  unfold occurrences
  rw [h2.countP_eq, countP_repeat]
  congr 1
  clear h2
  induction h1 with
  | nil => rfl
  | cons hh _ ih => rw [List.countP_cons, List.countP_cons, ih]; simp only [hh.occurs hσ]

end means
end Artemis
