import Verif.Proofs.CorrLemmas
import Verif.Props.Lifecycle

/-!
# C49–C52, C72: the method comparator
-/

set_option linter.unusedSectionVars false
set_option linter.unusedVariables false
set_option linter.unusedSimpArgs false

namespace Artemis
open Spec

section Spec49
variable {F J K : Type} [LinearOrder F] [LinearOrder J]

/-- the two rows are about the same two features -/
def SamePair (r q : OvoRow F K) : Prop := r.isPair q.f1 q.f2

/-- no two rows about the same two features -/
def OncePerPair (t : List (OvoRow F K)) : Prop := t.Pairwise (fun r q => ¬ SamePair r q)

/-- Different pairs of features of the table have different texts "f-g" (true for instance if no name contains a dash). -/
def Separates (join : F → F → J) (t : List (OvoRow F K)) : Prop :=
  ∀ r ∈ t, ∀ q ∈ t, pairId join r.f1 r.f2 = pairId join q.f1 q.f2 → SamePair r q

theorem pairId_of_same (join : F → F → J) {r q : OvoRow F K} (h : SamePair r q) :
    pairId join r.f1 r.f2 = pairId join q.f1 q.f2 := by
  rcases h with ⟨h1, h2⟩ | ⟨h1, h2⟩
  · rw [h1, h2]
  · rw [h1, h2, pairId_comm]

/-- the text of a row -/
def rowKey (join : F → F → J) (r : OvoRow F K) : J := pairId join r.f1 r.f2

theorem nodup_keys {join : F → F → J} {t : List (OvoRow F K)} (hs : Separates join t) (ho : OncePerPair t) :
    (t.map (rowKey join)).Nodup := by
  rw [List.Nodup, List.pairwise_map]
  exact ho.imp_of_mem fun ha hb hn e => hn (hs _ ha _ hb e)

end Spec49

section C49
variable {F I J K : Type} [LinearOrder F] [LinearOrder J] [Field K] [LinearOrder K]

theorem rankBoth_ok {join : F → F → J} {m1 m2 : View F I K} {t1 t2 : List (OvoRow F K)} (h1 : m1.cmp = .ok t1) (h2 : m2.cmp = .ok t2)
    (n1 : t1 ≠ []) (n2 : t2 ≠ []) :
    rankBoth join m1 m2 = .ok (bothCodes (catCodes (t1.map (rowKey join))) (catCodes (t2.map (rowKey join)))) := by
  unfold rankBoth rankEncoded
  rw [h1, h2]
  simp only [List.isEmpty_iff, n1, n2, if_false]
  rfl

theorem rankBoth_inv {join : F → F → J} {m1 m2 : View F I K} {l : List (K × K)} (h : rankBoth join m1 m2 = .ok l) :
    ∃ t1 t2, m1.cmp = .ok t1 ∧ m2.cmp = .ok t2 ∧ t1 ≠ [] ∧ t2 ≠ [] := by
  unfold rankBoth rankEncoded at h
  cases h1 : m1.cmp with
  | error e => rw [h1] at h; cases h
  | ok t1 =>
    cases h2 : m2.cmp with
    | error e => rw [h1, h2] at h; cases h
    | ok t2 =>
      rw [h1, h2] at h
      simp only [List.isEmpty_iff] at h
      by_cases n1 : t1 = []
      · simp [n1] at h
      · by_cases n2 : t2 = []
        · simp [n1, n2] at h
        · exact ⟨t1, t2, rfl, rfl, n1, n2⟩

theorem correlation_ok [HasSqrt K] {join : F → F → J} {m1 m2 : View F I K} {t1 t2 : List (OvoRow F K)} (h1 : m1.cmp = .ok t1)
    (h2 : m2.cmp = .ok t2) (n1 : t1 ≠ []) (n2 : t2 ≠ []) (k : CorrKind) :
    correlation join k m1 m2 =
      .ok (corr k (bothCodes (catCodes (t1.map (rowKey join))) (catCodes (t2.map (rowKey join))))) := by
  unfold correlation
  rw [rankBoth_ok h1 h2 n1 n2]

theorem bothCodes_swap (c1 c2 : List Nat) : bothCodes (K := K) c2 c1 = (bothCodes c1 c2).map Prod.swap := by
  unfold bothCodes
  rw [← List.zip_swap c1 c2, List.map_map, List.map_map]
  rfl

/-- **C49** Swapping the two methods does not change the correlation. -/
theorem C49_symmetric [HasSqrt K] (join : F → F → J) (k : CorrKind) (m1 m2 : View F I K) (r : Num K) :
    correlation join k m1 m2 = .ok r ↔ correlation join k m2 m1 = .ok r := by
  have key : ∀ (m1 m2 : View F I K), correlation join k m1 m2 = .ok r → correlation join k m2 m1 = .ok r := by
    intro m1 m2 h
    have h' := h
    unfold correlation at h'
    cases hr : rankBoth join m1 m2 with
    | error e => rw [hr] at h'; cases h'
    | ok l =>
      obtain ⟨t1, t2, h1, h2, n1, n2⟩ := rankBoth_inv hr
      rw [correlation_ok h1 h2 n1 n2] at h
      rw [correlation_ok h2 h1 n2 n1, bothCodes_swap, corr_swap]
      exact h
  exact ⟨key m1 m2, key m2 m1⟩

variable [IsStrictOrderedRing K] [HasSqrt K] [LawfulSqrt K]

/-- **C49** A correlation is between -1 and 1, or NaN. -/
theorem C49_range (join : F → F → J) (k : CorrKind) (m1 m2 : View F I K) (r : Num K) (h : correlation join k m1 m2 = .ok r) :
    r = .nan ∨ ∃ x : K, r = .fin x ∧ -1 ≤ x ∧ x ≤ 1 := by
  unfold correlation at h
  cases hr : rankBoth join m1 m2 with
  | error e => rw [hr] at h; cases h
  | ok l => rw [hr] at h; cases h; exact corr_range k l

/-- **C49** Two fitted methods with at least one row each can be compared; otherwise `correlation` raises. -/
theorem C49_returns (join : F → F → J) (k : CorrKind) (m1 m2 : View F I K) :
    (∃ r, correlation join k m1 m2 = .ok r) ↔ ∃ t1 t2, m1.cmp = .ok t1 ∧ m2.cmp = .ok t2 ∧ t1 ≠ [] ∧ t2 ≠ [] := by
  constructor
  · rintro ⟨r, h⟩
    unfold correlation at h
    cases hr : rankBoth join m1 m2 with
    | error e => rw [hr] at h; cases h
    | ok l => exact rankBoth_inv hr
  · rintro ⟨t1, t2, h1, h2, n1, n2⟩
    exact ⟨_, correlation_ok h1 h2 n1 n2 k⟩

theorem bothCodes_self (c : List Nat) : bothCodes (K := K) c c = (c.map (Nat.cast : Nat → K)).map (fun x => (x, x)) := by
  unfold bothCodes
  induction c with
  | nil => rfl
  | cons a c ih => simp only [List.zip_cons_cons, List.map_cons, ih]

/-- two methods whose tables list the same pairs in the same order -/
theorem corr_same_ranking {join : F → F → J} {m1 m2 : View F I K} {t1 t2 : List (OvoRow F K)} (h1 : m1.cmp = .ok t1)
    (h2 : m2.cmp = .ok t2) (hs : Separates join t1) {r q : OvoRow F K} (hr : r ∈ t1) (hq : q ∈ t1) (hne : ¬ SamePair r q)
    (hsame : List.Forall₂ SamePair t1 t2) (k : CorrKind) : correlation join k m1 m2 = .ok (.fin 1) := by
  have n1 : t1 ≠ [] := List.ne_nil_of_mem hr
  have hkeys : t2.map (rowKey join) = t1.map (rowKey join) := by
    clear hr hq hs n1 h1 h2
    induction hsame with
    | nil => rfl
    | cons h _ ih => rw [List.map_cons, List.map_cons, ih, rowKey, rowKey, pairId_of_same join h]
  have n2 : t2 ≠ [] := by
    intro e
    rw [e] at hkeys
    exact n1 (List.map_eq_nil_iff.1 hkeys.symm)
  rw [correlation_ok h1 h2 n1 n2, hkeys, bothCodes_self]
  have hc : ∀ x ∈ t1, (((npUnique (t1.map (rowKey join))).idxOf (rowKey join x) : Nat) : K) ∈
      (catCodes (t1.map (rowKey join))).map (Nat.cast : Nat → K) := by
    intro x hx
    exact List.mem_map.2 ⟨_, List.mem_map.2 ⟨_, List.mem_map.2 ⟨x, hx, rfl⟩, rfl⟩, rfl⟩
  refine congrArg _ (corr_diag k _ (hc r hr) (hc q hq) ?_)
  intro e
  exact hne (hs r hr q hq (idxOf_npUnique_inj (List.mem_map.2 ⟨r, hr, rfl⟩) (Nat.cast_injective e)))

/-- **C49** Compared with itself a method has correlation 1, provided its table has two rows about different pairs. -/
theorem C49_self (join : F → F → J) {m : View F I K} {t : List (OvoRow F K)} (h : m.cmp = .ok t) (hs : Separates join t)
    {r q : OvoRow F K} (hr : r ∈ t) (hq : q ∈ t) (hne : ¬ SamePair r q) (k : CorrKind) :
    correlation join k m m = .ok (.fin 1) := by
  refine corr_same_ranking h h hs hr hq hne ?_ k
  rw [List.forall₂_same]
  intro x _
  exact Or.inl ⟨rfl, rfl⟩

/-- **C49** When no pair is repeated in either table and there are at least two rows in both, the correlation is a number. -/
theorem C49_number (join : F → F → J) {m1 m2 : View F I K} {t1 t2 : List (OvoRow F K)} (h1 : m1.cmp = .ok t1) (h2 : m2.cmp = .ok t2)
    (hs1 : Separates join t1) (hs2 : Separates join t2) (ho1 : OncePerPair t1) (ho2 : OncePerPair t2) (n1 : 2 ≤ t1.length)
    (n2 : 2 ≤ t2.length) (k : CorrKind) : ∃ x : K, correlation join k m1 m2 = .ok (.fin x) ∧ -1 ≤ x ∧ x ≤ 1 := by
  have e1 : t1 ≠ [] := by rintro rfl; simp at n1
  have e2 : t2 ≠ [] := by rintro rfl; simp at n2
  have hr := correlation_ok (join := join) h1 h2 e1 e2 k
  rcases C49_range join k m1 m2 _ hr with h | ⟨x, hx, hx'⟩
  · exfalso
    have p1 := catCodes_perm (nodup_keys hs1 ho1)
    have p2 := catCodes_perm (nodup_keys hs2 ho2)
    have d1 := p1.symm.nodup List.nodup_range
    have d2 := p2.symm.nodup List.nodup_range
    have l1 : 2 ≤ (catCodes (t1.map (rowKey join))).length := by rw [length_catCodes, List.length_map]; exact n1
    have l2 : 2 ≤ (catCodes (t2.map (rowKey join))).length := by rw [length_catCodes, List.length_map]; exact n2
    generalize catCodes (t1.map (rowKey join)) = c1 at *
    generalize catCodes (t2.map (rowKey join)) = c2 at *
    match c1, c2, l1, l2, d1, d2 with
    | a :: b :: c1, a' :: b' :: c2, _, _, d1, d2 =>
      have hab : a ≠ b := fun e => by simp [e] at d1
      have hab' : a' ≠ b' := fun e => by simp [e] at d2
      refine corr_ne_nan (K := K) k (l := bothCodes (a :: b :: c1) (a' :: b' :: c2)) (p := ((a : K), (a' : K)))
        (q := ((b : K), (b' : K))) (p' := ((a : K), (a' : K))) (q' := ((b : K), (b' : K))) ?_ ?_ ?_ ?_ ?_ ?_ h
      · simp [bothCodes]
      · simp [bothCodes]
      · exact fun e => hab (Nat.cast_injective e)
      · simp [bothCodes]
      · simp [bothCodes]
      · exact fun e => hab' (Nat.cast_injective e)
  · rw [hx] at hr
    exact ⟨x, hr, hx'⟩

/-- **C49** (part) Pearson and Spearman coincide when no pair is repeated and both tables have the same number of rows. Missing:
tables of different length, for which it is false (`C49_pearson_spearman_fails`). -/
theorem C49_pearson_is_spearman_partial (join : F → F → J) {m1 m2 : View F I K} {t1 t2 : List (OvoRow F K)} (h1 : m1.cmp = .ok t1)
    (h2 : m2.cmp = .ok t2) (hs1 : Separates join t1) (hs2 : Separates join t2) (ho1 : OncePerPair t1) (ho2 : OncePerPair t2)
    (hl : t1.length = t2.length) : correlation join .spearman m1 m2 = correlation join .pearson m1 m2 := by
  by_cases e1 : t1 = []
  · unfold correlation
    cases hr : rankBoth join m1 m2 with
    | error e => rfl
    | ok l =>
      obtain ⟨u1, u2, g1, g2, m1', _⟩ := rankBoth_inv hr
      rw [h1] at g1
      cases g1
      exact absurd e1 m1'
  · have e2 : t2 ≠ [] := by
      rintro rfl
      exact e1 (List.length_eq_zero_iff.1 (by simpa using hl))
    rw [correlation_ok h1 h2 e1 e2, correlation_ok h1 h2 e1 e2]
    have p1 := catCodes_perm (nodup_keys hs1 ho1)
    have p2 := catCodes_perm (nodup_keys hs2 ho2)
    rw [List.length_map] at p1 p2
    rw [← hl] at p2
    exact congrArg _ (spearman_codes p1 p2)

end C49

/-! ## C50 -/

section C50
variable {F F' I J J' K : Type} [LinearOrder F] [LinearOrder F'] [LinearOrder J] [LinearOrder J'] [Field K] [LinearOrder K]

/-- the row with its two features renamed -/
def OvoRow.rename (ρ : F → F') (r : OvoRow F K) : OvoRow F' K := ⟨ρ r.f1, ρ r.f2, r.val⟩

/-- **C50** (part) A renaming that keeps the alphabetical order of the texts "f-g" of the pairs within each table does not
change the correlations. Missing: other renamings, for which it is false (`C50_fails`). -/
theorem C50_order_preserving_partial [HasSqrt K] (join : F → F → J) (join' : F' → F' → J') (ρ : F → F') {m1 m2 : View F I K}
    {m1' m2' : View F' I K} {t1 t2 : List (OvoRow F K)} (h1 : m1.cmp = .ok t1) (h2 : m2.cmp = .ok t2)
    (h1' : m1'.cmp = .ok (t1.map (OvoRow.rename ρ))) (h2' : m2'.cmp = .ok (t2.map (OvoRow.rename ρ)))
    (ho : ∀ t ∈ [t1, t2], ∀ r ∈ t, ∀ q ∈ t, pairId join r.f1 r.f2 ≤ pairId join q.f1 q.f2 ↔
      pairId join' (ρ r.f1) (ρ r.f2) ≤ pairId join' (ρ q.f1) (ρ q.f2)) (k : CorrKind) :
    correlation join' k m1' m2' = correlation join k m1 m2 := by
  have hc : ∀ t ∈ [t1, t2], catCodes ((t.map (OvoRow.rename ρ)).map (rowKey join')) = catCodes (t.map (rowKey join)) := by
    intro t ht
    rw [List.map_map]
    exact (catCodes_congr (l := t) (u := rowKey join) (v := rowKey join' ∘ OvoRow.rename ρ) (fun r hr q hq => ho t ht r hr q hq)).symm
  by_cases e1 : t1 = []
  · unfold correlation rankBoth rankEncoded
    rw [h1, h2, h1', h2']
    simp [e1]
  · by_cases e2 : t2 = []
    · unfold correlation rankBoth rankEncoded
      rw [h1, h2, h1', h2']
      simp [e1, e2]
    · rw [correlation_ok h1 h2 e1 e2, correlation_ok h1' h2' (by simpa using e1) (by simpa using e2), hc t1 (by simp), hc t2 (by simp)]

end C50

/-! ## C72 -/

section C72
variable {F I J K : Type} [LinearOrder F] [LinearOrder J] [Field K] [LinearOrder K] [IsStrictOrderedRing K] [HasSqrt K] [LawfulSqrt K]

/-- two lists of codes of the same size that agree in every position -/
theorem eq_of_zip {c1 c2 : List Nat} (hl : c1.length = c2.length) (h : ∀ p ∈ c1.zip c2, p.1 = p.2) : c1 = c2 := by
  have e1 : (c1.zip c2).map Prod.fst = c1 := List.map_fst_zip hl.le
  have e2 : (c1.zip c2).map Prod.snd = c2 := List.map_snd_zip hl.ge
  exact e1.symm.trans ((List.map_congr_left h).trans e2)

theorem pearson_one_imp {c1 c2 : List Nat} {n : Nat} (h1 : c1.Perm (List.range n)) (h2 : c2.Perm (List.range n))
    (h : pearson (bothCodes (K := K) c1 c2) = .fin 1) : c1 = c2 := by
  have hl : c1.length = c2.length := by rw [h1.length_eq, h2.length_eq]
  have e1 : (bothCodes (K := K) c1 c2).map Prod.fst = c1.map (Nat.cast : Nat → K) := by
    unfold bothCodes
    rw [List.map_map]
    show (c1.zip c2).map ((Nat.cast : Nat → K) ∘ Prod.fst) = _
    rw [← List.map_map, List.map_fst_zip hl.le]
  have e2 : (bothCodes (K := K) c1 c2).map Prod.snd = c2.map (Nat.cast : Nat → K) := by
    unfold bothCodes
    rw [List.map_map]
    show (c1.zip c2).map ((Nat.cast : Nat → K) ∘ Prod.snd) = _
    rw [← List.map_map, List.map_snd_zip hl.ge]
  have hp : (c1.map (Nat.cast : Nat → K)).Perm (c2.map (Nat.cast : Nat → K)) := (h1.trans h2.symm).map _
  have hm : kMean (c1.map (Nat.cast : Nat → K)) = kMean (c2.map (Nat.cast : Nat → K)) := by
    unfold kMean; rw [hp.sum_eq, hp.length_eq]
  unfold pearson at h
  split at h
  · cases h
  simp only [e1, e2] at h
  set m := kMean (c1.map (Nat.cast : Nat → K)) with hmdef
  rw [← hm] at h
  split at h
  · cases h
  rename_i hd
  rw [Num.fin.injEq] at h
  set l := bothCodes (K := K) c1 c2 with hldef
  have hss : (l.map (fun p => (p.2 - m) * (p.2 - m))).sum = (l.map (fun p => (p.1 - m) * (p.1 - m))).sum := by
    have a1 : l.map (fun p => (p.1 - m) * (p.1 - m)) = (c1.map (Nat.cast : Nat → K)).map (fun x => (x - m) * (x - m)) := by
      rw [← e1, List.map_map]; rfl
    have a2 : l.map (fun p => (p.2 - m) * (p.2 - m)) = (c2.map (Nat.cast : Nat → K)).map (fun x => (x - m) * (x - m)) := by
      rw [← e2, List.map_map]; rfl
    rw [a1, a2, (hp.map _).sum_eq]
  have hS := sum_sq_nonneg l (fun p => p.1 - m)
  rw [hss, lawful_sqrt_self hS] at h hd
  rw [div_eq_one_iff_eq hd] at h
  have hz : (l.map (fun p => (p.1 - p.2) * (p.1 - p.2))).sum = 0 := by
    have : ∀ l : List (K × K), (l.map (fun p => (p.1 - p.2) * (p.1 - p.2))).sum =
        (l.map (fun p => (p.1 - m) * (p.1 - m))).sum - 2 * (l.map (fun p => (p.1 - m) * (p.2 - m))).sum +
          (l.map (fun p => (p.2 - m) * (p.2 - m))).sum := by
      intro l
      induction l with
      | nil => simp
      | cons p l ih => simp only [List.map_cons, List.sum_cons]; rw [ih]; ring
    rw [this l, hss, h]
    ring
  have hall := sum_sq_eq_zero l (fun p => p.1 - p.2) hz
  refine eq_of_zip hl fun p hpm => ?_
  have := hall ((p.1 : K), (p.2 : K)) (List.mem_map.2 ⟨p, hpm, rfl⟩)
  exact Nat.cast_injective (sub_eq_zero.1 this)

theorem npSign_mul_le (x y : K) : npSign x * npSign y ≤ 1 := by
  unfold npSign
  split_ifs <;> norm_num

theorem npSign_mul_eq_one {x y : K} (h : npSign x * npSign y = 1) : (0 < x ∧ 0 < y) ∨ (x < 0 ∧ y < 0) := by
  unfold npSign at h
  split_ifs at h with h1 h2 h3 h4 h5 h6
  all_goals first
    | exact Or.inl ⟨by assumption, by assumption⟩
    | exact Or.inr ⟨by assumption, by assumption⟩
    | (exfalso; norm_num at h)

/-- a sum of numbers up to 1 that reaches the number of terms -/
theorem all_one_of_sum {α : Type} {l : List α} {u : α → K} (hu : ∀ a ∈ l, u a ≤ 1) (h : (l.map u).sum = (l.length : K)) :
    ∀ a ∈ l, u a = 1 := by
  induction l with
  | nil => intro a ha; cases ha
  | cons a l ih =>
    have hle : (l.map u).sum ≤ (l.length : K) := by
      clear ih h
      have hu' : ∀ b ∈ l, u b ≤ 1 := fun b hb => hu b (List.mem_cons_of_mem _ hb)
      clear hu
      induction l with
      | nil => simp
      | cons b l ih =>
        simp only [List.map_cons, List.sum_cons, List.length_cons]
        push_cast
        have := ih (fun c hc => hu' c (List.mem_cons_of_mem _ hc))
        have := hu' b List.mem_cons_self
        linarith
    simp only [List.map_cons, List.sum_cons, List.length_cons] at h
    push_cast at h
    have ha := hu a List.mem_cons_self
    have e1 : u a = 1 := by linarith
    have e2 : (l.map u).sum = (l.length : K) := by linarith
    intro b hb
    rcases List.mem_cons.1 hb with rfl | hb
    · exact e1
    · exact ih (fun c hc => hu c (List.mem_cons_of_mem _ hc)) e2 b hb

theorem kendall_one_imp {c1 c2 : List Nat} {n : Nat} (h1 : c1.Perm (List.range n)) (h2 : c2.Perm (List.range n))
    (h : kendall (bothCodes (K := K) c1 c2) = .fin 1) : c1 = c2 := by
  have hl : c1.length = c2.length := by rw [h1.length_eq, h2.length_eq]
  have d1 := h1.symm.nodup List.nodup_range
  have d2 := h2.symm.nodup List.nodup_range
  have m1 : (c1.zip c2).map Prod.fst = c1 := List.map_fst_zip hl.le
  have m2 : (c1.zip c2).map Prod.snd = c2 := List.map_snd_zip hl.ge
  have pw : (c1.zip c2).Pairwise (fun p q => p.1 ≠ q.1 ∧ p.2 ≠ q.2) := by
    rw [List.pairwise_and_iff]
    constructor
    · have := d1; rw [← m1, List.Nodup, List.pairwise_map] at this; exact this
    · have := d2; rw [← m2, List.Nodup, List.pairwise_map] at this; exact this
  have hcomb : ∀ (l : List (Nat × Nat)), l.Pairwise (fun p q => p.1 ≠ q.1 ∧ p.2 ≠ q.2) →
      ∀ q ∈ combinations2 l, q.1.1 ≠ q.2.1 ∧ q.1.2 ≠ q.2.2 := by
    intro l hl
    induction hl with
    | nil => intro q hq; cases hq
    | cons hx _ ih =>
      intro q hq
      simp only [combinations2, List.mem_append, List.mem_map] at hq
      rcases hq with ⟨y, hy, rfl⟩ | hq
      · exact hx y hy
      · exact ih q hq
  have hno := hcomb _ pw
  unfold kendall bothCodes at h
  simp only [combinations2_map, List.length_map, List.countP_map, List.map_map, Function.comp_def, Prod.map_fst, Prod.map_snd] at h
  have z1 : (combinations2 (c1.zip c2)).countP (fun x => decide ((x.1.1 : K) = (x.2.1 : K))) = 0 := by
    rw [List.countP_eq_zero]
    intro q hq e
    exact (hno q hq).1 (Nat.cast_injective (of_decide_eq_true e))
  have z2 : (combinations2 (c1.zip c2)).countP (fun x => decide ((x.1.2 : K) = (x.2.2 : K))) = 0 := by
    rw [List.countP_eq_zero]
    intro q hq e
    exact (hno q hq).2 (Nat.cast_injective (of_decide_eq_true e))
  rw [z1, z2] at h
  split at h
  · cases h
  rename_i hne
  rw [Num.fin.injEq, div_div, Nat.sub_zero] at h
  have hpos : (0 : K) < ((combinations2 (c1.zip c2)).length : K) := by
    have : 0 < (combinations2 (c1.zip c2)).length := by
      rcases Nat.eq_zero_or_pos (combinations2 (c1.zip c2)).length with e | e
      · exact absurd (Or.inl e.symm) hne
      · exact e
    exact_mod_cast this
  rw [LawfulSqrt.mul_self _ hpos.le, div_eq_one_iff_eq hpos.ne'] at h
  have hone := all_one_of_sum (l := combinations2 (c1.zip c2)) (fun q _ => npSign_mul_le _ _) h
  have hlt : ∀ p ∈ c1.zip c2, ∀ q ∈ c1.zip c2, q.1 < p.1 ↔ q.2 < p.2 := by
    intro p hp q hq
    by_cases e : q = p
    · rw [e]; simp
    · rcases mem_or_mem_combinations2 hq hp e with hm | hm
      · rcases npSign_mul_eq_one (hone _ hm) with ⟨a, b⟩ | ⟨a, b⟩
        · rw [sub_pos, Nat.cast_lt] at a b
          dsimp only at a b
          exact ⟨fun h => absurd h (by omega), fun h => absurd h (by omega)⟩
        · rw [sub_neg, Nat.cast_lt] at a b
          dsimp only at a b
          exact ⟨fun _ => b, fun _ => a⟩
      · rcases npSign_mul_eq_one (hone _ hm) with ⟨a, b⟩ | ⟨a, b⟩
        · rw [sub_pos, Nat.cast_lt] at a b
          dsimp only at a b
          exact ⟨fun _ => b, fun _ => a⟩
        · rw [sub_neg, Nat.cast_lt] at a b
          dsimp only at a b
          exact ⟨fun h => absurd h (by omega), fun h => absurd h (by omega)⟩
  refine eq_of_zip hl fun p hp => ?_
  have hc : ∀ {c : List Nat}, c.Perm (List.range n) → ∀ x ∈ c, x = c.countP (fun y => decide (y < x)) := by
    intro c hc x hx
    rw [hc.countP_eq, countP_lt_range (List.mem_range.1 (hc.mem_iff.1 hx)).le]
  have hm := List.of_mem_zip (a := p.1) (b := p.2) hp
  rw [hc h1 _ hm.1, hc h2 _ hm.2]
  have a1 : c1.countP (fun y => decide (y < p.1)) = (c1.zip c2).countP (fun q => decide (q.1 < p.1)) := by
    conv_lhs => rw [← m1]
    rw [List.countP_map]; rfl
  have a2 : c2.countP (fun y => decide (y < p.2)) = (c1.zip c2).countP (fun q => decide (q.2 < p.2)) := by
    conv_lhs => rw [← m2]
    rw [List.countP_map]; rfl
  rw [a1, a2]
  apply List.countP_congr
  intro q hq
  simp only [decide_eq_true_eq]
  exact hlt p hp q hq

/-- the two tables list the same unordered pairs -/
def SamePairs (t1 t2 : List (OvoRow F K)) : Prop := ∀ f g, (∃ r ∈ t1, r.isPair f g) ↔ ∃ r ∈ t2, r.isPair f g

theorem npUnique_congr {V : Type} [LinearOrder V] {a b : List V} (h : ∀ v, v ∈ a ↔ v ∈ b) : npUnique a = npUnique b := by
  have hp : (npUnique a).Perm (npUnique b) := by
    rw [List.perm_ext_iff_of_nodup (nodup_npUnique _) (nodup_npUnique _)]
    intro v
    rw [mem_npUnique, mem_npUnique, h]
  exact hp.eq_of_pairwise (fun x y _ _ h1 h2 => absurd h1 (not_lt.2 h2.le)) (sorted_npUnique a) (sorted_npUnique b)

/-- **C72** (part) For two methods listing the same pairs, at least two, each once: the correlation of any kind is 1 exactly when
both rank the pairs in the same order. Missing: -1 for opposite orders, which is false (`C72_opposite_fails`). -/
theorem C72_one_iff_same_ranking_partial (join : F → F → J) {m1 m2 : View F I K} {t1 t2 : List (OvoRow F K)} (h1 : m1.cmp = .ok t1)
    (h2 : m2.cmp = .ok t2) (hs : Separates join (t1 ++ t2)) (ho1 : OncePerPair t1) (ho2 : OncePerPair t2) (n1 : 2 ≤ t1.length)
    (hp : SamePairs t1 t2) (k : CorrKind) :
    correlation join k m1 m2 = .ok (.fin 1) ↔ List.Forall₂ SamePair t1 t2 := by
  have hs1 : Separates join t1 := fun r hr q hq => hs r (List.mem_append_left _ hr) q (List.mem_append_left _ hq)
  have hs2 : Separates join t2 := fun r hr q hq => hs r (List.mem_append_right _ hr) q (List.mem_append_right _ hq)
  constructor
  · intro h
    have hk : ∀ v, v ∈ t1.map (rowKey join) ↔ v ∈ t2.map (rowKey join) := by
      intro v
      constructor
      · intro hv
        obtain ⟨r, hr, rfl⟩ := List.mem_map.1 hv
        obtain ⟨q, hq, hqp⟩ := (hp r.f1 r.f2).1 ⟨r, hr, Or.inl ⟨rfl, rfl⟩⟩
        exact List.mem_map.2 ⟨q, hq, pairId_of_same join hqp⟩
      · intro hv
        obtain ⟨r, hr, rfl⟩ := List.mem_map.1 hv
        obtain ⟨q, hq, hqp⟩ := (hp r.f1 r.f2).2 ⟨r, hr, Or.inl ⟨rfl, rfl⟩⟩
        exact List.mem_map.2 ⟨q, hq, pairId_of_same join hqp⟩
    have k1 := nodup_keys hs1 ho1
    have k2 := nodup_keys hs2 ho2
    have hperm : (t1.map (rowKey join)).Perm (t2.map (rowKey join)) := (List.perm_ext_iff_of_nodup k1 k2).2 hk
    have hlen : t1.length = t2.length := by have := hperm.length_eq; simpa using this
    have e1 : t1 ≠ [] := by rintro rfl; simp at n1
    have e2 : t2 ≠ [] := by rintro rfl; simp at hlen; simp [hlen] at n1
    have p1 := catCodes_perm k1
    have p2 := catCodes_perm k2
    rw [List.length_map] at p1 p2
    rw [← hlen] at p2
    have hcodes : catCodes (t1.map (rowKey join)) = catCodes (t2.map (rowKey join)) := by
      have hpear : ∀ kk, corr kk (bothCodes (K := K) (catCodes (t1.map (rowKey join))) (catCodes (t2.map (rowKey join)))) = .fin 1 →
          catCodes (t1.map (rowKey join)) = catCodes (t2.map (rowKey join)) := by
        intro kk hkk
        cases kk with
        | pearson => exact pearson_one_imp p1 p2 hkk
        | kendall => exact kendall_one_imp p1 p2 hkk
        | spearman => exact pearson_one_imp p1 p2 ((spearman_codes p1 p2).symm.trans hkk)
      rw [correlation_ok h1 h2 e1 e2, Except.ok.injEq] at h
      exact hpear k h
    unfold catCodes at hcodes
    rw [npUnique_congr hk, List.map_map, List.map_map] at hcodes
    rw [List.forall₂_iff_get]
    refine ⟨hlen, fun i hi1 hi2 => ?_⟩
    have hi := congrArg (fun l => l[i]?) hcodes
    simp only [List.getElem?_map, List.getElem?_eq_getElem hi1, List.getElem?_eq_getElem hi2, Option.map_some, Option.some.injEq,
      Function.comp_apply] at hi
    have := (List.idxOf_inj (mem_npUnique.2 ((hk _).1 (List.mem_map.2 ⟨t1[i], List.getElem_mem hi1, rfl⟩)))).1 hi
    exact hs _ (List.mem_append_left _ (List.getElem_mem hi1)) _ (List.mem_append_right _ (List.getElem_mem hi2)) this
  · intro hsame
    match t1, n1, h1, ho1, hs1, hsame with
    | a :: b :: t, _, h1, ho1, hs1, hsame =>
      refine corr_same_ranking h1 h2 hs1 (r := a) (q := b) (by simp) (by simp) ?_ hsame k
      exact (List.pairwise_cons.1 ho1).1 b (by simp)

end C72

/-! ## C51 -/

section C51
variable {F I J K : Type} [LinearOrder F] [LinearOrder J] [Field K] [LinearOrder K] [HasSqrt K]

theorem pyMax_ok_iff (l : List (Num K)) : (∃ x, pyMax l = .ok x) ↔ l ≠ [] := by
  cases l with
  | nil => simp [pyMax]
  | cons a l => simp [pyMax]

/-- what a plot made from the comparison tables `t1`, `t2` of two methods looks like -/
theorem plot_inv {join : F → F → J} {m1 m2 : View F I K} {n : Int} {addBox : Bool} {c : Comparator F K} {p : CmpPlot F K}
    (h : Comparator.comparisonPlot join m1 m2 n addBox c = .ok p) :
    ∃ t1 t2 ps box, m1.cmp = .ok t1 ∧ m2.cmp = .ok t2 ∧ t1 ≠ [] ∧ t2 ≠ [] ∧ t1.mapM (cmpPoint m2) = .ok ps ∧
      cmpBox join c m1 m2 addBox = .ok box ∧
      p = { xlabel := m1.name, ylabel := m2.name, points := ps.map (fun p => (p.1.val, p.2)),
            labels := (ps.take n.toNat).map (fun p => (p.1.f1, p.1.f2, p.1.val, p.2)), invertX := m1.asc, invertY := m2.asc,
            box := box } := by
  unfold Comparator.comparisonPlot at h
  cases h1 : m1.cmp with
  | error e => rw [h1] at h; cases h
  | ok t1 =>
    rw [h1] at h
    cases g1 : pyMax (t1.map OvoRow.val) with
    | error e => simp only [g1] at h; cases h
    | ok x1 =>
      cases h2 : m2.cmp with
      | error e => simp only [g1, h2] at h; cases h
      | ok t2 =>
        cases g2 : pyMax (t2.map OvoRow.val) with
        | error e => simp only [g1, h2, g2] at h; cases h
        | ok x2 =>
          cases hm : t1.mapM (cmpPoint m2) with
          | error e => simp only [g1, h2, g2, hm] at h; cases h
          | ok ps =>
            cases hb : cmpBox join c m1 m2 addBox with
            | error e => simp only [g1, h2, g2, hm, hb] at h; cases h
            | ok box =>
              simp only [g1, h2, g2, hm, hb] at h
              cases h
              refine ⟨t1, t2, ps, box, rfl, rfl, ?_, ?_, hm, rfl, rfl⟩
              · have := (pyMax_ok_iff _).1 ⟨x1, g1⟩; simpa using this
              · have := (pyMax_ok_iff _).1 ⟨x2, g2⟩; simpa using this

/-- a successful loop -/
theorem mapM_cmpPoint {m2 : View F I K} {t : List (OvoRow F K)} {ps : List (OvoRow F K × Num K)} (h : t.mapM (cmpPoint m2) = .ok ps) :
    List.Forall₂ (fun r p => p.1 = r ∧ m2.interactionValue r.f1 r.f2 = .ok p.2) t ps := by
  induction t generalizing ps with
  | nil => rw [List.mapM_nil] at h; cases h; exact .nil
  | cons r t ih =>
    rw [mapM_cons_except] at h
    cases hr : cmpPoint m2 r with
    | error e => rw [hr] at h; cases h
    | ok p =>
      rw [hr] at h
      cases hm : t.mapM (cmpPoint m2) with
      | error e => simp only [hm] at h; cases h
      | ok ps' =>
        simp only [hm] at h
        cases h
        refine .cons ?_ (ih hm)
        unfold cmpPoint at hr
        split at hr
        · cases hr
        · next y hy => cases hr; exact ⟨rfl, hy⟩

/-- **C51** A drawn comparison plot has one point per row of the first method's table (the table of pairs it is compared by),
in that order: its x coordinate is the value in the row, its y coordinate the second method's `interaction_value` of the same two
features. The labelled points are the first `n_labels` ones, labelled with these two features. The axes bear the names of the
methods and are inverted for methods where smaller is stronger. -/
theorem C51_points (join : F → F → J) {m1 m2 : View F I K} {n : Int} {addBox : Bool} {c : Comparator F K} {p : CmpPlot F K}
    (h : Comparator.comparisonPlot join m1 m2 n addBox c = .ok p) :
    ∃ t1, m1.cmp = .ok t1 ∧
      List.Forall₂ (fun r xy => xy.1 = r.val ∧ m2.interactionValue r.f1 r.f2 = .ok xy.2) t1 p.points ∧
      List.Forall₂ (fun r l => l.1 = r.f1 ∧ l.2.1 = r.f2 ∧ l.2.2.1 = r.val ∧ m2.interactionValue r.f1 r.f2 = .ok l.2.2.2)
        (t1.take n.toNat) p.labels ∧
      p.xlabel = m1.name ∧ p.ylabel = m2.name ∧ p.invertX = m1.asc ∧ p.invertY = m2.asc := by
  obtain ⟨t1, t2, ps, box, h1, h2, _, _, hm, _, rfl⟩ := plot_inv h
  have hf := mapM_cmpPoint hm
  refine ⟨t1, h1, ?_, ?_, rfl, rfl, rfl, rfl⟩
  · rw [List.forall₂_map_right_iff]
    exact hf.imp fun r p hp => by rw [hp.1]; exact ⟨rfl, hp.2⟩
  · rw [List.forall₂_map_right_iff]
    exact (List.forall₂_take n.toNat hf).imp fun r p hp => by rw [hp.1]; exact ⟨rfl, rfl, rfl, hp.2⟩

theorem mapM_cmpPoint_ok {m2 : View F I K} {t : List (OvoRow F K)} (h : ∀ r ∈ t, ∃ y, m2.interactionValue r.f1 r.f2 = .ok y) :
    ∃ ps, t.mapM (cmpPoint m2) = .ok ps := by
  obtain ⟨ps, hps, _⟩ := mapM_exists_ok (f := cmpPoint m2) (l := t) (fun r hr => by
    obtain ⟨y, hy⟩ := h r hr
    exact ⟨(r, y), by unfold cmpPoint; rw [hy]⟩)
  exact ⟨ps, hps⟩

theorem find_boxLines {d : List (CorrKind × Num K)} {x y z : Num K} (h : d = [(.pearson, x), (.kendall, y), (.spearman, z)]) :
    boxLines d = .ok d := by
  subst h; rfl

theorem correlations_shape {join : F → F → J} {m1 m2 : View F I K} {d : List (CorrKind × Num K)}
    (h : correlations join m1 m2 = .ok d) :
    ∃ x y z, d = [(.pearson, x), (.kendall, y), (.spearman, z)] ∧ correlation join .pearson m1 m2 = .ok x ∧
      correlation join .kendall m1 m2 = .ok y ∧ correlation join .spearman m1 m2 = .ok z := by
  unfold correlations CorrKind.all at h
  rw [mapM_cons_except, mapM_cons_except, mapM_cons_except, List.mapM_nil] at h
  cases h1 : correlation join .pearson m1 m2 with
  | error e => rw [h1] at h; cases h
  | ok x =>
    cases h2 : correlation join .kendall m1 m2 with
    | error e => rw [h1, h2] at h; cases h
    | ok y =>
      cases h3 : correlation join .spearman m1 m2 with
      | error e => rw [h1, h2, h3] at h; cases h
      | ok z =>
        rw [h1, h2, h3] at h
        cases h
        exact ⟨x, y, z, rfl, rfl, rfl, rfl⟩

theorem correlations_ok {join : F → F → J} {m1 m2 : View F I K} {t1 t2 : List (OvoRow F K)} (h1 : m1.cmp = .ok t1)
    (h2 : m2.cmp = .ok t2) (n1 : t1 ≠ []) (n2 : t2 ≠ []) : ∃ d, correlations join m1 m2 = .ok d := by
  unfold correlations CorrKind.all
  rw [mapM_cons_except, mapM_cons_except, mapM_cons_except, List.mapM_nil, correlation_ok h1 h2 n1 n2, correlation_ok h1 h2 n1 n2,
    correlation_ok h1 h2 n1 n2]
  exact ⟨_, rfl⟩

/-- **C51** Two fitted methods whose tables list the same pairs, at least one, each once, can be plotted against each other on a
new comparator, and then the points are exactly the pairs of values the two tables have for the same two features: one point per
pair. -/
theorem C51_same_pairs [LinearOrder I] {sort sort' : PairSort F K} (hs : ∀ asc, SortsBy OvoRow.val asc (sort asc))
    (hs' : ∀ asc, SortsBy OvoRow.val asc (sort' asc)) (join : F → F → J) {m1 m2 : View F I K}
    (hv1 : m1.cmp = compareBase sort m1.asc m1.ovo) (hv2 : m2.cmp = compareBase sort' m2.asc m2.ovo) {t1 t2 : List (OvoRow F K)}
    (h1 : m1.ovo = some t1) (h2 : m2.ovo = some t2) (ho2 : ∀ r ∈ t2, t2.countP (fun q => decide (q.isPair r.f1 r.f2)) = 1)
    (hp : SamePairs t1 t2) (n1 : t1 ≠ []) (n : Int) (addBox : Bool) :
    ∃ p, Comparator.comparisonPlot join m1 m2 n addBox Comparator.new = .ok p ∧ p.points.length = t1.length ∧
      (∀ x y, (x, y) ∈ p.points ↔ ∃ r ∈ t1, ∃ q ∈ t2, SamePair r q ∧ x = r.val ∧ y = q.val) := by
  have n2 : t2 ≠ [] := by
    intro e
    cases ht : t1 with
    | nil => exact n1 ht
    | cons r t =>
      obtain ⟨q, hq, _⟩ := (hp r.f1 r.f2).1 ⟨r, by rw [ht]; exact List.mem_cons_self, Or.inl ⟨rfl, rfl⟩⟩
      rw [e] at hq; cases hq
  obtain ⟨p1, _⟩ := hs m1.asc t1
  obtain ⟨p2, _⟩ := hs' m2.asc t2
  have c1 : m1.cmp = .ok (sort m1.asc t1) := by rw [hv1, h1]; rfl
  have c2 : m2.cmp = .ok (sort' m2.asc t2) := by rw [hv2, h2]; rfl
  have hval : ∀ r ∈ t1, ∀ q ∈ t2, SamePair r q → m2.interactionValue r.f1 r.f2 = .ok q.val := by
    intro r hr q hq hrq
    have hqr : q.isPair r.f1 r.f2 := by
      rcases hrq with ⟨a, b⟩ | ⟨a, b⟩
      · exact Or.inl ⟨a.symm, b.symm⟩
      · exact Or.inr ⟨b.symm, a.symm⟩
    refine ((C47_lookup hs' hv2 h2 r.f1 r.f2).2.2 q hq hqr) ?_
    rw [← ho2 q hq]
    apply List.countP_congr
    intro z _
    simp only [decide_eq_true_eq]
    rcases hrq with ⟨a, b⟩ | ⟨a, b⟩
    · rw [a, b]
    · rw [a, b]; unfold OvoRow.isPair; tauto
  have hex : ∀ r ∈ t1, ∃ q ∈ t2, SamePair r q := by
    intro r hr
    obtain ⟨q, hq, hqp⟩ := (hp r.f1 r.f2).1 ⟨r, hr, Or.inl ⟨rfl, rfl⟩⟩
    refine ⟨q, hq, ?_⟩
    rcases hqp with ⟨a, b⟩ | ⟨a, b⟩
    · exact Or.inl ⟨a.symm, b.symm⟩
    · exact Or.inr ⟨b.symm, a.symm⟩
  obtain ⟨ps, hps⟩ := mapM_cmpPoint_ok (m2 := m2) (t := sort m1.asc t1) (fun r hr => by
    have hr := p1.mem_iff.1 hr
    obtain ⟨q, hq, hrq⟩ := hex r hr
    exact ⟨_, hval r hr q hq hrq⟩)
  have s1 : sort m1.asc t1 ≠ [] := fun e => n1 (List.perm_nil.1 (e ▸ p1.symm))
  have s2 : sort' m2.asc t2 ≠ [] := fun e => n2 (List.perm_nil.1 (e ▸ p2.symm))
  obtain ⟨x1, hx1⟩ := (pyMax_ok_iff ((sort m1.asc t1).map OvoRow.val)).2 (by simpa using s1)
  obtain ⟨x2, hx2⟩ := (pyMax_ok_iff ((sort' m2.asc t2).map OvoRow.val)).2 (by simpa using s2)
  have hbox : ∃ b, cmpBox join (Comparator.new : Comparator F K) m1 m2 addBox = .ok b := by
    unfold cmpBox Comparator.new
    cases addBox with
    | false => exact ⟨none, rfl⟩
    | true =>
      obtain ⟨d, hd⟩ := correlations_ok (join := join) c1 c2 s1 s2
      obtain ⟨x, y, z, e, _⟩ := correlations_shape hd
      refine ⟨some d, ?_⟩
      simp only [if_true, hd, find_boxLines e]
      rfl
  obtain ⟨b, hb⟩ := hbox
  have hplot : Comparator.comparisonPlot join m1 m2 n addBox Comparator.new = .ok
      { xlabel := m1.name, ylabel := m2.name, points := ps.map (fun p => (p.1.val, p.2)),
        labels := (ps.take n.toNat).map (fun p => (p.1.f1, p.1.f2, p.1.val, p.2)), invertX := m1.asc, invertY := m2.asc,
        box := b } := by
    unfold Comparator.comparisonPlot
    rw [c1]
    simp only [hx1, c2, hx2, hps, hb]
  have hf := mapM_cmpPoint hps
  refine ⟨_, hplot, ?_, ?_⟩
  · rw [List.length_map, ← hf.length_eq, p1.length_eq]
  · intro x y
    constructor
    · intro hxy
      obtain ⟨p, hpm, e⟩ := List.mem_map.1 hxy
      cases e
      obtain ⟨i, hi, rfl⟩ := List.mem_iff_getElem.1 hpm
      have hi' : i < (sort m1.asc t1).length := by rw [hf.length_eq]; exact hi
      have := (List.forall₂_iff_get.1 hf).2 i hi' hi
      simp only [List.get_eq_getElem] at this
      have hr : (sort m1.asc t1)[i] ∈ t1 := p1.mem_iff.1 (List.getElem_mem hi')
      obtain ⟨q, hq, hrq⟩ := hex _ hr
      have hv := hval _ hr q hq hrq
      rw [this.2] at hv
      exact ⟨_, hr, q, hq, hrq, by rw [this.1], Except.ok.inj hv⟩
    · rintro ⟨r, hr, q, hq, hrq, rfl, rfl⟩
      obtain ⟨i, hi, hri⟩ := List.mem_iff_getElem.1 (p1.mem_iff.2 hr)
      have hi' : i < ps.length := by rw [← hf.length_eq]; exact hi
      have := (List.forall₂_iff_get.1 hf).2 i hi hi'
      simp only [List.get_eq_getElem, hri] at this
      have hv := hval r hr q hq hrq
      rw [this.2] at hv
      refine List.mem_map.2 ⟨ps[i], List.getElem_mem hi', ?_⟩
      rw [this.1, Except.ok.inj hv]

end C51

/-! ## C52 -/

section C52
variable {F I J K : Type} [LinearOrder F] [LinearOrder J] [Field K] [LinearOrder K] [HasSqrt K]

/-- the calls a user can make on a comparator -/
inductive CmpCall (F I K : Type)
  | summary (m1 m2 : View F I K)
  | correlations (m1 m2 : View F I K)
  | plot (m1 m2 : View F I K) (nLabels : Int) (addBox : Bool)

/-- what a call leaves behind (`correlations` and `comparison_plot` assign no attribute) -/
def CmpCall.run (join : F → F → J) (call : CmpCall F I K) (c : Comparator F K) : Comparator F K :=
  match call with
  | .summary m1 m2 => (Comparator.summary join m1 m2 c).2
  | .correlations _ _ => c
  | .plot _ _ _ _ => c

/-- a comparator after a history of calls -/
def runCmp (join : F → F → J) (h : List (CmpCall F I K)) : Comparator F K := h.foldl (fun c call => call.run join c) Comparator.new

/-- the box of the plot shows the three correlations of these two methods -/
def BoxOf (join : F → F → J) (m1 m2 : View F I K) (p : CmpPlot F K) : Prop :=
  ∃ x y z, p.box = some [(.pearson, x), (.kendall, y), (.spearman, z)] ∧ correlation join .pearson m1 m2 = .ok x ∧
    correlation join .kendall m1 m2 = .ok y ∧ correlation join .spearman m1 m2 = .ok z

theorem box_fresh {join : F → F → J} {m1 m2 : View F I K} {n : Int} {c : Comparator F K} {p : CmpPlot F K}
    (hc : c.correlationsDf = none ∨ ∃ d, c.correlationsDf = some d ∧ correlations join m1 m2 = .ok d)
    (h : Comparator.comparisonPlot join m1 m2 n true c = .ok p) : BoxOf join m1 m2 p := by
  obtain ⟨t1, t2, ps, box, h1, h2, _, _, hm, hb, rfl⟩ := plot_inv h
  have key : ∃ d, correlations join m1 m2 = .ok d ∧ box = some d := by
    unfold cmpBox at hb
    simp only [if_true] at hb
    rcases hc with hc | ⟨d, hc, hd⟩
    · rw [hc] at hb
      simp only [] at hb
      cases hd : correlations join m1 m2 with
      | error e => rw [hd] at hb; cases hb
      | ok d =>
        obtain ⟨x, y, z, e, _⟩ := correlations_shape hd
        simp only [hd, find_boxLines e] at hb
        cases hb
        exact ⟨d, rfl, rfl⟩
    · obtain ⟨x, y, z, e, _⟩ := correlations_shape hd
      rw [hc] at hb
      simp only [find_boxLines e] at hb
      cases hb
      exact ⟨d, hd, rfl⟩
  obtain ⟨d, hd, rfl⟩ := key
  obtain ⟨x, y, z, e, a, b, c⟩ := correlations_shape hd
  exact ⟨x, y, z, by rw [e], a, b, c⟩

/-- **C52** `summary(m1, m2)` stores the correlations of `m1` and `m2` and a plot whose box shows them, whatever the comparator
was used for before. -/
theorem C52_summary (join : F → F → J) {m1 m2 : View F I K} {c : Comparator F K} (h : (Comparator.summary join m1 m2 c).1 = .ok ()) :
    ∃ p d, (Comparator.summary join m1 m2 c).2 = ⟨some p, some d⟩ ∧ BoxOf join m1 m2 p ∧ p.box = some d ∧
      Comparator.comparisonPlot join m1 m2 3 true Comparator.new = .ok p := by
  unfold Comparator.summary at h ⊢
  cases h1 : m1.cmp with
  | error e => simp only [h1] at h; cases h
  | ok t1 =>
    cases h2 : m2.cmp with
    | error e => simp only [h1, h2] at h; cases h
    | ok t2 =>
      simp only [h1, h2] at h ⊢
      cases hd : correlations join m1 m2 with
      | error e => simp only [hd] at h; cases h
      | ok d =>
        simp only [hd] at h ⊢
        cases hp : Comparator.comparisonPlot join m1 m2 3 true { c with correlationsDf := some d } with
        | error e => simp only [hp] at h; cases h
        | ok p =>
          simp only [hp]
          refine ⟨p, d, rfl, box_fresh (Or.inr ⟨d, rfl, hd⟩) hp, ?_, ?_⟩
          · obtain ⟨x, y, z, e, a, b, c'⟩ := correlations_shape hd
            obtain ⟨x', y', z', e', a', b', c''⟩ := box_fresh (Or.inr ⟨d, rfl, hd⟩) hp
            rw [a] at a'; rw [b] at b'; rw [c'] at c''
            cases a'; cases b'; cases c''
            rw [e', e]
          · rw [← hp]
            unfold Comparator.comparisonPlot cmpBox Comparator.new
            simp only [hd]

theorem run_correlationsDf (join : F → F → J) (call : CmpCall F I K) (c : Comparator F K) :
    (call.run join c).correlationsDf = c.correlationsDf ∨
      ∃ m1 m2 d, call = .summary m1 m2 ∧ correlations join m1 m2 = .ok d ∧ (call.run join c).correlationsDf = some d := by
  cases call with
  | correlations m1 m2 => exact Or.inl rfl
  | plot m1 m2 n b => exact Or.inl rfl
  | summary m1 m2 =>
    show (Comparator.summary join m1 m2 c).2.correlationsDf = _ ∨ ∃ m1' m2' d, _ ∧ _ ∧ (Comparator.summary join m1 m2 c).2.correlationsDf = some d
    unfold Comparator.summary
    cases h1 : m1.cmp with
    | error e => exact Or.inl rfl
    | ok t1 =>
      cases h2 : m2.cmp with
      | error e => exact Or.inl rfl
      | ok t2 =>
        simp only []
        cases hd : correlations join m1 m2 with
        | error e => exact Or.inl rfl
        | ok d =>
          simp only []
          cases hp : Comparator.comparisonPlot join m1 m2 3 true { c with correlationsDf := some d } with
          | error e => exact Or.inr ⟨m1, m2, d, rfl, hd, rfl⟩
          | ok p => exact Or.inr ⟨m1, m2, d, rfl, hd, rfl⟩

/-- **C52** (part) As long as every summary made with the comparator was about the same two methods (in particular if none was
made), the box shows the correlations of the plotted methods. Missing: plots after a summary of other methods, for which it is
false (`C52_fails`). -/
theorem C52_box_partial (join : F → F → J) (hist : List (CmpCall F I K)) {m1 m2 : View F I K}
    (hh : ∀ a b, CmpCall.summary a b ∈ hist → a = m1 ∧ b = m2) {n : Int} {p : CmpPlot F K}
    (h : Comparator.comparisonPlot join m1 m2 n true (runCmp join hist) = .ok p) : BoxOf join m1 m2 p := by
  refine box_fresh ?_ h
  unfold runCmp
  have key : ∀ (hist : List (CmpCall F I K)) (c : Comparator F K), (∀ a b, CmpCall.summary a b ∈ hist → a = m1 ∧ b = m2) →
      (c.correlationsDf = none ∨ ∃ d, c.correlationsDf = some d ∧ correlations join m1 m2 = .ok d) →
      ((hist.foldl (fun c call => call.run join c) c).correlationsDf = none ∨
        ∃ d, (hist.foldl (fun c call => call.run join c) c).correlationsDf = some d ∧ correlations join m1 m2 = .ok d) := by
    intro hist
    induction hist with
    | nil => intro c _ hc; exact hc
    | cons call hist ih =>
      intro c hh hc
      refine ih (call.run join c) (fun a b hab => hh a b (List.mem_cons_of_mem _ hab)) ?_
      rcases run_correlationsDf join call c with e | ⟨a, b, d, rfl, hd, e⟩
      · rw [e]; exact hc
      · obtain ⟨rfl, rfl⟩ := hh a b List.mem_cons_self
        exact Or.inr ⟨d, e, hd⟩
  exact key hist Comparator.new hh (Or.inl rfl)

/-- **C52** What the box shows in general: the correlations of the methods of the last summary that got as far as computing
them, if there was one. -/
theorem C52_box_of_last_summary (join : F → F → J) (hist : List (CmpCall F I K)) {a b : View F I K} {d : List (CorrKind × Num K)}
    (hd : correlations join a b = .ok d) (later : List (CmpCall F I K))
    (hl : ∀ a' b', CmpCall.summary a' b' ∈ later → ∀ d', correlations join a' b' ≠ .ok d') {m1 m2 : View F I K} {n : Int}
    {p : CmpPlot F K} (h : Comparator.comparisonPlot join m1 m2 n true (runCmp join (hist ++ .summary a b :: later)) = .ok p) :
    p.box = some d := by
  have hc : (runCmp join (hist ++ .summary a b :: later)).correlationsDf = some d := by
    unfold runCmp
    rw [List.foldl_append, List.foldl_cons]
    generalize hist.foldl (fun c call => call.run join c) Comparator.new = c0
    have h0 : (CmpCall.run join (.summary a b) c0).correlationsDf = some d := by
      show (Comparator.summary join a b c0).2.correlationsDf = _
      obtain ⟨t1, t2, c1, c2, _, _⟩ : ∃ t1 t2, a.cmp = .ok t1 ∧ b.cmp = .ok t2 ∧ t1 ≠ [] ∧ t2 ≠ [] := by
        obtain ⟨x, y, z, _, hx, _⟩ := correlations_shape hd
        unfold correlation at hx
        cases hr : rankBoth join a b with
        | error e => rw [hr] at hx; cases hx
        | ok l => exact rankBoth_inv hr
      unfold Comparator.summary
      simp only [c1, c2, hd]
      cases Comparator.comparisonPlot join a b 3 true { c0 with correlationsDf := some d } <;> rfl
    generalize CmpCall.run join (.summary a b) c0 = c at h0
    clear h
    induction later generalizing c with
    | nil => exact h0
    | cons call later ih =>
      rw [List.foldl_cons]
      refine ih (fun a' b' hm => hl a' b' (List.mem_cons_of_mem _ hm)) _ ?_
      · rcases run_correlationsDf join call c with e | ⟨a', b', d', rfl, hd', e⟩
        · rw [e]; exact h0
        · exact absurd hd' (hl a' b' List.mem_cons_self d')
  obtain ⟨t1, t2, ps, box, h1, h2, _, _, hm, hb, rfl⟩ := plot_inv h
  obtain ⟨x, y, z, e, _⟩ := correlations_shape hd
  unfold cmpBox at hb
  rw [hc] at hb
  simp only [if_true, find_boxLines e] at hb
  cases hb
  rfl

end C52

/-! ## C46 for the comparator -/

section C46c
variable {F I J K : Type} [LinearOrder F] [LinearOrder J] [Field K] [LinearOrder K] [HasSqrt K]

/-- **C46** The comparator refuses methods that were never fitted: nothing is computed and the comparator is not changed. (A plot
against a first method with an empty table raises ValueError before the second method is looked at.) -/
theorem C46_comparator_unfitted (join : F → F → J) (m1 m2 : View F I K) (k : CorrKind) (n : Int) (b : Bool) (c : Comparator F K) :
    (m1.cmp = .error .methodNotFitted →
      correlation join k m1 m2 = .error .methodNotFitted ∧ Comparator.comparisonPlot join m1 m2 n b c = .error .methodNotFitted ∧
      Comparator.summary join m1 m2 c = (.error .methodNotFitted, c)) ∧
    (∀ r t, m1.cmp = .ok (r :: t) → m2.cmp = .error .methodNotFitted →
      correlation join k m1 m2 = .error .methodNotFitted ∧ Comparator.comparisonPlot join m1 m2 n b c = .error .methodNotFitted ∧
      Comparator.summary join m1 m2 c = (.error .methodNotFitted, c)) := by
  constructor
  · intro h
    unfold correlation rankBoth Comparator.comparisonPlot Comparator.summary
    simp [h]
  · intro r t h1 h2
    unfold correlation rankBoth Comparator.comparisonPlot Comparator.summary
    simp [h1, h2, pyMax]

/-- **C46** The comparator never raises MethodNotFittedException for fitted methods (methods whose comparison table is there;
cf. `C46_available_after_fit`). -/
theorem C46_comparator_fitted (join : F → F → J) {m1 m2 : View F I K} {t1 t2 : List (OvoRow F K)} (h1 : m1.cmp = .ok t1)
    (h2 : m2.cmp = .ok t2) (k : CorrKind) (n : Int) (b : Bool) (c : Comparator F K) :
    correlation join k m1 m2 ≠ .error .methodNotFitted ∧ Comparator.comparisonPlot join m1 m2 n b c ≠ .error .methodNotFitted ∧
    (Comparator.summary join m1 m2 c).1 ≠ .error .methodNotFitted := by
  have hrank : rankBoth join m1 m2 ≠ .error .methodNotFitted := by
    unfold rankBoth rankEncoded
    simp only [h1, h2]
    split
    · next e he => intro h; cases h; split at he <;> cases he
    · split
      · next e he => intro h; cases h; split at he <;> cases he
      · simp
  have hcorr : ∀ k, correlation join k m1 m2 ≠ .error .methodNotFitted := by
    intro k
    unfold correlation
    split
    · next e he => intro h; cases h; exact hrank he
    · simp
  have hcorrs : correlations join m1 m2 ≠ .error .methodNotFitted := by
    refine notNF_mapM (l := CorrKind.all) (fun k _ => ?_)
    intro h
    cases hk : correlation join k m1 m2 with
    | error e => rw [hk] at h; cases h; exact hcorr k hk
    | ok v => rw [hk] at h; cases h
  have hbl : ∀ d : List (CorrKind × Num K), boxLines d ≠ .error .methodNotFitted := by
    intro d
    refine notNF_mapM (l := CorrKind.all) (fun k _ => ?_)
    split
    · intro h; cases h
    · intro h; cases h
  have hmax : ∀ l : List (Num K), pyMax l ≠ .error .methodNotFitted := by
    intro l; cases l <;> simp [pyMax]
  have hiv : ∀ f g, m2.interactionValue f g ≠ .error .methodNotFitted := (readable_of_cmp h2).1
  have hpts : t1.mapM (cmpPoint m2) ≠ .error .methodNotFitted := by
    refine notNF_mapM (fun r _ => ?_)
    unfold cmpPoint
    split
    · next e he => intro h; cases h; exact hiv _ _ he
    · intro h; cases h
  have hplot : ∀ c n b, Comparator.comparisonPlot join m1 m2 n b c ≠ .error .methodNotFitted := by
    intro c n b
    unfold Comparator.comparisonPlot
    simp only [h1, h2]
    split
    · next e he => intro h; cases h; exact hmax _ he
    · split
      · next e he => intro h; cases h; exact hmax _ he
      · split
        · next e he => intro h; cases h; exact hpts he
        · split
          · next e he =>
            intro h; cases h
            unfold cmpBox at he
            split at he
            · split at he
              · next e' he' =>
                cases he
                split at he'
                · exact hcorrs he'
                · cases he'
              · next d hd =>
                cases hb : boxLines d with
                | error e => rw [hb] at he; cases he; exact hbl d hb
                | ok v => rw [hb] at he; cases he
            · cases he
          · intro h; cases h
  refine ⟨hcorr k, hplot c n b, ?_⟩
  unfold Comparator.summary
  simp only [h1, h2]
  split
  · next e he => intro h; cases h; exact hcorrs he
  · split
    · next e he => intro h; cases h; exact hplot _ _ _ he
    · intro h; cases h

end C46c

/-! ## Cases -/

section Cases
open Ex

/-- the text of a pair of one-digit names -/
def exJoin (a b : Nat) : Nat := a * 10 + b

/-- a fitted method with this table, already in order -/
def exView {K : Type} (rows : List (OvoRow Nat K)) : View Nat Nat K :=
  { name := "m", ovo := some rows, ova := none, imp := none, impAsc := some false, asc := false, directed := false, full := none,
    needsOva := false, cmp := .ok rows }

section Tables
variable (K : Type) [Field K]
def exA : View Nat Nat K := exView [⟨1, 2, .fin 3⟩, ⟨1, 3, .fin 2⟩, ⟨2, 3, .fin 1⟩]
def exB : View Nat Nat K := exView [⟨1, 3, .fin 3⟩, ⟨1, 2, .fin 2⟩, ⟨2, 3, .fin 1⟩]
/-- the two methods with the features 1 and 2 renamed 2 and 1 -/
def exA' : View Nat Nat K := exView [⟨2, 1, .fin 3⟩, ⟨2, 3, .fin 2⟩, ⟨1, 3, .fin 1⟩]
def exB' : View Nat Nat K := exView [⟨2, 3, .fin 3⟩, ⟨2, 1, .fin 2⟩, ⟨1, 3, .fin 1⟩]
/-- `exB` upside down -/
def exBrev : View Nat Nat K := exView [⟨2, 3, .fin 3⟩, ⟨1, 2, .fin 2⟩, ⟨1, 3, .fin 1⟩]
/-- one more pair -/
def exLong : View Nat Nat K := exView [⟨1, 2, .fin 6⟩, ⟨3, 4, .fin 5⟩, ⟨2, 3, .fin 4⟩, ⟨1, 4, .fin 3⟩, ⟨2, 4, .fin 2⟩, ⟨1, 3, .fin 1⟩]
end Tables

/-- these tables are what `_compare_ovo` makes of them -/
example : ∀ v ∈ [exA ℚ, exB ℚ, exA' ℚ, exB' ℚ, exBrev ℚ, exLong ℚ], v.cmp = compareBase exPairSort v.asc v.ovo := by
  decide +kernel

/-- the codes compared in `C50_fails` and `C72_opposite_fails`; the values of the rows do not matter -/
theorem codes_ex (a b c a' b' c' : OvoRow Nat ℝ) (k : CorrKind) :
    correlation exJoin k (exView [a, b, c]) (exView [a', b', c']) =
      .ok (corr k (bothCodes (catCodes [rowKey exJoin a, rowKey exJoin b, rowKey exJoin c])
        (catCodes [rowKey exJoin a', rowKey exJoin b', rowKey exJoin c']))) :=
  correlation_ok (t1 := [a, b, c]) (t2 := [a', b', c']) rfl rfl (List.cons_ne_nil _ _) (List.cons_ne_nil _ _) k

theorem sqrt3 : (HasSqrt.sqrt (3 : ℝ)) * HasSqrt.sqrt (3 : ℝ) = 3 := LawfulSqrt.mul_self 3 (by norm_num)

/-- the three correlations on three rows whose first codes are 0, 1, 2 -/
theorem corr3 (k : CorrKind) : corr k (bothCodes (K := ℝ) [0, 1, 2] [1, 0, 2]) = .fin (match k with | .kendall => 1 / 3 | _ => 1 / 2) ∧
    corr k (bothCodes (K := ℝ) [0, 2, 1] [2, 0, 1]) = .fin (-1) := by
  have hs : (HasSqrt.sqrt (4 : ℝ)) = 2 := by
    rw [show (4 : ℝ) = 2 * 2 by norm_num]; exact lawful_sqrt_self (by norm_num)
  have hp1 : pearson (bothCodes (K := ℝ) [0, 1, 2] [1, 0, 2]) = .fin (1 / 2) := by
    norm_num [pearson, bothCodes, kMean, hs]
  have hp2 : pearson (bothCodes (K := ℝ) [0, 2, 1] [2, 0, 1]) = .fin (-1) := by
    norm_num [pearson, bothCodes, kMean, hs]
  cases k with
  | pearson => exact ⟨hp1, hp2⟩
  | spearman =>
    exact ⟨(spearman_codes (n := 3) (by decide) (by decide)).trans hp1, (spearman_codes (n := 3) (by decide) (by decide)).trans hp2⟩
  | kendall =>
    constructor
    · norm_num [corr, kendall, bothCodes, combinations2, npSign, div_div, sqrt3, List.countP_cons]
      rw [inv_eq_one_div, div_div, sqrt3]
    · norm_num [corr, kendall, bothCodes, combinations2, npSign, div_div, sqrt3, List.countP_cons]

/-- **C50 fails**: exchanging the names of two features in both methods changes every correlation, Kendall's from 1/3 to -1,
the others from 1/2 to -1. -/
theorem C50_fails (k : CorrKind) :
    correlation exJoin k (exA ℝ) (exB ℝ) = .ok (.fin (match k with | .kendall => 1 / 3 | _ => 1 / 2)) ∧
    correlation exJoin k (exA' ℝ) (exB' ℝ) = .ok (.fin (-1)) ∧
    ∀ v ∈ [(exA ℝ, exA' ℝ), (exB ℝ, exB' ℝ)], ∃ t, v.1.cmp = .ok t ∧ v.2.cmp = .ok (t.map (OvoRow.rename (Equiv.swap 1 2))) := by
  refine ⟨?_, ?_, ?_⟩
  · unfold exA exB
    rw [codes_ex]
    exact congrArg _ (corr3 k).1
  · unfold exA' exB'
    rw [codes_ex]
    exact congrArg _ (corr3 k).2
  · intro v hv
    simp only [List.mem_cons, List.not_mem_nil, or_false] at hv
    rcases hv with rfl | rfl
    · exact ⟨_, rfl, rfl⟩
    · exact ⟨_, rfl, rfl⟩

/-- **C72 fails**: the second table is the first one upside down, the correlations are not -1 but 1/3 (Kendall) and 1/2. -/
theorem C72_opposite_fails (k : CorrKind) :
    correlation exJoin k (exB ℝ) (exBrev ℝ) = .ok (.fin (match k with | .kendall => 1 / 3 | _ => 1 / 2)) ∧
    ∃ t1 t2, (exB ℝ).cmp = .ok t1 ∧ (exBrev ℝ).cmp = .ok t2 ∧ t1.map (fun r => (r.f1, r.f2)) = t2.reverse.map (fun r => (r.f1, r.f2)) := by
  refine ⟨?_, _, _, rfl, rfl, rfl⟩
  unfold exB exBrev
  rw [codes_ex]
  show Except.ok (corr k (bothCodes (K := ℝ) [1, 0, 2] [2, 0, 1])) = _
  have hs : (HasSqrt.sqrt (4 : ℝ)) = 2 := by
    rw [show (4 : ℝ) = 2 * 2 by norm_num]; exact lawful_sqrt_self (by norm_num)
  have hp : pearson (bothCodes (K := ℝ) [1, 0, 2] [2, 0, 1]) = .fin (1 / 2) := by
    norm_num [pearson, bothCodes, kMean, hs]
  refine congrArg _ ?_
  cases k with
  | pearson => exact hp
  | spearman => exact (spearman_codes (n := 3) (by decide) (by decide)).trans hp
  | kendall =>
    norm_num [corr, kendall, bothCodes, combinations2, npSign, div_div, sqrt3, List.countP_cons]
    rw [inv_eq_one_div, div_div, sqrt3]

/-- **C49 fails** for Pearson and Spearman on tables of different length: no pair is repeated, yet they differ. -/
theorem C49_pearson_spearman_fails : correlation exJoin .spearman (exA ℝ) (exLong ℝ) = .ok (.fin (1 / 2)) ∧
    correlation exJoin .pearson (exA ℝ) (exLong ℝ) ≠ .ok (.fin (1 / 2)) := by
  have e : ∀ k, correlation exJoin k (exA ℝ) (exLong ℝ) = .ok (corr k (bothCodes (K := ℝ) [0, 1, 2] [0, 5, 3, 2, 4, 1])) :=
    fun k => correlation_ok (m1 := exA ℝ) (m2 := exLong ℝ) rfl rfl (List.cons_ne_nil _ _) (List.cons_ne_nil _ _) k
  rw [e, e]
  have hs : (HasSqrt.sqrt (4 : ℝ)) = 2 := by
    rw [show (4 : ℝ) = 2 * 2 by norm_num]; exact lawful_sqrt_self (by norm_num)
  constructor
  · norm_num [corr, spearman, pearson, bothCodes, kMean, avgRank, hs, List.countP_cons]
  · norm_num [corr, pearson, bothCodes, kMean]
    split
    · simp
    · rename_i h
      intro h'
      injection h' with h'
      have hq := LawfulSqrt.mul_self (76 / 3 : ℝ) (by norm_num)
      field_simp at h'
      rw [← h'] at hq
      norm_num at hq

theorem exA_separates : Separates exJoin [(⟨1, 2, .fin 3⟩ : OvoRow Nat ℝ), ⟨1, 3, .fin 2⟩, ⟨2, 3, .fin 1⟩] := by
  intro r hr q hq h
  simp only [List.mem_cons, List.not_mem_nil, or_false] at hr hq
  rcases hr with rfl | rfl | rfl <;> rcases hq with rfl | rfl | rfl <;>
    first
      | exact Or.inl ⟨rfl, rfl⟩
      | (exfalso; revert h; decide)

/-- C49 on an example -/
theorem exA_self (k : CorrKind) : correlation exJoin k (exA ℝ) (exA ℝ) = .ok (.fin 1) :=
  C49_self exJoin (m := exA ℝ) rfl exA_separates (r := ⟨1, 2, .fin 3⟩) (q := ⟨1, 3, .fin 2⟩) (by simp) (by simp)
    (by rintro (⟨_, h⟩ | ⟨h, _⟩) <;> exact absurd h (by decide)) k

/-- **C52 fails**: after a summary of one method with itself, the plot of two other methods shows correlations 1, 1, 1; their
own are 1/2, 1/3, 1/2. -/
theorem C52_fails : ∃ p, Comparator.comparisonPlot exJoin (exA ℝ) (exB ℝ) 3 true (runCmp exJoin [.summary (exA ℝ) (exA ℝ)]) = .ok p ∧
    p.box = some [(.pearson, .fin 1), (.kendall, .fin 1), (.spearman, .fin 1)] ∧
    correlation exJoin .pearson (exA ℝ) (exB ℝ) = .ok (.fin (1 / 2)) ∧ correlation exJoin .kendall (exA ℝ) (exB ℝ) = .ok (.fin (1 / 3)) ∧
    correlation exJoin .spearman (exA ℝ) (exB ℝ) = .ok (.fin (1 / 2)) := by
  have hd : correlations exJoin (exA ℝ) (exA ℝ) = .ok [(.pearson, .fin 1), (.kendall, .fin 1), (.spearman, .fin 1)] := by
    unfold correlations CorrKind.all
    rw [mapM_cons_except, mapM_cons_except, mapM_cons_except, List.mapM_nil, exA_self, exA_self, exA_self]
    rfl
  have hc : ∀ d, ∃ p, Comparator.comparisonPlot exJoin (exA ℝ) (exB ℝ) 3 true
      ⟨d, some [(.pearson, .fin 1), (.kendall, .fin 1), (.spearman, .fin 1)]⟩ = .ok p := fun d => ⟨_, rfl⟩
  have hs : (runCmp exJoin [.summary (exA ℝ) (exA ℝ)]).correlationsDf =
      some [(.pearson, .fin 1), (.kendall, .fin 1), (.spearman, .fin 1)] := by
    show (Comparator.summary exJoin (exA ℝ) (exA ℝ) Comparator.new).2.correlationsDf = _
    unfold Comparator.summary
    have e : (exA ℝ).cmp = .ok [⟨1, 2, .fin 3⟩, ⟨1, 3, .fin 2⟩, ⟨2, 3, .fin 1⟩] := rfl
    simp only [e, hd]
    split <;> rfl
  obtain ⟨p, hp⟩ : ∃ p, Comparator.comparisonPlot exJoin (exA ℝ) (exB ℝ) 3 true (runCmp exJoin [.summary (exA ℝ) (exA ℝ)]) = .ok p := by
    have := hc (runCmp exJoin [.summary (exA ℝ) (exA ℝ)]).plot
    rw [← hs] at this
    exact this
  exact ⟨p, hp, C52_box_of_last_summary exJoin [] hd [] (by simp) hp, (C50_fails .pearson).1, (C50_fails .kendall).1,
    (C50_fails .spearman).1⟩

/-- C51 and C52 on an example: new comparator -/
example : ∃ p, Comparator.comparisonPlot exJoin (exA ℝ) (exB ℝ) 2 false Comparator.new = .ok p ∧
    p.points = [(.fin 3, .fin 2), (.fin 2, .fin 3), (.fin 1, .fin 1)] ∧
    p.labels = [(1, 2, .fin 3, .fin 2), (1, 3, .fin 2, .fin 3)] := ⟨_, rfl, rfl, rfl⟩

/-- C51 for two fitted methods of the running example -/
example (n : Bool) : ∃ s s', PdpMethod.fit (G := Nat) (L := Nat) (K := ℝ) (.friedman n) exEnv exArgs (PdpMethod.new 0) = (.ok (), s) ∧
    PdpMethod.fit (G := Nat) (L := Nat) (K := ℝ) (.friedman (!n)) exEnv exArgs (PdpMethod.new 0) = (.ok (), s') ∧
    ∃ p, Comparator.comparisonPlot (I := Nat) (fun a b : Fin 3 => a.1 * 10 + b.1) (PdpMethod.view exPairSort (.friedman n) s)
      (PdpMethod.view exPairSort (.friedman (!n)) s') 3 true Comparator.new = .ok p ∧ p.points.length = 3 := by
  obtain ⟨s, hs⟩ := exFitR n
  obtain ⟨s', hs'⟩ := exFitR (!n)
  have hnd : [(0 : Fin 3), 1, 2].Nodup := by decide
  obtain ⟨t, ht, hl, h1, hin⟩ := C13_one_row_per_pair (.friedman n) (exSetup (K := ℝ) 0) (sortsBy_stableSort _ _) hnd hs
  obtain ⟨t', ht', hl', h1', hin'⟩ := C13_one_row_per_pair (.friedman (!n)) (exSetup (K := ℝ) 0) (sortsBy_stableSort _ _) hnd hs'
  refine ⟨s, s', hs, hs', ?_⟩
  have hall : ∀ f : Fin 3, f ∈ [(0 : Fin 3), 1, 2] := by decide
  have hpair : ∀ (t : List (OvoRow (Fin 3) ℝ)), (∀ f ∈ [(0 : Fin 3), 1, 2], ∀ g ∈ [(0 : Fin 3), 1, 2], f ≠ g →
      t.countP (fun r => decide (r.isPair f g)) = 1) → (∀ row ∈ t, row.f1 ∈ [(0 : Fin 3), 1, 2] ∧ row.f2 ∈ [(0 : Fin 3), 1, 2] ∧ row.f1 ≠ row.f2) →
      ∀ f g, (∃ r ∈ t, r.isPair f g) ↔ f ≠ g := by
    intro t h1 hin f g
    constructor
    · rintro ⟨r, hr, ⟨rfl, rfl⟩ | ⟨rfl, rfl⟩⟩
      · exact (hin r hr).2.2
      · exact (hin r hr).2.2.symm
    · intro hne
      have := h1 f (hall f) g (hall g) hne
      obtain ⟨r, hr, hp⟩ := List.countP_pos_iff.1 (this ▸ Nat.one_pos)
      exact ⟨r, hr, of_decide_eq_true hp⟩
  obtain ⟨p, hp, hlen, _⟩ := C51_same_pairs (I := Nat) (sort := exPairSort) (sort' := exPairSort) (fun _ => sortsBy_stableSort _ _)
    (fun _ => sortsBy_stableSort _ _) (fun a b : Fin 3 => a.1 * 10 + b.1)
    (m1 := PdpMethod.view exPairSort (.friedman n) s) (m2 := PdpMethod.view exPairSort (.friedman (!n)) s') rfl rfl ht ht'
    (fun r hr => h1' _ (hin' r hr).1 _ (hin' r hr).2.1 (hin' r hr).2.2)
    (fun f g => (hpair t h1 hin f g).trans (hpair t' h1' hin' f g).symm)
    (fun e => by rw [e] at hl; exact absurd hl (by decide)) 3 true
  exact ⟨p, hp, hlen.trans hl⟩

end Cases

end Artemis
