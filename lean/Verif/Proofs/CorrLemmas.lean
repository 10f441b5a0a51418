import Verif.Model.Comparator
import Verif.Proofs.NumLemmas
import Verif.Proofs.Basics
import Mathlib.Tactic.Linarith
import Mathlib.Tactic.Ring
import Mathlib.Tactic.FieldSimp

/-!
# Facts about the three correlation coefficients
-/

set_option linter.unusedSectionVars false
set_option linter.unusedVariables false
set_option linter.unusedSimpArgs false

namespace Artemis

section Corr
variable {K : Type} [Field K] [LinearOrder K] [IsStrictOrderedRing K] {α : Type}

/-- Cauchy–Schwarz for lists -/
theorem list_cauchy (l : List α) (u v : α → K) :
    (l.map (fun a => u a * v a)).sum * (l.map (fun a => u a * v a)).sum ≤
      (l.map (fun a => u a * u a)).sum * (l.map (fun a => v a * v a)).sum := by
  set C := (l.map (fun a => u a * v a)).sum with hC
  set A := (l.map (fun a => u a * u a)).sum with hA
  set B := (l.map (fun a => v a * v a)).sum with hB
  have hB0 : 0 ≤ B := sum_sq_nonneg l v
  rcases eq_or_lt_of_le hB0 with h0 | hpos
  · have hv := sum_sq_eq_zero l v h0.symm
    have : C = 0 := by
      rw [hC]
      have : l.map (fun a => u a * v a) = l.map (fun _ => (0 : K)) := by
        apply List.map_congr_left
        intro a ha
        rw [hv a ha, mul_zero]
      rw [this]
      simp
    rw [this, ← h0]
    simp
  · have key : 0 ≤ B * (A * B - C * C) := by
      have h := sum_sq_nonneg l (fun a => u a * B - v a * C)
      have e : (l.map (fun a => (u a * B - v a * C) * (u a * B - v a * C))).sum = B * (A * B - C * C) := by
        have : ∀ m : List α, (m.map (fun a => (u a * B - v a * C) * (u a * B - v a * C))).sum =
            B * B * (m.map (fun a => u a * u a)).sum - 2 * B * C * (m.map (fun a => u a * v a)).sum +
              C * C * (m.map (fun a => v a * v a)).sum := by
          intro m
          induction m with
          | nil => simp
          | cons a m ih => simp only [List.map_cons, List.sum_cons]; rw [ih]; ring
        rw [this l, ← hC, ← hA, ← hB]
        ring
      rw [e] at h
      exact h
    have := nonneg_of_mul_nonneg_right key hpos
    linarith

variable [HasSqrt K] [LawfulSqrt K]

theorem lawful_sqrt_pos {x : K} (hx : 0 < x) : 0 < (HasSqrt.sqrt x : K) := by
  rcases eq_or_lt_of_le (LawfulSqrt.nonneg x) with h | h
  · have := LawfulSqrt.mul_self x hx.le
    rw [← h] at this
    simp at this
    exact absurd this hx.ne
  · exact h

theorem lawful_sqrt_eq_zero {x : K} (hx : 0 ≤ x) : (HasSqrt.sqrt x : K) = 0 ↔ x = 0 := by
  constructor
  · intro h
    have := LawfulSqrt.mul_self x hx
    rw [h] at this
    simpa using this.symm
  · intro h
    have := LawfulSqrt.mul_self x hx
    rw [h] at this
    rw [h]
    exact mul_self_eq_zero.1 this

theorem lawful_sqrt_self {x : K} (hx : 0 ≤ x) : (HasSqrt.sqrt (x * x) : K) = x := by
  have h1 := LawfulSqrt.mul_self (x * x) (mul_nonneg hx hx)
  have h2 := LawfulSqrt.nonneg (x * x)
  rcases mul_self_eq_mul_self_iff.1 h1 with h | h
  · exact h
  · rw [h] at h2 ⊢
    linarith

/-- a number whose square is at most that of a positive one -/
theorem div_mem_unit {c d : K} (hd : 0 < d) (h : c * c ≤ d * d) : -1 ≤ c / d ∧ c / d ≤ 1 := by
  have h' := abs_le_of_sq_le_sq' (a := c) (b := d) (by rw [sq, sq]; exact h) hd.le
  exact ⟨by rw [le_div_iff₀ hd]; linarith [h'.1], by rw [div_le_one hd]; exact h'.2⟩

/-- NaN or a number between -1 and 1 -/
def InUnit (r : Num K) : Prop := r = .nan ∨ ∃ x : K, r = .fin x ∧ -1 ≤ x ∧ x ≤ 1

theorem pearson_range (l : List (K × K)) : InUnit (pearson l) := by
  unfold pearson
  split
  · exact Or.inl rfl
  · simp only []
    split
    · exact Or.inl rfl
    · rename_i hd
      refine Or.inr ⟨_, rfl, ?_⟩
      have hnn := mul_nonneg (sum_sq_nonneg l (fun p => p.1 - kMean (l.map Prod.fst))) (sum_sq_nonneg l (fun p => p.2 - kMean (l.map Prod.snd)))
      refine div_mem_unit (lt_of_le_of_ne (LawfulSqrt.nonneg _) (Ne.symm hd)) ?_
      rw [LawfulSqrt.mul_self _ hnn]
      exact list_cauchy l (fun p => p.1 - kMean (l.map Prod.fst)) (fun p => p.2 - kMean (l.map Prod.snd))

theorem npSign_mul_self (x : K) : npSign x * npSign x = if x = 0 then 0 else 1 := by
  unfold npSign
  rcases lt_trichotomy x 0 with h | h | h
  · simp [h, h.ne, not_lt.2 h.le]
  · simp [h]
  · simp [h, h.ne']

/-- a count of the pairs that are not tied, as a sum of squares -/
theorem sum_npSign_sq (ps : List ((K × K) × (K × K))) (pr : K × K → K) :
    (ps.map (fun q => npSign (pr q.1 - pr q.2) * npSign (pr q.1 - pr q.2))).sum =
      ((ps.length - ps.countP (fun q => decide (pr q.1 = pr q.2)) : Nat) : K) := by
  induction ps with
  | nil => simp
  | cons q ps ih =>
    have hle : ps.countP (fun q => decide (pr q.1 = pr q.2)) ≤ ps.length := List.countP_le_length
    rw [List.map_cons, List.sum_cons, ih, npSign_mul_self, List.countP_cons, List.length_cons]
    by_cases h : pr q.1 = pr q.2
    · simp [h]
    · rw [if_neg (sub_ne_zero.2 h)]
      simp only [h, decide_false, Bool.false_eq_true, if_false, Nat.add_zero]
      rw [Nat.sub_add_comm hle]
      push_cast
      ring

theorem kendall_range (l : List (K × K)) : InUnit (kendall l) := by
  unfold kendall
  simp only []
  split
  · exact Or.inl rfl
  · rename_i h
    push Not at h
    refine Or.inr ⟨_, rfl, ?_⟩
    set ps := combinations2 l
    have hx : ps.countP (fun q => decide (q.1.1 = q.2.1)) < ps.length := lt_of_le_of_ne List.countP_le_length h.1
    have hy : ps.countP (fun q => decide (q.1.2 = q.2.2)) < ps.length := lt_of_le_of_ne List.countP_le_length h.2
    have hA : (0 : K) < ((ps.length - ps.countP (fun q => decide (q.1.1 = q.2.1)) : Nat) : K) := by
      exact_mod_cast Nat.sub_pos_of_lt hx
    have hB : (0 : K) < ((ps.length - ps.countP (fun q => decide (q.1.2 = q.2.2)) : Nat) : K) := by
      exact_mod_cast Nat.sub_pos_of_lt hy
    rw [div_div]
    refine div_mem_unit (mul_pos (lawful_sqrt_pos hA) (lawful_sqrt_pos hB)) ?_
    have hc := list_cauchy ps (fun q => npSign (q.1.1 - q.2.1)) (fun q => npSign (q.1.2 - q.2.2))
    rw [sum_npSign_sq ps Prod.fst, sum_npSign_sq ps Prod.snd] at hc
    refine le_trans hc (le_of_eq ?_)
    rw [mul_mul_mul_comm, LawfulSqrt.mul_self _ hA.le, LawfulSqrt.mul_self _ hB.le]

theorem corr_range (k : CorrKind) (l : List (K × K)) : InUnit (corr k l) := by
  cases k
  · exact pearson_range l
  · exact kendall_range l
  · exact pearson_range _

end Corr

section Sym
variable {K : Type} [Field K] [LinearOrder K] [HasSqrt K]

theorem pearson_swap (l : List (K × K)) : pearson (l.map Prod.swap) = pearson l := by
  unfold pearson
  simp only [List.isEmpty_map, List.map_map]
  have e1 : (Prod.fst ∘ Prod.swap : K × K → K) = Prod.snd := rfl
  have e2 : (Prod.snd ∘ Prod.swap : K × K → K) = Prod.fst := rfl
  rw [e1, e2]
  simp only [Function.comp_def, Prod.fst_swap, Prod.snd_swap]
  simp only [mul_comm (List.sum (l.map fun p => (p.2 - _) * (p.2 - _)))]
  have : (fun x : K × K => (x.2 - kMean (l.map Prod.snd)) * (x.1 - kMean (l.map Prod.fst))) =
      fun p => (p.1 - kMean (l.map Prod.fst)) * (p.2 - kMean (l.map Prod.snd)) := by funext p; exact mul_comm _ _
  rw [this]

theorem spearman_swap (l : List (K × K)) : spearman (l.map Prod.swap) = spearman l := by
  unfold spearman
  rw [← pearson_swap]
  simp only [List.map_map]
  rfl

theorem combinations2_map {α β : Type} (f : α → β) (l : List α) :
    combinations2 (l.map f) = (combinations2 l).map (Prod.map f f) := by
  induction l with
  | nil => rfl
  | cons a l ih =>
    simp only [List.map_cons, combinations2, List.map_append, ih, List.map_map]
    rfl

theorem kendall_swap (l : List (K × K)) : kendall (l.map Prod.swap) = kendall l := by
  unfold kendall
  simp only [combinations2_map, List.length_map, List.countP_map, List.map_map, Function.comp_def, Prod.map_fst, Prod.map_snd,
    Prod.fst_swap, Prod.snd_swap]
  have : (fun x : (K × K) × (K × K) => npSign (x.1.2 - x.2.2) * npSign (x.1.1 - x.2.1)) =
      fun x => npSign (x.1.1 - x.2.1) * npSign (x.1.2 - x.2.2) := by funext x; exact mul_comm _ _
  rw [this]
  by_cases h : (combinations2 l).countP (fun x => decide (x.1.1 = x.2.1)) = (combinations2 l).length ∨
      (combinations2 l).countP (fun x => decide (x.1.2 = x.2.2)) = (combinations2 l).length
  · rw [if_pos h, if_pos h.symm]
  · rw [if_neg h, if_neg (fun h' => h h'.symm), div_right_comm]

theorem corr_swap (k : CorrKind) (l : List (K × K)) : corr k (l.map Prod.swap) = corr k l := by
  cases k
  · exact pearson_swap l
  · exact kendall_swap l
  · exact spearman_swap l

end Sym

section Diag
variable {K : Type} [Field K] [LinearOrder K] [IsStrictOrderedRing K] [HasSqrt K] [LawfulSqrt K] {α : Type}

/-- two different values make the sum of squares positive -/
theorem ss_pos {l : List α} {u : α → K} (c : K) {a b : α} (ha : a ∈ l) (hb : b ∈ l) (h : u a ≠ u b) :
    0 < (l.map (fun p => (u p - c) * (u p - c))).sum := by
  rcases eq_or_lt_of_le (sum_sq_nonneg l (fun p => u p - c)) with h0 | h0
  · have hz := sum_sq_eq_zero l (fun p => u p - c) h0.symm
    exact absurd ((sub_eq_zero.1 (hz a ha)).trans (sub_eq_zero.1 (hz b hb)).symm) h
  · exact h0

theorem pearson_diag (cs : List K) {a b : K} (ha : a ∈ cs) (hb : b ∈ cs) (h : a ≠ b) :
    pearson (cs.map (fun x => (x, x))) = .fin 1 := by
  unfold pearson
  have hne : (cs.map (fun x => (x, x))).isEmpty = false := by
    cases cs with
    | nil => cases ha
    | cons _ _ => rfl
  rw [hne, if_neg (by simp)]
  simp only [List.map_map, Function.comp_def]
  have hp := ss_pos (l := cs) (u := fun x => x) (kMean (cs.map (fun x => x))) ha hb h
  rw [lawful_sqrt_self hp.le, if_neg hp.ne', div_self hp.ne']

/-- both columns vary: the coefficient is a number -/
theorem pearson_ne_nan {l : List (K × K)} {p q p' q' : K × K} (hp : p ∈ l) (hq : q ∈ l) (h1 : p.1 ≠ q.1) (hp' : p' ∈ l)
    (hq' : q' ∈ l) (h2 : p'.2 ≠ q'.2) : pearson l ≠ .nan := by
  unfold pearson
  have hne : l.isEmpty = false := by
    cases l with
    | nil => cases hp
    | cons _ _ => rfl
  rw [hne, if_neg (by simp)]
  simp only []
  have hx := ss_pos (u := Prod.fst) (kMean (l.map Prod.fst)) hp hq h1
  have hy := ss_pos (u := Prod.snd) (kMean (l.map Prod.snd)) hp' hq' h2
  rw [if_neg (lawful_sqrt_pos (mul_pos hx hy)).ne']
  simp

theorem mem_or_mem_combinations2 {l : List α} {a b : α} (ha : a ∈ l) (hb : b ∈ l) (h : a ≠ b) :
    (a, b) ∈ combinations2 l ∨ (b, a) ∈ combinations2 l := by
  induction l with
  | nil => cases ha
  | cons x l ih =>
    simp only [combinations2, List.mem_append, List.mem_map, Prod.mk.injEq]
    rcases List.mem_cons.1 ha with rfl | ha' <;> rcases List.mem_cons.1 hb with rfl | hb'
    · exact absurd rfl h
    · exact Or.inl (Or.inl ⟨b, hb', rfl, rfl⟩)
    · exact Or.inr (Or.inl ⟨a, ha', rfl, rfl⟩)
    · rcases ih ha' hb' with h | h
      · exact Or.inl (Or.inr h)
      · exact Or.inr (Or.inr h)

/-- a pair that is not tied -/
theorem countP_tie_lt {l : List α} {u : α → K} {a b : α} (ha : a ∈ l) (hb : b ∈ l) (h : u a ≠ u b) :
    (combinations2 l).countP (fun q => decide (u q.1 = u q.2)) < (combinations2 l).length := by
  refine lt_of_le_of_ne List.countP_le_length fun e => ?_
  rw [List.countP_eq_length] at e
  rcases mem_or_mem_combinations2 ha hb (fun e => h (by rw [e])) with hm | hm
  · exact h (of_decide_eq_true (e _ hm))
  · exact h (of_decide_eq_true (e _ hm)).symm

theorem kendall_ne_nan {l : List (K × K)} {p q p' q' : K × K} (hp : p ∈ l) (hq : q ∈ l) (h1 : p.1 ≠ q.1) (hp' : p' ∈ l)
    (hq' : q' ∈ l) (h2 : p'.2 ≠ q'.2) : kendall l ≠ .nan := by
  unfold kendall
  simp only []
  have hx := countP_tie_lt (u := Prod.fst) hp hq h1
  have hy := countP_tie_lt (u := Prod.snd) hp' hq' h2
  rw [if_neg (by rintro (h | h) <;> omega)]
  simp

theorem kendall_diag (cs : List K) {a b : K} (ha : a ∈ cs) (hb : b ∈ cs) (h : a ≠ b) :
    kendall (cs.map (fun x => (x, x))) = .fin 1 := by
  have hm : ∀ {x}, x ∈ cs → (x, x) ∈ cs.map (fun x => (x, x)) := fun hx => List.mem_map.2 ⟨_, hx, rfl⟩
  have hx := countP_tie_lt (u := (Prod.fst : K × K → K)) (hm ha) (hm hb) h
  unfold kendall
  simp only []
  have e : ∀ q ∈ combinations2 (cs.map (fun x => (x, x))), q.1.2 = q.1.1 ∧ q.2.2 = q.2.1 := by
    intro q hq
    rw [combinations2_map] at hq
    obtain ⟨p, _, rfl⟩ := List.mem_map.1 hq
    exact ⟨rfl, rfl⟩
  have e1 : (combinations2 (cs.map (fun x => (x, x)))).countP (fun q => decide (q.1.2 = q.2.2)) =
      (combinations2 (cs.map (fun x => (x, x)))).countP (fun q => decide (q.1.1 = q.2.1)) := by
    apply List.countP_congr
    intro q hq
    rw [(e q hq).1, (e q hq).2]
  have e2 : (combinations2 (cs.map (fun x => (x, x)))).map (fun q => npSign (q.1.1 - q.2.1) * npSign (q.1.2 - q.2.2)) =
      (combinations2 (cs.map (fun x => (x, x)))).map (fun q => npSign (q.1.1 - q.2.1) * npSign (q.1.1 - q.2.1)) := by
    apply List.map_congr_left
    intro q hq
    rw [(e q hq).1, (e q hq).2]
  rw [e1, e2, sum_npSign_sq _ Prod.fst, if_neg (by rintro (h | h) <;> omega), div_div]
  have hA : (0 : K) < (((combinations2 (cs.map (fun x => (x, x)))).length -
      (combinations2 (cs.map (fun x => (x, x)))).countP (fun q => decide (q.1.1 = q.2.1)) : Nat) : K) := by
    exact_mod_cast Nat.sub_pos_of_lt hx
  rw [LawfulSqrt.mul_self _ hA.le, div_self hA.ne']

theorem countP_lt_of_lt {xs : List K} {x y : K} (hx : x ∈ xs) (h : x < y) :
    xs.countP (fun z => decide (z < x)) + xs.countP (fun z => decide (z = x)) ≤ xs.countP (fun z => decide (z < y)) := by
  induction xs with
  | nil => cases hx
  | cons z zs ih =>
    clear hx
    have ih' : zs.countP (fun z => decide (z < x)) + zs.countP (fun z => decide (z = x)) ≤ zs.countP (fun z => decide (z < y)) := by
      by_cases hm : x ∈ zs
      · exact ih hm
      · have : zs.countP (fun z => decide (z = x)) = 0 := by
          rw [List.countP_eq_zero]
          intro z hz e
          exact hm (of_decide_eq_true e ▸ hz)
        rw [this, Nat.add_zero]
        exact List.countP_mono_left fun z _ hz => decide_eq_true ((of_decide_eq_true hz).trans h)
    simp only [List.countP_cons, decide_eq_true_eq]
    rcases lt_trichotomy z x with hz | hz | hz
    · simp [hz, hz.ne, hz.trans h]; omega
    · simp [hz, h]; omega
    · simp only [hz.ne', not_lt.2 hz.le, if_false]
      split <;> omega

/-- average ranks order values as the values themselves -/
theorem avgRank_lt {xs : List K} {x y : K} (hx : x ∈ xs) (hy : y ∈ xs) (h : x < y) : avgRank xs x < avgRank xs y := by
  have h1 := countP_lt_of_lt hx h
  have h2 : 0 < xs.countP (fun z => decide (z = x)) := List.countP_pos_iff.2 ⟨x, hx, decide_eq_true rfl⟩
  have h3 : 0 < xs.countP (fun z => decide (z = y)) := List.countP_pos_iff.2 ⟨y, hy, decide_eq_true rfl⟩
  unfold avgRank
  have c1 : ((xs.countP (fun z => decide (z < x)) : Nat) : K) + ((xs.countP (fun z => decide (z = x)) : Nat) : K) ≤
      ((xs.countP (fun z => decide (z < y)) : Nat) : K) := by exact_mod_cast h1
  have c2 : (1 : K) ≤ ((xs.countP (fun z => decide (z = x)) : Nat) : K) := by exact_mod_cast h2
  have c3 : (1 : K) ≤ ((xs.countP (fun z => decide (z = y)) : Nat) : K) := by exact_mod_cast h3
  linarith

theorem avgRank_ne {xs : List K} {x y : K} (hx : x ∈ xs) (hy : y ∈ xs) (h : x ≠ y) : avgRank xs x ≠ avgRank xs y := by
  rcases lt_or_gt_of_ne h with h | h
  · exact (avgRank_lt hx hy h).ne
  · exact (avgRank_lt hy hx h).ne'

theorem spearman_diag (cs : List K) {a b : K} (ha : a ∈ cs) (hb : b ∈ cs) (h : a ≠ b) :
    spearman (cs.map (fun x => (x, x))) = .fin 1 := by
  unfold spearman
  simp only [List.map_map, Function.comp_def, List.map_id']
  have := pearson_diag (cs.map (avgRank cs)) (List.mem_map.2 ⟨a, ha, rfl⟩) (List.mem_map.2 ⟨b, hb, rfl⟩) (avgRank_ne ha hb h)
  rw [List.map_map] at this
  exact this

theorem corr_diag (k : CorrKind) (cs : List K) {a b : K} (ha : a ∈ cs) (hb : b ∈ cs) (h : a ≠ b) :
    corr k (cs.map (fun x => (x, x))) = .fin 1 := by
  cases k
  · exact pearson_diag cs ha hb h
  · exact kendall_diag cs ha hb h
  · exact spearman_diag cs ha hb h

theorem corr_ne_nan (k : CorrKind) {l : List (K × K)} {p q p' q' : K × K} (hp : p ∈ l) (hq : q ∈ l) (h1 : p.1 ≠ q.1) (hp' : p' ∈ l)
    (hq' : q' ∈ l) (h2 : p'.2 ≠ q'.2) : corr k l ≠ .nan := by
  cases k
  · exact pearson_ne_nan hp hq h1 hp' hq' h2
  · exact kendall_ne_nan hp hq h1 hp' hq' h2
  · show pearson _ ≠ _
    exact pearson_ne_nan (List.mem_map.2 ⟨p, hp, rfl⟩) (List.mem_map.2 ⟨q, hq, rfl⟩)
      (avgRank_ne (List.mem_map.2 ⟨p, hp, rfl⟩) (List.mem_map.2 ⟨q, hq, rfl⟩) h1)
      (List.mem_map.2 ⟨p', hp', rfl⟩) (List.mem_map.2 ⟨q', hq', rfl⟩)
      (avgRank_ne (List.mem_map.2 ⟨p', hp', rfl⟩) (List.mem_map.2 ⟨q', hq', rfl⟩) h2)

/-- Pearson does not see a shift of the columns -/
theorem pearson_shift (l : List (K × K)) (c d : K) : pearson (l.map (fun p => (p.1 + c, p.2 + d))) = pearson l := by
  cases l with
  | nil => rfl
  | cons p0 l' =>
    set l := p0 :: l' with hl
    have hlen : ((l.length : Nat) : K) ≠ 0 := Nat.cast_ne_zero.2 (Nat.succ_ne_zero l'.length)
    have hm : ∀ (u : K × K → K) (c : K), kMean (l.map (fun p => u p + c)) = kMean (l.map u) + c := by
      intro u c
      unfold kMean
      rw [list_sum_add]
      simp only [List.length_map, List.map_const', List.sum_replicate, nsmul_eq_mul]
      field_simp
    unfold pearson
    simp only [List.isEmpty_map, List.map_map, Function.comp_def]
    rw [hm Prod.fst c, hm Prod.snd d]
    simp only [add_sub_add_right_eq_sub]

end Diag

section Codes
variable {J : Type} [LinearOrder J]

theorem length_catCodes (keys : List J) : (catCodes keys).length = keys.length := by simp [catCodes]

theorem idxOf_npUnique_inj {keys : List J} {a b : J} (ha : a ∈ keys) (h : (npUnique keys).idxOf a = (npUnique keys).idxOf b) :
    a = b := (List.idxOf_inj (mem_npUnique.2 ha)).1 h

/-- codes of pairwise different keys are 0, 1, ..., n-1 in some order -/
theorem catCodes_perm {keys : List J} (h : keys.Nodup) : (catCodes keys).Perm (List.range keys.length) := by
  have hp : (npUnique keys).Perm keys := by
    unfold npUnique
    rw [List.Nodup.dedup h]
    exact List.perm_insertionSort _ _
  have h1 : (catCodes keys).Perm ((npUnique keys).map (fun k => (npUnique keys).idxOf k)) := (hp.map _).symm
  have h2 : (npUnique keys).map (fun k => (npUnique keys).idxOf k) = List.range keys.length := by
    rw [← hp.length_eq]
    apply List.ext_getElem
    · simp
    · intro i h1 h2
      simp only [List.getElem_map, List.getElem_range]
      exact (hp.symm.nodup h).idxOf_getElem i _
  rw [h2] at h1
  exact h1

/-- one representative per value -/
theorem exists_reps {α : Type} (l : List α) (u : α → J) :
    ∃ l' : List α, (∀ b ∈ l', b ∈ l) ∧ (l'.map u).Nodup ∧ ∀ a ∈ l, ∃ b ∈ l', u a = u b := by
  induction l with
  | nil => exact ⟨[], by simp, by simp, by simp⟩
  | cons a l ih =>
    obtain ⟨l', h1, h2, h3⟩ := ih
    by_cases h : u a ∈ l'.map u
    · obtain ⟨b, hb, e⟩ := List.mem_map.1 h
      refine ⟨l', fun b hb => List.mem_cons_of_mem _ (h1 b hb), h2, ?_⟩
      intro c hc
      rcases List.mem_cons.1 hc with rfl | hc
      · exact ⟨b, hb, e.symm⟩
      · exact h3 c hc
    · refine ⟨a :: l', ?_, ?_, ?_⟩
      · intro b hb
        rcases List.mem_cons.1 hb with rfl | hb
        · exact List.mem_cons_self
        · exact List.mem_cons_of_mem _ (h1 b hb)
      · rw [List.map_cons]; exact List.nodup_cons.2 ⟨h, h2⟩
      · intro c hc
        rcases List.mem_cons.1 hc with rfl | hc
        · exact ⟨c, List.mem_cons_self, rfl⟩
        · obtain ⟨b, hb, e⟩ := h3 c hc
          exact ⟨b, List.mem_cons_of_mem _ hb, e⟩

/-- in an increasing list the position is the number of smaller elements -/
theorem idxOf_eq_countP {l : List J} (h : l.Pairwise (· < ·)) {k : J} (hk : k ∈ l) :
    l.idxOf k = l.countP (fun x => decide (x < k)) := by
  induction l with
  | nil => cases hk
  | cons x l ih =>
    rw [List.pairwise_cons] at h
    rw [List.idxOf_cons, List.countP_cons]
    by_cases e : x = k
    · subst e
      have : l.countP (fun y => decide (y < x)) = 0 := by
        rw [List.countP_eq_zero]
        intro y hy hlt
        exact absurd (of_decide_eq_true hlt) (not_lt.2 (h.1 y hy).le)
      simp [this]
    · have hkl : k ∈ l := (List.mem_cons.1 hk).resolve_left (Ne.symm e)
      have hlt := h.1 k hkl
      have e' : (x == k) = false := by simpa using e
      simp [e', hlt, ih h.2 hkl]

/-- the code of a value is the number of representatives below it -/
theorem code_eq_countP {α : Type} {l l' : List α} {u : α → J} (h1 : ∀ b ∈ l', b ∈ l) (h2 : (l'.map u).Nodup)
    (h3 : ∀ a ∈ l, ∃ b ∈ l', u a = u b) {a : α} (ha : a ∈ l) :
    (npUnique (l.map u)).idxOf (u a) = l'.countP (fun b => decide (u b < u a)) := by
  have hsorted : (npUnique (l.map u)).Pairwise (· < ·) :=
    sorted_npUnique (l.map u)
  rw [idxOf_eq_countP hsorted (mem_npUnique.2 (List.mem_map.2 ⟨a, ha, rfl⟩))]
  have hp : (npUnique (l.map u)).Perm (l'.map u) := by
    rw [List.perm_ext_iff_of_nodup (nodup_npUnique _) h2]
    intro k
    rw [mem_npUnique]
    constructor
    · intro hk
      obtain ⟨c, hc, rfl⟩ := List.mem_map.1 hk
      obtain ⟨b, hb, e⟩ := h3 c hc
      exact List.mem_map.2 ⟨b, hb, e.symm⟩
    · intro hk
      obtain ⟨b, hb, rfl⟩ := List.mem_map.1 hk
      exact List.mem_map.2 ⟨b, h1 b hb, rfl⟩
  rw [hp.countP_eq, List.countP_map]
  rfl

/-- codes only depend on how the keys compare -/
theorem catCodes_congr {J' α : Type} [LinearOrder J'] {l : List α} {u : α → J} {v : α → J'}
    (h : ∀ a ∈ l, ∀ b ∈ l, u a ≤ u b ↔ v a ≤ v b) : catCodes (l.map u) = catCodes (l.map v) := by
  obtain ⟨l', h1, h2, h3⟩ := exists_reps l u
  have heq : ∀ a ∈ l, ∀ b ∈ l, u a = u b ↔ v a = v b := fun a ha b hb => by
    rw [le_antisymm_iff, le_antisymm_iff, h a ha b hb, h b hb a ha]
  have h2' : (l'.map v).Nodup := by
    have hn := List.Nodup.of_map _ h2
    rw [List.nodup_map_iff_inj_on hn] at h2 ⊢
    intro a ha b hb e
    exact h2 a ha b hb ((heq a (h1 a ha) b (h1 b hb)).2 e)
  have h3' : ∀ a ∈ l, ∃ b ∈ l', v a = v b := by
    intro a ha
    obtain ⟨b, hb, e⟩ := h3 a ha
    exact ⟨b, hb, (heq a ha b (h1 b hb)).1 e⟩
  unfold catCodes
  rw [List.map_map, List.map_map]
  apply List.map_congr_left
  intro a ha
  show (npUnique (l.map u)).idxOf (u a) = (npUnique (l.map v)).idxOf (v a)
  rw [code_eq_countP h1 h2 h3 ha, code_eq_countP h1 h2' h3' ha]
  apply List.countP_congr
  intro b hb
  simp only [decide_eq_true_eq]
  rw [lt_iff_le_not_ge, lt_iff_le_not_ge, h b (h1 b hb) a ha, h a ha b (h1 b hb)]

end Codes

section Ranks
variable {K : Type} [Field K] [LinearOrder K] [IsStrictOrderedRing K]

theorem countP_lt_range {n c : Nat} (h : c ≤ n) : (List.range n).countP (fun y => decide (y < c)) = c := by
  induction n with
  | zero => simp; omega
  | succ n ih =>
    rw [List.range_succ, List.countP_append]
    rcases Nat.lt_or_ge n c with hc | hc
    · have : c = n + 1 := by omega
      subst this
      have : (List.range n).countP (fun y => decide (y < n + 1)) = n := by
        rw [List.countP_eq_length.2 (fun y hy => decide_eq_true (Nat.lt_succ_of_lt (List.mem_range.1 hy)))]
        exact List.length_range
      simp [this]
    · rw [ih hc]
      simp [not_lt.2 hc]

/-- ranks of codes 0, ..., n-1 in some order -/
theorem avgRank_codes {cs : List Nat} {n c : Nat} (hp : cs.Perm (List.range n)) (hc : c ∈ cs) :
    avgRank (cs.map (Nat.cast : Nat → K)) (c : K) = (c : K) + 1 := by
  have hn : c < n := List.mem_range.1 (hp.mem_iff.1 hc)
  unfold avgRank
  have e1 : (cs.map (Nat.cast : Nat → K)).countP (fun y => decide (y < (c : K))) = c := by
    rw [List.countP_map]
    have : ((fun y : K => decide (y < (c : K))) ∘ (Nat.cast : Nat → K)) = fun y => decide (y < c) := by
      funext y; simp [Nat.cast_lt]
    rw [this, hp.countP_eq, countP_lt_range hn.le]
  have e2 : (cs.map (Nat.cast : Nat → K)).countP (fun y => decide (y = (c : K))) = 1 := by
    rw [List.countP_map]
    have : ((fun y : K => decide (y = (c : K))) ∘ (Nat.cast : Nat → K)) = fun y => y == c := by
      funext y
      rw [Bool.eq_iff_iff]
      simp
    rw [this]
    exact List.count_eq_one_of_mem (hp.symm.nodup List.nodup_range) hc
  rw [e1, e2]
  push_cast
  ring

/-- Pearson and Spearman on two orders of the same codes -/
theorem spearman_codes [HasSqrt K] [LawfulSqrt K] {c1 c2 : List Nat} {n : Nat} (h1 : c1.Perm (List.range n)) (h2 : c2.Perm (List.range n)) :
    spearman (bothCodes (K := K) c1 c2) = pearson (bothCodes (K := K) c1 c2) := by
  have hl : c1.length = c2.length := by rw [h1.length_eq, h2.length_eq]
  unfold spearman
  have e1 : (bothCodes (K := K) c1 c2).map Prod.fst = c1.map (Nat.cast : Nat → K) := by
    unfold bothCodes
    rw [List.map_map]
    show (c1.zip c2).map ((Nat.cast : Nat → K) ∘ Prod.fst) = _
    rw [← List.map_map, List.map_fst_zip hl.le]
  have e2 : (bothCodes (K := K) c1 c2).map Prod.snd = c2.map (Nat.cast : Nat → K) := by
    unfold bothCodes
    rw [List.map_map]
    show (c1.zip c2).map ((Nat.cast : Nat → K) ∘ Prod.snd) = _
    rw [← List.map_map, List.map_snd_zip hl.ge]
  rw [e1, e2, ← pearson_shift (bothCodes c1 c2) 1 1]
  congr 1
  apply List.map_congr_left
  intro p hp
  unfold bothCodes at hp
  obtain ⟨q, hq, rfl⟩ := List.mem_map.1 hp
  have hq := List.of_mem_zip (a := q.1) (b := q.2) hq
  simp only []
  rw [avgRank_codes h1 hq.1, avgRank_codes h2 hq.2]

end Ranks

end Artemis
