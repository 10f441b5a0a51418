import Verif.Proofs.HLemmas
import Mathlib.Tactic.Linarith

/-! # Helper lemmas about Greenwell's measure and PD importance for finite-valued models -/

set_option linter.unusedSectionVars false
set_option linter.unusedVariables false
set_option linter.unusedSimpArgs false

namespace Artemis
open Spec

section
variable {K : Type} [Field K] [LinearOrder K] [IsStrictOrderedRing K] {α : Type*}

theorem foldl_max_fin (l : List α) (u : α → K) (m0 : K) :
    ∃ m, (l.map (fun a => (.fin (u a) : Num K))).foldl
        (fun m x => if Num.isNaN m then m else if Num.isNaN x then x else if Num.le m x then x else m) (.fin m0) = .fin m ∧
      (m = m0 ∨ ∃ a ∈ l, m = u a) ∧ m0 ≤ m ∧ ∀ a ∈ l, u a ≤ m := by
  induction l generalizing m0 with
  | nil => exact ⟨m0, rfl, Or.inl rfl, le_rfl, by simp⟩
  | cons b l ih =>
    simp only [List.map_cons, List.foldl_cons, Num.isNaN_fin, Bool.false_eq_true, if_false, Num.le, decide_eq_true_eq]
    by_cases h : m0 ≤ u b
    · rw [if_pos h]
      obtain ⟨m, h1, h2, h3, h4⟩ := ih (u b)
      refine ⟨m, h1, ?_, h.trans h3, ?_⟩
      · rcases h2 with h2 | ⟨a, ha, h2⟩
        · exact Or.inr ⟨b, List.mem_cons_self, h2⟩
        · exact Or.inr ⟨a, List.mem_cons_of_mem _ ha, h2⟩
      · intro a ha
        rcases List.mem_cons.1 ha with rfl | ha
        · exact h3
        · exact h4 a ha
    · rw [if_neg h]
      obtain ⟨m, h1, h2, h3, h4⟩ := ih m0
      refine ⟨m, h1, ?_, h3, ?_⟩
      · rcases h2 with h2 | ⟨a, ha, h2⟩
        · exact Or.inl h2
        · exact Or.inr ⟨a, List.mem_cons_of_mem _ ha, h2⟩
      · intro a ha
        rcases List.mem_cons.1 ha with rfl | ha
        · exact (le_of_not_ge h).trans h3
        · exact h4 a ha

theorem foldl_min_fin (l : List α) (u : α → K) (m0 : K) :
    ∃ m, (l.map (fun a => (.fin (u a) : Num K))).foldl
        (fun m x => if Num.isNaN m then m else if Num.isNaN x then x else if Num.le x m then x else m) (.fin m0) = .fin m ∧
      (m = m0 ∨ ∃ a ∈ l, m = u a) ∧ m ≤ m0 ∧ ∀ a ∈ l, m ≤ u a := by
  induction l generalizing m0 with
  | nil => exact ⟨m0, rfl, Or.inl rfl, le_rfl, by simp⟩
  | cons b l ih =>
    simp only [List.map_cons, List.foldl_cons, Num.isNaN_fin, Bool.false_eq_true, if_false, Num.le, decide_eq_true_eq]
    by_cases h : u b ≤ m0
    · rw [if_pos h]
      obtain ⟨m, h1, h2, h3, h4⟩ := ih (u b)
      refine ⟨m, h1, ?_, h3.trans h, ?_⟩
      · rcases h2 with h2 | ⟨a, ha, h2⟩
        · exact Or.inr ⟨b, List.mem_cons_self, h2⟩
        · exact Or.inr ⟨a, List.mem_cons_of_mem _ ha, h2⟩
      · intro a ha
        rcases List.mem_cons.1 ha with rfl | ha
        · exact h3
        · exact h4 a ha
    · rw [if_neg h]
      obtain ⟨m, h1, h2, h3, h4⟩ := ih m0
      refine ⟨m, h1, ?_, h3, ?_⟩
      · rcases h2 with h2 | ⟨a, ha, h2⟩
        · exact Or.inl h2
        · exact Or.inr ⟨a, List.mem_cons_of_mem _ ha, h2⟩
      · intro a ha
        rcases List.mem_cons.1 ha with rfl | ha
        · exact h3.trans (le_of_not_ge h)
        · exact h4 a ha

theorem max?_fin (l : List α) (u : α → K) (h : l ≠ []) :
    ∃ m, Num.max? (l.map (fun a => (.fin (u a) : Num K))) = some (.fin m) ∧ (∃ a ∈ l, m = u a) ∧ ∀ a ∈ l, u a ≤ m := by
  cases l with
  | nil => exact absurd rfl h
  | cons b l =>
    obtain ⟨m, h1, h2, h3, h4⟩ := foldl_max_fin l u (u b)
    refine ⟨m, by simp only [List.map_cons, Num.max?, h1], ?_, ?_⟩
    · rcases h2 with h2 | ⟨a, ha, h2⟩
      · exact ⟨b, List.mem_cons_self, h2⟩
      · exact ⟨a, List.mem_cons_of_mem _ ha, h2⟩
    · intro a ha
      rcases List.mem_cons.1 ha with rfl | ha
      · exact h3
      · exact h4 a ha

theorem min?_fin (l : List α) (u : α → K) (h : l ≠ []) :
    ∃ m, Num.min? (l.map (fun a => (.fin (u a) : Num K))) = some (.fin m) ∧ (∃ a ∈ l, m = u a) ∧ ∀ a ∈ l, m ≤ u a := by
  cases l with
  | nil => exact absurd rfl h
  | cons b l =>
    obtain ⟨m, h1, h2, h3, h4⟩ := foldl_min_fin l u (u b)
    refine ⟨m, by simp only [List.map_cons, Num.min?, h1], ?_, ?_⟩
    · rcases h2 with h2 | ⟨a, ha, h2⟩
      · exact ⟨b, List.mem_cons_self, h2⟩
      · exact ⟨a, List.mem_cons_of_mem _ ha, h2⟩
    · intro a ha
      rcases List.mem_cons.1 ha with rfl | ha
      · exact h3
      · exact h4 a ha

/-- `rangeImp` on finite numbers: a quarter of the range -/
theorem rangeImp_fin (l : List α) (u : α → K) (h : l ≠ []) :
    ∃ M m, rangeImp (l.map (fun a => (.fin (u a) : Num K))) = .ok (.fin ((M - m) / 4)) ∧
      (∃ a ∈ l, M = u a) ∧ (∀ a ∈ l, u a ≤ M) ∧ (∃ a ∈ l, m = u a) ∧ (∀ a ∈ l, m ≤ u a) := by
  obtain ⟨M, h1, h2, h3⟩ := max?_fin l u h
  obtain ⟨m, h4, h5, h6⟩ := min?_fin l u h
  refine ⟨M, m, ?_, h2, h3, h5, h6⟩
  simp only [rangeImp, h1, h4, Num.sub_fin]
  rw [Num.div_fin _ _ (by norm_num)]

theorem rangeImp_shift (l : List α) (u : α → K) (c : K) :
    rangeImp (l.map (fun a => (.fin (u a + c) : Num K))) = rangeImp (l.map (fun a => .fin (u a))) := by
  by_cases h : l = []
  · subst h; rfl
  obtain ⟨M, m, h1, ⟨a1, ha1, h2⟩, h3, ⟨a2, ha2, h4⟩, h5⟩ := rangeImp_fin l u h
  obtain ⟨M', m', h1', ⟨a1', ha1', h2'⟩, h3', ⟨a2', ha2', h4'⟩, h5'⟩ := rangeImp_fin l (fun a => u a + c) h
  rw [h1, h1']
  have e1 : M' = M + c := by
    apply le_antisymm
    · rw [h2']; have := h3 a1' ha1'; linarith
    · have := h3' a1 ha1; rw [h2]; exact this
  have e2 : m' = m + c := by
    apply le_antisymm
    · have := h5' a2 ha2; rw [h4]; exact this
    · rw [h4']; have := h5 a2' ha2'; linarith
  rw [e1, e2]
  congr 2
  ring

variable [HasSqrt K]

theorem stdev_short {l : List (Num K)} (h : l.length < 2) : stdev l = .error .statisticsError := if_pos h

theorem stdev_fin (l : List α) (u : α → K) (h : 2 ≤ l.length) :
    stdev (l.map (fun a => (.fin (u a) : Num K))) =
      .ok (.fin (HasSqrt.sqrt ((l.map (fun a => (u a - avg (l.map u)) * (u a - avg (l.map u)))).sum /
        ((l.length - 1 : Nat) : K)))) := by
  have h' : ¬ (l.map (fun a => (.fin (u a) : Num K))).length < 2 := by simpa using h
  unfold stdev
  rw [if_neg h', Num.center_fin, List.map_map]
  have hs : (Num.sq ∘ fun a => (.fin (u a - avg (l.map u)) : Num K)) =
      fun a => .fin ((u a - avg (l.map u)) * (u a - avg (l.map u))) := by
    funext a; simp [Num.sq, Num.mul]
  rw [hs, Num.sum_fin, List.length_map]
  have hpos : (0 : K) < ((l.length - 1 : Nat) : K) := by
    have : 0 < l.length - 1 := by omega
    exact_mod_cast this
  rw [Num.ofNat, Num.div_fin _ _ hpos.ne']
  have hn : 0 ≤ (l.map (fun a => (u a - avg (l.map u)) * (u a - avg (l.map u)))).sum / ((l.length - 1 : Nat) : K) :=
    div_nonneg (sum_sq_nonneg _ _) hpos.le
  simp only [Num.sqrt, if_neg (not_lt.2 hn)]

theorem stdev_shift (l : List α) (u : α → K) (c : K) :
    stdev (l.map (fun a => (.fin (u a + c) : Num K))) = stdev (l.map (fun a => .fin (u a))) := by
  by_cases h : 2 ≤ l.length
  · rw [stdev_fin l _ h, stdev_fin l _ h]
    have hl : l ≠ [] := by rintro rfl; simp at h
    have : avg (l.map (fun a => u a + c)) = avg (l.map u) + c := by
      rw [avg_add l u (fun _ => c), avg_const l hl]
    simp only [this, add_sub_add_right_eq_sub]
  · rw [stdev_short (by simpa using h), stdev_short (by simpa using h)]

theorem condImp_shift (num : Bool) (l : List α) (u : α → K) (c : K) :
    condImp num (l.map (fun a => (.fin (u a + c) : Num K))) = condImp num (l.map (fun a => .fin (u a))) := by
  cases num
  · exact rangeImp_shift l u c
  · exact stdev_shift l u c

theorem condImp_error (num : Bool) {l : List α} (hl : l ≠ []) (u : α → K) {e : Err}
    (h : condImp num (l.map (fun a => (.fin (u a) : Num K))) = .error e) : e = .statisticsError ∧ l.length < 2 := by
  cases num
  · obtain ⟨M, m, h1, _⟩ := rangeImp_fin l u hl
    simp only [condImp, Bool.false_eq_true, if_false, h1] at h
    cases h
  · simp only [condImp, if_true, stdev, List.length_map] at h
    split at h
    · next h' => cases h; exact ⟨rfl, h'⟩
    · cases h

variable [LawfulSqrt K]

theorem stdev_nonneg (l : List α) (u : α → K) {x : Num K}
    (h : stdev (l.map (fun a => (.fin (u a) : Num K))) = .ok x) : ∃ k, x = .fin k ∧ 0 ≤ k := by
  by_cases h' : 2 ≤ l.length
  · rw [stdev_fin l u h'] at h
    cases h
    exact ⟨_, rfl, LawfulSqrt.nonneg _⟩
  · rw [stdev_short (by simpa using h')] at h; cases h

theorem condImp_nonneg (num : Bool) (l : List α) (u : α → K) {x : Num K}
    (h : condImp num (l.map (fun a => (.fin (u a) : Num K))) = .ok x) : ∃ k, x = .fin k ∧ 0 ≤ k := by
  cases num
  · by_cases hl : l = []
    · subst hl; cases h
    obtain ⟨M, m, h1, ⟨a, ha, h2⟩, _, _, h3⟩ := rangeImp_fin l u hl
    simp only [condImp, Bool.false_eq_true, if_false, h1] at h
    cases h
    refine ⟨_, rfl, ?_⟩
    have := h3 a ha
    rw [← h2] at this
    linarith
  · exact stdev_nonneg l u h

theorem stdev_const (l : List α) (h : 2 ≤ l.length) (c : K) :
    stdev (l.map (fun _ => (.fin c : Num K))) = .ok (.fin 0) := by
  have hl : l ≠ [] := by rintro rfl; simp at h
  rw [stdev_fin l (fun _ => c) h]
  have e : avg (l.map (fun _ => c)) = c := avg_const l hl c
  simp only [e, sub_self, mul_zero]
  simp [sqrt_zero]

theorem exists_of_mapM_error {β γ : Type} {f : β → Except Err γ} {l : List β} {e : Err}
    (h : l.mapM f = .error e) : ∃ a ∈ l, f a = .error e := by
  induction l with
  | nil => cases h
  | cons a l ih =>
    rw [List.mapM_cons] at h
    simp only [bind, Except.bind] at h
    cases ha : f a with
    | error e' =>
      rw [ha] at h
      cases h
      exact ⟨a, List.mem_cons_self, ha⟩
    | ok b =>
      rw [ha] at h
      simp only at h
      cases hl : l.mapM f with
      | error e' =>
        rw [hl] at h
        cases h
        obtain ⟨a', h1, h2⟩ := ih hl
        exact ⟨a', List.mem_cons_of_mem _ h1, h2⟩
      | ok bs => rw [hl] at h; cases h

theorem exists_fin_map {l : List α} {r : List (Num K)} {p : α → Num K → Prop}
    (h : List.Forall₂ (fun a x => ∃ k, x = .fin k ∧ 0 ≤ k) l r) : ∃ w : List K, r = w.map (fun k => .fin k) := by
  induction h with
  | nil => exact ⟨[], rfl⟩
  | cons h1 _ ih =>
    obtain ⟨w, rfl⟩ := ih
    obtain ⟨k, rfl, _⟩ := h1
    exact ⟨k :: w, rfl⟩

/-- spread of the conditional importances of a matrix given by a function -/
theorem stdevOfImp_cases (num : Bool) {β : Type*} {A : List α} {B : List β} (hA : A ≠ []) (hB : B ≠ []) (m : α → β → K) :
    (∀ e, stdevOfImp num (A.map (fun a => B.map (fun b => (.fin (m a b) : Num K)))) = .error e → e = .statisticsError) ∧
    ((∃ x, stdevOfImp num (A.map (fun a => B.map (fun b => (.fin (m a b) : Num K)))) = .ok x) ↔
      2 ≤ A.length ∧ (num = true → 2 ≤ B.length)) ∧
    (∀ x, stdevOfImp num (A.map (fun a => B.map (fun b => (.fin (m a b) : Num K)))) = .ok x → ∃ k, x = .fin k ∧ 0 ≤ k) := by
  have hne : (A.map (fun a => B.map (fun b => (.fin (m a b) : Num K)))).isEmpty = false := by
    cases A with
    | nil => exact absurd rfl hA
    | cons => rfl
  unfold stdevOfImp
  simp only [hne, Bool.false_eq_true, if_false, bind, Except.bind]
  cases em : (A.map (fun a => B.map (fun b => (.fin (m a b) : Num K)))).mapM (condImp num) with
  | error e =>
    obtain ⟨s, hs, he⟩ := exists_of_mapM_error em
    obtain ⟨a, ha, rfl⟩ := List.mem_map.1 hs
    obtain ⟨h1, h2⟩ := condImp_error num hB (m a) he
    subst h1
    refine ⟨fun e he => by cases he; rfl, ⟨fun ⟨x, hx⟩ => (by cases hx), fun ⟨hA2, hB2⟩ => ?_⟩, fun x hx => by cases hx⟩
    exfalso
    cases num
    · obtain ⟨M, m', h1, _⟩ := rangeImp_fin B (m a) hB
      simp only [condImp, Bool.false_eq_true, if_false, h1] at he
      cases he
    · exact absurd (hB2 rfl) (by omega)
  | ok imps =>
    have hF := mapM_eq_ok em
    rw [List.forall₂_map_left_iff] at hF
    have hF' := hF.imp (fun a x hx => condImp_nonneg num B (m a) hx)
    obtain ⟨w, hw⟩ := exists_fin_map (p := fun _ _ => True) hF'
    have hlen : imps.length = A.length := hF.length_eq.symm
    have hlw : w.length = A.length := by rw [← hlen, hw, List.length_map]
    have hB2 : num = true → 2 ≤ B.length := by
      rintro rfl
      cases A with
      | nil => exact absurd rfl hA
      | cons a A =>
        obtain ⟨x, _, hx⟩ := exists_of_forall₂ hF (List.mem_cons_self (a := a) (l := A))
        by_contra hlt
        simp only [condImp, if_true] at hx
        rw [stdev_short (by simpa using hlt)] at hx
        cases hx
    simp only [hw]
    refine ⟨fun e he => ?_, ⟨fun ⟨x, hx⟩ => ⟨?_, hB2⟩, fun ⟨hA2, _⟩ => ?_⟩, fun x hx => stdev_nonneg w (fun k => k) hx⟩
    · simp only [stdev] at he
      split at he
      · cases he; rfl
      · cases he
    · by_contra hlt
      rw [stdev_short (by rw [List.length_map, hlw]; omega)] at hx
      cases hx
    · exact ⟨_, stdev_fin w (fun k => k) (by omega)⟩

/-- a matrix of the form `u b + c a`: all conditional importances agree, their spread is 0 -/
theorem stdevOfImp_zero (num : Bool) {β : Type*} {A : List α} {B : List β} (u : β → K) (c : α → K) {x : Num K}
    (h : stdevOfImp num (A.map (fun a => B.map (fun b => (.fin (u b + c a) : Num K)))) = .ok x) : x = .fin 0 := by
  unfold stdevOfImp at h
  simp only [bind, Except.bind] at h
  cases hA : A with
  | nil => subst hA; simp at h
  | cons a0 A0 =>
    have hne : (A.map (fun a => B.map (fun b => (.fin (u b + c a) : Num K)))).isEmpty = false := by rw [hA]; rfl
    simp only [hne, Bool.false_eq_true, if_false] at h
    cases em : (A.map (fun a => B.map (fun b => (.fin (u b + c a) : Num K)))).mapM (condImp num) with
    | error e => rw [em] at h; cases h
    | ok imps =>
      rw [em] at h
      simp only at h
      have hF := mapM_eq_ok em
      rw [List.forall₂_map_left_iff] at hF
      simp only [condImp_shift num B u] at hF
      cases hc : condImp num (B.map (fun b => (.fin (u b) : Num K))) with
      | error e =>
        obtain ⟨x, _, hx⟩ := exists_of_forall₂ hF (by rw [hA]; exact List.mem_cons_self)
        rw [hc] at hx; cases hx
      | ok y =>
        obtain ⟨k, rfl, _⟩ := condImp_nonneg num B u hc
        have : imps = A.map (fun _ => .fin k) := by
          rw [hc] at hF
          clear em hne h
          generalize A = A' at hF
          induction hF with
          | nil => rfl
          | cons h1 _ ih => cases h1; rw [List.map_cons, ← ih]
        rw [this] at h
        by_cases h2 : 2 ≤ A.length
        · rw [stdev_const A h2 k] at h; cases h; rfl
        · rw [stdev_short (by simpa using h2)] at h; cases h

theorem npStd_fin (l : List α) (u : α → K) (h : l ≠ []) :
    npStd (l.map (fun a => (.fin (u a) : Num K))) =
      .fin (HasSqrt.sqrt (avg (l.map (fun a => (u a - avg (l.map u)) * (u a - avg (l.map u)))))) := by
  unfold npStd
  rw [Num.center_fin, List.map_map]
  have hs : (Num.sq ∘ fun a => (.fin (u a - avg (l.map u)) : Num K)) =
      fun a => .fin ((u a - avg (l.map u)) * (u a - avg (l.map u))) := by
    funext a; simp [Num.sq, Num.mul]
  rw [hs, Num.mean_fin l _ h]
  have hn : 0 ≤ avg (l.map (fun a => (u a - avg (l.map u)) * (u a - avg (l.map u)))) :=
    div_nonneg (sum_sq_nonneg _ _) (Nat.cast_nonneg _)
  simp only [Num.sqrt, if_neg (not_lt.2 hn)]

theorem npStd_const (l : List α) (h : l ≠ []) (c : K) : npStd (l.map (fun _ => (.fin c : Num K))) = .fin 0 := by
  rw [npStd_fin l (fun _ => c) h]
  simp only [avg_const l h, sub_self, mul_zero, sqrt_zero]

theorem rangeImp_const (l : List α) (h : l ≠ []) (c : K) :
    rangeImp (l.map (fun _ => (.fin c : Num K))) = .ok (.fin 0) := by
  obtain ⟨M, m, h1, ⟨_, _, h2⟩, _, ⟨_, _, h3⟩, _⟩ := rangeImp_fin l (fun _ => c) h
  rw [h1, h2, h3]; simp

end

section
variable {F V K : Type} [DecidableEq F] [LinearOrder V] [Field K] [LinearOrder K] [IsStrictOrderedRing K]
variable [HasSqrt K] [LawfulSqrt K]

theorem col_ne_nil {X : Frame F V} (hX : X.rows ≠ []) (f : F) : npUnique (X.col f) ≠ [] := by
  rw [Ne, npUnique_eq_nil_iff]; simp [Frame.col, hX]

theorem gwNum_fin (n1 n2 : Bool) (u : Row F V → K) {X : Frame F V} (hX : X.rows ≠ []) (f f' : F) :
    gwNum n1 n2 (finM u) X f f' = (do
      let resJ ← stdevOfImp n2 ((npUnique (X.col f)).map (fun v =>
        (npUnique (X.col f')).map (fun v' => (.fin (pd2 u X f f' v v') : Num K))))
      let resI ← stdevOfImp n1 ((npUnique (X.col f')).map (fun v' =>
        (npUnique (X.col f)).map (fun v => (.fin (pd2 u X f f' v v') : Num K))))
      .ok (Num.div (Num.add resJ resI) (.fin 2))) := by
  unfold gwNum
  simp only [pdPair_fin u hX]

theorem gwNum_cases (n1 n2 : Bool) (u : Row F V → K) {X : Frame F V} (hX : X.rows ≠ []) (f f' : F) :
    (∀ e, gwNum n1 n2 (finM u) X f f' = .error e → e = .statisticsError) ∧
    ((∃ x, gwNum n1 n2 (finM u) X f f' = .ok x) ↔
      2 ≤ (npUnique (X.col f)).length ∧ 2 ≤ (npUnique (X.col f')).length) ∧
    (∀ x, gwNum n1 n2 (finM u) X f f' = .ok x → ∃ k, x = .fin k ∧ 0 ≤ k) := by
  rw [gwNum_fin n1 n2 u hX]
  have h1 := stdevOfImp_cases n2 (col_ne_nil hX f) (col_ne_nil hX f') (fun v v' => pd2 u X f f' v v')
  have h2 := stdevOfImp_cases n1 (col_ne_nil hX f') (col_ne_nil hX f) (fun v' v => pd2 u X f f' v v')
  simp only [bind, Except.bind]
  generalize hJ : stdevOfImp n2 ((npUnique (X.col f)).map (fun v =>
        (npUnique (X.col f')).map (fun v' => (.fin (pd2 u X f f' v v') : Num K)))) = J at h1 ⊢
  generalize hI : stdevOfImp n1 ((npUnique (X.col f')).map (fun v' =>
        (npUnique (X.col f)).map (fun v => (.fin (pd2 u X f f' v v') : Num K)))) = I at h2 ⊢
  cases J with
  | error e =>
    refine ⟨fun e' h => (by cases h; exact h1.1 e rfl), ⟨fun ⟨x, hx⟩ => (by cases hx), fun ⟨ha, hb⟩ => ?_⟩,
      fun x hx => by cases hx⟩
    obtain ⟨x, hx⟩ := h1.2.1.2 ⟨ha, fun _ => hb⟩
    cases hx
  | ok j =>
    cases I with
    | error e =>
      refine ⟨fun e' h => (by cases h; exact h2.1 e rfl), ⟨fun ⟨x, hx⟩ => (by cases hx), fun ⟨ha, hb⟩ => ?_⟩,
        fun x hx => by cases hx⟩
      obtain ⟨x, hx⟩ := h2.2.1.2 ⟨hb, fun _ => ha⟩
      cases hx
    | ok i =>
      have hj := h1.2.1.1 ⟨j, rfl⟩
      have hi := h2.2.1.1 ⟨i, rfl⟩
      obtain ⟨kj, rfl, pj⟩ := h1.2.2 j rfl
      obtain ⟨ki, rfl, pi⟩ := h2.2.2 i rfl
      refine ⟨fun e h => (by cases h), ⟨fun _ => ⟨hj.1, hi.1⟩, fun _ => ⟨_, rfl⟩⟩, ?_⟩
      intro x hx
      cases hx
      simp only [Num.add_fin]
      rw [Num.div_fin _ _ (by norm_num)]
      exact ⟨_, rfl, by linarith⟩

theorem gwNum_zero (n1 n2 : Bool) {u x y : Row F V → K} (hu : ∀ r, u r = x r + y r) {f f' : F} (hne : f ≠ f')
    (hx : Ignores x f) (hy : Ignores y f') {X : Frame F V} (hX : X.rows ≠ []) {v : Num K}
    (h : gwNum n1 n2 (finM u) X f f' = .ok v) : v = .fin 0 := by
  rw [gwNum_fin n1 n2 u hX] at h
  have e : ∀ v v', pd2 u X f f' v v' = pd1 x X f' v' + pd1 y X f v := by
    intro v v'
    rw [pd2_split hu, pd2_ignores_fst hx, pd2_ignores_snd hne hy]
  have e' : ∀ v v', pd2 u X f f' v v' = pd1 y X f v + pd1 x X f' v' := by
    intro v v'; rw [e, add_comm]
  simp only [bind, Except.bind] at h
  cases hJ : stdevOfImp n2 ((npUnique (X.col f)).map (fun v =>
        (npUnique (X.col f')).map (fun v' => (.fin (pd2 u X f f' v v') : Num K)))) with
  | error er => rw [hJ] at h; cases h
  | ok j =>
    rw [hJ] at h
    simp only at h
    cases hI : stdevOfImp n1 ((npUnique (X.col f')).map (fun v' =>
        (npUnique (X.col f)).map (fun v => (.fin (pd2 u X f f' v v') : Num K)))) with
    | error er => rw [hI] at h; cases h
    | ok i =>
      rw [hI] at h
      simp only [Except.ok.injEq] at h
      simp only [e] at hJ
      simp only [e'] at hI
      rw [stdevOfImp_zero n2 _ _ hJ, stdevOfImp_zero n1 _ _ hI] at h
      rw [← h]
      simp [Num.div]

theorem impNum_fin (num : Bool) (u : Row F V → K) {X : Frame F V} (hX : X.rows ≠ []) (f : F) :
    ∃ k, impNum num (finM u) X f = .ok (.fin k) ∧ 0 ≤ k := by
  have e : Spec.pdSingle (finM u) X f = fun v => .fin (pd1 u X f v) := by
    funext v; exact pdSingle_fin u hX f v
  unfold impNum
  rw [e]
  cases num
  · obtain ⟨M, m, h1, ⟨a, ha, h2⟩, _, _, h3⟩ := rangeImp_fin (npUnique (X.col f)) (fun v => pd1 u X f v) (col_ne_nil hX f)
    simp only [Bool.false_eq_true, if_false, h1]
    refine ⟨_, rfl, ?_⟩
    have := h3 a ha
    rw [← h2] at this
    linarith
  · simp only [if_true, npStd_fin _ _ (col_ne_nil hX f)]
    exact ⟨_, rfl, LawfulSqrt.nonneg _⟩

theorem impNum_zero (num : Bool) {u : Row F V → K} {f : F} (hu : Ignores u f) {X : Frame F V} (hX : X.rows ≠ []) :
    impNum num (finM u) X f = .ok (.fin 0) := by
  have e : Spec.pdSingle (finM u) X f = fun v => .fin (average (X.rows.map u)) := by
    funext v; rw [pdSingle_fin u hX f v, pd1_ignores hu]
  unfold impNum
  rw [e]
  cases num
  · simp only [Bool.false_eq_true, if_false, rangeImp_const _ (col_ne_nil hX f)]
  · simp only [if_true, npStd_const _ (col_ne_nil hX f)]
end
end Artemis
