import Verif.Proofs.PerfLemmas
import Verif.Examples.FitData

/-!
# Property C32: the performance metrics
-/

set_option linter.unusedSectionVars false
set_option linter.unusedVariables false
set_option linter.unusedSimpArgs false

namespace Artemis
open Spec

variable {K : Type} [Field K] [LinearOrder K] [IsStrictOrderedRing K] [HasSqrt K]

section helpers

theorem zipWith_fin (f : Num K → Num K → Num K) (u : K → K → K) (hf : ∀ a b, f (.fin a) (.fin b) = .fin (u a b))
    (ts hs : List K) :
    List.zipWith f (ts.map Num.fin) (hs.map Num.fin) = (ts.zip hs).map (fun p => .fin (u p.1 p.2)) := by
  induction ts generalizing hs with
  | nil => simp
  | cons t ts ih =>
    cases hs with
    | nil => simp
    | cons h hs => simp [hf, ih]

theorem zip_ne_nil {ts hs : List K} (hl : ts.length = hs.length) (hne : ts ≠ []) : ts.zip hs ≠ [] := by
  cases ts with
  | nil => exact absurd rfl hne
  | cons t ts => cases hs with
    | nil => simp at hl
    | cons h hs => simp

/-- mean squared error -/
def mseOf (ts hs : List K) : K := average ((ts.zip hs).map fun p => (p.2 - p.1) * (p.2 - p.1))

/-- share of correct predictions -/
def accOf (ts hs : List K) : K := average ((ts.zip hs).map fun p => if p.1 = p.2 then 1 else 0)

theorem mse_fin {ts hs : List K} (hl : ts.length = hs.length) (hne : ts ≠ []) :
    mseM.calculate (ts.map Num.fin) (hs.map Num.fin) = .ok (.fin (mseOf ts hs)) := by
  simp only [mseM, elementwise, List.length_map, hl, if_true]
  rw [zipWith_fin _ (fun t h => (h - t) * (h - t)) (by intro a b; simp)]
  simp only [bind, Except.bind]
  rw [Num.mean_fin _ (fun p : K × K => (p.2 - p.1) * (p.2 - p.1)) (zip_ne_nil hl hne)]
  rfl

theorem eqv_fin (a b : K) : Num.eqv (.fin a) (.fin b) = decide (a = b) := by
  simp only [Num.eqv, Num.le_fin]
  by_cases h : a = b
  · simp [h]
  · simp only [h, decide_false, Bool.and_eq_false_iff, decide_eq_false_iff_not, not_le]
    rcases lt_or_gt_of_ne h with h | h
    · exact Or.inr h
    · exact Or.inl h

theorem acc_fin {ts hs : List K} (hl : ts.length = hs.length) (hne : ts ≠ []) :
    accuracyM.calculate (ts.map Num.fin) (hs.map Num.fin) = .ok (.fin (accOf ts hs)) := by
  simp only [accuracyM, elementwise, List.length_map, hl, if_true]
  rw [zipWith_fin _ (fun t h => if t = h then 1 else 0) (by
    intro a b; simp only [eqv_fin]; by_cases h : a = b <;> simp [h])]
  simp only [bind, Except.bind]
  rw [Num.mean_fin _ (fun p : K × K => if p.1 = p.2 then (1 : K) else 0) (zip_ne_nil hl hne)]
  rfl

theorem mseOf_nonneg (ts hs : List K) : 0 ≤ mseOf ts hs :=
  div_nonneg (sum_sq_nonneg _ (fun p : K × K => p.2 - p.1)) (Nat.cast_nonneg _)

theorem zip_forall_eq {ts hs : List K} (hl : ts.length = hs.length) : (∀ p ∈ ts.zip hs, p.1 = p.2) ↔ ts = hs := by
  induction ts generalizing hs with
  | nil => cases hs <;> simp_all
  | cons t ts ih =>
    cases hs with
    | nil => simp at hl
    | cons h hs =>
      have := @ih hs (by simpa using hl)
      simp only [List.zip_cons_cons, List.mem_cons, forall_eq_or_imp, List.cons.injEq, this]

theorem mseOf_eq_zero {ts hs : List K} (hl : ts.length = hs.length) (hne : ts ≠ []) : mseOf ts hs = 0 ↔ ts = hs := by
  have hz := zip_ne_nil hl hne
  have hpos : (0 : K) < ((ts.zip hs).map fun p => (p.2 - p.1) * (p.2 - p.1)).length := by
    rw [List.length_map]
    exact_mod_cast List.length_pos_of_ne_nil hz
  constructor
  · intro h
    have h0 : ((ts.zip hs).map fun p => (p.2 - p.1) * (p.2 - p.1)).sum = 0 := by
      rcases div_eq_zero_iff.1 h with h | h
      · exact h
      · exact absurd h hpos.ne'
    rw [← zip_forall_eq hl]
    intro p hp
    exact (sub_eq_zero.1 (sum_sq_eq_zero (ts.zip hs) (fun p : K × K => p.2 - p.1) h0 p hp)).symm
  · intro h
    unfold mseOf average
    have : (ts.zip hs).map (fun p => (p.2 - p.1) * (p.2 - p.1)) = (ts.zip hs).map (fun _ => (0 : K)) := by
      apply List.map_congr_left
      intro p hp
      rw [(zip_forall_eq hl).2 h p hp]; ring
    rw [this]; simp

theorem sum_indicator {α : Type} (l : List α) (q : α → Prop) [DecidablePred q] :
    0 ≤ (l.map fun p => if q p then (1 : K) else 0).sum ∧ (l.map fun p => if q p then (1 : K) else 0).sum ≤ l.length ∧
      ((l.map fun p => if q p then (1 : K) else 0).sum = l.length ↔ ∀ p ∈ l, q p) := by
  induction l with
  | nil => simp
  | cons p l ih =>
    obtain ⟨h1, h2, h3⟩ := ih
    simp only [List.map_cons, List.sum_cons, List.length_cons, Nat.cast_add, Nat.cast_one, List.mem_cons,
      forall_eq_or_imp]
    by_cases hp : q p
    · simp only [hp, if_true, true_and]
      refine ⟨by linarith, by linarith, ?_⟩
      rw [← h3]
      constructor <;> intro h <;> linarith
    · simp only [hp, if_false, false_and, iff_false]
      refine ⟨by linarith, by linarith, ?_⟩
      intro h; linarith

theorem accOf_range {ts hs : List K} (hl : ts.length = hs.length) (hne : ts ≠ []) :
    0 ≤ accOf ts hs ∧ accOf ts hs ≤ 1 ∧ (accOf ts hs = 1 ↔ ts = hs) := by
  have hz := zip_ne_nil hl hne
  have hpos : (0 : K) < (ts.zip hs).length := by exact_mod_cast List.length_pos_of_ne_nil hz
  obtain ⟨h1, h2, h3⟩ := sum_indicator (K := K) (ts.zip hs) (fun p => p.1 = p.2)
  unfold accOf average
  rw [List.length_map]
  refine ⟨div_nonneg h1 hpos.le, (div_le_one hpos).2 h2, ?_⟩
  rw [div_eq_one_iff_eq hpos.ne', h3, zip_forall_eq hl]

theorem average_perm {l l' : List K} (h : l.Perm l') : average l = average l' := by
  unfold average; rw [h.sum_eq, h.length_eq]

end helpers

/-- **C32.** For finite targets and predictions of equal positive length: MSE and RMSE are numbers ≥ 0, zero exactly on
perfect predictions, with RMSE² = MSE. -/
theorem C32_mse_rmse_proper [LawfulSqrt K] {ts hs : List K} (hl : ts.length = hs.length) (hne : ts ≠ []) :
    ∃ m r : K, mseM.calculate (ts.map Num.fin) (hs.map Num.fin) = .ok (.fin m) ∧
      rmseM.calculate (ts.map Num.fin) (hs.map Num.fin) = .ok (.fin r) ∧
      m = ((ts.zip hs).map fun p => (p.2 - p.1) ^ 2).sum / ts.length ∧
      0 ≤ m ∧ 0 ≤ r ∧ r ^ 2 = m ∧ (m = 0 ↔ ts = hs) ∧ (r = 0 ↔ ts = hs) := by
  have hm := mseOf_nonneg ts hs
  have hr : HasSqrt.sqrt (mseOf ts hs) ^ 2 = mseOf ts hs := by rw [pow_two]; exact LawfulSqrt.mul_self _ hm
  refine ⟨mseOf ts hs, HasSqrt.sqrt (mseOf ts hs), mse_fin hl hne, ?_, ?_, hm, LawfulSqrt.nonneg _, hr,
    mseOf_eq_zero hl hne, ?_⟩
  · simp only [rmseM, mse_fin hl hne, bind, Except.bind, Num.sqrt, not_lt.2 hm, if_false]
  · simp only [mseOf, average, List.length_map, List.length_zip, ← hl, Nat.min_self, pow_two]
  · rw [← mseOf_eq_zero hl hne]
    constructor
    · intro h; rw [← hr, h]; ring
    · intro h; rw [h] at hr ⊢; exact pow_eq_zero_iff (two_ne_zero) |>.1 hr

/-- **C32.** Accuracy is the share of correct predictions: a number in [0, 1], 1 exactly on perfect predictions. -/
theorem C32_accuracy_proper {ts hs : List K} (hl : ts.length = hs.length) (hne : ts ≠ []) :
    ∃ x : K, accuracyM.calculate (ts.map Num.fin) (hs.map Num.fin) = .ok (.fin x) ∧
      x = ((ts.zip hs).countP fun p => decide (p.1 = p.2)) / (ts.length : K) ∧
      0 ≤ x ∧ x ≤ 1 ∧ (x = 1 ↔ ts = hs) := by
  obtain ⟨h1, h2, h3⟩ := accOf_range hl hne
  refine ⟨accOf ts hs, acc_fin hl hne, ?_, h1, h2, h3⟩
  simp only [accOf, average, List.length_map, List.length_zip, ← hl, Nat.min_self]
  congr 1
  generalize ts.zip hs = l
  induction l with
  | nil => simp
  | cons p l ih =>
    simp only [List.map_cons, List.sum_cons, List.countP_cons, ih]
    by_cases h : p.1 = p.2 <;> simp [h, add_comm]

/-- **C32.** The three metrics do not change when targets and predictions are rearranged together. -/
theorem C32_rearrangement_invariant {ts hs ts' hs' : List K} (hl : ts.length = hs.length) (hl' : ts'.length = hs'.length)
    (hne : ts ≠ []) (hp : (ts.zip hs).Perm (ts'.zip hs')) (M : Metric K)
    (hM : M = mseM ∨ M = rmseM ∨ M = accuracyM) :
    M.calculate (ts'.map Num.fin) (hs'.map Num.fin) = M.calculate (ts.map Num.fin) (hs.map Num.fin) := by
  have hne' : ts' ≠ [] := by
    rintro rfl
    have := hp.length_eq
    simp [← hl] at this
    exact hne this
  have e1 : mseOf ts' hs' = mseOf ts hs := average_perm ((hp.map _).symm)
  have e2 : accOf ts' hs' = accOf ts hs := average_perm ((hp.map _).symm)
  rcases hM with rfl | rfl | rfl
  · rw [mse_fin hl hne, mse_fin hl' hne', e1]
  · simp only [rmseM, mse_fin hl hne, mse_fin hl' hne', e1]
  · rw [acc_fin hl hne, acc_fin hl' hne', e2]

section Cases

/-- targets 1, 2, 3 and predictions 1, 4, 3 -/
example : mseM.calculate ([1, 2, 3].map (Num.fin (K := ℚ))) ([1, 4, 3].map Num.fin) = .ok (.fin (4 / 3)) := by
  decide +kernel
example : accuracyM.calculate ([1, 2, 3].map (Num.fin (K := ℚ))) ([1, 4, 3].map Num.fin) = .ok (.fin (2 / 3)) := by
  decide +kernel
/-- and the hypotheses of the theorems, over ℝ -/
example : ∃ m r : ℝ, mseM.calculate ([1, 2, 3].map (Num.fin (K := ℝ))) ([1, 4, 3].map Num.fin) = .ok (.fin m) ∧
    rmseM.calculate ([1, 2, 3].map (Num.fin (K := ℝ))) ([1, 4, 3].map Num.fin) = .ok (.fin r) ∧ r ^ 2 = m ∧ m ≠ 0 := by
  obtain ⟨m, r, h1, h2, _, _, _, h3, h4, _⟩ :=
    C32_mse_rmse_proper (K := ℝ) (ts := [1, 2, 3]) (hs := [1, 4, 3]) rfl (by simp)
  refine ⟨m, r, h1, h2, h3, fun h => ?_⟩
  have := h4.1 h
  norm_num at this
example : ([1, 2, 3].zip [1, 4, 3] : List (ℚ × ℚ)).Perm ([3, 1, 2].zip [3, 1, 4]) := by decide +kernel

end Cases
end Artemis
