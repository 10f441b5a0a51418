import Verif.Model.Num
import Mathlib.Algebra.Order.BigOperators.Group.List
import Mathlib.Tactic.Ring
import Mathlib.Tactic.Linarith
import Mathlib.Tactic.FieldSimp
import Mathlib.Tactic.Positivity

/-! # Lemmas about extended numbers, sums, means and table sorting -/

set_option linter.unusedSectionVars false
set_option linter.unusedVariables false

namespace Artemis

/-- average in the field -/
def avg {K : Type*} [Field K] (l : List K) : K := l.sum / l.length

namespace Num
variable {K : Type*} [Field K] [LinearOrder K]

@[simp] theorem add_fin (x y : K) : add (.fin x) (.fin y) = .fin (x + y) := rfl
@[simp] theorem neg_fin (x : K) : neg (.fin x) = .fin (-x) := rfl
@[simp] theorem sub_fin (x y : K) : sub (.fin x) (.fin y) = .fin (x - y) := by
  simp [sub, sub_eq_add_neg]
@[simp] theorem mul_fin (x y : K) : mul (.fin x) (.fin y) = .fin (x * y) := rfl
@[simp] theorem sq_fin (x : K) : sq (.fin x) = .fin (x * x) := rfl
theorem div_fin (x y : K) (h : y ≠ 0) : div (.fin x) (.fin y) = .fin (x / y) := by
  simp [div, h]
@[simp] theorem abs_fin (x : K) : abs (.fin x) = .fin |x| := rfl
@[simp] theorem isNaN_fin (x : K) : isNaN (.fin x : Num K) = false := rfl
@[simp] theorem isNaN_pinf : isNaN (.pinf : Num K) = false := rfl
@[simp] theorem isNaN_ninf : isNaN (.ninf : Num K) = false := rfl
@[simp] theorem isNaN_nan' : isNaN (.nan : Num K) = true := rfl
@[simp] theorem le_fin (x y : K) : le (.fin x) (.fin y) = decide (x ≤ y) := rfl
@[simp] theorem fillna0_fin (x : K) : fillna0 (.fin x : Num K) = .fin x := rfl
@[simp] theorem fillna0_nan : fillna0 (.nan : Num K) = .fin 0 := rfl
@[simp] theorem fillna0_pinf : fillna0 (.pinf : Num K) = .pinf := rfl

theorem isNaN_iff (a : Num K) : a.isNaN = true ↔ a = .nan := by
  cases a <;> simp

theorem sum_fin {α : Type*} (l : List α) (u : α → K) :
    sum (l.map (fun a => .fin (u a))) = .fin (l.map u).sum := by
  induction l with
  | nil => rfl
  | cons a l ih => simp [sum, ih]

theorem mean_fin [IsStrictOrderedRing K] {α : Type*} (l : List α) (u : α → K) (h : l ≠ []) :
    mean (l.map (fun a => .fin (u a))) = .fin (avg (l.map u)) := by
  have : ((l.map (fun a => (.fin (u a) : Num K))).length : K) ≠ 0 := by
    simpa using h
  rw [mean, sum_fin, ofNat, div_fin _ _ this]
  simp [avg]

theorem mean_nil : mean ([] : List (Num K)) = .nan := by
  simp [mean, sum, ofNat, div, infSign]

theorem center_fin [IsStrictOrderedRing K] {α : Type*} (l : List α) (u : α → K) :
    center (l.map (fun a => .fin (u a))) = l.map (fun a => .fin (u a - avg (l.map u))) := by
  by_cases h : l = []
  · subst h; rfl
  · rw [center, mean_fin l u h]
    simp

theorem subV_fin {α : Type*} (l : List α) (u v : α → K) :
    subV (l.map (fun a => .fin (u a))) (l.map (fun a => .fin (v a))) = l.map (fun a => .fin (u a - v a)) := by
  induction l with
  | nil => rfl
  | cons a l ih =>
    simp only [subV, List.map_cons, List.zipWith_cons_cons, sub_fin] at ih ⊢
    rw [ih]

/-! order -/

variable [IsStrictOrderedRing K]

theorem le_refl' {a : Num K} (h : a ≠ .nan) : le a a = true := by
  cases a <;> simp [le] at h ⊢

theorem le_trans' {a b c : Num K} (h1 : le a b = true) (h2 : le b c = true) : le a c = true := by
  cases a <;> cases b <;> cases c <;> simp_all [le]
  exact le_trans h1 h2

theorem le_total' {a b : Num K} (ha : a ≠ .nan) (hb : b ≠ .nan) : le a b = true ∨ le b a = true := by
  cases a <;> cases b <;> simp_all [le]
  exact le_total _ _

theorem le_antisymm' {a b : Num K} (h1 : le a b = true) (h2 : le b a = true) : a = b := by
  cases a <;> cases b <;> simp_all [le]
  exact le_antisymm h1 h2

theorem keyLE_trans {asc : Bool} {a b c : Num K} (h1 : keyLE asc a b = true) (h2 : keyLE asc b c = true) :
    keyLE asc a c = true := by
  unfold keyLE at *
  by_cases hc : c.isNaN = true
  · simp [hc]
  · rw [if_neg hc] at h2 ⊢
    by_cases hb : b.isNaN = true
    · simp [hb] at h2
    · rw [if_neg hb] at h1 h2
      by_cases ha : a.isNaN = true
      · simp [ha] at h1
      · rw [if_neg ha] at h1 ⊢
        cases asc
        · simp only [Bool.false_eq_true, if_false] at *
          exact le_trans' h2 h1
        · simp only [if_true] at *
          exact le_trans' h1 h2

theorem keyLE_total (asc : Bool) (a b : Num K) : keyLE asc a b = true ∨ keyLE asc b a = true := by
  unfold keyLE
  by_cases hb : b.isNaN = true
  · simp [hb]
  · by_cases ha : a.isNaN = true
    · simp [ha]
    · simp only [hb, ha, if_false, Bool.false_eq_true]
      have ha' : a ≠ .nan := fun h => ha ((isNaN_iff a).2 h)
      have hb' : b ≠ .nan := fun h => hb ((isNaN_iff b).2 h)
      cases asc
      · simpa using (le_total' ha' hb').symm
      · simpa using le_total' ha' hb'

/-- `0 ≤ a`, in particular not NaN -/
def Nonneg (a : Num K) : Prop := le (.fin 0) a = true

theorem Nonneg.not_nan {a : Num K} (h : Nonneg a) : a ≠ .nan := by
  rintro rfl; simp [Nonneg, le] at h

theorem nonneg_fin {x : K} : Nonneg (.fin x) ↔ 0 ≤ x := by simp [Nonneg]
theorem nonneg_pinf : Nonneg (.pinf : Num K) := rfl

theorem fillna0_of_ne {a : Num K} (h : a ≠ .nan) : fillna0 a = a := by
  unfold fillna0; rw [if_neg (fun e => h ((isNaN_iff a).1 e))]

/-- filling missing values with 0 after a descending sort keeps the order when all numbers are non-negative -/
theorem keyLE_fillna {a b : Num K} (h : keyLE false a b = true) (ha : a = .nan ∨ Nonneg a)
    (hb : b = .nan ∨ Nonneg b) : le (fillna0 b) (fillna0 a) = true := by
  rcases hb with rfl | hb
  · rcases ha with rfl | ha
    · simp
    · rw [fillna0_of_ne ha.not_nan]; exact ha
  · rcases ha with rfl | ha
    · have := hb.not_nan
      unfold keyLE at h
      rw [if_neg (fun e => this ((isNaN_iff b).1 e))] at h
      simp at h
    · rw [fillna0_of_ne ha.not_nan, fillna0_of_ne hb.not_nan]
      unfold keyLE at h
      rw [if_neg (fun e => hb.not_nan ((isNaN_iff b).1 e)), if_neg (fun e => ha.not_nan ((isNaN_iff a).1 e))] at h
      simpa using h

end Num

theorem sortsBy_stableSort {K : Type*} [Field K] [LinearOrder K] [IsStrictOrderedRing K] {α : Type*}
    (key : α → Num K) (asc : Bool) : SortsBy key asc (stableSort key asc) := by
  intro l
  have tot : ∀ a b : α, Num.keyLE asc (key a) (key b) = true ∨ Num.keyLE asc (key b) (key a) = true :=
    fun a b => Num.keyLE_total asc _ _
  have tr : ∀ a b c : α, Num.keyLE asc (key a) (key b) = true → Num.keyLE asc (key b) (key c) = true →
      Num.keyLE asc (key a) (key c) = true := fun a b c => Num.keyLE_trans
  refine ⟨List.perm_insertionSort _ l, ?_⟩
  haveI : Std.Total (fun a b : α => Num.keyLE asc (key a) (key b) = true) := ⟨tot⟩
  haveI : IsTrans α (fun a b : α => Num.keyLE asc (key a) (key b) = true) := ⟨tr⟩
  exact List.pairwise_insertionSort _ l

/-! ### averages in the field -/
section avg
variable {K : Type*} [Field K] [LinearOrder K] [IsStrictOrderedRing K] {α : Type*}

theorem list_sum_sub (l : List α) (u v : α → K) :
    (l.map (fun a => u a - v a)).sum = (l.map u).sum - (l.map v).sum := by
  induction l with
  | nil => simp
  | cons a l ih => simp only [List.map_cons, List.sum_cons, ih]; ring

theorem list_sum_add (l : List α) (u v : α → K) :
    (l.map (fun a => u a + v a)).sum = (l.map u).sum + (l.map v).sum := by
  induction l with
  | nil => simp
  | cons a l ih => simp only [List.map_cons, List.sum_cons, ih]; ring

theorem list_sum_const_mul (l : List α) (c : K) (u : α → K) :
    (l.map (fun a => c * u a)).sum = c * (l.map u).sum := by
  induction l with
  | nil => simp
  | cons a l ih => simp only [List.map_cons, List.sum_cons, ih]; ring

theorem avg_add (l : List α) (u v : α → K) :
    avg (l.map (fun a => u a + v a)) = avg (l.map u) + avg (l.map v) := by
  simp only [avg, list_sum_add, List.length_map]; ring

theorem avg_sub (l : List α) (u v : α → K) :
    avg (l.map (fun a => u a - v a)) = avg (l.map u) - avg (l.map v) := by
  simp only [avg, list_sum_sub, List.length_map]; ring

theorem avg_const_mul (l : List α) (c : K) (u : α → K) :
    avg (l.map (fun a => c * u a)) = c * avg (l.map u) := by
  simp only [avg, list_sum_const_mul, List.length_map]; ring

theorem avg_const (l : List α) (h : l ≠ []) (c : K) : avg (l.map (fun _ => c)) = c := by
  have : (l.length : K) ≠ 0 := by simpa using h
  simp only [avg, List.map_const', List.sum_replicate, List.length_replicate, nsmul_eq_mul]
  field_simp

theorem sum_sq_nonneg (l : List α) (u : α → K) : 0 ≤ (l.map (fun a => u a * u a)).sum := by
  apply List.sum_nonneg
  intro x hx
  obtain ⟨a, _, rfl⟩ := List.mem_map.1 hx
  exact mul_self_nonneg _

theorem sum_sq_eq_zero (l : List α) (u : α → K) (h : (l.map (fun a => u a * u a)).sum = 0) :
    ∀ a ∈ l, u a = 0 := by
  induction l with
  | nil => simp
  | cons b l ih =>
    simp only [List.map_cons, List.sum_cons] at h
    have h1 := mul_self_nonneg (u b)
    have h2 := sum_sq_nonneg l u
    have hb : u b * u b = 0 := by linarith
    have hl : (l.map (fun a => u a * u a)).sum = 0 := by linarith
    intro a ha
    rcases List.mem_cons.1 ha with rfl | ha
    · exact mul_self_eq_zero.1 hb
    · exact ih hl a ha
end avg

end Artemis
