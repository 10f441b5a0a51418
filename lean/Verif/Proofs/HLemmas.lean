import Verif.Proofs.FitSpec
import Verif.Spec.Decomp
import Mathlib.Tactic.LinearCombination

/-! # Lemmas about Friedman's H and partial dependence of finite-valued models -/

set_option linter.unusedSectionVars false
set_option linter.unusedVariables false
set_option linter.unusedSimpArgs false

namespace Artemis
open Spec

section
variable {K : Type} [Field K] [LinearOrder K] [IsStrictOrderedRing K]

theorem average_eq (l : List K) : average l = avg l := rfl

theorem sqrt_zero [HasSqrt K] [LawfulSqrt K] : HasSqrt.sqrt (0 : K) = 0 := by
  have := LawfulSqrt.mul_self (0 : K) le_rfl
  exact mul_self_eq_zero.1 this

theorem sqrt_unique [HasSqrt K] [LawfulSqrt K] {x y : K} (hx : 0 ≤ x) (hy : 0 ≤ y) (h : y * y = x) :
    HasSqrt.sqrt x = y := by
  have h1 := LawfulSqrt.mul_self x hx
  have h2 := LawfulSqrt.nonneg x
  rw [← h] at h1
  rw [h] at h1
  have : HasSqrt.sqrt x * HasSqrt.sqrt x = y * y := by rw [h1, h]
  exact (mul_self_inj_of_nonneg h2 hy).1 this

/-- `hNum` on finite vectors -/
theorem hNum_fin [HasSqrt K] {α : Type*} (n : Bool) (l : List α) (u v w : α → K) :
    hNum n (l.map (fun a => .fin (u a))) (l.map (fun a => .fin (v a))) (l.map (fun a => .fin (w a))) =
      let d := fun a => (w a - avg (l.map w)) - (u a - avg (l.map u)) - (v a - avg (l.map v))
      let e := fun a => w a - avg (l.map w)
      if n then Num.div (.fin (l.map (fun a => d a * d a)).sum) (.fin (l.map (fun a => e a * e a)).sum)
      else if l = [] then .nan else Num.sqrt (.fin (avg (l.map (fun a => d a * d a)))) := by
  unfold hNum
  rw [Num.center_fin, Num.center_fin, Num.center_fin, Num.subV_fin, Num.subV_fin]
  simp only [List.map_map, Function.comp_def, Num.sq_fin]
  by_cases hn : n = true
  · simp only [hn, if_true]
    rw [Num.sum_fin, Num.sum_fin]
  · simp only [hn, if_false]
    by_cases hl : l = []
    · subst hl
      simp [Num.mean_nil, Num.sqrt]
    · rw [Num.mean_fin _ _ hl, if_neg hl]
      simp

theorem hNum_zero [HasSqrt K] [LawfulSqrt K] {α : Type*} (n : Bool) (l : List α) (u v w : α → K) (k : K)
    (h : ∀ a ∈ l, w a - u a - v a = k) :
    (hNum n (l.map (fun a => .fin (u a))) (l.map (fun a => .fin (v a))) (l.map (fun a => .fin (w a)))).fillna0 =
      .fin 0 := by
  by_cases hl : l = []
  · subst hl
    cases n
    · simp [hNum, Num.subV, Num.center, Num.mean_nil, Num.sqrt]
    · simp [hNum, Num.subV, Num.center, Num.sum, Num.div, Num.infSign]
  have hk : avg (l.map (fun a => w a - u a - v a)) = k := by
    have : l.map (fun a => w a - u a - v a) = l.map (fun _ => k) := List.map_congr_left h
    rw [this, avg_const l hl]
  have hd : ∀ a ∈ l, (w a - avg (l.map w)) - (u a - avg (l.map u)) - (v a - avg (l.map v)) = 0 := by
    intro a ha
    rw [avg_sub, avg_sub] at hk
    have := h a ha
    linear_combination this - hk
  have hz : l.map (fun a => ((w a - avg (l.map w)) - (u a - avg (l.map u)) - (v a - avg (l.map v))) *
      ((w a - avg (l.map w)) - (u a - avg (l.map u)) - (v a - avg (l.map v)))) = l.map (fun _ => (0 : K)) :=
    List.map_congr_left (fun a ha => by rw [hd a ha, mul_zero])
  rw [hNum_fin]
  simp only [hz]
  cases n
  · simp only [Bool.false_eq_true, if_false, hl, avg_const l hl]
    simp [Num.sqrt, sqrt_zero]
  · simp only [if_true, List.map_const', List.sum_replicate, smul_zero]
    unfold Num.div
    split
    · simp_all
    · simp_all
    · rename_i hx hy
      cases hx; cases hy
      split
      · simp [Num.infSign]
      · simp
    all_goals simp_all

theorem hNum_nonneg [HasSqrt K] [LawfulSqrt K] {α : Type*} (n : Bool) (l : List α) (u v w : α → K) :
    let x := hNum n (l.map (fun a => .fin (u a))) (l.map (fun a => .fin (v a))) (l.map (fun a => .fin (w a)))
    x = .nan ∨ Num.Nonneg x := by
  intro x
  simp only [x, hNum_fin]
  cases n
  · simp only [Bool.false_eq_true, if_false]
    by_cases hl : l = []
    · simp [hl]
    · right
      rw [if_neg hl]
      have : 0 ≤ avg (l.map (fun a => ((w a - avg (l.map w)) - (u a - avg (l.map u)) - (v a - avg (l.map v))) *
        ((w a - avg (l.map w)) - (u a - avg (l.map u)) - (v a - avg (l.map v))))) := by
        unfold avg
        apply div_nonneg
        · exact sum_sq_nonneg l _
        · positivity
      simp only [Num.sqrt, if_neg (not_lt.2 this)]
      exact Num.nonneg_fin.2 (LawfulSqrt.nonneg _)
  · simp only [if_true]
    have h1 := sum_sq_nonneg l (fun a => (w a - avg (l.map w)) - (u a - avg (l.map u)) - (v a - avg (l.map v)))
    have h2 := sum_sq_nonneg l (fun a => w a - avg (l.map w))
    simp only [Num.div]
    split
    · unfold Num.infSign
      split
      · right; rfl
      · split
        · rename_i h; exact absurd h (not_lt.2 h1)
        · left; rfl
    · right
      exact Num.nonneg_fin.2 (div_nonneg h1 h2)
end

section
variable {F V K : Type} [DecidableEq F] [LinearOrder V] [Field K] [LinearOrder K] [IsStrictOrderedRing K]

/-- a finite-valued model -/
def finM (u : Row F V → K) : Row F V → Num K := fun r => .fin (u r)

theorem pdSingle_fin (u : Row F V → K) {X : Frame F V} (h : X.rows ≠ []) (f : F) (v : V) :
    Spec.pdSingle (finM u) X f v = .fin (pd1 u X f v) := Num.mean_fin X.rows _ h

theorem pdPair_fin (u : Row F V → K) {X : Frame F V} (h : X.rows ≠ []) (f f' : F) (v v' : V) :
    Spec.pdPair (finM u) X f f' v v' = .fin (pd2 u X f f' v v') := Num.mean_fin X.rows _ h

theorem pdMinus_fin (u : Row F V → K) {X : Frame F V} (h : X.rows ≠ []) (f : F) (ri : Row F V) :
    Spec.pdMinus (finM u) X f ri = .fin (pdNot u X f ri) := Num.mean_fin X.rows _ h

variable [HasSqrt K]

theorem hPair_fin (n : Bool) (u : Row F V → K) (X : Frame F V) (f f' : F) :
    hPair n (finM u) X f f' = hNum n (X.rows.map (fun r => .fin (pd1 u X f (r f))))
      (X.rows.map (fun r => .fin (pd1 u X f' (r f')))) (X.rows.map (fun r => .fin (pd2 u X f f' (r f) (r f')))) := by
  by_cases h : X.rows = []
  · simp [hPair, h]
  · simp only [hPair, pdSingle_fin u h, pdPair_fin u h]

theorem hFeat_fin (n : Bool) (u : Row F V → K) (X : Frame F V) (f : F) :
    hFeat n (finM u) X f = hNum n (X.rows.map (fun r => .fin (pd1 u X f (r f))))
      (X.rows.map (fun r => .fin (pdNot u X f r))) (X.rows.map (fun r => .fin (u r))) := by
  by_cases h : X.rows = []
  · simp [hFeat, h]
  · have : Spec.pdMinus (finM u) X f = fun r => .fin (pdNot u X f r) := funext (pdMinus_fin u h f)
    simp only [hFeat, pdSingle_fin u h, this]; rfl

theorem pd1_split {u a b : Row F V → K} (hu : ∀ r, u r = a r + b r) (X : Frame F V) (f : F) (v : V) :
    pd1 u X f v = pd1 a X f v + pd1 b X f v := by
  simp only [pd1, average_eq, hu, avg_add]

theorem pd2_split {u a b : Row F V → K} (hu : ∀ r, u r = a r + b r) (X : Frame F V) (f f' : F) (v v' : V) :
    pd2 u X f f' v v' = pd2 a X f f' v v' + pd2 b X f f' v v' := by
  simp only [pd2, average_eq, hu, avg_add]

theorem pdNot_split {u a b : Row F V → K} (hu : ∀ r, u r = a r + b r) (X : Frame F V) (f : F) (ri : Row F V) :
    pdNot u X f ri = pdNot a X f ri + pdNot b X f ri := by
  simp only [pdNot, average_eq, hu, avg_add]

theorem setF_comm (r : Row F V) {f f' : F} (h : f ≠ f') (v v' : V) :
    setF (setF r f' v') f v = setF (setF r f v) f' v' := by
  funext k
  simp only [setF]
  by_cases h1 : k = f
  · subst h1; simp [h]
  · simp [h1]

theorem pd2_ignores_fst {a : Row F V → K} {f : F} (ha : Ignores a f) (X : Frame F V) (f' : F) (v v' : V) :
    pd2 a X f f' v v' = pd1 a X f' v' := by
  simp only [pd2, pd1, ha _ v]

theorem pd2_ignores_snd {b : Row F V → K} {f f' : F} (hne : f ≠ f') (hb : Ignores b f') (X : Frame F V) (v v' : V) :
    pd2 b X f f' v v' = pd1 b X f v := by
  simp only [pd2, pd1, setF_comm _ hne, hb _ v']

theorem pd1_ignores {a : Row F V → K} {f : F} (ha : Ignores a f) (X : Frame F V) (v : V) :
    pd1 a X f v = average (X.rows.map a) := by
  simp only [pd1, ha _ v]

/-- interaction-free pair: the H value is 0 after filling missing values -/
theorem hPair_zero [LawfulSqrt K] (n : Bool) {u a b : Row F V → K} (hu : ∀ r, u r = a r + b r) {f f' : F}
    (hne : f ≠ f') (ha : Ignores a f) (hb : Ignores b f') (X : Frame F V) :
    (hPair n (finM u) X f f').fillna0 = .fin 0 := by
  rw [hPair_fin]
  apply hNum_zero (k := - average (X.rows.map a) - average (X.rows.map b))
  intro r _
  rw [pd2_split hu, pd1_split hu, pd1_split hu, pd2_ignores_fst ha, pd2_ignores_snd hne hb, pd1_ignores ha,
    pd1_ignores hb]
  ring

theorem hFeat_zero [LawfulSqrt K] (n : Bool) {u a b : Row F V → K} (hu : ∀ r, u r = a r + b r) {f : F}
    (ha : OnlyUses a f) (hb : Ignores b f) (X : Frame F V) :
    (hFeat n (finM u) X f).fillna0 = .fin 0 := by
  rw [hFeat_fin]
  by_cases hX : X.rows = []
  · have := hNum_zero n X.rows (fun r : Row F V => pd1 u X f (r f)) (fun r => pdNot u X f r) u 0 (by simp [hX])
    exact this
  apply hNum_zero (k := - average (X.rows.map a) - average (X.rows.map b))
  intro r _
  have e1 : pd1 a X f (r f) = a r := by
    have : (fun r' => a (setF r' f (r f))) = (fun _ : Row F V => a r) := by
      funext r'
      exact ha _ _ (by simp [setF])
    simp only [pd1, this, average_eq]
    exact avg_const X.rows hX (a r)
  have e2 : pdNot a X f r = average (X.rows.map a) := by
    have : (fun r' : Row F V => a (setF r f (r' f))) = a := by
      funext r'
      exact ha _ _ (by simp [setF])
    simp only [pdNot, this]
  have e3 : pdNot b X f r = b r := by
    have : (fun r' : Row F V => b (setF r f (r' f))) = (fun _ => b r) := by
      funext r'
      exact hb _ _
    simp only [pdNot, this, average_eq]
    exact avg_const X.rows hX (b r)
  rw [pd1_split hu, pdNot_split hu, e1, e2, e3, pd1_ignores hb, hu]
  ring

/-! rescaling -/

theorem pd1_affine {u : Row F V → K} {X : Frame F V} (hX : X.rows ≠ []) (c d : K) (f : F) (v : V) :
    pd1 (fun r => c * u r + d) X f v = c * pd1 u X f v + d := by
  simp only [pd1, average_eq, avg_add X.rows (fun r => c * u (setF r f v)) (fun _ => d), avg_const_mul,
    avg_const X.rows hX]

theorem pd2_affine {u : Row F V → K} {X : Frame F V} (hX : X.rows ≠ []) (c d : K) (f f' : F) (v v' : V) :
    pd2 (fun r => c * u r + d) X f f' v v' = c * pd2 u X f f' v v' + d := by
  simp only [pd2, average_eq, avg_add X.rows (fun r => c * u (setF (setF r f' v') f v)) (fun _ => d), avg_const_mul,
    avg_const X.rows hX]

theorem pdNot_affine {u : Row F V → K} {X : Frame F V} (hX : X.rows ≠ []) (c d : K) (f : F) (ri : Row F V) :
    pdNot (fun r => c * u r + d) X f ri = c * pdNot u X f ri + d := by
  simp only [pdNot, average_eq, avg_add X.rows (fun r => c * u (setF ri f (r f))) (fun _ => d), avg_const_mul,
    avg_const X.rows hX]

/-- multiply a number by a finite factor, keeping infinities (for positive factors) and NaN -/
def Num.scale (c : K) (x : Num K) : Num K := Num.mul (.fin c) x

/-- the value of H in terms of the unexplained part `D` and the joint part `W` -/
def hCore {α : Type*} (n : Bool) (l : List α) (D W : α → K) : Num K :=
  if n then Num.div (.fin (l.map (fun a => D a * D a)).sum) (.fin (l.map (fun a => W a * W a)).sum)
  else if l = [] then .nan else Num.sqrt (.fin (avg (l.map (fun a => D a * D a))))

theorem hNum_core {α : Type*} (n : Bool) (l : List α) (u v w : α → K) :
    hNum n (l.map (fun a => .fin (u a))) (l.map (fun a => .fin (v a))) (l.map (fun a => .fin (w a))) =
      hCore n l (fun a => (w a - avg (l.map w)) - (u a - avg (l.map u)) - (v a - avg (l.map v)))
        (fun a => w a - avg (l.map w)) := by
  rw [hNum_fin]
  rfl

theorem hCore_scale [LawfulSqrt K] {α : Type*} (n : Bool) (l : List α) (D W : α → K) (c : K) (hc : c ≠ 0) :
    hCore n l (fun a => c * D a) (fun a => c * W a) =
      if n then hCore n l D W else Num.scale |c| (hCore n l D W) := by
  unfold hCore
  have h1 : (fun a => c * D a * (c * D a)) = (fun a => (c * c) * (D a * D a)) := by
    funext a; ring
  have h2 : (fun a => c * W a * (c * W a)) = (fun a => (c * c) * (W a * W a)) := by
    funext a; ring
  simp only [h1, h2, list_sum_const_mul, avg_const_mul]
  have hcc : 0 < c * c := mul_self_pos.2 hc
  cases n
  · simp only [Bool.false_eq_true, if_false]
    by_cases hl : l = []
    · simp [hl, Num.scale, Num.mul]
    have hp : 0 ≤ avg (l.map (fun a => D a * D a)) := by
      unfold avg
      exact div_nonneg (sum_sq_nonneg l _) (by positivity)
    simp only [if_neg hl, Num.sqrt, if_neg (not_lt.2 hp), if_neg (not_lt.2 (mul_nonneg hcc.le hp)), Num.scale,
      Num.mul_fin]
    congr 1
    apply sqrt_unique (mul_nonneg hcc.le hp) (mul_nonneg (abs_nonneg c) (LawfulSqrt.nonneg _))
    have := LawfulSqrt.mul_self _ hp
    rw [show |c| * HasSqrt.sqrt (avg (l.map (fun a => D a * D a))) *
      (|c| * HasSqrt.sqrt (avg (l.map (fun a => D a * D a)))) = (|c| * |c|) *
        (HasSqrt.sqrt (avg (l.map (fun a => D a * D a))) * HasSqrt.sqrt (avg (l.map (fun a => D a * D a)))) by ring,
      this, abs_mul_abs_self]
  · simp only [if_true]
    generalize (l.map (fun a => D a * D a)).sum = s
    generalize (l.map (fun a => W a * W a)).sum = t
    simp only [Num.div]
    by_cases ht : t = 0
    · simp only [ht, mul_zero, if_true, Num.infSign, mul_pos_iff_of_pos_left hcc]
      have : c * c * s < 0 ↔ s < 0 := by
        constructor
        · intro h; by_contra hn; exact absurd h (not_lt.2 (mul_nonneg hcc.le (not_lt.1 hn)))
        · intro h; exact mul_neg_of_pos_of_neg hcc h
      simp only [this]
    · have : c * c * t ≠ 0 := mul_ne_zero hcc.ne' ht
      simp only [ht, this, if_false]
      congr 1
      field_simp

theorem hNum_affine [LawfulSqrt K] {α : Type*} (n : Bool) (l : List α) (u v w : α → K) (c d : K) (hc : c ≠ 0) :
    hNum n (l.map (fun a => .fin (c * u a + d))) (l.map (fun a => .fin (c * v a + d)))
        (l.map (fun a => .fin (c * w a + d))) =
      if n then hNum n (l.map (fun a => .fin (u a))) (l.map (fun a => .fin (v a))) (l.map (fun a => .fin (w a)))
      else Num.scale |c|
        (hNum n (l.map (fun a => .fin (u a))) (l.map (fun a => .fin (v a))) (l.map (fun a => .fin (w a)))) := by
  rw [hNum_core, hNum_core, ← hCore_scale n l _ _ c hc]
  by_cases hl : l = []
  · subst hl; simp [hCore]
  have hA : ∀ t : α → K, avg (l.map (fun a => c * t a + d)) = c * avg (l.map t) + d := by
    intro t
    rw [avg_add l (fun a => c * t a) (fun _ => d), avg_const_mul, avg_const l hl]
  simp only [hA]
  congr 1 <;> funext a <;> ring

theorem hPair_affine [LawfulSqrt K] (n : Bool) (u : Row F V → K) (X : Frame F V) (f f' : F) (c d : K) (hc : c ≠ 0) :
    hPair n (finM (fun r => c * u r + d)) X f f' =
      if n then hPair n (finM u) X f f' else Num.scale |c| (hPair n (finM u) X f f') := by
  rw [hPair_fin, hPair_fin, ← hNum_affine n X.rows _ _ _ c d hc]
  by_cases hX : X.rows = []
  · simp [hX]
  · simp only [pd1_affine hX, pd2_affine hX]

theorem hFeat_affine [LawfulSqrt K] (n : Bool) (u : Row F V → K) (X : Frame F V) (f : F) (c d : K) (hc : c ≠ 0) :
    hFeat n (finM (fun r => c * u r + d)) X f =
      if n then hFeat n (finM u) X f else Num.scale |c| (hFeat n (finM u) X f) := by
  rw [hFeat_fin, hFeat_fin, ← hNum_affine n X.rows _ _ _ c d hc]
  by_cases hX : X.rows = []
  · simp [hX]
  · simp only [pd1_affine hX, pdNot_affine hX]

theorem Num.add_comm' (a b : Num K) : Num.add a b = Num.add b a := by
  cases a <;> cases b <;> simp [Num.add, add_comm]

theorem Num.add_assoc' (a b c : Num K) : Num.add (Num.add a b) c = Num.add a (Num.add b c) := by
  cases a <;> cases b <;> cases c <;> simp [Num.add, add_assoc]

theorem Num.sub_sub_comm' (a b c : Num K) : Num.sub (Num.sub a b) c = Num.sub (Num.sub a c) b := by
  simp only [Num.sub, Num.add_assoc']
  rw [Num.add_comm' (Num.neg b)]

theorem subV_subV_comm (a b c : List (Num K)) : Num.subV (Num.subV a b) c = Num.subV (Num.subV a c) b := by
  induction a generalizing b c with
  | nil => simp [Num.subV]
  | cons x a ih =>
    cases b with
    | nil => cases c <;> simp [Num.subV]
    | cons y b =>
      cases c with
      | nil => simp [Num.subV]
      | cons z c =>
        have := ih b c
        simp only [Num.subV, List.zipWith_cons_cons] at this ⊢
        rw [this, Num.sub_sub_comm']

theorem hNum_swap (n : Bool) (u v w : List (Num K)) : hNum n u v w = hNum n v u w := by
  unfold hNum
  rw [subV_subV_comm]

theorem hPair_swap (n : Bool) (g : Row F V → Num K) (X : Frame F V) {f f' : F} (hne : f ≠ f') :
    hPair n g X f f' = hPair n g X f' f := by
  unfold hPair
  rw [hNum_swap]
  congr 1
  apply List.map_congr_left
  intro r _
  exact pdPair_swap g X f f' _ _ hne
end

end Artemis
