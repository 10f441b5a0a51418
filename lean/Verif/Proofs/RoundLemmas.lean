import Verif.Spec.Rounding
import Verif.Spec.Spread
import Verif.Proofs.PDFit
import Verif.Proofs.ZenPd
import Mathlib.Tactic.Linarith

/-!
# Lemmas about rounded arithmetic
-/

set_option linter.unusedSectionVars false
set_option linter.unusedVariables false
set_option linter.unusedSimpArgs false

namespace Artemis
open Spec

section Signs
variable {K : Type} [Field K] [LinearOrder K] [IsStrictOrderedRing K] {A : Arith K}

/-- NaN or non-negative -/
def NaNOrNonneg (a : Num K) : Prop := a = .nan ∨ Num.Nonneg a

theorem naNOrNonneg_fin {x : K} (h : 0 ≤ x) : NaNOrNonneg (.fin x) := Or.inr (Num.nonneg_fin.2 h)

theorem naNOrNonneg_cases {a : Num K} (h : NaNOrNonneg a) : a = .nan ∨ a = .pinf ∨ ∃ x, a = .fin x ∧ 0 ≤ x := by
  rcases h with h | h
  · exact Or.inl h
  · cases a with
    | fin x => exact Or.inr (Or.inr ⟨x, rfl, Num.nonneg_fin.1 h⟩)
    | pinf => exact Or.inr (Or.inl rfl)
    | ninf => simp [Num.Nonneg, Num.le] at h
    | nan => exact Or.inl rfl

theorem r_nonneg (hA : A.Lawful) {a : Num K} (h : NaNOrNonneg a) : NaNOrNonneg (A.r a) := by
  rcases naNOrNonneg_cases h with rfl | rfl | ⟨x, rfl, hx⟩
  · exact Or.inl rfl
  · exact Or.inr Num.nonneg_pinf
  · rcases hA.rnd_nonneg x hx with e | ⟨y, e, hy⟩
    · exact Or.inr (by simp only [Arith.r, e]; exact Num.nonneg_pinf)
    · simp only [Arith.r, e]; exact naNOrNonneg_fin hy

theorem add_nonnegR (hA : A.Lawful) {a b : Num K} (ha : NaNOrNonneg a) (hb : NaNOrNonneg b) : NaNOrNonneg (A.add a b) := by
  apply r_nonneg hA
  rcases naNOrNonneg_cases ha with rfl | rfl | ⟨x, rfl, hx⟩ <;> rcases naNOrNonneg_cases hb with rfl | rfl | ⟨y, rfl, hy⟩ <;>
    first | exact Or.inl rfl | exact Or.inr Num.nonneg_pinf | exact naNOrNonneg_fin (add_nonneg hx hy)

theorem sq_nonnegR (hA : A.Lawful) (a : Num K) : NaNOrNonneg (A.sq a) := by
  apply r_nonneg hA
  cases a with
  | fin x => exact naNOrNonneg_fin (mul_self_nonneg x)
  | pinf => exact Or.inr Num.nonneg_pinf
  | ninf => exact Or.inr Num.nonneg_pinf
  | nan => exact Or.inl rfl

theorem sum_nonnegR (hA : A.Lawful) {l : List (Num K)} (h : ∀ a ∈ l, NaNOrNonneg a) : NaNOrNonneg (A.sum l) := by
  have := hA.sums l
  revert h
  generalize A.sum l = s at this
  induction this with
  | nil => intro _; exact naNOrNonneg_fin le_rfl
  | one a => intro h; exact h a List.mem_cons_self
  | add p h1 h2 n1 n2 ih1 ih2 =>
    intro h
    exact add_nonnegR hA (ih1 fun a ha => h a (p.mem_iff.2 (List.mem_append_left _ ha)))
      (ih2 fun a ha => h a (p.mem_iff.2 (List.mem_append_right _ ha)))

theorem div_nonnegR (hA : A.Lawful) {a b : Num K} (ha : NaNOrNonneg a) (hb : NaNOrNonneg b) : NaNOrNonneg (A.div a b) := by
  apply r_nonneg hA
  rcases naNOrNonneg_cases ha with rfl | rfl | ⟨x, rfl, hx⟩ <;> rcases naNOrNonneg_cases hb with rfl | rfl | ⟨y, rfl, hy⟩
  · exact Or.inl rfl
  · exact Or.inl rfl
  · exact Or.inl rfl
  · exact Or.inl rfl
  · exact Or.inl rfl
  · simp only [Num.div, if_neg (not_lt.2 hy)]; exact Or.inr Num.nonneg_pinf
  · exact Or.inl rfl
  · exact naNOrNonneg_fin le_rfl
  · simp only [Num.div]
    by_cases h0 : y = 0
    · rw [if_pos h0]
      unfold Num.infSign
      by_cases h1 : 0 < x
      · rw [if_pos h1]; exact Or.inr Num.nonneg_pinf
      · rw [if_neg h1, if_neg (not_lt.2 hx)]; exact Or.inl rfl
    · rw [if_neg h0]; exact naNOrNonneg_fin (div_nonneg hx hy)

theorem mean_nonnegR (hA : A.Lawful) {l : List (Num K)} (h : ∀ a ∈ l, NaNOrNonneg a) : NaNOrNonneg (A.mean l) :=
  div_nonnegR hA (sum_nonnegR hA h) (naNOrNonneg_fin (Nat.cast_nonneg _))

theorem sqrt_nonnegR [HasSqrt K] [LawfulSqrt K] (hA : A.Lawful) {a : Num K} (h : NaNOrNonneg a) : NaNOrNonneg (A.sqrt a) := by
  apply r_nonneg hA
  rcases naNOrNonneg_cases h with rfl | rfl | ⟨x, rfl, hx⟩
  · exact Or.inl rfl
  · exact Or.inr Num.nonneg_pinf
  · simp only [Num.sqrt, if_neg (not_lt.2 hx)]; exact naNOrNonneg_fin (LawfulSqrt.nonneg x)

theorem all_sq (hA : A.Lawful) (l : List (Num K)) : ∀ a ∈ l.map A.sq, NaNOrNonneg a := by
  intro a ha
  obtain ⟨b, _, rfl⟩ := List.mem_map.1 ha
  exact sq_nonnegR hA b

theorem hstatValueR_nonneg [HasSqrt K] [LawfulSqrt K] (hA : A.Lawful) {p q w : List (Rounded A)} {n : Bool} {h : Num K}
    (e : hstatValueR A p q w n = .ok h) : NaNOrNonneg h := by
  unfold hstatValueR at e
  simp only [bind, Except.bind] at e
  split at e
  · cases e
  · split at e
    · cases e
    · cases e
      cases n with
      | false => simp only [Bool.false_eq_true, if_false]; exact sqrt_nonnegR hA (mean_nonnegR hA (all_sq hA _))
      | true => simp only [if_true]; exact div_nonnegR hA (sum_nonnegR hA (all_sq hA _)) (sum_nonnegR hA (all_sq hA _))

theorem npStdR_nonneg [HasSqrt K] [LawfulSqrt K] (hA : A.Lawful) (l : List (Num K)) : NaNOrNonneg (npStdR A l) :=
  sqrt_nonnegR hA (mean_nonnegR hA (all_sq hA _))

theorem sub_nonnegR (hA : A.Lawful) {M m : Num K} (h : M = .nan ∨ m = .nan ∨ Num.le m M = true) : NaNOrNonneg (A.sub M m) := by
  apply r_nonneg hA
  rcases h with rfl | rfl | h
  · exact Or.inl rfl
  · cases M <;> exact Or.inl rfl
  · cases M <;> cases m <;> simp [Num.le] at h <;> simp only [Num.sub, Num.neg, Num.add] <;>
      first | exact Or.inl rfl | exact Or.inr Num.nonneg_pinf | exact naNOrNonneg_fin (by linarith)

theorem rangeImpR_nonneg [HasSqrt K] (hA : A.Lawful) {l : List (Num K)} {v : Num K} (h : rangeImpR A l = .ok v) : NaNOrNonneg v := by
  unfold rangeImpR at h
  cases eM : Num.max? l with
  | none => rw [eM] at h; cases h
  | some M =>
    cases em : Num.min? l with
    | none => rw [eM, em] at h; cases h
    | some m =>
      rw [eM, em] at h
      cases h
      refine div_nonnegR hA (sub_nonnegR hA ?_) (naNOrNonneg_fin (by norm_num))
      by_cases hn : Num.nan ∈ l
      · rw [max?_nan hn] at eM; cases eM; exact Or.inl rfl
      · have hall : ∀ v ∈ l, v ≠ .nan := fun v hv e => hn (e ▸ hv)
        obtain ⟨M', e1, e2, e3⟩ := max?_num (max?_ne eM) hall
        obtain ⟨m', e4, e5, e6⟩ := min?_num (max?_ne eM) hall
        rw [eM] at e1; rw [em] at e4
        cases e1; cases e4
        exact Or.inr (Or.inr (e3 _ e5))

end Signs

section Errors
variable {K : Type} [Field K] [LinearOrder K] [IsStrictOrderedRing K] {A : Arith K} {u η B : K}

/-- the number behind a finite float -/
def Num.realPart : Num K → K
  | .fin x => x
  | _ => 0

theorem r_close (h : A.Accurate u η B) {x m : K} (hx : |x| ≤ m) (hm : m ≤ B) : CloseTo (A.r (.fin x)) x (u * m + η) := by
  obtain ⟨y, e, hy⟩ := h.rnd_near x (hx.trans hm)
  exact ⟨y, e, by have := mul_le_mul_of_nonneg_left hx h.u_nonneg; linarith⟩

theorem CloseTo.mono {a : Num K} {x ε δ : K} (h : CloseTo a x ε) (hd : ε ≤ δ) : CloseTo a x δ := by
  obtain ⟨y, e, hy⟩ := h
  exact ⟨y, e, hy.trans hd⟩

theorem CloseTo.trans {a : Num K} {x y ε δ : K} (h : CloseTo a x ε) (hd : |x - y| ≤ δ) : CloseTo a y (ε + δ) := by
  obtain ⟨z, e, hz⟩ := h
  refine ⟨z, e, ?_⟩
  have : z - y = (z - x) + (x - y) := by ring
  rw [this]
  exact (abs_add_le _ _).trans (add_le_add hz hd)

theorem sub_close (h : A.Accurate u η B) {a b : Num K} {x y ε δ m : K} (ha : CloseTo a x ε) (hb : CloseTo b y δ)
    (hm : |x - y| + ε + δ ≤ m) (hB : m ≤ B) : CloseTo (A.sub a b) (x - y) (ε + δ + u * m + η) := by
  obtain ⟨p, rfl, hp⟩ := ha
  obtain ⟨q, rfl, hq⟩ := hb
  have e : Num.sub (.fin p) (.fin q) = (.fin (p - q) : Num K) := by simp [Num.sub, Num.neg, Num.add, sub_eq_add_neg]
  have h1 : |(p - q) - (x - y)| ≤ ε + δ := by
    have : (p - q) - (x - y) = (p - x) - (q - y) := by ring
    rw [this]
    exact (abs_sub _ _).trans (add_le_add hp hq)
  have h2 : |p - q| ≤ m := by
    have : p - q = ((p - q) - (x - y)) + (x - y) := by ring
    rw [this]
    exact (abs_add_le _ _).trans (by linarith)
  unfold Arith.sub
  rw [e]
  exact ((r_close h h2 hB).trans h1).mono (by linarith)

/-- the error of a sum, whatever the order and grouping -/
theorem sums_close (hA : A.Accurate u η B) {l : List (Num K)} {s : Num K} (h : SumsTo A l s) (hne : l ≠ [])
    (hf : ∀ a ∈ l, ∃ x, a = .fin x) :
    (1 + u) ^ (l.length - 1) * (l.map fun a => |a.realPart|).sum + ((l.length - 1 : ℕ) : K) * η * (1 + u) ^ (l.length - 1) ≤ B →
    CloseTo s (l.map Num.realPart).sum (((1 + u) ^ (l.length - 1) - 1) * (l.map fun a => |a.realPart|).sum +
      ((l.length - 1 : ℕ) : K) * η * (1 + u) ^ (l.length - 1)) ∧
      |(l.map Num.realPart).sum| ≤ (l.map fun a => |a.realPart|).sum := by
  induction h with
  | nil => exact absurd rfl hne
  | one a =>
    intro _
    obtain ⟨x, rfl⟩ := hf a List.mem_cons_self
    exact ⟨⟨x, rfl, by simp [Num.realPart]⟩, by simp⟩
  | @add l l1 l2 a b p h1 h2 n1 n2 ih1 ih2 =>
    have f1 : ∀ a ∈ l1, ∃ x, a = .fin x := fun a ha => hf a (p.mem_iff.2 (List.mem_append_left _ ha))
    have f2 : ∀ a ∈ l2, ∃ x, a = .fin x := fun a ha => hf a (p.mem_iff.2 (List.mem_append_right _ ha))
    have hS : (l.map fun a => |a.realPart|).sum = (l1.map fun a => |a.realPart|).sum + (l2.map fun a => |a.realPart|).sum := by
      rw [(p.map _).sum_eq, List.map_append, List.sum_append]
    have hT : (l.map Num.realPart).sum = (l1.map Num.realPart).sum + (l2.map Num.realPart).sum := by
      rw [(p.map _).sum_eq, List.map_append, List.sum_append]
    have hl : l.length = l1.length + l2.length := by rw [p.length_eq, List.length_append]
    have p1 := List.length_pos_of_ne_nil n1
    have p2 := List.length_pos_of_ne_nil n2
    obtain ⟨k1, e1⟩ : ∃ k, l1.length = k + 1 := ⟨l1.length - 1, by omega⟩
    obtain ⟨k2, e2⟩ : ∃ k, l2.length = k + 1 := ⟨l2.length - 1, by omega⟩
    have e : l.length - 1 = k1 + k2 + 1 := by omega
    rw [hS, hT, e]
    rw [e1] at ih1
    rw [e2] at ih2
    simp only [Nat.add_sub_cancel] at ih1 ih2
    have hu := hA.u_nonneg
    have hη := hA.η_nonneg
    have S1 : 0 ≤ (l1.map fun a => |a.realPart|).sum := List.sum_nonneg (by
      intro z hz; obtain ⟨w, _, rfl⟩ := List.mem_map.1 hz; exact abs_nonneg _)
    have S2 : 0 ≤ (l2.map fun a => |a.realPart|).sum := List.sum_nonneg (by
      intro z hz; obtain ⟨w, _, rfl⟩ := List.mem_map.1 hz; exact abs_nonneg _)
    generalize (l1.map fun a => |a.realPart|).sum = s1 at *
    generalize (l2.map fun a => |a.realPart|).sum = s2 at *
    generalize (l1.map Num.realPart).sum = t1 at *
    generalize (l2.map Num.realPart).sum = t2 at *
    intro hB
    have one : (1 : K) ≤ 1 + u := by linarith
    have G1 : (1 + u) ^ k1 ≤ (1 + u) ^ (k1 + k2) := pow_le_pow_right₀ one (by omega)
    have G2 : (1 + u) ^ k2 ≤ (1 + u) ^ (k1 + k2) := pow_le_pow_right₀ one (by omega)
    have G0 : (1 + u) ^ (k1 + k2 + 1) = (1 + u) ^ (k1 + k2) * (1 + u) := pow_succ _ _
    have g1 : 1 ≤ (1 + u) ^ k1 := one_le_pow₀ one
    have g2 : 1 ≤ (1 + u) ^ k2 := one_le_pow₀ one
    have K1 : (0 : K) ≤ k1 := Nat.cast_nonneg _
    have K2 : (0 : K) ≤ k2 := Nat.cast_nonneg _
    rw [G0] at hB ⊢
    push_cast at hB ⊢
    generalize (1 + u) ^ (k1 + k2) = g at *
    generalize (1 + u) ^ k1 = x1 at *
    generalize (1 + u) ^ k2 = x2 at *
    generalize (k1 : K) = j1 at *
    generalize (k2 : K) = j2 at *
    have gs : 1 ≤ g := g1.trans G1
    -- sizes of the two parts
    have m1 : x1 * s1 ≤ g * s1 := mul_le_mul_of_nonneg_right G1 S1
    have m2 : x2 * s2 ≤ g * s2 := mul_le_mul_of_nonneg_right G2 S2
    have q1 : j1 * η * x1 ≤ j1 * η * g := mul_le_mul_of_nonneg_left G1 (mul_nonneg K1 hη)
    have q2 : j2 * η * x2 ≤ j2 * η * g := mul_le_mul_of_nonneg_left G2 (mul_nonneg K2 hη)
    have ug : 0 ≤ u * g := mul_nonneg hu (by linarith)
    have w1 : 0 ≤ u * g * (s1 + s2) := mul_nonneg ug (by linarith)
    have w2 : 0 ≤ (j1 + j2) * η * (g * u) := mul_nonneg (mul_nonneg (by linarith) hη) (by linarith [mul_comm u g])
    have w3 : η ≤ η * (g * (1 + u)) := by
      have : 1 ≤ g * (1 + u) := by nlinarith
      nlinarith
    have ex : g * (1 + u) * (s1 + s2) + (j1 + j2 + 1) * η * (g * (1 + u)) =
        (g * s1 + j1 * η * g) + (g * s2 + j2 * η * g) + u * g * (s1 + s2) + (j1 + j2) * η * (g * u) + η * (g * (1 + u)) := by ring
    rw [ex] at hB
    have a1 : 0 ≤ j1 * η * g := mul_nonneg (mul_nonneg K1 hη) (by linarith)
    have a2 : 0 ≤ j2 * η * g := mul_nonneg (mul_nonneg K2 hη) (by linarith)
    have b1 : 0 ≤ g * s1 := mul_nonneg (by linarith) S1
    have b2 : 0 ≤ g * s2 := mul_nonneg (by linarith) S2
    obtain ⟨⟨y1, ey1, c1⟩, d1⟩ := ih1 n1 f1 (by linarith)
    obtain ⟨⟨y2, ey2, c2⟩, d2⟩ := ih2 n2 f2 (by linarith)
    refine ⟨?_, (abs_add_le _ _).trans (add_le_add d1 d2)⟩
    have c1' : |y1 - t1| ≤ (g - 1) * s1 + j1 * η * g := by linarith
    have c2' : |y2 - t2| ≤ (g - 1) * s2 + j2 * η * g := by linarith
    have z : |(y1 + y2) - (t1 + t2)| ≤ (g - 1) * (s1 + s2) + (j1 + j2) * η * g := by
      have : (y1 + y2) - (t1 + t2) = (y1 - t1) + (y2 - t2) := by ring
      rw [this]
      refine (abs_add_le _ _).trans ?_
      linarith
    have z2 : |y1 + y2| ≤ g * (s1 + s2) + (j1 + j2) * η * g := by
      have : y1 + y2 = ((y1 + y2) - (t1 + t2)) + (t1 + t2) := by ring
      rw [this]
      refine (abs_add_le _ _).trans ?_
      have := (abs_add_le t1 t2).trans (add_le_add d1 d2)
      linarith
    have hc := r_close hA z2 (by linarith)
    have := hc.trans z
    unfold Arith.add
    rw [ey1, ey2]
    refine CloseTo.mono this ?_
    have ex2 : (g * (1 + u) - 1) * (s1 + s2) + (j1 + j2 + 1) * η * (g * (1 + u)) =
      u * (g * (s1 + s2) + (j1 + j2) * η * g) + η * (g * (1 + u)) + ((g - 1) * (s1 + s2) + (j1 + j2) * η * g) := by ring
    rw [ex2]
    linarith

end Errors
end Artemis
