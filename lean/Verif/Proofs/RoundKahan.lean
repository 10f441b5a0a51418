import Verif.Proofs.RoundTrees
import Verif.Proofs.RoundErrors

/-!
# Rounding errors of compensated summation
-/

set_option linter.unusedSectionVars false
set_option linter.unusedVariables false
set_option linter.unusedSimpArgs false

namespace Artemis
open Spec

variable {K : Type} [Field K] [LinearOrder K] [IsStrictOrderedRing K] {A : Arith K} {u η B : K}

theorem kahanStep_near (hA : A.Accurate u η B) {S x s c k : K} (S0 : 0 ≤ S) (x0 : 0 < x) (hη : η ≤ u * x) (k0 : 0 ≤ k)
    (hk : 64 * ((k + 1) * u) ≤ 1) (hs : |s - S| ≤ 16 * (k * u) * S) (hc : |c| ≤ 10 * (u * S)) (hB : 4 * (S + x) ≤ B) :
    ∃ t c', kahanStep A (.fin s, .fin c) (.fin x) = (.fin t, .fin c') ∧ |t - (S + x)| ≤ 16 * ((k + 1) * u) * (S + x) ∧
      |c'| ≤ 10 * (u * (S + x)) := by
  have hu := hA.u_nonneg
  have uS : 0 ≤ u * S := mul_nonneg hu S0
  have ux : 0 ≤ u * x := mul_nonneg hu x0.le
  have ku : 0 ≤ k * u := mul_nonneg k0 hu
  have u64 : 64 * u ≤ 1 := by nlinarith
  have S64 : 64 * (u * S) ≤ S := by nlinarith
  have x64 : 64 * (u * x) ≤ x := by nlinarith
  have kS : 16 * (k * u) * S ≤ S / 4 := by nlinarith
  have ea : u * (S + x) = u * S + u * x := by ring
  generalize hP : S + x = P at *
  obtain ⟨hc1, hc2⟩ := abs_le.1 hc
  obtain ⟨hs1, hs2⟩ := abs_le.1 hs
  -- y
  obtain ⟨y, ey, hy⟩ := r_close hA (x := x - c) (m := P) (abs_le.2 ⟨by linarith, by linarith⟩) (by linarith)
  obtain ⟨hy1, hy2⟩ := abs_le.1 hy
  obtain ⟨t, et, ht⟩ := r_close hA (x := s + y) (m := 2 * P) (abs_le.2 ⟨by linarith, by linarith⟩) (by linarith)
  obtain ⟨ht1, ht2⟩ := abs_le.1 ht
  obtain ⟨d, ed, hd⟩ := r_close hA (x := t - s) (m := 2 * P) (abs_le.2 ⟨by linarith, by linarith⟩) (by linarith)
  obtain ⟨hd1, hd2⟩ := abs_le.1 hd
  obtain ⟨c', ec, hc'⟩ := r_close hA (x := d - y) (m := P) (abs_le.2 ⟨by linarith, by linarith⟩) (by linarith)
  obtain ⟨h1, h2⟩ := abs_le.1 hc'
  refine ⟨t, c', ?_, ?_, ?_⟩
  · have e1 : A.sub (.fin x) (.fin c) = .fin y := by
      rw [← ey]; simp [Arith.sub, Num.sub, Num.neg, Num.add, sub_eq_add_neg]
    have e2 : A.add (.fin s) (.fin y) = .fin t := by rw [← et]; rfl
    have e3 : A.sub (.fin t) (.fin s) = .fin d := by
      rw [← ed]; simp [Arith.sub, Num.sub, Num.neg, Num.add, sub_eq_add_neg]
    have e4 : A.sub (.fin d) (.fin y) = .fin c' := by
      rw [← ec]; simp [Arith.sub, Num.sub, Num.neg, Num.add, sub_eq_add_neg]
    simp only [kahanStep, e1, e2, e3, e4, Num.isNaN]
    rfl
  · have e : 16 * ((k + 1) * u) * P = 16 * (k * u) * S + 16 * (k * u) * x + 16 * (u * P) := by rw [← hP]; ring
    have kx : 0 ≤ 16 * (k * u) * x := by positivity
    rw [e]
    exact abs_le.2 ⟨by linarith, by linarith⟩
  · exact abs_le.2 ⟨by linarith, by linarith⟩

/-- pandas' compensated sums -/
theorem kahan_addsNear (hA : A.Accurate u η B) {N : Nat} (hN : 64 * ((N : K) * u) ≤ 1) : AddsNear (kahanSum A) u η B N := by
  have hu := hA.u_nonneg
  have step : ∀ (xs : List K) (S s c : K) (k : Nat), 0 ≤ S → k + xs.length ≤ N → (∀ x ∈ xs, 0 < x ∧ η ≤ u * x) → 4 * (S + xs.sum) ≤ B →
      |s - S| ≤ 16 * (k * u) * S → |c| ≤ 10 * (u * S) →
      CloseTo ((xs.map Num.fin).foldl (kahanStep A) (.fin s, .fin c)).1 (S + xs.sum) (16 * (N * u) * (S + xs.sum)) := by
    intro xs
    induction xs with
    | nil =>
      intro S s c k S0 hk _ _ hs _
      refine ⟨s, rfl, ?_⟩
      simp only [List.sum_nil, add_zero]
      refine hs.trans ?_
      have : (k : K) ≤ N := by exact_mod_cast hk
      have := mul_le_mul_of_nonneg_right this (mul_nonneg hu S0)
      nlinarith
    | cons x xs ih =>
      intro S s c k S0 hk hx hB hs hc
      obtain ⟨x0, xη⟩ := hx x List.mem_cons_self
      have r0 : 0 ≤ xs.sum := List.sum_nonneg fun z hz => (hx z (List.mem_cons_of_mem _ hz)).1.le
      simp only [List.sum_cons, List.length_cons] at hk hB ⊢
      have hk1 : ((k : K) + 1) ≤ N := by exact_mod_cast (by omega : k + 1 ≤ N)
      have := mul_le_mul_of_nonneg_right hk1 hu
      obtain ⟨t, c', e, ht, hc'⟩ := kahanStep_near hA S0 x0 xη (Nat.cast_nonneg k) (by linarith) hs hc (by linarith)
      rw [List.map_cons, List.foldl_cons, e]
      have := ih (S + x) t c' (k + 1) (by linarith) (by omega) (fun z hz => hx z (List.mem_cons_of_mem _ hz)) (by linarith)
        (by push_cast; exact ht) hc'
      rw [← add_assoc]
      exact this
  refine ⟨rfl, fun xs hl hx hB => ?_⟩
  have := step xs 0 0 0 0 le_rfl (by omega) hx (by linarith) (by simp) (by simp)
  simpa [kahanSum] using this

/-- sums in any order and grouping -/
theorem lawful_addsNear (hA : A.Accurate u η B) (hL : A.Lawful) {N : Nat} (hN : 64 * ((N : K) * u) ≤ 1) : AddsNear A.sum u η B N := by
  have hu := hA.u_nonneg
  constructor
  · have := hL.sums []
    generalize A.sum [] = s at this
    cases this with
    | nil => rfl
    | add p h1 h2 n1 n2 =>
      have := p.nil_eq
      simp at this
      exact absurd this.1 n1
  · intro xs hl hx hB
    rcases eq_or_ne xs [] with rfl | hne
    · have := hL.sums []
      simp only [List.map_nil, List.sum_nil]
      generalize A.sum [] = s at this
      cases this with
      | nil => exact ⟨0, rfl, by simp⟩
      | add p h1 h2 n1 n2 =>
        have := p.nil_eq
        simp at this
        exact absurd this.1 n1
    · have hp : ∀ z ∈ xs, z ≤ xs.sum := fun z hz => List.single_le_sum (fun w hw => (hx w hw).1.le) _ hz
      have lN : (xs.length : K) ≤ N := by exact_mod_cast hl
      have S0 : 0 ≤ xs.sum := List.sum_nonneg fun z hz => (hx z hz).1.le
      have lu : (xs.length : K) * u ≤ N * u := mul_le_mul_of_nonneg_right lN hu
      have e1 : ((xs.map Num.fin).map fun a : Num K => |a.realPart|).sum = xs.sum := by
        rw [List.map_map]
        congr 1
        conv_rhs => rw [← List.map_id xs]
        exact List.map_congr_left fun z hz => abs_of_pos (hx z hz).1
      have e2 : ((xs.map Num.fin).map Num.realPart).sum = xs.sum := by
        rw [List.map_map]
        congr 1
        conv_rhs => rw [← List.map_id xs]
        exact List.map_congr_left fun z hz => rfl
      have nη : (xs.length : K) * η ≤ u * xs.sum := by
        clear hp hne hB e1 e2 lN lu hl S0
        induction xs with
        | nil => simp
        | cons x xs ih =>
          have := ih fun z hz => hx z (List.mem_cons_of_mem _ hz)
          have := (hx x List.mem_cons_self).2
          simp only [List.length_cons, List.sum_cons]
          push_cast
          linarith
      have uS : u * xs.sum ≤ N * u * xs.sum := by
        have : 1 ≤ (xs.length : K) := by exact_mod_cast List.length_pos_of_ne_nil hne
        have := mul_le_mul_of_nonneg_right (this.trans lN) (mul_nonneg hu S0)
        linarith
      have NS : N * u * xs.sum ≤ xs.sum := by nlinarith
      have h := sum_close (A := A) (l := xs.map Num.fin) (m := xs.sum) hA hL (by simpa using hne) (by
        intro a ha
        obtain ⟨z, hz, rfl⟩ := List.mem_map.1 ha
        exact ⟨z, rfl, by rw [abs_of_pos (hx z hz).1]; exact hp z hz⟩) S0 (by rw [List.length_map]; linarith) e1
        (by rw [List.length_map]; linarith)
      rw [e2, List.length_map] at h
      refine h.mono ?_
      have := mul_le_mul_of_nonneg_right lu S0
      have : 0 ≤ N * u * xs.sum := mul_nonneg (mul_nonneg (Nat.cast_nonneg _) hu) S0
      linarith

end Artemis
