import Verif.Proofs.RoundKahan
import Verif.Proofs.RoundPerf
import Verif.Spec.RoundedSplit

/-!
# Rounding errors of quotients and weighted means of positive numbers
-/

set_option linter.unusedSectionVars false
set_option linter.unusedVariables false
set_option linter.unusedSimpArgs false

namespace Artemis
open Spec

variable {K : Type} [Field K] [LinearOrder K] [IsStrictOrderedRing K] {A : Arith K} {u η B : K}

theorem div_near (hA : A.Accurate u η B) {a b : Num K} {x y α β : K} (ha : CloseTo a x (α * x)) (hb : CloseTo b y (β * y)) (x0 : 0 ≤ x)
    (y0 : 0 < y) (α0 : 0 ≤ α) (β0 : 0 ≤ β) (β1 : 2 * β ≤ 1) (hB : (1 + 2 * (α + β)) * (x / y) ≤ B) :
    CloseTo (A.div a b) (x / y) ((2 * (α + β) + u * (1 + 2 * (α + β))) * (x / y) + η) := by
  obtain ⟨p, rfl, hp⟩ := ha
  obtain ⟨q, rfl, hq⟩ := hb
  have q2 : y / 2 ≤ q := by
    have := (abs_le.1 hq).1
    nlinarith
  have q0 : 0 < q := by linarith
  have key : |p / q - x / y| ≤ 2 * (α + β) * (x / y) := by
    have e : p / q - x / y = ((p - x) * y - x * (q - y)) / (q * y) := by field_simp; ring
    rw [e, abs_div, abs_of_pos (mul_pos q0 y0), div_le_iff₀ (mul_pos q0 y0)]
    have h1 : |(p - x) * y - x * (q - y)| ≤ α * x * y + x * (β * y) := by
      refine (abs_sub _ _).trans (add_le_add ?_ ?_)
      · rw [abs_mul, abs_of_pos y0]; exact mul_le_mul_of_nonneg_right hp y0.le
      · rw [abs_mul, abs_of_nonneg x0]; exact mul_le_mul_of_nonneg_left hq x0
    refine h1.trans ?_
    have e2 : 2 * (α + β) * (x / y) * (q * y) = 2 * (α + β) * x * q := by field_simp
    rw [e2]
    have : 0 ≤ (α + β) * x := mul_nonneg (by linarith) x0
    nlinarith
  have r0 : 0 ≤ x / y := div_nonneg x0 y0.le
  have size : |p / q| ≤ (1 + 2 * (α + β)) * (x / y) := by
    have : p / q = (p / q - x / y) + x / y := by ring
    rw [this]
    refine (abs_add_le _ _).trans ?_
    rw [abs_of_nonneg r0]
    linarith
  have e : Num.div (.fin p) (.fin q) = (.fin (p / q) : Num K) := Num.div_fin _ _ q0.ne'
  unfold Arith.div
  rw [e]
  exact ((r_close hA size hB).trans key).mono (by linarith)

/-- the rounded products of depths and gains -/
theorem products_near (hA : A.Accurate u η B) (h0 : A.rnd 0 = .fin 0) :
    ∀ ps : List (K × K), (∀ q ∈ ps, 0 < q.2 ∧ η ≤ u * q.2 ∧ (q.1 = 0 ∨ 1 ≤ q.1) ∧ q.1 * q.2 ≤ B) →
    ∃ ws : List K, ps.map (fun q => A.r (Num.mul (.fin q.1) (.fin q.2))) = ws.map .fin ∧ ws.length = ps.length ∧
      |(ws.map fun w => |w|).sum - (ps.map fun q => q.1 * q.2).sum| ≤ 2 * u * (ps.map fun q => q.1 * q.2).sum ∧
      |ws.sum - (ps.map fun q => q.1 * q.2).sum| ≤ 2 * u * (ps.map fun q => q.1 * q.2).sum := by
  intro ps
  induction ps with
  | nil => intro _; exact ⟨[], rfl, rfl, by simp, by simp⟩
  | cons q ps ih =>
    intro h
    obtain ⟨ws, e, l, n1, n2⟩ := ih fun q hq => h q (List.mem_cons_of_mem _ hq)
    obtain ⟨g0, gη, hd, hb⟩ := h q List.mem_cons_self
    have hu := hA.u_nonneg
    have hw : ∃ w, A.r (Num.mul (.fin q.1) (.fin q.2)) = .fin w ∧ |(|w|) - q.1 * q.2| ≤ 2 * u * (q.1 * q.2) ∧ |w - q.1 * q.2| ≤ 2 * u * (q.1 * q.2) := by
      rcases hd with hd | hd
      · refine ⟨0, ?_, by simp [hd], by simp [hd]⟩
        simp [Num.mul, hd, Arith.r, h0]
      · have pp : q.2 ≤ q.1 * q.2 := by nlinarith
        obtain ⟨w, ew, hw⟩ := r_close hA (x := q.1 * q.2) (m := q.1 * q.2) (abs_of_pos (by linarith)).le hb
        have hw' : |w - q.1 * q.2| ≤ 2 * u * (q.1 * q.2) := by
          have := mul_le_mul_of_nonneg_left pp hu
          linarith
        refine ⟨w, ew, ?_, hw'⟩
        refine le_trans ?_ hw'
        have := abs_abs_sub_abs_le w (q.1 * q.2)
        rwa [abs_of_pos (show 0 < q.1 * q.2 by linarith)] at this
    obtain ⟨w, ew, w1, w2⟩ := hw
    refine ⟨w :: ws, by rw [List.map_cons, ew, e, List.map_cons], by simp [l], ?_, ?_⟩
    · simp only [List.map_cons, List.sum_cons]
      obtain ⟨a, b⟩ := abs_le.1 n1
      obtain ⟨c, d⟩ := abs_le.1 w1
      exact abs_le.2 ⟨by linarith, by linarith⟩
    · simp only [List.map_cons, List.sum_cons]
      obtain ⟨a, b⟩ := abs_le.1 n2
      obtain ⟨c, d⟩ := abs_le.1 w2
      exact abs_le.2 ⟨by linarith, by linarith⟩

/-- the weighted mean of depths -/
theorem wavg_near (hA : A.Accurate u η B) (hL : A.Lawful) (h0 : A.rnd 0 = .fin 0) {N : Nat} (hN : 64 * ((N : K) * u) ≤ 1) {ps : List (K × K)}
    (hne : ps ≠ []) (hl : ps.length ≤ N)
    (h : ∀ q ∈ ps, 0 < q.2 ∧ η ≤ u * q.2 ∧ (q.1 = 0 ∨ 1 ≤ q.1) ∧ q.1 ≤ N) (hB : 16 * (N * ((ps.map Prod.snd).sum + 1)) ≤ B) :
    A.sum (ps.map fun q => .fin q.2) ≠ .fin 0 ∧
    CloseTo (A.div (A.sum (ps.map fun q => A.r (Num.mul (.fin q.1) (.fin q.2)))) (A.sum (ps.map fun q => .fin q.2)))
      ((ps.map fun q => q.1 * q.2).sum / (ps.map Prod.snd).sum)
      (64 * (N * u) * ((ps.map fun q => q.1 * q.2).sum / (ps.map Prod.snd).sum) + η) := by
  have hu := hA.u_nonneg
  have N1 : (1 : K) ≤ N := by exact_mod_cast (List.length_pos_of_ne_nil hne).trans_le hl
  have lN : (ps.length : K) ≤ N := by exact_mod_cast hl
  have Nu0 : 0 ≤ (N : K) * u := mul_nonneg (by linarith) hu
  have uN : u ≤ N * u := by nlinarith
  have D0 : 0 < (ps.map Prod.snd).sum := by
    obtain ⟨q, l, rfl⟩ := List.exists_cons_of_ne_nil hne
    simp only [List.map_cons, List.sum_cons]
    have a := (h q List.mem_cons_self).1
    have : 0 ≤ (l.map Prod.snd).sum := List.sum_nonneg (by
      intro z hz; obtain ⟨w, hw, rfl⟩ := List.mem_map.1 hz; exact (h w (List.mem_cons_of_mem _ hw)).1.le)
    linarith
  have W0 : 0 ≤ (ps.map fun q => q.1 * q.2).sum := List.sum_nonneg (by
    intro z hz; obtain ⟨w, hw, rfl⟩ := List.mem_map.1 hz
    obtain ⟨a, _, b, _⟩ := h w hw
    exact mul_nonneg (by rcases b with b | b <;> linarith) a.le)
  have WN : (ps.map fun q => q.1 * q.2).sum ≤ N * (ps.map Prod.snd).sum := by
    clear hne hl lN D0 W0 hB
    induction ps with
    | nil => simp
    | cons q l ih =>
      have := ih fun q hq => h q (List.mem_cons_of_mem _ hq)
      obtain ⟨a, _, _, b⟩ := h q List.mem_cons_self
      simp only [List.map_cons, List.sum_cons]
      have := mul_le_mul_of_nonneg_right b a.le
      linarith
  have wD : ∀ q ∈ ps, q.1 * q.2 ≤ N * (ps.map Prod.snd).sum := by
    intro q hq
    have : q.1 * q.2 ≤ (ps.map fun q => q.1 * q.2).sum := List.single_le_sum (by
      intro z hz; obtain ⟨w, hw, rfl⟩ := List.mem_map.1 hz
      obtain ⟨a, _, b, _⟩ := h w hw
      exact mul_nonneg (by rcases b with b | b <;> linarith) a.le) _ (List.mem_map.2 ⟨q, hq, rfl⟩)
    linarith
  have hden : CloseTo (A.sum (ps.map fun q => .fin q.2)) (ps.map Prod.snd).sum (16 * (N * u) * (ps.map Prod.snd).sum) := by
    have := (lawful_addsNear hA hL hN).2 (ps.map Prod.snd) (by simpa using hl) (by
      intro x hx; obtain ⟨q, hq, rfl⟩ := List.mem_map.1 hx; exact ⟨(h q hq).1, (h q hq).2.1⟩) (by nlinarith)
    rw [List.map_map] at this
    exact this
  obtain ⟨ws, ew, lw, n1, n2⟩ := products_near hA h0 ps fun q hq => by
    obtain ⟨a, b, c, d⟩ := h q hq
    have := wD q hq
    exact ⟨a, b, c, by nlinarith⟩
  have hW : ∀ q ∈ ps, 1 ≤ q.1 → η ≤ u * (ps.map fun q => q.1 * q.2).sum := by
    intro q hq h1
    have : q.1 * q.2 ≤ (ps.map fun q => q.1 * q.2).sum := List.single_le_sum (by
      intro z hz; obtain ⟨w, hw, rfl⟩ := List.mem_map.1 hz
      obtain ⟨a, _, b, _⟩ := h w hw
      exact mul_nonneg (by rcases b with b | b <;> linarith) a.le) _ (List.mem_map.2 ⟨q, hq, rfl⟩)
    obtain ⟨a, b, _, _⟩ := h q hq
    have e : q.2 ≤ q.1 * q.2 := by nlinarith
    have := mul_le_mul_of_nonneg_left (e.trans this) hu
    linarith
  have hnum : CloseTo (A.sum (ps.map fun q => A.r (Num.mul (.fin q.1) (.fin q.2)))) (ps.map fun q => q.1 * q.2).sum
      (8 * (N * u) * (ps.map fun q => q.1 * q.2).sum) := by
    by_cases hz : ∃ q ∈ ps, 1 ≤ q.1
    · obtain ⟨q, hq, h1⟩ := hz
      have ηW := hW q hq h1
      rw [ew]
      generalize (ps.map fun q => q.1 * q.2).sum = W at *
      generalize (ps.map Prod.snd).sum = D at *
      have wne : ws ≠ [] := by
        rintro rfl
        exact hne (List.length_eq_zero_iff.1 lw.symm)
      have e1 : ((ws.map Num.fin).map fun a : Num K => |a.realPart|).sum = (ws.map fun w => |w|).sum := by rw [List.map_map]; rfl
      have e2 : ((ws.map Num.fin).map Num.realPart).sum = ws.sum := by
        rw [List.map_map]
        congr 1
        conv_rhs => rw [← List.map_id ws]
        exact List.map_congr_left fun z hz => rfl
      have S0 : 0 ≤ (ws.map fun w => |w|).sum := List.sum_nonneg (by
        intro z hz; obtain ⟨w, _, rfl⟩ := List.mem_map.1 hz; exact abs_nonneg _)
      have hm : ∀ w ∈ ws, |w| ≤ (ws.map fun w => |w|).sum := fun w hw => List.single_le_sum (by
        intro z hz; obtain ⟨w, _, rfl⟩ := List.mem_map.1 hz; exact abs_nonneg _) _ (List.mem_map.2 ⟨w, hw, rfl⟩)
      have lu := mul_le_mul_of_nonneg_right lN hu
      have nη : (ps.length : K) * η ≤ N * u * W := by
        have a := mul_le_mul_of_nonneg_right lN hA.η_nonneg
        have b := mul_le_mul_of_nonneg_left ηW (by linarith : (0 : K) ≤ N)
        linarith
      have uW : u * W ≤ N * u * W := mul_le_mul_of_nonneg_right uN W0
      have NuW : 64 * (N * u * W) ≤ W := by nlinarith
      obtain ⟨a1, a2⟩ := abs_le.1 n1
      have S2 : (ws.map fun w => |w|).sum ≤ W + 2 * (u * W) := by linarith
      have WB : 16 * W ≤ B := by nlinarith
      have hs := sum_close (A := A) (l := ws.map Num.fin) (m := (ws.map fun w => |w|).sum) hA hL (by simpa using wne) (by
        intro a ha
        obtain ⟨z, hz, rfl⟩ := List.mem_map.1 ha
        exact ⟨z, rfl, hm z hz⟩) S0 (by rw [List.length_map, lw]; linarith) e1
        (by rw [List.length_map, lw]; linarith)
      rw [e2, List.length_map, lw] at hs
      refine (hs.trans n2).mono ?_
      have b1 := mul_le_mul lu S2 S0 Nu0
      have b2 : N * u * (W + 2 * (u * W)) ≤ N * u * (W + W / 16) := mul_le_mul_of_nonneg_left (by linarith) Nu0
      have b3 : N * u * (W + W / 16) = 17 / 16 * (N * u * W) := by ring
      have b4 : 0 ≤ N * u * W := mul_nonneg Nu0 W0
      linarith
    · have hz' : ∀ q ∈ ps, q.1 = 0 := fun q hq => (h q hq).2.2.1.resolve_right fun h1 => hz ⟨q, hq, h1⟩
      have e0 : (ps.map fun q => q.1 * q.2).sum = 0 := List.sum_eq_zero (by
        intro z hz; obtain ⟨w, hw, rfl⟩ := List.mem_map.1 hz; simp [hz' w hw])
      rw [e0, mul_zero]
      refine ⟨0, sums_zeroR h0 (hL.sums _) ?_, by simp⟩
      intro a ha
      obtain ⟨q, hq, rfl⟩ := List.mem_map.1 ha
      simp [hz' q hq, Num.mul, Arith.r, h0]
  generalize (ps.map fun q => q.1 * q.2).sum = W at *
  generalize (ps.map Prod.snd).sum = D at *
  constructor
  · obtain ⟨y, e, hy⟩ := hden
    rw [e]
    intro hc
    simp only [Num.fin.injEq] at hc
    rw [hc] at hy
    have := (abs_le.1 hy).1
    nlinarith
  · have q0 : 0 ≤ W / D := div_nonneg W0 D0.le
    have qN : W / D ≤ N := by rw [div_le_iff₀ D0]; exact WN
    have := div_near hA hnum hden W0 D0 (by linarith) (by linarith) (by linarith) (by nlinarith)
    refine this.mono ?_
    have a1 : u * (W / D) ≤ N * u * (W / D) := mul_le_mul_of_nonneg_right uN q0
    have a0 : 0 ≤ u * (W / D) := mul_nonneg hu q0
    have a2 : u * (W / D) * (48 * (N * u)) ≤ u * (W / D) := by nlinarith
    nlinarith

end Artemis
