import Verif.Proofs.RoundLemmas
import Verif.Props.Stability

/-!
# Rounding errors of means, differences and root mean squares
-/

set_option linter.unusedSectionVars false
set_option linter.unusedVariables false
set_option linter.unusedSimpArgs false

namespace Artemis
open Spec

section Errors2
variable {K : Type} [Field K] [LinearOrder K] [IsStrictOrderedRing K] {A : Arith K} {u η B : K}

theorem pow_small {u : K} (hu : 0 ≤ u) : ∀ (k : ℕ), 2 * ((k : K) * u) ≤ 1 → (1 + u) ^ k ≤ 1 + 2 * ((k : K) * u)
  | 0, _ => by simp
  | k + 1, h => by
    push_cast at h ⊢
    have hk : (0 : K) ≤ (k : K) * u := mul_nonneg (Nat.cast_nonneg _) hu
    have := pow_small hu k (by nlinarith)
    rw [pow_succ]
    have h1 := mul_le_mul_of_nonneg_right this (by linarith : (0 : K) ≤ 1 + u)
    nlinarith

/-- finite and of size at most `m` -/
def SmallAll (l : List (Num K)) (m : K) : Prop := ∀ a ∈ l, ∃ x, a = .fin x ∧ |x| ≤ m

theorem sum_abs_le {l : List (Num K)} {m : K} (h : SmallAll l m) : (l.map fun a => |a.realPart|).sum ≤ l.length * m := by
  induction l with
  | nil => simp
  | cons a l ih =>
    obtain ⟨x, rfl, hx⟩ := h a List.mem_cons_self
    have := ih fun b hb => h b (List.mem_cons_of_mem _ hb)
    simp only [List.map_cons, List.sum_cons, List.length_cons, Num.realPart] at *
    push_cast
    linarith

theorem sum_close (hA : A.Accurate u η B) (hL : A.Lawful) {l : List (Num K)} {m : K} (hne : l ≠ []) (h : SmallAll l m) (m0 : 0 ≤ m)
    (h4 : 4 * ((l.length : K) * u) ≤ 1) {S : K} (hS : (l.map fun a => |a.realPart|).sum = S) (hB : 2 * S + 2 * (l.length * η) ≤ B) :
    CloseTo (A.sum l) (l.map Num.realPart).sum (2 * (l.length * u) * S + 2 * (l.length * η)) := by
  have hu := hA.u_nonneg
  have hη := hA.η_nonneg
  have hp := pow_small hu (l.length - 1) (by
    have : ((l.length - 1 : ℕ) : K) ≤ l.length := by exact_mod_cast Nat.sub_le _ _
    have := mul_le_mul_of_nonneg_right this hu
    have : 0 ≤ (l.length : K) * u := mul_nonneg (Nat.cast_nonneg _) hu
    linarith)
  have h1 : ((l.length - 1 : ℕ) : K) ≤ l.length := by exact_mod_cast Nat.sub_le _ _
  have h0 : (0 : K) ≤ ((l.length - 1 : ℕ) : K) := Nat.cast_nonneg _
  have S0 : 0 ≤ S := by
    rw [← hS]
    exact List.sum_nonneg (by intro z hz; obtain ⟨w, _, rfl⟩ := List.mem_map.1 hz; exact abs_nonneg _)
  have key := sums_close hA (hL.sums l) hne (fun a ha => by obtain ⟨x, e, _⟩ := h a ha; exact ⟨x, e⟩)
  rw [hS] at key
  generalize ((l.length - 1 : ℕ) : K) = k at *
  generalize (l.length : K) = n at *
  generalize (1 + u) ^ (l.length - 1) = g at *
  have ku := mul_le_mul_of_nonneg_right h1 hu
  have kη := mul_le_mul_of_nonneg_right h1 hη
  have k0 : 0 ≤ k * u := mul_nonneg h0 hu
  have n0 : 0 ≤ n * η := mul_nonneg (h0.trans h1) hη
  have g2 : g ≤ 2 := by linarith
  have gS : g * S ≤ 2 * S := mul_le_mul_of_nonneg_right g2 S0
  have gη : k * η * g ≤ 2 * (n * η) := by
    have a := mul_le_mul_of_nonneg_left g2 (mul_nonneg h0 hη)
    linarith
  refine (key (by linarith)).1.mono ?_
  have : (g - 1) * S ≤ 2 * (n * u) * S := mul_le_mul_of_nonneg_right (by linarith) S0
  linarith

/-- the error of a mean -/
theorem mean_close (hA : A.Accurate u η B) (hL : A.Lawful) {l : List (Num K)} {m : K} (hne : l ≠ []) (h : SmallAll l m) (m0 : 0 ≤ m)
    (h4 : 4 * ((l.length : K) * u) ≤ 1) (hη : η ≤ u * m) (hB : 4 * (l.length * m) ≤ B) :
    CloseTo (A.mean l) (average (l.map Num.realPart)) (7 * (l.length * (u * m))) := by
  have hu := hA.u_nonneg
  have η0 := hA.η_nonneg
  have hn : (1 : K) ≤ l.length := by exact_mod_cast List.length_pos_of_ne_nil hne
  have hS := sum_abs_le h
  have S0 : 0 ≤ (l.map fun a => |a.realPart|).sum :=
    List.sum_nonneg (by intro z hz; obtain ⟨w, _, rfl⟩ := List.mem_map.1 hz; exact abs_nonneg _)
  have um0 : 0 ≤ u * m := mul_nonneg hu m0
  have nη : (l.length : K) * η ≤ l.length * (u * m) := mul_le_mul_of_nonneg_left hη (by linarith)
  have nm : 4 * ((l.length : K) * (u * m)) ≤ m := by
    have := mul_le_mul_of_nonneg_right h4 m0
    have e : 4 * ((l.length : K) * u) * m = 4 * (l.length * (u * m)) := by ring
    linarith
  have nm1 : m ≤ l.length * m := by nlinarith
  have nm2 : u * m ≤ l.length * (u * m) := by nlinarith
  obtain ⟨y, e, hy⟩ := sum_close hA hL hne h m0 h4 rfl (by linarith)
  have hab : |(l.map Num.realPart).sum| ≤ l.length * m := by
    refine le_trans ?_ hS
    clear hS S0 hy e nη hB h4 h hne hn nm nm1 nm2
    induction l with
    | nil => simp
    | cons a l ih =>
      simp only [List.map_cons, List.sum_cons]
      exact (abs_add_le _ _).trans (by linarith)
  have hlen : ((l.map Num.realPart).length : K) = l.length := by rw [List.length_map]
  unfold Arith.mean Arith.div
  have n0 : (l.length : K) ≠ 0 := by intro h0; rw [h0] at hn; linarith
  rw [e, show Num.div (.fin y) (Num.ofNat l.length) = (.fin (y / l.length) : Num K) from if_neg n0]
  have hS2 := mul_le_mul_of_nonneg_left hS (by nlinarith : (0 : K) ≤ 2 * (l.length * u))
  have hd : |y / l.length - average (l.map Num.realPart)| ≤ 2 * (l.length * (u * m)) + 2 * (u * m) := by
    unfold average
    rw [hlen, ← sub_div, abs_div, abs_of_pos (by linarith : (0 : K) < l.length), div_le_iff₀ (by linarith)]
    refine hy.trans ?_
    have : 2 * ((l.length : K) * u) * (l.length * m) = 2 * (l.length * (u * m)) * l.length := by ring
    nlinarith
  have hav : |average (l.map Num.realPart)| ≤ m := by
    unfold average
    rw [hlen, abs_div, abs_of_pos (by linarith : (0 : K) < l.length), div_le_iff₀ (by linarith)]
    linarith
  have hsz : |y / l.length| ≤ 2 * m := by
    have e : y / l.length = (y / l.length - average (l.map Num.realPart)) + average (l.map Num.realPart) := by ring
    rw [e]
    refine (abs_add_le _ _).trans ?_
    linarith
  refine ((r_close hA hsz (by linarith)).trans hd).mono ?_
  linarith

variable {ι : Type} {rows : List ι} {n M : K}

theorem Arith.Suits.facts (h : A.Suits u η B n M) : 0 ≤ u ∧ 0 ≤ η ∧ 0 ≤ u * M ∧ u * M ≤ n * (u * M) ∧ 64 * (n * (u * M)) ≤ M ∧ M ≤ n * M ∧
    512 * (n * M) + 512 * (n * (M * M)) ≤ B ∧ 64 * u ≤ 1 := by
  have hu := h.accurate.u_nonneg
  have hM := h.size_nonneg
  have h1 := h.one_le
  have um := mul_nonneg hu hM
  have r := mul_le_mul_of_nonneg_right h.rows hM
  refine ⟨hu, h.accurate.η_nonneg, um, by nlinarith, by linarith, by nlinarith, by have := h.range; linarith, ?_⟩
  have := h.rows
  nlinarith

theorem centre_close [HasSqrt K] [LawfulSqrt K] (h : A.Suits u η B n M) (hne : rows ≠ []) (hlen : (rows.length : K) ≤ n) {ph : ι → Num K} {p : ι → K}
    (hp : ∀ i ∈ rows, CloseTo (ph i) (p i) (7 * (n * (u * M)))) (hs : ∀ i ∈ rows, |p i| ≤ M) :
    ∀ i ∈ rows, CloseTo (A.sub (ph i) (A.mean (rows.map ph))) (p i - average (rows.map p)) (26 * (n * (u * M))) ∧
      |p i - average (rows.map p)| ≤ 2 * M := by
  obtain ⟨hu, η0, w0, w1, w2, m1, hB, u1⟩ := h.facts
  have hη := h.small
  have nn : 0 ≤ n * (M * M) := mul_nonneg (by linarith [h.one_le]) (mul_self_nonneg M)
  have hsm : SmallAll (rows.map ph) (71 / 64 * M) := by
    intro a ha
    obtain ⟨i, hi, rfl⟩ := List.mem_map.1 ha
    obtain ⟨y, e, hy⟩ := hp i hi
    refine ⟨y, e, ?_⟩
    have e : y = (y - p i) + p i := by ring
    rw [e]
    refine (abs_add_le _ _).trans ?_
    have := hs i hi
    linarith
  have lu : (rows.length : K) * u ≤ n * u := mul_le_mul_of_nonneg_right hlen hu
  have lM : (rows.length : K) * M ≤ n * M := mul_le_mul_of_nonneg_right hlen h.size_nonneg
  have lw : (rows.length : K) * (u * M) ≤ n * (u * M) := mul_le_mul_of_nonneg_right hlen w0
  have hr := h.rows
  have l0 : (0 : K) ≤ rows.length * u := mul_nonneg (Nat.cast_nonneg _) hu
  have hm := mean_close h.accurate h.lawful (l := rows.map ph) (m := 71 / 64 * M) (by simpa using hne) hsm (by linarith)
    (by rw [List.length_map]; linarith) (by linarith) (by rw [List.length_map]; linarith)
  rw [List.length_map, List.map_map] at hm
  have hav : |average (rows.map (Num.realPart ∘ ph)) - average (rows.map p)| ≤ 7 * (n * (u * M)) := by
    refine average_near hne fun i hi => ?_
    obtain ⟨y, e, hy⟩ := hp i hi
    simpa [e, Num.realPart] using hy
  have hm2 : CloseTo (A.mean (rows.map ph)) (average (rows.map p)) (15 * (n * (u * M))) :=
    (hm.trans hav).mono (by linarith)
  have hb : |average (rows.map p)| ≤ M := by
    rw [abs_le]
    exact average_bounds (by simpa using hne) (by
      intro z hz; obtain ⟨i, hi, rfl⟩ := List.mem_map.1 hz; exact abs_le.1 (hs i hi))
  intro i hi
  have h2 : |p i - average (rows.map p)| ≤ 2 * M := (abs_sub _ _).trans (by have := hs i hi; linarith)
  refine ⟨(sub_close h.accurate (hp i hi) hm2 (m := 2 * M + 22 / 64 * M) (by linarith) (by linarith)).mono ?_, h2⟩
  linarith

theorem diff_close (h : A.Suits u η B n M) {a b c : Num K} {x y z : K} (ha : CloseTo a x (26 * (n * (u * M)))) (hx : |x| ≤ 2 * M)
    (hb : CloseTo b y (26 * (n * (u * M)))) (hy : |y| ≤ 2 * M) (hc : CloseTo c z (26 * (n * (u * M)))) (hz : |z| ≤ 2 * M) :
    CloseTo (A.sub (A.sub a b) c) (x - y - z) (93 * (n * (u * M))) ∧ |x - y - z| ≤ 6 * M := by
  obtain ⟨hu, η0, w0, w1, w2, m1, hB, u1⟩ := h.facts
  have hη := h.small
  have nn : 0 ≤ n * (M * M) := mul_nonneg (by linarith [h.one_le]) (mul_self_nonneg M)
  have s1 : |x - y| ≤ 4 * M := (abs_sub _ _).trans (by linarith)
  have s2 : |x - y - z| ≤ 6 * M := (abs_sub _ _).trans (by linarith)
  have d1 : CloseTo (A.sub a b) (x - y) (58 * (n * (u * M))) :=
    (sub_close h.accurate ha hb (m := 4 * M + 52 / 64 * M) (by linarith) (by linarith)).mono (by linarith)
  exact ⟨(sub_close h.accurate d1 hc (m := 6 * M + 84 / 64 * M) (by linarith) (by linarith)).mono (by linarith), s2⟩

theorem sqrt_gap [HasSqrt K] [LawfulSqrt K] {q R t ρ η w : K} (hR : 0 ≤ R) (ht : 0 ≤ t) (et : t * t = q) (hρ : 0 ≤ ρ) (ρ1 : ρ ≤ 1)
    (hw : 0 ≤ w) (hη : η ≤ w * w) (h : |q - R * R| ≤ ρ * (R * R) + 6 * η) : |t - R| ≤ ρ * R + 3 * w := by
  obtain ⟨h1, h2⟩ := abs_le.1 h
  have RR := mul_self_nonneg R
  rw [abs_le]
  constructor
  · by_contra hc
    push Not at hc
    have hz : 0 < R * (1 - ρ) - 3 * w := by linarith
    have lt : t * t < (R * (1 - ρ) - 3 * w) * (R * (1 - ρ) - 3 * w) :=
      mul_self_lt_mul_self ht (by linarith)
    have e1 : (R * (1 - ρ)) * (R * (1 - ρ)) ≤ R * R * (1 - ρ) := by
      have : R * R * (1 - ρ) - (R * (1 - ρ)) * (R * (1 - ρ)) = R * R * (ρ * (1 - ρ)) := by ring
      have := mul_nonneg RR (mul_nonneg hρ (by linarith : 0 ≤ 1 - ρ))
      linarith
    have e2 : (R * (1 - ρ) - 3 * w) * (R * (1 - ρ) - 3 * w) ≤ (R * (1 - ρ)) * (R * (1 - ρ)) - 9 * (w * w) := by
      have : 0 ≤ 3 * w * (R * (1 - ρ) - 3 * w) := mul_nonneg (by linarith) hz.le
      nlinarith
    have ww := mul_self_nonneg w
    nlinarith
  · have : t ≤ R * (1 + ρ) + 3 * w := by
      refine le_of_sq_le' ?_ (by nlinarith [mul_nonneg hR hρ])
      have e1 : (R * (1 + ρ) + 3 * w) * (R * (1 + ρ) + 3 * w) = R * R + 2 * (R * R) * ρ + R * R * (ρ * ρ) + 6 * (w * (R * (1 + ρ))) + 9 * (w * w) := by
        ring
      have p1 := mul_nonneg RR hρ
      have p2 := mul_nonneg RR (mul_self_nonneg ρ)
      have p3 : 0 ≤ w * (R * (1 + ρ)) := mul_nonneg hw (mul_nonneg hR (by linarith))
      have ww := mul_self_nonneg w
      rw [e1, et]
      linarith
    linarith

theorem msq_arith {L S Q : K} (L0 : 0 ≤ L) (hu : 0 ≤ u) (η0 : 0 ≤ η) (Q0 : 0 ≤ Q) (lu : L * u ≤ n * u) (hr : 64 * (n * u) ≤ 1)
    (uQ : u * Q ≤ n * u * Q) (hS : S ≤ 2 * (Q * L) + L * η) :
    2 * (L * u) * S + 2 * (L * η) + (u * (Q * L) + L * η) ≤ (5 * (n * u * Q) + 4 * η) * L := by
  have g1 := mul_le_mul_of_nonneg_left hS (mul_nonneg L0 hu)
  have g2 := mul_le_mul_of_nonneg_right lu (mul_nonneg Q0 L0)
  have g3 := mul_le_mul_of_nonneg_right lu (mul_nonneg L0 η0)
  have g4 := mul_le_mul_of_nonneg_right uQ L0
  have g5 := mul_le_mul_of_nonneg_right hr (mul_nonneg L0 η0)
  have g6 := mul_nonneg L0 η0
  linarith

/-- the error of the sum of the squares -/
theorem ssq_close [HasSqrt K] [LawfulSqrt K] (h : A.Suits u η B n M) (hne : rows ≠ []) (hlen : (rows.length : K) ≤ n)
    {y : ι → K} {m : K} (ysz : ∀ i ∈ rows, |y i| ≤ m) (m0 : 0 ≤ m) (hm : m ≤ 8 * M) : ∃ t Q : K,
    A.sum (rows.map fun i => A.sq (.fin (y i))) = .fin t ∧ 0 ≤ t ∧ 0 ≤ Q ∧ Q ≤ m * m ∧ (rows.map fun i => y i * y i).sum = Q * rows.length ∧
      |t / rows.length - Q| ≤ 5 * (n * u * Q) + 4 * η := by
  obtain ⟨hu, η0, w0, w1, w2, m1, hB, u1⟩ := h.facts
  have hη := h.small
  have htiny := h.tiny
  have hM := h.size_nonneg
  have n1 := h.one_le
  have hr := h.rows
  have nu0 : 0 ≤ n * u := mul_nonneg (by linarith) hu
  have nnM : 0 ≤ n * (M * M) := mul_nonneg (by linarith) (mul_self_nonneg M)
  have mm : m * m ≤ 64 * (M * M) := by nlinarith
  have ysq : ∀ i ∈ rows, y i * y i ≤ m * m := by
    intro i hi
    have := ysz i hi
    have h2 := mul_self_le_mul_self (abs_nonneg _) this
    rwa [abs_mul_abs_self] at h2
  have nM0 : 0 ≤ n * M := mul_nonneg (by linarith) hM
  have MMn : M * M ≤ n * (M * M) := by nlinarith [mul_self_nonneg M]
  -- squares
  obtain ⟨s, hs2⟩ : ∃ s : ι → K, ∀ i ∈ rows, A.sq (.fin (y i)) = .fin (s i) ∧ 0 ≤ s i ∧ |s i - y i * y i| ≤ u * (y i * y i) + η := by
    refine ⟨fun i => (A.sq (.fin (y i))).realPart, fun i hi => ?_⟩
    have h0 := mul_self_nonneg (y i)
    have hle := ysq i hi
    obtain ⟨z, ez, hz⟩ := h.accurate.rnd_near (y i * y i) (by rw [abs_of_nonneg h0]; linarith)
    rw [abs_of_nonneg h0] at hz
    have e2 : A.sq (.fin (y i)) = .fin z := ez
    beta_reduce
    rw [e2]
    refine ⟨rfl, ?_, hz⟩
    rcases h.lawful.rnd_nonneg _ h0 with e3 | ⟨z', e3, h3⟩
    · rw [ez] at e3; cases e3
    · rw [ez] at e3; cases e3; exact h3
  have el : (rows.map fun i => A.sq (.fin (y i))) = rows.map fun i => (.fin (s i) : Num K) := List.map_congr_left fun i hi => (hs2 i hi).1
  rw [el]
  -- the sums
  have L1 : (1 : K) ≤ rows.length := by exact_mod_cast List.length_pos_of_ne_nil hne
  have L0 : (0 : K) < rows.length := by linarith
  have lu : (rows.length : K) * u ≤ n * u := mul_le_mul_of_nonneg_right hlen hu
  have sumY0 : 0 ≤ (rows.map fun i => y i * y i).sum := List.sum_nonneg (by
    intro z hz; obtain ⟨i, _, rfl⟩ := List.mem_map.1 hz; exact mul_self_nonneg _)
  have sumS0 : 0 ≤ (rows.map s).sum := List.sum_nonneg (by
    intro z hz; obtain ⟨i, hi, rfl⟩ := List.mem_map.1 hz; exact (hs2 i hi).2.1)
  have sumSY : |(rows.map s).sum - (rows.map fun i => y i * y i).sum| ≤ u * (rows.map fun i => y i * y i).sum + rows.length * η := by
    clear el hne L1 L0 lu hlen sumY0 sumS0
    induction rows with
    | nil => simp
    | cons i l ih =>
      have h1 := (hs2 i List.mem_cons_self).2.2
      have h2 := ih (fun j hj => ysz j (List.mem_cons_of_mem _ hj))
        (fun j hj => ysq j (List.mem_cons_of_mem _ hj)) (fun j hj => hs2 j (List.mem_cons_of_mem _ hj))
      simp only [List.map_cons, List.sum_cons, List.length_cons]
      push_cast
      have e : s i + (l.map s).sum - (y i * y i + (l.map fun i => y i * y i).sum) =
        (s i - y i * y i) + ((l.map s).sum - (l.map fun i => y i * y i).sum) := by ring
      rw [e]
      refine (abs_add_le _ _).trans ?_
      linarith
  have sumYm : (rows.map fun i => y i * y i).sum ≤ rows.length * (m * m) := by
    clear el hne L1 L0 lu hlen sumY0 sumS0 sumSY
    induction rows with
    | nil => simp
    | cons i l ih =>
      have h2 := ih (fun j hj => ysz j (List.mem_cons_of_mem _ hj))
        (fun j hj => ysq j (List.mem_cons_of_mem _ hj)) (fun j hj => hs2 j (List.mem_cons_of_mem _ hj))
      have := ysq i List.mem_cons_self
      simp only [List.map_cons, List.sum_cons, List.length_cons]
      push_cast
      linarith
  have mkabs : ((rows.map fun i => (.fin (s i) : Num K)).map fun a => |a.realPart|).sum = (rows.map s).sum := by
    rw [List.map_map]
    congr 1
    exact List.map_congr_left fun i hi => abs_of_nonneg (hs2 i hi).2.1
  have mk : ((rows.map fun i => (.fin (s i) : Num K)).map Num.realPart).sum = (rows.map s).sum := by
    rw [List.map_map]; rfl
  have lη : (rows.length : K) * η ≤ n * (u * M) := (mul_le_mul_of_nonneg_right hlen η0).trans (mul_le_mul_of_nonneg_left hη (by linarith))
  have lmm : (rows.length : K) * (m * m) ≤ 64 * (n * (M * M)) := by
    have a := mul_le_mul_of_nonneg_left mm L0.le
    have b := mul_le_mul_of_nonneg_right hlen (mul_self_nonneg M)
    linarith
  obtain ⟨sa, sb⟩ := abs_le.1 sumSY
  have u1' : u * (rows.map fun i => y i * y i).sum ≤ (rows.map fun i => y i * y i).sum := by nlinarith
  have hsum := sum_close h.accurate h.lawful (l := rows.map fun i => (.fin (s i) : Num K)) (m := (rows.map s).sum) (by simpa using hne) (by
      intro a ha
      obtain ⟨i, hi, rfl⟩ := List.mem_map.1 ha
      refine ⟨s i, rfl, ?_⟩
      rw [abs_of_nonneg (hs2 i hi).2.1]
      exact List.single_le_sum (by intro z hz; obtain ⟨i, hi, rfl⟩ := List.mem_map.1 hz; exact (hs2 i hi).2.1) _ (List.mem_map_of_mem hi))
    sumS0 (by rw [List.length_map]; linarith) mkabs (by rw [List.length_map]; linarith)
  rw [List.length_map, mk] at hsum
  obtain ⟨t, et, ht⟩ := hsum
  have t0 : 0 ≤ t := by
    have := sum_nonnegR h.lawful (l := rows.map fun i => (.fin (s i) : Num K)) (by
      intro a ha; obtain ⟨i, hi, rfl⟩ := List.mem_map.1 ha; exact naNOrNonneg_fin (hs2 i hi).2.1)
    rw [et] at this
    rcases this with h1 | h1
    · cases h1
    · exact Num.nonneg_fin.1 h1
  -- the mean
  have Ln : (rows.length : K) ≠ 0 := L0.ne'
  obtain ⟨Q, eQ⟩ : ∃ Q, (rows.map fun i => y i * y i).sum = Q * rows.length := ⟨_, (div_mul_cancel₀ _ Ln).symm⟩
  have Q0 : 0 ≤ Q := by
    by_contra hc
    push Not at hc
    have := mul_neg_of_neg_of_pos hc L0
    linarith
  have Qm : Q ≤ m * m := by
    rw [eQ] at sumYm
    exact le_of_mul_le_mul_right (by linarith) L0
  have nuQ : 0 ≤ n * u * Q := mul_nonneg nu0 Q0
  have uQ : u * Q ≤ n * u * Q := mul_le_mul_of_nonneg_right (le_mul_of_one_le_left hu n1) Q0
  have tQ : |t / rows.length - Q| ≤ 5 * (n * u * Q) + 4 * η := by
    have e : t / rows.length - Q = (t - (rows.map fun i => y i * y i).sum) / rows.length := by
      rw [eQ]; field_simp
    rw [e, abs_div, abs_of_pos L0, div_le_iff₀ L0]
    have e2 : t - (rows.map fun i => y i * y i).sum = (t - (rows.map s).sum) + ((rows.map s).sum - (rows.map fun i => y i * y i).sum) := by ring
    rw [e2]
    refine (abs_add_le _ _).trans ((add_le_add ht sumSY).trans ?_)
    rw [eQ] at sb u1' ⊢
    have S2 : (rows.map s).sum ≤ 2 * (Q * rows.length) + rows.length * η := by linarith
    exact msq_arith L0.le hu η0 Q0 lu hr uQ S2
  exact ⟨t, Q, et, t0, Q0, Qm, eQ, tQ⟩

/-- the error of the mean of the squares -/
theorem msq_close [HasSqrt K] [LawfulSqrt K] (h : A.Suits u η B n M) (hne : rows ≠ []) (hlen : (rows.length : K) ≤ n)
    {y : ι → K} {m : K} (ysz : ∀ i ∈ rows, |y i| ≤ m) (m0 : 0 ≤ m) (hm : m ≤ 8 * M) : ∃ q Q : K,
    A.mean (rows.map fun i => A.sq (.fin (y i))) = .fin q ∧ 0 ≤ q ∧ 0 ≤ Q ∧ Q ≤ m * m ∧ Q = (rows.map fun i => y i * y i).sum / rows.length ∧
      |q - Q| ≤ 7 * (n * u) * Q + 6 * η := by
  obtain ⟨hu, η0, w0, w1, w2, m1, hB, u1⟩ := h.facts
  have hη := h.small
  have htiny := h.tiny
  have hM := h.size_nonneg
  have n1 := h.one_le
  have hr := h.rows
  have nu0 : 0 ≤ n * u := mul_nonneg (by linarith) hu
  have nnM : 0 ≤ n * (M * M) := mul_nonneg (by linarith) (mul_self_nonneg M)
  have mm : m * m ≤ 64 * (M * M) := by nlinarith
  have nM0 : 0 ≤ n * M := mul_nonneg (by linarith) hM
  have MMn : M * M ≤ n * (M * M) := by nlinarith [mul_self_nonneg M]
  have L1 : (1 : K) ≤ rows.length := by exact_mod_cast List.length_pos_of_ne_nil hne
  have L0 : (0 : K) < rows.length := by linarith
  have Ln : (rows.length : K) ≠ 0 := L0.ne'
  obtain ⟨t, Q, et, t0, Q0, Qm, eQ, tQ⟩ := ssq_close h hne hlen ysz m0 hm
  have nuQ : 0 ≤ n * u * Q := mul_nonneg nu0 Q0
  have uQ : u * Q ≤ n * u * Q := mul_le_mul_of_nonneg_right (le_mul_of_one_le_left hu n1) Q0
  have tdiv : Num.div (.fin t) (Num.ofNat rows.length) = (.fin (t / rows.length) : Num K) := if_neg Ln
  have tL0 : 0 ≤ t / rows.length := div_nonneg t0 L0.le
  obtain ⟨q1, q2⟩ := abs_le.1 tQ
  have r5 := mul_le_mul_of_nonneg_right hr Q0
  have tLs : t / rows.length ≤ 2 * Q + 4 * η := by linarith
  have ηM : η ≤ M := by linarith
  obtain ⟨q, eq, hq⟩ := h.accurate.rnd_near (t / rows.length) (by rw [abs_of_nonneg tL0]; linarith)
  rw [abs_of_nonneg tL0] at hq
  have q0 : 0 ≤ q := by
    rcases h.lawful.rnd_nonneg _ tL0 with e3 | ⟨z', e3, h3⟩
    · rw [eq] at e3; cases e3
    · rw [eq] at e3; cases e3; exact h3
  have emean : A.mean (rows.map fun i => A.sq (.fin (y i))) = .fin q := by
    unfold Arith.mean Arith.div
    rw [et, List.length_map, tdiv]
    exact eq
  have uη : 4 * (u * η) ≤ η := by
    have a := mul_le_mul_of_nonneg_right u1 η0
    have b := mul_nonneg hu η0
    linarith
  have utL := mul_le_mul_of_nonneg_left tLs hu
  have qQ : |q - Q| ≤ 7 * (n * u) * Q + 6 * η := by
    have e : q - Q = (q - t / rows.length) + (t / rows.length - Q) := by ring
    rw [e]
    refine (abs_add_le _ _).trans ?_
    linarith
  exact ⟨q, Q, emean, q0, Q0, Qm, by rw [eQ, mul_div_cancel_right₀ _ Ln], qQ⟩

theorem rms_close [HasSqrt K] [LawfulSqrt K] (h : A.Suits u η B n M) (hne : rows ≠ []) (hlen : (rows.length : K) ≤ n)
    {dh : ι → Num K} {d : ι → K} {ε m R : K} (ε0 : 0 ≤ ε) (hd : ∀ i ∈ rows, CloseTo (dh i) (d i) ε) (hs : ∀ i ∈ rows, |d i| + ε ≤ m)
    (hm : m ≤ 8 * M) (R0 : 0 ≤ R) (eR : R * R = (rows.map fun i => d i * d i).sum / rows.length) :
    CloseTo (A.sqrt (A.mean (rows.map fun i => A.sq (dh i)))) R (ε + 9 * (n * (u * m)) + 5 * (u * M)) := by
  obtain ⟨hu, η0, w0, w1, w2, m1, hB, u1⟩ := h.facts
  have hη := h.small
  have htiny := h.tiny
  have hM := h.size_nonneg
  have n1 := h.one_le
  have hr := h.rows
  have nu0 : 0 ≤ n * u := mul_nonneg (by linarith) hu
  have nnM : 0 ≤ n * (M * M) := mul_nonneg (by linarith) (mul_self_nonneg M)
  obtain ⟨i0, hi0⟩ := List.exists_mem_of_ne_nil _ hne
  have m0 : 0 ≤ m := by have := hs i0 hi0; have := abs_nonneg (d i0); linarith
  -- the computed values
  obtain ⟨y, hy⟩ : ∃ y : ι → K, ∀ i ∈ rows, dh i = .fin (y i) ∧ |y i - d i| ≤ ε := by
    classical
    refine ⟨fun i => (dh i).realPart, fun i hi => ?_⟩
    obtain ⟨z, e, hz⟩ := hd i hi
    beta_reduce
    rw [e]
    exact ⟨rfl, hz⟩
  have ysz : ∀ i ∈ rows, |y i| ≤ m := by
    intro i hi
    have e : y i = (y i - d i) + d i := by ring
    rw [e]
    refine (abs_add_le _ _).trans ?_
    have := (hy i hi).2
    have := hs i hi
    linarith
  have L1 : (1 : K) ≤ rows.length := by exact_mod_cast List.length_pos_of_ne_nil hne
  have L0 : (0 : K) < rows.length := by linarith
  have Ln : (rows.length : K) ≠ 0 := L0.ne'
  have el : (rows.map fun i => A.sq (dh i)) = rows.map fun i => A.sq (.fin (y i)) :=
    List.map_congr_left fun i hi => by rw [(hy i hi).1]
  rw [el]
  obtain ⟨q, Q, emean, q0, Q0, Qm, eQ, qQ⟩ := msq_close h hne hlen ysz m0 hm
  -- the root
  obtain ⟨Rh, Rh0, eRh⟩ : ∃ Rh : K, 0 ≤ Rh ∧ Rh * Rh = Q := ⟨HasSqrt.sqrt Q, LawfulSqrt.nonneg Q, LawfulSqrt.mul_self Q Q0⟩
  have Rhm : Rh ≤ m := le_of_sq_le' (by rw [eRh]; exact Qm) m0
  have hgap := sqrt_gap (q := q) (R := Rh) (t := HasSqrt.sqrt q) (ρ := 7 * (n * u)) (η := η) (w := u * M) Rh0 (LawfulSqrt.nonneg q)
    (LawfulSqrt.mul_self q q0) (by linarith) (by linarith) w0 htiny (by rw [eRh]; exact qQ)
  obtain ⟨z1, z2⟩ := abs_le.1 hgap
  have nuR : 0 ≤ n * u * Rh := mul_nonneg nu0 Rh0
  have r7 := mul_le_mul_of_nonneg_right hr Rh0
  have sq0 := LawfulSqrt.nonneg q
  have sqs : HasSqrt.sqrt q ≤ 2 * Rh + 3 * (u * M) := by linarith
  obtain ⟨z, ez, hz⟩ := h.accurate.rnd_near (HasSqrt.sqrt q) (by rw [abs_of_nonneg sq0]; linarith)
  rw [abs_of_nonneg sq0] at hz
  have eroot : A.sqrt (.fin q) = .fin z := by
    unfold Arith.sqrt
    rw [show Num.sqrt (.fin q) = (.fin (HasSqrt.sqrt q) : Num K) from if_neg (not_lt.2 q0)]
    exact ez
  rw [emean, eroot]
  have us := mul_le_mul_of_nonneg_left sqs hu
  have uR : u * Rh ≤ n * u * Rh := mul_le_mul_of_nonneg_right (le_mul_of_one_le_left hu n1) Rh0
  have uw : 3 * (u * (u * M)) ≤ u * M := by
    have a := mul_le_mul_of_nonneg_right u1 w0
    have b := mul_nonneg hu w0
    linarith
  have nuRm : n * u * Rh ≤ n * (u * m) := by
    have := mul_le_mul_of_nonneg_left Rhm nu0
    linarith
  have c1 : CloseTo (.fin z) Rh (9 * (n * (u * m)) + 5 * (u * M)) := by
    refine ⟨z, rfl, ?_⟩
    have e : z - Rh = (z - HasSqrt.sqrt q) + (HasSqrt.sqrt q - Rh) := by ring
    rw [e]
    refine (abs_add_le _ _).trans ?_
    linarith
  -- the exact root mean squares
  have eQ2 : Rh * Rh = (rows.map fun i => y i * y i).sum / rows.length := by rw [eRh, eQ]
  have hsq : ∀ (x1 x2 : ι → K), (∀ i ∈ rows, |x1 i - x2 i| ≤ ε) → (rows.map fun i => (x1 i - x2 i) * (x1 i - x2 i)).sum / rows.length ≤ ε * ε := by
    intro x1 x2 hx
    rw [div_le_iff₀ L0]
    clear * - hx
    induction rows with
    | nil => simp
    | cons i l ih =>
      have h1 := hx i List.mem_cons_self
      have h2 := mul_self_le_mul_self (abs_nonneg _) h1
      rw [abs_mul_abs_self] at h2
      have := ih fun j hj => hx j (List.mem_cons_of_mem _ hj)
      simp only [List.map_cons, List.sum_cons, List.length_cons]
      push_cast
      linarith
  have up : Rh ≤ R + ε := by
    refine rms_step L0 R0 ε0 eR (hsq y d fun i hi => (hy i hi).2) ?_
    rw [eQ2]
    congr 2
    apply List.map_congr_left
    intro i _
    ring
  have dn : R ≤ Rh + ε := by
    refine rms_step L0 Rh0 ε0 eQ2 (hsq d y fun i hi => by rw [abs_sub_comm]; exact (hy i hi).2) ?_
    rw [eR]
    congr 2
    apply List.map_congr_left
    intro i _
    ring
  have gap : |Rh - R| ≤ ε := abs_le.2 ⟨by linarith, by linarith⟩
  exact (c1.trans gap).mono (by linarith)

/-- the error of the root of the sum of the squares, per row -/
theorem rss_close [HasSqrt K] [LawfulSqrt K] (h : A.Suits u η B n M) (hne : rows ≠ []) (hlen : (rows.length : K) ≤ n)
    {dh : ι → Num K} {d : ι → K} {ε m R : K} (ε0 : 0 ≤ ε) (hd : ∀ i ∈ rows, CloseTo (dh i) (d i) ε) (hs : ∀ i ∈ rows, |d i| + ε ≤ m)
    (hm : m ≤ 8 * M) (R0 : 0 ≤ R) (eR : R * R = (rows.map fun i => d i * d i).sum / rows.length) :
    ∃ t T : K, A.sum (rows.map fun i => A.sq (dh i)) = .fin t ∧ 0 ≤ T ∧ t = T * T * rows.length ∧ T ≤ 9 * M ∧
      |T - R| ≤ ε + 9 * (n * (u * m)) + 5 * (u * M) := by
  obtain ⟨hu, η0, w0, w1, w2, m1, hB, u1⟩ := h.facts
  have hη := h.small
  have htiny := h.tiny
  have hM := h.size_nonneg
  have n1 := h.one_le
  have hr := h.rows
  have nu0 : 0 ≤ n * u := mul_nonneg (by linarith) hu
  have nnM : 0 ≤ n * (M * M) := mul_nonneg (by linarith) (mul_self_nonneg M)
  obtain ⟨i0, hi0⟩ := List.exists_mem_of_ne_nil _ hne
  have m0 : 0 ≤ m := by have := hs i0 hi0; have := abs_nonneg (d i0); linarith
  -- the computed values
  obtain ⟨y, hy⟩ : ∃ y : ι → K, ∀ i ∈ rows, dh i = .fin (y i) ∧ |y i - d i| ≤ ε := by
    classical
    refine ⟨fun i => (dh i).realPart, fun i hi => ?_⟩
    obtain ⟨z, e, hz⟩ := hd i hi
    beta_reduce
    rw [e]
    exact ⟨rfl, hz⟩
  have ysz : ∀ i ∈ rows, |y i| ≤ m := by
    intro i hi
    have e : y i = (y i - d i) + d i := by ring
    rw [e]
    refine (abs_add_le _ _).trans ?_
    have := (hy i hi).2
    have := hs i hi
    linarith
  have L1 : (1 : K) ≤ rows.length := by exact_mod_cast List.length_pos_of_ne_nil hne
  have L0 : (0 : K) < rows.length := by linarith
  have Ln : (rows.length : K) ≠ 0 := L0.ne'
  have el : (rows.map fun i => A.sq (dh i)) = rows.map fun i => A.sq (.fin (y i)) :=
    List.map_congr_left fun i hi => by rw [(hy i hi).1]
  rw [el]
  obtain ⟨t, Q, et, t0, Q0, Qm, eQ', tQ⟩ := ssq_close h hne hlen ysz m0 hm
  have eQ : Q = (rows.map fun i => y i * y i).sum / rows.length := by rw [eQ', mul_div_cancel_right₀ _ Ln]
  have q0 : 0 ≤ t / rows.length := div_nonneg t0 L0.le
  have nuQ : 0 ≤ n * u * Q := mul_nonneg nu0 Q0
  have qQ : |t / rows.length - Q| ≤ 7 * (n * u) * Q + 6 * η := by linarith
  obtain ⟨q, hq⟩ : ∃ q, q = t / rows.length := ⟨_, rfl⟩
  rw [← hq] at q0 qQ
  -- the root
  obtain ⟨Rh, Rh0, eRh⟩ : ∃ Rh : K, 0 ≤ Rh ∧ Rh * Rh = Q := ⟨HasSqrt.sqrt Q, LawfulSqrt.nonneg Q, LawfulSqrt.mul_self Q Q0⟩
  have Rhm : Rh ≤ m := le_of_sq_le' (by rw [eRh]; exact Qm) m0
  have hgap := sqrt_gap (q := q) (R := Rh) (t := HasSqrt.sqrt q) (ρ := 7 * (n * u)) (η := η) (w := u * M) Rh0 (LawfulSqrt.nonneg q)
    (LawfulSqrt.mul_self q q0) (by linarith) (by linarith) w0 htiny (by rw [eRh]; exact qQ)
  obtain ⟨z1, z2⟩ := abs_le.1 hgap
  have nuR : 0 ≤ n * u * Rh := mul_nonneg nu0 Rh0
  have r7 := mul_le_mul_of_nonneg_right hr Rh0
  have sq0 := LawfulSqrt.nonneg q
  have sqs : HasSqrt.sqrt q ≤ 2 * Rh + 3 * (u * M) := by linarith
  have us := mul_le_mul_of_nonneg_left sqs hu
  have uR : u * Rh ≤ n * u * Rh := mul_le_mul_of_nonneg_right (le_mul_of_one_le_left hu n1) Rh0
  have uw : 3 * (u * (u * M)) ≤ u * M := by
    have a := mul_le_mul_of_nonneg_right u1 w0
    have b := mul_nonneg hu w0
    linarith
  have nuRm : n * u * Rh ≤ n * (u * m) := by
    have := mul_le_mul_of_nonneg_left Rhm nu0
    linarith
  have nuRm8 : n * (u * m) ≤ 1 / 8 * M := by
    have := mul_le_mul_of_nonneg_left hm nu0
    have e1 : n * u * (8 * M) = 8 * (n * (u * M)) := by ring
    have e2 : n * u * m = n * (u * m) := by ring
    linarith
  have ez : t = HasSqrt.sqrt q * HasSqrt.sqrt q * rows.length := by
    rw [LawfulSqrt.mul_self q q0, hq, div_mul_cancel₀ _ Ln]
  -- the exact root mean squares
  have eQ2 : Rh * Rh = (rows.map fun i => y i * y i).sum / rows.length := by rw [eRh, eQ]
  have hsq : ∀ (x1 x2 : ι → K), (∀ i ∈ rows, |x1 i - x2 i| ≤ ε) → (rows.map fun i => (x1 i - x2 i) * (x1 i - x2 i)).sum / rows.length ≤ ε * ε := by
    intro x1 x2 hx
    rw [div_le_iff₀ L0]
    clear * - hx
    induction rows with
    | nil => simp
    | cons i l ih =>
      have h1 := hx i List.mem_cons_self
      have h2 := mul_self_le_mul_self (abs_nonneg _) h1
      rw [abs_mul_abs_self] at h2
      have := ih fun j hj => hx j (List.mem_cons_of_mem _ hj)
      simp only [List.map_cons, List.sum_cons, List.length_cons]
      push_cast
      linarith
  have up : Rh ≤ R + ε := by
    refine rms_step L0 R0 ε0 eR (hsq y d fun i hi => (hy i hi).2) ?_
    rw [eQ2]
    congr 2
    apply List.map_congr_left
    intro i _
    ring
  have dn : R ≤ Rh + ε := by
    refine rms_step L0 Rh0 ε0 eQ2 (hsq d y fun i hi => by rw [abs_sub_comm]; exact (hy i hi).2) ?_
    rw [eR]
    congr 2
    apply List.map_congr_left
    intro i _
    ring
  have gap : |Rh - R| ≤ ε := abs_le.2 ⟨by linarith, by linarith⟩
  obtain ⟨g1, g2⟩ := abs_le.1 gap
  refine ⟨t, HasSqrt.sqrt q, et, sq0, ez, by linarith, ?_⟩
  rw [abs_le]
  constructor <;> linarith

end Errors2

end Artemis
