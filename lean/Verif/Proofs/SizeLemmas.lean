import Verif.Spec.Spread
import Verif.Proofs.IndepLemmas

/-!
# Bounds on averages, standard deviations and partial dependences of bounded quantities
-/

set_option linter.unusedSectionVars false
set_option linter.unusedVariables false
set_option linter.unusedSimpArgs false

namespace Artemis
open Spec
variable {F V K : Type} [DecidableEq F] [Field K] [LinearOrder K] [IsStrictOrderedRing K]
variable {lo hi : K}

theorem average_bounds {l : List K} (hne : l ≠ []) (h : ∀ x ∈ l, lo ≤ x ∧ x ≤ hi) : lo ≤ average l ∧ average l ≤ hi := by
  have hn : (0 : K) < l.length := by
    have := List.length_pos_of_ne_nil hne
    exact_mod_cast this
  have key : ∀ m : List K, (∀ x ∈ m, lo ≤ x ∧ x ≤ hi) → lo * m.length ≤ m.sum ∧ m.sum ≤ hi * m.length := by
    intro m
    induction m with
    | nil => simp
    | cons a m ih =>
      intro hm
      have h1 := hm a List.mem_cons_self
      have h2 := ih (fun x hx => hm x (List.mem_cons_of_mem _ hx))
      simp only [List.sum_cons, List.length_cons]
      push_cast
      constructor <;> nlinarith [h1.1, h1.2, h2.1, h2.2]
  obtain ⟨h1, h2⟩ := key l h
  exact ⟨(le_div_iff₀ hn).2 h1, (div_le_iff₀ hn).2 h2⟩

/-- squared deviations from the mean sum up to at most those from any other number -/
theorem sumDev_le (l : List K) (c : K) : sumDev l ≤ (l.map fun x => (x - c) * (x - c)).sum := by
  rcases eq_or_ne l [] with rfl | hne
  · simp [sumDev]
  have hn : (l.length : K) ≠ 0 := by simpa using hne
  have e : ∀ (m : List K) (a : K), (m.map fun x => (x - c) * (x - c)).sum = (m.map fun x => (x - a) * (x - a)).sum +
      2 * (a - c) * (m.sum - m.length * a) + m.length * ((a - c) * (a - c)) := by
    intro m a
    induction m with
    | nil => simp
    | cons x m ih => simp only [List.map_cons, List.sum_cons, ih, List.length_cons]; push_cast; ring
  have h0 : l.sum - l.length * average l = 0 := by
    rw [average]; field_simp; ring
  rw [e l (average l), h0]
  have : 0 ≤ (l.length : K) * ((average l - c) * (average l - c)) := mul_nonneg (Nat.cast_nonneg _) (mul_self_nonneg _)
  simp only [sumDev]
  linarith

/-- Popoviciu: deviations of numbers within an interval of length `d` -/
theorem sumDev_bound {l : List K} (h : ∀ x ∈ l, lo ≤ x ∧ x ≤ hi) : 4 * sumDev l ≤ l.length * ((hi - lo) * (hi - lo)) := by
  have h1 := sumDev_le l ((lo + hi) / 2)
  have key : ∀ m : List K, (∀ x ∈ m, lo ≤ x ∧ x ≤ hi) →
      4 * (m.map fun x => (x - (lo + hi) / 2) * (x - (lo + hi) / 2)).sum ≤ m.length * ((hi - lo) * (hi - lo)) := by
    intro m
    induction m with
    | nil => simp
    | cons a m ih =>
      intro hm
      have ha := hm a List.mem_cons_self
      have h2 := ih (fun x hx => hm x (List.mem_cons_of_mem _ hx))
      simp only [List.map_cons, List.sum_cons, List.length_cons]
      push_cast
      have : (a - (lo + hi) / 2) * (a - (lo + hi) / 2) = ((hi - lo) * (hi - lo)) / 4 - (a - lo) * (hi - a) := by ring
      have h3 := mul_nonneg (sub_nonneg.2 ha.1) (sub_nonneg.2 ha.2)
      nlinarith
  linarith [key l h]

theorem le_of_sq_le' {a b : K} (h : a * a ≤ b * b) (hb : 0 ≤ b) : a ≤ b := by
  by_contra hc
  push Not at hc
  nlinarith

theorem popStd_bound {l : List K} {x : K} (hne : l ≠ []) (h : ∀ y ∈ l, lo ≤ y ∧ y ≤ hi) (hx : IsPopStd l x) :
    x ≤ (hi - lo) / 2 := by
  obtain ⟨h0, h1⟩ := hx
  have hn : (0 : K) < l.length := by exact_mod_cast List.length_pos_of_ne_nil hne
  have hb := sumDev_bound h
  have hle : lo ≤ hi := by
    obtain ⟨y, hy⟩ := List.exists_mem_of_ne_nil l hne
    exact (h y hy).1.trans (h y hy).2
  have : x * x ≤ ((hi - lo) / 2) * ((hi - lo) / 2) := by
    rw [h1, div_le_iff₀ hn]; nlinarith
  exact le_of_sq_le' this (by linarith)

theorem sampleStd_bound {l : List K} {x : K} (h : ∀ y ∈ l, lo ≤ y ∧ y ≤ hi) (hx : IsSampleStd l x) :
    2 * (x * x) ≤ (hi - lo) * (hi - lo) := by
  obtain ⟨h2, h0, h1⟩ := hx
  have hn : (2 : K) ≤ l.length := by exact_mod_cast h2
  have hb := sumDev_bound h
  have hp : (0 : K) < l.length - 1 := by linarith
  have hd := mul_self_nonneg (hi - lo)
  rw [eq_div_iff hp.ne'] at h1
  by_contra hc
  push Not at hc
  nlinarith

theorem quarterRange_bound {l : List K} {x : K} (h : ∀ y ∈ l, lo ≤ y ∧ y ≤ hi) (hx : IsQuarterRange l x) :
    0 ≤ x ∧ x ≤ (hi - lo) / 4 := by
  obtain ⟨a, ha, b, hb, h1, rfl⟩ := hx
  have := h a ha; have := h b hb; have := h1 a ha
  constructor <;> linarith

theorem pd1_bounds {u : Row F V → K} {X : Frame F V} (hX : X.rows ≠ []) (h : ∀ r, lo ≤ u r ∧ u r ≤ hi) (f : F) (v : V) :
    lo ≤ pd1 u X f v ∧ pd1 u X f v ≤ hi :=
  average_bounds (by simpa using hX) (by intro x hx; obtain ⟨r, _, rfl⟩ := List.mem_map.1 hx; exact h _)

theorem pd2_bounds {u : Row F V → K} {X : Frame F V} (hX : X.rows ≠ []) (h : ∀ r, lo ≤ u r ∧ u r ≤ hi) (f g : F)
    (v w : V) : lo ≤ pd2 u X f g v w ∧ pd2 u X f g v w ≤ hi :=
  average_bounds (by simpa using hX) (by intro x hx; obtain ⟨r, _, rfl⟩ := List.mem_map.1 hx; exact h _)

theorem pdNot_bounds {u : Row F V → K} {X : Frame F V} (hX : X.rows ≠ []) (h : ∀ r, lo ≤ u r ∧ u r ≤ hi) (f : F)
    (r : Row F V) : lo ≤ pdNot u X f r ∧ pdNot u X f r ≤ hi :=
  average_bounds (by simpa using hX) (by intro x hx; obtain ⟨r, _, rfl⟩ := List.mem_map.1 hx; exact h _)

theorem sumSq_centred_bound {X : Frame F V} {w : Row F V → K} (h : ∀ r, lo ≤ w r ∧ w r ≤ hi) :
    4 * sumSq X (centred X w) ≤ X.rows.length * ((hi - lo) * (hi - lo)) := by
  have := sumDev_bound (l := X.rows.map w) (lo := lo) (hi := hi)
    (by intro x hx; obtain ⟨r, _, rfl⟩ := List.mem_map.1 hx; exact h _)
  simp only [sumDev, List.map_map, List.length_map] at this
  exact this

/-- root mean square of a difference of three centred quantities within an interval of length `hi - lo` -/
theorem three_bound {X : Frame F V} (hX : X.rows ≠ []) {p a b i : Row F V → K} (hi' : ∀ r, i r = p r - a r - b r)
    {d : K} (hp : 4 * sumSq X p ≤ X.rows.length * d) (ha : 4 * sumSq X a ≤ X.rows.length * d)
    (hb : 4 * sumSq X b ≤ X.rows.length * d) : sumSq X i / X.rows.length ≤ 9 / 4 * d := by
  have hn : (0 : K) < X.rows.length := by exact_mod_cast List.length_pos_of_ne_nil hX
  rw [div_le_iff₀ hn]
  have key : ∀ l : List (Row F V), (l.map (fun r => i r * i r)).sum ≤ 3 * ((l.map (fun r => p r * p r)).sum +
      (l.map (fun r => a r * a r)).sum + (l.map (fun r => b r * b r)).sum) := by
    intro l
    induction l with
    | nil => simp
    | cons q l ih =>
      simp only [List.map_cons, List.sum_cons, hi' q]
      nlinarith [mul_self_nonneg (p q + a q), mul_self_nonneg (p q + b q), mul_self_nonneg (a q - b q)]
  have := key X.rows
  simp only [sumSq] at hp ha hb ⊢
  nlinarith

end Artemis
