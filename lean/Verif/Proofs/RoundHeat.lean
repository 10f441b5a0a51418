import Verif.Model.RoundedHeat
import Verif.Proofs.RoundVis
import Verif.Proofs.VisLemmas

/-!
# Helper lemmas for the heatmap in floating-point arithmetic
-/

set_option linter.unusedSectionVars false
set_option linter.unusedVariables false
set_option linter.unusedSimpArgs false

namespace Artemis
variable {F I K : Type} [LinearOrder F] [Field K] [LinearOrder K] {A : Arith K}

/-- whether a score can be computed does not depend on the arithmetic -/
theorem heatScoreR_same (m : Mat F K) (diag : Dict F (Num K)) (l1 l2 : Num K) (f : F) :
    (heatScoreR A m diag l1 l2 f).map (fun _ => ()) = (heatScore m diag l1 l2 f).map (fun _ => ()) := by
  unfold heatScoreR heatScore
  cases Dict.get? diag f with
  | none => rfl
  | some d =>
    simp only []
    by_cases h : f ∈ m.cols
    · rw [if_pos h, if_pos h]
      cases pyMax ((m.rows.erase f).map (fun g => m.cell g f)) with
      | error e => rfl
      | ok x => rfl
    · rw [if_neg h, if_neg h]

theorem foldlM_same {α β γ : Type} (f f' : β → α → Except Err β) (h : ∀ b b' a, (f b a).map (fun _ => ()) = (f' b' a).map (fun _ => ())) :
    ∀ (l : List α) (b b' : β), (l.foldlM f b).map (fun _ => ()) = (l.foldlM f' b').map (fun _ => ()) := by
  intro l
  induction l with
  | nil => intro b b'; rfl
  | cons a l ih =>
    intro b b'
    rw [List.foldlM_cons, List.foldlM_cons]
    have := h b b' a
    cases e : f b a with
    | error x =>
      cases e' : f' b' a with
      | error y => rw [e, e'] at this; simpa [Except.map, bind, Except.bind] using this
      | ok y => rw [e, e'] at this; cases this
    | ok x =>
      cases e' : f' b' a with
      | error y => rw [e, e'] at this; cases this
      | ok y => exact ih x y

/-- whether the scores can be computed does not depend on the arithmetic -/
theorem heatScoresR_same (lower : F → F) (m : Mat F K) :
    (heatScoresR A lower m).map (fun _ => ()) = (heatScores lower m).map (fun _ => ()) := by
  unfold heatScoresR heatScores
  cases diagSeries m with
  | error e => rfl
  | ok diag =>
    refine foldlM_same (γ := Unit) _ _ ?_ _ _ _
    intro b b' f
    have := heatScoreR_same (A := A) m diag (maxSkip (diag.map Prod.snd))
      (maxSkip (m.cols.map (fun g => maxSkip (m.rows.map (fun f => m.cell f g))))) f
    revert this
    cases heatScoreR A m diag (maxSkip (diag.map Prod.snd))
      (maxSkip (m.cols.map (fun g => maxSkip (m.rows.map (fun f => m.cell f g))))) f <;>
    cases heatScore m diag (maxSkip (diag.map Prod.snd))
      (maxSkip (m.cols.map (fun g => maxSkip (m.rows.map (fun f => m.cell f g))))) f <;>
    intro this <;> first | exact this | cases this | rfl

section Near
variable [IsStrictOrderedRing K]

/-- one score: a number, near the exact one -/
theorem scoreR_near {u η B c D X a b : K} (hA : A.Accurate u η B) (hu : 2 * u ≤ 1) (hB : 4 * (c + η) ≤ B) (hc : 0 ≤ c) (hD : 0 < D) (hX : 0 < X)
    (ha : |a| ≤ c * D) (hb : |b| ≤ c * X) :
    ∃ y1 y2 z, A.rnd (a / D) = .fin y1 ∧ A.rnd (b / X) = .fin y2 ∧ A.rnd (y1 + y2) = .fin z ∧
      A.add (A.div (.fin a) (.fin D)) (A.div (.fin b) (.fin X)) = .fin z ∧ |z - (a / D + b / X)| ≤ 5 * u * c + 4 * η := by
  have hu0 := hA.u_nonneg
  have hη0 := hA.η_nonneg
  have q1 : |a / D| ≤ c := by rw [abs_div, abs_of_pos hD, div_le_iff₀ hD]; exact ha
  have q2 : |b / X| ≤ c := by rw [abs_div, abs_of_pos hX, div_le_iff₀ hX]; exact hb
  obtain ⟨y1, e1, n1⟩ := hA.rnd_near (a / D) (by linarith)
  obtain ⟨y2, e2, n2⟩ := hA.rnd_near (b / X) (by linarith)
  have m1 : u * |a / D| ≤ u * c := mul_le_mul_of_nonneg_left q1 hu0
  have m2 : u * |b / X| ≤ u * c := mul_le_mul_of_nonneg_left q2 hu0
  have uc : 2 * (u * c) ≤ c := by nlinarith
  have huη : 2 * (u * η) ≤ η := by nlinarith
  have huc : 2 * (u * (u * c)) ≤ u * c := by nlinarith [mul_nonneg hu0 hc]
  have hs : |y1 + y2| ≤ 2 * c + 2 * (u * c) + 2 * η := by
    rw [abs_le] at *
    constructor <;> linarith [n1.1, n1.2, n2.1, n2.2, q1.1, q1.2, q2.1, q2.2]
  obtain ⟨z, e3, n3⟩ := hA.rnd_near (y1 + y2) (by linarith)
  refine ⟨y1, y2, z, e1, e2, e3, ?_, ?_⟩
  · rw [rnd_div A hD.ne', rnd_div A hX.ne', e1, e2]
    exact e3
  · have m3 : u * |y1 + y2| ≤ u * (2 * c + 2 * (u * c) + 2 * η) := mul_le_mul_of_nonneg_left hs hu0
    have m4 : u * (2 * c + 2 * (u * c) + 2 * η) = 2 * (u * c) + 2 * (u * (u * c)) + 2 * (u * η) := by ring
    have m5 : 5 * u * c = 5 * (u * c) := by ring
    rw [m5]
    rw [m4] at m3
    rw [abs_le] at n1 n2 n3 ⊢
    constructor <;> linarith [n1.1, n1.2, n2.1, n2.2, n3.1, n3.2]

end Near

end Artemis
