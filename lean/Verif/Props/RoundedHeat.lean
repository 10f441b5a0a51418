import Verif.Proofs.RoundHeat
import Verif.Proofs.Round64Order
import Verif.Spec.HeatScore
import Verif.Props.Heatmap
import Verif.Props.RoundedVis

/-!
# C164: the heatmap in floating-point arithmetic
-/

set_option linter.unusedSectionVars false
set_option linter.unusedVariables false
set_option linter.unusedSimpArgs false

namespace Artemis
open Spec

section Cells
variable {F I K : Type} [LinearOrder F] [Field K] [LinearOrder K] {A : Arith K}

/-- what the heatmap of a method object shows, in rounded arithmetic -/
theorem heatR_eq (v : View F I K) (E : VisEnv F K) (title : String) (o : Opts K) (sub : SubOpts K)
    (hord : ∀ m asc, (∃ m1 m2, orderHeatmapR A E m asc = .ok m1 ∧ orderHeatmap E m asc = .ok m2) ∨
      ∃ e, orderHeatmapR A E m asc = .error e ∧ orderHeatmap E m asc = .error e) :
    (∃ ti a b m1 m2, v.plotHeatmapR A E title = .ok [.heatmap ti a b m1] ∧ v.plot E "heatmap" title o sub = .ok [.heatmap ti a b m2] ∧
      ∃ m, orderHeatmapR A E m v.asc = .ok m1 ∧ orderHeatmap E m v.asc = .ok m2) ∨
    ∃ e, v.plotHeatmapR A E title = .error e ∧ v.plot E "heatmap" title o sub = .error e := by
  unfold View.plotHeatmapR View.plot
  generalize (if v.needsOva then v.ova.isNone else v.ovo.isNone) = fit
  cases fit with
  | true => exact Or.inr ⟨_, rfl, rfl⟩
  | false =>
    simp only [Bool.false_eq_true, if_false]
    cases v.impAsc with
    | none => exact Or.inr ⟨_, rfl, rfl⟩
    | some ia =>
      simp only []
      cases (configGet v.name : Except Err (VisConfig K)) with
      | error e => exact Or.inr ⟨_, rfl, rfl⟩
      | ok cfg =>
        simp only []
        cases v.ovo with
        | none =>
          by_cases hacc : "heatmap" ∈ cfg.accepted
          · exact Or.inr ⟨.attributeError, by simp [hacc], by simp [hacc]⟩
          · exact Or.inr ⟨.visualizationNotSupported, by simp [hacc], by simp [hacc]⟩
        | some ovo =>
          simp only []
          unfold visPlot
          by_cases hacc : "heatmap" ∈ cfg.accepted
          · rw [if_neg (not_not.2 hacc), if_neg (not_not.2 hacc), if_neg (by decide), if_neg (by decide), if_neg (by decide), if_pos rfl]
            simp only []
            unfold plotHeatmapR plotHeatmap
            cases heatmapRows v.directed ovo v.imp with
            | error e => exact Or.inr ⟨_, rfl, rfl⟩
            | ok rows =>
              simp only []
              rcases hord (pivotFirst rows) v.asc with ⟨m1, m2, h1, h2⟩ | ⟨e, h1, h2⟩
              · rw [h1, h2]
                exact Or.inl ⟨_, _, _, m1, m2, rfl, rfl, _, h1, h2⟩
              · rw [h1, h2]
                exact Or.inr ⟨_, rfl, rfl⟩
          · rw [if_pos hacc, if_pos hacc]
            exact Or.inr ⟨_, rfl, rfl⟩

/-- **C164**, cells: in any floating-point arithmetic the heatmap is drawn, or fails with the same exception, exactly as in exact
arithmetic; it shows the same features and, under the same labels, the same cells. Only the order of the features can be different. -/
theorem C164_same_cells {E : VisEnv F K} (hE : ∀ key asc, SortsBy key asc (E.sortIdx key asc)) (v : View F I K) (title : String) (o : Opts K)
    (sub : SubOpts K) :
    (∃ ti a b m1 m2, v.plotHeatmapR A E title = .ok [.heatmap ti a b m1] ∧ v.plot E "heatmap" title o sub = .ok [.heatmap ti a b m2] ∧
      m1.rows.Perm m2.rows ∧ m1.cols = m1.rows ∧ m2.cols = m2.rows ∧ ∀ f g, m1.cell f g = m2.cell f g) ∨
    ∃ e, v.plotHeatmapR A E title = .error e ∧ v.plot E "heatmap" title o sub = .error e := by
  have hord : ∀ m asc, (∃ m1 m2, orderHeatmapR A E m asc = .ok m1 ∧ orderHeatmap E m asc = .ok m2) ∨
      ∃ e, orderHeatmapR A E m asc = .error e ∧ orderHeatmap E m asc = .error e := by
    intro m asc
    unfold orderHeatmapR orderHeatmap
    have := heatScoresR_same (A := A) E.lower m
    cases h1 : heatScoresR A E.lower m with
    | error e =>
      cases h2 : heatScores E.lower m with
      | error e' => rw [h1, h2] at this; cases this; exact Or.inr ⟨_, rfl, rfl⟩
      | ok s => rw [h1, h2] at this; cases this
    | ok s =>
      cases h2 : heatScores E.lower m with
      | error e' => rw [h1, h2] at this; cases this
      | ok s' => exact Or.inl ⟨_, _, rfl, rfl⟩
  rcases heatR_eq v E title o sub hord with ⟨ti, a, b, m1, m2, h1, h2, m, h3, h4⟩ | h
  · refine Or.inl ⟨ti, a, b, m1, m2, h1, h2, ?_⟩
    obtain ⟨p2, c2, _, l2⟩ := C58_permutes hE h4
    unfold orderHeatmapR at h3
    split at h3
    · cases h3
    · cases h3
      exact ⟨((hE _ _ _).1).trans p2.symm, rfl, c2, fun f g => (l2 f g).symm⟩
  · exact Or.inr h

end Cells

section Order
variable {F I K : Type} [LinearOrder F] [Field K] [LinearOrder K] [IsStrictOrderedRing K] {A : Arith K}

/-- **C164**, order: for a square matrix of finite numbers with at least two features with different lower-case names, entries of size at
most `c` times the (positive) greatest importance or interaction, and precision and range sufficient: `order_heatmap` returns, the features are in
the order of computed scores that differ from the exact ones by at most `5uc + 4η`, and a feature that is at least as important and has
at least as strong a strongest interaction never gets a smaller computed score. For non-negative entries `c` is 1. -/
theorem C164_order {E : VisEnv F K} (hE : ∀ key asc, SortsBy key asc (E.sortIdx key asc)) {m : Mat F K}
    (hsq : m.cols = m.rows) (hnd : m.rows.Nodup) (hlen : 2 ≤ m.rows.length)
    (hlow : ∀ f ∈ m.rows, ∀ g ∈ m.rows, E.lower f = E.lower g → f = g) {v : F → F → K}
    (hv : ∀ f ∈ m.rows, ∀ g ∈ m.rows, m.cell f g = .fin (v f g)) {D X : K} (hD : (∃ f ∈ m.rows, D = v f f) ∧ ∀ f ∈ m.rows, v f f ≤ D)
    (hX : (∃ f ∈ m.rows, ∃ g ∈ m.rows, X = v f g) ∧ ∀ f ∈ m.rows, ∀ g ∈ m.rows, v f g ≤ X) (hD0 : 0 < D) (hX0 : 0 < X)
    {u η B c : K} (hO : A.Ordered) (hA : A.Accurate u η B) (hu : 2 * u ≤ 1) (hB : 4 * (c + η) ≤ B) (hc : 0 ≤ c)
    (hcD : ∀ f ∈ m.rows, |v f f| ≤ c * D) (hcX : ∀ f ∈ m.rows, ∀ g ∈ m.rows, f ≠ g → |v f g| ≤ c * X) (asc : Bool) :
    ∃ m', ∃ score : F → K, orderHeatmapR A E m asc = .ok m' ∧ m'.rows.Perm m.rows ∧ m'.cols = m'.rows ∧
      (∀ f g, m'.cell f g = m.cell f g) ∧
      (∀ f ∈ m.rows, ∃ x, IsHeatScore m.rows v D X f x ∧ |score f - x| ≤ 5 * u * c + 4 * η) ∧
      (∀ f ∈ m.rows, ∀ g ∈ m.rows, Dominates m.rows v g f → score f ≤ score g) ∧
      m'.rows.Pairwise (fun f g => if asc then score f ≤ score g else score g ≤ score f) := by
  have hne : m.rows ≠ [] := by intro e; rw [e] at hlen; simp at hlen
  obtain ⟨s0, hs0⟩ := heatScores_returns E.lower m hsq.symm hnd (by omega)
  obtain ⟨s, hs⟩ : ∃ s, heatScoresR A E.lower m = .ok s := by
    have := heatScoresR_same (A := A) E.lower m
    rw [hs0] at this
    cases h : heatScoresR A E.lower m with
    | error e => rw [h] at this; cases this
    | ok s => exact ⟨s, rfl⟩
  have hs' := hs
  unfold heatScoresR diagSeries at hs'
  rw [if_pos (by rw [hsq])] at hs'
  simp only [] at hs'
  have hzip : (m.rows.zip m.cols).map (fun q => (q.1, m.cell q.1 q.2)) = m.rows.map (fun f => (f, (.fin (v f f) : Num K))) := by
    rw [hsq]
    have : ∀ l : List F, (l.zip l) = l.map (fun f => (f, f)) := by
      intro l; induction l with
      | nil => rfl
      | cons a l ih => simp [ih]
    rw [this, List.map_map]
    refine List.map_congr_left fun f hf => ?_
    simp only [Function.comp, hv f hf f hf]
  rw [hzip] at hs'
  have hl1 : maxSkip ((m.rows.map (fun f => (f, (.fin (v f f) : Num K)))).map Prod.snd) = .fin D := by
    rw [List.map_map]
    have : (Prod.snd ∘ fun f => (f, (.fin (v f f) : Num K))) = fun f => .fin (v f f) := rfl
    rw [this]
    obtain ⟨a, ha, e, hle⟩ := maxSkip_fin m.rows (fun f => v f f) hne
    rw [e]
    obtain ⟨⟨f, hf, rfl⟩, hb⟩ := hD
    rw [le_antisymm (hb a ha) (hle f hf)]
  have hl2 : maxSkip (m.cols.map (fun g => maxSkip (m.rows.map (fun f => m.cell f g)))) = .fin X := by
    have hcol : ∀ g ∈ m.rows, ∃ c, maxSkip (m.rows.map (fun f => m.cell f g)) = .fin c ∧ (∃ f ∈ m.rows, c = v f g) ∧
        ∀ f ∈ m.rows, v f g ≤ c := by
      intro g hg
      have he : m.rows.map (fun f => m.cell f g) = m.rows.map (fun f => .fin (v f g)) :=
        List.map_congr_left fun f hf => hv f hf g hg
      rw [he]
      obtain ⟨a, ha, e, hle⟩ := maxSkip_fin m.rows (fun f => v f g) hne
      exact ⟨v a g, e, ⟨a, ha, rfl⟩, hle⟩
    have hcm : m.cols.map (fun g => maxSkip (m.rows.map (fun f => m.cell f g))) =
        m.rows.map (fun g => .fin (Num.toK (maxSkip (m.rows.map (fun f => m.cell f g))))) := by
      rw [hsq]
      refine List.map_congr_left fun g hg => ?_
      obtain ⟨c, hc, _⟩ := hcol g hg
      rw [hc]; rfl
    rw [hcm]
    obtain ⟨a, ha, e, hle⟩ := maxSkip_fin m.rows (fun g => Num.toK (maxSkip (m.rows.map (fun f => m.cell f g)))) hne
    rw [e]
    obtain ⟨⟨f, hf, g, hg, rfl⟩, hb⟩ := hX
    obtain ⟨c, hc, ⟨f', hf', hcf⟩, hcle⟩ := hcol a ha
    obtain ⟨c', hc', _, hcle'⟩ := hcol g hg
    have h1 := hle g hg
    rw [hc, hc'] at h1
    rw [hc]
    congr 1
    exact le_antisymm (by rw [show Num.toK (.fin c : Num K) = c from rfl, hcf]; exact hb f' hf' a ha) ((hcle' f hf).trans h1)
  rw [hl1, hl2] at hs'
  obtain ⟨k1, _⟩ := foldl_scores E.lower (fun f => heatScoreR A m (m.rows.map (fun f => (f, (.fin (v f f) : Num K)))) (.fin D) (.fin X) f)
    m.rows [] s hlow hs'
  have hscore : ∀ f ∈ m.rows, ∃ z b y1 y2, Dict.get? s (E.lower f) = some (.fin z) ∧ A.rnd (v f f / D) = .fin y1 ∧ A.rnd (b / X) = .fin y2 ∧
      A.rnd (y1 + y2) = .fin z ∧ |z - (v f f / D + b / X)| ≤ 5 * u * c + 4 * η ∧
      (∃ g ∈ m.rows, g ≠ f ∧ b = v g f) ∧ ∀ g ∈ m.rows, g ≠ f → v g f ≤ b := by
    intro f hf
    obtain ⟨x, hx, hg⟩ := k1 f hf
    unfold heatScoreR at hx
    have hget : Dict.get? (m.rows.map (fun f => (f, (.fin (v f f) : Num K)))) f = some (.fin (v f f)) := by
      refine Dict.get?_of_mem ?_ (List.mem_map.2 ⟨f, hf, rfl⟩)
      simp only [Dict.keys, List.map_map]
      have : (Prod.fst ∘ fun f => (f, (.fin (v f f) : Num K))) = id := rfl
      rw [this, List.map_id]
      exact hnd
    rw [hget] at hx
    simp only [] at hx
    rw [if_pos (by rw [hsq]; exact hf)] at hx
    have hmem : ∀ g, g ∈ m.rows.erase f ↔ g ∈ m.rows ∧ g ≠ f := fun g => by rw [hnd.mem_erase_iff]; exact And.comm
    have he : (m.rows.erase f).map (fun g => m.cell g f) = (m.rows.erase f).map (fun g => .fin (v g f)) :=
      List.map_congr_left fun g hg => hv g ((hmem g).1 hg).1 f hf
    have hern : m.rows.erase f ≠ [] := by
      intro e
      have := List.length_erase_of_mem hf
      rw [e] at this
      simp at this
      omega
    obtain ⟨a, ha, hpm, hle⟩ := pyMax_fin (m.rows.erase f) (fun g => v g f) hern
    rw [he, hpm] at hx
    simp only [] at hx
    obtain ⟨y1, y2, z, e1, e2, e3, e4, e5⟩ := scoreR_near hA hu hB hc hD0 hX0 (hcD f hf) (hcX a ((hmem a).1 ha).1 f hf ((hmem a).1 ha).2)
    rw [e4] at hx
    cases hx
    exact ⟨z, v a f, y1, y2, hg, e1, e2, e3, e5, ⟨a, ((hmem a).1 ha).1, ((hmem a).1 ha).2, rfl⟩,
      fun g hg hgf => hle g ((hmem g).2 ⟨hg, hgf⟩)⟩
  refine ⟨⟨E.sortIdx (fun f => (Dict.get? s (E.lower f)).getD .nan) asc m.rows, E.sortIdx (fun f => (Dict.get? s (E.lower f)).getD .nan) asc m.rows,
    m.cell⟩, fun f => Num.toK ((Dict.get? s (E.lower f)).getD .nan), by unfold orderHeatmapR; rw [hs], (hE _ _ _).1, rfl, fun _ _ => rfl,
    ?_, ?_, ?_⟩
  · intro f hf
    obtain ⟨z, b, y1, y2, h1, _, _, _, h5, h6, h7⟩ := hscore f hf
    refine ⟨v f f / D + b / X, ⟨b, rfl, h6, h7⟩, ?_⟩
    simp only [h1]
    exact h5
  · intro f hf g hg ⟨d1, d2⟩
    obtain ⟨z, b, y1, y2, h1, h2, h3, h4, _, ⟨k, hk, hkf, rfl⟩, _⟩ := hscore f hf
    obtain ⟨z', b', y1', y2', h1', h2', h3', h4', _, _, h7'⟩ := hscore g hg
    simp only [h1, h1']
    obtain ⟨k', hk', hkg, hle⟩ := d2 k hk hkf
    have hb : v k f ≤ b' := hle.trans (h7' k' hk' hkg)
    have l1 : y1 ≤ y1' := hO.le (div_le_div_of_nonneg_right d1 hD0.le) h2 h2'
    have l2 : y2 ≤ y2' := hO.le (div_le_div_of_nonneg_right hb hX0.le) h3 h3'
    exact hO.le (add_le_add l1 l2) h4 h4'
  · obtain ⟨hp, hpw⟩ := hE (fun f => (Dict.get? s (E.lower f)).getD .nan) asc m.rows
    have hmem : ∀ f ∈ E.sortIdx (fun f => (Dict.get? s (E.lower f)).getD .nan) asc m.rows, f ∈ m.rows := fun f hf => hp.mem_iff.1 hf
    refine hpw.imp_of_mem ?_
    intro f g hf hg hk
    obtain ⟨x, _, _, _, h1, _⟩ := hscore f (hmem f hf)
    obtain ⟨y, _, _, _, h2, _⟩ := hscore g (hmem g hg)
    simp only [h1, h2] at hk ⊢
    simp only [Option.getD_some, Num.keyLE, Num.isNaN, Bool.false_eq_true, if_false, Num.le] at hk ⊢
    cases asc <;> simpa [Num.toK] using hk

end Order

section Cases

/-- the entries of `exMat` -/
def exEntries (x y z : ℚ) (f g : Fin 4) : ℚ := if f = g then (if f = 0 then x else if f = 1 then y else z) else 1

/-- the hypotheses of `C164_order` hold here: binary64, non-negative entries -/
example : ∃ m', ∃ score : Fin 4 → ℚ, orderHeatmapR binary64 exVis (exMat 2 5 3) false = .ok m' ∧ score 0 ≤ score 2 ∧
    (∃ x, IsHeatScore [0, 1, 2] (exEntries 2 5 3) 5 5 2 x ∧ |score 2 - x| ≤ 5 * (1 / 2 ^ 53) * 1 + 4 * (1 / 2 ^ 1075)) ∧
    m'.rows.Pairwise (fun f g => score g ≤ score f) := by
  obtain ⟨m', score, h1, _, _, _, h2, h3, h4⟩ := C164_order exVis_lawful.1 (m := exMat 2 5 3) rfl (by decide) (by decide) (by decide)
    (v := exEntries 2 5 3) (by intro f _ g _; rfl) (D := 5) (X := 5)
    (by decide +kernel) (by decide +kernel) (by norm_num) (by norm_num) binary64_ordered binary64_accurate (by decide +kernel)
    (c := 1) (by decide +kernel) (by norm_num) (by decide +kernel) (by decide +kernel) false
  exact ⟨m', score, h1, h3 0 (by decide) 2 (by decide) ⟨by decide +kernel, by decide +kernel⟩, h2 2 (by decide), by simpa using h4⟩

/-- computed scores 0.6000000000000001, 1.2 and 0.8 -/
example : (heatScoresR binary64 id (exMat 2 5 3)).map (fun s => s.map Prod.snd) =
    .ok [.fin (1351079888211149 / 2251799813685248), .fin (5404319552844595 / 4503599627370496), .fin (3602879701896397 / 4503599627370496)] ∧
    (orderHeatmapR binary64 exVis (exMat 2 5 3) false).map Mat.rows = .ok [1, 2, 0] := by decide +kernel

/-- **C164**, why there is an error term: features whose scores differ by less than the precision can be in the wrong order. -/
theorem C164_exact_order_fails :
    (orderHeatmapR binary64 exVis (exMat 1 (1 + 1 / 2 ^ 52) 4) false).map Mat.rows = .ok [2, 0, 1] ∧
    (orderHeatmap exVis (exMat 1 (1 + 1 / 2 ^ 52) 4) false).map Mat.rows = .ok [2, 1, 0] := by decide +kernel

/-- both cases of `C164_same_cells`: a heatmap, and a table without importance for one of its features -/
example : heatOf ((exShow greenwellName exF64Rows (some exF64Imp) false false).plotHeatmapR binary64 exVis "default") =
    heatOf ((exShow greenwellName exF64Rows (some exF64Imp) false false).plot exVis "heatmap" "default" {} []) ∧
    (heatOf ((exShow greenwellName exF64Rows (some exF64Imp) false false).plotHeatmapR binary64 exVis "default")).isSome = true ∧
    (((exShow greenwellName exF64Rows (some [⟨0, .fin 1⟩]) false false).plotHeatmapR binary64 exVis "default").map (fun _ => ())) =
      .error .indexError := by
  refine ⟨?_, ?_, ?_⟩ <;> decide +kernel

end Cases

end Artemis
