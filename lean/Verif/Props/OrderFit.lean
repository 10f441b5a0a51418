import Verif.Props.PlotFit

/-!
# Property C58 after `fit`

The order of the features in the heatmap of the H-statistic, Greenwell's method and Sejong Oh's, in terms of what `interaction_value` returns and of
the importance table.
-/

set_option linter.unusedSectionVars false
set_option linter.unusedVariables false
set_option linter.unusedSimpArgs false

namespace Artemis
open Spec

variable {F I K : Type} [LinearOrder F] [LinearOrder I] [Field K] [LinearOrder K] [IsStrictOrderedRing K] [HasSqrt K]

/-- the matrix of an undirected method is square -/
theorem pivot_square {ovo : List (OvoRow F K)} {imp : Option (List (FeatRow F K))} {rows : List (OvoRow F K)}
    (h : heatmapRows false ovo imp = .ok rows) : (pivotFirst rows).cols = (pivotFirst rows).rows := by
  obtain ⟨k1, k2, _⟩ := heatmapRows_mem h
  have hswap : ∀ r ∈ rows, (⟨r.f2, r.f1, r.val⟩ : OvoRow F K) ∈ rows := by
    intro r hr
    rcases k1 r hr with h1 | ⟨_, h1⟩ | ⟨h1, _⟩
    · exact (k2 r h1).2 rfl
    · exact (k2 _ h1).1
    · obtain ⟨f1, f2, x⟩ := r
      simp only at h1
      subst h1
      exact hr
  have hm : ∀ f, f ∈ (pivotFirst rows).cols ↔ f ∈ (pivotFirst rows).rows := by
    intro f
    rw [mem_pivot_cols, mem_pivot_rows]
    exact ⟨fun ⟨r, hr, hn, e⟩ => ⟨_, hswap r hr, hn, e⟩, fun ⟨r, hr, hn, e⟩ => ⟨_, hswap r hr, hn, e⟩⟩
  refine npUnique_congr fun f => ?_
  have := hm f
  simpa only [pivotFirst, mem_npUnique] using this

/-- **C58** after `fit` of H-statistic, Greenwell or Sejong Oh for at least two features with different lower-case names, if the interaction values
`x` and the importances `y` are finite: the heatmap shows the included features in the order of their scores, greatest first. The score of a feature
is its importance by the greatest importance `D`, plus its strongest interaction by the greatest number `X` of the heatmap (neither 0). -/
theorem C58_after_fit_partial {sort : PairSort F K} (hs : ∀ asc, SortsBy OvoRow.val asc (sort asc)) {fs : List F} {v : View F I K}
    (h : Fitted sort fs v) (htwo : 2 ≤ fs.length) {E : VisEnv F K} (hE : ∀ key asc, SortsBy key asc (E.sortIdx key asc))
    (hlow : ∀ f ∈ fs, ∀ g ∈ fs, E.lower f = E.lower g → f = g) (title : String) (o : Opts K) (sub : SubOpts K)
    {x : F → F → K} (hx : ∀ f ∈ fs, ∀ g ∈ fs, f ≠ g → v.interactionValue f g = .ok (.fin (x f g)))
    {y : F → K} {imp : List (FeatRow F K)} (hi : v.imp = some imp) (hy : ∀ r ∈ imp, r.val = .fin (y r.f))
    {D X : K} (hD : (∃ f ∈ fs, D = y f) ∧ ∀ f ∈ fs, y f ≤ D) (hD0 : D ≠ 0)
    (hX : ((∃ f ∈ fs, X = y f) ∨ ∃ f ∈ fs, ∃ g ∈ fs, f ≠ g ∧ X = x f g) ∧ (∀ f ∈ fs, y f ≤ X) ∧ ∀ f ∈ fs, ∀ g ∈ fs, f ≠ g → x f g ≤ X)
    (hX0 : X ≠ 0) :
    ∃ ti a b m, ∃ score : F → K, v.plot E "heatmap" title o sub = .ok [.heatmap ti a b m] ∧ m.rows.Perm fs ∧ m.cols = m.rows ∧
      (∀ f ∈ fs, ∃ c, score f = y f / D + c / X ∧ (∃ g ∈ fs, g ≠ f ∧ c = x g f) ∧ ∀ g ∈ fs, g ≠ f → x g f ≤ c) ∧
      m.rows.Pairwise (fun f g => score g ≤ score f) := by
  obtain ⟨ovo0, imp0, hT⟩ := h.tables
  have hdir := hT.directed
  have hasc := hT.asc
  have hnd := hT.nodup
  obtain ⟨ti, a, b, m, ovo, imp', hp, ho, hi', hc, hperm, hoff, hdiag⟩ := C57_after_fit h htwo hE title o sub
  rw [hi] at hi'
  cases hi'
  obtain ⟨ti', a', b', m2, hp2, _, _, hval⟩ := C77_after_fit hs h htwo hE title o sub
  rw [hp] at hp2
  cases hp2
  obtain ⟨ovo', ia, rows, m', ho', _, hr, hm, e⟩ := heat_inv hp
  cases e
  rw [hdir] at hr
  rw [hasc] at hm
  obtain ⟨p1, p2, _, p4⟩ := C58_permutes hE hm
  have hsq := pivot_square hr
  have hfs : (pivotFirst rows).rows.Perm fs := p1.symm.trans hperm
  have hcell : ∀ f ∈ fs, ∀ g ∈ fs, (pivotFirst rows).cell f g = .fin (if f = g then y f else x f g) := by
    intro f hf g hg
    rw [← p4]
    by_cases hne : f = g
    · subst hne
      obtain ⟨q, hq, rfl, e⟩ := hdiag f hf
      rw [e, hy q hq, if_pos rfl]
    · have := hval f hf g hg hne
      rw [hx f hf g hg hne] at this
      rw [if_neg hne]
      exact (Except.ok.inj this).symm
  have hmem : ∀ f, f ∈ (pivotFirst rows).rows ↔ f ∈ fs := fun f => hfs.mem_iff
  obtain ⟨m3, score, h3, hsc, hpw⟩ := C58_sorted_partial hE hsq (hfs.nodup_iff.2 hnd) (by rw [hfs.length_eq]; exact htwo)
    (fun f hf g hg => hlow f ((hmem f).1 hf) g ((hmem g).1 hg)) (u := fun f g => if f = g then y f else x f g)
    (fun f hf g hg => hcell f ((hmem f).1 hf) g ((hmem g).1 hg)) (D := D) (X := X)
    (by
      simp only [if_true, hmem]
      exact hD)
    (by
      simp only [hmem]
      obtain ⟨h1, h2, h3⟩ := hX
      refine ⟨?_, fun f hf g hg => ?_⟩
      · rcases h1 with ⟨f, hf, e⟩ | ⟨f, hf, g, hg, hne, e⟩
        · exact ⟨f, hf, f, hf, by rw [if_pos rfl]; exact e⟩
        · exact ⟨f, hf, g, hg, by rw [if_neg hne]; exact e⟩
      · split
        · exact h2 f hf
        · next hne => exact h3 f hf g hg hne)
    hD0 hX0 false
  rw [hm] at h3
  cases h3
  refine ⟨_, _, _, m, score, hp, hperm, hc, fun f hf => ?_, by simpa using hpw⟩
  obtain ⟨c, e1, ⟨g, hg, hne, e2⟩, e3⟩ := hsc f ((hmem f).2 hf)
  refine ⟨c, by simpa using e1, ⟨g, (hmem g).1 hg, hne, by rw [e2, if_neg hne]⟩, fun g hg hne => ?_⟩
  have := e3 g ((hmem g).2 hg) hne
  rwa [if_neg hne] at this

section Cases
open Ex

/-- the example of Sejong Oh's method: importances 80/3, 40/3, 0, the pair 0, 1 interacts; the features are shown in the order 0, 1, 2 -/
example : ∃ ti a b m, ∃ score : Fin 3 → ℚ, (Sejong.view (I := Nat) exSortQ exSejongQ).plot exVis3 "heatmap" "default" {} [] =
    .ok [.heatmap ti a b m] ∧ m.rows.Pairwise (fun f g => score g ≤ score f) ∧ ∃ c, score 1 = (40 / 3) / (80 / 3) + c / (80 / 3) := by
  have hi : (Sejong.view (I := Nat) exSortQ exSejongQ).imp = some [⟨0, .fin (80 / 3)⟩, ⟨1, .fin (40 / 3)⟩, ⟨2, .fin 0⟩] := by decide +kernel
  have hx : ∀ f ∈ [(0 : Fin 3), 1, 2], ∀ g ∈ [(0 : Fin 3), 1, 2], f ≠ g →
      (Sejong.view (I := Nat) exSortQ exSejongQ).interactionValue f g = .ok (.fin (if f = 2 ∨ g = 2 then 0 else 80 / 3)) := by
    decide +kernel
  obtain ⟨ti, a, b, m, score, h1, _, _, h2, h3⟩ := C58_after_fit_partial (fun _ => sortsBy_stableSort _ _) exSejong_fitted (by decide)
    (E := exVis3) (fun _ _ => sortsBy_stableSort _ _) (fun _ _ _ _ e => e) "default" {} [] hx
    (y := fun f => if f = 0 then 80 / 3 else if f = 1 then 40 / 3 else 0) hi (by simp) (D := 80 / 3) (X := 80 / 3)
    (by decide +kernel) (by norm_num) ⟨Or.inl ⟨0, by simp, by simp⟩, by decide +kernel, by decide +kernel⟩ (by norm_num)
  obtain ⟨c, hc, _⟩ := h2 1 (by simp)
  exact ⟨ti, a, b, m, score, h1, h3, c, hc⟩

end Cases

end Artemis
