import Verif.Props.PlotFit

/-!
# Properties C56 and C78 after `fit`

Labels and node sizes of the interaction graph of the H-statistic, Greenwell's method and Sejong Oh's, in terms of the requested features and of
what `interaction_value` returns.
-/

set_option linter.unusedSectionVars false
set_option linter.unusedVariables false
set_option linter.unusedSimpArgs false

namespace Artemis
open Spec

variable {F I K : Type} [LinearOrder F] [LinearOrder I] [Field K] [LinearOrder K] [IsStrictOrderedRing K] [HasSqrt K]

/-- **C56** after `fit` of H-statistic, Greenwell or Sejong Oh for at least two features: the graph is drawn; a label shows a pair of included
features with the value that `interaction_value` returns for it, positive and not below the threshold; no pair is labelled twice; a pair of this
kind without a label is not stronger than a labelled one, and there is one only if the number of labels is exhausted. -/
theorem C56_after_fit {sort : PairSort F K} (hs : ∀ asc, SortsBy OvoRow.val asc (sort asc)) {fs : List F} {v : View F I K}
    (h : Fitted sort fs v) (htwo : 2 ≤ fs.length) {E : VisEnv F K} (hE : SortsBy OvoRow.val false E.sortDesc) (title : String) (o : Opts K)
    (sub : SubOpts K) {cfg : VisConfig K} (hc : configGet v.name = .ok cfg) {t : K} {n : Nat}
    (ht : t = o.threshold.getD cfg.graph.threshold) (hn : (n : Int) = o.nHighest.getD cfg.graph.nHighest) :
    ∃ ti edges nodes labels, v.plot E "graph" title o sub = .ok [.graph ti false edges nodes labels] ∧ labels.length ≤ n ∧
      OncePerPair labels ∧
      (∀ l ∈ labels, l.f1 ∈ fs ∧ l.f2 ∈ fs ∧ l.f1 ≠ l.f2 ∧ v.interactionValue l.f1 l.f2 = .ok l.val ∧
        Num.lt (.fin 0) l.val = true ∧ Num.lt l.val (.fin t) = false) ∧
      (∀ f ∈ fs, ∀ g ∈ fs, f ≠ g → ∀ x, v.interactionValue f g = .ok x → Num.lt (.fin 0) x = true → Num.lt x (.fin t) = false →
        (∃ l ∈ labels, l.isPair f g) ∨ (labels.length = n ∧ ∀ l ∈ labels, Num.le x l.val = true)) := by
  obtain ⟨ovo, imp, hT⟩ := h.tables
  obtain ⟨ps, hps⟩ := hT.draws htwo E (visType := "graph") (Or.inr (Or.inr (Or.inl rfl))) (by decide) title o sub
  obtain ⟨ti, edges, nodes, labels, rest, rfl, hlen, _, h2⟩ := C56_labels hE hps hT.has_ovo hc ht hn
  obtain ⟨hp, hle, hex⟩ := h2 hT.asc
  rw [hT.directed] at hps
  have hmem : ∀ l ∈ labels, l ∈ ovo ∧ Significant t l = true := fun l hl =>
    List.mem_filter.1 (hp.subset (List.mem_append_left _ hl))
  refine ⟨ti, edges, nodes, labels, hps, hlen, ?_, fun l hl => ?_, fun f hf g hg hne x hx h0 htx => ?_⟩
  · have h1 : OncePerPair (ovo.filter (Significant t)) := List.Pairwise.sublist List.filter_sublist hT.once
    have h2 : OncePerPair (labels ++ rest) := (hp.pairwise_iff (fun {a b} hab => by
      intro hc
      apply hab
      rcases hc with ⟨e1, e2⟩ | ⟨e1, e2⟩
      · exact Or.inl ⟨e1.symm, e2.symm⟩
      · exact Or.inr ⟨e2.symm, e1.symm⟩)).2 h1
    exact (List.pairwise_append.1 h2).1
  · obtain ⟨hl, hsig⟩ := hmem l hl
    obtain ⟨a, b, c⟩ := hT.feats l hl
    simp only [Significant, Bool.and_eq_true, Bool.not_eq_true'] at hsig
    exact ⟨a, b, c, hT.value hs hl (Or.inl ⟨rfl, rfl⟩), hsig.2, hsig.1⟩
  · obtain ⟨r, hr, hpair⟩ := hT.row hf hg hne
    have hv := hT.value hs hr hpair
    rw [hx] at hv
    cases hv
    have hin : r ∈ labels ++ rest := hp.mem_iff.2 (List.mem_filter.2 ⟨hr, by simp [Significant, h0, htx]⟩)
    rcases List.mem_append.1 hin with hl | hl
    · exact Or.inl ⟨r, hl, hpair⟩
    · exact Or.inr ⟨hex (List.ne_nil_of_mem hl), fun l hl' => hle l hl' r hl⟩

/-- **C78** after `fit` of H-statistic, Greenwell or Sejong Oh for at least two features, if the importance values `u` are finite and one is
positive: the nodes of the graph are the included features; a most important feature has the full size 1, and a feature with a greater importance
has a larger node. -/
theorem C78_after_fit_partial {sort : PairSort F K} {fs : List F} {v : View F I K} (h : Fitted sort fs v) (htwo : 2 ≤ fs.length) (E : VisEnv F K)
    (title : String) (o : Opts K) (sub : SubOpts K) {u : F → K} {imp : List (FeatRow F K)} (hi : v.imp = some imp)
    (hu : ∀ r ∈ imp, r.val = .fin (u r.f)) (hpos : ∃ f ∈ fs, 0 < u f) :
    ∃ ti edges nodes labels, ∃ size : F → K, v.plot E "graph" title o sub = .ok [.graph ti false edges (some nodes) labels] ∧
      (∀ f x, (f, x) ∈ nodes ↔ f ∈ fs ∧ x = .fin (size f)) ∧
      (∀ f ∈ fs, size f ≤ 1 ∧ ((∀ g ∈ fs, u g ≤ u f) → size f = 1) ∧ ∀ g ∈ fs, u f < u g ↔ size f < size g) := by
  obtain ⟨ovo, imp', hT⟩ := h.tables
  have e := hT.has_imp
  rw [hi] at e
  cases e
  obtain ⟨ps, hps⟩ := hT.draws htwo E (visType := "graph") (Or.inr (Or.inr (Or.inl rfl))) (by decide) title o sub
  have hpos' : ∃ r ∈ imp, 0 < u r.f := by
    obtain ⟨f, hf, h0⟩ := hpos
    obtain ⟨r, hr, rfl⟩ := (hT.imp_mem f).2 hf
    exact ⟨r, hr, h0⟩
  obtain ⟨ti, edges, labels, size, rfl, h1, h2, h3⟩ := C78_sizes_partial hps hi (u := fun r => u r.f) hu hpos'
  rw [hT.directed] at hps
  have hsame : ∀ r ∈ imp, ∀ q ∈ imp, r.f = q.f → r = q := by
    intro r hr q hq e
    have := hT.imp_once r hr q hq e
    cases r; cases q
    simp_all
  have hmem : ∀ r ∈ imp, r.f ∈ fs := fun r hr => (hT.imp_mem _).1 ⟨r, hr, rfl⟩
  let s : F → K := fun f => size ⟨f, .fin (u f)⟩
  have hs' : ∀ r ∈ imp, size r = s r.f := by
    intro r hr
    have := hu r hr
    cases r
    simp_all [s]
  refine ⟨ti, edges, _, labels, s, hps, fun f x => ?_, fun f hf => ?_⟩
  · simp only [List.mem_map, Prod.mk.injEq]
    constructor
    · rintro ⟨r, hr, rfl, rfl⟩
      exact ⟨hmem r hr, by rw [hs' r hr]⟩
    · rintro ⟨hf, rfl⟩
      obtain ⟨r, hr, rfl⟩ := (hT.imp_mem f).2 hf
      exact ⟨r, hr, rfl, by rw [hs' r hr]⟩
  · obtain ⟨r, hr, rfl⟩ := (hT.imp_mem f).2 hf
    refine ⟨by rw [← hs' r hr]; exact h1 r hr, fun hm => ?_, fun g hg => ?_⟩
    · rw [← hs' r hr]
      exact h2 r hr fun q hq => hm _ (hmem q hq)
    · obtain ⟨q, hq, rfl⟩ := (hT.imp_mem g).2 hg
      rw [← hs' r hr, ← hs' q hq]
      exact h3 r hr q hq

section Cases
open Ex

/-- C56 for the example of Sejong Oh's method: with one label allowed there is one -/
example : ∃ ti edges nodes labels, (Sejong.view (I := Nat) exSortQ exSejongQ).plot exVis3 "graph" "default" { nHighest := some 1 } [] =
    .ok [.graph ti false edges nodes labels] ∧ labels.length = 1 := by
  have hv : (Sejong.view (I := Nat) exSortQ exSejongQ).interactionValue 0 1 = .ok (.fin (80 / 3)) := by decide +kernel
  obtain ⟨ti, e, n, l, h, hl, _, _, h2⟩ := C56_after_fit (fun _ => sortsBy_stableSort _ _) exSejong_fitted (by decide) (E := exVis3)
    (sortsBy_stableSort _ _) "default" { nHighest := some 1 } [] (cfg := _) rfl (t := 10 / 100) (n := 1) (by decide +kernel) rfl
  refine ⟨ti, e, n, l, h, ?_⟩
  rcases h2 0 (by simp) 1 (by simp) (by decide) _ hv (by decide +kernel) (by decide +kernel) with ⟨r, hr, _⟩ | ⟨h, _⟩
  · have := List.length_pos_of_mem hr
    omega
  · exact h

/-- C78 for it: feature 0 has the full size, feature 1 a smaller one, feature 2 the smallest -/
example : ∃ ti edges nodes labels, ∃ size : Fin 3 → ℚ, (Sejong.view (I := Nat) exSortQ exSejongQ).plot exVis3 "graph" "default" {} [] =
    .ok [.graph ti false edges (some nodes) labels] ∧ size 0 = 1 ∧ size 1 < size 0 ∧ size 2 < size 1 := by
  have hi : (Sejong.view (I := Nat) exSortQ exSejongQ).imp = some [⟨0, .fin (80 / 3)⟩, ⟨1, .fin (40 / 3)⟩, ⟨2, .fin 0⟩] := by decide +kernel
  obtain ⟨ti, e, n, l, size, h, _, h2⟩ := C78_after_fit_partial exSejong_fitted (by decide) exVis3 "default" {} []
    (u := fun f => if f = 0 then 80 / 3 else if f = 1 then 40 / 3 else 0) hi (by simp) ⟨0, by simp, by norm_num⟩
  refine ⟨ti, e, n, l, size, h, (h2 0 (by simp)).2.1 ?_, ((h2 1 (by simp)).2.2 0 (by simp)).1 ?_, ((h2 2 (by simp)).2.2 1 (by simp)).1 ?_⟩
  · decide +kernel
  · decide +kernel
  · decide +kernel

end Cases

end Artemis
