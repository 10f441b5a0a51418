import Verif.Props.Summary

/-!
# C125: the number of interactions asked for

`top_k` (bar charts) and `n_highest_with_labels` (graph) are documented as a maximum number of rows
(`artemis/interactions_methods/_method.py:118-123`).
-/

set_option linter.unusedSectionVars false
set_option linter.unusedVariables false
set_option linter.unusedSimpArgs false

namespace Artemis
open Spec

/-- **Specification.** `shown` is what a limit of `k` rows leaves of `all`: the first rows, at most `k` of them, and all if there are not
more. -/
def Spec.WithinLimit {α : Type} (k : Int) (all shown : List α) : Prop :=
  shown <+: all ∧ (shown.length : Int) ≤ max k 0 ∧ ((all.length : Int) ≤ k → shown = all)

/-- **Specification.** `shown` is `all` without its last `m` rows. -/
def Spec.DropsLast {α : Type} (m : Nat) (all shown : List α) : Prop :=
  ∃ rest, all = shown ++ rest ∧ rest.length = min m all.length

section
variable {α : Type}

theorem pyHead_within {k : Int} (h : 0 ≤ k) (l : List α) :
    WithinLimit k l (pyHead k l) ∧ (pyHead k l).length = min k.toNat l.length := by
  unfold pyHead
  rw [if_pos h]
  refine ⟨⟨List.take_prefix _ _, ?_, ?_⟩, List.length_take⟩
  · rw [List.length_take]; omega
  · intro hl
    exact List.take_of_length_le (by omega)

theorem pyHead_negative {k : Int} (h : k < 0) (l : List α) : DropsLast (-k).toNat l (pyHead k l) := by
  unfold pyHead
  rw [if_neg (by omega)]
  refine ⟨l.drop (l.length - (-k).toNat), (List.take_append_drop _ _).symm, ?_⟩
  rw [List.length_drop]
  omega

end

section Plots
variable {F I K : Type} [LinearOrder F] [Field K] [LinearOrder K] [IsStrictOrderedRing K]
variable {v : View F I K} {E : VisEnv F K} {title : String} {o : Opts K} {sub : SubOpts K} {ps : List (Panel F I K)}

/-- **C125, partial**, all drawings with a limit: with `k ≥ 0` the bar charts show the first `min(k, rows)` rows of their table - so at
most `k`, and all of them if `k` is large enough -, and at most `k` edges of the graph are labelled. The default is 10 (15 in the
conditional chart).
Missing: `k < 0`, see `C125_negative` and `C125_fails`. -/
theorem C125_limit_partial {ovo : List (OvoRow F K)} (ho : v.ovo = some ovo) :
    (v.plot E "bar_chart" title o sub = .ok ps → 0 ≤ o.topK.getD 10 →
      ∃ ti shown, ps = [.bars ti shown] ∧ WithinLimit (o.topK.getD 10) ovo shown) ∧
    (v.plot E "bar_chart_ova" title o sub = .ok ps → 0 ≤ o.topK.getD 10 →
      ∃ ova ti shown, v.ova = some ova ∧ ps = [.barsOva ti shown] ∧ WithinLimit (o.topK.getD 10) ova shown) ∧
    (v.plot E "bar_chart_conditional" title o sub = .ok ps → 0 ≤ o.topK.getD 15 →
      ∃ ti shown, ps = [.conditional ti shown] ∧ WithinLimit (o.topK.getD 15) ovo (shown.map Prod.fst)) ∧
    (v.plot E "graph" title o sub = .ok ps → ∀ cfg : VisConfig K, configGet v.name = .ok cfg → 0 ≤ o.nHighest.getD cfg.graph.nHighest →
      ∃ ti edges nodes labels, ps = [.graph ti v.directed edges nodes labels] ∧
        (labels.length : Int) ≤ o.nHighest.getD cfg.graph.nHighest) := by
  refine ⟨?_, ?_, ?_, ?_⟩
  · intro h hk
    obtain ⟨ovo', ia, cfg, ho', _, hc, hacc, hp⟩ := view_plot_inv h
    rw [ho] at ho'; cases ho'
    unfold visPlot at hp
    rw [if_neg (not_not.2 hacc), if_neg (by decide), if_neg (by decide), if_neg (by decide), if_neg (by decide), if_pos rfl] at hp
    cases hp
    exact ⟨_, _, rfl, (pyHead_within hk ovo).1⟩
  · intro h hk
    obtain ⟨ovo', ia, cfg, ho', _, hc, hacc, hp⟩ := view_plot_inv h
    unfold visPlot at hp
    rw [if_neg (not_not.2 hacc), if_neg (by decide), if_neg (by decide), if_pos rfl] at hp
    simp only [plotBarsOva] at hp
    split at hp
    · cases hp
    · next ova hov =>
      cases hp
      exact ⟨ova, _, _, hov, rfl, (pyHead_within hk ova).1⟩
  · intro h hk
    obtain ⟨ovo', ia, cfg, ho', _, hc, hacc, hp⟩ := view_plot_inv h
    rw [ho] at ho'; cases ho'
    unfold visPlot at hp
    rw [if_neg (not_not.2 hacc), if_neg (by decide), if_neg (by decide), if_neg (by decide), if_neg (by decide), if_neg (by decide),
      if_neg (by decide), if_pos rfl] at hp
    simp only [plotConditional] at hp
    split at hp
    · cases hp
    · next imp hi =>
      cases hp
      refine ⟨_, _, rfl, ?_⟩
      rw [List.map_map]
      show WithinLimit _ ovo ((pyHead (o.topK.getD 15) ovo).map id)
      rw [List.map_id]
      exact (pyHead_within hk ovo).1
  · intro h cfg hc hk
    obtain ⟨ovo', cfg', nodes, ho', hc', _, rfl⟩ := graph_inv h
    rw [hc] at hc'; cases hc'
    refine ⟨_, _, _, _, rfl, ?_⟩
    split
    · simpa using hk
    · unfold edgeLabels
      have := (pyHead_within hk ((E.sortDesc (filterInsignificant v.asc (o.threshold.getD cfg.graph.threshold) ovo')).filter
        (fun r => Num.lt (.fin 0) r.val))).1.2.1
      omega

/-- **C125 fails** for every `k < 0`: the bar charts then leave out the last `-k` rows and draw all the others, and (methods where larger
is stronger) all significant edges but the `-k` weakest are labelled. -/
theorem C125_negative {ovo : List (OvoRow F K)} (ho : v.ovo = some ovo) :
    (v.plot E "bar_chart" title o sub = .ok ps → ∀ k < 0, o.topK = some k →
      ∃ ti shown, ps = [.bars ti shown] ∧ DropsLast (-k).toNat ovo shown) ∧
    (v.plot E "bar_chart_ova" title o sub = .ok ps → ∀ k < 0, o.topK = some k →
      ∃ ova ti shown, v.ova = some ova ∧ ps = [.barsOva ti shown] ∧ DropsLast (-k).toNat ova shown) ∧
    (v.plot E "bar_chart_conditional" title o sub = .ok ps → ∀ k < 0, o.topK = some k →
      ∃ ti shown, ps = [.conditional ti shown] ∧ DropsLast (-k).toNat ovo (shown.map Prod.fst)) ∧
    (v.plot E "graph" title o sub = .ok ps → SortsBy OvoRow.val false E.sortDesc → v.asc = false →
      ∀ cfg : VisConfig K, configGet v.name = .ok cfg → ∀ k < 0, o.nHighest = some k →
      ∃ ti edges nodes labels strong, ps = [.graph ti v.directed edges nodes labels] ∧
        strong.Perm (ovo.filter (Significant (o.threshold.getD cfg.graph.threshold))) ∧
        strong.Pairwise (fun r q => Num.keyLE false r.val q.val = true) ∧ DropsLast (-k).toNat strong labels) := by
  refine ⟨?_, ?_, ?_, ?_⟩
  · intro h k hk e
    obtain ⟨ovo', ia, cfg, ho', _, hc, hacc, hp⟩ := view_plot_inv h
    rw [ho] at ho'; cases ho'
    unfold visPlot at hp
    rw [if_neg (not_not.2 hacc), if_neg (by decide), if_neg (by decide), if_neg (by decide), if_neg (by decide), if_pos rfl] at hp
    cases hp
    refine ⟨_, _, rfl, ?_⟩
    rw [e]
    exact pyHead_negative hk ovo
  · intro h k hk e
    obtain ⟨ovo', ia, cfg, ho', _, hc, hacc, hp⟩ := view_plot_inv h
    unfold visPlot at hp
    rw [if_neg (not_not.2 hacc), if_neg (by decide), if_neg (by decide), if_pos rfl] at hp
    simp only [plotBarsOva] at hp
    split at hp
    · cases hp
    · next ova hov =>
      cases hp
      refine ⟨ova, _, _, hov, rfl, ?_⟩
      rw [e]
      exact pyHead_negative hk ova
  · intro h k hk e
    obtain ⟨ovo', ia, cfg, ho', _, hc, hacc, hp⟩ := view_plot_inv h
    rw [ho] at ho'; cases ho'
    unfold visPlot at hp
    rw [if_neg (not_not.2 hacc), if_neg (by decide), if_neg (by decide), if_neg (by decide), if_neg (by decide), if_neg (by decide),
      if_neg (by decide), if_pos rfl] at hp
    simp only [plotConditional] at hp
    split at hp
    · cases hp
    · next imp hi =>
      cases hp
      refine ⟨_, _, rfl, ?_⟩
      rw [List.map_map, e]
      show DropsLast _ ovo ((pyHead k ovo).map id)
      rw [List.map_id]
      exact pyHead_negative hk ovo
  · intro h hE ha cfg hc k hk e
    obtain ⟨ovo', cfg', nodes, ho', hc', _, rfl⟩ := graph_inv h
    rw [ho] at ho'; cases ho'
    rw [hc] at hc'; cases hc'
    rw [ha, e]
    obtain ⟨hp, hpw⟩ := hE (filterInsignificant false (o.threshold.getD cfg.graph.threshold) ovo)
    refine ⟨_, _, _, _, (E.sortDesc (filterInsignificant false (o.threshold.getD cfg.graph.threshold) ovo)).filter
      (fun r => Num.lt (.fin 0) r.val), rfl, ?_, hpw.filter _, ?_⟩
    · refine (hp.filter _).trans (List.Perm.of_eq ?_)
      exact filter_significant _ ovo
    · exact pyHead_negative hk _

end Plots

/-! ## Cases -/

section Cases

/-- **C125 fails** on a concrete table: asked for `-1` rows, a bar chart shows two of the three. -/
theorem C125_fails :
    barsOf ((exShow greenwellName exRowsH (some exImpH) false false).plot exVis "bar_chart" "default" { topK := some (-1) } []) =
      some (exRowsH.take (exRowsH.length - 1)) ∧ 2 ≤ exRowsH.length - 1 ∧
    ¬ WithinLimit (-1) exRowsH (exRowsH.take (exRowsH.length - 1)) := by
  refine ⟨by decide +kernel, by decide +kernel, ?_⟩
  rintro ⟨_, h, _⟩
  revert h
  decide +kernel

/-- a request within the limits: two of the rows -/
example : barsOf ((exShow greenwellName exRowsH (some exImpH) false false).plot exVis "bar_chart" "default" { topK := some 2 } []) =
      some (exRowsH.take 2) ∧ WithinLimit 2 exRowsH (exRowsH.take 2) := by
  refine ⟨by decide +kernel, ⟨exRowsH.drop 2, ?_⟩, by decide +kernel, by decide +kernel⟩
  exact List.take_append_drop 2 exRowsH

end Cases

end Artemis
