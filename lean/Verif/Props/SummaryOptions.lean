import Verif.Props.Summary

/-!
# C79: options of the graph of a summary, for every method
-/

set_option linter.unusedSectionVars false
set_option linter.unusedVariables false
set_option linter.unusedSimpArgs false

namespace Artemis

variable {F I K : Type} [LinearOrder F] [DecidableEq I] [Field K] [LinearOrder K]

/-- **C79, graph** For every method, with or without a one-vs-all table, the options given under `graph` are those the graph of the summary
is drawn with: it is the graph drawn separately with them (for conditional minimal depth: the one drawn as if larger were stronger, C74). -/
theorem C79_graph_options {v : View F I K} (hready : Ready v) {E : VisEnv F K} {title : String} {o : Opts K} {sub : SubOpts K}
    {ps : List (Panel F I K)} (h : v.plot E "summary" title o sub = .ok ps) {og : Opts K} (hg : Dict.get? sub "graph" = some og) :
    ∃ ph pg pb rest, ps = ph :: pg :: pb :: rest ∧ ({ v with asc := false } : View F I K).plot E "graph" "default" og [] = .ok [pg] ∧
      (v.asc = false → v.plot E "graph" "default" og [] = .ok [pg]) := by
  obtain ⟨ph, pg, pb, rest, rfl, h2⟩ := C74_cmd_summary_graph hready h
  have e : SubOpts.pop sub "graph" = og := by simp [SubOpts.pop, hg]
  rw [e] at h2
  refine ⟨ph, pg, pb, rest, rfl, h2, fun ha => ?_⟩
  rw [← h2]
  obtain ⟨⟩ := v
  simp only at ha
  subst ha
  rfl

/-- a summary of Greenwell's method with one labelled edge and a threshold -/
example : ∃ ph pg pb rest, (exShow greenwellName exRowsH (some exImpH) false false).plot exVis "summary" "default" {}
      [("graph", { nHighest := some 1, threshold := some (6 / 10) })] = .ok (ph :: pg :: pb :: rest) ∧
    (exShow greenwellName exRowsH (some exImpH) false false).plot exVis "graph" "default" { nHighest := some 1, threshold := some (6 / 10) } [] =
      .ok [pg] := by
  cases h : (exShow greenwellName exRowsH (some exImpH) false false).plot exVis "summary" "default" {}
      [("graph", { nHighest := some 1, threshold := some (6 / 10) })] with
  | error e =>
    have : (match (exShow greenwellName exRowsH (some exImpH) false false).plot exVis "summary" "default" {}
      [("graph", { nHighest := some 1, threshold := some (6 / 10) })] with | .ok _ => true | .error _ => false) = true := by decide +kernel
    rw [h] at this; cases this
  | ok ps =>
    obtain ⟨ph, pg, pb, rest, rfl, _, h2⟩ := C79_graph_options (v := exShow greenwellName exRowsH (some exImpH) false false)
      (by unfold Ready; decide +kernel) h rfl
    exact ⟨ph, pg, pb, rest, rfl, h2 rfl⟩

end Artemis
