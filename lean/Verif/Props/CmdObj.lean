import Verif.Model.CmdObj
import Verif.Props.CMD
import Verif.Proofs.AnyNumbering

/-!
# C175: which models conditional minimal depth accepts
-/

set_option linter.unusedSectionVars false
set_option linter.unusedVariables false
set_option linter.unusedSimpArgs false

namespace Artemis
open Spec

section
variable {F I K : Type} [DecidableEq F] [Field K] [LinearOrder K]

theorem mapM_cmdOneObj (p : Nat) : ∀ ts : List SkTree, (ts.map some).mapM (cmdOneObj p) = ts.mapM (cmdOne p)
  | [] => rfl
  | t :: ts => by
    rw [List.map_cons, List.mapM_cons, List.mapM_cons, mapM_cmdOneObj p ts]
    rfl

theorem fitObj_forest (E : CmdEnv F I K) (cols : List F) (ts : List SkTree) (s0 : CmdMethod F K) :
    CmdMethod.fitObj E ⟨some cols, some (ts.map some)⟩ s0 = CmdMethod.fit E ⟨cols, ts⟩ s0 := by
  have h : cmdForestObj (ts.map some) cols.length = cmdForest ts cols.length := by
    unfold cmdForestObj cmdForest
    rw [mapM_cmdOneObj]
    rcases ts.mapM (cmdOne cols.length) with e | (_ | ⟨x, xs⟩) <;> rfl
  unfold CmdMethod.fitObj CmdMethod.fit
  simp only [h]
  rcases cmdForest ts cols.length with e | ⟨raw, trees⟩
  · rfl
  · simp only
    rcases summarise E.sortOvo cols raw with e | ovo
    · rfl
    · simp only
      rcases minimalDepthImportance E.sortImp cols (some trees) with e | imp <;> rfl

/-- a list with a missing tree stops the loop -/
theorem mapM_cmdOneObj_none (p : Nat) : ∀ {l : List (Option SkTree)}, none ∈ l → ∃ e, l.mapM (cmdOneObj p) = .error e
  | none :: l, _ => ⟨.attributeError, by rw [List.mapM_cons]; rfl⟩
  | some t :: l, h => by
    obtain ⟨e, he⟩ := mapM_cmdOneObj_none p (l := l) (by simpa using h)
    rw [List.mapM_cons, he]
    cases hc : cmdOneObj p (some t) with
    | error e' => exact ⟨e', rfl⟩
    | ok x => exact ⟨e, rfl⟩

/-- well formed trees before the missing one: an AttributeError -/
theorem mapM_cmdOneObj_after (p : Nat) (rest : List (Option SkTree)) : ∀ {ts : List SkTree} {ls : List LTree},
    List.Forall₂ TreeArray ts ls →
    (ts.map some ++ none :: rest).mapM (cmdOneObj p) = .error .attributeError
  | [], [], _ => by rw [List.map_nil, List.nil_append, List.mapM_cons]; rfl
  | A :: ts, t :: ls, h => by
    rw [List.forall₂_cons] at h
    obtain ⟨rows, ds, h1, _⟩ := cmdOne_returns h.1 p
    rw [List.map_cons, List.cons_append, List.mapM_cons, mapM_cmdOneObj_after p rest h.2]
    have hx : cmdOneObj p (some A) = .ok (rows, ds) := h1
    rw [hx]; rfl

/-- **C175.** A model with feature names whose estimators are the trees of a forest is explained, whatever its class: the table has one row
for every ordered pair of distinct features, with the mean conditional minimal depth over the trees and the number of occurrences, and the
importance is that of the forest. -/
theorem C175_any_forest_is_explained (E : CmdEnv F I K) (hE : SortsCmd E.sortOvo) {mo : SkModel F} {m : Forest F} {ts : List LTree}
    (hn : mo.names = some m.columns) (he : mo.estimators = some (m.trees.map some)) (h : ForestOf m ts) (hts : ts ≠ [])
    (hc : m.columns ≠ []) (s0 : CmdMethod F K) :
    CmdMethod.fitObj E mo s0 = CmdMethod.fit E m s0 ∧
    ∃ rows, (CmdMethod.fitObj E mo s0).2.ovo = some rows ∧
      rows.length = m.columns.length * m.columns.length - m.columns.length ∧
      ∀ a b f g, m.columns[a]? = some f → m.columns[b]? = some g → f ≠ g → ∃ r,
        rows.filter (fun r => decide (r.root = f ∧ r.var = g)) = [r] ∧ IsMeanCondDepth ts a b r.val ∧
          r.occ = occurrences ts a b := by
  have e : CmdMethod.fitObj E mo s0 = CmdMethod.fit E m s0 := by
    obtain ⟨n, es⟩ := mo
    simp only at hn he
    subst hn he
    exact fitObj_forest E m.columns m.trees s0
  refine ⟨e, ?_⟩
  rw [e]
  obtain ⟨rows, h1, h2, _, h4, _⟩ := C36_table E hE h hts hc s0
  exact ⟨rows, h1, h2, h4⟩

/-- **C175.** A model without feature names (fitted on an array) is refused with AttributeError and the object is as it was, earlier results
included. -/
theorem C175_no_names (E : CmdEnv F I K) {mo : SkModel F} (h : mo.names = none) (s0 : CmdMethod F K) :
    CmdMethod.fitObj E mo s0 = (.error .attributeError, s0) := by
  unfold CmdMethod.fitObj
  rw [h]

/-- **C175.** A model with feature names that is no ensemble, or whose estimators include something that is no tree after well formed trees,
is refused with AttributeError; all results of earlier fits stay. (The full statement, that the object is as it was, fails: see below.) -/
theorem C175_no_trees_partial (E : CmdEnv F I K) {mo : SkModel F} {cols : List F} (hn : mo.names = some cols)
    (h : mo.estimators = none ∨ ∃ ts ls rest, List.Forall₂ TreeArray ts ls ∧
      mo.estimators = some (ts.map some ++ none :: rest)) (s0 : CmdMethod F K) :
    (CmdMethod.fitObj E mo s0).1 = .error .attributeError ∧
    (CmdMethod.fitObj E mo s0).2.ovo = s0.ovo ∧ (CmdMethod.fitObj E mo s0).2.importance = s0.importance ∧
    (CmdMethod.fitObj E mo s0).2.raw = s0.raw ∧ (CmdMethod.fitObj E mo s0).2.impObj = s0.impObj ∧
    (CmdMethod.fitObj E mo s0).2.features = some cols ∧ (CmdMethod.fitObj E mo s0).2.pairs = some (combinations2 cols) := by
  unfold CmdMethod.fitObj
  rw [hn]
  rcases h with h | ⟨ts, ls, rest, hw, h⟩
  · rw [h]
    exact ⟨rfl, rfl, rfl, rfl, rfl, rfl, rfl⟩
  · have : cmdForestObj (ts.map some ++ none :: rest) cols.length = .error .attributeError := by
      unfold cmdForestObj
      rw [mapM_cmdOneObj_after _ rest hw]
    simp only [h, this, and_self]

/-- **C175.** If `fit` returns, the model had feature names and all its estimators were trees. -/
theorem C175_returns_only_for_forests (E : CmdEnv F I K) {mo : SkModel F} {s0 s : CmdMethod F K}
    (h : CmdMethod.fitObj E mo s0 = (.ok (), s)) :
    ∃ cols ts, mo.names = some cols ∧ mo.estimators = some (ts.map some) ∧ ts ≠ [] ∧ CmdMethod.fit E ⟨cols, ts⟩ s0 = (.ok (), s) := by
  obtain ⟨n, es⟩ := mo
  cases n with
  | none => rw [C175_no_names E rfl] at h; simp at h
  | some cols =>
    cases es with
    | none => unfold CmdMethod.fitObj at h; simp at h
    | some es =>
      by_cases hno : none ∈ es
      · obtain ⟨e, he⟩ := mapM_cmdOneObj_none cols.length hno
        unfold CmdMethod.fitObj cmdForestObj at h
        simp [he] at h
      · obtain ⟨ts, rfl⟩ : ∃ ts : List SkTree, es = ts.map some := by
          clear h
          induction es with
          | nil => exact ⟨[], rfl⟩
          | cons x es ih =>
            obtain ⟨ts, rfl⟩ := ih (fun hh => hno (List.mem_cons_of_mem _ hh))
            cases x with
            | none => exact absurd (List.mem_cons_self ..) hno
            | some t => exact ⟨t :: ts, rfl⟩
        have h' := h
        rw [fitObj_forest] at h'
        refine ⟨cols, ts, rfl, rfl, ?_, h'⟩
        rintro rfl
        have := (C36_no_trees E (m := ⟨cols, []⟩) rfl s0).1
        rw [h'] at this
        simp at this

/-- **C175.** A model with something that is no tree among its estimators never returns, and the results of earlier fits stay. -/
theorem C175_never_partly_explained (E : CmdEnv F I K) {mo : SkModel F} {es : List (Option SkTree)} (he : mo.estimators = some es)
    (hno : none ∈ es) (s0 : CmdMethod F K) :
    (∃ e, (CmdMethod.fitObj E mo s0).1 = .error e) ∧ (CmdMethod.fitObj E mo s0).2.ovo = s0.ovo ∧
    (CmdMethod.fitObj E mo s0).2.importance = s0.importance ∧ (CmdMethod.fitObj E mo s0).2.raw = s0.raw := by
  unfold CmdMethod.fitObj
  cases hn : mo.names with
  | none => exact ⟨⟨_, rfl⟩, rfl, rfl, rfl⟩
  | some cols =>
    obtain ⟨e, hm⟩ := mapM_cmdOneObj_none cols.length hno
    have : cmdForestObj es cols.length = .error e := by unfold cmdForestObj; rw [hm]
    simp only [he, this]
    exact ⟨⟨_, rfl⟩, trivial, trivial, trivial⟩

end

section Cases

/-- a pipeline fitted on other columns -/
def exPipeline : SkModel (List Nat) := ⟨some [[120], [121]], none⟩

/-- boosting: the first estimator is a tree, the second an array -/
def exBoosting : SkModel (List Nat) := ⟨some [[97], [97, 98], [98]], some [some exTreeA, none]⟩

/-- the forest of `exForest` as an object -/
def exForestObj : SkModel (List Nat) := ⟨some exForest.columns, some (exForest.trees.map some)⟩

/-- **C175.** A refused model changes the object: after a fit on a forest, a pipeline is refused, but the object then names the columns of
the pipeline while its table and importance are about those of the forest. -/
theorem C175_refused_model_fails :
    let s := (CmdMethod.fitObj (exCmdEnv ℚ) exForestObj CmdMethod.new).2
    let s' := (CmdMethod.fitObj (exCmdEnv ℚ) exPipeline s).2
    (CmdMethod.fitObj (exCmdEnv ℚ) exForestObj CmdMethod.new).1 = .ok () ∧
    (CmdMethod.fitObj (exCmdEnv ℚ) exPipeline s).1 = .error .attributeError ∧
    s.features = some [[97], [97, 98], [98]] ∧ s'.features = some [[120], [121]] ∧
    s'.ovo.map List.length = some 6 ∧ s'.ovo.map (fun t => t.all (fun r => decide (r.root ∉ [[120], [121]]))) = some true := by
  decide +kernel

example : ∃ rows, (CmdMethod.fitObj (exCmdEnv ℚ) exForestObj CmdMethod.new).2.ovo = some rows ∧ rows.length = 6 := by
  obtain ⟨_, rows, h1, h2, _⟩ := C175_any_forest_is_explained (exCmdEnv ℚ) sortsCmd_cmdSort (mo := exForestObj) rfl rfl exForest_of (by simp)
    (by simp [exForest]) CmdMethod.new
  exact ⟨rows, h1, h2⟩

example : (CmdMethod.fitObj (exCmdEnv ℚ) exBoosting CmdMethod.new).1 = .error .attributeError :=
  (C175_no_trees_partial (exCmdEnv ℚ) (mo := exBoosting) rfl
    (.inr ⟨[exTreeA], [exTree], [], .cons exTree_stored .nil, rfl⟩) CmdMethod.new).1

example : (CmdMethod.fitObj (exCmdEnv ℚ) ⟨none, exForestObj.estimators⟩ CmdMethod.new) = (.error .attributeError, CmdMethod.new) :=
  C175_no_names (exCmdEnv ℚ) rfl CmdMethod.new

example : ∃ e, (CmdMethod.fitObj (exCmdEnv ℚ) exBoosting CmdMethod.new).1 = .error e :=
  (C175_never_partly_explained (exCmdEnv ℚ) (mo := exBoosting) rfl (by simp) CmdMethod.new).1

/-- the columns of a tree grown on the columns `sub` of the data only: it stores positions in `sub` -/
def grownOn (sub : List Nat) : LTree → LTree
  | .leaf i => .leaf i
  | .node i f l r => .node i (sub.getD f 0) (grownOn sub l) (grownOn sub r)

/-- stored by a bagged tree that saw the columns 1 and 2 -/
def exBagged : LTree := .node 0 0 (.node 1 1 (.leaf 2) (.leaf 3)) (.leaf 4)

/-- its array form -/
def exBaggedA : SkTree := [⟨1, 4, 0⟩, ⟨2, 3, 1⟩, ⟨-1, -1, -2⟩, ⟨-1, -1, -2⟩, ⟨-1, -1, -2⟩]

theorem exBagged_stored : TreeArray exBaggedA exBagged := by
  refine ⟨rfl, ?_, List.Perm.refl _⟩
  simp [exBagged, exBaggedA, LTree.Stores, LTree.id]

/-- **C175.** An ensemble whose trees see only some of the columns (bagging with `max_features`) is accepted and misread: the tree splits on
columns 1 and 2 ("ab", "b") and not on column 0 ("a"), but the importance lists "a" and "ab", and the table says that "a" and "ab"
interact and "ab" and "b" do not. -/
theorem C175_feature_subset_fails :
    TreeArray exBaggedA exBagged ∧ ¬ Uses (grownOn [1, 2] exBagged) 0 ∧ OccursBelow (grownOn [1, 2] exBagged) 1 2 ∧
    (CmdMethod.fitObj (exCmdEnv ℚ) ⟨some [[97], [97, 98], [98]], some [some exBaggedA]⟩ CmdMethod.new).1 = .ok () ∧
    (CmdMethod.fitObj (exCmdEnv ℚ) ⟨some [[97], [97, 98], [98]], some [some exBaggedA]⟩ CmdMethod.new).2.importance.map (fun t => t.map ImpRow.f)
      = some [[97], [97, 98]] ∧
    (CmdMethod.fitObj (exCmdEnv ℚ) ⟨some [[97], [97, 98], [98]], some [some exBaggedA]⟩ CmdMethod.new).2.ovo.map
      (fun t => (t.filter (fun r => decide (r.occ ≠ 0))).map (fun r => (r.root, r.var))) = some [([97], [97, 98])] := by
  refine ⟨exBagged_stored, ?_, ?_, by decide +kernel, by decide +kernel, by decide +kernel⟩
  · rintro ⟨k, s, h, hs⟩
    simp only [exBagged, grownOn] at h
    cases h with
    | here => simp [LTree.Splits] at hs
    | left h =>
      cases h with
      | here => simp [LTree.Splits] at hs
      | left h => cases h; cases hs
      | right h => cases h; cases hs
    | right h => cases h; cases hs
  · refine ⟨0, _, 1, ⟨.here _, rfl, fun _ _ _ _ => Nat.zero_le _⟩, by omega, ⟨_, .left (.here _), rfl⟩, fun m' w h _ _ => h⟩

end Cases
end Artemis
