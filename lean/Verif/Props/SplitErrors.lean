import Verif.Props.SplitScore

/-!
# C43: which exception ends `SplitScoreMethod.fit`
-/

set_option linter.unusedSectionVars false
set_option linter.unusedVariables false
set_option linter.unusedSimpArgs false

namespace Artemis

variable {F I K : Type} [LinearOrder F] [DecidableEq I] [Field K] [LinearOrder K]
variable {E : SsEnv F K} {ts : List (GTree F I K)} {p : Package} {m : GbModel F I K}

/-- **C43 fails**, with the exception: if some split lies below a root and the gains of a used feature add up to 0, `fit` raises
ZeroDivisionError. -/
theorem C43_zero_gain_error (H : GbForest E.leafName ts p m) {inter imp : SsMetric} (hi : inter.isInteraction)
    (h1 : inter.availableFor p) (h2 : imp.availableFor p) (hnl : NoLeafName E.leafName ts)
    (hex : ∃ s ∈ forestSplits ts, s.parent.isSome = true)
    (hz : ∃ s ∈ forestSplits ts, gainSum (featSplits ts s.feat) = 0) (onlyDef : Bool) (s0 : SsMethod F I K) :
    (SsMethod.fit E (.model m) inter imp onlyDef s0).1 = .error .zeroDivisionError := by
  obtain ⟨frame, A, hF, _, h, _⟩ := fit_state H h1 h2 onlyDef s0
  obtain ⟨s, hs, hz⟩ := hz
  obtain ⟨frame', e1, hp⟩ := depths_ok hF
  have htup := selectRows_tup hF hnl (features := none) (fun fs e => by cases e) hp
  have hocc : featSplits ts s.feat ≠ [] := by
    intro hn
    have : s ∈ featSplits ts s.feat := List.mem_filter.2 ⟨hs, by simp⟩
    rw [hn] at this; cases this
  have hkey := (mem_impKeys htup s.feat).2 ⟨rfl, hocc⟩
  have herr := (impStat_ok htup (f := s.feat) rfl hocc).1 hz
  have hm : ∀ ks : List F, (∀ k ∈ ks, featSplits ts k ≠ []) → s.feat ∈ ks →
      ks.mapM (impStat (selectRows E.leafName none frame')) = .error .zeroDivisionError := by
    intro ks
    induction ks with
    | nil => intro _ hk; cases hk
    | cons k ks ih =>
      intro hall hk
      rw [List.mapM_cons]
      by_cases hk0 : gainSum (featSplits ts k) = 0
      · rw [(impStat_ok htup (f := k) rfl (hall k (List.mem_cons_self ..))).1 hk0]; rfl
      · obtain ⟨r, hr, _⟩ := (impStat_ok htup (f := k) rfl (hall k (List.mem_cons_self ..))).2 hk0
        rcases List.mem_cons.1 hk with rfl | hk
        · exact absurd hz hk0
        · rw [hr, ih (fun k hk => hall k (List.mem_cons_of_mem _ hk)) hk]; rfl
  have he := hm _ (fun k hk => ((mem_impKeys htup k).1 hk).2) hkey
  have himp : ssImportance E none imp frame = .error .zeroDivisionError := by
    unfold ssImportance
    rw [e1]
    simp only [allImportance, he]
  exact ((h hex).2.2 hi).2.1 _ himp

/-- **C43**, every outcome: with documented metrics the package supports and no feature bearing the name that marks leaves, `fit` returns, or
raises KeyError because no split lies below a root, or else raises ZeroDivisionError because the gains of a used feature add up to 0. -/
theorem C43_outcomes (hE : E.Lawful) (H : GbForest E.leafName ts p m) {inter imp : SsMetric} (hi : inter.isInteraction)
    (him : imp.isImportance) (h1 : inter.availableFor p) (h2 : imp.availableFor p) (hnl : NoLeafName E.leafName ts)
    (onlyDef : Bool) (s0 : SsMethod F I K) :
    ((SsMethod.fit E (.model m) inter imp onlyDef s0).1 = .error .keyError ↔ ∀ s ∈ forestSplits ts, s.parent = none) ∧
    ((SsMethod.fit E (.model m) inter imp onlyDef s0).1 = .error .zeroDivisionError ↔
      (∃ s ∈ forestSplits ts, s.parent.isSome = true) ∧ ∃ s ∈ forestSplits ts, gainSum (featSplits ts s.feat) = 0) ∧
    ∀ e, (SsMethod.fit E (.model m) inter imp onlyDef s0).1 = .error e → e = .keyError ∨ e = .zeroDivisionError := by
  by_cases hex : ∃ s ∈ forestSplits ts, s.parent.isSome = true
  · have hnot : ¬ ∀ s ∈ forestSplits ts, s.parent = none := by
      obtain ⟨s, hs, hp⟩ := hex
      intro hall
      rw [hall s hs] at hp; cases hp
    by_cases hz : ∃ s ∈ forestSplits ts, gainSum (featSplits ts s.feat) = 0
    · have e := C43_zero_gain_error H hi h1 h2 hnl hex hz onlyDef s0
      rw [e]
      refine ⟨⟨fun h => (by cases h), fun h => absurd h hnot⟩, ⟨fun _ => ⟨hex, hz⟩, fun _ => rfl⟩, ?_⟩
      intro e' he; cases he; exact .inr rfl
    · have e := C43_fit_completes_partial hE H hi him h1 h2 hex hnl (fun s hs h0 => hz ⟨s, hs, h0⟩) onlyDef s0
      rw [e]
      refine ⟨⟨fun h => (by cases h), fun h => absurd h hnot⟩, ⟨fun h => (by cases h), fun h => absurd h.2 hz⟩, ?_⟩
      intro e' he; cases he
  · have hno : ∀ s ∈ forestSplits ts, s.parent = none := by
      intro s hs
      cases hp : s.parent with
      | none => rfl
      | some x => exact absurd ⟨s, hs, by rw [hp]; rfl⟩ hex
    rw [C43_stumps_fail H h1 h2 hno onlyDef s0]
    refine ⟨⟨fun _ => hno, fun _ => rfl⟩, ⟨fun h => (by cases h), fun h => absurd h.1 hex⟩, ?_⟩
    intro e' he; cases he; exact .inl rfl

section Cases

/-- a split on feature 1 without gain, below a root on feature 0 -/
def exNoGain : GTree Nat Nat ℚ := .split 0 0 1 10 (.split 1 1 0 6 (.leaf 3 0 3) (.leaf 4 0 3)) (.leaf 2 0 4)

/-- a LightGBM model of that tree -/
def exNoGainLgb : GbModel Nat Nat ℚ := ⟨"lightgbm.sklearn.LGBMRegressor".toList, .lgb (exNoGain.lgbRows 0 0)⟩

theorem exNoGain_forest : GbForest 99 [exNoGain] .lightgbm exNoGainLgb := by
  refine GbForest.lightgbm _ _ (by decide) ⟨by decide, by decide, ?_⟩
  intro t T hT
  match t, hT with
  | 0, hT =>
    cases hT
    exact List.Perm.of_eq rfl

example : (SsMethod.fit exSsEnv (.model exNoGainLgb) .meanGain .meanGain true SsMethod.new).1 = .error .zeroDivisionError :=
  C43_zero_gain_error (E := exSsEnv) exNoGain_forest (by simp [SsMetric.isInteraction]) (avail_gain _) (avail_gain _) (by unfold NoLeafName; decide)
    (by decide +kernel) (by decide +kernel) true _

example := (C43_outcomes exSsEnv_lawful exNoGain_forest (inter := .meanGain) (imp := .meanGain) (by simp [SsMetric.isInteraction])
  (by simp [SsMetric.isImportance, SsMetric.isInteraction]) (avail_gain _) (avail_gain _) (by unfold NoLeafName; decide) true SsMethod.new).2.1

end Cases
end Artemis
