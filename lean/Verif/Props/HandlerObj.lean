import Verif.Model.HandlerObj
import Verif.Props.SplitScore

/-!
# Property C173: a handler describes the model it was last given

Wanted: whatever a `GBTreesHandler` was given before, fitting with it explains the model of the last successful `unify_structure`.
This holds if the last call succeeded (`C173_last_model`), and after failed calls that did not get past the type or concerned the same
package (`C173_failed_call_partial`). It fails after other failed calls: the new package name is stored, the old trees stay
(`C173_failed_call_fails`).
-/

set_option linter.unusedSectionVars false
set_option linter.unusedVariables false
set_option linter.unusedSimpArgs false

namespace Artemis

namespace Spec

/-- `str(type(model))` for a class with the given path -/
def printedType (cls : List Char) : List Char := "<class '".toList ++ cls ++ "'>".toList

/-- the part of a class path before the first dot -/
def IsPackage (pkg cls : List Char) : Prop := '.' ∉ pkg ∧ (cls = pkg ∨ ∃ rest, cls = pkg ++ '.' :: rest)

end Spec
open Spec

section reading

theorem upToClose_printed {l : List Char} (h : '\n' ∉ l) : upToClose (l ++ "'>".toList) = some l := by
  induction l with
  | nil => decide
  | cons c l ih =>
    have hc : c ≠ '\n' := fun e => h (by rw [e]; exact List.mem_cons_self)
    have := ih (fun hm => h (List.mem_cons_of_mem _ hm))
    rw [List.cons_append, upToClose, if_neg hc, this]

theorem searchClass_cons (c : Char) (cs r : List Char) (hp : "<class '".toList.isPrefixOf (c :: cs) = true)
    (hu : upToClose ((c :: cs).drop 8) = some r) : searchClass (c :: cs) = some r := by
  rw [searchClass, if_pos hp, hu]

theorem classPrefix_chars : "<class '".toList = ['<', 'c', 'l', 'a', 's', 's', ' ', '\''] := by decide

theorem printedType_cons (cls : List Char) :
    printedType cls = '<' :: (['c', 'l', 'a', 's', 's', ' ', '\''] ++ (cls ++ "'>".toList)) := by
  unfold printedType
  rw [classPrefix_chars]
  simp only [List.cons_append, List.nil_append]

/-- **C173, reading the class.** The path between the quotes is read, whatever characters but line breaks it has. -/
theorem C173_class_path (cls : List Char) (h : '\n' ∉ cls) : searchClass (printedType cls) = some cls := by
  rw [printedType_cons]
  have u := upToClose_printed h
  generalize cls ++ "'>".toList = r at u ⊢
  refine searchClass_cons _ _ _ ?_ u
  rw [List.isPrefixOf_iff_prefix, classPrefix_chars]
  exact ⟨r, rfl⟩

theorem packageOf_spec {pkg cls : List Char} (h : IsPackage pkg cls) : packageOf cls = pkg := by
  obtain ⟨hd, rfl | ⟨rest, rfl⟩⟩ := h
  · have h := List.takeWhile_append_of_pos (p := fun c => !decide (c = '.')) (l₁ := cls) (l₂ := [])
      (fun c hc => by have : c ≠ '.' := fun h => hd (h ▸ hc)
                      simp [this])
    simpa [packageOf] using h
  · exact packageOf_eq pkg rest hd

end reading

section handler
variable {F I K : Type} [LinearOrder F] [DecidableEq I] [Field K] [LinearOrder K]

/-- **C173, which models are accepted.** A fitted model is refused as not supported exactly if the package its class is defined in is
neither XGBoost nor LightGBM; in particular a class derived from theirs in another package is refused. -/
theorem C173_accepts_by_package {pkg cls : List Char} (hn : '\n' ∉ cls) (hp : IsPackage pkg cls) (leafName : F)
    (table : Except Err (RawTrees F I K)) (ht : table ≠ .error .modelNotSupported) (s : HandlerObj F I K) :
    (HandlerObj.unify leafName ⟨printedType cls, table⟩ s).1 = .error .modelNotSupported ↔
      pkg ≠ "xgboost".toList ∧ pkg ≠ "lightgbm".toList := by
  unfold HandlerObj.unify
  rw [C173_class_path cls hn]
  simp only [packageOf_spec hp]
  by_cases h1 : pkg = "xgboost".toList
  · rw [if_pos h1]
    refine ⟨fun h => ?_, fun h => absurd h1 h.1⟩
    match table, ht, h with
    | .error e, ht, h => simp only [Except.error.injEq] at h; exact absurd (by rw [h]) ht
    | .ok (.xgb rows), _, h => cases h
    | .ok (.lgb rows), _, h => cases h
  · rw [if_neg h1]
    by_cases h2 : pkg = "lightgbm".toList
    · rw [if_pos h2]
      refine ⟨fun h => ?_, fun h => absurd h2 h.2⟩
      match table, ht, h with
      | .error e, ht, h => simp only [Except.error.injEq] at h; exact absurd (by rw [h]) ht
      | .ok (.xgb rows), _, h => cases h
      | .ok (.lgb rows), _, h => cases h
    · rw [if_neg h2]
      exact ⟨fun _ => ⟨h1, h2⟩, fun _ => rfl⟩

/-- the handler object holding a given handler -/
def HandlerObj.Holds (o : HandlerObj F I K) (h : Handler F I K) : Prop :=
  o.frame = some h.frame ∧ o.package = some (match h.package with | .xgboost => "xgboost".toList | .lightgbm => "lightgbm".toList)

theorem fitObj_holds {o : HandlerObj F I K} {h : Handler F I K} (ho : o.Holds h) (E : SsEnv F K) (inter imp : SsMetric) (onlyDef : Bool)
    (s0 : SsMethod F I K) : SsMethod.fitObj E o inter imp onlyDef s0 = SsMethod.fit E (.handler h) inter imp onlyDef s0 := by
  obtain ⟨hf, hp⟩ := ho
  obtain ⟨p, frame⟩ := h
  cases p with
  | xgboost =>
    have e1 : checkMetricsOf "xgboost".toList inter imp = checkMetrics .xgboost inter imp := by
      unfold checkMetricsOf; rw [if_neg (by decide)]; rfl
    have e2 : statPackage "xgboost".toList = .xgboost := if_pos rfl
    simp only [SsMethod.fitObj, SsMethod.fit, GbArg.toHandler, hf, hp, e1, e2, checkMetrics]
    rfl
  | lightgbm =>
    have e1 : checkMetricsOf "lightgbm".toList inter imp = checkMetrics .lightgbm inter imp := by
      unfold checkMetricsOf; rw [if_pos rfl]; rfl
    have e2 : statPackage "lightgbm".toList = .lightgbm := if_neg (by decide)
    simp only [SsMethod.fitObj, SsMethod.fit, GbArg.toHandler, hf, hp, e1, e2]
    split <;> rename_i hc <;> simp only [hc]
    rfl

theorem unify_spec (leafName : F) (m : GbModel F I K) (hn : '\n' ∉ m.cls) (s : HandlerObj F I K) :
    match unifyStructure leafName m with
    | .ok h => (HandlerObj.unify leafName ⟨printedType m.cls, .ok m.raw⟩ s).1 = .ok () ∧
        (HandlerObj.unify leafName ⟨printedType m.cls, .ok m.raw⟩ s).2.Holds h
    | .error e => (HandlerObj.unify leafName ⟨printedType m.cls, .ok m.raw⟩ s).1 = .error e := by
  unfold HandlerObj.unify unifyStructure
  rw [C173_class_path m.cls hn]
  simp only
  by_cases h1 : packageOf m.cls = "xgboost".toList
  · simp only [if_pos h1]
    cases m.raw with
    | xgb rows => exact ⟨rfl, rfl, by simp [h1]⟩
    | lgb rows => rfl
  · simp only [if_neg h1]
    by_cases h2 : packageOf m.cls = "lightgbm".toList
    · simp only [if_pos h2]
      cases m.raw with
      | xgb rows => rfl
      | lgb rows => exact ⟨rfl, rfl, by simp [h2]⟩
    · simp only [if_neg h2]

/-- **C173.** Give a handler any models, some of which may have been refused, and then a model: if this succeeds, fitting with the
handler does exactly what fitting with the model does; if it fails, fitting with the model raises the same exception. -/
theorem C173_last_model (E : SsEnv F K) (before : List (GbSource F I K)) (m : GbModel F I K) (hn : '\n' ∉ m.cls)
    (inter imp : SsMetric) (onlyDef : Bool) (s0 : SsMethod F I K) :
    let o := HandlerObj.unify E.leafName ⟨printedType m.cls, .ok m.raw⟩ (HandlerObj.unifyAll E.leafName before HandlerObj.empty)
    (o.1 = .ok () → SsMethod.fitObj E o.2 inter imp onlyDef s0 = SsMethod.fit E (.model m) inter imp onlyDef s0) ∧
    ∀ e, o.1 = .error e → SsMethod.fit E (.model m) inter imp onlyDef s0 = (.error e, s0) := by
  intro o
  have h := unify_spec E.leafName m hn (HandlerObj.unifyAll E.leafName before HandlerObj.empty)
  cases hu : unifyStructure E.leafName m with
  | ok hd =>
    rw [hu] at h
    refine ⟨fun _ => ?_, fun e he => ?_⟩
    · rw [fitObj_holds h.2]
      exact C39_handler_instead_of_model E m hd hu inter imp onlyDef s0
    · rw [show o.1 = .ok () from h.1] at he
      cases he
  | error e =>
    rw [hu] at h
    have h' : o.1 = .error e := h
    refine ⟨fun he => ?_, fun e' he => ?_⟩
    · rw [h'] at he; cases he
    · rw [h'] at he
      cases he
      simp only [SsMethod.fit, GbArg.toHandler, hu]

/-- **C173, no model.** A handler that was given no model cannot be fitted; the results of an earlier fit stay. -/
theorem C173_no_model (E : SsEnv F K) (inter imp : SsMetric) (onlyDef : Bool) (s0 : SsMethod F I K) :
    SsMethod.fitObj E (HandlerObj.empty : HandlerObj F I K) inter imp onlyDef s0 =
      (.error .attributeError, { s0 with metric := some inter }) := rfl

/-- **C173**, failed calls, what holds: the trees of the handler stay; and if the class could not be read, or the model is of the
package the handler already has, nothing changes. Missing: models of another package, refuted below. -/
theorem C173_failed_call_partial (leafName : F) (m : GbSource F I K) (s : HandlerObj F I K) {e : Err}
    (he : (HandlerObj.unify leafName m s).1 = .error e) :
    (HandlerObj.unify leafName m s).2.frame = s.frame ∧
    (searchClass m.printed = none → (HandlerObj.unify leafName m s).2 = s) ∧
    ∀ pkg cls, '\n' ∉ cls → IsPackage pkg cls → m.printed = printedType cls → s.package = some pkg →
      (HandlerObj.unify leafName m s).2 = s := by
  have key : (HandlerObj.unify leafName m s).2 = s ∧ searchClass m.printed = none ∨
      ∃ cls, searchClass m.printed = some cls ∧ (HandlerObj.unify leafName m s).2 = { s with package := some (packageOf cls) } := by
    unfold HandlerObj.unify at he ⊢
    cases hs : searchClass m.printed with
    | none => exact Or.inl ⟨rfl, rfl⟩
    | some cls =>
      refine Or.inr ⟨cls, rfl, ?_⟩
      rw [hs] at he
      simp only at he ⊢
      split at he
      · next h1 =>
        rw [if_pos h1]
        split at he
        · rfl
        · cases he
        · rfl
      · next h1 =>
        rw [if_neg h1]
        split at he
        · next h2 =>
          rw [if_pos h2]
          split at he
          · rfl
          · cases he
          · rfl
        · next h2 => rw [if_neg h2]
  rcases key with ⟨k, k'⟩ | ⟨cls', k', k⟩
  · exact ⟨by rw [k], fun _ => k, fun _ _ _ _ _ _ => k⟩
  · refine ⟨by rw [k], fun h => ?_, ?_⟩
    · rw [h] at k'; cases k'
    · intro pkg cls hn hp hm hs
      rw [hm, C173_class_path cls hn] at k'
      cases k'
      rw [k, packageOf_spec hp, ← hs]

end handler

/-! ## Cases -/

section Cases

/-- the example model of XGBoost as the handler sees it -/
def exXgbSource : GbSource Nat Nat ℚ := ⟨printedType exXgb.cls, .ok exXgb.raw⟩

/-- a LightGBM model that was not fitted: it has no trees to show -/
def exLgbUnfitted : GbSource Nat Nat ℚ := ⟨printedType "lightgbm.sklearn.LGBMRegressor".toList, .error .attributeError⟩

/-- a model of another package -/
def exForeign : GbSource Nat Nat ℚ := ⟨printedType "sklearn.ensemble._forest.RandomForestRegressor".toList, .ok exXgb.raw⟩

/-- **C173 fails** after a failed call: a handler of an XGBoost model can be fitted with a cover metric. It is given a LightGBM model
that was not fitted, which raises. From then on the cover metric is refused although the handler still holds the trees of the
XGBoost model. -/
theorem C173_failed_call_fails :
    let o := (HandlerObj.unify 99 exXgbSource HandlerObj.empty).2
    let o' := HandlerObj.unify 99 exLgbUnfitted o
    (SsMethod.fitObj exSsEnv o .meanCover .meanGain true SsMethod.new).1 = .ok () ∧
    o'.1 = .error .attributeError ∧ o'.2.frame = o.frame ∧
    (SsMethod.fitObj exSsEnv o'.2 .meanCover .meanGain true SsMethod.new).1 = .error .metricNotSupported := by
  decide +kernel

/-- a refused model still leaves its package name behind -/
example : (HandlerObj.unify 99 exForeign (HandlerObj.unify 99 exXgbSource HandlerObj.empty).2).1 = .error .modelNotSupported ∧
    (HandlerObj.unify 99 exForeign (HandlerObj.unify 99 exXgbSource HandlerObj.empty).2).2.package = some "sklearn".toList := by
  decide +kernel

/-- C173 for a handler given a foreign model, an unfitted one and then the example -/
example : SsMethod.fitObj exSsEnv (HandlerObj.unify 99 exXgbSource (HandlerObj.unifyAll 99 [exForeign, exLgbUnfitted] HandlerObj.empty)).2
    .meanGain .meanGain true SsMethod.new = SsMethod.fit exSsEnv (.model exXgb) .meanGain .meanGain true SsMethod.new :=
  (C173_last_model exSsEnv [exForeign, exLgbUnfitted] exXgb (by decide) .meanGain .meanGain true SsMethod.new).1 (by decide +kernel)

/-- class paths with quotes and dots, and a printed type without a class -/
example : searchClass (printedType "a.f.<locals>.B'>".toList) = some "a.f.<locals>.B'>".toList :=
  C173_class_path _ (by decide)
example : searchClass "my own type".toList = none := by decide +kernel
example : IsPackage "xgboost".toList "xgboost.sklearn.XGBRegressor".toList :=
  ⟨by decide, Or.inr ⟨"sklearn.XGBRegressor".toList, by decide⟩⟩
/-- a subclass defined by the user is refused -/
example (t : Except Err (RawTrees Nat Nat ℚ)) (ht : t ≠ .error .modelNotSupported) :
    (HandlerObj.unify 99 ⟨printedType "__main__.MyXGBRegressor".toList, t⟩ HandlerObj.empty).1 = .error .modelNotSupported :=
  (C173_accepts_by_package (by decide) (pkg := "__main__".toList) ⟨by decide, Or.inr ⟨"MyXGBRegressor".toList, by decide⟩⟩ 99 t ht _).2
    ⟨by decide, by decide⟩

/-- a second unfitted model of the same package changes nothing -/
example : (HandlerObj.unify 99 ⟨printedType "xgboost.core.Booster".toList, .error .valueError⟩
      (HandlerObj.unify 99 exXgbSource HandlerObj.empty).2).2 = (HandlerObj.unify 99 exXgbSource HandlerObj.empty).2 :=
  (C173_failed_call_partial 99 ⟨printedType "xgboost.core.Booster".toList, .error .valueError⟩ _ (e := .valueError) (by decide +kernel)).2.2
    "xgboost".toList "xgboost.core.Booster".toList (by decide) ⟨by decide, Or.inr ⟨"core.Booster".toList, by decide⟩⟩ rfl (by decide +kernel)

end Cases
end Artemis
