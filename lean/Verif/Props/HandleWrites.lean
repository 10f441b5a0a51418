import Verif.Props.Handles

/-!
# Property C132: what a write into a returned array does

The effect of one assignment `array[i] = x` (`array[i, j] = x`), in terms of what the caller sees in the arrays kept before and after.
-/

set_option linter.unusedSectionVars false
set_option linter.unusedVariables false
set_option linter.unusedSimpArgs false

namespace Artemis
open Spec

variable {F V N : Type} [DecidableEq F] [LinearOrder V] [Flt N]

namespace Spec
/-- the `n`-th array kept is the matrix that a lookup of a pair without values returned -/
def IsMatrix (s : Session F V N) (n : Nat) : Prop := ∃ k, s.got[n]? = some (.ofCalc (.pair k))
end Spec

theorem write_vector (s : Session F V N) (n i j : Nat) (x : N) (xs : List N) (hm : ¬ IsMatrix s n) (hr : s.read n = some [xs]) :
    (i < xs.length → (CallerOp.run (.write n i j x) s).1 = .ok () ∧ (CallerOp.run (.write n i j x) s).2.read n = some [xs.set i x]) ∧
    (xs.length ≤ i → CallerOp.run (.write n i j x) s = (.error .indexError, s)) := by
  cases e : s.got[n]? with
  | none => simp [Session.read, e] at hr
  | some hd =>
    have hlt : n < s.got.length := by
      by_contra hc
      rw [List.getElem?_eq_none (by omega)] at e
      cases e
    cases hd with
    | own ys =>
      have hys : ys = xs := by simpa [Session.read, e] using hr
      subst hys
      refine ⟨fun hi => ?_, fun hi => ?_⟩
      · have hw : CallerOp.run (.write n i j x) s = (.ok (), { s with got := s.got.set n (.own (ys.set i x)) }) := by
          simp only [CallerOp.run, e, if_pos hi]
        rw [hw]
        refine ⟨rfl, ?_⟩
        have hg : (s.got.set n (.own (ys.set i x)))[n]? = some (.own (ys.set i x)) := List.getElem?_set_self hlt
        simp only [Session.read, hg]
      · simp [CallerOp.run, e, Nat.not_lt.2 hi]
    | ofCalc a =>
      cases a with
      | pair k => exact (hm ⟨k, e⟩).elim
      | single f =>
        cases g : s.cal.pdSingle.get? f with
        | none => simp [Session.read, e, g] at hr
        | some t =>
          have hys : t.pdValues = xs := by simpa [Session.read, e, g] using hr
          subst hys
          refine ⟨fun hi => ?_, fun hi => ?_⟩
          · simp [CallerOp.run, e, Calc.writeArr, g, hi, Session.read, Dict.get?_set]
          · simp [CallerOp.run, e, Calc.writeArr, g, Nat.not_lt.2 hi]
      | minus f =>
        cases g : s.cal.pdMinus.get? f with
        | none => simp [Session.read, e, g] at hr
        | some t =>
          have hys : t = xs := by simpa [Session.read, e, g] using hr
          subst hys
          refine ⟨fun hi => ?_, fun hi => ?_⟩
          · simp [CallerOp.run, e, Calc.writeArr, g, hi, Session.read, Dict.get?_set]
          · simp [CallerOp.run, e, Calc.writeArr, g, Nat.not_lt.2 hi]

theorem write_matrix (s : Session F V N) (n i j : Nat) (x : N) (m : List (List N)) (hm : IsMatrix s n) (hr : s.read n = some m) :
    (∀ row, m[i]? = some row → j < row.length → (CallerOp.run (.write n i j x) s).1 = .ok () ∧
      (CallerOp.run (.write n i j x) s).2.read n = some (m.set i (row.set j x))) ∧
    ((∀ row, m[i]? = some row → row.length ≤ j) → CallerOp.run (.write n i j x) s = (.error .indexError, s)) := by
  obtain ⟨k, e⟩ := hm
  cases g : s.cal.pdPairs.get? k with
  | none => simp [Session.read, e, g] at hr
  | some t =>
    have hys : t.pdValues = m := by simpa [Session.read, e, g] using hr
    subst hys
    refine ⟨fun row hrow hj => ?_, fun hj => ?_⟩
    · simp [CallerOp.run, e, Calc.writeArr, g, hrow, hj, Session.read, Dict.get?_set]
    · cases hrow : t.pdValues[i]? with
      | none => simp [CallerOp.run, e, Calc.writeArr, g, hrow]
      | some row => simp [CallerOp.run, e, Calc.writeArr, g, hrow, Nat.not_lt.2 (hj row hrow)]

/-- **C132**, one write: an assignment inside an array the caller holds changes that entry, as the caller sees it, and nothing else in the array;
one outside raises IndexError and changes nothing at all. Arrays of other lookups with values keep their contents in both cases. -/
theorem C132_one_write (s : Session F V N) (n i j : Nat) (x : N) :
    (¬ IsMatrix s n → ∀ xs, s.read n = some [xs] →
      (i < xs.length → (CallerOp.run (.write n i j x) s).1 = .ok () ∧ (CallerOp.run (.write n i j x) s).2.read n = some [xs.set i x]) ∧
      (xs.length ≤ i → CallerOp.run (.write n i j x) s = (.error .indexError, s))) ∧
    (IsMatrix s n → ∀ m, s.read n = some m →
      (∀ row, m[i]? = some row → j < row.length → (CallerOp.run (.write n i j x) s).1 = .ok () ∧
        (CallerOp.run (.write n i j x) s).2.read n = some (m.set i (row.set j x))) ∧
      ((∀ row, m[i]? = some row → row.length ≤ j) → CallerOp.run (.write n i j x) s = (.error .indexError, s))) ∧
    (∀ n' xs, n' ≠ n → s.got[n']? = some (.own xs) → (CallerOp.run (.write n i j x) s).2.read n' = some [xs]) := by
  refine ⟨fun h xs hr => write_vector s n i j x xs h hr, fun h m hr => write_matrix s n i j x m h hr, ?_⟩
  intro n' xs hne hn'
  have key : (CallerOp.run (.write n i j x) s).2.got[n']? = some (.own xs) := by
    simp only [CallerOp.run]
    cases e : s.got[n]? with
    | none => exact hn'
    | some hd =>
      cases hd with
      | own ys =>
        simp only
        split
        · simp only
          rw [List.getElem?_set_ne (by omega)]
          exact hn'
        · exact hn'
      | ofCalc a => exact hn'
  simp [Session.read, key]

section Cases
open Ex

/-- a vector, a matrix and an array of the caller's own: a write inside each, and one outside each -/
example :
    (runSession ⟨Calc.new exP exX 5, []⟩ [.compute (.single none), .compute (.pairs none true), .getSingle 0 none, .getPairs 0 1 none,
      .getSingle 0 (some [1]), .write 0 1 0 (.fin 9), .write 1 0 0 (.fin 8), .write 2 0 0 (.fin 7)]).read 0 = some [[.fin 3, .fin 9]] ∧
    (runSession ⟨Calc.new exP exX 5, []⟩ [.compute (.single none), .compute (.pairs none true), .getSingle 0 none, .getPairs 0 1 none,
      .getSingle 0 (some [1]), .write 0 1 0 (.fin 9), .write 1 0 0 (.fin 8), .write 2 0 0 (.fin 7)]).read 2 = some [[.fin 7]] ∧
    ((runSession ⟨Calc.new exP exX 5, []⟩ [.compute (.pairs none true), .getPairs 0 1 none, .write 0 0 0 (.fin 8)]).read 0).bind
      (fun m => m.head?.bind List.head?) = some (.fin 8) ∧
    (match (CallerOp.run (.write 0 2 0 (.fin 9)) (runSession ⟨Calc.new exP exX 5, []⟩ [.compute (.single none), .getSingle 0 none])).1 with
      | .error .indexError => true
      | _ => false) = true := by decide +kernel

end Cases

end Artemis
