import Verif.Model.Py
import Verif.Model.PDCalc

/-!
# Triples for programs that may raise

Helper lemmas.
-/

set_option linter.unusedSectionVars false
set_option linter.unusedVariables false
set_option linter.unusedSimpArgs false

namespace Artemis

/-- started in a state with `I`, the program returns only values and states with `Q`, and raises only errors, leaving states,
with `P` -/
def Triple {σ α : Type*} (I : σ → Prop) (m : PyM σ α) (Q : α → σ → Prop) (P : Err → σ → Prop) : Prop :=
  ∀ s, I s → (∀ a, (m s).1 = .ok a → Q a (m s).2) ∧ (∀ e, (m s).1 = .error e → P e (m s).2)

section generic
variable {σ α β : Type*} {I J : σ → Prop} {P : Err → σ → Prop}

theorem Triple.ret {Q : α → σ → Prop} {a : α} (h : ∀ s, I s → Q a s) : Triple I (PyM.ret a) Q P :=
  fun s hs => ⟨fun b hb => (by cases hb; exact h s hs), fun e he => by cases he⟩

theorem Triple.seq {Q : α → σ → Prop} {Q' : β → σ → Prop} {m : PyM σ α} {k : α → PyM σ β} (h : Triple I m Q P)
    (hk : ∀ a, Triple (Q a) (k a) Q' P) : Triple I (PyM.seq m k) Q' P := by
  intro s hs
  obtain ⟨h1, h2⟩ := h s hs
  unfold PyM.seq
  cases e : m s with
  | mk r s1 =>
    rw [e] at h1 h2
    cases r with
    | error er => exact ⟨fun b hb => (by cases hb), fun e' he => (by cases he; exact h2 er rfl)⟩
    | ok a => exact hk a s1 (h1 a rfl)

theorem Triple.forEach {as : List α} {b : α → PyM σ Unit} (h : ∀ a ∈ as, Triple I (b a) (fun _ => I) P) :
    Triple I (PyM.forEach as b) (fun _ => I) P := by
  induction as with
  | nil => exact Triple.ret fun s hs => hs
  | cons a as ih =>
    exact Triple.seq (h a List.mem_cons_self) fun _ => ih fun x hx => h x (List.mem_cons_of_mem _ hx)

/-- one iteration establishes `J`, all keep it -/
theorem Triple.forEach_some {as : List α} {b : α → PyM σ Unit} (h : ∀ a ∈ as, Triple I (b a) (fun _ => I) P)
    (hJ : ∀ a ∈ as, Triple J (b a) (fun _ => J) P) {a0 : α} (ha : a0 ∈ as) (h0 : Triple I (b a0) (fun _ => J) P) :
    Triple I (PyM.forEach as b) (fun _ => J) P := by
  induction as with
  | nil => cases ha
  | cons a as ih =>
    by_cases e : a = a0
    · subst e
      exact Triple.seq h0 fun _ => Triple.forEach fun x hx => hJ x (List.mem_cons_of_mem _ hx)
    · have ha' : a0 ∈ as := by
        rcases List.mem_cons.1 ha with h | h
        · exact absurd h.symm e
        · exact h
      exact Triple.seq (h a List.mem_cons_self) fun _ => ih (fun x hx => h x (List.mem_cons_of_mem _ hx))
        (fun x hx => hJ x (List.mem_cons_of_mem _ hx)) ha'

theorem Triple.weaken {Q Q' : α → σ → Prop} {P' : Err → σ → Prop} {m : PyM σ α} (h : Triple I m Q P) (hI : ∀ s, J s → I s)
    (hQ : ∀ a s, Q a s → Q' a s) (hP : ∀ e s, P e s → P' e s) : Triple J m Q' P' :=
  fun s hs => ⟨fun a ha => hQ a _ ((h s (hI s hs)).1 a ha), fun e he => hP e _ ((h s (hI s hs)).2 e he)⟩

/-- a program that can only raise -/
theorem Triple.fails {m : PyM σ α} (h : Triple I m (fun _ _ => False) P) {s : σ} (hs : I s) : ∃ e, (m s).1 = .error e ∧ P e (m s).2 := by
  obtain ⟨h1, h2⟩ := h s hs
  cases e : (m s).1 with
  | ok a => exact (h1 a e).elim
  | error er => exact ⟨er, rfl, h2 er e⟩

theorem Triple.vacuous {Q : α → σ → Prop} {m : PyM σ α} (h : Triple I m (fun _ _ => False) P) : Triple I m Q P :=
  h.weaken (fun _ h => h) (fun _ _ h => h.elim) (fun _ _ h => h)

end generic

section runs
variable {F V N κ : Type} [DecidableEq F] [DecidableEq V] [Flt N] {I : Calc F V N → Prop} {J : Run κ F V N → Prop} {P : Err → Calc F V N → Prop}
  {fill : Loc κ F V → PyM (Calc F V N) Unit}

theorem Triple.flush {Q : Run κ F V N → Prop} (hf : ∀ s, J s → Triple (fun c => c = s.1) (fill s.2) (fun _ c => Q (c, Loc.empty)) P) :
    Triple J (flush fill) (fun _ => Q) (fun e s => P e s.1) := by
  rintro ⟨c, l⟩ hs
  obtain ⟨h1, h2⟩ := hf _ hs c rfl
  simp only [Artemis.flush]
  cases e : fill l c with
  | mk r c' =>
    simp only at h1 h2
    rw [e] at h1 h2
    cases r with
    | ok u => exact ⟨fun _ _ => h1 u rfl, fun e he => by cases he⟩
    | error er => exact ⟨fun _ h => (by cases h), fun e' he => (by cases he; exact h2 er rfl)⟩

theorem Triple.flushIfFull {Q : Run κ F V N → Prop}
    (hf : ∀ s, J s → Triple (fun c => c = s.1) (fill s.2) (fun _ c => Q (c, Loc.empty)) P) (hJ : ∀ s, J s → Q s) :
    Triple J (flushIfFull fill) (fun _ => Q) (fun e s => P e s.1) := by
  intro s hs
  unfold Artemis.flushIfFull
  by_cases h : (s.2.curLen : Int) > s.1.batchsize
  · rw [if_pos h]
    exact Triple.flush hf s hs
  · rw [if_neg h]
    exact ⟨fun _ _ => hJ s hs, fun e he => by cases he⟩

theorem Triple.flushRest {Q : Run κ F V N → Prop}
    (hf : ∀ s, J s → Triple (fun c => c = s.1) (fill s.2) (fun _ c => Q (c, Loc.empty)) P) (hJ : ∀ s, J s → s.2.curLen = 0 → Q s) :
    Triple J (flushRest fill) (fun _ => Q) (fun e s => P e s.1) := by
  intro s hs
  unfold Artemis.flushRest
  by_cases h : s.2.curLen > 0
  · rw [if_pos h]
    exact Triple.flush hf s hs
  · rw [if_neg h]
    exact ⟨fun _ _ => hJ s hs (by omega), fun e he => by cases he⟩

theorem Triple.withLoc {Q : Calc F V N → Prop} {b : PyM (Run κ F V N) Unit}
    (h : Triple (fun s => I s.1 ∧ s.2 = Loc.empty) b (fun _ s => Q s.1) (fun e s => P e s.1)) : Triple I (withLoc b) (fun _ => Q) P := by
  intro c hc
  exact h (c, Loc.empty) ⟨hc, rfl⟩

end runs

end Artemis
