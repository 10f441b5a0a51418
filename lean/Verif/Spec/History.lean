import Verif.Model.Py

/-!
# Histories of `fit` calls

`fit a` is one call with arguments `a`. A history is a list of such calls, successful or not.
-/

namespace Artemis

variable {σ A : Type}

/-- the object after the calls -/
def runFits (fit : A → PyM σ Unit) : List A → σ → σ
  | [], s => s
  | a :: as, s => runFits fit as (fit a s).2

/-- the calls with the states they start in -/
def fitCalls (fit : A → PyM σ Unit) : List A → σ → List (A × σ)
  | [], _ => []
  | a :: as, s => (a, s) :: fitCalls fit as (fit a s).2

/-- the call returned -/
def Succeeds (fit : A → PyM σ Unit) (c : A × σ) : Prop := (fit c.1 c.2).1 = .ok ()

/-- `c` is the last successful call of the history -/
def LastSuccess (fit : A → PyM σ Unit) (hist : List A) (s : σ) (c : A × σ) : Prop :=
  ∃ before after, fitCalls fit hist s = before ++ c :: after ∧ Succeeds fit c ∧ ∀ d ∈ after, ¬ Succeeds fit d

theorem runFits_append (fit : A → PyM σ Unit) (l l' : List A) (s : σ) :
    runFits fit (l ++ l') s = runFits fit l' (runFits fit l s) := by
  induction l generalizing s with
  | nil => rfl
  | cons a l ih => exact ih _

theorem fitCalls_append (fit : A → PyM σ Unit) (l l' : List A) (s : σ) :
    fitCalls fit (l ++ l') s = fitCalls fit l s ++ fitCalls fit l' (runFits fit l s) := by
  induction l generalizing s with
  | nil => rfl
  | cons a l ih =>
    simp only [List.cons_append, fitCalls, runFits]
    rw [ih]

theorem fitCalls_cut (fit : A → PyM σ Unit) {hist : List A} {s : σ} {before after : List (A × σ)} {c : A × σ}
    (h : fitCalls fit hist s = before ++ c :: after) :
    ∃ l l', hist = l ++ c.1 :: l' ∧ c.2 = runFits fit l s ∧ after = fitCalls fit l' (fit c.1 c.2).2 := by
  induction hist generalizing s before with
  | nil => simp [fitCalls] at h
  | cons a l ih =>
    cases before with
    | nil =>
      simp only [fitCalls, List.nil_append, List.cons.injEq] at h
      obtain ⟨rfl, h⟩ := h
      exact ⟨[], l, rfl, rfl, h.symm⟩
    | cons b before =>
      simp only [fitCalls, List.cons_append, List.cons.injEq] at h
      obtain ⟨rfl, h⟩ := h
      obtain ⟨l1, l2, h1, h2, h3⟩ := ih h
      exact ⟨a :: l1, l2, by rw [h1]; rfl, h2, h3⟩

/-- an observation that failing calls do not change -/
theorem runFits_obs {τ : Type} (fit : A → PyM σ Unit) (obs : σ → τ) {hist : List A} {s : σ}
    (h : ∀ c ∈ fitCalls fit hist s, ¬ Succeeds fit c → obs (fit c.1 c.2).2 = obs c.2) :
    (∀ c, LastSuccess fit hist s c → obs (runFits fit hist s) = obs (fit c.1 c.2).2) ∧
    ((∀ c ∈ fitCalls fit hist s, ¬ Succeeds fit c) → obs (runFits fit hist s) = obs s) := by
  have key : ∀ (hist : List A) (s : σ), (∀ c ∈ fitCalls fit hist s, ¬ Succeeds fit c → obs (fit c.1 c.2).2 = obs c.2) →
      (∀ c ∈ fitCalls fit hist s, ¬ Succeeds fit c) → obs (runFits fit hist s) = obs s := by
    intro hist
    induction hist with
    | nil => intro s _ _; rfl
    | cons a l ih =>
      intro s h1 h2
      simp only [fitCalls, List.mem_cons, forall_eq_or_imp] at h1 h2
      simp only [runFits]
      rw [ih _ h1.2 h2.2, h1.1 h2.1]
  refine ⟨?_, key hist s h⟩
  rintro c ⟨before, after, e, hc, hafter⟩
  obtain ⟨l, l', rfl, e2, e3⟩ := fitCalls_cut fit e
  rw [runFits_append]
  simp only [runFits, ← e2]
  refine key l' _ ?_ ?_
  · intro d hd
    exact h d (by rw [e]; exact List.mem_append_right _ (List.mem_cons_of_mem _ (e3 ▸ hd)))
  · intro d hd
    exact hafter d (e3 ▸ hd)

/-- a property that each call preserves -/
theorem runFits_inv {P : σ → Prop} (fit : A → PyM σ Unit) (h : ∀ a s, P s → P (fit a s).2) (hist : List A) (s : σ)
    (h0 : P s) : P (runFits fit hist s) := by
  induction hist generalizing s with
  | nil => exact h0
  | cons a l ih => exact ih _ (h a s h0)

/-- a property that a successful call establishes and all calls preserve -/
theorem runFits_once {P : σ → Prop} (fit : A → PyM σ Unit) (hk : ∀ a s, P s → P (fit a s).2)
    {ok : A → Prop} (he : ∀ a s, Succeeds fit (a, s) → ok a → P (fit a s).2) {hist : List A} {s : σ} {c : A × σ}
    (hc : c ∈ fitCalls fit hist s) (hs : Succeeds fit c) (hok : ok c.1) : P (runFits fit hist s) := by
  induction hist generalizing s with
  | nil => simp [fitCalls] at hc
  | cons a l ih =>
    simp only [fitCalls, List.mem_cons] at hc
    simp only [runFits]
    rcases hc with rfl | hc
    · exact runFits_inv fit hk l _ (he _ _ hs hok)
    · exact ih hc

end Artemis
