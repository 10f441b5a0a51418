import Verif.Props.Invariance
import Mathlib.Logic.Equiv.Basic

/-!
# Property C171: interchangeable features get equal values

One fit. If exchanging two features changes neither the model nor the data (rows in another order), the explanation cannot tell
them apart. More generally every symmetry of the task (renaming, recoding, reflecting the predictions) is a symmetry of the tables.
-/

set_option linter.unusedSectionVars false
set_option linter.unusedVariables false
set_option linter.unusedSimpArgs false

namespace Artemis
open Spec

namespace Spec
variable {F V K : Type}

/-- the row in which the values of `f` and `g` have changed places -/
def exchanged [DecidableEq F] (f g : F) (r : Row F V) : Row F V :=
  fun k => if k = f then r g else if k = g then r f else r k

/-- exchanging `f` and `g` changes no prediction and only the order of the rows -/
structure Interchangeable [DecidableEq F] (f g : F) (u : Row F V → K) (rows : List (Row F V)) : Prop where
  model : ∀ r, u (exchanged f g r) = u r
  data : (rows.map (exchanged f g)).Perm rows

end Spec

section symmetry
variable {F V G L K : Type} [DecidableEq F] [LinearOrder V] [DecidableEq L] [Field K] [LinearOrder K] [IsStrictOrderedRing K]
  [HasSqrt K] [LawfulSqrt K]
variable {E : PdEnv G F K} {a : PdArgs L F V K} {s0 s : PdpMethod G L F V K} {Xs : LFrame L F V} {u : Row F V → K}

theorem rescaled_unit (kind : PdKind) {c : K} (hc : |c| = 1) (x : Num K) : rescaled kind c x = x := by
  have h1 : rescaled kind c x = rescaled kind 1 x := by
    match kind with
    | .friedman true => rfl
    | .friedman false => simp only [rescaled, hc, abs_one]
    | .greenwell => simp only [rescaled, hc, abs_one]
  rw [h1, rescaled_one]

/-- **C171** for any symmetry: rename the features by a permutation, recode the values within each feature, reflect or shift the
predictions. If this yields the same model on the same rows in any order, then a feature and its image, a pair and its image
have equal values in all tables of the fit. -/
theorem C171_symmetries_of_the_task {kind : PdKind} (h : Fits kind u E a s0 Xs s) {ρ : Recoding F V F V} {c d : K} (hc : |c| = 1)
    (hu : ∀ r, u (ρ.row r) = c * u r + d) (hrows : (Xs.frame.rows.map ρ.row).Perm Xs.frame.rows)
    (hnum : ∀ f, E.numeric (ρ.name f) = E.numeric f) :
    (∀ f ∈ a.feats, ∀ g ∈ a.feats, f ≠ g → ρ.name f ∈ a.feats → ρ.name g ∈ a.feats →
      ∃ x, Shows s.ovo f g x ∧ Shows s.ovo (ρ.name f) (ρ.name g) x) ∧
    (∀ f ∈ a.feats, ρ.name f ∈ a.feats → ∃ x, ShowsOne s.importance f x ∧ ShowsOne s.importance (ρ.name f) x) ∧
    ∀ n, kind = .friedman n → a.calculateOva = true → ∀ f ∈ a.feats, ρ.name f ∈ a.feats →
      ∃ x, ShowsOne s.ova f x ∧ ShowsOne s.ova (ρ.name f) x := by
  have ht : SameTask ρ c d u Xs.frame.rows u Xs.frame.rows := ⟨hu, proportional_of_perm hrows⟩
  have hc0 : c ≠ 0 := fun e => by rw [e, abs_zero] at hc; exact zero_ne_one hc
  refine ⟨?_, ?_, ?_⟩
  · intro f hf g hg hne hf' hg'
    obtain ⟨x, h1, h2⟩ := recode_ovo h h hc0 ht hnum hf hg hne hf' hg'
    exact ⟨x, h1, by rw [rescaled_unit kind hc] at h2; exact h2⟩
  · intro f hf hf'
    obtain ⟨x, h1, h2⟩ := recode_imp h h ht hnum hf hf'
    refine ⟨x, h1, ?_⟩
    rw [hc, ← abs_one, Num.one_mul_abs] at h2
    exact h2
  · rintro n rfl ho f hf hf'
    obtain ⟨x, h1, h2⟩ := recode_all h h hc0 ht ho ho hf hf'
    exact ⟨x, h1, by rw [rescaled_unit _ hc] at h2; exact h2⟩

/-- the exchange of two features as a renaming -/
def exchangeCoding (F V : Type) [DecidableEq F] (f g : F) : Recoding F V F V :=
  ⟨Equiv.swap f g, fun _ => id, fun _ => Function.injective_id⟩

theorem exchangeCoding_row (f g : F) : (exchangeCoding F V f g).row = exchanged f g := by
  funext r k
  simp only [Recoding.row, exchangeCoding, exchanged, Equiv.symm_swap, id, Equiv.swap_apply_def]
  split
  · rfl
  · split <;> rfl

/-- **C171.** If two features are interchangeable, they have the same importance, the same overall interaction strength, and with
every third feature the same interaction. -/
theorem C171_interchangeable_features {kind : PdKind} (h : Fits kind u E a s0 Xs s) {f g : F}
    (hx : Interchangeable f g u Xs.frame.rows) (hnum : E.numeric g = E.numeric f) (hf : f ∈ a.feats) (hg : g ∈ a.feats) :
    (∀ k ∈ a.feats, k ≠ f → k ≠ g → ∃ x, Shows s.ovo f k x ∧ Shows s.ovo g k x) ∧
    (∃ x, ShowsOne s.importance f x ∧ ShowsOne s.importance g x) ∧
    ∀ n, kind = .friedman n → a.calculateOva = true → ∃ x, ShowsOne s.ova f x ∧ ShowsOne s.ova g x := by
  have e1 : (exchangeCoding F V f g).name f = g := Equiv.swap_apply_left f g
  have hnum' : ∀ k, E.numeric ((exchangeCoding F V f g).name k) = E.numeric k := by
    intro k
    simp only [exchangeCoding, Equiv.swap_apply_def]
    split
    · next e => rw [e, hnum]
    · split
      · next e => rw [e, hnum]
      · rfl
  obtain ⟨t1, t2, t3⟩ := C171_symmetries_of_the_task h (ρ := exchangeCoding F V f g) (c := 1) (d := 0) abs_one
    (fun r => by rw [exchangeCoding_row, hx.model]; ring) (by rw [exchangeCoding_row]; exact hx.data) hnum'
  refine ⟨?_, ?_, ?_⟩
  · intro k hk hkf hkg
    have e2 : (exchangeCoding F V f g).name k = k := Equiv.swap_apply_of_ne_of_ne hkf hkg
    have := t1 f hf k hk (fun e => hkf e.symm) (by rw [e1]; exact hg) (by rw [e2]; exact hk)
    rwa [e1, e2] at this
  · have := t2 f hf (by rw [e1]; exact hg)
    rwa [e1] at this
  · intro n hn ho
    have := t3 n hn ho f hf (by rw [e1]; exact hg)
    rwa [e1] at this

end symmetry

/-! ## Cases -/

section Cases
open Ex

/-- four rows that exchanging features 0 and 1 only reorders -/
def exSymX : LFrame Nat (Fin 3) ℤ := ⟨[10, 11, 12, 13], ⟨[0, 1, 2], [![0, 0, 1], ![0, 1, 5], ![1, 0, 5], ![1, 1, 2]]⟩⟩

theorem exSym_varies : ∀ f : Fin 3, ∃ r ∈ exSymX.frame.rows, ∃ r' ∈ exSymX.frame.rows, r f ≠ r' f := by
  by_contra h
  simp only [not_forall, not_exists, not_and, not_not] at h
  obtain ⟨f, hf⟩ := h
  have : ∀ f : Fin 3, (∀ r ∈ exSymX.frame.rows, ∀ r' ∈ exSymX.frame.rows, r f = r' f) → False := by decide
  exact this f hf

/-- features 0 and 1 are interchangeable for `x0 * x1 + x2` on these rows -/
theorem exSym_interchangeable : Interchangeable 0 1 (exU (K := ℝ)) exSymX.frame.rows where
  model := fun r => by
    have h : exchanged (0 : Fin 3) 1 r 0 = r 1 ∧ exchanged (0 : Fin 3) 1 r 1 = r 0 ∧ exchanged (0 : Fin 3) 1 r 2 = r 2 :=
      ⟨rfl, rfl, rfl⟩
    simp only [exU, h.1, h.2.1, h.2.2, mul_comm (r 1) (r 0)]
  data := by decide

/-- C171 on the example, for all methods -/
example (kind : PdKind) : ∃ s, Fits kind exU (invEnv (fun f => decide (f ≠ 2))) (invArgs exU exSymX none) (PdpMethod.new 0) exSymX s ∧
    (∃ x, Shows s.ovo 0 2 x ∧ Shows s.ovo 1 2 x) ∧ ∃ x, ShowsOne s.importance 0 x ∧ ShowsOne s.importance 1 x := by
  obtain ⟨s, h⟩ := invFits kind (fun f => decide (f ≠ 2)) exU exSymX none (exReads (by decide)) (by decide)
    (by show [(0 : Fin 3), 1, 2].Nodup; decide) (fun f hf => hf) (by simp [exSymX]) (fun f _ => exSym_varies f)
  obtain ⟨h1, h2, _⟩ := C171_interchangeable_features h exSym_interchangeable rfl (by decide) (by decide)
  exact ⟨s, h, h1 2 (by decide) (by decide) (by decide), h2⟩

/-- the same fit, computed over ℚ: the values differ from those of feature 2 -/
example : ((PdpMethod.fit (G := Nat) (K := ℚ) (.friedman true) exEnv { exArgs with X := exSymX } (PdpMethod.new 0)).2.ova.getD []).map
    (fun r => (r.f, decide (r.val = .fin 0))) = [(0, false), (1, false), (2, true)] := by decide +kernel

/-- the data must be symmetric too: on other rows the same symmetric model gives features 0 and 1 different importance -/
example : (((PdpMethod.fit (G := Nat) (K := ℚ) (.friedman true) { exEnv with numeric := fun _ => false }
      { exArgs with X := ⟨[10, 11, 12], ⟨[0, 1, 2], [![0, 0, 1], ![0, 1, 5], ![3, 1, 5]]⟩⟩ } (PdpMethod.new 0)).2.importance.getD []).map
      (fun r => (r.f, r.val))).Nodup ∧
    (((PdpMethod.fit (G := Nat) (K := ℚ) (.friedman true) { exEnv with numeric := fun _ => false }
      { exArgs with X := ⟨[10, 11, 12], ⟨[0, 1, 2], [![0, 0, 1], ![0, 1, 5], ![3, 1, 5]]⟩⟩ } (PdpMethod.new 0)).2.importance.getD []).map
      (·.val)).Nodup := by decide +kernel

/-- `(x0 - x1) * x2`: exchanging features 0 and 1 reflects the predictions -/
noncomputable def exSkew (r : Row (Fin 3) ℤ) : ℝ := ((r 0 : ℝ) - r 1) * r 2

/-- C171 for a reflection: features 0 and 1 have opposite effects of the same strength -/
example (kind : PdKind) : ∃ s, Fits kind exSkew (invEnv (fun f => decide (f ≠ 2))) (invArgs exSkew exSymX none) (PdpMethod.new 0) exSymX s ∧
    (∃ x, Shows s.ovo 0 2 x ∧ Shows s.ovo 1 2 x) ∧ ∃ x, ShowsOne s.importance 0 x ∧ ShowsOne s.importance 1 x := by
  obtain ⟨s, h⟩ := invFits kind (fun f => decide (f ≠ 2)) exSkew exSymX none
    (by intro r r' e; simp only [finM, exSkew, e 0 (by decide), e 1 (by decide), e 2 (by decide)]) (by decide)
    (by show [(0 : Fin 3), 1, 2].Nodup; decide) (fun f hf => hf) (by simp [exSymX]) (fun f _ => exSym_varies f)
  obtain ⟨h1, h2, _⟩ := C171_symmetries_of_the_task h (ρ := exchangeCoding (Fin 3) ℤ 0 1) (c := -1) (d := 0) (by simp)
    (fun r => by
      rw [exchangeCoding_row]
      have h : exchanged (0 : Fin 3) 1 r 0 = r 1 ∧ exchanged (0 : Fin 3) 1 r 1 = r 0 ∧ exchanged (0 : Fin 3) 1 r 2 = r 2 :=
        ⟨rfl, rfl, rfl⟩
      simp only [exSkew, h.1, h.2.1, h.2.2]
      ring)
    (by rw [exchangeCoding_row]; exact exSym_interchangeable.data)
    (by intro f; revert f; decide)
  exact ⟨s, h, h1 0 (by decide) 2 (by decide) (by decide) (by decide) (by decide), h2 0 (by decide) (by decide)⟩

end Cases
end Artemis
