import Verif.Examples.PDData
import Verif.Proofs.FitSpec
import Mathlib.Analysis.Real.Sqrt
import Mathlib.Data.Rat.Sqrt

/-!
# Concrete environments for the examples about `fit`

Computed examples use `ℚ` with the (inexact) rational square root; examples meeting the hypotheses of theorems about
the exact square root use `ℝ`.
-/

namespace Artemis

noncomputable instance : HasSqrt ℝ := ⟨Real.sqrt⟩
noncomputable instance : LawfulSqrt ℝ := ⟨Real.sqrt_nonneg, fun _ h => Real.mul_self_sqrt h⟩

/-- exact on squares of rationals, rounded down otherwise; only used to compute examples -/
instance : HasSqrt ℚ := ⟨Rat.sqrt⟩

namespace Ex

theorem ret_of_fst {σ α : Type} {p : Except Err α × σ} {x : α} (h : p.1 = .ok x) : ∃ s, p = (.ok x, s) :=
  ⟨p.2, by rw [← h]⟩

/-- a deterministic generator: samples are the first rows, permutations are reversals; the state counts draws -/
def exRng : Rng Nat where
  sample g _ n := (List.range n, g + 1)
  perm g len := ((List.range len).reverse, g + 1)

theorem exRng_lawful : exRng.Lawful where
  sample_length := by simp [exRng]
  sample_nodup := by intro g len n _; exact List.nodup_range
  sample_lt := by
    intro g len n h i hi
    exact lt_of_lt_of_le (List.mem_range.1 hi) h
  perm_perm := by intro g len; exact List.reverse_perm _

section
variable {K : Type} [Field K] [LinearOrder K] [IsStrictOrderedRing K]

/-- stable sorting, all features numeric except feature 2 -/
def exEnv : PdEnv Nat (Fin 3) K where
  R := exRng
  sortOvo := stableSort OvoRow.val false
  sortFeat := stableSort FeatRow.val false
  numeric := fun f => decide (f ≠ 2)

/-- x0 * x1 + x2 in any field -/
def exU (r : Row (Fin 3) ℤ) : K := ((r 0 * r 1 + r 2 : ℤ) : K)

/-- a regressor with that prediction -/
def exModel : ModelObj (Fin 3) ℤ (Num K) where
  ident := 1
  predict := some (fun _ rows => .ok (rows.map (fun r => .fin (exU r))))
  predictProba := none

/-- the example data with row labels 10, 11, 12, 13 -/
def exLX : LFrame Nat (Fin 3) ℤ := ⟨[10, 11, 12, 13], exX⟩

/-- fit on all columns without sampling -/
def exArgs : PdArgs Nat (Fin 3) ℤ K where
  model := exModel
  X := exLX
  n := none
  predictFunction := none
  features := none
  batchsize := 7
  pdCalculator := none
  calculateOva := true

theorem exPf : (exArgs (K := K)).pf = fun _ rows => .ok (rows.map (fun r => .fin (exU r))) := rfl

theorem exChoose : PdpMethod.chooseCalc exArgs exLX (exArgs (K := K)).pf =
    .ok ⟨1, [10, 11, 12, 13], Calc.new (exArgs (K := K)).pf exX 7⟩ := by
  simp only [PdpMethod.chooseCalc, exArgs, exModel, exLX]

theorem exRows : exLX.frame.rows ≠ [] := by simp [exLX, exX]

variable [HasSqrt K]

theorem exSetup (rng : Nat) : FitSetup (fun r => .fin (exU (K := K) r)) exEnv exArgs (PdpMethod.new rng) exLX where
  sampled := rfl
  rowWise := by
    rw [exPf]; intro n rows ys h; cases h; rfl
  reads := by
    intro r r' h
    simp only [exU, h 0 (by decide), h 1 (by decide), h 2 (by decide)]
  cols_nodup := by decide
  history := by intro co h; cases h

theorem exValid : ValidFeatures exLX.frame (exArgs (K := K)).feats :=
  validFeatures_of_nodup (fun _ h => h) (by show [(0 : Fin 3), 1, 2].Nodup; decide)

theorem exNever : NeverFails (exArgs (K := K)).pf := by
  rw [exPf]; intro n rows; exact ⟨_, rfl⟩

end
end Ex
end Artemis
