import Verif.Model.Num
import Mathlib.Data.EReal.Inv

/-!
# The arithmetic of `Num` is that of the extended reals

`Num` (`Model/Num`) is trusted to describe floats up to rounding. Here it is compared with an independent definition: over ℝ, its operations
are those of Mathlib's extended real numbers wherever IEEE 754 defines a result, and NaN exactly where IEEE 754 has NaN.
-/

set_option linter.unusedSectionVars false
set_option linter.unusedVariables false
set_option linter.unusedSimpArgs false

namespace Artemis
noncomputable section

/-- the extended real number of a float; none for NaN -/
def Num.toE : Num ℝ → Option EReal
  | .fin x => some (x : EReal)
  | .pinf => some ⊤
  | .ninf => some ⊥
  | .nan => none

theorem toE_injective {a b : Num ℝ} (h : a.toE = b.toE) : a = b := by
  cases a <;> cases b <;> simp_all [Num.toE]

theorem toE_surjective (x : EReal) : ∃ a : Num ℝ, a.toE = some x := by
  induction x with
  | bot => exact ⟨.ninf, rfl⟩
  | top => exact ⟨.pinf, rfl⟩
  | coe x => exact ⟨.fin x, rfl⟩

theorem toE_none {a : Num ℝ} : a.toE = none ↔ a = .nan := by cases a <;> simp [Num.toE]

/-- NaN is absorbing in all operations and incomparable. -/
theorem num_nan (a : Num ℝ) : Num.add .nan a = .nan ∧ Num.add a .nan = .nan ∧ Num.mul .nan a = .nan ∧ Num.mul a .nan = .nan ∧
    Num.sub .nan a = .nan ∧ Num.sub a .nan = .nan ∧ Num.div .nan a = .nan ∧ Num.div a .nan = .nan ∧ Num.neg (.nan : Num ℝ) = .nan ∧
    Num.abs (.nan : Num ℝ) = .nan ∧ Num.le .nan a = false ∧ Num.le a .nan = false ∧ Num.lt .nan a = false ∧ Num.lt a .nan = false := by
  cases a <;> simp [Num.add, Num.mul, Num.sub, Num.neg, Num.div, Num.abs, Num.le, Num.lt]

/-- addition: NaN for `inf - inf`, else the extended sum -/
theorem num_add {a b : Num ℝ} {x y : EReal} (ha : a.toE = some x) (hb : b.toE = some y) :
    (Num.add a b).toE = if (x = ⊤ ∧ y = ⊥) ∨ (x = ⊥ ∧ y = ⊤) then none else some (x + y) := by
  cases a <;> cases b <;> simp [Num.toE] at ha hb <;> subst ha hb <;> simp [Num.add, Num.toE]

theorem num_neg {a : Num ℝ} {x : EReal} (ha : a.toE = some x) : (Num.neg a).toE = some (-x) := by
  cases a <;> simp [Num.toE] at ha <;> subst ha <;> simp [Num.neg, Num.toE]

theorem num_sub {a b : Num ℝ} {x y : EReal} (ha : a.toE = some x) (hb : b.toE = some y) :
    (Num.sub a b).toE = if (x = ⊤ ∧ y = ⊤) ∨ (x = ⊥ ∧ y = ⊥) then none else some (x - y) := by
  cases a <;> cases b <;> simp [Num.toE] at ha hb <;> subst ha hb <;> simp [Num.sub, Num.neg, Num.add, Num.toE, sub_eq_add_neg]

/-- multiplication: NaN for `0 * inf`, else the extended product -/
theorem num_mul {a b : Num ℝ} {x y : EReal} (ha : a.toE = some x) (hb : b.toE = some y) :
    (Num.mul a b).toE = if (x = 0 ∧ (y = ⊤ ∨ y = ⊥)) ∨ (y = 0 ∧ (x = ⊤ ∨ x = ⊥)) then none else some (x * y) := by
  cases a <;> cases b <;> simp [Num.toE] at ha hb <;> subst ha hb
  case fin.fin x y => simp [Num.mul, Num.toE]
  case fin.pinf x =>
    rcases lt_trichotomy x 0 with h | h | h
    · simp [Num.mul, Num.infSign, Num.toE, h, not_lt.2 h.le, h.ne, EReal.coe_mul_top_of_neg h]
    · simp [Num.mul, Num.infSign, Num.toE, h]
    · simp [Num.mul, Num.infSign, Num.toE, h, h.ne', EReal.coe_mul_top_of_pos h]
  case fin.ninf x =>
    rcases lt_trichotomy x 0 with h | h | h
    · simp [Num.mul, Num.infSign, Num.toE, h, not_lt.2 h.le, h.ne, EReal.coe_mul_bot_of_neg h]
    · simp [Num.mul, Num.infSign, Num.toE, h]
    · simp [Num.mul, Num.infSign, Num.toE, h, h.ne', not_lt.2 h.le, EReal.coe_mul_bot_of_pos h]
  case pinf.fin x =>
    rcases lt_trichotomy x 0 with h | h | h
    · simp [Num.mul, Num.infSign, Num.toE, h, not_lt.2 h.le, h.ne, EReal.top_mul_coe_of_neg h]
    · simp [Num.mul, Num.infSign, Num.toE, h]
    · simp [Num.mul, Num.infSign, Num.toE, h, h.ne', EReal.top_mul_coe_of_pos h]
  case ninf.fin x =>
    rcases lt_trichotomy x 0 with h | h | h
    · simp [Num.mul, Num.infSign, Num.toE, h, not_lt.2 h.le, h.ne, EReal.bot_mul_coe_of_neg h]
    · simp [Num.mul, Num.infSign, Num.toE, h]
    · simp [Num.mul, Num.infSign, Num.toE, h, h.ne', not_lt.2 h.le, EReal.bot_mul_coe_of_pos h]
  all_goals simp [Num.mul, Num.toE]

/-- division: NaN for `0 / 0` and `inf / inf`; an infinity with the sign of the dividend for a division by zero (zeros have no sign here);
else the extended quotient -/
theorem num_div {a b : Num ℝ} {x y : EReal} (ha : a.toE = some x) (hb : b.toE = some y) :
    (Num.div a b).toE = if (x = 0 ∧ y = 0) ∨ ((x = ⊤ ∨ x = ⊥) ∧ (y = ⊤ ∨ y = ⊥)) then none
      else if y = 0 then some (if 0 < x then ⊤ else ⊥) else some (x / y) := by
  cases a <;> cases b <;> simp [Num.toE] at ha hb <;> subst ha hb
  case fin.fin x y =>
    by_cases hy : y = 0
    · subst hy
      rcases lt_trichotomy x 0 with h | h | h
      · simp [Num.div, Num.infSign, Num.toE, h, not_lt.2 h.le, h.ne]
      · simp [Num.div, Num.infSign, Num.toE, h]
      · simp [Num.div, Num.infSign, Num.toE, h, h.ne']
    · simp [Num.div, Num.toE, hy, EReal.coe_div]
  case pinf.fin y =>
    rcases lt_trichotomy y 0 with h | h | h
    · simp [Num.div, Num.toE, h, h.ne, EReal.top_div_of_neg_ne_bot]
    · simp [Num.div, Num.toE, h]
    · simp [Num.div, Num.toE, not_lt.2 h.le, h, h.ne', EReal.top_div_of_pos_ne_top]
  case ninf.fin y =>
    rcases lt_trichotomy y 0 with h | h | h
    · simp [Num.div, Num.toE, h, h.ne, EReal.bot_div_of_neg_ne_bot]
    · simp [Num.div, Num.toE, h]
    · simp [Num.div, Num.toE, not_lt.2 h.le, h, h.ne', EReal.bot_div_of_pos_ne_top]
  all_goals simp [Num.div, Num.toE]

theorem num_abs {a : Num ℝ} {x : EReal} (ha : a.toE = some x) : (Num.abs a).toE = some (max x (-x)) := by
  cases a <;> simp [Num.toE] at ha <;> subst ha
  case fin x =>
    rw [Num.abs, Num.toE, ← EReal.coe_neg]
    exact congrArg some (EReal.coe_strictMono.monotone.map_max)
  all_goals simp [Num.abs, Num.toE]

theorem num_le {a b : Num ℝ} {x y : EReal} (ha : a.toE = some x) (hb : b.toE = some y) : Num.le a b = true ↔ x ≤ y := by
  cases a <;> cases b <;> simp [Num.toE] at ha hb <;> subst ha hb <;> simp [Num.le]

theorem num_lt {a b : Num ℝ} {x y : EReal} (ha : a.toE = some x) (hb : b.toE = some y) : Num.lt a b = true ↔ x < y := by
  unfold Num.lt
  rw [Bool.and_eq_true, num_le ha hb, Bool.not_eq_true', ← Bool.not_eq_true, num_le hb ha, not_le]
  exact ⟨fun h => h.2, fun h => ⟨h.le, h⟩⟩

/-- the order of sorted tables: NaN last, else by value -/
theorem num_keyLE (asc : Bool) (a b : Num ℝ) : Num.keyLE asc a b = true ↔ b.toE = none ∨ ∃ x y, a.toE = some x ∧ b.toE = some y ∧
    if asc then x ≤ y else y ≤ x := by
  cases hb : b.toE with
  | none => rw [toE_none.1 hb]; simp [Num.keyLE, Num.isNaN]
  | some y =>
    have hbn : b.isNaN = false := by cases b <;> simp_all [Num.toE, Num.isNaN]
    cases ha : a.toE with
    | none =>
      have han : a.isNaN = true := by rw [toE_none.1 ha]; rfl
      simp [Num.keyLE, hbn, han]
    | some x =>
      have han : a.isNaN = false := by cases a <;> simp_all [Num.toE, Num.isNaN]
      cases asc
      · simp [Num.keyLE, hbn, han, num_le hb ha]
      · simp [Num.keyLE, hbn, han, num_le ha hb]

end
end Artemis
