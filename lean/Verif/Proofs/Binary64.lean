import Verif.Spec.Rounding
import Mathlib.Tactic.Linarith
import Mathlib.Tactic.Ring
import Mathlib.Tactic.FieldSimp
import Mathlib.Tactic.Positivity

/-!
# Binary64 is an accurate arithmetic
-/

set_option linter.unusedSectionVars false
set_option linter.unusedVariables false
set_option linter.unusedSimpArgs false

namespace Artemis
variable {K : Type} [Field K] [LinearOrder K] [IsStrictOrderedRing K]

theorem sumsTo_fold {A : Arith K} (l : List (Num K)) : ∀ {l1 : List (Num K)} {s : Num K}, SumsTo A l1 s → l1 ≠ [] →
    SumsTo A (l1 ++ l) (l.foldl (fun s x => match Num.add s x with | .fin z => A.rnd z | b => b) s) := by
  induction l with
  | nil => intro l1 s h _; simpa using h
  | cons a l ih =>
    intro l1 s h hne
    have := ih (SumsTo.add (List.Perm.refl _) h (SumsTo.one a) hne (by simp)) (by simp)
    rw [List.append_assoc] at this
    have e : A.add s a = (match Num.add s a with | .fin z => A.rnd z | b => b) := by
      unfold Arith.add Arith.r
      cases Num.add s a <;> rfl
    rw [e] at this
    exact this

variable [FloorRing K]

theorem sumsTo_sumLeft (l : List (Num K)) : SumsTo (binary64 : Arith K) l ((binary64 : Arith K).sum l) := by
  cases l with
  | nil => exact SumsTo.nil
  | cons a l => exact sumsTo_fold (A := binary64) l (SumsTo.one a) (by simp)

theorem roundEven_near (q : K) : |(roundEven q : K) - q| ≤ 1 / 2 := by
  have h1 := Int.floor_le q
  have h2 := Int.lt_floor_add_one q
  unfold roundEven
  split_ifs with a b c <;> push_cast <;> rw [abs_le] <;> constructor <;> linarith

theorem roundEven_nonneg {q : K} (h : 0 ≤ q) : 0 ≤ roundEven q := by
  have := Int.floor_nonneg.2 h
  unfold roundEven
  split_ifs <;> omega

theorem pow_lastPlace (x : K) : (2 : K) ^ lastPlace x / 2 ≤ max (1 / 2 ^ 53 * |x|) (1 / 2 ^ 1075) ∨ x = 0 := by
  by_cases hx : x = 0
  · exact Or.inr hx
  left
  have hp : 0 < |x| := abs_pos.2 hx
  have h1 := Int.zpow_log_le_self (b := 2) (r := |x|) (by norm_num) hp
  push_cast at h1
  unfold lastPlace
  rcases max_cases (Int.log 2 |x| - 52) (-1074) with ⟨e, _⟩ | ⟨e, _⟩
  · rw [e]
    refine le_max_of_le_left ?_
    rw [zpow_sub₀ (by norm_num)]
    have : (2 : K) ^ Int.log 2 |x| / 2 ^ (52 : ℤ) / 2 = 1 / 2 ^ 53 * 2 ^ Int.log 2 |x| := by
      have : (2 : K) ^ (52 : ℤ) = 2 ^ 52 := by norm_cast
      rw [this]
      field_simp
    rw [this]
    exact mul_le_mul_of_nonneg_left h1 (by positivity)
  · rw [e]
    refine le_max_of_le_right (le_of_eq ?_)
    have : (2 : K) ^ (-1074 : ℤ) = 1 / 2 ^ 1074 := by rw [zpow_neg]; norm_cast; rw [one_div]
    rw [this, div_div, ← pow_succ]

/-- exact value that `round64` then checks for overflow -/
theorem round64_near (x : K) : |(roundEven (x / (2 : K) ^ lastPlace x) : K) * (2 : K) ^ lastPlace x - x| ≤ 1 / 2 ^ 53 * |x| + 1 / 2 ^ 1075 := by
  have hp : (0 : K) < (2 : K) ^ lastPlace x := zpow_pos two_pos _
  have n1 : (0 : K) ≤ 1 / 2 ^ 53 * |x| := by positivity
  have n2 : (0 : K) ≤ 1 / 2 ^ 1075 := one_div_nonneg.2 (pow_nonneg two_pos.le _)
  rcases pow_lastPlace x with h | rfl
  · have e : (roundEven (x / (2 : K) ^ lastPlace x) : K) * (2 : K) ^ lastPlace x - x =
        ((roundEven (x / (2 : K) ^ lastPlace x) : K) - x / (2 : K) ^ lastPlace x) * (2 : K) ^ lastPlace x := by
      rw [sub_mul, div_mul_cancel₀ _ hp.ne']
    rw [e, abs_mul, abs_of_pos hp]
    have := mul_le_mul_of_nonneg_right (roundEven_near (x / (2 : K) ^ lastPlace x)) hp.le
    have h3 : max (1 / 2 ^ 53 * |x|) (1 / 2 ^ 1075) ≤ 1 / 2 ^ 53 * |x| + 1 / 2 ^ 1075 := max_le (le_add_of_nonneg_right n2) (le_add_of_nonneg_left n1)
    linarith
  · have : roundEven (0 : K) = 0 := by simp [roundEven]
    simp [this]

theorem binary64_lawful : (binary64 : Arith K).Lawful where
  sums := sumsTo_sumLeft
  rnd_nonneg x hx := by
    have hp : (0 : K) < (2 : K) ^ lastPlace x := zpow_pos two_pos _
    have hy : (0 : K) ≤ (roundEven (x / (2 : K) ^ lastPlace x) : K) * (2 : K) ^ lastPlace x :=
      mul_nonneg (by exact_mod_cast roundEven_nonneg (div_nonneg hx hp.le)) hp.le
    have hb : (0 : K) < 2 ^ 1024 := pow_pos two_pos _
    show round64 x = .pinf ∨ ∃ y, round64 x = .fin y ∧ 0 ≤ y
    unfold round64
    simp only
    by_cases h1 : 2 ^ 1024 ≤ (roundEven (x / (2 : K) ^ lastPlace x) : K) * (2 : K) ^ lastPlace x
    · left; rw [if_pos h1]
    · right
      rw [if_neg h1, if_neg (fun h2 => absurd (hy.trans h2) (not_le.2 (neg_neg_of_pos hb)))]
      exact ⟨_, rfl, hy⟩

theorem binary64_accurate : (binary64 : Arith K).Accurate (1 / 2 ^ 53) (1 / 2 ^ 1075) (2 ^ 1023) where
  u_nonneg := by positivity
  η_nonneg := one_div_nonneg.2 (pow_nonneg two_pos.le _)
  rnd_near x hx := by
    have h := round64_near x
    have a := abs_le.1 h
    have b := abs_le.1 hx
    have u1 : (1 / 2 ^ 53 : K) ≤ 1 / 4 := one_div_le_one_div_of_le (by norm_num) (by norm_num)
    have g1 : 1 / 2 ^ 53 * |x| ≤ 1 / 4 * 2 ^ 1023 :=
      mul_le_mul u1 hx (abs_nonneg _) (by norm_num)
    have one : (1 : K) ≤ 2 ^ 1023 := one_le_pow₀ one_le_two
    have g2 : (1 / 2 ^ 1075 : K) ≤ 1 / 4 := one_div_le_one_div_of_le four_pos (by
      calc (4 : K) = 2 ^ 2 := by norm_num
        _ ≤ 2 ^ 1075 := pow_le_pow_right₀ one_le_two (by norm_num))
    have e : (2 : K) ^ 1024 = 2 * 2 ^ 1023 := pow_succ' 2 1023
    show ∃ y, round64 x = .fin y ∧ _
    unfold round64
    simp only
    rw [e]
    generalize (roundEven (x / (2 : K) ^ lastPlace x) : K) * (2 : K) ^ lastPlace x = y at *
    generalize 1 / (2 : K) ^ 53 * |x| = s at *
    generalize 1 / (2 : K) ^ 1075 = t at *
    clear e u1
    generalize (2 : K) ^ 1023 = P at *
    rw [if_neg (by intro hh; linarith), if_neg (by intro hh; linarith)]
    exact ⟨_, rfl, h⟩

end Artemis
