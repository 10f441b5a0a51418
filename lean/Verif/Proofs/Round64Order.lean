import Verif.Props.RoundedPerf
import Verif.Spec.RoundedVis

/-!
# Rounding to binary64 keeps the order
-/

set_option linter.unusedSectionVars false
set_option linter.unusedVariables false
set_option linter.unusedSimpArgs false

namespace Artemis
variable {K : Type} [Field K] [LinearOrder K] [IsStrictOrderedRing K] [FloorRing K]

theorem roundEven_int (z : ℤ) : roundEven (z : K) = z := by
  unfold roundEven
  simp

theorem roundEven_bounds (q : K) : ⌊q⌋ ≤ roundEven q ∧ roundEven q ≤ ⌊q⌋ + 1 := by
  unfold roundEven
  split_ifs <;> omega

theorem roundEven_mono {q q' : K} (h : q ≤ q') : roundEven q ≤ roundEven q' := by
  rcases (Int.floor_le_floor h).lt_or_eq with hl | he
  · have := (roundEven_bounds q).2
    have := (roundEven_bounds q').1
    omega
  · unfold roundEven
    rw [he]
    split_ifs <;> first | omega | (exfalso; linarith)

theorem le_roundEven {z : ℤ} {q : K} (h : (z : K) ≤ q) : z ≤ roundEven q := by
  have := roundEven_mono h
  rwa [roundEven_int] at this

theorem roundEven_le' {z : ℤ} {q : K} (h : q ≤ z) : roundEven q ≤ z := by
  have := roundEven_mono h
  rwa [roundEven_int] at this

/-- rounded value before the check for overflow -/
def grid64 (x : K) : K := (roundEven (x / (2 : K) ^ lastPlace x) : K) * (2 : K) ^ lastPlace x

theorem grid64_sign {x : K} : (0 ≤ x → 0 ≤ grid64 x) ∧ (x ≤ 0 → grid64 x ≤ 0) := by
  have hp : (0 : K) < (2 : K) ^ lastPlace x := zpow_pos two_pos _
  refine ⟨fun h => mul_nonneg ?_ hp.le, fun h => mul_nonpos_of_nonpos_of_nonneg ?_ hp.le⟩
  · exact_mod_cast roundEven_nonneg (div_nonneg h hp.le)
  · have : roundEven (x / (2 : K) ^ lastPlace x) ≤ 0 := roundEven_le' (by rw [Int.cast_zero]; exact div_nonpos_of_nonpos_of_nonneg h hp.le)
    exact_mod_cast this

theorem abs_lt_lastPlace (x : K) : |x| < (2 : K) ^ (lastPlace x + (53 : ℕ)) := by
  have h := Int.lt_zpow_succ_log_self (b := 2) (by norm_num) |x|
  push_cast at h
  refine h.trans_le (zpow_le_zpow_right₀ one_le_two ?_)
  have : Int.log 2 |x| - 52 ≤ lastPlace x := le_max_left _ _
  omega

theorem lastPlace_le_abs {x : K} (hx : x ≠ 0) (h : -1074 < lastPlace x) : (2 : K) ^ (lastPlace x + (52 : ℕ)) ≤ |x| := by
  have h1 := Int.zpow_log_le_self (b := 2) (r := |x|) (by norm_num) (abs_pos.2 hx)
  push_cast at h1
  have : lastPlace x = Int.log 2 |x| - 52 := by
    unfold lastPlace at h ⊢
    rcases max_cases (Int.log 2 |x| - 52) (-1074) with ⟨e, _⟩ | ⟨e, _⟩
    · exact e
    · rw [e] at h; exact absurd h (lt_irrefl _)
  rwa [this, show Int.log 2 |x| - 52 + ((52 : ℕ) : ℤ) = Int.log 2 |x| by push_cast; ring]

theorem lastPlace_mono {x y : K} (hx : x ≠ 0) (h : |x| ≤ |y|) : lastPlace x ≤ lastPlace y := by
  unfold lastPlace
  exact max_le_max (sub_le_sub_right (Int.log_mono_right (abs_pos.2 hx) h) _) le_rfl

theorem zpow_split (e : ℤ) (k : ℕ) : (2 : K) ^ (e + k) = ((2 ^ k : ℤ) : K) * 2 ^ e := by
  rw [zpow_add₀ two_ne_zero, mul_comm]
  norm_cast

theorem grid64_same {x y : K} (h : x ≤ y) (e : lastPlace x = lastPlace y) : grid64 x ≤ grid64 y := by
  have hp : (0 : K) < (2 : K) ^ lastPlace y := zpow_pos two_pos _
  unfold grid64
  rw [e]
  refine mul_le_mul_of_nonneg_right ?_ hp.le
  exact_mod_cast roundEven_mono (div_le_div_of_nonneg_right h hp.le)

/-- the rounded value stays within the powers of two around it -/
theorem grid64_le {x : K} {k : ℕ} {e : ℤ} (he : lastPlace x = e) (h : x ≤ 2 ^ (e + k)) : grid64 x ≤ 2 ^ (e + k) := by
  subst he
  have hp : (0 : K) < (2 : K) ^ lastPlace x := zpow_pos two_pos _
  rw [zpow_split] at h ⊢
  refine mul_le_mul_of_nonneg_right ?_ hp.le
  exact_mod_cast roundEven_le' ((div_le_iff₀ hp).2 h)

theorem le_grid64 {x : K} {k : ℕ} {e : ℤ} (he : lastPlace x = e) (h : 2 ^ (e + k) ≤ x) : 2 ^ (e + k) ≤ grid64 x := by
  subst he
  have hp : (0 : K) < (2 : K) ^ lastPlace x := zpow_pos two_pos _
  rw [zpow_split] at h ⊢
  refine mul_le_mul_of_nonneg_right ?_ hp.le
  exact_mod_cast le_roundEven ((le_div_iff₀ hp).2 h)

theorem grid64_le_neg {x : K} {k : ℕ} {e : ℤ} (he : lastPlace x = e) (h : x ≤ -2 ^ (e + k)) : grid64 x ≤ -2 ^ (e + k) := by
  subst he
  have hp : (0 : K) < (2 : K) ^ lastPlace x := zpow_pos two_pos _
  rw [zpow_split] at h ⊢
  rw [← neg_mul] at h ⊢
  refine mul_le_mul_of_nonneg_right ?_ hp.le
  have := roundEven_le' (z := -2 ^ k) ((div_le_iff₀ hp).2 (by push_cast at h ⊢; exact h))
  have h2 : ((roundEven (x / (2 : K) ^ lastPlace x) : ℤ) : K) ≤ ((-2 ^ k : ℤ) : K) := Int.cast_le.2 this
  push_cast at h2 ⊢
  exact h2

theorem le_grid64_neg {x : K} {k : ℕ} {e : ℤ} (he : lastPlace x = e) (h : -2 ^ (e + k) ≤ x) : -2 ^ (e + k) ≤ grid64 x := by
  subst he
  have hp : (0 : K) < (2 : K) ^ lastPlace x := zpow_pos two_pos _
  rw [zpow_split] at h ⊢
  rw [← neg_mul] at h ⊢
  refine mul_le_mul_of_nonneg_right ?_ hp.le
  have := le_roundEven (z := -2 ^ k) ((le_div_iff₀ hp).2 (by push_cast at h ⊢; exact h))
  have h2 : ((-2 ^ k : ℤ) : K) ≤ ((roundEven (x / (2 : K) ^ lastPlace x) : ℤ) : K) := Int.cast_le.2 this
  push_cast at h2 ⊢
  exact h2

theorem grid64_mono {x y : K} (h : x ≤ y) : grid64 x ≤ grid64 y := by
  rcases le_or_gt x 0 with hx | hx
  · rcases le_or_gt 0 y with hy | hy
    · exact (grid64_sign.2 hx).trans (grid64_sign.1 hy)
    · have hx0 : x < 0 := h.trans_lt hy
      rcases (lastPlace_mono (y := x) hy.ne (by rw [abs_of_neg hx0, abs_of_neg hy]; exact neg_le_neg h)).lt_or_eq with hl | he
      · have l1 : -1074 ≤ lastPlace y := le_max_right _ _
        have b1 := lastPlace_le_abs hx0.ne (by omega)
        have b2 := abs_lt_lastPlace y
        rw [abs_of_neg hx0] at b1
        rw [abs_of_neg hy] at b2
        have g1 := grid64_le_neg (k := 52) (x := x) (e := lastPlace x) rfl (le_neg_of_le_neg b1)
        have g2 := le_grid64_neg (k := 53) (x := y) (e := lastPlace y) rfl (neg_le_of_neg_le b2.le)
        have : (2 : K) ^ (lastPlace y + (53 : ℕ)) ≤ 2 ^ (lastPlace x + (52 : ℕ)) := zpow_le_zpow_right₀ one_le_two (by push_cast; omega)
        exact (g1.trans (neg_le_neg this)).trans g2
      · exact grid64_same h he.symm
  · have hy : 0 < y := hx.trans_le h
    rcases (lastPlace_mono (y := y) hx.ne' (by rw [abs_of_pos hx, abs_of_pos hy]; exact h)).lt_or_eq with hl | he
    · have l1 : -1074 ≤ lastPlace x := le_max_right _ _
      have b1 := lastPlace_le_abs hy.ne' (by omega)
      have b2 := abs_lt_lastPlace x
      rw [abs_of_pos hy] at b1
      rw [abs_of_pos hx] at b2
      have g1 := le_grid64 (k := 52) (x := y) (e := lastPlace y) rfl b1
      have g2 := grid64_le (k := 53) (x := x) (e := lastPlace x) rfl b2.le
      have : (2 : K) ^ (lastPlace x + (53 : ℕ)) ≤ 2 ^ (lastPlace y + (52 : ℕ)) := zpow_le_zpow_right₀ one_le_two (by push_cast; omega)
      exact (g2.trans this).trans g1
    · exact grid64_same h he

theorem grid64_of_multiple {y : K} (h : ∃ j : ℤ, y = j * (2 : K) ^ lastPlace y) : grid64 y = y := by
  obtain ⟨j, hj⟩ := h
  have hp : (0 : K) < (2 : K) ^ lastPlace y := zpow_pos two_pos _
  have e : y / (2 : K) ^ lastPlace y = j := (div_eq_iff hp.ne').2 hj
  unfold grid64
  rw [e, roundEven_int]
  exact hj.symm

/-- rounding twice is rounding once -/
theorem grid64_idem (x : K) : grid64 (grid64 x) = grid64 x := by
  have hx := abs_le.1 (abs_lt_lastPlace x).le
  have b1 := le_grid64_neg (k := 53) (x := x) (e := lastPlace x) rfl hx.1
  have b2 := grid64_le (k := 53) (x := x) (e := lastPlace x) rfl hx.2
  have e0 : -1074 ≤ lastPlace x := le_max_right _ _
  have hy : grid64 x = (roundEven (x / (2 : K) ^ lastPlace x) : K) * (2 : K) ^ lastPlace x := rfl
  generalize roundEven (x / (2 : K) ^ lastPlace x) = r at hy
  generalize grid64 x = y at *
  generalize lastPlace x = e at *
  by_cases y0 : y = 0
  · exact grid64_of_multiple ⟨0, by rw [y0]; simp⟩
  apply grid64_of_multiple
  rcases (abs_le.2 ⟨b1, b2⟩).lt_or_eq with hl | he
  · have hlog : Int.log 2 |y| < e + (53 : ℕ) := (Int.lt_zpow_iff_log_lt (b := 2) (by norm_num) (abs_pos.2 y0)).1 (by push_cast at hl ⊢; exact hl)
    have hle : lastPlace y ≤ e := max_le (by push_cast at hlog; omega) e0
    obtain ⟨k, hk⟩ := Int.eq_ofNat_of_zero_le (show 0 ≤ e - lastPlace y by omega)
    refine ⟨r * 2 ^ k, ?_⟩
    rw [Int.cast_mul, mul_assoc, ← zpow_split, show lastPlace y + (k : ℤ) = e by omega]
    exact hy
  · have hlp : lastPlace y = e + 1 := by
      unfold lastPlace
      have := Int.log_zpow (R := K) (b := 2) (by norm_num) (e + (53 : ℕ))
      rw [he]
      push_cast at this ⊢
      rw [this]
      exact (max_eq_left (by omega)).trans (by omega)
    have hpow : (2 : K) ^ (e + (53 : ℕ)) = ((2 ^ 52 : ℤ) : K) * 2 ^ (e + 1) := by
      rw [← zpow_split]
      congr 1
      push_cast
      ring
    rw [hlp]
    rcases abs_choice y with h | h
    · exact ⟨2 ^ 52, by rw [← hpow, ← he, h]⟩
    · refine ⟨-2 ^ 52, ?_⟩
      rw [Int.cast_neg, neg_mul, ← hpow, ← he, h, neg_neg]

theorem round64_eq (x : K) : round64 x = if 2 ^ 1024 ≤ grid64 x then .pinf else if grid64 x ≤ -2 ^ 1024 then .ninf else .fin (grid64 x) := rfl

theorem fin_round64 {x y : K} (h : round64 x = .fin y) : grid64 x = y := by
  rw [round64_eq] at h
  split_ifs at h
  exact Num.fin.inj h

/-- every finite result of rounding is a number of the format -/
theorem round64_idem {x y : K} (h : round64 x = .fin y) : round64 y = .fin y := by
  have e := fin_round64 h
  have i := grid64_idem x
  rw [round64_eq] at h ⊢
  rw [e] at h i
  rw [i]
  exact h

/-- binary64 keeps the order and has gradual underflow -/
theorem binary64_ordered : (binary64 : Arith K).Ordered where
  mono x y h := by
    show Num.le (round64 x) (round64 y) = true
    have g := grid64_mono h
    rw [round64_eq, round64_eq]
    have big : -(2 : K) ^ 1024 < 2 ^ 1024 := neg_lt_self (pow_pos two_pos _)
    generalize (2 : K) ^ 1024 = P at *
    generalize grid64 x = a at *
    generalize grid64 y = b at *
    split_ifs with h1 h2 h3 h4 h5 h6 <;> simp only [Num.le, decide_eq_true_eq]
    all_goals first | rfl | exact g | (exfalso; linarith)
  zero := round64_zero
  one := by simpa using (binary64_whole (K := K)).exact 1 (by norm_num)
  differ x y hx hy hlt h0 := by
    have ex := fin_round64 (show round64 x = .fin x from hx)
    have ey := fin_round64 (show round64 y = .fin y from hy)
    have e0 := fin_round64 (show round64 (y - x) = .fin 0 from h0)
    have unit : (0 : K) < (2 : K) ^ (-1074 : ℤ) := zpow_pos two_pos _
    have mult : ∀ z : K, grid64 z = z → ∃ j : ℤ, z = j * (2 : K) ^ (-1074 : ℤ) := by
      intro z hz
      obtain ⟨k, hk⟩ := Int.eq_ofNat_of_zero_le (show 0 ≤ lastPlace z + 1074 by have : -1074 ≤ lastPlace z := le_max_right _ _; omega)
      have h : z = (roundEven (z / (2 : K) ^ lastPlace z) : K) * (2 : K) ^ lastPlace z := hz.symm
      generalize roundEven (z / (2 : K) ^ lastPlace z) = r at h
      rw [show lastPlace z = -1074 + (k : ℤ) by omega, zpow_split] at h
      refine ⟨r * 2 ^ k, ?_⟩
      rw [Int.cast_mul, mul_assoc]
      exact h
    obtain ⟨i, hi⟩ := mult x ex
    obtain ⟨j, hj⟩ := mult y ey
    have d : y - x = ((j - i : ℤ) : K) * (2 : K) ^ (-1074 : ℤ) := by rw [hi, hj]; push_cast; ring
    have ji : 1 ≤ j - i := by
      have : (0 : K) < ((j - i : ℤ) : K) := by
        by_contra hn
        have := mul_nonpos_of_nonpos_of_nonneg (not_lt.1 hn) unit.le
        rw [← d] at this
        linarith
      have : 0 < j - i := by exact_mod_cast this
      omega
    have le : (2 : K) ^ (-1074 : ℤ) ≤ y - x := by
      rw [d]
      have : (1 : K) ≤ ((j - i : ℤ) : K) := by exact_mod_cast ji
      exact le_mul_of_one_le_left unit.le this
    have g := grid64_mono le
    have lp : lastPlace ((2 : K) ^ (-1074 : ℤ)) = -1074 := by
      unfold lastPlace
      rw [abs_of_pos unit]
      have := Int.log_zpow (R := K) (b := 2) (by norm_num) (-1074)
      push_cast at this
      rw [this]
      rfl
    have g2 := le_grid64 (x := (2 : K) ^ (-1074 : ℤ)) (k := 0) lp (by simp)
    rw [e0] at g
    simp only [Nat.cast_zero, add_zero] at g2
    linarith

end Artemis
