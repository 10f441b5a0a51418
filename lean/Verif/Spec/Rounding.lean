import Verif.Model.Rounded
import Verif.Spec.Spread

/-!
# Specification vocabulary: floating-point arithmetics
-/

namespace Artemis
variable {K : Type} [Field K] [LinearOrder K]

/-- `s` comes from adding up the entries of `l` in some order and grouping, rounding after every addition -/
inductive SumsTo (A : Arith K) : List (Num K) → Num K → Prop
  | nil : SumsTo A [] (.fin 0)
  | one (a : Num K) : SumsTo A [a] a
  | add {l l1 l2 : List (Num K)} {a b : Num K} (p : l.Perm (l1 ++ l2)) (h1 : SumsTo A l1 a) (h2 : SumsTo A l2 b)
    (n1 : l1 ≠ []) (n2 : l2 ≠ []) : SumsTo A l (A.add a b)

/-- Sums are sums, and rounding does not make non-negative numbers negative. -/
structure Arith.Lawful (A : Arith K) : Prop where
  sums : ∀ l, SumsTo A l (A.sum l)
  rnd_nonneg : ∀ x, 0 ≤ x → A.rnd x = .pinf ∨ ∃ y, A.rnd x = .fin y ∧ 0 ≤ y

/-- Up to the size `B` there is no overflow, and rounding errors are at most `u` times the number plus `η` (underflow). Binary64 has
`u = 2^-53`, `η = 2^-1075`, `B = 2^1023`. -/
structure Arith.Accurate (A : Arith K) (u η B : K) : Prop where
  u_nonneg : 0 ≤ u
  η_nonneg : 0 ≤ η
  rnd_near : ∀ x, |x| ≤ B → ∃ y, A.rnd x = .fin y ∧ |y - x| ≤ u * |x| + η

/-- Whole numbers up to `N` are represented exactly, and rounding does not cross them from below. -/
structure Arith.Whole (A : Arith K) (N : Nat) : Prop where
  exact : ∀ k ≤ N, A.rnd (k : K) = .fin (k : K)
  le : ∀ k ≤ N, ∀ x : K, x ≤ k → A.rnd x = .ninf ∨ ∃ y ≤ (k : K), A.rnd x = .fin y

/-- `a` is a finite number at distance at most `ε` from `x` -/
def CloseTo (a : Num K) (x ε : K) : Prop := ∃ y, a = .fin y ∧ |y - x| ≤ ε

/-- Precision and range are sufficient for `n` rows and predictions of size at most `M`. In binary64: up to 2^47 rows, and `M` not
astronomically large or small. -/
structure Arith.Suits (A : Arith K) (u η B n M : K) : Prop where
  lawful : A.Lawful
  accurate : A.Accurate u η B
  one_le : 1 ≤ n
  rows : 64 * (n * u) ≤ 1
  size_nonneg : 0 ≤ M
  small : η ≤ u * M
  tiny : η ≤ u * M * (u * M)
  range : 512 * (n * (M + M * M)) ≤ B

/-- `std` computes the sample standard deviation of numbers of size at most `m` up to an error `κ`, and exactly zero if all numbers are
the same. -/
structure StdSuits (std : List (Num K) → Num K) (κ m : K) : Prop where
  err_nonneg : 0 ≤ κ
  same : ∀ (l : List (Num K)) (x : K), 2 ≤ l.length → (∀ a ∈ l, a = .fin x) → std l = .fin 0
  close : ∀ (l : List K) (s : K), (∀ x ∈ l, |x| ≤ m) → Spec.IsSampleStd l s → CloseTo (std (l.map .fin)) s κ

/-- `sum` adds up whole numbers exactly, as long as the total is at most `N` -/
def AddsWhole (sum : List (Num K) → Num K) (N : Nat) : Prop :=
  ∀ xs : List Nat, xs.sum ≤ N → sum (xs.map fun (x : Nat) => .fin (x : K)) = .fin (xs.sum : K)

/-- `sum` adds up at most `N` positive numbers that are not too small with a relative error of at most `16 N u`. -/
def AddsNear (sum : List (Num K) → Num K) (u η B : K) (N : Nat) : Prop :=
  sum [] = .fin 0 ∧ ∀ xs : List K, xs.length ≤ N → (∀ x ∈ xs, 0 < x ∧ η ≤ u * x) → 4 * xs.sum ≤ B →
    CloseTo (sum (xs.map .fin)) xs.sum (16 * (N * u) * xs.sum)

end Artemis
