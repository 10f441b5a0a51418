import Verif.Spec.Decomp

/-!
# Specification vocabulary: spread of a list of numbers

Relational definitions (no square root function, no particular way to compute a maximum).
-/

namespace Artemis.Spec
variable {F V K : Type} [DecidableEq F] [Field K] [LinearOrder K]

/-- sum of the squared deviations from the mean -/
def sumDev (l : List K) : K := (l.map fun x => (x - average l) * (x - average l)).sum

/-- `x` is the standard deviation of the population `l` -/
def IsPopStd (l : List K) (x : K) : Prop := 0 ≤ x ∧ x * x = sumDev l / l.length

/-- `x` is the (n-1) standard deviation of the sample `l` -/
def IsSampleStd (l : List K) (x : K) : Prop := 2 ≤ l.length ∧ 0 ≤ x ∧ x * x = sumDev l / (l.length - 1)

/-- `x` is a quarter of the range of `l` -/
def IsQuarterRange (l : List K) (x : K) : Prop :=
  ∃ lo ∈ l, ∃ hi ∈ l, (∀ y ∈ l, lo ≤ y ∧ y ≤ hi) ∧ x = (hi - lo) / 4

/-- `vs` lists the values of column `f`, each once -/
def Levels (X : Frame F V) (f : F) (vs : List V) : Prop := vs.Nodup ∧ ∀ v, v ∈ vs ↔ ∃ r ∈ X.rows, r f = v

/-- importance of a feature in Greenwell's sense: spread of its partial dependence over its levels, the population
standard deviation for a numerical feature and a quarter of the range for a categorical one -/
def IsImportance (numeric : Bool) (u : Row F V → K) (X : Frame F V) (f : F) (x : K) : Prop :=
  ∃ vs, Levels X f vs ∧
    if numeric then IsPopStd (vs.map (pd1 u X f)) x else IsQuarterRange (vs.map (pd1 u X f)) x

/-- `s` is the standard deviation, over the levels `v` of `f`, of the conditional importance of `f'` given `f = v` (the
spread over the levels of `f'` of the joint partial dependence) -/
def IsCondSpread (numeric' : Bool) (u : Row F V → K) (X : Frame F V) (f f' : F) (s : K) : Prop :=
  ∃ (vs vs' : List V) (imp : V → K), Levels X f vs ∧ Levels X f' vs' ∧ IsSampleStd (vs.map imp) s ∧
    ∀ v ∈ vs, if numeric' then IsSampleStd (vs'.map fun v' => pd2 u X f f' v v') (imp v)
      else IsQuarterRange (vs'.map fun v' => pd2 u X f f' v v') (imp v)

/-- Greenwell's interaction measure: the mean of the two spreads -/
def IsGreenwell (numeric : F → Bool) (u : Row F V → K) (X : Frame F V) (f f' : F) (x : K) : Prop :=
  ∃ s s', IsCondSpread (numeric f') u X f f' s ∧ IsCondSpread (numeric f) u X f' f s' ∧ x = (s + s') / 2

end Artemis.Spec
