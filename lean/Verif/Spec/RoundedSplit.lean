import Verif.Spec.Gb
import Verif.Spec.Rounding

/-!
# Specification of the split score in floating-point arithmetic
-/

namespace Artemis
variable {F I K : Type} [LinearOrder F] [Field K] [LinearOrder K]

/-- The arithmetic is precise enough and has the range for a forest with at most `N` splits: gains (and covers) are positive and not
denormal, and depths add up exactly. In binary64: up to `2^26` splits. -/
structure SplitSuits (A : Arith K) (gsum : List (Num K) → Num K) (u η B : K) (N : Nat) (p : Package) (ts : List (GTree F I K)) : Prop where
  lawful : A.Lawful
  accurate : A.Accurate u η B
  whole : A.Whole (N * N)
  groupsWhole : AddsWhole gsum (N * N)
  groups : AddsNear gsum u η B N
  many : (forestSplits ts).length ≤ N
  precision : 64 * ((N : K) * u) ≤ 1
  gains : ∀ s ∈ forestSplits ts, 0 < s.gain ∧ η ≤ u * s.gain
  covers : p = .xgboost → ∀ s ∈ forestSplits ts, 0 < s.cover ∧ η ≤ u * s.cover
  rangeG : 16 * ((N : K) * (gainSum (forestSplits ts) + 1)) ≤ B
  rangeC : p = .xgboost → 16 * coverSum (forestSplits ts) ≤ B

/-- `a` is a number that differs from `x` by at most `ε` times `x` -/
def NearTo (ε : K) (a : Num K) (x : K) : Prop := CloseTo a x (ε * x)

/-- A row of the table of pairs: exact counts, the mean depth rounded once, sums and means up to a relative error `ε`. -/
structure SumRowNear (A : Arith K) (ε : K) (p : Package) (onlyDef : Bool) (ts : List (GTree F I K)) (r : SumRow F K) : Prop where
  occurs : pairSplits onlyDef ts r.parent r.child ≠ []
  frequency : r.frequency = (pairSplits onlyDef ts r.parent r.child).length
  sumGain : NearTo ε r.sumGain (gainSum (pairSplits onlyDef ts r.parent r.child))
  meanGain : NearTo ε r.meanGain (gainSum (pairSplits onlyDef ts r.parent r.child) / (pairSplits onlyDef ts r.parent r.child).length)
  meanDepth : r.meanDepth = A.r (.fin (((pairSplits onlyDef ts r.parent r.child).map (fun s => (s.depth : K))).sum
    / (pairSplits onlyDef ts r.parent r.child).length))
  coverX : p = .xgboost → NearTo ε r.sumCover (coverSum (pairSplits onlyDef ts r.parent r.child)) ∧
    NearTo ε r.meanCover (coverSum (pairSplits onlyDef ts r.parent r.child) / (pairSplits onlyDef ts r.parent r.child).length)
  coverL : p = .lightgbm → r.sumCover = .fin 0 ∧ r.meanCover = .nan

/-- A row of the table of importances. The two quotients may in addition be off by `η` (underflow). -/
structure ImpStatNear (A : Arith K) (ε η : K) (p : Package) (features : Option (List F)) (ts : List (GTree F I K)) (r : ImpStat F K) : Prop where
  occurs : featSplits ts r.feat ≠ []
  sumGain : NearTo ε r.sumGain (gainSum (featSplits ts r.feat))
  meanGain : NearTo ε r.meanGain (gainSum (featSplits ts r.feat) / (featSplits ts r.feat).length)
  meanDepth : r.meanDepth = A.r (.fin (((featSplits ts r.feat).map (fun s => (s.depth : K))).sum / (featSplits ts r.feat).length))
  coverX : p = .xgboost → NearTo ε r.sumCover (coverSum (featSplits ts r.feat)) ∧
    NearTo ε r.meanCover (coverSum (featSplits ts r.feat) / (featSplits ts r.feat).length)
  coverL : p = .lightgbm → r.sumCover = .fin 0 ∧ r.meanCover = .nan
  rootFrequency : r.rootFrequency = if featRoots ts r.feat = [] then .nan else .ofNat (featRoots ts r.feat).length
  weightedRootFrequency : if featRoots ts r.feat = [] then r.weightedRootFrequency = .nan else
    ∃ x, x = (featRoots ts r.feat).length * gainSum (featRoots ts r.feat)
      / gainSum ((forestSplits ts).filter (fun s => selected features s.feat && decide (s.depth = 0))) ∧
      CloseTo r.weightedRootFrequency x (ε * x + η)
  meanWeightedDepth : ∃ x, x = ((featSplits ts r.feat).map (fun s => (s.depth : K) * s.gain)).sum / gainSum (featSplits ts r.feat) ∧
    CloseTo r.meanWeightedDepth x (ε * x + η)

/-- the exact value of a metric for the splits of a pair (metrics where larger is stronger) -/
def exactPair (inter : SsMetric) (l : List (Split F I K)) : K :=
  match inter with
  | .sumGain => gainSum l
  | .meanGain => gainSum l / l.length
  | .sumCover => coverSum l
  | .meanCover => coverSum l / l.length
  | _ => 0

end Artemis
