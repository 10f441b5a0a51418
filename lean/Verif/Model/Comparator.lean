import Verif.Model.Method

/-!
# The method comparator: `artemis/comparison/_method_comparator.py`

Method objects are seen through their `View`. The correlations are those of pandas 1.5.2 `DataFrame.corr` (and scipy's
`kendalltau`) on two columns of category codes; the values are exact (no rounding).
-/

namespace Artemis

section Correlations
variable {K : Type} [Field K] [LinearOrder K]

/-- Models: `artemis/_utilities/domain.py:56-59` (`CorrelationMethod`). -/
inductive CorrKind
  | pearson | kendall | spearman
  deriving DecidableEq, Repr

/-- `dataclasses.fields(CorrelationMethod)` -/
def CorrKind.all : List CorrKind := [.pearson, .kendall, .spearman]

/-- the string passed to `DataFrame.corr` -/
def CorrKind.name : CorrKind → String
  | .pearson => "pearson"
  | .kendall => "kendall"
  | .spearman => "spearman"

/-- arithmetic mean of exact numbers -/
def kMean (l : List K) : K := l.sum / l.length

/-- Pandas `nancorr` for two columns, on the rows where both are present: covariance over the root of the product of the
sums of squares, NaN if that is 0 or if there is no row. -/
def pearson [HasSqrt K] (l : List (K × K)) : Num K :=
  if l.isEmpty then .nan
  else
    let mx := kMean (l.map Prod.fst)
    let my := kMean (l.map Prod.snd)
    let cov := (l.map (fun p => (p.1 - mx) * (p.2 - my))).sum
    let ssx := (l.map (fun p => (p.1 - mx) * (p.1 - mx))).sum
    let ssy := (l.map (fun p => (p.2 - my) * (p.2 - my))).sum
    let d := HasSqrt.sqrt (ssx * ssy)
    if d = 0 then .nan else .fin (cov / d)

/-- average rank of `x` among `xs` (`rank_1d`, method average) -/
def avgRank (xs : List K) (x : K) : K :=
  ((xs.countP (fun y => decide (y < x)) : Nat) : K) + (((xs.countP (fun y => decide (y = x)) : Nat) : K) + 1) / 2

/-- Pandas `nancorr_spearman` for two columns: Pearson on the average ranks among the rows where both are present. -/
def spearman [HasSqrt K] (l : List (K × K)) : Num K :=
  pearson (l.map (fun p => (avgRank (l.map Prod.fst) p.1, avgRank (l.map Prod.snd) p.2)))

/-- `np.sign` -/
def npSign (x : K) : K := if 0 < x then 1 else if x < 0 then -1 else 0

/-- scipy `kendalltau` (tau-b): concordant minus discordant pairs over the roots of the numbers of pairs not tied in the first
and not tied in the second column; NaN if all pairs are tied in one of the columns (also if there are no pairs). -/
def kendall [HasSqrt K] (l : List (K × K)) : Num K :=
  let ps := combinations2 l
  let tot := ps.length
  let xtie := ps.countP (fun q => decide (q.1.1 = q.2.1))
  let ytie := ps.countP (fun q => decide (q.1.2 = q.2.2))
  if xtie = tot ∨ ytie = tot then .nan
  else .fin ((ps.map (fun q => npSign (q.1.1 - q.2.1) * npSign (q.1.2 - q.2.2))).sum
    / HasSqrt.sqrt (((tot - xtie : Nat) : K)) / HasSqrt.sqrt (((tot - ytie : Nat) : K)))

/-- `DataFrame.corr(method).iloc[0, 1]` -/
def corr [HasSqrt K] : CorrKind → List (K × K) → Num K
  | .pearson => pearson
  | .kendall => kendall
  | .spearman => spearman

end Correlations

section Comparator
variable {F I J K : Type} [LinearOrder F] [LinearOrder J] [Field K] [LinearOrder K]

/-- `Series.astype('category').cat.codes`: position among the sorted distinct values -/
def catCodes (keys : List J) : List Nat := keys.map (fun k => (npUnique keys).idxOf k)

/-- `_compare_ovo.apply(_alphabetical_order_pair, axis=1).astype('category').cat.codes`; `:179-182`, `:234-237`. `join` is
`"-".join([a, b])`. `apply` on a table without rows gives a table, which has no `cat`. -/
def rankEncoded (join : F → F → J) (cmp : Except Err (List (OvoRow F K))) : Except Err (List Nat) :=
  match cmp with
  | .error e => .error e
  | .ok rows => if rows.isEmpty then .error .attributeError else .ok (catCodes (rows.map (fun r => pairId join r.f1 r.f2)))

/-- The rows of `pd.concat([codes1, codes2], axis=1)` that have both codes: both indices are 0, 1, 2, ..., so position `i` of
one column meets position `i` of the other. -/
def bothCodes (c1 c2 : List Nat) : List (K × K) := (c1.zip c2).map (fun p => ((p.1 : K), (p.2 : K)))

/-- Models: `_rank_interaction_values_encoded`; `:178-184`. Both `_compare_ovo` are read before the codes of the first are taken. -/
def rankBoth (join : F → F → J) (m1 m2 : View F I K) : Except Err (List (K × K)) :=
  match m1.cmp with
  | .error e => .error e
  | .ok _ =>
    match m2.cmp with
    | .error e => .error e
    | .ok _ =>
      match rankEncoded join m1.cmp with
      | .error e => .error e
      | .ok c1 =>
        match rankEncoded join m2.cmp with
        | .error e => .error e
        | .ok c2 => .ok (bothCodes c1 c2)

/-- Models: `correlation`; `:151-175`. -/
def correlation [HasSqrt K] (join : F → F → J) (kind : CorrKind) (m1 m2 : View F I K) : Except Err (Num K) :=
  match rankBoth join m1 m2 with
  | .error e => .error e
  | .ok l => .ok (corr kind l)

/-- Models: `correlations`; `:61-85`. A row per kind. -/
def correlations [HasSqrt K] (join : F → F → J) (m1 m2 : View F I K) : Except Err (List (CorrKind × Num K)) :=
  CorrKind.all.mapM (fun k => (correlation join k m1 m2).map (fun v => (k, v)))

/-- The prepared contents of a comparison plot. -/
structure CmpPlot (F K : Type) where
  xlabel : String
  ylabel : String
  points : List (Num K × Num K)
  labels : List (F × F × Num K × Num K)
  invertX : Bool
  invertY : Bool
  /-- the correlation box: one value per kind (shown rounded to three digits) -/
  box : Option (List (CorrKind × Num K))

/-- A `FeatureInteractionMethodComparator`; `:34-37`. -/
structure Comparator (F K : Type) where
  plot : Option (CmpPlot F K)
  correlationsDf : Option (List (CorrKind × Num K))

/-- Models: `__init__`; `:34-37`. -/
def Comparator.new : Comparator F K := ⟨none, none⟩

/-- The loop `:121-130`: the point of a row. -/
def cmpPoint (m2 : View F I K) (r : OvoRow F K) : Except Err (OvoRow F K × Num K) :=
  match m2.interactionValue r.f1 r.f2 with
  | .error e => .error e
  | .ok y => .ok (r, y)

/-- `_add_correlation_box`; `:193-199`: for every kind the first row about it. -/
def boxLines (corr : List (CorrKind × Num K)) : Except Err (List (CorrKind × Num K)) :=
  CorrKind.all.mapM (fun k =>
    match corr.find? (fun q => decide (q.1 = k)) with
    | none => .error .indexError
    | some q => .ok (k, q.2))

/-- the box of a plot, `:139-145` -/
def cmpBox [HasSqrt K] (join : F → F → J) (c : Comparator F K) (m1 m2 : View F I K) (addBox : Bool) :
    Except Err (Option (List (CorrKind × Num K))) :=
  if addBox then
    match (match c.correlationsDf with
      | none => correlations join m1 m2
      | some d => .ok d) with
    | .error e => .error e
    | .ok d => (boxLines d).map some
  else .ok none

/-- Models: `comparison_plot`; `:87-149`. `circle_r` (the random position of the labels) is only evaluated. Drawing is dropped. -/
def Comparator.comparisonPlot [HasSqrt K] (join : F → F → J) (m1 m2 : View F I K) (nLabels : Int) (addBox : Bool)
    (c : Comparator F K) : Except Err (CmpPlot F K) :=
  match m1.cmp with
  | .error e => .error e
  | .ok t1 =>
    match pyMax (t1.map OvoRow.val) with
    | .error e => .error e
    | .ok _ =>
      match m2.cmp with
      | .error e => .error e
      | .ok t2 =>
        match pyMax (t2.map OvoRow.val) with
        | .error e => .error e
        | .ok _ =>
          match t1.mapM (cmpPoint m2) with
          | .error e => .error e
          | .ok ps =>
            match cmpBox join c m1 m2 addBox with
            | .error e => .error e
            | .ok box =>
              .ok { xlabel := m1.name
                    ylabel := m2.name
                    points := ps.map (fun p => (p.1.val, p.2))
                    labels := (ps.take nLabels.toNat).map (fun p => (p.1.f1, p.1.f2, p.1.val, p.2))
                    invertX := m1.asc
                    invertY := m2.asc
                    box := box }

/-- Models: `summary`; `:39-59`; `_assert_fitted_ovo` reads both `_compare_ovo` (`:222-231`). -/
def Comparator.summary [HasSqrt K] (join : F → F → J) (m1 m2 : View F I K) : PyM (Comparator F K) Unit := fun c =>
  match m1.cmp with
  | .error e => (.error e, c)
  | .ok _ =>
    match m2.cmp with
    | .error e => (.error e, c)
    | .ok _ =>
      match correlations join m1 m2 with
      | .error e => (.error e, c)
      | .ok d =>
        let c1 := { c with correlationsDf := some d }
        match Comparator.comparisonPlot join m1 m2 3 true c1 with
        | .error e => (.error e, c1)
        | .ok p => (.ok (), { c1 with plot := some p })

end Comparator

end Artemis
