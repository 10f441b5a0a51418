import Verif.Model.PdpMethod
import Verif.Model.Visual

/-!
# Partial dependence profiles and zenplots

Models
* `artemis/_utilities/zenplot.py`
* `artemis/interactions_methods/model_agnostic/partial_dependence_based/_pdp.py:111-173` (`plot_profile`)
* `artemis/interactions_methods/model_agnostic/partial_dependence_based/_pdp.py:175-297` (`plot_zenplot`)

What is drawn is modelled as data: for each call of `pcolormesh` or `contour`/`contourf` the coordinates, the matrix, the
place in the grid and the labels the axes end up with. Colours, rug plots, the colour bar and the layout are not modelled.
A table of interactions carries the row labels `0, 1, 2, ...` (`ignore_index=True` in both methods).
-/

namespace Artemis

variable {F V K : Type} [DecidableEq F] [LinearOrder V] [Field K] [LinearOrder K]

/-! ### `zenplot.py` -/

/-- rows of a table with their labels -/
abbrev LRows (F K : Type) := List (Nat × OvoRow F K)

/-- A fresh table: labels `0, 1, 2, ...`. -/
def withLabels (rows : List (OvoRow F K)) : LRows F K := (List.range rows.length).zip rows

/-- NaN is replaced by `-inf` before looking for the largest value. -/
def Num.fillNinf (a : Num K) : Num K := if a.isNaN then .ninf else a

/-- `Series.idxmax()` (pandas 1.5.2): the label of the first largest value, NaN replaced by `-inf`; `none` stands for the
NaN returned if all values are NaN. -/
def idxmax : LRows F K → Option Nat
  | [] => none
  | l@(x :: xs) =>
    if l.all (fun q => q.2.val.isNaN) then none
    else some (xs.foldl (fun m y => if Num.lt m.2.val.fillNinf y.2.val.fillNinf then y else m) x).1

/-- `find_next_pair_index`; `zenplot.py:4-11`. The label is `none` if it is NaN. -/
def findNextPairIndex (left : LRows F K) (f : F) : Except Err (Option Nat × Bool) :=
  match left.filter (fun q => decide (q.2.f1 = f) || decide (q.2.f2 = f)) with
  | [] => match left with
    | [] => .error .indexError
    | q :: _ => .ok (some q.1, false)
  | s => .ok (idxmax s, true)

/-- `get_second_feature`; `zenplot.py:14-17`. -/
def getSecondFeature (prev : F) (r : OvoRow F K) : F := if r.f1 = prev then r.f2 else r.f1

/-- `get_pd_pairs_values`; `zenplot.py:20-26`. The dictionary is a copy, so the calculator is left alone; `.T` is a new
view of the matrix. -/
def getPdPairsValues (c : Calc F V (Num K)) (pair : F × F) : Except Err (PairTab V (Num K)) :=
  match c.pdPairs.get? (c.pairKey pair) with
  | none => .error .keyError
  | some t =>
    if (c.pairKey pair).1 ≠ pair.1 then
      .ok ⟨t.f2Values, t.f1Values, columns t.f2Values.length t.pdValues⟩
    else .ok t

/-- Python's `max(a, b)` -/
def pyMax2 (a b : Num K) : Num K := if Num.lt a b then b else a
/-- Python's `min(a, b)` -/
def pyMin2 (a b : Num K) : Num K := if Num.lt b a then b else a

/-- Body of the loop of `get_pd_dict`; `zenplot.py:33-37`, on `(min_pd, max_pd)`. `np.max` of an empty matrix raises
ValueError. -/
def pdDictStep (c : Calc F V (Num K)) (mm : Num K × Num K) (r : OvoRow F K) : Except Err (Num K × Num K) :=
  match c.pdPairs.get? (c.pairKey (r.f1, r.f2)) with
  | none => .error .keyError
  | some t =>
    match Num.max? t.pdValues.flatten, Num.min? t.pdValues.flatten with
    | some M, some m => .ok (pyMin2 m mm.1, pyMax2 M mm.2)
    | _, _ => .error .valueError

/-- `get_pd_dict`; `zenplot.py:29-38`: the limits of the colour scale. A calculator of `None` raises AttributeError once it
is used. -/
def getPdDict (pdc : Option (Calc F V (Num K))) (rows : List (OvoRow F K)) : Except Err (Num K × Num K) :=
  match rows, pdc with
  | [], _ => .ok (.fin 1, .fin 0)
  | _ :: _, none => .error .attributeError
  | _, some c => rows.foldlM (pdDictStep c) (.fin 1, .fin 0)

/-! ### `plot_zenplot` -/

/-- One panel: what is handed to `pcolormesh`/`contour`, its place, and the labels it ends up with. `pair` is the value of
the local variable `pair` when the panel was drawn (ghost: used in specifications only). -/
structure ZenPanel (F V K : Type) where
  pair : F × F
  pos : Nat × Nat
  xs : List V
  ys : List V
  mesh : List (List (Num K))
  title : Option F
  ylabel : Option F

/-- The picture: limits of the colour scale, size of the grid, panels. -/
structure ZenPlot (F V K : Type) where
  vmin : Num K
  vmax : Num K
  nrows : Nat
  ncols : Nat
  panels : List (ZenPanel F V K)

/-- The local variables of the loop: `pair`, `to_vis`, `id_row`, `id_col`. -/
structure ZenState (F K : Type) where
  pair : F × F
  left : LRows F K
  row : Nat
  col : Nat

/-- The panel for a pair, before later labels; `_pdp.py:213-275`. `subplot2grid` raises IndexError outside of the grid. -/
def zenPanel (c : Calc F V (Num K)) (nrows ncols : Nat) (s : ZenState F K) : Except Err (ZenPanel F V K) :=
  match getPdPairsValues c s.pair with
  | .error e => .error e
  | .ok t =>
    if s.row < nrows ∧ s.col < ncols then
      if s.col > s.row then .ok ⟨s.pair, (s.row, s.col), t.f2Values, t.f1Values, t.pdValues, none, some s.pair.1⟩
      else .ok ⟨s.pair, (s.row, s.col), t.f1Values, t.f2Values, columns t.f2Values.length t.pdValues, some s.pair.1, none⟩
    else .error .indexError

/-- `to_vis.loc[idx]`, KeyError if there is no such label -/
def locRow (left : LRows F K) (idx : Option Nat) : Except Err (Nat × OvoRow F K) :=
  match left.find? (fun q => decide (some q.1 = idx)) with
  | none => .error .keyError
  | some q => .ok q

/-- `ax.set_ylabel(f)` if `id_col > id_row`, else `ax.set_title(f)`; `_pdp.py:281-284` and `286-289`. -/
def setLabel (row col : Nat) (f : F) (p : ZenPanel F V K) : ZenPanel F V K :=
  if col > row then { p with ylabel := some f } else { p with title := some f }

/-- One iteration of the loop; `_pdp.py:212-292`. `last` is `zenpath_length - 1 == i`. -/
def zenStep (c : Calc F V (Num K)) (nrows ncols : Nat) (last : Bool) (s : ZenState F K) :
    Except Err (ZenPanel F V K × ZenState F K) :=
  match zenPanel c nrows ncols s with
  | .error e => .error e
  | .ok p =>
    let row := if s.col > s.row then s.row + 1 else s.row
    let col := if s.col > s.row then s.col else s.col + 1
    match findNextPairIndex s.left s.pair.2 with
    | .error e => .error e
    | .ok (idx, continued) =>
      match locRow s.left idx with
      | .error e => .error e
      | .ok q =>
        let left := s.left.filter (fun q' => decide (q'.1 ≠ q.1))
        if continued then
          let pair := (s.pair.2, getSecondFeature s.pair.2 q.2)
          .ok (if last then setLabel row col pair.2 p else p, ⟨pair, left, row, col⟩)
        else .ok (setLabel row col s.pair.2 p, ⟨(q.2.f1, q.2.f2), left, row, col⟩)

/-- The loop with `n` iterations to go. -/
def zenLoop (c : Calc F V (Num K)) (nrows ncols : Nat) : Nat → ZenState F K → Except Err (List (ZenPanel F V K))
  | 0, _ => .ok []
  | n + 1, s =>
    match zenStep c nrows ncols (n == 0) s with
    | .error e => .error e
    | .ok (p, s') =>
      match zenLoop c nrows ncols n s' with
      | .error e => .error e
      | .ok ps => .ok (p :: ps)

/-- `plot_zenplot(zenpath_length, kind)`; `_pdp.py:175-297`. If no panel was drawn (no iteration, or an unknown `kind`) the
variable `cs` used for the colour bar is unbound. -/
def plotZenplot (pdc : Option (Calc F V (Num K))) (ovo : Option (List (OvoRow F K))) (len : Int) (kind : String) :
    Except Err (ZenPlot F V K) :=
  match ovo with
  | none => .error .attributeError
  | some rows =>
    let top := pyHead (len + 1) rows
    match getPdDict pdc top with
    | .error e => .error e
    | .ok (lo, hi) =>
      match withLabels top, pdc with
      | [], _ => .error .indexError
      | _, none => .error .attributeError
      | q :: left, some c =>
        let nrows := ((len + 1) / 2).toNat
        let ncols := (len / 2 + 1).toNat
        match zenLoop c nrows ncols len.toNat ⟨(q.2.f1, q.2.f2), left, 0, 0⟩ with
        | .error e => .error e
        | .ok ps =>
          if len ≤ 0 ∨ (kind ≠ "colormesh" ∧ kind ≠ "contour") then .error .unboundLocalError
          else .ok ⟨lo, hi, nrows, ncols, ps⟩

/-! ### `plot_profile` -/

/-- A profile: a curve for one feature, a mesh for two. -/
inductive Profile (F V K : Type)
  | line (xlabel : F) (xs : List V) (ys : List (Num K))
  | mesh (xlabel ylabel : F) (xs ys : List V) (mesh : List (List (Num K)))

/-- `plot_profile(feature1, feature2, kind)`; `_pdp.py:111-173`. With an unknown `kind` the variable `clb` is unbound. -/
def plotProfile (pdc : Option (Calc F V (Num K))) (f1 : F) (f2 : Option F) (kind : String) : Except Err (Profile F V K) :=
  match pdc with
  | none => .error .attributeError
  | some c =>
    match f2 with
    | some g =>
      let key := c.pairKey (f1, g)
      match c.pdPairs.get? key with
      | none => .error .keyError
      | some t =>
        if kind = "contour" ∨ kind = "colormesh" then .ok (.mesh key.2 key.1 t.f2Values t.f1Values t.pdValues)
        else .error .unboundLocalError
    | none =>
      match c.pdSingle.get? f1 with
      | none => .error .keyError
      | some t => .ok (.line f1 t.fValues t.pdValues)

/-- `plot_zenplot` of a method object -/
def PdpMethod.zenplot {G L : Type} (s : PdpMethod G L F V K) (len : Int) (kind : String) : Except Err (ZenPlot F V K) :=
  plotZenplot (s.pdc.map CalcObj.obj) s.ovo len kind

/-- `plot_profile` of a method object -/
def PdpMethod.profile {G L : Type} (s : PdpMethod G L F V K) (f1 : F) (f2 : Option F) (kind : String) :
    Except Err (Profile F V K) :=
  plotProfile (s.pdc.map CalcObj.obj) f1 f2 kind

end Artemis
