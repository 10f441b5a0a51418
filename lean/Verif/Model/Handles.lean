import Verif.Proofs.PDCalcHist

/-!
# The arrays a calculator hands out

`get_pd_single(feature)`, `get_pd_pairs(feature1, feature2)` and `get_pd_minus_single(feature)` return the calculator's own arrays
(`artemis/_utilities/pd_calculator.py:39-40, 49-51, 61-62`), which are created once (`:18-36`) and from then on only assigned to entry by entry
(`:142, 150, 156`). With `feature_values` the lookups fill a new array (`:41-45, 54-59`). So a caller who writes into a returned array
writes into the calculator in the first case. An array of the calculator is named here by its place; places never change their array.
-/

namespace Artemis

variable {F V N : Type}

/-- An array object of a calculator: the entries `pd_values` of the three tables. -/
inductive ArrRef (F : Type)
  | single (f : F)
  | pair (k : F × F)
  | minus (f : F)

/-- An array in the caller's hands: a new one with its current contents, or one of the calculator's. -/
inductive Handle (F N : Type)
  | own (xs : List N)
  | ofCalc (a : ArrRef F)

/-- A calculator and the arrays its caller got from it so far. -/
structure Session (F V N : Type) where
  cal : Calc F V N
  got : List (Handle F N)

/-- What a caller does: call `calculate_*`, look something up and keep the array, write into the `h`-th array kept (at `[i]`, for matrices at
`[i, j]`). -/
inductive CallerOp (F V N : Type)
  | compute (op : PDOp F)
  | getSingle (f : F) (vs : Option (List V))
  | getPairs (f1 f2 : F) (vs : Option (List (V × V)))
  | getMinus (f : F)
  | write (h i j : Nat) (x : N)

section
variable [DecidableEq F] [LinearOrder V] [Flt N]

/-- `array[i] = x` (`array[i, j] = x`) for an array of the calculator; IndexError outside -/
def Calc.writeArr (a : ArrRef F) (i j : Nat) (x : N) : PyM (Calc F V N) Unit := fun c =>
  match a with
  | .single f => match c.pdSingle.get? f with
    | none => (.error .keyError, c)
    | some t => if i < t.pdValues.length then (.ok (), { c with pdSingle := c.pdSingle.set f { t with pdValues := t.pdValues.set i x } })
        else (.error .indexError, c)
  | .pair k => match c.pdPairs.get? k with
    | none => (.error .keyError, c)
    | some t => match t.pdValues[i]? with
      | none => (.error .indexError, c)
      | some row => if j < row.length then
            (.ok (), { c with pdPairs := c.pdPairs.set k { t with pdValues := t.pdValues.set i (row.set j x) } })
          else (.error .indexError, c)
  | .minus f => match c.pdMinus.get? f with
    | none => (.error .keyError, c)
    | some t => if i < t.length then (.ok (), { c with pdMinus := c.pdMinus.set f (t.set i x) }) else (.error .indexError, c)

/-- keep a returned array -/
def Session.keep (s : Session F V N) (r : Except Err (Handle F N)) : Except Err Unit × Session F V N :=
  match r with
  | .error e => (.error e, s)
  | .ok h => (.ok (), { s with got := s.got ++ [h] })

/-- One step of the caller. -/
def CallerOp.run (op : CallerOp F V N) : PyM (Session F V N) Unit := fun s =>
  match op with
  | .compute op => ((op.run s.cal).1, { s with cal := (op.run s.cal).2 })
  | .getSingle f none => s.keep ((s.cal.getSingleAll f).map fun _ => .ofCalc (.single f))
  | .getSingle f (some vs) => s.keep ((s.cal.getSingle f vs).map .own)
  | .getPairs f1 f2 none => s.keep ((s.cal.getPairsAll f1 f2).map fun _ => .ofCalc (.pair (s.cal.pairKey (f1, f2))))
  | .getPairs f1 f2 (some vs) => s.keep ((s.cal.getPairs f1 f2 vs).map .own)
  | .getMinus f => s.keep ((s.cal.getMinus f).map fun _ => .ofCalc (.minus f))
  | .write h i j x =>
    match s.got[h]? with
    | none => (.error .indexError, s)
    | some (.own xs) => if i < xs.length then (.ok (), { s with got := s.got.set h (.own (xs.set i x)) }) else (.error .indexError, s)
    | some (.ofCalc a) => ((s.cal.writeArr a i j x).1, { s with cal := (s.cal.writeArr a i j x).2 })

/-- The session after a list of steps (exceptions are caught by the caller). -/
def runSession (s : Session F V N) : List (CallerOp F V N) → Session F V N
  | [] => s
  | op :: ops => runSession (op.run s).2 ops

/-- The current contents of an array kept (matrices: its rows). -/
def Session.read (s : Session F V N) (h : Nat) : Option (List (List N)) :=
  match s.got[h]? with
  | none => none
  | some (.own xs) => some [xs]
  | some (.ofCalc (.single f)) => (s.cal.pdSingle.get? f).map fun t => [t.pdValues]
  | some (.ofCalc (.pair k)) => (s.cal.pdPairs.get? k).map fun t => t.pdValues
  | some (.ofCalc (.minus f)) => (s.cal.pdMinus.get? f).map fun t => [t]

end
end Artemis
