import Verif.Model.PdpMethod

/-!
# Which data frame object a calculator holds

`sample_if_not_none` returns the caller's own frame when `n` is `None` and a new frame otherwise
(`artemis/_utilities/ops.py:18-22`), and a calculator keeps the frame it is given without copying it
(`artemis/_utilities/pd_calculator.py:15`, called from
`artemis/interactions_methods/model_agnostic/partial_dependence_based/_pdp.py:79-92`). So a calculator built by a `fit`
with `n=None` sees every later in-place change of the caller's frame, and one built by a `fit` with sampling sees none.
The arrays `f_values` and `pd_values` are computed from the frame and do not follow it (`pd_calculator.py:18-36`).

Simplification: only changes of the cell values or row labels are described (`X.loc[i, c] = v`, `X[c] = ...`); the number
of rows, stored separately by the calculator (`pd_calculator.py:16`), is meant to stay the same.
-/

namespace Artemis
variable {L F V K : Type}

/-- the calculator after the frame object it holds was changed in place to `X'` -/
def CalcObj.withFrame (co : CalcObj L F V K) (X' : LFrame L F V) : CalcObj L F V K :=
  { co with labels := X'.labels, obj := { co.obj with X := X'.frame } }

/-- the calculator built by a `fit` with arguments `a`, after the caller changed the frame passed to that `fit` in place
to `X'` -/
def CalcObj.afterEdit (co : CalcObj L F V K) (a : PdArgs L F V K) (X' : LFrame L F V) : CalcObj L F V K :=
  match a.n with
  | none => co.withFrame X'
  | some _ => co

end Artemis
