import Verif.Model.PdpMethod

/-!
# Stand-alone PD based importance

Models `artemis/importance_methods/model_agnostic/_pdp.py`. The constructor passes no `random_state`
(`_pdp.py:44-46`, `importance_methods/_method.py:20-23`): `rng` of a new object comes from operating system entropy.
-/

namespace Artemis

variable {F V K G L : Type} [DecidableEq F] [LinearOrder V] [Field K] [LinearOrder K] [DecidableEq L] [HasSqrt K]

/-- State of a `PartialDependenceBasedImportance` object. -/
structure PdImpObj (G L F V K : Type) where
  rng : G
  predictFn : Option (PF F V (Num K))
  xSampled : Option (LFrame L F V)
  features : Option (List F)
  pdc : Option (CalcObj L F V K)
  importance : Option (List (FeatRow F K))

/-- A freshly constructed object. -/
def PdImpObj.new (rng : G) : PdImpObj G L F V K := ⟨rng, none, none, none, none, none⟩

/-- Models: `importance_methods/model_agnostic/_pdp.py:92-110` (`importance`). The arguments are those of `fit` (without
`calculate_ova`, which is ignored here); the choice of the calculator (lines 97-104) is the same code as in
`PartialDependenceBasedMethod.fit`. -/
def PdImpObj.run (E : PdEnv G F K) (a : PdArgs L F V K) : PyM (PdImpObj G L F V K) (List (FeatRow F K)) := fun s0 =>
  let pf := getPredictFunction a.model a.predictFunction
  let s1 := { s0 with predictFn := pf }
  match sampleIfNotNone E.R a.X a.n s1.rng with
  | (.error e, g) => (.error e, { s1 with rng := g })
  | (.ok Xs, g) =>
    let features := allIfNone a.X.frame.cols a.features
    let s2 := { s1 with rng := g, xSampled := some Xs, features := some features }
    match PdpMethod.chooseCalc a Xs (callable pf) with
    | .error e => (.error e, s2)
    | .ok co =>
      match pdpImportance E.sortFeat (numIn E features) features co.obj with
      | (.error e, c') => (.error e, { s2 with pdc := some { co with obj := c' } })
      | (.ok imp, c') =>
        (.ok imp, { s2 with pdc := some { co with obj := c' }, importance := some imp })

end Artemis
