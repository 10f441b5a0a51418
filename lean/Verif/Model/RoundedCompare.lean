import Verif.Model.RoundedTrees

/-!
# Comparison view of conditional minimal depth in floating-point arithmetic

The same code as `CmdMethod.compareOvo` in `Verif/Model/CMD.lean`, with the mean of a group as pandas computes it
(`artemis/interactions_methods/model_specific/random_forest/_conditional_minimal_depth.py:54-64`).
-/

namespace Artemis
variable {F I K : Type} [Field K] [LinearOrder K] (A : Arith K)

/-- pandas' mean of a group of numbers: missing values are skipped, the others added with compensation (`kahanSum`) and divided by their
number, as `nanMean`; `_conditional_minimal_depth.py:61`. -/
def nanMeanR (l : List (Num K)) : Num K :=
  let vs := l.filter (fun x => !x.isNaN)
  if vs.isEmpty then .nan else A.div (kahanSum A vs) (Num.ofNat vs.length)

/-- Models: `_conditional_minimal_depth.py:54-64` (`_compare_ovo`), as `CmdMethod.compareOvo`. -/
def CmdMethod.compareOvoR [LinearOrder F] [LinearOrder I] (E : CmdEnv F I K) (s : CmdMethod F K) :
    Except Err (List (CmdRow F K)) :=
  match s.ovo with
  | none => .error .methodNotFitted
  | some ovo =>
    .ok (E.sortCmp ((npUnique (ovo.map (fun r => pairId E.join r.root r.var))).filterMap (fun i =>
      let g := ovo.filter (fun r => decide (pairId E.join r.root r.var = i))
      match g with
      | [] => none
      | r :: rs => some ⟨r.root, r.var, nanMeanR A ((r :: rs).map CmdRow.val), 0⟩)))

end Artemis
