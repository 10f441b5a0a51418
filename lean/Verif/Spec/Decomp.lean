import Verif.Spec.PD
import Verif.Model.Num

/-!
# Specification vocabulary for explanations of finite-valued models

Written in the field `K`, without reference to the modelled code: brute-force partial dependence as plain averages,
"does not depend on a feature", Friedman's H as in the literature.
-/

namespace Artemis.Spec
variable {F V K : Type} [DecidableEq F]

/-- row `r` with feature `f` set to `v` -/
def setF (r : Row F V) (f : F) (v : V) : Row F V := fun h => if h = f then v else r h

/-- `u` does not depend on feature `f` -/
def Ignores {α : Type} (u : Row F V → α) (f : F) : Prop := ∀ r v, u (setF r f v) = u r

/-- `u` depends on feature `f` only -/
def OnlyUses {α : Type} (u : Row F V → α) (f : F) : Prop := ∀ r r' : Row F V, r f = r' f → u r = u r'

variable [Field K]

/-- plain average of a list of numbers -/
def average (l : List K) : K := l.sum / l.length

/-- partial dependence of `u` on `f` at `v` -/
def pd1 (u : Row F V → K) (X : Frame F V) (f : F) (v : V) : K :=
  average (X.rows.map (fun r => u (setF r f v)))

/-- partial dependence of `u` on `f, f'` at `v, v'` -/
def pd2 (u : Row F V → K) (X : Frame F V) (f f' : F) (v v' : V) : K :=
  average (X.rows.map (fun r => u (setF (setF r f' v') f v)))

/-- partial dependence of `u` on all features but `f`, at row `ri` -/
def pdNot (u : Row F V → K) (X : Frame F V) (f : F) (ri : Row F V) : K :=
  average (X.rows.map (fun r => u (setF ri f (r f))))

/-- `w` centred over the data -/
def centred (X : Frame F V) (w : Row F V → K) (r : Row F V) : K := w r - average (X.rows.map w)

/-- the sum of squares of a quantity over the data -/
def sumSq (X : Frame F V) (w : Row F V → K) : K := (X.rows.map (fun r => w r * w r)).sum

/-- the part of the centred joint partial dependence not explained by the two centred single ones -/
def interaction (u : Row F V → K) (X : Frame F V) (f f' : F) (r : Row F V) : K :=
  centred X (fun r => pd2 u X f f' (r f) (r f')) r - centred X (fun r => pd1 u X f (r f)) r
    - centred X (fun r => pd1 u X f' (r f')) r

/-- the part of the centred prediction not explained by the two centred complementary partial dependences -/
def interactionOva (u : Row F V → K) (X : Frame F V) (f : F) (r : Row F V) : K :=
  centred X u r - centred X (fun r => pd1 u X f (r f)) r - centred X (pdNot u X f) r

/-- the first-order reconstruction of `u` at a row: mean plus the centred single effects -/
def firstOrder (u : Row F V → K) (X : Frame F V) (r : Row F V) : K :=
  average (X.rows.map u) + (X.cols.map (fun f => pd1 u X f (r f) - average (X.rows.map u))).sum

/-- the additivity index of the literature: explained share of the variance -/
def additivity (u : Row F V → K) (X : Frame F V) : K :=
  1 - sumSq X (fun r => u r - firstOrder u X r) / sumSq X (centred X u)

end Artemis.Spec
