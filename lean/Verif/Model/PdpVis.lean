import Verif.Model.Py

/-!
# `artemis/visualizer/_pdp_visualizer.py`

`PartialDependenceVisualizer` hands everything to scikit-learn's `PartialDependenceDisplay.from_estimator`. What is modelled
is the call itself: how Python binds its arguments, the figure created before and the title set after. `M` are models, `X`
data, `Fs` the argument `features`, `V` values of options.
-/

namespace Artemis

/-- Names of the parameters of a function: positional ones, keyword ones, and whether it takes `**kwargs`. -/
structure Signature where
  positional : List String
  keywords : List String
  varKeywords : Bool

/-- `PartialDependenceDisplay.from_estimator` of scikit-learn 1.2.0 (the version of `poetry.lock`), without `cls`. -/
def fromEstimatorSig : Signature where
  positional := ["estimator", "X", "features"]
  keywords := ["categorical_features", "feature_names", "target", "response_method", "n_cols", "grid_resolution", "percentiles",
    "method", "n_jobs", "verbose", "line_kw", "ice_lines_kw", "pd_line_kw", "contour_kw", "ax", "kind", "centered", "subsample",
    "random_state"]
  varKeywords := false

/-- Does a call that fills all positional parameters by position bind with these keywords? A keyword given twice, a keyword that
names a filled parameter and a keyword without parameter are TypeErrors. -/
def Signature.binds (s : Signature) (keywords : List String) : Bool :=
  decide keywords.Nodup && keywords.all (fun k => !decide (k ∈ s.positional) && (decide (k ∈ s.keywords) || s.varKeywords))

/-- Values of keywords: an option of the user, the grid resolution, the axes of figure number `n`. -/
inductive KwValue (V : Type)
  | option (v : V)
  | resolution (n : Int)
  | axes (figure : Nat)
  deriving DecidableEq

/-- A call of `from_estimator`. -/
structure DisplayCall (M X Fs V : Type) where
  model : M
  data : X
  features : Fs
  keywords : List (String × KwValue V)

/-- A figure: size, title, and what has been drawn on its axes. -/
structure Fig (M X Fs V Z : Type) where
  size : Z
  title : Option String
  drawn : List (DisplayCall M X Fs V)

section
variable {M X Fs V Z : Type}

/-- Models: `_pdp_visualizer.py:57-63` (`plot`); the state is the list of open figures. `sig` is the signature of
`from_estimator`, `draw` says whether it completes once its arguments are bound; it draws on the figure just created. -/
def pdpPlot (sig : Signature) (draw : DisplayCall M X Fs V → Except Err Unit) (model : M) (data : X) (features : Fs)
    (gridResolution : Int) (title : String) (figsize : Z) (kwargs : List (String × V)) : PyM (List (Fig M X Fs V Z)) Unit := fun figs =>
  let call : DisplayCall M X Fs V := ⟨model, data, features,
    ("grid_resolution", .resolution gridResolution) :: ("_ax", .axes figs.length) :: kwargs.map (fun q => (q.1, .option q.2))⟩
  if sig.binds (call.keywords.map Prod.fst) then
    match draw call with
    | .error e => (.error e, figs ++ [⟨figsize, none, []⟩])
    | .ok () => (.ok (), figs ++ [⟨figsize, some title, [call]⟩])
  else (.error .typeError, figs ++ [⟨figsize, none, []⟩])

end

end Artemis
