import Verif.Model.PdpVis
import Mathlib.Data.List.Nodup

/-!
# C99: `PartialDependenceVisualizer.plot`
-/

namespace Artemis

variable {M X Fs V Z : Type}

/-- **C99 fails** for all inputs: whatever the model, the data, the features and the options, `plot` raises a TypeError (the keyword
`_ax` is unknown to `from_estimator`) and leaves an empty figure without title behind. -/
theorem C99_plot_always_raises (draw : DisplayCall M X Fs V → Except Err Unit) (model : M) (data : X) (features : Fs)
    (gridResolution : Int) (title : String) (figsize : Z) (kwargs : List (String × V)) (figs : List (Fig M X Fs V Z)) :
    pdpPlot fromEstimatorSig draw model data features gridResolution title figsize kwargs figs =
      (.error .typeError, figs ++ [⟨figsize, none, []⟩]) := by
  have hb : fromEstimatorSig.binds (((⟨model, data, features, ("grid_resolution", .resolution gridResolution) ::
      ("_ax", .axes figs.length) :: kwargs.map (fun q => (q.1, .option q.2))⟩ : DisplayCall M X Fs V)).keywords.map Prod.fst) = false := by
    simp only [Signature.binds, List.map_cons, List.all_cons]
    rw [show (!decide ("_ax" ∈ fromEstimatorSig.positional) && (decide ("_ax" ∈ fromEstimatorSig.keywords) || fromEstimatorSig.varKeywords)) = false
      by decide]
    simp
  simp only [pdpPlot, hb]
  rfl

/-- **C99** (partial: for a signature that accepts `_ax` and the options given, none of them twice, as that of another version of
scikit-learn might) one figure of the size asked for is opened; on its axes exactly the requested features are drawn, for the model
and the data of the visualizer, with the grid resolution and all options passed on unchanged; the title is set. Open figures stay as
they are. Missing: the installed version, for which `C99_plot_always_raises`. -/
theorem C99_plot_draws_partial {sig : Signature} (hpos : ∀ k ∈ sig.positional, k ≠ "grid_resolution" ∧ k ≠ "_ax")
    (hgr : "grid_resolution" ∈ sig.keywords ∨ sig.varKeywords = true) (hax : "_ax" ∈ sig.keywords ∨ sig.varKeywords = true)
    {draw : DisplayCall M X Fs V → Except Err Unit} (model : M) (data : X) (features : Fs) (gridResolution : Int) (title : String)
    (figsize : Z) {kwargs : List (String × V)} (hnd : (kwargs.map Prod.fst).Nodup)
    (hkw : ∀ k ∈ kwargs.map Prod.fst, k ∉ sig.positional ∧ (k ∈ sig.keywords ∨ sig.varKeywords = true) ∧ k ≠ "grid_resolution" ∧ k ≠ "_ax")
    (figs : List (Fig M X Fs V Z)) (hd : ∀ call, draw call = .ok ()) :
    ∃ call : DisplayCall M X Fs V,
      pdpPlot sig draw model data features gridResolution title figsize kwargs figs = (.ok (), figs ++ [⟨figsize, some title, [call]⟩]) ∧
      call.model = model ∧ call.data = data ∧ call.features = features ∧
      ("grid_resolution", .resolution gridResolution) ∈ call.keywords ∧ ("_ax", .axes figs.length) ∈ call.keywords ∧
      (∀ k v, (k, v) ∈ kwargs → (k, .option v) ∈ call.keywords) ∧
      ∀ k v, (k, .option v) ∈ call.keywords → (k, v) ∈ kwargs := by
  refine ⟨⟨model, data, features, ("grid_resolution", .resolution gridResolution) :: ("_ax", .axes figs.length) ::
    kwargs.map (fun q => (q.1, .option q.2))⟩, ?_, rfl, rfl, rfl, by simp, by simp, ?_, ?_⟩
  · have hm : (kwargs.map (fun q => (q.1, KwValue.option q.2))).map Prod.fst = kwargs.map Prod.fst := by
      rw [List.map_map]; rfl
    have hb : sig.binds ("grid_resolution" :: "_ax" :: kwargs.map Prod.fst) = true := by
      unfold Signature.binds
      rw [Bool.and_eq_true, decide_eq_true_eq, List.all_eq_true]
      constructor
      · rw [List.nodup_cons, List.nodup_cons]
        refine ⟨?_, ?_, hnd⟩
        · intro hh
          rcases List.mem_cons.1 hh with hh | hh
          · exact absurd hh (by decide)
          · exact (hkw _ hh).2.2.1 rfl
        · intro hh
          exact (hkw _ hh).2.2.2 rfl
      · intro k hk
        rw [Bool.and_eq_true, Bool.or_eq_true, Bool.not_eq_true', decide_eq_false_iff_not, decide_eq_true_eq]
        rcases List.mem_cons.1 hk with rfl | hk
        · exact ⟨fun hh => (hpos _ hh).1 rfl, hgr⟩
        rcases List.mem_cons.1 hk with rfl | hk
        · exact ⟨fun hh => (hpos _ hh).2 rfl, hax⟩
        · exact ⟨(hkw k hk).1, (hkw k hk).2.1⟩
    simp only [pdpPlot, List.map_cons, hm, hb, hd, if_true]
  · intro k v h
    exact List.mem_cons_of_mem _ (List.mem_cons_of_mem _ (List.mem_map.2 ⟨(k, v), h, rfl⟩))
  · intro k v h
    rcases List.mem_cons.1 h with h | h
    · cases h
    rcases List.mem_cons.1 h with h | h
    · cases h
    · obtain ⟨q, hq, e⟩ := List.mem_map.1 h
      cases e
      exact hq

/-! ## Cases -/

section Cases

/-- a call with an option that `from_estimator` does know -/
example : pdpPlot fromEstimatorSig (fun _ => .ok ()) (M := Nat) (X := Nat) 1 2 ["a"] 100 "Partial Dependence" (12, 6) [("kind", "both")] []
    = (.error .typeError, [⟨(12, 6), none, []⟩]) :=
  C99_plot_always_raises _ _ _ _ _ _ _ _ _

/-- with the keyword spelt `ax` in the signature as `_ax`, the same call would draw -/
example : ∃ call, pdpPlot { fromEstimatorSig with keywords := "_ax" :: fromEstimatorSig.keywords } (fun _ => .ok ()) (M := Nat) (X := Nat) 1 2
    ["a"] 100 "Partial Dependence" (12, 6) [("kind", "both")] [] = (.ok (), [⟨(12, 6), some "Partial Dependence", [call]⟩]) := by
  obtain ⟨call, h, _⟩ := C99_plot_draws_partial (M := Nat) (X := Nat) (Z := Nat × Nat)
    (sig := { fromEstimatorSig with keywords := "_ax" :: fromEstimatorSig.keywords }) (draw := fun _ => .ok ()) (by decide) (by decide)
    (by decide) 1 2 ["a"] 100 "Partial Dependence" (12, 6) (kwargs := [("kind", "both")]) (by decide) (by decide) [] (fun _ => rfl)
  exact ⟨call, h⟩

end Cases

end Artemis
