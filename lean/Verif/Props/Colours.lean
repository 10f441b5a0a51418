import Verif.Model.Colours
import Verif.Props.Summary

/-!
# C130: darker cells of the heatmap mean stronger interactions and more important features
-/

set_option linter.unusedSectionVars false
set_option linter.unusedVariables false
set_option linter.unusedSimpArgs false

namespace Artemis
open Spec

/-- **Specification.** Interaction metrics of split score for which a smaller value is a stronger interaction. -/
def Spec.smallerStronger : SsMetric → Bool
  | .meanDepth => true
  | _ => false

/-- **Specification.** Importance metrics of split score for which a smaller value means a more important feature. -/
def Spec.smallerImportant : SsMetric → Bool
  | .meanDepth => true
  | .meanWeightedDepth => true
  | _ => false

/-- **Specification.** Of two finite numbers shown by `cells` the stronger one (the smaller one if `smaller`) has the darker cell;
equal numbers are equally dark; darkness is between 0 (white) and 1. -/
def Spec.DarkerIsStronger {K : Type} [Field K] [LinearOrder K] (smaller : Bool) (cells : List (Num K)) (dark : Num K → Option (Num K)) : Prop :=
  ∀ x y : K, .fin x ∈ cells → .fin y ∈ cells → ∃ a b : K, dark (.fin x) = some (.fin a) ∧ dark (.fin y) = some (.fin b) ∧
    0 ≤ a ∧ a ≤ 1 ∧ (a < b ↔ if smaller then y < x else x < y)

/-- numbers of a table: finite or missing -/
def FinOrNaN {K : Type} (x : Num K) : Prop := x = .nan ∨ ∃ k, x = .fin k

section Shade
variable {F I K : Type} [LinearOrder F] [Field K] [LinearOrder K] [IsStrictOrderedRing K]

theorem skip_fin {drawn : List (Num K)} (h : ∀ c ∈ drawn, FinOrNaN c) (hne : ∃ x, .fin x ∈ drawn) :
    ∃ lo hi, minSkip drawn = .fin lo ∧ maxSkip drawn = .fin hi ∧ (∀ x, .fin x ∈ drawn → lo ≤ x ∧ x ≤ hi) ∧ .fin lo ∈ drawn ∧ .fin hi ∈ drawn := by
  obtain ⟨x0, hx0⟩ := hne
  set l := drawn.filter (fun x => !x.isNaN) with hl
  have hmem : ∀ {x}, .fin x ∈ drawn → (.fin x : Num K) ∈ l := fun hx => List.mem_filter.2 ⟨hx, rfl⟩
  have hfin : ∀ c ∈ l, c = .fin (Num.toK c) := by
    intro c hc
    obtain ⟨hc1, hc2⟩ := List.mem_filter.1 hc
    rcases h c hc1 with rfl | ⟨k, rfl⟩
    · simp [Num.isNaN] at hc2
    · rfl
  have hlm : l.map (fun a => (.fin (Num.toK a) : Num K)) = l := by
    conv_rhs => rw [← List.map_id l]
    exact List.map_congr_left (fun c hc => (hfin c hc).symm)
  have hln : l ≠ [] := List.ne_nil_of_mem (hmem hx0)
  obtain ⟨a, ha, h1, h2⟩ := maxSkip_fin l Num.toK hln
  obtain ⟨b, hb, h3, h4⟩ := minSkip_fin l Num.toK hln
  rw [hlm] at h1 h3
  have hff : l.filter (fun x => !x.isNaN) = l := by rw [hl, List.filter_filter]; simp
  refine ⟨Num.toK b, Num.toK a, ?_, ?_, ?_, ?_, ?_⟩
  · rw [← h3]; unfold minSkip; rw [hff]
  · rw [← h1]; unfold maxSkip; rw [hff]
  · intro x hx
    exact ⟨h4 _ (hmem hx), h2 _ (hmem hx)⟩
  · rw [← hfin b hb]; exact (List.mem_filter.1 hb).1
  · rw [← hfin a ha]; exact (List.mem_filter.1 ha).1

/-- positions are between 0 and 1 and ordered like the numbers -/
theorem scalePosition_fin {drawn : List (Num K)} (h : ∀ c ∈ drawn, FinOrNaN c) (hne : ∃ x, .fin x ∈ drawn) :
    ∃ t : K → K, ∀ x, .fin x ∈ drawn → scalePosition drawn (.fin x) = .fin (t x) ∧ 0 ≤ t x ∧ t x ≤ 1 ∧
      ∀ y, .fin y ∈ drawn → (t x < t y ↔ x < y) := by
  obtain ⟨lo, hi, h1, h2, h3, h4, h5⟩ := skip_fin h hne
  by_cases heq : lo = hi
  · refine ⟨fun _ => 0, fun x hx => ⟨?_, le_refl _, zero_le_one, fun y hy => ?_⟩⟩
    · unfold scalePosition; rw [h1, h2, heq, if_pos rfl]
    · have hx' := h3 x hx
      have hy' := h3 y hy
      constructor
      · intro hc; exact absurd hc (lt_irrefl _)
      · intro hc
        exact absurd hc (not_lt.2 (hy'.2.trans (heq ▸ hx'.1)))
  · have hlt : 0 < hi - lo := sub_pos.2 (lt_of_le_of_ne (h3 hi h5).1 heq)
    refine ⟨fun x => (x - lo) / (hi - lo), fun x hx => ⟨?_, ?_, ?_, fun y hy => ?_⟩⟩
    · unfold scalePosition
      rw [h1, h2, if_neg (by intro hc; cases hc; exact heq rfl)]
      simp only [Num.sub, Num.neg, Num.add, Num.div, if_neg hlt.ne', sub_eq_add_neg] at *
      have : hi + -lo ≠ 0 := hlt.ne'
      simp [this]
    · exact div_nonneg (sub_nonneg.2 (h3 x hx).1) hlt.le
    · exact (div_le_one hlt).2 (sub_le_sub_right (h3 x hx).2 _)
    · rw [div_lt_div_iff_of_pos_right hlt]
      exact sub_lt_sub_iff_right lo

theorem darker_of (map : Bool → String) (hmap : map false = "Purples" ∧ map true = "Purples_r" ∨ map false = "Greens" ∧ map true = "Greens_r")
    {drawn : List (Num K)} (h : ∀ c ∈ drawn, FinOrNaN c) (rev : Bool) :
    DarkerIsStronger rev drawn (fun x => darkness (map rev) (scalePosition drawn x)) := by
  intro x y hx hy
  obtain ⟨t, ht⟩ := scalePosition_fin h ⟨x, hx⟩
  obtain ⟨ex, x0, x1, xy⟩ := ht x hx
  obtain ⟨ey, y0, y1, yx⟩ := ht y hy
  simp only [ex, ey]
  cases rev with
  | false =>
    refine ⟨t x, t y, ?_, ?_, x0, x1, by simpa using xy y hy⟩ <;>
    · rcases hmap with hm | hm <;> rw [hm.1] <;> simp [darkness]
  | true =>
    refine ⟨1 - t x, 1 - t y, ?_, ?_, sub_nonneg.2 x1, by linarith, ?_⟩
    · rcases hmap with hm | hm <;> rw [hm.2] <;> simp [darkness, Num.sub, Num.neg, Num.add, sub_eq_add_neg]
    · rcases hmap with hm | hm <;> rw [hm.2] <;> simp [darkness, Num.sub, Num.neg, Num.add, sub_eq_add_neg]
    · rw [sub_lt_sub_iff_left]
      simpa using yx x hx

/-! ### Cells of a drawn matrix -/

theorem mem_offCells {m : Mat F K} {f g : F} (hf : f ∈ m.rows) (hg : g ∈ m.cols) (hsq : m.cols = m.rows) (hne : f ≠ g) :
    m.cell f g ∈ offCells m := by
  obtain ⟨i, hi, rfl⟩ := List.getElem_of_mem hf
  obtain ⟨j, hj, rfl⟩ := List.getElem_of_mem hg
  unfold offCells
  rw [List.mem_flatMap]
  refine ⟨(m.rows[i], i), by rw [List.mem_zipIdx_iff_getElem?]; simp [hi], ?_⟩
  rw [List.mem_map]
  refine ⟨(m.cols[j], j), ?_, rfl⟩
  rw [List.mem_filter]
  refine ⟨by rw [List.mem_zipIdx_iff_getElem?]; simp [hj], ?_⟩
  simp only [decide_eq_true_eq]
  intro e
  subst e
  apply hne
  simp only [hsq]

theorem mem_diagCells {m : Mat F K} {f : F} (hf : f ∈ m.rows) (hsq : m.cols = m.rows) : m.cell f f ∈ diagCells m := by
  unfold diagCells
  rw [hsq, List.mem_map]
  refine ⟨(f, f), ?_, rfl⟩
  rw [List.zip_eq_zipWith, List.zipWith_self]
  exact List.mem_map.2 ⟨f, hf, rfl⟩

theorem offCells_sub {m : Mat F K} {c : Num K} (h : c ∈ offCells m) : ∃ f g, c = m.cell f g := by
  unfold offCells at h
  obtain ⟨fi, _, h⟩ := List.mem_flatMap.1 h
  obtain ⟨gj, _, rfl⟩ := List.mem_map.1 h
  exact ⟨_, _, rfl⟩

theorem diagCells_sub {m : Mat F K} {c : Num K} (h : c ∈ diagCells m) : ∃ f g, c = m.cell f g := by
  unfold diagCells at h
  obtain ⟨q, _, rfl⟩ := List.mem_map.1 h
  exact ⟨_, _, rfl⟩

theorem pivot_cell_fin {rows : List (OvoRow F K)} (h : ∀ r ∈ rows, FinOrNaN r.val) (f g : F) : FinOrNaN ((pivotFirst rows).cell f g) := by
  unfold pivotFirst
  simp only []
  cases hf : (rows.filter (fun r => !r.val.isNaN)).find? (fun r => decide (r.f1 = f ∧ r.f2 = g)) with
  | none => exact Or.inl rfl
  | some r => exact h r (List.mem_filter.1 (List.mem_of_find?_eq_some hf)).1

theorem heatmapRows_fin {dir : Bool} {ovo rows : List (OvoRow F K)} {imp : Option (List (FeatRow F K))}
    (h : heatmapRows dir ovo imp = .ok rows) (ho : ∀ r ∈ ovo, FinOrNaN r.val) (hi : ∀ t, imp = some t → ∀ r ∈ t, FinOrNaN r.val) :
    ∀ r ∈ rows, FinOrNaN r.val := by
  have hp : ∀ r ∈ (if dir then ovo else ovo ++ ovo.map (fun r => ⟨r.f2, r.f1, r.val⟩)), FinOrNaN r.val := by
    intro r hr
    cases dir with
    | true => exact ho r hr
    | false =>
      simp only [Bool.false_eq_true, if_false, List.mem_append, List.mem_map] at hr
      rcases hr with hr | ⟨q, hq, rfl⟩
      · exact ho r hr
      · exact ho q hq
  unfold heatmapRows at h
  cases imp with
  | none => cases h; exact hp
  | some t =>
    simp only [] at h
    cases hd : importanceDiag ovo t with
    | error e => rw [hd] at h; cases h
    | ok diag =>
      rw [hd] at h
      cases h
      intro r hr
      rcases List.mem_append.1 hr with hr | hr
      · exact hp r hr
      · obtain ⟨_, ⟨q, hq, _, e⟩, _⟩ := (importanceDiag_ok hd).1 r hr
        rw [← e]; exact hi t rfl q hq

/-- **Specification.** The heatmap panel `p` is coloured so that darker means stronger (off the diagonal; the smaller the stronger if
`si`) and more important (on the diagonal; the smaller the more important if `sp`). -/
def Spec.DarkHeatmap (si sp : Bool) (p : Panel F I K) : Prop :=
  ∃ ti ia a m, p = .heatmap ti ia a m ∧ m.cols = m.rows ∧
    ∃ off diag : List (Num K), (∀ f ∈ m.rows, ∀ g ∈ m.rows, f ≠ g → m.cell f g ∈ off) ∧ (∀ f ∈ m.rows, m.cell f f ∈ diag) ∧
      DarkerIsStronger si off (interShade m none a) ∧ DarkerIsStronger sp diag (impShade m none ia)

theorem dark_of {ti : String} {ia a : Bool} {m : Mat F K} (hsq : m.cols = m.rows) (hc : ∀ f g, FinOrNaN (m.cell f g)) :
    DarkHeatmap (I := I) a ia (.heatmap ti ia a m) := by
  refine ⟨ti, ia, a, m, rfl, hsq, offCells m, diagCells m, fun f hf g hg hne => mem_offCells hf (by rw [hsq]; exact hg) hsq hne,
    fun f hf => mem_diagCells hf hsq, ?_, ?_⟩
  · exact darker_of (interactionMap none) (Or.inl ⟨rfl, rfl⟩) (fun c hc' => by obtain ⟨f, g, rfl⟩ := offCells_sub hc'; exact hc f g) a
  · exact darker_of (importanceMap none) (Or.inr ⟨rfl, rfl⟩) (fun c hc' => by obtain ⟨f, g, rfl⟩ := diagCells_sub hc'; exact hc f g) ia

/-- tables without infinite numbers -/
def NoInfinity (v : View F I K) : Prop :=
  (∀ t, v.ovo = some t → ∀ r ∈ t, FinOrNaN r.val) ∧ ∀ t, v.imp = some t → ∀ r ∈ t, FinOrNaN r.val

theorem heat_dark {v : View F I K} (hv : NoInfinity v) {E : VisEnv F K} (hE : ∀ key asc, SortsBy key asc (E.sortIdx key asc)) {title : String} {o : Opts K} {sub : SubOpts K}
    {ps : List (Panel F I K)} (h : v.plot E "heatmap" title o sub = .ok ps) :
    ∃ p ia, ps = [p] ∧ v.impAsc = some ia ∧ DarkHeatmap v.asc ia p := by
  obtain ⟨ovo, ia, rows, m, ho, hi, hr, hm, rfl⟩ := heat_inv h
  obtain ⟨_, hsq, _, hc⟩ := C58_permutes hE hm
  refine ⟨_, ia, rfl, hi, dark_of hsq (fun f g => ?_)⟩
  rw [hc]
  exact pivot_cell_fin (heatmapRows_fin hr (hv.1 ovo ho) hv.2) f g

theorem summary_dark {v : View F I K} (hv : NoInfinity v) {E : VisEnv F K} (hE : ∀ key asc, SortsBy key asc (E.sortIdx key asc)) {title : String} {o : Opts K} {sub : SubOpts K}
    {ps : List (Panel F I K)} (h : v.plot E "summary" title o sub = .ok ps) :
    ∃ p rest, ps = p :: rest ∧ DarkHeatmap v.asc false p := by
  obtain ⟨ovo, ia, cfg, ph, pg, ho, hi, hc, hph, hpg, rfl⟩ := summary_inv h
  refine ⟨ph, _, rfl, ?_⟩
  unfold plotHeatmap at hph
  cases hr : heatmapRows v.directed ovo v.imp with
  | error e => rw [hr] at hph; cases hph
  | ok rows =>
    rw [hr] at hph
    simp only [] at hph
    cases hm : orderHeatmap E (pivotFirst rows) v.asc with
    | error e => rw [hm] at hph; cases hph
    | ok m =>
      rw [hm] at hph
      cases hph
      obtain ⟨_, hsq, _, hc⟩ := C58_permutes hE hm
      refine dark_of hsq (fun f g => ?_)
      rw [hc]
      exact pivot_cell_fin (heatmapRows_fin hr (hv.1 ovo ho) hv.2) f g

end Shade

section Methods
variable {F I V K G L J : Type} [LinearOrder F] [LinearOrder I] [LinearOrder V] [LinearOrder J] [Field K] [LinearOrder K] [IsStrictOrderedRing K]
variable {E : VisEnv F K} {title : String} {o : Opts K} {sub : SubOpts K} {ps : List (Panel F I K)}

/-- **C130** H-statistic and Greenwell: in the heatmap, alone or as part of the summary, a darker cell means a larger interaction or a
larger importance. -/
theorem C130_pd_heatmap_partial {sort : PairSort F K} {kind : PdKind} {s : PdpMethod G L F V K}
    (hv : NoInfinity (PdpMethod.view (I := I) sort kind s)) (hE : ∀ key asc, SortsBy key asc (E.sortIdx key asc)) {visType : String}
    (ht : visType = "heatmap" ∨ visType = "summary") (h : (PdpMethod.view sort kind s).plot E visType title o sub = .ok ps) :
    ∃ p rest, ps = p :: rest ∧ DarkHeatmap false false p := by
  rcases ht with rfl | rfl
  · obtain ⟨p, ia, rfl, hi, hd⟩ := heat_dark hv hE h
    have : ia = false := by
      simp only [PdpMethod.view] at hi
      split at hi
      · cases hi; rfl
      · cases hi
    subst this
    exact ⟨p, [], rfl, hd⟩
  · obtain ⟨p, rest, rfl, hd⟩ := summary_dark hv hE h
    exact ⟨p, rest, rfl, hd⟩

/-- **C130** Sejong Oh, likewise. -/
theorem C130_sejong_heatmap_partial {sort : PairSort F K} {s : Sejong G L F V K}
    (hv : NoInfinity (Sejong.view (I := I) sort s)) (hE : ∀ key asc, SortsBy key asc (E.sortIdx key asc)) {visType : String}
    (ht : visType = "heatmap" ∨ visType = "summary") (h : (Sejong.view sort s).plot E visType title o sub = .ok ps) :
    ∃ p rest, ps = p :: rest ∧ DarkHeatmap false false p := by
  rcases ht with rfl | rfl
  · obtain ⟨p, ia, rfl, hi, hd⟩ := heat_dark hv hE h
    have : ia = false := by
      simp only [Sejong.view] at hi
      split at hi
      · cases hi; rfl
      · cases hi
    subst this
    exact ⟨p, [], rfl, hd⟩
  · obtain ⟨p, rest, rfl, hd⟩ := summary_dark hv hE h
    exact ⟨p, rest, rfl, hd⟩

/-- **C130** conditional minimal depth: in the heatmap a darker cell means a smaller depth, for interactions and for importance.
Missing: the heatmap inside the summary, see `C130_summary_fails`. -/
theorem C130_cmd_heatmap_partial {E' : CmdEnv F J K} {s : CmdMethod F K}
    (hv : NoInfinity (CmdMethod.view (I := I) E' s)) (hE : ∀ key asc, SortsBy key asc (E.sortIdx key asc))
    (h : (CmdMethod.view E' s).plot E "heatmap" title o sub = .ok ps) :
    ∃ p, ps = [p] ∧ DarkHeatmap true true p := by
  obtain ⟨p, ia, rfl, hi, hd⟩ := heat_dark hv hE h
  have : ia = true := by
    simp only [CmdMethod.view] at hi
    split at hi
    · cases hi; rfl
    · cases hi
  subst this
  exact ⟨p, rfl, hd⟩

theorem ss_fit_metrics {E' : SsEnv F K} {a : GbArg F I K} {inter imp : SsMetric} {onlyDef : Bool} {s0 s : SsMethod F I K} {r : Except Err Unit}
    (hf : SsMethod.fit E' a inter imp onlyDef s0 = (r, s)) (hr : r = .ok ()) : s.metric = some inter ∧ s.impMetric = some (some imp) := by
  subst hr
  unfold SsMethod.fit at hf
  split at hf
  · cases hf
  · split at hf
    · cases hf
    · split at hf
      · cases hf
      · simp only [] at hf
        split at hf
        · cases hf
        · split at hf
          · cases hf
          · cases hf; exact ⟨rfl, rfl⟩

/-- **C130** split score: after `fit` with any two metrics a darker cell of the heatmap means a stronger interaction and a more
important feature in the sense of the metrics chosen. Missing: the heatmap inside the summary for the depth metrics of importance. -/
theorem C130_split_score_heatmap_partial {sort : PairSort F K} {E' : SsEnv F K} {a : GbArg F I K} {inter imp : SsMetric} {onlyDef : Bool}
    {s0 s : SsMethod F I K} (hf : SsMethod.fit E' a inter imp onlyDef s0 = (.ok (), s))
    (hv : NoInfinity (SsMethod.view sort s)) (hE : ∀ key asc, SortsBy key asc (E.sortIdx key asc))
    (h : (SsMethod.view sort s).plot E "heatmap" title o sub = .ok ps) :
    ∃ p, ps = [p] ∧ DarkHeatmap (smallerStronger inter) (smallerImportant imp) p := by
  obtain ⟨h1, h2⟩ := ss_fit_metrics hf rfl
  obtain ⟨p, ia, rfl, hi, hd⟩ := heat_dark hv hE h
  have hia : ia = smallerImportant imp := by
    simp only [SsMethod.view, h2, Option.map_some, Option.some.injEq] at hi
    rw [← hi]
    cases imp <;> rfl
  have ha : (SsMethod.view sort s).asc = smallerStronger inter := by
    simp only [SsMethod.view, SsMethod.ascending, h1]
    cases inter <;> rfl
  rw [ha, hia] at hd
  exact ⟨p, rfl, hd⟩

/-- **C130** the summary: interactions are coloured like in the separate heatmap, the importances always as if larger meant more
important. -/
theorem C130_summary_partial {v : View F I K} (hv : NoInfinity v) (hE : ∀ key asc, SortsBy key asc (E.sortIdx key asc))
    (h : v.plot E "summary" title o sub = .ok ps) :
    ∃ p rest, ps = p :: rest ∧ DarkHeatmap v.asc false p :=
  summary_dark hv hE h

/-- **C130 fails** in the summary of conditional minimal depth: of two features in the matrix the one with the smaller minimal
depth, the more important one, has the lighter cell. -/
theorem C130_summary_fails {E' : CmdEnv F J K} {s : CmdMethod F K} (hv : NoInfinity (CmdMethod.view (I := I) E' s))
    (hE : ∀ key asc, SortsBy key asc (E.sortIdx key asc)) (h : (CmdMethod.view E' s).plot E "summary" title o sub = .ok ps) :
    ∃ ti ia a m rest, ps = .heatmap ti ia a m :: rest ∧ ∀ f ∈ m.rows, ∀ g ∈ m.rows, ∀ x y, m.cell f f = .fin x → m.cell g g = .fin y →
      x < y → ∃ a b, impShade m none ia (m.cell f f) = some (.fin a) ∧ impShade m none ia (m.cell g g) = some (.fin b) ∧ a < b := by
  obtain ⟨p, rest, rfl, ti, ia, a, m, rfl, hsq, off, diag, h1, h2, h3, h4⟩ := summary_dark hv hE h
  refine ⟨ti, ia, a, m, rest, rfl, fun f hf g hg x y ex ey hlt => ?_⟩
  obtain ⟨a', b', e1, e2, _, _, e3⟩ := h4 x y (ex ▸ h2 f hf) (ey ▸ h2 g hg)
  rw [ex, ey]
  exact ⟨a', b', e1, e2, e3.2 (by simpa using hlt)⟩

end Methods

/-! ## Cases -/

section Cases

/-- the darkness of the diagonal and of the cells off it in the first panel -/
def shadesOf {F I : Type} [DecidableEq F] (r : Except Err (List (Panel F I ℚ))) :
    Option (List F × List (Option (Num ℚ)) × List (Option (Num ℚ))) :=
  match r with
  | .ok (.heatmap _ ia a m :: _) => some (m.rows, (diagCells m).map (impShade m none ia), (offCells m).map (interShade m none a))
  | _ => none

/-- importances of three features -/
def exImpC : List (FeatRow (Fin 4) ℚ) := [⟨0, .fin 3⟩, ⟨1, .fin 1⟩, ⟨2, .fin 2⟩]

/-- larger is stronger -/
example : shadesOf ((exShow hStatName [⟨0, 1, .fin 5⟩, ⟨1, 2, .fin 2⟩, ⟨0, 2, .fin 1⟩] (some exImpC) false false).plot exVis "heatmap" "default" {} []) =
    some ([0, 1, 2], [some (.fin 1), some (.fin 0), some (.fin (1 / 2))],
      [some (.fin 1), some (.fin 0), some (.fin 1), some (.fin (1 / 4)), some (.fin 0), some (.fin (1 / 4))]) := by decide +kernel

/-- smaller is stronger, alone -/
example : shadesOf ((exShow cmdName [⟨0, 1, .fin 5⟩, ⟨1, 2, .fin 2⟩, ⟨2, 0, .fin 1⟩] (some exImpC) true true).plot exVis "heatmap" "default" {} []) =
    some ([1, 0, 2], [some (.fin 1), some (.fin 0), some (.fin (1 / 2))],
      [some .nan, some (.fin (3 / 4)), some (.fin 0), some .nan, some .nan, some (.fin 1)]) := by decide +kernel

/-- a fitted conditional minimal depth object -/
def exCmdFit : CmdMethod (List Nat) ℚ := (CmdMethod.fit (exCmdEnv ℚ) exChains CmdMethod.new).2

/-- **C130 fails** for the summary of a fitted object: the root feature a, with minimal depth 0 the most important one, has the
darkest cell on the diagonal of the separate heatmap and the lightest one in the summary. -/
theorem C130_fails : (CmdMethod.fit (exCmdEnv ℚ) exChains CmdMethod.new).1 = .ok () ∧
    exCmdFit.importance.map (fun t => t.map (fun r => (r.f, r.val))) =
      some [([97], .fin 0), ([98], .fin 1), ([99], .fin (3 / 2))] ∧
    (shadesOf ((CmdMethod.view (I := Nat) (exCmdEnv ℚ) exCmdFit).plot exVisList "heatmap" "default" {} [])).map (fun q => (q.1, q.2.1)) =
      some ([[97], [98], [99]], [some (.fin 1), some (.fin (1 / 3)), some (.fin 0)]) ∧
    (shadesOf ((CmdMethod.view (I := Nat) (exCmdEnv ℚ) exCmdFit).plot exVisList "summary" "default" {} [])).map (fun q => (q.1, q.2.1)) =
      some ([[97], [98], [99]], [some (.fin 0), some (.fin (2 / 3)), some (.fin 1)]) := by
  decide +kernel

/-- split score with two depth metrics: the smaller the darker -/
example : (SsMethod.fit exSsEnv (.model exXgb) .meanDepth .meanDepth false SsMethod.new).1 = .ok () ∧
    (shadesOf ((SsMethod.view exPairSort (SsMethod.fit exSsEnv (.model exXgb) .meanDepth .meanDepth false SsMethod.new).2).plot
      exVisNat "heatmap" "default" {} [])).isSome = true := by decide +kernel

end Cases

end Artemis
