import Verif.Model.VisHeap
import Verif.Props.Summary

/-!
# C126: plotting leaves the results alone
-/

set_option linter.unusedSectionVars false
set_option linter.unusedVariables false
set_option linter.unusedSimpArgs false

namespace Artemis
open Spec

section Heap
variable {F I K : Type} [LinearOrder F] [Field K] [LinearOrder K]

/-! ### What a method object shows -/

/-- the rows of the pair table `r` -/
def TabMem.pairsAt (m : TabMem F I K) (r : Option Nat) : Option (List (OvoRow F K)) :=
  r.bind fun r => match m[r]? with
    | some (.pairs rows _) => some rows
    | _ => none

/-- the rows of the feature table `r` -/
def TabMem.featsAt (m : TabMem F I K) (r : Option Nat) : Option (List (FeatRow F K)) :=
  r.bind fun r => match m[r]? with
    | some (.feats rows _) => some rows
    | _ => none

/-- the rows of the table of splits `r` -/
def TabMem.statsAt (m : TabMem F I K) (r : Option Nat) : Option (List (StatRow F I K)) :=
  r.bind fun r => match m[r]? with
    | some (.stats rows _) => some rows
    | _ => none

/-- **Specification.** What the user sees of a method object: the contents of its tables. -/
def MethodRefs.view (a : MethodRefs) (m : TabMem F I K) (cmp : Except Err (List (OvoRow F K))) : View F I K where
  name := a.name
  ovo := m.pairsAt a.ovo
  ova := m.featsAt a.ova
  imp := m.featsAt a.imp
  impAsc := a.impAsc
  asc := a.asc
  directed := a.directed
  full := m.statsAt a.full
  needsOva := a.needsOva
  cmp := cmp

/-- the tables of a method object exist and are of the right kind -/
structure MethodRefs.Wf (a : MethodRefs) (m : TabMem F I K) : Prop where
  ovo : ∀ r, a.ovo = some r → ∃ rows ex, m[r]? = some (.pairs rows ex)
  ova : ∀ r, a.ova = some r → ∃ rows ex, m[r]? = some (.feats rows ex)
  imp : ∀ r, a.imp = some r → ∃ rows ex, m[r]? = some (.feats rows ex)
  full : ∀ r, a.full = some r → ∃ rows ex, m[r]? = some (.stats rows ex)

/-! ### Programs that only add objects -/

/-- `p`, run on any memory with the objects of `m0`, has the result `x` and changes no object there was -/
def Adds (m0 : TabMem F I K) {α : Type} (p : PyM (TabMem F I K) α) (x : Except Err α) : Prop :=
  ∀ m, m0 <+: m → (p m).1 = x ∧ m <+: (p m).2

theorem getElem?_of_prefix {α : Type} {l m : List α} (h : l <+: m) {i : Nat} {x : α} (e : l[i]? = some x) : m[i]? = some x := by
  obtain ⟨t, rfl⟩ := h
  rw [List.getElem?_append_left]
  · exact e
  · exact (List.getElem?_eq_some_iff.1 e).1

variable {m0 : TabMem F I K} {α β : Type}

theorem Adds.ret (a : α) : Adds m0 (PyM.ret a) (.ok a) := fun m _ => ⟨rfl, List.prefix_refl _⟩

theorem Adds.raise (e : Err) : Adds m0 (PyM.raise e : PyM (TabMem F I K) α) (.error e) := fun m _ => ⟨rfl, List.prefix_refl _⟩

theorem Adds.lift (x : Except Err α) : Adds m0 (PyM.lift x) x := fun m _ => by
  cases x <;> exact ⟨rfl, List.prefix_refl _⟩

theorem Adds.seq {p : PyM (TabMem F I K) α} {k : α → PyM (TabMem F I K) β} {a : α} {y : Except Err β} (hp : Adds m0 p (.ok a))
    (hk : Adds m0 (k a) y) : Adds m0 (PyM.seq p k) y := by
  intro m hm
  obtain ⟨h1, h2⟩ := hp m hm
  unfold PyM.seq
  generalize p m = q at h1 h2
  obtain ⟨r, m'⟩ := q
  simp only at h1 h2
  subst h1
  obtain ⟨h3, h4⟩ := hk m' (hm.trans h2)
  exact ⟨h3, h2.trans h4⟩

theorem Adds.seq_error {p : PyM (TabMem F I K) α} {k : α → PyM (TabMem F I K) β} {e : Err} (hp : Adds m0 p (.error e)) :
    Adds m0 (PyM.seq p k) (.error e) := by
  intro m hm
  obtain ⟨h1, h2⟩ := hp m hm
  unfold PyM.seq
  generalize p m = q at h1 h2
  obtain ⟨r, m'⟩ := q
  simp only at h1 h2
  subst h1
  exact ⟨rfl, h2⟩

theorem Adds.ite {c : Prop} [Decidable c] {p q : PyM (TabMem F I K) α} {x y : Except Err α} (hp : Adds m0 p x) (hq : Adds m0 q y) :
    Adds m0 (if c then p else q) (if c then x else y) := by
  split <;> assumption

theorem deref_at {r : Nat} {t : TabObj F I K} {m : TabMem F I K} (h : m[r]? = some t) : derefTab r m = (.ok t, m) := by
  unfold derefTab; rw [h]

theorem copy_at {r : Nat} {t : TabObj F I K} {m : TabMem F I K} (h : m[r]? = some t) : copyTab r m = (.ok m.length, m ++ [t]) := by
  unfold copyTab PyM.seq; rw [deref_at h]

theorem change_new {t : TabObj F I K} {m rest : TabMem F I K} (f : TabObj F I K → TabObj F I K) :
    changeTab m.length f (m ++ t :: rest) = (.ok (), m ++ f t :: rest) := by
  have h : (m ++ t :: rest)[m.length]? = some t := by simp
  unfold changeTab PyM.seq
  rw [deref_at h]
  simp

theorem readPairs_at {r : Nat} {rows : List (OvoRow F K)} {ex : List String} {m : TabMem F I K} (h : m[r]? = some (.pairs rows ex)) :
    readPairs r m = (.ok rows, m) := by
  unfold readPairs PyM.seq; rw [deref_at h]; rfl

theorem Adds.readPairs {r : Nat} {rows : List (OvoRow F K)} {ex : List String} (h : m0[r]? = some (.pairs rows ex)) :
    Adds m0 (Artemis.readPairs r) (.ok rows) := fun m hm => by
  rw [readPairs_at (getElem?_of_prefix hm h)]; exact ⟨rfl, List.prefix_refl _⟩

theorem readFeats_at {r : Option Nat} {m : TabMem F I K} (h : ∀ i, r = some i → ∃ rows ex, m0[i]? = some (.feats rows ex))
    (hm : m0 <+: m) : Artemis.readFeats r m = (.ok (m0.featsAt r), m) := by
  cases r with
  | none => rfl
  | some i =>
    obtain ⟨rows, ex, e⟩ := h i rfl
    simp only [Artemis.readFeats, PyM.seq, deref_at (getElem?_of_prefix hm e)]
    simp [TabMem.featsAt, e, PyM.ret]

theorem Adds.readFeats {r : Option Nat} (h : ∀ i, r = some i → ∃ rows ex, m0[i]? = some (.feats rows ex)) :
    Adds m0 (Artemis.readFeats r) (.ok (m0.featsAt r)) := fun m hm => by
  rw [readFeats_at h hm]
  exact ⟨rfl, List.prefix_refl _⟩

/-! ### The drawings -/

variable {r : Nat} {rows : List (OvoRow F K)} {ex : List String}

theorem graphNodes_congr {ovo ovo' : List (OvoRow F K)} (imp : Option (List (FeatRow F K)))
    (h : ovo'.map (fun r => (r.f1, r.f2)) = ovo.map (fun r => (r.f1, r.f2))) : graphNodes ovo' imp = graphNodes ovo imp := by
  have hany : ∀ f : F, ovo'.any (fun o => decide (o.f1 = f) || decide (o.f2 = f)) = ovo.any (fun o => decide (o.f1 = f) || decide (o.f2 = f)) := by
    intro f
    have e : ∀ l : List (OvoRow F K), l.any (fun o => decide (o.f1 = f) || decide (o.f2 = f)) =
        (l.map (fun r => (r.f1, r.f2))).any (fun q => decide (q.1 = f) || decide (q.2 = f)) := by
      intro l; rw [List.any_map]; rfl
    rw [e, e, h]
  unfold graphNodes
  cases imp with
  | none => rfl
  | some t => simp only [hany]

theorem edgeWidths_names (asc : Bool) (t w : K) (ovo : List (OvoRow F K)) :
    (edgeWidths asc w (filterInsignificant asc t ovo)).map (fun r => (r.f1, r.f2)) = ovo.map (fun r => (r.f1, r.f2)) := by
  unfold edgeWidths mapToWidth reverseScale scaleToUnit filterInsignificant
  cases asc <;> simp [Function.comp_def]

theorem edgeWidthsH_at {m rest : TabMem F I K} (asc : Bool) (w : K) :
    edgeWidthsH asc w m.length (m ++ .pairs rows ex :: rest) = (.ok (), m ++ .pairs (edgeWidths asc w rows) ex :: rest) := by
  unfold edgeWidthsH scaleToUnitH reverseScaleH mapToWidthH PyM.seq
  rw [change_new]
  simp only []
  rw [change_new]
  simp only []
  rw [change_new]
  rfl

theorem filterH_at {m : TabMem F I K} (asc : Bool) (t : K) :
    filterInsignificantH asc t m.length (m ++ [.pairs rows ex]) =
      (.ok (m.length + 1), m ++ [.pairs (filterInsignificant asc t rows) ex, .pairs (filterInsignificant asc t rows) ex]) := by
  unfold filterInsignificantH
  unfold PyM.seq
  rw [change_new]
  simp only []
  rw [copy_at (t := .pairs (filterInsignificant asc t rows) ex)]
  · simp [TabObj.onRows]
  · simp [TabObj.onRows]

theorem Adds.graph (h : m0[r]? = some (.pairs rows ex)) {imp : Option Nat}
    (hi : ∀ i, imp = some i → ∃ rows ex, m0[i]? = some (.feats rows ex)) (E : VisEnv F K) (cfg : GraphCfg K) (title : String)
    (asc directed : Bool) (o : Opts K) :
    Adds m0 (plotGraphH E cfg r imp title asc directed o) (plotGraph E cfg rows (m0.featsAt imp) title asc directed o) := by
  intro m hm
  generalize ht : o.threshold.getD cfg.threshold = t
  generalize hw : o.maxEdgeWidth.getD cfg.maxEdgeWidth = w
  generalize hk : filterInsignificant asc t rows = kept
  have key : ∀ M : TabMem F I K, M = m ++ [.pairs (edgeWidths asc w kept) ex, .pairs kept ex] →
      plotGraphH E cfg r imp title asc directed o m = (plotGraph E cfg rows (m0.featsAt imp) title asc directed o, M) := by
    intro M hM
    have h1 := copy_at (getElem?_of_prefix hm h)
    have h2 := filterH_at (I := I) (m := m) (rows := rows) (ex := ex) asc t
    rw [hk] at h2
    have h3 := edgeWidthsH_at (m := m) (rows := kept) (ex := ex) (rest := [.pairs kept ex]) asc w
    rw [← hM] at h3
    have h4 : Artemis.readPairs m.length M = (.ok (edgeWidths asc w kept), M) :=
      readPairs_at (ex := ex) (by rw [hM]; simp)
    have h5 : Artemis.readPairs (m.length + 1) M = (.ok kept, M) := readPairs_at (ex := ex) (by rw [hM]; simp)
    have hpre : m0 <+: M := hm.trans (by rw [hM]; exact List.prefix_append _ _)
    have h6 : Artemis.readFeats imp M = (.ok (m0.featsAt imp), M) := readFeats_at hi hpre
    have hg := graphNodes_congr (m0.featsAt imp) (edgeWidths_names asc t w rows)
    rw [hk] at hg
    unfold plotGraphH plotGraph
    simp only [ht, hw, hk, PyM.seq, h1, h2, h3, h4, h6, hg]
    cases graphNodes rows (m0.featsAt imp) with
    | error e => rfl
    | ok nodes =>
      cases asc with
      | true => rfl
      | false => simp only [PyM.lift, Bool.false_eq_true, if_false, PyM.seq, h5]; rfl
  rw [key _ rfl]
  exact ⟨rfl, List.prefix_append _ _⟩

theorem Adds.allPairs (h : m0[r]? = some (.pairs rows ex)) (directed : Bool) :
    Adds m0 (allPairsH directed r) (.ok (if directed then rows else rows ++ rows.map (fun r => ⟨r.f2, r.f1, r.val⟩))) := by
  cases directed with
  | true => exact Adds.readPairs h
  | false =>
    intro m hm
    have h1 := copy_at (getElem?_of_prefix hm h)
    have h2 := change_new (m := m) (t := .pairs rows ex) (rest := []) (TabObj.onRows swapNames)
    have h3 : Artemis.readPairs r (m ++ [TabObj.onRows swapNames (.pairs rows ex)]) = (.ok rows, m ++ [TabObj.onRows swapNames (.pairs rows ex)]) :=
      readPairs_at (ex := ex) (getElem?_of_prefix (List.prefix_append _ _) (getElem?_of_prefix hm h))
    have h4 : Artemis.readPairs m.length (m ++ [TabObj.onRows swapNames (.pairs rows ex)]) =
        (.ok (swapNames rows), m ++ [TabObj.onRows swapNames (.pairs rows ex)]) := readPairs_at (ex := ex) (by simp [TabObj.onRows])
    have : allPairsH (I := I) false r m = (.ok (rows ++ swapNames rows), m ++ [TabObj.onRows swapNames (.pairs rows ex)]) := by
      unfold allPairsH
      simp only [Bool.false_eq_true, if_false, PyM.seq, h1, h2, h3, h4]
      rfl
    rw [this]
    exact ⟨rfl, List.prefix_append _ _⟩

theorem Adds.heatmap (h : m0[r]? = some (.pairs rows ex)) {imp : Option Nat}
    (hi : ∀ i, imp = some i → ∃ rows ex, m0[i]? = some (.feats rows ex)) (E : VisEnv F K) (title : String) (asc impAsc directed : Bool) :
    Adds m0 (plotHeatmapH E r imp title asc impAsc directed) (plotHeatmap E rows (m0.featsAt imp) title asc impAsc directed) := by
  refine (Adds.allPairs h directed).seq ((Adds.readFeats hi).seq ((Adds.readPairs h).seq ?_))
  generalize m0.featsAt imp = t
  have hall : Adds m0 (match t with
      | none => PyM.ret (if directed then rows else rows ++ rows.map (fun r => ⟨r.f2, r.f1, r.val⟩))
      | some t => PyM.seq (PyM.lift (importanceDiag rows t)) fun diag =>
        PyM.ret ((if directed then rows else rows ++ rows.map (fun r => ⟨r.f2, r.f1, r.val⟩)) ++ diag))
      (heatmapRows directed rows t) := by
    cases t with
    | none => exact Adds.ret _
    | some t =>
      have h1 := Adds.lift (m0 := m0) (importanceDiag rows t)
      unfold heatmapRows
      simp only []
      generalize importanceDiag rows t = y at h1
      cases y with
      | error e => exact h1.seq_error
      | ok diag => exact h1.seq (Adds.ret _)
  unfold plotHeatmap
  generalize heatmapRows directed rows t = x at hall
  cases x with
  | error e => exact hall.seq_error
  | ok all =>
    refine hall.seq ?_
    simp only []
    have h2 := Adds.lift (m0 := m0) (orderHeatmap E (pivotFirst all) asc)
    generalize orderHeatmap E (pivotFirst all) asc = y at h2
    cases y with
    | error e => exact h2.seq_error
    | ok mat => exact h2.seq (Adds.ret _)

theorem Adds.bars (h : m0[r]? = some (.pairs rows ex)) (title : String) (o : Opts K) :
    Adds m0 (plotBarsH r title o) (.ok (plotBars rows title o)) := by
  intro m hm
  have h1 := copy_at (getElem?_of_prefix hm h)
  have h2 := change_new (m := m) (t := .pairs rows ex) (rest := []) (TabObj.addColumn "Interaction")
  have h3 : Artemis.readPairs m.length (m ++ [TabObj.addColumn "Interaction" (.pairs rows ex)]) =
      (.ok rows, m ++ [TabObj.addColumn "Interaction" (.pairs rows ex)]) := readPairs_at (ex := ex ++ ["Interaction"]) (by simp [TabObj.addColumn])
  have : plotBarsH (I := I) r title o m = (.ok (plotBars rows title o), m ++ [TabObj.addColumn "Interaction" (.pairs rows ex)]) := by
    unfold plotBarsH
    simp only [PyM.seq, h1, h2, h3]
    rfl
  rw [this]
  exact ⟨rfl, List.prefix_append _ _⟩

theorem Adds.barsOva {ova : Option Nat} (hi : ∀ i, ova = some i → ∃ rows ex, m0[i]? = some (.feats rows ex)) (title : String)
    (o : Opts K) : Adds m0 (plotBarsOvaH ova title o) (plotBarsOva (m0.featsAt ova) title o) := by
  refine (Adds.readFeats hi).seq ?_
  unfold plotBarsOva
  cases m0.featsAt ova with
  | none => exact Adds.raise _
  | some t => exact Adds.ret _

theorem Adds.conditional (h : m0[r]? = some (.pairs rows ex)) {imp : Option Nat}
    (hi : ∀ i, imp = some i → ∃ rows ex, m0[i]? = some (.feats rows ex)) (title : String) (o : Opts K) :
    Adds m0 (plotConditionalH r imp title o) (plotConditional rows (m0.featsAt imp) title o) := by
  intro m hm
  have h1 := copy_at (getElem?_of_prefix hm h)
  have h2 := change_new (m := m) (t := .pairs rows ex) (rest := []) (TabObj.addColumn "Interaction")
  have h3 : Artemis.readPairs m.length (m ++ [TabObj.addColumn "Interaction" (.pairs rows ex)]) =
      (.ok rows, m ++ [TabObj.addColumn "Interaction" (.pairs rows ex)]) := readPairs_at (ex := ex ++ ["Interaction"]) (by simp [TabObj.addColumn])
  have h4 : Artemis.readFeats imp (m ++ [TabObj.addColumn "Interaction" (.pairs rows ex)]) =
      (.ok (m0.featsAt imp), m ++ [TabObj.addColumn "Interaction" (.pairs rows ex)]) :=
    readFeats_at hi (hm.trans (List.prefix_append _ _))
  have : plotConditionalH (I := I) r imp title o m =
      (plotConditional rows (m0.featsAt imp) title o, m ++ [TabObj.addColumn "Interaction" (.pairs rows ex)]) := by
    unfold plotConditionalH
    simp only [PyM.seq, h1, h2, h3, h4]
    rfl
  rw [this]
  exact ⟨rfl, List.prefix_append _ _⟩

theorem Adds.lollipop {full : Option Nat} (hi : ∀ i, full = some i → ∃ rows ex, m0[i]? = some (.stats rows ex)) (title : String)
    (o : Opts K) : Adds m0 (plotLollipopH full title o) (plotLollipop (m0.statsAt full) title o) := by
  cases full with
  | none => exact Adds.raise _
  | some i =>
    obtain ⟨rows, ex, e⟩ := hi i rfl
    intro m hm
    have h1 := copy_at (getElem?_of_prefix hm e)
    have h2 := change_new (m := m) (t := .stats rows ex) (rest := []) (TabObj.addColumn "pair_name")
    have h3 : derefTab m.length (m ++ [TabObj.addColumn "pair_name" (.stats rows ex)]) =
        (.ok (TabObj.addColumn "pair_name" (.stats rows ex)), m ++ [TabObj.addColumn "pair_name" (.stats rows ex)]) :=
      deref_at (by simp)
    have : plotLollipopH (some i) title o m =
        (plotLollipop (m0.statsAt (some i)) title o, m ++ [TabObj.addColumn "pair_name" (.stats rows ex)]) := by
      simp only [plotLollipopH, PyM.seq, h1, h2, h3, TabMem.statsAt, Option.bind_some, e]
      rfl
    rw [this]
    exact ⟨rfl, List.prefix_append _ _⟩

theorem Adds.oneDrawing {p : PyM (TabMem F I K) (Panel F I K)} {x : Except Err (Panel F I K)} (h : Adds m0 p x) :
    Adds m0 (Artemis.oneDrawing p) (x.map fun p => [p]) := by
  cases x with
  | error e => exact h.seq_error
  | ok a => exact h.seq (Adds.ret _)

theorem Adds.summary (h : m0[r]? = some (.pairs rows ex)) {a : MethodRefs} (hw : a.Wf m0) (ho : a.ovo = some r) (impAsc : Bool)
    (E : VisEnv F K) (cfg : VisConfig K) (title : String) (sub : SubOpts K) :
    Adds m0 (plotSummaryH E cfg a r title sub) (plotSummary E cfg ⟨rows, m0.featsAt a.ova, m0.featsAt a.imp, a.asc, impAsc,
      m0.statsAt a.full, a.directed, a.name⟩ title sub) := by
  have h1 := Adds.heatmap h hw.imp E "default" a.asc false a.directed
  have h2 := Adds.graph h hw.imp E cfg.graph "default" false a.directed (SubOpts.pop sub "graph")
  have h3 := Adds.bars (I := I) h "default" (SubOpts.pop sub "bar_chart_ovo")
  have h4 := Adds.barsOva (I := I) hw.ova "default" (SubOpts.pop sub "bar_chart_ova")
  unfold plotSummaryH plotSummary
  simp only []
  generalize plotHeatmap E rows (m0.featsAt a.imp) "default" a.asc false a.directed = x1 at h1
  cases x1 with
  | error e => exact h1.seq_error
  | ok p1 =>
    refine h1.seq ?_
    generalize plotGraph E cfg.graph rows (m0.featsAt a.imp) "default" false a.directed (SubOpts.pop sub "graph") = x2 at h2
    cases x2 with
    | error e => exact h2.seq_error
    | ok p2 =>
      refine h2.seq (h3.seq ?_)
      cases hov : a.ova with
      | none => exact Adds.ret _
      | some i =>
        obtain ⟨t, ex', e⟩ := hw.ova i hov
        have hf : m0.featsAt (some i) = some t := by simp [TabMem.featsAt, e]
        rw [hov, hf] at h4
        rw [hf]
        simp only []
        generalize plotBarsOva (some t) "default" (SubOpts.pop sub "bar_chart_ova") = x4 at h4
        cases x4 with
        | error e => exact h4.seq_error
        | ok p4 => exact h4.seq (Adds.ret _)

/-- `plot` of a method object shows what `View.plot` says, and only adds objects -/
theorem Adds.plot {a : MethodRefs} (hw : a.Wf m0) (cmp : Except Err (List (OvoRow F K))) (E : VisEnv F K) (visType title : String)
    (o : Opts K) (sub : SubOpts K) : Adds m0 (a.plot E visType title o sub) ((a.view m0 cmp).plot E visType title o sub) := by
  have hova : (m0.featsAt a.ova).isNone = a.ova.isNone := by
    cases hov : a.ova with
    | none => rfl
    | some i => obtain ⟨t, ex', e⟩ := hw.ova i hov; simp [TabMem.featsAt, e]
  have hovo : (m0.pairsAt a.ovo).isNone = a.ovo.isNone := by
    cases hov : a.ovo with
    | none => rfl
    | some i => obtain ⟨t, ex', e⟩ := hw.ovo i hov; simp [TabMem.pairsAt, e]
  unfold MethodRefs.plot View.plot MethodRefs.view
  simp only [hova, hovo]
  refine Adds.ite (Adds.raise _) ?_
  cases a.impAsc with
  | none => exact Adds.raise _
  | some impAsc =>
    simp only []
    cases (configGet a.name : Except Err (VisConfig K)) with
    | error e => exact Adds.raise _
    | ok cfg =>
      simp only []
      cases ho : a.ovo with
      | none => exact Adds.ite (Adds.raise _) (Adds.raise _)
      | some r =>
        obtain ⟨rows, ex, e⟩ := hw.ovo r ho
        have hp : m0.pairsAt (some r) = some rows := by simp [TabMem.pairsAt, e]
        rw [hp]
        exact Adds.ite (Adds.raise _) <| Adds.ite (Adds.summary e hw ho impAsc E cfg title sub) <|
          Adds.ite (Adds.graph e hw.imp E cfg.graph title a.asc a.directed o).oneDrawing <|
          Adds.ite (Adds.barsOva hw.ova "default" o).oneDrawing <|
          Adds.ite (Adds.heatmap e hw.imp E title a.asc impAsc a.directed).oneDrawing <|
          Adds.ite (Adds.bars e title o).oneDrawing <| Adds.ite (Adds.lollipop hw.full title o).oneDrawing <|
          Adds.ite (Adds.conditional e hw.imp title o).oneDrawing (Adds.ret _)

/-! ## C126 -/

/-- **C126 (results stay).** Whatever is plotted, whether the plot succeeds or raises: every table object that existed before - those of
this method and of all others - has the same rows and the same columns afterwards. -/
theorem C126_results_stay {a : MethodRefs} {m : TabMem F I K} (hw : a.Wf m) (E : VisEnv F K) (visType title : String)
    (o : Opts K) (sub : SubOpts K) {i : Nat} (hi : i < m.length) : (a.plot E visType title o sub m).2[i]? = m[i]? := by
  obtain ⟨t, ht⟩ := (Adds.plot hw (.error .methodNotFitted) E visType title o sub m (List.prefix_refl _)).2
  rw [← ht, List.getElem?_append_left hi]

/-- **C126 (same picture).** What is drawn depends only on the contents of the tables: a plot on table objects shows (or raises) what the
model of `plot` on values says, which all other properties of plots are about. -/
theorem C126_same_picture {a : MethodRefs} {m : TabMem F I K} (hw : a.Wf m) (cmp : Except Err (List (OvoRow F K))) (E : VisEnv F K)
    (visType title : String) (o : Opts K) (sub : SubOpts K) :
    (a.plot E visType title o sub m).1 = (a.view m cmp).plot E visType title o sub :=
  (Adds.plot hw cmp E visType title o sub m (List.prefix_refl _)).1

theorem pairsAt_mono {m m' : TabMem F I K} (h : m <+: m') {r : Option Nat} (hr : ∀ i, r = some i → ∃ rows ex, m[i]? = some (.pairs rows ex)) :
    m'.pairsAt r = m.pairsAt r := by
  cases r with
  | none => rfl
  | some i => obtain ⟨rows, ex, e⟩ := hr i rfl; simp [TabMem.pairsAt, e, getElem?_of_prefix h e]

theorem featsAt_mono {m m' : TabMem F I K} (h : m <+: m') {r : Option Nat} (hr : ∀ i, r = some i → ∃ rows ex, m[i]? = some (.feats rows ex)) :
    m'.featsAt r = m.featsAt r := by
  cases r with
  | none => rfl
  | some i => obtain ⟨rows, ex, e⟩ := hr i rfl; simp [TabMem.featsAt, e, getElem?_of_prefix h e]

theorem statsAt_mono {m m' : TabMem F I K} (h : m <+: m') {r : Option Nat} (hr : ∀ i, r = some i → ∃ rows ex, m[i]? = some (.stats rows ex)) :
    m'.statsAt r = m.statsAt r := by
  cases r with
  | none => rfl
  | some i => obtain ⟨rows, ex, e⟩ := hr i rfl; simp [TabMem.statsAt, e, getElem?_of_prefix h e]

theorem MethodRefs.Wf.mono {a : MethodRefs} {m m' : TabMem F I K} (hw : a.Wf m) (h : m <+: m') : a.Wf m' where
  ovo r e := by obtain ⟨rows, ex, e⟩ := hw.ovo r e; exact ⟨rows, ex, getElem?_of_prefix h e⟩
  ova r e := by obtain ⟨rows, ex, e⟩ := hw.ova r e; exact ⟨rows, ex, getElem?_of_prefix h e⟩
  imp r e := by obtain ⟨rows, ex, e⟩ := hw.imp r e; exact ⟨rows, ex, getElem?_of_prefix h e⟩
  full r e := by obtain ⟨rows, ex, e⟩ := hw.full r e; exact ⟨rows, ex, getElem?_of_prefix h e⟩

/-- A call of `plot`: of which object, and the arguments. -/
structure PlotCall (K : Type) where
  obj : MethodRefs
  visType : String
  title : String
  opts : Opts K
  sub : SubOpts K

/-- the memory after a series of calls, each of which may raise -/
def afterPlots (E : VisEnv F K) (calls : List (PlotCall K)) (m : TabMem F I K) : TabMem F I K :=
  calls.foldl (fun m c => (c.obj.plot E c.visType c.title c.opts c.sub m).2) m

theorem afterPlots_prefix (E : VisEnv F K) : ∀ (calls : List (PlotCall K)) (m : TabMem F I K), (∀ c ∈ calls, c.obj.Wf m) →
    m <+: afterPlots E calls m := by
  intro calls
  induction calls with
  | nil => intro m _; exact List.prefix_refl _
  | cons c calls ih =>
    intro m hw
    have h1 := (Adds.plot (hw c List.mem_cons_self) (.error .methodNotFitted) E c.visType c.title c.opts c.sub m (List.prefix_refl _)).2
    have h2 := ih _ (fun c' hc' => (hw c' (List.mem_cons_of_mem _ hc')).mono h1)
    exact h1.trans h2

/-- **C126 (any series of plots).** After any series of plots of any objects, successful or not, every object shows the same tables as
before, and every plot of it gives what it would have given at the beginning. -/
theorem C126_any_series (E : VisEnv F K) {calls : List (PlotCall K)} {m : TabMem F I K} (hw : ∀ c ∈ calls, c.obj.Wf m)
    {a : MethodRefs} (ha : a.Wf m) (cmp : Except Err (List (OvoRow F K))) :
    a.view (afterPlots E calls m) cmp = a.view m cmp ∧
    ∀ (E' : VisEnv F K) (visType title : String) (o : Opts K) (sub : SubOpts K),
      (a.plot E' visType title o sub (afterPlots E calls m)).1 = (a.plot E' visType title o sub m).1 := by
  have hp := afterPlots_prefix E calls m hw
  have hv : a.view (afterPlots E calls m) cmp = a.view m cmp := by
    unfold MethodRefs.view
    rw [pairsAt_mono hp ha.ovo, featsAt_mono hp ha.ova, featsAt_mono hp ha.imp, statsAt_mono hp ha.full]
  refine ⟨hv, ?_⟩
  intro E' visType title o sub
  rw [C126_same_picture (ha.mono hp) cmp, C126_same_picture ha cmp, hv]

end Heap

/-! ## Cases -/

section Cases

/-- the table of the heatmap examples, their importance table, and an unrelated table -/
def exTabs : TabMem (Fin 4) Nat ℚ := [.feats exImpH [], .pairs exRowsH [], .pairs [⟨0, 1, .fin 7⟩] ["own"]]

/-- an object with these tables -/
def exRefs : MethodRefs := ⟨greenwellName, some 1, none, some 0, some false, false, false, none, false⟩

theorem exRefs_wf : exRefs.Wf exTabs where
  ovo r e := by cases e; exact ⟨exRowsH, [], rfl⟩
  ova r e := by cases e
  imp r e := by cases e; exact ⟨exImpH, [], rfl⟩
  full r e := by cases e

/-- a graph makes two copies and changes the first of them -/
example : ((exRefs.plot exVis "graph" "default" {} [] exTabs).2.length = 5 ∧
    ((exRefs.plot exVis "graph" "default" {} [] exTabs).2.map (fun t => match t with
      | .pairs rows _ => rows.map OvoRow.val
      | _ => [])) = [[], exRowsH.map OvoRow.val, [.fin 7], (edgeWidths false 20 (filterInsignificant false (5 / 100) exRowsH)).map OvoRow.val,
        (filterInsignificant false (5 / 100) exRowsH).map OvoRow.val]) := by decide +kernel

example : (exRefs.plot exVis "bar_chart" "default" {} [] (afterPlots exVis
    [⟨exRefs, "summary", "T", {}, []⟩, ⟨exRefs, "graph", "default", {}, []⟩, ⟨exRefs, "lollipop", "default", {}, []⟩] exTabs)).1 =
    (exRefs.plot exVis "bar_chart" "default" {} [] exTabs).1 :=
  (C126_any_series exVis (by
    intro c hc
    simp only [List.mem_cons, List.not_mem_nil, or_false] at hc
    rcases hc with rfl | rfl | rfl <;> exact exRefs_wf) exRefs_wf (.error .methodNotFitted)).2 _ _ _ _ _

end Cases

end Artemis
