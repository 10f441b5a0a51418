import Verif.Proofs.Lifecycle
import Verif.Props.HStat
import Verif.Props.CMD
import Verif.Props.SplitScore
import Verif.Props.Sejong

/-!
# C46-C48: results before, between and after calls of `fit`
-/

set_option linter.unusedSectionVars false
set_option linter.unusedVariables false
set_option linter.unusedSimpArgs false

namespace Artemis
open Spec

/-! ## Plotting never reports a missing fit by itself -/

section NotFitted

/-- the call does not raise MethodNotFittedException -/
def NotNF {α : Type} (r : Except Err α) : Prop := r ≠ .error .methodNotFitted

theorem notNF_ok {α : Type} (a : α) : NotNF (.ok a) := by unfold NotNF; simp

theorem notNF_map {α β : Type} {r : Except Err α} (f : α → β) (h : NotNF r) : NotNF (r.map f) := by
  cases r with
  | ok a => exact notNF_ok _
  | error e => intro h'; cases h'; exact h rfl

theorem notNF_mapM {α β : Type} {f : α → Except Err β} {l : List α} (h : ∀ a ∈ l, NotNF (f a)) : NotNF (l.mapM f) := by
  induction l with
  | nil => exact notNF_ok _
  | cons a l ih =>
    rw [mapM_cons_except]
    have h1 := h a List.mem_cons_self
    have h2 := ih (fun b hb => h b (List.mem_cons_of_mem _ hb))
    cases e1 : f a with
    | error e => rw [e1] at h1; intro h'; cases h'; exact h1 rfl
    | ok b =>
      cases e2 : l.mapM f with
      | error e => rw [e2] at h2; intro h'; cases h'; exact h2 rfl
      | ok bs => exact notNF_ok _

theorem notNF_foldlM {α β : Type} {f : β → α → Except Err β} (h : ∀ b a, NotNF (f b a)) (l : List α) (b : β) :
    NotNF (l.foldlM f b) := by
  induction l generalizing b with
  | nil => exact notNF_ok _
  | cons a l ih =>
    rw [List.foldlM_cons]
    have h1 := h b a
    cases e1 : f b a with
    | error e => rw [e1] at h1; intro h'; cases h'; exact h1 rfl
    | ok c => exact ih c

variable {F I K : Type} [LinearOrder F] [Field K] [LinearOrder K]

theorem notNF_plotHeatmap (E : VisEnv F K) (ovo imp title asc impAsc directed) :
    NotNF (plotHeatmap (I := I) E ovo imp title asc impAsc directed) := by
  have hm : ∀ m : Mat F K, NotNF (heatScores E.lower m) := by
    intro m
    unfold heatScores diagSeries
    split
    · next e he => intro h; cases h; split at he <;> cases he
    · refine notNF_foldlM (fun acc f => notNF_map _ ?_) _ _
      unfold heatScore NotNF
      split
      · simp
      · split
        · split
          · next e he =>
            intro h; cases h
            unfold pyMax at he
            split at he <;> cases he
          · simp
        · simp
  have hd : NotNF (heatmapRows directed ovo imp) := by
    unfold heatmapRows
    simp only []
    split
    · exact notNF_ok _
    · next t =>
      split
      · next e he =>
        intro h; cases h
        unfold importanceDiag at he
        refine notNF_mapM (fun f _ => ?_) he
        split
        · simp [NotNF]
        · exact notNF_ok _
      · exact notNF_ok _
  unfold plotHeatmap
  split
  · next e he => intro h; cases h; exact hd he
  · next rows he =>
    split
    · next e he' =>
      intro h; cases h
      unfold orderHeatmap at he'
      split at he'
      · next e' he'' => cases he'; exact hm _ he''
      · cases he'
    · exact notNF_ok _

theorem notNF_plotGraph (E : VisEnv F K) (cfg ovo imp title asc directed o) :
    NotNF (plotGraph (I := I) E cfg ovo imp title asc directed o) := by
  unfold plotGraph
  simp only []
  split
  · next e he =>
    intro h; cases h
    unfold graphNodes at he
    split at he
    · cases he
    · split at he <;> cases he
  · exact notNF_ok _

theorem notNF_visPlot (E : VisEnv F K) (cfg : VisConfig K) (a : PlotIn F I K) (visType title o sub) :
    NotNF (visPlot E cfg a visType title o sub) := by
  have hbo : NotNF (plotBarsOva (I := I) a.ova "default" o) := by
    unfold plotBarsOva; split
    · simp [NotNF]
    · exact notNF_ok _
  unfold visPlot
  split_ifs
  · unfold plotSummary
    split
    · next e he => intro h; cases h; exact notNF_plotHeatmap _ _ _ _ _ _ _ he
    · split
      · next e he => intro h; cases h; exact notNF_plotGraph _ _ _ _ _ _ _ _ he
      · split
        · exact notNF_ok _
        · split
          · next e he => intro h; cases h; cases he
          · exact notNF_ok _
  · exact notNF_map _ (notNF_plotGraph _ _ _ _ _ _ _ _)
  · exact notNF_map _ hbo
  · exact notNF_map _ (notNF_plotHeatmap _ _ _ _ _ _ _)
  · exact notNF_ok _
  · refine notNF_map _ ?_
    unfold plotLollipop
    split
    · simp [NotNF]
    · simp only []
      split
      · simp [NotNF]
      · exact notNF_ok _
  · refine notNF_map _ ?_
    unfold plotConditional
    split
    · simp [NotNF]
    · exact notNF_ok _
  · exact notNF_ok _
  · simp [NotNF]

/-- the three ways to get at results raise MethodNotFittedException -/
def Unavailable (v : View F I K) : Prop :=
  (∀ (E : VisEnv F K) (visType title : String) (o : Opts K) (sub : SubOpts K), v.plot E visType title o sub = .error .methodNotFitted) ∧
  (∀ f g, v.interactionValue f g = .error .methodNotFitted) ∧ v.cmp = .error .methodNotFitted

/-- none of the two kinds of look-up raises MethodNotFittedException; the comparison table is there -/
def Readable (v : View F I K) : Prop :=
  (∀ f g, v.interactionValue f g ≠ .error .methodNotFitted) ∧ ∃ t, v.cmp = .ok t

/-- plotting does not raise MethodNotFittedException -/
def Plottable (v : View F I K) : Prop :=
  ∀ (E : VisEnv F K) (visType title : String) (o : Opts K) (sub : SubOpts K), v.plot E visType title o sub ≠ .error .methodNotFitted

theorem readable_of_cmp {v : View F I K} {t} (h : v.cmp = .ok t) : Readable v := by
  refine ⟨fun f g => ?_, t, h⟩
  unfold View.interactionValue
  rw [h]
  simp only []
  split <;> simp

theorem plottable_of {v : View F I K} (h : (if v.needsOva then v.ova.isNone else v.ovo.isNone) = false) : Plottable v := by
  intro E visType title o sub
  unfold View.plot
  rw [h]
  simp only [Bool.false_eq_true, if_false]
  split
  · simp
  · split
    · next e he =>
      intro h'; cases h'
      have : NotNF (configGet (K := K) v.name) := by
        unfold configGet
        have ha : ∀ m, NotNF (acceptedOf m) := by
          intro m; unfold acceptedOf; split
          · exact notNF_ok _
          · simp [NotNF]
        split_ifs
        · exact notNF_map _ (ha _)
        · exact notNF_map _ (ha _)
        · exact notNF_map _ (ha _)
        · exact notNF_map _ (ha _)
        · exact notNF_map _ (ha _)
        · simp [NotNF]
      exact this he
    · split
      · split <;> simp
      · exact notNF_visPlot _ _ _ _ _ _ _

end NotFitted

/-! ## C46 -/

section C46
variable {F V K G L I J : Type} [LinearOrder F] [LinearOrder V] [DecidableEq L] [LinearOrder I] [LinearOrder J]
  [Field K] [LinearOrder K] [HasSqrt K]

/-- **C46** Before any call of `fit` plotting, `interaction_value` and the comparison table raise MethodNotFittedException,
for each of the five methods. -/
theorem C46_unfitted (sort : PairSort F K) (rng : G) (M : Metric K) (kind : PdKind) (E : CmdEnv F J K) :
    Unavailable (PdpMethod.view (I := I) sort kind (PdpMethod.new rng : PdpMethod G L F V K)) ∧
    Unavailable (Sejong.view (I := I) sort (Sejong.new rng M : Sejong G L F V K)) ∧
    Unavailable (CmdMethod.view (I := I) E (CmdMethod.new : CmdMethod F K)) ∧
    Unavailable (SsMethod.view sort (SsMethod.new : SsMethod F I K)) := by
  refine ⟨?_, ?_, ?_, ?_⟩
  · cases kind <;> exact ⟨fun _ _ _ _ _ => rfl, fun _ _ => rfl, rfl⟩
  · exact ⟨fun _ _ _ _ _ => rfl, fun _ _ => rfl, rfl⟩
  · exact ⟨fun _ _ _ _ _ => rfl, fun _ _ => rfl, rfl⟩
  · exact ⟨fun _ _ _ _ _ => rfl, fun _ _ => rfl, rfl⟩

/-- `fit` of Sejong Oh's method; each call comes with the entropy it draws from the operating system -/
def sejongCall (E : PerfEnv G L F K) (c : SejongArgs L F V K × G) : PyM (Sejong G L F V K) Unit := Sejong.fit E c.1 c.2

/-- `fit` of split score with its four arguments -/
def ssCall (E : SsEnv F K) (c : GbArg F I K × SsMetric × SsMetric × Bool) : PyM (SsMethod F I K) Unit :=
  SsMethod.fit E c.1 c.2.1 c.2.2.1 c.2.2.2

theorem isNone_false_of {α : Type} {o : Option α} (h : o.isSome) : o.isNone = false := by
  cases o with
  | none => cases h
  | some a => rfl

/-- **C46** Once a call of `fit` has returned, looking up values and comparing never raises MethodNotFittedException again,
whatever calls follow; nor does plotting, except for the H-statistic (see `C46_friedman_plot_partial`). -/
theorem C46_available_after_fit (sort : PairSort F K) (kind : PdKind) (E : PdEnv G F K) (E' : PerfEnv G L F K)
    (E'' : CmdEnv F J K) (E3 : SsEnv F K) :
    (∀ hist (s : PdpMethod G L F V K), ∀ c ∈ fitCalls (PdpMethod.fit kind E) hist s, Succeeds (PdpMethod.fit kind E) c →
      Readable (PdpMethod.view (I := I) sort kind (runFits (PdpMethod.fit kind E) hist s)) ∧
      (kind = .greenwell → Plottable (PdpMethod.view (I := I) sort kind (runFits (PdpMethod.fit kind E) hist s)))) ∧
    (∀ hist (s : Sejong G L F V K), ∀ c ∈ fitCalls (sejongCall E') hist s, Succeeds (sejongCall E') c →
      Readable (Sejong.view (I := I) sort (runFits (sejongCall E') hist s)) ∧
      Plottable (Sejong.view (I := I) sort (runFits (sejongCall E') hist s))) ∧
    (∀ hist (s : CmdMethod F K), ∀ c ∈ fitCalls (CmdMethod.fit E'') hist s, Succeeds (CmdMethod.fit E'') c →
      Readable (CmdMethod.view (I := I) E'' (runFits (CmdMethod.fit E'') hist s)) ∧
      Plottable (CmdMethod.view (I := I) E'' (runFits (CmdMethod.fit E'') hist s))) ∧
    (∀ hist (s : SsMethod F I K), ∀ c ∈ fitCalls (ssCall E3) hist s, Succeeds (ssCall E3) c →
      Readable (SsMethod.view sort (runFits (ssCall E3) hist s)) ∧
      Plottable (SsMethod.view sort (runFits (ssCall E3) hist s))) := by
  refine ⟨?_, ?_, ?_, ?_⟩
  · intro hist s c hc hs
    have h := runFits_once (P := fun s : PdpMethod G L F V K => s.ovo.isSome = true) (PdpMethod.fit kind E)
      (fun a s h => (pdFit_progress kind E a s).ovo_keeps h) (ok := fun _ => True)
      (fun a s h _ => ((pdFit_progress kind E a s).done (returned_iff.2 h)).1) hc hs trivial
    obtain ⟨t, ht⟩ := Option.isSome_iff_exists.1 h
    refine ⟨readable_of_cmp (t := sort false t) (by simp only [PdpMethod.view, compareBase, ht]), ?_⟩
    rintro rfl
    refine plottable_of ?_
    simp only [PdpMethod.view, ht]
    rfl
  · intro hist s c hc hs
    have h := runFits_once (P := fun s : Sejong G L F V K => s.ovo.isSome = true) (sejongCall E')
      (fun a s h => (sejongFit_progress E' a.1 a.2 s).ovo_keeps h) (ok := fun _ => True)
      (fun a s h _ => ((sejongFit_progress E' a.1 a.2 s).done (returned_iff.2 h)).1) hc hs trivial
    obtain ⟨t, ht⟩ := Option.isSome_iff_exists.1 h
    refine ⟨readable_of_cmp (t := sort false t) (by simp only [Sejong.view, compareBase, ht]), plottable_of ?_⟩
    simp only [Sejong.view, ht]
    rfl
  · intro hist s c hc hs
    have h := runFits_once (P := fun s : CmdMethod F K => s.ovo.isSome = true) (CmdMethod.fit E'')
      (fun a s h => (cmdFit_progress E'' a s).ovo_keeps h) (ok := fun _ => True)
      (fun a s h _ => ((cmdFit_progress E'' a s).done (returned_iff.2 h)).1) hc hs trivial
    obtain ⟨t, ht⟩ := Option.isSome_iff_exists.1 h
    refine ⟨?_, plottable_of ?_⟩
    · have : ∃ u, (CmdMethod.view (I := I) E'' (runFits (CmdMethod.fit E'') hist s)).cmp = .ok u := by
        simp only [CmdMethod.view, CmdMethod.compareOvo, ht]
        exact ⟨_, rfl⟩
      obtain ⟨u, hu⟩ := this
      exact readable_of_cmp hu
    · simp only [CmdMethod.view, ht]
      rfl
  · intro hist s c hc hs
    have h := runFits_once (P := fun s : SsMethod F I K => s.ovo.isSome = true) (ssCall E3)
      (fun a s h => (ssFit_progress E3 a.1 a.2.1 a.2.2.1 a.2.2.2 s).ovo_keeps h) (ok := fun _ => True)
      (fun a s h _ => ((ssFit_progress E3 a.1 a.2.1 a.2.2.1 a.2.2.2 s).done (returned_iff.2 h)).1) hc hs trivial
    obtain ⟨t, ht⟩ := Option.isSome_iff_exists.1 h
    refine ⟨?_, plottable_of ?_⟩
    · refine readable_of_cmp (t := sort (runFits (ssCall E3) hist s).ascending (t.map SsRow.toOvo)) ?_
      simp only [SsMethod.view, compareBase, ht]
      rfl
    · simp only [SsMethod.view, ht]
      rfl

/-- **C46, partial** Plotting the H-statistic: only after a call with the one-vs-all part switched on.
Missing: a call with `calculate_ova=False` is a successful fit too, see `C46_friedman_plot_fails`. -/
theorem C46_friedman_plot_partial (sort : PairSort F K) (n : Bool) (E : PdEnv G F K) (hist) (s : PdpMethod G L F V K) :
    ∀ c ∈ fitCalls (PdpMethod.fit (.friedman n) E) hist s, Succeeds (PdpMethod.fit (.friedman n) E) c → c.1.calculateOva = true →
      Plottable (PdpMethod.view (I := I) sort (.friedman n) (runFits (PdpMethod.fit (.friedman n) E) hist s)) := by
  intro c hc hs ho
  have h := runFits_once (P := fun s : PdpMethod G L F V K => s.ova.isSome = true) (PdpMethod.fit (.friedman n) E)
    (fun a s h => (pdFit_progress (.friedman n) E a s).ova_keeps h) (ok := fun a => a.calculateOva = true)
    (fun a s h ho => (pdFit_progress (.friedman n) E a s).done_ova (returned_iff.2 h) ho) hc hs ho
  refine plottable_of ?_
  simp only [PdpMethod.view, if_true]
  exact isNone_false_of h

/-- **C46 fails** for the H-statistic: as long as all calls of `fit` have `calculate_ova=False`, every plot raises
MethodNotFittedException, no matter how many of the calls succeed. -/
theorem C46_friedman_plot_fails (sort : PairSort F K) (n : Bool) (E : PdEnv G F K) (rng : G) (hist : List (PdArgs L F V K))
    (hno : ∀ a ∈ hist, a.calculateOva = false) (Ev : VisEnv F K) (visType title : String) (o : Opts K) (sub : SubOpts K) :
    View.plot Ev (PdpMethod.view (I := I) sort (.friedman n) (runFits (PdpMethod.fit (.friedman n) E) hist (PdpMethod.new rng)))
      visType title o sub = .error .methodNotFitted := by
  have key : ∀ (hist : List (PdArgs L F V K)) (s : PdpMethod G L F V K), (∀ a ∈ hist, a.calculateOva = false) →
      (runFits (PdpMethod.fit (.friedman n) E) hist s).ova = s.ova := by
    intro hist
    induction hist with
    | nil => intro s _; rfl
    | cons a l ih =>
      intro s h
      simp only [runFits]
      rw [ih _ (fun b hb => h b (List.mem_cons_of_mem _ hb))]
      exact (pdFit_progress (.friedman n) E a s).no_ova (h a List.mem_cons_self)
  unfold View.plot
  simp only [PdpMethod.view, key hist _ hno]
  rfl

end C46

/-! ## C47 -/

section C47
variable {F V K G L I J : Type} [LinearOrder F] [LinearOrder V] [DecidableEq L] [LinearOrder I] [LinearOrder J]
  [Field K] [LinearOrder K]

/-- **C47** The order of the two arguments does not matter. -/
theorem C47_symmetric (v : View F I K) (f g : F) : v.interactionValue f g = v.interactionValue g f := by
  unfold View.interactionValue
  have : (fun r : OvoRow F K => (decide (r.f1 = f) && decide (r.f2 = g)) || (decide (r.f1 = g) && decide (r.f2 = f))) =
      fun r => (decide (r.f1 = g) && decide (r.f2 = f)) || (decide (r.f1 = f) && decide (r.f2 = g)) := by
    funext r; exact Bool.or_comm _ _
  rw [this]

/-- the rows of a table about an unordered pair, as `interaction_value` picks them -/
theorem pick_isPair (f g : F) :
    (fun r : OvoRow F K => (decide (r.f1 = f) && decide (r.f2 = g)) || (decide (r.f1 = g) && decide (r.f2 = f))) =
      fun r => decide (r.isPair f g) := by
  funext r
  rw [Bool.eq_iff_iff]
  simp only [Bool.or_eq_true, Bool.and_eq_true, decide_eq_true_eq]
  exact Iff.rfl

/-- **C47** Look-up in a table of pairs: IndexError iff no row is about the pair; otherwise the value of a row about it that
no other row about it precedes in strength; with a single such row, its value. -/
theorem C47_lookup {sort : PairSort F K} (hs : ∀ asc, SortsBy OvoRow.val asc (sort asc)) {v : View F I K}
    (hv : v.cmp = compareBase sort v.asc v.ovo) {t : List (OvoRow F K)} (ho : v.ovo = some t) (f g : F) :
    ((v.interactionValue f g = .error .indexError) ↔ ∀ r ∈ t, ¬ r.isPair f g) ∧
    (∀ r ∈ t, r.isPair f g → ∃ q ∈ t, q.isPair f g ∧ v.interactionValue f g = .ok q.val ∧
      ∀ q' ∈ t, q'.isPair f g → Num.keyLE v.asc q.val q'.val = true) ∧
    (∀ r ∈ t, r.isPair f g → t.countP (fun r => decide (r.isPair f g)) = 1 → v.interactionValue f g = .ok r.val) := by
  obtain ⟨hp, hpw⟩ := hs v.asc t
  have hcmp : v.cmp = .ok (sort v.asc t) := by rw [hv, ho]; rfl
  have hval : v.interactionValue f g = match (sort v.asc t).filter (fun r => decide (r.isPair f g)) with
      | [] => .error .indexError
      | r :: _ => .ok r.val := by
    unfold View.interactionValue
    rw [hcmp]
    simp only [pick_isPair]
    cases (sort v.asc t).filter (fun r => decide (r.isPair f g)) <;> rfl
  have hmem : ∀ r, r ∈ (sort v.asc t).filter (fun r => decide (r.isPair f g)) ↔ r ∈ t ∧ r.isPair f g := by
    intro r
    rw [List.mem_filter, hp.mem_iff, decide_eq_true_eq]
  have hpf := hpw.filter (fun r => decide (r.isPair f g))
  have hlen : ((sort v.asc t).filter (fun r => decide (r.isPair f g))).length = t.countP (fun r => decide (r.isPair f g)) := by
    rw [← List.countP_eq_length_filter]; exact hp.countP_eq _
  cases e : (sort v.asc t).filter (fun r => decide (r.isPair f g)) with
  | nil =>
    rw [e] at hval hmem
    have hno : ∀ r ∈ t, ¬ r.isPair f g := fun r hr hpr => by
      have := (hmem r).2 ⟨hr, hpr⟩
      cases this
    exact ⟨⟨fun _ => hno, fun _ => hval⟩, fun r hr hpr => absurd hpr (hno r hr), fun r hr hpr => absurd hpr (hno r hr)⟩
  | cons q qs =>
    rw [e] at hval hmem hpf hlen
    have hq := (hmem q).1 List.mem_cons_self
    simp only [] at hval
    refine ⟨⟨fun h => (by rw [hval] at h; cases h), fun h => absurd hq.2 (h q hq.1)⟩, ?_, ?_⟩
    · intro r hr hpr
      refine ⟨q, hq.1, hq.2, hval, ?_⟩
      intro q' hq' hpq'
      rcases List.mem_cons.1 ((hmem q').2 ⟨hq', hpq'⟩) with rfl | h
      · unfold Num.keyLE
        cases q'.val <;> cases v.asc <;> simp [Num.isNaN, Num.le]
      · exact List.rel_of_pairwise_cons hpf h
    · intro r hr hpr h1
      rw [h1] at hlen
      have : qs = [] := by
        cases qs with
        | nil => rfl
        | cons a b => simp at hlen
      subst this
      have := (hmem r).2 ⟨hr, hpr⟩
      simp only [List.mem_singleton] at this
      rw [hval, this]

/-- **C47** H-statistic and Greenwell after a successful fit on distinct features: `interaction_value` of two different
features is the value of the one row of `ovo` about them; IndexError for any other pair of names. -/
theorem C47_pd_after_fit [IsStrictOrderedRing K] [HasSqrt K] {sort : PairSort F K} (hsort : ∀ asc, SortsBy OvoRow.val asc (sort asc))
    (kind : PdKind) {gm : Row F V → Num K} {E : PdEnv G F K} {a : PdArgs L F V K} {s0 s : PdpMethod G L F V K} {Xs : LFrame L F V}
    (hs : FitSetup gm E a s0 Xs) (hE : SortsBy OvoRow.val false E.sortOvo) (hfs : (a.features.getD a.X.frame.cols).Nodup)
    (hret : PdpMethod.fit kind E a s0 = (.ok (), s)) :
    ∃ t, s.ovo = some t ∧
      (∀ f ∈ a.features.getD a.X.frame.cols, ∀ g ∈ a.features.getD a.X.frame.cols, f ≠ g →
        ∃ r ∈ t, r.isPair f g ∧ (PdpMethod.view (I := I) sort kind s).interactionValue f g = .ok r.val) ∧
      (∀ f g, ¬ (f ∈ a.features.getD a.X.frame.cols ∧ g ∈ a.features.getD a.X.frame.cols ∧ f ≠ g) →
        (PdpMethod.view (I := I) sort kind s).interactionValue f g = .error .indexError) := by
  obtain ⟨t, ht, _, hone, hin⟩ := C13_one_row_per_pair kind hs hE hfs hret
  have hl := fun f g => C47_lookup (v := PdpMethod.view (I := I) sort kind s) hsort rfl (t := t) ht f g
  refine ⟨t, ht, ?_, ?_⟩
  · intro f hf g hg hne
    have h1 := hone f hf g hg hne
    have hpos : 0 < t.countP (fun r => decide (r.isPair f g)) := by rw [h1]; exact Nat.one_pos
    obtain ⟨r, hr, hpr⟩ := List.countP_pos_iff.1 hpos
    have hpr := of_decide_eq_true hpr
    exact ⟨r, hr, hpr, (hl f g).2.2 r hr hpr h1⟩
  · intro f g hno
    refine (hl f g).1.2 ?_
    intro r hr hpr
    have := hin r hr
    rcases hpr with ⟨rfl, rfl⟩ | ⟨rfl, rfl⟩
    · exact hno this
    · exact hno ⟨this.2.1, this.1, this.2.2.symm⟩

/-- **C47** Split score: with the two directions of a pair in `ovo`, `interaction_value` is the stronger one - the smaller
for `mean_depth`, the larger for the other metrics. -/
theorem C47_split_score_strongest {sort : PairSort F K} (hsort : ∀ asc, SortsBy OvoRow.val asc (sort asc)) (s : SsMethod F I K)
    {t : List (SsRow F K)} (ht : s.ovo = some t) {m : SsMetric} (hm : s.metric = some m) (f g : F) :
    (∀ r ∈ t, (r.f1 = f ∧ r.f2 = g) ∨ (r.f1 = g ∧ r.f2 = f) → ∃ q ∈ t, ((q.f1 = f ∧ q.f2 = g) ∨ (q.f1 = g ∧ q.f2 = f)) ∧
      (SsMethod.view sort s).interactionValue f g = .ok q.val ∧
      ∀ x y, q.val = .fin x → r.val = .fin y → if m = .meanDepth then x ≤ y else y ≤ x) := by
  intro r hr hpr
  have hl := C47_lookup (v := SsMethod.view sort s) hsort rfl (t := t.map SsRow.toOvo)
    (by simp only [SsMethod.view, ht]; rfl) f g
  obtain ⟨q, hq, hpq, hval, hmin⟩ := hl.2.1 _ (List.mem_map.2 ⟨r, hr, rfl⟩) hpr
  obtain ⟨q0, hq0, rfl⟩ := List.mem_map.1 hq
  refine ⟨q0, hq0, hpq, hval, ?_⟩
  intro x y hx hy
  have := hmin _ (List.mem_map.2 ⟨r, hr, rfl⟩) hpr
  simp only [SsRow.toOvo, SsMethod.view, SsMethod.ascending, hm, hx, hy, Num.keyLE, Num.isNaN, SsMetric.ascending, Num.le,
    Bool.false_eq_true, if_false] at this
  by_cases hmd : m = .meanDepth
  · simpa [hmd] using this
  · simpa [hmd] using this

/-- **C47** Sejong Oh after a fit: as for the other model-agnostic methods. -/
theorem C47_sejong_after_fit [IsStrictOrderedRing K] [HasSqrt K] {sort : PairSort F K} (hsort : ∀ asc, SortsBy OvoRow.val asc (sort asc))
    {E : PerfEnv G L F K} {a : SejongArgs L F V K} {s0 : Sejong G L F V K} {Xs : LFrame L F V} {ys : Target L K} {rng : G}
    {sc : List (Row F V) → K} (hs : PerfSetup E a s0 Xs ys rng sc)
    (hE : SortsBy (fun r : OvoRow F K => r.val.abs) false E.sortOvo) (entropy : G) :
    ∃ s t, Sejong.fit E a entropy s0 = (.ok (), s) ∧ s.ovo = some t ∧
      (∀ f ∈ a.feats, ∀ g ∈ a.feats, f ≠ g → ∃ r ∈ t, r.isPair f g ∧ (Sejong.view (I := I) sort s).interactionValue f g = .ok r.val) ∧
      (∀ f g, ¬ (f ∈ a.feats ∧ g ∈ a.feats ∧ f ≠ g) → (Sejong.view (I := I) sort s).interactionValue f g = .error .indexError) := by
  obtain ⟨s, t, h1, ht, hperm, _, _⟩ := C24_mean_absolute_nonadditive_change hs hE entropy
  have hl := fun f g => C47_lookup (v := Sejong.view (I := I) sort s) hsort rfl (t := t) ht f g
  have hpairs : (t.map (fun r => (r.f1, r.f2))).Perm (combinations2 a.feats) := by
    have := hperm.map (fun r : OvoRow F K => (r.f1, r.f2))
    refine this.trans (List.Perm.of_eq ?_)
    apply List.ext_getElem
    · simp
    · intro i h1 h2; simp
  have hcount : ∀ f g, t.countP (fun r => decide (r.isPair f g)) =
      (combinations2 a.feats).countP (fun q => decide ((q.1 = f ∧ q.2 = g) ∨ (q.1 = g ∧ q.2 = f))) := by
    intro f g
    rw [← hpairs.countP_eq, List.countP_map]
    apply List.countP_congr
    intro r _
    simp only [decide_eq_true_eq, Function.comp]
    exact Iff.rfl
  refine ⟨s, t, h1, ht, ?_, ?_⟩
  · intro f hf g hg hne
    have h1 : t.countP (fun r => decide (r.isPair f g)) = 1 := by
      rw [hcount]; exact countP_combinations2 hs.feats_nodup hf hg hne
    have hpos : 0 < t.countP (fun r => decide (r.isPair f g)) := by rw [h1]; exact Nat.one_pos
    obtain ⟨r, hr, hpr⟩ := List.countP_pos_iff.1 hpos
    have hpr := of_decide_eq_true hpr
    exact ⟨r, hr, hpr, (hl f g).2.2 r hr hpr h1⟩
  · intro f g hno
    refine (hl f g).1.2 ?_
    intro r hr hpr
    have hin : (r.f1, r.f2) ∈ combinations2 a.feats := hpairs.mem_iff.1 (List.mem_map.2 ⟨r, hr, rfl⟩)
    have hm := mem_combinations2 hin
    have hne := ne_of_mem_combinations2 hs.feats_nodup hin
    rcases hpr with ⟨rfl, rfl⟩ | ⟨rfl, rfl⟩
    · exact hno ⟨hm.1, hm.2, hne⟩
    · exact hno ⟨hm.2, hm.1, hne.symm⟩

/-- **C47, partial** Conditional minimal depth, whose `ovo` has both directions of each pair: `interaction_value` is the mean
of the two. Missing: feature names whose concatenations collide (`C38_joined_names_can_collide`). -/
theorem C47_cmd_mean_partial [IsStrictOrderedRing K] (E : CmdEnv F J K) (hE : SortsCmd E.sortOvo)
    (hC : SortsBy CmdRow.val true E.sortCmp) {m : Forest F} {ts : List LTree} (h : ForestOf m ts) (hts : ts ≠ [])
    (hc : m.columns ≠ []) (s0 : CmdMethod F K)
    (hinj : ∀ a ∈ m.columns, ∀ b ∈ m.columns, ∀ c ∈ m.columns, ∀ e ∈ m.columns, pairId E.join a b = pairId E.join c e →
      (a = c ∧ b = e) ∨ (a = e ∧ b = c)) :
    ∃ rows, (CmdMethod.fit E m s0).2.ovo = some rows ∧
      (∀ f ∈ m.columns, ∀ g ∈ m.columns, f ≠ g → ∃ r1 r2, rows.filter (fun r => decide (r.root = f ∧ r.var = g)) = [r1] ∧
        rows.filter (fun r => decide (r.root = g ∧ r.var = f)) = [r2] ∧
        (CmdMethod.view (I := I) E (CmdMethod.fit E m s0).2).interactionValue f g = .ok (mean2 r1.val r2.val)) ∧
      (∀ f g, ¬ (f ∈ m.columns ∧ g ∈ m.columns ∧ f ≠ g) →
        (CmdMethod.view (I := I) E (CmdMethod.fit E m s0).2).interactionValue f g = .error .indexError) := by
  obtain ⟨rows, out, h1, h2, hin, hpair, _⟩ := C38_compare_merges_directions_partial E hE hC h hts hc s0 hinj
  have hval : ∀ f g, (CmdMethod.view (I := I) E (CmdMethod.fit E m s0).2).interactionValue f g =
      match (out.filter (CmdRow.isPair f g)).map CmdRow.toOvo with
      | [] => .error .indexError
      | r :: _ => .ok r.val := by
    intro f g
    have hc : (CmdMethod.view (I := I) E (CmdMethod.fit E m s0).2).cmp = .ok (out.map CmdRow.toOvo) := by
      simp only [CmdMethod.view, h2]; rfl
    unfold View.interactionValue
    rw [hc]
    simp only [pick_isPair, List.filter_map]
    have : ((fun r : OvoRow F K => decide (r.isPair f g)) ∘ CmdRow.toOvo) = CmdRow.isPair f g := by
      funext r
      rw [Bool.eq_iff_iff]
      simp only [Function.comp, CmdRow.isPair, decide_eq_true_eq]
      exact Iff.rfl
    rw [this]
    cases (out.filter (CmdRow.isPair f g)).map CmdRow.toOvo <;> rfl
  refine ⟨rows, h1, ?_, ?_⟩
  · intro f hf g hg hne
    obtain ⟨r1, r2, r, e1, e2, e3, e4⟩ := hpair f hf g hg hne
    refine ⟨r1, r2, e1, e2, ?_⟩
    rw [hval, e3]
    simp only [List.map_cons, CmdRow.toOvo, e4]
  · intro f g hno
    rw [hval]
    have : out.filter (CmdRow.isPair f g) = [] := by
      rw [List.filter_eq_nil_iff]
      intro r hr hpr
      simp only [CmdRow.isPair, decide_eq_true_eq] at hpr
      have := hin r hr
      rcases hpr with ⟨rfl, rfl⟩ | ⟨rfl, rfl⟩
      · exact hno this
      · exact hno ⟨this.2.1, this.1, this.2.2.symm⟩
    rw [this]
    rfl

end C47

/-! ## C48 -/

section C48
variable {F V K G L I J : Type} [LinearOrder F] [LinearOrder V] [DecidableEq L] [LinearOrder I]
  [Field K] [LinearOrder K]

theorem returned_false {α : Type} {r : Except Err Unit} (h : ¬ r = .ok ()) : returned r = false := by
  cases e : returned r with
  | false => rfl
  | true => exact absurd (returned_iff.1 e) h

/-- **C48** `feature_importance` of Greenwell's, Sejong Oh's method, conditional minimal depth and split score: after any
sequence of calls, some of them failing, it is the table of the last successful call - or the one from before, if none
succeeded. -/
theorem C48_importance_of_last_success [HasSqrt K] (E : PdEnv G F K) (E' : PerfEnv G L F K) (E'' : CmdEnv F J K) (E3 : SsEnv F K) :
    (∀ hist (s : PdpMethod G L F V K),
      (∀ c, LastSuccess (PdpMethod.fit .greenwell E) hist s c →
        (runFits (PdpMethod.fit .greenwell E) hist s).importance = (PdpMethod.fit .greenwell E c.1 c.2).2.importance) ∧
      ((∀ c ∈ fitCalls (PdpMethod.fit .greenwell E) hist s, ¬ Succeeds (PdpMethod.fit .greenwell E) c) →
        (runFits (PdpMethod.fit .greenwell E) hist s).importance = s.importance)) ∧
    (∀ hist (s : Sejong G L F V K),
      (∀ c, LastSuccess (sejongCall E') hist s c → (runFits (sejongCall E') hist s).importance = (sejongCall E' c.1 c.2).2.importance) ∧
      ((∀ c ∈ fitCalls (sejongCall E') hist s, ¬ Succeeds (sejongCall E') c) →
        (runFits (sejongCall E') hist s).importance = s.importance)) ∧
    (∀ hist (s : CmdMethod F K),
      (∀ c, LastSuccess (CmdMethod.fit E'') hist s c →
        (runFits (CmdMethod.fit E'') hist s).importance = (CmdMethod.fit E'' c.1 c.2).2.importance) ∧
      ((∀ c ∈ fitCalls (CmdMethod.fit E'') hist s, ¬ Succeeds (CmdMethod.fit E'') c) →
        (runFits (CmdMethod.fit E'') hist s).importance = s.importance)) ∧
    (∀ hist (s : SsMethod F I K),
      (∀ c, LastSuccess (ssCall E3) hist s c → (runFits (ssCall E3) hist s).importance = (ssCall E3 c.1 c.2).2.importance) ∧
      ((∀ c ∈ fitCalls (ssCall E3) hist s, ¬ Succeeds (ssCall E3) c) →
        (runFits (ssCall E3) hist s).importance = s.importance)) := by
  refine ⟨fun hist s => ?_, fun hist s => ?_, fun hist s => ?_, fun hist s => ?_⟩
  · exact runFits_obs (PdpMethod.fit .greenwell E) (fun s : PdpMethod G L F V K => s.importance)
      (fun c _ hc => (pdFit_progress .greenwell E c.1 c.2).imp_keeps rfl (returned_false (α := Unit) hc))
  · exact runFits_obs (sejongCall E') (fun s : Sejong G L F V K => s.importance)
      (fun c _ hc => (sejongFit_progress E' c.1.1 c.1.2 c.2).imp_keeps rfl (returned_false (α := Unit) hc))
  · exact runFits_obs (CmdMethod.fit E'') (fun s : CmdMethod F K => s.importance)
      (fun c _ hc => (cmdFit_progress E'' c.1 c.2).imp_keeps rfl (returned_false (α := Unit) hc))
  · exact runFits_obs (ssCall E3) (fun s : SsMethod F I K => s.importance)
      (fun c _ hc => (ssFit_progress E3 c.1.1 c.1.2.1 c.1.2.2.1 c.1.2.2.2 c.2).imp_keeps rfl (returned_false (α := Unit) hc))

/-- An ordinary call: if the rows can be drawn then there are some, the column names are distinct, the model predicts row by
row from the columns and never raises, and a supplied calculator was only used through its public methods. Failures are still
possible: too large samples, calculators of other models or data, unknown or repeated features, constant features. -/
def Ordinary [IsStrictOrderedRing K] [HasSqrt K] (kind : PdKind) (E : PdEnv G F K) (c : PdArgs L F V K × PdpMethod G L F V K) : Prop :=
  ∀ Xs, (sampleIfNotNone E.R c.1.X c.1.n c.2.rng).1 = .ok Xs →
    Xs.frame.rows ≠ [] ∧ NeverFails c.1.pf ∧ (∀ co, c.1.pdCalculator = some co → NeverFails co.obj.predict) ∧
    (∃ g, FitSetup g E c.1 c.2 Xs) ∧ (kind = .greenwell → ∀ f ∈ c.1.feats, f ∈ Xs.frame.cols)

theorem pd_failing_call_keeps [IsStrictOrderedRing K] [HasSqrt K] {kind : PdKind} {E : PdEnv G F K}
    {c : PdArgs L F V K × PdpMethod G L F V K} (ho : Ordinary kind E c) (hc : ¬ Succeeds (PdpMethod.fit kind E) c) :
    (PdpMethod.fit kind E c.1 c.2).2.ovo = c.2.ovo ∧ (PdpMethod.fit kind E c.1 c.2).2.importance = c.2.importance ∧
      (PdpMethod.fit kind E c.1 c.2).2.ova = c.2.ova := by
  obtain ⟨a, s0⟩ := c
  simp only [Succeeds] at hc ⊢
  cases eX : sampleIfNotNone E.R a.X a.n s0.rng with
  | mk rX rng =>
    cases rX with
    | error e =>
      unfold PdpMethod.fit PdpMethod.fitBase
      simp only [eX]
      exact ⟨trivial, trivial, trivial⟩
    | ok Xs =>
      obtain ⟨hne, hp, hpc, ⟨g, hs⟩, hgw⟩ := ho Xs (by simp only [eX])
      cases ec : PdpMethod.chooseCalc a Xs a.pf with
      | error e =>
        unfold PdpMethod.fit PdpMethod.fitBase
        unfold PdArgs.pf at ec
        simp only [eX, ec]
        exact ⟨trivial, trivial, trivial⟩
      | ok co =>
        have ch := chosen_of_ok hs ec
        have hpco : NeverFails co.obj.predict := by
          unfold PdpMethod.chooseCalc at ec
          cases e : a.pdCalculator with
          | none =>
            rw [e] at ec
            simp only [Except.ok.injEq] at ec
            subst ec
            exact hp
          | some co0 =>
            rw [e] at ec
            simp only at ec
            split at ec
            · cases ec
            · split at ec
              · cases ec
              · cases ec; exact hpc _ e
        cases e1 : kind.ovo E Xs.frame a.feats (combinations2 a.feats) co.obj with
        | mk r1 c1 =>
          rw [fit_eq kind E a s0 eX ec, e1]
          cases r1 with
          | error e => exact ⟨rfl, rfl, rfl⟩
          | ok ovo =>
            exfalso
            have hv : ValidFeatures Xs.frame a.feats := by
              cases kind with
              | greenwell => exact (ovo_ok ch.good ch.same hs.reads hs.cols_nodup e1 (hgw rfl)).1
              | friedman n =>
                have h := e1
                simp only [PdKind.ovo] at h
                rw [← hstatOvo_congr ch.same] at h
                have hv := hstatOvo_valid ch.good (by rw [ch.same.cols]; exact hs.cols_nodup) h
                exact ⟨by rw [← ch.same.cols]; exact hv.cols, hv.ne⟩
            have hr := ovo_ret (kind := kind) (E := E) ch.good hpco ch.same hs.reads hv
            rw [e1] at hr
            simp only [] at hr
            have hrows : ∃ rows, ovoRows kind E g Xs.frame a.feats = .ok rows := by
              cases em : ovoRows kind E g Xs.frame a.feats with
              | ok rows => exact ⟨rows, rfl⟩
              | error e => rw [em] at hr; cases hr
            exact hc ((fit_returns (e := .keyError) hs ec hp hpco hv).1.2 ⟨hrows, impRows_ok E g hne a.feats⟩)

/-- **C48** H-statistic and Greenwell, ordinary calls: after any sequence of calls, some of them failing, `ovo` and
`feature_importance` are those of the last successful call; so is `ova` if that call was to compute it. -/
theorem C48_pd_tables_of_last_success [IsStrictOrderedRing K] [HasSqrt K] (kind : PdKind) (E : PdEnv G F K) (hist : List (PdArgs L F V K))
    (s : PdpMethod G L F V K) (ho : ∀ c ∈ fitCalls (PdpMethod.fit kind E) hist s, Ordinary kind E c) :
    (∀ c, LastSuccess (PdpMethod.fit kind E) hist s c →
      (runFits (PdpMethod.fit kind E) hist s).ovo = (PdpMethod.fit kind E c.1 c.2).2.ovo ∧
      (runFits (PdpMethod.fit kind E) hist s).importance = (PdpMethod.fit kind E c.1 c.2).2.importance ∧
      (runFits (PdpMethod.fit kind E) hist s).ova = (PdpMethod.fit kind E c.1 c.2).2.ova) ∧
    ((∀ c ∈ fitCalls (PdpMethod.fit kind E) hist s, ¬ Succeeds (PdpMethod.fit kind E) c) →
      (runFits (PdpMethod.fit kind E) hist s).ovo = s.ovo ∧ (runFits (PdpMethod.fit kind E) hist s).importance = s.importance ∧
      (runFits (PdpMethod.fit kind E) hist s).ova = s.ova) := by
  have h1 := runFits_obs (PdpMethod.fit kind E) (fun s : PdpMethod G L F V K => s.ovo) (hist := hist) (s := s)
    (fun c hc hn => (pd_failing_call_keeps (ho c hc) hn).1)
  have h2 := runFits_obs (PdpMethod.fit kind E) (fun s : PdpMethod G L F V K => s.importance) (hist := hist) (s := s)
    (fun c hc hn => (pd_failing_call_keeps (ho c hc) hn).2.1)
  have h3 := runFits_obs (PdpMethod.fit kind E) (fun s : PdpMethod G L F V K => s.ova) (hist := hist) (s := s)
    (fun c hc hn => (pd_failing_call_keeps (ho c hc) hn).2.2)
  exact ⟨fun c hc => ⟨h1.1 c hc, h2.1 c hc, h3.1 c hc⟩, fun h => ⟨h1.2 h, h2.2 h, h3.2 h⟩⟩

/-- **C48** A call of `fit` on a used object returns or raises exactly as on a new object with the same generator, and, if it
returns, leaves the same tables: nothing of earlier fits gets into them. (`ova` only if it was to be computed.) -/
theorem C48_pd_refit_like_new [IsStrictOrderedRing K] [HasSqrt K] (kind : PdKind) (E : PdEnv G F K) (a : PdArgs L F V K)
    (s : PdpMethod G L F V K) :
    (PdpMethod.fit kind E a s).1 = (PdpMethod.fit kind E a (PdpMethod.new s.rng)).1 ∧
    ((PdpMethod.fit kind E a s).1 = .ok () →
      (PdpMethod.fit kind E a s).2.ovo = (PdpMethod.fit kind E a (PdpMethod.new s.rng)).2.ovo ∧
      (PdpMethod.fit kind E a s).2.importance = (PdpMethod.fit kind E a (PdpMethod.new s.rng)).2.importance ∧
      (PdpMethod.fit kind E a s).2.features = (PdpMethod.fit kind E a (PdpMethod.new s.rng)).2.features ∧
      (PdpMethod.fit kind E a s).2.pairs = (PdpMethod.fit kind E a (PdpMethod.new s.rng)).2.pairs ∧
      (wantsOva kind a = true → (PdpMethod.fit kind E a s).2.ova = (PdpMethod.fit kind E a (PdpMethod.new s.rng)).2.ova)) := by
  cases eX : sampleIfNotNone E.R a.X a.n s.rng with
  | mk rX rng =>
    have eX' : sampleIfNotNone E.R a.X a.n (PdpMethod.new s.rng : PdpMethod G L F V K).rng = (rX, rng) := eX
    cases rX with
    | error e =>
      unfold PdpMethod.fit PdpMethod.fitBase
      simp only [eX, eX']
      exact ⟨trivial, fun h => by cases h⟩
    | ok Xs =>
      cases ec : PdpMethod.chooseCalc a Xs a.pf with
      | error e =>
        unfold PdpMethod.fit PdpMethod.fitBase
        unfold PdArgs.pf at ec
        simp only [eX, eX', ec]
        exact ⟨trivial, fun h => by cases h⟩
      | ok co =>
        rw [fit_eq kind E a s eX ec, fit_eq kind E a _ eX' ec]
        cases kind.ovo E Xs.frame a.feats (combinations2 a.feats) co.obj with
        | mk r1 c1 =>
          cases r1 with
          | error e => exact ⟨rfl, fun h => by cases h⟩
          | ok ovo =>
            simp only []
            cases pdpImportance E.sortFeat (numIn E a.feats) a.feats c1 with
            | mk r2 c2 =>
              cases r2 with
              | error e => exact ⟨rfl, fun h => by cases h⟩
              | ok imp =>
                cases kind with
                | greenwell => exact ⟨rfl, fun _ => ⟨rfl, rfl, rfl, rfl, fun h => by cases h⟩⟩
                | friedman n =>
                  simp only []
                  cases hov : a.calculateOva with
                  | false => exact ⟨rfl, fun _ => ⟨rfl, rfl, rfl, rfl, fun h => by simp [wantsOva, hov] at h⟩⟩
                  | true =>
                    simp only [if_true]
                    cases hstatOva E.sortFeat a.pf n Xs.frame a.feats c2 with
                    | mk r3 c3 =>
                      cases r3 with
                      | error e => exact ⟨rfl, fun h => by cases h⟩
                      | ok ova => exact ⟨rfl, fun _ => ⟨rfl, rfl, rfl, rfl, fun _ => rfl⟩⟩

theorem oblivious_fold {α β : Type} (l : List β) {body : α → β → PyM (Scored G F V) α} (h : ∀ x b, Oblivious (body x b)) (x : α) :
    Oblivious (PyM.fold l body x) := by
  induction l generalizing x with
  | nil => exact oblivious_ret _
  | cons b l ih => exact oblivious_seq (h x b) fun y => ih y

theorem oblivious_permImportance [IsStrictOrderedRing K] [HasSqrt K] {model : ModelObj F V (Num K)}
    (hd : ∀ p, model.predict = some p → ∀ k k' rows, p k rows = p k' rows) (R : Rng G) (M : Metric K)
    (y : List (Num K)) (X : Frame F V) (sort : List (FeatRow F K) → List (FeatRow F K)) (fs : Option (List F)) (n : Nat) :
    Oblivious (permImportance sort R model M y X fs n) := by
  refine oblivious_seq (oblivious_scoreOn hd _ _ _) fun base => ?_
  cases fs with
  | none => exact fun _ _ _ => ⟨rfl, rfl⟩
  | some fs =>
    refine oblivious_seq (oblivious_seq (oblivious_fold _ (fun acc _ => oblivious_fold _ (fun acc f => ?_) _) _)
      fun _ => oblivious_ret _) fun d => ?_
    · refine oblivious_seq (oblivious_lift _) fun v => oblivious_seq (fun _ _ _ => ⟨rfl, rfl⟩) fun p =>
        oblivious_seq (oblivious_lift _) fun v' => oblivious_seq (oblivious_lift _) fun Xp =>
        oblivious_seq (oblivious_scoreOn hd _ _ _) fun sc => ?_
      split
      · exact fun _ _ _ => ⟨rfl, rfl⟩
      · exact oblivious_seq (oblivious_lift _) fun _ => oblivious_seq (oblivious_lift _) fun _ => oblivious_ret _
    · split
      · exact fun _ _ _ => ⟨rfl, rfl⟩
      · exact oblivious_ret _

/-- **C48** Sejong Oh's method with a deterministic model: a call on a used object is like one on a new object with the same
generator and metric. -/
theorem C48_sejong_refit_like_new [IsStrictOrderedRing K] [HasSqrt K] (E : PerfEnv G L F K) (a : SejongArgs L F V K) (entropy : G) (s : Sejong G L F V K)
    (hd : ∀ p, a.model.predict = some p → ∀ k k' rows, p k rows = p k' rows) :
    (Sejong.fit E a entropy s).1 = (Sejong.fit E a entropy (Sejong.new s.rng s.metric)).1 ∧
    ((Sejong.fit E a entropy s).1 = .ok () →
      (Sejong.fit E a entropy s).2.ovo = (Sejong.fit E a entropy (Sejong.new s.rng s.metric)).2.ovo ∧
      (Sejong.fit E a entropy s).2.importance = (Sejong.fit E a entropy (Sejong.new s.rng s.metric)).2.importance) := by
  unfold Sejong.fit
  simp only [Sejong.new]
  rcases e : sampleBoth E.R E.toInt a.X a.y a.n s.rng with ⟨r, g1⟩
  cases r with
  | error x => exact ⟨rfl, fun h => by cases h⟩
  | ok XY =>
    obtain ⟨Xs, ys⟩ := XY
    simp only []
    have ho := oblivious_perfOvo hd E.R s.metric ys.values Xs.frame E.sortOvo
      (combinations2 (allIfNone a.X.frame.cols a.features)) a.nRepeat g1 s.calls []
    rcases e1 : perfOvo E.sortOvo E.R a.model s.metric ys.values Xs.frame
      (combinations2 (allIfNone a.X.frame.cols a.features)) a.nRepeat ⟨g1, s.calls⟩ with ⟨r1, w1⟩
    rcases e2 : perfOvo E.sortOvo E.R a.model s.metric ys.values Xs.frame
      (combinations2 (allIfNone a.X.frame.cols a.features)) a.nRepeat ⟨g1, []⟩ with ⟨r2, w2⟩
    rw [e1, e2] at ho
    obtain ⟨ho1, ho2⟩ := ho
    simp only at ho1 ho2
    subst ho1
    cases r1 with
    | error x => exact ⟨rfl, fun h => by cases h⟩
    | ok ovo =>
      simp only [PermObj.run]
      have hi := oblivious_permImportance hd E.R s.metric ys.values Xs.frame E.sortFeat
        (some (allIfNone a.X.frame.cols a.features)) a.nRepeat entropy w1.calls w2.calls
      rcases e3 : permImportance E.sortFeat E.R a.model s.metric ys.values Xs.frame
        (some (allIfNone a.X.frame.cols a.features)) a.nRepeat ⟨entropy, w1.calls⟩ with ⟨r3, w3⟩
      rcases e4 : permImportance E.sortFeat E.R a.model s.metric ys.values Xs.frame
        (some (allIfNone a.X.frame.cols a.features)) a.nRepeat ⟨entropy, w2.calls⟩ with ⟨r4, w4⟩
      rw [e3, e4] at hi
      obtain ⟨hi1, _⟩ := hi
      simp only at hi1
      subst hi1
      cases r3 with
      | error x => exact ⟨rfl, fun h => by cases h⟩
      | ok imp => exact ⟨rfl, fun _ => ⟨rfl, rfl⟩⟩

/-- **C48** The tree-based methods: a call on a used object is like one on a new object. -/
theorem C48_tree_refit_like_new (E : CmdEnv F J K) (m : Forest F) (s : CmdMethod F K) (E3 : SsEnv F K)
    (c : GbArg F I K × SsMetric × SsMetric × Bool) (s' : SsMethod F I K) :
    ((CmdMethod.fit E m s).1 = (CmdMethod.fit E m CmdMethod.new).1 ∧
      ((CmdMethod.fit E m s).1 = .ok () → (CmdMethod.fit E m s).2 = (CmdMethod.fit E m CmdMethod.new).2)) ∧
    ((ssCall E3 c s').1 = (ssCall E3 c SsMethod.new).1 ∧
      ((ssCall E3 c s').1 = .ok () → (ssCall E3 c s').2 = (ssCall E3 c SsMethod.new).2)) := by
  constructor
  · unfold CmdMethod.fit
    simp only []
    cases cmdForest m.trees m.columns.length with
    | error e => exact ⟨rfl, fun h => by cases h⟩
    | ok p =>
      obtain ⟨raw, trees⟩ := p
      simp only []
      cases summarise E.sortOvo m.columns raw with
      | error e => exact ⟨rfl, fun h => by cases h⟩
      | ok ovo =>
        simp only []
        cases minimalDepthImportance E.sortImp m.columns (some trees) with
        | error e => exact ⟨rfl, fun h => by cases h⟩
        | ok imp => exact ⟨rfl, fun _ => rfl⟩
  · obtain ⟨a, inter, imp, onlyDef⟩ := c
    unfold ssCall SsMethod.fit
    simp only []
    cases a.toHandler E3.leafName with
    | error e => exact ⟨rfl, fun h => by cases h⟩
    | ok h =>
      simp only []
      cases checkMetrics h.package inter imp with
      | error e => exact ⟨rfl, fun h => by cases h⟩
      | ok u =>
        simp only []
        cases Artemis.fullResult h.package h.frame with
        | error e => exact ⟨rfl, fun h => by cases h⟩
        | ok full =>
          simp only []
          cases getOvo E3.sortOvo inter (getSummary E3.sortSum onlyDef full) with
          | error e => exact ⟨rfl, fun h => by cases h⟩
          | ok ovo =>
            simp only []
            cases ssImportance E3 none imp h.frame with
            | error e => exact ⟨rfl, fun h => by cases h⟩
            | ok t => exact ⟨rfl, fun _ => rfl⟩

/-- **C48 fails** for `ova`: a call with `calculate_ova=False` leaves the table of an earlier fit - on other data, of
another model - in place. -/
theorem C48_ova_kept_from_earlier_fit [HasSqrt K] (n : Bool) (E : PdEnv G F K) (a : PdArgs L F V K) (ha : a.calculateOva = false)
    (s : PdpMethod G L F V K) : (PdpMethod.fit (.friedman n) E a s).2.ova = s.ova :=
  (pdFit_progress (.friedman n) E a s).no_ova ha

end C48

/-! ## Cases -/

section Cases
open Ex

/-- the pair-table sort of the examples -/
def exPairSort {F K : Type} [Field K] [LinearOrder K] : PairSort F K := fun asc => stableSort OvoRow.val asc

/-- C47 on the H-statistic of the example -/
example (n : Bool) : ∃ s t, PdpMethod.fit (G := Nat) (L := Nat) (K := ℝ) (.friedman n) exEnv exArgs (PdpMethod.new 0) = (.ok (), s) ∧
    s.ovo = some t ∧ ∃ r ∈ t, r.isPair 2 0 ∧ (PdpMethod.view (I := Nat) exPairSort (.friedman n) s).interactionValue 2 0 = .ok r.val := by
  obtain ⟨s, hs⟩ := exFitR n
  obtain ⟨t, ht, h1, _⟩ := C47_pd_after_fit (I := Nat) (sort := exPairSort) (fun _ => sortsBy_stableSort _ _) (.friedman n)
    (exSetup (K := ℝ) 0) (sortsBy_stableSort _ _) (by show [(0 : Fin 3), 1, 2].Nodup; decide) hs
  obtain ⟨r, hr, hp, hv⟩ := h1 2 (by show (2 : Fin 3) ∈ [(0 : Fin 3), 1, 2]; decide) 0
    (by show (0 : Fin 3) ∈ [(0 : Fin 3), 1, 2]; decide) (by decide)
  exact ⟨s, t, hs, ht, r, hr, hp, hv⟩

example : ∃ s t, Sejong.fit (K := ℝ) exPerfEnv exSArgs 5 (Sejong.new 0 rmseM) = (.ok (), s) ∧ s.ovo = some t ∧
    ∃ r ∈ t, r.isPair 2 0 ∧ (Sejong.view (I := Nat) exPairSort s).interactionValue 2 0 = .ok r.val := by
  obtain ⟨sc, h⟩ := exPerfSetup 0
  obtain ⟨s, t, h1, h2, h3, _⟩ := C47_sejong_after_fit (I := Nat) (sort := exPairSort) (fun _ => sortsBy_stableSort _ _) h
    (sortsBy_stableSort _ _) 5
  obtain ⟨r, hr, hp, hv⟩ := h3 2 (by show (2 : Fin 3) ∈ [(0 : Fin 3), 1, 2]; decide) 0
    (by show (0 : Fin 3) ∈ [(0 : Fin 3), 1, 2]; decide) (by decide)
  exact ⟨s, t, h1, h2, r, hr, hp, hv⟩

/-- a call of `fit` in the example is ordinary (`C48_pd_tables_of_last_success`) -/
theorem exOrdinary (kind : PdKind) (rng : Nat) : Ordinary (K := ℝ) kind exEnv (exArgs, PdpMethod.new rng) := by
  intro Xs h
  cases h
  exact ⟨exRows, exNever, (fun co h => by cases h), ⟨_, exSetup (K := ℝ) rng⟩, fun _ f hf => hf⟩

/-- only two of the columns, no one-vs-all part -/
def exArgsTwo : PdArgs Nat (Fin 3) ℤ ℚ := { exArgs with features := some [0, 1], calculateOva := false }

/-- **C48 fails** for `ova`, a concrete history: both calls succeed, the second one with features 0 and 1 only, and `ova`
afterwards still lists feature 2. -/
theorem C48_ova_fails : ((fitCalls (PdpMethod.fit (G := Nat) (.friedman true) exEnv) [exArgs, exArgsTwo] (PdpMethod.new 0)).map
      (fun c => returned (PdpMethod.fit (.friedman true) exEnv c.1 c.2).1)) = [true, true] ∧
    (runFits (PdpMethod.fit (G := Nat) (.friedman true) exEnv) [exArgs, exArgsTwo] (PdpMethod.new 0)).features = some [0, 1] ∧
    ((runFits (PdpMethod.fit (G := Nat) (.friedman true) exEnv) [exArgs, exArgsTwo] (PdpMethod.new 0)).ova.getD []).map (·.f) =
      [0, 1, 2] := by decide +kernel

/-- data with columns 0 and 1 -/
def exLX2 : LFrame Nat (Fin 3) ℤ := ⟨[10, 11, 12, 13], { exX with cols := [0, 1] }⟩

/-- a call for an unknown feature -/
def exArgsUnknown : PdArgs Nat (Fin 3) ℤ ℚ := { exArgs with X := exLX2, features := some [2] }

/-- **C48 fails** for Greenwell's method: a call with one unknown feature raises KeyError but has already replaced `ovo` by an
empty table, while `feature_importance` is still that of the earlier call. -/
theorem C48_greenwell_fails : ((fitCalls (PdpMethod.fit (G := Nat) .greenwell exEnv) [exArgsTwo, exArgsUnknown] (PdpMethod.new 0)).map
      (fun c => (PdpMethod.fit .greenwell exEnv c.1 c.2).1)) = [.ok (), .error .keyError] ∧
    (PdpMethod.fit (G := Nat) .greenwell exEnv exArgsTwo (PdpMethod.new 0)).2.ovo.map List.length = some 1 ∧
    (runFits (PdpMethod.fit (G := Nat) .greenwell exEnv) [exArgsTwo, exArgsUnknown] (PdpMethod.new 0)).ovo = some [] ∧
    (runFits (PdpMethod.fit (G := Nat) .greenwell exEnv) [exArgsTwo, exArgsUnknown] (PdpMethod.new 0)).importance.map List.length =
      some 2 := by decide +kernel

/-- a forest of one tree that is a leaf -/
def exLeafForest : Forest (List Nat) := ⟨[[97], [97, 98], [98]], [[⟨-1, -1, -2⟩]]⟩

/-- **C48 fails** for conditional minimal depth: fitting a forest without any split raises an exception after `ovo` was
replaced; `feature_importance` stays that of the earlier forest. -/
theorem C48_cmd_fails : ((fitCalls (CmdMethod.fit (exCmdEnv ℚ)) [exForest, exLeafForest] CmdMethod.new).map
      (fun c => returned (CmdMethod.fit (exCmdEnv ℚ) c.1 c.2).1)) = [true, false] ∧
    (runFits (CmdMethod.fit (exCmdEnv ℚ)) [exForest, exLeafForest] CmdMethod.new).ovo.map (fun t => t.map CmdRow.val) =
      some [.nan, .nan, .nan, .nan, .nan, .nan] ∧
    (runFits (CmdMethod.fit (exCmdEnv ℚ)) [exForest, exLeafForest] CmdMethod.new).importance.map List.length = some 3 := by
  decide +kernel

/-- features 0 and 1 below each other in two trees -/
def exBoth : GbModel Nat Nat ℚ :=
  ⟨"xgboost.sklearn.XGBRegressor".toList, .xgb (exGT.xgbRows 99 0 id ++
    (GTree.split 0 1 1 10 (.split 1 0 5 6 (.leaf 3 0 3) (.leaf 4 0 3)) (.leaf 2 0 4)).xgbRows 99 1 id)⟩

/-- **C48 fails** for split score: a call refused because of its importance metric has already changed the interaction
metric of the object; the old table is then read in the wrong order, and `interaction_value` changes from 5 to 2. -/
theorem C48_split_score_fails :
    ((fitCalls (ssCall exSsEnv) [(.model exBoth, .meanGain, .meanGain, true), (.model exLgb, .meanDepth, .sumCover, true)] SsMethod.new).map
      (fun c => (ssCall exSsEnv c.1 c.2).1)) = [.ok (), .error .metricNotSupported] ∧
    ((runFits (ssCall exSsEnv) [(.model exBoth, .meanGain, .meanGain, true)] SsMethod.new).view exPairSort).interactionValue 0 1 = .ok (.fin 5) ∧
    ((runFits (ssCall exSsEnv) [(.model exBoth, .meanGain, .meanGain, true), (.model exLgb, .meanDepth, .sumCover, true)]
      SsMethod.new).view exPairSort).interactionValue 0 1 = .ok (.fin 2) := by decide +kernel

/-- C46: the example after a fit without the one-vs-all part: values can be looked up, plots are refused -/
example : Succeeds (PdpMethod.fit (G := Nat) (.friedman true) exEnv) (exArgsTwo, PdpMethod.new 0) := by
  unfold Succeeds; decide +kernel

example (Ev : VisEnv (Fin 3) ℚ) : View.plot Ev (PdpMethod.view (I := Nat) exPairSort (.friedman true)
    (runFits (PdpMethod.fit (G := Nat) (.friedman true) exEnv) [exArgsTwo] (PdpMethod.new 0))) "heatmap" "default" {} {} =
      .error .methodNotFitted :=
  C46_friedman_plot_fails exPairSort true exEnv 0 [exArgsTwo] (by simp [exArgsTwo]) Ev _ _ _ _

example : Readable (PdpMethod.view (I := Nat) exPairSort (.friedman true)
    (runFits (PdpMethod.fit (G := Nat) (.friedman true) exEnv) [exArgsTwo] (PdpMethod.new 0))) :=
  ((C46_available_after_fit (I := Nat) (J := List Nat) exPairSort (.friedman true) exEnv exPerfEnv
    ⟨cmdSort, stableSort ImpRow.val true, stableSort CmdRow.val true, fun _ _ => []⟩
    ⟨0, stableSort SumRow.sumGain false, fun asc => stableSort SsRow.val asc, fun key => stableSort key false, stableSort ImpRow.val false⟩).1
    [exArgsTwo] (PdpMethod.new 0) (exArgsTwo, PdpMethod.new 0) (by simp [fitCalls]) (by unfold Succeeds; decide +kernel)).1

end Cases

end Artemis
