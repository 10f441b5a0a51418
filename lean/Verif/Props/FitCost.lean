import Verif.Props.PDCost
import Verif.Props.HStat
import Verif.Props.Greenwell

/-!
# Property C110: what fitting the partial dependence methods asks of the model

Setting of `Verif/Props/HStat.lean`. The rows sent to the model through the calculator of the fitted object are
compared with the rows of `Spec/PDCost`.
-/

set_option linter.unusedSectionVars false
set_option linter.unusedVariables false
set_option linter.unusedSimpArgs false

namespace Artemis
open Spec

theorem nodup_of_ne {α : Type*} {l : List α} (h : ∀ q ∈ combinations2 l, q.1 ≠ q.2) : l.Nodup := by
  induction l with
  | nil => exact List.nodup_nil
  | cons a l ih =>
    simp only [combinations2, List.mem_append, List.mem_map] at h
    rw [List.nodup_cons]
    refine ⟨fun ha => h (a, a) (Or.inl ⟨a, ha, rfl⟩) rfl, ih (fun q hq => h q (Or.inr hq))⟩

theorem pairwise_combinations2 {α : Type*} {l : List α} (nd : l.Nodup) :
    (combinations2 l).Pairwise (fun q q' => q ≠ q' ∧ q ≠ q'.swap) := by
  refine (nodup_combinations2 nd).imp_of_mem ?_
  rintro ⟨a, b⟩ ⟨a', b'⟩ h h' hne
  refine ⟨hne, ?_⟩
  intro hs
  simp only [Prod.swap_prod_mk, Prod.mk.injEq] at hs
  obtain ⟨rfl, rfl⟩ := hs
  exact not_mem_combinations2_swap nd h h'

variable {F V K G L : Type} [DecidableEq F] [LinearOrder V] [DecidableEq L] [Field K] [LinearOrder K]
  [IsStrictOrderedRing K] [HasSqrt K]
variable {p : PF F V (Num K)} {E : PdEnv G F K} {a : PdArgs L F V K} {s0 s : PdpMethod G L F V K} {Xs : LFrame L F V}

section steps
variable {u : Row F V → K} {X : Frame F V} {c : Calc F V (Num K)}

/-- nothing about single features is known -/
def FreshS (c : Calc F V (Num K)) : Prop := ∀ f ∈ c.X.cols, ∀ v ∈ c.X.col f, cellS c (f, v) = some .nan
/-- nothing about all-but-one features is known -/
def FreshM (c : Calc F V (Num K)) : Prop := ∀ f ∈ c.X.cols, ∀ i < c.X.len, cellM c (f, i) = some .nan

theorem pairs_fresh {g : Row F V → Num K} (hg : Good g c) {ps all} : 
    (FreshS c → FreshS (Calc.calculatePairs ps all c).2) ∧ (FreshM c → FreshM (Calc.calculatePairs ps all c).2) := by
  have hX : (Calc.calculatePairs ps all c).2.X = c.X := (opStep_pairs hg ps all).later.X
  obtain ⟨h1, _, h3⟩ := E_of_op hg (.pairs ps all)
  constructor
  · intro h f hf v hv
    rw [hX] at hf hv
    have := h1 (f, v) (by rintro ⟨fs, h, _⟩; cases h)
    rw [PDOp.run] at this
    rw [this]; exact h f hf v hv
  · intro h f hf v hv
    rw [hX] at hf hv
    have := h3 (f, v) (by rintro ⟨fs, h, _⟩; cases h)
    rw [PDOp.run] at this
    rw [this]; exact h f hf v hv

theorem single_freshM {g : Row F V → Num K} (hg : Good g c) {fs} (h : FreshM c) :
    FreshM (Calc.calculateSingle fs c).2 := by
  have hX : (Calc.calculateSingle fs c).2.X = c.X := (opStep_single hg fs).later.X
  obtain ⟨_, _, h3⟩ := E_of_op hg (.single fs)
  intro f hf v hv
  rw [hX] at hf hv
  have := h3 (f, v) (by rintro ⟨fs, h, _⟩; cases h)
  rw [PDOp.run] at this
  rw [this]; exact h f hf v hv

theorem finM_pd_number (hX : X.rows ≠ []) (f : F) (v : V) : Flt.isNaN (Spec.pdSingle (finM u) X f v) = false := by
  rw [pdSingle_fin u hX]; rfl

/-- `calculate_pd_single(features)` and then `calculate_pd_single()` on a calculator that knows nothing about single
features: together every column exactly once -/
theorem single_twice (hg : Good (finM u) c) (nd : c.X.cols.Nodup) (hf : FreshS c) {fs : List F} (hfs : fs.Nodup)
    (h1 : (Calc.calculateSingle (some fs) c).1 = .ok ())
    (h2 : (Calc.calculateSingle none (Calc.calculateSingle (some fs) c).2).1 = .ok ()) :
    ∃ new, (Calc.calculateSingle none (Calc.calculateSingle (some fs) c).2).2.calls = c.calls ++ new ∧
      new.flatten.Perm (c.X.cols.flatMap (rowsSingle c.X)) := by
  have st := opStep_single hg (some fs)
  have hX : (Calc.calculateSingle (some fs) c).2.X = c.X := st.later.X
  have hcols : ∀ f ∈ fs, f ∈ c.X.cols := fun f hf' => by
    have := (doneS_of_ok hg h1 f hf').1
    rwa [hX] at this
  obtain ⟨n1, e1, p1⟩ := single_cost hg (features := some fs) hfs (fun _ => false) (by
    intro f hf' v hv
    exact ⟨.nan, hf f (hcols f hf') v hv, rfl⟩) h1
  obtain ⟨n2, e2, p2⟩ := single_cost st.good (features := none) (by rw [hX]; exact nd) (fun f => decide (f ∈ fs)) (by
    rw [hX]
    intro f hf' v hv
    by_cases hm : f ∈ fs
    · have hd := (doneS_of_ok hg h1 f hm).2
      rw [hX] at hd
      refine ⟨_, hd v hv, ?_⟩
      rw [finM_pd_number]
      · simp [hm]
      · intro h0; simp [Frame.col, h0] at hv
    · refine ⟨.nan, ?_, by simp [hm]; rfl⟩
      have := (E_of_op hg (.single (some fs))).1 (f, v) (by
        rintro ⟨fs', he, hk⟩
        cases he
        simp only [reqS, List.mem_flatMap, keysS, List.mem_map] at hk
        obtain ⟨f', hf'', w, _, he⟩ := hk
        obtain ⟨rfl, rfl⟩ := Prod.mk.inj he
        exact hm hf'')
      rw [PDOp.run] at this
      rw [this]
      exact hf f hf' v hv) h2
  refine ⟨n1 ++ n2, by rw [e2, e1, List.append_assoc], ?_⟩
  rw [hX] at p2
  rw [List.flatten_append]
  refine (p1.append p2).trans ?_
  rw [← List.flatMap_append]
  refine List.Perm.flatMap_right _ ?_
  simp only [Bool.not_false, List.filter_true, Option.getD_some, Option.getD_none]
  rw [List.perm_ext_iff_of_nodup]
  · intro f
    simp only [List.mem_append, List.mem_filter, Bool.not_eq_true', decide_eq_false_iff_not]
    constructor
    · rintro (h | h)
      · exact hcols f h
      · exact h.1
    · intro h
      by_cases hm : f ∈ fs
      · exact Or.inl hm
      · exact Or.inr ⟨h, hm⟩
  · rw [List.nodup_append]
    refine ⟨hfs, nd.filter _, ?_⟩
    rintro f h _ h' rfl
    simp only [List.mem_filter, Bool.not_eq_true', decide_eq_false_iff_not] at h'
    exact h'.2 h
  · exact nd

end steps

/-! ### the calculations of a returning `fit` -/

theorem importance_op {numeric sort} {fs : List F} {c c' : Calc F V (Num K)} {r}
    (h : pdpImportance sort numeric fs c = (.ok r, c')) : Calc.calculateSingle none c = (.ok (), c') := by
  obtain ⟨_, c1, h1, h2⟩ := seq_ok h
  have := (Prod.mk.inj h2).2
  subst this
  exact h1

theorem greenwell_op {numeric sort} {ps : List (F × F)} {c c' : Calc F V (Num K)} {r}
    (h : greenwellOvo sort numeric ps c = (.ok r, c')) : Calc.calculatePairs (some ps) true c = (.ok (), c') := by
  obtain ⟨_, c1, h1, h2⟩ := seq_ok h
  have := (Prod.mk.inj h2).2
  subst this
  exact h1

theorem hstat_op {sort n} {X : Frame F V} {fs : List F} {ps : List (F × F)} {c c' : Calc F V (Num K)} {r}
    (h : hstatOvo sort n X fs ps c = (.ok r, c')) :
    ∃ c1, Calc.calculatePairs (some ps) false c = (.ok (), c1) ∧ Calc.calculateSingle (some fs) c1 = (.ok (), c') := by
  obtain ⟨_, c1, h1, h2⟩ := seq_ok h
  obtain ⟨_, c2, h3, h4⟩ := seq_ok h2
  have := (Prod.mk.inj h4).2
  subst this
  exact ⟨c1, h1, h3⟩

theorem ova_op {sort n} {predict : PF F V (Num K)} {X : Frame F V} {fs : List F} {c c' : Calc F V (Num K)} {r}
    (h : hstatOva sort predict n X fs c = (.ok r, c')) : Calc.calculateMinus (some fs) c = (.ok (), c') := by
  obtain ⟨_, c1, h1, h2⟩ := seq_ok h
  cases e : predict c1.calls.length X.rows with
  | error e' => simp only [e] at h2; cases h2
  | ok preds =>
    simp only [e] at h2
    have := (Prod.mk.inj h2).2
    subst this
    exact h1

/-- the calculations of a returning `fit` without a calculator given -/
theorem fit_ops {g : Row F V → Num K} {kind : PdKind} (hs : FitSetup g E a s0 Xs) (hnone : a.pdCalculator = none)
    (h : PdpMethod.fit kind E a s0 = (.ok (), s)) :
    ∃ (co : CalcObj L F V K) (b : Int) (c1 c2 c3 : Calc F V (Num K)), s.pdc = some co ∧
      (match kind with
        | .greenwell => Calc.calculatePairs (some (combinations2 a.feats)) true (Calc.new a.pf Xs.frame b) = (.ok (), c1) ∧
            c2 = c1
        | .friedman _ => Calc.calculatePairs (some (combinations2 a.feats)) false (Calc.new a.pf Xs.frame b) = (.ok (), c1) ∧
            Calc.calculateSingle (some a.feats) c1 = (.ok (), c2)) ∧
      Calc.calculateSingle none c2 = (.ok (), c3) ∧
      (match kind with
        | .greenwell => co.obj = c3
        | .friedman _ => if a.calculateOva then Calc.calculateMinus (some a.feats) c3 = (.ok (), co.obj)
            else co.obj = c3) := by
  cases eX : sampleIfNotNone E.R a.X a.n s0.rng with
  | mk rX rng =>
    have hXs := hs.sampled
    rw [eX] at hXs
    simp only at hXs
    subst hXs
    cases ec : PdpMethod.chooseCalc a Xs a.pf with
    | error e =>
      exfalso
      unfold PdpMethod.fit PdpMethod.fitBase at h
      unfold PdArgs.pf at ec
      simp only [eX, ec] at h
      cases h
    | ok co =>
      have hobj : ∃ b, co.obj = Calc.new a.pf Xs.frame b := by
        unfold PdpMethod.chooseCalc at ec
        rw [hnone] at ec
        have := Except.ok.inj ec
        subst this
        exact ⟨_, rfl⟩
      obtain ⟨b, hb⟩ := hobj
      rw [fit_eq kind E a s0 eX ec, hb] at h
      cases e1 : kind.ovo E Xs.frame a.feats (combinations2 a.feats) (Calc.new a.pf Xs.frame b) with
      | mk r1 c1 =>
        cases r1 with
        | error e => rw [e1] at h; cases h
        | ok ovo =>
          rw [e1] at h
          simp only at h
          cases e2 : pdpImportance E.sortFeat (numIn E a.feats) a.feats c1 with
          | mk r2 c2 =>
            cases r2 with
            | error e => rw [e2] at h; cases h
            | ok imp =>
              rw [e2] at h
              simp only at h
              have i2 := importance_op e2
              cases kind with
              | greenwell =>
                have := (Prod.mk.inj h).2
                subst this
                exact ⟨{ co with obj := c2 }, b, c1, c1, c2, rfl, ⟨greenwell_op e1, rfl⟩, i2, rfl⟩
              | friedman n =>
                simp only at h
                obtain ⟨c0, i0, i1⟩ := hstat_op e1
                by_cases ho : a.calculateOva = true
                · rw [if_pos ho] at h
                  cases e3 : hstatOva E.sortFeat a.pf n Xs.frame a.feats c2 with
                  | mk r3 c3 =>
                    rw [e3] at h
                    cases r3 with
                    | error e => cases h
                    | ok ova =>
                      have := (Prod.mk.inj h).2
                      subst this
                      exact ⟨{ co with obj := c3 }, b, c0, c1, c2, rfl, ⟨i0, i1⟩, i2, by
                        simp only [ho, if_true]; exact ova_op e3⟩
                · rw [if_neg ho] at h
                  have := (Prod.mk.inj h).2
                  subst this
                  exact ⟨{ co with obj := c2 }, b, c0, c1, c2, rfl, ⟨i0, i1⟩, i2, by simp only [ho]; simp⟩

theorem ok_parts {σ α : Type*} {x : Except Err α × σ} {r : α} {s : σ} (h : x = (.ok r, s)) : x.1 = .ok r ∧ x.2 = s := by
  subst h; exact ⟨rfl, rfl⟩

/-- what the pairs step of a fresh calculator asks for -/
theorem fresh_pairs {u : Row F V → K} (hw : RowWise (finM u) p) (X : Frame F V) (b : Int) {fs : List F} {all : Bool}
    (hv : ValidFeatures X fs)
    (hall : all = true ∨ ∀ q ∈ combinations2 fs, X.rows.Pairwise (fun r r' => ¬ (r q.1 = r' q.1 ∧ r q.2 = r' q.2)))
    {c1} (h : Calc.calculatePairs (some (combinations2 fs)) all (Calc.new p X b) = (.ok (), c1)) :
    c1.calls.flatten.Perm ((combinations2 fs).flatMap fun q => rowsPair all X q.1 q.2) := by
  obtain ⟨h1, rfl⟩ := ok_parts h
  obtain ⟨new, e, hp⟩ := pairs_cost (good_new hw X b) (pairs := some (combinations2 fs)) (all := all)
    (pairwise_combinations2 (nodup_of_ne hv.ne)) hv.ne hall (fun _ => false) (by
      intro q hq v hv'
      obtain ⟨m1, m2⟩ := mem_valsP hv'
      have hq' := mem_combinations2 (p := q) hq
      exact ⟨_, new_cellP_eq X b (canonPair_mem (hv.cols _ hq'.1) (hv.cols _ hq'.2) (hv.ne q hq)) m1 m2, Flt.isNaN_nan⟩) h1
  rw [e]
  simpa [Calc.new] using hp

theorem freshS_new {p : PF F V (Num K)} (X : Frame F V) (b : Int) : FreshS (Calc.new p X b) :=
  fun f hf v hv => new_cellS_eq X b hf hv
theorem freshM_new {p : PF F V (Num K)} (X : Frame F V) (b : Int) : FreshM (Calc.new p X b) :=
  fun f hf i hi => new_cellM_eq X b hf hi

/-- **C110, Greenwell.** `GreenwellMethod.fit` without a given calculator: through its calculator the model is
asked for every data row with every pair of values of every pair of the chosen features, and for every data row
with every value of every column of the data, each exactly once. -/
theorem C110_greenwell {u : Row F V → K} (hs : FitSetup (finM u) E a s0 Xs) (hnone : a.pdCalculator = none)
    (h : PdpMethod.fit .greenwell E a s0 = (.ok (), s)) :
    ∃ co, s.pdc = some co ∧ co.obj.calls.flatten.Perm
      (((combinations2 a.feats).flatMap fun q => rowsPair true Xs.frame q.1 q.2) ++
        Xs.frame.cols.flatMap (rowsSingle Xs.frame)) := by
  have hv := (fit_ok hs h).valid
  obtain ⟨co, b, c1, c2, c3, hp, ⟨e1, rfl⟩, e2, rfl⟩ := fit_ops hs hnone h
  refine ⟨co, hp, ?_⟩
  have p1 := fresh_pairs hs.rowWise Xs.frame b hv (Or.inl rfl) e1
  obtain ⟨o1, rfl⟩ := ok_parts e1
  have g0 := good_new hs.rowWise Xs.frame b
  have st := opStep_pairs g0 (some (combinations2 a.feats)) true
  have hX : (Calc.calculatePairs (some (combinations2 a.feats)) true (Calc.new a.pf Xs.frame b)).2.X = Xs.frame :=
    st.later.X
  have fr := (pairs_fresh g0 (ps := some (combinations2 a.feats)) (all := true)).1 (freshS_new Xs.frame b)
  obtain ⟨o2, he⟩ := ok_parts e2
  obtain ⟨new, en, pn⟩ := single_cost st.good (features := none) (by rw [hX]; exact hs.cols_nodup) (fun _ => false)
    (fun f hf v hv => ⟨.nan, fr f hf v hv, rfl⟩) o2
  rw [← he, en, List.flatten_append]
  refine p1.append ?_
  rw [hX] at pn
  simpa using pn

/-- the part of `FriedmanHStatisticMethod.fit` after the pairs -/
theorem friedman_rest {u : Row F V → K} (hs : FitSetup (finM u) E a s0 Xs) {b : Int} {c1 c2 c3 : Calc F V (Num K)}
    {co : CalcObj L F V K} (hv : ValidFeatures Xs.frame a.feats)
    (e1 : Calc.calculatePairs (some (combinations2 a.feats)) false (Calc.new a.pf Xs.frame b) = (.ok (), c1))
    (e2 : Calc.calculateSingle (some a.feats) c1 = (.ok (), c2)) (e3 : Calc.calculateSingle none c2 = (.ok (), c3))
    (e4 : if a.calculateOva then Calc.calculateMinus (some a.feats) c3 = (.ok (), co.obj) else co.obj = c3) :
    ∃ new, co.obj.calls = c1.calls ++ new ∧ new.flatten.Perm
      (Xs.frame.cols.flatMap (rowsSingle Xs.frame) ++
        if a.calculateOva then a.feats.flatMap (rowsMinus Xs.frame) else []) := by
  have nd := nodup_of_ne hv.ne
  obtain ⟨o1, rfl⟩ := ok_parts e1
  obtain ⟨o2, rfl⟩ := ok_parts e2
  obtain ⟨o3, rfl⟩ := ok_parts e3
  have g0 := good_new hs.rowWise Xs.frame b
  have st1 := opStep_pairs g0 (some (combinations2 a.feats)) false
  have hX1 : (Calc.calculatePairs (some (combinations2 a.feats)) false (Calc.new a.pf Xs.frame b)).2.X = Xs.frame :=
    st1.later.X
  have st2 := opStep_single st1.good (some a.feats)
  have hX2 := st2.later.X.trans hX1
  have st3 := opStep_single st2.good none
  have hX3 := st3.later.X.trans hX2
  have fr := pairs_fresh g0 (ps := some (combinations2 a.feats)) (all := false)
  obtain ⟨new, en, pn⟩ := single_twice st1.good (by rw [hX1]; exact hs.cols_nodup) (fr.1 (freshS_new Xs.frame b)) nd o2 o3
  rw [hX1] at pn
  by_cases ho : a.calculateOva = true
  · simp only [ho, if_true] at e4 ⊢
    have fm := single_freshM (fs := none) st2.good (single_freshM (fs := some a.feats) st1.good (fr.2 (freshM_new Xs.frame b)))
    obtain ⟨o4, he⟩ := ok_parts e4
    obtain ⟨new', en', pn'⟩ := minus_cost st3.good (features := some a.feats) nd (fun _ => false)
      (fun f hf i hi => ⟨.nan, fm f (by rw [hX3]; exact hv.cols f hf) i hi, rfl⟩) o4
    refine ⟨new ++ new', by rw [← he, en', en, List.append_assoc], ?_⟩
    rw [List.flatten_append]
    refine pn.append ?_
    rw [hX3] at pn'
    simpa using pn'
  · simp only [ho] at e4 ⊢
    refine ⟨new, by rw [show co.obj = _ from e4, en], ?_⟩
    simpa using pn

/-- **C110, Friedman H (partial).** `FriedmanHStatisticMethod.fit` without a given calculator on data in which no
two rows agree in both features of a pair: through its calculator the model is asked for every data row with the
two values of every data row for every pair of the chosen features, for every data row with every value of every
column of the data, and with `calculate_ova` for every data row with the other features of every data row for each
of the chosen features; each exactly once. (With `calculate_ova` the data are scored once more, outside the
calculator: `_friedman_h_statistic.py:195`.) Missing: rows that agree in both features of a pair, see
`C109_pairs_fails`; `C110_friedman_at_most` bounds that case. -/
theorem C110_friedman_partial {u : Row F V → K} {n : Bool} (hs : FitSetup (finM u) E a s0 Xs)
    (hnone : a.pdCalculator = none)
    (hrows : ∀ q ∈ combinations2 a.feats, Xs.frame.rows.Pairwise (fun r r' => ¬ (r q.1 = r' q.1 ∧ r q.2 = r' q.2)))
    (h : PdpMethod.fit (.friedman n) E a s0 = (.ok (), s)) :
    ∃ co, s.pdc = some co ∧ co.obj.calls.flatten.Perm
      (((combinations2 a.feats).flatMap fun q => rowsPair false Xs.frame q.1 q.2) ++
        (Xs.frame.cols.flatMap (rowsSingle Xs.frame) ++
          if a.calculateOva then a.feats.flatMap (rowsMinus Xs.frame) else [])) := by
  have hv := (fit_ok hs h).valid
  obtain ⟨co, b, c1, c2, c3, hp, ⟨e1, e2⟩, e3, e4⟩ := fit_ops hs hnone h
  refine ⟨co, hp, ?_⟩
  have p1 := fresh_pairs hs.rowWise Xs.frame b hv (Or.inr hrows) e1
  obtain ⟨new, en, pn⟩ := friedman_rest hs hv e1 e2 e3 e4
  rw [en, List.flatten_append]
  exact p1.append pn

/-- **C110, Friedman H, bound.** For all data: with `p` chosen features and `n` rows at most
`p(p-1)/2 * n^2 + sum over all columns of (number of distinct values) * n` rows are sent to the model through the
calculator, and `p * n^2` more with `calculate_ova`. -/
theorem C110_friedman_at_most {u : Row F V → K} {n : Bool} (hs : FitSetup (finM u) E a s0 Xs)
    (hnone : a.pdCalculator = none) (h : PdpMethod.fit (.friedman n) E a s0 = (.ok (), s)) :
    ∃ co, s.pdc = some co ∧ co.obj.calls.flatten.length ≤
      a.feats.length * (a.feats.length - 1) / 2 * (Xs.frame.rows.length * Xs.frame.rows.length) +
      (Xs.frame.cols.map fun f => (Xs.frame.col f).dedup.length * Xs.frame.rows.length).sum +
      if a.calculateOva then a.feats.length * (Xs.frame.rows.length * Xs.frame.rows.length) else 0 := by
  have hv := (fit_ok hs h).valid
  obtain ⟨co, b, c1, c2, c3, hp, ⟨e1, e2⟩, e3, e4⟩ := fit_ops hs hnone h
  refine ⟨co, hp, ?_⟩
  obtain ⟨new, en, pn⟩ := friedman_rest hs hv e1 e2 e3 e4
  obtain ⟨o1, rfl⟩ := ok_parts e1
  obtain ⟨new', en', hn⟩ := (C109_at_most hs.rowWise Xs.frame b []).2.2.2 (some (combinations2 a.feats)) o1
  rw [en, List.flatten_append, List.length_append, pn.length_eq, List.length_append]
  have h1 : (Calc.calculatePairs (some (combinations2 a.feats)) false (Calc.new a.pf Xs.frame b)).2.calls.flatten.length
      ≤ a.feats.length * (a.feats.length - 1) / 2 * (Xs.frame.rows.length * Xs.frame.rows.length) := by
    have : (Calc.calculatePairs (some (combinations2 a.feats)) false (Calc.new a.pf Xs.frame b)).2.calls = new' := by
      simpa [Calc.new, runOps] using en'
    rw [this]
    refine hn.trans (Nat.le_of_eq ?_)
    simp only [Option.getD_some, length_combinations2]
  have h2 : (Xs.frame.cols.flatMap (rowsSingle Xs.frame)).length =
      (Xs.frame.cols.map fun f => (Xs.frame.col f).dedup.length * Xs.frame.rows.length).sum := by
    rw [length_flatMap_sum]
    congr 1
    refine List.map_congr_left (fun f _ => ?_)
    exact length_flatMap_const _ _ _ (fun v _ => by simp)
  have h3 : (if a.calculateOva then a.feats.flatMap (rowsMinus Xs.frame) else ([] : List (Row F V))).length =
      if a.calculateOva then a.feats.length * (Xs.frame.rows.length * Xs.frame.rows.length) else 0 := by
    split
    · refine length_flatMap_const _ _ _ (fun f _ => ?_)
      exact length_flatMap_const _ _ _ (fun v _ => by simp)
    · rfl
  omega

section Cases
open Ex

/-- the fit restricted to the features 0 and 1 -/
def exTwo (kind : PdKind) := PdpMethod.fit (G := Nat) (L := Nat) (K := ℚ) kind exEnv
  { exArgs with features := some [0, 1] } (PdpMethod.new 0)

/-- **C110, restricted features (fails).** Restricting `features` does not restrict the evaluations to what those
features need: the importance step asks for the partial dependence of every column of the data. Here, with the
features 0 and 1 of three, the model is asked for 40 rows, although the results need only 32. -/
theorem C110_features_fails :
    (exTwo .greenwell).1 = .ok () ∧
    (((exTwo .greenwell).2.pdc.map fun co => co.obj.calls.flatten).getD []).length = 40 ∧
    (rowsPair true exX 0 1 ++ (rowsSingle exX 0 ++ rowsSingle exX 1)).length = 32 ∧
    (exTwo (.friedman true)).1 = .ok () ∧
    (((exTwo (.friedman true)).2.pdc.map fun co => co.obj.calls.flatten).getD []).length = 72 ∧
    (rowsPair false exX 0 1 ++ (rowsSingle exX 0 ++ rowsSingle exX 1) ++
      (rowsMinus exX 0 ++ rowsMinus exX 1)).length = 64 := by
  decide +kernel

/-- 48 rows for the pairs and 24 for the columns -/
example : ∃ s co, PdpMethod.fit (G := Nat) (L := Nat) (K := ℝ) .greenwell exEnv exArgs (PdpMethod.new 0) =
    (.ok (), s) ∧ s.pdc = some co ∧ co.obj.calls.flatten.length = 72 := by
  obtain ⟨s, hs⟩ := exGwR
  obtain ⟨co, h1, h2⟩ := C110_greenwell (exSetup 0) rfl hs
  refine ⟨s, co, hs, h1, ?_⟩
  rw [h2.length_eq]
  show (((combinations2 [(0 : Fin 3), 1, 2]).flatMap fun q => rowsPair true exX q.1 q.2) ++
    [(0 : Fin 3), 1, 2].flatMap (rowsSingle exX)).length = 72
  decide +kernel

/-- no two rows of the example data agree in the features 0 and 1; the exact count for these: 16 + 24 + 32 -/
example : ∃ s co, exTwo (.friedman true) = (.ok (), s) ∧ s.pdc = some co ∧ co.obj.calls.flatten.length = 72 := by
  obtain ⟨s, hs⟩ := ret_of_fst C110_features_fails.2.2.2.1
  have st : FitSetup (finM (exU (K := ℚ))) exEnv { exArgs with features := some [0, 1] } (PdpMethod.new 0) exLX :=
    ⟨rfl, (exSetup 0).rowWise, (exSetup 0).reads, (exSetup (K := ℚ) 0).cols_nodup, by intro co h; cases h⟩
  obtain ⟨co, h1, h2⟩ := C110_friedman_partial st rfl (by
    show ∀ q ∈ combinations2 [(0 : Fin 3), 1], exX.rows.Pairwise (fun r r' => ¬ (r q.1 = r' q.1 ∧ r q.2 = r' q.2))
    decide) hs
  refine ⟨s, co, hs, h1, ?_⟩
  rw [h2.length_eq]
  show (((combinations2 [(0 : Fin 3), 1]).flatMap fun q => rowsPair false exX q.1 q.2) ++
    ([(0 : Fin 3), 1, 2].flatMap (rowsSingle exX) ++ [(0 : Fin 3), 1].flatMap (rowsMinus exX))).length = 72
  decide +kernel

/-- the bound for all three features: 3 * 16 + 24 + 48; 112 rows are asked for -/
example : ∃ s co, exFitQ true = (.ok (), s) ∧ s.pdc = some co ∧ co.obj.calls.flatten.length ≤ 120 := by
  obtain ⟨s, hs⟩ := ret_of_fst (show (exFitQ true).1 = .ok () by decide +kernel)
  obtain ⟨co, h1, h2⟩ := C110_friedman_at_most (exSetup 0) rfl hs
  exact ⟨s, co, hs, h1, h2.trans (by decide +kernel)⟩

end Cases
end Artemis
