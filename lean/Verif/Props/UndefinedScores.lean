import Verif.Proofs.PerfNum
import Verif.Props.Undefined
import Verif.Props.Sizes

/-!
# C117 for the performance based methods: predictions that are not finite numbers

With MSE and RMSE a prediction that is NaN or infinite makes every value it enters NaN or infinite; with accuracy it counts as a
wrong answer.
-/

set_option linter.unusedSectionVars false
set_option linter.unusedVariables false
set_option linter.unusedSimpArgs false

namespace Artemis
open Spec

namespace Spec
/-- For any `len` rows the model returns the `len` predictions `P rows`, which may be NaN or infinite. -/
def PredictsNum {F V K : Type} (model : ModelObj F V (Num K)) (len : Nat) (P : List (Row F V) → List (Num K)) : Prop :=
  ∃ p, model.predict = some p ∧ ∀ k rows, rows.length = len → p k rows = .ok (P rows) ∧ (P rows).length = len
end Spec

section finite
variable {K : Type} [Field K] [LinearOrder K]

theorem isFinite_sub {x y : Num K} (h : IsFinite (Num.sub x y)) : IsFinite x ∧ IsFinite y := by
  obtain ⟨k, h⟩ := h
  cases x <;> cases y <;> first | exact ⟨⟨_, rfl⟩, ⟨_, rfl⟩⟩ | (simp [Num.sub, Num.neg, Num.add] at h)

theorem isFinite_negIfClass {M : Metric K} {x : Num K} (h : IsFinite (negIfClass M x)) : IsFinite x := by
  obtain ⟨k, h⟩ := h
  unfold negIfClass at h
  split at h
  · cases x <;> first | exact ⟨_, rfl⟩ | (simp [Num.neg] at h)
  · exact ⟨k, h⟩

theorem isFinite_abs {x : Num K} (h : IsFinite (Num.abs x)) : IsFinite x := by
  obtain ⟨k, h⟩ := h
  cases x <;> first | exact ⟨_, rfl⟩ | (simp [Num.abs] at h)

theorem isFinite_sq {x : Num K} (h : IsFinite (Num.sq x)) : IsFinite x := by
  obtain ⟨k, h⟩ := h
  cases x <;> first | exact ⟨_, rfl⟩ | (simp [Num.sq, Num.mul] at h)

theorem isFinite_sqrt [HasSqrt K] {x : Num K} (h : IsFinite (Num.sqrt x)) : IsFinite x := by
  obtain ⟨k, h⟩ := h
  cases x <;> first | exact ⟨_, rfl⟩ | (simp [Num.sqrt] at h)

theorem isFinite_mean [IsStrictOrderedRing K] {l : List (Num K)} (h : IsFinite (Num.mean l)) : ∀ x ∈ l, IsFinite x := by
  intro x hx
  by_contra hn
  exact mean_not_finite hx hn h

theorem isFinite_interOf {M : Metric K} {r s1 s2 s12 : Num K} (h : IsFinite (interOf M r s1 s2 s12)) :
    IsFinite r ∧ IsFinite s1 ∧ IsFinite s2 ∧ IsFinite s12 := by
  have h1 := isFinite_sub (isFinite_negIfClass h)
  have h2 := isFinite_sub h1.1
  have a := isFinite_sub (isFinite_negIfClass h2.1)
  have b := isFinite_sub (isFinite_negIfClass h2.2)
  have c := isFinite_sub (isFinite_negIfClass h1.2)
  exact ⟨a.2, b.1, c.1, a.1⟩

theorem isFinite_elementwise {f : Num K → Num K → Num K} (hf : ∀ t q, IsFinite (f t q) → IsFinite q) {y yh : List (Num K)}
    (hl : yh.length = y.length) (h : ∀ x ∈ List.zipWith f y yh, IsFinite x) : ∀ q ∈ yh, IsFinite q := by
  intro q hq
  obtain ⟨i, hi, rfl⟩ := List.getElem_of_mem hq
  have hi' : i < y.length := hl ▸ hi
  apply hf y[i]
  apply h
  rw [List.mem_iff_getElem]
  exact ⟨i, by simp [hi, hi'], by simp⟩

end finite

section
variable {G L F V K : Type} [LinearOrder F] [DecidableEq L] [LinearOrder V] [Field K] [LinearOrder K] [IsStrictOrderedRing K]
  [HasSqrt K]
variable {E : PerfEnv G L F K} {a : SejongArgs L F V K} {s0 : Sejong G L F V K} {Xs : LFrame L F V} {ys : Target L K} {g : G}

/-- a fit with scores that need not be finite -/
theorem sejong_fit_num {sc : List (Row F V) → Num K} (hR : E.R.Lawful)
    (hsam : sampleBoth E.R E.toInt a.X a.y a.n s0.rng = (.ok (Xs, ys), g))
    (hsc : ScoresNum a.model s0.metric ys.values Xs.frame.rows.length sc) (hf : ∀ f ∈ a.feats, f ∈ a.X.frame.cols)
    (hnd : a.feats.Nodup) (hne : a.feats ≠ []) (ent : G) :
    ∃ (s : Sejong G L F V K) (ks : List F), Sejong.fit E a ent s0 = (.ok (), s) ∧ (∀ f, f ∈ ks ↔ f ∈ a.feats) ∧
      s.ovo = some (E.sortOvo ((combinations2 a.feats).mapIdx fun i pr => ⟨pr.1, pr.2, Num.mean ((List.range a.nRepeat).map fun j =>
        absInter s0.metric sc Xs.frame (nthPerm E.R Xs.frame.rows.length g) pr (3 * (a.nRepeat * i + j)))⟩)) ∧
      s.importance = some (E.sortFeat (ks.map fun f => ⟨f, negIfClass s0.metric (Num.sub
        (Num.mean (turnScores sc Xs.frame (nthPerm E.R Xs.frame.rows.length ent) a.feats a.nRepeat f)) (sc Xs.frame.rows))⟩)) := by
  have hcols := sampleBoth_cols hsam
  have hpairs : ∀ pr ∈ combinations2 a.feats, pr.1 ∈ Xs.frame.cols ∧ pr.2 ∈ Xs.frame.cols ∧ pr.1 ≠ pr.2 := by
    intro pr hpr
    have h := mem_combinations2 hpr
    rw [hcols]
    exact ⟨hf _ h.1, hf _ h.2, ne_of_mem_combinations2 hnd hpr⟩
  have h1 := perfOvo_num hR hsc hpairs (n := a.nRepeat) g s0.calls E.sortOvo
  obtain ⟨ks, h2, h3, h4⟩ := permImportance_num hR hsc (fs := a.feats) (fun f h => by rw [hcols]; exact hf f h) hne
    (n := a.nRepeat) ent (s0.calls ++ [Xs.frame.rows] ++
      pairFrames Xs.frame (nthPerm E.R Xs.frame.rows.length g) a.nRepeat (combinations2 a.feats)) E.sortFeat
  have hfe : allIfNone a.X.frame.cols a.features = a.feats := rfl
  unfold Sejong.fit
  simp only [hsam, hfe, h1, PermObj.run, h4]
  exact ⟨_, ks, rfl, h3, rfl, rfl⟩

/-- the scores of predictions that need not be finite, with MSE and RMSE; they are finite only if all predictions are -/
theorem scoresNum_of_predicts {model : ModelObj F V (Num K)} {M : Metric K} (hM : M = mseM ∨ M = rmseM) {y : List (Num K)} {len : Nat}
    {P : List (Row F V) → List (Num K)} (hP : PredictsNum model len P) (hy : y.length = len) :
    ∃ sc, ScoresNum model M y len sc ∧ ∀ rows, rows.length = len → IsFinite (sc rows) → ∀ q ∈ P rows, IsFinite q := by
  obtain ⟨p, hp, h⟩ := hP
  have hf : ∀ t q : Num K, IsFinite (Num.sq (Num.sub q t)) → IsFinite q := fun t q h => (isFinite_sub (isFinite_sq h)).1
  have he : ∀ rows, rows.length = len → mseM.calculate y (P rows) =
      .ok (Num.mean (List.zipWith (fun t q => Num.sq (Num.sub q t)) y (P rows))) := by
    intro rows hl
    simp only [mseM, elementwise]
    rw [if_pos (by rw [hy, (h 0 rows hl).2])]
    rfl
  rcases hM with rfl | rfl
  · refine ⟨fun rows => Num.mean (List.zipWith (fun t q => Num.sq (Num.sub q t)) y (P rows)), ⟨p, hp, fun k rows hl =>
      ⟨_, (h k rows hl).1, he rows hl⟩⟩, fun rows hl hfin => ?_⟩
    exact isFinite_elementwise hf (by rw [(h 0 rows hl).2, hy]) (isFinite_mean hfin)
  · refine ⟨fun rows => Num.sqrt (Num.mean (List.zipWith (fun t q => Num.sq (Num.sub q t)) y (P rows))), ⟨p, hp, fun k rows hl =>
      ⟨_, (h k rows hl).1, ?_⟩⟩, fun rows hl hfin => ?_⟩
    · simp only [rmseM, he rows hl]
      rfl
    · exact isFinite_elementwise hf (by rw [(h 0 rows hl).2, hy]) (isFinite_mean (isFinite_sqrt hfin))

/-- **C117, performance based, MSE and RMSE.** The fit returns. If a prediction for the data, or for one of the three data sets permuted for
a repetition of a pair, is NaN or infinite, the interaction of the pair is reported as NaN or infinite; if one for the data, or for
a data set in which a feature was permuted for its importance, is NaN or infinite, so is the importance of the feature. -/
theorem C117_sejong_predictions_partial {P : List (Row F V) → List (Num K)} (hR : E.R.Lawful)
    (hsortO : SortsBy (fun r : OvoRow F K => r.val.abs) false E.sortOvo) (hsortF : SortsBy FeatRow.val false E.sortFeat)
    (hsam : sampleBoth E.R E.toInt a.X a.y a.n s0.rng = (.ok (Xs, ys), g)) (hM : s0.metric = mseM ∨ s0.metric = rmseM)
    (hP : PredictsNum a.model Xs.frame.rows.length P) (hy : ys.values.length = Xs.frame.rows.length)
    (hf : ∀ f ∈ a.feats, f ∈ a.X.frame.cols) (hnd : a.feats.Nodup) (hne : a.feats ≠ []) (ent : G) :
    ∃ s ovo imp, Sejong.fit E a ent s0 = (.ok (), s) ∧ s.ovo = some ovo ∧ s.importance = some imp ∧
      (∀ row ∈ ovo, ∃ i, (combinations2 a.feats)[i]? = some (row.f1, row.f2) ∧ ∀ j < a.nRepeat,
        ∀ rows ∈ Xs.frame.rows :: tripleFrames Xs.frame (nthPerm E.R Xs.frame.rows.length g) row.f1 row.f2 (3 * (a.nRepeat * i + j)),
          (∃ q ∈ P rows, ¬ IsFinite q) → ¬ IsFinite row.val) ∧
      (∀ row ∈ imp, ((∃ q ∈ P Xs.frame.rows, ¬ IsFinite q) → ¬ IsFinite row.val) ∧
        ∀ k, (turns a.feats a.nRepeat)[k]? = some row.f →
          (∃ q ∈ P (permuted Xs.frame [row.f] (nthPerm E.R Xs.frame.rows.length ent k)), ¬ IsFinite q) → ¬ IsFinite row.val) := by
  obtain ⟨sc, hsc, hfin⟩ := scoresNum_of_predicts hM hP hy
  obtain ⟨s, ks, h1, h2, h3, h4⟩ := sejong_fit_num hR hsam hsc hf hnd hne ent
  refine ⟨s, _, _, h1, h3, h4, ?_, ?_⟩
  · intro row hrow
    have hrow' := (hsortO _).1.mem_iff.1 hrow
    rw [List.mem_mapIdx] at hrow'
    obtain ⟨i, hi, rfl⟩ := hrow'
    refine ⟨i, List.getElem?_eq_getElem hi, ?_⟩
    intro j hj rows hr hq hv
    obtain ⟨q, hq, hqn⟩ := hq
    have hall := isFinite_interOf (isFinite_abs (isFinite_mean hv _ (List.mem_map.2 ⟨j, List.mem_range.2 hj, rfl⟩)))
    simp only [tripleFrames, List.mem_cons, List.not_mem_nil, or_false] at hr
    refine hqn (hfin rows ?_ ?_ q hq)
    · rcases hr with rfl | rfl | rfl | rfl <;> simp [length_permuted]
    · rcases hr with rfl | rfl | rfl | rfl
      · exact hall.1
      · exact hall.2.1
      · exact hall.2.2.1
      · exact hall.2.2.2
  · intro row hrow
    have hrow' := (hsortF _).1.mem_iff.1 hrow
    obtain ⟨f, hfk, rfl⟩ := List.mem_map.1 hrow'
    constructor
    · rintro ⟨q, hq, hqn⟩ hv
      exact hqn (hfin _ rfl (isFinite_sub (isFinite_negIfClass hv)).2 q hq)
    · rintro k hk ⟨q, hq, hqn⟩ hv
      refine hqn (hfin _ (length_permuted _ _ _) ?_ q hq)
      apply isFinite_mean (isFinite_sub (isFinite_negIfClass hv)).1
      unfold turnScores
      obtain ⟨hk1, hk2⟩ := List.getElem?_eq_some_iff.1 hk
      refine List.mem_map.2 ⟨(f, sc (permuted Xs.frame [f] (nthPerm E.R Xs.frame.rows.length ent k))), ?_, rfl⟩
      rw [List.mem_filter]
      refine ⟨List.mem_mapIdx.2 ⟨k, hk1, by simp only [hk2]⟩, by simp⟩

/-- **C117 is false for the accuracy**: whatever the predictions are, NaN and infinite ones included, every interaction and every importance is
an ordinary number; a prediction that is not a number counts as a wrong answer. -/
theorem C117_accuracy_hides_undefined {P : List (Row F V) → List (Num K)} (hR : E.R.Lawful)
    (hsortO : SortsBy (fun r : OvoRow F K => r.val.abs) false E.sortOvo) (hsortF : SortsBy FeatRow.val false E.sortFeat)
    (hsam : sampleBoth E.R E.toInt a.X a.y a.n s0.rng = (.ok (Xs, ys), g)) (hM : s0.metric = accuracyM)
    (hP : PredictsNum a.model Xs.frame.rows.length P) (hy : ys.values.length = Xs.frame.rows.length) (hrows : Xs.frame.rows ≠ [])
    (hf : ∀ f ∈ a.feats, f ∈ a.X.frame.cols) (hnd : a.feats.Nodup) (hne : a.feats ≠ []) (hr : 0 < a.nRepeat) (ent : G) :
    ∃ s ovo imp, Sejong.fit E a ent s0 = (.ok (), s) ∧ s.ovo = some ovo ∧ s.importance = some imp ∧
      (∀ row ∈ ovo, IsFinite row.val) ∧ ∀ row ∈ imp, IsFinite row.val := by
  obtain ⟨p, hp, h⟩ := hP
  have hacc : ∀ rows, rows.length = Xs.frame.rows.length → ∃ x : K, s0.metric.calculate ys.values (P rows) = .ok (.fin x) := by
    intro rows hl
    rw [hM]
    simp only [accuracyM, elementwise]
    rw [if_pos (by rw [hy, (h 0 rows hl).2])]
    have hz : ∃ l : List K, List.zipWith (fun t q : Num K => if Num.eqv t q then (.fin 1 : Num K) else .fin 0) ys.values (P rows) =
        l.map Num.fin := by
      generalize ys.values = yv
      generalize P rows = yh
      induction yv generalizing yh with
      | nil => exact ⟨[], rfl⟩
      | cons t yv ih =>
        cases yh with
        | nil => exact ⟨[], rfl⟩
        | cons q yh =>
          obtain ⟨l, hl⟩ := ih yh
          refine ⟨(if Num.eqv t q then 1 else 0) :: l, ?_⟩
          simp only [List.zipWith_cons_cons, List.map_cons, hl]
          split <;> rfl
    obtain ⟨l, hl'⟩ := hz
    have hlne : l ≠ [] := by
      rintro rfl
      have := congrArg List.length hl'
      simp only [List.length_zipWith, hy, (h 0 rows hl).2, List.map_nil, List.length_nil, min_self] at this
      exact hrows (List.length_eq_zero_iff.1 this)
    refine ⟨average l, ?_⟩
    simp only [hl']
    exact congrArg Except.ok (mean_fin_list l hlne)
  choose! sc hsc using hacc
  have hs : PerfSetup E a s0 Xs ys g sc :=
    ⟨hR, hsam, ⟨p, hp, fun k rows hl => ⟨_, (h k rows hl).1, hsc rows hl⟩⟩, hf, hnd, hne, hr⟩
  have hcols := sampleBoth_cols hsam
  obtain ⟨s, ks, h1, h2, h3, h4⟩ := sejong_fit_num (sc := fun rows => .fin (sc rows)) hR hsam
    ⟨p, hp, fun k rows hl => ⟨_, (h k rows hl).1, hsc rows hl⟩⟩ hf hnd hne ent
  refine ⟨s, _, _, h1, h3, h4, ?_, ?_⟩
  · intro row hrow
    have hrow' := (hsortO _).1.mem_iff.1 hrow
    rw [List.mem_mapIdx] at hrow'
    obtain ⟨i, hi, rfl⟩ := hrow'
    simp only [absInter, interOf, Num.sub_fin, negIfClass_fin, Num.abs_fin]
    exact ⟨_, mean_fin_range _ hr _⟩
  · intro row hrow
    have hrow' := (hsortF _).1.mem_iff.1 hrow
    obtain ⟨f, hfk, rfl⟩ := List.mem_map.1 hrow'
    have e : turnScores (fun rows => (.fin (sc rows) : Num K)) Xs.frame (nthPerm E.R Xs.frame.rows.length ent) a.feats a.nRepeat f =
        (turnScores sc Xs.frame (nthPerm E.R Xs.frame.rows.length ent) a.feats a.nRepeat f).map Num.fin := by
      unfold turnScores
      generalize (turns a.feats a.nRepeat) = l
      induction l using List.reverseRecOn with
      | nil => rfl
      | append_singleton l x ih =>
        simp only [List.mapIdx_append, List.filter_append, List.map_append, ih]
        congr 1
        simp only [List.mapIdx_cons, List.mapIdx_nil, Nat.zero_add]
        by_cases hx : x = f <;> simp [hx]
    simp only [e, mean_fin_list _ (turnScores_ne_nil hr ((h2 f).1 hfk) _), Num.sub_fin, negIfClass_fin]
    exact ⟨_, rfl⟩

end

section Cases
open Ex

/-- a model whose prediction is infinite where the first value is one more than the second -/
def exInfPerf : ModelObj (Fin 3) ℤ (Num ℚ) :=
  ⟨1, some (fun _ rows => .ok (rows.map (fun r => if r 0 = r 1 + 1 then .pinf else .fin ((r 0 : ℤ) : ℚ)))), none⟩

theorem exInfPerf_predicts (len : Nat) :
    PredictsNum exInfPerf len (fun rows => rows.map (fun r => if r 0 = r 1 + 1 then .pinf else .fin ((r 0 : ℤ) : ℚ))) :=
  ⟨_, rfl, fun k rows h => ⟨rfl, by simp [h]⟩⟩

/-- the hypotheses of the two theorems are met by it -/
example : ∃ s ovo imp, Sejong.fit (K := ℚ) exPerfEnv { exSArgs with model := exInfPerf } 5 (Sejong.new 1 accuracyM) = (.ok (), s) ∧
    s.ovo = some ovo ∧ s.importance = some imp ∧ (∀ row ∈ ovo, IsFinite row.val) ∧ ∀ row ∈ imp, IsFinite row.val :=
  C117_accuracy_hides_undefined exRng2_lawful (sortsBy_stableSort _ _) (sortsBy_stableSort _ _) (Xs := exPerfX) (ys := exPerfY) (g := 1)
    rfl rfl (exInfPerf_predicts _) rfl (by simp [exPerfX]) (fun f h => h) (by show [(0 : Fin 3), 1, 2].Nodup; decide)
    (by show [(0 : Fin 3), 1, 2] ≠ []; simp) (by simp [exSArgs]) 5

/-- the predictions for the data are finite, but permuting the first or the second feature brings such values together: with MSE
no interaction of the two is reported as an ordinary number -/
example : ((Sejong.fit (K := ℚ) exPerfEnv { exSArgs with model := exInfPerf, features := some [0, 1, 2], nRepeat := 1 } 5
      (Sejong.new 1 mseM)).2.ovo.map (fun t => t.map (fun r => (r.f1, r.f2, r.val)))) =
    some [((0 : Fin 3), (1 : Fin 3), .pinf), (0, 2, .nan), (1, 2, .nan)] := by decide +kernel

end Cases
end Artemis
