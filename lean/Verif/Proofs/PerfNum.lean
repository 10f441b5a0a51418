import Verif.Proofs.PerfLemmas

/-!
# Permuting and scoring with scores that need not be finite

The lemmas of `Proofs/PerfLemmas` for scores that may be NaN or infinite.
-/

set_option linter.unusedSectionVars false
set_option linter.unusedVariables false
set_option linter.unusedSimpArgs false

namespace Artemis
open Spec

namespace Spec
variable {F V K : Type}

/-- Asking the model (any number of times) for predictions for `len` rows and applying the metric never fails and gives
`sc rows`, which may be NaN or infinite. -/
def ScoresNum [Field K] [LinearOrder K] (model : ModelObj F V (Num K)) (M : Metric K) (y : List (Num K)) (len : Nat)
    (sc : List (Row F V) → Num K) : Prop :=
  ∃ p, model.predict = some p ∧
    ∀ k rows, rows.length = len → ∃ yh, p k rows = .ok yh ∧ M.calculate y yh = .ok (sc rows)
end Spec

section
variable {F V K G : Type} [DecidableEq F] [Field K] [LinearOrder K] [IsStrictOrderedRing K]
variable {R : Rng G} {model : ModelObj F V (Num K)} {M : Metric K} {y : List (Num K)} {X : Frame F V}
  {sc : List (Row F V) → Num K}

theorem scoreOn_num (hsc : ScoresNum model M y X.rows.length sc) {Y : Frame F V} (hY : Y.rows.length = X.rows.length)
    (s : Scored G F V) :
    scoreOn model M y Y s = (.ok (sc Y.rows), ⟨s.rng, s.calls ++ [Y.rows]⟩) := by
  obtain ⟨p, hp, h⟩ := hsc
  obtain ⟨yh, h1, h2⟩ := h s.calls.length Y.rows hY
  simp [scoreOn, PyM.seq, predictOn, hp, h1, h2, PyM.lift]

theorem permuteScore_num (hR : R.Lawful) (hsc : ScoresNum model M y X.rows.length sc) {fs : List F}
    (hfs : ∀ f ∈ fs, f ∈ X.cols) (nd : fs.Nodup) (ref : Num K) (g : G) (k : Nat) (c : List (List (Row F V))) :
    permuteScore R model M y X fs ref ⟨permAfter R X.rows.length g k, c⟩ =
      (.ok (negIfClass M (Num.sub (sc (permuted X fs (nthPerm R X.rows.length g k))) ref)),
        ⟨permAfter R X.rows.length g (k + 1), c ++ [permuted X fs (nthPerm R X.rows.length g k)]⟩) := by
  have hp : ValidPos X (nthPerm R X.rows.length g k) := validPos_of_perm (perm_nth hR _ _ _)
  have e1 : drawPerm R X.len (⟨permAfter R X.rows.length g k, c⟩ : Scored G F V) =
      (.ok (nthPerm R X.rows.length g k), ⟨permAfter R X.rows.length g (k + 1), c⟩) := rfl
  unfold permuteScore
  rw [seq_of_ok e1]
  have e2 : (PyM.lift (permuteCols (nthPerm R X.rows.length g k) fs X) :
      PyM (Scored G F V) (Frame F V)) ⟨permAfter R X.rows.length g (k + 1), c⟩ =
      (.ok ⟨X.cols, permuted X fs (nthPerm R X.rows.length g k)⟩, ⟨permAfter R X.rows.length g (k + 1), c⟩) := by
    simp only [PyM.lift, permuteCols_eq hp hfs nd]
  rw [seq_of_ok e2, seq_of_ok (scoreOn_num hsc (length_permuted X fs _) _)]
  simp [PyM.ret]

/-- what `interScore` returns, from the scores of the data and of the three permuted data sets -/
def interOf (M : Metric K) (ref s1 s2 s12 : Num K) : Num K :=
  negIfClass M (Num.sub (Num.sub (negIfClass M (Num.sub s12 ref)) (negIfClass M (Num.sub s1 ref))) (negIfClass M (Num.sub s2 ref)))

/-- the absolute value of it for repetition `j` of pair `i` -/
def absInter (M : Metric K) (sc : List (Row F V) → Num K) (X : Frame F V) (perm : Nat → List Nat) (pr : F × F) (k : Nat) : Num K :=
  Num.abs (interOf M (sc X.rows) (sc (permuted X [pr.1] (perm k))) (sc (permuted X [pr.2] (perm (k + 1))))
    (sc (permuted X [pr.1, pr.2] (perm (k + 2)))))

theorem interScore_num (hR : R.Lawful) (hsc : ScoresNum model M y X.rows.length sc) {pr : F × F}
    (h1 : pr.1 ∈ X.cols) (h2 : pr.2 ∈ X.cols) (hne : pr.1 ≠ pr.2) (g : G) (k : Nat) (c : List (List (Row F V))) :
    (PyM.seq (interScore R model M y X pr.1 pr.2 (sc X.rows)) fun v => PyM.ret (Num.abs v))
        ⟨permAfter R X.rows.length g k, c⟩ =
      (.ok (absInter M sc X (nthPerm R X.rows.length g) pr k),
        ⟨permAfter R X.rows.length g (k + 3), c ++ tripleFrames X (nthPerm R X.rows.length g) pr.1 pr.2 k⟩) := by
  have e1 := permuteScore_num hR hsc (fs := [pr.1]) (by simpa using h1) (by simp) (sc X.rows) g k c
  have e2 := permuteScore_num hR hsc (fs := [pr.2]) (by simpa using h2) (by simp) (sc X.rows) g (k + 1)
    (c ++ [permuted X [pr.1] (nthPerm R X.rows.length g k)])
  have e3 := permuteScore_num hR hsc (fs := [pr.1, pr.2]) (by simp [h1, h2]) (by simp [hne]) (sc X.rows) g (k + 2)
    ((c ++ [permuted X [pr.1] (nthPerm R X.rows.length g k)]) ++ [permuted X [pr.2] (nthPerm R X.rows.length g (k + 1))])
  have e : interScore R model M y X pr.1 pr.2 (sc X.rows) ⟨permAfter R X.rows.length g k, c⟩ = _ :=
    (seq_of_ok e1).trans ((seq_of_ok e2).trans (seq_of_ok e3))
  rw [seq_of_ok e]
  simp only [PyM.ret, List.append_assoc, List.cons_append, List.nil_append]
  rfl

theorem pairRow_num (hR : R.Lawful) (hsc : ScoresNum model M y X.rows.length sc) {pr : F × F}
    (h1 : pr.1 ∈ X.cols) (h2 : pr.2 ∈ X.cols) (hne : pr.1 ≠ pr.2) {n : Nat} (g : G) (i : Nat)
    (c : List (List (Row F V))) :
    (PyM.seq (PyM.times n
      (PyM.seq (interScore R model M y X pr.1 pr.2 (sc X.rows)) fun v => PyM.ret (Num.abs v))) fun inter =>
    PyM.ret (⟨pr.1, pr.2, Num.mean inter⟩ : OvoRow F K)) ⟨permAfter R X.rows.length g (3 * (n * i)), c⟩ =
      (.ok ⟨pr.1, pr.2, Num.mean ((List.range n).map fun j => absInter M sc X (nthPerm R X.rows.length g) pr (3 * (n * i + j)))⟩,
        ⟨permAfter R X.rows.length g (3 * (n * (i + 1))), c ++ (List.range n).flatMap fun j =>
          tripleFrames X (nthPerm R X.rows.length g) pr.1 pr.2 (3 * (n * i + j))⟩) := by
  have ht := times_eq (n := n)
    (body := PyM.seq (interScore R model M y X pr.1 pr.2 (sc X.rows)) fun v => PyM.ret (Num.abs v))
    (σs := fun j => ⟨permAfter R X.rows.length g (3 * (n * i + j)), c ++ (List.range j).flatMap fun j =>
          tripleFrames X (nthPerm R X.rows.length g) pr.1 pr.2 (3 * (n * i + j))⟩)
    (out := fun j => absInter M sc X (nthPerm R X.rows.length g) pr (3 * (n * i + j)))
    (fun j _ => by
      rw [interScore_num hR hsc h1 h2 hne]
      have e : 3 * (n * i + (j + 1)) = 3 * (n * i + j) + 3 := by ring
      rw [e, List.range_succ, List.flatMap_append]
      simp)
  simp only [Nat.add_zero, List.range_zero, List.flatMap_nil, List.append_nil] at ht
  rw [seq_of_ok ht]
  have e : 3 * (n * (i + 1)) = 3 * (n * i + n) := by ring
  rw [e]
  rfl

theorem perfOvo_num (hR : R.Lawful) (hsc : ScoresNum model M y X.rows.length sc) {pairs : List (F × F)}
    (hp : ∀ pr ∈ pairs, pr.1 ∈ X.cols ∧ pr.2 ∈ X.cols ∧ pr.1 ≠ pr.2) {n : Nat} (g : G)
    (c : List (List (Row F V))) (sort : List (OvoRow F K) → List (OvoRow F K)) :
    perfOvo sort R model M y X pairs n ⟨g, c⟩ =
      (.ok (sort (pairs.mapIdx fun i pr =>
        ⟨pr.1, pr.2, Num.mean ((List.range n).map fun j => absInter M sc X (nthPerm R X.rows.length g) pr (3 * (n * i + j)))⟩)),
        ⟨permAfter R X.rows.length g (3 * (n * pairs.length)),
          c ++ [X.rows] ++ pairFrames X (nthPerm R X.rows.length g) n pairs⟩) := by
  unfold perfOvo
  rw [seq_of_ok (scoreOn_num hsc rfl _)]
  have hm := mapList_eq (l := pairs)
    (body := fun pr => PyM.seq (PyM.times n
      (PyM.seq (interScore R model M y X pr.1 pr.2 (sc X.rows)) fun v => PyM.ret (Num.abs v))) fun inter =>
      PyM.ret (⟨pr.1, pr.2, Num.mean inter⟩ : OvoRow F K))
    (σs := fun i => ⟨permAfter R X.rows.length g (3 * (n * i)),
      c ++ [X.rows] ++ pairFrames X (nthPerm R X.rows.length g) n (pairs.take i)⟩)
    (out := fun i pr => ⟨pr.1, pr.2, Num.mean ((List.range n).map fun j =>
      absInter M sc X (nthPerm R X.rows.length g) pr (3 * (n * i + j)))⟩)
    (fun i hi => by
      have hpr := hp pairs[i] (List.getElem_mem hi)
      rw [pairRow_num hR hsc hpr.1 hpr.2.1 hpr.2.2]
      congr 2
      rw [List.take_succ_eq_append_getElem hi]
      unfold pairFrames
      rw [List.mapIdx_append]
      simp [Nat.min_eq_left (Nat.le_of_lt hi)])
  simp only [Nat.mul_zero, List.take_zero, List.take_length] at hm
  have h0 : pairFrames X (nthPerm R X.rows.length g) n [] = [] := rfl
  rw [h0, List.append_nil] at hm
  exact seq_of_ok hm

theorem corruptStep_num (hR : R.Lawful) (hsc : ScoresNum model M y X.rows.length sc) {f : F} (hf : f ∈ X.cols)
    {ks : List F} (nd : ks.Nodup) (hk : f ∈ ks) (h : F → List (Num K)) (g : G) (k : Nat) (c : List (List (Row F V))) :
    corruptStep R model M y X (X, dictOf ks h) f ⟨permAfter R X.rows.length g k, c⟩ =
      (.ok (X, dictOf ks (fun f' => if f' = f then h f ++ [sc (permuted X [f] (nthPerm R X.rows.length g k))]
        else h f')),
        ⟨permAfter R X.rows.length g (k + 1), c ++ [permuted X [f] (nthPerm R X.rows.length g k)]⟩) := by
  have hp : ValidPos X (nthPerm R X.rows.length g k) := validPos_of_perm (perm_nth hR _ _ _)
  obtain ⟨v, v', h1, hl, h2, h3⟩ := setCol_permuted (done := []) hp (permuted_nil X _).symm rfl hf (by simp)
  unfold corruptStep
  have e0 : ∀ (s : Scored G F V), (PyM.lift (X.colE f) : PyM (Scored G F V) _) s = (.ok v, s) := by
    intro s; simp only [PyM.lift, h1]
  rw [seq_of_ok (e0 _)]
  have e1 : drawPerm R v.length (⟨permAfter R X.rows.length g k, c⟩ : Scored G F V) =
      (.ok (nthPerm R X.rows.length g k), ⟨permAfter R X.rows.length g (k + 1), c⟩) := by rw [hl]; rfl
  rw [seq_of_ok e1]
  have e2 : ∀ (s : Scored G F V), (PyM.lift (npTake v (nthPerm R X.rows.length g k)) : PyM (Scored G F V) _) s =
      (.ok v', s) := by intro s; simp only [PyM.lift, h2]
  rw [seq_of_ok (e2 _)]
  have e3 : ∀ (s : Scored G F V), (PyM.lift (X.setCol f v') : PyM (Scored G F V) _) s =
      (.ok ⟨X.cols, permuted X [f] (nthPerm R X.rows.length g k)⟩, s) := by
    intro s; simp only [PyM.lift, h3, List.nil_append]
  rw [seq_of_ok (e3 _), seq_of_ok (scoreOn_num hsc (length_permuted X _ _) _)]
  simp only [dictOf_get? h hk]
  rw [seq_of_ok (e0 _)]
  have hv : v = X.col f := by
    simp only [Frame.colE, if_pos hf, Except.ok.injEq] at h1; exact h1.symm
  have e4 : ∀ (s : Scored G F V), (PyM.lift (Frame.setCol ⟨X.cols, permuted X [f] (nthPerm R X.rows.length g k)⟩ f v) :
      PyM (Scored G F V) _) s = (.ok X, s) := by
    intro s; simp only [PyM.lift]; rw [hv, setCol_restore hf]
  rw [seq_of_ok (e4 _)]
  simp only [PyM.ret, dictOf_set nd h hk]

/-- scores of the turns before turn `k` -/
def scoresBeforeNum (sc : List (Row F V) → Num K) (X : Frame F V) (perm : Nat → List Nat) (l : List F) (k : Nat) (f : F) :
    List (Num K) :=
  (((l.take k).mapIdx fun k h => (h, sc (permuted X [h] (perm k)))).filter (fun e => e.1 = f)).map (·.2)

theorem corruptedScores_num (hR : R.Lawful) (hsc : ScoresNum model M y X.rows.length sc) {fs : List F}
    (hfs : ∀ f ∈ fs, f ∈ X.cols) (n : Nat) (g : G) (c : List (List (Row F V))) :
    ∃ ks : List F, ks.Nodup ∧ (∀ f, f ∈ ks ↔ f ∈ fs) ∧
      corruptedScores R model M y X fs n ⟨g, c⟩ =
        (.ok (dictOf ks fun f => (turnScores sc X (nthPerm R X.rows.length g) fs n f)),
          ⟨permAfter R X.rows.length g (turns fs n).length,
            c ++ turnFrames X (nthPerm R X.rows.length g) fs n⟩) := by
  obtain ⟨ks, nd, hks, hd⟩ := initDict_eq (β := Num K) fs [] List.nodup_nil
  simp only [List.not_mem_nil, false_or] at hks
  refine ⟨ks, nd, hks, ?_⟩
  have ht : ∀ f ∈ turns fs n, f ∈ fs := by
    intro f hf
    simp only [turns, List.mem_flatten, List.mem_replicate] at hf
    obtain ⟨l, ⟨_, rfl⟩, h⟩ := hf
    exact h
  have hm := fold_eq (l := turns fs n) (body := corruptStep R model M y X)
    (acc := fun k => (X, dictOf ks (scoresBeforeNum sc X (nthPerm R X.rows.length g) (turns fs n) k)))
    (σs := fun k => ⟨permAfter R X.rows.length g k,
      c ++ ((turns fs n).take k).mapIdx fun k f => permuted X [f] (nthPerm R X.rows.length g k)⟩)
    (fun k hk => by
      have hmem := ht _ (List.getElem_mem hk)
      rw [corruptStep_num hR hsc (hfs _ hmem) nd ((hks _).2 hmem)]
      congr 2
      · congr 2
        funext f'
        unfold scoresBeforeNum
        rw [List.take_succ_eq_append_getElem hk, List.mapIdx_append, List.filter_append, List.map_append]
        by_cases e : f' = (turns fs n)[k]
        · subst e
          simp [Nat.min_eq_left (Nat.le_of_lt hk)]
        · simp [e, Ne.symm e]
      · rw [List.take_succ_eq_append_getElem hk, List.mapIdx_append, ← List.append_assoc]
        simp [Nat.min_eq_left (Nat.le_of_lt hk)])
  have e0 : scoresBeforeNum sc X (nthPerm R X.rows.length g) (turns fs n) 0 = fun _ => [] := by
    funext f; simp [scoresBeforeNum]
  simp only [List.take_zero, List.mapIdx_nil, List.append_nil] at hm
  rw [e0] at hm
  unfold corruptedScores
  have hd' : fs.foldl (fun d f => Dict.set d f ([] : List (Num K))) [] = dictOf ks fun _ => [] := hd
  rw [hd']
  have hm' : PyM.fold (List.range n) (fun acc _ => PyM.fold fs (corruptStep R model M y X) acc)
      (X, dictOf ks fun _ => []) (⟨g, c⟩ : Scored G F V) = _ := (fold_rounds n fs _ _ _).trans hm
  rw [seq_of_ok hm']
  have e9 : scoresBeforeNum sc X (nthPerm R X.rows.length g) (turns fs n) (turns fs n).length =
      fun f => (turnScores sc X (nthPerm R X.rows.length g) fs n f) := by
    funext f; simp only [scoresBeforeNum, List.take_length]; rfl
  simp only [PyM.ret, List.take_length, e9]
  rfl

theorem permImportance_num (hR : R.Lawful) (hsc : ScoresNum model M y X.rows.length sc) {fs : List F}
    (hfs : ∀ f ∈ fs, f ∈ X.cols) (hne : fs ≠ []) {n : Nat} (g : G) (c : List (List (Row F V)))
    (sort : List (FeatRow F K) → List (FeatRow F K)) :
    ∃ ks : List F, ks.Nodup ∧ (∀ f, f ∈ ks ↔ f ∈ fs) ∧
      permImportance sort R model M y X (some fs) n ⟨g, c⟩ =
        (.ok (sort (ks.map fun f =>
          ⟨f, negIfClass M (Num.sub (Num.mean (turnScores sc X (nthPerm R X.rows.length g) fs n f)) (sc X.rows))⟩)),
          ⟨permAfter R X.rows.length g (turns fs n).length,
            c ++ [X.rows] ++ turnFrames X (nthPerm R X.rows.length g) fs n⟩) := by
  obtain ⟨ks, nd, hks, h⟩ := corruptedScores_num hR hsc hfs n g (c ++ [X.rows])
  refine ⟨ks, nd, hks, ?_⟩
  unfold permImportance
  rw [seq_of_ok (scoreOn_num hsc rfl _)]
  simp only
  rw [seq_of_ok h]
  have hks' : ks ≠ [] := by
    obtain ⟨f, hf⟩ := List.exists_mem_of_ne_nil _ hne
    exact List.ne_nil_of_mem ((hks f).2 hf)
  have : (dictOf ks fun f => turnScores sc X (nthPerm R X.rows.length g) fs n f).isEmpty = false := by
    cases ks with
    | nil => exact absurd rfl hks'
    | cons => rfl
  rw [this]
  simp only [Bool.false_eq_true, if_false, PyM.ret, dictOf, List.map_map]
  rfl

end
end Artemis
