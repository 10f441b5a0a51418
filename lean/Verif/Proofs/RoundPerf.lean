import Verif.Model.RoundedPerf
import Verif.Props.Sejong
import Verif.Props.RoundedAdditivity
import Verif.Proofs.PerfNum

/-!
# What the performance-based methods compute in floating-point arithmetic

The lemmas of `Proofs/PerfNum` for rounded arithmetic, rounding errors of the values, whole numbers in binary64.
-/

set_option linter.unusedSectionVars false
set_option linter.unusedVariables false
set_option linter.unusedSimpArgs false

namespace Artemis
open Spec

section Tables
variable {F V K G L : Type} [DecidableEq F] [DecidableEq L] [Field K] [LinearOrder K] [IsStrictOrderedRing K] {A : Arith K}
variable {R : Rng G} {model : ModelObj F V (Num K)} {M : Metric K} {y : List (Num K)} {X : Frame F V}
  {sc : List (Row F V) → Num K}

theorem permuteScoreR_num (hR : R.Lawful) (hsc : ScoresNum model M y X.rows.length sc) {fs : List F}
    (hfs : ∀ f ∈ fs, f ∈ X.cols) (nd : fs.Nodup) (ref : Num K) (g : G) (k : Nat) (c : List (List (Row F V))) :
    permuteScoreR A R model M y X fs ref ⟨permAfter R X.rows.length g k, c⟩ =
      (.ok (negIfClass M (A.sub (sc (permuted X fs (nthPerm R X.rows.length g k))) ref)),
        ⟨permAfter R X.rows.length g (k + 1), c ++ [permuted X fs (nthPerm R X.rows.length g k)]⟩) := by
  have hp : ValidPos X (nthPerm R X.rows.length g k) := validPos_of_perm (perm_nth hR _ _ _)
  have e1 : drawPerm R X.len (⟨permAfter R X.rows.length g k, c⟩ : Scored G F V) =
      (.ok (nthPerm R X.rows.length g k), ⟨permAfter R X.rows.length g (k + 1), c⟩) := rfl
  unfold permuteScoreR
  rw [seq_of_ok e1]
  have e2 : (PyM.lift (permuteCols (nthPerm R X.rows.length g k) fs X) :
      PyM (Scored G F V) (Frame F V)) ⟨permAfter R X.rows.length g (k + 1), c⟩ =
      (.ok ⟨X.cols, permuted X fs (nthPerm R X.rows.length g k)⟩, ⟨permAfter R X.rows.length g (k + 1), c⟩) := by
    simp only [PyM.lift, permuteCols_eq hp hfs nd]
  rw [seq_of_ok e2, seq_of_ok (scoreOn_num hsc (length_permuted X fs _) _)]
  simp [PyM.ret]

/-- what `interScoreR` returns, from the scores of the data and of the three permuted data sets -/
def interOfR (A : Arith K) (M : Metric K) (ref s1 s2 s12 : Num K) : Num K :=
  negIfClass M (A.sub (A.sub (negIfClass M (A.sub s12 ref)) (negIfClass M (A.sub s1 ref))) (negIfClass M (A.sub s2 ref)))

/-- the absolute value of it, `k` permutations having been drawn before -/
def absInterR (A : Arith K) (M : Metric K) (sc : List (Row F V) → Num K) (X : Frame F V) (perm : Nat → List Nat) (pr : F × F) (k : Nat) :
    Num K :=
  Num.abs (interOfR A M (sc X.rows) (sc (permuted X [pr.1] (perm k))) (sc (permuted X [pr.2] (perm (k + 1))))
    (sc (permuted X [pr.1, pr.2] (perm (k + 2)))))

theorem interScoreR_num (hR : R.Lawful) (hsc : ScoresNum model M y X.rows.length sc) {pr : F × F}
    (h1 : pr.1 ∈ X.cols) (h2 : pr.2 ∈ X.cols) (hne : pr.1 ≠ pr.2) (g : G) (k : Nat) (c : List (List (Row F V))) :
    (PyM.seq (interScoreR A R model M y X pr.1 pr.2 (sc X.rows)) fun v => PyM.ret (Num.abs v))
        ⟨permAfter R X.rows.length g k, c⟩ =
      (.ok (absInterR A M sc X (nthPerm R X.rows.length g) pr k),
        ⟨permAfter R X.rows.length g (k + 3), c ++ tripleFrames X (nthPerm R X.rows.length g) pr.1 pr.2 k⟩) := by
  have e1 := permuteScoreR_num (A := A) hR hsc (fs := [pr.1]) (by simpa using h1) (by simp) (sc X.rows) g k c
  have e2 := permuteScoreR_num (A := A) hR hsc (fs := [pr.2]) (by simpa using h2) (by simp) (sc X.rows) g (k + 1)
    (c ++ [permuted X [pr.1] (nthPerm R X.rows.length g k)])
  have e3 := permuteScoreR_num (A := A) hR hsc (fs := [pr.1, pr.2]) (by simp [h1, h2]) (by simp [hne]) (sc X.rows) g (k + 2)
    ((c ++ [permuted X [pr.1] (nthPerm R X.rows.length g k)]) ++ [permuted X [pr.2] (nthPerm R X.rows.length g (k + 1))])
  have e : interScoreR A R model M y X pr.1 pr.2 (sc X.rows) ⟨permAfter R X.rows.length g k, c⟩ = _ :=
    (seq_of_ok e1).trans ((seq_of_ok e2).trans (seq_of_ok e3))
  rw [seq_of_ok e]
  simp only [PyM.ret, List.append_assoc, List.cons_append, List.nil_append]
  rfl

/-- the value of the `i`-th pair -/
def pairValueR (A : Arith K) (M : Metric K) (sc : List (Row F V) → Num K) (X : Frame F V) (perm : Nat → List Nat) (n i : Nat)
    (pr : F × F) : Num K :=
  A.mean ((List.range n).map fun j => absInterR A M sc X perm pr (3 * (n * i + j)))

theorem pairRowR_num (hR : R.Lawful) (hsc : ScoresNum model M y X.rows.length sc) {pr : F × F}
    (h1 : pr.1 ∈ X.cols) (h2 : pr.2 ∈ X.cols) (hne : pr.1 ≠ pr.2) {n : Nat} (g : G) (i : Nat)
    (c : List (List (Row F V))) :
    (PyM.seq (PyM.times n
      (PyM.seq (interScoreR A R model M y X pr.1 pr.2 (sc X.rows)) fun v => PyM.ret (Num.abs v))) fun inter =>
    PyM.ret (⟨pr.1, pr.2, A.mean inter⟩ : OvoRow F K)) ⟨permAfter R X.rows.length g (3 * (n * i)), c⟩ =
      (.ok ⟨pr.1, pr.2, pairValueR A M sc X (nthPerm R X.rows.length g) n i pr⟩,
        ⟨permAfter R X.rows.length g (3 * (n * (i + 1))), c ++ (List.range n).flatMap fun j =>
          tripleFrames X (nthPerm R X.rows.length g) pr.1 pr.2 (3 * (n * i + j))⟩) := by
  have ht := times_eq (n := n)
    (body := PyM.seq (interScoreR A R model M y X pr.1 pr.2 (sc X.rows)) fun v => PyM.ret (Num.abs v))
    (σs := fun j => ⟨permAfter R X.rows.length g (3 * (n * i + j)), c ++ (List.range j).flatMap fun j =>
          tripleFrames X (nthPerm R X.rows.length g) pr.1 pr.2 (3 * (n * i + j))⟩)
    (out := fun j => absInterR A M sc X (nthPerm R X.rows.length g) pr (3 * (n * i + j)))
    (fun j _ => by
      rw [interScoreR_num hR hsc h1 h2 hne]
      have e : 3 * (n * i + (j + 1)) = 3 * (n * i + j) + 3 := by ring
      rw [e, List.range_succ, List.flatMap_append]
      simp)
  simp only [Nat.add_zero, List.range_zero, List.flatMap_nil, List.append_nil] at ht
  rw [seq_of_ok ht]
  have e : 3 * (n * (i + 1)) = 3 * (n * i + n) := by ring
  rw [e]
  rfl

theorem perfOvoR_num (hR : R.Lawful) (hsc : ScoresNum model M y X.rows.length sc) {pairs : List (F × F)}
    (hp : ∀ pr ∈ pairs, pr.1 ∈ X.cols ∧ pr.2 ∈ X.cols ∧ pr.1 ≠ pr.2) {n : Nat} (g : G)
    (c : List (List (Row F V))) (sort : List (OvoRow F K) → List (OvoRow F K)) :
    perfOvoR A sort R model M y X pairs n ⟨g, c⟩ =
      (.ok (sort (pairs.mapIdx fun i pr => ⟨pr.1, pr.2, pairValueR A M sc X (nthPerm R X.rows.length g) n i pr⟩)),
        ⟨permAfter R X.rows.length g (3 * (n * pairs.length)),
          c ++ [X.rows] ++ pairFrames X (nthPerm R X.rows.length g) n pairs⟩) := by
  unfold perfOvoR
  rw [seq_of_ok (scoreOn_num hsc rfl _)]
  have hm := mapList_eq (l := pairs)
    (body := fun pr => PyM.seq (PyM.times n
      (PyM.seq (interScoreR A R model M y X pr.1 pr.2 (sc X.rows)) fun v => PyM.ret (Num.abs v))) fun inter =>
      PyM.ret (⟨pr.1, pr.2, A.mean inter⟩ : OvoRow F K))
    (σs := fun i => ⟨permAfter R X.rows.length g (3 * (n * i)),
      c ++ [X.rows] ++ pairFrames X (nthPerm R X.rows.length g) n (pairs.take i)⟩)
    (out := fun i pr => ⟨pr.1, pr.2, pairValueR A M sc X (nthPerm R X.rows.length g) n i pr⟩)
    (fun i hi => by
      have hpr := hp pairs[i] (List.getElem_mem hi)
      rw [pairRowR_num hR hsc hpr.1 hpr.2.1 hpr.2.2]
      congr 2
      rw [List.take_succ_eq_append_getElem hi]
      unfold pairFrames
      rw [List.mapIdx_append]
      simp [Nat.min_eq_left (Nat.le_of_lt hi)])
  simp only [Nat.mul_zero, List.take_zero, List.take_length] at hm
  have h0 : pairFrames X (nthPerm R X.rows.length g) n [] = [] := rfl
  rw [h0, List.append_nil] at hm
  exact seq_of_ok hm

/-- the importance of a feature -/
def permValueR (A : Arith K) (M : Metric K) (sc : List (Row F V) → Num K) (X : Frame F V) (perm : Nat → List Nat) (fs : List F) (n : Nat)
    (f : F) : Num K :=
  negIfClass M (A.sub (A.mean (turnScores sc X perm fs n f)) (sc X.rows))

theorem permImportanceR_num (hR : R.Lawful) (hsc : ScoresNum model M y X.rows.length sc) {fs : List F}
    (hfs : ∀ f ∈ fs, f ∈ X.cols) (hne : fs ≠ []) {n : Nat} (g : G) (c : List (List (Row F V)))
    (sort : List (FeatRow F K) → List (FeatRow F K)) :
    ∃ ks : List F, ks.Nodup ∧ (∀ f, f ∈ ks ↔ f ∈ fs) ∧
      permImportanceR A sort R model M y X (some fs) n ⟨g, c⟩ =
        (.ok (sort (ks.map fun f => ⟨f, permValueR A M sc X (nthPerm R X.rows.length g) fs n f⟩)),
          ⟨permAfter R X.rows.length g (turns fs n).length,
            c ++ [X.rows] ++ turnFrames X (nthPerm R X.rows.length g) fs n⟩) := by
  obtain ⟨ks, nd, hks, h⟩ := corruptedScores_num hR hsc hfs n g (c ++ [X.rows])
  refine ⟨ks, nd, hks, ?_⟩
  unfold permImportanceR
  rw [seq_of_ok (scoreOn_num hsc rfl _)]
  simp only
  rw [seq_of_ok h]
  have hks' : ks ≠ [] := by
    obtain ⟨f, hf⟩ := List.exists_mem_of_ne_nil _ hne
    exact List.ne_nil_of_mem ((hks f).2 hf)
  have : (dictOf ks fun f => turnScores sc X (nthPerm R X.rows.length g) fs n f).isEmpty = false := by
    cases ks with
    | nil => exact absurd rfl hks'
    | cons => rfl
  rw [this]
  simp only [Bool.false_eq_true, if_false, PyM.ret, dictOf, List.map_map]
  rfl

theorem runR_num {Xl : LFrame L F V} {yl : Target L K} {o : PermObj G F K} (hR : R.Lawful)
    (hsc : ScoresNum model o.metric yl.values Xl.frame.rows.length sc) {fs : List F}
    (hfs : ∀ f ∈ fs, f ∈ Xl.frame.cols) (hne : fs ≠ []) {n : Nat} (calls : List (List (Row F V)))
    (sort : List (FeatRow F K) → List (FeatRow F K)) :
    ∃ (ks : List F) (o' : PermObj G F K), ks.Nodup ∧ (∀ f, f ∈ ks ↔ f ∈ fs) ∧
      PermObj.runR A sort R model Xl yl n (some fs) o calls =
        (.ok (sort (ks.map fun f => ⟨f, permValueR A o.metric sc Xl.frame (nthPerm R Xl.frame.rows.length o.rng) fs n f⟩)), o',
          calls ++ [Xl.frame.rows] ++ turnFrames Xl.frame (nthPerm R Xl.frame.rows.length o.rng) fs n) := by
  obtain ⟨ks, nd, hks, h⟩ := permImportanceR_num (A := A) hR hsc hfs hne (n := n) o.rng calls sort
  refine ⟨ks, ⟨permAfter R Xl.frame.rows.length o.rng (turns fs n).length, o.metric,
    some (sort (ks.map fun f => ⟨f, permValueR A o.metric sc Xl.frame (nthPerm R Xl.frame.rows.length o.rng) fs n f⟩))⟩, nd, hks, ?_⟩
  simp only [PermObj.runR, h]

theorem length_turnScores (sc : List (Row F V) → Num K) (X : Frame F V) (perm : Nat → List Nat) {fs : List F} (nd : fs.Nodup) (n : Nat) {f : F}
    (hf : f ∈ fs) : (turnScores sc X perm fs n f).length = n := by
  have h := count_turns fs n f
  rw [List.count_eq_one_of_mem nd hf, mul_one] at h
  refine Eq.trans ?_ h
  unfold turnScores
  generalize turns fs n = l
  clear h
  rw [List.length_map]
  induction l using List.reverseRecOn with
  | nil => rfl
  | append_singleton l a ih =>
    rw [List.mapIdx_append, List.filter_append, List.length_append, ih, List.count_append]
    by_cases e : a = f <;> simp [e]

end Tables

section Errors
variable {F V K : Type} [DecidableEq F] [Field K] [LinearOrder K] [IsStrictOrderedRing K] {A : Arith K} {M : Metric K} {u η B n m : K}

theorem close_refl (x : K) {ε : K} (h : 0 ≤ ε) : CloseTo (.fin x) x ε := ⟨x, rfl, by simpa using h⟩

theorem neg_close {a : Num K} {x ε : K} (h : CloseTo a x ε) : CloseTo (negIfClass M a) (sgn M * x) ε := by
  obtain ⟨y, rfl, hy⟩ := h
  refine ⟨sgn M * y, negIfClass_fin y, ?_⟩
  rw [← mul_sub, abs_mul, abs_sgn, one_mul]
  exact hy

theorem abs_close {a : Num K} {x ε : K} (h : CloseTo a x ε) : CloseTo (Num.abs a) |x| ε := by
  obtain ⟨y, rfl, hy⟩ := h
  exact ⟨|y|, rfl, (abs_abs_sub_abs_le y x).trans hy⟩

theorem abs_sgn_mul (x : K) : |sgn M * x| = |x| := by rw [abs_mul, abs_sgn, one_mul]

/-- one repetition for one pair -/
theorem inter_close (h : A.Suits u η B n m) {ref s1 s2 s12 : K} (h0 : |ref| ≤ m) (h1 : |s1| ≤ m) (h2 : |s2| ≤ m) (h12 : |s12| ≤ m) :
    CloseTo (Num.abs (interOfR A M (.fin ref) (.fin s1) (.fin s2) (.fin s12))) |s12 - s1 - s2 + ref| (19 * (u * m)) ∧
      |s12 - s1 - s2 + ref| ≤ 4 * m := by
  obtain ⟨hu, η0, w0, w1, w2, m1, hB, u1⟩ := h.facts
  have hη := h.small
  have nn : 0 ≤ n * (m * m) := mul_nonneg (by linarith [h.one_le]) (mul_self_nonneg m)
  have um : 64 * (u * m) ≤ m := by linarith
  have m0 := h.size_nonneg
  have d : ∀ s : K, |s| ≤ m → CloseTo (negIfClass M (A.sub (.fin s) (.fin ref))) (sgn M * (s - ref)) (3 * (u * m)) := by
    intro s hs
    refine (neg_close (sub_close h.accurate (close_refl s le_rfl) (close_refl ref le_rfl) (m := 2 * m) ?_ (by linarith))).mono (by linarith)
    have := abs_sub s ref
    linarith
  have e1 : sgn M * (s12 - ref) - sgn M * (s1 - ref) = sgn M * (s12 - s1) := by ring
  have e2 : sgn M * (s12 - s1) - sgn M * (s2 - ref) = sgn M * (s12 - s1 - s2 + ref) := by ring
  have b1 : |s12 - s1| ≤ 2 * m := (abs_sub _ _).trans (by linarith)
  have b2 : |s12 - s1 - s2 + ref| ≤ 4 * m := by
    have a1 := abs_add_le (s12 - s1 - s2) ref
    have a2 := abs_sub (s12 - s1) s2
    linarith
  refine ⟨?_, b2⟩
  have c1 := sub_close h.accurate (d s12 h12) (d s1 h1) (m := 3 * m) (by rw [e1, abs_sgn_mul]; linarith) (by linarith)
  rw [e1] at c1
  have c2 := sub_close h.accurate (c1.mono (show _ ≤ 10 * (u * m) by linarith)) (d s2 h2) (m := 5 * m)
    (by rw [e2, abs_sgn_mul]; linarith) (by linarith)
  rw [e2] at c2
  have c3 := abs_close (neg_close (M := M) (c2.mono (show _ ≤ 19 * (u * m) by linarith)))
  rw [abs_sgn_mul, abs_sgn_mul] at c3
  exact c3

theorem close_realPart {a : Num K} {x ε : K} (h : CloseTo a x ε) : ∃ y, a = .fin y ∧ a.realPart = y ∧ |y - x| ≤ ε := by
  obtain ⟨y, rfl, hy⟩ := h
  exact ⟨y, rfl, rfl, hy⟩

theorem average_close {ι : Type} {l : List ι} (hl : l ≠ []) {p q : ι → K} {ε : K} (h : ∀ i ∈ l, |p i - q i| ≤ ε) :
    |average (l.map p) - average (l.map q)| ≤ ε := by
  have hn : (0 : K) < l.length := by exact_mod_cast List.length_pos_of_ne_nil hl
  unfold average
  rw [List.length_map, List.length_map, ← sub_div, abs_div, abs_of_pos hn, div_le_iff₀ hn]
  clear hl hn
  induction l with
  | nil => simp
  | cons a l ih =>
    have h1 := h a List.mem_cons_self
    have h2 := ih fun i hi => h i (List.mem_cons_of_mem _ hi)
    simp only [List.map_cons, List.sum_cons, List.length_cons]
    push_cast
    have e : p a + (l.map p).sum - (q a + (l.map q).sum) = (p a - q a) + ((l.map p).sum - (l.map q).sum) := by ring
    rw [e]
    have := abs_add_le (p a - q a) ((l.map p).sum - (l.map q).sum)
    linarith

/-- the mean of numbers of size at most `5 m` known up to `19 u m` -/
theorem mean_of_close {ι : Type} {l : List ι} {k : Nat} (hl : l.length = k) (hk : 0 < k) (h : A.Suits u η B k m) {a : ι → Num K} {x : ι → K}
    (ha : ∀ i ∈ l, CloseTo (a i) (x i) (19 * (u * m)) ∧ |x i| ≤ 4 * m) :
    CloseTo (A.mean (l.map a)) (average (l.map x)) (54 * (k * (u * m))) := by
  subst hl
  obtain ⟨hu, η0, w0, w1, w2, m1, hB, u1⟩ := h.facts
  have hη := h.small
  have m0 := h.size_nonneg
  have nn : 0 ≤ (l.length : K) * (m * m) := mul_nonneg (by linarith [h.one_le]) (mul_self_nonneg m)
  have hne : l ≠ [] := List.ne_nil_of_length_pos hk
  have um : 64 * (u * m) ≤ m := by linarith
  have r4 := h.rows
  have nu : 0 ≤ (l.length : K) * u := mul_nonneg (Nat.cast_nonneg _) hu
  have c := mean_close (l := l.map a) (m := 5 * m) h.accurate h.lawful (by simpa using hne)
    (by
      intro b hb
      obtain ⟨i, hi, rfl⟩ := List.mem_map.1 hb
      obtain ⟨⟨y, e, hy⟩, hx⟩ := ha i hi
      refine ⟨y, e, ?_⟩
      have e2 : y = (y - x i) + x i := by ring
      rw [e2]
      exact (abs_add_le _ _).trans (by linarith))
    (by linarith) (by rw [List.length_map]; linarith) (by nlinarith) (by rw [List.length_map]; linarith)
  rw [List.length_map, List.map_map] at c
  refine (c.trans (average_close hne (q := x) (ε := 19 * (u * m)) ?_)).mono ?_
  · intro i hi
    obtain ⟨y, e, ey, hy⟩ := close_realPart (ha i hi).1
    simp only [Function.comp_apply, ey]
    exact hy
  · have e : (l.length : K) * (u * (5 * m)) = 5 * (l.length * (u * m)) := by ring
    rw [e]
    linarith

/-- the importance of a feature -/
theorem imp_close {l : List K} {k : Nat} (hl : l.length = k) (hk : 0 < k) (h : A.Suits u η B k m) (hs : ∀ x ∈ l, |x| ≤ m) {base : K}
    (hb : |base| ≤ m) :
    CloseTo (negIfClass M (A.sub (A.mean (l.map Num.fin)) (.fin base))) (sgn M * (average l - base)) (11 * (k * (u * m))) := by
  subst hl
  obtain ⟨hu, η0, w0, w1, w2, m1, hB, u1⟩ := h.facts
  have hη := h.small
  have m0 := h.size_nonneg
  have nn : 0 ≤ (l.length : K) * (m * m) := mul_nonneg (by linarith [h.one_le]) (mul_self_nonneg m)
  have hne : l ≠ [] := List.ne_nil_of_length_pos hk
  have r4 := h.rows
  have nu : 0 ≤ (l.length : K) * u := mul_nonneg (Nat.cast_nonneg _) hu
  have c := mean_close (l := l.map Num.fin) (m := m) h.accurate h.lawful (by simpa using hne)
    (by
      intro b hb
      obtain ⟨i, hi, rfl⟩ := List.mem_map.1 hb
      exact ⟨i, rfl, hs i hi⟩)
    m0 (by rw [List.length_map]; linarith) hη (by rw [List.length_map]; linarith)
  have e : (l.map Num.fin).map Num.realPart = l := by
    rw [List.map_map]
    exact List.map_id l
  rw [List.length_map, e] at c
  have hav : |average l| ≤ m := by
    have := average_close (l := l) hne (p := id) (q := fun _ => 0) (ε := m) (by intro i hi; simpa using hs i hi)
    rw [show average (l.map fun _ => (0 : K)) = 0 from avg_const l hne 0, List.map_id, sub_zero] at this
    exact this
  refine (neg_close (sub_close h.accurate c (close_refl base le_rfl) (m := 3 * m) ?_ (by linarith))).mono (by linarith)
  have := abs_sub (average l) base
  linarith

end Errors

section Zero
variable {K : Type} [Field K] [LinearOrder K] [IsStrictOrderedRing K] {A : Arith K}

theorem add_zeroR (hz : A.rnd 0 = .fin 0) : A.add (.fin 0) (.fin 0) = .fin 0 := by
  simp [Arith.add, Num.add, Arith.r, hz]

theorem sub_selfR (hz : A.rnd 0 = .fin 0) (x : K) : A.sub (.fin x) (.fin x) = .fin 0 := by
  simp [Arith.sub, Num.sub, Num.neg, Num.add, Arith.r, hz]

theorem sums_zeroR (hz : A.rnd 0 = .fin 0) {l : List (Num K)} {s : Num K} (h : SumsTo A l s) : (∀ a ∈ l, a = .fin 0) → s = .fin 0 := by
  induction h with
  | nil => intro _; rfl
  | one a => intro h; exact h a List.mem_cons_self
  | add p h1 h2 n1 n2 ih1 ih2 =>
    intro h
    rw [ih1 fun a ha => h a (p.mem_iff.2 (List.mem_append_left _ ha)), ih2 fun a ha => h a (p.mem_iff.2 (List.mem_append_right _ ha))]
    exact add_zeroR hz

theorem mean_zeroR (hA : A.Lawful) (hz : A.rnd 0 = .fin 0) {l : List (Num K)} (hne : l ≠ []) (h : ∀ a ∈ l, a = .fin 0) : A.mean l = .fin 0 := by
  have hn : (l.length : K) ≠ 0 := by
    have : (0 : K) < l.length := by exact_mod_cast List.length_pos_of_ne_nil hne
    exact this.ne'
  unfold Arith.mean Arith.div
  rw [sums_zeroR hz (hA.sums l) h, show Num.div (.fin 0) (Num.ofNat l.length) = (.fin (0 / l.length) : Num K) from if_neg hn, zero_div]
  exact hz

end Zero
end Artemis
