import Verif.Proofs.RoundPerf

/-!
# Properties C153–C156: Sejong Oh's method and permutation importance in floating-point arithmetic

`A` is the arithmetic; `sc rows` is the metric's value, as computed (with whatever rounding errors it has), of the model's predictions
for `rows` against the targets.
-/

set_option linter.unusedSectionVars false
set_option linter.unusedVariables false
set_option linter.unusedSimpArgs false

namespace Artemis
open Spec

section Sejong
variable {F V K G L : Type} [DecidableEq F] [DecidableEq L] [Field K] [LinearOrder K] [IsStrictOrderedRing K] [HasSqrt K] {A : Arith K}
variable {E : PerfEnv G L F K} {a : SejongArgs L F V K} {s0 : Sejong G L F V K} {Xs : LFrame L F V} {ys : Target L K} {g : G}

/-- As `PerfSetup`, with scores that may be NaN or infinite. -/
structure PerfSetupR (E : PerfEnv G L F K) (a : SejongArgs L F V K) (s0 : Sejong G L F V K) (Xs : LFrame L F V)
    (ys : Target L K) (g : G) (sc : List (Row F V) → Num K) : Prop where
  lawful : E.R.Lawful
  sampled : sampleBoth E.R E.toInt a.X a.y a.n s0.rng = (.ok (Xs, ys), g)
  scores : ScoresNum a.model s0.metric ys.values Xs.frame.rows.length sc
  feats_cols : ∀ f ∈ a.feats, f ∈ a.X.frame.cols
  feats_nodup : a.feats.Nodup
  feats_ne : a.feats ≠ []
  repeats : 0 < a.nRepeat

section helpers
variable {sc : List (Row F V) → Num K}

theorem sejong_fitR_eq (hs : PerfSetupR E a s0 Xs ys g sc) (entropy : G) :
    ∃ (s : Sejong G L F V K) (ks : List F), Sejong.fitR A E a entropy s0 = (.ok (), s) ∧
      s.ovo = some (E.sortOvo ((combinations2 a.feats).mapIdx fun i pr =>
        ⟨pr.1, pr.2, pairValueR A s0.metric sc Xs.frame (nthPerm E.R Xs.frame.rows.length g) a.nRepeat i pr⟩)) ∧
      ks.Nodup ∧ (∀ f, f ∈ ks ↔ f ∈ a.feats) ∧
      s.importance = some (E.sortFeat (ks.map fun f =>
        ⟨f, permValueR A s0.metric sc Xs.frame (nthPerm E.R Xs.frame.rows.length entropy) a.feats a.nRepeat f⟩)) := by
  have hcols := sampleBoth_cols hs.sampled
  have hp : ∀ pr ∈ combinations2 a.feats, pr.1 ∈ Xs.frame.cols ∧ pr.2 ∈ Xs.frame.cols ∧ pr.1 ≠ pr.2 := by
    intro pr hpr
    have hm := mem_combinations2 hpr
    rw [hcols]
    exact ⟨hs.feats_cols _ hm.1, hs.feats_cols _ hm.2, ne_of_mem_combinations2 hs.feats_nodup hpr⟩
  have h1 := perfOvoR_num (A := A) hs.lawful hs.scores hp (n := a.nRepeat) g s0.calls E.sortOvo
  obtain ⟨ks, o', nd, hks, h4⟩ := runR_num (A := A) (sort := E.sortFeat) (o := ⟨entropy, s0.metric, none⟩) (Xl := Xs) (yl := ys)
    hs.lawful hs.scores (fs := a.feats) (fun f hf => by rw [hcols]; exact hs.feats_cols f hf) hs.feats_ne (n := a.nRepeat)
    (s0.calls ++ [Xs.frame.rows] ++
          pairFrames Xs.frame (nthPerm E.R Xs.frame.rows.length g) a.nRepeat (combinations2 a.feats))
  have hf : allIfNone a.X.frame.cols a.features = a.feats := rfl
  unfold Sejong.fitR
  simp only [hs.sampled, hf, h1, h4]
  exact ⟨_, ks, rfl, rfl, nd, hks, rfl⟩

theorem absInterR_nonneg (M : Metric K) (X : Frame F V) (perm : Nat → List Nat) (pr : F × F) (k : Nat) :
    NaNOrNonneg (absInterR A M sc X perm pr k) := by
  unfold absInterR
  generalize interOfR A M _ _ _ _ = v
  cases v with
  | fin x => exact naNOrNonneg_fin (abs_nonneg x)
  | pinf => exact Or.inr Num.nonneg_pinf
  | ninf => exact Or.inr Num.nonneg_pinf
  | nan => exact Or.inl rfl

theorem pairValueR_nonneg (hA : A.Lawful) (M : Metric K) (X : Frame F V) (perm : Nat → List Nat) (n i : Nat) (pr : F × F) :
    NaNOrNonneg (pairValueR A M sc X perm n i pr) := by
  apply mean_nonnegR hA
  intro b hb
  obtain ⟨j, _, rfl⟩ := List.mem_map.1 hb
  exact absInterR_nonneg _ _ _ _ _

theorem mem_mapIdx_row {l : List (F × F)} {v : Nat → F × F → Num K} {row : OvoRow F K}
    (h : row ∈ l.mapIdx fun i pr => (⟨pr.1, pr.2, v i pr⟩ : OvoRow F K)) : ∃ i pr, l[i]? = some pr ∧ row = ⟨pr.1, pr.2, v i pr⟩ := by
  rw [List.mem_mapIdx] at h
  obtain ⟨i, hi, rfl⟩ := h
  exact ⟨i, l[i], List.getElem?_eq_getElem hi, rfl⟩

/-- scoring a data set that differs in an ignored column only -/
theorem scoresNum_ignored {model : ModelObj F V (Num K)} {M : Metric K} {y : List (Num K)} {len : Nat} (hsc : ScoresNum model M y len sc) {f : F}
    (hig : ModelIgnores model f) {rows rows' : List (Row F V)} (hl : rows.length = len)
    (h : List.Forall₂ (fun r r' : Row F V => ∀ h, h ≠ f → r h = r' h) rows rows') : sc rows = sc rows' := by
  obtain ⟨p, hp, hs⟩ := hsc
  obtain ⟨yh, h1, h2⟩ := hs 0 rows hl
  obtain ⟨yh', h1', h2'⟩ := hs 0 rows' (by rw [← h.length_eq]; exact hl)
  rw [hig p hp 0 0 rows rows' h, h1'] at h1
  cases h1
  rw [h2] at h2'
  simpa using h2'

theorem scoresNum_permuted_ignored {model : ModelObj F V (Num K)} {M : Metric K} {y : List (Num K)} {Z : Frame F V}
    (hsc : ScoresNum model M y Z.rows.length sc) {f : F} (hig : ModelIgnores model f) (p : List Nat) :
    sc (permuted Z [f] p) = sc Z.rows :=
  scoresNum_ignored hsc hig (length_permuted Z [f] p) (permuted_keeps.imp fun _ _ h x hx => h x (by simpa using hx))

theorem scoresNum_joint_ignored {model : ModelObj F V (Num K)} {M : Metric K} {y : List (Num K)} {Z : Frame F V}
    (hsc : ScoresNum model M y Z.rows.length sc) {f f' : F} (hig : ModelIgnores model f) (hig' : ModelIgnores model f') (p : List Nat) :
    sc (permuted Z [f, f'] p) = sc Z.rows := by
  rw [← scoresNum_permuted_ignored hsc hig' p]
  apply scoresNum_ignored hsc hig (length_permuted Z _ p)
  rw [List.forall₂_iff_get]
  refine ⟨by simp [length_permuted], ?_⟩
  intro i h1 h2 x hx
  simp [permuted, hx]

end helpers

/-! ## C153 -/

/-- **C153.** Whatever the scores are, NaN and infinities included, the values of the pairs are NaN or at least zero, in non-increasing
order with NaN at the end. -/
theorem C153_nonneg_sorted {sc : List (Row F V) → Num K} (hA : A.Lawful) (hs : PerfSetupR E a s0 Xs ys g sc)
    (hsort : SortsBy (fun r : OvoRow F K => r.val.abs) false E.sortOvo) (entropy : G) :
    ∃ s t, Sejong.fitR A E a entropy s0 = (.ok (), s) ∧ s.ovo = some t ∧
      (t.map fun r => (r.f1, r.f2)).Perm (combinations2 a.feats) ∧
      (∀ row ∈ t, row.val = .nan ∨ Num.le (.fin 0) row.val = true) ∧
      t.Pairwise (fun r r' => r'.val = .nan ∨ Num.le r'.val r.val = true) := by
  obtain ⟨s, ks, h, ho, _, _, _⟩ := sejong_fitR_eq (A := A) hs entropy
  have hnn : ∀ row ∈ E.sortOvo ((combinations2 a.feats).mapIdx fun i pr =>
      (⟨pr.1, pr.2, pairValueR A s0.metric sc Xs.frame (nthPerm E.R Xs.frame.rows.length g) a.nRepeat i pr⟩ : OvoRow F K)),
      NaNOrNonneg row.val := by
    intro row hrow
    obtain ⟨i, pr, _, rfl⟩ := mem_mapIdx_row ((hsort _).1.mem_iff.1 hrow)
    exact pairValueR_nonneg hA _ _ _ _ _ _
  refine ⟨s, _, h, ho, ?_, hnn, ?_⟩
  · refine ((hsort _).1.map _).trans ?_
    refine List.Perm.of_eq ?_
    apply List.ext_getElem <;> simp
  · refine (hsort _).2.imp_of_mem ?_
    intro r r' hr hr' hle
    rcases naNOrNonneg_cases (hnn r hr) with e | e | ⟨x, e, hx⟩ <;> rcases naNOrNonneg_cases (hnn r' hr') with e' | e' | ⟨x', e', hx'⟩ <;>
      simp only [Num.keyLE, e, e', Num.abs, Num.isNaN, Num.le] at hle ⊢ <;> simp_all [abs_of_nonneg]

/-- **C153.** If the model ignores both features of a pair then the value of the pair is exactly 0: no rounding error, whatever the order
in which sums are added up (the score of the data has to be finite). -/
theorem C153_both_ignored_zero {sc : List (Row F V) → Num K} (hA : A.Lawful) (hz : A.rnd 0 = .fin 0) (hs : PerfSetupR E a s0 Xs ys g sc)
    {x : K} (hx : sc Xs.frame.rows = .fin x)
    (hsort : SortsBy (fun r : OvoRow F K => r.val.abs) false E.sortOvo) (entropy : G) :
    ∃ s t, Sejong.fitR A E a entropy s0 = (.ok (), s) ∧ s.ovo = some t ∧
      ∀ row ∈ t, ModelIgnores a.model row.f1 → ModelIgnores a.model row.f2 → row.val = .fin 0 := by
  obtain ⟨s, ks, h, ho, _, _, _⟩ := sejong_fitR_eq (A := A) hs entropy
  refine ⟨s, _, h, ho, ?_⟩
  intro row hrow h1 h2
  obtain ⟨i, pr, hi, rfl⟩ := mem_mapIdx_row ((hsort _).1.mem_iff.1 hrow)
  simp only at h1 h2 ⊢
  apply mean_zeroR hA hz
  · have := hs.repeats
    intro he
    have := congrArg List.length he
    simp at this
    omega
  · intro b hb
    obtain ⟨j, _, rfl⟩ := List.mem_map.1 hb
    unfold absInterR
    rw [scoresNum_joint_ignored hs.scores h1 h2, scoresNum_permuted_ignored hs.scores h2, scoresNum_permuted_ignored hs.scores h1, hx]
    have e : negIfClass s0.metric (.fin (0 : K)) = .fin 0 := by rw [negIfClass_fin, mul_zero]
    unfold interOfR
    rw [sub_selfR hz, e, sub_selfR hz, sub_selfR hz, e]
    simp [Num.abs]

/-! ## C154 -/

section Close
variable {sc : List (Row F V) → K} {u η B m : K}

theorem scores_num {model : ModelObj F V (Num K)} {M : Metric K} {y : List (Num K)} {len : Nat} (h : Scores model M y len sc) :
    ScoresNum model M y len fun rows => .fin (sc rows) := h

theorem turnScores_fin (X : Frame F V) (perm : Nat → List Nat) (fs : List F) (n : Nat) (f : F) :
    turnScores (fun rows => (.fin (sc rows) : Num K)) X perm fs n f = (turnScores sc X perm fs n f).map .fin := by
  unfold turnScores
  generalize turns fs n = l
  induction l using List.reverseRecOn with
  | nil => rfl
  | append_singleton l b ih =>
    rw [List.mapIdx_append, List.filter_append, List.map_append, ih, List.mapIdx_append, List.filter_append, List.map_append, List.map_append]
    congr 1
    by_cases e : b = f <;> simp [e]

theorem permValueR_close {M : Metric K} {X : Frame F V} (perm : Nat → List Nat) {fs : List F} (nd : fs.Nodup) {n : Nat} (hn : 0 < n)
    (h : A.Suits u η B n m) (hsz : ∀ gs p, |sc (permuted X gs p)| ≤ m) {f : F} (hf : f ∈ fs) :
    CloseTo (permValueR A M (fun rows => .fin (sc rows)) X perm fs n f) (sgn M * (average (turnScores sc X perm fs n f) - sc X.rows))
      (11 * (n * (u * m))) := by
  unfold permValueR
  rw [turnScores_fin]
  refine imp_close ?_ hn h ?_ (by have := hsz [] []; rwa [permuted_nil] at this)
  · have := length_turnScores (fun rows => (.fin (sc rows) : Num K)) X perm nd n hf
    rwa [turnScores_fin, List.length_map] at this
  · intro x hx
    obtain ⟨k, rfl⟩ := turnScores_mem hx
    exact hsz _ _

theorem pairValueR_close {M : Metric K} {X : Frame F V} (perm : Nat → List Nat) {n : Nat} (hn : 0 < n) (h : A.Suits u η B n m)
    (hsz : ∀ gs p, |sc (permuted X gs p)| ≤ m) (i : Nat) (pr : F × F) :
    CloseTo (pairValueR A M (fun rows => .fin (sc rows)) X perm n i pr) (pairValue sc X perm n i pr) (54 * (n * (u * m))) := by
  refine mean_of_close (by simp) hn h ?_
  intro j _
  have h0 := hsz [] []
  rw [permuted_nil] at h0
  have := inter_close (M := M) h h0 (hsz [pr.1] (perm (3 * (n * i + j)))) (hsz [pr.2] (perm (3 * (n * i + j) + 1)))
    (hsz [pr.1, pr.2] (perm (3 * (n * i + j) + 2)))
  exact ⟨this.1, (abs_abs _).le.trans this.2⟩

theorem close_order {b b' : Num K} {k k' ε : K} (h : CloseTo b k ε) (h' : CloseTo b' k' ε) (hle : Num.le b' b = true) : k' ≤ k + 2 * ε := by
  obtain ⟨y, rfl, hy⟩ := h
  obtain ⟨y', rfl, hy'⟩ := h'
  have : y' ≤ y := by simpa [Num.le] using hle
  have h1 := abs_le.1 hy
  have h2 := abs_le.1 hy'
  linarith [h1.1, h1.2, h2.1, h2.2]

/-- **C154, pairs.** If no score of rearranged data exceeds `m` in size, then the value of every pair is within `54 n u m` of the value computed exactly from the
same scores (`n` repetitions, `u` the precision), and the order of the rows is the exact one up to twice that. -/
theorem C154_pairs_close_to_exact (hs : PerfSetup E a s0 Xs ys g sc) (h : A.Suits u η B a.nRepeat m)
    (hsz : ∀ gs p, |sc (permuted Xs.frame gs p)| ≤ m)
    (hsort : SortsBy (fun r : OvoRow F K => r.val.abs) false E.sortOvo) (entropy : G) :
    ∃ s t s' t', Sejong.fitR A E a entropy s0 = (.ok (), s) ∧ s.ovo = some t ∧ Sejong.fit E a entropy s0 = (.ok (), s') ∧ s'.ovo = some t' ∧
      t.length = t'.length ∧ (∀ row ∈ t, ∃ k, (⟨row.f1, row.f2, .fin k⟩ : OvoRow F K) ∈ t' ∧ CloseTo row.val k (54 * (a.nRepeat * (u * m)))) ∧
      t.Pairwise fun r r' => ∀ k k', (⟨r.f1, r.f2, .fin k⟩ : OvoRow F K) ∈ t' → (⟨r'.f1, r'.f2, .fin k'⟩ : OvoRow F K) ∈ t' →
        k' ≤ k + 2 * (54 * (a.nRepeat * (u * m))) := by
  obtain ⟨s, ks, e, ho, _, _, _⟩ := sejong_fitR_eq (A := A) (sc := fun rows => .fin (sc rows))
    ⟨hs.lawful, hs.sampled, scores_num hs.scores, hs.feats_cols, hs.feats_nodup, hs.feats_ne, hs.repeats⟩ entropy
  obtain ⟨imp, e'⟩ := sejong_fit_eq hs entropy
  have key : ∀ row ∈ E.sortOvo ((combinations2 a.feats).mapIdx fun i pr =>
      (⟨pr.1, pr.2, pairValueR A s0.metric (fun rows => .fin (sc rows)) Xs.frame (nthPerm E.R Xs.frame.rows.length g) a.nRepeat i pr⟩ : OvoRow F K)),
      ∃ k, (⟨row.f1, row.f2, .fin k⟩ : OvoRow F K) ∈ E.sortOvo (perfTable sc Xs.frame (nthPerm E.R Xs.frame.rows.length g) a.nRepeat
        (combinations2 a.feats)) ∧ CloseTo row.val k (54 * (a.nRepeat * (u * m))) := by
    intro row hrow
    obtain ⟨i, pr, hi, rfl⟩ := mem_mapIdx_row ((hsort _).1.mem_iff.1 hrow)
    refine ⟨pairValue sc Xs.frame (nthPerm E.R Xs.frame.rows.length g) a.nRepeat i pr, ?_, pairValueR_close _ hs.repeats h hsz i pr⟩
    rw [(hsort _).1.mem_iff]
    unfold perfTable
    rw [List.mem_mapIdx]
    obtain ⟨hi', e2⟩ := List.getElem?_eq_some_iff.1 hi
    exact ⟨i, hi', by simp only [e2]⟩
  have uniq : ∀ {f f' : F} {k k' : K}, (⟨f, f', .fin k⟩ : OvoRow F K) ∈ E.sortOvo (perfTable sc Xs.frame
      (nthPerm E.R Xs.frame.rows.length g) a.nRepeat (combinations2 a.feats)) → (⟨f, f', .fin k'⟩ : OvoRow F K) ∈ E.sortOvo (perfTable sc Xs.frame
      (nthPerm E.R Xs.frame.rows.length g) a.nRepeat (combinations2 a.feats)) → k = k' := by
    intro f f' k k' hk hk'
    obtain ⟨i, pr, hi, e1⟩ := mem_perfTable ((hsort _).1.mem_iff.1 hk)
    obtain ⟨i', pr', hi', e1'⟩ := mem_perfTable ((hsort _).1.mem_iff.1 hk')
    cases e1
    simp only [OvoRow.mk.injEq, Num.fin.injEq] at e1'
    obtain ⟨ea, eb, ec⟩ := e1'
    have ep : pr = pr' := Prod.ext ea eb
    subst ep
    obtain ⟨l1, e3⟩ := List.getElem?_eq_some_iff.1 hi
    obtain ⟨l2, e4⟩ := List.getElem?_eq_some_iff.1 hi'
    have ei : i = i' := (nodup_combinations2 hs.feats_nodup).getElem_inj_iff.1 (e3.trans e4.symm)
    subst ei
    exact ec.symm
  refine ⟨s, _, _, _, e, ho, e', rfl, ?_, key, ?_⟩
  · rw [(hsort _).1.length_eq, (hsort _).1.length_eq]
    simp [perfTable]
  · refine (hsort _).2.imp_of_mem ?_
    intro r r' hr hr' hle k k' hk hk'
    obtain ⟨k1, h1, c1⟩ := key r hr
    obtain ⟨k2, h2, c2⟩ := key r' hr'
    rw [uniq hk h1, uniq hk' h2]
    refine close_order c1 c2 ?_
    obtain ⟨i, pr, _, e1⟩ := mem_mapIdx_row ((hsort _).1.mem_iff.1 hr)
    obtain ⟨i', pr', _, e1'⟩ := mem_mapIdx_row ((hsort _).1.mem_iff.1 hr')
    have n1 : NaNOrNonneg r.val := by rw [e1]; exact pairValueR_nonneg h.lawful _ _ _ _ _ _
    have n2 : NaNOrNonneg r'.val := by rw [e1']; exact pairValueR_nonneg h.lawful _ _ _ _ _ _
    obtain ⟨y, ey, _⟩ := c1
    obtain ⟨y', ey', _⟩ := c2
    simp only [ey, ey'] at hle ⊢
    rw [ey] at n1
    rw [ey'] at n2
    have p1 : 0 ≤ y := by rcases n1 with n | n; cases n; exact Num.nonneg_fin.1 n
    have p2 : 0 ≤ y' := by rcases n2 with n | n; cases n; exact Num.nonneg_fin.1 n
    simpa [Num.keyLE, Num.abs, Num.isNaN, abs_of_nonneg p1, abs_of_nonneg p2] using hle

/-- **C154, importance.** … and every permutation importance is within `11 n u m` of the one computed exactly from the same scores. -/
theorem C154_importance_close_to_exact {R : Rng G} {model : ModelObj F V (Num K)} {X : LFrame L F V} {y : Target L K} {fs : List F} {n : Nat}
    {sort : List (FeatRow F K) → List (FeatRow F K)} {o : PermObj G F K} (hR : R.Lawful) (hsort : SortsBy FeatRow.val false sort)
    (hsc : Scores model o.metric y.values X.frame.rows.length sc) (hfs : ∀ f ∈ fs, f ∈ X.frame.cols) (hnd : fs.Nodup) (hne : fs ≠ [])
    (hn : 0 < n) (h : A.Suits u η B n m) (hsz : ∀ gs p, |sc (permuted X.frame gs p)| ≤ m) (calls : List (List (Row F V))) :
    ∃ t o1 c1 t' o2 c2, PermObj.runR A sort R model X y n (some fs) o calls = (.ok t, o1, c1) ∧
      PermObj.run sort R model X y n (some fs) o calls = (.ok t', o2, c2) ∧ c1 = c2 ∧ (t.map FeatRow.f).Perm (t'.map FeatRow.f) ∧
      ∀ row ∈ t, ∀ row' ∈ t', row.f = row'.f → ∃ k, row'.val = .fin k ∧ CloseTo row.val k (11 * (n * (u * m))) := by
  obtain ⟨ks, o', nd, hks, e⟩ := runR_num (A := A) hR (scores_num hsc) hfs hne (n := n) calls sort
  obtain ⟨ks', nd', hks', e'⟩ := run_eq (sort := sort) hR hsc hfs hne hn calls
  refine ⟨_, _, _, _, _, _, e, e', rfl, ?_, ?_⟩
  · refine ((hsort _).1.map _).trans (List.Perm.trans ?_ ((hsort _).1.map _).symm)
    rw [List.map_map, List.map_map]
    simp only [Function.comp_def, List.map_id']
    exact (List.perm_ext_iff_of_nodup nd nd').2 fun f => by rw [hks, hks']
  · intro row hrow row' hrow' ef
    obtain ⟨f, hf, rfl⟩ := List.mem_map.1 ((hsort _).1.mem_iff.1 hrow)
    obtain ⟨f', hf', rfl⟩ := List.mem_map.1 ((hsort _).1.mem_iff.1 hrow')
    simp only at ef
    subst ef
    exact ⟨_, rfl, permValueR_close _ hnd hn h hsz ((hks _).1 hf)⟩

end Close

/-! ## C155 -/

section Ignored
omit [HasSqrt K] in
theorem sums_one {l : List (Num K)} {s : Num K} (h : SumsTo A l s) : ∀ {b : Num K}, l = [b] → s = b := by
  cases h with
  | nil => intro b e; cases e
  | one c => intro b e; cases e; rfl
  | add p h1 h2 n1 n2 =>
    intro b e
    subst e
    have := p.length_eq
    have a1 := List.length_pos_of_ne_nil n1
    have a2 := List.length_pos_of_ne_nil n2
    simp only [List.length_singleton, List.length_append] at this
    omega

omit [HasSqrt K] in
theorem mean_oneR (hA : A.Lawful) {x : K} (hr : A.rnd x = .fin x) : A.mean [.fin x] = .fin x := by
  unfold Arith.mean Arith.div
  rw [sums_one (hA.sums _) rfl]
  simp [Num.div, Num.ofNat, Arith.r, hr]

variable {sc : List (Row F V) → K} {u η B m : K}
variable {R : Rng G} {model : ModelObj F V (Num K)} {X : LFrame L F V} {y : Target L K} {fs : List F} {n : Nat}
    {sort : List (FeatRow F K) → List (FeatRow F K)} {o : PermObj G F K}

/-- **C155**, what holds: the permutation importance of a feature the model ignores is at most `11 n u` times the size of the score, and
exactly 0 if the score of the data is 0 or there is one repetition only. Missing: exactly 0 in general, which is refuted below. -/
theorem C155_ignored_partial {f : F} (hR : R.Lawful) (hsort : SortsBy FeatRow.val false sort)
    (hsc : Scores model o.metric y.values X.frame.rows.length sc) (hig : ModelIgnores model f) (hf : f ∈ fs) (hfs : ∀ f ∈ fs, f ∈ X.frame.cols)
    (hnd : fs.Nodup) (hn : 0 < n) (calls : List (List (Row F V))) :
    ∃ t o' c', PermObj.runR A sort R model X y n (some fs) o calls = (.ok t, o', c') ∧ (∃ row ∈ t, row.f = f) ∧
      (A.Suits u η B n |sc X.frame.rows| → ∀ row ∈ t, row.f = f → CloseTo row.val 0 (11 * (n * (u * |sc X.frame.rows|)))) ∧
      (A.Lawful → A.rnd 0 = .fin 0 → (sc X.frame.rows = 0 ∨ n = 1 ∧ A.rnd (sc X.frame.rows) = .fin (sc X.frame.rows)) →
        ∀ row ∈ t, row.f = f → row.val = .fin 0) := by
  have hne := List.ne_nil_of_mem hf
  obtain ⟨ks, o', nd, hks, e⟩ := runR_num (A := A) hR (scores_num hsc) hfs hne (n := n) calls sort
  have all : ∀ x ∈ turnScores sc X.frame (nthPerm R X.frame.rows.length o.rng) fs n f, x = sc X.frame.rows := by
    intro x hx
    obtain ⟨k, rfl⟩ := turnScores_mem hx
    exact scores_permuted_ignored hsc hig _
  have len := length_turnScores (fun rows => (.fin (sc rows) : Num K)) X.frame (nthPerm R X.frame.rows.length o.rng) hnd n hf
  rw [turnScores_fin, List.length_map] at len
  have hnn := turnScores_ne_nil (sc := sc) (X := X.frame) hn hf (nthPerm R X.frame.rows.length o.rng)
  refine ⟨_, _, _, e, ?_, ?_, ?_⟩
  · exact ⟨_, (hsort _).1.mem_iff.2 (List.mem_map.2 ⟨f, (hks f).2 hf, rfl⟩), rfl⟩
  · intro h row hrow ef
    obtain ⟨f', _, rfl⟩ := List.mem_map.1 ((hsort _).1.mem_iff.1 hrow)
    simp only at ef
    subst ef
    have := imp_close (M := o.metric) len hn h (fun x hx => by rw [all x hx]) le_rfl
    rw [average_of_all_eq hnn all, sub_self, mul_zero] at this
    simp only [permValueR, turnScores_fin]
    exact this
  · intro hA hz h0 row hrow ef
    obtain ⟨f', _, rfl⟩ := List.mem_map.1 ((hsort _).1.mem_iff.1 hrow)
    simp only at ef
    subst ef
    simp only [permValueR, turnScores_fin]
    rcases h0 with h0 | ⟨h1, hr⟩
    · rw [mean_zeroR hA hz (by simpa using hnn) (fun b hb => by
        obtain ⟨x, hx, rfl⟩ := List.mem_map.1 hb
        rw [all x hx, h0]), h0, sub_selfR hz, negIfClass_fin, mul_zero]
    · subst h1
      obtain ⟨x, ex⟩ := List.length_eq_one_iff.1 len
      have hx := all x (by rw [ex]; exact List.mem_cons_self)
      rw [ex, hx, List.map_cons, List.map_nil, mean_oneR hA hr, sub_selfR hz, negIfClass_fin, mul_zero]

end Ignored
end Sejong

/-! ## C156 -/

section Perfect
variable {F V K G L : Type} [DecidableEq F] [DecidableEq L] [Field K] [LinearOrder K] [IsStrictOrderedRing K] [HasSqrt K] {A : Arith K}
variable {R : Rng G} {model : ModelObj F V (Num K)} {X : LFrame L F V} {y : Target L K} {fs : List F} {n : Nat}
    {sort : List (FeatRow F K) → List (FeatRow F K)} {o : PermObj G F K}

section helpers

/-- a number between 0 and `k` -/
def Between (a : Num K) (k : K) : Prop := ∃ x, a = .fin x ∧ 0 ≤ x ∧ x ≤ k

theorem rnd_between (hA : A.Lawful) {N : Nat} (hW : A.Whole N) {k : Nat} (hk : k ≤ N) {x : K} (h0 : 0 ≤ x) (h1 : x ≤ k) :
    Between (A.rnd x) (k : K) := by
  rcases hW.le k hk x h1 with e | ⟨y, hy, e⟩
  · rcases hA.rnd_nonneg x h0 with e' | ⟨y', e', _⟩ <;> rw [e] at e' <;> cases e'
  · rcases hA.rnd_nonneg x h0 with e' | ⟨y', e', h⟩ <;> rw [e] at e' <;> cases e'
    exact ⟨y, e, h, hy⟩

theorem sums_between (hA : A.Lawful) {N : Nat} (hW : A.Whole N) {l : List (Num K)} {s : Num K} (h : SumsTo A l s) :
    l.length ≤ N → (∀ a ∈ l, Between a (1 : K)) → Between s (l.length : K) := by
  induction h with
  | nil => intro _ _; exact ⟨0, rfl, le_rfl, by simp⟩
  | one a => intro _ h; simpa using h a List.mem_cons_self
  | @add l l1 l2 a b p h1 h2 n1 n2 ih1 ih2 =>
    intro hl h
    have hlen : l.length = l1.length + l2.length := by rw [p.length_eq, List.length_append]
    obtain ⟨x, rfl, x0, x1⟩ := ih1 (by omega) fun a ha => h a (p.mem_iff.2 (List.mem_append_left _ ha))
    obtain ⟨z, rfl, z0, z1⟩ := ih2 (by omega) fun a ha => h a (p.mem_iff.2 (List.mem_append_right _ ha))
    exact rnd_between hA hW hl (add_nonneg x0 z0) (by rw [hlen]; push_cast; linarith)

theorem mean_between (hA : A.Lawful) {N : Nat} (hW : A.Whole N) {l : List (Num K)} (hne : l ≠ []) (hl : l.length ≤ N)
    (h : ∀ a ∈ l, Between a (1 : K)) : Between (A.mean l) (1 : K) := by
  obtain ⟨x, e, x0, x1⟩ := sums_between hA hW (hA.sums l) hl h
  have hp := List.length_pos_of_ne_nil hne
  have hn : (0 : K) < l.length := by exact_mod_cast hp
  unfold Arith.mean Arith.div
  rw [e, show Num.div (.fin x) (Num.ofNat l.length) = (.fin (x / l.length) : Num K) from if_neg hn.ne']
  have := rnd_between hA hW (k := 1) (x := x / l.length) (by omega) (div_nonneg x0 hn.le) (by rw [Nat.cast_one, div_le_one hn]; exact x1)
  rwa [Nat.cast_one] at this

theorem sums_ones {N : Nat} (hW : A.Whole N) {l : List (Num K)} {s : Num K} (h : SumsTo A l s) :
    l.length ≤ N → (∀ a ∈ l, a = .fin 1) → s = .fin (l.length : K) := by
  induction h with
  | nil => intro _ _; simp
  | one a => intro _ h; simpa using h a List.mem_cons_self
  | @add l l1 l2 a b p h1 h2 n1 n2 ih1 ih2 =>
    intro hl h
    have hlen : l.length = l1.length + l2.length := by rw [p.length_eq, List.length_append]
    rw [ih1 (by omega) fun a ha => h a (p.mem_iff.2 (List.mem_append_left _ ha)),
      ih2 (by omega) fun a ha => h a (p.mem_iff.2 (List.mem_append_right _ ha))]
    have := hW.exact l.length hl
    rw [hlen] at this ⊢
    push_cast at this ⊢
    exact this

theorem mean_ones (hA : A.Lawful) {N : Nat} (hW : A.Whole N) {l : List (Num K)} (hne : l ≠ []) (hl : l.length ≤ N)
    (h : ∀ a ∈ l, a = .fin 1) : A.mean l = .fin 1 := by
  have hp := List.length_pos_of_ne_nil hne
  have hn : (l.length : K) ≠ 0 := by exact_mod_cast hp.ne'
  unfold Arith.mean Arith.div
  rw [sums_ones hW (hA.sums l) hl h,
    show Num.div (.fin (l.length : K)) (Num.ofNat l.length) = (.fin ((l.length : K) / l.length) : Num K) from if_neg hn, div_self hn]
  have := hW.exact 1 (by omega)
  rwa [Nat.cast_one] at this

/-- the metric's value for the predictions `h` -/
def metricValue (M : Metric K) (t h : List (Num K)) : Num K := (M.calculate t h).toOption.getD .nan

theorem elementwise_eq_length (φ : Num K → Num K → Num K) {t h : List (Num K)} (e : t.length = h.length) :
    elementwise φ t h = .ok (List.zipWith φ t h) := by
  unfold elementwise
  rw [if_pos e]

theorem mem_zipWith {φ : Num K → Num K → Num K} {t h : List (Num K)} {a : Num K} (ha : a ∈ List.zipWith φ t h) :
    ∃ x ∈ t, ∃ z ∈ h, a = φ x z := by
  induction t generalizing h with
  | nil => simp at ha
  | cons b t ih =>
    cases h with
    | nil => simp at ha
    | cons c h =>
      simp only [List.zipWith_cons_cons, List.mem_cons] at ha
      rcases ha with rfl | ha
      · exact ⟨b, List.mem_cons_self, c, List.mem_cons_self, rfl⟩
      · obtain ⟨x, hx, z, hz, e⟩ := ih ha
        exact ⟨x, List.mem_cons_of_mem _ hx, z, List.mem_cons_of_mem _ hz, e⟩

theorem mem_zipWith_self {φ : Num K → Num K → Num K} {t : List (Num K)} {a : Num K} (ha : a ∈ List.zipWith φ t t) : ∃ x ∈ t, a = φ x x := by
  induction t with
  | nil => simp at ha
  | cons b t ih =>
    simp only [List.zipWith_cons_cons, List.mem_cons] at ha
    rcases ha with rfl | ha
    · exact ⟨b, List.mem_cons_self, rfl⟩
    · obtain ⟨x, hx, e⟩ := ih ha
      exact ⟨x, List.mem_cons_of_mem _ hx, e⟩

theorem zipWith_ne_nil {φ : Num K → Num K → Num K} {t h : List (Num K)} (e : t.length = h.length) (ht : t ≠ []) : List.zipWith φ t h ≠ [] := by
  intro he
  have := congrArg List.length he
  rw [List.length_zipWith, ← e, Nat.min_self] at this
  exact ht (List.length_eq_zero_iff.1 this)

theorem sq_zeroR (hz : A.rnd 0 = .fin 0) : A.sq (.fin 0) = .fin 0 := by simp [Arith.sq, Num.sq, Num.mul, Arith.r, hz]

theorem mseMR_perfect (hA : A.Lawful) (hz : A.rnd 0 = .fin 0) {ts : List K} (hts : ts ≠ []) :
    (mseMR A).calculate (ts.map Num.fin) (ts.map Num.fin) = .ok (.fin 0) := by
  unfold mseMR
  simp only [elementwise_eq_length _ rfl, bind, Except.bind]
  rw [mean_zeroR hA hz (zipWith_ne_nil rfl (by simpa using hts))]
  intro a ha
  obtain ⟨x, hx, rfl⟩ := mem_zipWith_self ha
  obtain ⟨x, _, rfl⟩ := List.mem_map.1 hx
  rw [sub_selfR hz, sq_zeroR hz]

theorem mseMR_nonneg (hA : A.Lawful) {t h : List (Num K)} (e : t.length = h.length) :
    ∃ v, (mseMR A).calculate t h = .ok v ∧ NaNOrNonneg v := by
  unfold mseMR
  simp only [elementwise_eq_length _ e, bind, Except.bind]
  refine ⟨_, rfl, mean_nonnegR hA fun a ha => ?_⟩
  obtain ⟨x, _, z, _, rfl⟩ := mem_zipWith ha
  exact sq_nonnegR hA _

theorem negIfClass_false {M : Metric K} (h : M.isClass = false) (a : Num K) : negIfClass M a = a := by simp [negIfClass, h]
theorem negIfClass_true {M : Metric K} (h : M.isClass = true) (a : Num K) : negIfClass M a = Num.neg a := by simp [negIfClass, h]

end helpers

/-- accuracy in floating-point arithmetic lies between 0 and 1 -/
theorem accuracyMR_scores (hA : A.Lawful) {N : Nat} (hW : A.Whole N) {P : List (Row F V) → List K} (hP : Predicts model P) {t : List (Num K)} {len : Nat}
    (hl : t.length = len) (h0 : 0 < len) (hN : len ≤ N) : ∃ sc, Scores model (accuracyMR A) t len sc ∧ ∀ rows, rows.length = len → |sc rows| ≤ 1 := by
  obtain ⟨p, hp, h⟩ := hP
  have hv : ∀ rows : List (Row F V), rows.length = len → ∃ x, (accuracyMR A).calculate t ((P rows).map Num.fin) = .ok (.fin x) ∧ |x| ≤ 1 := by
    intro rows hr
    have e : t.length = ((P rows).map Num.fin).length := by rw [List.length_map, (h 0 _).2, hl, hr]
    unfold accuracyMR
    simp only [elementwise_eq_length _ e, bind, Except.bind]
    obtain ⟨x, e1, x0, x1⟩ := mean_between hA hW (l := List.zipWith (fun t h => if Num.eqv t h then Num.fin 1 else Num.fin 0) t ((P rows).map Num.fin))
      (zipWith_ne_nil e (List.ne_nil_of_length_pos (by omega))) (by rw [List.length_zipWith, ← e, Nat.min_self, hl]; exact hN) (fun a ha => by
        obtain ⟨x, _, z, _, rfl⟩ := mem_zipWith ha
        split
        · exact ⟨1, rfl, zero_le_one, le_rfl⟩
        · exact ⟨0, rfl, le_rfl, zero_le_one⟩)
    exact ⟨x, by rw [e1], abs_le.2 ⟨by linarith, x1⟩⟩
  classical
  refine ⟨fun rows => if hr : rows.length = len then (hv rows hr).choose else 0, ⟨p, hp, fun k rows hr => ⟨_, (h k rows).1, ?_⟩⟩, fun rows hr => ?_⟩
  · beta_reduce; rw [dif_pos hr]; exact (hv rows hr).choose_spec.1
  · beta_reduce; rw [dif_pos hr]; exact (hv rows hr).choose_spec.2

/-- **C156.** If the predictions for the data are exactly the targets then no permutation importance is negative in floating-point
arithmetic either (MSE, RMSE, Accuracy; for Accuracy the numbers of rows and repetitions must be represented exactly). An importance can be
NaN or infinite, because squared errors can overflow. -/
theorem C156_perfect_model [LawfulSqrt K] (hA : A.Lawful) (hz : A.rnd 0 = .fin 0) {N : Nat} (hW : A.Whole N) (hR : R.Lawful)
    (hsort : SortsBy FeatRow.val false sort)
    (hM : o.metric = mseMR A ∨ o.metric = rmseMR A ∨ o.metric = accuracyMR A ∧ X.frame.rows.length ≤ N ∧ n ≤ N)
    {P : List (Row F V) → List K} (hP : Predicts model P) (hy : y.values = (P X.frame.rows).map Num.fin)
    (hX : X.frame.rows ≠ []) (hfs : ∀ f ∈ fs, f ∈ X.frame.cols) (hnd : fs.Nodup) (hne : fs ≠ []) (hn : 0 < n)
    (calls : List (List (Row F V))) :
    ∃ t o' c', PermObj.runR A sort R model X y n (some fs) o calls = (.ok t, o', c') ∧ (∀ f, f ∈ t.map FeatRow.f ↔ f ∈ fs) ∧
      ∀ row ∈ t, row.val = .nan ∨ Num.le (.fin 0) row.val = true := by
  obtain ⟨p, hp, h⟩ := hP
  have hlen : ∀ rows : List (Row F V), rows.length = X.frame.rows.length → y.values.length = ((P rows).map Num.fin).length := by
    intro rows hl
    rw [hy, List.length_map, List.length_map, (h 0 _).2, (h 0 _).2, hl]
  have hyne : y.values ≠ [] := by
    intro e
    have := hlen _ rfl
    rw [e, List.length_map, (h 0 _).2] at this
    exact hX (List.length_eq_zero_iff.1 this.symm)
  have hPne : P X.frame.rows ≠ [] := by
    intro e
    rw [e] at hy
    exact hyne hy
  -- scores
  have key : ∃ sc : List (Row F V) → Num K, ScoresNum model o.metric y.values X.frame.rows.length sc ∧
      ∀ perm f, f ∈ fs → NaNOrNonneg (permValueR A o.metric sc X.frame perm fs n f) := by
    have tm : ∀ (sc : List (Row F V) → Num K) perm f a, a ∈ turnScores sc X.frame perm fs n f →
        ∃ rows, rows.length = X.frame.rows.length ∧ a = sc rows := by
      intro sc perm f a ha
      simp only [turnScores, List.mem_map, List.mem_filter, List.mem_mapIdx] at ha
      obtain ⟨e, ⟨⟨k, hk, rfl⟩, hf⟩, rfl⟩ := ha
      exact ⟨_, length_permuted _ _ _, rfl⟩
    have reg : o.metric.isClass = false → (∀ t h : List (Num K), t.length = h.length → ∃ v, o.metric.calculate t h = .ok v ∧ NaNOrNonneg v) →
        o.metric.calculate ((P X.frame.rows).map Num.fin) ((P X.frame.rows).map Num.fin) = .ok (.fin 0) →
        ∃ sc : List (Row F V) → Num K, ScoresNum model o.metric y.values X.frame.rows.length sc ∧
          ∀ perm f, f ∈ fs → NaNOrNonneg (permValueR A o.metric sc X.frame perm fs n f) := by
      intro hc hv h0
      refine ⟨fun rows => metricValue o.metric y.values ((P rows).map Num.fin), ⟨p, hp, fun k rows hl => ?_⟩, fun perm f hf => ?_⟩
      · obtain ⟨v, e, _⟩ := hv _ _ (hlen rows hl)
        exact ⟨_, (h k rows).1, by simp only [metricValue, e]; rfl⟩
      · unfold permValueR
        rw [negIfClass_false hc]
        have eb : metricValue o.metric y.values ((P X.frame.rows).map Num.fin) = .fin 0 := by
          simp only [metricValue, hy, h0]; rfl
        beta_reduce
        rw [eb]
        have hm := mean_nonnegR hA (l := turnScores (fun rows => metricValue o.metric y.values ((P rows).map Num.fin)) X.frame perm fs n f)
          fun a ha => by
            obtain ⟨rows, hl, rfl⟩ := tm _ _ _ _ ha
            obtain ⟨v, e, hv'⟩ := hv _ _ (hlen rows hl)
            simp only [metricValue, e]
            exact hv'
        apply sub_nonnegR hA
        rcases hm with e | e
        · exact Or.inl e
        · exact Or.inr (Or.inr e)
    rcases hM with hM | hM | ⟨hM, hN, hnN⟩
    · refine reg (by rw [hM]; rfl) (fun t h e => by rw [hM]; exact mseMR_nonneg hA e) (by rw [hM]; exact mseMR_perfect hA hz hPne)
    · refine reg (by rw [hM]; rfl) (fun t h e => ?_) ?_
      · rw [hM]
        obtain ⟨v, e1, hv⟩ := mseMR_nonneg hA e
        exact ⟨A.sqrt v, by simp only [rmseMR, e1, bind, Except.bind], sqrt_nonnegR hA hv⟩
      · rw [hM]
        have s0 : HasSqrt.sqrt (0 : K) = 0 := mul_self_eq_zero.1 (LawfulSqrt.mul_self (0 : K) le_rfl)
        simp only [rmseMR, mseMR_perfect hA hz hPne, bind, Except.bind, Arith.sqrt, Num.sqrt, lt_irrefl, if_false, s0, Arith.r, hz]
    · have hv : ∀ rows : List (Row F V), rows.length = X.frame.rows.length → ∃ v, o.metric.calculate y.values ((P rows).map Num.fin) = .ok v ∧
          Between v (1 : K) := by
        intro rows hl
        rw [hM]
        unfold accuracyMR
        simp only [elementwise_eq_length _ (hlen rows hl), bind, Except.bind]
        refine ⟨_, rfl, mean_between hA hW (zipWith_ne_nil (hlen rows hl) hyne) ?_ fun a ha => ?_⟩
        · rw [List.length_zipWith, ← hlen rows hl, Nat.min_self, hlen _ rfl, List.length_map, (h 0 _).2]
          exact hN
        · obtain ⟨x, _, z, _, rfl⟩ := mem_zipWith ha
          split
          · exact ⟨1, rfl, zero_le_one, le_rfl⟩
          · exact ⟨0, rfl, le_rfl, zero_le_one⟩
      have h1 : o.metric.calculate y.values ((P X.frame.rows).map Num.fin) = .ok (.fin 1) := by
        rw [hM, hy]
        unfold accuracyMR
        simp only [elementwise_eq_length _ rfl, bind, Except.bind]
        rw [mean_ones hA hW (zipWith_ne_nil rfl (by simpa using hPne))]
        · rw [List.length_zipWith, Nat.min_self, List.length_map, (h 0 _).2]
          exact hN
        · intro a ha
          obtain ⟨x, hx, rfl⟩ := mem_zipWith_self ha
          obtain ⟨x, _, rfl⟩ := List.mem_map.1 hx
          simp [Num.eqv, Num.le]
      refine ⟨fun rows => metricValue o.metric y.values ((P rows).map Num.fin), ⟨p, hp, fun k rows hl => ?_⟩, fun perm f hf => ?_⟩
      · obtain ⟨v, e, _⟩ := hv rows hl
        exact ⟨_, (h k rows).1, by simp only [metricValue, e]; rfl⟩
      · unfold permValueR
        rw [negIfClass_true (by rw [hM]; rfl)]
        have eb : metricValue o.metric y.values ((P X.frame.rows).map Num.fin) = .fin 1 := by
          simp only [metricValue, h1]; rfl
        beta_reduce
        rw [eb]
        have hlt := length_turnScores (fun rows => metricValue o.metric y.values ((P rows).map Num.fin)) X.frame perm hnd n hf
        obtain ⟨x, e, x0, x1⟩ := mean_between hA hW
          (l := turnScores (fun rows => metricValue o.metric y.values ((P rows).map Num.fin)) X.frame perm fs n f)
          (List.ne_nil_of_length_pos (by omega)) (by omega) fun a ha => by
            obtain ⟨rows, hl, rfl⟩ := tm _ _ _ _ ha
            obtain ⟨v, e, hv'⟩ := hv rows hl
            simp only [metricValue, e]
            exact hv'
        rw [e]
        unfold Arith.sub
        rw [Num.sub_fin]
        have := hW.le 0 (Nat.zero_le _) (x - 1) (by rw [Nat.cast_zero]; linarith)
        rw [Nat.cast_zero] at this
        rcases this with e2 | ⟨z, hz', e2⟩
        · simp only [Arith.r, e2, Num.neg]; exact Or.inr Num.nonneg_pinf
        · simp only [Arith.r, e2, Num.neg]; exact naNOrNonneg_fin (by linarith)
  obtain ⟨sc, hsc, hv⟩ := key
  obtain ⟨ks, o', nd, hks, e⟩ := runR_num (A := A) hR hsc hfs hne (n := n) calls sort
  refine ⟨_, _, _, e, fun f => ?_, fun row hrow => ?_⟩
  · rw [((hsort _).1.map FeatRow.f).mem_iff, List.map_map]
    simpa [Function.comp_def] using hks f
  · obtain ⟨f, hf, rfl⟩ := List.mem_map.1 ((hsort _).1.mem_iff.1 hrow)
    exact hv _ f ((hks f).1 hf)

end Perfect

section Binary64
variable {K : Type} [Field K] [LinearOrder K] [IsStrictOrderedRing K] [FloorRing K]

theorem lastPlace_nonpos {x : K} {k : Nat} (hk : k < 2 ^ 53) (h0 : 0 < x) (hx : x ≤ k) : lastPlace x ≤ 0 := by
  have h2 : x < (2 : K) ^ (53 : ℤ) := by
    have : (k : K) < 2 ^ 53 := by exact_mod_cast hk
    rw [show ((2 : K) ^ (53 : ℤ)) = 2 ^ 53 by norm_cast]
    linarith
  have hlog : Int.log 2 |x| < 53 := by
    rw [abs_of_pos h0]
    exact (Int.lt_zpow_iff_log_lt (b := 2) (by norm_num) h0).1 (by exact_mod_cast h2)
  unfold lastPlace
  exact max_le (by omega) (by norm_num)

/-- Whole numbers below `2^53` in binary64. -/
theorem binary64_whole : (binary64 : Arith K).Whole (2 ^ 53 - 1) := by
  have pw : ∀ {x : K}, lastPlace x ≤ 0 → ∃ j : ℕ, (2 : K) ^ lastPlace x = 1 / 2 ^ j := by
    intro x hl
    obtain ⟨j, hj⟩ := Int.eq_ofNat_of_zero_le (show 0 ≤ -lastPlace x by omega)
    exact ⟨j, by rw [show lastPlace x = -(j : ℤ) by omega, zpow_neg, zpow_natCast, one_div]⟩
  have big : ∀ {k : Nat}, k ≤ 2 ^ 53 - 1 → (k : K) < 2 ^ 1024 := by
    intro k hk
    have h1 : (k : K) < 2 ^ 53 := by
      have : k < 2 ^ 53 := by omega
      exact_mod_cast this
    exact h1.trans (pow_lt_pow_right₀ one_lt_two (by norm_num))
  constructor
  · intro k hk
    show round64 (k : K) = .fin (k : K)
    rcases Nat.eq_zero_or_pos k with rfl | hp
    · simpa using round64_zero (K := K)
    have h0 : (0 : K) < k := by exact_mod_cast hp
    obtain ⟨j, e⟩ := pw (lastPlace_nonpos (x := (k : K)) (k := k) (by omega) h0 le_rfl)
    have pj : (0 : K) < 2 ^ j := pow_pos two_pos _
    have e2 : (k : K) / (2 : K) ^ lastPlace (k : K) = (((k : ℤ) * 2 ^ j : ℤ) : K) := by
      rw [e, div_div_eq_mul_div, div_one]
      push_cast
      rfl
    have e3 : roundEven ((k : K) / (2 : K) ^ lastPlace (k : K)) = (k : ℤ) * 2 ^ j := by
      rw [e2]
      generalize (k : ℤ) * 2 ^ j = z
      unfold roundEven
      simp
    have e4 : (roundEven ((k : K) / (2 : K) ^ lastPlace (k : K)) : K) * (2 : K) ^ lastPlace (k : K) = k := by
      rw [e3, e]
      push_cast
      rw [mul_one_div, mul_div_assoc, div_self pj.ne', mul_one]
    unfold round64
    simp only [e4]
    have hb := big hk
    rw [if_neg (not_le.2 hb), if_neg (not_le.2 (lt_trans (neg_lt_zero.2 (pow_pos two_pos _)) h0))]
  · intro k hk x hx
    have hp : (0 : K) < (2 : K) ^ lastPlace x := zpow_pos two_pos _
    have hy : (roundEven (x / (2 : K) ^ lastPlace x) : K) * (2 : K) ^ lastPlace x ≤ k := by
      by_cases h0 : x ≤ 0
      · have : (roundEven (x / (2 : K) ^ lastPlace x) : K) ≤ ((0 : ℤ) : K) :=
          Int.cast_le.2 (roundEven_le (by rw [Int.cast_zero]; exact div_nonpos_of_nonpos_of_nonneg h0 hp.le))
        rw [Int.cast_zero] at this
        exact (mul_nonpos_of_nonpos_of_nonneg this hp.le).trans (Nat.cast_nonneg _)
      · obtain ⟨j, e⟩ := pw (lastPlace_nonpos (x := x) (k := k) (by omega) (not_le.1 h0) hx)
        have pj : (0 : K) < 2 ^ j := pow_pos two_pos _
        have : (roundEven (x / (2 : K) ^ lastPlace x) : K) ≤ (((k : ℤ) * 2 ^ j : ℤ) : K) := Int.cast_le.2 (roundEven_le (by
          rw [e, div_div_eq_mul_div, div_one]
          push_cast
          exact mul_le_mul_of_nonneg_right hx pj.le))
        push_cast at this
        refine (mul_le_mul_of_nonneg_right this hp.le).trans (le_of_eq ?_)
        rw [e, mul_one_div, mul_div_assoc, div_self pj.ne', mul_one]
    show round64 x = .ninf ∨ ∃ y ≤ (k : K), round64 x = .fin y
    unfold round64
    simp only
    rw [if_neg (not_le.2 (hy.trans_lt (big hk)))]
    split_ifs
    · exact Or.inl rfl
    · exact Or.inr ⟨_, hy, rfl⟩

end Binary64

/-! ## Cases -/

section Cases
open Ex

/-- ten rows -/
def tenX : LFrame Nat (Fin 2) ℤ := ⟨List.range 10, ⟨[0, 1], (List.range 10).map fun i => ![(i % 2 : ℤ), (i : ℤ)]⟩⟩
/-- a classifier that returns the first column and ignores the second one -/
def firstM {K : Type} [Field K] : ModelObj (Fin 2) ℤ (Num K) where
  ident := 1
  predict := some (fun _ rows => .ok (rows.map (fun r => .fin ((r 0 : ℤ) : K))))
  predictProba := none
/-- it is right in eight of ten cases -/
def tenYs {K : Type} [Field K] : List K := [1, 0, 0, 1, 0, 1, 0, 1, 0, 1]
def tenY {K : Type} [Field K] : Target Nat K := .array (tenYs.map Num.fin)

theorem firstM_predicts {K : Type} [Field K] : Predicts (firstM (K := K)) (fun rows => rows.map (fun r => ((r 0 : ℤ) : K))) :=
  ⟨_, rfl, fun k rows => ⟨by simp [Function.comp_def], by simp⟩⟩

theorem firstM_ignores {K : Type} [Field K] : ModelIgnores (firstM (K := K)) 1 := by
  intro p hp k k' rows rows' h
  cases hp
  have : rows.map (fun r => (.fin ((r 0 : ℤ) : K) : Num K)) = rows'.map (fun r => .fin ((r 0 : ℤ) : K)) := by
    induction h with
    | nil => rfl
    | cons h1 _ ih => simp only [List.map_cons, ih, h1 0 (by decide)]
  simp only [this]

/-- the importances of a run in binary64 -/
def tenImp (n : Nat) (M : Metric ℚ) : Except Err (List (Fin 2 × Num ℚ)) :=
  (PermObj.runR (L := Nat) binary64 (stableSort FeatRow.val false) exRng firstM tenX tenY n (some [0, 1]) ⟨0, M, none⟩ []).1.map
    fun t => t.map fun r => (r.f, r.val)

set_option maxRecDepth 100000 in
/-- **C155 fails.** The classifier ignores column 1 and its accuracy is 0.8. With three repetitions the importance of column 1 is `-2^-53`,
with seven repetitions `2^-53`, with one repetition 0: the mean of equal scores is not that score. -/
theorem C155_fails : ModelIgnores (firstM (K := ℚ)) 1 ∧
    (accuracyMR binary64).calculate (tenY (K := ℚ)).values (tenX.frame.rows.map fun r => .fin (r 0 : ℚ)) = .ok (round64 (8 / 10)) ∧
    tenImp 3 (accuracyMR binary64) = .ok [(0, .fin (5404319552844595 / 2 ^ 53)), (1, .fin (-1 / 2 ^ 53))] ∧
    tenImp 7 (accuracyMR binary64) = .ok [(0, .fin (5404319552844596 / 2 ^ 53)), (1, .fin (1 / 2 ^ 53))] ∧
    tenImp 1 (accuracyMR binary64) = .ok [(0, .fin (5404319552844596 / 2 ^ 53)), (1, .fin 0)] :=
  ⟨firstM_ignores, by decide +kernel, by decide +kernel, by decide +kernel, by decide +kernel⟩

/-- the hypotheses of C153 and C154 hold for the example with accuracy in binary64 -/
theorem exPerfSetupR (g0 : Nat) : ∃ sc, PerfSetup (K := ℝ) exPerfEnv exSArgs (Sejong.new g0 (accuracyMR binary64)) exPerfX exPerfY g0 sc ∧
    ∀ gs p, |sc (permuted exPerfX.frame gs p)| ≤ 1 := by
  obtain ⟨sc, hsc, h⟩ := accuracyMR_scores binary64_lawful binary64_whole (exPredicts (K := ℝ)) (t := (exPerfY (K := ℝ)).values) (len := 3) rfl
    (by norm_num) (by norm_num)
  refine ⟨sc, ⟨exRng2_lawful, rfl, hsc, fun f h => h, ?_, ?_, by simp [exSArgs]⟩, fun gs p => h _ (length_permuted _ _ _)⟩
  · show [(0 : Fin 3), 1, 2].Nodup
    decide
  · show [(0 : Fin 3), 1, 2] ≠ []
    simp

theorem suits_two : (binary64 : Arith ℝ).Suits (1 / 2 ^ 53) (1 / 2 ^ 1075) (2 ^ 1023) ((2 : ℕ) : ℝ) 1 :=
  C143_binary64 (by norm_num) (by norm_num) (div_le_one_of_le₀ (one_le_pow₀ one_le_two) (pow_nonneg two_pos.le _))
    (one_le_pow₀ one_le_two)

example : ∃ s t, Sejong.fitR (K := ℝ) binary64 exPerfEnv exSArgs 5 (Sejong.new 0 (accuracyMR binary64)) = (.ok (), s) ∧ s.ovo = some t ∧
    (t.map fun r => (r.f1, r.f2)).Perm (combinations2 (exSArgs (K := ℝ)).feats) ∧
    (∀ row ∈ t, row.val = .nan ∨ Num.le (.fin 0) row.val = true) ∧
    t.Pairwise (fun r r' => r'.val = .nan ∨ Num.le r'.val r.val = true) := by
  obtain ⟨sc, hs, _⟩ := exPerfSetupR 0
  exact C153_nonneg_sorted binary64_lawful (sc := fun rows => .fin (sc rows))
    ⟨hs.lawful, hs.sampled, scores_num hs.scores, hs.feats_cols, hs.feats_nodup, hs.feats_ne, hs.repeats⟩ (sortsBy_stableSort _ _) 5

example : ∃ s t, Sejong.fitR (K := ℝ) binary64 exPerfEnv exSArgs 5 (Sejong.new 0 (accuracyMR binary64)) = (.ok (), s) ∧ s.ovo = some t ∧
    ∀ row ∈ t, ModelIgnores (exPerfModel (K := ℝ)) row.f1 → ModelIgnores (exPerfModel (K := ℝ)) row.f2 → row.val = .fin 0 := by
  obtain ⟨sc, hs, _⟩ := exPerfSetupR 0
  exact C153_both_ignored_zero binary64_lawful round64_zero (sc := fun rows => .fin (sc rows))
    ⟨hs.lawful, hs.sampled, scores_num hs.scores, hs.feats_cols, hs.feats_nodup, hs.feats_ne, hs.repeats⟩ rfl (sortsBy_stableSort _ _) 5

/-- C154 with two repetitions and accuracy: every pair is within `108 · 2^-53` -/
example : ∃ s t s' t', Sejong.fitR (K := ℝ) binary64 exPerfEnv exSArgs 5 (Sejong.new 0 (accuracyMR binary64)) = (.ok (), s) ∧ s.ovo = some t ∧
    Sejong.fit exPerfEnv exSArgs 5 (Sejong.new 0 (accuracyMR binary64)) = (.ok (), s') ∧ s'.ovo = some t' ∧
    ∀ row ∈ t, ∃ k, (⟨row.f1, row.f2, .fin k⟩ : OvoRow (Fin 3) ℝ) ∈ t' ∧ CloseTo row.val k (54 * (((2 : ℕ) : ℝ) * (1 / 2 ^ 53 * 1))) := by
  obtain ⟨sc, hs, hb⟩ := exPerfSetupR 0
  obtain ⟨s, t, s', t', h1, h2, h3, h4, _, h5, _⟩ := C154_pairs_close_to_exact hs suits_two hb (sortsBy_stableSort _ _) 5
  exact ⟨s, t, s', t', h1, h2, h3, h4, h5⟩

/-- C154 and C155 for the importances of the example: the ignored feature 2 -/
example : ∃ t o1 c1, PermObj.runR (L := Nat) binary64 (stableSort FeatRow.val false) exRng exPerfModel exPerfX exPerfY 2 (some [2, 0, 1])
    (⟨0, accuracyMR binary64, none⟩ : PermObj Nat (Fin 3) ℝ) [] = (.ok t, o1, c1) ∧ ∃ row ∈ t, row.f = 2 := by
  obtain ⟨sc, hs, hb⟩ := exPerfSetupR 0
  obtain ⟨t, o1, c1, _, _, _, e, _⟩ := C154_importance_close_to_exact (A := binary64) (R := exRng) (model := exPerfModel) (X := exPerfX) (y := exPerfY)
    (fs := [2, 0, 1]) (n := 2) (o := (⟨0, accuracyMR binary64, none⟩ : PermObj Nat (Fin 3) ℝ)) exRng_lawful (sortsBy_stableSort _ _) hs.scores
    (by simp [exPerfX]) (by simp) (by simp) (by norm_num) suits_two hb []
  obtain ⟨t', o', c', e', h, _, _⟩ := C155_ignored_partial (A := binary64) (R := exRng) (model := exPerfModel) (X := exPerfX) (y := exPerfY)
    (fs := [2, 0, 1]) (n := 2) (f := 2) (o := (⟨0, accuracyMR binary64, none⟩ : PermObj Nat (Fin 3) ℝ)) (u := 1 / 2 ^ 53) (η := 1 / 2 ^ 1075)
    (B := 2 ^ 1023) exRng_lawful (sortsBy_stableSort _ _) hs.scores exIgnores (by simp) (by simp [exPerfX]) (by simp) (by norm_num) []
  rw [e] at e'
  cases e'
  exact ⟨t, _, _, e, h⟩

/-- C156 with RMSE and with accuracy -/
example : ∃ t o' c', PermObj.runR (L := Nat) binary64 (stableSort FeatRow.val false) exRng exPerfModel exPerfX exPerfY 2
    (some [2, 0, 1]) (⟨0, rmseMR binary64, none⟩ : PermObj Nat (Fin 3) ℝ) [] = (.ok t, o', c') ∧ (∀ f, f ∈ t.map FeatRow.f ↔ f ∈ [2, 0, 1]) ∧
      ∀ row ∈ t, row.val = .nan ∨ Num.le (.fin 0) row.val = true :=
  C156_perfect_model (K := ℝ) binary64_lawful round64_zero binary64_whole exRng_lawful (sortsBy_stableSort _ _) (Or.inr (Or.inl rfl)) exPredicts
    (by simp [exPerfY, Target.values, exPerfX]; norm_num) (by simp [exPerfX]) (by simp [exPerfX]) (by simp) (by simp) (by norm_num) []
example : ∃ t o' c', PermObj.runR (L := Nat) binary64 (stableSort FeatRow.val false) exRng exPerfModel exPerfX exPerfY 2
    (some [2, 0, 1]) (⟨0, accuracyMR binary64, none⟩ : PermObj Nat (Fin 3) ℝ) [] = (.ok t, o', c') ∧ (∀ f, f ∈ t.map FeatRow.f ↔ f ∈ [2, 0, 1]) ∧
      ∀ row ∈ t, row.val = .nan ∨ Num.le (.fin 0) row.val = true :=
  C156_perfect_model (K := ℝ) binary64_lawful round64_zero binary64_whole exRng_lawful (sortsBy_stableSort _ _)
    (Or.inr (Or.inr ⟨rfl, by simp [exPerfX], by norm_num⟩)) exPredicts
    (by simp [exPerfY, Target.values, exPerfX]; norm_num) (by simp [exPerfX]) (by simp [exPerfX]) (by simp) (by simp) (by norm_num) []

set_option maxRecDepth 100000 in
/-- a value of one pair with MSE in binary64: one unit in the last place below `80 / 3` rounded -/
example : ((Sejong.fitR (K := ℚ) binary64 exPerfEnv { exSArgs with features := some [0, 1], nRepeat := 1 } 5
    (Sejong.new 1 (mseMR binary64))).2.ovo.map (fun t => t.map (fun r => (r.f1, r.f2, r.val)))) =
    some [((0 : Fin 3), (1 : Fin 3), .fin (7505999378950826 / 2 ^ 48))] ∧
    (round64 (80 / 3) : Num ℚ) = .fin (7505999378950827 / 2 ^ 48) := by decide +kernel

end Cases
end Artemis
