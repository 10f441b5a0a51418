import Verif.Props.PermImp
import Verif.Props.HStat

/-!
# Properties C24–C28 (and C13 for Sejong Oh's method)

`entropy` is the state of the generator created from operating system entropy inside `fit`. `sc rows` is the metric's
value of the model's predictions for `rows` against the (sampled) targets.
-/

set_option linter.unusedSectionVars false
set_option linter.unusedVariables false
set_option linter.unusedSimpArgs false

namespace Artemis
open Spec

variable {F V K G L : Type} [DecidableEq F] [DecidableEq L] [Field K] [LinearOrder K] [IsStrictOrderedRing K]
  [HasSqrt K]
variable {E : PerfEnv G L F K} {a : SejongArgs L F V K} {s0 : Sejong G L F V K} {Xs : LFrame L F V} {ys : Target L K}
  {sc : List (Row F V) → K} {g : G} {entropy : G}

/-- the requested features: all columns if none were listed -/
def SejongArgs.feats (a : SejongArgs L F V K) : List F := a.features.getD a.X.frame.cols

/-- Setting of the theorems: NumPy's guarantees about permutations, sampling gave `Xs`, `ys` and left the generator at
`g`, scoring gives numbers, the requested features are distinct columns (at least one), at least one repetition. -/
structure PerfSetup (E : PerfEnv G L F K) (a : SejongArgs L F V K) (s0 : Sejong G L F V K) (Xs : LFrame L F V)
    (ys : Target L K) (g : G) (sc : List (Row F V) → K) : Prop where
  lawful : E.R.Lawful
  sampled : sampleBoth E.R E.toInt a.X a.y a.n s0.rng = (.ok (Xs, ys), g)
  scores : Scores a.model s0.metric ys.values Xs.frame.rows.length sc
  feats_cols : ∀ f ∈ a.feats, f ∈ a.X.frame.cols
  feats_nodup : a.feats.Nodup
  feats_ne : a.feats ≠ []
  repeats : 0 < a.nRepeat

section helpers

theorem sampleBoth_cols {R : Rng G} {toInt : L → Option Int} {X : LFrame L F V} {y : Target L K} {n : Option Nat}
    {g0 : G} (h : sampleBoth R toInt X y n g0 = (.ok (Xs, ys), g)) : Xs.frame.cols = X.frame.cols := by
  unfold sampleBoth at h
  cases n with
  | none => simp only [Prod.mk.injEq, Except.ok.injEq] at h; rw [← h.1.1]
  | some k =>
    simp only [sampleIfNotNone] at h
    split at h
    · cases h
    · next Xs' g' e =>
      split at e
      · cases e
      · split at h
        · cases h
        · cases h
          cases e
          rfl

theorem pairs_ok (hs : PerfSetup E a s0 Xs ys g sc) :
    ∀ pr ∈ combinations2 a.feats, pr.1 ∈ Xs.frame.cols ∧ pr.2 ∈ Xs.frame.cols ∧ pr.1 ≠ pr.2 := by
  intro pr hpr
  have hm := mem_combinations2 hpr
  rw [sampleBoth_cols hs.sampled]
  exact ⟨hs.feats_cols _ hm.1, hs.feats_cols _ hm.2, ne_of_mem_combinations2 hs.feats_nodup hpr⟩

/-- the unsorted table -/
def perfTable (sc : List (Row F V) → K) (X : Frame F V) (perm : Nat → List Nat) (n : Nat) (pairs : List (F × F)) :
    List (OvoRow F K) :=
  pairs.mapIdx fun i pr => ⟨pr.1, pr.2, .fin (pairValue sc X perm n i pr)⟩

theorem sejong_fit_eq (hs : PerfSetup E a s0 Xs ys g sc) (entropy : G) :
    ∃ imp, Sejong.fit E a entropy s0 = (.ok (),
      { rng := permAfter E.R Xs.frame.rows.length g (3 * (a.nRepeat * (combinations2 a.feats).length))
        metric := s0.metric
        xSampled := some Xs
        ySampled := some ys
        features := some a.feats
        pairs := some (combinations2 a.feats)
        ovo := some (E.sortOvo (perfTable sc Xs.frame (nthPerm E.R Xs.frame.rows.length g) a.nRepeat
          (combinations2 a.feats)))
        importance := some imp
        impObj := true
        calls := s0.calls ++ [Xs.frame.rows] ++
          pairFrames Xs.frame (nthPerm E.R Xs.frame.rows.length g) a.nRepeat (combinations2 a.feats) ++
          [Xs.frame.rows] ++ turnFrames Xs.frame (nthPerm E.R Xs.frame.rows.length entropy) a.feats a.nRepeat }) := by
  have h1 := perfOvo_eq hs.lawful hs.scores (pairs_ok hs) hs.repeats g s0.calls E.sortOvo
  have hcols := sampleBoth_cols hs.sampled
  obtain ⟨ks, h2, h3, h4⟩ := run_eq (sort := E.sortFeat) (o := ⟨entropy, s0.metric, none⟩) (X := Xs) (y := ys)
    hs.lawful hs.scores (fs := a.feats) (fun f hf => by rw [hcols]; exact hs.feats_cols f hf) hs.feats_ne hs.repeats
    (s0.calls ++ [Xs.frame.rows] ++
          pairFrames Xs.frame (nthPerm E.R Xs.frame.rows.length g) a.nRepeat (combinations2 a.feats))
  have hf : allIfNone a.X.frame.cols a.features = a.feats := rfl
  unfold Sejong.fit
  simp only [hs.sampled, hf, h1, h4]
  exact ⟨_, rfl⟩

theorem average_nonneg {l : List K} (h : ∀ x ∈ l, 0 ≤ x) : 0 ≤ average l :=
  div_nonneg (List.sum_nonneg h) (Nat.cast_nonneg _)

theorem pairValue_nonneg (X : Frame F V) (perm : Nat → List Nat) (n i : Nat) (pr : F × F) :
    0 ≤ pairValue sc X perm n i pr := by
  apply average_nonneg
  intro x hx
  obtain ⟨j, _, rfl⟩ := List.mem_map.1 hx
  exact abs_nonneg _

theorem mem_perfTable {X : Frame F V} {perm : Nat → List Nat} {n : Nat} {pairs : List (F × F)} {row : OvoRow F K}
    (h : row ∈ perfTable sc X perm n pairs) :
    ∃ i pr, pairs[i]? = some pr ∧ row = ⟨pr.1, pr.2, .fin (pairValue sc X perm n i pr)⟩ := by
  simp only [perfTable, List.mem_mapIdx] at h
  obtain ⟨i, hi, rfl⟩ := h
  exact ⟨i, pairs[i], List.getElem?_eq_getElem hi, rfl⟩

/-- a generator-independent fact: permuting an ignored column together with another one -/
theorem scores_joint_ignored {M : Metric K} {yv : List (Num K)} {model : ModelObj F V (Num K)} {Z : Frame F V}
    (hsc : Scores model M yv Z.rows.length sc) {f f' : F} (hig : ModelIgnores model f) (p : List Nat) :
    sc (permuted Z [f, f'] p) = sc (permuted Z [f'] p) ∧ sc (permuted Z [f', f] p) = sc (permuted Z [f'] p) := by
  constructor
  · apply scores_ignored hsc hig (length_permuted Z _ p)
    rw [List.forall₂_iff_get]
    refine ⟨by simp [length_permuted], ?_⟩
    intro i h1 h2 x hx
    simp [permuted, hx]
  · apply scores_ignored hsc hig (length_permuted Z _ p)
    rw [List.forall₂_iff_get]
    refine ⟨by simp [length_permuted], ?_⟩
    intro i h1 h2 x hx
    simp [permuted, hx]

end helpers

/-! ## C24 -/

/-- **C24.** `fit` succeeds; its table is a rearrangement of one row per pair, the value of the `i`-th pair `(f, g)` being
the mean over the repetitions `j` of `|sc(f, g permuted) - sc(f permuted) - sc(g permuted) + sc(data)|`, with permutations
number `3(n·i + j)`, `+1`, `+2` of the method's generator — whether the metric is one for classification or regression.
All values are numbers ≥ 0, in non-increasing order. -/
theorem C24_mean_absolute_nonadditive_change (hs : PerfSetup E a s0 Xs ys g sc)
    (hsort : SortsBy (fun r : OvoRow F K => r.val.abs) false E.sortOvo) (entropy : G) :
    ∃ s t, Sejong.fit E a entropy s0 = (.ok (), s) ∧ s.ovo = some t ∧
      t.Perm ((combinations2 a.feats).mapIdx fun i pr => ⟨pr.1, pr.2, .fin (average
        ((List.range a.nRepeat).map fun j =>
          let p := nthPerm E.R Xs.frame.rows.length g
          let k := 3 * (a.nRepeat * i + j)
          |sc (permuted Xs.frame [pr.1, pr.2] (p (k + 2))) - sc (permuted Xs.frame [pr.1] (p k))
            - sc (permuted Xs.frame [pr.2] (p (k + 1))) + sc Xs.frame.rows|))⟩) ∧
      (∀ row ∈ t, ∃ x : K, row.val = .fin x ∧ 0 ≤ x) ∧
      t.Pairwise (fun r r' => Num.le r'.val r.val = true) := by
  obtain ⟨imp, h⟩ := sejong_fit_eq hs entropy
  have hnn : ∀ row ∈ E.sortOvo (perfTable sc Xs.frame (nthPerm E.R Xs.frame.rows.length g) a.nRepeat
      (combinations2 a.feats)), ∃ x : K, row.val = .fin x ∧ 0 ≤ x := by
    intro row hrow
    obtain ⟨i, pr, _, rfl⟩ := mem_perfTable ((hsort _).1.mem_iff.1 hrow)
    exact ⟨_, rfl, pairValue_nonneg _ _ _ _ _⟩
  refine ⟨_, _, h, rfl, (hsort _).1, hnn, ?_⟩
  refine (hsort _).2.imp_of_mem ?_
  intro r r' hr hr' hle
  obtain ⟨x, hx, hx0⟩ := hnn r hr
  obtain ⟨x', hx', hx0'⟩ := hnn r' hr'
  simpa [Num.keyLE, hx, hx', abs_of_nonneg hx0, abs_of_nonneg hx0'] using hle

/-! ## C13 for this method -/

/-- **C13.** One row per unordered pair of requested features, `n(n-1)/2` rows, no other row. -/
theorem C13_sejong_one_row_per_pair (hs : PerfSetup E a s0 Xs ys g sc)
    (hsort : SortsBy (fun r : OvoRow F K => r.val.abs) false E.sortOvo) (entropy : G) :
    let fs := a.features.getD a.X.frame.cols
    ∃ s tbl, Sejong.fit E a entropy s0 = (.ok (), s) ∧ s.ovo = some tbl ∧
      tbl.length = fs.length * (fs.length - 1) / 2 ∧
      (∀ f ∈ fs, ∀ f' ∈ fs, f ≠ f' → tbl.countP (fun r => decide (r.isPair f f')) = 1) ∧
      (∀ row ∈ tbl, row.f1 ∈ fs ∧ row.f2 ∈ fs ∧ row.f1 ≠ row.f2) := by
  intro fs
  obtain ⟨imp, h⟩ := sejong_fit_eq hs entropy
  have hp := (hsort (perfTable sc Xs.frame (nthPerm E.R Xs.frame.rows.length g) a.nRepeat (combinations2 a.feats))).1
  refine ⟨_, _, h, rfl, ?_, ?_, ?_⟩
  · rw [hp.length_eq]
    simp only [perfTable, List.length_mapIdx]
    exact length_combinations2 fs
  · intro f hf f' hf' hne
    rw [hp.countP_eq]
    have hc := countP_combinations2 hs.feats_nodup hf hf' hne
    rw [← hc]
    have : combinations2 a.feats = (perfTable sc Xs.frame (nthPerm E.R Xs.frame.rows.length g) a.nRepeat
        (combinations2 a.feats)).map (fun r => (r.f1, r.f2)) := by
      apply List.ext_getElem? 
      intro i
      simp only [perfTable, List.getElem?_map, List.getElem?_mapIdx, Option.map_map]
      cases (combinations2 a.feats)[i]? <;> rfl
    conv_rhs => rw [this]
    rw [List.countP_map]
    rfl
  · intro row hrow
    obtain ⟨i, pr, hi, rfl⟩ := mem_perfTable (hp.mem_iff.1 hrow)
    have hmem := List.mem_of_getElem? hi
    have hm := mem_combinations2 hmem
    exact ⟨hm.1, hm.2, ne_of_mem_combinations2 hs.feats_nodup hmem⟩

/-! ## C25 -/

/-- **C25.** The frames scored by `fit`: the data, then (pair by pair, repetition by repetition) the data with `f`
permuted, with `g` permuted, with both permuted by one common permutation, then those of the permutation importance. In
each of them the permuted columns are moved together and the other columns are untouched. -/
theorem C25_joint_permutation (hs : PerfSetup E a s0 Xs ys g sc) (entropy : G) :
    ∃ s frames impFrames, Sejong.fit E a entropy s0 = (.ok (), s) ∧
      s.calls = s0.calls ++ [Xs.frame.rows] ++ frames ++ [Xs.frame.rows] ++ impFrames ∧
      frames = ((combinations2 a.feats).mapIdx fun i pr => (List.range a.nRepeat).flatMap fun j =>
        let p := nthPerm E.R Xs.frame.rows.length g
        let k := 3 * (a.nRepeat * i + j)
        [permuted Xs.frame [pr.1] (p k), permuted Xs.frame [pr.2] (p (k + 1)),
          permuted Xs.frame [pr.1, pr.2] (p (k + 2))]).flatten ∧
      ∀ fr ∈ frames, ∃ pr ∈ combinations2 a.feats, ∃ fs : List F,
        (fs = [pr.1] ∨ fs = [pr.2] ∨ fs = [pr.1, pr.2]) ∧
        (fr.map (fun r => fs.map r)).Perm (Xs.frame.rows.map (fun r => fs.map r)) ∧
        List.Forall₂ (fun r r' : Row F V => ∀ h, h ∉ fs → r h = r' h) fr Xs.frame.rows := by
  obtain ⟨imp, h⟩ := sejong_fit_eq hs entropy
  refine ⟨_, _, _, h, rfl, rfl, ?_⟩
  intro fr hfr
  have key : ∀ fs k, ((permuted Xs.frame fs (nthPerm E.R Xs.frame.rows.length g k)).map (fun r => fs.map r)).Perm
      (Xs.frame.rows.map (fun r => fs.map r)) := by
    intro fs k
    exact permuted_moves (perm_nth hs.lawful _ _ _) (fun r : Row F V => fs.map r)
      (fun r r' h => List.map_congr_left h)
  simp only [pairFrames, List.mem_flatten, List.mem_mapIdx] at hfr
  obtain ⟨l, ⟨i, hi, rfl⟩, hfr⟩ := hfr
  simp only [List.mem_flatMap, tripleFrames, List.mem_cons, List.not_mem_nil, or_false] at hfr
  obtain ⟨j, _, rfl | rfl | rfl⟩ := hfr
  · exact ⟨_, List.getElem_mem hi, _, Or.inl rfl, key _ _, permuted_keeps⟩
  · exact ⟨_, List.getElem_mem hi, _, Or.inr (Or.inl rfl), key _ _, permuted_keeps⟩
  · exact ⟨_, List.getElem_mem hi, _, Or.inr (Or.inr rfl), key _ _, permuted_keeps⟩

/-! ## C26 -/

/-- **C26**, what holds: if the model ignores *both* features of a pair then the pair's value is exactly 0. Missing: the
case of one ignored feature, which is refuted below. -/
theorem C26_both_ignored_partial (hs : PerfSetup E a s0 Xs ys g sc)
    (hsort : SortsBy (fun r : OvoRow F K => r.val.abs) false E.sortOvo) (entropy : G) :
    ∃ s t, Sejong.fit E a entropy s0 = (.ok (), s) ∧ s.ovo = some t ∧
      ∀ row ∈ t, ModelIgnores a.model row.f1 → ModelIgnores a.model row.f2 → row.val = .fin 0 := by
  obtain ⟨imp, h⟩ := sejong_fit_eq hs entropy
  refine ⟨_, _, h, rfl, ?_⟩
  intro row hrow h1 h2
  obtain ⟨i, pr, hi, rfl⟩ := mem_perfTable ((hsort _).1.mem_iff.1 hrow)
  simp only at h1 h2 ⊢
  congr 1
  apply average_of_all_eq
  · have := hs.repeats
    intro he
    have := congrArg List.length he
    simp at this
    omega
  · intro x hx
    obtain ⟨j, _, rfl⟩ := List.mem_map.1 hx
    unfold nonAdditive
    rw [(scores_joint_ignored hs.scores h1 _).1, scores_permuted_ignored hs.scores h2,
      scores_permuted_ignored hs.scores h1, scores_permuted_ignored hs.scores h2]
    simp

/-- **C26**, one ignored feature: the value is not an interaction but the mean absolute difference between two scores of
the *other* feature permuted by two unrelated permutations. -/
theorem C26_one_ignored_partial (hs : PerfSetup E a s0 Xs ys g sc)
    (hsort : SortsBy (fun r : OvoRow F K => r.val.abs) false E.sortOvo) (entropy : G) :
    ∃ s t, Sejong.fit E a entropy s0 = (.ok (), s) ∧ s.ovo = some t ∧
      ∀ row ∈ t, ModelIgnores a.model row.f1 → ∃ i, (combinations2 a.feats)[i]? = some (row.f1, row.f2) ∧
        row.val = .fin (average ((List.range a.nRepeat).map fun j =>
          |sc (permuted Xs.frame [row.f2] (nthPerm E.R Xs.frame.rows.length g (3 * (a.nRepeat * i + j) + 2)))
            - sc (permuted Xs.frame [row.f2] (nthPerm E.R Xs.frame.rows.length g (3 * (a.nRepeat * i + j) + 1)))|)) := by
  obtain ⟨imp, h⟩ := sejong_fit_eq hs entropy
  refine ⟨_, _, h, rfl, ?_⟩
  intro row hrow h1
  obtain ⟨i, pr, hi, rfl⟩ := mem_perfTable ((hsort _).1.mem_iff.1 hrow)
  refine ⟨i, hi, ?_⟩
  simp only at h1 ⊢
  congr 1
  unfold pairValue
  congr 1
  apply List.map_congr_left
  intro j _
  unfold nonAdditive
  rw [(scores_joint_ignored hs.scores h1 _).1, scores_permuted_ignored hs.scores h1]
  congr 1
  ring

/-! ## C27 -/

section
/-- `m` does not look at the list of earlier calls -/
def Oblivious {α : Type} (m : PyM (Scored G F V) α) : Prop :=
  ∀ g c c', (m ⟨g, c⟩).1 = (m ⟨g, c'⟩).1 ∧ (m ⟨g, c⟩).2.rng = (m ⟨g, c'⟩).2.rng

theorem oblivious_seq {α β : Type} {m : PyM (Scored G F V) α} {k : α → PyM (Scored G F V) β} (hm : Oblivious m)
    (hk : ∀ x, Oblivious (k x)) : Oblivious (PyM.seq m k) := by
  intro g c c'
  have h := hm g c c'
  unfold PyM.seq
  rcases e : m ⟨g, c⟩ with ⟨r, ⟨g1, c1⟩⟩
  rcases e' : m ⟨g, c'⟩ with ⟨r', ⟨g1', c1'⟩⟩
  rw [e, e'] at h
  obtain ⟨h1, h2⟩ := h
  simp only at h1 h2
  subst h1 h2
  cases r with
  | error x => exact ⟨rfl, rfl⟩
  | ok x => exact hk x g1 c1 c1'

theorem oblivious_ret {α : Type} (x : α) : Oblivious (PyM.ret x : PyM (Scored G F V) α) := fun _ _ _ => ⟨rfl, rfl⟩
theorem oblivious_lift {α : Type} (x : Except Err α) : Oblivious (PyM.lift x : PyM (Scored G F V) α) :=
  fun _ _ _ => ⟨rfl, rfl⟩

theorem oblivious_mapList {α β : Type} (l : List β) {body : β → PyM (Scored G F V) α} (h : ∀ b, Oblivious (body b)) :
    Oblivious (PyM.mapList l body) := by
  induction l with
  | nil => exact oblivious_ret _
  | cons b l ih =>
    exact oblivious_seq (h b) fun _ => oblivious_seq ih fun _ => oblivious_ret _

theorem oblivious_scoreOn {model : ModelObj F V (Num K)}
    (hd : ∀ p, model.predict = some p → ∀ k k' rows, p k rows = p k' rows) (M : Metric K) (y : List (Num K))
    (X : Frame F V) : Oblivious (scoreOn model M y X : PyM (Scored G F V) (Num K)) := by
  refine oblivious_seq ?_ fun _ => oblivious_lift _
  intro g c c'
  unfold predictOn
  cases e : model.predict with
  | none => exact ⟨rfl, rfl⟩
  | some p => exact ⟨hd p e _ _ _, rfl⟩

theorem oblivious_permuteScore {model : ModelObj F V (Num K)}
    (hd : ∀ p, model.predict = some p → ∀ k k' rows, p k rows = p k' rows) (R : Rng G) (M : Metric K)
    (y : List (Num K)) (X : Frame F V) (fs : List F) (ref : Num K) :
    Oblivious (permuteScore R model M y X fs ref) := by
  refine oblivious_seq (fun _ _ _ => ⟨rfl, rfl⟩) fun _ => oblivious_seq (oblivious_lift _) fun _ =>
    oblivious_seq (oblivious_scoreOn hd _ _ _) fun _ => oblivious_ret _

theorem oblivious_perfOvo {model : ModelObj F V (Num K)}
    (hd : ∀ p, model.predict = some p → ∀ k k' rows, p k rows = p k' rows) (R : Rng G) (M : Metric K)
    (y : List (Num K)) (X : Frame F V) (sort : List (OvoRow F K) → List (OvoRow F K)) (pairs : List (F × F)) (n : Nat) :
    Oblivious (perfOvo sort R model M y X pairs n) := by
  refine oblivious_seq (oblivious_scoreOn hd _ _ _) fun ref => oblivious_seq (oblivious_mapList _ fun pr =>
    oblivious_seq (oblivious_mapList _ fun _ => oblivious_seq ?_ fun _ => oblivious_ret _) fun _ => oblivious_ret _)
    fun _ => oblivious_ret _
  exact oblivious_seq (oblivious_permuteScore hd _ _ _ _ _ _) fun _ =>
    oblivious_seq (oblivious_permuteScore hd _ _ _ _ _ _) fun _ =>
    oblivious_seq (oblivious_permuteScore hd _ _ _ _ _ _) fun _ => oblivious_ret _

/-- equal in everything but the importance table (and the ghost list of calls) -/
def SameButImportance (s s' : Sejong G L F V K) : Prop :=
  s'.rng = s.rng ∧ s'.metric = s.metric ∧ s'.xSampled = s.xSampled ∧ s'.ySampled = s.ySampled ∧
    s'.features = s.features ∧ s'.pairs = s.pairs ∧ s'.ovo = s.ovo ∧ s'.impObj = s.impObj

theorem fit_same {s s' : Sejong G L F V K} (h : SameButImportance s s') (ent ent' : G)
    (hd : ∀ p, a.model.predict = some p → ∀ k k' rows, p k rows = p k' rows) :
    SameButImportance (Sejong.fit E a ent s).2 (Sejong.fit E a ent' s').2 := by
  obtain ⟨h1, h2, h3, h4, h5, h6, h7, h8⟩ := h
  unfold Sejong.fit
  rw [h1]
  rcases e : sampleBoth E.R E.toInt a.X a.y a.n s.rng with ⟨r, g1⟩
  cases r with
  | error x => exact ⟨rfl, h2, h3, h4, h5, h6, h7, h8⟩
  | ok XY =>
    obtain ⟨Xs, ys⟩ := XY
    simp only [h2]
    have ho := oblivious_perfOvo hd E.R s.metric ys.values Xs.frame E.sortOvo
      (combinations2 (allIfNone a.X.frame.cols a.features)) a.nRepeat g1 s.calls s'.calls
    rcases e1 : perfOvo E.sortOvo E.R a.model s.metric ys.values Xs.frame
      (combinations2 (allIfNone a.X.frame.cols a.features)) a.nRepeat ⟨g1, s.calls⟩ with ⟨r1, w1⟩
    rcases e2 : perfOvo E.sortOvo E.R a.model s.metric ys.values Xs.frame
      (combinations2 (allIfNone a.X.frame.cols a.features)) a.nRepeat ⟨g1, s'.calls⟩ with ⟨r2, w2⟩
    rw [e1, e2] at ho
    obtain ⟨ho1, ho2⟩ := ho
    simp only at ho1 ho2
    subst ho1
    cases r1 with
    | error x => exact ⟨ho2.symm, rfl, rfl, rfl, rfl, rfl, h7, h8⟩
    | ok ovo =>
      simp only
      rcases PermObj.run E.sortFeat E.R a.model Xs ys a.nRepeat (some (allIfNone a.X.frame.cols a.features))
        ⟨ent, s.metric, none⟩ w1.calls with ⟨r3, o3, c3⟩
      rcases PermObj.run E.sortFeat E.R a.model Xs ys a.nRepeat (some (allIfNone a.X.frame.cols a.features))
        ⟨ent', s.metric, none⟩ w2.calls with ⟨r4, o4, c4⟩
      cases r3 <;> cases r4 <;> exact ⟨ho2.symm, rfl, rfl, rfl, rfl, rfl, rfl, rfl⟩
end

/-- a sequence of fits, each with its own entropy; exceptions are caught by the caller -/
def fits (E : PerfEnv G L F K) : List (SejongArgs L F V K × G) → Sejong G L F V K → Sejong G L F V K
  | [], s => s
  | (a, ent) :: l, s => fits E l (Sejong.fit E a ent s).2

/-- **C27**, what holds: two objects created with the same seed and metric and put through the same sequence of fits
(with deterministic models) agree in everything but `feature_importance` — whatever the operating system entropy.
Missing: `feature_importance`, refuted below. -/
theorem C27_ovo_reproducible_partial (g : G) (M : Metric K) (as : List (SejongArgs L F V K))
    (hd : ∀ a ∈ as, ∀ p, a.model.predict = some p → ∀ k k' rows, p k rows = p k' rows) (ent ent' : Nat → G) :
    let s := fits E (as.zipIdx.map fun x => (x.1, ent x.2)) (Sejong.new g M)
    let s' := fits E (as.zipIdx.map fun x => (x.1, ent' x.2)) (Sejong.new g M)
    s'.ovo = s.ovo ∧ s'.rng = s.rng ∧ s'.xSampled = s.xSampled ∧ s'.ySampled = s.ySampled ∧ s'.pairs = s.pairs := by
  have key : ∀ (l : List (SejongArgs L F V K × Nat)), (∀ x ∈ l, x.1 ∈ as) → ∀ s s' : Sejong G L F V K,
      SameButImportance s s' →
      SameButImportance (fits E (l.map fun x => (x.1, ent x.2)) s) (fits E (l.map fun x => (x.1, ent' x.2)) s') := by
    intro l
    induction l with
    | nil => intro _ s s' h; exact h
    | cons x l ih =>
      intro hl s s' h
      simp only [List.map_cons, fits]
      exact ih (fun y hy => hl y (List.mem_cons_of_mem _ hy)) _ _ (fit_same h _ _ (hd _ (hl x (by simp))))
  have := key as.zipIdx (fun x hx => List.fst_mem_of_mem_zipIdx hx) (Sejong.new g M) (Sejong.new g M)
    ⟨rfl, rfl, rfl, rfl, rfl, rfl, rfl, rfl⟩
  exact ⟨this.2.2.2.2.2.2.1, this.1, this.2.2.1, this.2.2.2.1, this.2.2.2.2.2.1⟩

/-! ## C28 -/

/-- `Xs`, `ys` are `k` different rows of the data with their own targets, in the same order -/
def Aligned (X : Frame F V) (y : List (Num K)) (Xs : Frame F V) (ys : List (Num K)) (k : Nat) : Prop :=
  ∃ is : List Nat, is.Nodup ∧ is.length = k ∧ is.map (fun i => X.rows[i]?) = Xs.rows.map some ∧
    is.map (fun i => y[i]?) = ys.map some

section
theorem filterMap_get_some {α : Type} (v : List α) :
    ∀ is : List Nat, (∀ i ∈ is, i < v.length) → is.map (fun i => v[i]?) = (is.filterMap (fun i => v[i]?)).map some
  | [], _ => rfl
  | i :: is, h => by
    have hi : i < v.length := h i (by simp)
    have ih := filterMap_get_some v is fun j hj => h j (by simp [hj])
    simp only [List.map_cons, List.filterMap_cons, List.getElem?_eq_getElem hi, ih]

theorem filter_zip_unique {α : Type} {l : L} {x : α} :
    ∀ (ls : List L) (v : List α) (i : Nat), ls.Nodup → ls[i]? = some l → v[i]? = some x →
      (ls.zip v).filter (fun p => p.1 = l) = [(l, x)]
  | [], _, i, _, h, _ => by simp at h
  | _ :: _, [], i, _, _, h => by simp at h
  | a :: ls, b :: v, 0, hn, h, h' => by
    simp only [List.getElem?_cons_zero, Option.some.injEq] at h h'
    subst h h'
    have : (ls.zip v).filter (fun p => decide (p.1 = a)) = [] := by
      rw [List.filter_eq_nil_iff]
      intro p hp hpa
      have : p.1 ∈ ls := (List.of_mem_zip hp).1
      simp only [decide_eq_true_eq] at hpa
      rw [hpa] at this
      exact (List.nodup_cons.1 hn).1 this
    simp [this]
  | a :: ls, b :: v, i + 1, hn, h, h' => by
    simp only [List.getElem?_cons_succ] at h h'
    have hne : a ≠ l := by
      intro e
      subst e
      exact (List.nodup_cons.1 hn).1 (List.mem_of_getElem? h)
    simp only [List.zip_cons_cons, List.filter_cons, hne, decide_false]
    exact filter_zip_unique ls v i (List.nodup_cons.1 hn).2 h h'

theorem getIndex_array (toInt : L → Option Int) (v : List (Num K)) (labels : List L)
    (hl : ∀ (i : Nat) l, labels[i]? = some l → toInt l = some (i : Int)) (hlen : labels.length = v.length) :
    ∀ is : List Nat, (∀ i ∈ is, i < v.length) →
      (is.filterMap (fun i => labels[i]?)).mapM (labelAsPos toInt v) = .ok (is.filterMap (fun i => v[i]?))
  | [], _ => rfl
  | i :: is, h => by
    have hi : i < v.length := h i (by simp)
    have hi' : i < labels.length := by omega
    have ih := getIndex_array toInt v labels hl hlen is fun j hj => h j (by simp [hj])
    have h1 : labelAsPos toInt v labels[i] = .ok v[i] := by
      unfold labelAsPos
      rw [hl i labels[i] (List.getElem?_eq_getElem hi')]
      simp only [npGet]
      have h0 : ¬ ((i : Int) < 0) := by omega
      simp [h0, List.getElem?_eq_getElem hi]
    simp only [List.filterMap_cons, List.getElem?_eq_getElem hi, List.getElem?_eq_getElem hi']
    rw [mapM_cons_except, h1, ih]

theorem getIndex_series (v : List (Num K)) (labels : List L) (hn : labels.Nodup) (hlen : labels.length = v.length) :
    ∀ is : List Nat, (∀ i ∈ is, i < v.length) →
      ∃ r, (is.filterMap (fun i => labels[i]?)).mapM (labelHits labels v) = .ok r ∧
        r.flatten.map Prod.snd = is.filterMap (fun i => v[i]?)
  | [], _ => ⟨[], rfl, rfl⟩
  | i :: is, h => by
    have hi : i < v.length := h i (by simp)
    have hi' : i < labels.length := by omega
    obtain ⟨r, hr1, hr2⟩ := getIndex_series v labels hn hlen is fun j hj => h j (by simp [hj])
    have h1 : labelHits labels v labels[i] = .ok [(labels[i], v[i])] := by
      unfold labelHits
      rw [filter_zip_unique labels v i hn (List.getElem?_eq_getElem hi') (List.getElem?_eq_getElem hi)]
      rfl
    refine ⟨[(labels[i], v[i])] :: r, ?_, ?_⟩
    · simp only [List.filterMap_cons, List.getElem?_eq_getElem hi']
      rw [mapM_cons_except, h1, hr1]
    · simp only [List.filterMap_cons, List.getElem?_eq_getElem hi, List.flatten_cons, List.map_append, hr2]
      rfl

theorem fit_sampled {E : PerfEnv G L F K} {a : SejongArgs L F V K} {s0 : Sejong G L F V K} {Xs : LFrame L F V}
    {ys : Target L K} {g : G} (h : sampleBoth E.R E.toInt a.X a.y a.n s0.rng = (.ok (Xs, ys), g)) (ent : G) :
    (Sejong.fit E a ent s0).2.xSampled = some Xs ∧ (Sejong.fit E a ent s0).2.ySampled = some ys := by
  unfold Sejong.fit
  simp only [h]
  split
  · exact ⟨rfl, rfl⟩
  · split <;> exact ⟨rfl, rfl⟩
end

/-- **C28**, what holds: sampling `k` rows keeps data and targets together if the targets are an array and the row labels
are `0, 1, 2, …`, or if the targets are a Series carrying the same labels as the rows, without repetition. The sampled
data and targets are the ones stored on the object (and used: C24, C25). Missing: an array of targets with any other row
labels, refuted below; repeated labels. -/
theorem C28_sampling_aligned_partial (hR : E.R.Lawful) {k : Nat} (hn : a.n = some k) (hk : k ≤ a.X.frame.len)
    (hX : a.X.labels.length = a.X.frame.rows.length) (hy : a.y.values.length = a.X.frame.rows.length)
    (hl : (∃ v, a.y = .array v ∧ ∀ (i : Nat) l, a.X.labels[i]? = some l → E.toInt l = some (i : Int)) ∨
      (∃ v, a.y = .series a.X.labels v ∧ a.X.labels.Nodup)) (ent : G) :
    ∃ Xs ys, (Sejong.fit E a ent s0).2.xSampled = some Xs ∧ (Sejong.fit E a ent s0).2.ySampled = some ys ∧
      Aligned a.X.frame a.y.values Xs.frame ys.values k := by
  have hlen : a.X.frame.len = a.X.frame.rows.length := rfl
  have hlt := hR.sample_lt s0.rng a.X.frame.len k hk
  rw [hlen] at hlt
  have hs : sampleIfNotNone E.R a.X (some k) s0.rng =
      (.ok (a.X.iloc (E.R.sample s0.rng a.X.frame.len k).1), (E.R.sample s0.rng a.X.frame.len k).2) := by
    simp only [sampleIfNotNone, Nat.not_lt.2 hk, if_false]
  have fin : ∀ ys, a.y.getIndex E.toInt (a.X.iloc (E.R.sample s0.rng a.X.frame.len k).1).labels = .ok ys →
      ys.values = (E.R.sample s0.rng a.X.frame.len k).1.filterMap (fun i => a.y.values[i]?) →
      ∃ Xs ys, (Sejong.fit E a ent s0).2.xSampled = some Xs ∧ (Sejong.fit E a ent s0).2.ySampled = some ys ∧
      Aligned a.X.frame a.y.values Xs.frame ys.values k := by
    intro ys h1 h2
    have hb : sampleBoth E.R E.toInt a.X a.y a.n s0.rng =
        (.ok (a.X.iloc (E.R.sample s0.rng a.X.frame.len k).1, ys), (E.R.sample s0.rng a.X.frame.len k).2) := by
      simp only [sampleBoth, hn, hs, h1]
    obtain ⟨h3, h4⟩ := fit_sampled hb ent
    refine ⟨_, _, h3, h4, (E.R.sample s0.rng a.X.frame.len k).1, hR.sample_nodup _ _ _ hk, hR.sample_length _ _ _ hk,
      ?_, ?_⟩
    · exact filterMap_get_some _ _ hlt
    · rw [h2]
      exact filterMap_get_some _ _ (by rw [hy]; exact hlt)
  rcases hl with ⟨v, hv, hl⟩ | ⟨v, hv, hnd⟩
  · rw [hv] at hy
    have hvl : v.length = a.X.frame.rows.length := hy
    have h := getIndex_array E.toInt v a.X.labels hl (by omega) (E.R.sample s0.rng a.X.frame.len k).1
      (by rw [hvl]; exact hlt)
    refine fin (.array ((E.R.sample s0.rng a.X.frame.len k).1.filterMap (fun i => v[i]?))) ?_ ?_
    · rw [hv]
      simp only [Target.getIndex, LFrame.iloc, h]
      rfl
    · rw [hv]; rfl
  · rw [hv] at hy
    have hvl : v.length = a.X.frame.rows.length := hy
    obtain ⟨r, hr1, hr2⟩ := getIndex_series v a.X.labels hnd (by omega) (E.R.sample s0.rng a.X.frame.len k).1
      (by rw [hvl]; exact hlt)
    refine fin (.series (r.flatten.map Prod.fst) (r.flatten.map Prod.snd)) ?_ ?_
    · rw [hv]
      simp only [Target.getIndex, LFrame.iloc, hr1]
      rfl
    · rw [hv]; exact hr2

/-- `y[z]` of a NumPy array: position `z` modulo the length for `-len ≤ z < len`, IndexError for other integers -/
theorem npGet_spec {α : Type} (v : List α) (z : Int) :
    (-(v.length : Int) ≤ z ∧ z < v.length ∧ ∃ y, npGet v z = .ok y ∧ v[(z % v.length).toNat]? = some y) ∨
    (¬ (-(v.length : Int) ≤ z ∧ z < v.length) ∧ npGet v z = .error .indexError) := by
  by_cases h : -(v.length : Int) ≤ z ∧ z < v.length
  · left
    refine ⟨h.1, h.2, ?_⟩
    have hj : (if z < 0 then z + v.length else z) = z % v.length := by
      split
      · rw [← Int.add_emod_right, Int.emod_eq_of_lt (by omega) (by omega)]
      · rw [Int.emod_eq_of_lt (by omega) (by omega)]
    have h0 : ¬ (z % (v.length : Int) < 0) := by rw [← hj]; split <;> omega
    have hlt : (z % (v.length : Int)).toNat < v.length := by
      have : z % (v.length : Int) < v.length := by rw [← hj]; split <;> omega
      omega
    refine ⟨v[(z % (v.length : Int)).toNat], ?_, List.getElem?_eq_getElem hlt⟩
    unfold npGet
    simp only [hj, h0, if_false, List.getElem?_eq_getElem hlt]
  · right
    refine ⟨h, ?_⟩
    unfold npGet
    simp only
    by_cases hz : z < 0
    · have : z + (v.length : Int) < 0 := by omega
      simp [hz, this]
    · have : v.length ≤ z.toNat := by omega
      simp [hz, this]

/-- the outcome of `y[labels]` for an array -/
theorem mapM_labelAsPos {L α : Type} (toInt : L → Option Int) (v : List α) : ∀ ls : List L,
    ((∀ l ∈ ls, ∃ z, toInt l = some z ∧ -(v.length : Int) ≤ z ∧ z < v.length) →
      ∃ r, ls.mapM (labelAsPos toInt v) = .ok r ∧
        List.Forall₂ (fun l y => ∃ z, toInt l = some z ∧ v[(z % v.length).toNat]? = some y) ls r) ∧
    ((∃ l ∈ ls, ∀ z, toInt l = some z → ¬ (-(v.length : Int) ≤ z ∧ z < v.length)) →
      ls.mapM (labelAsPos toInt v) = .error .indexError) := by
  intro ls
  induction ls with
  | nil =>
    exact ⟨fun _ => ⟨[], rfl, List.Forall₂.nil⟩, fun h => by obtain ⟨l, hl, _⟩ := h; cases hl⟩
  | cons l ls ih =>
    constructor
    · intro h
      obtain ⟨r, e, hr⟩ := ih.1 fun l hl => h l (List.mem_cons_of_mem _ hl)
      obtain ⟨z, hz, h1, h2⟩ := h l List.mem_cons_self
      rcases npGet_spec v z with ⟨_, _, y, hy, hy'⟩ | ⟨hn, _⟩
      · refine ⟨y :: r, ?_, List.Forall₂.cons ⟨z, hz, hy'⟩ hr⟩
        rw [mapM_cons_except, labelAsPos, hz]
        simp only [hy, e]
      · exact absurd ⟨h1, h2⟩ hn
    · rintro ⟨l', hl', hbad⟩
      rw [mapM_cons_except]
      have hl : labelAsPos toInt v l = .error .indexError ∨ ∃ y, labelAsPos toInt v l = .ok y ∧ l' ∈ ls := by
        unfold labelAsPos
        cases hz : toInt l with
        | none => left; rfl
        | some z =>
          rcases npGet_spec v z with ⟨h1, h2, y, hy, _⟩ | ⟨_, he⟩
          · right
            refine ⟨y, hy, ?_⟩
            rcases List.mem_cons.1 hl' with rfl | h
            · exact absurd ⟨h1, h2⟩ (hbad z hz)
            · exact h
          · left; exact he
      rcases hl with e | ⟨y, e, hm⟩
      · rw [e]
      · rw [e, ih.2 ⟨l', hm, hbad⟩]

/-- **C28, arrays, what happens instead.** Targets given as an array are looked up with the *labels* of the drawn rows used
as positions, counted from the end if negative; a drawn label that is no integer or outside the array raises
IndexError. -/
theorem C28_array_lookup_by_label {k : Nat} (hn : a.n = some k) {v : List (Num K)} (hy : a.y = .array v)
    {Xs : LFrame L F V} {rng : G} (hs : sampleIfNotNone E.R a.X (some k) s0.rng = (.ok Xs, rng)) (ent : G) :
    ((∀ l ∈ Xs.labels, ∃ z, E.toInt l = some z ∧ -(v.length : Int) ≤ z ∧ z < v.length) →
      (Sejong.fit E a ent s0).2.xSampled = some Xs ∧ ∃ ys, (Sejong.fit E a ent s0).2.ySampled = some (.array ys) ∧
        List.Forall₂ (fun l y => ∃ z, E.toInt l = some z ∧ v[(z % v.length).toNat]? = some y) Xs.labels ys) ∧
    ((∃ l ∈ Xs.labels, ∀ z, E.toInt l = some z → ¬ (-(v.length : Int) ≤ z ∧ z < v.length)) →
      (Sejong.fit E a ent s0).1 = .error .indexError) := by
  have key := mapM_labelAsPos E.toInt v Xs.labels
  constructor
  · intro h
    obtain ⟨r, e, hr⟩ := key.1 h
    have hb : sampleBoth E.R E.toInt a.X a.y a.n s0.rng = (.ok (Xs, .array r), rng) := by
      simp only [sampleBoth, hn, hs, hy, Target.getIndex, e]
      rfl
    obtain ⟨h3, h4⟩ := fit_sampled hb ent
    exact ⟨h3, r, h4, hr⟩
  · intro h
    have e := key.2 h
    have hb : sampleBoth E.R E.toInt a.X a.y a.n s0.rng = (.error .indexError, rng) := by
      simp only [sampleBoth, hn, hs, hy, Target.getIndex, e]
      rfl
    unfold Sejong.fit
    simp only [hb]

/-- the outcome of `y[labels]` for a Series -/
theorem mapM_labelHits {α : Type} (labels : List L) (v : List α) : ∀ ls : List L,
    ((∀ l ∈ ls, ∃ p ∈ labels.zip v, p.1 = l) →
      ls.mapM (labelHits labels v) = .ok (ls.map fun l => (labels.zip v).filter fun p => p.1 = l)) ∧
    ((∃ l ∈ ls, ∀ p ∈ labels.zip v, p.1 ≠ l) → ls.mapM (labelHits labels v) = .error .keyError) := by
  intro ls
  induction ls with
  | nil => exact ⟨fun _ => rfl, fun h => by obtain ⟨l, hl, _⟩ := h; cases hl⟩
  | cons l ls ih =>
    constructor
    · intro h
      obtain ⟨p, hp, hpl⟩ := h l List.mem_cons_self
      have hne : ((labels.zip v).filter fun p => p.1 = l).isEmpty = false := by
        rw [List.isEmpty_eq_false_iff]
        exact List.ne_nil_of_mem (List.mem_filter.2 ⟨hp, by simpa using hpl⟩)
      rw [mapM_cons_except, labelHits, ih.1 fun l hl => h l (List.mem_cons_of_mem _ hl)]
      simp only [hne, Bool.false_eq_true, if_false, List.map_cons]
    · rintro ⟨l', hl', hbad⟩
      rw [mapM_cons_except]
      by_cases he : ((labels.zip v).filter fun p => p.1 = l).isEmpty
      · simp only [labelHits, he, if_true]
      · have hm : l' ∈ ls := by
          rcases List.mem_cons.1 hl' with rfl | h
          · exfalso
            apply he
            rw [List.isEmpty_iff, List.filter_eq_nil_iff]
            intro p hp
            simpa using hbad p hp
          · exact h
        have hl : labelHits labels v l = .ok ((labels.zip v).filter fun p => p.1 = l) := by
          simp only [labelHits, he, if_false, Bool.false_eq_true]
        rw [hl, ih.2 ⟨l', hm, hbad⟩]

/-- **C28, Series, what happens in general.** Targets given as a Series are looked up by label: for each drawn row come
*all* entries of the Series with its label (several if labels are repeated); a label the Series does not have raises
KeyError. -/
theorem C28_series_lookup_by_label {k : Nat} (hn : a.n = some k) {labels : List L} {v : List (Num K)}
    (hy : a.y = .series labels v)
    {Xs : LFrame L F V} {rng : G} (hs : sampleIfNotNone E.R a.X (some k) s0.rng = (.ok Xs, rng)) (ent : G) :
    ((∀ l ∈ Xs.labels, ∃ p ∈ labels.zip v, p.1 = l) →
      (Sejong.fit E a ent s0).2.xSampled = some Xs ∧ ∃ ys, (Sejong.fit E a ent s0).2.ySampled = some ys ∧
        ys.values = Xs.labels.flatMap fun l => ((labels.zip v).filter fun p => p.1 = l).map Prod.snd) ∧
    ((∃ l ∈ Xs.labels, ∀ p ∈ labels.zip v, p.1 ≠ l) → (Sejong.fit E a ent s0).1 = .error .keyError) := by
  have key := mapM_labelHits labels v Xs.labels
  constructor
  · intro h
    have e := key.1 h
    have hb : sampleBoth E.R E.toInt a.X a.y a.n s0.rng = (.ok (Xs, .series
        ((Xs.labels.map fun l => (labels.zip v).filter fun p => p.1 = l).flatten.map Prod.fst)
        ((Xs.labels.map fun l => (labels.zip v).filter fun p => p.1 = l).flatten.map Prod.snd)), rng) := by
      simp only [sampleBoth, hn, hs, hy, Target.getIndex, e]
      rfl
    obtain ⟨h3, h4⟩ := fit_sampled hb ent
    refine ⟨h3, _, h4, ?_⟩
    simp [Target.values, List.flatMap_def, List.map_flatten]
    rfl
  · intro h
    have e := key.2 h
    have hb : sampleBoth E.R E.toInt a.X a.y a.n s0.rng = (.error .keyError, rng) := by
      simp only [sampleBoth, hn, hs, hy, Target.getIndex, e]
      rfl
    unfold Sejong.fit
    simp only [hb]

section Cases
open Ex

/-- a lawful generator whose first permutation is the identity and whose later ones are reversals; samples are taken
from the end -/
def exRng2 : Rng Nat where
  sample g len n := ((List.range len).reverse.take n, g + 1)
  perm g len := (if g = 0 then List.range len else (List.range len).reverse, g + 1)

theorem exRng2_lawful : exRng2.Lawful where
  sample_length := by intro g len n h; simp [exRng2, h]
  sample_nodup := by
    intro g len n _
    exact (List.nodup_reverse.2 List.nodup_range).sublist (List.take_sublist _ _)
  sample_lt := by
    intro g len n h i hi
    have := List.mem_of_mem_take hi
    simpa using this
  perm_perm := by
    intro g len
    simp only [exRng2]
    split
    · exact List.Perm.refl _
    · exact List.reverse_perm _

def exPerfEnv {K : Type} [Field K] [LinearOrder K] : PerfEnv Nat Nat (Fin 3) K where
  R := exRng2
  toInt := fun l => some l
  sortOvo := stableSort (fun r => r.val.abs) false
  sortFeat := stableSort FeatRow.val false

/-- all features, no sampling, two repetitions -/
def exSArgs {K : Type} [Field K] : SejongArgs Nat (Fin 3) ℤ K where
  model := exPerfModel
  X := exPerfX
  y := exPerfY
  n := none
  nRepeat := 2
  features := none

/-- the hypotheses of C13, C24, C25, C26 hold for the example with RMSE over the reals -/
theorem exPerfSetup (g0 : Nat) : ∃ sc, PerfSetup (K := ℝ) exPerfEnv exSArgs (Sejong.new g0 rmseM) exPerfX exPerfY g0 sc := by
  obtain ⟨sc, hsc, _⟩ := scores_of_predicts (M := rmseM) (Or.inr (Or.inl rfl)) (exPredicts (K := ℝ))
    (ts := [2, 0, 12]) (by simp)
  refine ⟨sc, ⟨exRng2_lawful, rfl, hsc, fun f h => h, ?_, ?_, by simp [exSArgs]⟩⟩
  · show [(0 : Fin 3), 1, 2].Nodup
    decide
  · show [(0 : Fin 3), 1, 2] ≠ []
    simp

example : ∃ s t, Sejong.fit (K := ℝ) exPerfEnv exSArgs 5 (Sejong.new 0 rmseM) = (.ok (), s) ∧ s.ovo = some t ∧
    ∀ row ∈ t, ModelIgnores (exPerfModel (K := ℝ)) row.f1 → ModelIgnores (exPerfModel (K := ℝ)) row.f2 →
      row.val = .fin 0 := by
  obtain ⟨sc, h⟩ := exPerfSetup 0
  exact C26_both_ignored_partial h (sortsBy_stableSort _ _) 5

/-- the value of one pair in the example with MSE, computed -/
example : ((Sejong.fit (K := ℚ) exPerfEnv { exSArgs with features := some [0, 1], nRepeat := 1 } 5
    (Sejong.new 1 mseM)).2.ovo.map (fun t => t.map (fun r => (r.f1, r.f2, r.val)))) =
    some [((0 : Fin 3), (1 : Fin 3), .fin (80 / 3))] := by decide +kernel

/-- only features 0 and 2, one repetition -/
def exSArgs2 {K : Type} [Field K] : SejongArgs Nat (Fin 3) ℤ K := { exSArgs with features := some [0, 2], nRepeat := 1 }

/-- **C26 fails** for one ignored feature: the model ignores feature 2 (`exIgnores`), yet the pair (0, 2) gets 80/3,
because the separate and the joint permutation of feature 0 differ. -/
theorem C26_fails : ModelIgnores (exPerfModel (K := ℚ)) 2 ∧ exRng2.Lawful ∧
    (Sejong.fit (K := ℚ) exPerfEnv exSArgs2 5 (Sejong.new 0 mseM)).1 = .ok () ∧
    (Sejong.fit (K := ℚ) exPerfEnv exSArgs2 5 (Sejong.new 0 mseM)).2.ovo.map
      (fun t => t.map (fun r => (r.f1, r.f2, r.val))) = some [((0 : Fin 3), (2 : Fin 3), .fin (80 / 3))] :=
  ⟨exIgnores, exRng2_lawful, by decide +kernel, by decide +kernel⟩

/-- **C27 fails** for `feature_importance`: same seed, same inputs, different entropy. -/
theorem C27_fails :
    (Sejong.fit (K := ℚ) exPerfEnv exSArgs2 0 (Sejong.new 3 mseM)).1 = .ok () ∧
    (Sejong.fit (K := ℚ) exPerfEnv exSArgs2 5 (Sejong.new 3 mseM)).1 = .ok () ∧
    (Sejong.fit (K := ℚ) exPerfEnv exSArgs2 0 (Sejong.new 3 mseM)).2.importance.map (fun t => t.map FeatRow.val) =
      some [.fin 0, .fin 0] ∧
    (Sejong.fit (K := ℚ) exPerfEnv exSArgs2 5 (Sejong.new 3 mseM)).2.importance.map (fun t => t.map FeatRow.val) =
      some [.fin (80 / 3), .fin 0] :=
  ⟨by decide +kernel, by decide +kernel, by decide +kernel, by decide +kernel⟩

/-- sampling two of three rows, labels 0, 1, 2 -/
def exSArgs3 {K : Type} [Field K] : SejongArgs Nat (Fin 3) ℤ K := { exSArgs with n := some 2 }

theorem exLabels : ∀ (i : Nat) l, (exSArgs3 (K := ℚ)).X.labels[i]? = some l → (some l : Option Int) = some (i : Int)
  | 0, _, h => by cases h; rfl
  | 1, _, h => by cases h; rfl
  | 2, _, h => by cases h; rfl
  | _ + 3, _, h => by cases h

example : ∃ Xs ys, (Sejong.fit (K := ℚ) exPerfEnv exSArgs3 0 (Sejong.new 0 mseM)).2.xSampled = some Xs ∧
    (Sejong.fit (K := ℚ) exPerfEnv exSArgs3 0 (Sejong.new 0 mseM)).2.ySampled = some ys ∧
    Aligned exPerfX.frame (exPerfY (K := ℚ)).values Xs.frame ys.values 2 :=
  C28_sampling_aligned_partial (E := exPerfEnv) (a := exSArgs3 (K := ℚ)) exRng2_lawful rfl
    (by simp [exSArgs3, exSArgs, exPerfX, Frame.len]) (by simp [exSArgs3, exSArgs, exPerfX])
    (by simp [exSArgs3, exSArgs, exPerfX, exPerfY, Target.values])
    (Or.inl ⟨_, rfl, exLabels⟩) 0

/-- the same data after a shuffle that kept its row labels: labels 1, 2, 0 -/
def exSArgs4 {K : Type} [Field K] : SejongArgs Nat (Fin 3) ℤ K :=
  { exSArgs with X := ⟨[1, 2, 0], exPerfX.frame⟩, n := some 2 }

/-- **C28 fails** for an array of targets when the row labels are not positions: rows 2 and 1 are sampled, with the
targets of rows 0 and 2. -/
theorem C28_fails_silently :
    (Sejong.fit (K := ℚ) exPerfEnv exSArgs4 0 (Sejong.new 0 mseM)).1 = .ok () ∧
    (Sejong.fit (K := ℚ) exPerfEnv exSArgs4 0 (Sejong.new 0 mseM)).2.xSampled.map
      (fun X => X.frame.rows.map (fun r => (r 0, r 1, r 2))) = some [(3, 4, 9), (2, 0, 7)] ∧
    (Sejong.fit (K := ℚ) exPerfEnv exSArgs4 0 (Sejong.new 0 mseM)).2.ySampled.map Target.values =
      some [.fin 2, .fin 12] :=
  ⟨by decide +kernel, by decide +kernel, by decide +kernel⟩

/-- **C28 fails** loudly when the labels are not valid positions: IndexError. -/
theorem C28_fails_loudly : (Sejong.fit (K := ℚ) exPerfEnv
    { exSArgs with X := ⟨[10, 11, 12], exPerfX.frame⟩, n := some 2 } 0 (Sejong.new 0 mseM)).1 = .error .indexError := by
  decide +kernel

/-- negative labels count from the end: with row labels -2, -3, -1 rows 2 and 1 are drawn, and get the targets at
positions 2 and 0 -/
example : (Sejong.fit (K := ℚ) { exPerfEnv with toInt := fun l : Nat => some ((l : Int) - 3) } exSArgs4 0 (Sejong.new 0 mseM)).1 =
      .ok () ∧
    (Sejong.fit (K := ℚ) { exPerfEnv with toInt := fun l : Nat => some ((l : Int) - 3) } exSArgs4 0
      (Sejong.new 0 mseM)).2.ySampled.map Target.values = some [.fin 2, .fin 12] :=
  ⟨by decide +kernel, by decide +kernel⟩

/-- a Series with a repeated label -/
def exSArgsRep {K : Type} [Field K] : SejongArgs Nat (Fin 3) ℤ K :=
  { exSArgs with
    X := ⟨[0, 1, 1], exPerfX.frame⟩
    y := .series [0, 1, 1] [.fin 5, .fin 6, .fin 7]
    n := some 1 }

/-- two targets for the one drawn row -/
example : (Sejong.fit (K := ℚ) exPerfEnv exSArgsRep 0 (Sejong.new 0 mseM)).2.ySampled.map Target.values =
    some [.fin 6, .fin 7] := by decide +kernel

end Cases
end Artemis
