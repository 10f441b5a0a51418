import Verif.Props.Metrics

/-!
# Properties C29, C30: permutation importance

`R` is the random generator, `sort` is `sort_values(by="Importance", ascending=False, ignore_index=True)`; the ghost list
at the end of the result of `PermObj.run` holds the frames the model was asked to score.
-/

set_option linter.unusedSectionVars false
set_option linter.unusedVariables false
set_option linter.unusedSimpArgs false

namespace Artemis
open Spec

variable {F V K G L : Type} [DecidableEq F] [Field K] [LinearOrder K] [IsStrictOrderedRing K] [HasSqrt K]
variable {R : Rng G} {model : ModelObj F V (Num K)} {X : LFrame L F V} {y : Target L K} {fs : List F} {n : Nat}
  {sort : List (FeatRow F K) → List (FeatRow F K)} {sc : List (Row F V) → K}

section helpers

theorem run_eq {o : PermObj G F K} (hR : R.Lawful) (hsc : Scores model o.metric y.values X.frame.rows.length sc)
    (hfs : ∀ f ∈ fs, f ∈ X.frame.cols) (hne : fs ≠ []) (hn : 0 < n) (calls : List (List (Row F V))) :
    ∃ ks : List F, ks.Nodup ∧ (∀ f, f ∈ ks ↔ f ∈ fs) ∧
      PermObj.run sort R model X y n (some fs) o calls =
        (.ok (sort (ks.map fun f => ⟨f, .fin (sgn o.metric *
          (average (turnScores sc X.frame (nthPerm R X.frame.rows.length o.rng) fs n f) - sc X.frame.rows))⟩)),
          ⟨permAfter R X.frame.rows.length o.rng (turns fs n).length, o.metric,
            some (sort (ks.map fun f => ⟨f, .fin (sgn o.metric *
          (average (turnScores sc X.frame (nthPerm R X.frame.rows.length o.rng) fs n f) - sc X.frame.rows))⟩))⟩,
          calls ++ [X.frame.rows] ++ turnFrames X.frame (nthPerm R X.frame.rows.length o.rng) fs n) := by
  obtain ⟨ks, h1, h2, h3⟩ := permImportance_eq hR hsc hfs hne hn o.rng calls sort
  refine ⟨ks, h1, h2, ?_⟩
  simp only [PermObj.run, h3]

theorem count_turns (fs : List F) (n : Nat) (f : F) : (turns fs n).count f = n * fs.count f := by
  unfold turns
  induction n with
  | zero => simp
  | succ n ih => rw [List.replicate_succ, List.flatten_cons, List.count_append, ih]; ring

theorem length_turns (fs : List F) (n : Nat) : (turns fs n).length = n * fs.length := by
  simp [turns]

theorem mem_turns {fs : List F} {n : Nat} {f : F} (h : f ∈ turns fs n) : f ∈ fs := by
  simp only [turns, List.mem_flatten, List.mem_replicate] at h
  obtain ⟨l, ⟨_, rfl⟩, h⟩ := h
  exact h

/-- scoring a data set that differs in an ignored column only -/
theorem scores_ignored {M : Metric K} {ys : List (Num K)} {len : Nat} (hsc : Scores model M ys len sc) {f : F}
    (hig : ModelIgnores model f) {rows rows' : List (Row F V)} (hl : rows.length = len)
    (h : List.Forall₂ (fun r r' : Row F V => ∀ h, h ≠ f → r h = r' h) rows rows') : sc rows = sc rows' := by
  obtain ⟨p, hp, hs⟩ := hsc
  obtain ⟨yh, h1, h2⟩ := hs 0 rows hl
  obtain ⟨yh', h1', h2'⟩ := hs 0 rows' (by rw [← h.length_eq]; exact hl)
  rw [hig p hp 0 0 rows rows' h, h1'] at h1
  cases h1
  rw [h2] at h2'
  simpa using h2'

theorem scores_permuted_ignored {M : Metric K} {ys : List (Num K)} {Z : Frame F V}
    (hsc : Scores model M ys Z.rows.length sc) {f : F} (hig : ModelIgnores model f) (p : List Nat) :
    sc (permuted Z [f] p) = sc Z.rows :=
  scores_ignored hsc hig (length_permuted Z [f] p) (permuted_keeps.imp fun _ _ h x hx => h x (by simpa using hx))

theorem turnScores_mem {perm : Nat → List Nat} {Z : Frame F V} {f : F} {x : K} (h : x ∈ turnScores sc Z perm fs n f) :
    ∃ k, x = sc (permuted Z [f] (perm k)) := by
  simp only [turnScores, List.mem_map, List.mem_filter, List.mem_mapIdx] at h
  obtain ⟨e, ⟨⟨k, hk, rfl⟩, hf⟩, rfl⟩ := h
  simp only [decide_eq_true_eq] at hf
  exact ⟨k, by rw [hf]⟩

theorem average_of_all_eq {l : List K} (hl : l ≠ []) {c : K} (h : ∀ x ∈ l, x = c) : average l = c := by
  have e : l = l.map (fun _ => c) := by
    conv_lhs => rw [← List.map_id l]
    apply List.map_congr_left
    intro x hx; exact h x hx
  rw [e]
  exact avg_const l hl c

theorem average_ge {l : List K} (hl : l ≠ []) {c : K} (h : ∀ x ∈ l, c ≤ x) : c ≤ average l := by
  unfold average
  have hpos : (0 : K) < l.length := by exact_mod_cast List.length_pos_of_ne_nil hl
  rw [le_div_iff₀ hpos]
  clear hl hpos
  induction l with
  | nil => simp
  | cons a l ih =>
    have := ih (fun x hx => h x (List.mem_cons_of_mem _ hx))
    have ha := h a (by simp)
    simp only [List.length_cons, Nat.cast_add, Nat.cast_one, List.sum_cons]
    linarith

theorem average_le {l : List K} (hl : l ≠ []) {c : K} (h : ∀ x ∈ l, x ≤ c) : average l ≤ c := by
  unfold average
  have hpos : (0 : K) < l.length := by exact_mod_cast List.length_pos_of_ne_nil hl
  rw [div_le_iff₀ hpos]
  clear hl hpos
  induction l with
  | nil => simp
  | cons a l ih =>
    have := ih (fun x hx => h x (List.mem_cons_of_mem _ hx))
    have ha := h a (by simp)
    simp only [List.length_cons, Nat.cast_add, Nat.cast_one, List.sum_cons]
    linarith

theorem scores_of_predicts [LawfulSqrt K] {M : Metric K} (hM : M = mseM ∨ M = rmseM ∨ M = accuracyM) {P : List (Row F V) → List K}
    (hP : Predicts model P) {ts : List K} (hts : ts ≠ []) :
    ∃ sc : List (Row F V) → K, Scores model M (ts.map Num.fin) ts.length sc ∧
      (∀ rows, rows.length = ts.length → (M.isClass = true → sc rows ≤ 1) ∧ (M.isClass = false → 0 ≤ sc rows)) ∧
      (∀ rows, rows.length = ts.length → P rows = ts →
        (M.isClass = true → sc rows = 1) ∧ (M.isClass = false → sc rows = 0)) := by
  obtain ⟨p, hp, h⟩ := hP
  rcases hM with rfl | rfl | rfl
  · refine ⟨fun rows => mseOf ts (P rows), ⟨p, hp, fun k rows hl => ?_⟩, fun rows hl => ?_, fun rows hl e => ?_⟩
    · exact ⟨_, (h k rows).1, mse_fin (by rw [(h k rows).2, hl]) hts⟩
    · exact ⟨fun h => (by cases h), fun _ => mseOf_nonneg _ _⟩
    · exact ⟨fun h => (by cases h), fun _ => (mseOf_eq_zero (by rw [e]) hts).2 e.symm⟩
  · have key : ∀ hs : List K, ts.length = hs.length → rmseM.calculate (ts.map Num.fin) (hs.map Num.fin) =
        .ok (.fin (HasSqrt.sqrt (mseOf ts hs))) := by
      intro hs hl
      simp only [rmseM, mse_fin hl hts, bind, Except.bind, Num.sqrt, not_lt.2 (mseOf_nonneg ts hs), if_false]
    refine ⟨fun rows => HasSqrt.sqrt (mseOf ts (P rows)), ⟨p, hp, fun k rows hl => ?_⟩, fun rows hl => ?_,
      fun rows hl e => ?_⟩
    · exact ⟨_, (h k rows).1, key _ (by rw [(h k rows).2, hl])⟩
    · exact ⟨fun h => (by cases h), fun _ => LawfulSqrt.nonneg _⟩
    · refine ⟨fun h => (by cases h), fun _ => ?_⟩
      simp only [(mseOf_eq_zero (hs := P rows) (by rw [e]) hts).2 e.symm]
      have := LawfulSqrt.mul_self (0 : K) le_rfl
      exact mul_self_eq_zero.1 this
  · refine ⟨fun rows => accOf ts (P rows), ⟨p, hp, fun k rows hl => ?_⟩, fun rows hl => ?_, fun rows hl e => ?_⟩
    · exact ⟨_, (h k rows).1, acc_fin (by rw [(h k rows).2, hl]) hts⟩
    · exact ⟨fun _ => (accOf_range (by rw [(h 0 rows).2, hl]) hts).2.1, fun h => by cases h⟩
    · exact ⟨fun _ => (accOf_range (by rw [e]) hts).2.2.2 e.symm, fun h => by cases h⟩

end helpers

/-! ## C29 -/

/-- **C29.** `importance` first scores the data as they are; then, turn by turn through the feature list, `n_repeat`
times, it scores the data with exactly one column rearranged, by the next permutation of the generator. -/
theorem C29_corrupts_one_feature_at_a_time {o : PermObj G F K} (hR : R.Lawful)
    (hsc : Scores model o.metric y.values X.frame.rows.length sc)
    (hfs : ∀ f ∈ fs, f ∈ X.frame.cols) (hne : fs ≠ []) (hn : 0 < n) (calls : List (List (Row F V))) :
    ∃ t o' frames, PermObj.run sort R model X y n (some fs) o calls = (.ok t, o', calls ++ [X.frame.rows] ++ frames) ∧
      frames = ((List.replicate n fs).flatten).mapIdx
        (fun k f => permuted X.frame [f] (nthPerm R X.frame.rows.length o.rng k)) ∧
      (∀ f, ((List.replicate n fs).flatten).count f = n * fs.count f) ∧
      ∀ fr ∈ frames, ∃ f ∈ fs, (fr.map (fun r => r f)).Perm (X.frame.col f) ∧
        List.Forall₂ (fun r r' : Row F V => ∀ h, h ≠ f → r h = r' h) fr X.frame.rows := by
  obtain ⟨ks, _, _, h⟩ := run_eq (sort := sort) hR hsc hfs hne hn calls
  refine ⟨_, _, _, h, rfl, count_turns fs n, ?_⟩
  intro fr hfr
  simp only [turnFrames, List.mem_mapIdx] at hfr
  obtain ⟨k, hk, rfl⟩ := hfr
  refine ⟨(turns fs n)[k], mem_turns (List.getElem_mem hk), ?_, ?_⟩
  · exact permuted_moves (perm_nth hR _ _ _) (fun r : Row F V => r (turns fs n)[k])
      (fun r r' h => h _ (by simp))
  · exact permuted_keeps.imp fun _ _ h x hx => h x (by simpa using hx)

/-! ## C30 -/

/-- **C30.** The table has one row per distinct requested feature, in non-increasing order of importance; the importance
is how much worse (in the sense of the metric) the mean score at the feature's turns is than the original score. -/
theorem C30_one_row_per_feature_sorted {o : PermObj G F K} (hR : R.Lawful)
    (hsort : SortsBy FeatRow.val false sort)
    (hsc : Scores model o.metric y.values X.frame.rows.length sc)
    (hfs : ∀ f ∈ fs, f ∈ X.frame.cols) (hne : fs ≠ []) (hn : 0 < n) (calls : List (List (Row F V))) :
    ∃ t o' c', PermObj.run sort R model X y n (some fs) o calls = (.ok t, o', c') ∧ o'.importance = some t ∧
      (t.map FeatRow.f).Nodup ∧ (∀ f, f ∈ t.map FeatRow.f ↔ f ∈ fs) ∧
      t.Pairwise (fun a b => Num.le b.val a.val = true) ∧
      ∀ row ∈ t, ∃ x : K, row.val = .fin x ∧
        x = (if o.metric.isClass then -1 else 1) *
          (average (turnScores sc X.frame (nthPerm R X.frame.rows.length o.rng) fs n row.f) - sc X.frame.rows) := by
  obtain ⟨ks, h1, h2, h⟩ := run_eq (sort := sort) hR hsc hfs hne hn calls
  refine ⟨_, _, _, h, rfl, ?_, ?_, ?_, ?_⟩
  · have := (hsort (ks.map fun f => (⟨f, .fin (sgn o.metric *
          (average (turnScores sc X.frame (nthPerm R X.frame.rows.length o.rng) fs n f) - sc X.frame.rows))⟩ : FeatRow F K))).1.map FeatRow.f
    rw [this.nodup_iff, List.map_map]
    simpa [Function.comp_def] using h1
  · intro f
    have := (hsort (ks.map fun f => (⟨f, .fin (sgn o.metric *
          (average (turnScores sc X.frame (nthPerm R X.frame.rows.length o.rng) fs n f) - sc X.frame.rows))⟩ : FeatRow F K))).1.map FeatRow.f
    rw [this.mem_iff, List.map_map]
    simpa [Function.comp_def] using h2 f
  · refine (hsort _).2.imp_of_mem ?_
    intro a b ha hb hab
    have hb' := (hsort _).1.mem_iff.1 hb
    have ha' := (hsort _).1.mem_iff.1 ha
    obtain ⟨f, _, rfl⟩ := List.mem_map.1 ha'
    obtain ⟨f', _, rfl⟩ := List.mem_map.1 hb'
    simpa [Num.keyLE] using hab
  · intro row hrow
    have := (hsort _).1.mem_iff.1 hrow
    obtain ⟨f, _, rfl⟩ := List.mem_map.1 this
    exact ⟨_, rfl, rfl⟩

/-- **C30.** A requested feature the model ignores has exactly one row and its importance is exactly 0 — for every
metric, generator and number of repetitions. -/
theorem C30_ignored_feature_has_zero_importance {o : PermObj G F K} {f : F} (hR : R.Lawful)
    (hsort : SortsBy FeatRow.val false sort)
    (hsc : Scores model o.metric y.values X.frame.rows.length sc) (hig : ModelIgnores model f) (hf : f ∈ fs)
    (hfs : ∀ f ∈ fs, f ∈ X.frame.cols) (hn : 0 < n) (calls : List (List (Row F V))) :
    ∃ t o' c', PermObj.run sort R model X y n (some fs) o calls = (.ok t, o', c') ∧
      (⟨f, .fin 0⟩ : FeatRow F K) ∈ t ∧ ∀ row ∈ t, row.f = f → row.val = .fin 0 := by
  have hne := List.ne_nil_of_mem hf
  obtain ⟨t, o', c', h1, _, _, h3, _, h5⟩ := C30_one_row_per_feature_sorted hR hsort hsc hfs hne hn calls
  have h0 : ∀ row ∈ t, row.f = f → row.val = .fin 0 := by
    rintro row hrow rfl
    obtain ⟨x, hx, e⟩ := h5 row hrow
    rw [average_of_all_eq (turnScores_ne_nil hn hf _) (c := sc X.frame.rows) (fun x hx => by
      obtain ⟨k, rfl⟩ := turnScores_mem hx
      exact scores_permuted_ignored hsc hig _), sub_self, mul_zero] at e
    rw [hx, e]
  refine ⟨t, o', c', h1, ?_, h0⟩
  obtain ⟨row, hrow, e⟩ := List.mem_map.1 ((h3 f).2 hf)
  have := h0 row hrow e
  cases row
  simp only at e this
  subst e this
  exact hrow

/-- **C30.** If the predictions for the data are exactly the targets then no importance is negative (MSE, RMSE,
Accuracy). -/
theorem C30_perfect_model_nonneg_importance [LawfulSqrt K] {o : PermObj G F K} (hR : R.Lawful)
    (hsort : SortsBy FeatRow.val false sort) (hM : o.metric = mseM ∨ o.metric = rmseM ∨ o.metric = accuracyM)
    {P : List (Row F V) → List K} (hP : Predicts model P) (hy : y.values = (P X.frame.rows).map Num.fin)
    (hX : X.frame.rows ≠ []) (hfs : ∀ f ∈ fs, f ∈ X.frame.cols) (hne : fs ≠ []) (hn : 0 < n)
    (calls : List (List (Row F V))) :
    ∃ t o' c', PermObj.run sort R model X y n (some fs) o calls = (.ok t, o', c') ∧
      ∀ row ∈ t, ∃ x : K, row.val = .fin x ∧ 0 ≤ x := by
  have hlen : (P X.frame.rows).length = X.frame.rows.length := by
    obtain ⟨p, _, h⟩ := hP
    exact (h 0 _).2
  obtain ⟨sc, hsc, hr, hb⟩ := scores_of_predicts hM hP (ts := P X.frame.rows) (by
    intro h; rw [h] at hlen; exact hX (List.length_eq_zero_iff.1 hlen.symm))
  rw [hlen, ← hy] at hsc
  rw [hlen] at hr hb
  obtain ⟨t, o', c', h1, _, _, h3, _, h5⟩ := C30_one_row_per_feature_sorted hR hsort hsc hfs hne hn calls
  refine ⟨t, o', c', h1, fun row hrow => ?_⟩
  obtain ⟨x, hx, e⟩ := h5 row hrow
  refine ⟨x, hx, ?_⟩
  have hf : row.f ∈ fs := (h3 _).1 (List.mem_map.2 ⟨row, hrow, rfl⟩)
  have hnn := turnScores_ne_nil (sc := sc) (X := X.frame) hn hf (nthPerm R X.frame.rows.length o.rng)
  have hb' := hb _ rfl rfl
  cases hc : o.metric.isClass with
  | true =>
    have := average_le hnn (c := 1) (fun z hz => by
      obtain ⟨k, rfl⟩ := turnScores_mem hz
      exact (hr _ (length_permuted _ _ _)).1 hc)
    rw [e, hb'.1 hc, hc]
    simp only [if_true]
    linarith
  | false =>
    have := average_ge hnn (c := 0) (fun z hz => by
      obtain ⟨k, rfl⟩ := turnScores_mem hz
      exact (hr _ (length_permuted _ _ _)).2 hc)
    rw [e, hb'.2 hc, hc]
    simp only [Bool.false_eq_true, if_false]
    linarith

section Cases
open Ex

/-- the model `x0 * x1` on columns 0, 1, 2; it ignores column 2 -/
def exPerfModel {K : Type} [Field K] : ModelObj (Fin 3) ℤ (Num K) where
  ident := 1
  predict := some (fun _ rows => .ok (rows.map (fun r => .fin ((r 0 * r 1 : ℤ) : K))))
  predictProba := none

/-- data with pairwise different columns -/
def exPerfX : LFrame Nat (Fin 3) ℤ := ⟨[0, 1, 2], ⟨[0, 1, 2], [![1, 2, 5], ![2, 0, 7], ![3, 4, 9]]⟩⟩

/-- the targets are the predictions -/
def exPerfY {K : Type} [Field K] : Target Nat K := .array [.fin 2, .fin 0, .fin 12]

/-- the computed table: feature 2 has importance 0 -/
example : (PermObj.run (L := Nat) (stableSort FeatRow.val false) exRng exPerfModel exPerfX exPerfY 2 (some [2, 0, 1])
    (⟨0, mseM, none⟩ : PermObj Nat (Fin 3) ℚ) []).1.map (fun t => t.map FeatRow.f) = .ok [0, 1, 2] := by decide +kernel
example : (PermObj.run (L := Nat) (stableSort FeatRow.val false) exRng exPerfModel exPerfX exPerfY 2 (some [2, 0, 1])
    (⟨0, mseM, none⟩ : PermObj Nat (Fin 3) ℚ) []).1.map (fun t => t.map FeatRow.val) =
    .ok [.fin (80 / 3), .fin (40 / 3), .fin 0] := by decide +kernel

theorem exPredicts {K : Type} [Field K] :
    Predicts (exPerfModel (K := K)) (fun rows => rows.map (fun r => ((r 0 * r 1 : ℤ) : K))) :=
  ⟨_, rfl, fun k rows => ⟨by simp [Function.comp_def], by simp⟩⟩

theorem exIgnores {K : Type} [Field K] : ModelIgnores (exPerfModel (K := K)) 2 := by
  intro p hp k k' rows rows' h
  cases hp
  have : rows.map (fun r => (.fin ((r 0 * r 1 : ℤ) : K) : Num K)) = rows'.map (fun r => .fin ((r 0 * r 1 : ℤ) : K)) := by
    induction h with
    | nil => rfl
    | cons h1 _ ih => simp only [List.map_cons, ih, h1 0 (by decide), h1 1 (by decide)]
  simp only [this]

/-- the hypotheses of C29 and C30, over ℝ with RMSE -/
example : ∃ t o' c', PermObj.run (L := Nat) (stableSort FeatRow.val false) exRng exPerfModel exPerfX exPerfY 2
    (some [2, 0, 1]) (⟨0, rmseM, none⟩ : PermObj Nat (Fin 3) ℝ) [] = (.ok t, o', c') ∧
      ∀ row ∈ t, ∃ x : ℝ, row.val = .fin x ∧ 0 ≤ x :=
  C30_perfect_model_nonneg_importance (K := ℝ) exRng_lawful (sortsBy_stableSort _ _) (Or.inr (Or.inl rfl)) exPredicts
    (by simp [exPerfY, Target.values, exPerfX]; norm_num) (by simp [exPerfX]) (by simp [exPerfX]) (by simp) (by simp) []

example : ∃ t o' c', PermObj.run (L := Nat) (stableSort FeatRow.val false) exRng exPerfModel exPerfX exPerfY 2
    (some [2, 0, 1]) (⟨0, rmseM, none⟩ : PermObj Nat (Fin 3) ℝ) [] = (.ok t, o', c') ∧
      (⟨2, .fin 0⟩ : FeatRow (Fin 3) ℝ) ∈ t := by
  obtain ⟨sc, hsc, _⟩ := scores_of_predicts (M := rmseM) (Or.inr (Or.inl rfl)) (exPredicts (K := ℝ))
    (ts := [2, 0, 12]) (by simp)
  obtain ⟨t, o', c', h, h1, _⟩ := C30_ignored_feature_has_zero_importance (sort := stableSort FeatRow.val false)
    (R := exRng) (X := exPerfX) (y := exPerfY) (o := (⟨0, rmseM, none⟩ : PermObj Nat (Fin 3) ℝ)) (n := 2)
    (fs := [2, 0, 1]) (f := 2) exRng_lawful (sortsBy_stableSort _ _) hsc exIgnores (by simp) (by simp [exPerfX])
    (by simp) []
  exact ⟨t, o', c', h, h1⟩

end Cases
end Artemis
