import Verif.Spec.Spread
import Verif.Props.Greenwell

/-!
# Properties C68–C70: the values in the tables are those of the literature

Setting as in `Verif/Props/HStat.lean`; the formulas are in `Verif/Spec/Decomp.lean` and `Verif/Spec/Spread.lean`.
-/

set_option linter.unusedSectionVars false
set_option linter.unusedVariables false
set_option linter.unusedSimpArgs false

namespace Artemis
open Spec

variable {F V K G L : Type} [DecidableEq F] [LinearOrder V] [DecidableEq L] [Field K] [LinearOrder K]
  [IsStrictOrderedRing K] [HasSqrt K]
variable {g : Row F V → Num K} {E : PdEnv G F K} {a : PdArgs L F V K} {s0 s : PdpMethod G L F V K} {Xs : LFrame L F V}

section helpers

theorem levels_npUnique (X : Frame F V) (f : F) : Levels X f (npUnique (X.col f)) :=
  ⟨nodup_npUnique _, fun v => by rw [mem_npUnique]; simp [Frame.col]⟩

theorem sumDev_nonneg (l : List K) : 0 ≤ sumDev l := sum_sq_nonneg l (fun x => x - average l)

theorem sumDev_map {α : Type} (l : List α) (u : α → K) :
    sumDev (l.map u) = (l.map (fun a => (u a - avg (l.map u)) * (u a - avg (l.map u)))).sum := by
  simp [sumDev, average_eq, List.map_map, Function.comp_def]

theorem isPopStd_npStd [LawfulSqrt K] {α : Type} (l : List α) (u : α → K) (h : l ≠ []) :
    ∃ k, npStd (l.map (fun a => (.fin (u a) : Num K))) = .fin k ∧ IsPopStd (l.map u) k := by
  refine ⟨_, npStd_fin l u h, LawfulSqrt.nonneg _, ?_⟩
  have e : avg (l.map (fun a => (u a - avg (l.map u)) * (u a - avg (l.map u)))) = sumDev (l.map u) / (l.map u).length := by
    rw [sumDev_map, avg]; simp
  rw [e]
  exact LawfulSqrt.mul_self _ (div_nonneg (sumDev_nonneg _) (Nat.cast_nonneg _))

theorem isSampleStd_stdev [LawfulSqrt K] {α : Type} {l : List α} {u : α → K} {x : Num K}
    (h : stdev (l.map (fun a => (.fin (u a) : Num K))) = .ok x) : ∃ k, x = .fin k ∧ IsSampleStd (l.map u) k := by
  by_cases h2 : 2 ≤ l.length
  · rw [stdev_fin l u h2] at h
    refine ⟨_, (Except.ok.inj h).symm, by simpa using h2, LawfulSqrt.nonneg _, ?_⟩
    have hc : ((l.length - 1 : Nat) : K) = ((l.map u).length : K) - 1 := by
      rw [Nat.cast_sub (by omega)]; simp
    rw [← sumDev_map, hc]
    refine LawfulSqrt.mul_self _ (div_nonneg (sumDev_nonneg _) ?_)
    rw [← hc]; exact Nat.cast_nonneg _
  · rw [stdev_short (by simpa using h2)] at h; cases h

theorem isQuarterRange_rangeImp {α : Type} {l : List α} {u : α → K} {x : Num K}
    (h : rangeImp (l.map (fun a => (.fin (u a) : Num K))) = .ok x) : ∃ k, x = .fin k ∧ IsQuarterRange (l.map u) k := by
  by_cases hl : l = []
  · subst hl; cases h
  obtain ⟨M, m, h1, ⟨a, ha, h2⟩, h3, ⟨b, hb, h4⟩, h5⟩ := rangeImp_fin l u hl
  rw [h1] at h
  refine ⟨_, (Except.ok.inj h).symm, m, List.mem_map.2 ⟨b, hb, h4.symm⟩, M, List.mem_map.2 ⟨a, ha, h2.symm⟩, ?_, rfl⟩
  intro y hy
  obtain ⟨c, hc, rfl⟩ := List.mem_map.1 hy
  exact ⟨h5 c hc, h3 c hc⟩

theorem condImp_spec [LawfulSqrt K] {α : Type} {num : Bool} {l : List α} {u : α → K} {x : Num K}
    (h : condImp num (l.map (fun a => (.fin (u a) : Num K))) = .ok x) :
    ∃ k, x = .fin k ∧ if num then IsSampleStd (l.map u) k else IsQuarterRange (l.map u) k := by
  cases num
  · exact isQuarterRange_rangeImp h
  · exact isSampleStd_stdev h

theorem impNum_spec [LawfulSqrt K] {num : Bool} {u : Row F V → K} {X : Frame F V} (hX : X.rows ≠ []) {f : F} {x : Num K}
    (h : impNum num (finM u) X f = .ok x) : ∃ k, x = .fin k ∧ IsImportance num u X f k := by
  have e : Spec.pdSingle (finM u) X f = fun v => .fin (pd1 u X f v) := by
    funext v; exact pdSingle_fin u hX f v
  unfold impNum at h
  rw [e] at h
  cases num
  · simp only [Bool.false_eq_true, if_false] at h
    obtain ⟨k, h1, h2⟩ := isQuarterRange_rangeImp h
    exact ⟨k, h1, _, levels_npUnique X f, h2⟩
  · simp only [if_true, Except.ok.injEq] at h
    obtain ⟨k, h1, h2⟩ := isPopStd_npStd (npUnique (X.col f)) (pd1 u X f) (col_ne_nil hX f)
    exact ⟨k, by rw [← h, ← h1], _, levels_npUnique X f, h2⟩

/-- the conditional importances of the slices, and the spread of them -/
theorem stdevOfImp_spec [LawfulSqrt K] {num : Bool} {A B : List V} (nd : A.Nodup) {m : V → V → K} {x : Num K}
    (h : stdevOfImp num (A.map (fun a => B.map (fun b => (.fin (m a b) : Num K)))) = .ok x) :
    ∃ (k : K) (imp : V → K), x = .fin k ∧ IsSampleStd (A.map imp) k ∧
      ∀ a ∈ A, if num then IsSampleStd (B.map (m a)) (imp a) else IsQuarterRange (B.map (m a)) (imp a) := by
  unfold stdevOfImp at h
  simp only [bind, Except.bind] at h
  split at h
  · cases h
  cases em : (A.map (fun a => B.map (fun b => (.fin (m a b) : Num K)))).mapM (condImp num) with
  | error e => rw [em] at h; cases h
  | ok imps =>
    rw [em] at h
    simp only at h
    have hF := mapM_eq_ok em
    rw [List.forall₂_map_left_iff] at hF
    have hF' : List.Forall₂ (fun a x => ∃ k, x = .fin k ∧
        if num then IsSampleStd (B.map (m a)) k else IsQuarterRange (B.map (m a)) k) A imps :=
      hF.imp (fun a x hx => condImp_spec hx)
    have key : ∀ (A : List V) (imps : List (Num K)), A.Nodup → List.Forall₂ (fun a x => ∃ k, x = .fin k ∧
        if num then IsSampleStd (B.map (m a)) k else IsQuarterRange (B.map (m a)) k) A imps →
        ∃ imp : V → K, imps = A.map (fun a => .fin (imp a)) ∧
          ∀ a ∈ A, if num then IsSampleStd (B.map (m a)) (imp a) else IsQuarterRange (B.map (m a)) (imp a) := by
      intro A imps nd hF
      induction hF with
      | nil => exact ⟨fun _ => 0, rfl, fun a ha => (by cases ha)⟩
      | cons h1 _ ih =>
        rename_i a0 x0 A0 i0 _
        obtain ⟨k, rfl, hk⟩ := h1
        obtain ⟨ha0, nd0⟩ := List.nodup_cons.1 nd
        obtain ⟨imp, rfl, hi⟩ := ih nd0
        refine ⟨fun a => if a = a0 then k else imp a, ?_, ?_⟩
        · rw [List.map_cons]
          simp only [if_true]
          congr 1
          apply List.map_congr_left
          intro a ha
          have hn : a ≠ a0 := fun e => ha0 (e ▸ ha)
          simp only [if_neg hn]
        · intro a ha
          rcases List.mem_cons.1 ha with rfl | ha
          · simpa using hk
          · have : a ≠ a0 := fun e => ha0 (e ▸ ha)
            simpa only [if_neg this] using hi a ha
    obtain ⟨imp, rfl, hi⟩ := key A imps nd hF'
    obtain ⟨k, h1, h2⟩ := isSampleStd_stdev h
    exact ⟨k, imp, h1, h2, hi⟩

theorem pd2_swap (u : Row F V → K) (X : Frame F V) {f f' : F} (hne : f ≠ f') (v v' : V) :
    pd2 u X f f' v v' = pd2 u X f' f v' v := by
  unfold pd2
  congr 1
  apply List.map_congr_left
  intro r _
  rw [setF_comm r hne]

theorem gwNum_spec [LawfulSqrt K] {numeric : F → Bool} {u : Row F V → K} {X : Frame F V} (hX : X.rows ≠ []) {f f' : F}
    (hne : f ≠ f') {x : Num K} (h : gwNum (numeric f) (numeric f') (finM u) X f f' = .ok x) :
    ∃ k, x = .fin k ∧ IsGreenwell numeric u X f f' k := by
  rw [gwNum_fin _ _ u hX] at h
  simp only [bind, Except.bind] at h
  cases hJ : stdevOfImp (numeric f') ((npUnique (X.col f)).map (fun v =>
        (npUnique (X.col f')).map (fun v' => (.fin (pd2 u X f f' v v') : Num K)))) with
  | error er => rw [hJ] at h; cases h
  | ok j =>
    rw [hJ] at h
    simp only at h
    cases hI : stdevOfImp (numeric f) ((npUnique (X.col f')).map (fun v' =>
        (npUnique (X.col f)).map (fun v => (.fin (pd2 u X f f' v v') : Num K)))) with
    | error er => rw [hI] at h; cases h
    | ok i =>
      rw [hI] at h
      simp only [Except.ok.injEq] at h
      obtain ⟨kj, ij, rfl, hj1, hj2⟩ := stdevOfImp_spec (nodup_npUnique _) hJ
      obtain ⟨ki, ii, rfl, hi1, hi2⟩ := stdevOfImp_spec (m := fun v' v => pd2 u X f f' v v') (nodup_npUnique _) hI
      rw [Num.add_fin, Num.div_fin _ _ (by norm_num)] at h
      refine ⟨_, h.symm, kj, ki, ⟨_, _, ij, levels_npUnique X f, levels_npUnique X f', hj1, hj2⟩,
        ⟨_, _, ii, levels_npUnique X f', levels_npUnique X f, hi1, ?_⟩, rfl⟩
      intro v' hv'
      have := hi2 v' hv'
      simp only [pd2_swap u X hne] at this
      exact this

theorem isGreenwell_swap {numeric : F → Bool} {u : Row F V → K} {X : Frame F V} {f f' : F} {x : K}
    (h : IsGreenwell numeric u X f f' x) : IsGreenwell numeric u X f' f x := by
  obtain ⟨s, s', h1, h2, e⟩ := h
  exact ⟨s', s, h2, h1, by rw [e, add_comm]⟩

end helpers

/-! ## C68 -/

/-- **C68.** After a returning `fit` with the one-vs-all part on non-empty data with finite predictions, `ova` has one
row per requested feature, and each value is the one-vs-all H of the literature: with `D = p - PD_f - PD_rest` (all
centred, brute-force), `sum D^2 / sum p^2` if normalized and the root of the mean of `D^2` if not. -/
theorem C68_ova_is_textbook_formula [LawfulSqrt K] {u : Row F V → K} (n : Bool) (hs : FitSetup (finM u) E a s0 Xs)
    (hsort : SortsBy FeatRow.val false E.sortFeat) (hX : Xs.frame.rows ≠ []) (hova : a.calculateOva = true)
    (hret : PdpMethod.fit (.friedman n) E a s0 = (.ok (), s)) :
    ∃ tbl, s.ova = some tbl ∧ (tbl.map (·.f)).Perm (a.features.getD a.X.frame.cols) ∧ ∀ row ∈ tbl,
      let num := sumSq Xs.frame (interactionOva u Xs.frame row.f)
      let den := sumSq Xs.frame (centred Xs.frame u)
      if n then
        (den ≠ 0 → row.val = .fin (num / den)) ∧ (den = 0 → num ≠ 0 → row.val = .pinf) ∧
          (den = 0 → num = 0 → row.val = .fin 0)
      else ∃ h : K, row.val = .fin h ∧ 0 ≤ h ∧ h * h = num / Xs.frame.rows.length := by
  refine ⟨_, hTableOva_of_fit hs hret hova, ?_, ?_⟩
  · have e : ((hTableOva E n (finM u) Xs.frame a.feats).map (·.f)) =
        (E.sortFeat (a.feats.map (fun f => (⟨f, hFeat n (finM u) Xs.frame f⟩ : FeatRow F K)))).map (·.f) := by
      rw [hTableOva, List.map_map]; rfl
    rw [e]
    have := (hsort (a.feats.map (fun f => (⟨f, hFeat n (finM u) Xs.frame f⟩ : FeatRow F K)))).1.map (·.f)
    rw [List.map_map] at this
    have e2 : (a.feats.map ((fun x : FeatRow F K => x.f) ∘ fun f => ⟨f, hFeat n (finM u) Xs.frame f⟩)) = a.feats := by
      simp [Function.comp_def]
    rw [e2] at this
    exact this
  intro row hrow
  obtain ⟨f, hf, rfl⟩ := (mem_hTableOva hsort).1 hrow
  intro num den
  have hnum : num = (Xs.frame.rows.map (fun r => interactionOva u Xs.frame f r * interactionOva u Xs.frame f r)).sum := rfl
  have hn0 : 0 ≤ num := sum_sq_nonneg _ _
  have hcore : hFeat n (finM u) Xs.frame f = hCore n Xs.frame.rows (interactionOva u Xs.frame f)
      (centred Xs.frame u) := by
    rw [hFeat_fin, hNum_core]; rfl
  simp only [hcore, hCore]
  cases n
  · simp only [Bool.false_eq_true, if_false, if_neg hX]
    have hp : 0 ≤ num / Xs.frame.rows.length := div_nonneg hn0 (by positivity)
    have he : avg (Xs.frame.rows.map (fun r => interactionOva u Xs.frame f r * interactionOva u Xs.frame f r)) =
        num / Xs.frame.rows.length := by
      simp [avg, hnum]
    rw [he]
    refine ⟨HasSqrt.sqrt (num / Xs.frame.rows.length), ?_, LawfulSqrt.nonneg _, LawfulSqrt.mul_self _ hp⟩
    simp only [Num.sqrt, if_neg (not_lt.2 hp), Num.fillna0_fin]
  · simp only [if_true]
    change (den ≠ 0 → (Num.div (.fin num) (.fin den)).fillna0 = _) ∧ (den = 0 → num ≠ 0 →
      (Num.div (.fin num) (.fin den)).fillna0 = _) ∧ (den = 0 → num = 0 → (Num.div (.fin num) (.fin den)).fillna0 = _)
    refine ⟨fun h => ?_, fun h h' => ?_, fun h h' => ?_⟩
    · rw [Num.div_fin _ _ h]; rfl
    · have : 0 < num := lt_of_le_of_ne hn0 (Ne.symm h')
      simp [Num.div, h, Num.infSign, this]
    · simp [Num.div, h, h', Num.infSign]

/-! ## C69 -/

/-- **C69.** After a returning Greenwell `fit` on non-empty data with finite predictions the value of every row is the
mean of the two standard deviations of the conditional importances (numerical or categorical according to the dtype of
each feature). -/
theorem C69_greenwell_is_textbook_formula [LawfulSqrt K] {u : Row F V → K} (hs : FitSetup (finM u) E a s0 Xs)
    (hX : Xs.frame.rows ≠ []) (hsort : SortsBy OvoRow.val false E.sortOvo)
    (hret : PdpMethod.fit .greenwell E a s0 = (.ok (), s)) :
    ∃ tbl, s.ovo = some tbl ∧ ∀ row ∈ tbl, ∃ k : K, row.val = .fin k ∧
      IsGreenwell E.numeric u Xs.frame row.f1 row.f2 k := by
  have r := fit_ok hs hret
  obtain ⟨rows, h1, h2⟩ := r.ovo
  simp only [ovoRows] at h1
  refine ⟨_, h2, ?_⟩
  intro row hrow
  obtain ⟨r0, hr0, rfl⟩ := List.mem_map.1 hrow
  have hr := (hsort _).1.mem_iff.1 hr0
  have hF := (List.forall₂_iff_get.1 (mapM_eq_ok h1))
  obtain ⟨i, hi, rfl⟩ := List.mem_iff_get.1 hr
  have hi' : i.1 < (combinations2 a.feats).length := by rw [hF.1]; exact i.2
  have hq := hF.2 i.1 hi' i.2
  have hmem : (combinations2 a.feats).get ⟨i.1, hi'⟩ ∈ combinations2 a.feats := List.get_mem _ _
  change gwRow (numIn E a.feats) (finM u) Xs.frame ((combinations2 a.feats).get ⟨i.1, hi'⟩) = .ok (rows.get i) at hq
  generalize rows.get i = row0 at hq ⊢
  generalize (combinations2 a.feats).get ⟨i.1, hi'⟩ = q at hq hmem
  have hin := mem_combinations2 hmem
  have hnum : ∀ f ∈ a.feats, numIn E a.feats f = E.numeric f := by
    intro f hf; simp [numIn, hf]
  have hc1 : (canonPair Xs.frame q).1 ∈ a.feats ∧ (canonPair Xs.frame q).2 ∈ a.feats := by
    unfold canonPair
    split
    · exact ⟨hin.1, hin.2⟩
    · exact ⟨hin.2, hin.1⟩
  unfold gwRow at hq
  rw [hnum _ hc1.1, hnum _ hc1.2] at hq
  cases e : gwNum (E.numeric (canonPair Xs.frame q).1) (E.numeric (canonPair Xs.frame q).2) (finM u) Xs.frame
      (canonPair Xs.frame q).1 (canonPair Xs.frame q).2 with
  | error er => rw [e] at hq; cases hq
  | ok v =>
    rw [e] at hq
    simp only [Except.map, Except.ok.injEq] at hq
    subst hq
    obtain ⟨k, rfl, hk⟩ := gwNum_spec hX (canonPair_ne (r.valid.ne q hmem)) e
    exact ⟨k, rfl, hk⟩

/-! ## C70 -/

/-- **C70.** After a returning `fit` of either PD-based method on non-empty data with finite predictions every value in
the importance table is the spread of the feature's partial dependence over its levels. -/
theorem C70_pd_importance_is_textbook_formula [LawfulSqrt K] {u : Row F V → K} (kind : PdKind)
    (hs : FitSetup (finM u) E a s0 Xs) (hX : Xs.frame.rows ≠ []) (hsort : SortsBy FeatRow.val false E.sortFeat)
    (hret : PdpMethod.fit kind E a s0 = (.ok (), s)) :
    ∃ tbl, s.importance = some tbl ∧ ∀ row ∈ tbl, ∃ k : K, row.val = .fin k ∧
      IsImportance (E.numeric row.f) u Xs.frame row.f k := by
  obtain ⟨rows, h1, h2⟩ := (fit_ok hs hret).imp
  refine ⟨_, h2, ?_⟩
  intro row hrow
  obtain ⟨r0, hr0, rfl⟩ := List.mem_map.1 hrow
  have hr := (hsort _).1.mem_iff.1 hr0
  have hF := (List.forall₂_iff_get.1 (mapM_eq_ok h1))
  obtain ⟨i, hi, rfl⟩ := List.mem_iff_get.1 hr
  have hi' : i.1 < a.feats.length := by rw [hF.1]; exact i.2
  have hq := hF.2 i.1 hi' i.2
  have hmem : a.feats.get ⟨i.1, hi'⟩ ∈ a.feats := List.get_mem _ _
  change impRow E (finM u) Xs.frame a.feats (a.feats.get ⟨i.1, hi'⟩) = .ok (rows.get i) at hq
  generalize rows.get i = row0 at hq ⊢
  generalize a.feats.get ⟨i.1, hi'⟩ = f at hq hmem
  have hnum : numIn E a.feats f = E.numeric f := by simp [numIn, hmem]
  unfold impRow at hq
  rw [hnum] at hq
  cases e : impNum (E.numeric f) (finM u) Xs.frame f with
  | error er => rw [e] at hq; cases hq
  | ok v =>
    rw [e] at hq
    simp only [Except.map, Except.ok.injEq] at hq
    subst hq
    obtain ⟨k, rfl, hk⟩ := impNum_spec hX e
    exact ⟨k, rfl, hk⟩

section Cases
open Ex

/-- C69 and C70 on the example: the two pairs with feature 2 and the pair (0, 1) all have a Greenwell value -/
example : ∃ s tbl, PdpMethod.fit (G := Nat) (L := Nat) (K := ℝ) .greenwell exEnv exArgs (PdpMethod.new 0) =
    (.ok (), s) ∧ s.ovo = some tbl ∧ tbl.length = 3 ∧ ∀ row ∈ tbl, ∃ k : ℝ, row.val = .fin k ∧
      IsGreenwell (exEnv (K := ℝ)).numeric exU exX row.f1 row.f2 k := by
  obtain ⟨s, hs⟩ := exGwR
  obtain ⟨tbl, h1, h2⟩ := C69_greenwell_is_textbook_formula (exSetup 0) exRows (sortsBy_stableSort _ _) hs
  obtain ⟨tbl', h1', h3⟩ := C13_one_row_per_pair .greenwell (exSetup 0) (sortsBy_stableSort _ _)
    (by show [(0 : Fin 3), 1, 2].Nodup; decide) hs
  rw [h1] at h1'
  cases h1'
  exact ⟨s, tbl, hs, h1, h3.1, h2⟩

end Cases
end Artemis
