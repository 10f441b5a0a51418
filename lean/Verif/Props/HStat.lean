import Verif.Proofs.HLemmas
import Verif.Examples.FitData

/-!
# Properties C10–C16, C66: Friedman's H-statistic, supplied calculators

`K` is any ordered field with a square root (exact arithmetic); `finM u` is a model whose predictions are the finite
numbers `u r`. `FitSetup g E a s0 Xs` says: on state `s0` with arguments `a` the (sampled) data are `Xs`, the
prediction function in use scores row by row with `g`, reads the columns only, column names are distinct, and a
supplied calculator (if any) has only been used through its public calls with an equivalent prediction function.
`PdpMethod.fit` is the modelled `fit`; it may have been called before on the same object (`s0` is arbitrary).
-/

set_option linter.unusedSectionVars false
set_option linter.unusedVariables false
set_option linter.unusedSimpArgs false

namespace Artemis
open Spec

/-- the row is about the unordered pair `{f, f'}` -/
def OvoRow.isPair {F K : Type} (row : OvoRow F K) (f f' : F) : Prop :=
  (row.f1 = f ∧ row.f2 = f') ∨ (row.f1 = f' ∧ row.f2 = f)

instance {F K : Type} [DecidableEq F] (row : OvoRow F K) (f f' : F) : Decidable (row.isPair f f') := by
  unfold OvoRow.isPair; infer_instance

variable {F V K G L : Type} [DecidableEq F] [LinearOrder V] [DecidableEq L] [Field K] [LinearOrder K]
  [IsStrictOrderedRing K] [HasSqrt K]
variable {g : Row F V → Num K} {E : PdEnv G F K} {a : PdArgs L F V K} {s0 s : PdpMethod G L F V K} {Xs : LFrame L F V}

section helpers

theorem hTable_of_fit {n : Bool} (hs : FitSetup g E a s0 Xs)
    (h : PdpMethod.fit (.friedman n) E a s0 = (.ok (), s)) :
    s.ovo = some (hTable E n g Xs.frame a.feats) ∧ ValidFeatures Xs.frame a.feats := by
  have r := fit_ok hs h
  obtain ⟨rows, h1, h2⟩ := r.ovo
  simp only [ovoRows, Except.ok.injEq] at h1
  subst h1
  exact ⟨h2, r.valid⟩

theorem mem_hTable (hsort : SortsBy OvoRow.val false E.sortOvo) {n : Bool} {X : Frame F V} {fs : List F}
    {row : OvoRow F K} : row ∈ hTable E n g X fs ↔
      ∃ q ∈ combinations2 fs, row = ⟨q.1, q.2, (hPair n g X q.1 q.2).fillna0⟩ := by
  unfold hTable
  simp only [List.mem_map, (hsort _).1.mem_iff]
  constructor
  · rintro ⟨_, ⟨q, hq, rfl⟩, rfl⟩
    exact ⟨q, hq, rfl⟩
  · rintro ⟨q, hq, rfl⟩
    exact ⟨_, ⟨q, hq, rfl⟩, rfl⟩

theorem mem_hTableOva (hsort : SortsBy FeatRow.val false E.sortFeat) {n : Bool} {X : Frame F V} {fs : List F}
    {row : FeatRow F K} : row ∈ hTableOva E n g X fs ↔ ∃ f ∈ fs, row = ⟨f, (hFeat n g X f).fillna0⟩ := by
  unfold hTableOva
  simp only [List.mem_map, (hsort _).1.mem_iff]
  constructor
  · rintro ⟨_, ⟨q, hq, rfl⟩, rfl⟩
    exact ⟨q, hq, rfl⟩
  · rintro ⟨q, hq, rfl⟩
    exact ⟨_, ⟨q, hq, rfl⟩, rfl⟩

theorem hTableOva_of_fit {n : Bool} (hs : FitSetup g E a s0 Xs)
    (h : PdpMethod.fit (.friedman n) E a s0 = (.ok (), s)) (ho : a.calculateOva = true) :
    s.ova = some (hTableOva E n g Xs.frame a.feats) := by
  have r := (fit_ok hs h).ova
  simpa [ho] using r

theorem pair_in_combinations {fs : List F} {f f' : F} (h : f ∈ fs) (h' : f' ∈ fs) (hne : f ≠ f') :
    ∃ q ∈ combinations2 fs, (q.1 = f ∧ q.2 = f') ∨ (q.1 = f' ∧ q.2 = f) := by
  rcases mem_combinations2_or h h' hne with h | h
  · exact ⟨_, h, Or.inl ⟨rfl, rfl⟩⟩
  · exact ⟨_, h, Or.inr ⟨rfl, rfl⟩⟩

end helpers

/-! ## C10 -/

/-- **C10.** If the prediction is `x r + y r` with `x` not depending on `f` and `y` not depending on `f'`, then after
a returning `fit` the row for `{f, f'}` holds exactly 0; and there is such a row if both features are included. -/
theorem C10_H_zero_for_non_interacting_pair [LawfulSqrt K] {u x y : Row F V → K} (hu : ∀ r, u r = x r + y r)
    {f f' : F} (hx : Ignores x f) (hy : Ignores y f') (n : Bool) (hs : FitSetup (finM u) E a s0 Xs)
    (hsort : SortsBy OvoRow.val false E.sortOvo)
    (hret : PdpMethod.fit (.friedman n) E a s0 = (.ok (), s)) :
    ∃ tbl, s.ovo = some tbl ∧ (∀ row ∈ tbl, row.isPair f f' → row.val = .fin 0) ∧
      (f ∈ a.feats → f' ∈ a.feats → f ≠ f' → ∃ row ∈ tbl, row.isPair f f') := by
  obtain ⟨h1, hv⟩ := hTable_of_fit hs hret
  refine ⟨_, h1, ?_, ?_⟩
  · intro row hrow hp
    obtain ⟨q, hq, rfl⟩ := (mem_hTable hsort).1 hrow
    have hne := hv.ne q hq
    rcases hp with ⟨rfl, rfl⟩ | ⟨h1, h2⟩
    · exact hPair_zero n hu hne hx hy Xs.frame
    · simp only at h1 h2
      subst h1 h2
      exact hPair_zero n (fun r => by rw [hu r, add_comm]) hne hy hx Xs.frame
  · intro hf hf' hne
    obtain ⟨q, hq, he⟩ := pair_in_combinations hf hf' hne
    exact ⟨_, (mem_hTable hsort).2 ⟨q, hq, rfl⟩, he⟩

/-! ## C11 -/

/-- **C11.** If the prediction is `x r + y r` with `x` depending on `f` only and `y` not depending on `f`, then after a
returning `fit` (with the one-vs-all part) the row for `f` in `ova` holds exactly 0, and every included feature has a
row. -/
theorem C11_ova_zero_for_additive_feature [LawfulSqrt K] {u x y : Row F V → K} (hu : ∀ r, u r = x r + y r)
    {f : F} (hx : OnlyUses x f) (hy : Ignores y f) (n : Bool) (hs : FitSetup (finM u) E a s0 Xs)
    (hsort : SortsBy FeatRow.val false E.sortFeat) (hova : a.calculateOva = true)
    (hret : PdpMethod.fit (.friedman n) E a s0 = (.ok (), s)) :
    ∃ tbl, s.ova = some tbl ∧ (∀ row ∈ tbl, row.f = f → row.val = .fin 0) ∧
      (f ∈ a.feats → ∃ row ∈ tbl, row.f = f) := by
  refine ⟨_, hTableOva_of_fit hs hret hova, ?_, ?_⟩
  · intro row hrow hf
    obtain ⟨f0, _, rfl⟩ := (mem_hTableOva hsort).1 hrow
    simp only at hf
    subst hf
    exact hFeat_zero n hu hx hy Xs.frame
  · intro hf
    exact ⟨_, (mem_hTableOva hsort).2 ⟨f, hf, rfl⟩, rfl⟩

/-! ## C12 -/

/-- **C12**, one-vs-one: no NaN, no negative value, non-increasing. -/
theorem C12_ovo_nonneg_sorted [LawfulSqrt K] {u : Row F V → K} (n : Bool) (hs : FitSetup (finM u) E a s0 Xs)
    (hsort : SortsBy OvoRow.val false E.sortOvo)
    (hret : PdpMethod.fit (.friedman n) E a s0 = (.ok (), s)) :
    ∃ tbl, s.ovo = some tbl ∧ (∀ row ∈ tbl, row.val ≠ .nan ∧ Num.le (.fin 0) row.val = true) ∧
      tbl.Pairwise (fun r r' => Num.le r'.val r.val = true) := by
  obtain ⟨h1, _⟩ := hTable_of_fit hs hret
  have hraw : ∀ row ∈ (combinations2 a.feats).map (hRow n (finM u) Xs.frame), row.val = .nan ∨ Num.Nonneg row.val := by
    intro row hrow
    obtain ⟨q, _, rfl⟩ := List.mem_map.1 hrow
    simp only [hRow, hPair_fin]
    exact hNum_nonneg n Xs.frame.rows _ _ _
  refine ⟨_, h1, ?_, ?_⟩
  · intro row hrow
    obtain ⟨r, hr, rfl⟩ := List.mem_map.1 hrow
    rcases hraw r ((hsort _).1.mem_iff.1 hr) with h | h
    · simp [OvoRow.fillna, h]
    · simp only [OvoRow.fillna, Num.fillna0_of_ne h.not_nan]
      exact ⟨h.not_nan, h⟩
  · rw [hTable, List.pairwise_map]
    refine List.Pairwise.imp_of_mem ?_ (hsort _).2
    intro r r' hr hr' hk
    exact Num.keyLE_fillna hk (hraw r ((hsort _).1.mem_iff.1 hr)) (hraw r' ((hsort _).1.mem_iff.1 hr'))

/-- **C12**, one-vs-all. -/
theorem C12_ova_nonneg_sorted [LawfulSqrt K] {u : Row F V → K} (n : Bool) (hs : FitSetup (finM u) E a s0 Xs)
    (hsort : SortsBy FeatRow.val false E.sortFeat) (hova : a.calculateOva = true)
    (hret : PdpMethod.fit (.friedman n) E a s0 = (.ok (), s)) :
    ∃ tbl, s.ova = some tbl ∧ (∀ row ∈ tbl, row.val ≠ .nan ∧ Num.le (.fin 0) row.val = true) ∧
      tbl.Pairwise (fun r r' => Num.le r'.val r.val = true) := by
  have hraw : ∀ row ∈ a.feats.map (fun f => (⟨f, hFeat n (finM u) Xs.frame f⟩ : FeatRow F K)),
      row.val = .nan ∨ Num.Nonneg row.val := by
    intro row hrow
    obtain ⟨q, _, rfl⟩ := List.mem_map.1 hrow
    simp only [hFeat_fin]
    exact hNum_nonneg n Xs.frame.rows _ _ _
  refine ⟨_, hTableOva_of_fit hs hret hova, ?_, ?_⟩
  · intro row hrow
    obtain ⟨r, hr, rfl⟩ := List.mem_map.1 hrow
    rcases hraw r ((hsort _).1.mem_iff.1 hr) with h | h
    · simp [FeatRow.fillna, h]
    · simp only [FeatRow.fillna, Num.fillna0_of_ne h.not_nan]
      exact ⟨h.not_nan, h⟩
  · rw [hTableOva, List.pairwise_map]
    refine List.Pairwise.imp_of_mem ?_ (hsort _).2
    intro r r' hr hr' hk
    exact Num.keyLE_fillna hk (hraw r ((hsort _).1.mem_iff.1 hr)) (hraw r' ((hsort _).1.mem_iff.1 hr'))

/-! ## C13 -/

theorem length_combinations2 {α : Type*} (l : List α) : (combinations2 l).length = l.length * (l.length - 1) / 2 := by
  induction l with
  | nil => simp [combinations2]
  | cons x xs ih =>
    simp only [combinations2, List.length_append, List.length_map, ih, List.length_cons, Nat.add_sub_cancel]
    cases h : xs.length with
    | zero => rfl
    | succ m =>
      simp only [Nat.add_sub_cancel]
      have e : (m + 1 + 1) * (m + 1) = (m + 1) * m + (m + 1) * 2 := by ring
      rw [e, Nat.add_mul_div_right _ _ (by decide : 0 < 2), Nat.add_comm]

/-- among positional pairs of a duplicate-free list each unordered pair occurs exactly once -/
theorem countP_combinations2 {l : List F} (nd : l.Nodup) {f f' : F} (h : f ∈ l) (h' : f' ∈ l) (hne : f ≠ f') :
    (combinations2 l).countP (fun q => decide ((q.1 = f ∧ q.2 = f') ∨ (q.1 = f' ∧ q.2 = f))) = 1 := by
  have key : ∀ {a b : F}, (a, b) ∈ combinations2 l → a ≠ b →
      (combinations2 l).countP (fun q => decide ((q.1 = a ∧ q.2 = b) ∨ (q.1 = b ∧ q.2 = a))) = 1 := by
    intro a b hab hne
    have hns := not_mem_combinations2_swap nd hab
    have : (combinations2 l).countP (fun q => decide ((q.1 = a ∧ q.2 = b) ∨ (q.1 = b ∧ q.2 = a))) =
        (combinations2 l).count (a, b) := by
      unfold List.count
      apply List.countP_congr
      intro q hq
      simp only [decide_eq_true_eq, beq_iff_eq]
      constructor
      · rintro (⟨h1, h2⟩ | ⟨h1, h2⟩)
        · exact Prod.ext h1 h2
        · have : q = (b, a) := Prod.ext h1 h2
          subst this
          exact absurd hq hns
      · rintro rfl; exact Or.inl ⟨rfl, rfl⟩
    rw [this]
    exact List.count_eq_one_of_mem (nodup_combinations2 nd) hab
  rcases mem_combinations2_or h h' hne with h1 | h1
  · exact key h1 hne
  · have := key h1 hne.symm
    rw [← this]
    apply List.countP_congr
    intro q _
    simp only [decide_eq_true_eq]
    tauto

theorem canon_rows {X : Frame F V} {fs : List F} (rows : List (OvoRow F K))
    (h : List.Forall₂ (fun q row => row.isPair q.1 q.2) (combinations2 fs) rows) (f f' : F) :
    rows.countP (fun r => decide (r.isPair f f')) =
      (combinations2 fs).countP (fun q => decide ((q.1 = f ∧ q.2 = f') ∨ (q.1 = f' ∧ q.2 = f))) := by
  generalize combinations2 fs = ps at h
  induction h with
  | nil => rfl
  | cons h1 _ ih =>
    rw [List.countP_cons, List.countP_cons, ih]
    congr 1
    have : ∀ {P Q : Prop} [Decidable P] [Decidable Q], (P ↔ Q) →
        (if decide P = true then 1 else 0) = (if decide Q = true then 1 else 0) := by
      intro P Q _ _ h; by_cases hp : P <;> simp [hp, h.1, ← h]
    apply this
    unfold OvoRow.isPair at h1 ⊢
    rcases h1 with ⟨h1, h2⟩ | ⟨h1, h2⟩ <;> rw [h1, h2] <;> tauto

/-- **C13.** After a returning `fit` (H-statistic or Greenwell) with distinct features `fs` (all columns if none were
given): the table has `n(n-1)/2` rows, every unordered pair of different features of `fs` has exactly one row, and
every row is such a pair. -/
theorem C13_one_row_per_pair (kind : PdKind) (hs : FitSetup g E a s0 Xs)
    (hsort : SortsBy OvoRow.val false E.sortOvo)
    (hfs : (a.features.getD a.X.frame.cols).Nodup)
    (hret : PdpMethod.fit kind E a s0 = (.ok (), s)) :
    let fs := a.features.getD a.X.frame.cols
    ∃ tbl, s.ovo = some tbl ∧ tbl.length = fs.length * (fs.length - 1) / 2 ∧
      (∀ f ∈ fs, ∀ f' ∈ fs, f ≠ f' → tbl.countP (fun r => decide (r.isPair f f')) = 1) ∧
      (∀ row ∈ tbl, row.f1 ∈ fs ∧ row.f2 ∈ fs ∧ row.f1 ≠ row.f2) := by
  intro fs
  have r := fit_ok hs hret
  obtain ⟨rows, h1, h2⟩ := r.ovo
  have hfeats : a.feats = fs := rfl
  rw [hfeats] at h1
  have hF : List.Forall₂ (fun q row => row.isPair q.1 q.2) (combinations2 fs) rows := by
    cases kind with
    | friedman n =>
      simp only [ovoRows, Except.ok.injEq] at h1
      subst h1
      rw [List.forall₂_map_right_iff]
      exact List.forall₂_same.2 (fun q _ => Or.inl ⟨rfl, rfl⟩)
    | greenwell =>
      simp only [ovoRows] at h1
      refine (mapM_eq_ok h1).imp (fun q row hq => ?_)
      unfold gwRow at hq
      cases e : gwNum (numIn E fs (canonPair Xs.frame q).1) (numIn E fs (canonPair Xs.frame q).2) g Xs.frame
        (canonPair Xs.frame q).1 (canonPair Xs.frame q).2 with
      | error e' => rw [e] at hq; cases hq
      | ok v =>
        rw [e] at hq
        simp only [Except.map, Except.ok.injEq] at hq
        subst hq
        unfold canonPair OvoRow.isPair
        split <;> simp
  have hlen : rows.length = (combinations2 fs).length := hF.length_eq.symm
  refine ⟨_, h2, ?_, ?_, ?_⟩
  · rw [List.length_map, (hsort rows).1.length_eq, hlen, length_combinations2]
  · intro f hf f' hf' hne
    rw [List.countP_map, ← countP_combinations2 hfs hf hf' hne, ← canon_rows (X := Xs.frame) rows hF f f']
    rw [← (hsort rows).1.countP_eq]
    rfl
  · intro row hrow
    obtain ⟨r0, hr0, rfl⟩ := List.mem_map.1 hrow
    have hr0 := (hsort rows).1.mem_iff.1 hr0
    have hfl := hF.flip
    obtain ⟨q, hq, hp⟩ := exists_of_forall₂ hfl hr0
    have hm := mem_combinations2 hq
    have hne := ne_of_mem_combinations2 hfs (a := q.1) (b := q.2) hq
    simp only [OvoRow.fillna]
    rcases hp with ⟨e1, e2⟩ | ⟨e1, e2⟩
    · rw [e1, e2]; exact ⟨hm.1, hm.2, hne⟩
    · rw [e1, e2]; exact ⟨hm.2, hm.1, hne.symm⟩

/-! ## C14 -/

section C14
variable {a' : PdArgs L F V K} {s0' s' : PdpMethod G L F V K}

/-- **C14**, normalized: the model `c*u + d` (`c ≠ 0`) gets exactly the same tables as `u`. -/
theorem C14_normalized_affine_invariant [LawfulSqrt K] {u : Row F V → K} {c d : K} (hc : c ≠ 0)
    (hs : FitSetup (finM u) E a s0 Xs) (hs' : FitSetup (finM (fun r => c * u r + d)) E a' s0' Xs)
    (hf : a'.feats = a.feats) (hret : PdpMethod.fit (.friedman true) E a s0 = (.ok (), s))
    (hret' : PdpMethod.fit (.friedman true) E a' s0' = (.ok (), s')) :
    s'.ovo = s.ovo ∧ (a.calculateOva = true → a'.calculateOva = true → s'.ova = s.ova) := by
  constructor
  · rw [(hTable_of_fit hs hret).1, (hTable_of_fit hs' hret').1, hf]
    have e : hRow true (finM (fun r => c * u r + d)) Xs.frame = hRow true (finM u) Xs.frame := by
      funext q; simp only [hRow, hPair_affine true u _ _ _ c d hc, if_true]
    simp only [hTable, e]
  · intro h1 h2
    rw [hTableOva_of_fit hs hret h1, hTableOva_of_fit hs' hret' h2, hf]
    simp only [hTableOva, hFeat_affine true u _ _ c d hc, if_true]

theorem fillna_scale {c : K} (x : Num K) : (Num.scale c x).fillna0 = Num.scale c x.fillna0 ∨ x = .pinf ∨ x = .ninf := by
  cases x <;> simp [Num.scale, Num.mul]

/-- **C14**, not normalized: the model `c*u + d` gets, up to the order of equal values, the table of `u` with every
value multiplied by `|c|`. -/
theorem C14_unnormalized_scales [LawfulSqrt K] {u : Row F V → K} {c d : K} (hc : c ≠ 0)
    (hs : FitSetup (finM u) E a s0 Xs) (hs' : FitSetup (finM (fun r => c * u r + d)) E a' s0' Xs)
    (hsort : SortsBy OvoRow.val false E.sortOvo)
    (hf : a'.feats = a.feats) (hret : PdpMethod.fit (.friedman false) E a s0 = (.ok (), s))
    (hret' : PdpMethod.fit (.friedman false) E a' s0' = (.ok (), s')) :
    ∃ tbl tbl', s.ovo = some tbl ∧ s'.ovo = some tbl' ∧
      (tbl.map (fun r => (⟨r.f1, r.f2, Num.mul (.fin |c|) r.val⟩ : OvoRow F K))).Perm tbl' := by
  refine ⟨_, _, (hTable_of_fit hs hret).1, (hTable_of_fit hs' hret').1, ?_⟩
  rw [hf]
  unfold hTable
  refine (((hsort _).1.map OvoRow.fillna).map _).trans (List.Perm.trans ?_ ((hsort _).1.map OvoRow.fillna).symm)
  rw [List.map_map, List.map_map, List.map_map]
  apply List.Perm.of_eq
  apply List.map_congr_left
  intro q _
  simp only [Function.comp, hRow, OvoRow.fillna, hPair_affine false u _ _ _ c d hc, Bool.false_eq_true, if_false]
  congr 1
  have hp : hPair false (finM u) Xs.frame q.1 q.2 ≠ .pinf ∧ hPair false (finM u) Xs.frame q.1 q.2 ≠ .ninf := by
    rw [hPair_fin, hNum_fin]
    simp only [Bool.false_eq_true, if_false]
    split
    · simp
    · simp only [Num.sqrt]
      split <;> simp
  rcases fillna_scale (c := |c|) (hPair false (finM u) Xs.frame q.1 q.2) with h | h | h
  · exact h.symm
  · exact absurd h hp.1
  · exact absurd h hp.2

/-- **C14**, order of the features: listing the same features in another order changes no value. -/
theorem C14_feature_order_irrelevant (n : Bool) (hs : FitSetup g E a s0 Xs) (hs' : FitSetup g E a' s0' Xs)
    (hsort : SortsBy OvoRow.val false E.sortOvo) (hf : a'.feats.Perm a.feats) (nd : a.feats.Nodup)
    (hret : PdpMethod.fit (.friedman n) E a s0 = (.ok (), s))
    (hret' : PdpMethod.fit (.friedman n) E a' s0' = (.ok (), s')) :
    ∃ tbl tbl', s.ovo = some tbl ∧ s'.ovo = some tbl' ∧ tbl.length = tbl'.length ∧
      ∀ row ∈ tbl, ∀ row' ∈ tbl', row'.isPair row.f1 row.f2 → row'.val = row.val := by
  obtain ⟨h1, hv⟩ := hTable_of_fit hs hret
  obtain ⟨h1', hv'⟩ := hTable_of_fit hs' hret'
  refine ⟨_, _, h1, h1', ?_, ?_⟩
  · simp only [hTable, List.length_map, (hsort _).1.length_eq, length_combinations2, hf.length_eq]
  · intro row hrow row' hrow' hp
    obtain ⟨q, hq, rfl⟩ := (mem_hTable hsort).1 hrow
    obtain ⟨q', hq', rfl⟩ := (mem_hTable hsort).1 hrow'
    simp only [OvoRow.isPair] at hp ⊢
    rcases hp with ⟨e1, e2⟩ | ⟨e1, e2⟩
    · rw [e1, e2]
    · rw [e1, e2, hPair_swap n g _ (hv.ne q hq)]
end C14

/-! ## C66 -/

/-- **C66.** On non-empty data with finite predictions each normalized value is
`sum (PD_ff' - PD_f - PD_f')^2 / sum PD_ff'^2` (centred brute-force partial dependences) unless the denominator is 0,
and each unnormalized value is the root of the mean of `(PD_ff' - PD_f - PD_f')^2`. -/
theorem C66_H_is_textbook_formula [LawfulSqrt K] {u : Row F V → K} (n : Bool) (hs : FitSetup (finM u) E a s0 Xs)
    (hsort : SortsBy OvoRow.val false E.sortOvo) (hX : Xs.frame.rows ≠ [])
    (hret : PdpMethod.fit (.friedman n) E a s0 = (.ok (), s)) :
    ∃ tbl, s.ovo = some tbl ∧ ∀ row ∈ tbl,
      let num := sumSq Xs.frame (interaction u Xs.frame row.f1 row.f2)
      let den := sumSq Xs.frame (centred Xs.frame (fun r => pd2 u Xs.frame row.f1 row.f2 (r row.f1) (r row.f2)))
      if n then
        (den ≠ 0 → row.val = .fin (num / den)) ∧ (den = 0 → num ≠ 0 → row.val = .pinf) ∧
          (den = 0 → num = 0 → row.val = .fin 0)
      else ∃ h : K, row.val = .fin h ∧ 0 ≤ h ∧ h * h = num / Xs.frame.rows.length := by
  obtain ⟨h1, _⟩ := hTable_of_fit hs hret
  refine ⟨_, h1, ?_⟩
  intro row hrow
  obtain ⟨q, hq, rfl⟩ := (mem_hTable hsort).1 hrow
  intro num den
  have hnum : num = (Xs.frame.rows.map (fun r => interaction u Xs.frame q.1 q.2 r * interaction u Xs.frame q.1 q.2 r)).sum := rfl
  have hn0 : 0 ≤ num := sum_sq_nonneg _ _
  have hcore : hPair n (finM u) Xs.frame q.1 q.2 = hCore n Xs.frame.rows (interaction u Xs.frame q.1 q.2)
      (centred Xs.frame (fun r => pd2 u Xs.frame q.1 q.2 (r q.1) (r q.2))) := by
    rw [hPair_fin, hNum_core]; rfl
  simp only [hcore, hCore]
  cases n
  · simp only [Bool.false_eq_true, if_false, if_neg hX]
    have hp : 0 ≤ num / Xs.frame.rows.length := div_nonneg hn0 (by positivity)
    have he : avg (Xs.frame.rows.map (fun r => interaction u Xs.frame q.1 q.2 r * interaction u Xs.frame q.1 q.2 r)) =
        num / Xs.frame.rows.length := by
      simp [avg, hnum]
    rw [he]
    refine ⟨HasSqrt.sqrt (num / Xs.frame.rows.length), ?_, LawfulSqrt.nonneg _, LawfulSqrt.mul_self _ hp⟩
    simp only [Num.sqrt, if_neg (not_lt.2 hp), Num.fillna0_fin]
  · simp only [if_true]
    change (den ≠ 0 → (Num.div (.fin num) (.fin den)).fillna0 = _) ∧ (den = 0 → num ≠ 0 →
      (Num.div (.fin num) (.fin den)).fillna0 = _) ∧ (den = 0 → num = 0 → (Num.div (.fin num) (.fin den)).fillna0 = _)
    refine ⟨fun h => ?_, fun h h' => ?_, fun h h' => ?_⟩
    · rw [Num.div_fin _ _ h]; rfl
    · have : 0 < num := lt_of_le_of_ne hn0 (Ne.symm h')
      simp [Num.div, h, Num.infSign, this]
    · simp [Num.div, h, h', Num.infSign]

/-! ## C15 -/

section C15
variable {a' : PdArgs L F V K} {s0' s' : PdpMethod G L F V K}

/-- **C15.** Two returning fits of the same method with the same prediction function, (sampled) data and features get
the same tables, whatever calculators were supplied (and however those had been used before), whatever the batch
sizes. In particular: a reused calculator against none. -/
theorem C15_reused_calculator_same_tables (kind : PdKind) (hs : FitSetup g E a s0 Xs) (hs' : FitSetup g E a' s0' Xs)
    (hf : a'.feats = a.feats) (hret : PdpMethod.fit kind E a s0 = (.ok (), s))
    (hret' : PdpMethod.fit kind E a' s0' = (.ok (), s')) :
    s'.ovo = s.ovo ∧ s'.importance = s.importance ∧
      (∀ n, kind = .friedman n → a.calculateOva = true → a'.calculateOva = true → s'.ova = s.ova) := by
  have r := fit_ok hs hret
  have r' := fit_ok hs' hret'
  obtain ⟨rows, h1, h2⟩ := r.ovo
  obtain ⟨rows', h1', h2'⟩ := r'.ovo
  obtain ⟨irows, h3, h4⟩ := r.imp
  obtain ⟨irows', h3', h4'⟩ := r'.imp
  rw [hf] at h1' h3'
  rw [h1] at h1'
  rw [h3] at h3'
  cases h1'
  cases h3'
  refine ⟨by rw [h2, h2'], by rw [h4, h4'], ?_⟩
  rintro n rfl ho ho'
  have e := r.ova
  have e' := r'.ova
  simp only [ho, ho', hf, if_true] at e e'
  simp only [e, e']

/-- **C15**, returning: if scoring never fails, the fit with the supplied matching calculator returns exactly if the
fit without it returns. -/
theorem C15_reused_calculator_returns_iff (kind : PdKind) (b : Int) (hs : FitSetup g E a s0 Xs)
    (hs' : FitSetup g E { a with pdCalculator := none, batchsize := b } s0' Xs) {co : CalcObj L F V K}
    (hco : a.pdCalculator = some co) (hm : co.modelId = a.model.ident) (hl : co.labels = Xs.labels)
    (hd : SameData co.obj.X Xs.frame) (hp : NeverFails a.pf) (hpc : NeverFails co.obj.predict)
    (hv : ValidFeatures Xs.frame a.feats) :
    (PdpMethod.fit kind E a s0).1 = .ok () ↔
      (PdpMethod.fit kind E { a with pdCalculator := none, batchsize := b } s0').1 = .ok () := by
  have e : LFrame.equals ⟨co.labels, co.obj.X⟩ Xs = true := equals_of_sameData hl hd
  have hc : PdpMethod.chooseCalc a Xs a.pf = .ok co := by
    simp [PdpMethod.chooseCalc, hco, hm, e]
  have hc' : PdpMethod.chooseCalc { a with pdCalculator := none, batchsize := b } Xs a.pf =
      .ok ⟨a.model.ident, Xs.labels, Calc.new a.pf Xs.frame b⟩ := by
    simp [PdpMethod.chooseCalc]
  rw [(fit_returns (e := .keyError) hs hc hp hpc hv).1, (fit_returns (e := .keyError) hs' hc' hp hp hv).1]
  exact Iff.rfl

/-- **C15**, sharing: fit one method without a calculator, hand its calculator to a second method (of either kind, on
its own object) fitted with the same model, prediction function and (sampled) data: when both returned, the second
method has the tables it would have got without it. -/
theorem C15_share_calculator_between_methods (kind kind' : PdKind) {sh : PdpMethod G L F V K}
    (hs : FitSetup g E a s0 Xs) (hn : a.pdCalculator = none)
    (hret : PdpMethod.fit kind E a s0 = (.ok (), s))
    (hs' : FitSetup g E a' s0' Xs) (hn' : a'.pdCalculator = none)
    (hret' : PdpMethod.fit kind' E a' s0' = (.ok (), s'))
    (hretsh : PdpMethod.fit kind' E { a' with pdCalculator := s.pdc } s0' = (.ok (), sh)) :
    sh.ovo = s'.ovo ∧ sh.importance = s'.importance ∧
      (∀ n, kind' = .friedman n → a'.calculateOva = true → sh.ova = s'.ova) := by
  have r := fit_ok hs hret
  have hssh : FitSetup g E { a' with pdCalculator := s.pdc } s0' Xs := by
    refine ⟨hs'.sampled, hs'.rowWise, hs'.reads, hs'.cols_nodup, ?_⟩
    intro co hco
    obtain ⟨co0, c', h1, h2, ⟨ops, h3⟩⟩ := r.pdc
    simp only [PdpMethod.chooseCalc, hn, Except.ok.injEq] at h1
    rw [h2] at hco
    cases hco
    subst h1
    exact ⟨a.pf, a.batchsize, ops, Xs.frame, hs.rowWise, h3⟩
  have := C15_reused_calculator_same_tables kind' hs' hssh rfl hret' hretsh
  exact ⟨this.1, this.2.1, fun n hk ho => this.2.2 n hk ho ho⟩

end C15

/-! ## C16 -/

/-- **C16**, rejection: a calculator built for another model object or on other data (values, columns, number of rows
or row labels) makes `fit` raise ValueError and the tables stay what they were. No assumption on the model. -/
theorem C16_mismatched_calculator_rejected (kind : PdKind) {co : CalcObj L F V K} (hco : a.pdCalculator = some co)
    (hsm : (sampleIfNotNone E.R a.X a.n s0.rng).1 = .ok Xs)
    (hbad : co.modelId ≠ a.model.ident ∨ co.labels ≠ Xs.labels ∨ ¬ SameData co.obj.X Xs.frame) :
    (PdpMethod.fit kind E a s0).1 = .error .valueError ∧ (PdpMethod.fit kind E a s0).2.ovo = s0.ovo ∧
      (PdpMethod.fit kind E a s0).2.ova = s0.ova ∧ (PdpMethod.fit kind E a s0).2.importance = s0.importance := by
  have hc : ∀ pf, PdpMethod.chooseCalc a Xs pf = .error .valueError := by
    intro pf
    simp only [PdpMethod.chooseCalc, hco]
    by_cases hm : co.modelId = a.model.ident
    · have e : LFrame.equals ⟨co.labels, co.obj.X⟩ Xs = false := by
        rcases hbad with h | h
        · exact absurd hm h
        · by_contra h'
          have := sameData_of_equals (A := ⟨co.labels, co.obj.X⟩) (B := Xs) (by simpa using h')
          rcases h with h | h
          · exact h this.1
          · exact h this.2
      simp [hm, e]
    · simp [hm]
  cases e : sampleIfNotNone E.R a.X a.n s0.rng with
  | mk r rng =>
    rw [e] at hsm
    simp only at hsm
    subst hsm
    simp [PdpMethod.fit, PdpMethod.fitBase, e, hc]

theorem rangeImp_ok {l : List (Num K)} (h : l ≠ []) : ∃ v, rangeImp l = .ok v := by
  cases l with
  | nil => exact absurd rfl h
  | cons x xs => simp [rangeImp, Num.max?, Num.min?]

theorem impRows_ok (E : PdEnv G F K) (g : Row F V → Num K) {X : Frame F V} (hX : X.rows ≠ []) (fs : List F) :
    ∃ rows, fs.mapM (impRow E g X fs) = .ok rows := by
  have : ∀ f ∈ fs, ∃ b, impRow E g X fs f = .ok b := by
    intro f _
    unfold impRow impNum
    split
    · exact ⟨_, rfl⟩
    · have : npUnique (X.col f) ≠ [] := by
        rw [Ne, npUnique_eq_nil_iff]
        simp [Frame.col, hX]
      obtain ⟨v, hv⟩ := rangeImp_ok (l := (npUnique (X.col f)).map (Spec.pdSingle g X f)) (by simpa using this)
      rw [hv]
      exact ⟨_, rfl⟩
  obtain ⟨bs, h, _⟩ := mapM_exists_ok this
  exact ⟨bs, h⟩

/-- **C16**, acceptance: a calculator for the same model on equal data is accepted; the H-statistic returns. -/
theorem C16_matching_calculator_accepted (n : Bool) (hs : FitSetup g E a s0 Xs) {co : CalcObj L F V K}
    (hco : a.pdCalculator = some co) (hm : co.modelId = a.model.ident) (hl : co.labels = Xs.labels)
    (hd : SameData co.obj.X Xs.frame) (hp : NeverFails a.pf) (hpc : NeverFails co.obj.predict)
    (hv : ValidFeatures Xs.frame a.feats) (hX : Xs.frame.rows ≠ []) :
    (PdpMethod.fit (.friedman n) E a s0).1 = .ok () := by
  have e : LFrame.equals ⟨co.labels, co.obj.X⟩ Xs = true := equals_of_sameData hl hd
  have hc : PdpMethod.chooseCalc a Xs a.pf = .ok co := by
    simp [PdpMethod.chooseCalc, hco, hm, e]
  rw [(fit_returns (e := .keyError) hs hc hp hpc hv).1]
  exact ⟨⟨_, rfl⟩, impRows_ok E g hX _⟩

/-! ## Cases -/

section Cases
open Ex

/-- ℚ, computed: `x0*x1 + x2` interacts in the pair (0, 1) only -/
def exFitQ (n : Bool) := PdpMethod.fit (G := Nat) (L := Nat) (K := ℚ) (.friedman n) exEnv exArgs (PdpMethod.new 0)

example : (exFitQ true).1 = .ok () := by decide +kernel
example : ((exFitQ true).2.ovo.getD []).map (fun r => (r.f1, r.f2, decide (r.val = .fin 0))) =
    [(0, 1, false), (0, 2, true), (1, 2, true)] := by decide +kernel
example : ((exFitQ true).2.ova.getD []).map (fun r => (r.f, decide (r.val = .fin 0))) =
    [(0, false), (1, false), (2, true)] := by decide +kernel

/-- ℝ: the fit of the example returns, for both values of `normalized` -/
theorem exFitR (n : Bool) : ∃ s, PdpMethod.fit (G := Nat) (L := Nat) (K := ℝ) (.friedman n) exEnv exArgs
    (PdpMethod.new 0) = (.ok (), s) := by
  have h := (fit_returns (e := .keyError) (kind := .friedman n) (exSetup (K := ℝ) 0) exChoose exNever exNever
    exValid).1.2 ⟨⟨_, ovoRows.eq_1 _ _ _ _ _⟩, impRows_ok _ _ exRows _⟩
  exact ret_of_fst h

/-- C10, C12, C13, C66 on the example: features 0 and 2 do not interact although the model depends on both -/
example (n : Bool) : ∃ s tbl, PdpMethod.fit (G := Nat) (L := Nat) (K := ℝ) (.friedman n) exEnv exArgs
    (PdpMethod.new 0) = (.ok (), s) ∧ s.ovo = some tbl ∧ ∃ row ∈ tbl, row.isPair 0 2 ∧ row.val = .fin 0 := by
  obtain ⟨s, hs⟩ := exFitR n
  obtain ⟨tbl, h1, h2, h3⟩ := C10_H_zero_for_non_interacting_pair (u := exU (K := ℝ))
    (x := fun r => (r 2 : ℝ)) (y := fun r => (r 0 : ℝ) * r 1) (f := 0) (f' := 2)
    (by intro r; simp [exU]; ring) (by intro r v; simp [setF]) (by intro r v; simp [setF]) n (exSetup 0)
    (sortsBy_stableSort _ _) hs
  obtain ⟨row, hr, hp⟩ := h3 (by decide) (by decide) (by decide)
  exact ⟨s, tbl, hs, h1, row, hr, hp, h2 row hr hp⟩

/-- C11 on the example: feature 2 enters additively -/
example (n : Bool) : ∃ s tbl, PdpMethod.fit (G := Nat) (L := Nat) (K := ℝ) (.friedman n) exEnv exArgs
    (PdpMethod.new 0) = (.ok (), s) ∧ s.ova = some tbl ∧ ∃ row ∈ tbl, row.f = 2 ∧ row.val = .fin 0 := by
  obtain ⟨s, hs⟩ := exFitR n
  obtain ⟨tbl, h1, h2, h3⟩ := C11_ova_zero_for_additive_feature (u := exU (K := ℝ))
    (x := fun r => (r 2 : ℝ)) (y := fun r => (r 0 : ℝ) * r 1) (f := 2)
    (by intro r; simp [exU]; ring) (by intro r r' h; simp [h]) (by intro r v; simp [setF]) n (exSetup 0)
    (sortsBy_stableSort _ _) rfl hs
  obtain ⟨row, hr, hp⟩ := h3 (by decide)
  exact ⟨s, tbl, hs, h1, row, hr, hp, h2 row hr hp⟩

/-- C14, computed: `-3*u + 5` -/
def exArgsScaled : PdArgs Nat (Fin 3) ℤ ℚ :=
  { exArgs with model := ⟨1, some (fun _ rows => .ok (rows.map (fun r => .fin (-3 * exU r + 5)))), none⟩ }

example : ((PdpMethod.fit (G := Nat) (.friedman true) exEnv exArgsScaled (PdpMethod.new 0)).2.ovo.getD []).map (·.val)
    = ((exFitQ true).2.ovo.getD []).map (·.val) := by decide +kernel

/-- C15/C16: a calculator used before (single and pair calls) is accepted and gives the same tables; one on other
data is rejected -/
def exCo (labels : List Nat) (modelId : Nat) : CalcObj Nat (Fin 3) ℤ ℚ :=
  ⟨modelId, labels, runOps (Calc.new (exArgs (K := ℚ)).pf exX 2) [.single (some [1]), .pairs (some [(1, 0)]) true]⟩

example : (PdpMethod.fit (G := Nat) (.friedman true) exEnv { exArgs with pdCalculator := some (exCo [10, 11, 12, 13] 1) }
    (PdpMethod.new 0)).2.ovo = (exFitQ true).2.ovo := by decide +kernel
example : (PdpMethod.fit (G := Nat) (.friedman true) exEnv { exArgs with pdCalculator := some (exCo [10, 11, 12, 99] 1) }
    (PdpMethod.new 0)).1 = .error .valueError := by decide +kernel
example : (PdpMethod.fit (G := Nat) (.friedman true) exEnv { exArgs with pdCalculator := some (exCo [10, 11, 12, 13] 2) }
    (PdpMethod.new 0)).1 = .error .valueError := by decide +kernel

end Cases

end Artemis
