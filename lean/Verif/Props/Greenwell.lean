import Verif.Proofs.GwLemmas
import Verif.Props.HStat

/-!
# Properties C17–C20: Greenwell's measure and PD-based importance

Setting as in `Verif/Props/HStat.lean`.
-/

set_option linter.unusedSectionVars false
set_option linter.unusedVariables false
set_option linter.unusedSimpArgs false

namespace Artemis
open Spec

variable {F V K G L : Type} [DecidableEq F] [LinearOrder V] [DecidableEq L] [Field K] [LinearOrder K]
  [IsStrictOrderedRing K] [HasSqrt K]
variable {g : Row F V → Num K} {E : PdEnv G F K} {a : PdArgs L F V K} {s0 s : PdpMethod G L F V K} {Xs : LFrame L F V}

section helpers

/-- rows of Greenwell's table after a returning fit -/
theorem gwTable_of_fit (hs : FitSetup g E a s0 Xs) (hsort : SortsBy OvoRow.val false E.sortOvo)
    (h : PdpMethod.fit .greenwell E a s0 = (.ok (), s)) :
    ValidFeatures Xs.frame a.feats ∧ ∃ rows, s.ovo = some ((E.sortOvo rows).map OvoRow.fillna) ∧
      (∀ row ∈ rows, ∃ q ∈ combinations2 a.feats, row.isPair q.1 q.2 ∧ row.f1 ≠ row.f2 ∧
        ∃ n1 n2, gwNum n1 n2 g Xs.frame row.f1 row.f2 = .ok row.val) ∧
      (∀ q ∈ combinations2 a.feats, ∃ row ∈ rows, row.isPair q.1 q.2) := by
  have r := fit_ok hs h
  obtain ⟨rows, h1, h2⟩ := r.ovo
  simp only [ovoRows] at h1
  have hF := mapM_eq_ok h1
  have key : ∀ q ∈ combinations2 a.feats, ∀ row, gwRow (numIn E a.feats) g Xs.frame q = .ok row →
      row.isPair q.1 q.2 ∧ row.f1 ≠ row.f2 ∧ ∃ n1 n2, gwNum n1 n2 g Xs.frame row.f1 row.f2 = .ok row.val := by
    intro q hq row hrow
    unfold gwRow at hrow
    cases e : gwNum (numIn E a.feats (canonPair Xs.frame q).1) (numIn E a.feats (canonPair Xs.frame q).2) g Xs.frame
        (canonPair Xs.frame q).1 (canonPair Xs.frame q).2 with
    | error e' => rw [e] at hrow; cases hrow
    | ok v =>
      rw [e] at hrow
      simp only [Except.map, Except.ok.injEq] at hrow
      subst hrow
      refine ⟨?_, canonPair_ne (r.valid.ne q hq), _, _, e⟩
      unfold canonPair OvoRow.isPair
      split <;> simp
  refine ⟨r.valid, rows, h2, ?_, ?_⟩
  · intro row hrow
    have hFm : List.Forall₂ (fun q row => q ∈ combinations2 a.feats ∧ gwRow (numIn E a.feats) g Xs.frame q = .ok row)
        (combinations2 a.feats) rows := by
      have : ∀ (l : List (F × F)) (r : List (OvoRow F K)), (∀ q ∈ l, q ∈ combinations2 a.feats) →
          List.Forall₂ (fun q row => gwRow (numIn E a.feats) g Xs.frame q = .ok row) l r →
          List.Forall₂ (fun q row => q ∈ combinations2 a.feats ∧ gwRow (numIn E a.feats) g Xs.frame q = .ok row) l r := by
        intro l r hl hh
        induction hh with
        | nil => exact .nil
        | cons h1 _ ih =>
          exact .cons ⟨hl _ List.mem_cons_self, h1⟩ (ih (fun q hq => hl q (List.mem_cons_of_mem _ hq)))
      exact this _ _ (fun q hq => hq) hF
    obtain ⟨q, _, hq, hr⟩ := exists_of_forall₂ hFm.flip hrow
    exact ⟨q, hq, key q hq row hr⟩
  · intro q hq
    obtain ⟨row, h3, h4⟩ := exists_of_forall₂ hF hq
    exact ⟨row, h3, (key q hq row h4).1⟩

theorem two_le_npUnique {l : List V} : 2 ≤ (npUnique l).length ↔ ∃ x ∈ l, ∃ y ∈ l, x ≠ y := by
  constructor
  · intro h
    have nd := nodup_npUnique l
    cases e : npUnique l with
    | nil => rw [e] at h; simp at h
    | cons x t =>
      cases t with
      | nil => rw [e] at h; simp at h
      | cons y t =>
        rw [e] at nd
        have hx : x ∈ npUnique l := by rw [e]; simp
        have hy : y ∈ npUnique l := by rw [e]; simp
        refine ⟨x, mem_npUnique.1 hx, y, mem_npUnique.1 hy, ?_⟩
        rintro rfl
        simp at nd
  · rintro ⟨x, hx, y, hy, hne⟩
    by_contra h
    have hx' := mem_npUnique.2 hx
    have hy' := mem_npUnique.2 hy
    cases e : npUnique l with
    | nil => rw [e] at hx'; simp at hx'
    | cons a t =>
      cases t with
      | nil =>
        rw [e] at hx' hy'
        simp only [List.mem_singleton] at hx' hy'
        exact hne (hx'.trans hy'.symm)
      | cons b t => rw [e] at h; simp at h

end helpers

/-! ## C17 -/

/-- **C17.** If the prediction is `x r + y r` with `x` not depending on `f` and `y` not depending on `f'`, then after a
returning Greenwell `fit` on non-empty data the row for `{f, f'}` (which exists if both are included) holds exactly 0,
whatever the dtypes. -/
theorem C17_greenwell_zero_for_non_interacting_pair [LawfulSqrt K] {u x y : Row F V → K} (hu : ∀ r, u r = x r + y r)
    {f f' : F} (hx : Ignores x f) (hy : Ignores y f') (hs : FitSetup (finM u) E a s0 Xs)
    (hX : Xs.frame.rows ≠ []) (hsort : SortsBy OvoRow.val false E.sortOvo)
    (hret : PdpMethod.fit .greenwell E a s0 = (.ok (), s)) :
    ∃ tbl, s.ovo = some tbl ∧ (∀ row ∈ tbl, row.isPair f f' → row.val = .fin 0) ∧
      (f ∈ a.feats → f' ∈ a.feats → f ≠ f' → ∃ row ∈ tbl, row.isPair f f') := by
  obtain ⟨hv, rows, h1, h2, h3⟩ := gwTable_of_fit hs hsort hret
  refine ⟨_, h1, ?_, ?_⟩
  · intro row hrow hp
    obtain ⟨r, hr, rfl⟩ := List.mem_map.1 hrow
    obtain ⟨q, hq, hqp, hne, n1, n2, hn⟩ := h2 r ((hsort _).1.mem_iff.1 hr)
    have : r.val = .fin 0 := by
      rcases hp with ⟨e1, e2⟩ | ⟨e1, e2⟩
      · simp only [OvoRow.fillna] at e1 e2
        subst e1 e2
        exact gwNum_zero n1 n2 hu hne hx hy hX hn
      · simp only [OvoRow.fillna] at e1 e2
        subst e1 e2
        exact gwNum_zero n1 n2 (fun r => by rw [hu r, add_comm]) hne hy hx hX hn
    simp [OvoRow.fillna, this]
  · intro hf hf' hne
    obtain ⟨q, hq, he⟩ := pair_in_combinations hf hf' hne
    obtain ⟨row, hr, hp⟩ := h3 q hq
    refine ⟨_, List.mem_map.2 ⟨row, (hsort _).1.mem_iff.2 hr, rfl⟩, ?_⟩
    simp only [OvoRow.isPair, OvoRow.fillna] at hp ⊢
    rcases he with ⟨rfl, rfl⟩ | ⟨rfl, rfl⟩
    · exact hp
    · exact hp.symm

/-! ## C18 -/

/-- **C18.** With finite predictions, a prediction function that does not fail, at least one row and different
existing features, Greenwell's `fit` raises StatisticsError exactly if there are at least two features and one of them
has only one value in the (sampled) data; otherwise it returns. -/
theorem C18_greenwell_fails_iff_constant_feature [LawfulSqrt K] {u : Row F V → K} (hs : FitSetup (finM u) E a s0 Xs)
    {co : CalcObj L F V K} (hc : PdpMethod.chooseCalc a Xs a.pf = .ok co) (hp : NeverFails a.pf)
    (hpc : NeverFails co.obj.predict) (hfs : a.feats.Nodup) (hcols : ∀ f ∈ a.feats, f ∈ Xs.frame.cols)
    (hX : Xs.frame.rows ≠ []) :
    ((PdpMethod.fit .greenwell E a s0).1 = .error .statisticsError ↔
      2 ≤ a.feats.length ∧ ∃ f ∈ a.feats, ∀ r ∈ Xs.frame.rows, ∀ r' ∈ Xs.frame.rows, r f = r' f) ∧
    ((PdpMethod.fit .greenwell E a s0).1 ≠ .error .statisticsError → (PdpMethod.fit .greenwell E a s0).1 = .ok ()) := by
  have hv := validFeatures_of_nodup (X := Xs.frame) hcols hfs
  have hret := fun e => fit_returns (e := e) (kind := .greenwell) hs hc hp hpc hv
  have himp := impRows_ok E (finM u) hX a.feats
  have hconst : ∀ f, (¬ 2 ≤ (npUnique (Xs.frame.col f)).length) ↔
      ∀ r ∈ Xs.frame.rows, ∀ r' ∈ Xs.frame.rows, r f = r' f := by
    intro f
    rw [two_le_npUnique]
    simp only [Frame.col, List.mem_map]
    constructor
    · intro h r hr r' hr'
      by_contra hne
      exact h ⟨_, ⟨r, hr, rfl⟩, _, ⟨r', hr', rfl⟩, hne⟩
    · rintro h ⟨_, ⟨r, hr, rfl⟩, _, ⟨r', hr', rfl⟩, hne⟩
      exact hne (h r hr r' hr')
  have herr : ∀ e, ovoRows .greenwell E (finM u) Xs.frame a.feats = .error e → e = .statisticsError := by
    intro e he
    obtain ⟨q, hq, hqe⟩ := exists_of_mapM_error he
    unfold gwRow at hqe
    have hcs := (gwNum_cases (numIn E a.feats (canonPair Xs.frame q).1) (numIn E a.feats (canonPair Xs.frame q).2) u hX
      (canonPair Xs.frame q).1 (canonPair Xs.frame q).2).1
    cases e1 : gwNum (numIn E a.feats (canonPair Xs.frame q).1) (numIn E a.feats (canonPair Xs.frame q).2) (finM u)
        Xs.frame (canonPair Xs.frame q).1 (canonPair Xs.frame q).2 with
    | error e' => rw [e1] at hqe hcs; cases hqe; exact hcs _ rfl
    | ok v => rw [e1] at hqe; cases hqe
  have hgood : (∃ rows, ovoRows .greenwell E (finM u) Xs.frame a.feats = .ok rows) ↔
      ∀ q ∈ combinations2 a.feats, 2 ≤ (npUnique (Xs.frame.col q.1)).length ∧ 2 ≤ (npUnique (Xs.frame.col q.2)).length := by
    have hone : ∀ q : F × F, (∃ row, gwRow (numIn E a.feats) (finM u) Xs.frame q = .ok row) ↔
        2 ≤ (npUnique (Xs.frame.col q.1)).length ∧ 2 ≤ (npUnique (Xs.frame.col q.2)).length := by
      intro q
      have hcs := (gwNum_cases (numIn E a.feats (canonPair Xs.frame q).1) (numIn E a.feats (canonPair Xs.frame q).2) u hX
        (canonPair Xs.frame q).1 (canonPair Xs.frame q).2).2.1
      have h1 : (∃ row, gwRow (numIn E a.feats) (finM u) Xs.frame q = .ok row) ↔
          ∃ x, gwNum (numIn E a.feats (canonPair Xs.frame q).1) (numIn E a.feats (canonPair Xs.frame q).2) (finM u)
            Xs.frame (canonPair Xs.frame q).1 (canonPair Xs.frame q).2 = .ok x := by
        unfold gwRow
        cases gwNum (numIn E a.feats (canonPair Xs.frame q).1) (numIn E a.feats (canonPair Xs.frame q).2) (finM u)
            Xs.frame (canonPair Xs.frame q).1 (canonPair Xs.frame q).2 with
        | error e' => exact ⟨fun ⟨_, h⟩ => (by cases h), fun ⟨_, h⟩ => by cases h⟩
        | ok v => exact ⟨fun _ => ⟨_, rfl⟩, fun _ => ⟨_, rfl⟩⟩
      rw [h1, hcs]
      unfold canonPair
      split
      · exact Iff.rfl
      · exact And.comm
    constructor
    · rintro ⟨rows, hr⟩ q hq
      obtain ⟨row, _, h⟩ := exists_of_forall₂ (mapM_eq_ok hr) hq
      exact (hone q).1 ⟨row, h⟩
    · intro h
      obtain ⟨bs, hb, _⟩ := mapM_exists_ok (fun q hq => (hone q).2 (h q hq))
      exact ⟨bs, hb⟩
  have hcomb : (¬ ∀ q ∈ combinations2 a.feats, 2 ≤ (npUnique (Xs.frame.col q.1)).length ∧
        2 ≤ (npUnique (Xs.frame.col q.2)).length) ↔
      2 ≤ a.feats.length ∧ ∃ f ∈ a.feats, ∀ r ∈ Xs.frame.rows, ∀ r' ∈ Xs.frame.rows, r f = r' f := by
    constructor
    · intro h
      push Not at h
      obtain ⟨q, hq, hbad⟩ := h
      have hm := mem_combinations2 hq
      refine ⟨?_, ?_⟩
      · cases ef : a.feats with
        | nil => rw [ef] at hm; cases hm.1
        | cons x t =>
          cases t with
          | nil => rw [ef] at hq; simp [combinations2] at hq
          | cons y t => simp
      · by_cases h1 : 2 ≤ (npUnique (Xs.frame.col q.1)).length
        · exact ⟨q.2, hm.2, (hconst _).1 (not_le.2 (hbad h1))⟩
        · exact ⟨q.1, hm.1, (hconst _).1 h1⟩
    · rintro ⟨hl, f, hf, hcst⟩ hall
      have : ∃ f' ∈ a.feats, f' ≠ f := by
        by_contra hno
        push Not at hno
        have : a.feats = List.replicate a.feats.length f := List.eq_replicate_iff.2 ⟨rfl, hno⟩
        rw [this] at hfs
        have := List.nodup_replicate.1 hfs
        omega
      obtain ⟨f', hf', hne⟩ := this
      obtain ⟨q, hq, he⟩ := pair_in_combinations hf hf' hne.symm
      have hq' := hall q hq
      have := (hconst f).2 hcst
      rcases he with ⟨rfl, _⟩ | ⟨_, rfl⟩
      · exact this hq'.1
      · exact this hq'.2
  constructor
  · rw [(hret .statisticsError).2 himp, ← hcomb, ← hgood]
    cases e : ovoRows .greenwell E (finM u) Xs.frame a.feats with
    | error e' =>
      have := herr e' e
      subst this
      exact ⟨fun _ ⟨_, h⟩ => (by cases h), fun _ => rfl⟩
    | ok rows => exact ⟨fun h => (by cases h), fun h => absurd ⟨rows, rfl⟩ h⟩
  · intro hne
    rw [(hret .statisticsError).1]
    refine ⟨?_, himp⟩
    cases e : ovoRows .greenwell E (finM u) Xs.frame a.feats with
    | error e' =>
      have := herr e' e
      subst this
      exact absurd (((hret .statisticsError).2 himp).2 e) hne
    | ok rows => exact ⟨rows, rfl⟩

/-! ## C19 -/

/-- **C19.** After a returning Greenwell `fit` on non-empty data every value is a finite non-negative number and the
table is in non-increasing order. -/
theorem C19_greenwell_finite_nonneg_sorted [LawfulSqrt K] {u : Row F V → K} (hs : FitSetup (finM u) E a s0 Xs)
    (hX : Xs.frame.rows ≠ []) (hsort : SortsBy OvoRow.val false E.sortOvo)
    (hret : PdpMethod.fit .greenwell E a s0 = (.ok (), s)) :
    ∃ tbl, s.ovo = some tbl ∧ (∀ row ∈ tbl, ∃ k : K, row.val = .fin k ∧ 0 ≤ k) ∧
      tbl.Pairwise (fun r r' => Num.le r'.val r.val = true) := by
  obtain ⟨hv, rows, h1, h2, h3⟩ := gwTable_of_fit hs hsort hret
  have hraw : ∀ row ∈ rows, ∃ k : K, row.val = .fin k ∧ 0 ≤ k := by
    intro row hrow
    obtain ⟨q, hq, hqp, hne, n1, n2, hn⟩ := h2 row hrow
    exact (gwNum_cases n1 n2 u hX row.f1 row.f2).2.2 _ hn
  refine ⟨_, h1, ?_, ?_⟩
  · intro row hrow
    obtain ⟨r, hr, rfl⟩ := List.mem_map.1 hrow
    obtain ⟨k, h, hk⟩ := hraw r ((hsort _).1.mem_iff.1 hr)
    exact ⟨k, by simp [OvoRow.fillna, h], hk⟩
  · rw [List.pairwise_map]
    refine List.Pairwise.imp_of_mem ?_ (hsort _).2
    intro r r' hr hr' hk
    obtain ⟨k, h, hk0⟩ := hraw r ((hsort _).1.mem_iff.1 hr)
    obtain ⟨k', h', hk0'⟩ := hraw r' ((hsort _).1.mem_iff.1 hr')
    refine Num.keyLE_fillna hk (Or.inr ?_) (Or.inr ?_)
    · rw [h]; exact Num.nonneg_fin.2 hk0
    · rw [h']; exact Num.nonneg_fin.2 hk0'

/-! ## C20 -/

/-- what the importance table computed from brute-force partial dependences looks like -/
theorem impTable_props [LawfulSqrt K] {u : Row F V → K} {fs : List F} {X : Frame F V} (hX : X.rows ≠ [])
    (hsort : SortsBy FeatRow.val false E.sortFeat) {rows : List (FeatRow F K)}
    (h1 : fs.mapM (impRow E (finM u) X fs) = .ok rows) {tbl : List (FeatRow F K)}
    (h2 : tbl = (E.sortFeat rows).map FeatRow.fillna) :
    (tbl.map (·.f)).Perm fs ∧ (∀ row ∈ tbl, ∃ k : K, row.val = .fin k ∧ 0 ≤ k) ∧
      tbl.Pairwise (fun r r' => Num.le r'.val r.val = true) ∧
      (∀ row ∈ tbl, Ignores u row.f → row.val = .fin 0) := by
  subst h2
  have hF := mapM_eq_ok h1
  have hrow : ∀ f row, impRow E (finM u) X fs f = .ok row → row.f = f ∧
      (∃ k : K, row.val = .fin k ∧ 0 ≤ k) ∧ (Ignores u f → row.val = .fin 0) := by
    intro f row h
    unfold impRow at h
    obtain ⟨k, hk, hk0⟩ := impNum_fin (numIn E fs f) u hX f
    rw [hk] at h
    simp only [Except.map, Except.ok.injEq] at h
    subst h
    refine ⟨rfl, ⟨k, rfl, hk0⟩, fun hi => ?_⟩
    rw [impNum_zero _ hi hX] at hk
    exact (Except.ok.inj hk).symm
  have hnames : rows.map (·.f) = fs := by
    have : List.Forall₂ (fun f row => row.f = f) fs rows := hF.imp (fun f row h => (hrow f row h).1)
    clear hF h1 hrow
    induction this with
    | nil => rfl
    | cons h1 _ ih => simp [h1, ih]
  have hraw : ∀ row ∈ rows, (∃ k : K, row.val = .fin k ∧ 0 ≤ k) ∧ (Ignores u row.f → row.val = .fin 0) := by
    intro row hr
    obtain ⟨f, _, hf⟩ := exists_of_forall₂ hF.flip hr
    have := hrow f row hf
    rw [this.1]
    exact this.2
  refine ⟨?_, ?_, ?_, ?_⟩
  · have e : ((E.sortFeat rows).map FeatRow.fillna).map (·.f) = (E.sortFeat rows).map (·.f) := by
      rw [List.map_map]; rfl
    rw [e]
    have := (hsort rows).1.map (·.f)
    rw [hnames] at this
    exact this
  · intro row hrow
    obtain ⟨r, hr, rfl⟩ := List.mem_map.1 hrow
    obtain ⟨k, h, hk⟩ := (hraw r ((hsort _).1.mem_iff.1 hr)).1
    exact ⟨k, by simp [FeatRow.fillna, h], hk⟩
  · rw [List.pairwise_map]
    refine List.Pairwise.imp_of_mem ?_ (hsort _).2
    intro r r' hr hr' hk
    obtain ⟨k, h, hk0⟩ := (hraw r ((hsort _).1.mem_iff.1 hr)).1
    obtain ⟨k', h', hk0'⟩ := (hraw r' ((hsort _).1.mem_iff.1 hr')).1
    refine Num.keyLE_fillna hk (Or.inr ?_) (Or.inr ?_)
    · rw [h]; exact Num.nonneg_fin.2 hk0
    · rw [h']; exact Num.nonneg_fin.2 hk0'
  · intro row hrow hi
    obtain ⟨r, hr, rfl⟩ := List.mem_map.1 hrow
    have := (hraw r ((hsort _).1.mem_iff.1 hr)).2 hi
    simp [FeatRow.fillna, this]

/-- **C20.** After a returning `fit` of either method on non-empty data: the importance table lists exactly the
requested features, each as often as requested, in non-increasing order of finite non-negative values; a feature the
model ignores has exactly 0. -/
theorem C20_pd_importance [LawfulSqrt K] {u : Row F V → K} (kind : PdKind) (hs : FitSetup (finM u) E a s0 Xs)
    (hX : Xs.frame.rows ≠ []) (hsort : SortsBy FeatRow.val false E.sortFeat)
    (hret : PdpMethod.fit kind E a s0 = (.ok (), s)) :
    ∃ tbl, s.importance = some tbl ∧ (tbl.map (·.f)).Perm (a.features.getD a.X.frame.cols) ∧
      (∀ row ∈ tbl, ∃ k : K, row.val = .fin k ∧ 0 ≤ k) ∧
      tbl.Pairwise (fun r r' => Num.le r'.val r.val = true) ∧
      (∀ row ∈ tbl, Ignores u row.f → row.val = .fin 0) := by
  obtain ⟨rows, h1, h2⟩ := (fit_ok hs hret).imp
  exact ⟨_, h2, impTable_props hX hsort h1 rfl⟩

/-! ## Cases -/

section Cases
open Ex

/-- computed over ℚ: returns; the pair (0,1) interacts, (0,2) and (1,2) do not (feature 2 is categorical here) -/
def exGwQ := PdpMethod.fit (G := Nat) (L := Nat) (K := ℚ) .greenwell exEnv exArgs (PdpMethod.new 0)

example : exGwQ.1 = .ok () := by decide +kernel
example : (exGwQ.2.ovo.getD []).map (fun r => (r.f1, r.f2, decide (r.val = .fin 0))) =
    [(0, 1, false), (0, 2, true), (1, 2, true)] := by decide +kernel
example : ((exGwQ.2.importance.getD []).map (·.f)).length = 3 := by decide +kernel

theorem exGwR : ∃ s, PdpMethod.fit (G := Nat) (L := Nat) (K := ℝ) .greenwell exEnv exArgs (PdpMethod.new 0) =
    (.ok (), s) := by
  have h := C18_greenwell_fails_iff_constant_feature (exSetup (K := ℝ) 0) exChoose exNever exNever
    (by show [(0 : Fin 3), 1, 2].Nodup; decide) exValid.cols exRows
  refine ret_of_fst (h.2 ?_)
  rw [Ne, h.1]
  rintro ⟨_, f, _, hc⟩
  have : ∀ f : Fin 3, (∀ r ∈ exX.rows, ∀ r' ∈ exX.rows, r f = r' f) → False := by decide
  exact this f hc

/-- C17 and C19 on the example -/
example : ∃ s tbl, PdpMethod.fit (G := Nat) (L := Nat) (K := ℝ) .greenwell exEnv exArgs (PdpMethod.new 0) =
    (.ok (), s) ∧ s.ovo = some tbl ∧ ∃ row ∈ tbl, row.isPair 0 2 ∧ row.val = .fin 0 := by
  obtain ⟨s, hs⟩ := exGwR
  obtain ⟨tbl, h1, h2, h3⟩ := C17_greenwell_zero_for_non_interacting_pair (u := exU (K := ℝ))
    (x := fun r => (r 2 : ℝ)) (y := fun r => (r 0 : ℝ) * r 1) (f := 0) (f' := 2)
    (by intro r; simp [exU]; ring) (by intro r v; simp [setF]) (by intro r v; simp [setF]) (exSetup 0)
    exRows (sortsBy_stableSort _ _) hs
  obtain ⟨row, hr, hp⟩ := h3 (by decide) (by decide) (by decide)
  exact ⟨s, tbl, hs, h1, row, hr, hp, h2 row hr hp⟩

/-- C18, the failing side: two rows on which feature 1 is constant -/
example : (PdpMethod.fit (G := Nat) (L := Nat) (K := ℚ) .greenwell exEnv
    { exArgs with X := ⟨[0, 1], ⟨exX.cols, [fun _ => 1, fun f => if f = 1 then 1 else 5]⟩⟩ } (PdpMethod.new 0)).1 =
    .error .statisticsError := by decide +kernel

/-- C20: a model ignoring feature 0 -/
example : ((PdpMethod.fit (G := Nat) (L := Nat) (K := ℚ) (.friedman true) exEnv
    { exArgs with model := ⟨1, some (fun _ rows => .ok (rows.map (fun r => .fin (r 1 : ℚ)))), none⟩ }
    (PdpMethod.new 0)).2.importance.getD []).map (fun r => (r.f, decide (r.val = .fin 0))) =
    [(1, false), (0, true), (2, true)] := by decide +kernel

end Cases
end Artemis
