import Verif.Props.RoundedGreenwell
import Verif.Props.Greenwell

/-!
# Properties C151, C152: failures and shape of Greenwell's tables in floating-point arithmetic

Nothing is asked of the predictions here: they may be infinite or NaN.
-/

set_option linter.unusedSectionVars false
set_option linter.unusedVariables false
set_option linter.unusedSimpArgs false

namespace Artemis
open Spec

section RoundedGreenwellTables
variable {F V K : Type} [DecidableEq F] [LinearOrder V] [Field K] [LinearOrder K] [IsStrictOrderedRing K]
  [HasSqrt K] [LawfulSqrt K] {A : Arith K} {std : List (Num K) → Num K} {sortOvo : List (OvoRow F K) → List (OvoRow F K)}
  {sortFeat : List (FeatRow F K) → List (FeatRow F K)} {numeric : F → Bool} {predict : PF F V (Rounded A)}
  {X : Frame F V} {features : List F} {batchsize : Int} {ovo : List (OvoRow F K)} {imp : List (FeatRow F K)}

/-! ## C151 -/

theorem condImpR_cases (b : Bool) {l : List (Num K)} (hl : l ≠ []) :
    (∃ x, condImpR A std b l = .ok x) ∨ (condImpR A std b l = .error .statisticsError ∧ l.length < 2) := by
  unfold condImpR
  cases b with
  | true =>
    simp only [if_true]
    unfold stdevR
    by_cases h : l.length < 2
    · right; exact ⟨if_pos h, h⟩
    · left; exact ⟨_, if_neg h⟩
  | false =>
    left
    obtain ⟨⟨M, e1⟩, m, e2⟩ := max?_isSome hl
    refine ⟨A.div (A.sub M m) (.fin 4), ?_⟩
    simp only [Bool.false_eq_true, if_false]
    unfold rangeImpR
    rw [e1, e2]

theorem stdevOfImpR_cases (b : Bool) {t : List (List (Num K))} (ht : t ≠ []) (hl : ∀ l ∈ t, l ≠ []) :
    ((∃ x, stdevOfImpR A std b t = .ok x) ∧ 2 ≤ t.length) ∨
      (stdevOfImpR A std b t = .error .statisticsError ∧ (t.length < 2 ∨ ∃ l ∈ t, l.length < 2)) := by
  have he : t.isEmpty = false := by cases t with | nil => exact absurd rfl ht | cons a t => rfl
  unfold stdevOfImpR
  simp only [he, Bool.false_eq_true, if_false, bind, Except.bind]
  cases em : t.mapM (condImpR A std b) with
  | error e =>
    right
    obtain ⟨l, hm, h⟩ := exists_of_mapM_error em
    rcases condImpR_cases (A := A) (std := std) b (hl l hm) with ⟨x, h2⟩ | ⟨h2, h3⟩
    · rw [h] at h2; cases h2
    · rw [h] at h2; cases h2
      exact ⟨rfl, Or.inr ⟨l, hm, h3⟩⟩
  | ok bs =>
    have := (mapM_eq_ok em).length_eq
    simp only [stdevR]
    by_cases h : bs.length < 2
    · right
      exact ⟨if_pos h, Or.inl (by omega)⟩
    · left
      exact ⟨⟨_, if_neg h⟩, by omega⟩

theorem gwNumR_cases (n1 n2 : Bool) (g : Row F V → Rounded A) (hX : X.rows ≠ []) (f f' : F) :
    ((∃ x, gwNumR A std n1 n2 g X f f' = .ok x) ∧ 2 ≤ (npUnique (X.col f)).length ∧ 2 ≤ (npUnique (X.col f')).length) ∨
      (gwNumR A std n1 n2 g X f f' = .error .statisticsError ∧
        ¬ (2 ≤ (npUnique (X.col f)).length ∧ 2 ≤ (npUnique (X.col f')).length)) := by
  have h1 := col_ne_nil hX f
  have h2 := col_ne_nil hX f'
  have a := stdevOfImpR_cases (A := A) (std := std) n2 (t := (npUnique (X.col f)).map fun v => (npUnique (X.col f')).map fun v' => (pdPair g X f f' v v').val)
    (by simpa using h1) (by intro l hl; obtain ⟨v, _, rfl⟩ := List.mem_map.1 hl; simpa using h2)
  have b := stdevOfImpR_cases (A := A) (std := std) n1 (t := (npUnique (X.col f')).map fun v' => (npUnique (X.col f)).map fun v => (pdPair g X f f' v v').val)
    (by simpa using h2) (by intro l hl; obtain ⟨v, _, rfl⟩ := List.mem_map.1 hl; simpa using h1)
  rw [List.length_map] at a b
  unfold gwNumR
  simp only [bind, Except.bind]
  rcases a with ⟨⟨x, ea⟩, ha⟩ | ⟨ea, ha⟩
  · rcases b with ⟨⟨y, eb⟩, hb⟩ | ⟨eb, hb⟩
    · left
      rw [ea, eb]
      exact ⟨⟨_, rfl⟩, ha, hb⟩
    · right
      rw [ea, eb]
      refine ⟨rfl, fun hh => ?_⟩
      rcases hb with hb | ⟨l, hl, hb⟩
      · omega
      · obtain ⟨v, _, rfl⟩ := List.mem_map.1 hl
        rw [List.length_map] at hb
        omega
  · right
    rw [ea]
    refine ⟨rfl, fun hh => ?_⟩
    rcases ha with hb | ⟨l, hl, hb⟩
    · omega
    · obtain ⟨v, _, rfl⟩ := List.mem_map.1 hl
      rw [List.length_map] at hb
      omega

theorem const_iff (f : F) : (¬ 2 ≤ (npUnique (X.col f)).length) ↔ ∀ r ∈ X.rows, ∀ r' ∈ X.rows, r f = r' f := by
  rw [two_le_npUnique]
  simp only [Frame.col, List.mem_map]
  constructor
  · intro h r hr r' hr'
    by_contra hne
    exact h ⟨_, ⟨r, hr, rfl⟩, _, ⟨r', hr', rfl⟩, hne⟩
  · rintro h ⟨_, ⟨r, hr, rfl⟩, _, ⟨r', hr', rfl⟩, hne⟩
    exact hne (h r hr r' hr')

theorem gwRowR_cases (g : Row F V → Rounded A) (hX : X.rows ≠ []) (q : F × F) :
    ((∃ row, gwRowR A std numeric g X q = .ok row) ∧ 2 ≤ (npUnique (X.col q.1)).length ∧ 2 ≤ (npUnique (X.col q.2)).length) ∨
      (gwRowR A std numeric g X q = .error .statisticsError ∧
        ¬ (2 ≤ (npUnique (X.col q.1)).length ∧ 2 ≤ (npUnique (X.col q.2)).length)) := by
  have hsym : (2 ≤ (npUnique (X.col (canonPair X q).1)).length ∧ 2 ≤ (npUnique (X.col (canonPair X q).2)).length) ↔
      2 ≤ (npUnique (X.col q.1)).length ∧ 2 ≤ (npUnique (X.col q.2)).length := by
    unfold canonPair
    split
    · exact Iff.rfl
    · exact And.comm
  unfold gwRowR
  rcases gwNumR_cases (A := A) (std := std) (numeric (canonPair X q).1) (numeric (canonPair X q).2) g hX (canonPair X q).1 (canonPair X q).2 with
    ⟨⟨x, e⟩, h⟩ | ⟨e, h⟩
  · left
    rw [e]
    exact ⟨⟨_, rfl⟩, hsym.1 h⟩
  · right
    rw [e]
    exact ⟨rfl, fun hh => h (hsym.2 hh)⟩

/-- **C151.** Whatever the arithmetic, the standard deviation routine and the numbers the prediction function returns: with at least one
row and different existing features, Greenwell's method raises StatisticsError exactly if there are at least two features and one of
them has only one value in the data; otherwise it returns. -/
theorem C151_fails_iff_constant_feature {g : Row F V → Rounded A} (hp : RowWise g predict) (hnf : NeverFails predict)
    (hfs : ∀ f ∈ features, f ∈ X.cols) (hnd : features.Nodup) (hX : X.rows ≠ []) :
    (greenwellR A std sortOvo sortFeat numeric predict X features batchsize = .error .statisticsError ↔
      2 ≤ features.length ∧ ∃ f ∈ features, ∀ r ∈ X.rows, ∀ r' ∈ X.rows, r f = r' f) ∧
    (greenwellR A std sortOvo sortFeat numeric predict X features batchsize ≠ .error .statisticsError →
      ∃ ovo imp, greenwellR A std sortOvo sortFeat numeric predict X features batchsize = .ok (ovo, imp)) := by
  rw [greenwellR_ret hp hnf hX (validFeatures_of_nodup hfs hnd)]
  have key : (∃ f ∈ features, ∀ r ∈ X.rows, ∀ r' ∈ X.rows, r f = r' f) ∧ 2 ≤ features.length ↔
      ∃ q ∈ combinations2 features, ¬ (2 ≤ (npUnique (X.col q.1)).length ∧ 2 ≤ (npUnique (X.col q.2)).length) := by
    constructor
    · rintro ⟨⟨f, hf, hc⟩, h2⟩
      obtain ⟨f', hf', hne⟩ : ∃ f' ∈ features, f ≠ f' := by
        by_contra hno
        push Not at hno
        have : features = [f] := by
          cases hfe : features with
          | nil => rw [hfe] at hf; cases hf
          | cons a t =>
            rw [hfe] at hno hnd h2
            have ha := hno a List.mem_cons_self
            cases t with
            | nil => rw [ha]
            | cons b t =>
              have hb := hno b (by simp)
              simp only [List.nodup_cons, List.mem_cons] at hnd
              exact absurd (Or.inl (ha.symm.trans hb)) hnd.1
        rw [this] at h2
        simp at h2
      have hn := (const_iff (X := X) f).2 hc
      rcases mem_combinations2_or hf hf' hne with m | m
      · exact ⟨_, m, fun hh => hn hh.1⟩
      · exact ⟨_, m, fun hh => hn hh.2⟩
    · rintro ⟨q, hq, h⟩
      have hm := mem_combinations2 (p := q) hq
      have h2 : 2 ≤ features.length := by
        have hne := ne_of_mem_combinations2 hnd hq
        cases hfe : features with
        | nil => rw [hfe] at hm; cases hm.1
        | cons a t =>
          cases t with
          | nil =>
            rw [hfe] at hm
            simp only [List.mem_singleton] at hm
            exact absurd (hm.1.trans hm.2.symm) hne
          | cons b t => simp
      refine ⟨?_, h2⟩
      by_cases h1 : 2 ≤ (npUnique (X.col q.1)).length
      · exact ⟨q.2, hm.2, (const_iff q.2).1 fun h3 => h ⟨h1, h3⟩⟩
      · exact ⟨q.1, hm.1, (const_iff q.1).1 h1⟩
  rw [and_comm (a := 2 ≤ features.length), key]
  cases em : (combinations2 features).mapM (gwRowR A std numeric g X) with
  | error e =>
    obtain ⟨q, hq, h⟩ := exists_of_mapM_error em
    rcases gwRowR_cases (A := A) (std := std) (numeric := numeric) g hX q with ⟨⟨x, h2⟩, _⟩ | ⟨h2, h3⟩
    · rw [h] at h2; cases h2
    · rw [h] at h2; cases h2
      exact ⟨⟨fun _ => ⟨q, hq, h3⟩, fun _ => rfl⟩, fun hh => absurd rfl hh⟩
  | ok rows =>
    refine ⟨⟨fun h => (by cases h), ?_⟩, fun _ => ⟨_, _, rfl⟩⟩
    rintro ⟨q, hq, h⟩
    obtain ⟨row, _, h4⟩ := exists_of_forall₂ (mapM_eq_ok em) hq
    rcases gwRowR_cases (A := A) (std := std) (numeric := numeric) g hX q with ⟨_, h2⟩ | ⟨h2, h3⟩
    · exact absurd h2 h
    · rw [h4] at h2; cases h2

/-! ## C152 -/

theorem condImpR_nonneg (hA : A.Lawful) (hstd : ∀ l, NaNOrNonneg (std l)) {b : Bool} {l : List (Num K)} {x : Num K}
    (e : condImpR A std b l = .ok x) : NaNOrNonneg x := by
  unfold condImpR stdevR at e
  split at e
  · split at e
    · cases e
    · cases e; exact hstd _
  · exact rangeImpR_nonneg hA e

theorem stdevOfImpR_nonneg (hA : A.Lawful) (hstd : ∀ l, NaNOrNonneg (std l)) {b : Bool} {t : List (List (Num K))} {x : Num K}
    (e : stdevOfImpR A std b t = .ok x) : NaNOrNonneg x := by
  unfold stdevOfImpR stdevR at e
  simp only [bind, Except.bind] at e
  repeat' split at e
  all_goals first | cases e; done | skip
  all_goals cases e; exact hstd _

theorem greenwellPairR_nonneg (hA : A.Lawful) (hstd : ∀ l, NaNOrNonneg (std l)) {c : Calc F V (Rounded A)} {q : F × F} {row : OvoRow F K}
    (e : greenwellPairR A std numeric c q = .ok row) : NaNOrNonneg row.val := by
  unfold greenwellPairR at e
  simp only [bind, Except.bind] at e
  cases e0 : c.getPairsAll (c.pairKey q).1 (c.pairKey q).2 with
  | error x => rw [e0] at e; cases e
  | ok t =>
    rw [e0] at e
    simp only at e
    cases e1 : stdevOfImpR A std (numeric (c.pairKey q).2) (t.map fun row => row.map Rounded.val) with
    | error x => rw [e1] at e; cases e
    | ok x =>
      rw [e1] at e
      simp only at e
      cases e2 : stdevOfImpR A std (numeric (c.pairKey q).1)
          (columns ((t.map fun row => row.map Rounded.val).headD []).length (t.map fun row => row.map Rounded.val)) with
      | error y => rw [e2] at e; cases e
      | ok y =>
        rw [e2] at e
        cases e
        exact div_nonnegR hA (add_nonnegR hA (stdevOfImpR_nonneg hA hstd e1) (stdevOfImpR_nonneg hA hstd e2)) (naNOrNonneg_fin two_pos.le)

/-- **C152.** Whatever the prediction function returns, a Greenwell fit that returns has two tables without NaN and without negative
values, strongest first. Of the standard deviation routine only its sign is used. -/
theorem C152_rounded_nonneg_sorted (hA : A.Lawful) (hstd : ∀ l, NaNOrNonneg (std l)) (hso : SortsBy OvoRow.val false sortOvo)
    (hsf : SortsBy FeatRow.val false sortFeat)
    (h : greenwellR A std sortOvo sortFeat numeric predict X features batchsize = .ok (ovo, imp)) :
    StrongestFirst OvoRow.val ovo ∧ StrongestFirst FeatRow.val imp := by
  unfold greenwellR at h
  obtain ⟨s', h⟩ : ∃ s', (PyM.seq (greenwellOvoR A std sortOvo (fun f => numeric f && decide (f ∈ features)) (combinations2 features)) fun ovo =>
    PyM.seq (pdpImportanceR A sortFeat (fun f => numeric f && decide (f ∈ features)) features) fun imp => fun c => (.ok (ovo, imp), c))
      (Calc.new predict X batchsize) = (.ok (ovo, imp), s') := ⟨_, Prod.ext h rfl⟩
  obtain ⟨t1, c1, h1, h⟩ := seq_ok h
  obtain ⟨t2, c2, h2, h⟩ := seq_ok h
  cases h
  constructor
  · unfold greenwellOvoR at h1
    obtain ⟨_, c4, _, h1⟩ := seq_ok h1
    cases em : (combinations2 features).mapM (greenwellPairR A std (fun f => numeric f && decide (f ∈ features)) c4) with
    | error e => rw [em] at h1; cases h1
    | ok rows =>
      rw [em] at h1
      cases h1
      exact ordered_ovo hso (forall₂_right (mapM_eq_ok em) fun a b e => greenwellPairR_nonneg hA hstd e)
  · unfold pdpImportanceR at h2
    obtain ⟨_, c4, _, h2⟩ := seq_ok h2
    cases em : features.mapM (calcImportanceR A (fun f => numeric f && decide (f ∈ features)) c4) with
    | error e => rw [em] at h2; cases h2
    | ok rows =>
      rw [em] at h2
      cases h2
      exact ordered_feat hsf (forall₂_right (mapM_eq_ok em) fun a b e => calcImportanceR_nonneg hA e)

/-- the correctly rounded standard deviation meets the hypothesis of C152 -/
theorem exactStd_nonneg (hA : A.Lawful) (l : List (Num K)) : NaNOrNonneg (exactStd A l) := by
  unfold exactStd
  refine r_nonneg hA ?_
  cases Num.div (Num.sum ((Num.center l).map Num.sq)) (Num.ofNat (l.length - 1)) with
  | fin x =>
    simp only [Num.sqrt]
    split
    · exact Or.inl rfl
    · exact naNOrNonneg_fin (LawfulSqrt.nonneg x)
  | pinf => exact Or.inr Num.nonneg_pinf
  | ninf => exact Or.inl rfl
  | nan => exact Or.inl rfl

end RoundedGreenwellTables

/-! ## Cases -/

section Cases
open Ex

/-- the second column is constant -/
def flatX : Frame (Fin 2) ℤ := ⟨[0, 1], (List.range 7).map fun i => ![(i : ℤ), 4]⟩

set_option maxRecDepth 100000 in
/-- C151: predictions that are infinite for some rows, a constant column -/
example : greenwellR binary64 (exactStd binary64) (stableSort OvoRow.val false) (stableSort FeatRow.val false) (fun f => f == 0) wildP flatX [0, 1] 5 =
    .error .statisticsError := by decide +kernel

set_option maxRecDepth 100000 in
/-- C151, C152: the same predictions without a constant column -/
example : (greenwellR binary64 (exactStd binary64) (stableSort OvoRow.val false) (stableSort FeatRow.val false) (fun f => f == 0) wildP sevenX [0, 1] 5).map
    (fun t => (t.1.map fun r => (r.f1, r.f2, r.val), t.2.length)) = .ok ([(0, 1, .fin 0)], 2) := by decide +kernel

/-- the hypotheses of C151 and C152 are met by `addP` -/
example (numeric : Fin 2 → Bool) : ∃ ovo imp, greenwellR binary64 (exactStd binary64) (stableSort OvoRow.val false) (stableSort FeatRow.val false) numeric addP sevenX [0, 1] 5 =
    .ok (ovo, imp) ∧ StrongestFirst OvoRow.val ovo ∧ StrongestFirst FeatRow.val imp := by
  obtain ⟨h1, h2⟩ := C151_fails_iff_constant_feature (std := exactStd (binary64 : Arith ℝ)) (sortOvo := stableSort OvoRow.val false)
    (sortFeat := stableSort FeatRow.val false) (numeric := numeric) (batchsize := 5) (predict := addP) (X := sevenX) (features := [0, 1])
    (fun n rows ys h => by cases h; rfl) (fun n rows => ⟨_, rfl⟩) (by decide) (by decide) (by decide +kernel)
  obtain ⟨ovo, imp, e⟩ := h2 (fun he => by
    obtain ⟨_, f, hf, hc⟩ := h1.1 he
    obtain ⟨r, hr, r', hr', hne⟩ := sevenX_two f hf
    exact hne (hc r hr r' hr'))
  obtain ⟨a, b⟩ := C152_rounded_nonneg_sorted binary64_lawful (exactStd_nonneg binary64_lawful) (sortsBy_stableSort _ _) (sortsBy_stableSort _ _) e
  exact ⟨ovo, imp, e, a, b⟩

end Cases
end Artemis
