import Verif.Props.Zero
import Verif.Props.Additivity
import Verif.Props.Sejong

/-!
# Properties C116 and C117: undefined results

What the methods report when the quantity they compute is not defined: for data without rows (C116) and for predictions
that are not finite numbers (C117). The tables of the partial dependence based methods are completed with
`fillna(0)`, which turns "not defined" into "no interaction".
-/

set_option linter.unusedSectionVars false
set_option linter.unusedVariables false
set_option linter.unusedSimpArgs false

namespace Artemis
open Spec

namespace Spec
/-- a number other than NaN and the infinities -/
def IsFinite {K : Type} (x : Num K) : Prop := ∃ k, x = .fin k
end Spec

section nums
variable {K : Type} [Field K] [LinearOrder K]

@[simp] theorem Num.add_nan_left (x : Num K) : Num.add .nan x = .nan := by cases x <;> rfl
@[simp] theorem Num.add_nan_right (x : Num K) : Num.add x .nan = .nan := by cases x <;> rfl
@[simp] theorem Num.sub_nan_left (x : Num K) : Num.sub .nan x = .nan := by simp [Num.sub]
@[simp] theorem Num.sub_nan_right (x : Num K) : Num.sub x .nan = .nan := by simp [Num.sub, Num.neg]
@[simp] theorem Num.div_nan_left (x : Num K) : Num.div .nan x = .nan := by cases x <;> rfl
@[simp] theorem Num.div_nan_right (x : Num K) : Num.div x .nan = .nan := by cases x <;> rfl
@[simp] theorem Num.sq_nan : Num.sq (.nan : Num K) = .nan := rfl

theorem sum_of_nan {l : List (Num K)} (h : .nan ∈ l) : Num.sum l = .nan := by
  induction l with
  | nil => cases h
  | cons a l ih =>
    rcases List.mem_cons.1 h with rfl | h
    · exact Num.add_nan_left _
    · rw [Num.sum, ih h, Num.add_nan_right]

theorem mean_of_nan {l : List (Num K)} (h : .nan ∈ l) : Num.mean l = .nan := by
  rw [Num.mean, sum_of_nan h, Num.div_nan_left]

/-- a sum is finite only if all its terms are, and infinite only if one of them is -/
theorem sum_cases (l : List (Num K)) : Num.sum l = .nan ∨ (Num.sum l = .pinf ∧ .pinf ∈ l) ∨
    (Num.sum l = .ninf ∧ .ninf ∈ l) ∨ (IsFinite (Num.sum l) ∧ ∀ x ∈ l, IsFinite x) := by
  induction l with
  | nil => exact Or.inr (Or.inr (Or.inr ⟨⟨0, rfl⟩, fun x h => by cases h⟩))
  | cons a l ih =>
    rcases ih with e | ⟨e, h⟩ | ⟨e, h⟩ | ⟨⟨k, e⟩, h⟩
    · left; rw [Num.sum, e, Num.add_nan_right]
    · cases a with
      | fin x => right; left; exact ⟨by rw [Num.sum, e]; rfl, List.mem_cons_of_mem _ h⟩
      | pinf => right; left; exact ⟨by rw [Num.sum, e]; rfl, List.mem_cons_self⟩
      | ninf => left; rw [Num.sum, e]; rfl
      | nan => left; rw [Num.sum]; exact Num.add_nan_left _
    · cases a with
      | fin x => right; right; left; exact ⟨by rw [Num.sum, e]; rfl, List.mem_cons_of_mem _ h⟩
      | pinf => left; rw [Num.sum, e]; rfl
      | ninf => right; right; left; exact ⟨by rw [Num.sum, e]; rfl, List.mem_cons_self⟩
      | nan => left; rw [Num.sum]; exact Num.add_nan_left _
    · cases a with
      | fin x =>
        right; right; right
        refine ⟨⟨x + k, by rw [Num.sum, e]; rfl⟩, ?_⟩
        intro y hy
        rcases List.mem_cons.1 hy with rfl | hy
        · exact ⟨x, rfl⟩
        · exact h y hy
      | pinf => right; left; exact ⟨by rw [Num.sum, e]; rfl, List.mem_cons_self⟩
      | ninf => right; right; left; exact ⟨by rw [Num.sum, e]; rfl, List.mem_cons_self⟩
      | nan => left; rw [Num.sum]; exact Num.add_nan_left _

variable [IsStrictOrderedRing K]

/-- the mean of a vector with an entry that is not finite is not finite -/
theorem mean_not_finite {l : List (Num K)} {x : Num K} (hx : x ∈ l) (h : ¬ IsFinite x) : ¬ IsFinite (Num.mean l) := by
  have hn : ¬ ((l.length : K) < 0) := not_lt.2 (Nat.cast_nonneg _)
  rcases sum_cases l with e | ⟨e, _⟩ | ⟨e, _⟩ | ⟨_, h'⟩
  · rw [Num.mean, e, Num.div_nan_left]; rintro ⟨k, hk⟩; cases hk
  · rw [Num.mean, e]
    simp only [Num.div, Num.ofNat, hn, if_false]
    rintro ⟨k, hk⟩; cases hk
  · rw [Num.mean, e]
    simp only [Num.div, Num.ofNat, hn, if_false]
    rintro ⟨k, hk⟩; cases hk
  · exact absurd (h' x hx) h

/-- centring a vector with an entry that is not finite produces a NaN -/
theorem center_nan {l : List (Num K)} {x : Num K} (hx : x ∈ l) (h : ¬ IsFinite x) : .nan ∈ Num.center l := by
  have hn : ¬ ((l.length : K) < 0) := not_lt.2 (Nat.cast_nonneg _)
  rcases sum_cases l with e | ⟨e, hm⟩ | ⟨e, hm⟩ | ⟨_, h'⟩
  · refine List.mem_map.2 ⟨x, hx, ?_⟩
    rw [Num.mean, e, Num.div_nan_left, Num.sub_nan_right]
  · refine List.mem_map.2 ⟨_, hm, ?_⟩
    rw [Num.mean, e]
    simp only [Num.div, Num.ofNat, hn, if_false]
    rfl
  · refine List.mem_map.2 ⟨_, hm, ?_⟩
    rw [Num.mean, e]
    simp only [Num.div, Num.ofNat, hn, if_false]
    rfl
  · exact absurd (h' x hx) h

theorem subV_nan_left {a b : List (Num K)} (h : a.length ≤ b.length) (hn : .nan ∈ a) : .nan ∈ Num.subV a b := by
  obtain ⟨i, hi, e⟩ := List.mem_iff_getElem.1 hn
  refine List.mem_iff_getElem.2 ⟨i, by simp [Num.subV]; omega, ?_⟩
  simp [Num.subV, e]

/-- H of vectors the last of which has an entry that is not finite -/
theorem hNum_nan [HasSqrt K] (n : Bool) {u v w : List (Num K)} (h1 : u.length = w.length) (h2 : v.length = w.length)
    {x : Num K} (hx : x ∈ w) (h : ¬ IsFinite x) : hNum n u v w = .nan := by
  have c := center_nan hx h
  have d1 : .nan ∈ Num.subV (Num.center w) (Num.center u) := subV_nan_left (by simp [Num.center, h1]) c
  have d2 : .nan ∈ Num.subV (Num.subV (Num.center w) (Num.center u)) (Num.center v) :=
    subV_nan_left (by simp [Num.subV, Num.center, h1, h2]) d1
  have d3 : .nan ∈ (Num.subV (Num.subV (Num.center w) (Num.center u)) (Num.center v)).map Num.sq :=
    List.mem_map.2 ⟨_, d2, rfl⟩
  unfold hNum
  cases n with
  | true => rw [if_pos rfl, sum_of_nan d3, Num.div_nan_left]
  | false =>
    rw [if_neg (by decide), mean_of_nan d3]
    rfl

theorem npStd_nan [HasSqrt K] {l : List (Num K)} {x : Num K} (hx : x ∈ l) (h : ¬ IsFinite x) : npStd l = .nan := by
  have : .nan ∈ (Num.center l).map Num.sq := List.mem_map.2 ⟨_, center_nan hx h, rfl⟩
  rw [npStd, mean_of_nan this]
  rfl

theorem hNum_nil [HasSqrt K] (n : Bool) : hNum n ([] : List (Num K)) [] [] = .nan := by
  cases n
  · simp [hNum, Num.center, Num.subV, Num.mean_nil, Num.sqrt]
  · simp [hNum, Num.center, Num.subV, Num.sum, Num.div, Num.infSign]

end nums

variable {F V K G L : Type} [DecidableEq F] [LinearOrder V] [DecidableEq L] [Field K] [LinearOrder K]
  [IsStrictOrderedRing K] [HasSqrt K]
variable {g : Row F V → Num K} {E : PdEnv G F K} {a : PdArgs L F V K} {s0 s : PdpMethod G L F V K} {Xs : LFrame L F V}

/-- **C117, pairs.** If among the rows mixing the values of the pair in one data row with another data row there is one
for which the prediction is NaN or infinite, the H-statistic reports the interaction 0 for the pair. -/
theorem C117_pair_hides_undefined (n : Bool) (hs : FitSetup g E a s0 Xs) (hsort : SortsBy OvoRow.val false E.sortOvo)
    (hret : PdpMethod.fit (.friedman n) E a s0 = (.ok (), s)) :
    ∃ tbl, s.ovo = some tbl ∧ ∀ row ∈ tbl, (∃ r ∈ Xs.frame.rows, ∃ r' ∈ Xs.frame.rows,
      ¬ IsFinite (g (setF (setF r' row.f2 (r row.f2)) row.f1 (r row.f1)))) → row.val = .fin 0 := by
  obtain ⟨rows, h1, h2⟩ := (fit_ok hs hret).ovo
  refine ⟨_, h2, ?_⟩
  intro row hrow
  obtain ⟨r0, hr0, rfl⟩ := List.mem_map.1 hrow
  have hr := (hsort _).1.mem_iff.1 hr0
  simp only [ovoRows, Except.ok.injEq] at h1
  subst h1
  obtain ⟨q, hq, rfl⟩ := List.mem_map.1 hr
  rintro ⟨r, hr, r', hr', hn⟩
  simp only [OvoRow.fillna, hRow] at hn ⊢
  have : hPair n g Xs.frame q.1 q.2 = .nan := by
    refine hNum_nan n (by simp) (by simp) (List.mem_map.2 ⟨r, hr, rfl⟩) ?_
    exact mean_not_finite (List.mem_map.2 ⟨r', hr', rfl⟩) hn
  rw [this]
  rfl

/-- **C117, one versus all.** If the prediction for some row of the data is NaN or infinite, the H-statistic reports the
interaction 0 for every feature. -/
theorem C117_ova_hides_undefined (n : Bool) (hs : FitSetup g E a s0 Xs) (hsort : SortsBy FeatRow.val false E.sortFeat)
    (ho : a.calculateOva = true) (hret : PdpMethod.fit (.friedman n) E a s0 = (.ok (), s))
    (hn : ∃ r ∈ Xs.frame.rows, ¬ IsFinite (g r)) :
    ∃ tbl, s.ova = some tbl ∧ ∀ row ∈ tbl, row.val = .fin 0 := by
  have h := (fit_ok hs hret).ova
  simp only [ho, if_true] at h
  refine ⟨_, h, ?_⟩
  intro row hrow
  obtain ⟨r0, hr0, rfl⟩ := List.mem_map.1 hrow
  have hr := (hsort _).1.mem_iff.1 hr0
  obtain ⟨f, hf, rfl⟩ := List.mem_map.1 hr
  obtain ⟨r, hr, hn⟩ := hn
  have : hFeat n g Xs.frame f = .nan := hNum_nan n (by simp) (by simp) (List.mem_map.2 ⟨r, hr, rfl⟩) hn
  simp only [FeatRow.fillna, this]
  rfl

/-- **C117, importance.** If a numerical feature has a level for which some prediction is NaN or infinite, its importance
is reported as 0. -/
theorem C117_importance_hides_undefined (kind : PdKind) (hs : FitSetup g E a s0 Xs)
    (hsort : SortsBy FeatRow.val false E.sortFeat) (hret : PdpMethod.fit kind E a s0 = (.ok (), s)) :
    ∃ tbl, s.importance = some tbl ∧ ∀ row ∈ tbl, E.numeric row.f = true → (∃ r ∈ Xs.frame.rows, ∃ r' ∈ Xs.frame.rows,
      ¬ IsFinite (g (setF r' row.f (r row.f)))) → row.val = .fin 0 := by
  obtain ⟨rows, h1, h2⟩ := (fit_ok hs hret).imp
  refine ⟨_, h2, ?_⟩
  intro row hrow
  obtain ⟨r0, hr0, rfl⟩ := List.mem_map.1 hrow
  have hr := (hsort _).1.mem_iff.1 hr0
  have hF := (List.forall₂_iff_get.1 (mapM_eq_ok h1))
  obtain ⟨i, hi, rfl⟩ := List.mem_iff_get.1 hr
  have hi' : i.1 < a.feats.length := by rw [hF.1]; exact i.2
  have hq := hF.2 i.1 hi' i.2
  have hmem : a.feats.get ⟨i.1, hi'⟩ ∈ a.feats := List.get_mem _ _
  generalize a.feats.get ⟨i.1, hi'⟩ = f at hq hmem
  generalize rows.get i = row at hq
  intro hnum ⟨r, hr, r', hr', hn⟩
  unfold impRow impNum at hq
  have hfr : row.f = f := by
    split at hq
    · cases hq; rfl
    · revert hq
      cases rangeImp (List.map (Spec.pdSingle g Xs.frame f) (npUnique (Xs.frame.col f))) with
      | error e => intro hq; cases hq
      | ok v => intro hq; cases hq; rfl
  simp only [FeatRow.fillna] at hnum hn ⊢
  rw [hfr] at hnum hn
  have hni : numIn E a.feats f = true := by simp [numIn, hnum, hmem]
  rw [hni, if_pos rfl] at hq
  cases hq
  have : npStd ((npUnique (Xs.frame.col f)).map (Spec.pdSingle g Xs.frame f)) = .nan := by
    refine npStd_nan (x := Spec.pdSingle g Xs.frame f (r f)) (List.mem_map.2 ⟨r f, ?_, rfl⟩) ?_
    · simp only [mem_npUnique, Frame.col]
      exact List.mem_map.2 ⟨r, hr, rfl⟩
    · exact mean_not_finite (List.mem_map.2 ⟨r', hr', rfl⟩) hn
  simp only [this]
  rfl

/-- **C117, additivity.** If the prediction for some row of the data is NaN or infinite, the additivity index is NaN: the
undefined result is visible. -/
theorem C117_additivity_shows_undefined_partial {a : AddArgs L F V K} {s0 : AddMeter G L F V K} {cp : F} {v : Num K}
    (hs : AddSetup g E a s0 Xs) (hcp : cp ∉ Xs.frame.cols) (h : (AddMeter.fit E.R cp a s0).1 = .ok v)
    (hn : ∃ r ∈ Xs.frame.rows, ¬ IsFinite (g r)) : v = .nan := by
  rw [addFit_value hs hcp h]
  obtain ⟨r, hr, hn⟩ := hn
  have : .nan ∈ (Num.center (Xs.frame.rows.map g)).map Num.sq :=
    List.mem_map.2 ⟨_, center_nan (List.mem_map.2 ⟨r, hr, rfl⟩) hn, rfl⟩
  rw [addNum, sum_of_nan this, Num.div_nan_right, Num.sub_nan_right]

section sejong

theorem mapList_post {σ α β : Type} {body : β → PyM σ α} {P : β → α → Prop}
    (hb : ∀ b s x s', body b s = (.ok x, s') → P b x) :
    ∀ (l : List β) (s s' : σ) (out : List α), PyM.mapList l body s = (.ok out, s') → ∀ x ∈ out, ∃ b ∈ l, P b x := by
  intro l
  induction l with
  | nil =>
    intro s s' out h x hx
    cases h
    cases hx
  | cons b l ih =>
    intro s s' out h x hx
    simp only [PyM.mapList] at h
    obtain ⟨y, s1, e1, h⟩ := seq_ok h
    obtain ⟨ys, s2, e2, h⟩ := seq_ok h
    cases h
    rcases List.mem_cons.1 hx with rfl | hx
    · exact ⟨b, List.mem_cons_self, hb _ _ _ _ e1⟩
    · obtain ⟨b', h1, h2⟩ := ih _ _ _ e2 x hx
      exact ⟨b', List.mem_cons_of_mem _ h1, h2⟩

/-- the change of the score after a permutation, relative to a score that is not finite, is NaN or infinite with the sign
opposite to that of the reference -/
theorem sub_ref {ref : Num K} (h : ¬ IsFinite ref) (x : Num K) : Num.sub x ref = .nan ∨ Num.sub x ref = Num.neg ref := by
  cases ref with
  | fin k => exact absurd ⟨k, rfl⟩ h
  | pinf => cases x <;> simp [Num.sub, Num.neg, Num.add]
  | ninf => cases x <;> simp [Num.sub, Num.neg, Num.add]
  | nan => left; exact Num.sub_nan_right _

theorem permuteScore_post {R : Rng G} {model : ModelObj F V (Num K)} {M : Metric K} {y : List (Num K)} {X : Frame F V}
    {fs : List F} {ref v : Num K} (h : ¬ IsFinite ref) {s s' : Scored G F V}
    (e : permuteScore R model M y X fs ref s = (.ok v, s')) :
    v = .nan ∨ v = negIfClass M (Num.neg ref) := by
  unfold permuteScore at e
  obtain ⟨_, s1, _, e⟩ := seq_ok e
  obtain ⟨_, s2, _, e⟩ := seq_ok e
  obtain ⟨sc, s3, _, e⟩ := seq_ok e
  cases e
  rcases sub_ref h sc with e | e
  · left; rw [e]; unfold negIfClass; split <;> rfl
  · right; rw [e]

theorem interScore_post {R : Rng G} {model : ModelObj F V (Num K)} {M : Metric K} {y : List (Num K)} {X : Frame F V}
    {f1 f2 : F} {ref v : Num K} (h : ¬ IsFinite ref) {s s' : Scored G F V}
    (e : interScore R model M y X f1 f2 ref s = (.ok v, s')) : v = .nan := by
  unfold interScore at e
  obtain ⟨v1, s1, e1, e⟩ := seq_ok e
  obtain ⟨v2, s2, e2, e⟩ := seq_ok e
  obtain ⟨v3, s3, e3, e⟩ := seq_ok e
  cases e
  have p1 := permuteScore_post h e1
  have p3 := permuteScore_post h e3
  have hd : Num.sub v3 v1 = .nan := by
    rcases p3 with rfl | rfl
    · exact Num.sub_nan_left _
    · rcases p1 with rfl | rfl
      · exact Num.sub_nan_right _
      · cases ref with
        | fin k => exact absurd ⟨k, rfl⟩ h
        | pinf => unfold negIfClass; split <;> rfl
        | ninf => unfold negIfClass; split <;> rfl
        | nan => unfold negIfClass; split <;> rfl
  rw [hd, Num.sub_nan_left]
  unfold negIfClass
  split <;> rfl

/-- **C117, Sejong Oh's method.** If the score of the model on the data is NaN or infinite, every reported interaction is
NaN: the undefined result is visible. -/
theorem C117_sejong_shows_undefined_partial {E : PerfEnv G L F K} {a : SejongArgs L F V K} {s0 s : Sejong G L F V K}
    {ent : G} (hsort : SortsBy (fun r : OvoRow F K => r.val.abs) false E.sortOvo)
    (hret : Sejong.fit E a ent s0 = (.ok (), s)) {Xs : LFrame L F V} {ys : Target L K} {rng : G}
    (hsam : sampleBoth E.R E.toInt a.X a.y a.n s0.rng = (.ok (Xs, ys), rng))
    {predict : PF F V (Num K)} {yHat : List (Num K)} {ref : Num K} (hp : a.model.predict = some predict)
    (hy : predict s0.calls.length Xs.frame.rows = .ok yHat) (hm : s0.metric.calculate ys.values yHat = .ok ref)
    (hn : ¬ IsFinite ref) : ∃ tbl, s.ovo = some tbl ∧ ∀ row ∈ tbl, row.val = .nan := by
  unfold Sejong.fit at hret
  rw [hsam] at hret
  simp only at hret
  split at hret
  · cases hret
  · next ovo w e =>
    split at hret
    · cases hret
    · cases hret
      refine ⟨_, rfl, ?_⟩
      unfold perfOvo at e
      obtain ⟨ref', s1, e1, e⟩ := seq_ok e
      obtain ⟨rows, s2, e2, e⟩ := seq_ok e
      cases e
      have hr : ref' = ref := by
        unfold scoreOn at e1
        obtain ⟨yh, s3, e3, e1⟩ := seq_ok e1
        unfold predictOn at e3
        rw [hp] at e3
        simp only [hy] at e3
        cases e3
        simp only [PyM.lift, hm] at e1
        cases e1
        rfl
      subst hr
      intro row hrow
      have hrow' := (hsort _).1.mem_iff.1 hrow
      obtain ⟨b, _, hb⟩ := mapList_post (P := fun _ (row : OvoRow F K) => row.val = .nan) (by
        intro pr s s' x h
        obtain ⟨inter, s3, e3, h⟩ := seq_ok h
        cases h
        simp only
        unfold PyM.times at e3
        have hall := mapList_post (P := fun _ v => v = Num.nan) (by
          intro b s s' x h
          obtain ⟨v, s4, e4, h⟩ := seq_ok h
          cases h
          rw [interScore_post hn e4]
          rfl) _ _ _ _ e3
        cases inter with
        | nil => exact Num.mean_nil
        | cons x l =>
          obtain ⟨_, _, hx⟩ := hall x List.mem_cons_self
          subst hx
          exact mean_of_nan List.mem_cons_self) _ _ _ _ e2 row hrow'
      exact hb

end sejong

/-! ## C116 -/

section empty

/-- **C116, H-statistic.** A fit on data without rows that returns reports the interaction 0 for every pair and every
feature, and the importance 0 for every feature. -/
theorem C116_friedman_reports_zeros (n : Bool) (hs : FitSetup g E a s0 Xs) (hX : Xs.frame.rows = [])
    (hsort : SortsBy OvoRow.val false E.sortOvo) (hsortF : SortsBy FeatRow.val false E.sortFeat)
    (hret : PdpMethod.fit (.friedman n) E a s0 = (.ok (), s)) :
    (∃ tbl, s.ovo = some tbl ∧ ∀ row ∈ tbl, row.val = .fin 0) ∧
    (∃ tbl, s.importance = some tbl ∧ ∀ row ∈ tbl, row.val = .fin 0) ∧
    (a.calculateOva = true → ∃ tbl, s.ova = some tbl ∧ ∀ row ∈ tbl, row.val = .fin 0) := by
  have hf := fit_ok hs hret
  refine ⟨?_, ?_, ?_⟩
  · obtain ⟨rows, h1, h2⟩ := hf.ovo
    refine ⟨_, h2, ?_⟩
    intro row hrow
    obtain ⟨r0, hr0, rfl⟩ := List.mem_map.1 hrow
    have hr := (hsort _).1.mem_iff.1 hr0
    simp only [ovoRows, Except.ok.injEq] at h1
    subst h1
    obtain ⟨q, hq, rfl⟩ := List.mem_map.1 hr
    simp only [OvoRow.fillna, hRow, hPair, hX, List.map_nil, hNum_nil]
    rfl
  · obtain ⟨rows, h1, h2⟩ := hf.imp
    refine ⟨_, h2, ?_⟩
    intro row hrow
    obtain ⟨r0, hr0, rfl⟩ := List.mem_map.1 hrow
    have hr := (hsortF _).1.mem_iff.1 hr0
    have hF := (List.forall₂_iff_get.1 (mapM_eq_ok h1))
    obtain ⟨i, hi, rfl⟩ := List.mem_iff_get.1 hr
    have hi' : i.1 < a.feats.length := by rw [hF.1]; exact i.2
    have hq := hF.2 i.1 hi' i.2
    generalize a.feats.get ⟨i.1, hi'⟩ = f at hq
    generalize rows.get i = row at hq
    have hc : npUnique (Xs.frame.col f) = [] := by simp [npUnique_eq_nil_iff, Frame.col, hX]
    simp only [impRow, impNum, hc, List.map_nil] at hq
    split at hq
    · cases hq
      simp [FeatRow.fillna, npStd, Num.center, Num.mean_nil, Num.sqrt]
    · cases hq
  · intro ho
    have h := hf.ova
    simp only [ho, if_true] at h
    refine ⟨_, h, ?_⟩
    intro row hrow
    obtain ⟨r0, hr0, rfl⟩ := List.mem_map.1 hrow
    have hr := (hsortF _).1.mem_iff.1 hr0
    obtain ⟨f, hf, rfl⟩ := List.mem_map.1 hr
    simp only [FeatRow.fillna, hFeat, hX, List.map_nil, hNum_nil]
    rfl

/-- **C116, H-statistic.** On data without rows the fit returns (with those zeros) exactly if all included features are
numerical; otherwise it raises. -/
theorem C116_friedman_returns_iff_numerical (n : Bool) (hs : FitSetup g E a s0 Xs) (hX : Xs.frame.rows = [])
    {co : CalcObj L F V K} (hc : PdpMethod.chooseCalc a Xs a.pf = .ok co) (hp : NeverFails a.pf)
    (hpc : NeverFails co.obj.predict) (hv : ValidFeatures Xs.frame a.feats) :
    (PdpMethod.fit (.friedman n) E a s0).1 = .ok () ↔ ∀ f ∈ a.feats, E.numeric f = true := by
  have h := (fit_returns (e := .keyError) (kind := .friedman n) hs hc hp hpc hv).1
  rw [h]
  have hrow : ∀ f, impRow E g Xs.frame a.feats f = if numIn E a.feats f then .ok ⟨f, .nan⟩ else .error .valueError := by
    intro f
    have hc : npUnique (Xs.frame.col f) = [] := by simp [npUnique_eq_nil_iff, Frame.col, hX]
    simp only [impRow, impNum, hc, List.map_nil]
    split
    · simp [Except.map, npStd, Num.center, Num.mean_nil, Num.sqrt]
    · rfl
  constructor
  · rintro ⟨_, rows, h1⟩ f hf
    have hF := mapM_eq_ok h1
    obtain ⟨i, hi⟩ := List.mem_iff_get.1 hf
    have hq := (List.forall₂_iff_get.1 hF).2 i.1 i.2 (by rw [← (List.forall₂_iff_get.1 hF).1]; exact i.2)
    have e : a.feats.get ⟨i.1, i.2⟩ = f := hi
    rw [e, hrow] at hq
    split at hq
    · next h => simp only [numIn, Bool.and_eq_true] at h; exact h.1
    · cases hq
  · intro hall
    refine ⟨⟨_, rfl⟩, ?_⟩
    have : ∀ l : List F, (∀ f ∈ l, f ∈ a.feats) → ∃ rows, l.mapM (impRow E g Xs.frame a.feats) = .ok rows := by
      intro l
      induction l with
      | nil => intro _; exact ⟨[], rfl⟩
      | cons f l ih =>
        intro hl
        obtain ⟨rows, e⟩ := ih fun f hf => hl f (List.mem_cons_of_mem _ hf)
        have hfm := hl f List.mem_cons_self
        have hn : numIn E a.feats f = true := by simp [numIn, hall f hfm, hfm]
        refine ⟨⟨f, .nan⟩ :: rows, ?_⟩
        rw [List.mapM_cons, hrow, hn, e]
        rfl
    exact this _ fun f hf => hf

/-- **C116, Greenwell's method, what holds**: with two features or more a fit on data without rows raises ValueError. -/
theorem C116_greenwell_raises_partial (hs : FitSetup g E a s0 Xs) (hX : Xs.frame.rows = [])
    {co : CalcObj L F V K} (hc : PdpMethod.chooseCalc a Xs a.pf = .ok co)
    (hpc : NeverFails co.obj.predict) (hv : ValidFeatures Xs.frame a.feats) (h2 : 2 ≤ a.feats.length) :
    (PdpMethod.fit .greenwell E a s0).1 = .error .valueError := by
  cases eX : sampleIfNotNone E.R a.X a.n s0.rng with
  | mk rX rng =>
    have hXs := hs.sampled
    rw [eX] at hXs
    simp only at hXs
    subst hXs
    have ch := chosen_of_ok hs hc
    rw [fit_eq .greenwell E a s0 eX hc]
    have hO := ovo_ret (kind := .greenwell) (E := E) ch.good hpc ch.same hs.reads hv
    have hrows : ovoRows .greenwell E g Xs.frame a.feats = .error .valueError := by
      have hne : ∃ q qs, combinations2 a.feats = q :: qs := by
        match a.feats, h2 with
        | x :: y :: l, _ => exact ⟨_, _, rfl⟩
      obtain ⟨q, qs, e⟩ := hne
      simp only [ovoRows, e, List.mapM_cons]
      have hc : ∀ f, npUnique (Xs.frame.col f) = [] := fun f => by simp [npUnique_eq_nil_iff, Frame.col, hX]
      simp [gwRow, gwNum, hc, stdevOfImp, bind, Except.bind, Except.map]
    rw [hrows] at hO
    cases e1 : PdKind.greenwell.ovo E Xs.frame a.feats (combinations2 a.feats) co.obj with
    | mk r1 c1 =>
      rw [e1] at hO
      simp only [Except.map] at hO
      subst hO
      rfl

/-- **C116, additivity, what holds**: the index of data without rows is NaN. -/
theorem C116_additivity_is_nan_partial {a : AddArgs L F V K} {s0 : AddMeter G L F V K} {cp : F} {v : Num K}
    (hs : AddSetup g E a s0 Xs) (hcp : cp ∉ Xs.frame.cols) (h : (AddMeter.fit E.R cp a s0).1 = .ok v)
    (hX : Xs.frame.rows = []) : v = .nan := by
  rw [addFit_value hs hcp h]
  simp [addNum, hX, Num.center, Num.subV, Num.sum, Num.div, Num.infSign]

theorem metrics_of_nothing (M : Metric K) (hM : M = mseM ∨ M = rmseM ∨ M = accuracyM) : M.calculate [] [] = .ok .nan := by
  rcases hM with rfl | rfl | rfl
  · simp [mseM, elementwise, bind, Except.bind, Num.mean_nil]
  · simp [rmseM, mseM, elementwise, bind, Except.bind, Num.mean_nil, Num.sqrt]
  · simp [accuracyM, elementwise, bind, Except.bind, Num.mean_nil]

/-- **C116, Sejong Oh's method, what holds**: with one of the metrics of the package every interaction of data without
rows is NaN. -/
theorem C116_sejong_is_nan_partial {E : PerfEnv G L F K} {a : SejongArgs L F V K} {s0 s : Sejong G L F V K}
    {ent : G} (hsort : SortsBy (fun r : OvoRow F K => r.val.abs) false E.sortOvo)
    (hM : s0.metric = mseM ∨ s0.metric = rmseM ∨ s0.metric = accuracyM)
    (hret : Sejong.fit E a ent s0 = (.ok (), s)) {Xs : LFrame L F V} {ys : Target L K} {rng : G}
    (hsam : sampleBoth E.R E.toInt a.X a.y a.n s0.rng = (.ok (Xs, ys), rng)) (hys : ys.values = [])
    {predict : PF F V (Num K)} (hp : a.model.predict = some predict)
    (hy : predict s0.calls.length Xs.frame.rows = .ok []) :
    ∃ tbl, s.ovo = some tbl ∧ ∀ row ∈ tbl, row.val = .nan := by
  refine C117_sejong_shows_undefined_partial hsort hret hsam hp hy ?_ (ref := .nan) (by rintro ⟨k, hk⟩; cases hk)
  rw [hys]
  exact metrics_of_nothing _ hM

end empty

section Cases
open Ex

/-- a fit on no rows (`n=0`) with the two numerical features of the example, without one-versus-all -/
def exNoRows (k : PdKind) (fs : List (Fin 3)) (ova : Bool) := PdpMethod.fit (G := Nat) (L := Nat) (K := ℚ) k exEnv
  { exArgs with n := some 0, features := some fs, calculateOva := ova } (PdpMethod.new 0)

/-- **C116 is false as stated**: the fit returns and reports zeros, although the model was not asked for any prediction
(the calculator made no calls) and the features do interact. -/
theorem C116_fails (n : Bool) : (exNoRows (.friedman n) [0, 1] false).1 = .ok () ∧
    (exNoRows (.friedman n) [0, 1] false).2.ovo.map (·.map (·.val)) = some [.fin 0] ∧
    (exNoRows (.friedman n) [0, 1] false).2.importance.map (·.map (·.val)) = some [.fin 0, .fin 0] ∧
    (exNoRows (.friedman n) [0, 1] false).2.pdc.map (·.obj.calls.length) = some 0 := by
  cases n <;> decide +kernel

/-- a categorical feature, or Greenwell's method: ValueError -/
example : (exNoRows (.friedman true) [0, 2] false).1 = .error .valueError ∧
    (exNoRows .greenwell [0, 1] true).1 = .error .valueError := by decide +kernel

/-- the example model with predictions on the log-odds scale where the model is certain: infinite for `x0 * x1 = 1` -/
def exInfModel : ModelObj (Fin 3) ℤ (Num ℚ) where
  ident := 2
  predict := some (fun _ rows => .ok (rows.map (fun r => if r 0 * r 1 = 1 then .pinf else .fin 0)))
  predictProba := none

/-- **C117 is false as stated**: features 0 and 1 decide together whether the prediction is infinite, and are reported
with interaction 0 and importance 0; the additivity index is NaN -/
theorem C117_fails (n : Bool) :
    let r := PdpMethod.fit (G := Nat) (L := Nat) (K := ℚ) (.friedman n) exEnv
      { exArgs with model := exInfModel, features := some [0, 1] } (PdpMethod.new 0)
    r.1 = .ok () ∧ r.2.ovo.map (·.map (·.val)) = some [.fin 0] ∧ r.2.ova.map (·.map (·.val)) = some [.fin 0, .fin 0] ∧
    r.2.importance.map (·.map (·.val)) = some [.fin 0, .fin 0] := by
  cases n <;> decide +kernel

theorem exInfSetup : FitSetup (fun r => if r 0 * r 1 = 1 then Num.pinf else .fin 0) exEnv
    { exArgs (K := ℚ) with model := exInfModel } (PdpMethod.new 0) exLX where
  sampled := rfl
  rowWise := by
    intro n rows ys h; cases h; rfl
  reads := by
    intro r r' h
    simp only [h 0 (by decide), h 1 (by decide)]
  cols_nodup := by decide
  history := by intro co h; cases h

/-- the hypotheses of the statements about reported zeros are met by this model -/
example : (∃ r ∈ exLX.frame.rows, ¬ IsFinite (if r 0 * r 1 = 1 then (Num.pinf : Num ℚ) else .fin 0)) ∧
    ∃ r ∈ exLX.frame.rows, ∃ r' ∈ exLX.frame.rows, ¬ IsFinite (if (setF (setF r' 1 (r 1)) 0 (r 0)) 0 *
      (setF (setF r' 1 (r 1)) 0 (r 0)) 1 = 1 then (Num.pinf : Num ℚ) else .fin 0) := by
  have h : ¬ IsFinite (Num.pinf : Num ℚ) := by rintro ⟨k, hk⟩; cases hk
  refine ⟨⟨![1, 1, 5], by simp [exLX, exX], by simpa using h⟩,
    ![1, 1, 5], by simp [exLX, exX], ![0, 0, 1], by simp [exLX, exX], by simpa [setF] using h⟩

/-- the additivity index of that model, and of no data, is NaN -/
example : (AddMeter.fit (G := Nat) exRng 7 ⟨exInfModel, exLX, none, none, 7, none⟩ (AddMeter.new 0)).1 = .ok .nan ∧
    (AddMeter.fit (G := Nat) exRng 7 ⟨exModel (K := ℚ), exLX, some 0, none, 7, none⟩ (AddMeter.new 0)).1 = .ok .nan := by
  decide +kernel

/-- Sejong Oh's method on no rows: NaN -/
example : ((Sejong.fit (K := ℚ) exPerfEnv { exSArgs with n := some 0, features := some [0, 1] } 5
    (Sejong.new 1 mseM)).2.ovo.map (fun t => t.map (fun r => r.val))) = some [.nan] := by decide +kernel

end Cases

end Artemis
