import Verif.Proofs.SizeLemmas
import Verif.Props.Formulas
import Verif.Props.Sejong
import Verif.Props.PdImportance

/-!
# Properties C106–C108: sizes of strengths and importances, number of questions to the model

Setting of `Verif/Props/HStat.lean` (C106) and `Verif/Props/Sejong.lean`, `Verif/Props/PermImp.lean` (C107, C108).
-/

set_option linter.unusedSectionVars false
set_option linter.unusedVariables false
set_option linter.unusedSimpArgs false

namespace Artemis
open Spec

section pd
variable {F V K G L : Type} [DecidableEq F] [LinearOrder V] [DecidableEq L] [Field K] [LinearOrder K]
  [IsStrictOrderedRing K] [HasSqrt K]
variable {E : PdEnv G F K} {a : PdArgs L F V K} {s0 s : PdpMethod G L F V K} {Xs : LFrame L F V} {lo hi : K}

theorem levels_ne_nil {X : Frame F V} (hX : X.rows ≠ []) {f : F} {vs : List V} (h : Levels X f vs) : vs ≠ [] := by
  obtain ⟨r, hr⟩ := List.exists_mem_of_ne_nil _ hX
  exact List.ne_nil_of_mem ((h.2 (r f)).2 ⟨r, hr, rfl⟩)

theorem importance_bound {X : Frame F V} (hX : X.rows ≠ []) {u : Row F V → K} (hu : ∀ r, lo ≤ u r ∧ u r ≤ hi) {b : Bool}
    {f : F} {k : K} (h : IsImportance b u X f k) : 0 ≤ k ∧ if b then k ≤ (hi - lo) / 2 else k ≤ (hi - lo) / 4 := by
  obtain ⟨vs, h1, h2⟩ := h
  have hb : ∀ y ∈ vs.map (pd1 u X f), lo ≤ y ∧ y ≤ hi := by
    intro y hy; obtain ⟨v, _, rfl⟩ := List.mem_map.1 hy; exact pd1_bounds hX hu f v
  cases b
  · simp only [Bool.false_eq_true, if_false] at h2 ⊢
    exact quarterRange_bound hb h2
  · simp only [if_true] at h2 ⊢
    exact ⟨h2.1, popStd_bound (by simpa using levels_ne_nil hX h1) hb h2⟩

theorem condSpread_bound [LawfulSqrt K] {X : Frame F V} (hX : X.rows ≠ []) {u : Row F V → K}
    (hu : ∀ r, lo ≤ u r ∧ u r ≤ hi) {b : Bool} {f g : F} {k : K} (h : IsCondSpread b u X f g k) : k ≤ (hi - lo) / 2 := by
  obtain ⟨vs, vs', imp, h1, h2, h3, h4⟩ := h
  have hle : lo ≤ hi := by
    obtain ⟨r, hr⟩ := List.exists_mem_of_ne_nil _ hX
    exact (hu r).1.trans (hu r).2
  have hb : ∀ v, ∀ y ∈ vs'.map (fun v' => pd2 u X f g v v'), lo ≤ y ∧ y ≤ hi := by
    intro v y hy; obtain ⟨v', _, rfl⟩ := List.mem_map.1 hy; exact pd2_bounds hX hu f g v v'
  set d := hi - lo with hd
  have hd0 : 0 ≤ d := sub_nonneg.2 hle
  have hB : 0 ≤ d * d / 2 := by positivity
  set c := HasSqrt.sqrt (d * d / 2) with hc
  have hc0 : 0 ≤ c := LawfulSqrt.nonneg _
  have hc2 : c * c = d * d / 2 := LawfulSqrt.mul_self _ hB
  have hi' : ∀ y ∈ vs.map imp, 0 ≤ y ∧ y ≤ c := by
    intro y hy
    obtain ⟨v, hv, rfl⟩ := List.mem_map.1 hy
    have := h4 v hv
    cases b
    · simp only [Bool.false_eq_true, if_false] at this
      obtain ⟨h5, h6⟩ := quarterRange_bound (hb v) this
      refine ⟨h5, le_of_sq_le' ?_ hc0⟩
      rw [hc2]; nlinarith
    · simp only [if_true] at this
      have h6 := sampleStd_bound (hb v) this
      refine ⟨this.2.1, le_of_sq_le' ?_ hc0⟩
      rw [hc2]; linarith
  have h5 := sampleStd_bound hi' h3
  exact le_of_sq_le' (by nlinarith) (by linarith)

/-- **C106.** If all predictions lie between `lo` and `hi`, an importance lies between 0 and half of `hi - lo` for a
numerical, a quarter for a categorical feature (all methods based on partial dependence). -/
theorem C106_importance_size [LawfulSqrt K] {u : Row F V → K} (hu : ∀ r, lo ≤ u r ∧ u r ≤ hi) (kind : PdKind)
    (hs : FitSetup (finM u) E a s0 Xs) (hX : Xs.frame.rows ≠ []) (hsort : SortsBy FeatRow.val false E.sortFeat)
    (hret : PdpMethod.fit kind E a s0 = (.ok (), s)) :
    ∃ tbl, s.importance = some tbl ∧ ∀ row ∈ tbl, ∃ k : K, row.val = .fin k ∧ 0 ≤ k ∧
      if E.numeric row.f then k ≤ (hi - lo) / 2 else k ≤ (hi - lo) / 4 := by
  obtain ⟨tbl, h1, h2⟩ := C70_pd_importance_is_textbook_formula kind hs hX hsort hret
  refine ⟨tbl, h1, fun row hrow => ?_⟩
  obtain ⟨k, h3, h4⟩ := h2 row hrow
  obtain ⟨h5, h6⟩ := importance_bound hX hu h4
  exact ⟨k, h3, h5, h6⟩

/-- **C106** for Friedman's H without normalization: at most three halves of the range of the predictions. -/
theorem C106_unnormalized_H_size [LawfulSqrt K] {u : Row F V → K} (hu : ∀ r, lo ≤ u r ∧ u r ≤ hi)
    (hs : FitSetup (finM u) E a s0 Xs) (hX : Xs.frame.rows ≠ []) (hsort : SortsBy OvoRow.val false E.sortOvo)
    (hsortF : SortsBy FeatRow.val false E.sortFeat)
    (hret : PdpMethod.fit (.friedman false) E a s0 = (.ok (), s)) :
    ∃ tbl, s.ovo = some tbl ∧ (∀ row ∈ tbl, ∃ k : K, row.val = .fin k ∧ 0 ≤ k ∧ k ≤ 3 / 2 * (hi - lo)) ∧
      (a.calculateOva = true → ∃ t, s.ova = some t ∧ ∀ row ∈ t, ∃ k : K, row.val = .fin k ∧ 0 ≤ k ∧
        k ≤ 3 / 2 * (hi - lo)) := by
  have hle : lo ≤ hi := by
    obtain ⟨r, hr⟩ := List.exists_mem_of_ne_nil _ hX
    exact (hu r).1.trans (hu r).2
  have fin : ∀ {h x : K}, 0 ≤ h → h * h = x → x ≤ 9 / 4 * ((hi - lo) * (hi - lo)) → h ≤ 3 / 2 * (hi - lo) := by
    intro h x h0 e hx
    exact le_of_sq_le' (by rw [e]; linarith) (by linarith)
  obtain ⟨tbl, h1, h2⟩ := C66_H_is_textbook_formula false hs hsort hX hret
  refine ⟨tbl, h1, fun row hrow => ?_, fun hova => ?_⟩
  · have := h2 row hrow
    simp only [Bool.false_eq_true, if_false] at this
    obtain ⟨k, h3, h4, h5⟩ := this
    refine ⟨k, h3, h4, fin h4 h5 ?_⟩
    exact three_bound hX (fun r => rfl) (sumSq_centred_bound (fun r => pd2_bounds hX hu _ _ _ _))
      (sumSq_centred_bound (fun r => pd1_bounds hX hu _ _)) (sumSq_centred_bound (fun r => pd1_bounds hX hu _ _))
  · obtain ⟨t, h1, _, h2⟩ := C68_ova_is_textbook_formula false hs hsortF hX hova hret
    refine ⟨t, h1, fun row hrow => ?_⟩
    have := h2 row hrow
    simp only [Bool.false_eq_true, if_false] at this
    obtain ⟨k, h3, h4, h5⟩ := this
    refine ⟨k, h3, h4, fin h4 h5 ?_⟩
    exact three_bound hX (fun r => rfl) (sumSq_centred_bound hu)
      (sumSq_centred_bound (fun r => pd1_bounds hX hu _ _)) (sumSq_centred_bound (fun r => pdNot_bounds hX hu _ _))

/-- **C106** for Greenwell's measure: at most half of the range of the predictions. -/
theorem C106_greenwell_size [LawfulSqrt K] {u : Row F V → K} (hu : ∀ r, lo ≤ u r ∧ u r ≤ hi)
    (hs : FitSetup (finM u) E a s0 Xs) (hX : Xs.frame.rows ≠ []) (hsort : SortsBy OvoRow.val false E.sortOvo)
    (hret : PdpMethod.fit .greenwell E a s0 = (.ok (), s)) :
    ∃ tbl, s.ovo = some tbl ∧ ∀ row ∈ tbl, ∃ k : K, row.val = .fin k ∧ 0 ≤ k ∧ k ≤ (hi - lo) / 2 := by
  obtain ⟨tbl, h1, h2⟩ := C69_greenwell_is_textbook_formula hs hX hsort hret
  refine ⟨tbl, h1, fun row hrow => ?_⟩
  obtain ⟨k, h3, x, y, hx, hy, rfl⟩ := h2 row hrow
  have b1 := condSpread_bound hX hu hx
  have b2 := condSpread_bound hX hu hy
  obtain ⟨_, _, _, _, _, h5, _⟩ := hx
  obtain ⟨_, _, _, _, _, h6, _⟩ := hy
  refine ⟨_, h3, ?_, by linarith⟩
  have := h5.2.1; have := h6.2.1
  linarith

end pd

section perf
variable {F V K G L : Type} [DecidableEq F] [DecidableEq L] [Field K] [LinearOrder K] [IsStrictOrderedRing K]
  [HasSqrt K]
variable {R : Rng G} {model : ModelObj F V (Num K)} {X : LFrame L F V} {y : Target L K} {fs : List F} {n : Nat}
  {sort : List (FeatRow F K) → List (FeatRow F K)} {sc : List (Row F V) → K} {lo hi : K}

section helpers

/-- not below zero, or NaN -/
def notNeg : Num K → Prop
  | .fin x => 0 ≤ x
  | .ninf => False
  | _ => True

theorem notNeg_add {x y : Num K} (hx : notNeg x) (hy : notNeg y) : notNeg (Num.add x y) := by
  cases x <;> cases y <;> simp_all [notNeg, Num.add]
  exact add_nonneg hx hy

theorem notNeg_sum {l : List (Num K)} (h : ∀ x ∈ l, notNeg x) : notNeg (Num.sum l) := by
  induction l with
  | nil => simp [Num.sum, notNeg]
  | cons x l ih =>
    exact notNeg_add (h x List.mem_cons_self) (ih fun y hy => h y (List.mem_cons_of_mem _ hy))

theorem notNeg_mean {l : List (Num K)} (h : ∀ x ∈ l, notNeg x) : notNeg (Num.mean l) := by
  have hs := notNeg_sum h
  rw [Num.mean, Num.ofNat]
  have hn : (0 : K) ≤ l.length := Nat.cast_nonneg _
  generalize Num.sum l = a at hs
  cases a with
  | fin x =>
    simp only [Num.div]
    split
    · simp only [Num.infSign]
      split
      · trivial
      · next h1 => rw [if_neg (not_lt.2 hs)]; trivial
    · exact div_nonneg hs hn
  | pinf => simp [Num.div, not_lt.2 hn, notNeg]
  | ninf => exact hs.elim
  | nan => simp [Num.div, notNeg]

theorem notNeg_sq (x : Num K) : notNeg (Num.sq x) := by
  cases x <;> simp [Num.sq, Num.mul, notNeg]
  exact mul_self_nonneg _

theorem zipWith_forall {α β γ : Type} {f : α → β → γ} {l : List α} {m : List β} {P : γ → Prop} (h : ∀ a b, P (f a b)) :
    ∀ x ∈ List.zipWith f l m, P x := by
  induction l generalizing m with
  | nil => simp
  | cons a l ih =>
    cases m with
    | nil => simp
    | cons b m =>
      intro x hx
      rcases List.mem_cons.1 hx with rfl | hx
      · exact h _ _
      · exact ih x hx

theorem elementwise_forall {f : Num K → Num K → Num K} {yt yh d : List (Num K)} {P : Num K → Prop} (h : elementwise f yt yh = .ok d)
    (hf : ∀ a b, P (f a b)) : ∀ x ∈ d, P x := by
  unfold elementwise at h
  split at h
  · cases h; exact zipWith_forall hf
  · split at h
    · cases h
      intro x hx
      obtain ⟨t, _, rfl⟩ := List.mem_map.1 hx
      exact hf _ _
    · split at h
      · cases h
        intro x hx
        obtain ⟨t, _, rfl⟩ := List.mem_map.1 hx
        exact hf _ _
      · cases h

theorem mse_notNeg {yt yh : List (Num K)} {v : Num K} (h : mseM.calculate yt yh = .ok v) : notNeg v := by
  simp only [mseM] at h
  cases he : elementwise (fun t h : Num K => Num.sq (Num.sub h t)) yt yh with
  | error e => rw [he] at h; cases h
  | ok d =>
    rw [he] at h
    cases h
    exact notNeg_mean (elementwise_forall he fun _ _ => notNeg_sq _)

theorem score_nonneg [LawfulSqrt K] {M : Metric K} (hM : M = mseM ∨ M = rmseM) {yt yh : List (Num K)} {x : K}
    (h : M.calculate yt yh = .ok (.fin x)) : 0 ≤ x := by
  rcases hM with rfl | rfl
  · exact mse_notNeg h
  · simp only [rmseM] at h
    cases hm : mseM.calculate yt yh with
    | error e => rw [hm] at h; cases h
    | ok m =>
      rw [hm] at h
      have h' : Num.sqrt m = .fin x := Except.ok.inj h
      cases m with
      | fin z =>
        simp only [Num.sqrt] at h'
        split at h'
        · cases h'
        · rw [← Num.fin.inj h']; exact LawfulSqrt.nonneg _
      | pinf => cases h'
      | ninf => cases h'
      | nan => cases h'

theorem accuracy_range {yt yh : List (Num K)} {x : K} (h : accuracyM.calculate yt yh = .ok (.fin x)) : 0 ≤ x ∧ x ≤ 1 := by
  simp only [accuracyM] at h
  cases hd : elementwise (fun t h : Num K => if Num.eqv t h then (.fin 1 : Num K) else .fin 0) yt yh with
  | error e => rw [hd] at h; cases h
  | ok d =>
    rw [hd] at h
    have h' := Except.ok.inj h
    have h01 : ∀ e ∈ d, e = .fin 0 ∨ e = .fin 1 := by
      refine elementwise_forall hd fun a b => ?_
      by_cases e : Num.eqv a b <;> simp [e]
    obtain ⟨l, rfl, hl⟩ : ∃ l : List K, d = l.map Num.fin ∧ ∀ z ∈ l, 0 ≤ z ∧ z ≤ 1 := by
      clear hd h' h
      induction d with
      | nil => exact ⟨[], rfl, by simp⟩
      | cons e d ih =>
        obtain ⟨l, h1, h2⟩ := ih (fun z hz => h01 z (List.mem_cons_of_mem _ hz))
        rcases h01 e List.mem_cons_self with rfl | rfl
        · exact ⟨0 :: l, by simp [h1], by simpa using h2⟩
        · exact ⟨1 :: l, by simp [h1], by simpa using h2⟩
    rcases eq_or_ne l [] with rfl | hne
    · exfalso
      simp [Num.mean, Num.sum, Num.ofNat, Num.div, Num.infSign] at h'
    · rw [mean_fin_list l hne] at h'
      rw [← Num.fin.inj h']
      exact average_bounds hne hl

theorem scores_accuracy {ys : List (Num K)} {len : Nat} (h : Scores model accuracyM ys len sc) {rows : List (Row F V)}
    (hl : rows.length = len) : 0 ≤ sc rows ∧ sc rows ≤ 1 := by
  obtain ⟨p, _, h⟩ := h
  obtain ⟨yh, _, h2⟩ := h 0 rows hl
  exact accuracy_range h2

theorem scores_error [LawfulSqrt K] {M : Metric K} (hM : M = mseM ∨ M = rmseM) {ys : List (Num K)} {len : Nat}
    (h : Scores model M ys len sc) {rows : List (Row F V)} (hl : rows.length = len) : 0 ≤ sc rows := by
  obtain ⟨p, _, h⟩ := h
  obtain ⟨yh, _, h2⟩ := h 0 rows hl
  exact score_nonneg hM h2

theorem run_mem {o : PermObj G F K} (hR : R.Lawful)
    (hsort : SortsBy FeatRow.val false sort)
    (hsc : Scores model o.metric y.values X.frame.rows.length sc)
    (hfs : ∀ f ∈ fs, f ∈ X.frame.cols) (hne : fs ≠ []) (hn : 0 < n) (calls : List (List (Row F V))) :
    ∃ t o' c', PermObj.run sort R model X y n (some fs) o calls = (.ok t, o', c') ∧
      ∀ row ∈ t, ∃ l : List K, l ≠ [] ∧ (∀ z ∈ l, ∃ p, z = sc (permuted X.frame [row.f] p)) ∧
        row.val = .fin ((if o.metric.isClass then -1 else 1) * (average l - sc X.frame.rows)) := by
  obtain ⟨t, o', c', h1, _, _, h2, _, h3⟩ := C30_one_row_per_feature_sorted hR hsort hsc hfs hne hn calls
  refine ⟨t, o', c', h1, fun row hrow => ?_⟩
  obtain ⟨x, hx, e⟩ := h3 row hrow
  have hf : row.f ∈ fs := (h2 _).1 (List.mem_map.2 ⟨row, hrow, rfl⟩)
  refine ⟨_, turnScores_ne_nil hn hf _, fun z hz => ?_, by rw [hx, e]⟩
  obtain ⟨k, h⟩ := turnScores_mem hz
  exact ⟨_, h⟩

theorem pairValue_le {Z : Frame F V} (h : ∀ rows : List (Row F V), rows.length = Z.rows.length → lo ≤ sc rows ∧ sc rows ≤ hi)
    (perm : Nat → List Nat) (hn : 0 < n) (i : Nat) (pr : F × F) : pairValue sc Z perm n i pr ≤ 2 * (hi - lo) := by
  apply average_le
  · simp; omega
  · intro x hx
    obtain ⟨j, _, rfl⟩ := List.mem_map.1 hx
    have a1 := h _ (length_permuted Z [pr.1, pr.2] (perm (3 * (n * i + j) + 2)))
    have a2 := h _ (length_permuted Z [pr.1] (perm (3 * (n * i + j))))
    have a3 := h _ (length_permuted Z [pr.2] (perm (3 * (n * i + j) + 1)))
    have a4 := h Z.rows rfl
    rw [nonAdditive, abs_le]
    constructor <;> linarith [a1.1, a1.2, a2.1, a2.2, a3.1, a3.2, a4.1, a4.2]

end helpers

/-! ## C107 -/

/-- **C107.** With accuracy, the importance of a feature lies between `a - 1` and `a`, where `a` is the accuracy of the
model on the data (so between -1 and 1). -/
theorem C107_accuracy_importance_partial {o : PermObj G F K} (hR : R.Lawful) (hsort : SortsBy FeatRow.val false sort)
    (hM : o.metric = accuracyM) (hsc : Scores model o.metric y.values X.frame.rows.length sc)
    (hfs : ∀ f ∈ fs, f ∈ X.frame.cols) (hne : fs ≠ []) (hn : 0 < n) (calls : List (List (Row F V))) :
    ∃ t o' c', PermObj.run sort R model X y n (some fs) o calls = (.ok t, o', c') ∧
      0 ≤ sc X.frame.rows ∧ sc X.frame.rows ≤ 1 ∧
      ∀ row ∈ t, ∃ x : K, row.val = .fin x ∧ sc X.frame.rows - 1 ≤ x ∧ x ≤ sc X.frame.rows := by
  obtain ⟨t, o', c', h1, h2⟩ := run_mem hR hsort hsc hfs hne hn calls
  have hr : ∀ rows : List (Row F V), rows.length = X.frame.rows.length → 0 ≤ sc rows ∧ sc rows ≤ 1 :=
    fun rows hl => scores_accuracy (hM ▸ hsc) hl
  refine ⟨t, o', c', h1, (hr _ rfl).1, (hr _ rfl).2, fun row hrow => ?_⟩
  obtain ⟨l, hl, hz, hv⟩ := h2 row hrow
  refine ⟨_, hv, ?_⟩
  have hc : o.metric.isClass = true := by rw [hM]; rfl
  simp only [hc, if_true]
  have hb := average_bounds (lo := 0) (hi := 1) hl (fun z hz' => by
    obtain ⟨p, rfl⟩ := hz z hz'; exact hr _ (length_permuted _ _ _))
  constructor <;> linarith [hb.1, hb.2]

/-- **C107.** With MSE or RMSE, no importance lies below minus the error of the model on the data. -/
theorem C107_error_importance_partial [LawfulSqrt K] {o : PermObj G F K} (hR : R.Lawful) (hsort : SortsBy FeatRow.val false sort)
    (hM : o.metric = mseM ∨ o.metric = rmseM) (hsc : Scores model o.metric y.values X.frame.rows.length sc)
    (hfs : ∀ f ∈ fs, f ∈ X.frame.cols) (hne : fs ≠ []) (hn : 0 < n) (calls : List (List (Row F V))) :
    ∃ t o' c', PermObj.run sort R model X y n (some fs) o calls = (.ok t, o', c') ∧
      ∀ row ∈ t, ∃ x : K, row.val = .fin x ∧ -sc X.frame.rows ≤ x := by
  obtain ⟨t, o', c', h1, h2⟩ := run_mem hR hsort hsc hfs hne hn calls
  refine ⟨t, o', c', h1, fun row hrow => ?_⟩
  obtain ⟨l, hl, hz, hv⟩ := h2 row hrow
  refine ⟨_, hv, ?_⟩
  have hc : o.metric.isClass = false := by rcases hM with h | h <;> rw [h] <;> rfl
  simp only [hc, Bool.false_eq_true, if_false]
  have hb := average_ge (c := 0) hl (fun z hz' => by
    obtain ⟨p, rfl⟩ := hz z hz'; exact scores_error hM hsc (length_permuted _ _ _))
  linarith

variable {E : PerfEnv G L F K} {a : SejongArgs L F V K} {s0 : Sejong G L F V K} {Xs : LFrame L F V} {ys : Target L K}
  {g : G}

/-- **C107.** With accuracy, every value of Sejong Oh's method lies between 0 and 2. -/
theorem C107_accuracy_sejong_partial (hs : PerfSetup E a s0 Xs ys g sc) (hM : s0.metric = accuracyM)
    (hsort : SortsBy (fun r : OvoRow F K => r.val.abs) false E.sortOvo) (entropy : G) :
    ∃ s t, Sejong.fit E a entropy s0 = (.ok (), s) ∧ s.ovo = some t ∧
      ∀ row ∈ t, ∃ x : K, row.val = .fin x ∧ 0 ≤ x ∧ x ≤ 2 := by
  obtain ⟨s, t, h1, h2, h3, h4, _⟩ := C24_mean_absolute_nonadditive_change hs hsort entropy
  refine ⟨s, t, h1, h2, fun row hrow => ?_⟩
  obtain ⟨x, hx, hx0⟩ := h4 row hrow
  refine ⟨x, hx, hx0, ?_⟩
  have hmem := h3.mem_iff.1 hrow
  rw [List.mem_mapIdx] at hmem
  obtain ⟨i, hi, e⟩ := hmem
  have hv := pairValue_le (lo := 0) (hi := 1) (sc := sc) (Z := Xs.frame)
    (fun rows hl => scores_accuracy (hM ▸ hs.scores) hl) (nthPerm E.R Xs.frame.rows.length g) hs.repeats i
    (combinations2 a.feats)[i]
  have e2 : row.val = .fin (pairValue sc Xs.frame (nthPerm E.R Xs.frame.rows.length g) a.nRepeat i
    (combinations2 a.feats)[i]) := by rw [← e]; rfl
  rw [hx] at e2
  rw [Num.fin.inj e2]
  linarith

/-! ## C108 -/

theorem length_pairFrames (Z : Frame F V) (perm : Nat → List Nat) (n : Nat) (pairs : List (F × F)) :
    (pairFrames Z perm n pairs).length = 3 * (n * pairs.length) := by
  unfold pairFrames
  rw [List.length_flatten]
  have : (List.map List.length (pairs.mapIdx fun i pr =>
      (List.range n).flatMap fun j => tripleFrames Z perm pr.1 pr.2 (3 * (n * i + j)))) = pairs.map (fun _ => 3 * n) := by
    apply List.ext_getElem
    · simp
    · intro i h1 h2
      simp [List.length_flatMap, tripleFrames]
      omega
  rw [this]
  simp
  ring

theorem length_turnFrames (Z : Frame F V) (perm : Nat → List Nat) (fs : List F) (n : Nat) :
    (turnFrames Z perm fs n).length = n * fs.length := by
  simp [turnFrames, turns, List.length_flatten]

/-- **C108.** Fitting Sejong Oh's method with `p` features and `r` repetitions asks the model for predictions exactly
`2 + r * (3 * p*(p-1)/2 + p)` times, each time for as many rows as were sampled. -/
theorem C108_sejong_cost (hs : PerfSetup E a s0 Xs ys g sc) (entropy : G) :
    let p := (a.features.getD a.X.frame.cols).length
    ∃ s new, Sejong.fit E a entropy s0 = (.ok (), s) ∧ s.calls = s0.calls ++ new ∧
      new.length = 2 + a.nRepeat * (3 * (p * (p - 1) / 2) + p) ∧ ∀ q ∈ new, q.length = Xs.frame.rows.length := by
  intro p
  obtain ⟨imp, h⟩ := sejong_fit_eq hs entropy
  refine ⟨_, [Xs.frame.rows] ++ pairFrames Xs.frame (nthPerm E.R Xs.frame.rows.length g) a.nRepeat
    (combinations2 a.feats) ++ [Xs.frame.rows] ++ turnFrames Xs.frame (nthPerm E.R Xs.frame.rows.length entropy) a.feats
    a.nRepeat, h, by simp only [List.append_assoc], ?_, ?_⟩
  · simp only [List.length_append, length_pairFrames, length_turnFrames, List.length_cons, List.length_nil]
    rw [length_combinations2]
    change _ = 2 + a.nRepeat * (3 * (a.feats.length * (a.feats.length - 1) / 2) + a.feats.length)
    ring
  · intro q hq
    simp only [List.mem_append, List.mem_singleton] at hq
    rcases hq with ((rfl | hq) | rfl) | hq
    · rfl
    · simp only [pairFrames, List.mem_flatten, List.mem_mapIdx] at hq
      obtain ⟨l, ⟨i, hi, rfl⟩, hq⟩ := hq
      simp only [List.mem_flatMap, tripleFrames, List.mem_cons, List.not_mem_nil, or_false] at hq
      obtain ⟨j, _, h⟩ := hq
      rcases h with rfl | rfl | rfl <;> exact length_permuted _ _ _
    · rfl
    · simp only [turnFrames, List.mem_mapIdx] at hq
      obtain ⟨k, hk, rfl⟩ := hq
      exact length_permuted _ _ _

/-- **C108.** `PermutationImportance.importance` with `p` features and `r` repetitions asks `1 + r * p` times. -/
theorem C108_permutation_cost {o : PermObj G F K} (hR : R.Lawful)
    (hsc : Scores model o.metric y.values X.frame.rows.length sc)
    (hfs : ∀ f ∈ fs, f ∈ X.frame.cols) (hne : fs ≠ []) (hn : 0 < n) (calls : List (List (Row F V))) :
    ∃ t o' new, PermObj.run sort R model X y n (some fs) o calls = (.ok t, o', calls ++ new) ∧
      new.length = 1 + n * fs.length ∧ ∀ q ∈ new, q.length = X.frame.rows.length := by
  obtain ⟨ks, _, _, h⟩ := run_eq (sort := sort) hR hsc hfs hne hn calls
  refine ⟨_, _, [X.frame.rows] ++ turnFrames X.frame (nthPerm R X.frame.rows.length o.rng) fs n,
    by rw [← List.append_assoc]; exact h, ?_, ?_⟩
  · simp only [List.length_append, length_turnFrames, List.length_cons, List.length_nil]
  · intro q hq
    simp only [List.mem_append, List.mem_singleton] at hq
    rcases hq with rfl | hq
    · rfl
    · simp only [turnFrames, List.mem_mapIdx] at hq
      obtain ⟨k, hk, rfl⟩ := hq
      exact length_permuted _ _ _

end perf

section Cases
open Ex

/-- a classifier's probability: 3/4 when the first two features agree, else 1/4 -/
noncomputable def exProb (r : Row (Fin 3) ℤ) : ℝ := if r 0 = r 1 then 3 / 4 else 1 / 4

noncomputable def exProbArgs : PdArgs Nat (Fin 3) ℤ ℝ :=
  { exArgs with model := ⟨1, some (fun _ rows => .ok (rows.map (fun r => .fin (exProb r)))), none⟩ }

theorem exProbSetup (rng : Nat) : FitSetup (finM exProb) exEnv exProbArgs (PdpMethod.new rng) exLX where
  sampled := rfl
  rowWise := by intro n rows ys h; cases h; rfl
  reads := by
    intro r r' h
    simp only [finM, exProb, h 0 (by decide), h 1 (by decide)]
  cols_nodup := by decide
  history := by intro co h; cases h

/-- C106 for probabilities: importances at most 1/2, unnormalized H at most 3/2 -/
example : ∃ s t t', PdpMethod.fit (G := Nat) (.friedman false) exEnv exProbArgs (PdpMethod.new 0) = (.ok (), s) ∧
    s.importance = some t ∧ (∀ row ∈ t, ∃ k : ℝ, row.val = .fin k ∧ k ≤ 1 / 2) ∧
    s.ovo = some t' ∧ (∀ row ∈ t', ∃ k : ℝ, row.val = .fin k ∧ k ≤ 3 / 2) := by
  have hc : PdpMethod.chooseCalc exProbArgs exLX exProbArgs.pf =
      .ok ⟨1, [10, 11, 12, 13], Calc.new exProbArgs.pf exX 7⟩ := by
    simp only [PdpMethod.chooseCalc, exProbArgs, exArgs, exLX]
  have hp : NeverFails exProbArgs.pf := fun n rows => ⟨_, rfl⟩
  have h := (fit_returns (e := .keyError) (kind := .friedman false) (exProbSetup 0) hc hp hp
    (exValid (K := ℝ))).1.2 ⟨⟨_, ovoRows.eq_1 _ _ _ _ _⟩, impRows_ok _ _ exRows _⟩
  obtain ⟨s, hs⟩ := ret_of_fst h
  have hu : ∀ r, (0 : ℝ) ≤ exProb r ∧ exProb r ≤ 1 := by
    intro r; unfold exProb; split <;> constructor <;> norm_num
  obtain ⟨t, h1, h2⟩ := C106_importance_size hu (.friedman false) (exProbSetup 0) exRows (sortsBy_stableSort _ _) hs
  obtain ⟨t', h3, h4, _⟩ := C106_unnormalized_H_size hu (exProbSetup 0) exRows (sortsBy_stableSort _ _)
    (sortsBy_stableSort _ _) hs
  refine ⟨s, t, t', hs, h1, fun row hrow => ?_, h3, fun row hrow => ?_⟩
  · obtain ⟨k, e1, _, e3⟩ := h2 row hrow
    refine ⟨k, e1, ?_⟩
    split at e3 <;> linarith
  · obtain ⟨k, e1, _, e3⟩ := h4 row hrow
    exact ⟨k, e1, by linarith⟩

/-- C107, C108: accuracy of the perfect model of `PermImp`: importances computed 0, 2/3, 2/3, seven questions -/
example : ∃ t o' c', PermObj.run (L := Nat) (stableSort FeatRow.val false) exRng exPerfModel exPerfX exPerfY 2
    (some [2, 0, 1]) (⟨0, accuracyM, none⟩ : PermObj Nat (Fin 3) ℝ) [] = (.ok t, o', c') ∧
      ∀ row ∈ t, ∃ x : ℝ, row.val = .fin x ∧ x ≤ 1 := by
  obtain ⟨sc, hsc, _⟩ := scores_of_predicts (M := accuracyM) (Or.inr (Or.inr rfl)) (exPredicts (K := ℝ))
    (ts := [2, 0, 12]) (by simp)
  obtain ⟨t, o', c', h1, _, h3, h4⟩ := C107_accuracy_importance_partial (sort := stableSort FeatRow.val false)
    (R := exRng) (X := exPerfX) (y := exPerfY) (o := (⟨0, accuracyM, none⟩ : PermObj Nat (Fin 3) ℝ)) (n := 2)
    (fs := [2, 0, 1]) exRng_lawful (sortsBy_stableSort _ _) rfl hsc (by simp [exPerfX]) (by simp) (by simp) []
  refine ⟨t, o', c', h1, fun row hrow => ?_⟩
  obtain ⟨x, e1, _, e3⟩ := h4 row hrow
  exact ⟨x, e1, by linarith⟩

example : (PermObj.run (L := Nat) (stableSort FeatRow.val false) exRng exPerfModel exPerfX exPerfY 2 (some [2, 0, 1])
    (⟨0, accuracyM, none⟩ : PermObj Nat (Fin 3) ℚ) []).2.2.length = 7 := by decide +kernel
example : (PermObj.run (L := Nat) (stableSort FeatRow.val false) exRng exPerfModel exPerfX exPerfY 2 (some [2, 0, 1])
    (⟨0, accuracyM, none⟩ : PermObj Nat (Fin 3) ℚ) []).1.map (fun t => t.map FeatRow.val) =
    .ok [.fin (2 / 3), .fin (2 / 3), .fin 0] := by decide +kernel

/-- C108 for the setting of `Sejong`: three features -/
example (g0 : Nat) : ∃ s new, Sejong.fit (K := ℝ) exPerfEnv exSArgs 5 (Sejong.new g0 rmseM) = (.ok (), s) ∧
    s.calls = [] ++ new ∧ new.length = 2 + (exSArgs (K := ℝ)).nRepeat * (3 * 3 + 3) := by
  obtain ⟨sc, hs⟩ := exPerfSetup g0
  obtain ⟨s, new, h1, h2, h3, _⟩ := C108_sejong_cost hs 5
  exact ⟨s, new, h1, h2, h3⟩

end Cases
end Artemis
