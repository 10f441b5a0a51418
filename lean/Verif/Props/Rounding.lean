import Verif.Proofs.RoundTables
import Verif.Proofs.Binary64
import Verif.Proofs.ZenPd
import Verif.Props.Zero
import Verif.Examples.FitData
import Mathlib.Data.Rat.Floor
import Mathlib.Tactic.FinCases

/-!
# Properties C142 to C144: Friedman's H and variable importance in floating-point arithmetic

Setting: `friedmanR` (`Verif/Model/Rounded.lean`), the code of `FriedmanHStatisticMethod.fit` with a rounding after every
arithmetic operation and sums in any order and grouping. `Arith.Lawful`, `Arith.Accurate` and `Arith.Suits`
(`Verif/Spec/Rounding.lean`) say what is asked of the arithmetic; binary64 meets all three.
-/

set_option linter.unusedSectionVars false
set_option linter.unusedVariables false
set_option linter.unusedSimpArgs false

namespace Artemis
open Spec

/-- `R` is the root mean square of `w` over the data -/
def Spec.IsRms {F V K : Type} [Field K] [LinearOrder K] (X : Frame F V) (w : Row F V → K) (R : K) : Prop :=
  0 ≤ R ∧ R * R = sumSq X w / X.rows.length

section Rounding
variable {F V K : Type} [DecidableEq F] [LinearOrder V] [Field K] [LinearOrder K] [IsStrictOrderedRing K]
  [HasSqrt K] [LawfulSqrt K] {A : Arith K} {sortOvo : List (OvoRow F K) → List (OvoRow F K)}
  {sortFeat : List (FeatRow F K) → List (FeatRow F K)} {numeric : F → Bool} {normalized : Bool} {predict : PF F V (Rounded A)}
  {X : Frame F V} {features : List F} {batchsize : Int} {ovo : List (OvoRow F K)} {ova imp : List (FeatRow F K)}

/-! ## C142 -/

/-- non-negative, no NaN, strongest first -/
def Spec.StrongestFirst {α : Type} (val : α → Num K) (t : List α) : Prop :=
  (∀ r ∈ t, val r ≠ .nan ∧ Num.le (.fin 0) (val r) = true) ∧ t.Pairwise fun r r' => Num.le (val r') (val r) = true

theorem ordered_ovo (hs : SortsBy OvoRow.val false sortOvo) {rows : List (OvoRow F K)} (h : ∀ r ∈ rows, NaNOrNonneg r.val) :
    StrongestFirst OvoRow.val ((sortOvo rows).map OvoRow.fillna) := by
  constructor
  · intro row hrow
    obtain ⟨r, hr, rfl⟩ := List.mem_map.1 hrow
    rcases h r ((hs _).1.mem_iff.1 hr) with h | h
    · simp [OvoRow.fillna, h]
    · simp only [OvoRow.fillna, Num.fillna0_of_ne h.not_nan]
      exact ⟨h.not_nan, h⟩
  · rw [List.pairwise_map]
    refine List.Pairwise.imp_of_mem ?_ (hs _).2
    intro r r' hr hr' hk
    exact Num.keyLE_fillna hk (h r ((hs _).1.mem_iff.1 hr)) (h r' ((hs _).1.mem_iff.1 hr'))

theorem ordered_feat (hs : SortsBy FeatRow.val false sortFeat) {rows : List (FeatRow F K)} (h : ∀ r ∈ rows, NaNOrNonneg r.val) :
    StrongestFirst FeatRow.val ((sortFeat rows).map FeatRow.fillna) := by
  constructor
  · intro row hrow
    obtain ⟨r, hr, rfl⟩ := List.mem_map.1 hrow
    rcases h r ((hs _).1.mem_iff.1 hr) with h | h
    · simp [FeatRow.fillna, h]
    · simp only [FeatRow.fillna, Num.fillna0_of_ne h.not_nan]
      exact ⟨h.not_nan, h⟩
  · rw [List.pairwise_map]
    refine List.Pairwise.imp_of_mem ?_ (hs _).2
    intro r r' hr hr' hk
    exact Num.keyLE_fillna hk (h r ((hs _).1.mem_iff.1 hr)) (h r' ((hs _).1.mem_iff.1 hr'))

theorem forall₂_right {α β : Type} {P : α → β → Prop} {Q : β → Prop} {l : List α} {r : List β} (h : List.Forall₂ P l r)
    (hQ : ∀ a b, P a b → Q b) : ∀ b ∈ r, Q b := by
  induction h with
  | nil => intro b hb; cases hb
  | cons h1 _ ih =>
    intro b hb
    rcases List.mem_cons.1 hb with rfl | hb
    · exact hQ _ _ h1
    · exact ih b hb

theorem hstatPairR_nonneg (hA : A.Lawful) {n : Bool} {c : Calc F V (Rounded A)} {q : F × F} {row : OvoRow F K}
    (e : hstatPairR A n X c q = .ok row) : NaNOrNonneg row.val := by
  unfold hstatPairR at e
  simp only [bind, Except.bind] at e
  repeat' split at e
  all_goals first | cases e; done | skip
  cases e
  exact hstatValueR_nonneg hA ‹_›

theorem hstatFeatureR_nonneg (hA : A.Lawful) {n : Bool} {c : Calc F V (Rounded A)} {preds : List (Rounded A)} {f : F}
    {row : FeatRow F K} (e : hstatFeatureR A n X preds c f = .ok row) : NaNOrNonneg row.val := by
  unfold hstatFeatureR at e
  simp only [bind, Except.bind] at e
  repeat' split at e
  all_goals first | cases e; done | skip
  cases e
  exact hstatValueR_nonneg hA ‹_›

theorem calcImportanceR_nonneg (hA : A.Lawful) {c : Calc F V (Rounded A)} {f : F}
    {row : FeatRow F K} (e : calcImportanceR A numeric c f = .ok row) : NaNOrNonneg row.val := by
  unfold calcImportanceR at e
  simp only [bind, Except.bind] at e
  repeat' split at e
  all_goals first | cases e; done | skip
  · cases e
    exact npStdR_nonneg hA _
  · cases e
    exact rangeImpR_nonneg hA ‹_›

/-- **C142.** Whatever the prediction function returns (infinities and NaN included), whatever the rows and the kind of H: a fit
that returns has three tables without NaN and without negative values, strongest first. -/
theorem C142_rounded_nonneg_sorted (hA : A.Lawful) (hso : SortsBy OvoRow.val false sortOvo) (hsf : SortsBy FeatRow.val false sortFeat)
    (h : friedmanR A sortOvo sortFeat numeric normalized predict X features batchsize = .ok (ovo, ova, imp)) :
    StrongestFirst OvoRow.val ovo ∧ StrongestFirst FeatRow.val ova ∧ StrongestFirst FeatRow.val imp := by
  unfold friedmanR at h
  obtain ⟨s', h⟩ : ∃ s', (PyM.seq (hstatOvoR A sortOvo normalized X features (combinations2 features)) fun ovo =>
    PyM.seq (pdpImportanceR A sortFeat (fun f => numeric f && decide (f ∈ features)) features) fun imp =>
    PyM.seq (hstatOvaR A sortFeat predict normalized X features) fun ova => fun c => (.ok (ovo, ova, imp), c))
      (Calc.new predict X batchsize) = (.ok (ovo, ova, imp), s') := ⟨_, Prod.ext h rfl⟩
  obtain ⟨t1, c1, h1, h⟩ := seq_ok h
  obtain ⟨t2, c2, h2, h⟩ := seq_ok h
  obtain ⟨t3, c3, h3, h⟩ := seq_ok h
  cases h
  refine ⟨?_, ?_, ?_⟩
  · unfold hstatOvoR at h1
    obtain ⟨_, c4, _, h1⟩ := seq_ok h1
    obtain ⟨_, c5, _, h1⟩ := seq_ok h1
    cases em : (combinations2 features).mapM (hstatPairR A normalized X c5) with
    | error e => rw [em] at h1; cases h1
    | ok rows =>
      rw [em] at h1
      cases h1
      exact ordered_ovo hso (forall₂_right (mapM_eq_ok em) fun a b e => hstatPairR_nonneg hA e)
  · unfold hstatOvaR at h3
    obtain ⟨_, c4, _, h3⟩ := seq_ok h3
    cases ep : predict c4.calls.length X.rows with
    | error e => simp only [ep] at h3; cases h3
    | ok preds =>
      simp only [ep] at h3
      cases em : features.mapM (hstatFeatureR A normalized X preds c4) with
      | error e => rw [em] at h3; cases h3
      | ok rows =>
        rw [em] at h3
        cases h3
        exact ordered_feat hsf (forall₂_right (mapM_eq_ok em) fun a b e => hstatFeatureR_nonneg hA e)
  · unfold pdpImportanceR at h2
    obtain ⟨_, c4, _, h2⟩ := seq_ok h2
    cases em : features.mapM (calcImportanceR A (fun f => numeric f && decide (f ∈ features)) c4) with
    | error e => rw [em] at h2; cases h2
    | ok rows =>
      rw [em] at h2
      cases h2
      exact ordered_feat hsf (forall₂_right (mapM_eq_ok em) fun a b e => calcImportanceR_nonneg hA e)

/-! ## C143 -/

variable {u η B M : K} {w : Row F V → K}

theorem mean_closeX (h : A.Suits u η B X.rows.length M) {φ : Row F V → Row F V} (hb : ∀ r ∈ X.rows, |w (φ r)| ≤ M) :
    CloseTo (A.mean (X.rows.map fun r => .fin (w (φ r)))) (average (X.rows.map fun r => w (φ r))) (7 * (X.rows.length * (u * M))) ∧
      |average (X.rows.map fun r => w (φ r))| ≤ M := by
  have h1 := h.one_le
  have hne : X.rows ≠ [] := by
    rintro e
    rw [e] at h1
    norm_num at h1
  obtain ⟨hu, η0, w0, w1, w2, m1, hB, u1⟩ := h.facts
  have nn : 0 ≤ X.rows.length * (M * M) := mul_nonneg (by linarith) (mul_self_nonneg M)
  constructor
  · have := mean_close (l := X.rows.map fun r => (.fin (w (φ r)) : Num K)) (m := M) h.accurate h.lawful (by simpa using hne)
      (by
        intro a ha
        obtain ⟨r, hr, rfl⟩ := List.mem_map.1 ha
        exact ⟨_, rfl, hb r hr⟩) h.size_nonneg (by rw [List.length_map]; nlinarith [h.rows]) h.small
      (by rw [List.length_map]; nlinarith [h.size_nonneg])
    rw [List.length_map, List.map_map] at this
    exact this
  · rw [abs_le]
    exact average_bounds (by simpa using hne) (by
      intro z hz; obtain ⟨i, hi, rfl⟩ := List.mem_map.1 hz; exact abs_le.1 (hb i hi))

/-- floats of a finite-valued model -/
def fltM (A : Arith K) (w : Row F V → K) (r : Row F V) : Rounded A := ⟨.fin (w r)⟩

theorem pdSingle_close (h : A.Suits u η B X.rows.length M) (hw : ∀ r, Mixes X r → |w r| ≤ M) {f : F} {v : V} (hv : Observed X f v) :
    CloseTo (pdSingle (fltM A w) X f v).val (pd1 w X f v) (7 * (X.rows.length * (u * M))) ∧ |pd1 w X f v| ≤ M := by
  have := mean_closeX (φ := fun r => setF r f v) h (w := w) fun r hr => hw _ (mixes_setF (mixes_row hr) hv)
  refine ⟨?_, this.2⟩
  have e := this.1
  have e2 : (pdSingle (fltM A w) X f v).val = A.mean (X.rows.map fun r => .fin (w (setF r f v))) := by
    show A.mean ((X.rows.map _).map Rounded.val) = _
    rw [List.map_map]
    rfl
  rw [e2]
  exact e

theorem pdPair_close (h : A.Suits u η B X.rows.length M) (hw : ∀ r, Mixes X r → |w r| ≤ M) {f f' : F} {v v' : V}
    (hv : Observed X f v) (hv' : Observed X f' v') :
    CloseTo (pdPair (fltM A w) X f f' v v').val (pd2 w X f f' v v') (7 * (X.rows.length * (u * M))) ∧ |pd2 w X f f' v v'| ≤ M := by
  have := mean_closeX (φ := fun r => setF (setF r f' v') f v) h (w := w) fun r hr => hw _ (mixes_setF (mixes_setF (mixes_row hr) hv') hv)
  refine ⟨?_, this.2⟩
  have e := this.1
  have e2 : (pdPair (fltM A w) X f f' v v').val = A.mean (X.rows.map fun r => .fin (w (setF (setF r f' v') f v))) := by
    show A.mean ((X.rows.map _).map Rounded.val) = _
    rw [List.map_map]
    rfl
  rw [e2]
  exact e

theorem pdMinus_close (h : A.Suits u η B X.rows.length M) (hw : ∀ r, Mixes X r → |w r| ≤ M) {f : F} {ri : Row F V} (hi : Mixes X ri) :
    CloseTo (pdMinus (fltM A w) X f ri).val (pdNot w X f ri) (7 * (X.rows.length * (u * M))) ∧ |pdNot w X f ri| ≤ M := by
  have := mean_closeX (φ := fun r => setF ri f (r f)) h (w := w) fun r hr => hw _ (mixes_setF hi (observed_row hr f))
  refine ⟨?_, this.2⟩
  have e := this.1
  have e2 : (pdMinus (fltM A w) X f ri).val = A.mean (X.rows.map fun r => .fin (w (setF ri f (r f)))) := by
    show A.mean ((X.rows.map _).map Rounded.val) = _
    rw [List.map_map]
    rfl
  rw [e2]
  exact e

theorem rows_of_suits (h : A.Suits u η B X.rows.length M) : X.rows ≠ [] := by
  have h1 := h.one_le
  intro e
  rw [e] at h1
  norm_num at h1

theorem hRows_close (h : A.Suits u η B X.rows.length M) {p q t : Row F V → Num K} {x y z : Row F V → K}
    (hp : ∀ r ∈ X.rows, CloseTo (p r) (x r) (7 * (X.rows.length * (u * M))) ∧ |x r| ≤ M)
    (hq : ∀ r ∈ X.rows, CloseTo (q r) (y r) (7 * (X.rows.length * (u * M))) ∧ |y r| ≤ M)
    (ht : ∀ r ∈ X.rows, CloseTo (t r) (z r) (7 * (X.rows.length * (u * M))) ∧ |z r| ≤ M) {R : K}
    (hR : IsRms X (fun r => centred X z r - centred X x r - centred X y r) R) :
    CloseTo (hRowsR A false X.rows p q t) R (166 * (X.rows.length * (u * M))) := by
  have hne := rows_of_suits h
  obtain ⟨hu, η0, w0, w1, w2, m1, hB, u1⟩ := h.facts
  have M0 := h.size_nonneg
  have cp := centre_close h hne le_rfl (fun r hr => (hp r hr).1) (fun r hr => (hp r hr).2)
  have cq := centre_close h hne le_rfl (fun r hr => (hq r hr).1) (fun r hr => (hq r hr).2)
  have ct := centre_close h hne le_rfl (fun r hr => (ht r hr).1) (fun r hr => (ht r hr).2)
  have hd := fun r hr => diff_close h (ct r hr).1 (ct r hr).2 (cp r hr).1 (cp r hr).2 (cq r hr).1 (cq r hr).2
  have := rms_close (dh := gapR A X.rows p q t) (d := fun r => centred X z r - centred X x r - centred X y r)
    (ε := 93 * (X.rows.length * (u * M))) (m := 15 / 2 * M) h hne le_rfl (by linarith) (fun r hr => (hd r hr).1)
    (fun r hr => by have := (hd r hr).2; simp only [centred]; linarith) (by linarith) hR.1 hR.2
  refine this.mono ?_
  have : (X.rows.length : K) * (u * (15 / 2 * M)) = 15 / 2 * (X.rows.length * (u * M)) := by ring
  rw [this]
  linarith

theorem hPairR_close (h : A.Suits u η B X.rows.length M) (hw : ∀ r, Mixes X r → |w r| ≤ M) {f f' : F} {R : K}
    (hR : IsRms X (interaction w X f f') R) : CloseTo (hPairR false (fltM A w) X f f') R (166 * (X.rows.length * (u * M))) :=
  hRows_close h (fun r hr => pdSingle_close h hw (observed_row hr f)) (fun r hr => pdSingle_close h hw (observed_row hr f'))
    (fun r hr => pdPair_close h hw (observed_row hr f) (observed_row hr f')) hR

theorem hFeatR_close (h : A.Suits u η B X.rows.length M) (hw : ∀ r, Mixes X r → |w r| ≤ M) {f : F} {R : K}
    (hR : IsRms X (interactionOva w X f) R) : CloseTo (hFeatR false (fltM A w) X f) R (166 * (X.rows.length * (u * M))) := by
  obtain ⟨hu, η0, w0, w1, w2, m1, hB, u1⟩ := h.facts
  refine hRows_close h (fun r hr => pdSingle_close h hw (observed_row hr f)) (fun r hr => pdMinus_close h hw (mixes_row hr))
    (fun r hr => ⟨⟨w r, rfl, by rw [sub_self, abs_zero]; linarith⟩, hw r (mixes_row hr)⟩) hR

theorem exists_rms (hX : X.rows ≠ []) (d : Row F V → K) : ∃ R, IsRms X d R := by
  have : 0 ≤ sumSq X d / X.rows.length := by
    apply div_nonneg _ (Nat.cast_nonneg _)
    apply List.sum_nonneg
    intro z hz; obtain ⟨i, _, rfl⟩ := List.mem_map.1 hz; exact mul_self_nonneg _
  exact ⟨HasSqrt.sqrt _, LawfulSqrt.nonneg _, LawfulSqrt.mul_self _ this⟩

theorem close_fin {l : List V} {p : V → Num K} {x : V → K} {ε : K} (h : ∀ v ∈ l, CloseTo (p v) (x v) ε) :
    ∀ v ∈ l, p v = .fin (p v).realPart ∧ |(p v).realPart - x v| ≤ ε := by
  intro v hv
  obtain ⟨y, e, hy⟩ := h v hv
  rw [e]
  exact ⟨rfl, hy⟩

theorem range_close (h : A.Suits u η B X.rows.length M) {l : List V} (hl : l ≠ []) {p : V → Num K} {x : V → K}
    (hp : ∀ v ∈ l, CloseTo (p v) (x v) (7 * (X.rows.length * (u * M))) ∧ |x v| ≤ M) :
    ∃ k, IsQuarterRange (l.map x) k ∧ ∃ a, rangeImpR A (l.map p) = .ok a ∧ CloseTo a k (53 * (X.rows.length * (u * M))) := by
  obtain ⟨hu, η0, w0, w1, w2, m1, hB, u1⟩ := h.facts
  have M0 := h.size_nonneg
  have hη := h.small
  have nn : 0 ≤ (X.rows.length : K) * (M * M) := mul_nonneg (by linarith [h.one_le]) (mul_self_nonneg M)
  have hf := close_fin fun v hv => (hp v hv).1
  have ep : l.map p = l.map fun v => .fin (p v).realPart := List.map_congr_left fun v hv => (hf v hv).1
  obtain ⟨hi, e1, ⟨a, ha, rfl⟩, h1⟩ := max?_fin l (fun v => (p v).realPart) hl
  obtain ⟨lo, e2, ⟨b, hb, rfl⟩, h2⟩ := min?_fin l (fun v => (p v).realPart) hl
  obtain ⟨hi', _, ⟨a', ha', rfl⟩, h1'⟩ := max?_fin l x hl
  obtain ⟨lo', _, ⟨b', hb', rfl⟩, h2'⟩ := min?_fin l x hl
  refine ⟨(x a' - x b') / 4, ⟨x b', List.mem_map_of_mem hb', x a', List.mem_map_of_mem ha', ?_, rfl⟩,
    A.div (A.sub (.fin (p a).realPart) (.fin (p b).realPart)) (.fin 4), ?_, ?_⟩
  · intro y hy
    obtain ⟨v, hv, rfl⟩ := List.mem_map.1 hy
    exact ⟨h2' v hv, h1' v hv⟩
  · unfold rangeImpR
    rw [ep, e1, e2]
  · have ca : |(p a).realPart - x a'| ≤ 7 * (X.rows.length * (u * M)) := by
      have t1 := abs_le.1 (hf a ha).2
      have t2 := abs_le.1 (hf a' ha').2
      have t3 := h1 a' ha'
      have t4 := h1' a ha
      rw [abs_le]; constructor <;> linarith
    have cb : |(p b).realPart - x b'| ≤ 7 * (X.rows.length * (u * M)) := by
      have t1 := abs_le.1 (hf b hb).2
      have t2 := abs_le.1 (hf b' hb').2
      have t3 := h2 b' hb'
      have t4 := h2' b hb
      rw [abs_le]; constructor <;> linarith
    have xa := abs_le.1 (hp a' ha').2
    have xb := abs_le.1 (hp b' hb').2
    have sx : |x a' - x b'| ≤ 2 * M := by rw [abs_le]; constructor <;> linarith
    obtain ⟨d, ed, hd⟩ := sub_close (A := A) h.accurate (⟨_, rfl, ca⟩ : CloseTo (.fin (p a).realPart) (x a') _)
      (⟨_, rfl, cb⟩ : CloseTo (.fin (p b).realPart) (x b') _) (m := 3 * M) (by linarith) (by linarith)
    have hd' : |d - (x a' - x b')| ≤ 18 * (X.rows.length * (u * M)) := by
      refine hd.trans ?_
      have : u * (3 * M) = 3 * (u * M) := by ring
      rw [this]
      linarith
    have t1 := abs_le.1 hd'
    have t2 := abs_le.1 sx
    have sd : |d / 4| ≤ M := by rw [abs_le]; constructor <;> linarith
    have e4 : Num.div (.fin d) (.fin 4) = (.fin (d / 4) : Num K) := by simp [Num.div]
    rw [ed, Arith.div, e4]
    refine ((r_close h.accurate sd (by linarith)).trans (y := (x a' - x b') / 4) (δ := 5 * (X.rows.length * (u * M))) ?_).mono ?_
    · rw [abs_le]; constructor <;> linarith
    · linarith

theorem impNumR_close (h : A.Suits u η B X.rows.length M) (hw : ∀ r, Mixes X r → |w r| ≤ M) (b : Bool) (f : F) :
    ∃ k, IsImportance b w X f k ∧ CloseTo (impNumR b (fltM A w) X f) k (53 * (X.rows.length * (u * M))) := by
  have hX := rows_of_suits h
  obtain ⟨hu, η0, w0, w1, w2, m1, hB, u1⟩ := h.facts
  have M0 := h.size_nonneg
  have hne := col_ne_nil hX f
  have hobs : ∀ v ∈ npUnique (X.col f), Observed X f v := by
    intro v hv
    obtain ⟨r, hr, e⟩ := List.mem_map.1 (mem_npUnique.1 hv)
    exact ⟨r, hr, e.symm⟩
  have hlev : Levels X f (npUnique (X.col f)) := ⟨nodup_npUnique _, fun v => by
    rw [mem_npUnique]
    exact List.mem_map⟩
  have hp := fun v hv => pdSingle_close h hw (hobs v hv)
  cases b with
  | false =>
    obtain ⟨k, hk, a, ea, ha⟩ := range_close h hne hp
    refine ⟨k, ⟨_, hlev, hk⟩, ?_⟩
    simp only [impNumR, ea, Except.toOption, Option.getD_some, Bool.false_eq_true, if_false]
    exact ha
  | true =>
    have hlen : ((npUnique (X.col f)).length : K) ≤ X.rows.length := by exact_mod_cast length_npUnique_le X f
    have cp := centre_close h hne hlen (fun v hv => (hp v hv).1) (fun v hv => (hp v hv).2)
    obtain ⟨S, S0, eS⟩ : ∃ S : K, 0 ≤ S ∧ S * S = ((npUnique (X.col f)).map fun v =>
        (pd1 w X f v - average ((npUnique (X.col f)).map (pd1 w X f))) *
        (pd1 w X f v - average ((npUnique (X.col f)).map (pd1 w X f)))).sum / (npUnique (X.col f)).length := by
      refine ⟨HasSqrt.sqrt _, LawfulSqrt.nonneg _, LawfulSqrt.mul_self _ ?_⟩
      apply div_nonneg _ (Nat.cast_nonneg _)
      apply List.sum_nonneg
      intro z hz; obtain ⟨i, _, rfl⟩ := List.mem_map.1 hz; exact mul_self_nonneg _
    refine ⟨S, ⟨_, hlev, ?_⟩, ?_⟩
    rotate_left
    · have := rms_close (ε := 26 * (X.rows.length * (u * M))) (m := 12 / 5 * M + 1 / 100 * M) h hne hlen (by linarith)
        (fun v hv => (cp v hv).1)
        (fun v hv => by have := (cp v hv).2; linarith) (by linarith) S0 eS
      simp only [impNumR, if_true, npStdR, Arith.center, List.map_map]
      refine CloseTo.mono (by exact this) ?_
      have : (X.rows.length : K) * (u * (12 / 5 * M + 1 / 100 * M)) = 241 / 100 * (X.rows.length * (u * M)) := by ring
      rw [this]
      linarith
    · simp only [if_true]
      refine ⟨S0, ?_⟩
      rw [eS, List.length_map]
      simp only [sumDev, List.map_map, Function.comp_def]

theorem fillna_close {a : Num K} {x ε : K} (h : CloseTo a x ε) : CloseTo a.fillna0 x ε := by
  obtain ⟨y, rfl, hy⟩ := h
  exact ⟨y, rfl, hy⟩

/-- **C143.** A finite-valued model whose predictions are of size at most `M` on mixtures of observed values, unnormalized H: the fit
returns; the tables list every pair and every feature once; each value is a finite number, within `166 · rows · u · M` of the root mean
square of the interaction part of the partial dependence, or within `53 · rows · u · M` of the importance of the feature, all in exact
arithmetic. -/
theorem C143_close_to_exact (h : A.Suits u η B X.rows.length M) (hw : ∀ r, Mixes X r → |w r| ≤ M)
    (hso : SortsBy OvoRow.val false sortOvo) (hsf : SortsBy FeatRow.val false sortFeat) (hp : RowWise (fltM A w) predict)
    (hnf : NeverFails predict) (hr : ReadsOnly w X.cols) (hfs : ∀ f ∈ features, f ∈ X.cols) (hnd : features.Nodup) :
    ∃ ovo ova imp, friedmanR A sortOvo sortFeat numeric false predict X features batchsize = .ok (ovo, ova, imp) ∧
      (ovo.map fun r => (r.f1, r.f2)).Perm (combinations2 features) ∧ (ova.map FeatRow.f).Perm features ∧
      (imp.map FeatRow.f).Perm features ∧
      (∀ r ∈ ovo, ∃ R, IsRms X (interaction w X r.f1 r.f2) R ∧ CloseTo r.val R (166 * (X.rows.length * (u * M)))) ∧
      (∀ r ∈ ova, ∃ R, IsRms X (interactionOva w X r.f) R ∧ CloseTo r.val R (166 * (X.rows.length * (u * M)))) ∧
      (∀ r ∈ imp, ∃ k, IsImportance (numeric r.f) w X r.f k ∧ CloseTo r.val k (53 * (X.rows.length * (u * M)))) := by
  have hX := rows_of_suits h
  refine ⟨_, _, _, friedmanR_ret sortOvo sortFeat numeric false hp hnf hX (fun r r' e => by simp only [fltM, hr r r' e])
    ⟨hfs, fun q hq => ne_of_mem_combinations2 hnd hq⟩ batchsize, ?_, ?_, ?_, ?_, ?_, ?_⟩
  · rw [List.map_map]
    refine ((hso _).1.map _).trans ?_
    rw [List.map_map]
    simp [Function.comp_def, OvoRow.fillna]
  · rw [List.map_map]
    refine ((hsf _).1.map _).trans ?_
    rw [List.map_map]
    simp [Function.comp_def, FeatRow.fillna]
  · rw [List.map_map]
    refine ((hsf _).1.map _).trans ?_
    rw [List.map_map]
    simp [Function.comp_def, FeatRow.fillna]
  · intro r hr'
    obtain ⟨r0, h0, rfl⟩ := List.mem_map.1 hr'
    obtain ⟨q, hq, rfl⟩ := List.mem_map.1 ((hso _).1.mem_iff.1 h0)
    obtain ⟨R, hR⟩ := exists_rms hX (interaction w X q.1 q.2)
    exact ⟨R, hR, fillna_close (hPairR_close h hw hR)⟩
  · intro r hr'
    obtain ⟨r0, h0, rfl⟩ := List.mem_map.1 hr'
    obtain ⟨f, hf, rfl⟩ := List.mem_map.1 ((hsf _).1.mem_iff.1 h0)
    obtain ⟨R, hR⟩ := exists_rms hX (interactionOva w X f)
    exact ⟨R, hR, fillna_close (hFeatR_close h hw hR)⟩
  · intro r hr'
    obtain ⟨r0, h0, rfl⟩ := List.mem_map.1 hr'
    obtain ⟨f, hf, rfl⟩ := List.mem_map.1 ((hsf _).1.mem_iff.1 h0)
    obtain ⟨k, hk, hc⟩ := impNumR_close h hw (numeric f) f
    exact ⟨k, hk, fillna_close hc⟩

/-- **C143 (the order).** Strengths that are further apart than twice the error are listed in the right order. -/
theorem C143_order (h : A.Suits u η B X.rows.length M) (hw : ∀ r, Mixes X r → |w r| ≤ M)
    (hso : SortsBy OvoRow.val false sortOvo) (hsf : SortsBy FeatRow.val false sortFeat) (hp : RowWise (fltM A w) predict)
    (hnf : NeverFails predict) (hr : ReadsOnly w X.cols) (hfs : ∀ f ∈ features, f ∈ X.cols) (hnd : features.Nodup) :
    ∃ ovo ova imp, friedmanR A sortOvo sortFeat numeric false predict X features batchsize = .ok (ovo, ova, imp) ∧
      ovo.Pairwise (fun r r' => ∀ R R', IsRms X (interaction w X r.f1 r.f2) R → IsRms X (interaction w X r'.f1 r'.f2) R' →
        R' ≤ R + 332 * (X.rows.length * (u * M))) ∧
      ova.Pairwise (fun r r' => ∀ R R', IsRms X (interactionOva w X r.f) R → IsRms X (interactionOva w X r'.f) R' →
        R' ≤ R + 332 * (X.rows.length * (u * M))) ∧
      imp.Pairwise (fun r r' => ∀ k k', IsImportance (numeric r.f) w X r.f k → IsImportance (numeric r'.f) w X r'.f k' →
        k' ≤ k + 106 * (X.rows.length * (u * M))) := by
  obtain ⟨ovo, ova, imp, e, _, _, _, h1, h2, h3⟩ := C143_close_to_exact (numeric := numeric) (batchsize := batchsize) h hw hso hsf hp hnf hr hfs hnd
  obtain ⟨o1, o2, o3⟩ := C142_rounded_nonneg_sorted h.lawful hso hsf e
  have key : ∀ {a a' : Num K} {x x' ε : K}, CloseTo a x ε → CloseTo a' x' ε → Num.le a' a = true → x' ≤ x + 2 * ε := by
    rintro a a' x x' ε ⟨y, rfl, hy⟩ ⟨y', rfl, hy'⟩ hle
    have : y' ≤ y := by simpa [Num.le] using hle
    have t1 := abs_le.1 hy
    have t2 := abs_le.1 hy'
    linarith
  have uniq : ∀ {d : Row F V → K} {R R' : K}, IsRms X d R → IsRms X d R' → R = R' := fun h1 h2 =>
    le_antisymm (abs_le_of_sq_le_sq' (by nlinarith [h1.2, h2.2]) h2.1).2 (abs_le_of_sq_le_sq' (by nlinarith [h1.2, h2.2]) h1.1).2
  have uniqI : ∀ {b : Bool} {f : F} {k k' : K}, IsImportance b w X f k → IsImportance b w X f k' → k = k' := by
    intro b f k k' hk hk'
    have := importance_near (ε := 0) (u := w) (u' := w) (fun r _ => by simp) (rows_of_suits h) hk hk'
    have h0 : |k' - k| ≤ 0 := by
      refine this.trans ?_
      split <;> simp
    have := abs_le.1 h0
    linarith
  refine ⟨ovo, ova, imp, e, ?_, ?_, ?_⟩
  · refine List.Pairwise.imp_of_mem ?_ o1.2
    intro r r' m m' hle R R' hR hR'
    obtain ⟨S, hS, c⟩ := h1 r m
    obtain ⟨S', hS', c'⟩ := h1 r' m'
    have := key c c' hle
    rw [uniq hR hS, uniq hR' hS']
    linarith
  · refine List.Pairwise.imp_of_mem ?_ o2.2
    intro r r' m m' hle R R' hR hR'
    obtain ⟨S, hS, c⟩ := h2 r m
    obtain ⟨S', hS', c'⟩ := h2 r' m'
    have := key c c' hle
    rw [uniq hR hS, uniq hR' hS']
    linarith
  · refine List.Pairwise.imp_of_mem ?_ o3.2
    intro r r' m m' hle k k' hk hk'
    obtain ⟨S, hS, c⟩ := h3 r m
    obtain ⟨S', hS', c'⟩ := h3 r' m'
    have := key c c' hle
    rw [uniqI hk hS, uniqI hk' hS']
    linarith

/-- `a` is a finite number, the square of the quotient of two numbers within `166 e` of `R` and `53 e` of `D`, rounded once -/
def Spec.NearRatio (u η e R D : K) (a : Num K) : Prop :=
  ∃ k R' D', a = .fin k ∧ 0 ≤ k ∧ |R' - R| ≤ 166 * e ∧ |D' - D| ≤ 53 * e ∧ 0 < D' ∧
    |k - R' * R' / (D' * D')| ≤ u * (R' * R' / (D' * D')) + η

theorem hRows_closeN (h : A.Suits u η B X.rows.length M) {p q t : Row F V → Num K} {x y z : Row F V → K}
    (hp : ∀ r ∈ X.rows, CloseTo (p r) (x r) (7 * (X.rows.length * (u * M))) ∧ |x r| ≤ M)
    (hq : ∀ r ∈ X.rows, CloseTo (q r) (y r) (7 * (X.rows.length * (u * M))) ∧ |y r| ≤ M)
    (ht : ∀ r ∈ X.rows, CloseTo (t r) (z r) (7 * (X.rows.length * (u * M))) ∧ |z r| ≤ M) {R D : K}
    (hR : IsRms X (fun r => centred X z r - centred X x r - centred X y r) R) (hD : IsRms X (centred X z) D)
    (hbig : 53 * (X.rows.length * (u * M)) < D)
    (hrange : 81 * (M * M) ≤ B * ((D - 53 * (X.rows.length * (u * M))) * (D - 53 * (X.rows.length * (u * M))))) :
    NearRatio u η (X.rows.length * (u * M)) R D (hRowsR A true X.rows p q t) := by
  have hne := rows_of_suits h
  obtain ⟨hu, η0, w0, w1, w2, m1, hB, u1⟩ := h.facts
  have M0 := h.size_nonneg
  have cp := centre_close h hne le_rfl (fun r hr => (hp r hr).1) (fun r hr => (hp r hr).2)
  have cq := centre_close h hne le_rfl (fun r hr => (hq r hr).1) (fun r hr => (hq r hr).2)
  have ct := centre_close h hne le_rfl (fun r hr => (ht r hr).1) (fun r hr => (ht r hr).2)
  have hd := fun r hr => diff_close h (ct r hr).1 (ct r hr).2 (cp r hr).1 (cp r hr).2 (cq r hr).1 (cq r hr).2
  obtain ⟨N, T, eN, T0, eT, Tm, hT⟩ := rss_close (dh := gapR A X.rows p q t) (d := fun r => centred X z r - centred X x r - centred X y r)
    (ε := 93 * (X.rows.length * (u * M))) (m := 15 / 2 * M) h hne le_rfl (by linarith) (fun r hr => (hd r hr).1)
    (fun r hr => by have := (hd r hr).2; simp only [centred]; linarith) (by linarith) hR.1 hR.2
  obtain ⟨S, W, eS, W0, eW, Wm, hW⟩ := rss_close (dh := ctrR A X.rows t) (d := centred X z)
    (ε := 26 * (X.rows.length * (u * M))) (m := 12 / 5 * M + 1 / 100 * M) h hne le_rfl (by linarith) (fun r hr => (ct r hr).1)
    (fun r hr => by have := (ct r hr).2; simp only [centred]; linarith) (by linarith) hD.1 hD.2
  have e1 : (X.rows.length : K) * (u * (15 / 2 * M)) = 15 / 2 * (X.rows.length * (u * M)) := by ring
  have e2 : (X.rows.length : K) * (u * (12 / 5 * M + 1 / 100 * M)) = 241 / 100 * (X.rows.length * (u * M)) := by ring
  rw [e1] at hT
  rw [e2] at hW
  have hT' : |T - R| ≤ 166 * (X.rows.length * (u * M)) := hT.trans (by linarith)
  have hW' : |W - D| ≤ 53 * (X.rows.length * (u * M)) := hW.trans (by linarith)
  have Wpos : D - 53 * (X.rows.length * (u * M)) ≤ W := by have := (abs_le.1 hW').1; linarith
  have Wp : 0 < W := by linarith
  have Lp : (0 : K) < X.rows.length := by linarith [h.one_le]
  have S0 : S ≠ 0 := by rw [eW]; positivity
  have ediv : Num.div (.fin N) (.fin S) = (.fin (T * T / (W * W)) : Num K) := by
    have : N / S = T * T / (W * W) := by
      rw [eT, eW]
      field_simp
    rw [← this]
    exact if_neg S0
  have q0 : 0 ≤ T * T / (W * W) := div_nonneg (mul_self_nonneg _) (mul_self_nonneg _)
  obtain ⟨k, ek, hk⟩ := h.accurate.rnd_near (T * T / (W * W)) (by
    rw [abs_of_nonneg q0, div_le_iff₀ (mul_pos Wp Wp)]
    have a1 : T * T ≤ 81 * (M * M) := by nlinarith
    have a2 := mul_self_le_mul_self (show 0 ≤ D - 53 * (X.rows.length * (u * M)) by linarith) Wpos
    have B0 : 0 ≤ B := by nlinarith [mul_self_nonneg M, h.one_le]
    exact (a1.trans hrange).trans (mul_le_mul_of_nonneg_left a2 B0))
  rw [abs_of_nonneg q0] at hk
  refine ⟨k, T, W, ?_, ?_, hT', hW', Wp, hk⟩
  · unfold hRowsR
    rw [if_pos rfl, eN, eS, Arith.div, ediv]
    exact ek
  · rcases h.lawful.rnd_nonneg _ q0 with e3 | ⟨z', e3, h3⟩
    · rw [ek] at e3; cases e3
    · rw [ek] at e3; cases e3; exact h3

theorem fillna_ratio {u η e R D : K} {a : Num K} (h : NearRatio u η e R D a) : NearRatio u η e R D a.fillna0 := by
  obtain ⟨k, R', D', rfl, h⟩ := h
  exact ⟨k, R', D', rfl, h⟩

/-- **C143 (normalized H).** With `e = rows · u · M`: wherever the joint partial dependence (the predictions, one versus all) varies by
more than `53 e` in root mean square, the value shown is finite and is the square of the quotient of two numbers within `166 e` and
`53 e` of the exact ones, rounded once. (`hrange`-type conditions: the quotient does not overflow.) -/
theorem C143_normalized (h : A.Suits u η B X.rows.length M) (hw : ∀ r, Mixes X r → |w r| ≤ M)
    (hso : SortsBy OvoRow.val false sortOvo) (hsf : SortsBy FeatRow.val false sortFeat) (hp : RowWise (fltM A w) predict)
    (hnf : NeverFails predict) (hr : ReadsOnly w X.cols) (hfs : ∀ f ∈ features, f ∈ X.cols) (hnd : features.Nodup) :
    ∃ ovo ova imp, friedmanR A sortOvo sortFeat numeric true predict X features batchsize = .ok (ovo, ova, imp) ∧
      (ovo.map fun r => (r.f1, r.f2)).Perm (combinations2 features) ∧ (ova.map FeatRow.f).Perm features ∧
      (∀ r ∈ ovo, ∀ R D, IsRms X (interaction w X r.f1 r.f2) R →
        IsRms X (centred X fun x => pd2 w X r.f1 r.f2 (x r.f1) (x r.f2)) D → 53 * (X.rows.length * (u * M)) < D →
        81 * (M * M) ≤ B * ((D - 53 * (X.rows.length * (u * M))) * (D - 53 * (X.rows.length * (u * M)))) →
        NearRatio u η (X.rows.length * (u * M)) R D r.val) ∧
      (∀ r ∈ ova, ∀ R D, IsRms X (interactionOva w X r.f) R → IsRms X (centred X w) D → 53 * (X.rows.length * (u * M)) < D →
        81 * (M * M) ≤ B * ((D - 53 * (X.rows.length * (u * M))) * (D - 53 * (X.rows.length * (u * M)))) →
        NearRatio u η (X.rows.length * (u * M)) R D r.val) := by
  have hX := rows_of_suits h
  obtain ⟨hu, η0, w0, w1, w2, m1, hB, u1⟩ := h.facts
  refine ⟨_, _, _, friedmanR_ret sortOvo sortFeat numeric true hp hnf hX (fun r r' e => by simp only [fltM, hr r r' e])
    ⟨hfs, fun q hq => ne_of_mem_combinations2 hnd hq⟩ batchsize, ?_, ?_, ?_, ?_⟩
  · rw [List.map_map]
    refine ((hso _).1.map _).trans ?_
    rw [List.map_map]
    simp [Function.comp_def, OvoRow.fillna]
  · rw [List.map_map]
    refine ((hsf _).1.map _).trans ?_
    rw [List.map_map]
    simp [Function.comp_def, FeatRow.fillna]
  · intro r hr' R D hR hD hb hrange
    obtain ⟨r0, h0, rfl⟩ := List.mem_map.1 hr'
    obtain ⟨q, hq, rfl⟩ := List.mem_map.1 ((hso _).1.mem_iff.1 h0)
    exact fillna_ratio (hRows_closeN h (fun r hr => pdSingle_close h hw (observed_row hr q.1))
      (fun r hr => pdSingle_close h hw (observed_row hr q.2))
      (fun r hr => pdPair_close h hw (observed_row hr q.1) (observed_row hr q.2)) hR hD hb hrange)
  · intro r hr' R D hR hD hb hrange
    obtain ⟨r0, h0, rfl⟩ := List.mem_map.1 hr'
    obtain ⟨f, hf, rfl⟩ := List.mem_map.1 ((hsf _).1.mem_iff.1 h0)
    exact fillna_ratio (hRows_closeN h (fun r hr => pdSingle_close h hw (observed_row hr f)) (fun r hr => pdMinus_close h hw (mixes_row hr))
      (fun r hr => ⟨⟨w r, rfl, by rw [sub_self, abs_zero]; linarith⟩, hw r (mixes_row hr)⟩) hR hD hb hrange)

/-! ## C144 -/

theorem interaction_none {x y : Row F V → K} {f f' : F} (hne : f ≠ f') (hx : Ignores x f) (hy : Ignores y f') (hX : X.rows ≠ [])
    (r : Row F V) : interaction (fun r => x r + y r) X f f' r = 0 := by
  have hn : (X.rows.length : K) ≠ 0 := by
    have := List.length_pos_of_ne_nil hX
    exact_mod_cast this.ne'
  have e2 : (fun r : Row F V => pd2 (fun r => x r + y r) X f f' (r f) (r f')) = fun r => pd1 x X f' (r f') + pd1 y X f (r f) := by
    funext r
    rw [pd2_split (a := x) (b := y) (fun r => rfl), pd2_ignores_fst hx, pd2_ignores_snd hne hy]
  have e1 : (fun r : Row F V => pd1 (fun r => x r + y r) X f (r f)) = fun r => average (X.rows.map x) + pd1 y X f (r f) := by
    funext r
    rw [pd1_split (a := x) (b := y) (fun r => rfl), pd1_ignores hx]
  have e1' : (fun r : Row F V => pd1 (fun r => x r + y r) X f' (r f')) = fun r => pd1 x X f' (r f') + average (X.rows.map y) := by
    funext r
    rw [pd1_split (a := x) (b := y) (fun r => rfl), pd1_ignores hy]
  have ea : ∀ p q : Row F V → K, average (X.rows.map fun r => p r + q r) = average (X.rows.map p) + average (X.rows.map q) := by
    intro p q
    have := average_lin X.rows p q 1 1
    simpa using this
  have ec : ∀ c : K, average (X.rows.map fun _ => c) = c := by
    intro c
    unfold average
    rw [List.map_const', List.sum_replicate, List.length_replicate, nsmul_eq_mul]
    field_simp
  unfold interaction
  rw [e2, e1, e1']
  simp only [centred, ea, ec]
  ring

/-- **C144 (unnormalized H, partial).** Features `f`, `f'` that enter the model through two separate terms, up to an error `δ` of the
predictions themselves: the value shown for the pair is at most `166 · rows · u · M + 3 δ`. Missing: the normalized value, see
`C144_normalized_one`. -/
theorem C144_unnormalized_partial {x y : Row F V → K} {δ : K} (h : A.Suits u η B X.rows.length M) (hw : ∀ r, Mixes X r → |w r| ≤ M)
    (hso : SortsBy OvoRow.val false sortOvo) (hsf : SortsBy FeatRow.val false sortFeat) (hp : RowWise (fltM A w) predict)
    (hnf : NeverFails predict) (hr : ReadsOnly w X.cols) (hfs : ∀ f ∈ features, f ∈ X.cols) (hnd : features.Nodup)
    {f f' : F} (hf : f ∈ features) (hf' : f' ∈ features) (hne : f ≠ f') (hx : Ignores x f) (hy : Ignores y f')
    (hd : ∀ r, Mixes X r → |w r - (x r + y r)| ≤ δ) :
    ∃ ovo ova imp, friedmanR A sortOvo sortFeat numeric false predict X features batchsize = .ok (ovo, ova, imp) ∧
      (∃ r ∈ ovo, r.isPair f f') ∧
      ∀ r ∈ ovo, r.isPair f f' → ∃ k, r.val = .fin k ∧ 0 ≤ k ∧ k ≤ 166 * (X.rows.length * (u * M)) + 3 * δ := by
  have hX := rows_of_suits h
  obtain ⟨ovo, ova, imp, e, p1, _, _, h1, h2, h3⟩ := C143_close_to_exact (numeric := numeric) (batchsize := batchsize) h hw hso hsf hp hnf hr hfs hnd
  obtain ⟨o1, o2, o3⟩ := C142_rounded_nonneg_sorted h.lawful hso hsf e
  refine ⟨ovo, ova, imp, e, ?_, ?_⟩
  · rcases mem_combinations2_or hf hf' hne with m | m
    · obtain ⟨r, hr, e⟩ := List.mem_map.1 (p1.mem_iff.2 m)
      exact ⟨r, hr, Or.inl (Prod.ext_iff.1 e)⟩
    · obtain ⟨r, hr, e⟩ := List.mem_map.1 (p1.mem_iff.2 m)
      exact ⟨r, hr, Or.inr (Prod.ext_iff.1 e)⟩
  · intro r hr hpair
    obtain ⟨R, hR, k, ek, hk⟩ := h1 r hr
    have k0 : 0 ≤ k := by
      have := (o1.1 r hr).2
      rw [ek] at this
      simpa [Num.le] using this
    refine ⟨k, ek, k0, ?_⟩
    have hz : ∀ r', interaction (fun r => x r + y r) X r.f1 r.f2 r' = 0 := by
      intro r'
      rcases hpair with ⟨e1, e2⟩ | ⟨e1, e2⟩
      · rw [e1, e2]; exact interaction_none hne hx hy hX r'
      · rw [e1, e2]
        have := interaction_none (x := y) (y := x) hne.symm hy hx hX r'
        simpa only [add_comm] using this
    have := H_step (u := fun r => x r + y r) (u' := w) (ε := δ) (fun r hm => hd r hm) hX r.f1 r.f2 (k := 0) le_rfl (by simp [hz]) hR.2
    have t := abs_le.1 hk
    linarith

/-- **C144 (normalized H, partial).** The same features, normalized: where the joint partial dependence varies by `D` in root mean
square and `D` exceeds `53 e`, `e = rows · u · M`, the value shown is at most `(1 + u) ((166 e + 3 δ) / (D - 53 e))² + η`. Missing: pairs
whose joint partial dependence hardly varies, for which the claim fails, see `C144_normalized_one`. -/
theorem C144_normalized_partial {x y : Row F V → K} {δ : K} (h : A.Suits u η B X.rows.length M) (hw : ∀ r, Mixes X r → |w r| ≤ M)
    (hso : SortsBy OvoRow.val false sortOvo) (hsf : SortsBy FeatRow.val false sortFeat) (hp : RowWise (fltM A w) predict)
    (hnf : NeverFails predict) (hr : ReadsOnly w X.cols) (hfs : ∀ f ∈ features, f ∈ X.cols) (hnd : features.Nodup)
    {f f' : F} (hf : f ∈ features) (hf' : f' ∈ features) (hne : f ≠ f') (hx : Ignores x f) (hy : Ignores y f') (hd : ∀ r, Mixes X r → |w r - (x r + y r)| ≤ δ) :
    ∃ ovo ova imp, friedmanR A sortOvo sortFeat numeric true predict X features batchsize = .ok (ovo, ova, imp) ∧
      (∃ r ∈ ovo, r.isPair f f') ∧ ∀ r ∈ ovo, r.isPair f f' → ∀ D E, IsRms X (centred X fun x => pd2 w X r.f1 r.f2 (x r.f1) (x r.f2)) D →
        E = D - 53 * (X.rows.length * (u * M)) → 0 < E → 81 * (M * M) ≤ B * (E * E) →
        ∃ k, r.val = .fin k ∧ 0 ≤ k ∧
          k ≤ (1 + u) * (((166 * (X.rows.length * (u * M)) + 3 * δ) / E) * ((166 * (X.rows.length * (u * M)) + 3 * δ) / E)) + η := by
  have hX := rows_of_suits h
  obtain ⟨hu, η0, w0, w1, w2, m1, hB, u1⟩ := h.facts
  obtain ⟨ovo, ova, imp, e, p1, _, h1, h2⟩ := C143_normalized (numeric := numeric) (batchsize := batchsize) h hw hso hsf hp hnf hr hfs hnd
  refine ⟨ovo, ova, imp, e, ?_, ?_⟩
  · rcases mem_combinations2_or hf hf' hne with m | m
    · obtain ⟨r, hr, e⟩ := List.mem_map.1 (p1.mem_iff.2 m)
      exact ⟨r, hr, Or.inl (Prod.ext_iff.1 e)⟩
    · obtain ⟨r, hr, e⟩ := List.mem_map.1 (p1.mem_iff.2 m)
      exact ⟨r, hr, Or.inr (Prod.ext_iff.1 e)⟩
  intro r hr hpair D E hD eE E0 hrange
  obtain ⟨R, hR⟩ := exists_rms hX (interaction w X r.f1 r.f2)
  obtain ⟨k, R', D', ek, k0, hR', hD', D0, hk⟩ := h1 r hr R D hR hD (by linarith) (by rw [← eE]; exact hrange)
  refine ⟨k, ek, k0, ?_⟩
  have hz : ∀ r', interaction (fun r => x r + y r) X r.f1 r.f2 r' = 0 := by
    intro r'
    rcases hpair with ⟨e1, e2⟩ | ⟨e1, e2⟩
    · rw [e1, e2]; exact interaction_none hne hx hy hX r'
    · rw [e1, e2]
      have := interaction_none (x := y) (y := x) hne.symm hy hx hX r'
      simpa only [add_comm] using this
  have hR3 := H_step (u := fun r => x r + y r) (u' := w) (ε := δ) (fun r hm => hd r hm) hX r.f1 r.f2 (k := 0) le_rfl (by simp [hz]) hR.2
  have R0 := hR.1
  obtain ⟨a1, a2⟩ := abs_le.1 hR'
  obtain ⟨b1, b2⟩ := abs_le.1 hD'
  have G : |R'| ≤ 166 * (X.rows.length * (u * M)) + 3 * δ := by rw [abs_le]; constructor <;> linarith
  have GG := mul_self_le_mul_self (abs_nonneg _) G
  rw [abs_mul_abs_self] at GG
  have EE := mul_self_le_mul_self E0.le (show E ≤ D' by linarith)
  have quo : R' * R' / (D' * D') ≤ ((166 * (X.rows.length * (u * M)) + 3 * δ) / E) * ((166 * (X.rows.length * (u * M)) + 3 * δ) / E) := by
    rw [div_mul_div_comm]
    exact div_le_div₀ (mul_self_nonneg _) GG (mul_pos E0 E0) EE
  have := (abs_le.1 hk).2
  have q2 := mul_le_mul_of_nonneg_left quo (show 0 ≤ 1 + u by linarith)
  linarith

end Rounding

/-! ## Binary64 -/

/-- Binary64 is precise and wide enough for up to `2^47` rows and predictions of size at most `M`, for every `M` between `2^-480` and
`2^480`. -/
theorem C143_binary64 {K : Type} [Field K] [LinearOrder K] [IsStrictOrderedRing K] [FloorRing K] {n M : K} (h1 : 1 ≤ n) (hn : n ≤ 2 ^ 47)
    (lo : 1 / 2 ^ 480 ≤ M) (hi : M ≤ 2 ^ 480) : (binary64 : Arith K).Suits (1 / 2 ^ 53) (1 / 2 ^ 1075) (2 ^ 1023) n M := by
  have M0 : 0 < M := lt_of_lt_of_le (one_div_pos.2 (pow_pos two_pos _)) lo
  have e480 : (1 : K) / 2 ^ 533 = 1 / 2 ^ 53 * (1 / 2 ^ 480) := by rw [one_div_mul_one_div, ← pow_add]
  have uM : 1 / 2 ^ 533 ≤ 1 / 2 ^ 53 * M := by
    rw [e480]
    exact mul_le_mul_of_nonneg_left lo (one_div_nonneg.2 (pow_nonneg two_pos.le _))
  have p0 : (0 : K) ≤ 1 / 2 ^ 533 := one_div_nonneg.2 (pow_nonneg two_pos.le _)
  refine ⟨binary64_lawful, binary64_accurate, h1, ?_, M0.le, ?_, ?_, ?_⟩
  · have := mul_le_mul_of_nonneg_right hn (show (0 : K) ≤ 1 / 2 ^ 53 by positivity)
    have e : (2 : K) ^ 47 * (1 / 2 ^ 53) = 1 / 64 := by norm_num
    rw [e] at this
    linarith
  · exact (one_div_le_one_div_of_le (pow_pos two_pos _) (pow_le_pow_right₀ one_le_two (by norm_num))).trans uM
  · refine le_trans ?_ (mul_self_le_mul_self p0 uM)
    rw [one_div_mul_one_div, ← pow_add]
    exact one_div_le_one_div_of_le (pow_pos two_pos _) (pow_le_pow_right₀ one_le_two (by norm_num))
  · have one : (1 : K) ≤ 2 ^ 480 := one_le_pow₀ one_le_two
    have MM : M * M ≤ 2 ^ 960 := by
      have := mul_self_le_mul_self M0.le hi
      rwa [← pow_add] at this
    have M1 : M ≤ 2 ^ 960 := hi.trans (pow_le_pow_right₀ one_le_two (by norm_num))
    have s : M + M * M ≤ 2 ^ 961 := by
      rw [show (2 : K) ^ 961 = 2 * 2 ^ 960 from pow_succ' 2 960, two_mul]
      exact add_le_add M1 MM
    have t : n * (M + M * M) ≤ 2 ^ 47 * 2 ^ 961 :=
      mul_le_mul hn s (add_nonneg M0.le (mul_self_nonneg _)) (pow_nonneg two_pos.le _)
    have v : 512 * (n * (M + M * M)) ≤ 2 ^ 9 * (2 ^ 47 * 2 ^ 961) := by
      rw [show (512 : K) = 2 ^ 9 by norm_num]
      exact mul_le_mul_of_nonneg_left t (pow_nonneg two_pos.le _)
    refine v.trans ?_
    rw [← pow_add, ← pow_add]
    exact pow_le_pow_right₀ one_le_two (by norm_num)

/-! ## Cases -/

section Cases
open Ex

/-- seven rows, two columns -/
def sevenX : Frame (Fin 2) ℤ := ⟨[0, 1], (List.range 7).map fun i => ![(i : ℤ), (i % 3 : ℤ)]⟩
/-- a model that always predicts the binary64 number next to 0.9 -/
def constP : PF (Fin 2) ℤ (Rounded (binary64 (K := ℚ))) := fun _ rows => .ok (rows.map fun _ => ⟨round64 (9 / 10)⟩)

/-- rounding to binary64 -/
example : round64 (1 / 10 : ℚ) = .fin (3602879701896397 / 36028797018963968) := by decide +kernel
/-- ties to even -/
example : round64 (2 ^ 53 + 1 : ℚ) = .fin (2 ^ 53) ∧ round64 (2 ^ 53 + 3 : ℚ) = .fin (2 ^ 53 + 4) := by decide +kernel
/-- overflow and underflow -/
example : round64 (2 ^ 1024 : ℚ) = .pinf ∧ round64 (-2 ^ 1024 : ℚ) = .ninf ∧ round64 (1 / 2 ^ 1075 : ℚ) = .fin 0 ∧
    round64 (3 / 2 ^ 1075 : ℚ) = .fin (1 / 2 ^ 1073) := by decide +kernel

set_option maxRecDepth 100000 in
/-- **C144 fails for the normalized statistic.** A constant model, binary64: the mean of seven times 0.9 is not 0.9 again, all centred
values are equal and not zero, and the normalized H of the pair is 1 instead of 0. -/
theorem C144_normalized_one :
    RowWise (fun _ => ⟨round64 (9 / 10)⟩) constP ∧
    ((friedmanR binary64 (stableSort OvoRow.val false) (stableSort FeatRow.val false) (fun _ => true) true constP sevenX [0, 1] 5).map
      fun t => t.1) = .ok [⟨0, 1, .fin 1⟩] := by
  refine ⟨fun n rows ys h => ?_, by decide +kernel⟩
  cases h
  rfl

/-- a product model with predictions up to 12 on `sevenX`, in binary64 -/
noncomputable def prodP : PF (Fin 2) ℤ (Rounded (binary64 (K := ℝ))) := fun _ rows => .ok (rows.map (fltM binary64 fun r => (r 0 * r 1 : ℤ)))

theorem sevenX_small : ∀ r ∈ sevenX.rows, |r 0| ≤ 6 ∧ |r 1| ≤ 2 := by decide +kernel

/-- the hypotheses of C143 are met by `prodP`: the errors are below `2^-39` -/
example : ∃ ovo ova imp, friedmanR binary64 (stableSort OvoRow.val false) (stableSort FeatRow.val false) (fun _ => true) false prodP sevenX [0, 1] 5 =
      .ok (ovo, ova, imp) ∧ (ovo.map fun r => (r.f1, r.f2)).Perm [(0, 1)] ∧
      ∀ r ∈ ovo, ∃ R, IsRms sevenX (interaction (fun r => ((r 0 * r 1 : ℤ) : ℝ)) sevenX r.f1 r.f2) R ∧ CloseTo r.val R (1 / 2 ^ 39) := by
  have hs : (binary64 : Arith ℝ).Suits (1 / 2 ^ 53) (1 / 2 ^ 1075) (2 ^ 1023) (sevenX.rows.length) 12 :=
    C143_binary64 (by simp [sevenX]) (by simp [sevenX]; norm_num)
      (le_trans (div_le_one_of_le₀ (one_le_pow₀ one_le_two) (pow_nonneg two_pos.le _)) (by norm_num))
      (le_trans (by norm_num : (12 : ℝ) ≤ 2 ^ 4) (pow_le_pow_right₀ one_le_two (by norm_num)))
  obtain ⟨ovo, ova, imp, e, p, _, _, h, _⟩ := C143_close_to_exact (numeric := fun _ => true) (batchsize := 5) (features := [0, 1])
    (w := fun r : Row (Fin 2) ℤ => ((r 0 * r 1 : ℤ) : ℝ)) (predict := prodP) hs (by
      intro r hm
      obtain ⟨r0, h0, e0⟩ := hm 0
      obtain ⟨r1, h1, e1⟩ := hm 1
      have a := (sevenX_small r0 h0).1
      have b := (sevenX_small r1 h1).2
      rw [← e0] at a
      rw [← e1] at b
      have : |r 0 * r 1| ≤ 12 := by
        rw [abs_mul]
        calc |r 0| * |r 1| ≤ 6 * 2 := mul_le_mul a b (abs_nonneg _) (by norm_num)
          _ = 12 := by norm_num
      exact_mod_cast this)
    (sortsBy_stableSort _ _) (sortsBy_stableSort _ _) (fun n rows ys h => by cases h; rfl) (fun n rows => ⟨_, rfl⟩)
    (fun r r' h => by beta_reduce; rw [h 0 (by decide), h 1 (by decide)]) (by decide) (by decide)
  refine ⟨ovo, ova, imp, e, p, fun r hr => ?_⟩
  obtain ⟨R, hR, hc⟩ := h r hr
  refine ⟨R, hR, hc.mono ?_⟩
  have : (sevenX.rows.length : ℝ) = 7 := by simp [sevenX]
  rw [this]
  norm_num

/-- an additive model with predictions up to 8 on `sevenX`, in binary64 -/
noncomputable def addP : PF (Fin 2) ℤ (Rounded (binary64 (K := ℝ))) := fun _ rows => .ok (rows.map (fltM binary64 fun r => ((r 0 : ℤ) : ℝ) + (r 1 : ℤ)))

theorem addP_small (r : Row (Fin 2) ℤ) (hm : Mixes sevenX r) : |((r 0 : ℤ) : ℝ) + (r 1 : ℤ)| ≤ 8 := by
  obtain ⟨r0, h0, e0⟩ := hm 0
  obtain ⟨r1, h1, e1⟩ := hm 1
  have a := (sevenX_small r0 h0).1
  have b := (sevenX_small r1 h1).2
  rw [← e0] at a
  rw [← e1] at b
  have : |r 0 + r 1| ≤ 8 := (abs_add_le _ _).trans (by omega)
  exact_mod_cast this

theorem sevenX_suits : (binary64 : Arith ℝ).Suits (1 / 2 ^ 53) (1 / 2 ^ 1075) (2 ^ 1023) (sevenX.rows.length) 8 :=
  C143_binary64 (by simp [sevenX]) (by simp [sevenX]; norm_num)
    (le_trans (div_le_one_of_le₀ (one_le_pow₀ one_le_two) (pow_nonneg two_pos.le _)) (by norm_num))
    (le_trans (by norm_num : (8 : ℝ) ≤ 2 ^ 4) (pow_le_pow_right₀ one_le_two (by norm_num)))

theorem rows7 : (sevenX.rows.length : ℝ) = 7 := by simp [sevenX]

/-- C144, unnormalized: the pair of `addP` shows at most `2^-39` -/
example : ∃ ovo ova imp, friedmanR binary64 (stableSort OvoRow.val false) (stableSort FeatRow.val false) (fun _ => true) false addP sevenX [0, 1] 5 =
      .ok (ovo, ova, imp) ∧ (∃ r ∈ ovo, r.isPair 0 1) ∧ ∀ r ∈ ovo, r.isPair 0 1 → ∃ k, r.val = .fin k ∧ 0 ≤ k ∧ k ≤ (1 / 2 ^ 39 : ℝ) := by
  obtain ⟨ovo, ova, imp, e, p, h⟩ := C144_unnormalized_partial (numeric := fun _ => true) (batchsize := 5) (features := [0, 1])
    (w := fun r : Row (Fin 2) ℤ => ((r 0 : ℤ) : ℝ) + (r 1 : ℤ)) (predict := addP) (f := 0) (f' := 1) (δ := 0)
    (x := fun r => ((r 1 : ℤ) : ℝ)) (y := fun r => ((r 0 : ℤ) : ℝ)) sevenX_suits addP_small
    (sortsBy_stableSort _ _) (sortsBy_stableSort _ _) (fun n rows ys h => by cases h; rfl) (fun n rows => ⟨_, rfl⟩)
    (fun r r' h => by beta_reduce; rw [h 0 (by decide), h 1 (by decide)]) (by decide) (by decide) (by decide) (by decide) (by decide)
    (fun r v => by simp [setF]) (fun r v => by simp [setF]) (fun r _ => by beta_reduce; rw [add_comm, sub_self, abs_zero])
  refine ⟨ovo, ova, imp, e, p, fun r hr hp => ?_⟩
  obtain ⟨k, ek, k0, hk⟩ := h r hr hp
  refine ⟨k, ek, k0, hk.trans ?_⟩
  rw [rows7]
  norm_num

/-- the joint partial dependence of `addP` varies by more than 2, in root mean square -/
theorem addP_spread {D : ℝ} {f f' : Fin 2} (hne : f ≠ f')
    (hD : IsRms sevenX (centred sevenX fun x => pd2 (fun r => ((r 0 : ℤ) : ℝ) + (r 1 : ℤ)) sevenX f f' (x f) (x f')) D) : 2 ≤ D := by
  obtain ⟨h0, h⟩ := hD
  have : (4 : ℝ) ≤ D * D := by
    rw [h]
    fin_cases f <;> fin_cases f' <;> first | exact absurd rfl hne | skip
    all_goals
      simp [sumSq, centred, pd2, average, setF, sevenX, List.range_succ]
      norm_num
  nlinarith

/-- C144, normalized: the pair of `addP` shows at most `2^-77` -/
example : ∃ ovo ova imp, friedmanR binary64 (stableSort OvoRow.val false) (stableSort FeatRow.val false) (fun _ => true) true addP sevenX [0, 1] 5 =
      .ok (ovo, ova, imp) ∧ (∃ r ∈ ovo, r.isPair 0 1) ∧ ∀ r ∈ ovo, r.isPair 0 1 → ∃ k, r.val = .fin k ∧ 0 ≤ k ∧ k ≤ (1 / 2 ^ 77 : ℝ) := by
  obtain ⟨ovo, ova, imp, e, p, h⟩ := C144_normalized_partial (numeric := fun _ => true) (batchsize := 5) (features := [0, 1])
    (w := fun r : Row (Fin 2) ℤ => ((r 0 : ℤ) : ℝ) + (r 1 : ℤ)) (predict := addP) (f := 0) (f' := 1) (δ := 0)
    (x := fun r => ((r 1 : ℤ) : ℝ)) (y := fun r => ((r 0 : ℤ) : ℝ)) sevenX_suits addP_small
    (sortsBy_stableSort _ _) (sortsBy_stableSort _ _) (fun n rows ys h => by cases h; rfl) (fun n rows => ⟨_, rfl⟩)
    (fun r r' h => by beta_reduce; rw [h 0 (by decide), h 1 (by decide)]) (by decide) (by decide) (by decide) (by decide) (by decide)
    (fun r v => by simp [setF]) (fun r v => by simp [setF]) (fun r _ => by beta_reduce; rw [add_comm, sub_self, abs_zero])
  refine ⟨ovo, ova, imp, e, p, fun r hr hp => ?_⟩
  have hne : r.f1 ≠ r.f2 := by rcases hp with ⟨a, b⟩ | ⟨a, b⟩ <;> rw [a, b] <;> decide
  obtain ⟨D, hD⟩ := exists_rms (X := sevenX) (rows_of_suits sevenX_suits)
    (centred sevenX fun x => pd2 (fun r => ((r 0 : ℤ) : ℝ) + (r 1 : ℤ)) sevenX r.f1 r.f2 (x r.f1) (x r.f2))
  have h2 := addP_spread hne hD
  have c : 53 * (7 * (1 / 2 ^ 53 * (8 : ℝ))) ≤ 1 := by norm_num
  obtain ⟨E, hE⟩ : ∃ E, E = D - 53 * (sevenX.rows.length * (1 / 2 ^ 53 * (8 : ℝ))) := ⟨_, rfl⟩
  have E1 : 1 ≤ E := by rw [hE, rows7]; linarith
  have EE : 1 ≤ E * E := by nlinarith
  obtain ⟨k, ek, k0, hk⟩ := h r hr hp D E hD hE (by linarith) (by
    have h20 : (81 * (8 * 8) : ℝ) ≤ 2 ^ 20 := by norm_num
    have h3 : (2 : ℝ) ^ 20 ≤ 2 ^ 1023 := pow_le_pow_right₀ one_le_two (by norm_num)
    calc (81 * (8 * 8) : ℝ) ≤ 2 ^ 1023 * 1 := by rw [mul_one]; exact h20.trans h3
      _ ≤ 2 ^ 1023 * (E * E) := mul_le_mul_of_nonneg_left EE (pow_nonneg two_pos.le _))
  refine ⟨k, ek, k0, hk.trans ?_⟩
  have q : (166 * (sevenX.rows.length * (1 / 2 ^ 53 * (8 : ℝ))) + 3 * 0) / E ≤ 1 / 2 ^ 39 := by
    rw [rows7]
    refine (div_le_self (by norm_num) E1).trans (by norm_num)
  have q0 : 0 ≤ (166 * (sevenX.rows.length * (1 / 2 ^ 53 * (8 : ℝ))) + 3 * 0) / E := by
    rw [rows7]
    exact div_nonneg (by norm_num) (by linarith)
  have qq := mul_self_le_mul_self q0 q
  have η : (1 / 2 ^ 1075 : ℝ) ≤ 1 / 2 ^ 100 := one_div_le_one_div_of_le (pow_pos two_pos _) (pow_le_pow_right₀ one_le_two (by norm_num))
  refine (add_le_add (mul_le_mul_of_nonneg_left qq (by norm_num)) η).trans (by norm_num)

/-- predictions that are infinite for some rows: C142 covers these fits -/
def wildP : PF (Fin 2) ℤ (Rounded (binary64 (K := ℚ))) := fun _ rows =>
  .ok (rows.map fun r => ⟨if r 0 = 3 then .pinf else if r 1 = 2 then round64 (r 0 / 10) else round64 (r 1 / 3)⟩)

set_option maxRecDepth 100000 in
example : (friedmanR binary64 (stableSort OvoRow.val false) (stableSort FeatRow.val false) (fun f => f == 0) true wildP sevenX [0, 1] 5).map
    (fun t => (t.1, t.2.2)) = .ok ([⟨0, 1, .fin 0⟩], [⟨0, .fin 0⟩, ⟨1, .fin 0⟩]) := by decide +kernel

end Cases
end Artemis
