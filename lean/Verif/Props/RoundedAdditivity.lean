import Verif.Model.RoundedAdditivity
import Verif.Props.RoundedGreenwell
import Verif.Props.Additivity

/-!
# Properties C148–C150: the additivity index in floating-point arithmetic
-/

set_option linter.unusedSectionVars false
set_option linter.unusedVariables false
set_option linter.unusedSimpArgs false

namespace Artemis
open Spec

section RoundedAdditivity
variable {F V K : Type} [DecidableEq F] [LinearOrder V] [Field K] [LinearOrder K] [IsStrictOrderedRing K]
  {A : Arith K} {cp : F} {predict : PF F V (Rounded A)} {X : Frame F V} {batchsize : Int} {v : Num K}

/-! ## C148 -/

theorem fillna_nonnegR {a : Num K} (h : NaNOrNonneg a) : NaNOrNonneg a.fillna0 := by
  rcases naNOrNonneg_cases h with rfl | rfl | ⟨x, rfl, hx⟩
  · exact naNOrNonneg_fin le_rfl
  · exact Or.inr Num.nonneg_pinf
  · exact naNOrNonneg_fin hx

/-- **C148.** The index never exceeds 1, whatever the predictions (infinite ones and NaN included) and the rounding errors: it is a
number up to 1, or minus infinity, or NaN. -/
theorem C148_at_most_one (hA : A.Lawful) (h1 : ∀ x ≤ (1 : K), A.rnd x = .ninf ∨ ∃ y ≤ (1 : K), A.rnd x = .fin y)
    (h : additivityR A cp predict X batchsize = .ok v) : v = .nan ∨ v = .ninf ∨ ∃ y ≤ (1 : K), v = .fin y := by
  unfold additivityR at h
  simp only [PyM.seq] at h
  have fin : ∀ preds effs, addFinishR A cp X preds effs = v → v = .nan ∨ v = .ninf ∨ ∃ y ≤ (1 : K), v = .fin y := by
    intro preds effs e
    unfold addFinishR at e
    simp only at e
    rw [← e]
    have hq : ∀ l l' : List (Num K), NaNOrNonneg (A.div (A.sum (l.map A.sq)) (A.sum (l'.map fun x => (A.sq x).fillna0))) := fun l l' =>
      div_nonnegR hA (sum_nonnegR hA (all_sq hA l)) (sum_nonnegR hA fun a ha => by
        obtain ⟨x, _, rfl⟩ := List.mem_map.1 ha
        exact fillna_nonnegR (sq_nonnegR hA x))
    rcases naNOrNonneg_cases (hq _ _) with e | e | ⟨x, e, hx⟩
    · rw [e]; exact Or.inl rfl
    · rw [e]; exact Or.inr (Or.inl rfl)
    · rw [e]
      have e2 : Num.sub (.fin 1) (.fin x) = (.fin (1 - x) : Num K) := by simp [Num.sub, Num.neg, Num.add, sub_eq_add_neg]
      rw [Arith.sub, e2]
      rcases h1 (1 - x) (by linarith) with e | ⟨y, hy, e⟩
      · exact Or.inr (Or.inl e)
      · exact Or.inr (Or.inr ⟨y, hy, e⟩)
  split at h
  · split at h
    · cases h
    · split at h
      · cases h
      · split at h
        · exact fin _ _ (Except.ok.inj h)
        · cases h
  · cases h

/-! ## The index in terms of brute-force partial dependence -/

/-- one entry of the table, rounded -/
def addColR (g : Row F V → Rounded A) (X : Frame F V) (f : F) (r : Row F V) : Num K :=
  A.sub (pdSingle g X f (r f)).val (A.mean (X.rows.map fun r => (g r).val))

/-- prediction minus sum of the first-order effects, rounded -/
def residR (g : Row F V → Rounded A) (X : Frame F V) (r : Row F V) : Num K :=
  A.sub (g r).val (A.add (A.sum (X.cols.map fun f => addColR g X f r)) (A.mean (X.rows.map fun r => (g r).val)))

theorem rowSumsR_map {ρ α : Type} (rows : List ρ) (l : List α) (w : α → ρ → Num K) :
    rowSumsR A rows.length (l.map (fun a => rows.map (w a))) = rows.map (fun r => A.sum (l.map (fun a => w a r))) := by
  apply List.ext_getElem
  · simp [rowSumsR]
  intro i h1 h2
  have hi : i < rows.length := by simpa using h2
  simp only [rowSumsR, List.getElem_map, List.getElem_range, List.filterMap_map]
  congr 1
  rw [← List.filterMap_eq_map]
  apply List.filterMap_congr
  intro a _
  simp [hi]

theorem addFinishR_index {g : Row F V → Rounded A} (nd : X.cols.Nodup) (hcp : cp ∉ X.cols) :
    addFinishR A cp X (X.rows.map fun r => (g r).val) (X.cols.map fun f => (f, X.rows.map (addColR g X f))) =
      A.sub (.fin 1) (A.div (A.sum (X.rows.map fun r => A.sq (residR g X r)))
        (A.sum (X.rows.map fun r => (A.sq (ctrR A X.rows (fun r => (g r).val) r)).fillna0))) := by
  have h1 := foldl_set_keys X.cols nd (fun f => X.rows.map (addColR g X f)) (fun _ => []) [] (by simp [Dict.keys])
  simp only [List.nil_append] at h1
  have hk : cp ∉ Dict.keys (X.cols.map (fun f => (f, X.rows.map (addColR g X f)))) := by
    simpa [Dict.keys, List.map_map, Function.comp_def] using hcp
  unfold addFinishR
  simp only [h1]
  rw [Dict.set_not_mem _ _ _ hk]
  simp only [List.dropLast_concat]
  rw [Dict.get?_append_not_mem _ _ _ hk, List.map_map]
  have := rowSumsR_map (A := A) X.rows X.cols (addColR g X)
  simp only [Function.comp_def, Frame.len, this, Dict.get?, if_true, Option.getD_some, List.map_map, center_rows]
  have z : ∀ (ps : List (Num K)) (l : List (Row F V)), List.zipWith A.sub (l.map fun r => (g r).val)
      (l.map fun r => A.add (A.sum (X.cols.map fun f => addColR g X f r)) (A.mean ps)) =
      l.map fun r => A.sub (g r).val (A.add (A.sum (X.cols.map fun f => addColR g X f r)) (A.mean ps)) := by
    intro ps l
    induction l with
    | nil => rfl
    | cons a l ih => simp only [List.map_cons, List.zipWith_cons_cons, ih]
  rw [z, Arith.center, List.map_map, List.map_map, List.map_map]
  rfl

theorem additivityR_ret {g : Row F V → Rounded A} (hw : RowWise g predict) (hp : NeverFails predict) (nd : X.cols.Nodup) :
    additivityR A cp predict X batchsize =
      .ok (addFinishR A cp X (X.rows.map fun r => (g r).val) (X.cols.map fun f => (f, X.rows.map (addColR g X f)))) := by
  have hg := good_new hw X batchsize
  have o1 : (Calc.calculateSingle none (Calc.new predict X batchsize)).1 = .ok () := run_ok hg hp (.single none) (fun f hf => hf)
  have ds := doneS_of_ok hg o1
  cases e1 : Calc.calculateSingle none (Calc.new predict X batchsize) with
  | mk r1 c1 =>
    have s1 := opStep_of_run hg (op := .single none) e1
    rw [e1] at o1 ds
    simp only at o1 ds
    subst o1
    have hX1 : c1.X = X := s1.later.X
    obtain ⟨preds, ep⟩ := hp c1.calls.length X.rows
    have hpr := hw _ _ _ ep
    subst hpr
    have hm : X.cols.mapM (addColumnR A X ((X.rows.map g).map Rounded.val) c1) =
        .ok (X.cols.map fun f => (f, X.rows.map (addColR g X f))) := by
      refine mapM_ok (fun f hf => ?_)
      have d := getSingle_done (ds f hf)
      rw [hX1] at d
      unfold addColumnR
      simp only [Frame.colE, if_pos hf, bind, Except.bind, d, List.map_map]
      rfl
    unfold additivityR
    simp only [PyM.seq, e1, ep, hm]
    rw [if_pos (by simp [Frame.len]), List.map_map]
    rfl

/-! ## C149 -/

section Close
variable [HasSqrt K] [LawfulSqrt K] {u η B n M : K} {w : Row F V → K}

theorem Arith.Suits.shrink (h : A.Suits u η B n M) {m : K} (h1 : 1 ≤ m) (hm : m ≤ n) : A.Suits u η B m M where
  lawful := h.lawful
  accurate := h.accurate
  one_le := h1
  rows := by have := mul_le_mul_of_nonneg_right hm h.accurate.u_nonneg; linarith [h.rows]
  size_nonneg := h.size_nonneg
  small := h.small
  tiny := h.tiny
  range := by
    have := mul_le_mul_of_nonneg_right hm (add_nonneg h.size_nonneg (mul_self_nonneg M))
    linarith [h.range]

theorem add_close (h : A.Accurate u η B) {a b : Num K} {x y ε δ m : K} (ha : CloseTo a x ε) (hb : CloseTo b y δ)
    (hm : |x + y| + ε + δ ≤ m) (hB : m ≤ B) : CloseTo (A.add a b) (x + y) (ε + δ + u * m + η) := by
  obtain ⟨p, rfl, hp⟩ := ha
  obtain ⟨q, rfl, hq⟩ := hb
  have h1 : |(p + q) - (x + y)| ≤ ε + δ := by
    have : (p + q) - (x + y) = (p - x) + (q - y) := by ring
    rw [this]
    exact (abs_add_le _ _).trans (add_le_add hp hq)
  have h2 : |p + q| ≤ m := by
    have : p + q = ((p + q) - (x + y)) + (x + y) := by ring
    rw [this]
    exact (abs_add_le _ _).trans (by linarith)
  unfold Arith.add
  exact ((r_close h h2 hB).trans h1).mono (by linarith)

theorem sumsTo_nil {s : Num K} (h : SumsTo A [] s) : s = .fin 0 := by
  generalize e : ([] : List (Num K)) = l at h
  cases h with
  | nil => rfl
  | one a => cases e
  | add p h1 h2 n1 n2 =>
    rw [← e] at p
    exact absurd (List.append_eq_nil_iff.1 p.symm.eq_nil).1 n1

/-- one column of one row: an error of `18 e`, size at most `2 M` -/
theorem addColR_close (h : A.Suits u η B n M) (hX : X.rows ≠ []) (hn : (X.rows.length : K) ≤ n) (hw : ∀ r, Mixes X r → |w r| ≤ M)
    {f : F} {r : Row F V} (hr : r ∈ X.rows) :
    CloseTo (addColR (fltM A w) X f r) (pd1 w X f (r f) - average (X.rows.map w)) (18 * (n * (u * M))) ∧
      |pd1 w X f (r f) - average (X.rows.map w)| ≤ 2 * M := by
  obtain ⟨hu, η0, w0, w1, w2, m1, hB, u1⟩ := h.facts
  have M0 := h.size_nonneg
  have hη := h.small
  have nn : 0 ≤ n * (M * M) := mul_nonneg (by linarith [h.one_le]) (mul_self_nonneg M)
  have hs := h.shrink (m := X.rows.length) (by exact_mod_cast List.length_pos_of_ne_nil hX) hn
  have le := mul_le_mul_of_nonneg_right hn w0
  obtain ⟨a1, a2⟩ := pdSingle_close hs hw (observed_row hr f)
  obtain ⟨b1, b2⟩ := mean_closeX (φ := fun r => r) (w := w) hs (fun r hr => hw r (mixes_row hr))
  have sz : |pd1 w X f (r f) - average (X.rows.map w)| ≤ 2 * M := (abs_sub _ _).trans (by linarith)
  refine ⟨?_, sz⟩
  refine (sub_close h.accurate a1 b1 (m := 3 * M) (by linarith) (by linarith)).mono ?_
  have : u * (3 * M) = 3 * (u * M) := by ring
  rw [this]
  linarith

theorem sum_close_cols {l : List F} {p : F → Num K} {x : F → K} {ε m : K} (h : ∀ f ∈ l, CloseTo (p f) (x f) ε ∧ |x f| ≤ m) :
    |((l.map p).map Num.realPart).sum - (l.map x).sum| ≤ l.length * ε ∧ ((l.map p).map fun a => |a.realPart|).sum ≤ l.length * (m + ε) ∧
      |(l.map x).sum| ≤ l.length * m := by
  induction l with
  | nil => simp
  | cons f l ih =>
    obtain ⟨i1, i2, i3⟩ := ih fun f hf => h f (List.mem_cons_of_mem _ hf)
    obtain ⟨⟨y, e, hy⟩, hx⟩ := h f List.mem_cons_self
    have ey : (p f).realPart = y := by rw [e]; rfl
    simp only [List.map_cons, List.sum_cons, List.length_cons, ey]
    push_cast
    have hy' : |y| ≤ m + ε := by
      have : y = (y - x f) + x f := by ring
      rw [this]
      exact (abs_add_le _ _).trans (by linarith)
    refine ⟨?_, by linarith, ?_⟩
    · have : ∀ a b c d : K, a + b - (c + d) = (a - c) + (b - d) := by intros; ring
      rw [this]
      exact (abs_add_le _ _).trans (by linarith)
    · exact (abs_add_le _ _).trans (by linarith)

/-- the sum of the columns of one row -/
theorem rowSum_close (h : A.Suits u η B n M) (h' : A.Suits u η B n ((X.cols.length + 1) * M)) (hX : X.rows ≠ [])
    (hn : (X.rows.length : K) ≤ n) (hc : (X.cols.length : K) ≤ n) (hw : ∀ r, Mixes X r → |w r| ≤ M) {r : Row F V} (hr : r ∈ X.rows) :
    CloseTo (A.sum (X.cols.map fun f => addColR (fltM A w) X f r)) (X.cols.map fun f => pd1 w X f (r f) - average (X.rows.map w)).sum
      (25 * (X.cols.length * (n * (u * M)))) ∧
      |(X.cols.map fun f => pd1 w X f (r f) - average (X.rows.map w)).sum| ≤ X.cols.length * (2 * M) := by
  obtain ⟨hu, η0, w0, w1, w2, m1, hB, u1⟩ := h.facts
  obtain ⟨_, _, _, _, _, m1', hB', _⟩ := h'.facts
  have M0 := h.size_nonneg
  have hη := h.small
  have n0 : 0 ≤ n := by linarith [h.one_le]
  have nn : 0 ≤ n * (((X.cols.length + 1) * M) * ((X.cols.length + 1) * M)) := mul_nonneg n0 (mul_self_nonneg _)
  obtain ⟨s1, s2, s3⟩ := sum_close_cols fun f (hf : f ∈ X.cols) => addColR_close (f := f) h hX hn hw hr
  refine ⟨?_, s3⟩
  by_cases h0 : X.cols = []
  · rw [h0]
    exact ⟨0, sumsTo_nil (h.lawful.sums []), by simp⟩
  have hp : (1 : K) ≤ X.cols.length := by exact_mod_cast List.length_pos_of_ne_nil h0
  generalize hS : ((X.cols.map fun f => addColR (fltM A w) X f r).map fun a => |a.realPart|).sum = S at s2
  have pu := mul_le_mul_of_nonneg_right hc hu
  have := sum_close (l := X.cols.map fun f => addColR (fltM A w) X f r) (m := 2 * M + 18 * (n * (u * M))) h.accurate h.lawful (by simpa using h0)
    (by
      intro a ha
      obtain ⟨f, hf, rfl⟩ := List.mem_map.1 ha
      obtain ⟨⟨y, e, hy⟩, hx⟩ := addColR_close (f := f) h hX hn hw hr
      refine ⟨y, e, ?_⟩
      have : y = (y - _) + (pd1 w X f (r f) - average (X.rows.map w)) := (sub_add_cancel _ _).symm
      rw [this]
      exact (abs_add_le _ _).trans (by linarith)) (by linarith) (by rw [List.length_map]; linarith [h.rows]) hS ?_
  · rw [List.length_map] at this
    refine (this.trans s1).mono ?_
    have pe := mul_le_mul_of_nonneg_left w1 (show (0 : K) ≤ X.cols.length by linarith)
    have pη := mul_le_mul_of_nonneg_left hη (show (0 : K) ≤ X.cols.length by linarith)
    have S2 : S ≤ X.cols.length * (73 / 32 * M) := s2.trans (mul_le_mul_of_nonneg_left (by linarith) (by linarith))
    have S3 := mul_le_mul_of_nonneg_left S2 (show 0 ≤ (X.cols.length : K) * u from mul_nonneg (by linarith) hu)
    have S4 := mul_le_mul_of_nonneg_left (mul_le_mul_of_nonneg_right hc w0) (show (0 : K) ≤ X.cols.length by linarith)
    have e1 : (X.cols.length : K) * u * (X.cols.length * (73 / 32 * M)) = 73 / 32 * (X.cols.length * (X.cols.length * (u * M))) := by ring
    rw [e1] at S3
    have e2 : 2 * ((X.cols.length : K) * u) * S = 2 * (X.cols.length * u * S) := by ring
    have e3 : (X.cols.length : K) * (18 * (n * (u * M))) = 18 * (X.cols.length * (n * (u * M))) := by ring
    have e0 : 0 ≤ (X.cols.length : K) * (n * (u * M)) := mul_nonneg (by linarith) (by linarith)
    rw [e2, e3]
    linarith
  · rw [List.length_map]
    have S2 : S ≤ X.cols.length * (73 / 32 * M) := s2.trans (mul_le_mul_of_nonneg_left (by linarith) (by linarith))
    have pη := mul_le_mul_of_nonneg_left (show η ≤ M by linarith) (show (0 : K) ≤ X.cols.length by linarith)
    have e1 : (X.cols.length : K) * (73 / 32 * M) = 73 / 32 * (X.cols.length * M) := by ring
    have p0 : 0 ≤ (X.cols.length : K) * M := mul_nonneg (by linarith) M0
    rw [e1] at S2
    have e2 : ((X.cols.length : K) + 1) * M = X.cols.length * M + M := by ring
    rw [e2] at m1' hB' nn
    linarith

/-- the residual of one row: an error of `36 E`, size at most `3 M'`, where `M'` is the number of columns plus one times `M` -/
theorem residR_close (h : A.Suits u η B n M) (h' : A.Suits u η B n ((X.cols.length + 1) * M)) (hX : X.rows ≠ [])
    (hn : (X.rows.length : K) ≤ n) (hc : (X.cols.length : K) ≤ n) (hw : ∀ r, Mixes X r → |w r| ≤ M) {r : Row F V} (hr : r ∈ X.rows) :
    CloseTo (residR (fltM A w) X r) (w r - firstOrder w X r) (36 * (n * (u * ((X.cols.length + 1) * M)))) ∧
      |w r - firstOrder w X r| ≤ 3 * ((X.cols.length + 1) * M) := by
  obtain ⟨hu, η0, w0, w1, w2, m1, hB, u1⟩ := h.facts
  obtain ⟨_, _, w0', w1', w2', m1', hB', _⟩ := h'.facts
  have M0 := h.size_nonneg
  have hη := h.small
  have n0 : 0 ≤ n := by linarith [h.one_le]
  have p0 : (0 : K) ≤ X.cols.length := Nat.cast_nonneg _
  have hs := h.shrink (m := X.rows.length) (by exact_mod_cast List.length_pos_of_ne_nil hX) hn
  have le := mul_le_mul_of_nonneg_right hn w0
  obtain ⟨b1, b2⟩ := mean_closeX (φ := fun r => r) (w := w) hs (fun r hr => hw r (mixes_row hr))
  obtain ⟨s1, s2⟩ := rowSum_close h h' hX hn hc hw hr
  have nn : 0 ≤ n * (((X.cols.length + 1) * M) * ((X.cols.length + 1) * M)) := mul_nonneg n0 (mul_self_nonneg _)
  have pM : 0 ≤ (X.cols.length : K) * M := mul_nonneg p0 M0
  have pe : 0 ≤ (X.cols.length : K) * (n * (u * M)) := mul_nonneg p0 (by linarith)
  have pu := mul_le_mul_of_nonneg_left w1 p0
  have e1 : ((X.cols.length : K) + 1) * M = X.cols.length * M + M := by ring
  have e2 : n * (u * (((X.cols.length : K) + 1) * M)) = X.cols.length * (n * (u * M)) + n * (u * M) := by ring
  have e3 : u * (((X.cols.length : K) + 1) * M) = X.cols.length * (u * M) + u * M := by ring
  have e4 : (X.cols.length : K) * (2 * M) = 2 * (X.cols.length * M) := by ring
  rw [e2, e1] at w2'
  rw [e1] at m1' nn hB'
  rw [e4] at s2
  rw [e2, e1]
  have f1 : |(X.cols.map fun f => pd1 w X f (r f) - average (X.rows.map w)).sum + average (X.rows.map w)| ≤ 2 * (X.cols.length * M) + M :=
    (abs_add_le _ _).trans (add_le_add s2 b2)
  have c1 := add_close (A := A) h.accurate s1 b1 (m := 3 * (X.cols.length * M + M)) (by linarith) (by linarith)
  have c2 := c1.mono (δ := 31 * (X.cols.length * (n * (u * M)) + n * (u * M))) (by
    have : u * (3 * (X.cols.length * M + M)) = 3 * (X.cols.length * (u * M) + u * M) := by ring
    rw [this]
    linarith)
  have hwr := hw r (mixes_row hr)
  have ef : firstOrder w X r = (X.cols.map fun f => pd1 w X f (r f) - average (X.rows.map w)).sum + average (X.rows.map w) := by
    unfold firstOrder
    rw [add_comm]
  rw [ef]
  have sz : |w r - ((X.cols.map fun f => pd1 w X f (r f) - average (X.rows.map w)).sum + average (X.rows.map w))| ≤ 3 * (X.cols.length * M + M) :=
    (abs_sub _ _).trans (by linarith)
  refine ⟨?_, sz⟩
  have c0 : CloseTo (fltM A w r).val (w r) 0 := ⟨w r, rfl, by simp⟩
  refine (sub_close h.accurate c0 c2 (m := 4 * (X.cols.length * M + M)) (by linarith) (by linarith)).mono ?_
  have : u * (4 * (X.cols.length * M + M)) = 4 * (X.cols.length * (u * M) + u * M) := by ring
  rw [this]
  linarith

/-- `a` is the index computed from a residual within `77 E` of `R` and a variation within `53 e` of `D`, up to the last two roundings -/
def Spec.NearIndex (u η e E R D : K) (a : Num K) : Prop :=
  ∃ k R' D', a = .fin k ∧ |R' - R| ≤ 77 * E ∧ |D' - D| ≤ 53 * e ∧ 0 < D' ∧
    |k - (1 - R' * R' / (D' * D'))| ≤ 3 * u * (1 + R' * R' / (D' * D')) + 3 * η

theorem last_two {q Q k : K} (hu : 0 ≤ u) (u1 : 64 * u ≤ 1) (η0 : 0 ≤ η) (Q0 : 0 ≤ Q) (hq : |q - Q| ≤ u * Q + η)
    (hk : |k - (1 - q)| ≤ u * |1 - q| + η) : |k - (1 - Q)| ≤ 3 * u * (1 + Q) + 3 * η := by
  have a := abs_le.1 hq
  have b : |1 - q| ≤ 1 + (Q + (u * Q + η)) := by rw [abs_le]; constructor <;> nlinarith
  have c := mul_le_mul_of_nonneg_left b hu
  have d := abs_le.1 (hk.trans (add_le_add_left c η))
  have uQ : u * (u * Q) ≤ u * Q := by nlinarith [mul_nonneg hu Q0]
  have uη : u * η ≤ η := by nlinarith
  have uQ0 := mul_nonneg hu Q0
  rw [abs_le]
  constructor <;> nlinarith

theorem eta_small (h : A.Suits u η B n M) : η ≤ B / 4 := by
  obtain ⟨hu, η0, w0, w1, w2, m1, hB, u1⟩ := h.facts
  have htiny := h.tiny
  have a2 := mul_self_le_mul_self w0 (show u * M ≤ M by linarith)
  have a3 := mul_le_mul_of_nonneg_right h.one_le (mul_self_nonneg M)
  have a4 : 0 ≤ n * M := by linarith [h.size_nonneg]
  have a5 := mul_self_nonneg M
  generalize u * M * (u * M) = t at *
  generalize n * (M * M) = s at *
  linarith

theorem quot_range {T P G W : K} (B0 : 0 ≤ B) (T0 : 0 ≤ T) (Tm : T ≤ 9 * P) (G0 : 0 ≤ G) (Wpos : G ≤ W) (h : 200 * (P * P) ≤ B * (G * G)) :
    T * T ≤ 81 / 200 * B * (W * W) := by
  have a1 := mul_self_le_mul_self T0 Tm
  have a3 := mul_le_mul_of_nonneg_left (mul_self_le_mul_self G0 Wpos) B0
  have e1 : 9 * P * (9 * P) = 81 * (P * P) := by ring
  have e2 : 81 / 200 * B * (W * W) = 81 / 200 * (B * (W * W)) := by ring
  rw [e1] at a1
  rw [e2]
  linarith

theorem in_range {q Q : K} (hu : 0 ≤ u) (u1 : 64 * u ≤ 1) (ηB : η ≤ B / 4) (B4 : 4 ≤ B) (Q0 : 0 ≤ Q) (QB : Q ≤ 81 / 200 * B) (q0 : 0 ≤ q)
    (hq : |q - Q| ≤ u * Q + η) : |1 - q| ≤ B := by
  have := abs_le.1 hq
  have uq : u * Q ≤ 1 / 64 * (81 / 200 * B) := mul_le_mul (by linarith) QB Q0 (by norm_num)
  rw [abs_le]
  constructor <;> linarith

/-- **C149.** A finite-valued model with predictions of size at most `M` on mixtures of observed values; `n` at least the number of rows
and of columns; `e = n · u · M`, `E = (columns + 1) · e`; `R` and `D` the root mean squares of the residual (prediction minus sum of the
first-order effects) and of the centred predictions, in exact arithmetic, and `D > 53 e`. The method returns a finite index, computed
from numbers within `77 E` of `R` and within `53 e` of `D`, up to two roundings. -/
theorem C149_index_close_to_exact (h : A.Suits u η B n M) (h' : A.Suits u η B n ((X.cols.length + 1) * M)) (hX : X.rows ≠ [])
    (hn : (X.rows.length : K) ≤ n) (hc : (X.cols.length : K) ≤ n) (hw : ∀ r, Mixes X r → |w r| ≤ M) (hp : RowWise (fltM A w) predict)
    (hnf : NeverFails predict) (nd : X.cols.Nodup) (hcp : cp ∉ X.cols) {R D G : K} (hR : IsRms X (fun r => w r - firstOrder w X r) R)
    (hD : IsRms X (centred X w) D) (hG : G = D - 53 * (n * (u * M))) (G0 : 0 < G) (B4 : 4 ≤ B)
    (hrange : 200 * (((X.cols.length + 1) * M) * ((X.cols.length + 1) * M)) ≤ B * (G * G)) :
    ∃ a, additivityR A cp predict X batchsize = .ok a ∧
      NearIndex u η (n * (u * M)) (n * (u * ((X.cols.length + 1) * M))) R D a := by
  refine ⟨_, additivityR_ret hp hnf nd, ?_⟩
  rw [addFinishR_index nd hcp]
  obtain ⟨hu, η0, w0, w1, w2, m1, hB, u1⟩ := h.facts
  obtain ⟨_, _, w0', w1', w2', m1', hB', _⟩ := h'.facts
  have M0 := h.size_nonneg
  have htiny := h.tiny
  have ct := centre_close (ph := fun r => (fltM A w r).val) (p := w) h hX hn
    (fun r hr => ⟨w r, rfl, by rw [sub_self, abs_zero]; linarith⟩) (fun r hr => hw r (mixes_row hr))
  have rc := fun r hr => residR_close (r := r) h h' hX hn hc hw hr
  obtain ⟨N, T, eN, T0, eT, Tm, hT⟩ := rss_close (dh := residR (fltM A w) X) (d := fun r => w r - firstOrder w X r)
    (ε := 36 * (n * (u * ((X.cols.length + 1) * M)))) (m := 4 * ((X.cols.length + 1) * M)) h' hX hn (by linarith) (fun r hr => (rc r hr).1)
    (fun r hr => by have := (rc r hr).2; linarith) (by linarith [h'.size_nonneg]) hR.1 hR.2
  obtain ⟨S, W, eS, W0, eW, Wm, hW⟩ := rss_close (dh := ctrR A X.rows fun r => (fltM A w r).val) (d := centred X w)
    (ε := 26 * (n * (u * M))) (m := 12 / 5 * M + 1 / 100 * M) h hX hn (by linarith) (fun r hr => (ct r hr).1)
    (fun r hr => by have := (ct r hr).2; simp only [centred]; linarith) (by linarith) hD.1 hD.2
  have e1 : n * (u * (4 * (((X.cols.length : K) + 1) * M))) = 4 * (n * (u * ((X.cols.length + 1) * M))) := by ring
  have e2 : n * (u * (12 / 5 * M + 1 / 100 * M)) = 241 / 100 * (n * (u * M)) := by ring
  rw [e1] at hT
  rw [e2] at hW
  have hT' : |T - R| ≤ 77 * (n * (u * ((X.cols.length + 1) * M))) := hT.trans (by linarith)
  have hW' : |W - D| ≤ 53 * (n * (u * M)) := hW.trans (by linarith)
  have Wpos : G ≤ W := by have := (abs_le.1 hW').1; linarith
  have Wp : 0 < W := by linarith
  have Lp : (0 : K) < X.rows.length := by exact_mod_cast List.length_pos_of_ne_nil hX
  have S0 : S ≠ 0 := by rw [eW]; positivity
  have ediv : Num.div (.fin N) (.fin S) = (.fin (T * T / (W * W)) : Num K) := by
    have : N / S = T * T / (W * W) := by
      rw [eT, eW]
      field_simp
    rw [← this]
    exact if_neg S0
  have eF : X.rows.map (fun r => (A.sq (ctrR A X.rows (fun r => (fltM A w r).val) r)).fillna0) =
      X.rows.map fun r => A.sq (ctrR A X.rows (fun r => (fltM A w r).val) r) := by
    refine List.map_congr_left fun r hr => ?_
    obtain ⟨y, ey, _⟩ := (ct r hr).1
    have ey' : ctrR A X.rows (fun r => (fltM A w r).val) r = .fin y := ey
    rw [ey']
    have : A.sq (.fin y) = A.rnd (y * y) := rfl
    rw [this]
    rcases h.lawful.rnd_nonneg _ (mul_self_nonneg y) with e | ⟨z, e, _⟩ <;> rw [e] <;> rfl
  have q0 : 0 ≤ T * T / (W * W) := div_nonneg (mul_self_nonneg _) (mul_self_nonneg _)
  have B0 : 0 ≤ B := by linarith
  have qB : T * T / (W * W) ≤ 81 / 200 * B := by
    rw [div_le_iff₀ (mul_pos Wp Wp)]
    exact quot_range B0 T0 Tm G0.le Wpos hrange
  obtain ⟨q, eq, hq⟩ := h.accurate.rnd_near (T * T / (W * W)) (by rw [abs_of_nonneg q0]; linarith)
  rw [abs_of_nonneg q0] at hq
  have qn : 0 ≤ q := by
    rcases h.lawful.rnd_nonneg _ q0 with e3 | ⟨z', e3, h3⟩
    · rw [eq] at e3; cases e3
    · rw [eq] at e3; cases e3; exact h3
  obtain ⟨k, ek, hk⟩ := h.accurate.rnd_near (1 - q) (in_range hu u1 (eta_small h) B4 q0 qB qn hq)
  refine ⟨k, T, W, ?_, hT', hW', Wp, last_two hu u1 η0 q0 hq hk⟩
  have e3 : A.div (.fin N) (.fin S) = .fin q := by rw [Arith.div, ediv]; exact eq
  have e4 : A.sub (.fin 1) (.fin q) = .fin k := by
    have : Num.sub (.fin 1) (.fin q) = (.fin (1 - q) : Num K) := by simp [Num.sub, Num.neg, Num.add, sub_eq_add_neg]
    rw [Arith.sub, this]
    exact ek
  rw [eF, eN, eS, e3, e4]

theorem rms_le (hX : X.rows ≠ []) {d : Row F V → K} {R c : K} (hR : IsRms X d R) (hd : ∀ r ∈ X.rows, |d r| ≤ c) : R ≤ c := by
  obtain ⟨r0, hr0⟩ := List.exists_mem_of_ne_nil _ hX
  have c0 : 0 ≤ c := (abs_nonneg _).trans (hd r0 hr0)
  have := (average_bounds (l := X.rows.map fun r => d r * d r) (lo := 0) (hi := c * c) (by simpa using hX) (by
    intro z hz
    obtain ⟨r, hr, rfl⟩ := List.mem_map.1 hz
    refine ⟨mul_self_nonneg _, ?_⟩
    rw [← abs_mul_abs_self]
    exact mul_self_le_mul_self (abs_nonneg _) (hd r hr))).2
  rw [average, List.length_map] at this
  have h2 := hR.2
  rw [sumSq] at h2
  rw [← h2] at this
  exact (mul_self_le_mul_self_iff hR.1 c0).2 this

/-- the residual of a model within `δ` of an additive one -/
theorem resid_small {c δ : K} {hh : F → V → K} (hX : X.rows ≠ []) (nd : X.cols.Nodup)
    (hadd : ∀ r, Mixes X r → |w r - (c + (X.cols.map fun f => hh f (r f)).sum)| ≤ δ) {r : Row F V} (hr : r ∈ X.rows) :
    |w r - firstOrder w X r| ≤ 2 * ((X.cols.length + 1) * δ) := by
  obtain ⟨a, ha⟩ : ∃ a : Row F V → K, ∀ r, a r = c + (X.cols.map fun f => hh f (r f)).sum := ⟨_, fun _ => rfl⟩
  have hnear : Near X δ a w := fun r hm => by rw [ha]; exact hadd r hm
  have e := sum_map_pd1 hX nd ha r
  have h1 := hnear r (mixes_row hr)
  have h2 : |average (X.rows.map w) - average (X.rows.map a)| ≤ δ := average_near hX fun r hr => hnear r (mixes_row hr)
  have h3 : ∀ l : List F, |(l.map fun f => pd1 w X f (r f) - average (X.rows.map w)).sum -
      (l.map fun f => pd1 a X f (r f) - average (X.rows.map a)).sum| ≤ l.length * (2 * δ) := by
    intro l
    induction l with
    | nil => simp
    | cons f l ih =>
      have p := pd1_near hnear hX (observed_row hr f)
      simp only [List.map_cons, List.sum_cons, List.length_cons]
      push_cast
      have p1 := abs_le.1 p
      have p2 := abs_le.1 h2
      have p3 := abs_le.1 ih
      rw [abs_le]
      constructor <;> linarith
  have h4 := abs_le.1 (h3 X.cols)
  have h5 := abs_le.1 h1
  have h6 := abs_le.1 h2
  rw [e] at h4
  unfold firstOrder
  rw [abs_le]
  constructor <;> linarith

/-- **C150 (partial).** In the setting of C149, a model within `δ` of a sum of functions of one column each: the index is at least
`1 - 3u - 3η - (1 + 3u) ((77 E + 2 (columns + 1) δ) / G)²`, with `G` the variation of the predictions minus `53 e`. Missing: models whose
predictions hardly vary, for which the claim fails, see `C150_additive_zero`. -/
theorem C150_additive_partial (h : A.Suits u η B n M) (h' : A.Suits u η B n ((X.cols.length + 1) * M)) (hX : X.rows ≠ [])
    (hn : (X.rows.length : K) ≤ n) (hc : (X.cols.length : K) ≤ n) (hw : ∀ r, Mixes X r → |w r| ≤ M) (hp : RowWise (fltM A w) predict)
    (hnf : NeverFails predict) (nd : X.cols.Nodup) (hcp : cp ∉ X.cols) {D G c δ : K} {hh : F → V → K}
    (hadd : ∀ r, Mixes X r → |w r - (c + (X.cols.map fun f => hh f (r f)).sum)| ≤ δ)
    (hD : IsRms X (centred X w) D) (hG : G = D - 53 * (n * (u * M))) (G0 : 0 < G) (B4 : 4 ≤ B)
    (hrange : 200 * (((X.cols.length + 1) * M) * ((X.cols.length + 1) * M)) ≤ B * (G * G)) :
    ∃ k, additivityR A cp predict X batchsize = .ok (.fin k) ∧
      1 - k ≤ 3 * u + 3 * η + (1 + 3 * u) * (((77 * (n * (u * ((X.cols.length + 1) * M))) + 2 * ((X.cols.length + 1) * δ)) / G) *
        ((77 * (n * (u * ((X.cols.length + 1) * M))) + 2 * ((X.cols.length + 1) * δ)) / G)) := by
  obtain ⟨hu, η0, w0, w1, w2, m1, hB, u1⟩ := h.facts
  obtain ⟨R, hR⟩ := exists_rms hX fun r => w r - firstOrder w X r
  obtain ⟨a, ea, k, R', D', ek, hR', hD', D0, hk⟩ := C149_index_close_to_exact (batchsize := batchsize) h h' hX hn hc hw hp hnf nd hcp hR hD hG G0 B4 hrange
  refine ⟨k, by rw [ea, ek], ?_⟩
  have Rs : R ≤ 2 * ((X.cols.length + 1) * δ) := rms_le hX hR (fun r hr => resid_small hX nd hadd hr)
  have R0 := hR.1
  obtain ⟨a1, a2⟩ := abs_le.1 hR'
  obtain ⟨b1, b2⟩ := abs_le.1 hD'
  have GG := mul_self_le_mul_self (abs_nonneg R') (show |R'| ≤ 77 * (n * (u * ((X.cols.length + 1) * M))) + 2 * ((X.cols.length + 1) * δ) by
    rw [abs_le]; constructor <;> linarith)
  rw [abs_mul_abs_self] at GG
  have EE := mul_self_le_mul_self G0.le (show G ≤ D' by linarith)
  have quo := div_le_div₀ (mul_self_nonneg _) GG (mul_pos G0 G0) EE
  rw [← div_mul_div_comm (77 * (n * (u * ((X.cols.length + 1) * M))) + 2 * ((X.cols.length + 1) * δ))] at quo
  have hk1 := (abs_le.1 hk).1
  have q2 := mul_le_mul_of_nonneg_left quo (show 0 ≤ 1 + 3 * u by linarith)
  linarith

end Close

end RoundedAdditivity

/-! ## Binary64 -/

section Binary64
variable {K : Type} [Field K] [LinearOrder K] [IsStrictOrderedRing K] [FloorRing K]

theorem roundEven_le {q : K} {N : ℤ} (h : q ≤ N) : roundEven q ≤ N := by
  have f1 : ⌊q⌋ ≤ N := by
    have := Int.floor_mono h
    rwa [Int.floor_intCast] at this
  by_cases e : ⌊q⌋ = N
  · have : q = N := le_antisymm h (by rw [← e]; exact Int.floor_le q)
    subst this
    unfold roundEven
    simp
  · unfold roundEven
    split_ifs <;> omega

/-- what C148 asks of the arithmetic beyond `Lawful` holds of binary64 -/
theorem round64_le_one (x : K) (hx : x ≤ 1) : (binary64 : Arith K).rnd x = .ninf ∨ ∃ y ≤ (1 : K), (binary64 : Arith K).rnd x = .fin y := by
  have hp : (0 : K) < (2 : K) ^ lastPlace x := zpow_pos two_pos _
  have hy : (roundEven (x / (2 : K) ^ lastPlace x) : K) * (2 : K) ^ lastPlace x ≤ 1 := by
    by_cases h0 : x ≤ 0
    · have : (roundEven (x / (2 : K) ^ lastPlace x) : K) ≤ ((0 : ℤ) : K) :=
        Int.cast_le.2 (roundEven_le (by rw [Int.cast_zero]; exact div_nonpos_of_nonpos_of_nonneg h0 hp.le))
      rw [Int.cast_zero] at this
      exact (mul_nonpos_of_nonpos_of_nonneg this hp.le).trans zero_le_one
    · have h0 := not_le.1 h0
      have hlog : Int.log 2 |x| ≤ 0 := by
        rw [abs_of_pos h0]
        have := Int.log_mono_right (b := 2) h0 hx
        rwa [Int.log_one_right] at this
      have hl : lastPlace x ≤ 0 := by
        unfold lastPlace
        exact max_le (by omega) (by norm_num)
      obtain ⟨k, hk⟩ := Int.eq_ofNat_of_zero_le (show 0 ≤ -lastPlace x by omega)
      have e : (2 : K) ^ lastPlace x = 1 / 2 ^ k := by
        rw [show lastPlace x = -(k : ℤ) by omega, zpow_neg, zpow_natCast, one_div]
      have pk : (0 : K) < 2 ^ k := pow_pos two_pos _
      have : (roundEven (x / (2 : K) ^ lastPlace x) : K) ≤ (((2 : ℤ) ^ k : ℤ) : K) := Int.cast_le.2 (roundEven_le (by
        rw [e, div_div_eq_mul_div, div_one]
        push_cast
        exact mul_le_of_le_one_left pk.le hx))
      push_cast at this
      have h2 := mul_le_mul_of_nonneg_right this hp.le
      refine h2.trans (le_of_eq ?_)
      rw [e, mul_one_div, div_self pk.ne']
  show round64 x = .ninf ∨ ∃ y ≤ (1 : K), round64 x = .fin y
  have hb : (1 : K) < 2 ^ 1024 := one_lt_pow₀ one_lt_two (by norm_num)
  unfold round64
  simp only
  rw [if_neg (not_le.2 (hy.trans_lt hb))]
  split_ifs
  · exact Or.inl rfl
  · exact Or.inr ⟨_, hy, rfl⟩

/-- **C148, binary64.** No assumption on the model, the data or the batch size. -/
theorem C148_binary64 {F V : Type} [DecidableEq F] [LinearOrder V] {cp : F} {predict : PF F V (Rounded (binary64 (K := K)))} {X : Frame F V}
    {batchsize : Int} {v : Num K} (h : additivityR binary64 cp predict X batchsize = .ok v) :
    v = .nan ∨ v = .ninf ∨ ∃ y ≤ (1 : K), v = .fin y :=
  C148_at_most_one binary64_lawful round64_le_one h

end Binary64

/-! ## Cases -/

section Cases
open Ex

/-- `sevenX` with room for the extra column -/
def sevenX3 : Frame (Fin 3) ℤ := ⟨[0, 1], (List.range 7).map fun i => ![(i : ℤ), (i % 3 : ℤ), 0]⟩
/-- always the binary64 number next to 0.9 -/
def constP3 : PF (Fin 3) ℤ (Rounded (binary64 (K := ℚ))) := fun _ rows => .ok (rows.map fun _ => ⟨round64 (9 / 10)⟩)
/-- almost constant: 0.9 plus `2^-53` times the first column -/
def flatP3 : PF (Fin 3) ℤ (Rounded (binary64 (K := ℚ))) := fun _ rows => .ok (rows.map fun r => ⟨round64 (9 / 10 + r 0 / 2 ^ 53)⟩)
/-- predictions that overflow -/
def hugeP3 : PF (Fin 3) ℤ (Rounded (binary64 (K := ℚ))) := fun _ rows => .ok (rows.map fun r => ⟨.fin (2 ^ 600 * r 0)⟩)
/-- a product -/
def mulP3 : PF (Fin 3) ℤ (Rounded (binary64 (K := ℚ))) := fun _ rows => .ok (rows.map fun r => ⟨.fin (r 0 * r 1)⟩)

set_option maxRecDepth 100000 in
/-- **C150 fails for models that hardly vary.** A constant model, binary64: the mean of seven times 0.9 is not 0.9 again, residual and
variation are the same rounding error, and the index is 0, the value of a model without any additive part; in exact arithmetic it is
NaN (C23). -/
theorem C150_additive_zero :
    RowWise (fun _ => ⟨round64 (9 / 10)⟩) constP3 ∧ additivityR binary64 2 constP3 sevenX3 5 = .ok (.fin 0) := by
  refine ⟨fun n rows ys h => ?_, by decide +kernel⟩
  cases h
  rfl

set_option maxRecDepth 100000 in
/-- … and an additive model that is not constant, whose index is 1 in exact arithmetic (C22) and less than 0.86 in binary64. -/
theorem C150_additive_below_one :
    (∀ r ∈ sevenX3.rows, round64 (9 / 10 + r 0 / 2 ^ 53 : ℚ) = .fin (8106479329266893 / 2 ^ 53 + r 0 / 2 ^ 53)) ∧
    additivityR binary64 2 flatP3 sevenX3 5 = .ok (.fin (1930114126015927 / 2251799813685248)) ∧
    (1930114126015927 / 2251799813685248 : ℚ) < 86 / 100 := by decide +kernel

set_option maxRecDepth 100000 in
/-- C148 covers overflow: the sum of squares of the centred predictions is infinite here -/
example : additivityR binary64 2 hugeP3 sevenX3 5 = .ok (.fin 1) := by decide +kernel

set_option maxRecDepth 100000 in
/-- a model with an interaction -/
example : additivityR binary64 2 mulP3 sevenX3 5 = .ok (.fin (3381650246516793 / 4503599627370496)) := by decide +kernel

/-- an additive model with predictions up to 8 on `sevenX3`, in binary64 -/
noncomputable def addP3 : PF (Fin 3) ℤ (Rounded (binary64 (K := ℝ))) := fun _ rows => .ok (rows.map (fltM binary64 fun r => ((r 0 : ℤ) : ℝ) + (r 1 : ℤ)))

theorem sevenX3_small : ∀ r ∈ sevenX3.rows, |r 0| ≤ 6 ∧ |r 1| ≤ 2 := by decide +kernel

theorem addP3_small (r : Row (Fin 3) ℤ) (hm : Mixes sevenX3 r) : |((r 0 : ℤ) : ℝ) + (r 1 : ℤ)| ≤ 8 := by
  obtain ⟨r0, h0, e0⟩ := hm 0
  obtain ⟨r1, h1, e1⟩ := hm 1
  have a := (sevenX3_small r0 h0).1
  have b := (sevenX3_small r1 h1).2
  rw [← e0] at a
  rw [← e1] at b
  have : |r 0 + r 1| ≤ 8 := (abs_add_le _ _).trans (by omega)
  exact_mod_cast this

theorem suits_seven {M : ℝ} (h1 : 1 ≤ M) (h2 : M ≤ 2 ^ 8) : (binary64 : Arith ℝ).Suits (1 / 2 ^ 53) (1 / 2 ^ 1075) (2 ^ 1023) 7 M :=
  C143_binary64 (by norm_num) (by norm_num)
    (le_trans (div_le_one_of_le₀ (one_le_pow₀ one_le_two) (pow_nonneg two_pos.le _)) h1)
    (h2.trans (pow_le_pow_right₀ one_le_two (by norm_num)))

/-- C149 and C150: the index of `addP3` is at least `1 - 2^-51` -/
example : ∃ k : ℝ, additivityR binary64 2 addP3 sevenX3 5 = .ok (.fin k) ∧ 1 - k ≤ 1 / 2 ^ 51 := by
  have hX : sevenX3.rows ≠ [] := by decide +kernel
  have hc : (sevenX3.cols.length : ℝ) = 2 := by simp [sevenX3]
  have hr : (sevenX3.rows.length : ℝ) = 7 := by simp [sevenX3]
  obtain ⟨D, hD⟩ := exists_rms (X := sevenX3) hX (centred sevenX3 fun r => ((r 0 : ℤ) : ℝ) + (r 1 : ℤ))
  have h2 : 2 ≤ D := by
    obtain ⟨h0, h⟩ := hD
    have : (4 : ℝ) ≤ D * D := by
      rw [h]
      simp [sumSq, centred, average, sevenX3, List.range_succ]
      norm_num
    nlinarith
  obtain ⟨G, hG⟩ : ∃ G, G = D - 53 * (7 * (1 / 2 ^ 53 * (8 : ℝ))) := ⟨_, rfl⟩
  have c : 53 * (7 * (1 / 2 ^ 53 * (8 : ℝ))) ≤ 1 := by norm_num
  have G1 : 1 ≤ G := by rw [hG]; linarith
  have GG : 1 ≤ G * G := by nlinarith
  obtain ⟨k, ek, hk⟩ := C150_additive_partial (A := binary64) (cp := 2) (batchsize := 5) (n := 7) (M := 8) (δ := 0) (c := 0)
    (w := fun r : Row (Fin 3) ℤ => ((r 0 : ℤ) : ℝ) + (r 1 : ℤ)) (predict := addP3) (hh := fun _ v => (v : ℝ))
    (suits_seven (by norm_num) (by norm_num)) (suits_seven (by rw [hc]; norm_num) (by rw [hc]; norm_num)) hX hr.le (by rw [hc]; norm_num)
    addP3_small (fun n rows ys h => by cases h; rfl) (fun n rows => ⟨_, rfl⟩) (by decide) (by decide)
    (fun r _ => by simp [sevenX3]) hD hG (by linarith)
    (le_trans (by norm_num : (4 : ℝ) ≤ 2 ^ 2) (pow_le_pow_right₀ one_le_two (by norm_num))) (by
      rw [hc]
      have h20 : (200 * ((2 + 1) * 8 * ((2 + 1) * 8)) : ℝ) ≤ 2 ^ 20 := by norm_num
      have h3 : (2 : ℝ) ^ 20 ≤ 2 ^ 1023 := pow_le_pow_right₀ one_le_two (by norm_num)
      calc (200 * ((2 + 1) * 8 * ((2 + 1) * 8)) : ℝ) ≤ 2 ^ 1023 * 1 := by rw [mul_one]; exact h20.trans h3
        _ ≤ 2 ^ 1023 * (G * G) := mul_le_mul_of_nonneg_left GG (pow_nonneg two_pos.le _))
  refine ⟨k, ek, hk.trans ?_⟩
  rw [hc]
  have q : (77 * (7 * (1 / 2 ^ 53 * ((2 + 1) * (8 : ℝ)))) + 2 * ((2 + 1) * 0)) / G ≤ 1 / 2 ^ 39 :=
    (div_le_self (by norm_num) G1).trans (by norm_num)
  have q0 : 0 ≤ (77 * (7 * (1 / 2 ^ 53 * ((2 + 1) * (8 : ℝ)))) + 2 * ((2 + 1) * 0)) / G := div_nonneg (by norm_num) (by linarith)
  have qq := mul_self_le_mul_self q0 q
  have η : (1 / 2 ^ 1075 : ℝ) ≤ 1 / 2 ^ 100 := one_div_le_one_div_of_le (pow_pos two_pos _) (pow_le_pow_right₀ one_le_two (by norm_num))
  refine (add_le_add (add_le_add le_rfl (mul_le_mul_of_nonneg_left η (by norm_num))) (mul_le_mul_of_nonneg_left qq (by norm_num))).trans (by norm_num)

end Cases
end Artemis
