import Verif.Proofs.IndepLemmas
import Verif.Props.Formulas
import Verif.Props.Additivity

/-!
# Properties C104, C105 (and C23): strengths as shares of variance

Setting of `Verif/Props/HStat.lean` and `Verif/Props/Additivity.lean`. `Independent X f` (Spec/Independent): in the data
`f` varies independently of the other features.
-/

set_option linter.unusedSectionVars false
set_option linter.unusedVariables false
set_option linter.unusedSimpArgs false

namespace Artemis
open Spec

variable {F V K G L : Type} [DecidableEq F] [LinearOrder V] [DecidableEq L] [Field K] [LinearOrder K]
  [IsStrictOrderedRing K] [HasSqrt K]
variable {E : PdEnv G F K} {a : PdArgs L F V K} {s0 s : PdpMethod G L F V K} {Xs : LFrame L F V}

theorem effectSq_nonneg (u : Row F V → K) (X : Frame F V) (f : F) : 0 ≤ effectSq u X f := sum_sq_nonneg _ _

/-- **C104**, what holds: for two features each varying independently of all others the normalized value of the pair
lies between 0 and 1: the share of the variation of the joint partial dependence that the two single effects leave
over. It is 1 exactly when there is such variation and neither feature has an effect by itself. Missing: features
related in the data, refuted by `C104_fails` and `C104_fails_infinite`. -/
theorem C104_pair_share_partial [LawfulSqrt K] {u : Row F V → K} (hs : FitSetup (finM u) E a s0 Xs)
    (hsort : SortsBy OvoRow.val false E.sortOvo) (hX : Xs.frame.rows ≠ [])
    (hret : PdpMethod.fit (.friedman true) E a s0 = (.ok (), s)) :
    ∃ tbl, s.ovo = some tbl ∧ ∀ row ∈ tbl, Independent Xs.frame row.f1 → Independent Xs.frame row.f2 →
      ∃ k : K, row.val = .fin k ∧ 0 ≤ k ∧ k ≤ 1 ∧
        let den := sumSq Xs.frame (centred Xs.frame (fun r => pd2 u Xs.frame row.f1 row.f2 (r row.f1) (r row.f2)))
        (den ≠ 0 → k = 1 - (effectSq u Xs.frame row.f1 + effectSq u Xs.frame row.f2) / den) ∧
        (k = 1 ↔ den ≠ 0 ∧ effectSq u Xs.frame row.f1 = 0 ∧ effectSq u Xs.frame row.f2 = 0) := by
  obtain ⟨tbl, h1, h2⟩ := C66_H_is_textbook_formula true hs hsort hX hret
  obtain ⟨h1', hv⟩ := hTable_of_fit hs hret
  refine ⟨tbl, h1, fun row hrow i1 i2 => ?_⟩
  have hne : row.f1 ≠ row.f2 := by
    have : tbl = hTable E true (finM u) Xs.frame a.feats := Option.some.inj (h1.symm.trans h1')
    rw [this] at hrow
    obtain ⟨q, hq, rfl⟩ := (mem_hTable hsort).1 hrow
    exact hv.ne q hq
  have h := h2 row hrow
  simp only [if_true] at h
  have hP := sumSq_joint hX i1 i2 hne u
  set den := sumSq Xs.frame (centred Xs.frame (fun r => pd2 u Xs.frame row.f1 row.f2 (r row.f1) (r row.f2))) with hden
  set num := sumSq Xs.frame (interaction u Xs.frame row.f1 row.f2) with hnum
  change den = num + effectSq u Xs.frame row.f1 + effectSq u Xs.frame row.f2 at hP
  have hn0 : 0 ≤ num := sum_sq_nonneg _ _
  have e1 := effectSq_nonneg u Xs.frame row.f1
  have e2 := effectSq_nonneg u Xs.frame row.f2
  obtain ⟨ha, _, hc⟩ := h
  by_cases hd : den = 0
  · have : num = 0 := by linarith
    refine ⟨0, hc hd this, le_rfl, zero_le_one, fun h => (h hd).elim, ?_⟩
    constructor
    · intro h; exact (zero_ne_one h).elim
    · intro h; exact (h.1 hd).elim
  · have hdp : 0 < den := lt_of_le_of_ne (by linarith) (Ne.symm hd)
    refine ⟨num / den, ha hd, div_nonneg hn0 hdp.le, (div_le_one hdp).2 (by linarith), fun _ => ?_, ?_⟩
    · field_simp; linarith
    · rw [div_eq_one_iff_eq hd]
      constructor
      · intro h; exact ⟨hd, by linarith, by linarith⟩
      · rintro ⟨_, h3, h4⟩; linarith

/-- **C104** for one-vs-all: only the feature itself has to vary independently. -/
theorem C104_feature_share_partial [LawfulSqrt K] {u : Row F V → K} (hs : FitSetup (finM u) E a s0 Xs)
    (hsort : SortsBy FeatRow.val false E.sortFeat) (hX : Xs.frame.rows ≠ []) (hova : a.calculateOva = true)
    (hret : PdpMethod.fit (.friedman true) E a s0 = (.ok (), s)) :
    ∃ tbl, s.ova = some tbl ∧ ∀ row ∈ tbl, Independent Xs.frame row.f →
      ∃ k : K, row.val = .fin k ∧ 0 ≤ k ∧ k ≤ 1 ∧
        let den := sumSq Xs.frame (centred Xs.frame u)
        let rest := sumSq Xs.frame (centred Xs.frame (pdNot u Xs.frame row.f))
        (den ≠ 0 → k = 1 - (effectSq u Xs.frame row.f + rest) / den) ∧
        (k = 1 ↔ den ≠ 0 ∧ effectSq u Xs.frame row.f = 0 ∧ rest = 0) := by
  obtain ⟨tbl, h1, _, h2⟩ := C68_ova_is_textbook_formula true hs hsort hX hova hret
  refine ⟨tbl, h1, fun row hrow i1 => ?_⟩
  have h := h2 row hrow
  simp only [if_true] at h
  have hP := sumSq_ova hX i1 u
  set den := sumSq Xs.frame (centred Xs.frame u) with hden
  set num := sumSq Xs.frame (interactionOva u Xs.frame row.f) with hnum
  set rest := sumSq Xs.frame (centred Xs.frame (pdNot u Xs.frame row.f)) with hrest
  change den = num + rest + effectSq u Xs.frame row.f at hP
  have hn0 : 0 ≤ num := sum_sq_nonneg _ _
  have hr0 : 0 ≤ rest := sum_sq_nonneg _ _
  have e1 := effectSq_nonneg u Xs.frame row.f
  obtain ⟨ha, _, hc⟩ := h
  by_cases hd : den = 0
  · have : num = 0 := by linarith
    refine ⟨0, hc hd this, le_rfl, zero_le_one, fun h => (h hd).elim, ?_⟩
    constructor
    · intro h; exact (zero_ne_one h).elim
    · intro h; exact (h.1 hd).elim
  · have hdp : 0 < den := lt_of_le_of_ne (by linarith) (Ne.symm hd)
    refine ⟨num / den, ha hd, div_nonneg hn0 hdp.le, (div_le_one hdp).2 (by linarith), fun _ => ?_, ?_⟩
    · field_simp; linarith
    · rw [div_eq_one_iff_eq hd]
      constructor
      · intro h; exact ⟨hd, by linarith, by linarith⟩
      · rintro ⟨_, h3, h4⟩; linarith

/-- **C105**, what holds: when every feature varies independently of the others, the additivity index is the sum over
the features of the share of the variation of the predictions that the feature explains by itself. Missing: features
related in the data (`C105_fails`). -/
theorem C105_sum_of_shares_partial {a : AddArgs L F V K} {s0 s : AddMeter G L F V K} {cp : F} {v : Num K}
    {u : Row F V → K} (hs : AddSetup (finM u) E a s0 Xs)
    (hcp : cp ∉ Xs.frame.cols) (hnc : ∃ r ∈ Xs.frame.rows, ∃ r' ∈ Xs.frame.rows, u r ≠ u r')
    (hi : ∀ f ∈ Xs.frame.cols, Independent Xs.frame f)
    (hret : AddMeter.fit E.R cp a s0 = (.ok v, s)) :
    v = .fin (Xs.frame.cols.map (fun f => effectSq u Xs.frame f / sumSq Xs.frame (centred Xs.frame u))).sum := by
  obtain ⟨k, h1, _, h2, _⟩ := C21_index_at_most_one_iff_first_order hs hcp hnc hret
  obtain ⟨r, hr, r', hr', hne⟩ := hnc
  have hX : Xs.frame.rows ≠ [] := List.ne_nil_of_mem hr
  have hpos := sumSq_centred_pos hr hr' hne
  have hsum := firstOrder_sumSq hX hs.cols_nodup hi u
  rw [h1, h2, sum_div, additivity]
  congr 1
  have e : (Xs.frame.cols.map (effectSq u Xs.frame)).sum = sumSq Xs.frame (centred Xs.frame u) -
      sumSq Xs.frame (fun r => u r - firstOrder u Xs.frame r) := by
    simp only [hsum, add_sub_cancel_left]
    rfl
  rw [e]
  field_simp

/-- **C23**, a second part that holds: when every feature varies independently of the others, the index of a
non-constant model lies between 0 and 1. -/
theorem C23_unit_interval_partial {a : AddArgs L F V K} {s0 s : AddMeter G L F V K} {cp : F} {v : Num K}
    {u : Row F V → K} (hs : AddSetup (finM u) E a s0 Xs)
    (hcp : cp ∉ Xs.frame.cols) (hnc : ∃ r ∈ Xs.frame.rows, ∃ r' ∈ Xs.frame.rows, u r ≠ u r')
    (hi : ∀ f ∈ Xs.frame.cols, Independent Xs.frame f)
    (hret : AddMeter.fit E.R cp a s0 = (.ok v, s)) : ∃ k : K, v = .fin k ∧ 0 ≤ k ∧ k ≤ 1 := by
  obtain ⟨k, h1, _, h2, h3, _⟩ := C21_index_at_most_one_iff_first_order hs hcp hnc hret
  have h4 := C105_sum_of_shares_partial hs hcp hnc hi hret
  refine ⟨k, h1, ?_, h3⟩
  rw [h1] at h4
  rw [Num.fin.inj h4]
  apply List.sum_nonneg
  intro x hx
  obtain ⟨f, _, rfl⟩ := List.mem_map.1 hx
  exact div_nonneg (effectSq_nonneg _ _ _) (sum_sq_nonneg _ _)

section Cases
open Ex

/-- three rows in which features 0 and 1 always agree; feature 2 is constant -/
def exTied : LFrame Nat (Fin 3) ℤ := ⟨[0, 1, 2], ⟨[0, 1, 2], [![0, 0, 0], ![0, 0, 0], ![1, 1, 0]]⟩⟩

def exTiedArgs (c : ℚ) : PdArgs Nat (Fin 3) ℤ ℚ :=
  { exArgs with X := exTied, model := ⟨1, some (fun _ rows => .ok (rows.map (fun r => .fin (c * r 0 + 4 * r 0 * r 1)))), none⟩ }

/-- **C104** fails for features related in the data: the normalized value of a pair is 16/9. -/
theorem C104_fails : ∃ row ∈ (PdpMethod.fit (G := Nat) (.friedman true) exEnv (exTiedArgs (-3)) (PdpMethod.new 0)).2.ovo.getD
    [], row.isPair 0 1 ∧ row.val = .fin (16/9) := by
  decide +kernel

/-- … and it may be infinite. -/
theorem C104_fails_infinite : ∃ row ∈ (PdpMethod.fit (G := Nat) (.friedman true) exEnv (exTiedArgs (-4))
    (PdpMethod.new 0)).2.ovo.getD [], row.isPair 0 1 ∧ row.val = .pinf := by
  decide +kernel

/-- **C105** fails for features related in the data: the index is -3/2, the shares are never negative. -/
theorem C105_fails :
    (AddMeter.fit exRng 3 (exAdd (K := ℚ) exSame (fun r => (r 0 : ℚ) * r 1 * r 2) [0, 1, 2])
      (AddMeter.new (G := Nat) (L := Nat) 0)).1 = .ok (.fin (-3/2)) ∧
    (([0, 1, 2] : List (Fin 4)).map (fun f => effectSq (fun r : Row (Fin 4) ℤ => (r 0 : ℚ) * r 1 * r 2) ⟨[0, 1, 2], exSame⟩ f /
      sumSq ⟨[0, 1, 2], exSame⟩ (centred ⟨[0, 1, 2], exSame⟩ (fun r : Row (Fin 4) ℤ => (r 0 : ℚ) * r 1 * r 2)))).sum = 3/4 :=
  ⟨C23_index_can_be_negative, by decide +kernel⟩

/-- every combination of three values of feature 0, two of feature 1, two of feature 2, once -/
def exGrid : LFrame Nat (Fin 3) ℤ := ⟨List.range 12, ⟨[0, 1, 2], [![0, 0, 0], ![1, 0, 0], ![5, 0, 0], ![0, 1, 0], ![1, 1, 0],
  ![5, 1, 0], ![0, 0, 7], ![1, 0, 7], ![5, 0, 7], ![0, 1, 7], ![1, 1, 7], ![5, 1, 7]]⟩⟩

def exGridArgs {K : Type} [Field K] [LinearOrder K] [IsStrictOrderedRing K] : PdArgs Nat (Fin 3) ℤ K := { exArgs with X := exGrid }

theorem exGrid_independent : ∀ f ∈ exGrid.frame.cols, Independent exGrid.frame f := by decide +kernel

theorem exGridSetup {K : Type} [Field K] [LinearOrder K] [IsStrictOrderedRing K] [HasSqrt K] (rng : Nat) :
    FitSetup (finM (exU (K := K))) exEnv exGridArgs (PdpMethod.new rng) exGrid where
  sampled := rfl
  rowWise := by
    rw [show (exGridArgs (K := K)).pf = (exArgs (K := K)).pf from rfl, exPf]; intro n rows ys h; cases h; rfl
  reads := by
    intro r r' h
    simp only [finM, exU, h 0 (by decide), h 1 (by decide), h 2 (by decide)]
  cols_nodup := by decide
  history := by intro co h; cases h

/-- the fit on the grid, over ℝ: the value of the interacting pair is a proper share -/
example : ∃ s tbl, PdpMethod.fit (G := Nat) (K := ℝ) (.friedman true) exEnv exGridArgs (PdpMethod.new 0) = (.ok (), s) ∧
    s.ovo = some tbl ∧ ∀ row ∈ tbl, ∃ k : ℝ, row.val = .fin k ∧ 0 ≤ k ∧ k ≤ 1 := by
  have hX : exGrid.frame.rows ≠ [] := by simp [exGrid]
  have hv : ValidFeatures exGrid.frame (exGridArgs (K := ℝ)).feats :=
    validFeatures_of_nodup (fun _ h => h) (by show [(0 : Fin 3), 1, 2].Nodup; decide)
  have hc : PdpMethod.chooseCalc exGridArgs exGrid (exGridArgs (K := ℝ)).pf =
      .ok ⟨1, List.range 12, Calc.new (exGridArgs (K := ℝ)).pf exGrid.frame 7⟩ := by
    simp only [PdpMethod.chooseCalc, exGridArgs, exArgs, exModel, exGrid]
  have h := (fit_returns (e := .keyError) (kind := .friedman true) (exGridSetup (K := ℝ) 0) hc exNever exNever
    hv).1.2 ⟨⟨_, ovoRows.eq_1 _ _ _ _ _⟩, impRows_ok _ _ hX _⟩
  obtain ⟨s, hs⟩ := ret_of_fst h
  obtain ⟨tbl, h1, h2⟩ := C104_pair_share_partial (exGridSetup (K := ℝ) 0) (sortsBy_stableSort _ _) hX hs
  have hf := (hTable_of_fit (exGridSetup (K := ℝ) 0) hs).1
  refine ⟨s, tbl, hs, h1, fun row hrow => ?_⟩
  have hm : row ∈ hTable exEnv true (finM (exU (K := ℝ))) exGrid.frame (exGridArgs (K := ℝ)).feats := by
    rw [h1] at hf; rw [← Option.some.inj hf]; exact hrow
  obtain ⟨q, hq, rfl⟩ := (mem_hTable (sortsBy_stableSort _ _)).1 hm
  have hq' := mem_combinations2 hq
  obtain ⟨k, e1, e2, e3, _⟩ := h2 _ hrow (exGrid_independent _ (hv.cols _ hq'.1)) (exGrid_independent _ (hv.cols _ hq'.2))
  exact ⟨k, e1, e2, e3⟩

/-- computed over ℚ: pair (0,1) has a proper share, the others 0; the additivity index is the sum of the shares -/
example : ((PdpMethod.fit (G := Nat) (K := ℚ) (.friedman true) exEnv exGridArgs (PdpMethod.new 0)).2.ovo.getD []).map
    (fun r => (r.f1, r.f2, r.val)) = [(0, 1, .fin (7/20)), (0, 2, .fin 0), (1, 2, .fin 0)] := by decide +kernel

/-- C105 and C23 on {0,1}×{0,2} with a product term, over ℚ -/
def exSquare : List (Row (Fin 4) ℤ) := [![0, 0, 1, 0], ![1, 0, 1, 0], ![0, 2, 1, 0], ![1, 2, 1, 0]]
def exSquareU (r : Row (Fin 4) ℤ) : ℚ := (r 0 : ℚ) + r 0 * r 1

example (E : PdEnv Nat (Fin 4) ℚ) (hE : E.R = exRng) : ∃ k : ℚ,
    (AddMeter.fit exRng 3 (exAdd exSquare exSquareU [0, 1, 2]) (AddMeter.new (G := Nat) (L := Nat) 0)).1 = .ok (.fin k) ∧
      0 ≤ k ∧ k < 1 ∧ k = (([0, 1, 2] : List (Fin 4)).map (fun f => effectSq exSquareU ⟨[0, 1, 2], exSquare⟩ f /
        sumSq ⟨[0, 1, 2], exSquare⟩ (centred ⟨[0, 1, 2], exSquare⟩ exSquareU))).sum := by
  have hs : AddSetup (finM exSquareU) E (exAdd exSquare exSquareU [0, 1, 2]) (AddMeter.new 0)
      ⟨[0, 1, 2, 3], ⟨[0, 1, 2], exSquare⟩⟩ :=
    { sampled := rfl
      rowWise := by intro n rows ys h; cases h; rfl
      reads := by intro r r' h; simp only [finM, exSquareU, h 0 (by decide), h 1 (by decide)]
      cols_nodup := by decide
      history := by intro co h; cases h }
  have hr : (AddMeter.fit exRng 3 (exAdd exSquare exSquareU [0, 1, 2]) (AddMeter.new (G := Nat) (L := Nat) 0)).1 =
      .ok (.fin (5/6)) := by decide +kernel
  obtain ⟨s, hret⟩ := ret_of_fst hr
  rw [← hE] at hret
  have := C105_sum_of_shares_partial hs (by decide) (by decide +kernel) (by decide +kernel) hret
  exact ⟨5/6, hr, by norm_num, by norm_num, Num.fin.inj this⟩

end Cases
end Artemis
