import Verif.Proofs.RoundSplit
import Verif.Proofs.RoundKahan
import Verif.Props.RoundedPerf
import Verif.Props.SplitScore

/-!
# Properties C159 and C160: the split score in floating-point arithmetic

`A` is the arithmetic, `gsum` pandas' routine for the sum of a group.
-/

set_option linter.unusedSectionVars false
set_option linter.unusedVariables false
set_option linter.unusedSimpArgs false

namespace Artemis
open Spec

variable {F I K : Type} [LinearOrder F] [DecidableEq I] [Field K] [LinearOrder K] [IsStrictOrderedRing K] {A : Arith K}
variable {gsum : List (Num K) → Num K} {u η B : K} {N : Nat} {p : Package} {ts : List (GTree F I K)} {E : SsEnv F K} {m : GbModel F I K}

theorem fitR_state (H : GbForest E.leafName ts p m) {inter imp : SsMetric} (hi : inter.isInteraction) (h1 : inter.availableFor p)
    (h2 : imp.availableFor p) (hex : ∃ s ∈ forestSplits ts, s.parent.isSome = true) (onlyDef : Bool) (s0 : SsMethod F I K) :
    ∃ frame an, Framed E.leafName p ts frame an ∧
      (SsMethod.fitR A gsum E (.model m) inter imp onlyDef s0).2.fullResult = some (finalRows ts.length an) ∧
      (SsMethod.fitR A gsum E (.model m) inter imp onlyDef s0).2.fullOvo = some (getSummaryR A gsum E.sortSum onlyDef (finalRows ts.length an)) ∧
      (SsMethod.fitR A gsum E (.model m) inter imp onlyDef s0).2.ovo
        = some (E.sortOvo (decide (inter = .meanDepth)) (ssOvoRows inter (getSummaryR A gsum E.sortSum onlyDef (finalRows ts.length an)))) ∧
      (SsMethod.fitR A gsum E (.model m) inter imp onlyDef s0).2.ascending = decide (inter = .meanDepth) ∧
      ∀ full t, ssImportanceR A gsum E none imp frame = .ok (full, t) →
        (SsMethod.fitR A gsum E (.model m) inter imp onlyDef s0).1 = .ok () ∧
        (SsMethod.fitR A gsum E (.model m) inter imp onlyDef s0).2.importance = some t ∧
        (SsMethod.fitR A gsum E (.model m) inter imp onlyDef s0).2.impMetric = some (some imp) := by
  obtain ⟨frame, an, hu, hF⟩ := framed_of_forest H
  have hfull := fullResult_eq hF
  rw [if_pos ((finalRows_any hF).2 hex)] at hfull
  refine ⟨frame, an, hF, ?_⟩
  unfold SsMethod.fitR SsMethod.ascending
  simp only [GbArg.toHandler, hu, checkMetrics_ok h1 h2, hfull, getOvo_ok hi]
  cases ssImportanceR A gsum E none imp frame with
  | error e => exact ⟨rfl, rfl, rfl, rfl, fun _ _ h => by cases h⟩
  | ok r => exact ⟨rfl, rfl, rfl, rfl, fun _ _ h => by cases h; exact ⟨rfl, rfl, rfl⟩⟩

theorem sumRowNear_metric {ε : K} {onlyDef : Bool} {r : SumRow F K} (h : SumRowNear A ε p onlyDef ts r) {inter : SsMetric} (hi : inter.isInteraction)
    (ha : inter.availableFor p) (hd : inter ≠ .meanDepth) :
    NearTo ε ((r.metric inter).getD .nan) (exactPair inter (pairSplits onlyDef ts r.parent r.child)) := by
  rcases hi with rfl | rfl | rfl | rfl | rfl
  · exact h.sumGain
  · cases p with
    | xgboost => exact (h.coverX rfl).1
    | lightgbm => exact absurd rfl (ha rfl).2
  · exact h.meanGain
  · cases p with
    | xgboost => exact (h.coverX rfl).2
    | lightgbm => exact absurd rfl (ha rfl).1
  · exact absurd rfl hd

/-! ## C159 -/

/-- **C159.** In floating-point arithmetic the table of pairs is complete (one row per ordered pair for which a split counts), counts are
exact, mean depths are the exact means rounded once, and sums and means of gains and covers have a relative error of at most `40 N u` for a
forest of `N` splits; the table shown is sorted by the computed values, in the direction of the metric. -/
theorem C159_interactions (hS : SplitSuits A gsum u η B N p ts) (hE : E.Lawful) (H : GbForest E.leafName ts p m) {inter imp : SsMetric}
    (hi : inter.isInteraction) (h1 : inter.availableFor p) (h2 : imp.availableFor p) (hex : ∃ s ∈ forestSplits ts, s.parent.isSome = true)
    (onlyDef : Bool) (s0 : SsMethod F I K) :
    ∃ summary ovo, (SsMethod.fitR A gsum E (.model m) inter imp onlyDef s0).2.fullOvo = some summary ∧
      (SsMethod.fitR A gsum E (.model m) inter imp onlyDef s0).2.ovo = some ovo ∧
      (∀ r ∈ summary, SumRowNear A (40 * (N * u)) p onlyDef ts r) ∧
      (summary.map (fun r => (r.parent, r.child))).Nodup ∧
      (∀ a b, pairSplits onlyDef ts a b ≠ [] → ∃ r ∈ summary, r.parent = a ∧ r.child = b) ∧
      (summary.map SumRow.frequency).sum = ((forestSplits ts).filter (Split.counts onlyDef)).length ∧
      ovo.Perm (summary.map (fun r => ⟨r.parent, r.child, (r.metric inter).getD .nan⟩)) ∧
      ovo.Pairwise (fun r s => Num.keyLE (decide (inter = .meanDepth)) r.val s.val = true) ∧
      (SsMethod.fitR A gsum E (.model m) inter imp onlyDef s0).2.ascending = decide (inter = .meanDepth) := by
  obtain ⟨frame, an, hF, _, f2, f3, f4, _⟩ := fitR_state (A := A) (gsum := gsum) H hi h1 h2 hex onlyDef s0
  obtain ⟨g1, g2, g3, g4⟩ := getSummaryR_ok hS hF onlyDef (sort := E.sortSum) (fun l => (hE.sum l).1)
  exact ⟨_, _, f2, f3, g1, g2, g3, g4, (hE.ovo _ _).1, (hE.ovo _ _).2, f4⟩

/-- **C159** The table of all pairs is sorted by the computed sums of gains, largest first, whatever metric was chosen. -/
theorem C159_full_sorted (hE : E.Lawful) (H : GbForest E.leafName ts p m) {inter imp : SsMetric}
    (hi : inter.isInteraction) (h1 : inter.availableFor p) (h2 : imp.availableFor p) (hex : ∃ s ∈ forestSplits ts, s.parent.isSome = true)
    (onlyDef : Bool) (s0 : SsMethod F I K) :
    ∃ summary, (SsMethod.fitR A gsum E (.model m) inter imp onlyDef s0).2.fullOvo = some summary ∧
      summary.Pairwise (fun r s => Num.keyLE false r.sumGain s.sumGain = true) := by
  obtain ⟨frame, an, hF, _, f2, _, _, _⟩ := fitR_state (A := A) (gsum := gsum) H hi h1 h2 hex onlyDef s0
  exact ⟨_, f2, (hE.sum _).2⟩

/-- **C159** Ranking: a pair whose exact gain or cover (sum or mean) is larger by more than the error bound is listed first. -/
theorem C159_ranking (hS : SplitSuits A gsum u η B N p ts) (hE : E.Lawful) (H : GbForest E.leafName ts p m) {inter imp : SsMetric}
    (hi : inter.isInteraction) (hd : inter ≠ .meanDepth) (h1 : inter.availableFor p) (h2 : imp.availableFor p)
    (hex : ∃ s ∈ forestSplits ts, s.parent.isSome = true) (onlyDef : Bool) (s0 : SsMethod F I K) :
    ∃ ovo, (SsMethod.fitR A gsum E (.model m) inter imp onlyDef s0).2.ovo = some ovo ∧
      ovo.Pairwise (fun r s => (1 - 40 * (N * u)) * exactPair inter (pairSplits onlyDef ts s.f1 s.f2)
        ≤ (1 + 40 * (N * u)) * exactPair inter (pairSplits onlyDef ts r.f1 r.f2)) := by
  obtain ⟨summary, ovo, _, e2, g1, _, _, _, hp, hs, _⟩ := C159_interactions hS hE H hi h1 h2 hex onlyDef s0
  refine ⟨ovo, e2, hs.imp_of_mem ?_⟩
  have near : ∀ r ∈ ovo, NearTo (40 * (N * u)) r.val (exactPair inter (pairSplits onlyDef ts r.f1 r.f2)) := by
    intro r hr
    obtain ⟨q, hq, rfl⟩ := List.mem_map.1 (hp.mem_iff.1 hr)
    exact sumRowNear_metric (g1 q hq) hi h1 hd
  intro r s hr hs hk
  obtain ⟨x, ex, hx⟩ := near r hr
  obtain ⟨y, ey, hy⟩ := near s hs
  rw [ex, ey, decide_eq_false hd] at hk
  have := keyLE_fin_false hk
  obtain ⟨a, b⟩ := abs_le.1 hx
  obtain ⟨c, d⟩ := abs_le.1 hy
  linarith

/-- **C159** Ranking by depth: if twice the cube of the number of splits times the precision is below 1 (binary64: up to about a hundred
thousand splits), the ranking by mean depth is exactly that of the exact means. -/
theorem C159_depth_ranking (hS : SplitSuits A gsum u η B N p ts) (hsep : 2 * (N : K) ^ 2 * (u * N + η) < 1) (hE : E.Lawful)
    (H : GbForest E.leafName ts p m) {imp : SsMetric} (h2 : imp.availableFor p)
    (hex : ∃ s ∈ forestSplits ts, s.parent.isSome = true) (onlyDef : Bool) (s0 : SsMethod F I K) :
    ∃ ovo, (SsMethod.fitR A gsum E (.model m) .meanDepth imp onlyDef s0).2.ovo = some ovo ∧
      ovo.Pairwise (fun r s =>
        ((pairSplits onlyDef ts r.f1 r.f2).map (fun s => (s.depth : K))).sum / (pairSplits onlyDef ts r.f1 r.f2).length ≤
        ((pairSplits onlyDef ts s.f1 s.f2).map (fun s => (s.depth : K))).sum / (pairSplits onlyDef ts s.f1 s.f2).length) := by
  obtain ⟨summary, ovo, _, e2, g1, _, _, _, hp, hs, _⟩ := C159_interactions hS hE H (inter := .meanDepth) (by simp [SsMetric.isInteraction])
    (fun _ => ⟨by decide, by decide⟩) h2 hex onlyDef s0
  refine ⟨ovo, e2, hs.imp_of_mem ?_⟩
  have mean : ∀ {l : List (Split F I K)}, l ≠ [] → Num.fin ((l.map (fun s => (s.depth : K))).sum / l.length) = meanNat (l.map Split.depth) := by
    intro l hl
    unfold meanNat
    rw [if_neg (by simpa using hl), List.map_map, List.length_map]
    rfl
  have rows : ∀ r ∈ ovo, pairSplits onlyDef ts r.f1 r.f2 ≠ [] ∧ r.val = A.r (meanNat ((pairSplits onlyDef ts r.f1 r.f2).map Split.depth)) := by
    intro r hr
    obtain ⟨q, hq, rfl⟩ := List.mem_map.1 (hp.mem_iff.1 hr)
    have := g1 q hq
    refine ⟨this.occurs, ?_⟩
    rw [← mean this.occurs]
    exact this.meanDepth
  have len : ∀ a b, ((pairSplits onlyDef ts a b).map Split.depth).length ≤ N := by
    intro a b
    rw [List.length_map]
    exact (List.filter_sublist.length_le).trans hS.many
  have dep : ∀ a b, ∀ x ∈ (pairSplits onlyDef ts a b).map Split.depth, x ≤ N := by
    intro a b x hx
    obtain ⟨s, hs, rfl⟩ := List.mem_map.1 hx
    exact (forest_depth_lt (List.filter_sublist.subset hs)).le.trans hS.many
  obtain ⟨w, hw, _⟩ := hex
  have hG : (0 : K) ≤ gainSum (forestSplits ts) := List.sum_nonneg (by
    intro z hz; obtain ⟨s, hs, rfl⟩ := List.mem_map.1 hz; exact (hS.gains s hs).1.le)
  have hB : (N : K) ≤ B := by
    have h0 := hS.rangeG
    have : (N : K) * 1 ≤ N * (gainSum (forestSplits ts) + 1) := mul_le_mul_of_nonneg_left (by linarith) (Nat.cast_nonneg _)
    have := Nat.cast_nonneg (α := K) N
    linarith
  intro r s hr hs hk
  obtain ⟨a1, a2⟩ := rows r hr
  obtain ⟨b1, b2⟩ := rows s hs
  rw [a2, b2] at hk
  have := rounded_order hS.accurate hB hsep (len _ _) (len _ _) (dep _ _) (dep _ _) hk
  rw [← mean a1, ← mean b1] at this
  exact keyLE_fin_true this

/-! ## C160 -/

/-- the importance of a model in floating-point arithmetic, as `importanceOf` -/
def importanceOfR (A : Arith K) (gsum : List (Num K) → Num K) (E : SsEnv F K) (features : Option (List F)) (imp : SsMetric) (m : GbModel F I K) :
    Except Err (List (ImpStat F K) × List (ImpRow F K)) :=
  match unifyStructure E.leafName m with
  | .error e => .error e
  | .ok h => ssImportanceR A gsum E features imp h.frame

/-- **C160.** In floating-point arithmetic the importance lists exactly the selected features that are used in a split, each once. Root
frequencies are exact, mean depths are rounded once, and all other metrics have a relative error of at most `96 N u` (plus the underflow
`η` for the two weighted metrics). The table shown is sorted by the computed values. -/
theorem C160_importance (hS : SplitSuits A gsum u η B N p ts) (hE : E.Lawful) (H : GbForest E.leafName ts p m) {imp : SsMetric}
    (him : imp.isImportance) (hnl : NoLeafName E.leafName ts) {features : Option (List F)} (hf : ∀ fs, features = some fs → E.leafName ∉ fs)
    (hused : ∃ s ∈ forestSplits ts, selected features s.feat = true) :
    ∃ full table, importanceOfR A gsum E features imp m = .ok (full, table) ∧
      (∀ r ∈ full, ImpStatNear A (96 * (N * u)) η p features ts r) ∧ (full.map ImpStat.feat).Nodup ∧
      (∀ f, f ∈ full.map ImpStat.feat ↔ selected features f = true ∧ featSplits ts f ≠ []) ∧
      table.Perm (full.map (fun r => ⟨r.feat, (r.metric imp).getD .nan⟩)) ∧
      table.Pairwise (fun r s => Num.keyLE false r.val s.val = true) := by
  obtain ⟨frame, an, hu, hF⟩ := framed_of_forest H
  obtain ⟨full, e, g1, g2, g3, _⟩ := ssImportanceR_ok hS E (fun k l => (hE.full k l).1) hF hnl hf (isImportance_ne him) hused
  refine ⟨full, _, ?_, g1, g2, g3, (hE.imp _).1, (hE.imp _).2⟩
  unfold importanceOfR
  rw [hu]
  exact e

/-- **C160** `fit` completes in floating-point arithmetic with any documented metrics the package supports, and stores this importance: with
gains that are positive and not denormal, the sum of gains `np.average` divides by is never computed as 0. -/
theorem C160_fit_completes (hS : SplitSuits A gsum u η B N p ts) (hE : E.Lawful) (H : GbForest E.leafName ts p m) {inter imp : SsMetric}
    (hi : inter.isInteraction) (him : imp.isImportance) (h1 : inter.availableFor p) (h2 : imp.availableFor p)
    (hex : ∃ s ∈ forestSplits ts, s.parent.isSome = true) (hnl : NoLeafName E.leafName ts) (onlyDef : Bool) (s0 : SsMethod F I K) :
    (SsMethod.fitR A gsum E (.model m) inter imp onlyDef s0).1 = .ok () ∧
    ∃ full table, importanceOfR A gsum E none imp m = .ok (full, table) ∧
      (SsMethod.fitR A gsum E (.model m) inter imp onlyDef s0).2.importance = some table ∧
      (SsMethod.fitR A gsum E (.model m) inter imp onlyDef s0).2.impMetric = some (some imp) := by
  obtain ⟨frame, an, hu, hF⟩ := framed_of_forest H
  obtain ⟨s, hs, _⟩ := id hex
  obtain ⟨full, e, _⟩ := ssImportanceR_ok hS E (fun k l => (hE.full k l).1) hF hnl (features := none) (fun fs e => by cases e)
    (isImportance_ne him) ⟨s, hs, rfl⟩
  have hfull := fullResult_eq hF
  rw [if_pos ((finalRows_any hF).2 hex)] at hfull
  have key : (SsMethod.fitR A gsum E (.model m) inter imp onlyDef s0).1 = .ok () ∧
      (SsMethod.fitR A gsum E (.model m) inter imp onlyDef s0).2.importance = some (selectMetric E.sortImp imp full) ∧
      (SsMethod.fitR A gsum E (.model m) inter imp onlyDef s0).2.impMetric = some (some imp) := by
    unfold SsMethod.fitR
    simp only [GbArg.toHandler, hu, checkMetrics_ok h1 h2, hfull, getOvo_ok hi, e]
    exact ⟨trivial, trivial, trivial⟩
  refine ⟨key.1, full, _, ?_, key.2.1, key.2.2⟩
  unfold importanceOfR
  rw [hu]
  exact e

/-! ## binary64 -/

theorem Arith.Whole.mono {M : Nat} (h : A.Whole N) (hM : M ≤ N) : A.Whole M :=
  ⟨fun k hk => h.exact k (hk.trans hM), fun k hk => h.le k (hk.trans hM)⟩

/-- binary64 with pandas' compensated sums: at most `2^26` splits, gains (and covers) that are normal numbers, with totals up to `2^900` -/
theorem binary64_splitSuits [FloorRing K] (hn : (forestSplits ts).length ≤ N) (hN : N ≤ 2 ^ 26)
    (hg : ∀ s ∈ forestSplits ts, 1 / 2 ^ 1022 ≤ s.gain) (hG : gainSum (forestSplits ts) ≤ 2 ^ 900)
    (hc : p = .xgboost → (∀ s ∈ forestSplits ts, 1 / 2 ^ 1022 ≤ s.cover) ∧ coverSum (forestSplits ts) ≤ 2 ^ 900) :
    SplitSuits (binary64 : Arith K) (kahanSum binary64) (1 / 2 ^ 53) (1 / 2 ^ 1075) (2 ^ 1023) N p ts := by
  have hNN : N * N ≤ 2 ^ 53 - 1 := (Nat.mul_le_mul hN hN).trans (by norm_num)
  have hNK : (N : K) ≤ 2 ^ 26 := by exact_mod_cast hN
  have prec : 64 * ((N : K) * (1 / 2 ^ 53)) ≤ 1 := by linarith
  have normal : ∀ x : K, 1 / 2 ^ 1022 ≤ x → 0 < x ∧ 1 / 2 ^ 1075 ≤ 1 / 2 ^ 53 * x := by
    intro x hx
    have h0 : (0 : K) < 1 / 2 ^ 1022 := one_div_pos.2 (pow_pos two_pos _)
    refine ⟨h0.trans_le hx, ?_⟩
    have : (1 : K) / 2 ^ 1075 = 1 / 2 ^ 53 * (1 / 2 ^ 1022) := by
      rw [one_div_mul_one_div, ← pow_add]
    rw [this]
    exact mul_le_mul_of_nonneg_left hx (one_div_nonneg.2 (pow_pos two_pos _).le)
  have p900 : (1 : K) ≤ 2 ^ 900 := one_le_pow₀ one_le_two
  have e1 : (2 : K) ^ 1023 = 2 ^ 26 * 2 ^ 97 * 2 ^ 900 := by rw [← pow_add, ← pow_add]
  refine ⟨binary64_lawful, binary64_accurate, binary64_whole.mono hNN, kahan_addsWhole (binary64_whole.mono hNN),
    kahan_addsNear binary64_accurate prec, hn, prec, fun s hs => normal _ (hg s hs), fun hp s hs => normal _ ((hc hp).1 s hs), ?_, ?_⟩
  · rw [e1]
    clear normal e1 hg hc
    generalize (2 : K) ^ 900 = T at *
    have h1 : (N : K) * (gainSum (forestSplits ts) + 1) ≤ 2 ^ 26 * (2 * T) := by
      rcases le_total 0 (gainSum (forestSplits ts) + 1) with h | h
      · exact mul_le_mul hNK (by linarith) h (by positivity)
      · exact (mul_nonpos_of_nonneg_of_nonpos (Nat.cast_nonneg _) h).trans (by positivity)
    nlinarith
  · intro hp
    have := (hc hp).2
    rw [e1]
    clear normal e1 hg hc
    generalize (2 : K) ^ 900 = T at *
    nlinarith

/-- C160 in binary64: up to `2^26` splits, gains and covers normal numbers with totals up to `2^900`. -/
theorem C160_binary64 [FloorRing K] (hN : (forestSplits ts).length ≤ 2 ^ 26)
    (hg : ∀ s ∈ forestSplits ts, 1 / 2 ^ 1022 ≤ s.gain) (hG : gainSum (forestSplits ts) ≤ 2 ^ 900)
    (hc : p = .xgboost → (∀ s ∈ forestSplits ts, 1 / 2 ^ 1022 ≤ s.cover) ∧ coverSum (forestSplits ts) ≤ 2 ^ 900)
    (hE : E.Lawful) (H : GbForest E.leafName ts p m) {inter imp : SsMetric}
    (hi : inter.isInteraction) (him : imp.isImportance) (h1 : inter.availableFor p) (h2 : imp.availableFor p)
    (hex : ∃ s ∈ forestSplits ts, s.parent.isSome = true) (hnl : NoLeafName E.leafName ts) (onlyDef : Bool) (s0 : SsMethod F I K) :
    (SsMethod.fitR binary64 (kahanSum binary64) E (.model m) inter imp onlyDef s0).1 = .ok () :=
  (C160_fit_completes (binary64_splitSuits le_rfl hN hg hG hc) hE H hi him h1 h2 hex hnl onlyDef s0).1

section Cases
/-! The forest of `Verif/Props/SplitScore.lean`: three splits. -/

theorem exSplit_suits : SplitSuits (binary64 : Arith ℚ) (kahanSum binary64) (1 / 2 ^ 53) (1 / 2 ^ 1075) (2 ^ 1023) 3 .xgboost [exGT, exStump] :=
  binary64_splitSuits (by decide) (by norm_num) (by decide +kernel) (by decide +kernel) (fun _ => ⟨by decide +kernel, by decide +kernel⟩)

theorem exSplit_suits' : SplitSuits (binary64 : Arith ℚ) (kahanSum binary64) (1 / 2 ^ 53) (1 / 2 ^ 1075) (2 ^ 1023) 2 .lightgbm [exGT] :=
  binary64_splitSuits (by decide) (by norm_num) (by decide +kernel) (by decide +kernel) (fun h => by cases h)

example : (SsMethod.fitR binary64 (kahanSum binary64) exSsEnv (.model exXgb) .meanGain .meanGain true SsMethod.new).1 = .ok () :=
  (C160_fit_completes exSplit_suits exSsEnv_lawful exXgb_forest (by simp [SsMetric.isInteraction]) (by simp [SsMetric.isImportance, SsMetric.isInteraction])
    (avail_gain _) (avail_gain _) exGT_below (by unfold NoLeafName; decide) true _).1

example : (SsMethod.fitR binary64 (kahanSum binary64) exSsEnv (.model exLgb) .meanGain .meanGain true SsMethod.new).1 = .ok () :=
  (C160_fit_completes exSplit_suits' exSsEnv_lawful exLgb_forest (by simp [SsMetric.isInteraction]) (by simp [SsMetric.isImportance, SsMetric.isInteraction])
    (avail_gain _) (avail_gain _) exGT_below' (by unfold NoLeafName; decide) true _).1

example := C159_ranking exSplit_suits exSsEnv_lawful exXgb_forest (inter := .meanGain) (by simp [SsMetric.isInteraction]) (by decide)
  (avail_gain _) (avail_gain _) exGT_below true SsMethod.new

example := C159_depth_ranking exSplit_suits (by decide +kernel) exSsEnv_lawful exXgb_forest (avail_gain _) exGT_below true SsMethod.new

/-- a feature with gains 1/10 and 2/10, as binary64 represents them: the table shows the familiar 0.30000000000000004 -/
example : sumOptR (kahanSum (binary64 : Arith ℚ)) [some (3602879701896397 / 2 ^ 55), none, some (3602879701896397 / 2 ^ 54)]
    = .fin (1351079888211149 / 2 ^ 52) := by
  decide +kernel

/-- and the mean weighted depth of a split at depth 1 with gain 1/10 and one at depth 2 with gain 2/10 -/
example : weightedDepthR (I := Nat) (binary64 : Arith ℚ) [⟨0, some 0, 0, some 5, some 1, some 2, some (3602879701896397 / 2 ^ 55), none, false, some 1⟩,
    ⟨0, some 1, 1, some 5, some 3, some 4, some (3602879701896397 / 2 ^ 54), none, false, some 2⟩] = .ok (.fin (3752999689475413 / 2 ^ 51)) := by
  decide +kernel

end Cases

end Artemis
