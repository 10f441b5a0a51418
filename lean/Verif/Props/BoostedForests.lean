import Verif.Props.SplitScore
import Verif.Proofs.SameBoosted
import Mathlib.Tactic.FieldSimp

/-!
# C97, C98: what the split score depends on
-/

set_option linter.unusedSectionVars false
set_option linter.unusedVariables false
set_option linter.unusedSimpArgs false

namespace Artemis
open Spec

section Boosted
variable {F F' I I' K : Type} [LinearOrder F] [LinearOrder F'] [DecidableEq I] [DecidableEq I'] [Field K] [LinearOrder K]
  [IsStrictOrderedRing K]
variable {E : SsEnv F K} {E' : SsEnv F' K} {p p' : Package} {m : GbModel F I K} {m' : GbModel F' I' K}
variable {ρ : F → F'} {c : K} {n : Nat} {ts : List (GTree F I K)} {ts' : List (GTree F' I' K)}

theorem same_exists (hn : 0 < n) (h : SameBoostedForest ρ c n ts ts') :
    (∃ s ∈ forestSplits ts', s.parent.isSome = true) ↔ ∃ s ∈ forestSplits ts, s.parent.isSome = true := by
  obtain ⟨h1, h2⟩ := same_mem hn h
  constructor
  · rintro ⟨s', hs', hp⟩
    obtain ⟨s, hs, e⟩ := h1 s' hs'
    refine ⟨s, hs, ?_⟩
    rw [same_parent e, Option.isSome_map] at hp
    exact hp
  · rintro ⟨s, hs, hp⟩
    obtain ⟨s', hs', e⟩ := h2 s hs
    refine ⟨s', hs', ?_⟩
    rw [same_parent e, Option.isSome_map]
    exact hp

theorem same_gains (hρ : Function.Injective ρ) (hc : 0 < c) (hn : 0 < n) (h : SameBoostedForest ρ c n ts ts') :
    (∀ s ∈ forestSplits ts', gainSum (featSplits ts' s.feat) ≠ 0) ↔ ∀ s ∈ forestSplits ts, gainSum (featSplits ts s.feat) ≠ 0 := by
  obtain ⟨h1, h2⟩ := same_mem hn h
  have hnc : (n : K) * c ≠ 0 := mul_ne_zero (by exact_mod_cast hn.ne') hc.ne'
  constructor
  · intro hg s hs
    obtain ⟨s', hs', e⟩ := h2 s hs
    have := hg s' hs'
    rw [same_feat e, gainSum_same (feats_same hρ h _)] at this
    exact (mul_ne_zero_iff.1 this).2
  · intro hg s' hs'
    obtain ⟨s, hs, e⟩ := h1 s' hs'
    rw [same_feat e, gainSum_same (feats_same hρ h _)]
    exact mul_ne_zero hnc (hg s hs)

/-- when `fit` completes (C43) -/
theorem fit_ok_iff (hE : E.Lawful) (H : GbForest E.leafName ts p m) {inter imp : SsMetric} (hi : inter.isInteraction)
    (him : imp.isImportance) (h1 : inter.availableFor p) (h2 : imp.availableFor p) (hnl : NoLeafName E.leafName ts) (onlyDef : Bool)
    (s0 : SsMethod F I K) : (SsMethod.fit E (.model m) inter imp onlyDef s0).1 = .ok () ↔
      (∃ s ∈ forestSplits ts, s.parent.isSome = true) ∧ ∀ s ∈ forestSplits ts, gainSum (featSplits ts s.feat) ≠ 0 := by
  constructor
  · intro e
    constructor
    · by_contra hno
      have hno' : ∀ s ∈ forestSplits ts, s.parent = none := by
        intro s hs
        by_contra hp
        exact hno ⟨s, hs, Option.isSome_iff_ne_none.2 hp⟩
      rw [C43_stumps_fail H h1 h2 hno' onlyDef s0] at e
      cases e
    · intro s hs hz
      exact C43_zero_gain_fails H hi h1 h2 hnl ⟨s, hs, hz⟩ onlyDef s0 e
  · rintro ⟨hex, hg⟩
    exact C43_fit_completes_partial hE H hi him h1 h2 hex hnl hg onlyDef s0

theorem mul_div_same {x y z : K} (hx : x ≠ 0) : (x * y) / (x * z) = y / z := mul_div_mul_left y z hx

/-- aggregates of a pair in both forests -/
theorem metric_same {inter : SsMetric} (hi : inter.isInteraction) (h1 : inter.availableFor p) (h1' : inter.availableFor p')
    (hρ : Function.Injective ρ) (hc : 0 < c) (hn : 0 < n) (h : SameBoostedForest ρ c n ts ts') {onlyDef : Bool} {r : SumRow F K} {r' : SumRow F' K}
    (hr : SumRowOk p onlyDef ts r) (hr' : SumRowOk p' onlyDef ts' r') (ea : r'.parent = ρ r.parent) (eb : r'.child = ρ r.child) :
    (r'.metric inter).getD .nan = Num.mul (.fin (inter.factor c n)) ((r.metric inter).getD .nan) := by
  have hp := pairs_same hρ hc h onlyDef r.parent r.child
  rw [← ea, ← eb] at hp
  have hn0 : (n : K) ≠ 0 := by exact_mod_cast hn.ne'
  have hlen : ((pairSplits onlyDef ts' r'.parent r'.child).length : K) = n * (pairSplits onlyDef ts r.parent r.child).length := by
    rw [same_length hp]; push_cast; rfl
  rcases hi with rfl | rfl | rfl | rfl | rfl
  · simp only [SumRow.metric, Option.getD_some, hr.sumGain, hr'.sumGain, gainSum_same hp, Num.mul, SsMetric.factor]
  · have hx : p = .xgboost := by cases p with | xgboost => rfl | lightgbm => exact absurd rfl (h1 rfl).2
    have hx' : p' = .xgboost := by cases p' with | xgboost => rfl | lightgbm => exact absurd rfl (h1' rfl).2
    simp only [SumRow.metric, Option.getD_some, (hr.coverX hx).1, (hr'.coverX hx').1, coverSum_same hp, Num.mul, SsMetric.factor]
  · simp only [SumRow.metric, Option.getD_some, hr.meanGain, hr'.meanGain, gainSum_same hp, hlen, Num.mul, SsMetric.factor]
    rw [mul_assoc, mul_div_same hn0, mul_div_assoc]
  · have hx : p = .xgboost := by cases p with | xgboost => rfl | lightgbm => exact absurd rfl (h1 rfl).1
    have hx' : p' = .xgboost := by cases p' with | xgboost => rfl | lightgbm => exact absurd rfl (h1' rfl).1
    simp only [SumRow.metric, Option.getD_some, (hr.coverX hx).2, (hr'.coverX hx').2, coverSum_same hp, hlen, Num.mul, SsMetric.factor]
    rw [mul_div_same hn0, one_mul]
  · simp only [SumRow.metric, Option.getD_some, hr.meanDepth, hr'.meanDepth, depthSum_same hp, hlen, Num.mul, SsMetric.factor]
    rw [mul_div_same hn0, one_mul]

/-- the tables of interactions of both forests -/
theorem boosted_pairs (hE : E.Lawful) (hE' : E'.Lawful) (H : GbForest E.leafName ts p m) (H' : GbForest E'.leafName ts' p' m')
    {inter imp imp' : SsMetric} (hi : inter.isInteraction) (h1 : inter.availableFor p) (h1' : inter.availableFor p')
    (h2 : imp.availableFor p) (h2' : imp'.availableFor p') (hρ : Function.Injective ρ) (hc : 0 < c) (hn : 0 < n)
    (h : SameBoostedForest ρ c n ts ts') (hex : ∃ s ∈ forestSplits ts, s.parent.isSome = true) (onlyDef : Bool)
    (s0 : SsMethod F I K) (s0' : SsMethod F' I' K) :
    ∃ ovo ovo', (SsMethod.fit E (.model m) inter imp onlyDef s0).2.ovo = some ovo ∧
      (SsMethod.fit E' (.model m') inter imp' onlyDef s0').2.ovo = some ovo' ∧
      ovo'.Perm (ovo.map (fun r => ⟨ρ r.f1, ρ r.f2, Num.mul (.fin (inter.factor c n)) r.val⟩)) := by
  obtain ⟨S, ovo, _, e2, e3, e4, e5, _, e7, _, _⟩ := C41_summary hE H hi h1 h2 hex onlyDef s0
  obtain ⟨S', ovo', _, e2', e3', e4', e5', _, e7', _, _⟩ := C41_summary hE' H' hi h1' h2' ((same_exists hn h).2 hex) onlyDef s0'
  refine ⟨ovo, ovo', e2, e2', ?_⟩
  refine e7'.trans (List.Perm.trans ?_ (e7.map _).symm)
  rw [List.map_map]
  have hnd : (S'.map (fun r => (⟨r.parent, r.child, (r.metric inter).getD .nan⟩ : SsRow F' K))).Nodup := by
    refine (List.Nodup.of_map _ e4').map_on ?_
    intro x hx y hy e
    have a1 : x.parent = y.parent := congrArg SsRow.f1 e
    have a2 : x.child = y.child := congrArg SsRow.f2 e
    exact List.inj_on_of_nodup_map e4' hx hy (by simp only [a1, a2])
  have hnd' : (S.map ((fun r => (⟨ρ r.f1, ρ r.f2, Num.mul (.fin (inter.factor c n)) r.val⟩ : SsRow F' K)) ∘
      (fun r => (⟨r.parent, r.child, (r.metric inter).getD .nan⟩ : SsRow F K)))).Nodup := by
    refine (List.Nodup.of_map _ e4).map_on ?_
    intro x hx y hy e
    have a1 : ρ x.parent = ρ y.parent := congrArg SsRow.f1 e
    have a2 : ρ x.child = ρ y.child := congrArg SsRow.f2 e
    exact List.inj_on_of_nodup_map e4 hx hy (by simp only [hρ a1, hρ a2])
  rw [List.perm_ext_iff_of_nodup hnd hnd']
  have key : ∀ r ∈ S, ∀ r' ∈ S', r'.parent = ρ r.parent → r'.child = ρ r.child →
      (⟨r'.parent, r'.child, (r'.metric inter).getD .nan⟩ : SsRow F' K) =
        ⟨ρ r.parent, ρ r.child, Num.mul (.fin (inter.factor c n)) ((r.metric inter).getD .nan)⟩ := by
    intro r hr r' hr' a1 a2
    rw [metric_same hi h1 h1' hρ hc hn h (e3 r hr) (e3' r' hr') a1 a2, a1, a2]
  intro x
  simp only [List.mem_map, Function.comp]
  constructor
  · rintro ⟨r', hr', rfl⟩
    obtain ⟨s', hs'⟩ := List.exists_mem_of_ne_nil _ (e3' r' hr').occurs
    unfold pairSplits at hs'
    obtain ⟨m1, m2⟩ := List.mem_filter.1 hs'
    rw [Bool.and_eq_true, Bool.and_eq_true, decide_eq_true_eq, decide_eq_true_eq] at m2
    obtain ⟨s, hs, e⟩ := (same_mem hn h).1 s' m1
    rw [same_parent e, same_feat e] at m2
    cases hq : s.parent with
    | none => rw [hq] at m2; exact absurd m2.1.2 (by simp)
    | some q =>
      rw [hq] at m2
      have a1 : ρ q.1 = r'.parent := by simpa [trPar] using m2.1.2
      have a2 : ρ s.feat = r'.child := m2.2
      have hne : pairSplits onlyDef ts q.1 s.feat ≠ [] := by
        intro hnil
        have hh := pairs_same hρ hc h onlyDef q.1 s.feat
        rw [a1, a2] at hh
        exact (e3' r' hr').occurs ((same_nil hn hh).2 hnil)
      obtain ⟨r, hr, b1, b2⟩ := e5 _ _ hne
      refine ⟨r, hr, (key r hr r' hr' ?_ ?_).symm⟩
      · rw [b1, a1]
      · rw [b2, a2]
  · rintro ⟨r, hr, rfl⟩
    have hne : pairSplits onlyDef ts' (ρ r.parent) (ρ r.child) ≠ [] := by
      intro hnil
      exact (e3 r hr).occurs ((same_nil hn (pairs_same hρ hc h onlyDef _ _)).1 hnil)
    obtain ⟨r', hr', b1, b2⟩ := e5' _ _ hne
    exact ⟨r', hr', key r hr r' hr' b1 b2⟩

theorem infSign_mul {x y : K} (hx : 0 < x) : Num.infSign (x * y) = Num.infSign y := by
  unfold Num.infSign
  simp only [mul_pos_iff_of_pos_left hx, mul_neg_iff, hx, hx.not_gt, false_and, or_false, true_and]

theorem mul_infSign {x y : K} (hx : 0 < x) : Num.mul (.fin x) (Num.infSign y) = Num.infSign y := by
  unfold Num.infSign
  by_cases h1 : 0 < y
  · simp [h1, Num.mul, Num.infSign, hx]
  · by_cases h2 : y < 0
    · simp [h1, h2, Num.mul, Num.infSign, hx, hx.le]
    · simp [h1, h2, Num.mul]

/-- aggregates of a feature in both forests -/
theorem impMetric_same {imp : SsMetric} (him : imp.isImportance) (h2 : imp.availableFor p) (h2' : imp.availableFor p')
    (hρ : Function.Injective ρ) (hc : 0 < c) (hn : 0 < n) (h : SameBoostedForest ρ c n ts ts') {features : Option (List F)}
    {features' : Option (List F')} (hsel : ∀ f, selected features' (ρ f) = selected features f) {r : ImpStat F K} {r' : ImpStat F' K}
    (hr : ImpStatOk p features ts r) (hr' : ImpStatOk p' features' ts' r') (ea : r'.feat = ρ r.feat) :
    (r'.metric imp).getD .nan = Num.mul (.fin (imp.factor c n)) ((r.metric imp).getD .nan) := by
  have hp := feats_same hρ h r.feat
  rw [← ea] at hp
  have hn1 : (0 : K) < n := by exact_mod_cast hn
  have hn0 : (n : K) ≠ 0 := hn1.ne'
  have hlen : ((featSplits ts' r'.feat).length : K) = n * (featSplits ts r.feat).length := by
    rw [same_length hp]; push_cast; rfl
  have hq := roots_same hρ h r.feat
  rw [← ea] at hq
  have hroots : featRoots ts' r'.feat = [] ↔ featRoots ts r.feat = [] := same_nil hn hq
  have hlen2 : ((featRoots ts' r'.feat).length : K) = n * (featRoots ts r.feat).length := by
    rw [same_length hq]; push_cast; rfl
  rcases him with (rfl | rfl | rfl | rfl | rfl) | rfl | rfl | rfl
  · simp only [ImpStat.metric, Option.getD_some, hr.sumGain, hr'.sumGain, gainSum_same hp, Num.mul, SsMetric.factor]
  · have hx : p = .xgboost := by cases p with | xgboost => rfl | lightgbm => exact absurd rfl (h2 rfl).2
    have hx' : p' = .xgboost := by cases p' with | xgboost => rfl | lightgbm => exact absurd rfl (h2' rfl).2
    simp only [ImpStat.metric, Option.getD_some, (hr.coverX hx).1, (hr'.coverX hx').1, coverSum_same hp, Num.mul, SsMetric.factor]
  · simp only [ImpStat.metric, Option.getD_some, hr.meanGain, hr'.meanGain, gainSum_same hp, hlen, Num.mul, SsMetric.factor]
    rw [mul_assoc, mul_div_same hn0, mul_div_assoc]
  · have hx : p = .xgboost := by cases p with | xgboost => rfl | lightgbm => exact absurd rfl (h2 rfl).1
    have hx' : p' = .xgboost := by cases p' with | xgboost => rfl | lightgbm => exact absurd rfl (h2' rfl).1
    simp only [ImpStat.metric, Option.getD_some, (hr.coverX hx).2, (hr'.coverX hx').2, coverSum_same hp, hlen, Num.mul, SsMetric.factor]
    rw [mul_div_same hn0, one_mul]
  · simp only [ImpStat.metric, Option.getD_some, hr.meanDepth, hr'.meanDepth, depthSum_same hp, hlen, Num.mul, SsMetric.factor]
    rw [mul_div_same hn0, one_mul]
  · simp only [ImpStat.metric, Option.getD_some, hr.meanWeightedDepth, hr'.meanWeightedDepth, gainSum_same hp, depthGainSum_same hp, Num.mul, SsMetric.factor]
    rw [mul_div_same (mul_ne_zero hn0 hc.ne'), one_mul]
  · simp only [ImpStat.metric, Option.getD_some, hr.rootFrequency, hr'.rootFrequency, hroots, SsMetric.factor]
    split
    · rfl
    · simp only [Num.ofNat, hlen2, Num.mul]
  · simp only [ImpStat.metric, Option.getD_some, hr.weightedRootFrequency, hr'.weightedRootFrequency, hroots, SsMetric.factor]
    split
    · rfl
    · rw [gainSum_same (allRoots_same h hsel), gainSum_same hq]
      simp only [Num.ofNat, hlen2, Num.mul]
      have hnc : (0 : K) < n * c := mul_pos hn1 hc
      simp only [Num.div, mul_eq_zero, hnc.ne', false_or]
      split
      · rw [show (n : K) * ((featRoots ts r.feat).length : K) * (n * c * gainSum (featRoots ts r.feat))
            = (n * (n * c)) * (((featRoots ts r.feat).length : K) * gainSum (featRoots ts r.feat)) by ring,
          infSign_mul (mul_pos hn1 hnc)]
        exact (mul_infSign hn1).symm
      · simp only [Num.mul]
        rw [show (n : K) * ((featRoots ts r.feat).length : K) * (n * c * gainSum (featRoots ts r.feat))
            = (n * c) * (n * (((featRoots ts r.feat).length : K) * gainSum (featRoots ts r.feat))) by ring, mul_div_same hnc.ne', mul_div_assoc]

/-- the importance of both forests -/
theorem boosted_importance (hE : E.Lawful) (hE' : E'.Lawful) (H : GbForest E.leafName ts p m) (H' : GbForest E'.leafName ts' p' m')
    {imp : SsMetric} (him : imp.isImportance) (h2 : imp.availableFor p) (h2' : imp.availableFor p')
    (hnl : NoLeafName E.leafName ts) (hnl' : NoLeafName E'.leafName ts') (hρ : Function.Injective ρ) (hc : 0 < c) (hn : 0 < n)
    (h : SameBoostedForest ρ c n ts ts') {features : Option (List F)} {features' : Option (List F')}
    (hf : ∀ fs, features = some fs → E.leafName ∉ fs) (hf' : ∀ fs, features' = some fs → E'.leafName ∉ fs)
    (hsel : ∀ f, selected features' (ρ f) = selected features f)
    (hused : ∃ s ∈ forestSplits ts, selected features s.feat = true)
    (hgain : ∀ s ∈ forestSplits ts, gainSum (featSplits ts s.feat) ≠ 0) :
    ∃ full table full' table', importanceOf E features imp m = .ok (full, table) ∧ importanceOf E' features' imp m' = .ok (full', table') ∧
      table'.Perm (table.map (fun r => ⟨ρ r.f, Num.mul (.fin (imp.factor c n)) r.val⟩)) := by
  have hused' : ∃ s ∈ forestSplits ts', selected features' s.feat = true := by
    obtain ⟨s, hs, e⟩ := hused
    obtain ⟨s', hs', d⟩ := (same_mem hn h).2 s hs
    exact ⟨s', hs', by rw [same_feat d, hsel, e]⟩
  obtain ⟨full, table, e1, e3, e4, e5, e7⟩ := C44_importance_metrics hE H him hnl hf hused hgain
  obtain ⟨full', table', e1', e3', e4', e5', e7'⟩ := C44_importance_metrics hE' H' him hnl' hf' hused' ((same_gains hρ hc hn h).2 hgain)
  refine ⟨full, table, full', table', e1, e1', ?_⟩
  refine e7'.trans (List.Perm.trans ?_ (e7.map _).symm)
  rw [List.map_map]
  have hnd : (full'.map (fun r => (⟨r.feat, (r.metric imp).getD .nan⟩ : ImpRow F' K))).Nodup := by
    refine (List.Nodup.of_map _ e4').map_on ?_
    intro x hx y hy e
    exact List.inj_on_of_nodup_map e4' hx hy (congrArg ImpRow.f e)
  have hnd' : (full.map ((fun r => (⟨ρ r.f, Num.mul (.fin (imp.factor c n)) r.val⟩ : ImpRow F' K)) ∘
      (fun r => (⟨r.feat, (r.metric imp).getD .nan⟩ : ImpRow F K)))).Nodup := by
    refine (List.Nodup.of_map _ e4).map_on ?_
    intro x hx y hy e
    have a1 : ρ x.feat = ρ y.feat := congrArg ImpRow.f e
    exact List.inj_on_of_nodup_map e4 hx hy (hρ a1)
  rw [List.perm_ext_iff_of_nodup hnd hnd']
  have key : ∀ r ∈ full, ∀ r' ∈ full', r'.feat = ρ r.feat →
      (⟨r'.feat, (r'.metric imp).getD .nan⟩ : ImpRow F' K) = ⟨ρ r.feat, Num.mul (.fin (imp.factor c n)) ((r.metric imp).getD .nan)⟩ := by
    intro r hr r' hr' a1
    rw [impMetric_same him h2 h2' hρ hc hn h hsel (e3 r hr) (e3' r' hr') a1, a1]
  intro x
  simp only [List.mem_map, Function.comp]
  constructor
  · rintro ⟨r', hr', rfl⟩
    obtain ⟨s', hs'⟩ := List.exists_mem_of_ne_nil _ (e3' r' hr').occurs
    unfold featSplits at hs'
    obtain ⟨m1, m2⟩ := List.mem_filter.1 hs'
    obtain ⟨s, hs, e⟩ := (same_mem hn h).1 s' m1
    have a1 : r'.feat = ρ s.feat := by rw [← same_feat e]; exact (of_decide_eq_true m2).symm
    have hs2 : selected features' r'.feat = true := ((e5' _).1 (List.mem_map_of_mem hr')).1
    rw [a1, hsel] at hs2
    have hne : featSplits ts s.feat ≠ [] := List.ne_nil_of_mem (List.mem_filter.2 ⟨hs, by simp⟩)
    obtain ⟨r, hr, b1⟩ := List.mem_map.1 ((e5 _).2 ⟨hs2, hne⟩)
    exact ⟨r, hr, (key r hr r' hr' (by rw [a1, b1])).symm⟩
  · rintro ⟨r, hr, rfl⟩
    obtain ⟨g1, g2⟩ := (e5 _).1 (List.mem_map_of_mem hr)
    have hne : featSplits ts' (ρ r.feat) ≠ [] := fun hnil => g2 ((same_nil hn (feats_same hρ h _)).1 hnil)
    obtain ⟨r', hr', b1⟩ := List.mem_map.1 ((e5' _).2 ⟨by rw [hsel, g1], hne⟩)
    exact ⟨r', hr', key r hr r' hr' b1⟩

/-! ### C97 -/

theorem factor_one {imp : SsMetric} (him : imp.isImportance) (n : Nat) : (imp.factor 1 n : K) = (imp.timesTrees n : K) := by
  rcases him with (rfl | rfl | rfl | rfl | rfl) | rfl | rfl | rfl <;> simp [SsMetric.factor, SsMetric.timesTrees]

/-- **C97.** Two models — of the same or of different libraries — that hold the same trees (in another order, all taken `n` times,
with any number of trees that are just a leaf among them, features renamed, nodes with other IDs, left and right exchanged anywhere) give the same results: `fit` completes on both or on
neither; the tables of interactions have the same values pair by pair and the importance tables feature by feature, sums and root
frequencies multiplied by `n`. -/
theorem C97_same_boosted_forest (hE : E.Lawful) (hE' : E'.Lawful) (H : GbForest E.leafName ts p m) (H' : GbForest E'.leafName ts' p' m')
    {inter imp : SsMetric} (hi : inter.isInteraction) (him : imp.isImportance) (h1 : inter.availableFor p) (h1' : inter.availableFor p')
    (h2 : imp.availableFor p) (h2' : imp.availableFor p') (hnl : NoLeafName E.leafName ts) (hnl' : NoLeafName E'.leafName ts')
    (hρ : Function.Injective ρ) (hn : 0 < n) (h : SameBoostedForest ρ 1 n ts ts') (onlyDef : Bool)
    (s0 : SsMethod F I K) (s0' : SsMethod F' I' K) :
    ((SsMethod.fit E' (.model m') inter imp onlyDef s0').1 = .ok () ↔ (SsMethod.fit E (.model m) inter imp onlyDef s0).1 = .ok ()) ∧
    ((SsMethod.fit E (.model m) inter imp onlyDef s0).1 = .ok () → ∃ ovo ovo' table table',
      (SsMethod.fit E (.model m) inter imp onlyDef s0).2.ovo = some ovo ∧
      (SsMethod.fit E' (.model m') inter imp onlyDef s0').2.ovo = some ovo' ∧
      (SsMethod.fit E (.model m) inter imp onlyDef s0).2.importance = some table ∧
      (SsMethod.fit E' (.model m') inter imp onlyDef s0').2.importance = some table' ∧
      ovo'.Perm (ovo.map (fun r => ⟨ρ r.f1, ρ r.f2, Num.mul (.ofNat (inter.timesTrees n)) r.val⟩)) ∧
      table'.Perm (table.map (fun r => ⟨ρ r.f, Num.mul (.ofNat (imp.timesTrees n)) r.val⟩))) := by
  have iff1 := fit_ok_iff hE H hi him h1 h2 hnl onlyDef s0
  have iff2 := fit_ok_iff hE' H' hi him h1' h2' hnl' onlyDef s0'
  rw [same_exists hn h, same_gains hρ one_pos hn h] at iff2
  refine ⟨iff2.trans iff1.symm, fun ok => ?_⟩
  obtain ⟨hex, hg⟩ := iff1.1 ok
  obtain ⟨ovo, ovo', a1, a2, a3⟩ := boosted_pairs hE hE' H H' hi h1 h1' h2 h2' hρ one_pos hn h hex onlyDef s0 s0'
  obtain ⟨s, hs, _⟩ := id hex
  obtain ⟨full, table, full', table', b1, b2, b3⟩ := boosted_importance hE hE' H H' him h2 h2' hnl hnl' hρ one_pos hn h
    (features := none) (features' := none) (fun fs e => by cases e) (fun fs e => by cases e) (fun _ => rfl) ⟨s, hs, rfl⟩ hg
  rw [factor_one (.inl hi)] at a3
  rw [factor_one him] at b3
  exact ⟨ovo, ovo', table, table', a1, a2, (C44_fit_stores_importance H hi h1 h2 hex b1 onlyDef s0).2.1,
    (C44_fit_stores_importance H' hi h1' h2' ((same_exists hn h).2 hex) b2 onlyDef s0').2.1, a3, b3⟩

/-- **C97**, importance called on its own with a choice of features. -/
theorem C97_same_importance (hE : E.Lawful) (hE' : E'.Lawful) (H : GbForest E.leafName ts p m) (H' : GbForest E'.leafName ts' p' m')
    {imp : SsMetric} (him : imp.isImportance) (h2 : imp.availableFor p) (h2' : imp.availableFor p')
    (hnl : NoLeafName E.leafName ts) (hnl' : NoLeafName E'.leafName ts') (hρ : Function.Injective ρ) (hn : 0 < n)
    (h : SameBoostedForest ρ 1 n ts ts') {features : Option (List F)} {features' : Option (List F')}
    (hf : ∀ fs, features = some fs → E.leafName ∉ fs) (hf' : ∀ fs, features' = some fs → E'.leafName ∉ fs)
    (hsel : ∀ f, selected features' (ρ f) = selected features f)
    (hused : ∃ s ∈ forestSplits ts, selected features s.feat = true)
    (hgain : ∀ s ∈ forestSplits ts, gainSum (featSplits ts s.feat) ≠ 0) :
    ∃ full table full' table', importanceOf E features imp m = .ok (full, table) ∧ importanceOf E' features' imp m' = .ok (full', table') ∧
      table'.Perm (table.map (fun r => ⟨ρ r.f, Num.mul (.ofNat (imp.timesTrees n)) r.val⟩)) := by
  have := boosted_importance hE hE' H H' him h2 h2' hnl hnl' hρ one_pos hn h hf hf' hsel hused hgain
  rw [factor_one him] at this
  exact this

/-! ### C98 -/

theorem factor_gain {imp : SsMetric} (him : imp.isImportance) (c : K) : imp.factor c 1 = imp.timesGain c := by
  rcases him with (rfl | rfl | rfl | rfl | rfl) | rfl | rfl | rfl <;> simp [SsMetric.factor, SsMetric.timesGain]

/-- **C98.** If all gains are multiplied by the same positive number, `fit` completes as before, the same pairs count, the metrics of
gain are multiplied by that number and all other metrics, for pairs and features, stay what they were. -/
theorem C98_gains_rescaled (hE : E.Lawful) (hE' : E'.Lawful) (H : GbForest E.leafName ts p m) (H' : GbForest E'.leafName ts' p' m')
    {inter imp : SsMetric} (hi : inter.isInteraction) (him : imp.isImportance) (h1 : inter.availableFor p) (h1' : inter.availableFor p')
    (h2 : imp.availableFor p) (h2' : imp.availableFor p') (hnl : NoLeafName E.leafName ts) (hnl' : NoLeafName E'.leafName ts')
    (hρ : Function.Injective ρ) (hc : 0 < c) (h : SameBoostedForest ρ c 1 ts ts') (onlyDef : Bool)
    (s0 : SsMethod F I K) (s0' : SsMethod F' I' K) :
    ((SsMethod.fit E' (.model m') inter imp onlyDef s0').1 = .ok () ↔ (SsMethod.fit E (.model m) inter imp onlyDef s0).1 = .ok ()) ∧
    ((SsMethod.fit E (.model m) inter imp onlyDef s0).1 = .ok () → ∃ ovo ovo' table table',
      (SsMethod.fit E (.model m) inter imp onlyDef s0).2.ovo = some ovo ∧
      (SsMethod.fit E' (.model m') inter imp onlyDef s0').2.ovo = some ovo' ∧
      (SsMethod.fit E (.model m) inter imp onlyDef s0).2.importance = some table ∧
      (SsMethod.fit E' (.model m') inter imp onlyDef s0').2.importance = some table' ∧
      ovo'.Perm (ovo.map (fun r => ⟨ρ r.f1, ρ r.f2, Num.mul (.fin (inter.timesGain c)) r.val⟩)) ∧
      table'.Perm (table.map (fun r => ⟨ρ r.f, Num.mul (.fin (imp.timesGain c)) r.val⟩))) := by
  have hn : 0 < 1 := Nat.one_pos
  have iff1 := fit_ok_iff hE H hi him h1 h2 hnl onlyDef s0
  have iff2 := fit_ok_iff hE' H' hi him h1' h2' hnl' onlyDef s0'
  rw [same_exists hn h, same_gains hρ hc hn h] at iff2
  refine ⟨iff2.trans iff1.symm, fun ok => ?_⟩
  obtain ⟨hex, hg⟩ := iff1.1 ok
  obtain ⟨ovo, ovo', a1, a2, a3⟩ := boosted_pairs hE hE' H H' hi h1 h1' h2 h2' hρ hc hn h hex onlyDef s0 s0'
  obtain ⟨s, hs, _⟩ := id hex
  obtain ⟨full, table, full', table', b1, b2, b3⟩ := boosted_importance hE hE' H H' him h2 h2' hnl hnl' hρ hc hn h
    (features := none) (features' := none) (fun fs e => by cases e) (fun fs e => by cases e) (fun _ => rfl) ⟨s, hs, rfl⟩ hg
  rw [factor_gain (.inl hi)] at a3
  rw [factor_gain him] at b3
  exact ⟨ovo, ovo', table, table', a1, a2, (C44_fit_stores_importance H hi h1 h2 hex b1 onlyDef s0).2.1,
    (C44_fit_stores_importance H' hi h1' h2' ((same_exists hn h).2 hex) b2 onlyDef s0').2.1, a3, b3⟩

end Boosted

/-! ## Cases -/

section Cases

/-- the tree of `exGT`, mirrored at the root, features 0 and 1 exchanged, other IDs and leaf values -/
def exGT2 : GTree Nat Nat ℚ := .split 7 1 1 10 (.leaf 9 5 0) (.split 8 0 2 6 (.leaf 10 5 0) (.leaf 11 0 0))

/-- the stump of `exStump` with features exchanged -/
def exStump2 : GTree Nat Nat ℚ := .split 3 1 1 10 (.leaf 4 0 0) (.leaf 5 1 1)

/-- exchanges features 0 and 1 -/
def exSwapName (f : Nat) : Nat := if f = 0 then 1 else if f = 1 then 0 else f

theorem exSwapName_inj : Function.Injective exSwapName := by
  intro a b e
  unfold exSwapName at e
  split at e <;> split at e <;> (try split at e) <;> (try split at e) <;> omega

/-- each tree twice, mixed up, and a round without a split -/
def exTwiceMixed : List (GTree Nat Nat ℚ) := [exStump2, .leaf 0 5 5, exGT2, exGT2, exStump2]

theorem exTwiceMixed_same : SameBoostedForest exSwapName (1 : ℚ) 2 [exGT, exStump] exTwiceMixed := by
  refine ⟨[exGT2, exStump2], .cons ?_ (.cons ?_ .nil), ?_⟩
  · have hleaf : SameBoosted (I := Nat) (I' := Nat) exSwapName (1 : ℚ) (.leaf 2 0 4) (.leaf 9 5 0) := .leaf ..
    have hin : SameBoosted (I := Nat) (I' := Nat) exSwapName (1 : ℚ) (.split 1 1 2 6 (.leaf 3 0 3) (.leaf 4 0 3)) (.split 8 0 2 6 (.leaf 10 5 0) (.leaf 11 0 0)) := by
      have := SameBoosted.split (ρ := exSwapName) (c := (1 : ℚ)) 1 8 1 2 6 (.leaf 3 10 0 5 3 0) (.leaf 4 11 0 0 3 0)
      rwa [one_mul] at this
    have := SameBoosted.mirrored (ρ := exSwapName) (c := (1 : ℚ)) 0 7 0 1 10 hin hleaf
    rwa [one_mul] at this
  · have := SameBoosted.split (ρ := exSwapName) (c := (1 : ℚ)) 0 3 0 1 10 (.leaf 1 4 0 0 6 0) (.leaf 2 5 0 1 4 1)
    rwa [one_mul] at this
  · show List.Perm [exStump2, exGT2, exGT2, exStump2] [exGT2, exStump2, exGT2, exStump2]
    exact .swap ..

/-- a LightGBM model of the five trees -/
def exLgb2 : GbModel Nat Nat ℚ := ⟨"lightgbm.basic.Booster".toList,
  .lgb (exStump2.lgbRows 0 0 ++ (GTree.leaf 0 5 5).lgbRows 1 0 ++ exGT2.lgbRows 2 0 ++ exGT2.lgbRows 3 0 ++ exStump2.lgbRows 4 0)⟩

theorem exLgb2_forest : GbForest 99 exTwiceMixed .lightgbm exLgb2 := by
  refine GbForest.lightgbm _ _ (by decide) ⟨by decide, by decide, ?_⟩
  intro t T hT
  match t, hT with
  | 0, hT => cases hT; exact List.Perm.of_eq rfl
  | 1, hT => cases hT; exact List.Perm.of_eq rfl
  | 2, hT => cases hT; exact List.Perm.of_eq rfl
  | 3, hT => cases hT; exact List.Perm.of_eq rfl
  | 4, hT => cases hT; exact List.Perm.of_eq rfl

/-- C97: an XGBoost model of two trees against a LightGBM model of the same trees, each twice, mirrored and renamed -/
example : ∃ ovo', (SsMethod.fit exSsEnv (.model exLgb2) .sumGain .rootFrequency true SsMethod.new).2.ovo = some ovo' ∧
    ∃ ovo, (SsMethod.fit exSsEnv (.model exXgb) .sumGain .rootFrequency true SsMethod.new).2.ovo = some ovo ∧
    ovo'.Perm (ovo.map (fun r => ⟨exSwapName r.f1, exSwapName r.f2, Num.mul (.fin 2) r.val⟩)) := by
  have av : ∀ p, SsMetric.sumGain.availableFor p := fun p _ => ⟨by decide, by decide⟩
  have av2 : ∀ p, SsMetric.rootFrequency.availableFor p := fun p _ => ⟨by decide, by decide⟩
  have hi : SsMetric.sumGain.isInteraction := .inl rfl
  have him : SsMetric.rootFrequency.isImportance := .inr (.inr (.inl rfl))
  obtain ⟨_, hh⟩ := C97_same_boosted_forest exSsEnv_lawful exSsEnv_lawful exXgb_forest exLgb2_forest hi him (av _) (av _) (av2 _) (av2 _)
    (by unfold NoLeafName; decide) (by unfold NoLeafName; decide) exSwapName_inj (by decide) exTwiceMixed_same true SsMethod.new SsMethod.new
  obtain ⟨ovo, ovo', _, _, a1, a2, _, _, a3, _⟩ := hh (C43_fit_completes_partial exSsEnv_lawful exXgb_forest hi him (av _) (av2 _) exGT_below
    (by unfold NoLeafName; decide) (C43_positive_gains exGT_pos) true _)
  exact ⟨ovo', a2, ovo, a1, a3⟩

/-- and computed -/
example : ((SsMethod.fit exSsEnv (.model exLgb2) .sumGain .rootFrequency true SsMethod.new).2.ovo.map
    (fun l => l.map (fun r => (r.f1, r.f2, r.val)))) = some [(1, 0, .fin 4)] := by decide +kernel

/-- gains times 3 -/
def exGT3 : GTree Nat Nat ℚ := .split 0 0 3 10 (.split 1 1 6 6 (.leaf 3 0 3) (.leaf 4 0 3)) (.leaf 2 0 4)

theorem exGT3_same : SameBoostedForest id (3 : ℚ) 1 [exGT] [exGT3] := by
  refine ⟨[exGT3], .cons ?_ .nil, List.Perm.refl _⟩
  have hin : SameBoosted (I := Nat) (I' := Nat) id (3 : ℚ) (.split 1 1 2 6 (.leaf 3 0 3) (.leaf 4 0 3)) (.split 1 1 6 6 (.leaf 3 0 3) (.leaf 4 0 3)) := by
    have := SameBoosted.split (ρ := id) (c := (3 : ℚ)) 1 1 1 2 6 (.leaf 3 3 0 0 3 3) (.leaf 4 4 0 0 3 3)
    rwa [show (3 : ℚ) * 2 = 6 by norm_num] at this
  have := SameBoosted.split (ρ := id) (c := (3 : ℚ)) 0 0 0 1 10 hin (.leaf 2 2 0 0 4 4)
  rwa [mul_one] at this

/-- a LightGBM model of it -/
def exLgb3 : GbModel Nat Nat ℚ := ⟨"lightgbm.basic.Booster".toList, .lgb (exGT3.lgbRows 0 0)⟩

theorem exLgb3_forest : GbForest 99 [exGT3] .lightgbm exLgb3 := by
  refine GbForest.lightgbm _ _ (by decide) ⟨by decide, by decide, ?_⟩
  intro t T hT
  match t, hT with
  | 0, hT => cases hT; exact List.Perm.of_eq rfl

/-- C98 for the tree and the tree with gains times 3 -/
example : (SsMethod.fit exSsEnv (.model exLgb3) .meanGain .meanGain true SsMethod.new).1 = .ok () :=
  (C98_gains_rescaled exSsEnv_lawful exSsEnv_lawful exLgb_forest exLgb3_forest (by simp [SsMetric.isInteraction])
    (by simp [SsMetric.isImportance, SsMetric.isInteraction]) (avail_gain _) (avail_gain _) (avail_gain _) (avail_gain _)
    (by unfold NoLeafName; decide) (by unfold NoLeafName; decide) Function.injective_id (by norm_num) exGT3_same true SsMethod.new SsMethod.new).1.2
    (C43_fit_completes_partial exSsEnv_lawful exLgb_forest (by simp [SsMetric.isInteraction]) (by simp [SsMetric.isImportance, SsMetric.isInteraction])
      (avail_gain _) (avail_gain _) exGT_below' (by unfold NoLeafName; decide) (C43_positive_gains exGT_pos') true _)

example : ((SsMethod.fit exSsEnv (.model exLgb3) .meanGain .meanGain true SsMethod.new).2.ovo.map
    (fun l => l.map (fun r => (r.f1, r.f2, r.val)))) = some [(0, 1, .fin 6)] := by decide +kernel

end Cases

end Artemis
