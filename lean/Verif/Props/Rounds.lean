import Verif.Props.BoostedForests

/-!
# Property C136: boosting rounds add up

A model whose trees are those of a first model followed by those of a second one (boosting continued, a model cut after
some rounds). Setting as in `Verif/Props/SplitScore.lean`.
-/

set_option linter.unusedSectionVars false
set_option linter.unusedVariables false
set_option linter.unusedSimpArgs false

namespace Artemis
open Spec

/-- what the rows of an ordered pair of features add up to in column `col` of `full_ovo` (0 if the pair is not listed) -/
def Spec.pairTotal {F K : Type} [DecidableEq F] [Field K] [LinearOrder K] (col : SumRow F K → Num K) (t : List (SumRow F K)) (a b : F) : Num K :=
  Num.sum ((t.filter fun r => decide (r.parent = a ∧ r.child = b)).map col)

/-- what the rows of an ordered pair add up to in `ovo` -/
def Spec.ovoTotal {F K : Type} [DecidableEq F] [Field K] [LinearOrder K] (t : List (SsRow F K)) (a b : F) : Num K :=
  Num.sum ((t.filter fun r => decide (r.f1 = a ∧ r.f2 = b)).map SsRow.val)

/-- what the rows of a feature add up to in column `col` of the table of all importance metrics -/
def Spec.impTotal {F K : Type} [DecidableEq F] [Field K] [LinearOrder K] (col : ImpStat F K → Num K) (t : List (ImpStat F K)) (f : F) : Num K :=
  Num.sum ((t.filter fun r => decide (r.feat = f)).map col)

section helpers
variable {F I K : Type}

/-- the split in a tree with another number -/
def Split.shift (k : Nat) (s : Split F I K) : Split F I K := { s with tree := s.tree + k }

theorem splits_shift (k t : Nat) (T : GTree F I K) : ∀ (p : Option (F × K × K)) (d : Nat),
    T.splits (t + k) p d = (T.splits t p d).map (Split.shift k) := by
  induction T with
  | leaf => intro p d; rfl
  | split i f g c l r ihl ihr =>
    intro p d
    simp only [GTree.splits, ihl, ihr, List.map_cons, List.map_append]
    rfl

theorem forestSplits_append (ts ts' : List (GTree F I K)) :
    forestSplits (ts ++ ts') = forestSplits ts ++ (forestSplits ts').map (Split.shift ts.length) := by
  unfold forestSplits
  rw [List.zipIdx_append, List.map_append, List.flatten_append, Nat.zero_add]
  congr 1
  rw [List.map_flatten, List.map_map]
  congr 1
  have : ts'.zipIdx ts.length = (ts'.zipIdx 0).map (fun q => (q.1, q.2 + ts.length)) := by
    rw [List.zipIdx_eq_map_add]
    exact List.map_congr_left fun q _ => by rw [Nat.add_comm]
  rw [this, List.map_map]
  refine List.map_congr_left fun q _ => ?_
  exact splits_shift _ _ _ _ _

variable [DecidableEq F] [LinearOrder K]

theorem pairSplits_append (onlyDef : Bool) (ts ts' : List (GTree F I K)) (a b : F) :
    pairSplits onlyDef (ts ++ ts') a b = pairSplits onlyDef ts a b ++ (pairSplits onlyDef ts' a b).map (Split.shift ts.length) := by
  unfold pairSplits
  rw [forestSplits_append, List.filter_append, List.filter_map]
  rfl

theorem featSplits_append (ts ts' : List (GTree F I K)) (f : F) :
    featSplits (ts ++ ts') f = featSplits ts f ++ (featSplits ts' f).map (Split.shift ts.length) := by
  unfold featSplits
  rw [forestSplits_append, List.filter_append, List.filter_map]
  rfl

theorem featRoots_append (ts ts' : List (GTree F I K)) (f : F) :
    featRoots (ts ++ ts') f = featRoots ts f ++ (featRoots ts' f).map (Split.shift ts.length) := by
  unfold featRoots
  rw [featSplits_append, List.filter_append, List.filter_map]
  rfl

theorem exists_below_append {ts : List (GTree F I K)} (ts' : List (GTree F I K)) (h : ∃ s ∈ forestSplits ts, s.parent.isSome = true) :
    ∃ s ∈ forestSplits (ts ++ ts'), s.parent.isSome = true := by
  obtain ⟨s, hs, h⟩ := h
  exact ⟨s, by rw [forestSplits_append]; exact List.mem_append_left _ hs, h⟩

variable [Field K]

/-- a quantity of a list of splits that does not look at tree numbers and adds up -/
structure Tallies (φ : List (Split F I K) → K) : Prop where
  nil : φ [] = 0
  adds : ∀ l l' k, φ (l ++ l'.map (Split.shift k)) = φ l + φ l'

theorem tallies_sum (w : Split F I K → K) (hw : ∀ k s, w (s.shift k) = w s) : Tallies (fun l => (l.map w).sum) :=
  ⟨rfl, fun l l' k => by
    have : w ∘ Split.shift k = w := funext fun s => hw k s
    simp [this]⟩

theorem tallies_length : Tallies (fun l : List (Split F I K) => (l.length : K)) :=
  ⟨by simp, fun l l' k => by simp⟩

/-- a table with at most one row for `q` adds up to the value of that row -/
theorem total_of_row {α β : Type} [DecidableEq β] {t : List α} {key : α → β} (hnd : (t.map key).Nodup) {row : α} (hr : row ∈ t)
    (col : α → Num K) {x : K} (hx : col row = .fin x) (q : α → Bool) (hq : ∀ r, q r = true ↔ key r = key row) :
    Num.sum ((t.filter q).map col) = .fin x := by
  have e : t.filter q = [row] := by
    have h1 : (t.filter q).Nodup := (List.Nodup.of_map _ hnd).filter _
    have h2 : ∀ r ∈ t.filter q, r = row := by
      intro r h
      obtain ⟨h1, h2⟩ := List.mem_filter.1 h
      exact List.inj_on_of_nodup_map hnd h1 hr ((hq r).1 h2)
    have h3 : row ∈ t.filter q := List.mem_filter.2 ⟨hr, (hq row).2 rfl⟩
    match hl : t.filter q, h1, h2, h3 with
    | [], _, _, h3 => simp at h3
    | [r], _, h2, _ => rw [h2 r (by simp)]
    | r :: r' :: l, h1, h2, _ =>
      have := h2 r (by simp)
      have := h2 r' (by simp)
      simp_all
  rw [e]
  simp [Num.sum, hx, Num.add]

theorem total_of_none {α : Type} {t : List α} (col : α → Num K) (q : α → Bool) (hq : ∀ r ∈ t, q r = false) :
    Num.sum ((t.filter q).map col) = .fin 0 := by
  rw [List.filter_eq_nil_iff.2 (fun r hr => by simp [hq r hr])]
  rfl

end helpers

section summary
variable {F I K : Type} [LinearOrder F] [DecidableEq I] [Field K] [LinearOrder K] [IsStrictOrderedRing K]
variable {E : SsEnv F K} {ts ts1 ts2 : List (GTree F I K)} {p : Package} {m m1 m2 : GbModel F I K}

/-- what a pair adds up to -/
theorem pairTotal_eq {onlyDef : Bool} {t : List (SumRow F K)} (hok : ∀ r ∈ t, SumRowOk p onlyDef ts r)
    (hnd : (t.map (fun r => (r.parent, r.child))).Nodup)
    (hall : ∀ a b, pairSplits onlyDef ts a b ≠ [] → ∃ r ∈ t, r.parent = a ∧ r.child = b) {col : SumRow F K → Num K}
    {φ : List (Split F I K) → K} (hφ : Tallies φ) (hcol : ∀ r, SumRowOk p onlyDef ts r → col r = .fin (φ (pairSplits onlyDef ts r.parent r.child)))
    (a b : F) : pairTotal col t a b = .fin (φ (pairSplits onlyDef ts a b)) := by
  by_cases h : pairSplits onlyDef ts a b = []
  · rw [h, hφ.nil]
    refine total_of_none col _ fun r hr => ?_
    by_contra hc
    have hc : r.parent = a ∧ r.child = b := by simpa using hc
    have := (hok r hr).occurs
    rw [hc.1, hc.2] at this
    exact this h
  · obtain ⟨r, hr, rfl, rfl⟩ := hall a b h
    exact total_of_row hnd hr col (hcol r (hok r hr)) _ fun r' => by simp

/-- the sum of a metric over the splits of a pair, per split -/
def SumCols (p : Package) (col : SumRow F K → Num K) : Prop :=
  (col = fun r => .ofNat r.frequency) ∨ col = SumRow.sumGain ∨ (p = .xgboost ∧ col = SumRow.sumCover) ∨
    (col = fun r => Num.mul (.ofNat r.frequency) r.meanGain) ∨ (col = fun r => Num.mul (.ofNat r.frequency) r.meanDepth) ∨
    (p = .xgboost ∧ col = fun r => Num.mul (.ofNat r.frequency) r.meanCover)

theorem sumCols_tally {col : SumRow F K → Num K} (h : SumCols p col) : ∃ φ : List (Split F I K) → K, Tallies φ ∧
    ∀ ts onlyDef r, SumRowOk p onlyDef ts r → col r = .fin (φ (pairSplits onlyDef ts r.parent r.child)) := by
  have hm : ∀ (l : List (Split F I K)) (x : K), l ≠ [] → Num.mul (Num.ofNat l.length) (.fin (x / l.length)) = .fin x := by
    intro l x hl
    have : ((l.length : Nat) : K) ≠ 0 := by
      have := List.length_pos_iff.2 hl
      exact_mod_cast this.ne'
    simp only [Num.ofNat, Num.mul]
    rw [mul_div_cancel₀ _ this]
  rcases h with rfl | rfl | ⟨hp, rfl⟩ | rfl | rfl | ⟨hp, rfl⟩
  · exact ⟨_, tallies_length, fun ts od r hr => by simp only [hr.frequency, Num.ofNat]⟩
  · exact ⟨_, tallies_sum (fun s => s.gain) fun _ _ => rfl, fun ts od r hr => hr.sumGain⟩
  · exact ⟨_, tallies_sum (fun s => s.cover) fun _ _ => rfl, fun ts od r hr => (hr.coverX hp).1⟩
  · exact ⟨_, tallies_sum (fun s => s.gain) fun _ _ => rfl, fun ts od r hr => by
      simp only [hr.frequency, hr.meanGain]; exact hm _ _ hr.occurs⟩
  · exact ⟨_, tallies_sum (fun s => (s.depth : K)) fun _ _ => rfl, fun ts od r hr => by
      simp only [hr.frequency, hr.meanDepth]; exact hm _ _ hr.occurs⟩
  · exact ⟨_, tallies_sum (fun s => s.cover) fun _ _ => rfl, fun ts od r hr => by
      simp only [hr.frequency, (hr.coverX hp).2]; exact hm _ _ hr.occurs⟩

/-- **C136 (full_ovo).** The table of the long model: frequency, sum of gains and sum of covers of a pair are the sums of those
of the two shorter models, and so are the means weighted by frequency. A pair is listed iff one of the two lists it. -/
theorem C136_full_ovo (hE : E.Lawful) (H : GbForest E.leafName (ts1 ++ ts2) p m) (H1 : GbForest E.leafName ts1 p m1)
    (H2 : GbForest E.leafName ts2 p m2) {inter imp : SsMetric} (hi : inter.isInteraction) (h1 : inter.availableFor p)
    (h2 : imp.availableFor p) (hex1 : ∃ s ∈ forestSplits ts1, s.parent.isSome = true)
    (hex2 : ∃ s ∈ forestSplits ts2, s.parent.isSome = true) (onlyDef : Bool) (s0 s01 s02 : SsMethod F I K) :
    ∃ t t1 t2, (SsMethod.fit E (.model m) inter imp onlyDef s0).2.fullOvo = some t ∧
      (SsMethod.fit E (.model m1) inter imp onlyDef s01).2.fullOvo = some t1 ∧
      (SsMethod.fit E (.model m2) inter imp onlyDef s02).2.fullOvo = some t2 ∧
      (∀ col, SumCols p col → ∀ a b, pairTotal col t a b = Num.add (pairTotal col t1 a b) (pairTotal col t2 a b)) ∧
      ∀ a b, (a, b) ∈ t.map (fun r => (r.parent, r.child)) ↔
        (a, b) ∈ t1.map (fun r => (r.parent, r.child)) ∨ (a, b) ∈ t2.map (fun r => (r.parent, r.child)) := by
  obtain ⟨t, _, e, _, q, nd, all, _⟩ := C41_summary hE H hi h1 h2 (exists_below_append _ hex1) onlyDef s0
  obtain ⟨t1, _, e1, _, q1, nd1, all1, _⟩ := C41_summary hE H1 hi h1 h2 hex1 onlyDef s01
  obtain ⟨t2, _, e2, _, q2, nd2, all2, _⟩ := C41_summary hE H2 hi h1 h2 hex2 onlyDef s02
  refine ⟨t, t1, t2, e, e1, e2, fun col hc a b => ?_, fun a b => ?_⟩
  · obtain ⟨φ, hφ, hcol⟩ := sumCols_tally (I := I) hc
    rw [pairTotal_eq q nd all hφ (hcol _ _) a b, pairTotal_eq q1 nd1 all1 hφ (hcol _ _) a b,
      pairTotal_eq q2 nd2 all2 hφ (hcol _ _) a b, pairSplits_append, hφ.adds]
    rfl
  · have key : ∀ {ts : List (GTree F I K)} {t : List (SumRow F K)}, (∀ r ∈ t, SumRowOk p onlyDef ts r) →
        (∀ a b, pairSplits onlyDef ts a b ≠ [] → ∃ r ∈ t, r.parent = a ∧ r.child = b) →
        ((a, b) ∈ t.map (fun r => (r.parent, r.child)) ↔ pairSplits onlyDef ts a b ≠ []) := by
      intro ts t hok hall
      constructor
      · intro h
        obtain ⟨r, hr, e⟩ := List.mem_map.1 h
        cases e
        exact (hok r hr).occurs
      · intro h
        obtain ⟨r, hr, rfl, rfl⟩ := hall a b h
        exact List.mem_map.2 ⟨r, hr, rfl⟩
    rw [key q all, key q1 all1, key q2 all2, pairSplits_append]
    simp only [ne_eq, List.append_eq_nil_iff, List.map_eq_nil_iff]
    tauto

/-- **C136 (ovo, sums).** With a sum as metric, `ovo` of the long model shows the sum of what the two others show. -/
theorem C136_sums (hE : E.Lawful) (H : GbForest E.leafName (ts1 ++ ts2) p m) (H1 : GbForest E.leafName ts1 p m1)
    (H2 : GbForest E.leafName ts2 p m2) {inter imp : SsMetric} (hi : inter = .sumGain ∨ inter = .sumCover) (h1 : inter.availableFor p)
    (h2 : imp.availableFor p) (hex1 : ∃ s ∈ forestSplits ts1, s.parent.isSome = true)
    (hex2 : ∃ s ∈ forestSplits ts2, s.parent.isSome = true) (onlyDef : Bool) (s0 s01 s02 : SsMethod F I K) :
    ∃ t t1 t2, (SsMethod.fit E (.model m) inter imp onlyDef s0).2.ovo = some t ∧
      (SsMethod.fit E (.model m1) inter imp onlyDef s01).2.ovo = some t1 ∧
      (SsMethod.fit E (.model m2) inter imp onlyDef s02).2.ovo = some t2 ∧
      ∀ a b, ovoTotal t a b = Num.add (ovoTotal t1 a b) (ovoTotal t2 a b) := by
  have hii : inter.isInteraction := by rcases hi with rfl | rfl <;> simp [SsMetric.isInteraction]
  obtain ⟨S, t, _, e, q, nd, all, _, pm, _⟩ := C41_summary hE H hii h1 h2 (exists_below_append _ hex1) onlyDef s0
  obtain ⟨S1, t1, _, e1, q1, nd1, all1, _, pm1, _⟩ := C41_summary hE H1 hii h1 h2 hex1 onlyDef s01
  obtain ⟨S2, t2, _, e2, q2, nd2, all2, _, pm2, _⟩ := C41_summary hE H2 hii h1 h2 hex2 onlyDef s02
  have hc : SumCols (F := F) (K := K) p (fun r => (r.metric inter).getD .nan) := by
    rcases hi with rfl | rfl
    · exact .inr (.inl rfl)
    · refine .inr (.inr (.inl ⟨?_, rfl⟩))
      cases p with
      | xgboost => rfl
      | lightgbm => exact absurd rfl (h1 rfl).2
  obtain ⟨φ, hφ, hcol⟩ := sumCols_tally (I := I) hc
  have tr : ∀ {ts : List (GTree F I K)} {S : List (SumRow F K)} {t : List (SsRow F K)}, (∀ r ∈ S, SumRowOk p onlyDef ts r) →
      (S.map (fun r => (r.parent, r.child))).Nodup →
      (∀ a b, pairSplits onlyDef ts a b ≠ [] → ∃ r ∈ S, r.parent = a ∧ r.child = b) →
      t.Perm (S.map (fun r => ⟨r.parent, r.child, (r.metric inter).getD .nan⟩)) → ∀ a b,
      ovoTotal t a b = .fin (φ (pairSplits onlyDef ts a b)) := by
    intro ts S t hok hnd hall hp a b
    rw [← pairTotal_eq hok hnd hall hφ (hcol _ _) a b]
    have nd' : (t.map (fun r => (r.f1, r.f2))).Nodup := by
      rw [(hp.map _).nodup_iff, List.map_map]; exact hnd
    have := (hp.filter (fun r => decide (r.f1 = a ∧ r.f2 = b))).map SsRow.val
    rw [List.filter_map, List.map_map] at this
    unfold ovoTotal pairTotal
    by_cases h : pairSplits onlyDef ts a b = []
    · have z : ∀ r ∈ S, decide (r.parent = a ∧ r.child = b) = false := by
        intro r hr
        by_contra hc
        have hc : r.parent = a ∧ r.child = b := by simpa using hc
        have := (hok r hr).occurs
        rw [hc.1, hc.2] at this
        exact this h
      rw [total_of_none _ _ z]
      refine total_of_none _ _ fun r hr => ?_
      obtain ⟨r', hr', rfl⟩ := List.mem_map.1 (hp.mem_iff.1 hr)
      exact z r' hr'
    · obtain ⟨r, hr, rfl, rfl⟩ := hall a b h
      rw [total_of_row hnd hr _ (hcol _ _ r (hok r hr)) _ fun r' => by simp]
      exact total_of_row nd' (row := ⟨r.parent, r.child, (r.metric inter).getD .nan⟩)
        (hp.mem_iff.2 (List.mem_map.2 ⟨r, hr, rfl⟩)) SsRow.val (hcol _ _ r (hok r hr)) _ fun r' => by simp
  refine ⟨t, t1, t2, e, e1, e2, fun a b => ?_⟩
  rw [tr q nd all pm, tr q1 nd1 all1 pm1, tr q2 nd2 all2 pm2, pairSplits_append, hφ.adds]
  rfl

/-- a mean of two groups taken together is at least that of one of the groups -/
theorem mediant_ge {x1 x2 w1 w2 : K} (h1 : 0 ≤ w1) (h2 : 0 ≤ w2) (z1 : w1 = 0 → x1 = 0) (z2 : w2 = 0 → x2 = 0) (h : 0 < w1 + w2) :
    (0 < w1 ∧ x1 / w1 ≤ (x1 + x2) / (w1 + w2)) ∨ (0 < w2 ∧ x2 / w2 ≤ (x1 + x2) / (w1 + w2)) := by
  rcases h1.eq_or_lt with e1 | p1
  · have hx := z1 e1.symm
    rw [← e1, zero_add] at h
    rw [← e1, hx, zero_add, zero_add]
    exact .inr ⟨h, le_refl _⟩
  · rcases h2.eq_or_lt with e2 | p2
    · have hx := z2 e2.symm
      rw [← e2, hx, add_zero, add_zero]
      exact .inl ⟨p1, le_refl _⟩
    · by_cases hc : x1 * w2 ≤ x2 * w1
      · refine .inl ⟨p1, ?_⟩
        rw [div_le_div_iff₀ p1 h]
        nlinarith
      · refine .inr ⟨p2, ?_⟩
        rw [div_le_div_iff₀ p2 h]
        nlinarith

theorem mediant_le {x1 x2 w1 w2 : K} (h1 : 0 ≤ w1) (h2 : 0 ≤ w2) (z1 : w1 = 0 → x1 = 0) (z2 : w2 = 0 → x2 = 0) (h : 0 < w1 + w2) :
    (0 < w1 ∧ (x1 + x2) / (w1 + w2) ≤ x1 / w1) ∨ (0 < w2 ∧ (x1 + x2) / (w1 + w2) ≤ x2 / w2) := by
  have := mediant_ge (x1 := -x1) (x2 := -x2) h1 h2 (fun e => by rw [z1 e, neg_zero]) (fun e => by rw [z2 e, neg_zero]) h
  have e : -x1 + -x2 = -(x1 + x2) := by ring
  rw [e] at this
  simpa only [neg_div, neg_le_neg_iff] using this

/-- **C136 (ovo, means).** With a mean as metric, what the long model shows for a pair lies between what the two others show
for it (or is what the only one that lists the pair shows). -/
theorem C136_means (hE : E.Lawful) (H : GbForest E.leafName (ts1 ++ ts2) p m) (H1 : GbForest E.leafName ts1 p m1)
    (H2 : GbForest E.leafName ts2 p m2) {inter imp : SsMetric} (hi : inter = .meanGain ∨ inter = .meanDepth ∨ inter = .meanCover)
    (h1 : inter.availableFor p) (h2 : imp.availableFor p) (hex1 : ∃ s ∈ forestSplits ts1, s.parent.isSome = true)
    (hex2 : ∃ s ∈ forestSplits ts2, s.parent.isSome = true) (onlyDef : Bool) (s0 s01 s02 : SsMethod F I K) :
    ∃ t t1 t2, (SsMethod.fit E (.model m) inter imp onlyDef s0).2.ovo = some t ∧
      (SsMethod.fit E (.model m1) inter imp onlyDef s01).2.ovo = some t1 ∧
      (SsMethod.fit E (.model m2) inter imp onlyDef s02).2.ovo = some t2 ∧
      ∀ r ∈ t, (∃ r1 ∈ t1 ++ t2, r1.f1 = r.f1 ∧ r1.f2 = r.f2 ∧ Num.le r1.val r.val = true) ∧
        ∃ r2 ∈ t1 ++ t2, r2.f1 = r.f1 ∧ r2.f2 = r.f2 ∧ Num.le r.val r2.val = true := by
  have hii : inter.isInteraction := by rcases hi with rfl | rfl | rfl <;> simp [SsMetric.isInteraction]
  obtain ⟨S, t, _, e, q, nd, all, _, pm, _⟩ := C41_summary hE H hii h1 h2 (exists_below_append _ hex1) onlyDef s0
  obtain ⟨S1, t1, _, e1, q1, nd1, all1, _, pm1, _⟩ := C41_summary hE H1 hii h1 h2 hex1 onlyDef s01
  obtain ⟨S2, t2, _, e2, q2, nd2, all2, _, pm2, _⟩ := C41_summary hE H2 hii h1 h2 hex2 onlyDef s02
  obtain ⟨φ, hφ, hv⟩ : ∃ φ : List (Split F I K) → K, Tallies φ ∧ ∀ ts (r : SumRow F K), SumRowOk p onlyDef ts r →
      (r.metric inter).getD .nan = .fin (φ (pairSplits onlyDef ts r.parent r.child) / (pairSplits onlyDef ts r.parent r.child).length) := by
    rcases hi with rfl | rfl | rfl
    · exact ⟨_, tallies_sum (fun s => s.gain) fun _ _ => rfl, fun ts r hr => hr.meanGain⟩
    · exact ⟨_, tallies_sum (fun s => (s.depth : K)) fun _ _ => rfl, fun ts r hr => hr.meanDepth⟩
    · have hp : p = .xgboost := by
        cases p with
        | xgboost => rfl
        | lightgbm => exact absurd rfl (h1 rfl).1
      exact ⟨_, tallies_sum (fun s => s.cover) fun _ _ => rfl, fun ts r hr => (hr.coverX hp).2⟩
  refine ⟨t, t1, t2, e, e1, e2, fun r hr => ?_⟩
  obtain ⟨w, hw, rfl⟩ := List.mem_map.1 (pm.mem_iff.1 hr)
  have hok := q w hw
  simp only [hv _ w hok]
  have hne := hok.occurs
  set l := pairSplits onlyDef (ts1 ++ ts2) w.parent w.child with hl
  rw [pairSplits_append] at hl
  set l1 := pairSplits onlyDef ts1 w.parent w.child with hl1
  set l2 := pairSplits onlyDef ts2 w.parent w.child with hl2
  have ex : φ l = φ l1 + φ l2 := by rw [hl, hφ.adds]
  have en : (l.length : K) = l1.length + l2.length := by rw [hl]; simp
  have hpos : (0 : K) < l1.length + l2.length := by
    rw [← en]
    exact_mod_cast List.length_pos_iff.2 hne
  have z : ∀ k : List (Split F I K), (k.length : K) = 0 → φ k = 0 := by
    intro k hk
    have : k = [] := List.length_eq_zero_iff.1 (by exact_mod_cast hk)
    rw [this, hφ.nil]
  have g1 : ∀ x : K, (0 : K) < l1.length → x = φ l1 / l1.length →
      ∃ r1 ∈ t1 ++ t2, r1.f1 = w.parent ∧ r1.f2 = w.child ∧ r1.val = .fin x := by
    intro x hx ex
    obtain ⟨w1, hw1, c1, c2⟩ := all1 w.parent w.child (List.length_pos_iff.1 (by exact_mod_cast hx))
    refine ⟨_, List.mem_append_left _ (pm1.mem_iff.2 (List.mem_map.2 ⟨w1, hw1, rfl⟩)), c1, c2, ?_⟩
    simp only [hv _ w1 (q1 w1 hw1), c1, c2, ex, hl1]
  have g2 : ∀ x : K, (0 : K) < l2.length → x = φ l2 / l2.length →
      ∃ r1 ∈ t1 ++ t2, r1.f1 = w.parent ∧ r1.f2 = w.child ∧ r1.val = .fin x := by
    intro x hx ex
    obtain ⟨w2, hw2, c1, c2⟩ := all2 w.parent w.child (List.length_pos_iff.1 (by exact_mod_cast hx))
    refine ⟨_, List.mem_append_right _ (pm2.mem_iff.2 (List.mem_map.2 ⟨w2, hw2, rfl⟩)), c1, c2, ?_⟩
    simp only [hv _ w2 (q2 w2 hw2), c1, c2, ex, hl2]
  rw [ex, en]
  constructor
  · rcases mediant_ge (Nat.cast_nonneg _) (Nat.cast_nonneg _) (z l1) (z l2) hpos with ⟨hp, hle⟩ | ⟨hp, hle⟩
    · obtain ⟨r1, m1, c1, c2, c3⟩ := g1 _ hp rfl
      exact ⟨r1, m1, c1, c2, by rw [c3]; simpa [Num.le] using hle⟩
    · obtain ⟨r1, m1, c1, c2, c3⟩ := g2 _ hp rfl
      exact ⟨r1, m1, c1, c2, by rw [c3]; simpa [Num.le] using hle⟩
  · rcases mediant_le (Nat.cast_nonneg _) (Nat.cast_nonneg _) (z l1) (z l2) hpos with ⟨hp, hle⟩ | ⟨hp, hle⟩
    · obtain ⟨r1, m1, c1, c2, c3⟩ := g1 _ hp rfl
      exact ⟨r1, m1, c1, c2, by rw [c3]; simpa [Num.le] using hle⟩
    · obtain ⟨r1, m1, c1, c2, c3⟩ := g2 _ hp rfl
      exact ⟨r1, m1, c1, c2, by rw [c3]; simpa [Num.le] using hle⟩

/-- the columns of the importance table that add up -/
def ImpCols (p : Package) (col : ImpStat F K → Num K) : Prop :=
  col = ImpStat.sumGain ∨ (p = .xgboost ∧ col = ImpStat.sumCover) ∨ (col = fun r => r.rootFrequency.fillna0) ∨
    (col = fun r => Num.mul r.sumGain r.meanWeightedDepth)

theorem noLeafName_of_append {n : F} (h : NoLeafName n (ts1 ++ ts2)) : NoLeafName n ts1 ∧ NoLeafName n ts2 := by
  constructor
  · intro s hs
    exact h s (by rw [forestSplits_append]; exact List.mem_append_left _ hs)
  · intro s hs
    exact h (s.shift ts1.length) (by rw [forestSplits_append]; exact List.mem_append_right _ (List.mem_map_of_mem hs))

/-- **C136 (importance).** For models with positive gains: sum of gains, sum of covers and root frequency (missing read as 0)
of a feature are the sums of those of the two shorter models, and so are the weighted depths times the sum of gains. -/
theorem C136_importance (hE : E.Lawful) (H : GbForest E.leafName (ts1 ++ ts2) p m) (H1 : GbForest E.leafName ts1 p m1)
    (H2 : GbForest E.leafName ts2 p m2) {imp : SsMetric} (him : imp.isImportance) (hnl : NoLeafName E.leafName (ts1 ++ ts2))
    {features : Option (List F)} (hf : ∀ fs, features = some fs → E.leafName ∉ fs)
    (hpos : ∀ s ∈ forestSplits (ts1 ++ ts2), 0 < s.gain)
    (hu1 : ∃ s ∈ forestSplits ts1, selected features s.feat = true) (hu2 : ∃ s ∈ forestSplits ts2, selected features s.feat = true) :
    ∃ t t1 t2 o o1 o2, importanceOf E features imp m = .ok (t, o) ∧ importanceOf E features imp m1 = .ok (t1, o1) ∧
      importanceOf E features imp m2 = .ok (t2, o2) ∧
      (∀ col, ImpCols p col → ∀ f, impTotal col t f = Num.add (impTotal col t1 f) (impTotal col t2 f)) ∧
      ∀ f, f ∈ t.map ImpStat.feat ↔ f ∈ t1.map ImpStat.feat ∨ f ∈ t2.map ImpStat.feat := by
  have hpos1 : ∀ s ∈ forestSplits ts1, 0 < s.gain := fun s hs =>
    hpos s (by rw [forestSplits_append]; exact List.mem_append_left _ hs)
  have hpos2 : ∀ s ∈ forestSplits ts2, 0 < s.gain := fun s hs =>
    hpos (s.shift ts1.length) (by rw [forestSplits_append]; exact List.mem_append_right _ (List.mem_map_of_mem hs))
  have hu : ∃ s ∈ forestSplits (ts1 ++ ts2), selected features s.feat = true := by
    obtain ⟨s, hs, h⟩ := hu1
    exact ⟨s, by rw [forestSplits_append]; exact List.mem_append_left _ hs, h⟩
  obtain ⟨nl1, nl2⟩ := noLeafName_of_append hnl
  obtain ⟨t, o, e, q, nd, all, _⟩ := C44_importance_metrics hE H him hnl hf hu (C43_positive_gains hpos)
  obtain ⟨t1, o1, e1, q1, nd1, all1, _⟩ := C44_importance_metrics hE H1 him nl1 hf hu1 (C43_positive_gains hpos1)
  obtain ⟨t2, o2, e2, q2, nd2, all2, _⟩ := C44_importance_metrics hE H2 him nl2 hf hu2 (C43_positive_gains hpos2)
  refine ⟨t, t1, t2, o, o1, o2, e, e1, e2, fun col hc f => ?_, fun f => ?_⟩
  · have gp : ∀ {ts : List (GTree F I K)}, (∀ s ∈ forestSplits ts, 0 < s.gain) → ∀ f, featSplits ts f ≠ [] → gainSum (featSplits ts f) ≠ 0 := by
      intro ts h f hne
      obtain ⟨s, hs⟩ := List.exists_mem_of_ne_nil _ hne
      have := C43_positive_gains h s (List.mem_filter.1 hs).1
      have es : s.feat = f := by simpa using (List.mem_filter.1 hs).2
      rwa [es] at this
    obtain ⟨ψ, hψ0, hψ, hcol⟩ : ∃ ψ : List (GTree F I K) → F → K, (∀ ts f, featSplits ts f = [] → ψ ts f = 0) ∧
        (∀ ts ts' f, ψ (ts ++ ts') f = ψ ts f + ψ ts' f) ∧
        ∀ ts (r : ImpStat F K), (∀ s ∈ forestSplits ts, 0 < s.gain) → ImpStatOk p features ts r → col r = .fin (ψ ts r.feat) := by
      rcases hc with rfl | ⟨hp, rfl⟩ | rfl | rfl
      · have T := tallies_sum (F := F) (I := I) (K := K) (fun s => s.gain) fun _ _ => rfl
        exact ⟨fun ts f => gainSum (featSplits ts f), fun ts f h => by beta_reduce; rw [h]; rfl,
          fun ts ts' f => by beta_reduce; rw [featSplits_append]; exact T.adds _ _ _, fun ts r _ hr => hr.sumGain⟩
      · have T := tallies_sum (F := F) (I := I) (K := K) (fun s => s.cover) fun _ _ => rfl
        exact ⟨fun ts f => coverSum (featSplits ts f), fun ts f h => by beta_reduce; rw [h]; rfl,
          fun ts ts' f => by beta_reduce; rw [featSplits_append]; exact T.adds _ _ _, fun ts r _ hr => (hr.coverX hp).1⟩
      · refine ⟨fun ts f => ((featRoots ts f).length : K), fun ts f h => by simp [featRoots, h],
          fun ts ts' f => by beta_reduce; rw [featRoots_append]; simp, fun ts r _ hr => ?_⟩
        simp only [hr.rootFrequency]
        by_cases hz : featRoots ts r.feat = []
        · simp [hz, Num.fillna0]
        · simp [hz, Num.fillna0, Num.ofNat]
      · have T := tallies_sum (F := F) (I := I) (K := K) (fun s => (s.depth : K) * s.gain) fun _ _ => rfl
        refine ⟨fun ts f => ((featSplits ts f).map (fun s => (s.depth : K) * s.gain)).sum, fun ts f h => by beta_reduce; rw [h]; rfl,
          fun ts ts' f => by beta_reduce; rw [featSplits_append]; exact T.adds _ _ _, fun ts r hp hr => ?_⟩
        simp only [hr.sumGain, hr.meanWeightedDepth, Num.mul]
        rw [mul_div_cancel₀ _ (gp hp _ hr.occurs)]
    have key : ∀ {ts : List (GTree F I K)} {t : List (ImpStat F K)}, (∀ s ∈ forestSplits ts, 0 < s.gain) →
        (∀ r ∈ t, ImpStatOk p features ts r) → (t.map ImpStat.feat).Nodup →
        (∀ f, f ∈ t.map ImpStat.feat ↔ selected features f = true ∧ featSplits ts f ≠ []) →
        impTotal col t f = .fin (if selected features f = true then ψ ts f else 0) := by
      intro ts t hp hok hnd hall
      by_cases h : f ∈ t.map ImpStat.feat
      · rw [if_pos ((hall f).1 h).1]
        obtain ⟨r, hr, rfl⟩ := List.mem_map.1 h
        exact total_of_row hnd hr col (hcol ts r hp (hok r hr)) _ fun r' => by simp
      · have z : impTotal col t f = .fin 0 := total_of_none col _ fun r hr => by
          simp only [decide_eq_false_iff_not]
          rintro rfl
          exact h (List.mem_map_of_mem hr)
        rw [z]
        by_cases hsel : selected features f = true
        · rw [if_pos hsel, hψ0]
          by_contra hne
          exact h ((hall f).2 ⟨hsel, hne⟩)
        · rw [if_neg hsel]
    rw [key hpos q nd all, key hpos1 q1 nd1 all1, key hpos2 q2 nd2 all2]
    split
    · rw [hψ]; rfl
    · simp [Num.add]
  · rw [all, all1, all2, featSplits_append]
    simp only [ne_eq, List.append_eq_nil_iff, List.map_eq_nil_iff]
    tauto

end summary

section Cases

/-- a tree that also has a split on feature 2 below its root -/
def exGT4 : GTree Nat Nat ℚ :=
  .split 0 0 1 8 (.split 1 1 4 5 (.leaf 3 0 3) (.leaf 4 0 2)) (.split 2 2 3 3 (.leaf 5 0 1) (.leaf 6 0 2))

/-- LightGBM models of the two trees, and of the second alone -/
def exLgbBoth : GbModel Nat Nat ℚ := ⟨"lightgbm.sklearn.LGBMRegressor".toList, .lgb (exGT.lgbRows 0 0 ++ exGT4.lgbRows 1 0)⟩
def exLgbLast : GbModel Nat Nat ℚ := ⟨"lightgbm.sklearn.LGBMRegressor".toList, .lgb (exGT4.lgbRows 0 0)⟩

theorem exLgbBoth_forest : GbForest 99 ([exGT] ++ [exGT4]) .lightgbm exLgbBoth := by
  refine GbForest.lightgbm _ _ (by decide) ⟨by decide, by decide, ?_⟩
  intro t T hT
  match t, hT with
  | 0, hT => cases hT; exact List.Perm.of_eq rfl
  | 1, hT => cases hT; exact List.Perm.of_eq rfl

theorem exLgbLast_forest : GbForest 99 [exGT4] .lightgbm exLgbLast := by
  refine GbForest.lightgbm _ _ (by decide) ⟨by decide, by decide, ?_⟩
  intro t T hT
  match t, hT with
  | 0, hT => cases hT; exact List.Perm.of_eq rfl

theorem exGT4_below : ∃ s ∈ forestSplits [exGT4], s.parent.isSome = true :=
  ⟨⟨0, 1, 1, 1, 4, 5, some (0, 1, 8)⟩, by simp [forestSplits, exGT4, GTree.splits], rfl⟩

example := C136_full_ovo exSsEnv_lawful exLgbBoth_forest exLgb_forest exLgbLast_forest (by simp [SsMetric.isInteraction])
  (avail_gain _) (avail_gain _) exGT_below' exGT4_below true SsMethod.new SsMethod.new SsMethod.new

example := C136_sums exSsEnv_lawful exLgbBoth_forest exLgb_forest exLgbLast_forest (.inl rfl)
  (fun _ => ⟨by decide, by decide⟩) (avail_gain _) exGT_below' exGT4_below true SsMethod.new SsMethod.new SsMethod.new

example := C136_means exSsEnv_lawful exLgbBoth_forest exLgb_forest exLgbLast_forest (.inl rfl)
  (avail_gain _) (avail_gain _) exGT_below' exGT4_below true SsMethod.new SsMethod.new SsMethod.new

example := C136_importance exSsEnv_lawful exLgbBoth_forest exLgb_forest exLgbLast_forest (imp := .sumGain)
  (by simp [SsMetric.isImportance, SsMetric.isInteraction]) (by unfold NoLeafName; decide) (features := none) (by simp)
  (by decide +kernel) ⟨⟨0, 1, 1, 1, 2, 6, some (0, 1, 10)⟩, by simp [forestSplits, exGT, GTree.splits], rfl⟩
  ⟨⟨0, 1, 1, 1, 4, 5, some (0, 1, 8)⟩, by simp [forestSplits, exGT4, GTree.splits], rfl⟩

/-- computed: 2 + 4 for the pair both models list, and 3 for the pair of the second one; the mean is (2 + 4) / 2 -/
example : ((SsMethod.fit exSsEnv (.model exLgbBoth) .sumGain .sumGain true SsMethod.new).2.ovo.map
    (fun l => l.map (fun r => (r.f1, r.f2, r.val)))) = some [(0, 1, .fin 6), (0, 2, .fin 3)] := by decide +kernel
example : ((SsMethod.fit exSsEnv (.model exLgbBoth) .meanGain .sumGain true SsMethod.new).2.ovo.map
    (fun l => l.map (fun r => (r.f1, r.f2, r.val)))) = some [(0, 1, .fin 3), (0, 2, .fin 3)] := by decide +kernel

end Cases

end Artemis
