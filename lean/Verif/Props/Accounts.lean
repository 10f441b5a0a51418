import Verif.Props.Rounds

/-!
# Property C139: the split score tables account for the same splits

`full_ovo` counts splits by the features of parent and child, the importance counts them by feature. Setting as in
`Verif/Props/SplitScore.lean`.
-/

set_option linter.unusedSectionVars false
set_option linter.unusedVariables false
set_option linter.unusedSimpArgs false

namespace Artemis
open Spec

/-- the rows of `full_ovo` in which `c` is the child -/
def Spec.asChild {F K : Type} [DecidableEq F] (t : List (SumRow F K)) (c : F) : List (SumRow F K) := t.filter fun r => decide (r.child = c)

/-- the rows of `full_ovo` in which `c` is the parent -/
def Spec.asParent {F K : Type} [DecidableEq F] (t : List (SumRow F K)) (c : F) : List (SumRow F K) := t.filter fun r => decide (r.parent = c)

section helpers

theorem sum_ite_keys {β M : Type} [DecidableEq β] [AddCommMonoid M] {keys : List β} (hnd : keys.Nodup) {k : β} (hk : k ∈ keys) (x : M) :
    (keys.map fun b => if k = b then x else 0).sum = x := by
  induction keys with
  | nil => cases hk
  | cons b keys ih =>
    rw [List.nodup_cons] at hnd
    rw [List.map_cons, List.sum_cons]
    by_cases e : k = b
    · subst e
      rw [if_pos rfl]
      have : (keys.map fun b => if k = b then x else 0).sum = 0 := by
        apply List.sum_eq_zero
        intro y hy
        obtain ⟨b, hb, rfl⟩ := List.mem_map.1 hy
        rw [if_neg]
        rintro rfl
        exact hnd.1 hb
      rw [this, add_zero]
    · rw [if_neg e, zero_add]
      exact ih hnd.2 ((List.mem_cons.1 hk).resolve_left e)

/-- adding up group by group -/
theorem sum_groups {α β M : Type} [DecidableEq β] [AddCommMonoid M] {keys : List β} (hnd : keys.Nodup) (k : α → β) (w : α → M) :
    ∀ l : List α, (∀ a ∈ l, k a ∈ keys) → (keys.map fun b => ((l.filter fun a => decide (k a = b)).map w).sum).sum = (l.map w).sum
  | [], _ => by simp
  | a :: l, h => by
    have e : ∀ b, (((a :: l).filter fun a => decide (k a = b)).map w).sum =
        (if k a = b then w a else 0) + ((l.filter fun a => decide (k a = b)).map w).sum := by
      intro b
      by_cases hb : k a = b <;> simp [List.filter_cons, hb]
    simp only [e]
    rw [List.sum_map_add, sum_ite_keys hnd (h a List.mem_cons_self), sum_groups hnd k w l fun a ha => h a (List.mem_cons_of_mem _ ha)]
    rfl

variable {F I K : Type}

theorem splits_root (t : Nat) (T : GTree F I K) : ∀ (p : Option (F × K × K)) (d : Nat), (p.isSome = true ↔ d ≠ 0) →
    ∀ s ∈ T.splits t p d, (s.parent.isSome = true ↔ s.depth ≠ 0) := by
  induction T with
  | leaf => intro p d _ s hs; cases hs
  | split i f g c l r ihl ihr =>
    intro p d hp s hs
    rcases List.mem_cons.1 hs with rfl | hs
    · exact hp
    · rcases List.mem_append.1 hs with hs | hs
      · exact ihl _ _ (by simp) s hs
      · exact ihr _ _ (by simp) s hs

theorem forestSplits_root {ts : List (GTree F I K)} {s : Split F I K} (hs : s ∈ forestSplits ts) :
    (s.parent.isSome = true ↔ s.depth ≠ 0) := by
  obtain ⟨l, hl, hs⟩ := List.mem_flatten.1 hs
  obtain ⟨q, _, rfl⟩ := List.mem_map.1 hl
  exact splits_root _ _ _ _ (by simp) s hs

variable [DecidableEq F]

/-- the splits right below a split on `a` -/
def isBelow (a : F) (s : Split F I K) : Bool := decide (s.parent.map (fun q => q.1) = some a)

theorem splits_children (a : F) (t : Nat) (T : GTree F I K) : ∀ (p : Option (F × K × K)) (d : Nat),
    (T.splits t p d).countP (isBelow a) ≤
      2 * (T.splits t p d).countP (fun s => decide (s.feat = a)) + (if p.map (fun q => q.1) = some a then 1 else 0) := by
  induction T with
  | leaf => intro p d; simp [GTree.splits]
  | split i f g c l r ihl ihr =>
    intro p d
    have h1 := ihl (some (f, g, c)) (d + 1)
    have h2 := ihr (some (f, g, c)) (d + 1)
    simp only [GTree.splits, List.countP_cons, List.countP_append, isBelow, Option.map_some, Option.some.injEq, decide_eq_true_eq] at *
    by_cases hf : f = a
    · simp only [hf, if_true] at *
      omega
    · simp only [hf, if_false] at *
      omega

theorem forestSplits_children (a : F) (ts : List (GTree F I K)) :
    (forestSplits ts).countP (isBelow a) ≤ 2 * (featSplits ts a).length := by
  unfold featSplits
  rw [← List.countP_eq_length_filter]
  unfold forestSplits
  induction ts.zipIdx with
  | nil => simp
  | cons q l ih =>
    have := splits_children a q.2 q.1 none 0
    simp only [List.map_cons, List.flatten_cons, List.countP_append] at *
    simp at this
    omega

variable [LinearOrder K]

/-- the splits of `c` that count -/
def countedSplits (onlyDef : Bool) (ts : List (GTree F I K)) (c : F) : List (Split F I K) :=
  (featSplits ts c).filter (Split.counts onlyDef)

theorem counts_below {onlyDef : Bool} {s : Split F I K} (h : s.counts onlyDef = true) : ∃ q, s.parent = some q := by
  unfold Split.counts at h
  cases onlyDef with
  | false => exact Option.isSome_iff_exists.1 h
  | true =>
    unfold Split.interacts at h
    cases hp : s.parent with
    | none => rw [hp] at h; simp at h
    | some q => exact ⟨q, rfl⟩

theorem child_groups {M : Type} [AddCommMonoid M] {onlyDef : Bool} {ts : List (GTree F I K)} {t : List (SumRow F K)}
    (hnd : (t.map (fun r => (r.parent, r.child))).Nodup)
    (hall : ∀ a b, pairSplits onlyDef ts a b ≠ [] → ∃ r ∈ t, r.parent = a ∧ r.child = b) (w : Split F I K → M) (c : F) :
    ((asChild t c).map fun r => ((pairSplits onlyDef ts r.parent r.child).map w).sum).sum = ((countedSplits onlyDef ts c).map w).sum := by
  have nd : ((asChild t c).map fun r => some r.parent).Nodup := by
    have h : (asChild t c).map (fun r => some r.parent) = ((asChild t c).map (fun r => (r.parent, r.child))).map (fun q => some q.1) := by
      rw [List.map_map]; rfl
    rw [h]
    refine List.Nodup.map_on ?_ (hnd.sublist (List.filter_sublist.map _))
    rintro ⟨x, y⟩ hx ⟨x', y'⟩ hx' e
    obtain ⟨r, hr, er⟩ := List.mem_map.1 hx
    obtain ⟨r', hr', er'⟩ := List.mem_map.1 hx'
    have h1 : r.child = c := by simpa using (List.mem_filter.1 hr).2
    have h2 : r'.child = c := by simpa using (List.mem_filter.1 hr').2
    cases er; cases er'
    simp only [Option.some.injEq] at e
    rw [e, h1, h2]
  rw [← sum_groups nd (fun s => s.parent.map (fun q => q.1)) w, List.map_map]
  · congr 1
    apply List.map_congr_left
    intro r hr
    have hc : r.child = c := by simpa using (List.mem_filter.1 hr).2
    simp only [Function.comp_apply]
    congr 2
    unfold pairSplits countedSplits featSplits
    rw [List.filter_filter, List.filter_filter, hc]
    congr 1
    funext s
    rw [Bool.and_comm (Split.counts onlyDef s), Bool.and_assoc, Bool.and_comm (Split.counts onlyDef s)]
  · intro s hs
    obtain ⟨h1, h2⟩ := List.mem_filter.1 hs
    obtain ⟨h0, h1⟩ := List.mem_filter.1 h1
    obtain ⟨q, hq⟩ := counts_below h2
    have : pairSplits onlyDef ts q.1 c ≠ [] := List.ne_nil_of_mem (a := s) (List.mem_filter.2 ⟨h0, by simp [h2, hq] at h1 ⊢; exact h1⟩)
    obtain ⟨r, hr, e1, e2⟩ := hall _ _ this
    rw [hq]
    exact List.mem_map.2 ⟨r, List.mem_filter.2 ⟨hr, by simpa using e2⟩, by simp [e1]⟩

theorem parent_groups {M : Type} [AddCommMonoid M] {onlyDef : Bool} {ts : List (GTree F I K)} {t : List (SumRow F K)}
    (hnd : (t.map (fun r => (r.parent, r.child))).Nodup)
    (hall : ∀ a b, pairSplits onlyDef ts a b ≠ [] → ∃ r ∈ t, r.parent = a ∧ r.child = b) (w : Split F I K → M) (c : F) :
    ((asParent t c).map fun r => ((pairSplits onlyDef ts r.parent r.child).map w).sum).sum =
      ((((forestSplits ts).filter (Split.counts onlyDef)).filter (isBelow c)).map w).sum := by
  have nd : ((asParent t c).map fun r => r.child).Nodup := by
    have h : (asParent t c).map (fun r => r.child) = ((asParent t c).map (fun r => (r.parent, r.child))).map (fun q => q.2) := by
      rw [List.map_map]; rfl
    rw [h]
    refine List.Nodup.map_on ?_ (hnd.sublist (List.filter_sublist.map _))
    rintro ⟨x, y⟩ hx ⟨x', y'⟩ hx' e
    obtain ⟨r, hr, er⟩ := List.mem_map.1 hx
    obtain ⟨r', hr', er'⟩ := List.mem_map.1 hx'
    have h1 : r.parent = c := by simpa using (List.mem_filter.1 hr).2
    have h2 : r'.parent = c := by simpa using (List.mem_filter.1 hr').2
    cases er; cases er'
    simp only at e
    rw [e, h1, h2]
  rw [← sum_groups nd (fun s => s.feat) w, List.map_map]
  · congr 1
    apply List.map_congr_left
    intro r hr
    have hc : r.parent = c := by simpa using (List.mem_filter.1 hr).2
    simp only [Function.comp_apply]
    congr 2
    unfold pairSplits isBelow
    rw [List.filter_filter, List.filter_filter, hc]
    congr 1
    funext s
    rw [Bool.and_comm, Bool.and_comm (Split.counts onlyDef s), Bool.and_assoc]
  · intro s hs
    obtain ⟨h1, h2⟩ := List.mem_filter.1 hs
    obtain ⟨h0, h1⟩ := List.mem_filter.1 h1
    have : pairSplits onlyDef ts c s.feat ≠ [] := List.ne_nil_of_mem (a := s) (List.mem_filter.2 ⟨h0, by simpa [h1, isBelow] using h2⟩)
    obtain ⟨r, hr, e1, e2⟩ := hall _ _ this
    exact List.mem_map.2 ⟨r, List.mem_filter.2 ⟨hr, by simpa using e1⟩, e2⟩

end helpers

section C139
variable {F I K : Type} [LinearOrder F] [DecidableEq I] [Field K] [LinearOrder K] [IsStrictOrderedRing K]
variable {E : SsEnv F K} {ts : List (GTree F I K)} {p : Package} {m : GbModel F I K}

theorem counted_false (ts : List (GTree F I K)) (c : F) :
    (countedSplits false ts c).length + (featRoots ts c).length = (featSplits ts c).length := by
  unfold countedSplits featRoots
  have h := List.length_eq_countP_add_countP (fun s : Split F I K => Split.counts false s) (l := featSplits ts c)
  rw [← List.countP_eq_length_filter, ← List.countP_eq_length_filter, h]
  congr 1
  apply List.countP_congr
  intro s hs
  have := forestSplits_root (List.mem_filter.1 hs).1
  simp only [Split.counts, Bool.false_eq_true, if_false, decide_eq_true_eq, Bool.not_eq_true]
  cases hp : s.parent.isSome with
  | false => rw [hp] at this; simp at this; simp [this]
  | true => rw [hp] at this; simp at this; simp [this]

theorem counted_le (onlyDef : Bool) (ts : List (GTree F I K)) (c : F) :
    (countedSplits onlyDef ts c).Sublist (countedSplits false ts c) := by
  unfold countedSplits
  apply List.monotone_filter_right
  intro s h
  obtain ⟨q, hq⟩ := counts_below h
  simp [Split.counts, hq]

theorem num_sum_fin {α : Type} (l : List α) (col : α → Num K) (x : α → K) (h : ∀ a ∈ l, col a = .fin (x a)) :
    Num.sum (l.map col) = .fin (l.map x).sum := by
  induction l with
  | nil => rfl
  | cons a l ih =>
    rw [List.map_cons, Num.sum, ih fun a ha => h a (List.mem_cons_of_mem _ ha), h a List.mem_cons_self]
    rfl

theorem freq_sum {onlyDef : Bool} {t : List (SumRow F K)} (hok : ∀ r ∈ t, SumRowOk p onlyDef ts r) {l : List (SumRow F K)}
    (hl : ∀ r ∈ l, r ∈ t) : (l.map SumRow.frequency).sum =
      (l.map fun r => ((pairSplits onlyDef ts r.parent r.child).map fun _ => (1 : Nat)).sum).sum := by
  congr 1
  apply List.map_congr_left
  intro r hr
  rw [(hok r (hl r hr)).frequency]
  simp

theorem gain_sum {onlyDef : Bool} {t : List (SumRow F K)} (hok : ∀ r ∈ t, SumRowOk p onlyDef ts r) {l : List (SumRow F K)}
    (hl : ∀ r ∈ l, r ∈ t) : Num.sum (l.map SumRow.sumGain) =
      .fin (l.map fun r => ((pairSplits onlyDef ts r.parent r.child).map fun s => s.gain).sum).sum :=
  num_sum_fin _ _ _ fun r hr => (hok r (hl r hr)).sumGain

theorem sum_gain_sublist {l l' : List (Split F I K)} (h : l.Sublist l') (hp : ∀ s ∈ l', 0 ≤ s.gain) :
    (l.map fun s => s.gain).sum ≤ (l'.map fun s => s.gain).sum := by
  apply (h.map fun s => s.gain).sum_le_sum
  intro x hx
  obtain ⟨s, hs, rfl⟩ := List.mem_map.1 hx
  exact hp s hs

/-- **C139**, children: for a model with positive gains and every feature `f` with `n` splits (`n` times its mean gain is its
sum of gains): the frequencies of the pairs with `f` as child and its root frequency (missing read as 0) add up to at most
`n`, and the gains of these pairs to at most its sum of gains. With `only_def_interactions=False` the frequencies add up to
exactly `n`, and the gains exactly to its sum of gains if it is never a root. -/
theorem C139_children (hE : E.Lawful) (H : GbForest E.leafName ts p m) {inter imp imp' : SsMetric} (hi : inter.isInteraction)
    (h1 : inter.availableFor p) (h2 : imp.availableFor p) (him : imp'.isImportance)
    (hex : ∃ s ∈ forestSplits ts, s.parent.isSome = true) (hnl : NoLeafName E.leafName ts)
    (hpos : ∀ s ∈ forestSplits ts, 0 < s.gain) (onlyDef : Bool) (s0 : SsMethod F I K) :
    ∃ t full table, (SsMethod.fit E (.model m) inter imp onlyDef s0).2.fullOvo = some t ∧
      importanceOf E none imp' m = .ok (full, table) ∧
      ∀ r ∈ full, ∃ n k : Nat, Num.mul (.ofNat n) r.meanGain = r.sumGain ∧ r.rootFrequency.fillna0 = .ofNat k ∧
        ((asChild t r.feat).map SumRow.frequency).sum + k ≤ n ∧
        (onlyDef = false → ((asChild t r.feat).map SumRow.frequency).sum + k = n) ∧
        ∃ x y : K, Num.sum ((asChild t r.feat).map SumRow.sumGain) = .fin x ∧ r.sumGain = .fin y ∧ x ≤ y ∧
          (onlyDef = false → k = 0 → x = y) := by
  obtain ⟨t, _, e, _, q, nd, all, _⟩ := C41_summary hE H hi h1 h2 hex onlyDef s0
  obtain ⟨s, hs, _⟩ := hex
  obtain ⟨full, table, ei, qi, _⟩ := C44_importance_metrics hE H him hnl (features := none) (by simp) ⟨s, hs, rfl⟩ (C43_positive_gains hpos)
  refine ⟨t, full, table, e, ei, fun r hr => ?_⟩
  have hok := qi r hr
  have hn : ((featSplits ts r.feat).length : K) ≠ 0 := by
    have := List.length_pos_iff.2 hok.occurs
    exact_mod_cast this.ne'
  have hsub : ∀ r' ∈ asChild t r.feat, r' ∈ t := fun r' h => (List.mem_filter.1 h).1
  have hfreq : ((asChild t r.feat).map SumRow.frequency).sum = (countedSplits onlyDef ts r.feat).length := by
    rw [freq_sum q hsub, child_groups nd all]
    simp
  have hgain : Num.sum ((asChild t r.feat).map SumRow.sumGain) = .fin ((countedSplits onlyDef ts r.feat).map fun s => s.gain).sum := by
    rw [gain_sum q hsub, child_groups nd all]
  have hlen := counted_false ts r.feat
  have hsl := counted_le onlyDef ts r.feat
  have hnn : ∀ s ∈ featSplits ts r.feat, 0 ≤ s.gain := fun s hs => (hpos s (List.mem_filter.1 hs).1).le
  have hmem : ∀ onlyDef, (countedSplits onlyDef ts r.feat).Sublist (featSplits ts r.feat) := fun _ => List.filter_sublist
  refine ⟨(featSplits ts r.feat).length, (featRoots ts r.feat).length, ?_, ?_, ?_, ?_, _, _, hgain, hok.sumGain, ?_, ?_⟩
  · rw [hok.meanGain, hok.sumGain]
    simp only [Num.ofNat, Num.mul]
    rw [mul_div_cancel₀ _ hn]
  · rw [hok.rootFrequency]
    by_cases hz : featRoots ts r.feat = []
    · simp [hz, Num.fillna0, Num.ofNat]
    · simp [hz, Num.fillna0, Num.ofNat]
  · rw [hfreq, ← hlen]
    have := hsl.length_le
    omega
  · rintro rfl
    rw [hfreq, hlen]
  · exact sum_gain_sublist (hmem _) hnn
  · rintro rfl hk
    have : countedSplits false ts r.feat = featSplits ts r.feat := (hmem false).eq_of_length (by omega)
    rw [this]
    rfl

/-- **C139**, parents: a split has at most two splits right below it, so the frequencies of the pairs with a feature as
parent add up to at most twice the number of its splits. -/
theorem C139_parents (hE : E.Lawful) (H : GbForest E.leafName ts p m) {inter imp imp' : SsMetric} (hi : inter.isInteraction)
    (h1 : inter.availableFor p) (h2 : imp.availableFor p) (him : imp'.isImportance)
    (hex : ∃ s ∈ forestSplits ts, s.parent.isSome = true) (hnl : NoLeafName E.leafName ts)
    (hpos : ∀ s ∈ forestSplits ts, 0 < s.gain) (onlyDef : Bool) (s0 : SsMethod F I K) :
    ∃ t full table, (SsMethod.fit E (.model m) inter imp onlyDef s0).2.fullOvo = some t ∧
      importanceOf E none imp' m = .ok (full, table) ∧
      ∀ r ∈ full, ∃ n : Nat, Num.mul (.ofNat n) r.meanGain = r.sumGain ∧
        ((asParent t r.feat).map SumRow.frequency).sum ≤ 2 * n := by
  obtain ⟨t, _, e, _, q, nd, all, _⟩ := C41_summary hE H hi h1 h2 hex onlyDef s0
  obtain ⟨s, hs, _⟩ := hex
  obtain ⟨full, table, ei, qi, _⟩ := C44_importance_metrics hE H him hnl (features := none) (by simp) ⟨s, hs, rfl⟩ (C43_positive_gains hpos)
  refine ⟨t, full, table, e, ei, fun r hr => ?_⟩
  have hok := qi r hr
  have hn : ((featSplits ts r.feat).length : K) ≠ 0 := by
    have := List.length_pos_iff.2 hok.occurs
    exact_mod_cast this.ne'
  refine ⟨(featSplits ts r.feat).length, ?_, ?_⟩
  · rw [hok.meanGain, hok.sumGain]
    simp only [Num.ofNat, Num.mul]
    rw [mul_div_cancel₀ _ hn]
  · have hsub : ∀ r' ∈ asParent t r.feat, r' ∈ t := fun r' h => (List.mem_filter.1 h).1
    rw [freq_sum q hsub, parent_groups nd all]
    have h3 := forestSplits_children r.feat ts
    have h4 : (((forestSplits ts).filter (Split.counts onlyDef)).filter (isBelow r.feat)).length ≤ (forestSplits ts).countP (isBelow r.feat) := by
      rw [List.countP_eq_length_filter]
      exact (List.filter_sublist.filter _).length_le
    simp only [List.map_const', List.sum_replicate, nsmul_eq_mul, Nat.cast_id, mul_one]
    omega

/-- **C139**, the definition of interaction restricts: a pair listed with `only_def_interactions=True` is also listed with
`False`, with at least the same frequency and, for gains that are not negative, at least the same sum of gains. -/
theorem C139_restricts (hE : E.Lawful) (H : GbForest E.leafName ts p m) {inter imp : SsMetric} (hi : inter.isInteraction)
    (h1 : inter.availableFor p) (h2 : imp.availableFor p) (hex : ∃ s ∈ forestSplits ts, s.parent.isSome = true)
    (hpos : ∀ s ∈ forestSplits ts, 0 ≤ s.gain) (s0 s0' : SsMethod F I K) :
    ∃ t t', (SsMethod.fit E (.model m) inter imp true s0).2.fullOvo = some t ∧
      (SsMethod.fit E (.model m) inter imp false s0').2.fullOvo = some t' ∧
      ∀ r ∈ t, ∃ r' ∈ t', r'.parent = r.parent ∧ r'.child = r.child ∧ r.frequency ≤ r'.frequency ∧
        Num.le r.sumGain r'.sumGain = true := by
  obtain ⟨t, _, e, _, q, _⟩ := C41_summary hE H hi h1 h2 hex true s0
  obtain ⟨t', _, e', _, q', _, all', _⟩ := C41_summary hE H hi h1 h2 hex false s0'
  refine ⟨t, t', e, e', fun r hr => ?_⟩
  have hok := q r hr
  have hsub : (pairSplits true ts r.parent r.child).Sublist (pairSplits false ts r.parent r.child) := by
    unfold pairSplits
    apply List.monotone_filter_right
    intro s h
    simp only [Bool.and_eq_true] at h ⊢
    obtain ⟨qq, hq⟩ := counts_below h.1.1
    exact ⟨⟨by simp [Split.counts, hq], h.1.2⟩, h.2⟩
  have hne : pairSplits false ts r.parent r.child ≠ [] := by
    intro h
    rw [h] at hsub
    exact hok.occurs (List.sublist_nil.1 hsub)
  obtain ⟨r', hr', e1, e2⟩ := all' _ _ hne
  have hok' := q' r' hr'
  refine ⟨r', hr', e1, e2, ?_, ?_⟩
  · rw [hok.frequency, hok'.frequency, e1, e2]
    exact hsub.length_le
  · rw [hok.sumGain, hok'.sumGain, e1, e2]
    simp only [Num.le, decide_eq_true_eq]
    exact sum_gain_sublist hsub fun s hs => hpos s (List.mem_filter.1 hs).1

end C139

section Cases

example := C139_children exSsEnv_lawful exLgbBoth_forest (imp' := .sumGain) (by simp [SsMetric.isInteraction])
  (avail_gain _) (avail_gain _) (by simp [SsMetric.isImportance, SsMetric.isInteraction]) (exists_below_append _ exGT_below')
  (by unfold NoLeafName; decide) (by decide +kernel) false SsMethod.new

example := C139_parents exSsEnv_lawful exLgbBoth_forest (imp' := .sumGain) (by simp [SsMetric.isInteraction])
  (avail_gain _) (avail_gain _) (by simp [SsMetric.isImportance, SsMetric.isInteraction]) (exists_below_append _ exGT_below')
  (by unfold NoLeafName; decide) (by decide +kernel) true SsMethod.new

example := C139_restricts exSsEnv_lawful exLgbBoth_forest (by simp [SsMetric.isInteraction])
  (avail_gain _) (avail_gain _) (exists_below_append _ exGT_below') (by decide +kernel) SsMethod.new SsMethod.new

/-- computed: feature 1 is child twice with gains 2 and 4, and its sum of gains is 6; feature 0 is parent three times and
has two splits -/
example : ((SsMethod.fit exSsEnv (.model exLgbBoth) .sumGain .sumGain false SsMethod.new).2.fullOvo.map
    (fun l => l.map (fun r => (r.parent, r.child, r.frequency, r.sumGain)))) = some [(0, 1, 2, .fin 6), (0, 2, 1, .fin 3)] ∧
    tableOf (importanceOf exSsEnv none .sumGain exLgbBoth) = some [(1, .fin 6), (2, .fin 3), (0, .fin 2)] := by decide +kernel

end Cases
end Artemis
