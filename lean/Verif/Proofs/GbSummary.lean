import Verif.Proofs.GbForest
import Mathlib.Algebra.BigOperators.Group.List.Lemmas
import Mathlib.Data.List.Dedup
import Mathlib.Algebra.Field.Basic
import Mathlib.Algebra.Order.Field.Basic

/-!
# The tables of the split score
-/

set_option linter.unusedSectionVars false
set_option linter.unusedVariables false
set_option linter.unusedSimpArgs false

namespace Artemis

/-! ### Grouping -/

/-- a list is the concatenation of its groups -/
theorem perm_groups {α κ : Type} [DecidableEq κ] (key : α → κ) (l : List α) (ks : List κ) (hnd : ks.Nodup) :
    (l.filter (fun x => decide (key x ∈ ks))).Perm ((ks.map (fun k => l.filter (fun x => decide (key x = k)))).flatten) := by
  induction ks with
  | nil => simp
  | cons k ks ih =>
    obtain ⟨hk, hnd⟩ := List.nodup_cons.1 hnd
    have h1 := List.filter_append_perm (fun x => decide (key x = k)) (l.filter (fun x => decide (key x ∈ k :: ks)))
    refine h1.symm.trans ?_
    rw [List.map_cons, List.flatten_cons]
    have e1 : (l.filter (fun x => decide (key x ∈ k :: ks))).filter (fun x => decide (key x = k)) = l.filter (fun x => decide (key x = k)) := by
      rw [List.filter_filter]
      apply List.filter_congr
      intro x _
      by_cases h : key x = k <;> simp [h]
    have e2 : (l.filter (fun x => decide (key x ∈ k :: ks))).filter (fun x => !decide (key x = k)) = l.filter (fun x => decide (key x ∈ ks)) := by
      rw [List.filter_filter]
      apply List.filter_congr
      intro x _
      by_cases h : key x = k
      · simp [h, hk]
      · simp [h]
    rw [e1, e2]
    exact List.Perm.append_left _ (ih hnd)

theorem perm_groups_npUnique {α κ : Type} [LinearOrder κ] (key : α → κ) (l : List α) :
    l.Perm (((npUnique (l.map key)).map (fun k => l.filter (fun x => decide (key x = k)))).flatten) := by
  have h := perm_groups key l (npUnique (l.map key)) (nodup_npUnique _)
  have e : l.filter (fun x => decide (key x ∈ npUnique (l.map key))) = l := by
    rw [List.filter_eq_self]
    intro x hx
    rw [decide_eq_true_eq, mem_npUnique]
    exact List.mem_map.2 ⟨x, hx, rfl⟩
  rw [e] at h
  exact h

/-- the sizes of the groups add up -/
theorem sum_group_sizes {α κ : Type} [LinearOrder κ] (key : α → Option κ) (l : List α) :
    ((npUnique (l.filterMap key)).map (fun q => (l.filter (fun x => decide (key x = some q))).length)).sum = (l.filterMap key).length := by
  have h := perm_groups (fun x => x) (l.filterMap key) (npUnique (l.filterMap key)) (nodup_npUnique _)
  have e : (l.filterMap key).filter (fun x => decide (x ∈ npUnique (l.filterMap key))) = l.filterMap key := by
    rw [List.filter_eq_self]
    intro x hx
    rw [decide_eq_true_eq, mem_npUnique]
    exact hx
  rw [e] at h
  rw [h.length_eq, List.length_flatten, List.map_map]
  congr 1
  apply List.map_congr_left
  intro q hq
  simp only [Function.comp]
  clear e h hq
  induction l with
  | nil => rfl
  | cons x l ih =>
    rw [List.filter_cons, List.filterMap_cons]
    cases hk : key x with
    | none => simpa using ih
    | some k =>
      by_cases e : k = q
      · simp [e, ih]
      · simp [e, ih]

/-! ### Sums and means -/

section Sums
variable {K : Type} [Field K] [LinearOrder K] {σ : Type}

theorem filterMap_id_map_some {α β : Type} (u : α → β) (l : List α) : (l.map (fun s => some (u s))).filterMap id = l.map u := by
  induction l with
  | nil => rfl
  | cons x l ih => simp [ih]

theorem filterMap_id_map_none {α β : Type} (l : List α) : (l.map (fun _ => (none : Option β))).filterMap id = [] := by
  induction l with
  | nil => rfl
  | cons x l ih => simpa using ih

theorem sumOpt_perm {l : List (Option K)} {g : List σ} {u : σ → K} (h : l.Perm (g.map (fun s => some (u s)))) :
    sumOpt l = .fin (g.map u).sum := by
  unfold sumOpt
  rw [(h.filterMap id).sum_eq, filterMap_id_map_some]

theorem meanOpt_perm {l : List (Option K)} {g : List σ} {u : σ → K} (h : l.Perm (g.map (fun s => some (u s)))) (hg : g ≠ []) :
    meanOpt l = .fin ((g.map u).sum / g.length) := by
  unfold meanOpt
  have h2 := h.filterMap id
  rw [filterMap_id_map_some] at h2
  rw [h2.sum_eq, h2.length_eq, h2.isEmpty_eq, List.length_map, if_neg (by simpa using hg)]

theorem meanSome_perm {l : List (Option Int)} {g : List σ} {u : σ → Nat} (h : l.Perm (g.map (fun s => some (u s : Int)))) (hg : g ≠ []) :
    (meanSome l : Num K) = .fin ((g.map (fun s => (u s : K))).sum / g.length) := by
  unfold meanSome
  have h2 := h.filterMap id
  rw [filterMap_id_map_some (fun s => (u s : Int))] at h2
  simp only []
  rw [(h2.map _).sum_eq, h2.length_eq, h2.isEmpty_eq, List.length_map, if_neg (by simpa using hg), List.map_map]
  congr 3
  apply List.map_congr_left
  intro s _
  simp

theorem sumOpt_none {l : List (Option K)} {g : List σ} (h : l.Perm (g.map (fun _ => none))) : sumOpt l = .fin 0 := by
  unfold sumOpt
  rw [(h.filterMap id).sum_eq, filterMap_id_map_none, List.sum_nil]

theorem meanOpt_none {l : List (Option K)} {g : List σ} (h : l.Perm (g.map (fun _ => none))) : meanOpt l = .nan := by
  unfold meanOpt
  have h2 := h.filterMap id
  rw [filterMap_id_map_none] at h2
  rw [h2.isEmpty_eq]
  rfl

end Sums

/-! ### Interactions -/

section Inter
variable {F I K : Type} [LinearOrder F] [DecidableEq I] [Field K] [LinearOrder K]

theorem GTree.splits_depth (T : GTree F I K) (t : Nat) : ∀ q k, ∀ s ∈ T.splits t q k, s.tree = t ∧
    ((s.depth = k ∧ s.parent = q) ∨ (k < s.depth ∧ s.parent.isSome)) := by
  induction T with
  | leaf i v c => intro q k s hs; simp [GTree.splits] at hs
  | split i f g c l r ihl ihr =>
    intro q k s hs
    simp only [GTree.splits, List.mem_cons, List.mem_append] at hs
    rcases hs with rfl | hs | hs
    · exact ⟨rfl, Or.inl ⟨rfl, rfl⟩⟩
    · rcases ihl _ _ s hs with ⟨h0, ⟨h1, h2⟩ | ⟨h1, h2⟩⟩
      · exact ⟨h0, Or.inr ⟨by omega, by simp [h2]⟩⟩
      · exact ⟨h0, Or.inr ⟨by omega, h2⟩⟩
    · rcases ihr _ _ s hs with ⟨h0, ⟨h1, h2⟩ | ⟨h1, h2⟩⟩
      · exact ⟨h0, Or.inr ⟨by omega, by simp [h2]⟩⟩
      · exact ⟨h0, Or.inr ⟨by omega, h2⟩⟩

/-- roots are the splits without parent -/
theorem depth_zero_iff {ts : List (GTree F I K)} {s : Split F I K} (hs : s ∈ forestSplits ts) : s.depth = 0 ↔ s.parent = none := by
  obtain ⟨t, T, _, h⟩ := mem_forestSplits.1 hs
  rcases (T.splits_depth t none 0 s h).2 with ⟨h1, h2⟩ | ⟨h1, h2⟩
  · simp [h1, h2]
  · constructor
    · intro h; omega
    · intro h; rw [h] at h2; cases h2

/-- what `_get_summary` looks at -/
def StatView.qual (onlyDef : Bool) (v : StatView F I K) : Bool :=
  if onlyDef then v.interaction == some true
  else match v.depth with
    | some d => decide (0 < d)
    | none => false

/-- the pair of a row -/
def StatView.pair (v : StatView F I K) : Option (F × F) :=
  match v.parentName, v.feat with
  | some a, some b => some (a, b)
  | _, _ => none

variable {p : Package} {leafName : F} {ts : List (GTree F I K)} {frame : List (GbRow F I K)} {A : Nat → List (Ann F I K)}

theorem view_qual {s : Split F I K} (hs : s ∈ forestSplits ts) (onlyDef : Bool) : (s.view p).qual onlyDef = s.counts onlyDef := by
  have h0 := depth_zero_iff hs
  cases onlyDef with
  | true =>
    cases hp : s.parent with
    | none => simp [StatView.qual, Split.view, Split.counts, hp, Split.interacts]
    | some q => simp [StatView.qual, Split.view, Split.counts, hp]
  | false =>
    rw [Bool.eq_iff_iff]
    simp only [StatView.qual, Split.view, Split.counts, Bool.false_eq_true, if_false, decide_eq_true_eq]
    cases hp : s.parent with
    | none => have := h0.2 hp; simp [this]
    | some q =>
      have : s.depth ≠ 0 := fun h => by rw [hp] at h0; cases h0.1 h
      simp; omega

theorem view_pair (s : Split F I K) (a b : F) : (s.view p).pair = some (a, b) ↔ s.parent.map (fun q => q.1) = some a ∧ s.feat = b := by
  cases hp : s.parent with
  | none => simp [StatView.pair, Split.view, hp]
  | some q => simp [StatView.pair, Split.view, hp]

theorem row_pair (r : StatRow F I K) : r.pair = r.view.pair := rfl

theorem row_qual (onlyDef : Bool) (r : StatRow F I K) : qualifies onlyDef r = r.view.qual onlyDef := rfl

/-- the qualifying rows that have a pair -/
theorem qual_rows (H : Framed leafName p ts frame A) (onlyDef : Bool) (P : StatView F I K → Bool)
    (hP : ∀ v : StatView F I K, v.parentName = none → P v = false) :
    ((((finalRows ts.length A).filter (qualifies onlyDef)).filter (fun r => P r.view)).map StatRow.view).Perm
      ((((forestSplits ts).filter (Split.counts onlyDef)).filter (fun s => P (s.view p))).map (Split.view p)) := by
  have hv := (finalRows_view H).filter (fun v => v.qual onlyDef && P v)
  rw [List.filter_map, List.filter_map, List.filter_filter] at hv
  have e1 : ((finalRows ts.length A).filter (qualifies onlyDef)).filter (fun r => P r.view)
      = (finalRows ts.length A).filter (fun a => ((fun v => v.qual onlyDef && P v) ∘ StatRow.view) a && !a.row.leaf) := by
    rw [List.filter_filter]
    apply List.filter_congr
    intro r hr
    simp only [Function.comp, row_qual]
    cases hl : r.row.leaf with
    | false => simp [Bool.and_comm]
    | true =>
      have := hP r.view (finalRows_leaf H r hr hl).1
      simp [this]
  have e2 : ((forestSplits ts).filter (Split.counts onlyDef)).filter (fun s => P (s.view p))
      = (forestSplits ts).filter ((fun v => v.qual onlyDef && P v) ∘ Split.view p) := by
    rw [List.filter_filter]
    apply List.filter_congr
    intro s hs
    simp only [Function.comp, view_qual hs]
    exact Bool.and_comm _ _
  rw [e1, e2]
  exact hv

/-- the rows of a pair -/
theorem pair_rows (H : Framed leafName p ts frame A) (onlyDef : Bool) (a b : F) :
    ((((finalRows ts.length A).filter (qualifies onlyDef)).filter (fun r => decide (r.pair = some (a, b)))).map StatRow.view).Perm
      ((pairSplits onlyDef ts a b).map (Split.view p)) := by
  have h := qual_rows H onlyDef (fun v => decide (v.pair = some (a, b))) (by intro v hv; simp [StatView.pair, hv])
  have e : pairSplits onlyDef ts a b
      = ((forestSplits ts).filter (Split.counts onlyDef)).filter (fun s => decide ((s.view p).pair = some (a, b))) := by
    unfold pairSplits
    rw [List.filter_filter]
    apply List.filter_congr
    intro s _
    rw [Bool.eq_iff_iff]
    simp only [Bool.and_eq_true, decide_eq_true_eq, view_pair]
    tauto
  rw [e]
  exact h

theorem sumAgg_ok (H : Framed leafName p ts frame A) (onlyDef : Bool) (a b : F) (hne : pairSplits onlyDef ts a b ≠ []) :
    SumRowOk p onlyDef ts (sumAgg ((finalRows ts.length A).filter (qualifies onlyDef)) (a, b)) := by
  have hp := pair_rows H onlyDef a b
  have hlen := hp.length_eq
  rw [List.length_map, List.length_map] at hlen
  have hg := hp.map StatView.gain
  have hd := hp.map StatView.depth
  have hc := hp.map StatView.cover
  rw [List.map_map, List.map_map] at hg hd hc
  refine ⟨hne, hlen, sumOpt_perm (u := Split.gain) hg, meanOpt_perm (u := Split.gain) hg hne,
    meanSome_perm (u := Split.depth) hd hne, ?_, ?_⟩
  · intro hx
    subst hx
    exact ⟨sumOpt_perm (u := Split.cover) hc, meanOpt_perm (u := Split.cover) hc hne⟩
  · intro hx
    subst hx
    exact ⟨sumOpt_none hc, meanOpt_none hc⟩

/-- keys of the summary -/
theorem mem_keys (H : Framed leafName p ts frame A) (onlyDef : Bool) (q : F ×ₗ F) :
    q ∈ npUnique (((finalRows ts.length A).filter (qualifies onlyDef)).filterMap (fun r => r.pair.map toLex)) ↔
      pairSplits onlyDef ts (ofLex q).1 (ofLex q).2 ≠ [] := by
  have hp := pair_rows H onlyDef (ofLex q).1 (ofLex q).2
  rw [mem_npUnique, List.mem_filterMap]
  constructor
  · rintro ⟨r, hr, e⟩ hn
    rw [hn] at hp
    have hnil := hp.eq_nil
    rw [List.map_eq_nil_iff] at hnil
    have : r ∈ ((finalRows ts.length A).filter (qualifies onlyDef)).filter (fun r => decide (r.pair = some ((ofLex q).1, (ofLex q).2))) := by
      rw [List.mem_filter]
      refine ⟨hr, ?_⟩
      obtain ⟨x, hx, hxq⟩ := Option.map_eq_some_iff.1 e
      subst hxq
      simp [hx]
    rw [hnil] at this
    cases this
  · intro hn
    cases hl : ((finalRows ts.length A).filter (qualifies onlyDef)).filter (fun r => decide (r.pair = some ((ofLex q).1, (ofLex q).2))) with
    | nil =>
      rw [hl] at hp
      have := hp.nil_eq
      rw [eq_comm, List.map_eq_nil_iff] at this
      exact absurd this hn
    | cons r l =>
      have hr : r ∈ ((finalRows ts.length A).filter (qualifies onlyDef)).filter (fun r => decide (r.pair = some ((ofLex q).1, (ofLex q).2))) := by
        rw [hl]; simp
      obtain ⟨h1, h2⟩ := List.mem_filter.1 hr
      refine ⟨r, h1, ?_⟩
      rw [decide_eq_true_eq] at h2
      rw [h2]
      rfl

/-- The summary: one right row for every pair that occurs. -/
theorem getSummary_ok (H : Framed leafName p ts frame A) (onlyDef : Bool) {sort : List (SumRow F K) → List (SumRow F K)}
    (hs : ∀ l, (sort l).Perm l) :
    (∀ r ∈ getSummary sort onlyDef (finalRows ts.length A), SumRowOk p onlyDef ts r) ∧
    ((getSummary sort onlyDef (finalRows ts.length A)).map (fun r => (r.parent, r.child))).Nodup ∧
    (∀ a b, pairSplits onlyDef ts a b ≠ [] →
      ∃ r ∈ getSummary sort onlyDef (finalRows ts.length A), r.parent = a ∧ r.child = b) ∧
    ((getSummary sort onlyDef (finalRows ts.length A)).map SumRow.frequency).sum = ((forestSplits ts).filter (Split.counts onlyDef)).length := by
  have hperm := hs ((npUnique (((finalRows ts.length A).filter (qualifies onlyDef)).filterMap (fun r => r.pair.map toLex))).map
    (fun q => sumAgg ((finalRows ts.length A).filter (qualifies onlyDef)) (ofLex q)))
  change (getSummary sort onlyDef (finalRows ts.length A)).Perm _ at hperm
  refine ⟨?_, ?_, ?_, ?_⟩
  · intro r hr
    obtain ⟨q, hq, rfl⟩ := List.mem_map.1 (hperm.mem_iff.1 hr)
    exact sumAgg_ok H onlyDef _ _ ((mem_keys H onlyDef q).1 hq)
  · rw [(hperm.map _).nodup_iff, List.map_map]
    refine List.Nodup.map ?_ (nodup_npUnique _)
    intro x y e
    simpa [sumAgg] using e
  · intro a b hab
    refine ⟨_, hperm.mem_iff.2 (List.mem_map.2 ⟨toLex (a, b), (mem_keys H onlyDef (toLex (a, b))).2 hab, rfl⟩), rfl, rfl⟩
  · rw [(hperm.map _).sum_eq, List.map_map]
    have h1 := sum_group_sizes (fun r : StatRow F I K => r.pair.map toLex) ((finalRows ts.length A).filter (qualifies onlyDef))
    have e : (npUnique (((finalRows ts.length A).filter (qualifies onlyDef)).filterMap (fun r => r.pair.map toLex))).map
        (SumRow.frequency ∘ fun q => sumAgg ((finalRows ts.length A).filter (qualifies onlyDef)) (ofLex q))
        = (npUnique (((finalRows ts.length A).filter (qualifies onlyDef)).filterMap (fun r => r.pair.map toLex))).map
          (fun q => (((finalRows ts.length A).filter (qualifies onlyDef)).filter (fun x => decide (x.pair.map toLex = some q))).length) := by
      apply List.map_congr_left
      intro q _
      simp only [Function.comp, sumAgg]
      congr 1
      apply List.filter_congr
      intro r _
      congr 1
      rw [eq_iff_iff]
      cases r.pair with
      | none => simp
      | some x =>
        simp only [Option.some.injEq, Option.map_some]
        exact ⟨fun h => by rw [h]; rfl, fun h => by rw [← h]; rfl⟩
    rw [e, h1]
    have h2 := (qual_rows H onlyDef (fun v => v.pair.isSome) (by intro v hv; simp [StatView.pair, hv])).length_eq
    rw [List.length_map, List.length_map] at h2
    have e3 : (((finalRows ts.length A).filter (qualifies onlyDef)).filterMap (fun r => r.pair.map toLex)).length
        = (((finalRows ts.length A).filter (qualifies onlyDef)).filter (fun r => r.view.pair.isSome)).length := by
      generalize (finalRows ts.length A).filter (qualifies onlyDef) = l
      induction l with
      | nil => rfl
      | cons x l ih =>
        rw [List.filterMap_cons, List.filter_cons]
        cases hx : x.pair with
        | none => rw [row_pair] at hx; simp [hx, ih]
        | some y => rw [row_pair] at hx; simp [hx, ih]
    rw [e3, h2, List.filter_filter]
    congr 1
    apply List.filter_congr
    intro s hs
    cases hc : s.counts onlyDef with
    | false => simp
    | true =>
      have : s.parent.isSome := by
        cases hp : s.parent with
        | some q => rfl
        | none => cases onlyDef <;> simp [Split.counts, Split.interacts, hp] at hc
      obtain ⟨q, hq⟩ := Option.isSome_iff_exists.1 this
      simp [StatView.pair, Split.view, hq]

end Inter

end Artemis
