import Verif.Spec.SameBoosted
import Mathlib.Data.List.Basic
import Mathlib.Data.List.Forall2
import Mathlib.Algebra.BigOperators.Group.List.Basic
import Mathlib.Algebra.BigOperators.Ring.List
import Mathlib.Algebra.Order.Ring.Defs
import Mathlib.Algebra.Order.Field.Basic
import Mathlib.Tactic.Ring

/-!
# Lemmas: the splits of the same boosted trees
-/

set_option linter.unusedSectionVars false
set_option linter.unusedVariables false
set_option linter.unusedSimpArgs false

namespace Artemis
open Spec

section data
variable {F F' I I' K : Type}

/-- a split without tree number and ID -/
def Split.data (s : Split F I K) : Nat × F × K × K × Option (F × K × K) := (s.depth, s.feat, s.gain, s.cover, s.parent)

/-- parent, renamed and scaled -/
def trPar [Mul K] (ρ : F → F') (c : K) (q : F × K × K) : F' × K × K := (ρ q.1, c * q.2.1, q.2.2)

/-- a split, renamed and scaled -/
def trDat [Mul K] (ρ : F → F') (c : K) (d : Nat × F × K × K × Option (F × K × K)) : Nat × F' × K × K × Option (F' × K × K) :=
  (d.1, ρ d.2.1, c * d.2.2.1, d.2.2.2.1, d.2.2.2.2.map (trPar ρ c))

theorem splits_data [Mul K] {ρ : F → F'} {c : K} {t : GTree F I K} {u : GTree F' I' K} (h : SameBoosted ρ c t u) :
    ∀ (a b : Nat) (q : Option (F × K × K)) (k : Nat),
    ((u.splits b (q.map (trPar ρ c)) k).map Split.data).Perm ((t.splits a q k).map (fun s => trDat ρ c s.data)) := by
  induction h with
  | leaf => intro a b q k; exact List.Perm.refl _
  | split i j f g w h1 h2 ih1 ih2 =>
    intro a b q k
    simp only [GTree.splits, List.map_cons, List.map_append]
    refine List.Perm.cons _ ?_
    exact (ih1 a b (some (f, g, w)) (k + 1)).append (ih2 a b (some (f, g, w)) (k + 1))
  | mirrored i j f g w h1 h2 ih1 ih2 =>
    intro a b q k
    simp only [GTree.splits, List.map_cons, List.map_append]
    refine List.Perm.cons _ ?_
    refine List.Perm.trans ?_ (List.perm_append_comm)
    exact (ih2 a b (some (f, g, w)) (k + 1)).append (ih1 a b (some (f, g, w)) (k + 1))

theorem data_tree (t : GTree F I K) : ∀ (a b : Nat) (q : Option (F × K × K)) (k : Nat),
    (t.splits a q k).map Split.data = (t.splits b q k).map Split.data := by
  induction t with
  | leaf => intros; rfl
  | split i f g w l r ihl ihr =>
    intro a b q k
    simp only [GTree.splits, List.map_cons, List.map_append]
    rw [ihl a b, ihr a b]
    rfl

theorem forest_data (ts : List (GTree F I K)) :
    (forestSplits ts).map Split.data = ts.flatMap (fun t => (t.splits 0 none 0).map Split.data) := by
  unfold forestSplits
  rw [List.map_flatten, List.map_map, List.flatMap_def]
  congr 1
  have : ∀ n, (ts.zipIdx n).map (List.map Split.data ∘ fun q => q.1.splits q.2 none 0) = ts.map (fun t => (t.splits 0 none 0).map Split.data) := by
    induction ts with
    | nil => intro n; rfl
    | cons t ts ih =>
      intro n
      rw [List.zipIdx_cons, List.map_cons, List.map_cons, ih]
      congr 1
      exact data_tree t _ _ _ _
  exact this 0

theorem forest_data_split (ts : List (GTree F I K)) :
    (forestSplits ts).map Split.data = (ts.filter GTree.hasSplit).flatMap (fun t => (t.splits 0 none 0).map Split.data) := by
  rw [forest_data]
  induction ts with
  | nil => rfl
  | cons t ts ih =>
    cases t with
    | leaf i v w =>
      rw [List.flatMap_cons, List.filter_cons_of_neg (by simp [GTree.hasSplit]), ← ih]
      rfl
    | split i f g w l r =>
      rw [List.flatMap_cons, List.filter_cons_of_pos rfl, List.flatMap_cons, ih]

theorem forest_same [Mul K] {ρ : F → F'} {c : K} {n : Nat} {ts : List (GTree F I K)} {ts' : List (GTree F' I' K)}
    (h : SameBoostedForest ρ c n ts ts') :
    ((forestSplits ts').map Split.data).Perm (List.replicate n ((forestSplits ts).map (fun s => trDat ρ c s.data))).flatten := by
  obtain ⟨us, h1, h2⟩ := h
  rw [forest_data_split]
  refine (h2.flatMap_right _).trans ?_
  have e : (forestSplits ts).map (fun s => trDat ρ c s.data) = ((forestSplits ts).map Split.data).map (trDat ρ c) := by rw [List.map_map]; rfl
  rw [e, forest_data_split]
  generalize ts.filter GTree.hasSplit = ts at h1
  have key : (us.flatMap (fun t => (t.splits 0 none 0).map Split.data)).Perm
      ((ts.flatMap (fun t => (t.splits 0 none 0).map Split.data)).map (trDat ρ c)) := by
    clear h2 e
    induction h1 with
    | nil => exact List.Perm.refl _
    | cons hh _ ih =>
      rw [List.flatMap_cons, List.flatMap_cons, List.map_append]
      refine List.Perm.append ?_ ih
      have := splits_data hh 0 0 none 0
      rw [List.map_map]
      exact this
  clear h2
  induction n with
  | zero => exact List.Perm.refl _
  | succ n ih =>
    rw [List.replicate_succ, List.flatten_cons, List.flatMap_append, List.replicate_succ, List.flatten_cons]
    exact key.append ih

/-- selections by a predicate on the data -/
theorem filter_same [Mul K] {ρ : F → F'} {c : K} {n : Nat} {l : List (Split F I K)} {l' : List (Split F' I' K)}
    (h : (l'.map Split.data).Perm (List.replicate n (l.map (fun s => trDat ρ c s.data))).flatten)
    {P : Nat × F × K × K × Option (F × K × K) → Bool} {P' : Nat × F' × K × K × Option (F' × K × K) → Bool}
    (hP : ∀ d, P' (trDat ρ c d) = P d) :
    ((l'.filter (fun s => P' s.data)).map Split.data).Perm
      (List.replicate n ((l.filter (fun s => P s.data)).map (fun s => trDat ρ c s.data))).flatten := by
  have e1 : (l'.filter (fun s => P' s.data)).map Split.data = (l'.map Split.data).filter P' := by rw [List.filter_map]; rfl
  have e2 : (l.filter (fun s => P s.data)).map (fun s => trDat ρ c s.data) = (l.map (fun s => trDat ρ c s.data)).filter P' := by
    rw [List.filter_map]
    congr 1
    apply List.filter_congr
    intro s _
    exact (hP s.data).symm
  rw [e1, e2]
  refine (h.filter _).trans ?_
  rw [List.filter_flatten, List.map_replicate]

theorem same_length [Mul K] {ρ : F → F'} {c : K} {n : Nat} {l : List (Split F I K)} {l' : List (Split F' I' K)}
    (h : (l'.map Split.data).Perm (List.replicate n (l.map (fun s => trDat ρ c s.data))).flatten) : l'.length = n * l.length := by
  have := h.length_eq
  simpa using this

theorem same_nil [Mul K] {ρ : F → F'} {c : K} {n : Nat} (hn : 0 < n) {l : List (Split F I K)} {l' : List (Split F' I' K)}
    (h : (l'.map Split.data).Perm (List.replicate n (l.map (fun s => trDat ρ c s.data))).flatten) : l' = [] ↔ l = [] := by
  rw [← List.length_eq_zero_iff, ← List.length_eq_zero_iff, same_length h, Nat.mul_eq_zero]
  constructor
  · rintro (h | h)
    · omega
    · exact h
  · exact fun h => .inr h

theorem same_sum [Field K] {ρ : F → F'} {c : K} {n : Nat} {l : List (Split F I K)} {l' : List (Split F' I' K)}
    (h : (l'.map Split.data).Perm (List.replicate n (l.map (fun s => trDat ρ c s.data))).flatten)
    {u' : Split F' I' K → K} {u : Split F I K → K} {v : Nat × F' × K × K × Option (F' × K × K) → K} {x : K} (h1 : ∀ s, u' s = v s.data)
    (h2 : ∀ s, v (trDat ρ c s.data) = x * u s) : (l'.map u').sum = (n * x) * (l.map u).sum := by
  have e1 : l'.map u' = (l'.map Split.data).map v := by
    rw [List.map_map]
    apply List.map_congr_left
    intro s _
    exact h1 s
  rw [e1, (h.map v).sum_eq, List.map_flatten, List.map_replicate, List.map_map]
  have e2 : l.map (v ∘ fun s => trDat ρ c s.data) = l.map (fun s => x * u s) := by
    apply List.map_congr_left
    intro s _
    exact h2 s
  rw [e2, List.sum_flatten, List.map_replicate, List.sum_replicate, List.sum_map_mul_left, nsmul_eq_mul]
  ring

end data

section pairs
variable {F F' I I' K : Type} [DecidableEq F] [DecidableEq F'] [Field K] [LinearOrder K] [IsStrictOrderedRing K]

/-- `Split.interacts` on data -/
def interactsD (d : Nat × F × K × K × Option (F × K × K)) : Bool :=
  match d.2.2.2.2 with
  | none => false
  | some (f, g, _) => decide (g < d.2.2.1) && decide (d.2.1 ≠ f)

/-- `Split.counts` on data -/
def countsD (onlyDef : Bool) (d : Nat × F × K × K × Option (F × K × K)) : Bool :=
  if onlyDef then interactsD d else d.2.2.2.2.isSome

theorem counts_eq_D (onlyDef : Bool) (s : Split F I K) : s.counts onlyDef = countsD onlyDef s.data := by
  unfold Split.counts countsD Split.interacts interactsD Split.data
  rfl

theorem countsD_tr {ρ : F → F'} (hρ : Function.Injective ρ) {c : K} (hc : 0 < c) (onlyDef : Bool) (d : Nat × F × K × K × Option (F × K × K)) :
    countsD onlyDef (trDat ρ c d) = countsD onlyDef d := by
  obtain ⟨k, f, g, w, q⟩ := d
  unfold countsD interactsD trDat
  cases q with
  | none => rfl
  | some q =>
    obtain ⟨f', g', w'⟩ := q
    simp only [Option.map_some, trPar, Option.isSome_some, mul_lt_mul_iff_right₀ hc, ne_eq, hρ.eq_iff]

variable {ρ : F → F'} {c : K} {n : Nat} {ts : List (GTree F I K)} {ts' : List (GTree F' I' K)}

theorem pairs_same (hρ : Function.Injective ρ) (hc : 0 < c) (h : SameBoostedForest ρ c n ts ts') (onlyDef : Bool) (a b : F) :
    ((pairSplits onlyDef ts' (ρ a) (ρ b)).map Split.data).Perm
      (List.replicate n ((pairSplits onlyDef ts a b).map (fun s => trDat ρ c s.data))).flatten := by
  have := filter_same (forest_same h)
    (P := fun d => countsD onlyDef d && decide (d.2.2.2.2.map (fun q => q.1) = some a) && decide (d.2.1 = b))
    (P' := fun d => countsD onlyDef d && decide (d.2.2.2.2.map (fun q => q.1) = some (ρ a)) && decide (d.2.1 = ρ b)) (by
      intro d
      rw [countsD_tr hρ hc]
      obtain ⟨k, f, g, w, q⟩ := d
      cases q <;> simp [trDat, trPar, hρ.eq_iff])
  unfold pairSplits
  simp only [counts_eq_D]
  exact this

theorem feats_same (hρ : Function.Injective ρ) (h : SameBoostedForest ρ c n ts ts') (f : F) :
    ((featSplits ts' (ρ f)).map Split.data).Perm
      (List.replicate n ((featSplits ts f).map (fun s => trDat ρ c s.data))).flatten :=
  filter_same (forest_same h) (P := fun d => decide (d.2.1 = f)) (P' := fun d => decide (d.2.1 = ρ f)) (by
      intro d
      simp [trDat, hρ.eq_iff])

theorem roots_same (hρ : Function.Injective ρ) (h : SameBoostedForest ρ c n ts ts') (f : F) :
    ((featRoots ts' (ρ f)).map Split.data).Perm
      (List.replicate n ((featRoots ts f).map (fun s => trDat ρ c s.data))).flatten :=
  filter_same (feats_same hρ h f) (P := fun d => decide (d.1 = 0)) (P' := fun d => decide (d.1 = 0)) (by intro d; rfl)

theorem allRoots_same (h : SameBoostedForest ρ c n ts ts') {sel : F → Bool} {sel' : F' → Bool} (hs : ∀ f, sel' (ρ f) = sel f) :
    (((forestSplits ts').filter (fun s => sel' s.feat && decide (s.depth = 0))).map Split.data).Perm
      (List.replicate n (((forestSplits ts).filter (fun s => sel s.feat && decide (s.depth = 0))).map (fun s => trDat ρ c s.data))).flatten :=
  filter_same (forest_same h) (P := fun d => sel d.2.1 && decide (d.1 = 0)) (P' := fun d => sel' d.2.1 && decide (d.1 = 0)) (by
    intro d
    show (sel' (ρ d.2.1) && decide (d.1 = 0)) = _
    rw [hs])

theorem gainSum_same {l : List (Split F I K)} {l' : List (Split F' I' K)}
    (h : (l'.map Split.data).Perm (List.replicate n (l.map (fun s => trDat ρ c s.data))).flatten) : gainSum l' = (n * c) * gainSum l :=
  same_sum h (v := fun d => d.2.2.1) (fun _ => rfl) (fun _ => rfl)

theorem coverSum_same {l : List (Split F I K)} {l' : List (Split F' I' K)}
    (h : (l'.map Split.data).Perm (List.replicate n (l.map (fun s => trDat ρ c s.data))).flatten) : coverSum l' = n * coverSum l := by
  have := same_sum h (u' := fun s => s.cover) (u := fun s => s.cover) (v := fun d => d.2.2.2.1) (x := 1) (fun _ => rfl) (fun _ => (one_mul _).symm)
  rw [mul_one] at this
  exact this

theorem depthSum_same {l : List (Split F I K)} {l' : List (Split F' I' K)}
    (h : (l'.map Split.data).Perm (List.replicate n (l.map (fun s => trDat ρ c s.data))).flatten) :
    (l'.map (fun s => (s.depth : K))).sum = n * (l.map (fun s => (s.depth : K))).sum := by
  have := same_sum h (u' := fun s => (s.depth : K)) (u := fun s => (s.depth : K)) (v := fun d => (d.1 : K)) (x := 1) (fun _ => rfl) (fun _ => (one_mul _).symm)
  rw [mul_one] at this
  exact this

theorem depthGainSum_same {l : List (Split F I K)} {l' : List (Split F' I' K)}
    (h : (l'.map Split.data).Perm (List.replicate n (l.map (fun s => trDat ρ c s.data))).flatten) :
    (l'.map (fun s => (s.depth : K) * s.gain)).sum = (n * c) * (l.map (fun s => (s.depth : K) * s.gain)).sum :=
  same_sum h (v := fun d => (d.1 : K) * d.2.2.1) (fun _ => rfl) (fun s => by
    show (s.depth : K) * (c * s.gain) = c * ((s.depth : K) * s.gain)
    ring)

/-- every split of the second forest comes from one of the first -/
theorem same_mem (hn : 0 < n) (h : SameBoostedForest ρ c n ts ts') :
    (∀ s' ∈ forestSplits ts', ∃ s ∈ forestSplits ts, s'.data = trDat ρ c s.data) ∧
    ∀ s ∈ forestSplits ts, ∃ s' ∈ forestSplits ts', s'.data = trDat ρ c s.data := by
  have hp := forest_same h
  constructor
  · intro s' hs'
    have : s'.data ∈ (List.replicate n ((forestSplits ts).map (fun s => trDat ρ c s.data))).flatten :=
      hp.mem_iff.1 (List.mem_map_of_mem hs')
    obtain ⟨l, hl, hd⟩ := List.mem_flatten.1 this
    rw [(List.mem_replicate.1 hl).2] at hd
    obtain ⟨s, hs, e⟩ := List.mem_map.1 hd
    exact ⟨s, hs, e.symm⟩
  · intro s hs
    have : trDat ρ c s.data ∈ (forestSplits ts').map Split.data := by
      refine hp.mem_iff.2 (List.mem_flatten.2 ⟨_, List.mem_replicate.2 ⟨hn.ne', rfl⟩, List.mem_map_of_mem hs⟩)
    obtain ⟨s', hs', e⟩ := List.mem_map.1 this
    exact ⟨s', hs', e⟩

theorem same_feat {s : Split F I K} {s' : Split F' I' K} (h : s'.data = trDat ρ c s.data) : s'.feat = ρ s.feat :=
  congrArg (fun d => d.2.1) h

theorem same_parent {s : Split F I K} {s' : Split F' I' K} (h : s'.data = trDat ρ c s.data) : s'.parent = s.parent.map (trPar ρ c) :=
  congrArg (fun d => d.2.2.2.2) h

end pairs

/-- By what the metric of a pair or a feature is multiplied if gains are multiplied by `c` and trees taken `n` times. -/
def SsMetric.factor {K : Type} [Field K] (c : K) (n : Nat) : SsMetric → K
  | .sumGain => n * c
  | .meanGain => c
  | .sumCover => n
  | .rootFrequency | .weightedRootFrequency | .frequency => n
  | .meanCover | .meanDepth | .meanWeightedDepth | .other => 1

end Artemis
