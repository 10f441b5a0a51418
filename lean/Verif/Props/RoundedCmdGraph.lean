import Verif.Props.RoundedVis
import Verif.Props.RoundedTrees
import Verif.Props.PlotFit
import Verif.Proofs.SameForest

/-!
# C165: conditional minimal depth in binary64, from the trees to the graph
-/

set_option linter.unusedSectionVars false
set_option linter.unusedVariables false
set_option linter.unusedSimpArgs false

namespace Artemis
open Spec

section Bounds
variable {K : Type} [Field K] [LinearOrder K] [IsStrictOrderedRing K]

open Classical in
theorem meanCondDepth_unique {ts : List LTree} {f g : Nat} {v w : Num K} (h : IsMeanCondDepth ts f g v) (h' : IsMeanCondDepth ts f g w) :
    v = w := by
  obtain ⟨xs, h1, rfl⟩ := h
  obtain ⟨ys, h2, rfl⟩ := h'
  have key : ∀ {l : List LTree} {xs ys : List Nat}, List.Forall₂ (fun t x => CondDepth t f g x) l xs →
      List.Forall₂ (fun t x => CondDepth t f g x) l ys → xs = ys := by
    intro l xs ys h1
    induction h1 generalizing ys with
    | nil => intro h2; cases h2; rfl
    | cons a _ ih => intro h2; cases h2 with
      | cons b h => rw [condDepth_unique a b, ih h]
  rw [key h1 h2]

open Classical in
/-- a mean of depths, if it is positive, is between one over the number of trees and the greatest depth -/
theorem meanCondDepth_bounds {m : Nat} {ts : List LTree} {D : Nat} (hD : ∀ t ∈ ts, t.ids.length ≤ D) {f g : Nat} {x : K}
    (h : IsMeanCondDepth ts f g (.fin x)) (hx : 0 < x) : 0 < (ts.length : K) ∧ 1 ≤ x * ts.length ∧ x ≤ D := by
  obtain ⟨xs, h1, h2⟩ := h
  obtain ⟨b1, b2⟩ := forall₂_bounds h1 List.filter_sublist (fun t x hx => condDepth_le hx) hD
  unfold meanNat at h2
  split at h2
  · cases h2
  · next hne =>
    have e := Num.fin.inj h2
    rw [← castSum] at e
    have hl : 0 < xs.length := List.length_pos_iff.2 hne
    have hlK : (0 : K) < xs.length := by exact_mod_cast hl
    have hle : (xs.length : K) ≤ ts.length := by exact_mod_cast b1
    have hs : 0 < xs.sum := by
      rcases Nat.eq_zero_or_pos xs.sum with h0 | h0
      · rw [e, h0, Nat.cast_zero, zero_div] at hx; exact absurd hx (lt_irrefl _)
      · exact h0
    have hsK : (1 : K) ≤ xs.sum := by exact_mod_cast hs
    refine ⟨hlK.trans_le hle, ?_, ?_⟩
    · have : x * xs.length = xs.sum := by rw [e, div_mul_cancel₀ _ hlK.ne']
      nlinarith
    · rw [e, div_le_iff₀ hlK]
      have := sum_le_mul (le_refl xs.length) b2
      rw [Nat.mul_comm] at this
      exact_mod_cast this

/-- rounding in binary64 at most halves or doubles a number that is not tiny or huge -/
theorem binary64_factor [FloorRing K] {x y : K} (hlo : 1 / 2 ^ 60 ≤ x) (hhi : x ≤ 2 ^ 60) (h : (binary64 : Arith K).rnd x = .fin y) :
    x / 2 ≤ y ∧ y ≤ 2 * x := by
  have hp : (0 : K) < 1 / 2 ^ 60 := by positivity
  have x0 : 0 < x := hp.trans_le hlo
  obtain ⟨z, e, hz⟩ := (binary64_accurate (K := K)).rnd_near x (by
    rw [abs_of_pos x0]; exact hhi.trans (pow_le_pow_right₀ one_le_two (by omega)))
  rw [h] at e
  cases e
  rw [abs_of_pos x0] at hz
  have hη : (1 : K) / 2 ^ 1075 ≤ 1 / 2 ^ 62 := one_div_le_one_div_of_le (pow_pos two_pos _) (pow_le_pow_right₀ one_le_two (by omega))
  generalize (1 : K) / 2 ^ 1075 = η at hz hη
  have h62 : (1 : K) / 2 ^ 62 = 1 / 2 ^ 60 / 4 := by norm_num
  have hu : (1 : K) / 2 ^ 53 ≤ 1 / 4 := by norm_num
  have hux : 1 / 2 ^ 53 * x ≤ 1 / 4 * x := mul_le_mul_of_nonneg_right hu x0.le
  rw [h62] at hη
  generalize (1 : K) / 2 ^ 60 = c at *
  generalize (1 : K) / 2 ^ 53 * x = d at *
  rw [abs_le] at hz
  constructor <;> linarith [hz.1, hz.2]

end Bounds

section Graph
variable {F I J K : Type} [LinearOrder F] [LinearOrder J] [Field K] [LinearOrder K] [IsStrictOrderedRing K] [FloorRing K]

/-- **C165** Conditional minimal depth computed and drawn in binary64, for a forest of `T` trees of at most `D` nodes with
`T² (D + 1) ≤ 2^51`, in which every mean conditional minimal depth `d i j` is a positive number (`c i j` is the float next to it), if the
threshold removes a pair and keeps a pair: every ordered pair of columns has an edge, there are no others, widths are between 0 and the
maximal width, pairs above the threshold have width 0, and of two pairs the one with the smaller *exact* mean depth never has the thinner
edge if the other one is kept. -/
theorem C165_cmd_graph {D : Nat} (E : CmdEnv F J K) (hE : SortsCmd E.sortOvo) (hI : SortsBy ImpRow.val true E.sortImp) {m : Forest F}
    {ts : List LTree} (h : ForestOf m ts) (hts : ts ≠ []) (hcol : m.columns ≠ []) (hD : ∀ t ∈ m.trees, t.length ≤ D)
    (hT : ts.length ^ 2 * (D + 1) ≤ 2 ^ 51) (s0 : CmdMethod F K) {d c : Nat → Nat → K}
    (hd : ∀ i j, i < m.columns.length → j < m.columns.length → i ≠ j → IsMeanCondDepth ts i j (.fin (d i j)) ∧ 0 < d i j ∧
      (binary64 : Arith K).rnd (d i j) = .fin (c i j))
    {E' : VisEnv F K} {title : String} {o : Opts K} {size : K} {ps : List (Panel F I K)}
    (hp : (CmdMethod.view (I := I) E (CmdMethod.fitR binary64 (kahanSum binary64) E m s0).2).plotGraphR binary64 E' title o size = .ok ps)
    {cfg : VisConfig K} (hc : configGet cmdName = .ok cfg) {t W : K} (ht : UsedThreshold binary64 o.threshold cfg.graph.threshold t)
    (hW : W = o.maxEdgeWidth.getD cfg.graph.maxEdgeWidth) (hW0 : 0 ≤ W) (hWf : (binary64 : Arith K).rnd W = .fin W)
    (habove : ∃ i j, i < m.columns.length ∧ j < m.columns.length ∧ i ≠ j ∧ t < c i j)
    (hbelow : ∃ i j, i < m.columns.length ∧ j < m.columns.length ∧ i ≠ j ∧ c i j ≤ t) :
    ∃ ti edges nodes labels, ∃ w : Nat → Nat → K, ps = [.graph ti true edges nodes labels] ∧ (Dict.keys edges).Nodup ∧
      (∀ f g, (f, g) ∈ Dict.keys edges ↔ f ∈ m.columns ∧ g ∈ m.columns ∧ f ≠ g) ∧
      (∀ i j f g, m.columns[i]? = some f → m.columns[j]? = some g → i ≠ j →
        Dict.get? edges (f, g) = some (.fin (w i j)) ∧ 0 ≤ w i j ∧ w i j ≤ W ∧ (t < c i j → w i j = 0)) ∧
      (∀ i j i' j', i < m.columns.length → j < m.columns.length → i ≠ j → i' < m.columns.length → j' < m.columns.length → i' ≠ j' →
        d i j ≤ d i' j' → c i' j' ≤ t → w i' j' ≤ w i j) := by
  classical
  have hp0 : 0 < ts.length := List.length_pos_iff.2 hts
  have hT1 : ts.length * (D + 1) ≤ 2 ^ 51 := by nlinarith
  have hTD : ts.length * D ≤ 2 ^ 53 - 1 := (Nat.mul_le_mul_left _ (Nat.le_succ D)).trans (hT1.trans (by norm_num))
  obtain ⟨⟨rows, ho, hlen, hfeat, hrow, _⟩, _⟩ := C157_correctly_rounded (A := binary64) (K := K) binary64_lawful binary64_whole
    (kahan_addsWhole binary64_whole) E hE hI h hts hcol hD hTD s0
  have small := forest_small h hD
  have idx : ∀ f ∈ m.columns, ∃ i, i < m.columns.length ∧ m.columns[i]? = some f := by
    intro f hf
    obtain ⟨i, hi⟩ := List.getElem?_of_mem hf
    exact ⟨i, (List.getElem?_eq_some_iff.1 hi).1, hi⟩
  have inj : ∀ {i j : Nat} {f : F}, m.columns[i]? = some f → m.columns[j]? = some f → i = j := by
    intro i j f h1 h2
    obtain ⟨l1, e1⟩ := List.getElem?_eq_some_iff.1 h1
    obtain ⟨l2, e2⟩ := List.getElem?_eq_some_iff.1 h2
    exact (List.Nodup.getElem_inj_iff h.names).1 (e1.trans e2.symm)
  -- the row of two columns
  have row : ∀ i j f g, m.columns[i]? = some f → m.columns[j]? = some g → i ≠ j →
      (⟨f, g, .fin (c i j)⟩ : OvoRow F K) ∈ (rows.map (CmdRow.round binary64)).map CmdRow.toOvo := by
    intro i j f g hi hj hne
    have hi' := (List.getElem?_eq_some_iff.1 hi).1
    have hj' := (List.getElem?_eq_some_iff.1 hj).1
    obtain ⟨d1, d2, d3⟩ := hd i j hi' hj' hne
    obtain ⟨r, hr, hm, _⟩ := hrow i j f g hi hj (fun e => hne (inj hi (by rw [e]; exact hj)))
    have hv := meanCondDepth_unique hm d1
    have hr' : r ∈ rows.filter (fun r => decide (r.root = f ∧ r.var = g)) := by rw [hr]; simp
    obtain ⟨h1, h2⟩ := List.mem_filter.1 hr'
    have h2 := of_decide_eq_true h2
    refine List.mem_map.2 ⟨CmdRow.round binary64 r, List.mem_map.2 ⟨r, h1, rfl⟩, ?_⟩
    simp only [CmdRow.toOvo, CmdRow.round, hv, h2.1, h2.2, Arith.r, d3]
  have rowinv : ∀ r ∈ (rows.map (CmdRow.round binary64)).map CmdRow.toOvo, ∃ i j, i < m.columns.length ∧ j < m.columns.length ∧
      m.columns[i]? = some r.f1 ∧ m.columns[j]? = some r.f2 ∧ i ≠ j ∧ r = ⟨r.f1, r.f2, .fin (c i j)⟩ := by
    intro r hr
    obtain ⟨q, hq, rfl⟩ := List.mem_map.1 hr
    obtain ⟨x, hx, rfl⟩ := List.mem_map.1 hq
    obtain ⟨m1, m2, m3⟩ := hfeat x hx
    obtain ⟨i, hi', hi⟩ := idx _ m1
    obtain ⟨j, hj', hj⟩ := idx _ m2
    have hne : i ≠ j := by
      rintro rfl
      exact m3 (Option.some.inj (hi.symm.trans hj))
    obtain ⟨d1, d2, d3⟩ := hd i j hi' hj' hne
    obtain ⟨r', hr', hm, _⟩ := hrow i j _ _ hi hj m3
    have : x ∈ rows.filter (fun r => decide (r.root = x.root ∧ r.var = x.var)) := List.mem_filter.2 ⟨hx, by simp⟩
    rw [hr', List.mem_singleton] at this
    subst this
    have hv := meanCondDepth_unique hm d1
    refine ⟨i, j, hi', hj', hi, hj, hne, ?_⟩
    simp only [CmdRow.toOvo, CmdRow.round, hv, Arith.r, d3]
  generalize hovo : (rows.map (CmdRow.round binary64)).map CmdRow.toOvo = ovo at row rowinv
  have hov : (CmdMethod.view (I := I) E (CmdMethod.fitR binary64 (kahanSum binary64) E m s0).2).ovo = some ovo := by
    simp only [CmdMethod.view, ho, Option.map_some, hovo]
  have hdist : DistinctEdges true ovo := by
    rw [← hovo]
    unfold DistinctEdges
    rw [List.pairwise_map, List.pairwise_map]
    refine (cmd_distinct hfeat hrow).imp fun hne => ⟨hne, fun e => by cases e⟩
  -- values: floats, positive, and quotients do not underflow
  have cpos : ∀ i j, i < m.columns.length → j < m.columns.length → i ≠ j → 0 < c i j ∧ 1 ≤ 2 * (c i j * ts.length) ∧ c i j ≤ 2 * D := by
    intro i j hi hj hne
    obtain ⟨d1, d2, d3⟩ := hd i j hi hj hne
    obtain ⟨t0, b1, b2⟩ := meanCondDepth_bounds (m := 0) small d1 d2
    have tk : (ts.length : K) ≤ 2 ^ 60 := by
      have : ts.length ≤ 2 ^ 60 := by nlinarith [Nat.zero_le D, hT1]
      exact_mod_cast this
    have dk : (D : K) ≤ 2 ^ 60 := by
      have : D ≤ 2 ^ 60 := by nlinarith [Nat.zero_le D, hT1]
      exact_mod_cast this
    have lo : 1 / 2 ^ 60 ≤ d i j := by
      rw [div_le_iff₀ (by positivity)]
      exact b1.trans (mul_le_mul_of_nonneg_left tk d2.le)
    obtain ⟨f1, f2⟩ := binary64_factor lo (b2.trans dk) d3
    refine ⟨by linarith, ?_, by linarith⟩
    have := mul_le_mul_of_nonneg_right f1 t0.le
    linarith
  have hTK : (ts.length : K) * (D + 1) ≤ 2 ^ 51 := by exact_mod_cast hT1
  have hq : ∀ i j i' j', i < m.columns.length → j < m.columns.length → i ≠ j → i' < m.columns.length → j' < m.columns.length → i' ≠ j' →
      (binary64 : Arith K).rnd (c i j / c i' j') ≠ .fin 0 := by
    intro i j i' j' hi hj hne hi' hj' hne' e0
    obtain ⟨p1, p2, p3⟩ := cpos i j hi hj hne
    obtain ⟨q1, q2, q3⟩ := cpos i' j' hi' hj' hne'
    have tp : (0 : K) < ts.length := by exact_mod_cast hp0
    have hlow : (1 : K) / 2 ^ 60 ≤ c i j / c i' j' := by
      rw [div_le_div_iff₀ (by positivity) q1, one_mul]
      have h1 : c i' j' ≤ 2 * (c i j * ts.length) * (2 * D) := by
        have : (0 : K) ≤ 2 * D := by positivity
        nlinarith
      have h2 : 2 * (c i j * ts.length) * (2 * D) = c i j * (4 * (ts.length * D)) := by ring
      have h3 : (ts.length : K) * D ≤ 2 ^ 51 := by nlinarith
      have h4 : c i j * (4 * ((ts.length : K) * D)) ≤ c i j * 2 ^ 60 :=
        mul_le_mul_of_nonneg_left (by nlinarith) p1.le
      linarith
    obtain ⟨z, ez, hz⟩ := (binary64_accurate (K := K)).rnd_near (1 / 2 ^ 60) (by
      rw [abs_of_pos (by positivity)]
      have a1 : (1 : K) / 2 ^ 60 ≤ 1 := by norm_num
      exact a1.trans (one_le_pow₀ one_le_two))
    have zf := binary64_factor (le_refl _) (by norm_num) ez
    have z0 : 0 < z := lt_of_lt_of_le (by positivity) zf.1
    have := (binary64_ordered (K := K)).le hlow ez e0
    linarith
  obtain ⟨ia, ja, hia, hja, hnea, ha⟩ := habove
  obtain ⟨ib, jb, hib, hjb, hneb, hb⟩ := hbelow
  have mem : ∀ i j, i < m.columns.length → j < m.columns.length → i ≠ j → ∃ f g, m.columns[i]? = some f ∧ m.columns[j]? = some g ∧
      (⟨f, g, .fin (c i j)⟩ : OvoRow F K) ∈ ovo := by
    intro i j hi hj hne
    exact ⟨_, _, List.getElem?_eq_getElem hi, List.getElem?_eq_getElem hj, row i j _ _ (List.getElem?_eq_getElem hi) (List.getElem?_eq_getElem hj) hne⟩
  obtain ⟨fa, ga, _, _, ma⟩ := mem ia ja hia hja hnea
  obtain ⟨fb, gb, _, _, mb⟩ := mem ib jb hib hjb hneb
  have uval : ∀ r ∈ ovo, r.val = .fin (Num.toK r.val) ∧ (binary64 : Arith K).rnd (Num.toK r.val) = .fin (Num.toK r.val) ∧
      ∃ i j, i < m.columns.length ∧ j < m.columns.length ∧ i ≠ j ∧ Num.toK r.val = c i j := by
    intro r hr
    obtain ⟨i, j, hi, hj, _, _, hne, e⟩ := rowinv r hr
    have ev : r.val = .fin (c i j) := by rw [e]
    rw [ev]
    exact ⟨rfl, round64_idem (hd i j hi hj hne).2.2, i, j, hi, hj, hne, rfl⟩
  obtain ⟨w, hshow, hbd, hord⟩ := C161_ascending (A := binary64) binary64_ordered
    (v := CmdMethod.view (I := I) E (CmdMethod.fitR binary64 (kahanSum binary64) E m s0).2) rfl hp hov hdist
    (u := fun r => Num.toK r.val) (fun r hr => ⟨(uval r hr).1, (uval r hr).2.1⟩) hc ht hW hW0 hWf
    (fun r hr => by
      obtain ⟨_, _, i, j, hi, hj, hne, e⟩ := uval r hr
      simp only [e]
      exact (cpos i j hi hj hne).1.le)
    ⟨_, ma, _, mb, by
      have cb := (cpos ib jb hib hjb hneb).1
      simp only [keptValue, Num.toK, if_true, ha, not_lt.2 hb, if_false]
      exact cb.ne⟩
  obtain ⟨k1, k2⟩ := hord ⟨_, ma, ha⟩
    (fun r hr => by
      obtain ⟨_, _, i, j, hi, hj, hne, e⟩ := uval r hr
      simp only [e]
      exact (cpos i j hi hj hne).1)
    (fun r hr q hq' _ _ => by
      obtain ⟨_, _, i, j, hi, hj, hne, e⟩ := uval r hr
      obtain ⟨_, _, i', j', hi', hj', hne', e'⟩ := uval q hq'
      simp only [e, e']
      exact hq i j i' j' hi hj hne hi' hj' hne')
  obtain ⟨ti, edges, nodes, labels, e, s1, s2, s3⟩ := hshow
  let W' : Nat → Nat → K := fun i j => match m.columns[i]?, m.columns[j]? with
    | some f, some g => w ⟨f, g, .fin (c i j)⟩
    | _, _ => 0
  have hW' : ∀ i j f g, m.columns[i]? = some f → m.columns[j]? = some g → W' i j = w ⟨f, g, .fin (c i j)⟩ := by
    intro i j f g hi hj
    simp only [W', hi, hj]
  refine ⟨ti, edges, nodes, labels, W', e, s3, ?_, ?_, ?_⟩
  · intro f g
    constructor
    · intro hk
      obtain ⟨r, hr, e⟩ := s2 _ hk
      cases e
      obtain ⟨i, j, hi, hj, h1, h2, hne, _⟩ := rowinv r hr
      exact ⟨List.mem_of_getElem? h1, List.mem_of_getElem? h2, fun e => hne (inj h1 (by rw [e]; exact h2))⟩
    · rintro ⟨h1, h2, h3⟩
      obtain ⟨i, hi', hi⟩ := idx f h1
      obtain ⟨j, hj', hj⟩ := idx g h2
      have hne : i ≠ j := by rintro rfl; exact h3 (Option.some.inj (hi.symm.trans hj))
      rw [← Dict.get?_isSome_iff, s1 _ (row i j f g hi hj hne)]
      rfl
  · intro i j f g hi hj hne
    rw [hW' i j f g hi hj]
    have hr := row i j f g hi hj hne
    exact ⟨s1 _ hr, (hbd _ hr).1, (hbd _ hr).2, fun hlt => k2 _ hr hlt⟩
  · intro i j i' j' hi hj hne hi' hj' hne' hle hk
    obtain ⟨f, g, hf, hg, hr⟩ := mem i j hi hj hne
    obtain ⟨f', g', hf', hg', hr'⟩ := mem i' j' hi' hj' hne'
    rw [hW' i j f g hf hg, hW' i' j' f' g' hf' hg']
    exact k1 _ hr _ hr' ((binary64_ordered (K := K)).le hle (hd i j hi hj hne).2.2 (hd i' j' hi' hj' hne').2.2) hk

end Graph

section Cases
/-! One tree that splits three times on the first column and then on the second one: mean depths 2 and 1, threshold 1. -/

/-- the tree -/
def exChain : LTree := .node 0 0 (.node 1 0 (.node 2 0 (.node 3 1 (.leaf 4) (.leaf 5)) (.leaf 6)) (.leaf 7)) (.leaf 8)

/-- the same tree as scikit-learn stores it -/
def exChainA : SkTree := [⟨1, 8, 0⟩, ⟨2, 7, 0⟩, ⟨3, 6, 0⟩, ⟨4, 5, 1⟩, ⟨-1, -1, -2⟩, ⟨-1, -1, -2⟩, ⟨-1, -1, -2⟩, ⟨-1, -1, -2⟩, ⟨-1, -1, -2⟩]

theorem exChain_stored : TreeArray exChainA exChain := by
  refine ⟨rfl, ?_, List.Perm.refl _⟩
  simp [exChain, exChainA, LTree.Stores, LTree.id]

/-- a forest of this tree alone, with two columns -/
def exChainForest : Forest (Fin 4) := ⟨[0, 1], [exChainA]⟩

theorem exChainForest_of : ForestOf exChainForest [exChain] := by
  refine ⟨by decide, .cons ⟨exChain_stored, rfl⟩ .nil, ?_⟩
  intro t ht f hf
  rw [List.mem_singleton.1 ht] at hf
  obtain ⟨k, s, h, hs⟩ := hf
  show f < 2
  unfold exChain at h
  cases h with
  | here => simp [LTree.Splits] at hs; omega
  | right h => cases h; cases hs
  | left h => cases h with
    | here => simp [LTree.Splits] at hs; omega
    | right h => cases h; cases hs
    | left h => cases h with
      | here => simp [LTree.Splits] at hs; omega
      | right h => cases h; cases hs
      | left h => cases h with
        | here => simp [LTree.Splits] at hs; omega
        | right h => cases h; cases hs
        | left h => cases h; cases hs

/-- sorting and joining of names -/
def exChainEnv : CmdEnv (Fin 4) Nat ℚ := ⟨cmdSort, stableSort ImpRow.val true, stableSort CmdRow.val true, fun a b => 4 * a.val + b.val⟩

deriving instance DecidableEq for CmdRow

/-- the two depths -/
def exChainD (i j : Nat) : ℚ := if i = 0 then 2 else 1

theorem exChain_depths : ∀ i j, i < exChainForest.columns.length → j < exChainForest.columns.length → i ≠ j →
    IsMeanCondDepth [exChain] i j (.fin (exChainD i j)) ∧ 0 < exChainD i j ∧
      (binary64 : Arith ℚ).rnd (exChainD i j) = .fin (exChainD i j) := by
  obtain ⟨rows, h1, _, _, h4, _⟩ := C36_table exChainEnv sortsCmd_cmdSort exChainForest_of (by simp) (by simp [exChainForest]) CmdMethod.new
  have hc : (CmdMethod.fit exChainEnv exChainForest CmdMethod.new).2.ovo = some [⟨0, 1, .fin 2, 1⟩, ⟨1, 0, .fin 1, 0⟩] := by decide +kernel
  rw [hc] at h1
  cases h1
  intro i j hi hj hne
  have hi : i < 2 := hi
  have hj : j < 2 := hj
  have : (i = 0 ∧ j = 1) ∨ (i = 1 ∧ j = 0) := by omega
  rcases this with ⟨rfl, rfl⟩ | ⟨rfl, rfl⟩
  · obtain ⟨r, hr, hm, _⟩ := h4 0 1 0 1 rfl rfl (by decide)
    cases hr
    exact ⟨hm, by decide +kernel, by decide +kernel⟩
  · obtain ⟨r, hr, hm, _⟩ := h4 1 0 1 0 rfl rfl (by decide)
    cases hr
    exact ⟨hm, by decide +kernel, by decide +kernel⟩

/-- the hypotheses of `C165_cmd_graph` hold here; of the two edges, only the one from the second column to the first one is visible -/
example : ∃ ti edges nodes labels w, (CmdMethod.view (I := Unit) exChainEnv
      (CmdMethod.fitR binary64 (kahanSum binary64) exChainEnv exChainForest CmdMethod.new).2).plotGraphR binary64 exVis "default"
      { threshold := some 1 } = .ok [.graph ti true edges nodes labels] ∧
    Dict.get? edges (0, 1) = some (.fin 0) ∧ Dict.get? edges (1, 0) = some (.fin w) ∧ 0 ≤ w ∧ w ≤ 3 := by
  have hs : (graphOf ((CmdMethod.view (I := Unit) exChainEnv
      (CmdMethod.fitR binary64 (kahanSum binary64) exChainEnv exChainForest CmdMethod.new).2).plotGraphR binary64 exVis "default"
      { threshold := some 1 })).isSome = true := by
    decide +kernel
  obtain ⟨x, hx⟩ := Option.isSome_iff_exists.1 hs
  obtain ⟨ti, d, h⟩ := graphOf_some hx
  obtain ⟨ti', edges, nodes, labels, w, e, _, _, hw, _⟩ := C165_cmd_graph (D := 9) exChainEnv sortsCmd_cmdSort (sortsBy_stableSort _ _)
    exChainForest_of (by simp) (by simp [exChainForest]) (by decide) (by norm_num) CmdMethod.new exChain_depths h
    (cfg := ⟨["summary", "graph", "bar_chart", "heatmap", "bar_chart_conditional"], ⟨3, 5, 60 / 100⟩⟩) rfl (t := 1)
    (Or.inl rfl) rfl (by decide +kernel) (by decide +kernel) ⟨0, 1, by decide, by decide, by decide, by decide +kernel⟩
    ⟨1, 0, by decide, by decide, by decide, by decide +kernel⟩
  have h1 := hw 0 1 0 1 rfl rfl (by decide)
  have h2 := hw 1 0 1 0 rfl rfl (by decide)
  refine ⟨ti', edges, nodes, labels, w 1 0, by rw [h, e], ?_, h2.1, h2.2.1, h2.2.2.1⟩
  rw [h1.1, h1.2.2.2 (by decide +kernel)]

end Cases

end Artemis
