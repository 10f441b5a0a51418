import Verif.Props.PDCache
import Verif.Proofs.PDCostLemmas
import Verif.Examples.PDData

/-! # Property C109: what the partial dependence calculations ask of the model -/

set_option linter.unusedSectionVars false
set_option linter.unusedVariables false
set_option linter.unusedSimpArgs false

namespace Artemis
open Fam Spec

variable {F V N : Type*} [DecidableEq F] [LinearOrder V] [Flt N]
variable {g : Row F V → N} {p : Nat → List (Row F V) → Except Err (List N)}

theorem flatten_new {c0 c : List (List (Row F V))} {new : List (List (Row F V))} {q : List (Row F V)}
    (e : c = c0 ++ new) (h : c.flatten = c0.flatten ++ q) : new.flatten = q := by
  rw [e, List.flatten_append] at h
  exact List.append_cancel_left h

theorem filter_flatMap_known {α κ γ : Type*} (l : List α) (k : α → List κ) (un : κ → Bool) (known : α → Bool)
    (blk : κ → List γ) (h : ∀ a ∈ l, ∀ x ∈ k a, un x = !known a) :
    ((l.flatMap k).filter un).flatMap blk = ((l.filter (fun a => !known a)).flatMap k).flatMap blk := by
  congr 1
  rw [List.filter_flatMap]
  induction l with
  | nil => rfl
  | cons a l ih =>
    rw [List.flatMap_cons, ih (fun b hb => h b (List.mem_cons_of_mem _ hb)), List.filter_cons]
    have ha := h a (by simp)
    by_cases hk : known a = true
    · have : (k a).filter un = [] := by
        rw [List.filter_eq_nil_iff]; intro x hx; rw [ha x hx, hk]; simp
      simp [this, hk]
    · have : (k a).filter un = k a := by
        rw [List.filter_eq_self]; intro x hx; rw [ha x hx]; simpa using hk
      simp [this, hk]

/-- the cost of `calculate_pd_single` in terms of the cells -/
theorem single_cost {c : Calc F V N} (hg : Good g c) {features : Option (List F)}
    (nd : (features.getD c.X.cols).Nodup) (known : F → Bool)
    (h : ∀ f ∈ features.getD c.X.cols, ∀ v ∈ c.X.col f, ∃ x, cellS c (f, v) = some x ∧ Flt.isNaN x = !known f)
    (hret : (Calc.calculateSingle features c).1 = .ok ()) :
    ∃ new, (Calc.calculateSingle features c).2.calls = c.calls ++ new ∧
      new.flatten.Perm (((features.getD c.X.cols).filter fun f => !known f).flatMap (rowsSingle c.X)) := by
  obtain ⟨_, post⟩ := single_post hg hret _ (fun f _ => Nat.mul_le_mul_right _ (length_npUnique_le _ f))
  have hcfg := famS.frm_cfg _ _ post.frm
  obtain ⟨new, e, _⟩ := post.trace
  refine ⟨new, e, ?_⟩
  have hun : ∀ f ∈ features.getD c.X.cols, ∀ k ∈ keysS c.X f, famS.unknown c k = !known f := by
    intro f hf k hk
    simp only [keysS, List.mem_map, mem_npUnique] at hk
    obtain ⟨v, hv, rfl⟩ := hk
    obtain ⟨x, hx, hn⟩ := h f hf v hv
    have hx' : famS.cell c (f, v) = some x := hx
    simp only [unknown, hx', hn]
  have := post.once (reqS_nodup c.X features nd) (by
    intro k hk k' hk' hs
    simp only [reqS, List.mem_flatMap] at hk hk'
    obtain ⟨f, hf, hk⟩ := hk
    obtain ⟨f', hf', hk'⟩ := hk'
    rw [hun f hf k hk, hun f' hf' k' hk']
    simp only [keysS, List.mem_map] at hk hk'
    obtain ⟨v, _, rfl⟩ := hk
    obtain ⟨v', _, rfl⟩ := hk'
    have : f = f' := hs
    rw [this])
  rw [flatten_new e this, hcfg.1, reqS, filter_flatMap_known _ _ _ known _ hun]
  exact flatMap_perm_flatMap _ _ _ _ (fun f _ => keysS_rows c.X f)

/-- the cost of `calculate_pd_minus_single` in terms of the cells -/
theorem minus_cost {c : Calc F V N} (hg : Good g c) {features : Option (List F)}
    (nd : (features.getD c.X.cols).Nodup) (known : F → Bool)
    (h : ∀ f ∈ features.getD c.X.cols, ∀ i < c.X.len, ∃ x, cellM c (f, i) = some x ∧ Flt.isNaN x = !known f)
    (hret : (Calc.calculateMinus features c).1 = .ok ()) :
    ∃ new, (Calc.calculateMinus features c).2.calls = c.calls ++ new ∧
      new.flatten.Perm (((features.getD c.X.cols).filter fun f => !known f).flatMap (rowsMinus c.X)) := by
  obtain ⟨_, post⟩ := minus_post hg hret
  have hcfg := famM.frm_cfg _ _ post.frm
  obtain ⟨new, e, _⟩ := post.trace
  refine ⟨new, e, ?_⟩
  have hun : ∀ f ∈ features.getD c.X.cols, ∀ k ∈ keysM c.X f, famM.unknown c k = !known f := by
    intro f hf k hk
    simp only [keysM, List.mem_map, List.mem_range] at hk
    obtain ⟨v, hv, rfl⟩ := hk
    obtain ⟨x, hx, hn⟩ := h f hf v hv
    have hx' : famM.cell c (f, v) = some x := hx
    simp only [unknown, hx', hn]
  have := post.once (reqM_nodup c.X features nd) (by
    intro k hk k' hk' hs
    simp only [reqM, List.mem_flatMap] at hk hk'
    obtain ⟨f, hf, hk⟩ := hk
    obtain ⟨f', hf', hk'⟩ := hk'
    rw [hun f hf k hk, hun f' hf' k' hk']
    simp only [keysM, List.mem_map] at hk hk'
    obtain ⟨v, _, rfl⟩ := hk
    obtain ⟨v', _, rfl⟩ := hk'
    have : f = f' := hs
    rw [this])
  rw [flatten_new e this, hcfg.1, reqM, filter_flatMap_known _ _ _ known _ hun]
  exact flatMap_perm_flatMap _ _ _ _ (fun f _ => by rw [← keysM_rows]; rfl)

/-- the cost of `calculate_pd_pairs` in terms of the cells -/
theorem pairs_cost {c : Calc F V N} (hg : Good g c) {pairs : Option (List (F × F))} {all : Bool}
    (nd : (pairs.getD (combinations2 c.X.cols)).Pairwise (fun q q' => q ≠ q' ∧ q ≠ q'.swap))
    (hne : ∀ q ∈ pairs.getD (combinations2 c.X.cols), q.1 ≠ q.2)
    (hall : all = true ∨ ∀ q ∈ pairs.getD (combinations2 c.X.cols),
      c.X.rows.Pairwise (fun r r' => ¬ (r q.1 = r' q.1 ∧ r q.2 = r' q.2)))
    (known : F × F → Bool)
    (h : ∀ q ∈ pairs.getD (combinations2 c.X.cols), ∀ v ∈ valsP all c.X (canonPair c.X q),
      ∃ x, cellP c (canonPair c.X q, v) = some x ∧ Flt.isNaN x = !known q)
    (hret : (Calc.calculatePairs pairs all c).1 = .ok ()) :
    ∃ new, (Calc.calculatePairs pairs all c).2.calls = c.calls ++ new ∧
      new.flatten.Perm (((pairs.getD (combinations2 c.X.cols)).filter fun q => !known q).flatMap
        (fun q => rowsPair all c.X q.1 q.2)) := by
  obtain ⟨_, post⟩ := pairs_post hg hret
  have hcfg := famP.frm_cfg _ _ post.frm
  obtain ⟨new, e, _⟩ := post.trace
  refine ⟨new, e, ?_⟩
  have hv : ∀ q ∈ pairs.getD (combinations2 c.X.cols), (pairVals all c.X q.1 q.2).Nodup := by
    intro q hq
    unfold pairVals
    rcases all with _ | _
    · simp only [Bool.false_eq_true, if_false]
      rw [List.Nodup, List.pairwise_map]
      exact ((hall.resolve_left (by simp)) q hq).imp (fun h hc => h (Prod.mk.inj hc))
    · exact (List.nodup_dedup _).product (List.nodup_dedup _)
  have hun : ∀ q ∈ pairs.getD (combinations2 c.X.cols), ∀ k ∈ keysP all c.X q, famP.unknown c k = !known q := by
    intro q hq k hk
    simp only [keysP, List.mem_map] at hk
    obtain ⟨v, hv, rfl⟩ := hk
    obtain ⟨x, hx, hn⟩ := h q hq v hv
    have hx' : famP.cell c (canonPair c.X q, v) = some x := hx
    simp only [unknown, hx', hn]
  have := post.once (reqP_nodup c.X pairs all nd hv) (by
    intro k hk k' hk' hs
    have : k = k' := hs
    rw [this])
  rw [flatten_new e this, hcfg.1, reqP, filter_flatMap_known _ _ _ known _ hun]
  refine flatMap_perm_flatMap _ _ _ _ (fun q hq => keysP_rows all c.X q (hne q ?_))
  exact (List.mem_filter.1 hq).1

theorem canon_requests {X : Frame F V} {q : F × F} {op : PDOp F} (h : ¬ op.requestsP X q.1 q.2) :
    ¬ op.requestsP X (canonPair X q).1 (canonPair X q).2 := by
  intro hr
  refine h ?_
  simp only [canonPair] at hr
  split at hr
  · exact hr
  · cases op with
    | pairs ps all => simp only [PDOp.requestsP] at hr ⊢; exact hr.symm
    | single fs => exact hr
    | minus fs => exact hr

/-- **C109, single.** Distinct features, each of which is either completely known (`known`: all its values were
computed and are numbers) or was never requested: the model is asked for every data row with every value of every
feature that is not known yet, each exactly once, and for nothing else - after any history, with any batch size. -/
theorem C109_single_once (hw : RowWise g p) (X : Frame F V) (b : Int) (ops : List (PDOp F))
    (features : Option (List F)) (nd : (features.getD X.cols).Nodup) (known : F → Bool)
    (hknown : ∀ f ∈ features.getD X.cols, known f = true → ∀ v ∈ X.col f,
      ∃ x, (runOps (Calc.new p X b) ops).getSingle f [v] = .ok [x] ∧ Flt.isNaN x = false)
    (fresh : ∀ f ∈ features.getD X.cols, known f = false → ∀ op ∈ ops, ¬ op.requestsS X f)
    (hret : (Calc.calculateSingle features (runOps (Calc.new p X b) ops)).1 = .ok ()) :
    ∃ new, (Calc.calculateSingle features (runOps (Calc.new p X b) ops)).2.calls =
        (runOps (Calc.new p X b) ops).calls ++ new ∧
      new.flatten.Perm (((features.getD X.cols).filter fun f => !known f).flatMap (rowsSingle X)) := by
  have hX := ops_X hw X b ops
  have hg0 := good_new hw X b
  have hg := good_runOps hg0 ops
  obtain ⟨hc, _⟩ := single_post hg hret _ (fun f _ => Nat.mul_le_mul_right _ (length_npUnique_le _ f))
  rw [hX] at hc
  have := single_cost hg (features := features) (by rw [hX]; exact nd) known (by
    rw [hX]
    intro f hf v hv
    cases hk : known f with
    | true =>
      obtain ⟨x, hx, hn⟩ := hknown f hf hk v hv
      exact ⟨x, getSingle_one.1 hx, hn⟩
    | false =>
      refine ⟨Flt.nan, ?_, Flt.isNaN_nan⟩
      rw [(keep_runOps hg0 ops).1 (f, v) (fresh f hf hk)]
      exact new_cellS_eq X b (hc f hf) hv) hret
  rwa [hX] at this

/-- **C109, minus-single.** -/
theorem C109_minus_once (hw : RowWise g p) (X : Frame F V) (b : Int) (ops : List (PDOp F))
    (features : Option (List F)) (nd : (features.getD X.cols).Nodup) (known : F → Bool)
    (hknown : ∀ f ∈ features.getD X.cols, known f = true →
      ∃ xs, (runOps (Calc.new p X b) ops).getMinus f = .ok xs ∧ ∀ x ∈ xs, Flt.isNaN x = false)
    (fresh : ∀ f ∈ features.getD X.cols, known f = false → ∀ op ∈ ops, ¬ op.requestsM X f)
    (hret : (Calc.calculateMinus features (runOps (Calc.new p X b) ops)).1 = .ok ()) :
    ∃ new, (Calc.calculateMinus features (runOps (Calc.new p X b) ops)).2.calls =
        (runOps (Calc.new p X b) ops).calls ++ new ∧
      new.flatten.Perm (((features.getD X.cols).filter fun f => !known f).flatMap (rowsMinus X)) := by
  have hX := ops_X hw X b ops
  have hg0 := good_new hw X b
  have hg := good_runOps hg0 ops
  obtain ⟨hc, _⟩ := minus_post hg hret
  rw [hX] at hc
  have := minus_cost hg (features := features) (by rw [hX]; exact nd) known (by
    rw [hX]
    intro f hf i hi
    cases hk : known f with
    | true =>
      obtain ⟨xs, hx, hn⟩ := hknown f hf hk
      obtain ⟨ys, e, hl, hi'⟩ := getMinus_char hg.shape f (by rw [hX]; exact hc f hf)
      rw [e] at hx
      obtain rfl := Except.ok.inj hx
      rw [hX] at hl
      have hiy : i < ys.length := by omega
      refine ⟨ys[i], ?_, hn _ (List.getElem_mem hiy)⟩
      rw [← hi' i, List.getElem?_eq_getElem hiy]
    | false =>
      refine ⟨Flt.nan, ?_, Flt.isNaN_nan⟩
      rw [(keep_runOps hg0 ops).2.2 (f, i) (fresh f hf hk)]
      exact new_cellM_eq X b (hc f hf) hi) hret
  rwa [hX] at this

/-- **C109, pairs (partial).** Pairs of two different columns, no pair requested twice (in either order), each
either completely known or never requested before: with all combinations of values, the model is asked for every
data row with every pair of values of the pairs that are not known yet, exactly once. With the pairs of values that
occur in the data this needs that no two rows agree in both features. Missing: two such rows
(`C109_pairs_fails`). -/
theorem C109_pairs_once_partial (hw : RowWise g p) (X : Frame F V) (b : Int) (ops : List (PDOp F))
    (pairs : Option (List (F × F))) (all : Bool)
    (nd : (pairs.getD (combinations2 X.cols)).Pairwise (fun q q' => q ≠ q' ∧ q ≠ q'.swap))
    (hne : ∀ q ∈ pairs.getD (combinations2 X.cols), q.1 ∈ X.cols ∧ q.2 ∈ X.cols ∧ q.1 ≠ q.2)
    (hall : all = true ∨ ∀ q ∈ pairs.getD (combinations2 X.cols),
      X.rows.Pairwise (fun r r' => ¬ (r q.1 = r' q.1 ∧ r q.2 = r' q.2)))
    (known : F × F → Bool)
    (hknown : ∀ q ∈ pairs.getD (combinations2 X.cols), known q = true → ∀ v ∈ X.col q.1, ∀ v' ∈ X.col q.2,
      ∃ x, (runOps (Calc.new p X b) ops).getPairs q.1 q.2 [(v, v')] = .ok [x] ∧ Flt.isNaN x = false)
    (fresh : ∀ q ∈ pairs.getD (combinations2 X.cols), known q = false → ∀ op ∈ ops, ¬ op.requestsP X q.1 q.2)
    (hret : (Calc.calculatePairs pairs all (runOps (Calc.new p X b) ops)).1 = .ok ()) :
    ∃ new, (Calc.calculatePairs pairs all (runOps (Calc.new p X b) ops)).2.calls =
        (runOps (Calc.new p X b) ops).calls ++ new ∧
      new.flatten.Perm (((pairs.getD (combinations2 X.cols)).filter fun q => !known q).flatMap
        (fun q => rowsPair all X q.1 q.2)) := by
  have hX := ops_X hw X b ops
  have hg0 := good_new hw X b
  have hg := good_runOps hg0 ops
  have := pairs_cost hg (pairs := pairs) (all := all) (by rw [hX]; exact nd)
    (by rw [hX]; exact fun q hq => (hne q hq).2.2) (by rw [hX]; exact hall) known (by
    rw [hX]
    intro q hq v hv
    obtain ⟨m1, m2⟩ := mem_valsP hv
    obtain ⟨c1, c2, c3⟩ := hne q hq
    have hcm := canonPair_mem (X := X) (p := q) c1 c2 c3
    cases hk : known q with
    | true =>
      obtain ⟨f, f'⟩ := q
      by_cases hin : (f, f') ∈ combinations2 X.cols
      · have hc : canonPair X (f, f') = (f, f') := if_pos hin
        rw [hc] at m1 m2 ⊢
        obtain ⟨x, hx, hn⟩ := hknown (f, f') hq hk v.1 m1 v.2 m2
        have hx' := (getPairs_one hg.shape).1 hx
        rw [hX, hc, if_neg (by simp)] at hx'
        exact ⟨x, hx', hn⟩
      · have hc : canonPair X (f, f') = (f', f) := if_neg hin
        rw [hc] at m1 m2 ⊢
        obtain ⟨x, hx, hn⟩ := hknown (f, f') hq hk v.2 m2 v.1 m1
        have hx' := (getPairs_one hg.shape).1 hx
        rw [hX, hc, if_pos (by simp; intro h _; exact c3 h.symm)] at hx'
        exact ⟨x, hx', hn⟩
    | false =>
      refine ⟨Flt.nan, ?_, Flt.isNaN_nan⟩
      rw [(keep_runOps hg0 ops).2.1 (canonPair X q, v) (fun op ho => canon_requests (fresh q hq hk op ho))]
      exact new_cellP_eq X b hcm m1 m2) hret
  rwa [hX] at this

/-- **C109, upper bounds.** Whatever the history and the request (repeated entries included), a request that
returns never asks for more rows than one block of the data per value (single), per row (all-but-one) or per pair
of values (pairs) of the requested entries. -/
theorem C109_at_most (hw : RowWise g p) (X : Frame F V) (b : Int) (ops : List (PDOp F)) :
    (∀ features, (Calc.calculateSingle features (runOps (Calc.new p X b) ops)).1 = .ok () →
      ∃ new, (Calc.calculateSingle features (runOps (Calc.new p X b) ops)).2.calls =
          (runOps (Calc.new p X b) ops).calls ++ new ∧
        new.flatten.length ≤ ((features.getD X.cols).map fun f => (X.col f).dedup.length * X.rows.length).sum) ∧
    (∀ features, (Calc.calculateMinus features (runOps (Calc.new p X b) ops)).1 = .ok () →
      ∃ new, (Calc.calculateMinus features (runOps (Calc.new p X b) ops)).2.calls =
          (runOps (Calc.new p X b) ops).calls ++ new ∧
        new.flatten.length ≤ (features.getD X.cols).length * (X.rows.length * X.rows.length)) ∧
    (∀ pairs, (Calc.calculatePairs pairs true (runOps (Calc.new p X b) ops)).1 = .ok () →
      ∃ new, (Calc.calculatePairs pairs true (runOps (Calc.new p X b) ops)).2.calls =
          (runOps (Calc.new p X b) ops).calls ++ new ∧
        new.flatten.length ≤ ((pairs.getD (combinations2 X.cols)).map fun q =>
          (X.col q.1).dedup.length * (X.col q.2).dedup.length * X.rows.length).sum) ∧
    (∀ pairs, (Calc.calculatePairs pairs false (runOps (Calc.new p X b) ops)).1 = .ok () →
      ∃ new, (Calc.calculatePairs pairs false (runOps (Calc.new p X b) ops)).2.calls =
          (runOps (Calc.new p X b) ops).calls ++ new ∧
        new.flatten.length ≤
          (pairs.getD (combinations2 X.cols)).length * (X.rows.length * X.rows.length)) := by
  have hX := ops_X hw X b ops
  have hg0 := good_new hw X b
  have hg := good_runOps hg0 ops
  have hval : ∀ all (q : F × F), (valsP all X (canonPair X q)).length = (pairVals all X q.1 q.2).length := by
    intro all q
    unfold canonPair
    split
    · exact (valsP_perm all X q.1 q.2).length_eq
    · rw [(valsP_perm all X q.2 q.1).length_eq, (pairVals_swap all X q.1 q.2).length_eq, List.length_map]
  have hP : ∀ pairs all, (Calc.calculatePairs pairs all (runOps (Calc.new p X b) ops)).1 = .ok () →
      ∃ new, (Calc.calculatePairs pairs all (runOps (Calc.new p X b) ops)).2.calls =
          (runOps (Calc.new p X b) ops).calls ++ new ∧
        new.flatten.length ≤ ((pairs.getD (combinations2 X.cols)).map fun q =>
          (pairVals all X q.1 q.2).length * X.rows.length).sum := by
    intro pairs all hret
    obtain ⟨_, post⟩ := pairs_post hg hret
    have hcfg := famP.frm_cfg _ _ post.frm
    rw [hX] at post hcfg
    obtain ⟨new, e, _⟩ := post.trace
    obtain ⟨q, eq, hq⟩ := post.atMost
    refine ⟨new, e, ?_⟩
    rw [flatten_new e eq]
    refine hq.length_le.trans (Nat.le_of_eq ?_)
    rw [hcfg.1, reqP, List.flatMap_assoc, length_flatMap_sum]
    congr 1
    refine List.map_congr_left (fun q _ => ?_)
    refine (length_flatMap_const _ _ X.rows.length (fun k _ => blockPair_length X k)).trans ?_
    rw [keysP, List.length_map, hval]
  refine ⟨?_, ?_, ?_, ?_⟩
  · intro features hret
    obtain ⟨_, post⟩ := single_post hg hret _ (fun f _ => Nat.mul_le_mul_right _ (length_npUnique_le _ f))
    have hcfg := famS.frm_cfg _ _ post.frm
    rw [hX] at post hcfg
    obtain ⟨new, e, _⟩ := post.trace
    obtain ⟨q, eq, hq⟩ := post.atMost
    refine ⟨new, e, ?_⟩
    rw [flatten_new e eq]
    refine hq.length_le.trans (Nat.le_of_eq ?_)
    rw [hcfg.1, reqS, List.flatMap_assoc, length_flatMap_sum]
    congr 1
    refine List.map_congr_left (fun f _ => ?_)
    refine (length_flatMap_const _ _ X.rows.length (fun k _ => blockSingle_length X k)).trans ?_
    rw [keysS, List.length_map, (npUnique_perm_dedup _).length_eq]
  · intro features hret
    obtain ⟨_, post⟩ := minus_post hg hret
    have hcfg := famM.frm_cfg _ _ post.frm
    rw [hX] at post hcfg
    obtain ⟨new, e, _⟩ := post.trace
    obtain ⟨q, eq, hq⟩ := post.atMost
    refine ⟨new, e, ?_⟩
    rw [flatten_new e eq]
    refine hq.length_le.trans (Nat.le_of_eq ?_)
    rw [hcfg.1, reqM, List.flatMap_assoc]
    refine length_flatMap_const _ _ _ (fun f _ => ?_)
    rw [length_flatMap_const _ _ X.rows.length, keysM, List.length_map, List.length_range]
    · rfl
    · intro k hk
      simp only [keysM, List.mem_map, List.mem_range] at hk
      obtain ⟨i, hi, rfl⟩ := hk
      exact blockMinus_length hi
  · intro pairs hret
    obtain ⟨new, e, h⟩ := hP pairs true hret
    refine ⟨new, e, ?_⟩
    have hl : ∀ q : F × F, ((X.col q.1).dedup.product (X.col q.2).dedup).length =
        (X.col q.1).dedup.length * (X.col q.2).dedup.length := fun q => List.length_product _ _
    simp only [pairVals, if_true, hl] at h
    exact h
  · intro pairs hret
    obtain ⟨new, e, h⟩ := hP pairs false hret
    refine ⟨new, e, ?_⟩
    simpa [pairVals] using h

section Cases
open Ex

/-- **C109 fails for the pairs of values in the data.** Rows 2 and 3, and rows 1 and 4, agree in features 1 and 2:
there are two distinct pairs of values, which need 8 rows. With a batch size of 100 the model is asked for 16 rows:
each pair of values is queued once per row. With a batch size of 0 it is asked for 8. -/
theorem C109_pairs_fails :
    (pairVals false exX 1 2).dedup.length * exX.rows.length = 8 ∧
    ok (Calc.calculatePairs (some [(1, 2)]) false (Calc.new exP exX 100)).1 = true ∧
    (Calc.calculatePairs (some [(1, 2)]) false (Calc.new exP exX 100)).2.calls.flatten.length = 16 ∧
    (Calc.calculatePairs (some [(1, 2)]) false (Calc.new exP exX 0)).2.calls.flatten.length = 8 := by
  decide +kernel

/-- C109: after other requests, all features at once: 24 rows in two calls -/
example : ok (Calc.calculateSingle none (runOps (Calc.new exP exX 10) [.pairs none true, .minus (some [1])])).1 = true ∧
    ((Calc.calculateSingle none (runOps (Calc.new exP exX 10) [.pairs none true, .minus (some [1])])).2.calls.drop
      (runOps (Calc.new exP exX 10) [.pairs none true, .minus (some [1])]).calls.length).map List.length = [16, 8] ∧
    ((exX.cols.flatMap (rowsSingle exX)).length = 24) := by decide +kernel

/-- the history of the next example -/
def exCostOps : List (PDOp (Fin 3)) := [.pairs none true, .minus (some [1]), .single (some [0])]

/-- is the answer one number (not NaN)? -/
def isNumber (r : Except Err (List (Num ℚ))) : Bool :=
  match r with
  | .ok [x] => !Flt.isNaN x
  | _ => false

theorem isNumber_iff {r : Except Err (List (Num ℚ))} :
    isNumber r = true ↔ ∃ x, r = .ok [x] ∧ Flt.isNaN x = false := by
  constructor
  · intro h
    match r, h with
    | .ok [x], h => exact ⟨x, rfl, by simpa [isNumber] using h⟩
  · rintro ⟨x, rfl, h⟩; simp [isNumber, h]

/-- the hypotheses of `C109_single_once` are met -/
example : ∃ new : List (List (Row (Fin 3) ℤ)), new.flatten.Perm ([(1 : Fin 3), 2].flatMap (rowsSingle exX)) := by
  obtain ⟨new, _, h⟩ := C109_single_once rowWise_p exX 10 exCostOps none (by decide) (fun f => f == 0) (by
    have : ∀ v ∈ exX.col 0, isNumber ((runOps (Calc.new exP exX 10) exCostOps).getSingle 0 [v]) = true := by
      decide +kernel
    intro f _ hf v hv
    have hf : f = 0 := by simpa using hf
    subst hf
    exact isNumber_iff.1 (this v hv)) (by
    intro f _ hf op ho
    simp only [exCostOps, List.mem_cons, List.not_mem_nil, or_false] at ho
    rcases ho with rfl | rfl | rfl
    · exact id
    · exact id
    · simpa [PDOp.requestsS] using hf) (ok_unit (by decide +kernel))
  exact ⟨new, h⟩

/-- C109, all-but-one: 48 rows for three features and four rows -/
example : (∃ new, (Calc.calculateMinus none (runOps (Calc.new exP exX 10) [])).2.calls =
      (runOps (Calc.new exP exX 10) []).calls ++ new ∧
    new.flatten.Perm ((Option.getD none exX.cols).flatMap (rowsMinus exX))) ∧
    (exX.cols.flatMap (rowsMinus exX)).length = 48 :=
  ⟨C109_minus_once rowWise_p exX 10 [] none (by decide) (fun _ => false) (by simp) (by simp) (ok_unit (by decide +kernel)), by decide +kernel⟩

/-- C109, pairs: all combinations of values; and the pair (1, 0), in whose values no two rows agree -/
example : (∃ new : List (List (Row (Fin 3) ℤ)),
      new.flatten.Perm ((combinations2 exX.cols).flatMap fun q => rowsPair true exX q.1 q.2)) ∧
    (∃ new : List (List (Row (Fin 3) ℤ)),
      new.flatten.Perm ([((1 : Fin 3), (0 : Fin 3))].flatMap fun q => rowsPair false exX q.1 q.2)) := by
  obtain ⟨n1, _, h1⟩ := C109_pairs_once_partial rowWise_p exX 10 [] none true (by decide) (by decide) (Or.inl rfl)
    (fun _ => false) (by simp) (by simp) (ok_unit (by decide +kernel))
  obtain ⟨n2, _, h2⟩ := C109_pairs_once_partial rowWise_p exX 10 [] (some [(1, 0)]) false (by decide)
    (by decide) (Or.inr (by decide)) (fun _ => false) (by simp) (by simp) (ok_unit (by decide +kernel))
  exact ⟨⟨n1, h1⟩, ⟨n2, h2⟩⟩

end Cases

end Artemis
