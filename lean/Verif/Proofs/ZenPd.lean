import Verif.Proofs.ZenLemmas
import Verif.Proofs.FitSpec
import Verif.Props.PD

/-! Lemmas about the values drawn in zenplots and profiles. -/

set_option linter.unusedSectionVars false
set_option linter.unusedVariables false
set_option linter.unusedSimpArgs false

namespace Artemis

/-- entry of a matrix -/
def cell2 {α : Type*} (m : List (List α)) (i j : Nat) : Option α := (m[i]?).bind (fun row => row[j]?)

theorem filterMap_col {α : Type*} {j : Nat} : ∀ {m : List (List α)} (h : ∀ row ∈ m, j < row.length) (i : Nat),
    (m.filterMap (fun row => row[j]?))[i]? = (m[i]?).bind (fun row => row[j]?)
  | [], _, i => by simp
  | r :: m, h, i => by
    have hr : r[j]? = some (r[j]'(h r List.mem_cons_self)) := List.getElem?_eq_getElem _
    rw [List.filterMap_cons_some (f := fun row : List α => row[j]?) hr]
    cases i with
    | zero => simp [hr]
    | succ i =>
      simp only [List.getElem?_cons_succ]
      exact filterMap_col (fun row hrow => h row (List.mem_cons_of_mem _ hrow)) i

theorem cell2_columns {α : Type*} {w : Nat} {m : List (List α)} (h : ∀ row ∈ m, row.length = w) (i j : Nat) :
    cell2 (columns w m) j i = cell2 m i j := by
  unfold cell2 columns
  by_cases hj : j < w
  · rw [List.getElem?_map, List.getElem?_range hj]
    simp only [Option.map_some, Option.bind_some]
    exact filterMap_col (fun row hrow => by rw [h row hrow]; exact hj) i
  · rw [List.getElem?_eq_none (by simpa using hj)]
    simp only [Option.bind_none]
    cases e : m[i]? with
    | none => rfl
    | some row =>
      simp only [Option.bind_some]
      rw [List.getElem?_eq_none]
      rw [h row (List.mem_of_getElem? e)]; omega

theorem length_columns {α : Type*} (w : Nat) (m : List (List α)) : (columns w m).length = w := by simp [columns]

theorem columns_row {α : Type*} {w : Nat} {m : List (List α)} (h : ∀ row ∈ m, row.length = w) :
    ∀ row ∈ columns w m, row.length = m.length := by
  intro row hrow
  obtain ⟨j, hj, rfl⟩ := List.mem_map.1 hrow
  have hj := List.mem_range.1 hj
  induction m with
  | nil => simp
  | cons r m ih =>
    have hl : j < r.length := by rw [h r List.mem_cons_self]; exact hj
    have hr : r[j]? = some (r[j]'hl) := List.getElem?_eq_getElem _
    rw [List.filterMap_cons_some (f := fun row : List α => row[j]?) hr]
    simp only [List.length_cons]
    rw [ih (fun row hrow => h row (List.mem_cons_of_mem _ hrow))]
    exact List.mem_map.2 ⟨j, List.mem_range.2 hj, rfl⟩

variable {F V K : Type} [DecidableEq F] [LinearOrder V] [Field K] [LinearOrder K] [IsStrictOrderedRing K]

/-- a calculator made by its constructor and used through its public methods only -/
def PublicCalc (g : Row F V → Num K) (c : Calc F V (Num K)) : Prop :=
  ∃ (p : PF F V (Num K)) (X : Frame F V) (b : Int) (ops : List (PDOp F)), RowWise g p ∧ c = runOps (Calc.new p X b) ops

variable {g : Row F V → Num K} {c : Calc F V (Num K)}

theorem PublicCalc.good (h : PublicCalc g c) : Good g c := by
  obtain ⟨p, X, b, ops, hw, rfl⟩ := h
  exact good_runOps (good_new hw X b) ops

theorem PublicCalc.runs (h : PublicCalc g c) {c' : Calc F V (Num K)} (h' : Runs c c') : PublicCalc g c' := by
  obtain ⟨p, X, b, ops, hw, rfl⟩ := h
  obtain ⟨ops', rfl⟩ := h'
  exact ⟨p, X, b, ops ++ ops', hw, by rw [runOps_append]⟩

theorem PublicCalc.symm (h : PublicCalc g c) (nd : c.X.cols.Nodup) {f f' : F} (hne : f ≠ f') (vs : List (V × V)) :
    c.getPairs f f' vs = c.getPairs f' f (vs.map Prod.swap) := by
  obtain ⟨p, X, b, ops, hw, rfl⟩ := h
  rw [ops_X hw] at nd
  exact C08_pair_lookup_symmetric p X nd b ops f f' hne vs

/-- **Specification of a mesh.** The matrix drawn over `xs` (left to right) and `ys` (bottom to top) shows the stored partial
dependence of the feature `fx` on the horizontal and `fy` on the vertical axis: the coordinates are the values of the two
features in increasing order, and the entry in row `i`, column `j` is what the calculator returns for the two values. -/
structure ShowsPd (c : Calc F V (Num K)) (fx fy : F) (xs ys : List V) (mesh : List (List (Num K))) : Prop where
  xs_sorted : xs.Pairwise (· < ·)
  ys_sorted : ys.Pairwise (· < ·)
  xs_mem : ∀ v, v ∈ xs ↔ v ∈ c.X.col fx
  ys_mem : ∀ v, v ∈ ys ↔ v ∈ c.X.col fy
  height : mesh.length = ys.length
  width : ∀ row ∈ mesh, row.length = xs.length
  entry : ∀ i j x y, xs[j]? = some x → ys[i]? = some y →
    ∃ v, cell2 mesh i j = some v ∧ c.getPairs fx fy [(x, y)] = .ok [v] ∧ c.getPairs fy fx [(y, x)] = .ok [v]

/-- swapping the axes and transposing the matrix -/
theorem ShowsPd.transpose {fx fy : F} {xs ys : List V} {mesh : List (List (Num K))} (h : ShowsPd c fx fy xs ys mesh) :
    ShowsPd c fy fx ys xs (columns xs.length mesh) where
  xs_sorted := h.ys_sorted
  ys_sorted := h.xs_sorted
  xs_mem := h.ys_mem
  ys_mem := h.xs_mem
  height := length_columns _ _
  width := fun row hrow => by rw [columns_row h.width row hrow, h.height]
  entry := fun i j x y hx hy => by
    obtain ⟨v, h1, h2, h3⟩ := h.entry j i y x hy hx
    exact ⟨v, by rw [cell2_columns h.width]; exact h1, h3, h2⟩

/-- the stored table of a pair in the order of the table -/
theorem table_shows (hp : PublicCalc g c) (nd : c.X.cols.Nodup) {k : F × F} {t : PairTab V (Num K)}
    (h : c.pdPairs.get? k = some t) : ShowsPd c k.2 k.1 t.f2Values t.f1Values t.pdValues := by
  have hs := hp.good.shape
  obtain ⟨h1, h2, h3, h4⟩ := hs.pair _ _ h
  have hk : k ∈ combinations2 c.X.cols := by
    rw [← hs.pair_keys, ← Dict.get?_isSome_iff, h]; rfl
  have hne : k.1 ≠ k.2 := ne_of_mem_combinations2 nd hk
  have hc : canonPair c.X (k.1, k.2) = (k.1, k.2) := if_pos hk
  refine ⟨by rw [h2]; exact sorted_npUnique _, by rw [h1]; exact sorted_npUnique _, ?_, ?_, h3, h4, ?_⟩
  · intro v; rw [h2, mem_npUnique]
  · intro v; rw [h1, mem_npUnique]
  · intro i j x y hx hy
    have hcell : ∃ v, cell2 t.pdValues i j = some v := by
      have hi : i < t.pdValues.length := by
        rw [h3]; exact (List.getElem?_eq_some_iff.1 hy).1
      have hj : j < (t.pdValues[i]).length := by
        rw [h4 _ (List.getElem_mem hi)]; exact (List.getElem?_eq_some_iff.1 hx).1
      exact ⟨t.pdValues[i][j], by simp [cell2, List.getElem?_eq_getElem hi, List.getElem?_eq_getElem hj]⟩
    obtain ⟨v, hv⟩ := hcell
    have hix : t.f2Values.idxOf x = j := by
      have hj := List.getElem?_eq_some_iff.1 hx
      rw [← hj.2]
      exact List.Nodup.idxOf_getElem (by rw [h2]; exact nodup_npUnique _) _ _
    have hiy : t.f1Values.idxOf y = i := by
      have hj := List.getElem?_eq_some_iff.1 hy
      rw [← hj.2]
      exact List.Nodup.idxOf_getElem (by rw [h1]; exact nodup_npUnique _) _ _
    have hl : c.getPairs k.1 k.2 [(y, x)] = .ok [v] := by
      rw [getPairs_one hs, hc]
      simp only [ne_eq, not_true, if_false, cellP, h, Option.bind_some]
      rw [if_pos ⟨List.mem_of_getElem? hy, List.mem_of_getElem? hx⟩, hix, hiy]
      exact hv
    refine ⟨v, hv, ?_, hl⟩
    rw [hp.symm nd (fun e => hne e.symm)]
    exact hl

/-- `get_pd_pairs_values` returns the table of the pair in the order asked for -/
theorem pairsValues_shows (hp : PublicCalc g c) (nd : c.X.cols.Nodup) {f f' : F} {t : PairTab V (Num K)}
    (h : getPdPairsValues c (f, f') = .ok t) : ShowsPd c f' f t.f2Values t.f1Values t.pdValues := by
  have hs := hp.good.shape
  unfold getPdPairsValues at h
  cases e : c.pdPairs.get? (c.pairKey (f, f')) with
  | none => rw [e] at h; cases h
  | some t0 =>
    rw [e] at h
    simp only at h
    have hsh := table_shows hp nd e
    have hk : c.pairKey (f, f') ∈ combinations2 c.X.cols := by
      rw [← hs.pair_keys, ← Dict.get?_isSome_iff, e]; rfl
    by_cases hin : (f, f') ∈ c.pdPairs.keys
    · have hkk : c.pairKey (f, f') = (f, f') := if_pos hin
      rw [hkk] at h hsh
      simp only [ne_eq, not_true, if_false, Except.ok.injEq] at h
      subst h
      exact hsh
    · have hkk : c.pairKey (f, f') = (f', f) := if_neg hin
      rw [hkk] at h hsh hk
      have hne : f' ≠ f := ne_of_mem_combinations2 nd hk
      rw [if_pos hne] at h
      cases h
      exact hsh.transpose

theorem pairsValues_ok (hp : PublicCalc g c) (nd : c.X.cols.Nodup) {f f' : F} :
    (∃ t, getPdPairsValues c (f, f') = .ok t) ↔ f ∈ c.X.cols ∧ f' ∈ c.X.cols ∧ f ≠ f' := by
  have hs := hp.good.shape
  have hm := canonPair_mem_iff (X := c.X) nd (p := (f, f'))
  unfold getPdPairsValues
  rw [← hm, ← pairKey_eq hs, ← hs.pair_keys, ← Dict.get?_isSome_iff]
  cases e : c.pdPairs.get? (c.pairKey (f, f')) with
  | none => simp
  | some t =>
    simp only [Option.isSome_some, iff_true]
    split <;> exact ⟨_, rfl⟩

theorem pairsValues_error (hp : PublicCalc g c) (nd : c.X.cols.Nodup) {f f' : F}
    (h : ¬ (f ∈ c.X.cols ∧ f' ∈ c.X.cols ∧ f ≠ f')) : getPdPairsValues c (f, f') = .error .keyError := by
  rw [← pairsValues_ok hp nd] at h
  unfold getPdPairsValues at *
  cases e : c.pdPairs.get? (c.pairKey (f, f')) with
  | none => rfl
  | some t =>
    rw [e] at h
    simp only at h
    exfalso
    apply h
    split <;> exact ⟨_, rfl⟩

/-! ### The colour scale -/

theorem foldl_max_num : ∀ (l : List (Num K)) (a : Num K), a ≠ .nan → (∀ v ∈ l, v ≠ .nan) →
    ∃ M, l.foldl (fun m x => if Num.isNaN m then m else if Num.isNaN x then x else if Num.le m x then x else m) a = M ∧
      M ∈ a :: l ∧ ∀ v ∈ a :: l, Num.le v M = true
  | [], a, ha, _ => ⟨a, rfl, by simp, by simpa using Num.le_refl' ha⟩
  | x :: l, a, ha, hl => by
    have hx : x ≠ .nan := hl x List.mem_cons_self
    have na : Num.isNaN a = false := by
      cases e : Num.isNaN a with
      | false => rfl
      | true => exact absurd ((Num.isNaN_iff a).1 e) ha
    have nx : Num.isNaN x = false := by
      cases e : Num.isNaN x with
      | false => rfl
      | true => exact absurd ((Num.isNaN_iff x).1 e) hx
    simp only [List.foldl_cons, na, nx, Bool.false_eq_true, if_false]
    by_cases h : Num.le a x = true
    · rw [if_pos h]
      obtain ⟨M, h1, h2, h3⟩ := foldl_max_num l x hx (fun v hv => hl v (List.mem_cons_of_mem _ hv))
      refine ⟨M, h1, List.mem_cons_of_mem _ h2, ?_⟩
      intro v hv
      rcases List.mem_cons.1 hv with rfl | hv
      · exact Num.le_trans' h (h3 x List.mem_cons_self)
      · exact h3 v hv
    · rw [if_neg h]
      obtain ⟨M, h1, h2, h3⟩ := foldl_max_num l a ha (fun v hv => hl v (List.mem_cons_of_mem _ hv))
      refine ⟨M, h1, ?_, ?_⟩
      · rcases List.mem_cons.1 h2 with rfl | h2
        · exact List.mem_cons_self
        · exact List.mem_cons_of_mem _ (List.mem_cons_of_mem _ h2)
      · intro v hv
        rcases List.mem_cons.1 hv with rfl | hv
        · exact h3 v List.mem_cons_self
        · rcases List.mem_cons.1 hv with rfl | hv
          · exact Num.le_trans' ((Num.le_total' ha hx).resolve_left h) (h3 a List.mem_cons_self)
          · exact h3 v (List.mem_cons_of_mem _ hv)

theorem max?_num {l : List (Num K)} (hne : l ≠ []) (h : ∀ v ∈ l, v ≠ .nan) :
    ∃ M, Num.max? l = some M ∧ M ∈ l ∧ ∀ v ∈ l, Num.le v M = true := by
  cases l with
  | nil => exact absurd rfl hne
  | cons a l =>
    obtain ⟨M, h1, h2, h3⟩ := foldl_max_num l a (h a List.mem_cons_self) (fun v hv => h v (List.mem_cons_of_mem _ hv))
    exact ⟨M, by simp only [Num.max?, h1], h2, h3⟩

theorem foldl_min_num : ∀ (l : List (Num K)) (a : Num K), a ≠ .nan → (∀ v ∈ l, v ≠ .nan) →
    ∃ M, l.foldl (fun m x => if Num.isNaN m then m else if Num.isNaN x then x else if Num.le x m then x else m) a = M ∧
      M ∈ a :: l ∧ ∀ v ∈ a :: l, Num.le M v = true
  | [], a, ha, _ => ⟨a, rfl, by simp, by simpa using Num.le_refl' ha⟩
  | x :: l, a, ha, hl => by
    have hx : x ≠ .nan := hl x List.mem_cons_self
    have na : Num.isNaN a = false := by
      cases e : Num.isNaN a with
      | false => rfl
      | true => exact absurd ((Num.isNaN_iff a).1 e) ha
    have nx : Num.isNaN x = false := by
      cases e : Num.isNaN x with
      | false => rfl
      | true => exact absurd ((Num.isNaN_iff x).1 e) hx
    simp only [List.foldl_cons, na, nx, Bool.false_eq_true, if_false]
    by_cases h : Num.le x a = true
    · rw [if_pos h]
      obtain ⟨M, h1, h2, h3⟩ := foldl_min_num l x hx (fun v hv => hl v (List.mem_cons_of_mem _ hv))
      refine ⟨M, h1, List.mem_cons_of_mem _ h2, ?_⟩
      intro v hv
      rcases List.mem_cons.1 hv with rfl | hv
      · exact Num.le_trans' (h3 x List.mem_cons_self) h
      · exact h3 v hv
    · rw [if_neg h]
      obtain ⟨M, h1, h2, h3⟩ := foldl_min_num l a ha (fun v hv => hl v (List.mem_cons_of_mem _ hv))
      refine ⟨M, h1, ?_, ?_⟩
      · rcases List.mem_cons.1 h2 with rfl | h2
        · exact List.mem_cons_self
        · exact List.mem_cons_of_mem _ (List.mem_cons_of_mem _ h2)
      · intro v hv
        rcases List.mem_cons.1 hv with rfl | hv
        · exact h3 v List.mem_cons_self
        · rcases List.mem_cons.1 hv with rfl | hv
          · exact Num.le_trans' (h3 a List.mem_cons_self) ((Num.le_total' ha hx).resolve_right h)
          · exact h3 v (List.mem_cons_of_mem _ hv)

theorem min?_num {l : List (Num K)} (hne : l ≠ []) (h : ∀ v ∈ l, v ≠ .nan) :
    ∃ M, Num.min? l = some M ∧ M ∈ l ∧ ∀ v ∈ l, Num.le M v = true := by
  cases l with
  | nil => exact absurd rfl hne
  | cons a l =>
    obtain ⟨M, h1, h2, h3⟩ := foldl_min_num l a (h a List.mem_cons_self) (fun v hv => h v (List.mem_cons_of_mem _ hv))
    exact ⟨M, by simp only [Num.min?, h1], h2, h3⟩

theorem foldl_nan (f : Num K → Num K → Bool) : ∀ (l : List (Num K)) (a : Num K), (a = .nan ∨ .nan ∈ l) →
    l.foldl (fun m x => if Num.isNaN m then m else if Num.isNaN x then x else if f m x then x else m) a = .nan
  | [], a, h => by simpa using h
  | x :: l, a, h => by
    simp only [List.foldl_cons]
    apply foldl_nan f l
    by_cases ha : a = .nan
    · left; rw [ha]; rfl
    · by_cases hx : x = .nan
      · left
        rw [hx]
        split
        · next e => exact (Num.isNaN_iff a).1 e
        · rfl
      · right
        rcases h with h | h
        · exact absurd h ha
        · rcases List.mem_cons.1 h with h | h
          · exact absurd h.symm hx
          · exact h

theorem max?_nan {l : List (Num K)} (h : .nan ∈ l) : Num.max? l = some .nan := by
  cases l with
  | nil => cases h
  | cons a l =>
    simp only [Num.max?]
    rw [foldl_nan (fun m x => Num.le m x) l a (by
      rcases List.mem_cons.1 h with h | h
      · exact Or.inl h.symm
      · exact Or.inr h)]

theorem min?_nan {l : List (Num K)} (h : .nan ∈ l) : Num.min? l = some .nan := by
  cases l with
  | nil => cases h
  | cons a l =>
    simp only [Num.min?]
    rw [foldl_nan (fun m x => Num.le x m) l a (by
      rcases List.mem_cons.1 h with h | h
      · exact Or.inl h.symm
      · exact Or.inr h)]

/-- the values stored for a pair -/
def pairVals (c : Calc F V (Num K)) (p : F × F) : List (Num K) :=
  match c.pdPairs.get? (c.pairKey p) with
  | none => []
  | some t => t.pdValues.flatten

theorem mem_flatten_iff {α : Type*} {m : List (List α)} {v : α} : v ∈ m.flatten ↔ ∃ i j, cell2 m i j = some v := by
  rw [List.mem_flatten]
  constructor
  · rintro ⟨row, hr, hv⟩
    obtain ⟨i, hi⟩ := List.mem_iff_getElem?.1 hr
    obtain ⟨j, hj⟩ := List.mem_iff_getElem?.1 hv
    exact ⟨i, j, by simp [cell2, hi, hj]⟩
  · rintro ⟨i, j, h⟩
    unfold cell2 at h
    cases e : m[i]? with
    | none => rw [e] at h; cases h
    | some row =>
      rw [e] at h
      exact ⟨row, List.mem_of_getElem? e, List.mem_of_getElem? h⟩

/-- the entries of a mesh are exactly the values returned by the calculator -/
theorem ShowsPd.mem_iff {fx fy : F} {xs ys : List V} {mesh : List (List (Num K))} (h : ShowsPd c fx fy xs ys mesh) {v : Num K} :
    v ∈ mesh.flatten ↔ ∃ x ∈ c.X.col fx, ∃ y ∈ c.X.col fy, c.getPairs fx fy [(x, y)] = .ok [v] := by
  rw [mem_flatten_iff]
  constructor
  · rintro ⟨i, j, hv⟩
    have hi : i < mesh.length := by
      by_contra hn
      rw [cell2, List.getElem?_eq_none (by omega)] at hv; cases hv
    have hj : j < (mesh[i]).length := by
      by_contra hn
      rw [cell2, List.getElem?_eq_getElem hi] at hv
      simp only [Option.bind_some] at hv
      rw [List.getElem?_eq_none (by omega)] at hv; cases hv
    rw [h.height] at hi
    rw [h.width _ (List.getElem_mem _)] at hj
    obtain ⟨w, h1, h2, _⟩ := h.entry i j _ _ (List.getElem?_eq_getElem hj) (List.getElem?_eq_getElem hi)
    rw [h1] at hv
    cases hv
    exact ⟨_, (h.xs_mem _).1 (List.getElem_mem _), _, (h.ys_mem _).1 (List.getElem_mem _), h2⟩
  · rintro ⟨x, hx, y, hy, hv⟩
    obtain ⟨j, hj⟩ := List.mem_iff_getElem?.1 ((h.xs_mem x).2 hx)
    obtain ⟨i, hi⟩ := List.mem_iff_getElem?.1 ((h.ys_mem y).2 hy)
    obtain ⟨w, h1, h2, _⟩ := h.entry i j x y hj hi
    rw [h2] at hv
    cases hv
    exact ⟨i, j, h1⟩

theorem getPairs_cols (hp : PublicCalc g c) (nd : c.X.cols.Nodup) {f f' : F} {x y : V} {w : Num K}
    (h : c.getPairs f f' [(x, y)] = .ok [w]) : x ∈ c.X.col f ∧ y ∈ c.X.col f' := by
  have hs := hp.good.shape
  rw [getPairs_one hs] at h
  have := ((isSome_cellP hs _).1 (by rw [h]; rfl)).2
  simp only at this
  by_cases hin : (f, f') ∈ combinations2 c.X.cols
  · have hc : canonPair c.X (f, f') = (f, f') := if_pos hin
    rw [hc] at this
    simpa using this
  · have hc : canonPair c.X (f, f') = (f', f) := if_neg hin
    rw [hc] at this
    by_cases hff : f' = f
    · rw [hff] at this ⊢
      simpa using this
    · rw [if_pos (by intro e; exact hff (Prod.mk.inj e).1)] at this
      exact ⟨this.2, this.1⟩

theorem pairVals_mem (hp : PublicCalc g c) (nd : c.X.cols.Nodup) {f f' : F} {v : Num K} :
    v ∈ pairVals c (f, f') ↔ ∃ x y, c.getPairs f f' [(x, y)] = .ok [v] := by
  have hs := hp.good.shape
  unfold pairVals
  cases e : c.pdPairs.get? (c.pairKey (f, f')) with
  | none =>
    simp only [List.not_mem_nil, false_iff]
    rintro ⟨x, y, h⟩
    rw [getPairs_one hs] at h
    have := ((isSome_cellP hs _).1 (by rw [h]; rfl)).1
    simp only at this
    rw [← pairKey_eq hs, ← hs.pair_keys, ← Dict.get?_isSome_iff, e] at this
    cases this
  | some t =>
    simp only
    have hk : c.pairKey (f, f') ∈ combinations2 c.X.cols := by
      rw [← hs.pair_keys, ← Dict.get?_isSome_iff, e]; rfl
    have hcols : ∀ x y w, c.getPairs f f' [(x, y)] = .ok [w] → x ∈ c.X.col f ∧ y ∈ c.X.col f' := fun x y w h => getPairs_cols hp nd h
    have hsh := table_shows hp nd e
    rw [hsh.mem_iff]
    by_cases hin : (f, f') ∈ c.pdPairs.keys
    · have hkk : c.pairKey (f, f') = (f, f') := if_pos hin
      rw [hkk] at hk ⊢
      have hne : f ≠ f' := ne_of_mem_combinations2 nd hk
      constructor
      · rintro ⟨x, _, y, _, h⟩
        rw [hp.symm nd hne.symm] at h
        exact ⟨y, x, h⟩
      · rintro ⟨x, y, h⟩
        obtain ⟨h1, h2⟩ := hcols x y v h
        rw [hp.symm nd hne] at h
        exact ⟨y, h2, x, h1, h⟩
    · have hkk : c.pairKey (f, f') = (f', f) := if_neg hin
      rw [hkk]
      constructor
      · rintro ⟨x, _, y, _, h⟩
        exact ⟨x, y, h⟩
      · rintro ⟨x, y, h⟩
        obtain ⟨h1, h2⟩ := hcols x y v h
        exact ⟨x, h1, y, h2, h⟩

theorem pdDictStep_inv {mm mm' : Num K × Num K} {r : OvoRow F K} (h : pdDictStep c mm r = .ok mm') :
    ∃ M m, Num.max? (pairVals c (r.f1, r.f2)) = some M ∧ Num.min? (pairVals c (r.f1, r.f2)) = some m ∧
      mm' = (pyMin2 m mm.1, pyMax2 M mm.2) := by
  unfold pdDictStep at h
  unfold pairVals
  cases e : c.pdPairs.get? (c.pairKey (r.f1, r.f2)) with
  | none => rw [e] at h; cases h
  | some t =>
    rw [e] at h
    simp only at h ⊢
    cases e1 : Num.max? t.pdValues.flatten with
    | none => rw [e1] at h; cases h
    | some M =>
      cases e2 : Num.min? t.pdValues.flatten with
      | none => rw [e1, e2] at h; cases h
      | some m =>
        rw [e1, e2] at h
        cases h
        exact ⟨M, m, rfl, rfl, rfl⟩

theorem pyMax2_num {a b : Num K} (ha : a ≠ .nan) (hb : b ≠ .nan) :
    (pyMax2 a b = a ∨ pyMax2 a b = b) ∧ Num.le a (pyMax2 a b) = true ∧ Num.le b (pyMax2 a b) = true := by
  unfold pyMax2
  by_cases h : Num.lt a b = true
  · rw [if_pos h]
    simp only [Num.lt, Bool.and_eq_true] at h
    exact ⟨Or.inr rfl, h.1, Num.le_refl' hb⟩
  · rw [if_neg h]
    exact ⟨Or.inl rfl, Num.le_refl' ha, le_of_not_lt ha hb (by simpa using h)⟩

theorem pyMin2_num {a b : Num K} (ha : a ≠ .nan) (hb : b ≠ .nan) :
    (pyMin2 a b = a ∨ pyMin2 a b = b) ∧ Num.le (pyMin2 a b) a = true ∧ Num.le (pyMin2 a b) b = true := by
  unfold pyMin2
  by_cases h : Num.lt b a = true
  · rw [if_pos h]
    simp only [Num.lt, Bool.and_eq_true] at h
    exact ⟨Or.inr rfl, h.1, Num.le_refl' hb⟩
  · rw [if_neg h]
    exact ⟨Or.inl rfl, Num.le_refl' ha, le_of_not_lt hb ha (by simpa using h)⟩

theorem max?_ne {l : List (Num K)} {M : Num K} (h : Num.max? l = some M) : l ≠ [] := by
  intro e; rw [e] at h; cases h

/-- the limits after some candidates without NaN, starting from numbers -/
theorem pdDict_num : ∀ {rows : List (OvoRow F K)} {mm mm' : Num K × Num K}, mm.1 ≠ .nan → mm.2 ≠ .nan →
    (∀ r ∈ rows, .nan ∉ pairVals c (r.f1, r.f2)) → rows.foldlM (pdDictStep c) mm = .ok mm' →
    (mm'.1 = mm.1 ∨ ∃ r ∈ rows, mm'.1 ∈ pairVals c (r.f1, r.f2)) ∧
    (mm'.2 = mm.2 ∨ ∃ r ∈ rows, mm'.2 ∈ pairVals c (r.f1, r.f2)) ∧
    Num.le mm'.1 mm.1 = true ∧ Num.le mm.2 mm'.2 = true ∧
    ∀ r ∈ rows, ∀ v ∈ pairVals c (r.f1, r.f2), Num.le mm'.1 v = true ∧ Num.le v mm'.2 = true
  | [], mm, mm', h1, h2, _, h => by
    simp only [List.foldlM_nil] at h
    cases h
    exact ⟨Or.inl rfl, Or.inl rfl, Num.le_refl' h1, Num.le_refl' h2, by simp⟩
  | r :: rows, mm, mm', h1, h2, hn, h => by
    rw [List.foldlM_cons] at h
    cases e : pdDictStep c mm r with
    | error x => rw [e] at h; cases h
    | ok m1 =>
      rw [e] at h
      have h : rows.foldlM (pdDictStep c) m1 = .ok mm' := h
      obtain ⟨M, m, e1, e2, rfl⟩ := pdDictStep_inv e
      have hr : ∀ v ∈ pairVals c (r.f1, r.f2), v ≠ .nan := by
        intro v hv e; rw [e] at hv; exact hn r List.mem_cons_self hv
      obtain ⟨M', a1, a2, a3⟩ := max?_num (max?_ne e1) hr
      obtain ⟨m', b1, b2, b3⟩ := min?_num (max?_ne e1) hr
      rw [e1] at a1; cases a1
      rw [e2] at b1; cases b1
      obtain ⟨p1, p2, p3⟩ := pyMin2_num (hr _ b2) h1
      obtain ⟨q1, q2, q3⟩ := pyMax2_num (hr _ a2) h2
      have n1 : pyMin2 m mm.1 ≠ .nan := by rcases p1 with p | p <;> rw [p]; exact hr _ b2; exact h1
      have n2 : pyMax2 M mm.2 ≠ .nan := by rcases q1 with p | p <;> rw [p]; exact hr _ a2; exact h2
      obtain ⟨r1, r2, r3, r4, r5⟩ := pdDict_num n1 n2 (fun r hr => hn r (List.mem_cons_of_mem _ hr)) h
      refine ⟨?_, ?_, Num.le_trans' r3 p3, Num.le_trans' q3 r4, ?_⟩
      · rcases r1 with r1 | ⟨x, hx, hv⟩
        · rcases p1 with p | p
          · right; exact ⟨r, List.mem_cons_self, by rw [r1]; simp only [p]; exact b2⟩
          · left; rw [r1]; exact p
        · right; exact ⟨x, List.mem_cons_of_mem _ hx, hv⟩
      · rcases r2 with r1 | ⟨x, hx, hv⟩
        · rcases q1 with p | p
          · right; exact ⟨r, List.mem_cons_self, by rw [r1]; simp only [p]; exact a2⟩
          · left; rw [r1]; exact p
        · right; exact ⟨x, List.mem_cons_of_mem _ hx, hv⟩
      · intro x hx v hv
        rcases List.mem_cons.1 hx with rfl | hx
        · exact ⟨Num.le_trans' (Num.le_trans' r3 p2) (b3 v hv), Num.le_trans' (a3 v hv) (Num.le_trans' q2 r4)⟩
        · exact r5 x hx v hv

theorem pyMin2_nan (b : Num K) : pyMin2 .nan b = .nan := by
  unfold pyMin2; cases b <;> rfl
theorem pyMax2_nan (b : Num K) : pyMax2 .nan b = .nan := by
  unfold pyMax2; cases b <;> rfl
theorem pyMin2_nan' (a : Num K) : pyMin2 a .nan = a := by
  unfold pyMin2; cases a <;> rfl
theorem pyMax2_nan' (a : Num K) : pyMax2 a .nan = a := by
  unfold pyMax2; cases a <;> rfl

/-- one candidate with a NaN: both limits are NaN after it -/
theorem pdDictStep_nan {mm mm' : Num K × Num K} {r : OvoRow F K} (hn : .nan ∈ pairVals c (r.f1, r.f2))
    (h : pdDictStep c mm r = .ok mm') : mm' = (.nan, .nan) := by
  obtain ⟨M, m, e1, e2, rfl⟩ := pdDictStep_inv h
  rw [max?_nan hn] at e1
  rw [min?_nan hn] at e2
  cases e1; cases e2
  rw [pyMin2_nan, pyMax2_nan]

theorem max?_isSome {l : List (Num K)} (h : l ≠ []) : (∃ M, Num.max? l = some M) ∧ ∃ m, Num.min? l = some m := by
  cases l with
  | nil => exact absurd rfl h
  | cons a l => exact ⟨⟨_, rfl⟩, ⟨_, rfl⟩⟩

theorem pdDict_ok : ∀ {rows : List (OvoRow F K)} (mm : Num K × Num K),
    (∀ r ∈ rows, pairVals c (r.f1, r.f2) ≠ []) → ∃ mm', rows.foldlM (pdDictStep c) mm = .ok mm'
  | [], mm, _ => ⟨mm, rfl⟩
  | r :: rows, mm, h => by
    have h1 := h r List.mem_cons_self
    obtain ⟨⟨M, hM⟩, m, hm⟩ := max?_isSome h1
    have : pdDictStep c mm r = .ok (pyMin2 m mm.1, pyMax2 M mm.2) := by
      unfold pdDictStep
      unfold pairVals at hM hm h1
      cases e : c.pdPairs.get? (c.pairKey (r.f1, r.f2)) with
      | none => rw [e] at h1; exact absurd rfl h1
      | some t =>
        rw [e] at hM hm
        simp only at hM hm ⊢
        rw [hM, hm]
    rw [List.foldlM_cons, this]
    exact pdDict_ok _ (fun r hr => h r (List.mem_cons_of_mem _ hr))

/-! ### After fit -/

section Fit
variable [HasSqrt K] {G L : Type} [DecidableEq L] {E : PdEnv G F K} {a : PdArgs L F V K} {s0 s : PdpMethod G L F V K}
  {Xs : LFrame L F V}

/-- whether the method computes all combinations of values or the observed ones -/
def PdKind.allVals : PdKind → Bool
  | .friedman _ => false
  | .greenwell => true

theorem ovo_pairs {kind : PdKind} {X : Frame F V} {fs : List F} {ps : List (F × F)} {c c' : Calc F V (Num K)} {rows}
    (h : kind.ovo E X fs ps c = (.ok rows, c')) :
    (Calc.calculatePairs (some ps) kind.allVals c).1 = .ok () ∧ Runs (Calc.calculatePairs (some ps) kind.allVals c).2 c' := by
  cases kind with
  | friedman n =>
    simp only [PdKind.ovo, hstatOvo] at h
    obtain ⟨u, c1, e1, h⟩ := seq_ok h
    have : Runs c1 c' := by
      have := runs_seq (runs_op c1 (.single (some fs))) (k := fun _ => fun c =>
        ((match ps.mapM (hstatPair n X c) with
          | .error e => .error e
          | .ok rows => .ok ((E.sortOvo rows).map OvoRow.fillna) : Except Err _), c)) (fun _ c2 => Runs.refl c2)
      have h' := congrArg Prod.snd h
      simp only at h'
      rw [← h']
      exact this
    simp only [PdKind.allVals, e1]
    exact ⟨trivial, this⟩
  | greenwell =>
    simp only [PdKind.ovo, greenwellOvo] at h
    obtain ⟨u, c1, e1, h⟩ := seq_ok h
    have h' := congrArg Prod.snd h
    simp only at h'
    simp only [PdKind.allVals, e1]
    exact ⟨trivial, h' ▸ Runs.refl c1⟩

/-- The calculator after a returning `fit`. -/
theorem fit_calc {kind : PdKind} (hs : FitSetup g E a s0 Xs) (h : PdpMethod.fit kind E a s0 = (.ok (), s)) :
    ∃ co : CalcObj L F V K, s.pdc = some co ∧ PublicCalc g co.obj ∧ SameData co.obj.X Xs.frame ∧
      ∀ q ∈ combinations2 a.feats, DoneP g co.obj kind.allVals q := by
  have r := fit_ok hs h
  cases eX : sampleIfNotNone E.R a.X a.n s0.rng with
  | mk rX rng =>
    have hXs := hs.sampled
    rw [eX] at hXs
    simp only at hXs
    subst hXs
    obtain ⟨co, c', ec, hpdc, hruns⟩ := r.pdc
    have ch := chosen_of_ok hs ec
    have hpub : PublicCalc g co.obj := by
      have ec' := ec
      unfold PdpMethod.chooseCalc at ec'
      cases e : a.pdCalculator with
      | none =>
        rw [e] at ec'
        simp only [Except.ok.injEq] at ec'
        subst ec'
        exact ⟨_, _, _, [], hs.rowWise, rfl⟩
      | some co0 =>
        rw [e] at ec'
        simp only at ec'
        split at ec'
        · cases ec'
        · split at ec'
          · cases ec'
          · cases ec'
            obtain ⟨p, b, ops, X, hw, hobj⟩ := hs.history co e
            exact ⟨p, X, b, ops, hw, hobj⟩
    have hfin := good_runs ch.good hruns
    refine ⟨_, hpdc, hpub.runs hruns, by simp only [hfin.later.X]; exact ch.same, ?_⟩
    have hmid : ∃ mid, (Calc.calculatePairs (some (combinations2 a.feats)) kind.allVals co.obj) = (.ok (), mid) ∧ Runs mid c' := by
      rw [fit_eq kind E a s0 eX ec] at h
      cases e1 : kind.ovo E Xs.frame a.feats (combinations2 a.feats) co.obj with
      | mk r1 c1 =>
        cases r1 with
        | error e => rw [e1] at h; cases h
        | ok ovo =>
          obtain ⟨o1, o2⟩ := ovo_pairs e1
          refine ⟨_, Prod.ext o1 rfl, ?_⟩
          rw [e1] at h
          simp only at h
          cases e2 : pdpImportance E.sortFeat (numIn E a.feats) a.feats c1 with
          | mk r2 c2 =>
            have ru2 : Runs c1 c2 := by have := runs_pdpImportance c1 E.sortFeat (numIn E a.feats) a.feats; rwa [e2] at this
            cases r2 with
            | error e => rw [e2] at h; cases h
            | ok imp =>
              rw [e2] at h
              simp only at h
              cases kind with
              | greenwell =>
                simp only at h
                have := (Prod.mk.inj h).2
                subst this
                simp only [Option.some.injEq, CalcObj.mk.injEq, true_and] at hpdc
                rw [← hpdc]
                exact o2.trans ru2
              | friedman n =>
                simp only at h
                by_cases ho : a.calculateOva = true
                · rw [if_pos ho] at h
                  cases e3 : hstatOva E.sortFeat a.pf n Xs.frame a.feats c2 with
                  | mk r3 c3 =>
                    have ru3 : Runs c2 c3 := by
                      have := runs_hstatOva c2 E.sortFeat a.pf n Xs.frame a.feats; rwa [e3] at this
                    rw [e3] at h
                    cases r3 with
                    | error e => cases h
                    | ok ova =>
                      simp only at h
                      have := (Prod.mk.inj h).2
                      subst this
                      simp only [Option.some.injEq, CalcObj.mk.injEq, true_and] at hpdc
                      rw [← hpdc]
                      exact (o2.trans ru2).trans ru3
                · rw [if_neg ho] at h
                  have := (Prod.mk.inj h).2
                  subst this
                  simp only [Option.some.injEq, CalcObj.mk.injEq, true_and] at hpdc
                  rw [← hpdc]
                  exact o2.trans ru2
    obtain ⟨mid, em, hrm⟩ := hmid
    intro q hq
    have d := (doneP_of_ok ch.good (pairs := combinations2 a.feats) (all := kind.allVals) (by rw [em])) q hq
    rw [em] at d
    have st : OpStep g co.obj mid := by
      have := good_runs ch.good (runs_op co.obj (.pairs (some (combinations2 a.feats)) kind.allVals))
      have e : (PDOp.run (.pairs (some (combinations2 a.feats)) kind.allVals) co.obj).2 = mid := by
        show (Calc.calculatePairs (some (combinations2 a.feats)) kind.allVals co.obj).2 = mid
        rw [em]
      rwa [e] at this
    have hcm : canonPair co.obj.X q ∈ combinations2 co.obj.X.cols := by
      have hm := mem_combinations2 hq
      rw [canonPair_mem_iff (by rw [ch.same.cols]; exact hs.cols_nodup), ch.same.cols]
      exact ⟨r.valid.cols _ hm.1, r.valid.cols _ hm.2, r.valid.ne q hq⟩
    exact (d.1 hcm).step (good_runs st.good hrm)

/-- a finished pair returns brute-force values -/
theorem DoneP.lookup {c : Calc F V (Num K)} (hs : Shape c) {all : Bool} {q : F × F} (d : DoneP g c all q) {f f' : F} (hne : f ≠ f')
    (hq : q = (f, f') ∨ q = (f', f)) (nd : c.X.cols.Nodup) {v : V × V} (hv : Spec.covered all c.X f f' v) :
    c.getPairs f f' [v] = .ok [Spec.pdPair g c.X f f' v.1 v.2] := by
  rw [getPairs_one hs]
  have hcanon : canonPair c.X q = canonPair c.X (f, f') := by
    rcases hq with rfl | rfl
    · rfl
    · have hm := d.1
      unfold canonPair at hm ⊢
      by_cases h1 : (f', f) ∈ combinations2 c.X.cols
      · rw [if_pos h1, if_neg (not_mem_combinations2_swap nd h1)]
      · rw [if_neg h1] at hm ⊢
        rw [if_pos hm]
  have hin := d.2
  rw [hcanon] at hin
  rw [hin _ (by
    rw [mem_valsP_iff]
    by_cases h1 : (f, f') ∈ combinations2 c.X.cols
    · have hc : canonPair c.X (f, f') = (f, f') := if_pos h1
      rw [hc, if_neg (by simp)]
      exact hv
    · have hc : canonPair c.X (f, f') = (f', f) := if_neg h1
      rw [hc, if_pos (by intro e; exact hne (Prod.mk.inj e).2)]
      unfold Spec.covered at hv ⊢
      cases all with
      | true => exact ⟨hv.2, hv.1⟩
      | false =>
        obtain ⟨r, hr, h1, h2⟩ := hv
        exact ⟨r, hr, h2, h1⟩)]
  rw [truthP_canon g c.X f f' v hne]

end Fit

end Artemis
