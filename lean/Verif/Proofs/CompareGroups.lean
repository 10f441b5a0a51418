import Verif.Props.CMD

/-!
# Grouping the rows of a directed table by unordered pair

The grouping of `_compare_ovo` for an arbitrary mean `μ` (exact or rounded).
-/

set_option linter.unusedSectionVars false
set_option linter.unusedVariables false
set_option linter.unusedSimpArgs false

namespace Artemis
variable {F I K : Type} [Field K] [LinearOrder K] [LinearOrder F] [LinearOrder I]

/-- the grouping of `_conditional_minimal_depth.py:59-64` with the mean `μ` -/
def compareRows (μ : List (Num K) → Num K) (join : F → F → I) (sort : List (CmdRow F K) → List (CmdRow F K)) (ovo : List (CmdRow F K)) :
    List (CmdRow F K) :=
  sort ((npUnique (ovo.map (fun r => pairId join r.root r.var))).filterMap (fun i =>
    match ovo.filter (fun r => decide (pairId join r.root r.var = i)) with
    | [] => none
    | r :: rs => some ⟨r.root, r.var, μ ((r :: rs).map CmdRow.val), 0⟩))

theorem compareRows_spec (μ : List (Num K) → Num K) (join : F → F → I) {sort : List (CmdRow F K) → List (CmdRow F K)}
    (hC : SortsBy CmdRow.val true sort) {cols : List F} {rows : List (CmdRow F K)}
    (e5 : ∀ r ∈ rows, r.root ∈ cols ∧ r.var ∈ cols ∧ r.root ≠ r.var)
    (e6 : ∀ f ∈ cols, ∀ g ∈ cols, f ≠ g → ∃ r, rows.filter (fun r => decide (r.root = f ∧ r.var = g)) = [r])
    (hinj : ∀ a ∈ cols, ∀ b ∈ cols, ∀ c ∈ cols, ∀ e ∈ cols, pairId join a b = pairId join c e → (a = c ∧ b = e) ∨ (a = e ∧ b = c)) :
    (∀ r ∈ compareRows μ join sort rows, r.root ∈ cols ∧ r.var ∈ cols ∧ r.root ≠ r.var) ∧
      (∀ f ∈ cols, ∀ g ∈ cols, f ≠ g → ∃ r1 r2 r l, rows.filter (fun r => decide (r.root = f ∧ r.var = g)) = [r1] ∧
        rows.filter (fun r => decide (r.root = g ∧ r.var = f)) = [r2] ∧
        (compareRows μ join sort rows).filter (CmdRow.isPair f g) = [r] ∧ l.Perm [r1.val, r2.val] ∧ r.val = μ l) ∧
      (compareRows μ join sort rows).Pairwise (fun a b => Num.keyLE true a.val b.val = true) := by
  let key : CmdRow F K → I := fun r => pairId join r.root r.var
  let ids := npUnique (rows.map key)
  let grp : I → List (CmdRow F K) := fun i => rows.filter (fun r => decide (key r = i))
  let φ : I → Option (CmdRow F K) := fun i =>
    match grp i with
    | [] => none
    | r :: rs => some ⟨r.root, r.var, μ ((r :: rs).map CmdRow.val), 0⟩
  have hsort := hC (ids.filterMap φ)
  -- every id gives the row of its group
  have hφ : ∀ i ∈ ids, ∃ r ∈ rows, key r = i ∧ φ i = some ⟨r.root, r.var, μ ((grp i).map CmdRow.val), 0⟩ := by
    intro i hi
    obtain ⟨r0, hr0, hk0⟩ := List.mem_map.1 (mem_npUnique.1 hi)
    have hne : grp i ≠ [] := List.ne_nil_of_mem (List.mem_filter.2 ⟨hr0, by simpa using hk0⟩)
    obtain ⟨r, rs, hg⟩ := List.exists_cons_of_ne_nil hne
    have hr : r ∈ grp i := by rw [hg]; simp
    have hr' := List.mem_filter.1 hr
    refine ⟨r, hr'.1, of_decide_eq_true hr'.2, ?_⟩
    simp only [φ, hg]
  have hmemout : ∀ q, q ∈ ids.filterMap φ ↔ ∃ i ∈ ids, φ i = some q := by
    intro q; rw [List.mem_filterMap]
  show (∀ r ∈ sort (ids.filterMap φ), r.root ∈ cols ∧ r.var ∈ cols ∧ r.root ≠ r.var) ∧
      (∀ f ∈ cols, ∀ g ∈ cols, f ≠ g → ∃ r1 r2 r l, rows.filter (fun r => decide (r.root = f ∧ r.var = g)) = [r1] ∧
        rows.filter (fun r => decide (r.root = g ∧ r.var = f)) = [r2] ∧
        (sort (ids.filterMap φ)).filter (CmdRow.isPair f g) = [r] ∧ l.Perm [r1.val, r2.val] ∧ r.val = μ l) ∧
      (sort (ids.filterMap φ)).Pairwise (fun a b => Num.keyLE true a.val b.val = true)
  refine ⟨?_, ?_, hsort.2⟩
  · intro q hq
    obtain ⟨i, hi, hq'⟩ := (hmemout q).1 (hsort.1.mem_iff.1 hq)
    obtain ⟨r, hr, _, hr2⟩ := hφ i hi
    rw [hr2] at hq'
    cases hq'
    exact e5 r hr
  · intro f hf g hg hfg
    obtain ⟨r1, h11⟩ := e6 f hf g hg hfg
    obtain ⟨r2, h21⟩ := e6 g hg f hf hfg.symm
    have hr1 : r1 ∈ rows ∧ r1.root = f ∧ r1.var = g := by
      have : r1 ∈ rows.filter (fun r => decide (r.root = f ∧ r.var = g)) := by rw [h11]; simp
      rw [List.mem_filter] at this
      exact ⟨this.1, of_decide_eq_true this.2⟩
    -- a row of the pair is a row with that id
    have hkey : ∀ r ∈ rows, key r = pairId join f g ↔ r.isPair f g = true := by
      intro r hr
      obtain ⟨m1, m2, m3⟩ := e5 r hr
      simp only [key, CmdRow.isPair, decide_eq_true_eq]
      constructor
      · exact hinj _ m1 _ m2 _ hf _ hg
      · rintro (⟨h1, h2⟩ | ⟨h1, h2⟩)
        · rw [h1, h2]
        · rw [h1, h2, pairId_comm]
    have hgrp : (grp (pairId join f g)).Perm [r1, r2] := by
      have e : grp (pairId join f g) = rows.filter (fun r => decide (r.root = f ∧ r.var = g) || decide (r.root = g ∧ r.var = f)) := by
        apply List.filter_congr
        intro r hr
        have := hkey r hr
        by_cases hk : key r = pairId join f g
        · have := this.1 hk
          simp only [CmdRow.isPair, decide_eq_true_eq] at this
          simp [hk]
          exact this
        · have h' : ¬ (r.isPair f g = true) := fun h => hk (this.2 h)
          simp only [CmdRow.isPair, decide_eq_true_eq] at h'
          push Not at h'
          simp [hk]
          exact ⟨h'.1, h'.2⟩
      rw [e]
      have key2 : ∀ (l : List (CmdRow F K)), (l.filter (fun r => decide (r.root = f ∧ r.var = g) || decide (r.root = g ∧ r.var = f))).Perm
          (l.filter (fun r => decide (r.root = f ∧ r.var = g)) ++ l.filter (fun r => decide (r.root = g ∧ r.var = f))) := by
        intro l
        induction l with
        | nil => simp
        | cons r l ih =>
          by_cases c1 : r.root = f ∧ r.var = g
          · have c2 : ¬ (r.root = g ∧ r.var = f) := by
              rintro ⟨h1, h2⟩; exact hfg (c1.1.symm.trans h1)
            simp only [List.filter_cons, c1, c2, decide_true, decide_false, Bool.true_or, if_true, Bool.false_eq_true, if_false]
            simp only [and_self, decide_true, Bool.true_or, if_true, List.cons_append]
            rw [if_neg (by simp [hfg])]
            exact ih.cons _
          · by_cases c2 : r.root = g ∧ r.var = f
            · rw [List.filter_cons, if_pos (by simp [c2]), List.filter_cons, if_neg (by simpa using c1), List.filter_cons (p := fun r : CmdRow F K => decide (r.root = g ∧ r.var = f)), if_pos (by simpa using c2)]
              exact (ih.cons r).trans List.perm_middle.symm
            · rw [List.filter_cons, if_neg, List.filter_cons, if_neg (by simpa using c1), List.filter_cons (p := fun r : CmdRow F K => decide (r.root = g ∧ r.var = f)), if_neg (by simpa using c2)]
              · exact ih
              · intro hh
                rcases Bool.or_eq_true _ _ ▸ hh with hh | hh
                · exact c1 (of_decide_eq_true hh)
                · exact c2 (of_decide_eq_true hh)
      have := key2 rows
      rw [h11, h21] at this
      exact this
    have hid : pairId join f g ∈ ids := by
      rw [mem_npUnique]
      exact List.mem_map.2 ⟨r1, hr1.1, by simp only [key]; rw [hr1.2.1, hr1.2.2]⟩
    obtain ⟨r, hr, hr', hr''⟩ := hφ _ hid
    refine ⟨r1, r2, ⟨r.root, r.var, μ ((grp (pairId join f g)).map CmdRow.val), 0⟩, _, h11, h21, ?_, hgrp.map CmdRow.val, rfl⟩
    · have hfil : (ids.filterMap φ).filter (CmdRow.isPair f g) = [⟨r.root, r.var, μ ((grp (pairId join f g)).map CmdRow.val), 0⟩] := by
        rw [List.filter_filterMap]
        have hcount : ids.filter (fun i => decide (i = pairId join f g)) = [pairId join f g] := by
          have hnd := nodup_npUnique (rows.map key)
          have : (ids.filter (fun i => decide (i = pairId join f g))).length = 1 := by
            rw [← List.countP_eq_length_filter]
            have h1 := List.count_eq_one_of_mem hnd hid
            rw [← h1]
            unfold List.count
            apply List.countP_congr
            intro x _
            simp
          obtain ⟨x, hx⟩ := List.length_eq_one_iff.1 this
          have hxm : x ∈ ids.filter (fun i => decide (i = pairId join f g)) := by rw [hx]; simp
          rw [hx, of_decide_eq_true (List.mem_filter.1 hxm).2]
        have hfm : ∀ (l : List I), (∀ i ∈ l, i ∈ ids) → l.filterMap (fun x => Option.filter (CmdRow.isPair f g) (φ x)) =
            (l.filter (fun i => decide (i = pairId join f g))).filterMap φ := by
          intro l
          induction l with
          | nil => intro _; rfl
          | cons i l ih =>
            intro hl
            have ih' := ih (fun j hj => hl j (by simp [hj]))
            obtain ⟨q, hq1, hq2, hq3⟩ := hφ i (hl i (by simp))
            have hqk := hkey q hq1
            by_cases hi : i = pairId join f g
            · have hp : q.isPair f g = true := hqk.1 (hq2.trans hi)
              rw [List.filterMap_cons, hq3, List.filter_cons, if_pos (by simpa using hi), List.filterMap_cons, hq3, ih']
              have : Option.filter (CmdRow.isPair f g) (some (⟨q.root, q.var, μ ((grp i).map CmdRow.val), 0⟩ : CmdRow F K)) =
                  some ⟨q.root, q.var, μ ((grp i).map CmdRow.val), 0⟩ := by
                rw [Option.filter_some, if_pos]; exact hp
              rw [this]
            · have hp : ¬ q.isPair f g = true := fun hh => hi (hq2.symm.trans (hqk.2 hh))
              rw [List.filterMap_cons, hq3, List.filter_cons, if_neg (by simpa using hi), ih']
              have : Option.filter (CmdRow.isPair f g) (some (⟨q.root, q.var, μ ((grp i).map CmdRow.val), 0⟩ : CmdRow F K)) = none := by
                rw [Option.filter_some, if_neg]; exact hp
              rw [this]
        have := hfm ids (fun i hi => hi)
        rw [hcount] at this
        rw [this, List.filterMap_cons, hr'']
        rfl
      have hpm := hsort.1.filter (CmdRow.isPair f g)
      rw [hfil] at hpm
      exact List.perm_singleton.1 hpm

end Artemis
