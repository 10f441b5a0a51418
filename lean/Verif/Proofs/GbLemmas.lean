import Verif.Spec.Gb
import Verif.Proofs.PDFit
import Mathlib.Data.List.Forall2
import Mathlib.Data.List.Perm.Basic

/-!
# Node statistics of one tree

The loop of `_prepare_stats` on a table of a tree, whatever the order of its rows allows.
-/

set_option linter.unusedSectionVars false
set_option linter.unusedVariables false
set_option linter.unusedSimpArgs false

namespace Artemis

/-- A row with the row of its parent and its depth. -/
structure Ann (F I K : Type) where
  row : GbRow F I K
  par : Option (GbRow F I K)
  dep : Nat

section
variable {F I K : Type} [DecidableEq F] [DecidableEq I] [LinearOrder K]

/-- A table whose rows are annotated rightly. -/
structure Annotated (p : Package) (anns : List (Ann F I K)) : Prop where
  nodup : (anns.map (fun a => a.row.id)).Nodup
  kidL : ∀ a ∈ anns, a.row.leaf = false → ∃ b ∈ anns, a.row.left = some b.row.id ∧ b.par = some a.row ∧ b.dep = a.dep + 1
  kidR : ∀ a ∈ anns, a.row.leaf = false → ∃ b ∈ anns, a.row.right = some b.row.id ∧ b.par = some a.row ∧ b.dep = a.dep + 1
  parent : ∀ b ∈ anns, ∀ q, b.par = some q → ∃ a ∈ anns, a.row = q ∧ q.leaf = false ∧ b.dep = a.dep + 1 ∧
    (q.left = some b.row.id ∨ q.right = some b.row.id)
  root : ∀ a ∈ anns, a.par = none → a.dep = 0
  num : p = .xgboost → ∀ a ∈ anns, (a.row.node = some 0 ↔ a.par = none)
  depX : p = .xgboost → ∀ a ∈ anns, a.row.depth = none
  depL : p = .lightgbm → ∀ a ∈ anns, a.row.depth = some (a.dep : Int)
  first : p = .xgboost → anns.Pairwise (fun a b => b.row.left ≠ some a.row.id ∧ b.row.right ≠ some a.row.id)

/-- the row a split must end up with -/
def Ann.fin (a : Ann F I K) : StatRow F I K :=
  if a.row.leaf then StatRow.ofRow a.row
  else match a.par with
    | none => StatRow.ofRow { a.row with depth := some (a.dep : Int) }
    | some q => ⟨{ a.row with depth := some (a.dep : Int) }, q.feat, q.gain, q.cover,
        some (optLt q.gain a.row.gain && !decide (a.row.feat = q.feat))⟩

/-- the row after the splits with IDs `D` have been visited -/
def Ann.mid (D : List I) (a : Ann F I K) : StatRow F I K :=
  if a.row.leaf then StatRow.ofRow a.row
  else match a.par with
    | none => if a.row.id ∈ D then a.fin else StatRow.ofRow a.row
    | some q => if q.id ∈ D then a.fin else StatRow.ofRow a.row

/-- equal up to the depth -/
def SameRow (r s : GbRow F I K) : Prop := ∃ d, r = { s with depth := d }

omit [DecidableEq F] [DecidableEq I] [LinearOrder K] in
theorem SameRow.refl (s : GbRow F I K) : SameRow s s := ⟨s.depth, rfl⟩

theorem Ann.fin_row (a : Ann F I K) : SameRow a.fin.row a.row := by
  unfold Ann.fin
  split
  · exact SameRow.refl _
  · split <;> exact ⟨_, rfl⟩

theorem Ann.mid_row (D : List I) (a : Ann F I K) : SameRow (a.mid D).row a.row := by
  unfold Ann.mid
  split
  · exact SameRow.refl _
  · split <;> split
    · exact a.fin_row
    · exact SameRow.refl _
    · exact a.fin_row
    · exact SameRow.refl _

theorem ann_eq_of_id {anns : List (Ann F I K)} (h : (anns.map (fun a => a.row.id)).Nodup) {a b : Ann F I K} (ha : a ∈ anns)
    (hb : b ∈ anns) (e : a.row.id = b.row.id) : a = b := List.inj_on_of_nodup_map h ha hb e

theorem markChild_ok {p : Package} {anns : List (Ann F I K)} (hnd : (anns.map (fun a => a.row.id)).Nodup)
    (g : Ann F I K → StatRow F I K) (hg : ∀ x ∈ anns, SameRow (g x).row x.row) (i : Nat) {a b : Ann F I K}
    (ha : anns[i]? = some a) (hb : b ∈ anns) (hd : b.dep = a.dep + 1) (hda : (g a).row.depth = some (a.dep : Int))
    (hl : p = .lightgbm → (g b).row.depth = some (b.dep : Int)) :
    markChild p i (some b.row.id) (anns.map g)
      = .ok (anns.map (fun x => if x.row.leaf = false ∧ x.row.id = b.row.id then markRow (g a) (some (b.dep : Int)) (g x) else g x)) := by
  have hid : ∀ x ∈ anns, (g x).row.id = x.row.id := fun x hx => by obtain ⟨d, e⟩ := hg x hx; rw [e]
  have hleaf : ∀ x ∈ anns, (g x).row.leaf = x.row.leaf := fun x hx => by obtain ⟨d, e⟩ := hg x hx; rw [e]
  have hfind : (anns.map g).find? (fun r => decide (some r.row.id = some b.row.id)) = some (g b) := by
    rw [List.find?_map]
    have : anns.find? ((fun r => decide (some r.row.id = some b.row.id)) ∘ g) = some b := by
      cases hf : anns.find? ((fun r => decide (some r.row.id = some b.row.id)) ∘ g) with
      | none =>
        have := List.find?_eq_none.1 hf b hb
        simp [hid b hb] at this
      | some c =>
        have hc := List.mem_of_find?_eq_some hf
        have := List.find?_some hf
        simp only [Function.comp, hid c hc, decide_eq_true_eq, Option.some.injEq] at this
        rw [ann_eq_of_id hnd hc hb this]
    rw [this]; rfl
  unfold markChild
  rw [hfind]
  simp only [hleaf b hb]
  cases hbl : b.row.leaf with
  | true =>
    simp only [if_true]
    congr 1
    apply List.map_congr_left
    intro x hx
    rw [if_neg]
    rintro ⟨h1, h2⟩
    rw [ann_eq_of_id hnd hx hb h2, hbl] at h1
    cases h1
  | false =>
    have hi : (anns.map g)[i]? = some (g a) := by rw [List.getElem?_map, ha]; rfl
    have hds : depthSucc p (g a).row.depth (g b).row.depth = .ok (some (b.dep : Int)) := by
      cases p with
      | xgboost => rw [hda, hd]; simp [depthSucc]
      | lightgbm => rw [hl rfl]; rfl
    simp only [hi, hds, Bool.false_eq_true, if_false, List.map_map]
    congr 1
    apply List.map_congr_left
    intro x hx
    simp only [Function.comp, hid x hx, Option.some.injEq]
    by_cases e : x.row.id = b.row.id
    · have := ann_eq_of_id hnd hx hb e
      subst this
      simp [hbl]
    · simp [e]

theorem markRow_fin {r s : StatRow F I K} {a b : Ann F I K} (h1 : SameRow r.row a.row) (h2 : SameRow s.row b.row)
    (hp : b.par = some a.row) (hb : b.row.leaf = false) : markRow r (some (b.dep : Int)) s = b.fin := by
  obtain ⟨d, e⟩ := h1
  obtain ⟨d', e'⟩ := h2
  simp [markRow, Ann.fin, hb, hp, e, e']

theorem statStep_ok {p : Package} {anns : List (Ann F I K)} (H : Annotated p anns) (D : List I) (i : Nat) {a : Ann F I K}
    (ha : anns[i]? = some a) (hnl : a.row.leaf = false) (hD : p = .xgboost → ∀ q, a.par = some q → q.id ∈ D) :
    statStep p (anns.map (Ann.mid D)) i = .ok (anns.map (Ann.mid (D ++ [a.row.id]))) := by
  have ham : a ∈ anns := List.mem_of_getElem? ha
  obtain ⟨bl, hbl, el, epl, edl⟩ := H.kidL a ham hnl
  obtain ⟨br, hbr, er, epr, edr⟩ := H.kidR a ham hnl
  have hi : (anns.map (Ann.mid D))[i]? = some (a.mid D) := by rw [List.getElem?_map, ha]; rfl
  obtain ⟨d0, e0⟩ := a.mid_row D
  let g1 : Ann F I K → StatRow F I K := fun x => if x.row.id = a.row.id ∧ a.par = none then x.fin else x.mid D
  have hg1 : ∀ x, SameRow (g1 x).row x.row := by
    intro x
    by_cases h : x.row.id = a.row.id ∧ a.par = none
    · simp only [g1, if_pos h]; exact x.fin_row
    · simp only [g1, if_neg h]; exact x.mid_row D
  have hfinroot : a.par = none → { a.mid D with row := { (a.mid D).row with depth := some 0 } } = a.fin := by
    intro hn
    have hz := H.root a ham hn
    have ef : a.fin = StatRow.ofRow { a.row with depth := some 0 } := by simp [Ann.fin, hnl, hn, hz]
    unfold Ann.mid
    simp only [hnl, hn, Bool.false_eq_true, if_false]
    split
    · rw [ef]; rfl
    · rw [ef]; rfl
  have htree1 : (if p = .xgboost ∧ (a.mid D).row.node = some 0 then
      (anns.map (Ann.mid D)).set i { a.mid D with row := { (a.mid D).row with depth := some 0 } } else anns.map (Ann.mid D))
      = anns.map g1 := by
    have hnode : (a.mid D).row.node = a.row.node := by rw [e0]
    by_cases hn : a.par = none
    · cases p with
      | xgboost =>
        rw [if_pos ⟨rfl, by rw [hnode]; exact (H.num rfl a ham).2 hn⟩, hfinroot hn]
        apply List.ext_getElem?
        intro j
        by_cases hj : i = j
        · subst hj
          rw [List.getElem?_set_self (by rw [List.length_map]; exact (List.getElem?_eq_some_iff.1 ha).1), List.getElem?_map, ha]
          simp [g1, hn]
        · rw [List.getElem?_set_ne hj, List.getElem?_map, List.getElem?_map]
          cases hx : anns[j]? with
          | none => rfl
          | some x =>
            have hne : x.row.id ≠ a.row.id := by
              intro e
              apply hj
              have h1 : (anns.map (fun a => a.row.id))[i]? = (anns.map (fun a => a.row.id))[j]? := by
                rw [List.getElem?_map, List.getElem?_map, ha, hx]; simp [e]
              exact (List.getElem?_inj (by rw [List.length_map]; exact (List.getElem?_eq_some_iff.1 ha).1) H.nodup).1 h1
            simp [g1, hne]
      | lightgbm =>
        rw [if_neg (by simp)]
        apply List.map_congr_left
        intro x hx
        by_cases e : x.row.id = a.row.id
        · have := ann_eq_of_id H.nodup hx ham e
          subst this
          have : x.fin = StatRow.ofRow x.row := by
            have hd := H.depL rfl x hx
            obtain ⟨r, pr, dp⟩ := x
            obtain ⟨t, n, id, f, l, rr, g, c, lf, dd⟩ := r
            simp only at hnl hn hd
            subst hnl hn hd
            rfl
          simp only [g1, hn, and_self, if_true, this]
          unfold Ann.mid
          simp [hnl, hn, this]
        · simp [g1, e]
    · rw [if_neg]
      · apply List.map_congr_left
        intro x hx
        simp [g1, hn]
      · rintro ⟨hp, h0⟩
        rw [hnode] at h0
        exact hn ((H.num hp a ham).1 h0)
  have hdep1 : (g1 a).row.depth = some (a.dep : Int) := by
    have hfd : a.fin.row.depth = some (a.dep : Int) := by
      unfold Ann.fin
      simp only [hnl, Bool.false_eq_true, if_false]
      split <;> rfl
    by_cases hn : a.par = none
    · simp only [g1, hn, and_self, if_true]; exact hfd
    · simp only [g1, hn, and_false, if_false]
      cases p with
      | xgboost =>
        obtain ⟨q, hq⟩ := Option.ne_none_iff_exists'.1 hn
        have : a.mid D = a.fin := by
          unfold Ann.mid
          simp [hnl, hq, hD rfl q hq]
        rw [this]; exact hfd
      | lightgbm =>
        unfold Ann.mid
        simp only [hnl, Bool.false_eq_true, if_false]
        split <;> split
        · exact hfd
        · exact H.depL rfl a ham
        · exact hfd
        · exact H.depL rfl a ham
  have hdepL : p = .lightgbm → ∀ x ∈ anns, (g1 x).row.depth = some (x.dep : Int) := by
    intro hp x hx
    have h1 := H.depL hp x hx
    have hf : x.fin.row.depth = some (x.dep : Int) := by
      unfold Ann.fin
      split
      · exact h1
      · split <;> rfl
    simp only [g1]
    split
    · exact hf
    · unfold Ann.mid
      split
      · exact h1
      · split <;> split
        · exact hf
        · exact h1
        · exact hf
        · exact h1
  have hal : a.row.id ≠ bl.row.id := by
    intro e
    have := ann_eq_of_id H.nodup ham hbl e
    subst this
    omega
  let g2 : Ann F I K → StatRow F I K := fun x =>
    if x.row.leaf = false ∧ x.row.id = bl.row.id then markRow (g1 a) (some (bl.dep : Int)) (g1 x) else g1 x
  have hg2 : ∀ x, SameRow (g2 x).row x.row := by
    intro x
    simp only [g2]
    split
    · obtain ⟨d, e⟩ := hg1 x
      exact ⟨_, by simp [markRow, e]; rfl⟩
    · exact hg1 x
  have hg2a : g2 a = g1 a := by simp [g2, hal]
  unfold statStep
  simp only [hi]
  rw [htree1]
  have hml : (a.mid D).row.left = some bl.row.id := by rw [e0]; exact el
  have hmr : (a.mid D).row.right = some br.row.id := by rw [e0]; exact er
  rw [hml, hmr, markChild_ok H.nodup g1 (fun x _ => hg1 x) i ha hbl edl hdep1 (fun hp => hdepL hp bl hbl)]
  simp only []
  have := markChild_ok (p := p) H.nodup g2 (fun x _ => hg2 x) i ha hbr edr (by rw [hg2a]; exact hdep1)
    (fun hp => by
      simp only [g2]
      split
      · rename_i h
        have := ann_eq_of_id H.nodup hbr hbl h.2
        subst this
        rfl
      · exact hdepL hp br hbr)
  rw [this]
  congr 1
  apply List.map_congr_left
  intro x hx
  by_cases hxl : x.row.leaf = true
  · have n1 : ¬ (x.row.leaf = false ∧ x.row.id = br.row.id) := by simp [hxl]
    have n2 : ¬ (x.row.leaf = false ∧ x.row.id = bl.row.id) := by simp [hxl]
    have n3 : ¬ (x.row.id = a.row.id ∧ a.par = none) := by
      rintro ⟨e, _⟩
      rw [ann_eq_of_id H.nodup hx ham e, hnl] at hxl
      cases hxl
    rw [if_neg n1]
    simp only [g2, if_neg n2, g1, if_neg n3]
    simp [Ann.mid, hxl]
  · have hxl : x.row.leaf = false := by simpa using hxl
    by_cases e1 : x.row.id = br.row.id
    · have := ann_eq_of_id H.nodup hx hbr e1
      subst this
      rw [if_pos ⟨hxl, rfl⟩, markRow_fin (hg2 a) (hg2 x) epr hxl]
      unfold Ann.mid
      simp [hxl, epr]
    · rw [if_neg (by simp [e1])]
      by_cases e2 : x.row.id = bl.row.id
      · have := ann_eq_of_id H.nodup hx hbl e2
        subst this
        simp only [g2]
        rw [if_pos ⟨hxl, trivial⟩, markRow_fin (hg1 a) (hg1 x) epl hxl]
        unfold Ann.mid
        simp [hxl, epl]
      · simp only [g2, e2, and_false, if_false]
        cases hxp : x.par with
        | none =>
          by_cases e3 : x.row.id = a.row.id
          · have := ann_eq_of_id H.nodup hx ham e3
            subst this
            simp only [g1, hxp, and_self, if_true]
            unfold Ann.mid
            simp [hxl, hxp]
          · simp only [g1, e3, false_and, if_false]
            unfold Ann.mid
            simp [hxl, hxp, e3]
        | some q =>
          obtain ⟨c, hc, hcq, hql, _, hkid⟩ := H.parent x hx q hxp
          have hqa : q.id ≠ a.row.id := by
            intro e
            have : c = a := ann_eq_of_id H.nodup hc ham (by rw [hcq]; exact e)
            subst this
            subst hcq
            rcases hkid with h | h
            · rw [el] at h; exact e2 (Option.some.inj h).symm
            · rw [er] at h; exact e1 (Option.some.inj h).symm
          have hg : g1 x = x.mid D := by
            simp only [g1]
            rw [if_neg]
            rintro ⟨e, hn⟩
            have := ann_eq_of_id H.nodup hx ham e
            subst this
            rw [hn] at hxp; cases hxp
          rw [hg]
          unfold Ann.mid
          simp [hxl, hxp, hqa]

/-- positions of the splits -/
def splitIdx (rows : List (GbRow F I K)) : List Nat :=
  (List.range rows.length).filter (fun i => ((rows[i]?).map (fun r => !r.leaf)).getD false)

theorem mem_splitIdx {rows : List (GbRow F I K)} {i : Nat} : i ∈ splitIdx rows ↔ ∃ r, rows[i]? = some r ∧ r.leaf = false := by
  unfold splitIdx
  rw [List.mem_filter, List.mem_range]
  constructor
  · rintro ⟨h1, h2⟩
    rw [List.getElem?_eq_getElem h1] at h2 ⊢
    exact ⟨_, rfl, by simpa using h2⟩
  · rintro ⟨r, h1, h2⟩
    exact ⟨(List.getElem?_eq_some_iff.1 h1).1, by simp [h1, h2]⟩

theorem sorted_splitIdx (rows : List (GbRow F I K)) : (splitIdx rows).Pairwise (· < ·) :=
  List.Pairwise.filter _ List.pairwise_lt_range

/-- The loop of `_prepare_stats` computes the right rows. -/
theorem prepareStats_ok {p : Package} {anns : List (Ann F I K)} (H : Annotated p anns) :
    prepareStats p (anns.map Ann.row) = .ok (anns.map Ann.fin) := by
  have hget : ∀ i, (anns.map Ann.row)[i]? = (anns[i]?).map Ann.row := fun i => List.getElem?_map ..
  have key : ∀ (post pre : List Nat) (D : List I), splitIdx (anns.map Ann.row) = pre ++ post →
      (∀ x, x ∈ D ↔ ∃ i ∈ pre, ∃ a, anns[i]? = some a ∧ a.row.id = x) →
      post.foldlM (statStep p) (anns.map (Ann.mid D)) = .ok (anns.map Ann.fin) := by
    intro post
    induction post with
    | nil =>
      intro pre D hs hD
      rw [List.append_nil] at hs
      show Except.ok _ = _
      congr 1
      apply List.map_congr_left
      intro x hx
      have hin : ∀ y ∈ anns, y.row.leaf = false → y.row.id ∈ D := by
        intro y hy hl
        obtain ⟨i, hi⟩ := List.getElem?_of_mem hy
        refine (hD _).2 ⟨i, ?_, y, hi, rfl⟩
        rw [← hs, mem_splitIdx]
        exact ⟨y.row, by rw [hget, hi]; rfl, hl⟩
      unfold Ann.mid
      split
      · rename_i h; simp [Ann.fin, h]
      · rename_i h
        have hl : x.row.leaf = false := by simpa using h
        split
        · rw [if_pos (hin x hx hl)]
        · rename_i q hq
          obtain ⟨c, hc, hcq, hql, _⟩ := H.parent x hx q hq
          rw [if_pos (by rw [← hcq]; exact hin c hc (by rw [hcq]; exact hql))]
    | cons i post ih =>
      intro pre D hs hD
      have hi : i ∈ splitIdx (anns.map Ann.row) := by rw [hs]; simp
      obtain ⟨r, hr, hrl⟩ := mem_splitIdx.1 hi
      rw [hget] at hr
      cases ha : anns[i]? with
      | none => rw [ha] at hr; cases hr
      | some a =>
        rw [ha] at hr
        have : a.row = r := by simpa using hr
        subst this
        have hstep := statStep_ok H D i ha hrl (by
          intro hp q hq
          obtain ⟨c, hc, hcq, hql, _, hkid⟩ := H.parent a (List.mem_of_getElem? ha) q hq
          obtain ⟨j, hj⟩ := List.getElem?_of_mem hc
          have hij : ¬ i < j := by
            intro hlt
            have h1 := List.pairwise_iff_getElem.1 (H.first hp) i j (List.getElem?_eq_some_iff.1 ha).1
              (List.getElem?_eq_some_iff.1 hj).1 hlt
            rw [(List.getElem?_eq_some_iff.1 ha).2, (List.getElem?_eq_some_iff.1 hj).2, hcq] at h1
            rcases hkid with h | h
            · exact h1.1 h
            · exact h1.2 h
          have hne : i ≠ j := by
            intro e
            subst e
            rw [ha] at hj
            have : a = c := Option.some.inj hj
            subst this
            obtain ⟨c', hc', hcq', _, hd, _⟩ := H.parent a hc q hq
            have := ann_eq_of_id H.nodup hc' hc (by rw [hcq', hcq])
            subst this
            omega
          have hjs : j ∈ splitIdx (anns.map Ann.row) := by
            rw [mem_splitIdx]
            exact ⟨c.row, by rw [hget, hj]; rfl, by rw [hcq]; exact hql⟩
          have hjp : j ∈ pre := by
            have hsort := sorted_splitIdx (anns.map Ann.row)
            rw [hs] at hsort hjs
            rcases List.mem_append.1 hjs with h | h
            · exact h
            · rcases List.mem_cons.1 h with h | h
              · exact absurd h.symm hne
              · have := (List.pairwise_cons.1 (List.pairwise_append.1 hsort).2.1).1 j h
                exact absurd this hij
          exact (hD _).2 ⟨j, hjp, c, hj, by rw [hcq]⟩)
        rw [List.foldlM_cons, hstep]
        refine ih (pre ++ [i]) (D ++ [a.row.id]) (by simp [hs]) ?_
        intro x
        simp only [List.mem_append, List.mem_singleton, hD]
        constructor
        · rintro (⟨j, hj, b, hb⟩ | rfl)
          · exact ⟨j, Or.inl hj, b, hb⟩
          · exact ⟨i, Or.inr rfl, a, ha, rfl⟩
        · rintro ⟨j, hj | rfl, b, hb, e⟩
          · exact Or.inl ⟨j, hj, b, hb, e⟩
          · rw [ha] at hb
            cases hb
            exact Or.inr e.symm
  have h0 : (anns.map Ann.row).map StatRow.ofRow = anns.map (Ann.mid ([] : List I)) := by
    rw [List.map_map]
    apply List.map_congr_left
    intro x _
    unfold Ann.mid
    split
    · rfl
    · split <;> simp
  show (splitIdx (anns.map Ann.row)).foldlM (statStep p) _ = _
  rw [h0]
  exact key _ [] [] rfl (by simp)

end

end Artemis
