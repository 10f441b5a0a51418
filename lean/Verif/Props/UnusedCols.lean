import Verif.Props.Stability
import Verif.Props.Additivity

/-!
# Property C135: what is in a column the model does not use does not matter

Two data sets whose rows agree outside the columns in `D`, and a model that does not look at the columns in `D`.
Setting as in `Verif/Props/Invariance.lean` (`Fits`, `Shows`), `Verif/Props/Additivity.lean` and
`Verif/Props/Sejong.lean`.
-/

set_option linter.unusedSectionVars false
set_option linter.unusedVariables false
set_option linter.unusedSimpArgs false

namespace Artemis
open Spec

/-- the rows `r`, `r'` agree outside the columns in `D` -/
def Spec.OffRow {F V : Type} (D : List F) (r r' : Row F V) : Prop := ∀ h, h ∉ D → r' h = r h

/-- the data sets have the same rows, in the same order, up to the contents of the columns in `D` -/
def Spec.OffCols {F V : Type} (D : List F) (X X' : Frame F V) : Prop := List.Forall₂ (OffRow D) X.rows X'.rows

/-- the prediction does not depend on the columns in `D` -/
def Spec.Unused {F V K : Type} (D : List F) (u : Row F V → K) : Prop := ∀ r r', OffRow D r r' → u r' = u r

/-- the model's answers do not depend on the columns in `D` (nor on earlier questions) -/
def Spec.ModelUnused {F V K : Type} (D : List F) (model : ModelObj F V (Num K)) : Prop :=
  ∀ p, model.predict = some p → ∀ k k' rows rows', List.Forall₂ (OffRow D) rows rows' → p k' rows' = p k rows

section helpers
variable {F V K : Type} [DecidableEq F] [LinearOrder V] [Field K] [LinearOrder K] [IsStrictOrderedRing K]
  [HasSqrt K]
variable {D : List F} {X X' : Frame F V} {u : Row F V → K}

theorem offRow_setF {r r' : Row F V} (h : OffRow D r r') {f : F} {v v' : V} (hv : f ∉ D → v' = v) :
    OffRow D (setF r f v) (setF r' f v') := by
  intro g hg
  by_cases e : g = f
  · subst e; simp [Spec.setF, hv hg]
  · simp [Spec.setF, e, h g hg]

theorem map_off {α : Type} {rows rows' : List (Row F V)} (h : List.Forall₂ (OffRow D) rows rows') {x x' : Row F V → α}
    (hx : ∀ r r', OffRow D r r' → x' r' = x r) : rows'.map x' = rows.map x := by
  induction h with
  | nil => rfl
  | cons h1 _ ih => simp [hx _ _ h1, ih]

omit [LinearOrder V] in
theorem rows_off (h : OffCols D X X') : X'.rows.length = X.rows.length := (List.Forall₂.length_eq h).symm

theorem pd1_off (h : OffCols D X X') (hu : Unused D u) {f : F} {v v' : V} (hv : f ∉ D → v' = v) :
    pd1 u X' f v' = pd1 u X f v := by
  unfold pd1
  rw [map_off h fun r r' hr => hu _ _ (offRow_setF hr hv)]

theorem pd2_off (h : OffCols D X X') (hu : Unused D u) {f g : F} {v v' z z' : V} (hv : f ∉ D → v' = v) (hz : g ∉ D → z' = z) :
    pd2 u X' f g v' z' = pd2 u X f g v z := by
  unfold pd2
  rw [map_off h fun r r' hr => hu _ _ (offRow_setF (offRow_setF hr hz) hv)]

theorem pdNot_off (h : OffCols D X X') (hu : Unused D u) (f : F) {r r' : Row F V} (hr : OffRow D r r') :
    pdNot u X' f r' = pdNot u X f r := by
  unfold pdNot
  rw [map_off h fun q q' hq => hu _ _ (offRow_setF hr fun hf => hq f hf)]

theorem centred_off (h : OffCols D X X') {x x' : Row F V → K} (hx : ∀ r r', OffRow D r r' → x' r' = x r) :
    ∀ r r', OffRow D r r' → centred X' x' r' = centred X x r := by
  intro r r' hr
  unfold centred
  rw [hx r r' hr, map_off h hx]

theorem sumSq_off (h : OffCols D X X') {x x' : Row F V → K} (hx : ∀ r r', OffRow D r r' → x' r' = x r) :
    sumSq X' x' = sumSq X x := by
  unfold sumSq
  rw [map_off h fun r r' hr => by rw [hx r r' hr]]

theorem pd1_row_off (h : OffCols D X X') (hu : Unused D u) (f : F) :
    ∀ r r', OffRow D r r' → pd1 u X' f (r' f) = pd1 u X f (r f) := fun r r' hr => pd1_off h hu (hr f)

theorem pd2_row_off (h : OffCols D X X') (hu : Unused D u) (f g : F) :
    ∀ r r', OffRow D r r' → pd2 u X' f g (r' f) (r' g) = pd2 u X f g (r f) (r g) := fun r r' hr => pd2_off h hu (hr f) (hr g)

theorem interaction_off (h : OffCols D X X') (hu : Unused D u) (f g : F) :
    ∀ r r', OffRow D r r' → interaction u X' f g r' = interaction u X f g r := by
  intro r r' hr
  unfold interaction
  rw [centred_off h (pd2_row_off h hu f g) r r' hr, centred_off h (pd1_row_off h hu f) r r' hr,
    centred_off h (pd1_row_off h hu g) r r' hr]

theorem interactionOva_off (h : OffCols D X X') (hu : Unused D u) (f : F) :
    ∀ r r', OffRow D r r' → interactionOva u X' f r' = interactionOva u X f r := by
  intro r r' hr
  unfold interactionOva
  rw [centred_off h hu r r' hr, centred_off h (pd1_row_off h hu f) r r' hr,
    centred_off h (fun r r' hr => pdNot_off h hu f hr) r r' hr]

theorem levels_off (h : OffCols D X X') {f : F} (hf : f ∉ D) {vs : List V} (hv : Levels X' f vs) : Levels X f vs := by
  refine ⟨hv.1, fun v => (hv.2 v).trans ?_⟩
  have e : X'.rows.map (fun r => r f) = X.rows.map (fun r => r f) := map_off h fun r r' hr => hr f hf
  have m : v ∈ X'.rows.map (fun r => r f) ↔ v ∈ X.rows.map (fun r => r f) := by rw [e]
  simpa only [List.mem_map] using m

theorem importance_off (h : OffCols D X X') (hu : Unused D u) {f : F} (hf : f ∉ D) {b : Bool} {k : K}
    (hk : IsImportance b u X' f k) : IsImportance b u X f k := by
  obtain ⟨vs, hv, hi⟩ := hk
  refine ⟨vs, levels_off h hf hv, ?_⟩
  have e : vs.map (pd1 u X' f) = vs.map (pd1 u X f) :=
    List.map_congr_left fun v _ => pd1_off h hu fun _ => rfl
  rwa [e] at hi

theorem condSpread_off (h : OffCols D X X') (hu : Unused D u) {f g : F} (hf : f ∉ D) (hg : g ∉ D) {b : Bool} {k : K}
    (hk : IsCondSpread b u X' f g k) : IsCondSpread b u X f g k := by
  obtain ⟨vs, vs', imp, h1, h2, h3, h4⟩ := hk
  refine ⟨vs, vs', imp, levels_off h hf h1, levels_off h hg h2, h3, fun v hv => ?_⟩
  have e : (vs'.map fun v' => pd2 u X' f g v v') = vs'.map fun v' => pd2 u X f g v v' :=
    List.map_congr_left fun v' _ => pd2_off h hu (fun _ => rfl) (fun _ => rfl)
  have := h4 v hv
  rwa [e] at this

theorem near_self (X : Frame F V) (u : Row F V → K) : Near X 0 u u := fun r _ => by simp

theorem eq_of_near_zero {x y : K} (h : |y - x| ≤ 0) : y = x := sub_eq_zero.1 (abs_eq_zero.1 (le_antisymm h (abs_nonneg _)))

omit [LinearOrder V] in
/-- the sampled rows agree outside `D` if the rows do -/
theorem iloc_off {L : Type} {X X' : LFrame L F V} (h : OffCols D X.frame X'.frame) (is : List Nat) :
    OffCols D (X.iloc is).frame (X'.iloc is).frame := by
  unfold OffCols LFrame.iloc
  induction is with
  | nil => exact List.Forall₂.nil
  | cons i is ih =>
    simp only [List.filterMap_cons]
    rcases lt_or_ge i X.frame.rows.length with hi | hi
    · have hi' : i < X'.frame.rows.length := by rw [rows_off h]; exact hi
      rw [List.getElem?_eq_getElem hi, List.getElem?_eq_getElem hi']
      exact List.Forall₂.cons (List.Forall₂.get h hi hi') ih
    · rw [List.getElem?_eq_none hi, List.getElem?_eq_none (by rw [rows_off h]; exact hi)]
      exact ih

/-- what the H-statistic shows for a numerator, a denominator and a number of rows -/
def HValue (n : Bool) (num den len : K) (x : Num K) : Prop :=
  if n then (den ≠ 0 → x = .fin (num / den)) ∧ (den = 0 → num ≠ 0 → x = .pinf) ∧ (den = 0 → num = 0 → x = .fin 0)
  else ∃ h : K, x = .fin h ∧ 0 ≤ h ∧ h * h = num / len

theorem hValue_unique {n : Bool} {num den len : K} {x y : Num K} (hx : HValue n num den len x) (hy : HValue n num den len y) : x = y := by
  unfold HValue at hx hy
  cases n with
  | false =>
    simp only [Bool.false_eq_true, if_false] at hx hy
    obtain ⟨a, rfl, a0, ea⟩ := hx
    obtain ⟨b, rfl, b0, eb⟩ := hy
    rw [(mul_self_inj a0 b0).1 (ea.trans eb.symm)]
  | true =>
    simp only [if_true] at hx hy
    by_cases hd : den = 0
    · by_cases hn : num = 0
      · rw [hx.2.2 hd hn, hy.2.2 hd hn]
      · rw [hx.2.1 hd hn, hy.2.1 hd hn]
    · rw [hx.1 hd, hy.1 hd]

end helpers

section tables
variable {F V K G L : Type} [DecidableEq F] [LinearOrder V] [Field K] [LinearOrder K] [IsStrictOrderedRing K] [HasSqrt K]
  [LawfulSqrt K] [DecidableEq L]
variable {E E' : PdEnv G F K} {a a' : PdArgs L F V K} {s0 s s0' s' : PdpMethod G L F V K} {Xs Xs' : LFrame L F V}
variable {u : Row F V → K} {D : List F}

theorem shows_H {n : Bool} (h : Fits (.friedman n) u E a s0 Xs s) {f f' : F} (hf : f ∈ a.feats) (hf' : f' ∈ a.feats)
    (hne : f ≠ f') : ∃ x : Num K, Shows s.ovo f f' x ∧ HValue n (sumSq Xs.frame (interaction u Xs.frame f f'))
      (sumSq Xs.frame (centred Xs.frame (fun r => pd2 u Xs.frame f f' (r f) (r f')))) Xs.frame.rows.length x := by
  obtain ⟨tbl, h1, h2⟩ := C66_H_is_textbook_formula n h.setup h.sortOvo h.rows h.returns
  obtain ⟨t, ht, row, hr, hp, huniq⟩ := the_row h hf hf' hne
  rw [h1] at ht
  cases ht
  refine ⟨row.val, ⟨tbl, h1, ⟨row, hr, hp⟩, fun r2 hr2 hp2 => by rw [huniq r2 hr2 hp2]⟩, ?_⟩
  have hv := h2 row hr
  rcases hp with ⟨e1, e2⟩ | ⟨e1, e2⟩
  · rw [e1, e2] at hv; exact hv
  · rw [e1, e2, interaction_swap u Xs.frame (Ne.symm hne)] at hv
    simp only [pd2_swap u Xs.frame (Ne.symm hne)] at hv
    exact hv

theorem shows_Hova {n : Bool} (h : Fits (.friedman n) u E a s0 Xs s) (ho : a.calculateOva = true) {f : F} (hf : f ∈ a.feats) :
    ∃ x : Num K, ShowsOne s.ova f x ∧ HValue n (sumSq Xs.frame (interactionOva u Xs.frame f))
      (sumSq Xs.frame (centred Xs.frame u)) Xs.frame.rows.length x := by
  obtain ⟨tbl, h1, hp, h2⟩ := C68_ova_is_textbook_formula n h.setup h.sortFeat h.rows ho h.returns
  have hp : (tbl.map (·.f)).Perm a.feats := hp
  obtain ⟨row, hr, e⟩ := List.mem_map.1 (hp.mem_iff.2 hf)
  subst e
  have nd : (tbl.map (·.f)).Nodup := hp.nodup_iff.2 h.feats
  exact ⟨row.val, ⟨tbl, h1, ⟨row, hr, rfl⟩, fun r2 hr2 hp2 => by rw [List.inj_on_of_nodup_map nd hr2 hr hp2]⟩, h2 row hr⟩

/-- **C135 (pairs, H-statistic).** Normalized or not, every pair of requested features shows the same value, columns in
`D` included. -/
theorem C135_H {n : Bool} (h : Fits (.friedman n) u E a s0 Xs s) (h' : Fits (.friedman n) u E' a' s0' Xs' s')
    (hX : OffCols D Xs.frame Xs'.frame) (hu : Unused D u) {f f' : F} (hf : f ∈ a.feats) (hf' : f' ∈ a.feats) (hne : f ≠ f')
    (gf : f ∈ a'.feats) (gf' : f' ∈ a'.feats) : ∃ x : Num K, Shows s.ovo f f' x ∧ Shows s'.ovo f f' x := by
  obtain ⟨x, hx, e⟩ := shows_H h hf hf' hne
  obtain ⟨x', hx', e'⟩ := shows_H h' gf gf' hne
  rw [sumSq_off hX (interaction_off hX hu f f'), sumSq_off hX (centred_off hX (pd2_row_off hX hu f f')), rows_off hX] at e'
  exact ⟨x, hx, by rw [hValue_unique e e']; exact hx'⟩

/-- **C135 (one against all).** -/
theorem C135_ova {n : Bool} (h : Fits (.friedman n) u E a s0 Xs s) (h' : Fits (.friedman n) u E' a' s0' Xs' s')
    (ho : a.calculateOva = true) (ho' : a'.calculateOva = true) (hX : OffCols D Xs.frame Xs'.frame) (hu : Unused D u) {f : F}
    (hf : f ∈ a.feats) (gf : f ∈ a'.feats) : ∃ x : Num K, ShowsOne s.ova f x ∧ ShowsOne s'.ova f x := by
  obtain ⟨x, hx, e⟩ := shows_Hova h ho hf
  obtain ⟨x', hx', e'⟩ := shows_Hova h' ho' gf
  rw [sumSq_off hX (interactionOva_off hX hu f), sumSq_off hX (centred_off hX hu), rows_off hX] at e'
  exact ⟨x, hx, by rw [hValue_unique e e']; exact hx'⟩

/-- **C135 (Greenwell).** Pairs outside `D` show the same value. -/
theorem C135_greenwell (h : Fits .greenwell u E a s0 Xs s) (h' : Fits .greenwell u E' a' s0' Xs' s')
    (hX : OffCols D Xs.frame Xs'.frame) (hu : Unused D u) {f f' : F} (hD : f ∉ D) (hD' : f' ∉ D)
    (hnum : ∀ g, g ∉ D → E'.numeric g = E.numeric g) (hf : f ∈ a.feats) (hf' : f' ∈ a.feats) (hne : f ≠ f')
    (gf : f ∈ a'.feats) (gf' : f' ∈ a'.feats) : ∃ x : K, Shows s.ovo f f' (.fin x) ∧ Shows s'.ovo f f' (.fin x) := by
  obtain ⟨x, y, z, hx, hy, hz, e⟩ := shows_greenwell h hf hf' hne
  obtain ⟨x', y', z', hx', hy', hz', e'⟩ := shows_greenwell h' gf gf' hne
  rw [hnum _ hD'] at hy'
  rw [hnum _ hD] at hz'
  have ey : y' = y := eq_of_near_zero (by
    simpa using condSpread_near (near_self Xs.frame u) h.rows hy (condSpread_off hX hu hD hD' hy'))
  have ez : z' = z := eq_of_near_zero (by
    simpa using condSpread_near (near_self Xs.frame u) h.rows hz (condSpread_off hX hu hD' hD hz'))
  rw [ey, ez, ← e] at e'
  exact ⟨x, hx, by rw [← e']; exact hx'⟩

/-- **C135 (importance).** Features outside `D` show the same importance, whichever of the three methods each fit is. -/
theorem C135_importance {kind kind' : PdKind} (h : Fits kind u E a s0 Xs s) (h' : Fits kind' u E' a' s0' Xs' s')
    (hX : OffCols D Xs.frame Xs'.frame) (hu : Unused D u) {f : F} (hD : f ∉ D)
    (hnum : E'.numeric f = E.numeric f) (hf : f ∈ a.feats) (gf : f ∈ a'.feats) :
    ∃ x : K, ShowsOne s.importance f (.fin x) ∧ ShowsOne s'.importance f (.fin x) := by
  obtain ⟨x, hx, e⟩ := shows_importance h hf
  obtain ⟨x', hx', e'⟩ := shows_importance h' gf
  rw [hnum] at e'
  have ex : x' = x := eq_of_near_zero (by
    have := importance_near (near_self Xs.frame u) h.rows e (importance_off hX hu hD e')
    simpa using this)
  exact ⟨x, hx, by rw [← ex]; exact hx'⟩

/-- **C135 (sampling).** Drawing rows with the same generator from two data sets that agree outside `D` gives two data sets
that agree outside `D`: the theorems above apply to fits that sample. -/
theorem C135_sampling {R : Rng G} {X X' : LFrame L F V} (h : OffCols D X.frame X'.frame) (n : Option Nat) (g : G)
    (hs : (sampleIfNotNone R X n g).1 = .ok Xs) :
    ∃ Xs', (sampleIfNotNone R X' n g).1 = .ok Xs' ∧ OffCols D Xs.frame Xs'.frame := by
  cases n with
  | none =>
    simp only [sampleIfNotNone, Except.ok.injEq] at hs ⊢
    subst hs
    exact ⟨X', rfl, h⟩
  | some k =>
    simp only [sampleIfNotNone] at hs ⊢
    have e : X'.frame.len = X.frame.len := rows_off h
    rw [e]
    by_cases hk : X.frame.len < k
    · rw [if_pos hk] at hs; cases hs
    · rw [if_neg hk] at hs ⊢
      cases hs
      exact ⟨_, rfl, iloc_off h _⟩

theorem firstOrder_off (hX : OffCols D Xs.frame Xs'.frame) (hu : Unused D u) (hne : Xs.frame.rows ≠ [])
    (hc : (Xs'.frame.cols.filter (· ∉ D)).Perm (Xs.frame.cols.filter (· ∉ D))) :
    ∀ r r', OffRow D r r' → firstOrder u Xs'.frame r' = firstOrder u Xs.frame r := by
  intro r r' hr
  have hm : average (Xs'.frame.rows.map u) = average (Xs.frame.rows.map u) := by rw [map_off hX hu]
  have z : ∀ (Y : Frame F V) (q : Row F V) (l : List F), (l.map fun f => pd1 u Y f (q f) - average (Y.rows.map u)).sum =
      ((l.filter (· ∉ D)).map fun f => pd1 u Y f (q f) - average (Y.rows.map u)).sum := by
    intro Y q l
    induction l with
    | nil => rfl
    | cons f l ih =>
      by_cases hf : f ∈ D
      · have e : pd1 u Y f (q f) = average (Y.rows.map u) := by
          unfold pd1
          congr 1
          refine List.map_congr_left fun w _ => hu _ _ fun g hg => ?_
          have : g ≠ f := fun e => hg (e ▸ hf)
          simp [setF, this]
        simp [List.filter_cons, hf, e, ih]
      · simp [List.filter_cons, hf, ih]
  unfold firstOrder
  rw [z Xs'.frame, z Xs.frame, hm]
  congr 1
  rw [(hc.map _).sum_eq]
  refine congrArg List.sum (List.map_congr_left fun f _ => ?_)
  rw [pd1_row_off hX hu f r r' hr]

/-- **C135 (additivity).** The index is the same, even when columns the model does not use are added or dropped. -/
theorem C135_additivity {A A' : AddArgs L F V K} {m0 m m0' m' : AddMeter G L F V K} {cp cp' : F} {v v' : Num K}
    (hs : AddSetup (finM u) E A m0 Xs) (hs' : AddSetup (finM u) E' A' m0' Xs') (hcp : cp ∉ Xs.frame.cols)
    (hcp' : cp' ∉ Xs'.frame.cols) (hne : Xs.frame.rows ≠ []) (hX : OffCols D Xs.frame Xs'.frame) (hu : Unused D u)
    (hc : (Xs'.frame.cols.filter (· ∉ D)).Perm (Xs.frame.cols.filter (· ∉ D)))
    (hret : AddMeter.fit E.R cp A m0 = (.ok v, m)) (hret' : AddMeter.fit E'.R cp' A' m0' = (.ok v', m')) : v' = v := by
  have hne' : Xs'.frame.rows ≠ [] := fun e => hne (by
    have := rows_off hX
    rw [e] at this
    exact List.length_eq_zero_iff.1 this.symm)
  have ev := addFit_value hs hcp (by rw [hret])
  have ev' := addFit_value hs' hcp' (by rw [hret'])
  rw [addNum_fin u hne] at ev
  rw [addNum_fin u hne'] at ev'
  rw [ev, ev', sumSq_off hX (centred_off hX hu), sumSq_off hX fun r r' hr => by
    rw [hu r r' hr, firstOrder_off hX hu hne hc r r' hr]]

end tables

section perf
variable {F V K G L : Type} [DecidableEq F] [Field K] [LinearOrder K] [IsStrictOrderedRing K] [DecidableEq L] [HasSqrt K]
variable {D : List F}

theorem permuted_off {X X' : Frame F V} (h : OffCols D X X') (fs : List F) (p : List Nat) :
    List.Forall₂ (OffRow D) (permuted X fs p) (permuted X' fs p) := by
  have hl := rows_off h
  rw [List.forall₂_iff_get]
  refine ⟨by simp [length_permuted, hl], fun i h1 h2 => ?_⟩
  have i1 : i < X.rows.length := by simpa [length_permuted] using h1
  have i2 : i < X'.rows.length := by simpa [length_permuted] using h2
  intro g hg
  have hi := List.Forall₂.get h i1 i2 g hg
  simp only [permuted, List.get_eq_getElem, List.getElem_mapIdx]
  by_cases hgf : g ∈ fs
  · rw [if_pos hgf, if_pos hgf]
    cases hp : p[i]? with
    | none => simpa using hi
    | some j =>
      rcases lt_or_ge j X.rows.length with hj | hj
      · have hj' : j < X'.rows.length := by rw [hl]; exact hj
        simpa [List.getElem?_eq_getElem hj, List.getElem?_eq_getElem hj'] using List.Forall₂.get h hj hj' g hg
      · simpa [List.getElem?_eq_none hj, List.getElem?_eq_none (show X'.rows.length ≤ j by rw [hl]; exact hj)] using hi
  · rw [if_neg hgf, if_neg hgf]
    simpa using hi

theorem scores_off {model : ModelObj F V (Num K)} {M : Metric K} {ys : List (Num K)} {len : Nat} {sc : List (Row F V) → K}
    (hsc : Scores model M ys len sc) (hu : ModelUnused D model) {rows rows' : List (Row F V)} (hl : rows.length = len)
    (h : List.Forall₂ (OffRow D) rows rows') : sc rows' = sc rows := by
  obtain ⟨p, hp, hs⟩ := hsc
  obtain ⟨yh, h1, h2⟩ := hs 0 rows hl
  obtain ⟨yh', h1', h2'⟩ := hs 0 rows' (by rw [← h.length_eq]; exact hl)
  rw [hu p hp 0 0 rows rows' h, h1] at h1'
  cases h1'
  rw [h2] at h2'
  simpa using h2'.symm

/-- **C135 (permutation importance).** With the same targets and the same state of the generator, every feature asked for
shows the same importance on the two data sets, for any metric. -/
theorem C135_permutation_importance {R : Rng G} {sort sort' : List (FeatRow F K) → List (FeatRow F K)} {model : ModelObj F V (Num K)}
    {X X' : LFrame L F V} {y : Target L K} {n : Nat} {fs : List F} {o : PermObj G F K} {sc : List (Row F V) → K}
    (hR : R.Lawful) (hsort : SortsBy FeatRow.val false sort) (hsort' : SortsBy FeatRow.val false sort')
    (hsc : Scores model o.metric y.values X.frame.rows.length sc) (hu : ModelUnused D model) (hX : OffCols D X.frame X'.frame)
    (hfs : ∀ f ∈ fs, f ∈ X.frame.cols) (hfs' : ∀ f ∈ fs, f ∈ X'.frame.cols) (hne : fs ≠ []) (hr : 0 < n)
    (calls calls' : List (List (Row F V))) :
    ∃ t t' o1 o2 c1 c2, PermObj.run sort R model X y n (some fs) o calls = (.ok t, o1, c1) ∧
      PermObj.run sort' R model X' y n (some fs) o calls' = (.ok t', o2, c2) ∧ o2.rng = o1.rng ∧
      ∀ f ∈ fs, ∃ k : K, ShowsOne (some t) f (.fin k) ∧ ShowsOne (some t') f (.fin k) := by
  have hl := rows_off hX
  have hsc' : Scores model o.metric y.values X'.frame.rows.length sc := by rw [hl]; exact hsc
  obtain ⟨ks, k1, k2, k3⟩ := run_eq (sort := sort) hR hsc hfs hne hr calls
  obtain ⟨ks', k1', k2', k3'⟩ := run_eq (sort := sort') hR hsc' hfs' hne hr calls'
  refine ⟨_, _, _, _, _, _, k3, k3', by rw [hl], fun f hf => ⟨sgn o.metric *
    (average (turnScores sc X.frame (nthPerm R X.frame.rows.length o.rng) fs n f) - sc X.frame.rows), ?_, ?_⟩⟩
  · refine ⟨_, rfl, ⟨_, (hsort _).1.mem_iff.2 (List.mem_map.2 ⟨f, (k2 f).2 hf, rfl⟩), rfl⟩, fun r2 h2 e2 => ?_⟩
    obtain ⟨f2, _, rfl⟩ := List.mem_map.1 ((hsort _).1.mem_iff.1 h2)
    simp only at e2
    subst e2
    rfl
  · refine ⟨_, rfl, ⟨_, (hsort' _).1.mem_iff.2 (List.mem_map.2 ⟨f, (k2' f).2 hf, rfl⟩), rfl⟩, fun r2 h2 e2 => ?_⟩
    obtain ⟨f2, _, rfl⟩ := List.mem_map.1 ((hsort' _).1.mem_iff.1 h2)
    simp only at e2
    subst e2
    have e1 : sc X'.frame.rows = sc X.frame.rows := scores_off hsc hu rfl hX
    have e3 : turnScores sc X'.frame (nthPerm R X'.frame.rows.length o.rng) fs n f2 =
        turnScores sc X.frame (nthPerm R X.frame.rows.length o.rng) fs n f2 := by
      rw [hl]
      unfold turnScores
      congr 2
      refine List.mapIdx_eq_mapIdx_iff.2 fun i hi => ?_
      rw [scores_off hsc hu (length_permuted _ _ _) (permuted_off hX _ _)]
    simp only [e1, e3]

variable {E : PerfEnv G L F K} {a : SejongArgs L F V K} {s0 : Sejong G L F V K} {Xs : LFrame L F V} {ys : Target L K}
  {g : G} {sc : List (Row F V) → K}

theorem sampleBoth_off {X X' : LFrame L F V} (h : OffCols D X.frame X'.frame) (hl : X'.labels = X.labels) {R : Rng G}
    {toInt : L → Option Int} {y : Target L K} {n : Option Nat} {g0 : G}
    (hs : sampleBoth R toInt X y n g0 = (.ok (Xs, ys), g)) :
    ∃ Xs', sampleBoth R toInt X' y n g0 = (.ok (Xs', ys), g) ∧ OffCols D Xs.frame Xs'.frame := by
  unfold sampleBoth at hs ⊢
  cases n with
  | none =>
    simp only [Prod.mk.injEq, Except.ok.injEq] at hs ⊢
    obtain ⟨⟨rfl, rfl⟩, rfl⟩ := hs
    exact ⟨X', ⟨⟨rfl, rfl⟩, rfl⟩, h⟩
  | some k =>
    simp only [sampleIfNotNone] at hs ⊢
    have e : X'.frame.len = X.frame.len := rows_off h
    rw [e]
    by_cases hk : X.frame.len < k
    · simp only [if_pos hk] at hs; cases hs
    · simp only [if_neg hk] at hs ⊢
      have el : (X'.iloc (R.sample g0 X.frame.len k).1).labels = (X.iloc (R.sample g0 X.frame.len k).1).labels := by
        simp only [LFrame.iloc, hl]
      rw [el]
      cases ey : y.getIndex toInt (X.iloc (R.sample g0 X.frame.len k).1).labels with
      | error e => rw [ey] at hs; cases hs
      | ok ys2 =>
        rw [ey] at hs
        cases hs
        exact ⟨_, rfl, iloc_off h _⟩

/-- **C135 (Sejong Oh).** On data that agree outside `D` and carry the same index, with the same targets, features and state
of the generator, the fit shows the same table of pairs, sampling included. -/
theorem C135_sejong (hs : PerfSetup E a s0 Xs ys g sc) (hu : ModelUnused D a.model) {X' : LFrame L F V}
    (hX : OffCols D a.X.frame X'.frame) (hl : X'.labels = a.X.labels) (hfs : ∀ f ∈ a.feats, f ∈ X'.frame.cols)
    (entropy entropy' : G) :
    ∃ s s' t, Sejong.fit E a entropy s0 = (.ok (), s) ∧
      Sejong.fit E { a with X := X', features := some a.feats } entropy' s0 = (.ok (), s') ∧
      s.ovo = some t ∧ s'.ovo = some t := by
  obtain ⟨Xs', hsamp, hX'⟩ := sampleBoth_off hX hl hs.sampled
  have hs' : PerfSetup E { a with X := X', features := some a.feats } s0 Xs' ys g sc :=
    ⟨hs.lawful, hsamp, by rw [rows_off hX']; exact hs.scores, hfs, hs.feats_nodup, hs.feats_ne, hs.repeats⟩
  obtain ⟨imp, e⟩ := sejong_fit_eq hs entropy
  obtain ⟨imp', e'⟩ := sejong_fit_eq hs' entropy'
  refine ⟨_, _, _, e, e', rfl, ?_⟩
  have key : ∀ i pr, pairValue sc Xs'.frame (nthPerm E.R Xs'.frame.rows.length g) a.nRepeat i pr =
      pairValue sc Xs.frame (nthPerm E.R Xs.frame.rows.length g) a.nRepeat i pr := by
    intro i pr
    rw [rows_off hX']
    unfold pairValue nonAdditive
    simp only [scores_off hs.scores hu (length_permuted _ _ _) (permuted_off hX' _ _), scores_off hs.scores hu rfl hX']
  have hf : SejongArgs.feats { a with X := X', features := some a.feats } = a.feats := rfl
  simp only [hf, perfTable, key]

end perf

section Cases
open Ex

/-- the model `x y + y` on columns 0, 1, 2; column 2 is not used -/
noncomputable def thirdU (r : Row (Fin 3) ℤ) : ℝ := ((r 0 * r 1 + r 1 : ℤ) : ℝ)

/-- the grid with a third column -/
def thirdX (c : Fin 4 → ℤ) : LFrame Nat (Fin 3) ℤ :=
  ⟨[0, 1, 2, 3], ⟨[0, 1, 2], [![1, 1, c 0], ![1, -1, c 1], ![-1, 1, c 2], ![-1, -1, c 3]]⟩⟩

noncomputable def thirdArgs (c : Fin 4 → ℤ) : PdArgs Nat (Fin 3) ℤ ℝ where
  model := { ident := 1, predict := some (fun _ rows => .ok (rows.map (fun r => .fin (thirdU r)))), predictProba := none }
  X := thirdX c
  n := none
  predictFunction := none
  features := none
  batchsize := 7
  pdCalculator := none
  calculateOva := true

noncomputable def thirdEnv : PdEnv Nat (Fin 3) ℝ where
  R := exRng
  sortOvo := stableSort OvoRow.val false
  sortFeat := stableSort FeatRow.val false
  numeric := fun _ => true

theorem thirdSetup (c : Fin 4 → ℤ) : FitSetup (finM thirdU) thirdEnv (thirdArgs c) (PdpMethod.new 0) (thirdX c) where
  sampled := rfl
  rowWise := by
    intro n rows ys h; cases h; rfl
  reads := by
    intro r r' h
    simp only [finM, thirdU, h 0 (by simp [thirdX]), h 1 (by simp [thirdX])]
  cols_nodup := by show [(0 : Fin 3), 1, 2].Nodup; decide
  history := by intro co h; cases h

theorem thirdChoose (c : Fin 4 → ℤ) : PdpMethod.chooseCalc (thirdArgs c) (thirdX c) (thirdArgs c).pf =
    .ok ⟨1, [0, 1, 2, 3], Calc.new (thirdArgs c).pf (thirdX c).frame 7⟩ := by
  simp only [PdpMethod.chooseCalc, thirdArgs, thirdX]

theorem thirdNever (c : Fin 4 → ℤ) : NeverFails (thirdArgs c).pf := by
  intro n rows; exact ⟨_, rfl⟩

theorem thirdFit (n : Bool) (c : Fin 4 → ℤ) :
    ∃ s, Fits (L := Nat) (.friedman n) thirdU thirdEnv (thirdArgs c) (PdpMethod.new 0) (thirdX c) s := by
  have hX : (thirdX c).frame.rows ≠ [] := by simp [thirdX]
  have h := (fit_returns (e := .keyError) (kind := .friedman n) (thirdSetup c) (thirdChoose c) (thirdNever c)
    (thirdNever c) (validFeatures_of_nodup (fun _ h => h) (by show [(0 : Fin 3), 1, 2].Nodup; decide))).1.2
    ⟨⟨_, ovoRows.eq_1 _ _ _ _ _⟩, impRows_ok _ _ hX _⟩
  obtain ⟨s, hs⟩ := ret_of_fst h
  exact ⟨s, thirdSetup c, sortsBy_stableSort _ _, sortsBy_stableSort _ _, hX,
    by show [(0 : Fin 3), 1, 2].Nodup; decide, hs⟩

theorem thirdFitG (c : Fin 4 → ℤ) (hc : c 0 ≠ c 1) :
    ∃ s, Fits (L := Nat) .greenwell thirdU thirdEnv (thirdArgs c) (PdpMethod.new 0) (thirdX c) s := by
  have hX : (thirdX c).frame.rows ≠ [] := by simp [thirdX]
  have nd : (thirdArgs c).feats.Nodup := by show [(0 : Fin 3), 1, 2].Nodup; decide
  have h := C18_greenwell_fails_iff_constant_feature (thirdSetup c) (thirdChoose c) (thirdNever c)
    (thirdNever c) nd (fun _ h => h) hX
  have hr := h.2 (by
    rw [Ne, h.1]
    rintro ⟨_, f, _, hq⟩
    have e1 := hq ![1, 1, c 0] (by simp [thirdX]) ![1, -1, c 1] (by simp [thirdX])
    have e2 := hq ![1, 1, c 0] (by simp [thirdX]) ![-1, 1, c 2] (by simp [thirdX])
    match f with
    | 0 => simp at e2
    | 1 => simp at e1
    | 2 => simp at e1; exact hc e1)
  obtain ⟨s, hs⟩ := ret_of_fst hr
  exact ⟨s, thirdSetup c, sortsBy_stableSort _ _, sortsBy_stableSort _ _, hX, nd, hs⟩

theorem thirdOff (c c' : Fin 4 → ℤ) : OffCols [2] (thirdX c).frame (thirdX c').frame := by
  have h : ∀ a b x y : ℤ, OffRow [2] (![a, b, x] : Row (Fin 3) ℤ) ![a, b, y] := by
    intro a b x y f hf
    match f with
    | 0 => rfl
    | 1 => rfl
    | 2 => simp at hf
  exact .cons (h _ _ _ _) (.cons (h _ _ _ _) (.cons (h _ _ _ _) (.cons (h _ _ _ _) .nil)))

theorem thirdUnused : Unused [2] thirdU := by
  intro r r' h
  simp only [thirdU, h 0 (by decide), h 1 (by decide)]

/-- C135: a third column holding the row number, and one holding 5, 7, 5, 7 -/
example : ∃ s s' : PdpMethod Nat Nat (Fin 3) ℤ ℝ,
    Fits (.friedman true) thirdU thirdEnv (thirdArgs ![0, 1, 2, 3]) (PdpMethod.new 0) (thirdX ![0, 1, 2, 3]) s ∧
    Fits (.friedman true) thirdU thirdEnv (thirdArgs ![5, 7, 5, 7]) (PdpMethod.new 0) (thirdX ![5, 7, 5, 7]) s' ∧
    (∃ x, Shows s.ovo 0 1 x ∧ Shows s'.ovo 0 1 x) ∧ (∃ x, Shows s.ovo 2 1 x ∧ Shows s'.ovo 2 1 x) ∧
    (∃ x, ShowsOne s.ova 0 x ∧ ShowsOne s'.ova 0 x) ∧
    (∃ x : ℝ, ShowsOne s.importance 0 (.fin x) ∧ ShowsOne s'.importance 0 (.fin x)) := by
  obtain ⟨s, h⟩ := thirdFit true ![0, 1, 2, 3]
  obtain ⟨s', h'⟩ := thirdFit true ![5, 7, 5, 7]
  have m : ∀ c, ∀ f : Fin 3, f ∈ (thirdArgs c).feats := fun c f => by show f ∈ [0, 1, 2]; revert f; decide
  have ho := thirdOff ![0, 1, 2, 3] ![5, 7, 5, 7]
  exact ⟨s, s', h, h', C135_H h h' ho thirdUnused (m _ _) (m _ _) (by decide) (m _ _) (m _ _),
    C135_H h h' ho thirdUnused (m _ _) (m _ _) (by decide) (m _ _) (m _ _),
    C135_ova h h' rfl rfl ho thirdUnused (m _ _) (m _ _),
    C135_importance h h' ho thirdUnused (by decide) rfl (m _ _) (m _ _)⟩

example : ∃ s s' : PdpMethod Nat Nat (Fin 3) ℤ ℝ,
    Fits .greenwell thirdU thirdEnv (thirdArgs ![0, 1, 2, 3]) (PdpMethod.new 0) (thirdX ![0, 1, 2, 3]) s ∧
    Fits .greenwell thirdU thirdEnv (thirdArgs ![5, 7, 5, 7]) (PdpMethod.new 0) (thirdX ![5, 7, 5, 7]) s' ∧
    (∃ x : ℝ, Shows s.ovo 0 1 (.fin x) ∧ Shows s'.ovo 0 1 (.fin x)) := by
  obtain ⟨s, h⟩ := thirdFitG ![0, 1, 2, 3] (by decide)
  obtain ⟨s', h'⟩ := thirdFitG ![5, 7, 5, 7] (by decide)
  have m : ∀ c, ∀ f : Fin 3, f ∈ (thirdArgs c).feats := fun c f => by show f ∈ [0, 1, 2]; revert f; decide
  exact ⟨s, s', h, h', C135_greenwell h h' (thirdOff _ _) thirdUnused (by decide) (by decide) (fun _ _ => rfl) (m _ _) (m _ _)
    (by decide) (m _ _) (m _ _)⟩

/-- another third column for the data of `Verif/Props/PermImp.lean` -/
def offPerfX : LFrame Nat (Fin 3) ℤ := ⟨[0, 1, 2], ⟨[0, 1, 2], [![1, 2, 8], ![2, 0, 8], ![3, 4, -1]]⟩⟩

theorem offPerf : OffCols [2] exPerfX.frame offPerfX.frame := by
  have h : ∀ a b x y : ℤ, OffRow [2] (![a, b, x] : Row (Fin 3) ℤ) ![a, b, y] := by
    intro a b x y f hf
    match f with
    | 0 => rfl
    | 1 => rfl
    | 2 => simp at hf
  exact .cons (h _ _ _ _) (.cons (h _ _ _ _) (.cons (h _ _ _ _) .nil))

theorem exPerfUnused {K : Type} [Field K] : ModelUnused [2] (exPerfModel (K := K)) := by
  intro p hp k k' rows rows' h
  cases hp
  have : rows'.map (fun r => (.fin ((r 0 * r 1 : ℤ) : K) : Num K)) = rows.map (fun r => .fin ((r 0 * r 1 : ℤ) : K)) := by
    induction h with
    | nil => rfl
    | cons h1 _ ih => simp only [List.map_cons, ih, h1 0 (by decide), h1 1 (by decide)]
  simp only [this]

example : ∃ s s' t, Sejong.fit (K := ℝ) exPerfEnv exSArgs 5 (Sejong.new 0 rmseM) = (.ok (), s) ∧
    Sejong.fit (K := ℝ) exPerfEnv { exSArgs with X := offPerfX, features := some (exSArgs (K := ℝ)).feats } 6 (Sejong.new 0 rmseM) =
      (.ok (), s') ∧ s.ovo = some t ∧ s'.ovo = some t := by
  obtain ⟨sc, hs⟩ := exPerfSetup 0
  exact C135_sejong hs exPerfUnused offPerf rfl (fun f hf => by show f ∈ [(0 : Fin 3), 1, 2]; revert f; decide) 5 6

/-- the computed importances of the data with the other third column -/
example : (PermObj.run (L := Nat) (stableSort FeatRow.val false) exRng exPerfModel offPerfX exPerfY 2 (some [2, 0, 1])
    (⟨0, mseM, none⟩ : PermObj Nat (Fin 3) ℚ) []).1.map (fun t => t.map FeatRow.val) =
    .ok [.fin (80 / 3), .fin (40 / 3), .fin 0] := by decide +kernel

/-- the index of `(x0)^2 + x0 x1` with a column that is not used, and without it -/
example : (AddMeter.fit exRng 3 (exAdd (K := ℚ) [![0, 1, 7, 0], ![1, 1, 9, 0], ![2, 0, 4, 0]] (fun r => (r 0 : ℚ) ^ 2 + r 0 * r 1) [0, 1, 2])
      (AddMeter.new (G := Nat) (L := Nat) 0)).1 =
    (AddMeter.fit exRng 3 (exAdd (K := ℚ) [![0, 1, 1, 0], ![1, 1, 1, 0], ![2, 0, 3, 0]] (fun r => (r 0 : ℚ) ^ 2 + r 0 * r 1) [0, 1])
      (AddMeter.new (G := Nat) (L := Nat) 0)).1 := by decide +kernel

end Cases

end Artemis
