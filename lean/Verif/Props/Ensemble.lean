import Verif.Props.Invariance
import Verif.Props.Zero
import Verif.Proofs.CorrLemmas

/-!
# Properties C114 and C115: sums of models

C114: terms that cannot interact do not change the unnormalized H-statistic. C115: a weighted sum of models interacts at
most as much as the weighted sum of what its members show. Setting as in `Verif/Props/Invariance.lean` (`Fits`, `Shows`).
-/

set_option linter.unusedSectionVars false
set_option linter.unusedVariables false
set_option linter.unusedSimpArgs false

namespace Artemis
open Spec

section helpers
variable {F V K : Type} [DecidableEq F] [LinearOrder V] [Field K] [LinearOrder K] [IsStrictOrderedRing K]
  [HasSqrt K]

theorem average_lin {α : Type} (l : List α) (x y : α → K) (p q : K) :
    average (l.map fun i => p * x i + q * y i) = p * average (l.map x) + q * average (l.map y) := by
  simp only [average, List.length_map, List.sum_map_add, List.sum_map_mul_left]
  ring

theorem centred_lin (X : Frame F V) (x y : Row F V → K) (p q : K) (r : Row F V) :
    centred X (fun r => p * x r + q * y r) r = p * centred X x r + q * centred X y r := by
  simp only [centred, average_lin]
  ring

theorem pd1_lin (X : Frame F V) (u w : Row F V → K) (p q : K) (f : F) (v : V) :
    pd1 (fun r => p * u r + q * w r) X f v = p * pd1 u X f v + q * pd1 w X f v :=
  average_lin X.rows (fun r => u (setF r f v)) (fun r => w (setF r f v)) p q

theorem pd2_lin (X : Frame F V) (u w : Row F V → K) (p q : K) (f f' : F) (v v' : V) :
    pd2 (fun r => p * u r + q * w r) X f f' v v' = p * pd2 u X f f' v v' + q * pd2 w X f f' v v' :=
  average_lin X.rows (fun r => u (setF (setF r f' v') f v)) (fun r => w (setF (setF r f' v') f v)) p q

theorem pdNot_lin (X : Frame F V) (u w : Row F V → K) (p q : K) (f : F) (ri : Row F V) :
    pdNot (fun r => p * u r + q * w r) X f ri = p * pdNot u X f ri + q * pdNot w X f ri :=
  average_lin X.rows (fun r => u (setF ri f (r f))) (fun r => w (setF ri f (r f))) p q

theorem interaction_lin (X : Frame F V) (u w : Row F V → K) (p q : K) (f f' : F) (r : Row F V) :
    interaction (fun r => p * u r + q * w r) X f f' r = p * interaction u X f f' r + q * interaction w X f f' r := by
  simp only [interaction, pd2_lin, pd1_lin,
    centred_lin X (fun r => pd2 u X f f' (r f) (r f')) (fun r => pd2 w X f f' (r f) (r f')) p q,
    centred_lin X (fun r => pd1 u X f (r f)) (fun r => pd1 w X f (r f)) p q,
    centred_lin X (fun r => pd1 u X f' (r f')) (fun r => pd1 w X f' (r f')) p q]
  ring

theorem interactionOva_lin (X : Frame F V) (u w : Row F V → K) (p q : K) (f : F) (r : Row F V) :
    interactionOva (fun r => p * u r + q * w r) X f r = p * interactionOva u X f r + q * interactionOva w X f r := by
  have e : pdNot (fun r => p * u r + q * w r) X f = fun ri => p * pdNot u X f ri + q * pdNot w X f ri :=
    funext (pdNot_lin X u w p q f)
  simp only [interactionOva, e, pd1_lin, centred_lin X u w p q,
    centred_lin X (fun r => pd1 u X f (r f)) (fun r => pd1 w X f (r f)) p q,
    centred_lin X (pdNot u X f) (pdNot w X f) p q]
  ring

/-- a sum of a part that ignores `f` and a part that ignores `f'` has no interaction of the two -/
theorem interaction_split_zero {x y : Row F V → K} {X : Frame F V} (hX : X.rows ≠ []) {f f' : F} (hne : f ≠ f')
    (hx : Ignores x f) (hy : Ignores y f') (r : Row F V) : interaction (fun r => x r + y r) X f f' r = 0 := by
  have e0 : (fun r => x r + y r) = fun r => 1 * x r + 1 * y r := by simp
  rw [e0, interaction_lin]
  have e1 : ∀ v v', pd2 x X f f' v v' = pd1 x X f' v' := fun v v' => pd2_ignores_fst hx X f' v v'
  have e2 : ∀ v v', pd2 y X f f' v v' = pd1 y X f v := fun v v' => pd2_ignores_snd hne hy X v v'
  have e3 : ∀ v, pd1 x X f v = average (X.rows.map x) := fun v => pd1_ignores hx X v
  have e4 : ∀ v, pd1 y X f' v = average (X.rows.map y) := fun v => pd1_ignores hy X v
  simp only [interaction, e1, e2, e3, e4, centred, average_const hX]
  ring

theorem interactionOva_split_zero {x y : Row F V → K} {X : Frame F V} (hX : X.rows ≠ []) {f : F}
    (hx : OnlyUses x f) (hy : Ignores y f) (r : Row F V) : interactionOva (fun r => x r + y r) X f r = 0 := by
  have e0 : (fun r => x r + y r) = fun r => 1 * x r + 1 * y r := by simp
  rw [e0, interactionOva_lin]
  have e1 : ∀ ri : Row F V, pd1 x X f (ri f) = x ri := by
    intro ri
    have : (X.rows.map fun r => x (setF r f (ri f))) = X.rows.map fun _ => x ri :=
      List.map_congr_left fun r _ => hx _ _ (by simp [setF])
    rw [pd1, this, average_const hX]
  have e2 : ∀ ri, pdNot x X f ri = average (X.rows.map x) := by
    intro ri
    have : (X.rows.map fun r => x (setF ri f (r f))) = X.rows.map x :=
      List.map_congr_left fun r _ => hx _ _ (by simp [setF])
    rw [pdNot, this]
  have e3 : ∀ v, pd1 y X f v = average (X.rows.map y) := fun v => pd1_ignores hy X v
  have e4 : ∀ ri, pdNot y X f ri = y ri := by
    intro ri
    have : (X.rows.map fun r => y (setF ri f (r f))) = X.rows.map fun _ => y ri :=
      List.map_congr_left fun r _ => hy _ _
    rw [pdNot, this, average_const hX]
  have e2' : pdNot x X f = fun _ => average (X.rows.map x) := funext e2
  have e4' : pdNot y X f = y := funext e4
  simp only [interactionOva, e1, e2', e3, e4', centred, average_const hX]
  ring

/-- Minkowski's inequality for means of squares -/
theorem minkowski {α : Type} (l : List α) (x y : α → K) (p q : K) {n h h' m : K} (hn : 0 < n) (h0 : 0 ≤ h) (h0' : 0 ≤ h')
    (e : h * h = (l.map fun i => x i * x i).sum / n) (e' : h' * h' = (l.map fun i => y i * y i).sum / n)
    (em : m * m = (l.map fun i => (p * x i + q * y i) * (p * x i + q * y i)).sum / n) : m ≤ |p| * h + |q| * h' := by
  have hx : (l.map fun i => x i * x i).sum = n * (h * h) := by rw [e]; field_simp
  have hy : (l.map fun i => y i * y i).sum = n * (h' * h') := by rw [e']; field_simp
  have hm : (l.map fun i => (p * x i + q * y i) * (p * x i + q * y i)).sum = n * (m * m) := by rw [em]; field_simp
  have hexp : (l.map fun i => (p * x i + q * y i) * (p * x i + q * y i)).sum =
      p * p * (l.map fun i => x i * x i).sum + 2 * p * q * (l.map fun i => x i * y i).sum +
        q * q * (l.map fun i => y i * y i).sum := by
    simp only [← List.sum_map_mul_left, ← List.sum_map_add]
    congr 1
    apply List.map_congr_left
    intro i _
    ring
  set c := (l.map fun i => x i * y i).sum with hc
  have hcs : c * c ≤ (l.map fun i => x i * x i).sum * (l.map fun i => y i * y i).sum := by
    have := list_cauchy l x y
    simpa [pow_two] using this
  rw [hx, hy] at hcs
  have hcabs : |c| ≤ n * (h * h') := by
    apply abs_le_of_sq_le_sq' _ (by positivity) |> fun h => abs_le.2 h
    nlinarith [hcs]
  have hpq : p * q * c ≤ |p| * |q| * (n * (h * h')) := by
    calc p * q * c ≤ |p * q * c| := le_abs_self _
      _ = |p| * |q| * |c| := by rw [abs_mul, abs_mul]
      _ ≤ |p| * |q| * (n * (h * h')) := by
        apply mul_le_mul_of_nonneg_left hcabs
        positivity
  have hp2 : p * p = |p| * |p| := (abs_mul_abs_self p).symm
  have hq2 : q * q = |q| * |q| := (abs_mul_abs_self q).symm
  rw [hm, hx, hy, hp2, hq2] at hexp
  have hsq : n * (m * m) ≤ n * ((|p| * h + |q| * h') * (|p| * h + |q| * h')) := by
    nlinarith [hpq]
  have hsq' : m * m ≤ (|p| * h + |q| * h') * (|p| * h + |q| * h') := le_of_mul_le_mul_left hsq hn
  have hnn : 0 ≤ |p| * h + |q| * h' := by positivity
  exact le_of_not_gt fun hlt => absurd hsq' (not_le.2 (mul_self_lt_mul_self hnn hlt))

theorem popStd_perm {l l' : List K} (h : l.Perm l') {x : K} (hx : IsPopStd l x) : IsPopStd l' x :=
  ⟨hx.1, by rw [hx.2, zero_sumDev_perm h, h.length_eq]⟩

theorem quarterRange_perm {l l' : List K} (h : l.Perm l') {x : K} (hx : IsQuarterRange l x) : IsQuarterRange l' x := by
  obtain ⟨lo, hlo, hi, hhi, hb, e⟩ := hx
  exact ⟨lo, h.mem_iff.1 hlo, hi, h.mem_iff.1 hhi, fun y hy => hb y (h.mem_iff.2 hy), e⟩

/-- the importance computed on any listing of the levels -/
theorem importance_on {b : Bool} {u : Row F V → K} {X : Frame F V} {f : F} {x : K} (h : IsImportance b u X f x)
    {vs : List V} (hv : Levels X f vs) :
    if b then IsPopStd (vs.map (pd1 u X f)) x else IsQuarterRange (vs.map (pd1 u X f)) x := by
  obtain ⟨ws, hw, hi⟩ := h
  have hp := (levels_perm hw hv).map (pd1 u X f)
  cases b with
  | true => exact popStd_perm hp (by simpa using hi)
  | false => exact quarterRange_perm hp (by simpa using hi)

theorem importance_mixture {b : Bool} {u w : Row F V → K} {X : Frame F V} (hX : X.rows ≠ []) {f : F} {p q x y m : K}
    (hx : IsImportance b u X f x) (hy : IsImportance b w X f y)
    (hm : IsImportance b (fun r => p * u r + q * w r) X f m) : m ≤ |p| * x + |q| * y := by
  obtain ⟨vs, hv, hi⟩ := hm
  have h1 := importance_on hx hv
  have h2 := importance_on hy hv
  have e : vs.map (pd1 (fun r => p * u r + q * w r) X f) = vs.map (fun v => p * pd1 u X f v + q * pd1 w X f v) :=
    List.map_congr_left fun v _ => pd1_lin X u w p q f v
  have hne : vs ≠ [] := by
    obtain ⟨r, hr⟩ := List.exists_mem_of_ne_nil _ hX
    exact List.ne_nil_of_mem ((hv.2 (r f)).2 ⟨r, hr, rfl⟩)
  rw [e] at hi
  cases b with
  | true =>
    simp only [if_true] at hi h1 h2
    have hn : (0 : K) < vs.length := by
      have := List.length_pos_of_ne_nil hne
      exact_mod_cast this
    obtain ⟨m0, em⟩ := hi
    obtain ⟨x0, ex⟩ := h1
    obtain ⟨y0, ey⟩ := h2
    simp only [sumDev, List.map_map, Function.comp_def, List.length_map] at em ex ey
    refine minkowski vs (fun v => pd1 u X f v - average (vs.map (pd1 u X f)))
      (fun v => pd1 w X f v - average (vs.map (pd1 w X f))) p q hn x0 y0 ex ey ?_
    rw [em]
    congr 2
    apply List.map_congr_left
    intro v _
    rw [average_lin vs (pd1 u X f) (pd1 w X f)]
    ring
  | false =>
    simp only [Bool.false_eq_true, if_false] at hi h1 h2
    obtain ⟨lo, hlo, hi', hhi, hb, rfl⟩ := hi
    obtain ⟨lo1, hlo1, hi1, hhi1, hb1, rfl⟩ := h1
    obtain ⟨lo2, hlo2, hi2, hhi2, hb2, rfl⟩ := h2
    obtain ⟨v, hv1, rfl⟩ := List.mem_map.1 hlo
    obtain ⟨v', hv2, rfl⟩ := List.mem_map.1 hhi
    have b1 := hb1 _ (List.mem_map_of_mem hv1)
    have b1' := hb1 _ (List.mem_map_of_mem hv2)
    have b2 := hb2 _ (List.mem_map_of_mem hv1)
    have b2' := hb2 _ (List.mem_map_of_mem hv2)
    have k1 : p * (pd1 u X f v' - pd1 u X f v) ≤ |p| * (hi1 - lo1) := by
      calc p * (pd1 u X f v' - pd1 u X f v) ≤ |p * (pd1 u X f v' - pd1 u X f v)| := le_abs_self _
        _ = |p| * |pd1 u X f v' - pd1 u X f v| := abs_mul _ _
        _ ≤ |p| * (hi1 - lo1) := by
          apply mul_le_mul_of_nonneg_left _ (abs_nonneg _)
          rw [abs_le]; constructor <;> linarith
    have k2 : q * (pd1 w X f v' - pd1 w X f v) ≤ |q| * (hi2 - lo2) := by
      calc q * (pd1 w X f v' - pd1 w X f v) ≤ |q * (pd1 w X f v' - pd1 w X f v)| := le_abs_self _
        _ = |q| * |pd1 w X f v' - pd1 w X f v| := abs_mul _ _
        _ ≤ |q| * (hi2 - lo2) := by
          apply mul_le_mul_of_nonneg_left _ (abs_nonneg _)
          rw [abs_le]; constructor <;> linarith
    linarith

end helpers

section tables
variable {F V G L K : Type} [DecidableEq F] [LinearOrder V] [DecidableEq L] [Field K] [LinearOrder K]
  [IsStrictOrderedRing K] [HasSqrt K] [LawfulSqrt K]
variable {E : PdEnv G F K} {a : PdArgs L F V K} {s0 s : PdpMethod G L F V K} {Xs : LFrame L F V} {u : Row F V → K}

theorem the_row {kind : PdKind} (h : Fits kind u E a s0 Xs s) {f f' : F} (hf : f ∈ a.feats) (hf' : f' ∈ a.feats)
    (hne : f ≠ f') : ∃ tbl, s.ovo = some tbl ∧ ∃ row ∈ tbl, row.isPair f f' ∧ ∀ r2 ∈ tbl, r2.isPair f f' → r2 = row := by
  obtain ⟨t, t1, _, t2, _⟩ := C13_one_row_per_pair kind h.setup h.sortOvo h.feats h.returns
  have c1 := t2 f hf f' hf' hne
  obtain ⟨row, hr, hp⟩ := List.countP_pos_iff.1 (by rw [c1]; exact Nat.one_pos)
  simp only [decide_eq_true_eq] at hp
  refine ⟨t, t1, row, hr, hp, ?_⟩
  intro r2 h2 p2
  obtain ⟨i, hi⟩ := List.mem_iff_getElem?.1 hr
  obtain ⟨j, hj⟩ := List.mem_iff_getElem?.1 h2
  have := countP_one c1 hi hj (by simpa using hp) (by simpa using p2)
  rw [this, hj] at hi
  exact Option.some.inj hi

/-- what the unnormalized table of pairs shows -/
theorem shows_unnormalized (h : Fits (.friedman false) u E a s0 Xs s) {f f' : F} (hf : f ∈ a.feats) (hf' : f' ∈ a.feats)
    (hne : f ≠ f') : ∃ x : K, Shows s.ovo f f' (.fin x) ∧ 0 ≤ x ∧
      x * x = (Xs.frame.rows.map fun r => interaction u Xs.frame f f' r * interaction u Xs.frame f f' r).sum /
        Xs.frame.rows.length := by
  obtain ⟨tbl, h1, h2⟩ := C66_H_is_textbook_formula false h.setup h.sortOvo h.rows h.returns
  obtain ⟨t, ht, row, hr, hp, huniq⟩ := the_row h hf hf' hne
  rw [h1] at ht
  cases ht
  obtain ⟨x, e, h0, hx⟩ := h2 row hr
  refine ⟨x, ⟨tbl, h1, ⟨row, hr, hp⟩, fun r2 hr2 hp2 => by rw [huniq r2 hr2 hp2, e]⟩, h0, ?_⟩
  rw [hx, sumSq]
  rcases hp with ⟨e1, e2⟩ | ⟨e1, e2⟩
  · rw [e1, e2]
  · rw [e1, e2, interaction_swap u Xs.frame hne]

/-- what the unnormalized one-versus-all table shows -/
theorem shows_unnormalized_ova (h : Fits (.friedman false) u E a s0 Xs s) (ho : a.calculateOva = true) {f : F}
    (hf : f ∈ a.feats) : ∃ x : K, ShowsOne s.ova f (.fin x) ∧ 0 ≤ x ∧
      x * x = (Xs.frame.rows.map fun r => interactionOva u Xs.frame f r * interactionOva u Xs.frame f r).sum /
        Xs.frame.rows.length := by
  obtain ⟨tbl, h1, hp, h2⟩ := C68_ova_is_textbook_formula false h.setup h.sortFeat h.rows ho h.returns
  obtain ⟨row, hr, e⟩ := List.mem_map.1 (hp.mem_iff.2 hf)
  subst e
  obtain ⟨x, e, h0, hx⟩ := h2 row hr
  have nd : (tbl.map (·.f)).Nodup := hp.nodup_iff.2 h.feats
  exact ⟨x, ⟨tbl, h1, ⟨row, hr, rfl⟩, fun r2 hr2 hp2 => by rw [List.inj_on_of_nodup_map nd hr2 hr hp2, e]⟩, h0, hx⟩

/-- what the importance table shows -/
theorem shows_importance {kind : PdKind} (h : Fits kind u E a s0 Xs s) {f : F} (hf : f ∈ a.feats) :
    ∃ x : K, ShowsOne s.importance f (.fin x) ∧ IsImportance (E.numeric f) u Xs.frame f x := by
  obtain ⟨tbl, h1, h2⟩ := C70_pd_importance_is_textbook_formula kind h.setup h.rows h.sortFeat h.returns
  obtain ⟨tbl', h1', hp⟩ := imp_features h.setup h.sortFeat h.returns
  rw [h1] at h1'
  cases h1'
  obtain ⟨row, hr, e⟩ := List.mem_map.1 (hp.mem_iff.2 hf)
  subst e
  obtain ⟨x, e, hx⟩ := h2 row hr
  have nd : (tbl.map (·.f)).Nodup := hp.nodup_iff.2 h.feats
  exact ⟨x, ⟨tbl, h1, ⟨row, hr, rfl⟩, fun r2 hr2 hp2 => by rw [List.inj_on_of_nodup_map nd hr2 hr hp2, e]⟩, hx⟩

variable {E' : PdEnv G F K} {a' : PdArgs L F V K} {s0' s' : PdpMethod G L F V K} {Xs' : LFrame L F V} {u' : Row F V → K}
variable {E'' : PdEnv G F K} {a'' : PdArgs L F V K} {s0'' s'' : PdpMethod G L F V K} {Xs'' : LFrame L F V} {u'' : Row F V → K}

/-- **C114 (pairs, unnormalized H).** Adding to a model anything that splits into a part without `f` and a part without
`f'` - main effects in particular - leaves the reported interaction of `f` and `f'` as it is. -/
theorem C114_pair_main_effects_partial (h : Fits (.friedman false) u E a s0 Xs s)
    (h' : Fits (.friedman false) u' E' a' s0' Xs' s') (hXs : Xs'.frame = Xs.frame) {x y : Row F V → K} {f f' : F}
    (hu : ∀ r, u' r = u r + (x r + y r)) (hx : Ignores x f) (hy : Ignores y f') (hne : f ≠ f')
    (hf : f ∈ a.feats) (hf' : f' ∈ a.feats) (hg : f ∈ a'.feats) (hg' : f' ∈ a'.feats) :
    ∃ k : K, Shows s.ovo f f' (.fin k) ∧ Shows s'.ovo f f' (.fin k) := by
  obtain ⟨k, s1, k0, e1⟩ := shows_unnormalized h hf hf' hne
  obtain ⟨k', s2, k0', e2⟩ := shows_unnormalized h' hg hg' hne
  refine ⟨k, s1, ?_⟩
  have hi : ∀ r, interaction u' Xs.frame f f' r = interaction u Xs.frame f f' r := by
    intro r
    have e : u' = fun r => 1 * u r + 1 * (x r + y r) := by
      funext r; rw [hu]; ring
    rw [e, interaction_lin Xs.frame u (fun r => x r + y r), interaction_split_zero h.rows hne hx hy]
    ring
  rw [hXs] at e2
  simp only [hi] at e2
  rw [← e1] at e2
  rwa [(mul_self_inj k0' k0).1 e2] at s2

/-- **C114 (one versus all, unnormalized H).** Adding to a model a function of `f` alone and a function that does not use
`f` leaves the reported interaction of `f` with the rest as it is. -/
theorem C114_ova_main_effects_partial (h : Fits (.friedman false) u E a s0 Xs s)
    (h' : Fits (.friedman false) u' E' a' s0' Xs' s') (hXs : Xs'.frame = Xs.frame) {x y : Row F V → K} {f : F}
    (hu : ∀ r, u' r = u r + (x r + y r)) (hx : OnlyUses x f) (hy : Ignores y f)
    (ho : a.calculateOva = true) (ho' : a'.calculateOva = true) (hf : f ∈ a.feats) (hg : f ∈ a'.feats) :
    ∃ k : K, ShowsOne s.ova f (.fin k) ∧ ShowsOne s'.ova f (.fin k) := by
  obtain ⟨k, s1, k0, e1⟩ := shows_unnormalized_ova h ho hf
  obtain ⟨k', s2, k0', e2⟩ := shows_unnormalized_ova h' ho' hg
  refine ⟨k, s1, ?_⟩
  have hi : ∀ r, interactionOva u' Xs.frame f r = interactionOva u Xs.frame f r := by
    intro r
    have e : u' = fun r => 1 * u r + 1 * (x r + y r) := by
      funext r; rw [hu]; ring
    rw [e, interactionOva_lin Xs.frame u (fun r => x r + y r), interactionOva_split_zero h.rows hx hy]
    ring
  rw [hXs] at e2
  simp only [hi] at e2
  rw [← e1] at e2
  rwa [(mul_self_inj k0' k0).1 e2] at s2

/-- **C115 (pairs, unnormalized H).** The interaction reported for a weighted mixture of two models is at most the
weighted sum of the interactions reported for the two. -/
theorem C115_pair_mixture_partial (h : Fits (.friedman false) u E a s0 Xs s)
    (h' : Fits (.friedman false) u' E' a' s0' Xs' s') (h'' : Fits (.friedman false) u'' E'' a'' s0'' Xs'' s'')
    (hXs : Xs'.frame = Xs.frame) (hXs' : Xs''.frame = Xs.frame) {p q : K} (hu : ∀ r, u'' r = p * u r + q * u' r)
    {f f' : F} (hne : f ≠ f') (hf : f ∈ a.feats) (hf' : f' ∈ a.feats) (hg : f ∈ a'.feats) (hg' : f' ∈ a'.feats)
    (hm : f ∈ a''.feats) (hm' : f' ∈ a''.feats) :
    ∃ k k' m : K, Shows s.ovo f f' (.fin k) ∧ Shows s'.ovo f f' (.fin k') ∧ Shows s''.ovo f f' (.fin m) ∧
      m ≤ |p| * k + |q| * k' := by
  obtain ⟨k, s1, k0, e1⟩ := shows_unnormalized h hf hf' hne
  obtain ⟨k', s2, k0', e2⟩ := shows_unnormalized h' hg hg' hne
  obtain ⟨m, s3, m0, e3⟩ := shows_unnormalized h'' hm hm' hne
  refine ⟨k, k', m, s1, s2, s3, ?_⟩
  rw [hXs] at e2
  rw [hXs', show u'' = fun r => p * u r + q * u' r from funext hu] at e3
  simp only [interaction_lin] at e3
  have hn : (0 : K) < Xs.frame.rows.length := by
    have := List.length_pos_of_ne_nil h.rows
    exact_mod_cast this
  exact minkowski _ _ _ p q hn k0 k0' e1 e2 e3

/-- **C115 (one versus all, unnormalized H).** -/
theorem C115_ova_mixture_partial (h : Fits (.friedman false) u E a s0 Xs s)
    (h' : Fits (.friedman false) u' E' a' s0' Xs' s') (h'' : Fits (.friedman false) u'' E'' a'' s0'' Xs'' s'')
    (hXs : Xs'.frame = Xs.frame) (hXs' : Xs''.frame = Xs.frame) {p q : K} (hu : ∀ r, u'' r = p * u r + q * u' r)
    (ho : a.calculateOva = true) (ho' : a'.calculateOva = true) (ho'' : a''.calculateOva = true)
    {f : F} (hf : f ∈ a.feats) (hg : f ∈ a'.feats) (hm : f ∈ a''.feats) :
    ∃ k k' m : K, ShowsOne s.ova f (.fin k) ∧ ShowsOne s'.ova f (.fin k') ∧ ShowsOne s''.ova f (.fin m) ∧
      m ≤ |p| * k + |q| * k' := by
  obtain ⟨k, s1, k0, e1⟩ := shows_unnormalized_ova h ho hf
  obtain ⟨k', s2, k0', e2⟩ := shows_unnormalized_ova h' ho' hg
  obtain ⟨m, s3, m0, e3⟩ := shows_unnormalized_ova h'' ho'' hm
  refine ⟨k, k', m, s1, s2, s3, ?_⟩
  rw [hXs] at e2
  rw [hXs', show u'' = fun r => p * u r + q * u' r from funext hu] at e3
  simp only [interactionOva_lin] at e3
  have hn : (0 : K) < Xs.frame.rows.length := by
    have := List.length_pos_of_ne_nil h.rows
    exact_mod_cast this
  exact minkowski _ _ _ p q hn k0 k0' e1 e2 e3

/-- **C115 (variable importance, either method).** The importance reported for a weighted mixture of two models is at
most the weighted sum of the importances reported for the two. -/
theorem C115_importance_mixture {kind kind' kind'' : PdKind} (h : Fits kind u E a s0 Xs s)
    (h' : Fits kind' u' E' a' s0' Xs' s') (h'' : Fits kind'' u'' E'' a'' s0'' Xs'' s'')
    (hXs : Xs'.frame = Xs.frame) (hXs' : Xs''.frame = Xs.frame) {p q : K} (hu : ∀ r, u'' r = p * u r + q * u' r)
    {f : F} (hnum : E'.numeric f = E.numeric f) (hnum' : E''.numeric f = E.numeric f)
    (hf : f ∈ a.feats) (hg : f ∈ a'.feats) (hm : f ∈ a''.feats) :
    ∃ k k' m : K, ShowsOne s.importance f (.fin k) ∧ ShowsOne s'.importance f (.fin k') ∧
      ShowsOne s''.importance f (.fin m) ∧ m ≤ |p| * k + |q| * k' := by
  obtain ⟨k, s1, e1⟩ := shows_importance h hf
  obtain ⟨k', s2, e2⟩ := shows_importance h' hg
  obtain ⟨m, s3, e3⟩ := shows_importance h'' hm
  refine ⟨k, k', m, s1, s2, s3, ?_⟩
  rw [hXs, hnum] at e2
  rw [hXs', hnum', show u'' = fun r => p * u r + q * u' r from funext hu] at e3
  exact importance_mixture h.rows e1 e2 e3

end tables

section Cases
open Ex
variable {K : Type} [Field K] [LinearOrder K] [IsStrictOrderedRing K]

/-- the four corners of the square -1, 1 -/
def gridX : LFrame Nat (Fin 2) ℤ := ⟨[0, 1, 2, 3], ⟨[0, 1], [![1, 1], ![1, -1], ![-1, 1], ![-1, -1]]⟩⟩

def gridEnv : PdEnv Nat (Fin 2) K where
  R := exRng
  sortOvo := stableSort OvoRow.val false
  sortFeat := stableSort FeatRow.val false
  numeric := fun _ => true

/-- the model `a x y + b y`, `x` and `y` the two features -/
def gridU (a b : ℤ) (r : Row (Fin 2) ℤ) : K := ((a * (r 0 * r 1) + b * r 1 : ℤ) : K)

def gridArgs (a b : ℤ) : PdArgs Nat (Fin 2) ℤ K where
  model := { ident := 1, predict := some (fun _ rows => .ok (rows.map (fun r => .fin (gridU a b r)))), predictProba := none }
  X := gridX
  n := none
  predictFunction := none
  features := none
  batchsize := 7
  pdCalculator := none
  calculateOva := true

theorem gridChoose (a b : ℤ) : PdpMethod.chooseCalc (gridArgs a b) gridX (gridArgs (K := K) a b).pf =
    .ok ⟨1, [0, 1, 2, 3], Calc.new (gridArgs (K := K) a b).pf gridX.frame 7⟩ := by
  simp only [PdpMethod.chooseCalc, gridArgs, gridX]

theorem gridSetup [HasSqrt K] (a b : ℤ) : FitSetup (finM (gridU (K := K) a b)) gridEnv (gridArgs a b) (PdpMethod.new 0) gridX where
  sampled := rfl
  rowWise := by
    intro n rows ys h; cases h; rfl
  reads := by
    intro r r' h
    simp only [finM, gridU, h 0 (by decide), h 1 (by decide)]
  cols_nodup := by decide
  history := by intro co h; cases h

theorem gridNever (a b : ℤ) : NeverFails (gridArgs (K := K) a b).pf := by
  intro n rows; exact ⟨_, rfl⟩

theorem gridValid (a b : ℤ) : ValidFeatures gridX.frame (gridArgs (K := K) a b).feats :=
  validFeatures_of_nodup (fun _ h => h) (by show [(0 : Fin 2), 1].Nodup; decide)

theorem gridFit [HasSqrt K] [LawfulSqrt K] (n : Bool) (a b : ℤ) :
    ∃ s, Fits (L := Nat) (.friedman n) (gridU (K := K) a b) gridEnv (gridArgs a b) (PdpMethod.new 0) gridX s := by
  have hX : gridX.frame.rows ≠ [] := by simp [gridX]
  have h := (fit_returns (e := .keyError) (kind := .friedman n) (gridSetup (K := K) a b) (gridChoose a b) (gridNever a b)
    (gridNever a b) (gridValid a b)).1.2 ⟨⟨_, ovoRows.eq_1 _ _ _ _ _⟩, impRows_ok _ _ hX _⟩
  obtain ⟨s, hs⟩ := ret_of_fst h
  exact ⟨s, gridSetup a b, sortsBy_stableSort _ _, sortsBy_stableSort _ _, hX,
    by show [(0 : Fin 2), 1].Nodup; decide, hs⟩

theorem gridFitG [HasSqrt K] [LawfulSqrt K] (a b : ℤ) :
    ∃ s, Fits (L := Nat) .greenwell (gridU (K := K) a b) gridEnv (gridArgs a b) (PdpMethod.new 0) gridX s := by
  have hX : gridX.frame.rows ≠ [] := by simp [gridX]
  have h := C18_greenwell_fails_iff_constant_feature (gridSetup (K := K) a b) (gridChoose a b) (gridNever a b)
    (gridNever a b) (by show [(0 : Fin 2), 1].Nodup; decide) (gridValid a b).cols hX
  have hr := h.2 (by
    rw [Ne, h.1]
    rintro ⟨_, f, _, hc⟩
    have : ∀ f : Fin 2, (∀ r ∈ gridX.frame.rows, ∀ r' ∈ gridX.frame.rows, r f = r' f) → False := by decide
    exact this f hc)
  obtain ⟨s, hs⟩ := ret_of_fst hr
  exact ⟨s, gridSetup a b, sortsBy_stableSort _ _, sortsBy_stableSort _ _, hX,
    by show [(0 : Fin 2), 1].Nodup; decide, hs⟩

/-- the joint partial dependence of the two features is the prediction -/
theorem gridPd2 (a b : ℤ) (v v' : ℤ) : pd2 (gridU (K := K) a b) gridX.frame 0 1 v v' = ((a * (v * v') + b * v' : ℤ) : K) ∧
    pd2 (gridU (K := K) a b) gridX.frame 1 0 v' v = ((a * (v * v') + b * v' : ℤ) : K) := by
  constructor <;> simp [pd2, average, gridX, gridU, setF] <;> ring

theorem sampleStd_pair {x y c : K} (h : IsSampleStd [x, y] c) : c * c = (x - y) * (x - y) / 2 := by
  have := h.2.2
  simp [sumDev, average] at this
  rw [this]
  ring

theorem sampleStd_pair_ex [HasSqrt K] [LawfulSqrt K] (x y : K) :
    ∃ c, 0 ≤ c ∧ ∀ x' y' : K, (x' - y') * (x' - y') = (x - y) * (x - y) → IsSampleStd [x', y'] c := by
  have h0 : (0 : K) ≤ (x - y) * (x - y) / 2 := by
    have := mul_self_nonneg (x - y)
    linarith
  refine ⟨HasSqrt.sqrt ((x - y) * (x - y) / 2), LawfulSqrt.nonneg _, ?_⟩
  intro x' y' e
  refine ⟨by simp, LawfulSqrt.nonneg _, ?_⟩
  rw [LawfulSqrt.mul_self _ h0, ← e]
  simp [sumDev, average]
  ring

theorem gridLevels (f : Fin 2) : Levels gridX.frame f [1, -1] := by
  refine ⟨by decide, fun v => ?_⟩
  rcases (by decide : ∀ f : Fin 2, f = 0 ∨ f = 1) f with rfl | rfl <;> simp [gridX] <;> tauto

theorem sampleStd_perm' [HasSqrt K] {l l' : List K} (h : l.Perm l') {x : K} (hx : IsSampleStd l x) : IsSampleStd l' x :=
  ⟨h.length_eq ▸ hx.1, hx.2.1, by rw [hx.2.2, zero_sumDev_perm h, h.length_eq]⟩

theorem gridSame0 [HasSqrt K] [LawfulSqrt K] (a b : ℤ) :
    SameCondSpread true (gridU (K := K) a b) gridX.frame 0 1 ↔ a * b = 0 := by
  constructor
  · rintro ⟨c, vs, hv, h⟩
    have hp := levels_perm hv (gridLevels 1)
    have h1 := h ![1, 1] (by simp [gridX])
    have h2 := h ![-1, 1] (by simp [gridX])
    simp only [if_true] at h1 h2
    have k1 := sampleStd_pair (sampleStd_perm' (hp.map _) h1)
    have k2 := sampleStd_pair (sampleStd_perm' (hp.map _) h2)
    rw [k1] at k2
    simp only [(gridPd2 a b _ _).1] at k2
    have : ((a * b : ℤ) : K) = 0 := by
      simp at k2 ⊢
      have k3 : (a : K) * b = 0 := by nlinarith [k2]
      simpa using k3
    exact_mod_cast this
  · intro h
    obtain ⟨c, _, hc⟩ := sampleStd_pair_ex (((a + b : ℤ) : K)) (-((a + b : ℤ) : K))
    refine ⟨c, [1, -1], gridLevels 1, fun r hr => ?_⟩
    simp only [if_true, List.map, (gridPd2 a b _ _).1]
    apply hc
    have hk : (a : K) * b = 0 := by exact_mod_cast congrArg (Int.cast (R := K)) h
    simp only [gridX, List.mem_cons, List.not_mem_nil, or_false] at hr
    rcases hr with rfl | rfl | rfl | rfl <;> simp <;> first | ring1 | linear_combination (-16 : K) * hk

theorem gridSame1 [HasSqrt K] [LawfulSqrt K] (a b : ℤ) :
    SameCondSpread true (gridU (K := K) a b) gridX.frame 1 0 := by
  obtain ⟨c, _, hc⟩ := sampleStd_pair_ex (a : K) (-(a : K))
  refine ⟨c, [1, -1], gridLevels 0, fun r hr => ?_⟩
  simp only [if_true, List.map, (gridPd2 a b _ _).2]
  apply hc
  simp only [gridX, List.mem_cons, List.not_mem_nil, or_false] at hr
  rcases hr with rfl | rfl | rfl | rfl <;> simp <;> ring

/-- what Greenwell's method shows for `a x y + b y` on the grid: zero exactly if `a` or `b` is zero -/
theorem gridGreenwell [HasSqrt K] [LawfulSqrt K] (a b : ℤ) {s : PdpMethod Nat Nat (Fin 2) ℤ K}
    (h : Fits .greenwell (gridU (K := K) a b) gridEnv (gridArgs a b) (PdpMethod.new 0) gridX s) :
    ∃ k : K, Shows s.ovo 0 1 (.fin k) ∧ 0 ≤ k ∧ (k = 0 ↔ a * b = 0) := by
  obtain ⟨tbl, h1, h2⟩ := C112_greenwell_zero h.setup h.rows h.sortOvo h.returns
  obtain ⟨tbl', h1', h3⟩ := C69_greenwell_is_textbook_formula h.setup h.rows h.sortOvo h.returns
  obtain ⟨t, ht, row, hr, hp, huniq⟩ := the_row h (f := 0) (f' := 1) (by show (0 : Fin 2) ∈ [0, 1]; decide)
    (by show (1 : Fin 2) ∈ [0, 1]; decide) (by decide)
  rw [h1] at ht h1'
  cases ht
  cases h1'
  obtain ⟨k, hk, x, x', hx, hx', hkx⟩ := h3 row hr
  refine ⟨k, ⟨tbl, h1, ⟨row, hr, hp⟩, fun r2 hr2 hp2 => by rw [huniq r2 hr2 hp2, hk]⟩, ?_, ?_⟩
  · have p := condSpread_nonneg hx
    have p' := condSpread_nonneg hx'
    rw [hkx]
    linarith
  · have := h2 row hr
    rw [hk, Num.fin.injEq] at this
    rw [this]
    have hn : ∀ f, (gridEnv (K := K)).numeric f = true := fun _ => rfl
    simp only [hn]
    rcases hp with ⟨e1, e2⟩ | ⟨e1, e2⟩
    · rw [e1, e2, gridSame0]
      exact ⟨fun h => h.1, fun h => ⟨h, gridSame1 a b⟩⟩
    · rw [e1, e2, gridSame0]
      exact ⟨fun h => h.2, fun h => ⟨gridSame1 a b, h⟩⟩

/-- **C114 fails for Greenwell's method**: `x y` on the grid shows 0, `x y + y` shows a positive number. -/
theorem C114_fails_greenwell : ∃ s s' : PdpMethod Nat Nat (Fin 2) ℤ ℝ,
    Fits .greenwell (gridU 1 0) gridEnv (gridArgs 1 0) (PdpMethod.new 0) gridX s ∧
    Fits .greenwell (gridU 1 1) gridEnv (gridArgs 1 1) (PdpMethod.new 0) gridX s' ∧
    (∀ r, gridU (K := ℝ) 1 1 r = gridU 1 0 r + (r 1 : ℝ)) ∧
    Shows s.ovo 0 1 (.fin 0) ∧ ∃ k : ℝ, 0 < k ∧ Shows s'.ovo 0 1 (.fin k) := by
  obtain ⟨s, h⟩ := gridFitG (K := ℝ) 1 0
  obtain ⟨s', h'⟩ := gridFitG (K := ℝ) 1 1
  obtain ⟨k, e, _, z⟩ := gridGreenwell 1 0 h
  obtain ⟨k', e', n', z'⟩ := gridGreenwell 1 1 h'
  refine ⟨s, s', h, h', fun r => by simp [gridU], ?_, k', ?_, e'⟩
  · rwa [z.2 rfl] at e
  · exact lt_of_le_of_ne n' fun e => absurd (z'.1 e.symm) (by decide)

/-- **C115 fails for Greenwell's method**: `x y` and `y` on the grid show 0, their sum shows a positive number. -/
theorem C115_fails_greenwell : ∃ s s' s'' : PdpMethod Nat Nat (Fin 2) ℤ ℝ,
    Fits .greenwell (gridU 1 0) gridEnv (gridArgs 1 0) (PdpMethod.new 0) gridX s ∧
    Fits .greenwell (gridU 0 1) gridEnv (gridArgs 0 1) (PdpMethod.new 0) gridX s' ∧
    Fits .greenwell (gridU 1 1) gridEnv (gridArgs 1 1) (PdpMethod.new 0) gridX s'' ∧
    (∀ r, gridU (K := ℝ) 1 1 r = 1 * gridU 1 0 r + 1 * gridU 0 1 r) ∧
    Shows s.ovo 0 1 (.fin 0) ∧ Shows s'.ovo 0 1 (.fin 0) ∧ ∃ k : ℝ, 0 < k ∧ Shows s''.ovo 0 1 (.fin k) := by
  obtain ⟨s, s2, h, h2, _, e, e2⟩ := C114_fails_greenwell
  obtain ⟨s', h'⟩ := gridFitG (K := ℝ) 0 1
  obtain ⟨k, e', _, z⟩ := gridGreenwell 0 1 h'
  refine ⟨s, s', s2, h, h', h2, fun r => by simp [gridU], e, ?_, e2⟩
  rwa [z.2 rfl] at e'

/-- **C112, a zero of Greenwell's measure does not mean that there is no interaction**: for `x y` on the grid
Greenwell's method shows 0 and the H-statistic, normalized or not, does not. -/
theorem C112_greenwell_misses_interaction (n : Bool) : ∃ s s' : PdpMethod Nat Nat (Fin 2) ℤ ℝ,
    Fits .greenwell (gridU 1 0) gridEnv (gridArgs 1 0) (PdpMethod.new 0) gridX s ∧
    Fits (.friedman n) (gridU 1 0) gridEnv (gridArgs 1 0) (PdpMethod.new 0) gridX s' ∧
    Shows s.ovo 0 1 (.fin 0) ∧ ∃ x, x ≠ .fin 0 ∧ Shows s'.ovo 0 1 x := by
  obtain ⟨s, _, h, _, _, e, _⟩ := C114_fails_greenwell
  obtain ⟨s', h'⟩ := gridFit (K := ℝ) n 1 0
  refine ⟨s, s', h, h', e, ?_⟩
  obtain ⟨tbl, h1, h2⟩ := C112_friedman_pair_zero n h'.setup h'.sortOvo h'.rows h'.returns
  obtain ⟨t, ht, row, hr, hp, huniq⟩ := the_row h' (f := 0) (f' := 1) (by show (0 : Fin 2) ∈ [0, 1]; decide)
    (by show (1 : Fin 2) ∈ [0, 1]; decide) (by decide)
  rw [h1] at ht
  cases ht
  refine ⟨row.val, ?_, tbl, h1, ⟨row, hr, hp⟩, fun r2 hr2 hp2 => by rw [huniq r2 hr2 hp2]⟩
  rw [Ne, h2 row hr]
  rintro ⟨c, hc⟩
  have q1 := hc ![1, 1] (by simp [gridX])
  have q2 := hc ![1, -1] (by simp [gridX])
  rcases hp with ⟨e1, e2⟩ | ⟨e1, e2⟩
  · rw [e1, e2] at q1 q2
    simp [pd1, pd2, average, gridX, gridU, setF] at q1 q2
    linarith
  · rw [e1, e2] at q1 q2
    simp [pd1, pd2, average, gridX, gridU, setF] at q1 q2
    linarith

/-- the value of the pair in a computed table (exact: the roots are rational) -/
def gridH (n : Bool) (a b : ℤ) : Option (List (Num ℚ)) :=
  (PdpMethod.fit (G := Nat) (L := Nat) (K := ℚ) (.friedman n) gridEnv (gridArgs a b) (PdpMethod.new 0)).2.ovo.map
    fun t => t.map (·.val)

/-- **C114 fails for the normalized H-statistic**: `4 x y` shows 1, `4 x y + 3 y` shows 16/25 (both unnormalized: 4). -/
theorem C114_fails_normalized : gridH true 4 0 = some [.fin 1] ∧ gridH true 4 3 = some [.fin (16 / 25)] ∧
    gridH false 4 0 = some [.fin 4] ∧ gridH false 4 3 = some [.fin 4] := by
  decide +kernel

/-- **C115 fails for the normalized H-statistic**: `4 x y + 3 y` and `4 x y - 3 y` show 16/25, their mean `4 x y` shows 1. -/
theorem C115_fails_normalized : gridH true 4 3 = some [.fin (16 / 25)] ∧ gridH true 4 (-3) = some [.fin (16 / 25)] ∧
    gridH true 4 0 = some [.fin 1] ∧ (∀ r, gridU (K := ℚ) 4 0 r = 1 / 2 * gridU 4 3 r + 1 / 2 * gridU 4 (-3) r) := by
  refine ⟨by decide +kernel, by decide +kernel, by decide +kernel, fun r => ?_⟩
  simp [gridU]
  ring

/-- C114 on the grid: adding `3 y` to `4 x y` -/
example : ∃ s s' : PdpMethod Nat Nat (Fin 2) ℤ ℝ, ∃ k : ℝ,
    Fits (.friedman false) (gridU 4 0) gridEnv (gridArgs 4 0) (PdpMethod.new 0) gridX s ∧
    Fits (.friedman false) (gridU 4 3) gridEnv (gridArgs 4 3) (PdpMethod.new 0) gridX s' ∧
    Shows s.ovo 0 1 (.fin k) ∧ Shows s'.ovo 0 1 (.fin k) := by
  obtain ⟨s, h⟩ := gridFit (K := ℝ) false 4 0
  obtain ⟨s', h'⟩ := gridFit (K := ℝ) false 4 3
  obtain ⟨k, e, e'⟩ := C114_pair_main_effects_partial h h' rfl (f := 0) (f' := 1) (x := fun r => 3 * (r 1 : ℝ))
    (y := fun _ => 0) (fun r => by simp [gridU]) (fun r v => by simp [setF]) (fun r v => rfl) (by decide)
    (by show (0 : Fin 2) ∈ [0, 1]; decide) (by show (1 : Fin 2) ∈ [0, 1]; decide)
    (by show (0 : Fin 2) ∈ [0, 1]; decide) (by show (1 : Fin 2) ∈ [0, 1]; decide)
  exact ⟨s, s', k, h, h', e, e'⟩

/-- C114 for one versus all, C115 for the other tables, on the grid -/
example : ∃ s s' s'' : PdpMethod Nat Nat (Fin 2) ℤ ℝ,
    Fits (.friedman false) (gridU 4 0) gridEnv (gridArgs 4 0) (PdpMethod.new 0) gridX s ∧
    Fits (.friedman false) (gridU 0 3) gridEnv (gridArgs 0 3) (PdpMethod.new 0) gridX s' ∧
    Fits (.friedman false) (gridU 4 3) gridEnv (gridArgs 4 3) (PdpMethod.new 0) gridX s'' ∧
    (∃ k : ℝ, ShowsOne s.ova 0 (.fin k) ∧ ShowsOne s''.ova 0 (.fin k)) ∧
    (∃ k k' m : ℝ, Shows s.ovo 0 1 (.fin k) ∧ Shows s'.ovo 0 1 (.fin k') ∧ Shows s''.ovo 0 1 (.fin m) ∧ m ≤ |1| * k + |1| * k') ∧
    (∃ k k' m : ℝ, ShowsOne s.ova 0 (.fin k) ∧ ShowsOne s'.ova 0 (.fin k') ∧ ShowsOne s''.ova 0 (.fin m) ∧
      m ≤ |1| * k + |1| * k') ∧
    (∃ k k' m : ℝ, ShowsOne s.importance 1 (.fin k) ∧ ShowsOne s'.importance 1 (.fin k') ∧
      ShowsOne s''.importance 1 (.fin m) ∧ m ≤ |1| * k + |1| * k') := by
  obtain ⟨s, h⟩ := gridFit (K := ℝ) false 4 0
  obtain ⟨s', h'⟩ := gridFit (K := ℝ) false 0 3
  obtain ⟨s'', h''⟩ := gridFit (K := ℝ) false 4 3
  have m0 : ∀ a b : ℤ, (0 : Fin 2) ∈ (gridArgs (K := ℝ) a b).feats := fun a b => by show (0 : Fin 2) ∈ [0, 1]; decide
  have m1 : ∀ a b : ℤ, (1 : Fin 2) ∈ (gridArgs (K := ℝ) a b).feats := fun a b => by show (1 : Fin 2) ∈ [0, 1]; decide
  have hu : ∀ r, gridU (K := ℝ) 4 3 r = 1 * gridU 4 0 r + 1 * gridU 0 3 r := fun r => by simp [gridU]
  exact ⟨s, s', s'', h, h', h'',
    C114_ova_main_effects_partial h h'' rfl (f := 0) (x := fun _ => 0) (y := fun r => 3 * (r 1 : ℝ))
      (fun r => by simp [gridU]) (fun _ _ _ => rfl) (fun r v => by simp [setF]) rfl rfl (m0 4 0) (m0 4 3),
    C115_pair_mixture_partial h h' h'' rfl rfl hu (by decide) (m0 _ _) (m1 _ _) (m0 _ _) (m1 _ _) (m0 _ _) (m1 _ _),
    C115_ova_mixture_partial h h' h'' rfl rfl hu rfl rfl rfl (m0 _ _) (m0 _ _) (m0 _ _),
    C115_importance_mixture h h' h'' rfl rfl hu rfl rfl (m1 _ _) (m1 _ _) (m1 _ _)⟩

end Cases

end Artemis
