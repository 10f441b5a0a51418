import Verif.Spec.Recode
import Verif.Props.Formulas

/-! Lemmas for `Verif/Props/Invariance.lean`. -/

set_option linter.unusedSectionVars false
set_option linter.unusedVariables false
set_option linter.unusedSimpArgs false

namespace Artemis
open Spec

section spread
variable {K : Type} [Field K] [LinearOrder K] [IsStrictOrderedRing K]

theorem sum_affine (l : List K) (c d : K) : (l.map (fun x => c * x + d)).sum = c * l.sum + d * l.length := by
  induction l with
  | nil => simp
  | cons a l ih => simp only [List.map_cons, List.sum_cons, ih, List.length_cons, Nat.cast_add, Nat.cast_one]; ring

theorem average_affine {l : List K} (h : l ≠ []) (c d : K) : average (l.map (fun x => c * x + d)) = c * average l + d := by
  have hl : (l.length : K) ≠ 0 := by
    have := List.length_pos_iff.2 h
    exact_mod_cast this.ne'
  unfold average
  rw [sum_affine, List.length_map]
  field_simp

theorem sum_const_mul (l : List K) (c : K) : (l.map (fun x => c * x)).sum = c * l.sum := by
  have := sum_affine l c 0
  simpa using this

theorem sumDev_affine (l : List K) (c d : K) : sumDev (l.map (fun x => c * x + d)) = c * c * sumDev l := by
  by_cases h : l = []
  · subst h; simp [sumDev]
  unfold sumDev
  rw [average_affine h, List.map_map, ← sum_const_mul, List.map_map]
  congr 1
  apply List.map_congr_left
  intro x _
  simp only [Function.comp]
  ring

theorem average_of_perm {l l' : List K} (h : l.Perm l') : average l = average l' := by
  unfold average; rw [h.sum_eq, h.length_eq]

theorem sumDev_perm {l l' : List K} (h : l.Perm l') : sumDev l = sumDev l' := by
  unfold sumDev; rw [average_of_perm h]; exact (h.map _).sum_eq

theorem nonneg_root_unique {x y : K} (hx : 0 ≤ x) (hy : 0 ≤ y) (h : x * x = y * y) : x = y := by
  rcases mul_self_eq_mul_self_iff.1 h with h | h
  · exact h
  · have : x = 0 := le_antisymm (by rw [h]; linarith) hx
    rw [this] at h; rw [this]; linarith

theorem isSampleStd_unique {l l' : List K} {x x' : K} (h : IsSampleStd l x) (h' : IsSampleStd l' x') (p : l.Perm l') : x = x' :=
  nonneg_root_unique h.2.1 h'.2.1 (by rw [h.2.2, h'.2.2, sumDev_perm p, p.length_eq])

theorem isPopStd_unique {l l' : List K} {x x' : K} (h : IsPopStd l x) (h' : IsPopStd l' x') (p : l.Perm l') : x = x' :=
  nonneg_root_unique h.1 h'.1 (by rw [h.2, h'.2, sumDev_perm p, p.length_eq])

theorem isQuarterRange_unique {l l' : List K} {x x' : K} (h : IsQuarterRange l x) (h' : IsQuarterRange l' x') (p : l.Perm l') : x = x' := by
  obtain ⟨lo, h1, hi, h2, h3, rfl⟩ := h
  obtain ⟨lo', h1', hi', h2', h3', rfl⟩ := h'
  have e1 : lo = lo' := le_antisymm (h3 _ (p.mem_iff.2 h1')).1 (h3' _ (p.mem_iff.1 h1)).1
  have e2 : hi = hi' := le_antisymm (h3' _ (p.mem_iff.1 h2)).2 (h3 _ (p.mem_iff.2 h2')).2
  rw [e1, e2]

theorem isSampleStd_affine {l : List K} {x : K} (c d : K) (h : IsSampleStd l x) :
    IsSampleStd (l.map (fun y => c * y + d)) (|c| * x) := by
  refine ⟨by simpa using h.1, mul_nonneg (abs_nonneg _) h.2.1, ?_⟩
  rw [sumDev_affine, List.length_map, mul_mul_mul_comm, abs_mul_abs_self, h.2.2]
  ring

theorem isPopStd_affine {l : List K} {x : K} (c d : K) (h : IsPopStd l x) :
    IsPopStd (l.map (fun y => c * y + d)) (|c| * x) := by
  refine ⟨mul_nonneg (abs_nonneg _) h.1, ?_⟩
  rw [sumDev_affine, List.length_map, mul_mul_mul_comm, abs_mul_abs_self, h.2]
  ring

theorem isQuarterRange_affine {l : List K} {x : K} (c d : K) (h : IsQuarterRange l x) :
    IsQuarterRange (l.map (fun y => c * y + d)) (|c| * x) := by
  obtain ⟨lo, h1, hi, h2, h3, rfl⟩ := h
  rcases le_total 0 c with hc | hc
  · refine ⟨c * lo + d, List.mem_map.2 ⟨lo, h1, rfl⟩, c * hi + d, List.mem_map.2 ⟨hi, h2, rfl⟩, ?_, ?_⟩
    · intro y hy
      obtain ⟨z, hz, rfl⟩ := List.mem_map.1 hy
      obtain ⟨a, b⟩ := h3 z hz
      exact ⟨by nlinarith, by nlinarith⟩
    · rw [abs_of_nonneg hc]; ring
  · refine ⟨c * hi + d, List.mem_map.2 ⟨hi, h2, rfl⟩, c * lo + d, List.mem_map.2 ⟨lo, h1, rfl⟩, ?_, ?_⟩
    · intro y hy
      obtain ⟨z, hz, rfl⟩ := List.mem_map.1 hy
      obtain ⟨a, b⟩ := h3 z hz
      exact ⟨by nlinarith, by nlinarith⟩
    · rw [abs_of_nonpos hc]; ring

end spread

section proportional
variable {α : Type} {K : Type} [Field K] [LinearOrder K] [IsStrictOrderedRing K]

theorem sum_repeat (l : List α) (w : α → K) (m : Nat) :
    ((List.replicate m l).flatten.map w).sum = m * (l.map w).sum := by
  induction m with
  | zero => simp
  | succ m ih =>
    rw [List.replicate_succ, List.flatten_cons, List.map_append, List.sum_append, ih, Nat.cast_add, Nat.cast_one]; ring

/-- sums over proportional lists are proportional -/
theorem proportional_sum {l l' : List α} (h : Proportional l l') :
    ∃ q : K, 0 < q ∧ (∀ w : α → K, (l'.map w).sum = q * (l.map w).sum) ∧ (l'.length : K) = q * l.length := by
  obtain ⟨m, n, hm, hn, p⟩ := h
  have hn' : (0 : K) < n := by exact_mod_cast hn
  have hm' : (0 : K) < m := by exact_mod_cast hm
  have key : ∀ w : α → K, (l'.map w).sum = (m / n : K) * (l.map w).sum := by
    intro w
    have := (p.map w).sum_eq
    rw [sum_repeat, sum_repeat] at this
    field_simp
    linarith
  refine ⟨m / n, div_pos hm' hn', key, ?_⟩
  have := key (fun _ => 1)
  simpa using this

theorem proportional_mem {l l' : List α} (h : Proportional l l') (x : α) : x ∈ l ↔ x ∈ l' := by
  obtain ⟨m, n, hm, hn, p⟩ := h
  have := p.mem_iff (a := x)
  simp only [List.mem_flatten, List.mem_replicate] at this
  constructor
  · intro hx
    obtain ⟨_, ⟨_, rfl⟩, h⟩ := this.1 ⟨l, ⟨hm.ne', rfl⟩, hx⟩
    exact h
  · intro hx
    obtain ⟨_, ⟨_, rfl⟩, h⟩ := this.2 ⟨l', ⟨hn.ne', rfl⟩, hx⟩
    exact h

theorem proportional_of_perm {l l' : List α} (h : l.Perm l') : Proportional l l' := ⟨1, 1, by simp, by simp, by simpa using h⟩

theorem proportional_repeat (l : List α) {n : Nat} (hn : 0 < n) : Proportional l (List.replicate n l).flatten :=
  ⟨n, 1, hn, by simp, by simp⟩

end proportional

section task
variable {F V F' V' K : Type} [DecidableEq F] [DecidableEq F'] [Field K] [LinearOrder K] [IsStrictOrderedRing K]
variable {ρ : Recoding F V F' V'} {c d : K} {u : Row F V → K} {X : Frame F V} {u' : Row F' V' → K} {X' : Frame F' V'}

theorem Spec.Recoding.row_name (ρ : Recoding F V F' V') (r : Row F V) (f : F) : ρ.row r (ρ.name f) = ρ.code f (r f) := by
  simp [Recoding.row]

theorem Spec.Recoding.row_setF (ρ : Recoding F V F' V') (r : Row F V) (f : F) (v : V) :
    ρ.row (setF r f v) = setF (ρ.row r) (ρ.name f) (ρ.code f v) := by
  funext f'
  obtain ⟨g, rfl⟩ := ρ.name.surjective f'
  rw [Recoding.row_name]
  unfold setF
  by_cases h : g = f
  · subst h; simp
  · rw [if_neg h, if_neg (fun e => h (ρ.name.injective e)), Recoding.row_name]

theorem Spec.SameTask.ne (h : SameTask ρ c d u X.rows u' X'.rows) (hX : X.rows ≠ []) : X'.rows ≠ [] := by
  intro e
  cases hr : X.rows with
  | nil => exact hX hr
  | cons r rs =>
    have := (proportional_mem h.data (ρ.row r)).1 (List.mem_map.2 ⟨r, by rw [hr]; exact List.mem_cons_self, rfl⟩)
    rw [e] at this
    cases this

/-- averages over the recoded data -/
theorem Spec.SameTask.average (h : SameTask ρ c d u X.rows u' X'.rows) (w' : Row F' V' → K) :
    average (X'.rows.map w') = average (X.rows.map (fun r => w' (ρ.row r))) := by
  obtain ⟨q, hq, hs, hl⟩ := proportional_sum (K := K) h.data
  unfold Spec.average
  rw [hs, List.length_map, hl, List.length_map, List.map_map, List.length_map]
  by_cases hz : (X.rows.length : K) = 0
  · simp [hz]
  · have e : (X.rows.map (w' ∘ ρ.row)).sum = (X.rows.map (fun r => w' (ρ.row r))).sum := rfl
    rw [e]
    field_simp

theorem Spec.SameTask.average_of (h : SameTask ρ c d u X.rows u' X'.rows) (hX : X.rows ≠ []) {w : Row F V → K} {w' : Row F' V' → K}
    (hw : ∀ r ∈ X.rows, w' (ρ.row r) = c * w r + d) : Spec.average (X'.rows.map w') = c * Spec.average (X.rows.map w) + d := by
  rw [h.average, ← average_affine (by simpa using hX), List.map_map]
  congr 1
  exact List.map_congr_left hw

theorem Spec.SameTask.pd1 (h : SameTask ρ c d u X.rows u' X'.rows) (hX : X.rows ≠ []) (f : F) (v : V) :
    Spec.pd1 u' X' (ρ.name f) (ρ.code f v) = c * Spec.pd1 u X f v + d :=
  h.average_of hX (fun r _ => by rw [← Recoding.row_setF, h.model])

theorem Spec.SameTask.pd2 (h : SameTask ρ c d u X.rows u' X'.rows) (hX : X.rows ≠ []) (f g : F) (v w : V) :
    Spec.pd2 u' X' (ρ.name f) (ρ.name g) (ρ.code f v) (ρ.code g w) = c * Spec.pd2 u X f g v w + d :=
  h.average_of hX (fun r _ => by rw [← Recoding.row_setF, ← Recoding.row_setF, h.model])

theorem Spec.SameTask.pdNot (h : SameTask ρ c d u X.rows u' X'.rows) (hX : X.rows ≠ []) (f : F) (r : Row F V) :
    Spec.pdNot u' X' (ρ.name f) (ρ.row r) = c * Spec.pdNot u X f r + d :=
  h.average_of hX (fun q _ => by rw [Recoding.row_name, ← Recoding.row_setF, h.model])

theorem Spec.SameTask.centred (h : SameTask ρ c d u X.rows u' X'.rows) (hX : X.rows ≠ []) {w : Row F V → K} {w' : Row F' V' → K}
    (hw : ∀ r, w' (ρ.row r) = c * w r + d) (r : Row F V) : Spec.centred X' w' (ρ.row r) = c * Spec.centred X w r := by
  unfold Spec.centred
  rw [h.average_of hX (fun r _ => hw r), hw]
  ring

theorem Spec.SameTask.interaction (h : SameTask ρ c d u X.rows u' X'.rows) (hX : X.rows ≠ []) (f g : F) (r : Row F V) :
    Spec.interaction u' X' (ρ.name f) (ρ.name g) (ρ.row r) = c * Spec.interaction u X f g r := by
  unfold Spec.interaction
  rw [h.centred hX (w := fun r => Spec.pd2 u X f g (r f) (r g)) (fun r => by simp only [Recoding.row_name]; exact h.pd2 hX f g _ _),
    h.centred hX (w := fun r => Spec.pd1 u X f (r f)) (fun r => by simp only [Recoding.row_name]; exact h.pd1 hX f _),
    h.centred hX (w := fun r => Spec.pd1 u X g (r g)) (fun r => by simp only [Recoding.row_name]; exact h.pd1 hX g _)]
  ring

theorem Spec.SameTask.interactionOva (h : SameTask ρ c d u X.rows u' X'.rows) (hX : X.rows ≠ []) (f : F) (r : Row F V) :
    Spec.interactionOva u' X' (ρ.name f) (ρ.row r) = c * Spec.interactionOva u X f r := by
  unfold Spec.interactionOva
  rw [h.centred hX h.model,
    h.centred hX (w := fun r => Spec.pd1 u X f (r f)) (fun r => by simp only [Recoding.row_name]; exact h.pd1 hX f _),
    h.centred hX (w := Spec.pdNot u X f) (fun r => h.pdNot hX f r)]
  ring

/-- sums of squares are multiplied by the same factor for every quantity, times `c * c` -/
theorem Spec.SameTask.sumSq (h : SameTask ρ c d u X.rows u' X'.rows) : ∃ q : K, 0 < q ∧ (X'.rows.length : K) = q * X.rows.length ∧
    ∀ (w : Row F V → K) (w' : Row F' V' → K), (∀ r, w' (ρ.row r) = c * w r) → Spec.sumSq X' w' = q * (c * c) * Spec.sumSq X w := by
  obtain ⟨q, hq, hs, hl⟩ := proportional_sum (K := K) h.data
  refine ⟨q, hq, by simpa using hl, ?_⟩
  intro w w' hw
  unfold Spec.sumSq
  rw [hs, List.map_map]
  have : X.rows.map ((fun r => w' r * w' r) ∘ ρ.row) = (X.rows.map (fun r => w r * w r)).map (fun x => c * c * x) := by
    rw [List.map_map]
    apply List.map_congr_left
    intro r _
    simp only [Function.comp, hw]
    ring
  rw [this, sum_const_mul]
  ring

theorem Spec.SameTask.levels (h : SameTask ρ c d u X.rows u' X'.rows) {f : F} {vs : List V} {ws : List V'} (hv : Levels X f vs)
    (hw : Levels X' (ρ.name f) ws) : (vs.map (ρ.code f)).Perm ws := by
  rw [List.perm_ext_iff_of_nodup (hv.1.map (ρ.inj f)) hw.1]
  intro x
  rw [hw.2, List.mem_map]
  constructor
  · rintro ⟨v, hv', rfl⟩
    obtain ⟨r, hr, rfl⟩ := (hv.2 v).1 hv'
    exact ⟨ρ.row r, (proportional_mem h.data _).1 (List.mem_map.2 ⟨r, hr, rfl⟩), Recoding.row_name _ _ _⟩
  · rintro ⟨r', hr', rfl⟩
    obtain ⟨r, hr, rfl⟩ := List.mem_map.1 ((proportional_mem h.data _).2 hr')
    exact ⟨r f, (hv.2 _).2 ⟨r, hr, rfl⟩, (Recoding.row_name _ _ _).symm⟩

theorem Spec.SameTask.importance (h : SameTask ρ c d u X.rows u' X'.rows) (hX : X.rows ≠ []) {f : F} {num : Bool} {x x' : K}
    (hx : IsImportance num u X f x) (hx' : IsImportance num u' X' (ρ.name f) x') : x' = |c| * x := by
  obtain ⟨vs, hv, hx⟩ := hx
  obtain ⟨ws, hw, hx'⟩ := hx'
  have p := (h.levels hv hw).map (Spec.pd1 u' X' (ρ.name f))
  have e : (vs.map (ρ.code f)).map (Spec.pd1 u' X' (ρ.name f)) = (vs.map (Spec.pd1 u X f)).map (fun y => c * y + d) := by
    rw [List.map_map, List.map_map]
    exact List.map_congr_left (fun v _ => h.pd1 hX f v)
  rw [e] at p
  cases num
  · exact isQuarterRange_unique hx' (isQuarterRange_affine c d hx) p.symm
  · exact isPopStd_unique hx' (isPopStd_affine c d hx) p.symm

theorem Spec.SameTask.condSpread (h : SameTask ρ c d u X.rows u' X'.rows) (hX : X.rows ≠ []) {f g : F} {num : Bool} {x x' : K}
    (hx : IsCondSpread num u X f g x) (hx' : IsCondSpread num u' X' (ρ.name f) (ρ.name g) x') : x' = |c| * x := by
  obtain ⟨vs, vs2, imp, hv, hv2, hx, hi⟩ := hx
  obtain ⟨ws, ws2, imp', hw, hw2, hx', hi'⟩ := hx'
  have p := h.levels hv hw
  have key : ∀ v ∈ vs, imp' (ρ.code f v) = |c| * imp v := by
    intro v hvv
    have a := hi v hvv
    have b := hi' (ρ.code f v) (p.mem_iff.1 (List.mem_map.2 ⟨v, hvv, rfl⟩))
    have p2 := (h.levels hv2 hw2).map (fun w => Spec.pd2 u' X' (ρ.name f) (ρ.name g) (ρ.code f v) w)
    have e : (vs2.map (ρ.code g)).map (fun w => Spec.pd2 u' X' (ρ.name f) (ρ.name g) (ρ.code f v) w) =
        (vs2.map (fun w => Spec.pd2 u X f g v w)).map (fun y => c * y + d) := by
      rw [List.map_map, List.map_map]
      exact List.map_congr_left (fun w _ => h.pd2 hX f g v w)
    rw [e] at p2
    cases num
    · exact isQuarterRange_unique b (isQuarterRange_affine c d a) p2.symm
    · exact isSampleStd_unique b (isSampleStd_affine c d a) p2.symm
  have p3 := p.map imp'
  have e : (vs.map (ρ.code f)).map imp' = (vs.map imp).map (fun y => |c| * y + 0) := by
    rw [List.map_map, List.map_map]
    exact List.map_congr_left (fun v hv => by simp [key v hv])
  rw [e] at p3
  have := isSampleStd_unique hx' (isSampleStd_affine (|c|) 0 hx) p3.symm
  rwa [abs_abs] at this

theorem Spec.SameTask.greenwell (h : SameTask ρ c d u X.rows u' X'.rows) (hX : X.rows ≠ []) {f g : F} {num : F → Bool} {num' : F' → Bool}
    (hf : num' (ρ.name f) = num f) (hg : num' (ρ.name g) = num g) {x x' : K} (hx : IsGreenwell num u X f g x)
    (hx' : IsGreenwell num' u' X' (ρ.name f) (ρ.name g) x') : x' = |c| * x := by
  obtain ⟨s, t, h1, h2, rfl⟩ := hx
  obtain ⟨s', t', h1', h2', rfl⟩ := hx'
  rw [hg] at h1'
  rw [hf] at h2'
  rw [h.condSpread hX h1 h1', h.condSpread hX h2 h2']
  ring

/-- the two sums of squares of the additivity index change by a common positive factor -/
theorem Spec.SameTask.addSums (h : SameTask ρ c d u X.rows u' X'.rows) (hc : c ≠ 0) (hX : X.rows ≠ [])
    (hcols : (X.cols.map ρ.name).Perm X'.cols) : ∃ k : K, 0 < k ∧
      Spec.sumSq X' (fun r => u' r - firstOrder u' X' r) = k * Spec.sumSq X (fun r => u r - firstOrder u X r) ∧
      Spec.sumSq X' (Spec.centred X' u') = k * Spec.sumSq X (Spec.centred X u) := by
  obtain ⟨q, hq, _, hs⟩ := h.sumSq
  refine ⟨q * (c * c), mul_pos hq (mul_self_pos.2 hc), ?_, ?_⟩
  · rw [hs (fun r => u r - firstOrder u X r) (fun r => u' r - firstOrder u' X' r)]
    intro r
    have ha : Spec.average (X'.rows.map u') = c * Spec.average (X.rows.map u) + d := h.average_of hX (fun r _ => h.model r)
    unfold firstOrder
    rw [← (hcols.map _).sum_eq, List.map_map, h.model, ha]
    have : X.cols.map ((fun f => Spec.pd1 u' X' f (ρ.row r f) - (c * Spec.average (X.rows.map u) + d)) ∘ ρ.name) =
        (X.cols.map (fun f => Spec.pd1 u X f (r f) - Spec.average (X.rows.map u))).map (fun x => c * x) := by
      rw [List.map_map]
      apply List.map_congr_left
      intro f _
      simp only [Function.comp, Recoding.row_name, h.pd1 hX f]
      ring
    rw [this, sum_const_mul]
    ring
  · rw [hs _ _ (h.centred hX h.model)]

end task
end Artemis
