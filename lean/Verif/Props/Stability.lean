import Verif.Props.Ensemble
import Verif.Props.Sizes
import Verif.Spec.Mixes
import Verif.Props.PermImp
import Verif.Props.Locality

/-!
# Property C134: models that nearly agree are explained nearly alike

Two models whose predictions differ by at most `ε` on mixtures of observed values. Setting as in
`Verif/Props/Invariance.lean` (`Fits`, `Shows`) and `Verif/Props/Sejong.lean`.
-/

set_option linter.unusedSectionVars false
set_option linter.unusedVariables false
set_option linter.unusedSimpArgs false

namespace Artemis
open Spec

/-- on rows that mix observed values, the predictions `u` and `u'` differ by at most `ε` -/
def Spec.Near {F V K : Type} [Field K] [LinearOrder K] (X : Frame F V) (ε : K) (u u' : Row F V → K) : Prop :=
  ∀ r, Mixes X r → |u' r - u r| ≤ ε

section helpers
variable {F V K : Type} [DecidableEq F] [LinearOrder V] [Field K] [LinearOrder K] [IsStrictOrderedRing K]
  [HasSqrt K]

/-- value `v` occurs in column `f` -/
def Spec.Observed (X : Frame F V) (f : F) (v : V) : Prop := ∃ r ∈ X.rows, v = r f

theorem mixes_row {X : Frame F V} {r : Row F V} (h : r ∈ X.rows) : Mixes X r := fun f => ⟨r, h, rfl⟩

theorem mixes_setF {X : Frame F V} {r : Row F V} (h : Mixes X r) {f : F} {v : V} (hv : Observed X f v) :
    Mixes X (setF r f v) := by
  intro g
  by_cases e : g = f
  · subst e
    obtain ⟨r0, h0, e0⟩ := hv
    exact ⟨r0, h0, by simp [setF, e0]⟩
  · simpa [setF, e] using h g

theorem observed_row {X : Frame F V} {r : Row F V} (h : r ∈ X.rows) (f : F) : Observed X f (r f) := ⟨r, h, rfl⟩

variable {X : Frame F V} {u u' w : Row F V → K} {ε : K}

/-- the same on mixtures of observed values -/
def Agree (X : Frame F V) (u u' : Row F V → K) : Prop := ∀ r, Mixes X r → u' r = u r

theorem pd1_agree (h : Agree X u u') {f : F} {v : V} (hv : Observed X f v) : pd1 u' X f v = pd1 u X f v := by
  unfold pd1
  congr 1
  exact List.map_congr_left fun r hr => h _ (mixes_setF (mixes_row hr) hv)

theorem pd2_agree (h : Agree X u u') {f g : F} {v z : V} (hv : Observed X f v) (hz : Observed X g z) :
    pd2 u' X f g v z = pd2 u X f g v z := by
  unfold pd2
  congr 1
  exact List.map_congr_left fun r hr => h _ (mixes_setF (mixes_setF (mixes_row hr) hz) hv)

theorem pdNot_agree (h : Agree X u u') {f : F} {r : Row F V} (hr : Mixes X r) : pdNot u' X f r = pdNot u X f r := by
  unfold pdNot
  congr 1
  exact List.map_congr_left fun r' hr' => h _ (mixes_setF hr (observed_row hr' f))

theorem centred_agree {x y : Row F V → K} (h : ∀ r ∈ X.rows, y r = x r) {r : Row F V} (hr : r ∈ X.rows) :
    centred X y r = centred X x r := by
  unfold centred
  rw [h r hr, List.map_congr_left h]

theorem interaction_agree (h : Agree X u u') (f g : F) {r : Row F V} (hr : r ∈ X.rows) :
    interaction u' X f g r = interaction u X f g r := by
  unfold interaction
  rw [centred_agree (x := fun r => pd2 u X f g (r f) (r g)) (fun r hr => pd2_agree h (observed_row hr f) (observed_row hr g)) hr,
    centred_agree (x := fun r => pd1 u X f (r f)) (fun r hr => pd1_agree h (observed_row hr f)) hr,
    centred_agree (x := fun r => pd1 u X g (r g)) (fun r hr => pd1_agree h (observed_row hr g)) hr]

theorem interactionOva_agree (h : Agree X u u') (f : F) {r : Row F V} (hr : r ∈ X.rows) :
    interactionOva u' X f r = interactionOva u X f r := by
  unfold interactionOva
  rw [centred_agree (x := u) (fun r hr => h r (mixes_row hr)) hr,
    centred_agree (x := fun r => pd1 u X f (r f)) (fun r hr => pd1_agree h (observed_row hr f)) hr,
    centred_agree (x := pdNot u X f) (fun r hr => pdNot_agree h (mixes_row hr)) hr]

theorem levels_observed {f : F} {vs : List V} (h : Levels X f vs) {v : V} (hv : v ∈ vs) : Observed X f v := by
  obtain ⟨r, hr, e⟩ := (h.2 v).1 hv
  exact ⟨r, hr, e.symm⟩

theorem importance_agree (h : Agree X u u') {b : Bool} {f : F} {k : K} (hk : IsImportance b u' X f k) :
    IsImportance b u X f k := by
  obtain ⟨vs, hv, hi⟩ := hk
  have e : vs.map (pd1 u' X f) = vs.map (pd1 u X f) :=
    List.map_congr_left fun v hv' => pd1_agree h (levels_observed hv hv')
  rw [e] at hi
  exact ⟨vs, hv, hi⟩

/-- the difference of the two models, cut off outside the mixtures of observed values -/
noncomputable def Gap (X : Frame F V) (u u' : Row F V → K) (r : Row F V) : K :=
  open Classical in if Mixes X r then u' r - u r else 0

theorem gap_bounds (h : Near X ε u u') (h0 : 0 ≤ ε) (r : Row F V) : -ε ≤ Gap X u u' r ∧ Gap X u u' r ≤ ε := by
  classical
  unfold Gap
  by_cases hm : Mixes X r
  · rw [if_pos hm]; exact abs_le.1 (h r hm)
  · rw [if_neg hm]; exact ⟨by linarith, h0⟩

theorem gap_agree (X : Frame F V) (u u' : Row F V → K) : Agree X (fun r => 1 * u r + 1 * Gap X u u' r) u' := by
  classical
  intro r hm
  simp only [Gap, if_pos hm]
  ring

theorem near_nonneg (h : Near X ε u u') (hX : X.rows ≠ []) : 0 ≤ ε := by
  obtain ⟨r, hr⟩ := List.exists_mem_of_ne_nil _ hX
  exact (abs_nonneg _).trans (h r (mixes_row hr))

theorem near_symm (h : Near X ε u u') : Near X ε u' u := fun r hr => by rw [abs_sub_comm]; exact h r hr

/-- averages of nearby numbers -/
theorem average_near {α : Type} {l : List α} (hl : l ≠ []) {x y : α → K} (h : ∀ i ∈ l, |y i - x i| ≤ ε) :
    |average (l.map y) - average (l.map x)| ≤ ε := by
  have e : average (l.map y) - average (l.map x) = average (l.map fun i => y i - x i) := by
    have := average_lin l y x 1 (-1)
    have e2 : (fun i => y i - x i) = fun i => 1 * y i + (-1) * x i := by funext i; ring
    rw [e2, this]; ring
  rw [e, abs_le]
  exact average_bounds (by simpa using hl) (by
    intro z hz; obtain ⟨i, hi, rfl⟩ := List.mem_map.1 hz; exact abs_le.1 (h i hi))

theorem pd1_near (h : Near X ε u u') (hX : X.rows ≠ []) {f : F} {v : V} (hv : Observed X f v) :
    |pd1 u' X f v - pd1 u X f v| ≤ ε :=
  average_near hX fun r hr => h _ (mixes_setF (mixes_row hr) hv)

theorem pd2_near (h : Near X ε u u') (hX : X.rows ≠ []) {f g : F} {v z : V} (hv : Observed X f v) (hz : Observed X g z) :
    |pd2 u' X f g v z - pd2 u X f g v z| ≤ ε :=
  average_near hX fun r hr => h _ (mixes_setF (mixes_setF (mixes_row hr) hz) hv)

theorem pdNot_near (h : Near X ε u u') (hX : X.rows ≠ []) {f : F} {r : Row F V} (hr : Mixes X r) :
    |pdNot u' X f r - pdNot u X f r| ≤ ε :=
  average_near hX fun r' hr' => h _ (mixes_setF hr (observed_row hr' f))

/-- root mean squares of nearby quantities: the general step -/
theorem rms_step {α : Type} {l : List α} {x d : α → K} {n h m c : K} (hn : 0 < n) (h0 : 0 ≤ h) (c0 : 0 ≤ c)
    (e : h * h = (l.map fun i => x i * x i).sum / n) (ed : (l.map fun i => d i * d i).sum / n ≤ c * c)
    (em : m * m = (l.map fun i => (1 * x i + 1 * d i) * (1 * x i + 1 * d i)).sum / n) [LawfulSqrt K] : m ≤ h + c := by
  have dn : 0 ≤ (l.map fun i => d i * d i).sum / n := by
    apply div_nonneg _ hn.le
    apply List.sum_nonneg
    intro z hz; obtain ⟨i, _, rfl⟩ := List.mem_map.1 hz; exact mul_self_nonneg _
  have := minkowski l x d 1 1 hn h0 (LawfulSqrt.nonneg ((l.map fun i => d i * d i).sum / n)) e
    (LawfulSqrt.mul_self _ dn) em
  have h2 : HasSqrt.sqrt ((l.map fun i => d i * d i).sum / n) ≤ c :=
    le_of_sq_le' (by rw [LawfulSqrt.mul_self _ dn]; exact ed) c0
  simp only [abs_one, one_mul] at this
  linarith

theorem H_step [LawfulSqrt K] (h : Near X ε u u') (hX : X.rows ≠ []) (f g : F) {k k' : K} (k0 : 0 ≤ k)
    (e : k * k = (X.rows.map fun r => interaction u X f g r * interaction u X f g r).sum / X.rows.length)
    (e' : k' * k' = (X.rows.map fun r => interaction u' X f g r * interaction u' X f g r).sum / X.rows.length) :
    k' ≤ k + 3 * ε := by
  have hn : (0 : K) < X.rows.length := by exact_mod_cast List.length_pos_of_ne_nil hX
  have h0 := near_nonneg h hX
  have hb := gap_bounds h h0
  have ex : (X.rows.map fun r => interaction u' X f g r * interaction u' X f g r) =
      X.rows.map fun r => (1 * interaction u X f g r + 1 * interaction (Gap X u u') X f g r) *
        (1 * interaction u X f g r + 1 * interaction (Gap X u u') X f g r) :=
    List.map_congr_left fun r hr => by rw [interaction_agree (gap_agree X u u') f g hr, interaction_lin]
  rw [ex] at e'
  refine rms_step hn k0 (by linarith) e ?_ e'
  have := three_bound hX (i := interaction (Gap X u u') X f g) (fun r => rfl)
    (sumSq_centred_bound (fun r => pd2_bounds hX hb f g (r f) (r g)))
    (sumSq_centred_bound (fun r => pd1_bounds hX hb f (r f))) (sumSq_centred_bound (fun r => pd1_bounds hX hb g (r g)))
  simp only [sumSq] at this
  linarith

theorem Ova_step [LawfulSqrt K] (h : Near X ε u u') (hX : X.rows ≠ []) (f : F) {k k' : K} (k0 : 0 ≤ k)
    (e : k * k = (X.rows.map fun r => interactionOva u X f r * interactionOva u X f r).sum / X.rows.length)
    (e' : k' * k' = (X.rows.map fun r => interactionOva u' X f r * interactionOva u' X f r).sum / X.rows.length) :
    k' ≤ k + 3 * ε := by
  have hn : (0 : K) < X.rows.length := by exact_mod_cast List.length_pos_of_ne_nil hX
  have h0 := near_nonneg h hX
  have hb := gap_bounds h h0
  have ex : (X.rows.map fun r => interactionOva u' X f r * interactionOva u' X f r) =
      X.rows.map fun r => (1 * interactionOva u X f r + 1 * interactionOva (Gap X u u') X f r) *
        (1 * interactionOva u X f r + 1 * interactionOva (Gap X u u') X f r) :=
    List.map_congr_left fun r hr => by rw [interactionOva_agree (gap_agree X u u') f hr, interactionOva_lin]
  rw [ex] at e'
  refine rms_step hn k0 (by linarith) e ?_ e'
  have := three_bound hX (i := interactionOva (Gap X u u') X f) (fun r => rfl)
    (sumSq_centred_bound hb)
    (sumSq_centred_bound (fun r => pd1_bounds hX hb f (r f))) (sumSq_centred_bound (fun r => pdNot_bounds hX hb f r))
  simp only [sumSq] at this
  linarith

/-- standard deviations of nearby samples -/
theorem std_step {α : Type} {l : List α} {x y : α → K} {n a b δ : K} [LawfulSqrt K] (hn : 0 < n)
    (h : ∀ i ∈ l, |y i - x i| ≤ δ) (a0 : 0 ≤ a) (b0 : 0 ≤ b) (ha : a * a = sumDev (l.map x) / n)
    (hb : b * b = sumDev (l.map y) / n) {c : K} (c0 : 0 ≤ c) (hc : l.length * (δ * δ) ≤ n * (c * c)) : |b - a| ≤ c := by
  have main : ∀ {x y : α → K} {a b : K}, (∀ i ∈ l, |y i - x i| ≤ δ) → 0 ≤ a → a * a = sumDev (l.map x) / n →
      b * b = sumDev (l.map y) / n → b ≤ a + c := by
    intro x y a b h a0 ha hb
    simp only [sumDev, List.map_map, Function.comp_def] at ha hb
    have hd : sumDev (l.map fun i => y i - x i) ≤ l.length * (δ * δ) := by
      have h4 := sumDev_bound (lo := -δ) (hi := δ) (l := l.map fun i => y i - x i) (by
        intro z hz; obtain ⟨i, hi, rfl⟩ := List.mem_map.1 hz; exact abs_le.1 (h i hi))
      simp only [List.length_map] at h4
      nlinarith
    simp only [sumDev, List.map_map, Function.comp_def] at hd
    refine rms_step hn a0 c0 ha (d := fun i => y i - x i - average (l.map fun i => y i - x i))
      (by rw [div_le_iff₀ hn]; linarith) ?_
    rw [hb]
    congr 2
    apply List.map_congr_left
    intro i _
    have e2 : (fun i => y i - x i) = fun i => 1 * y i + (-1) * x i := by funext i; ring
    rw [e2, average_lin l y x 1 (-1)]
    ring
  rw [abs_le]
  have h1 := main h a0 ha hb
  have h2 := main (fun i hi => by rw [abs_sub_comm]; exact h i hi) b0 hb ha
  constructor <;> linarith

theorem popStd_near {α : Type} {l : List α} {x y : α → K} {a b δ : K} [LawfulSqrt K] (hl : l ≠ []) (d0 : 0 ≤ δ)
    (h : ∀ i ∈ l, |y i - x i| ≤ δ) (ha : IsPopStd (l.map x) a) (hb : IsPopStd (l.map y) b) : |b - a| ≤ δ := by
  have hn : (0 : K) < l.length := by exact_mod_cast List.length_pos_of_ne_nil hl
  exact std_step hn h ha.1 hb.1 (by simpa using ha.2) (by simpa using hb.2) d0 le_rfl

theorem sampleStd_near {α : Type} {l : List α} {x y : α → K} {a b δ c : K} [LawfulSqrt K] (c0 : 0 ≤ c)
    (hc : c * c = 2 * (δ * δ)) (h : ∀ i ∈ l, |y i - x i| ≤ δ) (ha : IsSampleStd (l.map x) a)
    (hb : IsSampleStd (l.map y) b) : |b - a| ≤ c := by
  obtain ⟨h2, a0, ea⟩ := ha
  obtain ⟨_, b0, eb⟩ := hb
  simp only [List.length_map] at h2 ea eb
  have hn : (2 : K) ≤ l.length := by exact_mod_cast h2
  refine std_step (n := (l.length : K) - 1) (by linarith) h a0 b0 ea eb c0 ?_
  rw [hc]
  nlinarith [mul_self_nonneg δ]

theorem quarterRange_near {α : Type} {l : List α} {x y : α → K} {a b δ : K} (h : ∀ i ∈ l, |y i - x i| ≤ δ)
    (ha : IsQuarterRange (l.map x) a) (hb : IsQuarterRange (l.map y) b) : |b - a| ≤ δ / 2 := by
  obtain ⟨lo, h1, hi, h2, h3, rfl⟩ := ha
  obtain ⟨lo', h1', hi', h2', h3', rfl⟩ := hb
  obtain ⟨i, mi, rfl⟩ := List.mem_map.1 h1
  obtain ⟨j, mj, rfl⟩ := List.mem_map.1 h2
  obtain ⟨i', mi', rfl⟩ := List.mem_map.1 h1'
  obtain ⟨j', mj', rfl⟩ := List.mem_map.1 h2'
  have q1 := abs_le.1 (h i mi); have q2 := abs_le.1 (h j mj)
  have q3 := abs_le.1 (h i' mi'); have q4 := abs_le.1 (h j' mj')
  have r1 := h3 _ (List.mem_map_of_mem mi'); have r2 := h3 _ (List.mem_map_of_mem mj')
  have r3 := h3' _ (List.mem_map_of_mem mi); have r4 := h3' _ (List.mem_map_of_mem mj)
  rw [abs_le]
  constructor <;> linarith [q1.1, q1.2, q2.1, q2.2, q3.1, q3.2, q4.1, q4.2, r1.1, r2.2, r3.1, r4.2]

end helpers

section tables
variable {F V G L K : Type} [DecidableEq F] [LinearOrder V] [DecidableEq L] [Field K] [LinearOrder K]
  [IsStrictOrderedRing K] [HasSqrt K] [LawfulSqrt K]
variable {E E' : PdEnv G F K} {a a' : PdArgs L F V K} {s0 s s0' s' : PdpMethod G L F V K} {Xs Xs' : LFrame L F V}
  {u u' : Row F V → K} {ε : K}

theorem importance_near {X : Frame F V} (h : Near X ε u u') (hX : X.rows ≠ []) {b : Bool} {f : F} {k k' : K}
    (hk : IsImportance b u X f k) (hk' : IsImportance b u' X f k') : |k' - k| ≤ if b then ε else ε / 2 := by
  obtain ⟨vs, hv, hi⟩ := hk'
  have hi0 := importance_on hk hv
  have hd : ∀ v ∈ vs, |pd1 u' X f v - pd1 u X f v| ≤ ε := fun v hv' => pd1_near h hX (levels_observed hv hv')
  cases b with
  | true =>
    simp only [if_true] at hi hi0 ⊢
    exact popStd_near (levels_ne_nil hX hv) (near_nonneg h hX) hd hi0 hi
  | false =>
    simp only [Bool.false_eq_true, if_false] at hi hi0 ⊢
    exact quarterRange_near hd hi0 hi

/-- the conditional spread computed on any listing of the levels -/
theorem condSpread_on {X : Frame F V} {b : Bool} {f g : F} {k : K} (h : IsCondSpread b u X f g k) {vs vs' : List V}
    (hv : Levels X f vs) (hv' : Levels X g vs') : ∃ imp : V → K, IsSampleStd (vs.map imp) k ∧
      ∀ v ∈ vs, if b then IsSampleStd (vs'.map fun v' => pd2 u X f g v v') (imp v)
        else IsQuarterRange (vs'.map fun v' => pd2 u X f g v v') (imp v) := by
  obtain ⟨ws, ws', imp, h1, h2, h3, h4⟩ := h
  refine ⟨imp, sampleStd_perm' ((levels_perm h1 hv).map imp) h3, fun v hm => ?_⟩
  have := h4 v ((levels_perm h1 hv).mem_iff.2 hm)
  have hp := (levels_perm h2 hv').map (fun v' => pd2 u X f g v v')
  cases b with
  | true => simp only [if_true] at this ⊢; exact sampleStd_perm' hp this
  | false => simp only [Bool.false_eq_true, if_false] at this ⊢; exact quarterRange_perm hp this

theorem condSpread_near {X : Frame F V} (h : Near X ε u u') (hX : X.rows ≠ []) {b : Bool} {f g : F} {k k' : K}
    (hk : IsCondSpread b u X f g k) (hk' : IsCondSpread b u' X f g k') : |k' - k| ≤ 2 * ε := by
  have h0 := near_nonneg h hX
  obtain ⟨vs, vs', imp', h1, h2, h3, h4⟩ := hk'
  obtain ⟨imp, g3, g4⟩ := condSpread_on hk h1 h2
  have e0 : (0 : K) ≤ 2 * (ε * ε) := by positivity
  set c := HasSqrt.sqrt (2 * (ε * ε)) with hc
  have c0 : 0 ≤ c := LawfulSqrt.nonneg _
  have c2 : c * c = 2 * (ε * ε) := LawfulSqrt.mul_self _ e0
  have hd : ∀ v ∈ vs, |imp' v - imp v| ≤ c := by
    intro v hv
    have q := h4 v hv
    have q0 := g4 v hv
    have hn : ∀ v' ∈ vs', |pd2 u' X f g v v' - pd2 u X f g v v'| ≤ ε := fun v' hv' =>
      pd2_near h hX (levels_observed h1 hv) (levels_observed h2 hv')
    cases b with
    | true =>
      simp only [if_true] at q q0
      exact sampleStd_near c0 c2 hn q0 q
    | false =>
      simp only [Bool.false_eq_true, if_false] at q q0
      refine (quarterRange_near hn q0 q).trans (le_of_sq_le' ?_ c0)
      rw [c2]; nlinarith
  exact sampleStd_near (by linarith) (by rw [c2]; ring) hd g3 h3

/-- what Greenwell's table of pairs shows -/
theorem shows_greenwell (h : Fits .greenwell u E a s0 Xs s) {f f' : F} (hf : f ∈ a.feats) (hf' : f' ∈ a.feats)
    (hne : f ≠ f') : ∃ x y z : K, Shows s.ovo f f' (.fin x) ∧ IsCondSpread (E.numeric f') u Xs.frame f f' y ∧
      IsCondSpread (E.numeric f) u Xs.frame f' f z ∧ x = (y + z) / 2 := by
  obtain ⟨tbl, h1, h2⟩ := C69_greenwell_is_textbook_formula h.setup h.rows h.sortOvo h.returns
  obtain ⟨t, ht, row, hr, hp, huniq⟩ := the_row h hf hf' hne
  rw [h1] at ht
  cases ht
  obtain ⟨x, e, y, z, hy, hz, hx⟩ := h2 row hr
  have hs : Shows s.ovo f f' (.fin x) := ⟨tbl, h1, ⟨row, hr, hp⟩, fun r2 hr2 hp2 => by rw [huniq r2 hr2 hp2, e]⟩
  rcases hp with ⟨e1, e2⟩ | ⟨e1, e2⟩
  · rw [e1, e2] at hy hz
    exact ⟨x, y, z, hs, hy, hz, hx⟩
  · rw [e1, e2] at hy hz
    exact ⟨x, z, y, hs, hz, hy, by rw [hx, add_comm]⟩

/-- **C134 (pairs, unnormalized H).** If the predictions of two models differ by at most `ε` on mixtures of observed
values, the reported strengths of a pair differ by at most `3 ε`. -/
theorem C134_unnormalized_H_partial (h : Fits (.friedman false) u E a s0 Xs s)
    (h' : Fits (.friedman false) u' E' a' s0' Xs' s') (hXs : Xs'.frame = Xs.frame) (hn : Near Xs.frame ε u u')
    {f g : F} (hne : f ≠ g) (hf : f ∈ a.feats) (hg : g ∈ a.feats) (hf' : f ∈ a'.feats) (hg' : g ∈ a'.feats) :
    ∃ k k' : K, Shows s.ovo f g (.fin k) ∧ Shows s'.ovo f g (.fin k') ∧ |k' - k| ≤ 3 * ε := by
  obtain ⟨k, s1, k0, e1⟩ := shows_unnormalized h hf hg hne
  obtain ⟨k', s2, k0', e2⟩ := shows_unnormalized h' hf' hg' hne
  rw [hXs] at e2
  refine ⟨k, k', s1, s2, ?_⟩
  have b1 := H_step hn h.rows f g k0 e1 e2
  have b2 := H_step (near_symm hn) h.rows f g k0' e2 e1
  rw [abs_le]
  constructor <;> linarith

/-- **C134 (one versus all, unnormalized H).** -/
theorem C134_unnormalized_ova_partial (h : Fits (.friedman false) u E a s0 Xs s)
    (h' : Fits (.friedman false) u' E' a' s0' Xs' s') (hXs : Xs'.frame = Xs.frame) (hn : Near Xs.frame ε u u')
    (ho : a.calculateOva = true) (ho' : a'.calculateOva = true) {f : F} (hf : f ∈ a.feats) (hf' : f ∈ a'.feats) :
    ∃ k k' : K, ShowsOne s.ova f (.fin k) ∧ ShowsOne s'.ova f (.fin k') ∧ |k' - k| ≤ 3 * ε := by
  obtain ⟨k, s1, k0, e1⟩ := shows_unnormalized_ova h ho hf
  obtain ⟨k', s2, k0', e2⟩ := shows_unnormalized_ova h' ho' hf'
  rw [hXs] at e2
  refine ⟨k, k', s1, s2, ?_⟩
  have b1 := Ova_step hn h.rows f k0 e1 e2
  have b2 := Ova_step (near_symm hn) h.rows f k0' e2 e1
  rw [abs_le]
  constructor <;> linarith

/-- **C134 (variable importance, either method).** At most `ε` for a numerical, `ε / 2` for a categorical feature. -/
theorem C134_importance {kind kind' : PdKind} (h : Fits kind u E a s0 Xs s) (h' : Fits kind' u' E' a' s0' Xs' s')
    (hXs : Xs'.frame = Xs.frame) (hn : Near Xs.frame ε u u') {f : F} (hnum : E'.numeric f = E.numeric f)
    (hf : f ∈ a.feats) (hf' : f ∈ a'.feats) :
    ∃ k k' : K, ShowsOne s.importance f (.fin k) ∧ ShowsOne s'.importance f (.fin k') ∧
      |k' - k| ≤ if E.numeric f then ε else ε / 2 := by
  obtain ⟨k, s1, e1⟩ := shows_importance h hf
  obtain ⟨k', s2, e2⟩ := shows_importance h' hf'
  rw [hXs, hnum] at e2
  exact ⟨k, k', s1, s2, importance_near hn h.rows e1 e2⟩

/-- **C134 (pairs, Greenwell).** At most `2 ε`. -/
theorem C134_greenwell (h : Fits .greenwell u E a s0 Xs s) (h' : Fits .greenwell u' E' a' s0' Xs' s')
    (hXs : Xs'.frame = Xs.frame) (hn : Near Xs.frame ε u u') (hnum : ∀ f, E'.numeric f = E.numeric f)
    {f g : F} (hne : f ≠ g) (hf : f ∈ a.feats) (hg : g ∈ a.feats) (hf' : f ∈ a'.feats) (hg' : g ∈ a'.feats) :
    ∃ k k' : K, Shows s.ovo f g (.fin k) ∧ Shows s'.ovo f g (.fin k') ∧ |k' - k| ≤ 2 * ε := by
  obtain ⟨k, y, z, s1, hy, hz, rfl⟩ := shows_greenwell h hf hg hne
  obtain ⟨k', y', z', s2, hy', hz', rfl⟩ := shows_greenwell h' hf' hg' hne
  rw [hXs, hnum] at hy' hz'
  refine ⟨_, _, s1, s2, ?_⟩
  have b1 := abs_le.1 (condSpread_near hn h.rows hy hy')
  have b2 := abs_le.1 (condSpread_near hn h.rows hz hz')
  rw [abs_le]
  constructor <;> linarith [b1.1, b1.2, b2.1, b2.2]

end tables

section calculator
variable {F V K : Type} [DecidableEq F] [LinearOrder V] [Field K] [LinearOrder K] [IsStrictOrderedRing K] [HasSqrt K]
variable {u u' : Row F V → K} {p p' : PF F V (Num K)} {X : Frame F V} {ε : K}

/-- **C134 (partial dependence of one feature).** What two calculators over the same data return differs by at most `ε`,
value by value, whatever was asked of them before. -/
theorem C134_single_pd (hw : RowWise (finM u) p) (hw' : RowWise (finM u') p') (hn : Near X ε u u') (hX : X.rows ≠ [])
    (b b' : Int) (ops ops' : List (PDOp F)) (fs fs' : Option (List F))
    (hret : (Calc.calculateSingle fs (runOps (Calc.new p X b) ops)).1 = .ok ())
    (hret' : (Calc.calculateSingle fs' (runOps (Calc.new p' X b') ops')).1 = .ok ())
    {f : F} (hf : f ∈ fs.getD X.cols) (hf' : f ∈ fs'.getD X.cols) {v : V} (hv : v ∈ X.col f) :
    ∃ k k' : K, (Calc.calculateSingle fs (runOps (Calc.new p X b) ops)).2.getSingle f [v] = .ok [.fin k] ∧
      (Calc.calculateSingle fs' (runOps (Calc.new p' X b') ops')).2.getSingle f [v] = .ok [.fin k'] ∧ |k' - k| ≤ ε := by
  have h1 := C01_single_pd_is_brute_force hw X b ops fs hret f hf [v] (by simpa using hv)
  have h2 := C01_single_pd_is_brute_force hw' X b' ops' fs' hret' f hf' [v] (by simpa using hv)
  obtain ⟨r, hr, e⟩ := List.mem_map.1 hv
  refine ⟨_, _, by rw [h1, List.map_singleton, pdSingle_fin u hX], by rw [h2, List.map_singleton, pdSingle_fin u' hX],
    pd1_near hn hX ⟨r, hr, e.symm⟩⟩

/-- **C134 (joint partial dependence of two features).** -/
theorem C134_pair_pd (hw : RowWise (finM u) p) (hw' : RowWise (finM u') p') (hn : Near X ε u u') (hX : X.rows ≠ [])
    (nd : X.cols.Nodup) (b b' : Int) (ops ops' : List (PDOp F)) (ps ps' : Option (List (F × F))) (all all' : Bool)
    (hret : (Calc.calculatePairs ps all (runOps (Calc.new p X b) ops)).1 = .ok ())
    (hret' : (Calc.calculatePairs ps' all' (runOps (Calc.new p' X b') ops')).1 = .ok ())
    {f g : F} (hf : f ∈ X.cols) (hg : g ∈ X.cols) (hne : f ≠ g) (hp : (f, g) ∈ ps.getD (combinations2 X.cols))
    (hp' : (f, g) ∈ ps'.getD (combinations2 X.cols)) {r : Row F V} (hr : r ∈ X.rows) :
    ∃ k k' : K, (Calc.calculatePairs ps all (runOps (Calc.new p X b) ops)).2.getPairs f g [(r f, r g)] = .ok [.fin k] ∧
      (Calc.calculatePairs ps' all' (runOps (Calc.new p' X b') ops')).2.getPairs f g [(r f, r g)] = .ok [.fin k'] ∧
      |k' - k| ≤ ε := by
  have hc : ∀ all, ∀ v ∈ [(r f, r g)], Spec.covered all X f g v := by
    intro all v hv
    rw [List.mem_singleton.1 hv]
    cases all
    · exact ⟨r, hr, rfl, rfl⟩
    · exact ⟨List.mem_map.2 ⟨r, hr, rfl⟩, List.mem_map.2 ⟨r, hr, rfl⟩⟩
  have h1 := C02_pair_pd_is_brute_force hw X b ops ps all hret f g hf hg hne (.inl hp) nd _ (hc all)
  have h2 := C02_pair_pd_is_brute_force hw' X b' ops' ps' all' hret' f g hf hg hne (.inl hp') nd _ (hc all')
  refine ⟨_, _, by rw [h1, List.map_singleton, pdPair_fin u hX], by rw [h2, List.map_singleton, pdPair_fin u' hX],
    pd2_near hn hX (observed_row hr f) (observed_row hr g)⟩

/-- **C134 (partial dependence of all features but one).** -/
theorem C134_minus_pd (hw : RowWise (finM u) p) (hw' : RowWise (finM u') p') (hn : Near X ε u u') (hX : X.rows ≠ [])
    (hr : ReadsOnly (finM u) X.cols) (hr' : ReadsOnly (finM u') X.cols)
    (b b' : Int) (ops ops' : List (PDOp F)) (fs fs' : Option (List F))
    (hret : (Calc.calculateMinus fs (runOps (Calc.new p X b) ops)).1 = .ok ())
    (hret' : (Calc.calculateMinus fs' (runOps (Calc.new p' X b') ops')).1 = .ok ())
    {f : F} (hf : f ∈ fs.getD X.cols) (hf' : f ∈ fs'.getD X.cols) :
    ∃ ks ks' : List K, (Calc.calculateMinus fs (runOps (Calc.new p X b) ops)).2.getMinus f = .ok (ks.map .fin) ∧
      (Calc.calculateMinus fs' (runOps (Calc.new p' X b') ops')).2.getMinus f = .ok (ks'.map .fin) ∧
      ks.length = X.rows.length ∧ List.Forall₂ (fun k k' => |k' - k| ≤ ε) ks ks' := by
  have h1 := C03_minus_pd_is_brute_force hw X hr b ops fs hret f hf
  have h2 := C03_minus_pd_is_brute_force hw' X hr' b' ops' fs' hret' f hf'
  refine ⟨X.rows.map (pdNot u X f), X.rows.map (pdNot u' X f), ?_, ?_, by simp, ?_⟩
  · rw [h1, List.map_map]
    congr 1
    exact List.map_congr_left fun r _ => pdMinus_fin u hX f r
  · rw [h2, List.map_map]
    congr 1
    exact List.map_congr_left fun r _ => pdMinus_fin u' hX f r
  · rw [List.forall₂_map_left_iff, List.forall₂_map_right_iff]
    exact List.forall₂_same.2 fun r hr => pdNot_near hn hX (mixes_row hr)

end calculator

section perf
variable {F V K G L : Type} [DecidableEq F] [LinearOrder V] [DecidableEq L] [Field K] [LinearOrder K]
  [IsStrictOrderedRing K] [HasSqrt K] [LawfulSqrt K]
variable {u u' : Row F V → K} {ε : K}

/-- the model predicts `u` row by row -/
def Spec.PredictsRows (model : ModelObj F V (Num K)) (u : Row F V → K) : Prop := Predicts model (fun rows => rows.map u)

theorem mixes_permuted {X : Frame F V} (fs : List F) (q : List Nat) : ∀ r ∈ permuted X fs q, Mixes X r := by
  intro r hr
  simp only [permuted, List.mem_mapIdx] at hr
  obtain ⟨i, hi, rfl⟩ := hr
  intro f
  by_cases hf : f ∈ fs
  · simp only [hf, if_true]
    cases h : q[i]? with
    | none => exact ⟨_, List.getElem_mem hi, by simp⟩
    | some j =>
      cases h2 : X.rows[j]? with
      | none => exact ⟨_, List.getElem_mem hi, by simp [h2]⟩
      | some r' => exact ⟨r', List.mem_of_getElem? h2, by simp [h2]⟩
  · exact ⟨_, List.getElem_mem hi, by simp [hf]⟩

/-- the score of a data set under RMSE -/
theorem rmse_score {model : ModelObj F V (Num K)} (hp : PredictsRows model u) {ts : List K} (hts : ts ≠ [])
    {sc : List (Row F V) → K} (hsc : Scores model rmseM (ts.map Num.fin) ts.length sc) {rows : List (Row F V)}
    (hl : rows.length = ts.length) : 0 ≤ sc rows ∧ sc rows * sc rows =
      ((ts.zip rows).map fun i => (u i.2 - i.1) * (u i.2 - i.1)).sum / ts.length := by
  obtain ⟨p, e1, h1⟩ := hp
  obtain ⟨p', e2, h2⟩ := hsc
  rw [e1] at e2
  cases e2
  obtain ⟨yh, q1, q2⟩ := h2 0 rows hl
  rw [(h1 0 rows).1] at q1
  cases q1
  have hm := mse_fin (ts := ts) (hs := rows.map u) (by simp [hl]) hts
  simp only [rmseM, hm, bind, Except.bind, Num.sqrt, not_lt.2 (mseOf_nonneg ts (rows.map u)), if_false] at q2
  have q3 : HasSqrt.sqrt (mseOf ts (rows.map u)) = sc rows := Num.fin.inj (Except.ok.inj q2)
  rw [← q3]
  refine ⟨LawfulSqrt.nonneg _, ?_⟩
  rw [LawfulSqrt.mul_self _ (mseOf_nonneg _ _), mseOf, average, List.zip_map_right, List.map_map]
  simp [Function.comp_def, hl]

theorem rmse_near {model model' : ModelObj F V (Num K)} (hp : PredictsRows model u) (hp' : PredictsRows model' u')
    {ts : List K} (hts : ts ≠ []) {sc sc' : List (Row F V) → K} (hsc : Scores model rmseM (ts.map Num.fin) ts.length sc)
    (hsc' : Scores model' rmseM (ts.map Num.fin) ts.length sc') {X : Frame F V} (hn : Near X ε u u') {rows : List (Row F V)}
    (hl : rows.length = ts.length) (hm : ∀ r ∈ rows, Mixes X r) : |sc' rows - sc rows| ≤ ε := by
  have hne : rows ≠ [] := by
    intro e; rw [e] at hl; exact hts (List.length_eq_zero_iff.1 hl.symm)
  obtain ⟨r, hr⟩ := List.exists_mem_of_ne_nil _ hne
  have h0 : 0 ≤ ε := (abs_nonneg _).trans (hn r (hm r hr))
  have hN : (0 : K) < ts.length := by exact_mod_cast List.length_pos_of_ne_nil hts
  have main : ∀ {u u' : Row F V → K} {x x' : K}, Near X ε u u' → 0 ≤ x →
      x * x = ((ts.zip rows).map fun i => (u i.2 - i.1) * (u i.2 - i.1)).sum / ts.length →
      x' * x' = ((ts.zip rows).map fun i => (u' i.2 - i.1) * (u' i.2 - i.1)).sum / ts.length → x' ≤ x + ε := by
    intro u u' x x' hn x0 e e'
    refine rms_step hN x0 h0 e (d := fun i => u' i.2 - u i.2) ?_ ?_
    · rw [div_le_iff₀ hN]
      have key : ∀ l : List (K × Row F V), (∀ i ∈ l, i.2 ∈ rows) →
          (l.map fun i => (u' i.2 - u i.2) * (u' i.2 - u i.2)).sum ≤ ε * ε * l.length := by
        intro l
        induction l with
        | nil => simp
        | cons i l ih =>
          intro hl
          have h1 := ih fun j hj => hl j (List.mem_cons_of_mem _ hj)
          have h2 := abs_le.1 (hn i.2 (hm _ (hl i List.mem_cons_self)))
          have h3 : (u' i.2 - u i.2) * (u' i.2 - u i.2) ≤ ε * ε := by
            nlinarith [mul_nonneg (sub_nonneg.2 h2.2) (by linarith [h2.1] : 0 ≤ u' i.2 - u i.2 + ε)]
          simp only [List.map_cons, List.sum_cons, List.length_cons]
          push_cast
          linarith
      have := key (ts.zip rows) fun i hi => (List.of_mem_zip hi).2
      simpa [List.length_zip, hl] using this
    · rw [e']
      congr 2
      apply List.map_congr_left
      intro i _
      ring
  obtain ⟨a0, a1⟩ := rmse_score hp hts hsc hl
  obtain ⟨b0, b1⟩ := rmse_score hp' hts hsc' hl
  have c1 := main hn a0 a1 b1
  have c2 := main (near_symm hn) b0 b1 a1
  rw [abs_le]
  constructor <;> linarith

variable {R : Rng G} {model model' : ModelObj F V (Num K)} {X : LFrame L F V} {y : Target L K} {fs : List F} {n : Nat}
  {sort sort' : List (FeatRow F K) → List (FeatRow F K)}

/-- **C134 (permutation importance, RMSE, same random numbers).** At most `2 ε`. -/
theorem C134_permutation_importance {o : PermObj G F K} (hM : o.metric = rmseM) (hR : R.Lawful)
    (hsort : SortsBy FeatRow.val false sort) (hsort' : SortsBy FeatRow.val false sort')
    (hp : PredictsRows model u) (hp' : PredictsRows model' u')
    (hn : Near X.frame ε u u') {ts : List K} (hy : y.values = ts.map Num.fin) (hl : ts.length = X.frame.rows.length)
    (hX : X.frame.rows ≠ []) (hfs : ∀ f ∈ fs, f ∈ X.frame.cols) (hne : fs ≠ []) (hr : 0 < n)
    (calls calls' : List (List (Row F V))) :
    ∃ t t' o1 o2 c1 c2, PermObj.run sort R model X y n (some fs) o calls = (.ok t, o1, c1) ∧
      PermObj.run sort' R model' X y n (some fs) o calls' = (.ok t', o2, c2) ∧
      ∀ f ∈ fs, ∃ k k' : K, ShowsOne (some t) f (.fin k) ∧ ShowsOne (some t') f (.fin k') ∧ |k' - k| ≤ 2 * ε := by
  have hts : ts ≠ [] := by
    intro e; rw [e] at hl; exact hX (List.length_eq_zero_iff.1 hl.symm)
  obtain ⟨sc, hsc, _⟩ := scores_of_predicts (M := rmseM) (Or.inr (Or.inl rfl)) hp hts
  obtain ⟨sc', hsc', _⟩ := scores_of_predicts (M := rmseM) (Or.inr (Or.inl rfl)) hp' hts
  have q : Scores model o.metric y.values X.frame.rows.length sc := by rw [hM, hy, ← hl]; exact hsc
  have q' : Scores model' o.metric y.values X.frame.rows.length sc' := by rw [hM, hy, ← hl]; exact hsc'
  obtain ⟨t, o1, c1, r1, _, nd, mem, _, val⟩ := C30_one_row_per_feature_sorted hR hsort q hfs hne hr calls
  obtain ⟨t', o2, c2, r2, _, nd', mem', _, val'⟩ := C30_one_row_per_feature_sorted hR hsort' q' hfs hne hr calls'
  refine ⟨t, t', o1, o2, c1, c2, r1, r2, fun f hf => ?_⟩
  obtain ⟨row, hrow, e⟩ := List.mem_map.1 ((mem f).2 hf)
  obtain ⟨row', hrow', e'⟩ := List.mem_map.1 ((mem' f).2 hf)
  obtain ⟨k, hk, ek⟩ := val row hrow
  obtain ⟨k', hk', ek'⟩ := val' row' hrow'
  refine ⟨k, k', ⟨t, rfl, ⟨row, hrow, e⟩, fun r2 h2 e2 => ?_⟩, ⟨t', rfl, ⟨row', hrow', e'⟩, fun r2 h2 e2 => ?_⟩, ?_⟩
  · rw [List.inj_on_of_nodup_map nd h2 hrow (by rw [e2, e]), hk]
  · rw [List.inj_on_of_nodup_map nd' h2 hrow' (by rw [e2, e']), hk']
  have hc : o.metric.isClass = false := by rw [hM]; rfl
  have hb := abs_le.1 (rmse_near hp hp' hts hsc hsc' hn hl.symm (fun r hr => mixes_row hr))
  have ht : |average (turnScores sc' X.frame (nthPerm R X.frame.rows.length o.rng) fs n f) -
      average (turnScores sc X.frame (nthPerm R X.frame.rows.length o.rng) fs n f)| ≤ ε := by
    have hnn := turnScores_ne_nil (sc := sc) (X := X.frame) hr hf (nthPerm R X.frame.rows.length o.rng)
    simp only [turnScores, List.mapIdx_eq_zipIdx_map, List.filter_map, List.map_map] at hnn ⊢
    refine average_near (by simpa using hnn) fun i _ => ?_
    exact rmse_near hp hp' hts hsc hsc' hn (by simp [length_permuted, hl]) (mixes_permuted _ _)
  have ht := abs_le.1 ht
  rw [ek, ek', hc, e, e']
  simp only [Bool.false_eq_true, if_false]
  rw [abs_le]
  constructor <;> linarith [hb.1, hb.2, ht.1, ht.2]

variable {E : PerfEnv G L F K} {a : SejongArgs L F V K} {s0 : Sejong G L F V K} {Xs : LFrame L F V} {ys : Target L K}
  {g : G} {sc sc' : List (Row F V) → K}

theorem pairValue_near {Z : Frame F V} (h : ∀ rows : List (Row F V), rows.length = Z.rows.length → (∀ r ∈ rows, Mixes Z r) →
    |sc' rows - sc rows| ≤ ε) (perm : Nat → List Nat) (hn : 0 < n) (i : Nat) (pr : F × F) :
    |pairValue sc' Z perm n i pr - pairValue sc Z perm n i pr| ≤ 4 * ε := by
  refine average_near (by simp; omega) fun j _ => ?_
  have a1 := abs_le.1 (h _ (length_permuted Z [pr.1, pr.2] (perm (3 * (n * i + j) + 2))) (mixes_permuted _ _))
  have a2 := abs_le.1 (h _ (length_permuted Z [pr.1] (perm (3 * (n * i + j)))) (mixes_permuted _ _))
  have a3 := abs_le.1 (h _ (length_permuted Z [pr.2] (perm (3 * (n * i + j) + 1))) (mixes_permuted _ _))
  have a4 := abs_le.1 (h Z.rows rfl fun r hr => mixes_row hr)
  refine (abs_abs_sub_abs_le _ _).trans ?_
  rw [abs_le]
  constructor <;> linarith [a1.1, a1.2, a2.1, a2.2, a3.1, a3.2, a4.1, a4.2]

/-- **C134 (Sejong Oh's method, RMSE, same random numbers).** At most `4 ε` for a pair. -/
theorem C134_sejong (hs : PerfSetup E a s0 Xs ys g sc) (hM : s0.metric = rmseM)
    (hsort : SortsBy (fun r : OvoRow F K => r.val.abs) false E.sortOvo)
    (hp : PredictsRows a.model u) (hp' : PredictsRows model' u') (hn : Near Xs.frame ε u u') {ts : List K}
    (hy : ys.values = ts.map Num.fin) (hl : ts.length = Xs.frame.rows.length) (hX : Xs.frame.rows ≠ []) (entropy entropy' : G) :
    ∃ s s' t t', Sejong.fit E a entropy s0 = (.ok (), s) ∧ Sejong.fit E { a with model := model' } entropy' s0 = (.ok (), s') ∧
      s.ovo = some t ∧ s'.ovo = some t' ∧ t.length = t'.length ∧
      ∀ row ∈ t, ∃ row' ∈ t', row'.f1 = row.f1 ∧ row'.f2 = row.f2 ∧
        ∃ k k' : K, row.val = .fin k ∧ row'.val = .fin k' ∧ |k' - k| ≤ 4 * ε := by
  have hts : ts ≠ [] := by
    intro e; rw [e] at hl; exact hX (List.length_eq_zero_iff.1 hl.symm)
  obtain ⟨sc2, hsc2, _⟩ := scores_of_predicts (M := rmseM) (Or.inr (Or.inl rfl)) hp' hts
  have hs' : PerfSetup E { a with model := model' } s0 Xs ys g sc2 :=
    ⟨hs.lawful, hs.sampled, by rw [hM, hy, ← hl]; exact hsc2, hs.feats_cols, hs.feats_nodup, hs.feats_ne, hs.repeats⟩
  have hsc : Scores a.model rmseM (ts.map Num.fin) ts.length sc := by
    have := hs.scores; rwa [hM, hy, ← hl] at this
  obtain ⟨s, t, f1, f2, f3, _⟩ := C24_mean_absolute_nonadditive_change hs hsort entropy
  obtain ⟨s', t', g1, g2, g3, _⟩ := C24_mean_absolute_nonadditive_change hs' hsort entropy'
  refine ⟨s, s', t, t', f1, g1, f2, g2, ?_, fun row hrow => ?_⟩
  · rw [f3.length_eq, g3.length_eq]
    simp only [List.length_mapIdx]
    rfl
  have hmem := f3.mem_iff.1 hrow
  rw [List.mem_mapIdx] at hmem
  obtain ⟨i, hi, e⟩ := hmem
  refine ⟨⟨(combinations2 a.feats)[i].1, (combinations2 a.feats)[i].2, .fin (pairValue sc2 Xs.frame
    (nthPerm E.R Xs.frame.rows.length g) a.nRepeat i (combinations2 a.feats)[i])⟩,
    g3.mem_iff.2 (List.mem_mapIdx.2 ⟨i, hi, rfl⟩), by rw [← e], by rw [← e], pairValue sc Xs.frame
    (nthPerm E.R Xs.frame.rows.length g) a.nRepeat i (combinations2 a.feats)[i], _, by rw [← e]; rfl, rfl, ?_⟩
  exact pairValue_near (fun rows h1 h2 => rmse_near hp hp' hts hsc hsc2 hn (by rw [h1, hl]) h2) _ hs.repeats _ _

end perf

section Cases
open Ex

/-- `ε x y` on the grid -/
noncomputable def tinyU (ε : ℝ) (r : Row (Fin 2) ℤ) : ℝ := ε * (r 0 * r 1 : ℤ)

noncomputable def tinyArgs (ε : ℝ) : PdArgs Nat (Fin 2) ℤ ℝ :=
  { gridArgs 0 0 with
    model := { ident := 1, predict := some (fun _ rows => .ok (rows.map (fun r => .fin (tinyU ε r)))), predictProba := none } }

theorem tinySetup (ε : ℝ) : FitSetup (finM (tinyU ε)) gridEnv (tinyArgs ε) (PdpMethod.new 0) gridX where
  sampled := rfl
  rowWise := by
    intro n rows ys h; cases h; rfl
  reads := by
    intro r r' h
    simp only [finM, tinyU, h 0 (by decide), h 1 (by decide)]
  cols_nodup := by decide
  history := by intro co h; cases h

theorem tinyChoose (ε : ℝ) : PdpMethod.chooseCalc (tinyArgs ε) gridX (tinyArgs ε).pf =
    .ok ⟨1, [0, 1, 2, 3], Calc.new (tinyArgs ε).pf gridX.frame 7⟩ := by
  simp only [PdpMethod.chooseCalc, tinyArgs, gridArgs, gridX]

theorem tinyNever (ε : ℝ) : NeverFails (tinyArgs ε).pf := by
  intro n rows; exact ⟨_, rfl⟩

theorem tinyValid (ε : ℝ) : ValidFeatures gridX.frame (tinyArgs ε).feats :=
  validFeatures_of_nodup (fun _ h => h) (by show [(0 : Fin 2), 1].Nodup; decide)

theorem tinyFit (n : Bool) (ε : ℝ) :
    ∃ s, Fits (L := Nat) (.friedman n) (tinyU ε) gridEnv (tinyArgs ε) (PdpMethod.new 0) gridX s := by
  have hX : gridX.frame.rows ≠ [] := by simp [gridX]
  have h := (fit_returns (e := .keyError) (kind := .friedman n) (tinySetup ε) (tinyChoose ε) (tinyNever ε)
    (tinyNever ε) (tinyValid ε)).1.2 ⟨⟨_, ovoRows.eq_1 _ _ _ _ _⟩, impRows_ok _ _ hX _⟩
  obtain ⟨s, hs⟩ := ret_of_fst h
  exact ⟨s, tinySetup ε, sortsBy_stableSort _ _, sortsBy_stableSort _ _, hX,
    by show [(0 : Fin 2), 1].Nodup; decide, hs⟩

theorem tinyNear {ε : ℝ} (h : 0 ≤ ε) : Near gridX.frame ε (gridU 0 0) (tinyU ε) := by
  intro r hr
  have h0 := gridX_mixes hr 0
  have h1 := gridX_mixes hr 1
  rcases h0 with h0 | h0 <;> rcases h1 with h1 | h1 <;> simp [tinyU, gridU, h0, h1, abs_of_nonneg h]

theorem tinyH {ε : ℝ} (h : ε ≠ 0) {s : PdpMethod Nat Nat (Fin 2) ℤ ℝ}
    (hf : Fits (.friedman true) (tinyU ε) gridEnv (tinyArgs ε) (PdpMethod.new 0) gridX s) : Shows s.ovo 0 1 (.fin 1) := by
  obtain ⟨tbl, h1, h2⟩ := C66_H_is_textbook_formula true hf.setup hf.sortOvo hf.rows hf.returns
  obtain ⟨t, ht, row, hr, hp, huniq⟩ := the_row hf (f := 0) (f' := 1) (by show (0 : Fin 2) ∈ [0, 1]; decide)
    (by show (1 : Fin 2) ∈ [0, 1]; decide) (by decide)
  rw [h1] at ht
  cases ht
  have hv := h2 row hr
  simp only [if_true] at hv
  have hval : row.val = .fin 1 := by
    have key : ∀ f g : Fin 2, f ≠ g →
        sumSq gridX.frame (interaction (tinyU ε) gridX.frame f g) = 4 * (ε * ε) ∧
        sumSq gridX.frame (centred gridX.frame (fun r => pd2 (tinyU ε) gridX.frame f g (r f) (r g))) = 4 * (ε * ε) := by
      intro f g hne
      have hc : (f = 0 ∧ g = 1) ∨ (f = 1 ∧ g = 0) := by revert f g; decide
      rcases hc with ⟨rfl, rfl⟩ | ⟨rfl, rfl⟩ <;>
        constructor <;>
        simp [sumSq, interaction, centred, pd2, pd1, average, gridX, tinyU, setF] <;> ring
    have hne : row.f1 ≠ row.f2 := by
      rcases hp with ⟨e1, e2⟩ | ⟨e1, e2⟩ <;> rw [e1, e2] <;> decide
    obtain ⟨k1, k2⟩ := key _ _ hne
    rw [k1, k2] at hv
    have hpos : 4 * (ε * ε) ≠ 0 := by simpa using h
    rw [hv.1 hpos, div_self hpos]
  exact ⟨tbl, h1, ⟨row, hr, hp⟩, fun r2 hr2 hp2 => by rw [huniq r2 hr2 hp2, hval]⟩

/-- **C134 fails for the normalized H-statistic**: however small `ε > 0`, the constant model 0 shows 0 and the model
`ε x y` on the grid shows 1. -/
theorem C134_fails_normalized {ε : ℝ} (h : 0 < ε) : ∃ s s' : PdpMethod Nat Nat (Fin 2) ℤ ℝ,
    Fits (.friedman true) (gridU 0 0) gridEnv (gridArgs 0 0) (PdpMethod.new 0) gridX s ∧
    Fits (.friedman true) (tinyU ε) gridEnv (tinyArgs ε) (PdpMethod.new 0) gridX s' ∧
    Near gridX.frame ε (gridU 0 0) (tinyU ε) ∧ Shows s.ovo 0 1 (.fin 0) ∧ Shows s'.ovo 0 1 (.fin 1) := by
  obtain ⟨s, hs⟩ := gridFit (K := ℝ) true 0 0
  obtain ⟨s', hs'⟩ := tinyFit true ε
  refine ⟨s, s', hs, hs', tinyNear h.le, ?_, tinyH h.ne' hs'⟩
  obtain ⟨tbl, h1, h2⟩ := C112_friedman_pair_zero true hs.setup hs.sortOvo hs.rows hs.returns
  obtain ⟨t, ht, row, hr, hp, huniq⟩ := the_row hs (f := 0) (f' := 1) (by show (0 : Fin 2) ∈ [0, 1]; decide)
    (by show (1 : Fin 2) ∈ [0, 1]; decide) (by decide)
  rw [h1] at ht
  cases ht
  have hv : row.val = .fin 0 := by
    rw [h2 row hr]
    exact ⟨0, fun r _ => by simp [pd1, pd2, average, gridX, gridU]⟩
  exact ⟨tbl, h1, ⟨row, hr, hp⟩, fun r2 hr2 hp2 => by rw [huniq r2 hr2 hp2, hv]⟩

/-- **C134 fails for the additivity index**: however small `ε > 0`, two models within `ε` of each other have the indices
1 and -3/2. -/
theorem C134_fails_additivity {ε : ℝ} (h : 0 < ε) : ∃ (m m' : AddMeter Nat Nat (Fin 4) ℤ ℝ),
    Near ⟨[0, 1, 2], exSame⟩ ε (fun r : Row (Fin 4) ℤ => ε * r 0) (fun r => ε * (r 0 * r 1 * r 2)) ∧
    AddMeter.fit exRng 3 (exAdd exSame (fun r => ε * r 0) [0, 1, 2]) (AddMeter.new 0) = (.ok (.fin 1), m) ∧
    AddMeter.fit exRng 3 (exAdd exSame (fun r => ε * (r 0 * r 1 * r 2)) [0, 1, 2]) (AddMeter.new 0) = (.ok (.fin (-3 / 2)), m') := by
  have hs := exAddSetup (invEnv (fun _ : Fin 4 => true)) (fun r => ε * (r 0 : ℝ)) (by
    intro r r' h; simp only [finM, h 0 (by decide)])
  have hs' := exAddSetup (invEnv (fun _ : Fin 4 => true)) (fun r => ε * ((r 0 : ℝ) * r 1 * r 2)) (by
    intro r r' h; simp only [finM, h 0 (by decide), h 1 (by decide), h 2 (by decide)])
  have hc : ∀ u : Row (Fin 4) ℤ → ℝ, PdpMethod.chooseCalc (exAdd exSame u [0, 1, 2]).toPd
      ⟨[0, 1], ⟨[0, 1, 2], exSame⟩⟩ (exAdd exSame u [0, 1, 2]).toPd.pf = .ok
      ⟨1, [0, 1], Calc.new (exAdd exSame u [0, 1, 2]).toPd.pf ⟨[0, 1, 2], exSame⟩ 3⟩ := by
    intro u
    simp only [PdpMethod.chooseCalc, AddArgs.toPd, exAdd]
  have hp : ∀ u : Row (Fin 4) ℤ → ℝ, NeverFails (exAdd exSame u [0, 1, 2]).toPd.pf := fun u n rows => ⟨_, rfl⟩
  obtain ⟨v, m, q⟩ := C22_fit_returns (cp := 3) hs (hc _) (hp _) (hp _)
  obtain ⟨v', m', q'⟩ := C22_fit_returns (cp := 3) hs' (hc _) (hp _) (hp _)
  obtain ⟨k, rfl, _, hk, _⟩ := C21_index_at_most_one_iff_first_order hs (by decide)
    ⟨fun _ => 0, by simp [exSame], fun _ => 1, by simp [exSame], by simp [h.ne]⟩ q
  obtain ⟨k', rfl, _, hk', _⟩ := C21_index_at_most_one_iff_first_order hs' (by decide)
    ⟨fun _ => 0, by simp [exSame], fun _ => 1, by simp [exSame], by simp [h.ne]⟩ q'
  have e1 : k = 1 := by
    rw [hk]
    simp [additivity, sumSq, centred, firstOrder, pd1, average, exSame, setF]
  have e2 : k' = -3 / 2 := by
    rw [hk']
    simp [additivity, sumSq, centred, firstOrder, pd1, average, exSame, setF]
    field_simp
    ring
  subst e1 e2
  refine ⟨m, m', ?_, q, q'⟩
  intro r hr
  have hv : ∀ f, r f = 0 ∨ r f = 1 := by
    intro f
    obtain ⟨r0, h0, e⟩ := hr f
    rw [e]
    simp only [exSame, List.mem_cons, List.not_mem_nil, or_false] at h0
    rcases h0 with rfl | rfl <;> simp
  rcases hv 0 with h0 | h0 <;> rcases hv 1 with h1 | h1 <;> rcases hv 2 with h2 | h2 <;>
    simp [h0, h1, h2, h.le, abs_of_pos h]

/-- C134 on the grid: the constant model 0 and `1/100 x y` -/
example : ∃ s s' : PdpMethod Nat Nat (Fin 2) ℤ ℝ,
    Fits (.friedman false) (gridU 0 0) gridEnv (gridArgs 0 0) (PdpMethod.new 0) gridX s ∧
    Fits (.friedman false) (tinyU (1 / 100)) gridEnv (tinyArgs (1 / 100)) (PdpMethod.new 0) gridX s' ∧
    (∃ k k' : ℝ, Shows s.ovo 0 1 (.fin k) ∧ Shows s'.ovo 0 1 (.fin k') ∧ |k' - k| ≤ 3 * (1 / 100)) ∧
    (∃ k k' : ℝ, ShowsOne s.ova 0 (.fin k) ∧ ShowsOne s'.ova 0 (.fin k') ∧ |k' - k| ≤ 3 * (1 / 100)) ∧
    (∃ k k' : ℝ, ShowsOne s.importance 1 (.fin k) ∧ ShowsOne s'.importance 1 (.fin k') ∧ |k' - k| ≤ 1 / 100) := by
  obtain ⟨s, h⟩ := gridFit (K := ℝ) false 0 0
  obtain ⟨s', h'⟩ := tinyFit false (1 / 100)
  have hn := tinyNear (ε := 1 / 100) (by norm_num)
  have m0 : ∀ f : Fin 2, f ∈ (gridArgs (K := ℝ) 0 0).feats := fun f => by show f ∈ [0, 1]; revert f; decide
  have m1 : ∀ f : Fin 2, f ∈ (tinyArgs (1 / 100)).feats := fun f => by show f ∈ [0, 1]; revert f; decide
  exact ⟨s, s', h, h', C134_unnormalized_H_partial h h' rfl hn (by decide) (m0 _) (m0 _) (m1 _) (m1 _),
    C134_unnormalized_ova_partial h h' rfl hn rfl rfl (m0 _) (m1 _),
    C134_importance h h' rfl hn rfl (m0 _) (m1 _)⟩

/-- C134 for Greenwell's method: `x y` and `x y + y` on the grid, within 1 of each other -/
example : ∃ s s' : PdpMethod Nat Nat (Fin 2) ℤ ℝ,
    Fits .greenwell (gridU 1 0) gridEnv (gridArgs 1 0) (PdpMethod.new 0) gridX s ∧
    Fits .greenwell (gridU 1 1) gridEnv (gridArgs 1 1) (PdpMethod.new 0) gridX s' ∧
    (∃ k k' : ℝ, Shows s.ovo 0 1 (.fin k) ∧ Shows s'.ovo 0 1 (.fin k') ∧ |k' - k| ≤ 2 * 1) := by
  obtain ⟨s, h⟩ := gridFitG (K := ℝ) 1 0
  obtain ⟨s', h'⟩ := gridFitG (K := ℝ) 1 1
  have hn : Near gridX.frame 1 (gridU (K := ℝ) 1 0) (gridU 1 1) := by
    intro r hr
    rcases gridX_mixes hr 1 with h1 | h1 <;> simp [gridU, h1]
  have m0 : ∀ a b, ∀ f : Fin 2, f ∈ (gridArgs (K := ℝ) a b).feats := fun a b f => by show f ∈ [0, 1]; revert f; decide
  exact ⟨s, s', h, h', C134_greenwell h h' rfl hn (fun _ => rfl) (by decide) (m0 _ _ _) (m0 _ _ _) (m0 _ _ _) (m0 _ _ _)⟩

/-- `x0 * x1 + 1/10` -/
noncomputable def offModel : ModelObj (Fin 3) ℤ (Num ℝ) where
  ident := 2
  predict := some (fun _ rows => .ok (rows.map (fun r => .fin (((r 0 * r 1 : ℤ) : ℝ) + 1 / 10))))
  predictProba := none

theorem offPredicts : PredictsRows offModel (fun r => ((r 0 * r 1 : ℤ) : ℝ) + 1 / 10) :=
  ⟨_, rfl, fun k rows => ⟨by simp [Function.comp_def], by simp⟩⟩

theorem offNear : Near exPerfX.frame (1 / 10 : ℝ) (fun r => ((r 0 * r 1 : ℤ) : ℝ)) (fun r => ((r 0 * r 1 : ℤ) : ℝ) + 1 / 10) :=
  fun r _ => by rw [add_sub_cancel_left, abs_of_pos (by norm_num)]

/-- C134 for the performance based methods: `x0 * x1` and `x0 * x1 + 1/10` -/
example : ∃ t t' o1 o2 c1 c2, PermObj.run (L := Nat) (stableSort FeatRow.val false) exRng exPerfModel exPerfX exPerfY 2
    (some [2, 0, 1]) (⟨0, rmseM, none⟩ : PermObj Nat (Fin 3) ℝ) [] = (.ok t, o1, c1) ∧
    PermObj.run (L := Nat) (stableSort FeatRow.val false) exRng offModel exPerfX exPerfY 2
    (some [2, 0, 1]) (⟨0, rmseM, none⟩ : PermObj Nat (Fin 3) ℝ) [] = (.ok t', o2, c2) ∧
    ∃ k k' : ℝ, ShowsOne (some t) 0 (.fin k) ∧ ShowsOne (some t') 0 (.fin k') ∧ |k' - k| ≤ 2 * (1 / 10) := by
  obtain ⟨t, t', o1, o2, c1, c2, h1, h2, h3⟩ := C134_permutation_importance (o := (⟨0, rmseM, none⟩ : PermObj Nat (Fin 3) ℝ))
    (X := exPerfX) (y := exPerfY) (fs := [2, 0, 1]) (n := 2)
    rfl exRng_lawful (sortsBy_stableSort FeatRow.val false) (sortsBy_stableSort FeatRow.val false) exPredicts offPredicts offNear
    (ts := [2, 0, 12]) rfl rfl (by simp [exPerfX]) (by simp [exPerfX]) (by simp) (by simp) [] []
  exact ⟨t, t', o1, o2, c1, c2, h1, h2, h3 0 (by simp)⟩

example : ∃ s s' t t', Sejong.fit (K := ℝ) exPerfEnv exSArgs 5 (Sejong.new 0 rmseM) = (.ok (), s) ∧
    Sejong.fit exPerfEnv { exSArgs with model := offModel } 6 (Sejong.new 0 rmseM) = (.ok (), s') ∧
    s.ovo = some t ∧ s'.ovo = some t' ∧ t.length = t'.length ∧
      ∀ row ∈ t, ∃ row' ∈ t', row'.f1 = row.f1 ∧ row'.f2 = row.f2 ∧
        ∃ k k' : ℝ, row.val = .fin k ∧ row'.val = .fin k' ∧ |k' - k| ≤ 4 * (1 / 10) := by
  obtain ⟨sc, hs⟩ := exPerfSetup 0
  exact C134_sejong hs rfl (sortsBy_stableSort _ _) exPredicts offPredicts offNear (ts := [2, 0, 12]) rfl rfl
    (by simp [exPerfX]) 5 6

/-- C134 for the values of partial dependence: after `calculate_pd_single()`, `calculate_pd_pairs()` and
`calculate_pd_minus_single()` of the two calculators -/
example : ∃ k k' : ℝ, (Calc.calculateSingle none (runOps (Calc.new (gridArgs (K := ℝ) 0 0).pf gridX.frame 7) [])).2.getSingle 0 [1] =
      .ok [.fin k] ∧
    (Calc.calculateSingle none (runOps (Calc.new (tinyArgs (1 / 100)).pf gridX.frame 2) [])).2.getSingle 0 [1] = .ok [.fin k'] ∧
    |k' - k| ≤ 1 / 100 :=
  C134_single_pd (gridSetup 0 0).rowWise (tinySetup (1 / 100)).rowWise (tinyNear (by norm_num)) (by simp [gridX]) 7 2 [] [] none none
    (C01_single_pd_returns (gridSetup 0 0).rowWise (gridNever 0 0) _ _ _ _ fun _ h => h)
    (C01_single_pd_returns (tinySetup _).rowWise (tinyNever _) _ _ _ _ fun _ h => h) (by decide) (by decide) (by decide)

example : ∃ k k' : ℝ, (Calc.calculatePairs none true (runOps (Calc.new (gridArgs (K := ℝ) 0 0).pf gridX.frame 7) [])).2.getPairs 0 1 [(1, 1)] =
      .ok [.fin k] ∧
    (Calc.calculatePairs none false (runOps (Calc.new (tinyArgs (1 / 100)).pf gridX.frame 2) [])).2.getPairs 0 1 [(1, 1)] = .ok [.fin k'] ∧
    |k' - k| ≤ 1 / 100 :=
  C134_pair_pd (gridSetup 0 0).rowWise (tinySetup (1 / 100)).rowWise (tinyNear (by norm_num)) (by simp [gridX]) (by decide) 7 2 [] []
    none none true false
    (C02_pair_pd_returns (gridSetup 0 0).rowWise (gridNever 0 0) _ _ _ _ _ (by decide) (by intro l h; cases h))
    (C02_pair_pd_returns (tinySetup _).rowWise (tinyNever _) _ _ _ _ _ (by decide) (by intro l h; cases h))
    (by decide) (by decide) (by decide) (by decide) (by decide) (r := ![1, 1]) (by simp [gridX])

example : ∃ ks ks' : List ℝ, (Calc.calculateMinus none (runOps (Calc.new (gridArgs (K := ℝ) 0 0).pf gridX.frame 7) [])).2.getMinus 0 =
      .ok (ks.map .fin) ∧
    (Calc.calculateMinus none (runOps (Calc.new (tinyArgs (1 / 100)).pf gridX.frame 2) [])).2.getMinus 0 = .ok (ks'.map .fin) ∧
    ks.length = gridX.frame.rows.length ∧ List.Forall₂ (fun k k' => |k' - k| ≤ 1 / 100) ks ks' :=
  C134_minus_pd (gridSetup 0 0).rowWise (tinySetup (1 / 100)).rowWise (tinyNear (by norm_num)) (by simp [gridX])
    (gridSetup 0 0).reads (tinySetup _).reads 7 2 [] [] none none
    (C03_minus_pd_returns (gridSetup 0 0).rowWise (gridNever 0 0) _ _ _ _ fun _ h => h)
    (C03_minus_pd_returns (tinySetup _).rowWise (tinyNever _) _ _ _ _ fun _ h => h) (by decide) (by decide)

end Cases
end Artemis
