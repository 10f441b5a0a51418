import Verif.Props.Stability

/-!
# Property C172: what the strengths are for linear and product terms

The values a fit shows for a model whose formula is known: the slope times a spread computed from the data alone.
`φ` and `ψ` read a cell as a number; they may be any functions.
-/

set_option linter.unusedSectionVars false
set_option linter.unusedVariables false
set_option linter.unusedSimpArgs false

namespace Artemis
open Spec

namespace Spec
variable {F V K : Type} [DecidableEq F] [Field K] [LinearOrder K]

/-- the mean of a quantity over the data -/
def overRows (X : Frame F V) (w : Row F V → K) : K := average (X.rows.map w)

/-- the product of the deviations of two quantities from their means, row by row -/
def coDeviations (X : Frame F V) (p q : Row F V → K) : List K :=
  X.rows.map fun r => (p r - overRows X p) * (q r - overRows X q)

/-- the quantity never changes sign over the data -/
def OneSign (X : Frame F V) (w : Row F V → K) : Prop := (∀ r ∈ X.rows, 0 ≤ w r) ∨ ∀ r ∈ X.rows, w r ≤ 0

end Spec

section helpers
variable {F V K : Type} [DecidableEq F] [LinearOrder V] [Field K] [LinearOrder K] [IsStrictOrderedRing K] [HasSqrt K]

theorem average_mul_left {α : Type} (l : List α) (w : α → K) (c : K) : average (l.map fun i => c * w i) = c * average (l.map w) := by
  simp only [average, List.length_map, List.sum_map_mul_left]
  ring

theorem average_mul_right {α : Type} (l : List α) (w : α → K) (c : K) : average (l.map fun i => w i * c) = average (l.map w) * c := by
  simp only [average, List.length_map, List.sum_map_mul_right]
  ring

/-- the mean of the products of deviations -/
theorem average_coDev {X : Frame F V} (hX : X.rows ≠ []) (p q : Row F V → K) :
    average (coDeviations X p q) = average (X.rows.map fun r => p r * q r) - overRows X p * overRows X q := by
  have e : (coDeviations X p q) = X.rows.map fun r => (p r * q r + -(overRows X q) * p r) + (-(overRows X p) * q r + overRows X p * overRows X q) :=
    List.map_congr_left fun r _ => by ring
  rw [e, average_add _ (fun r => p r * q r + -(overRows X q) * p r), average_add _ (fun r => p r * q r),
    average_add _ (fun r => -(overRows X p) * q r), average_const hX, average_mul_left, average_mul_left]
  simp only [overRows]
  ring

theorem pd1_slope {u m y : Row F V → K} {X : Frame F V} {f : F} {φ : V → K} (hX : X.rows ≠ [])
    (hu : ∀ r, u r = m r * φ (r f) + y r) (hm : Ignores m f) (hy : Ignores y f) (v : V) :
    pd1 u X f v = overRows X m * φ v + overRows X y := by
  unfold pd1 overRows
  have e : (X.rows.map fun r => u (setF r f v)) = X.rows.map fun r => m r * φ v + y r :=
    List.map_congr_left fun r _ => by rw [hu, hm, hy]; simp [setF]
  rw [e, average_add _ (fun r => m r * φ v), average_mul_right]

theorem pd2_product {u y : Row F V → K} {X : Frame F V} {f g : F} {φ ψ : V → K} {β a b : K} (hX : X.rows ≠ []) (hne : f ≠ g)
    (hu : ∀ r, u r = β * (φ (r f) * ψ (r g)) + (a * φ (r f) + b * ψ (r g)) + y r) (hf : Ignores y f) (hg : Ignores y g) (v w : V) :
    pd2 u X f g v w = (β * φ v + b) * ψ w + (a * φ v + overRows X y) := by
  unfold pd2 overRows
  have e : (X.rows.map fun r => u (setF (setF r g w) f v)) =
      X.rows.map fun r => ((β * φ v + b) * ψ w + a * φ v) + y r :=
    List.map_congr_left fun r _ => by
      rw [hu, hf, hg]
      have e1 : setF (setF r g w) f v f = v := by simp [setF]
      have e2 : setF (setF r g w) f v g = w := by simp [setF, hne.symm]
      rw [e1, e2]
      ring
  rw [e, average_add _ (fun _ => (β * φ v + b) * ψ w + a * φ v), average_const hX]
  ring

theorem interaction_product {X : Frame F V} (hX : X.rows ≠ []) {f g : F} (hne : f ≠ g) (φ ψ : V → K) (r : Row F V) :
    interaction (fun r => φ (r f) * ψ (r g)) X f g r =
      (φ (r f) - overRows X fun r => φ (r f)) * (ψ (r g) - overRows X fun r => ψ (r g)) -
        average (coDeviations X (fun r => φ (r f)) fun r => ψ (r g)) := by
  have e2 : ∀ v w, pd2 (fun r => φ (r f) * ψ (r g)) X f g v w = φ v * ψ w := by
    intro v w
    unfold pd2
    have e : (X.rows.map fun r => φ (setF (setF r g w) f v f) * ψ (setF (setF r g w) f v g)) = X.rows.map fun _ => φ v * ψ w :=
      List.map_congr_left fun r _ => by simp [setF, hne.symm]
    rw [e, average_const hX]
  have e1 : ∀ v, pd1 (fun r => φ (r f) * ψ (r g)) X f v = φ v * overRows X fun r => ψ (r g) := by
    intro v
    unfold pd1 overRows
    have e : (X.rows.map fun r => φ (setF r f v f) * ψ (setF r f v g)) = X.rows.map fun r => φ v * ψ (r g) :=
      List.map_congr_left fun r _ => by simp [setF, hne.symm]
    rw [e, average_mul_left]
  have e1' : ∀ w, pd1 (fun r => φ (r f) * ψ (r g)) X g w = (overRows X fun r => φ (r f)) * ψ w := by
    intro w
    unfold pd1 overRows
    have e : (X.rows.map fun r => φ (setF r g w f) * ψ (setF r g w g)) = X.rows.map fun r => φ (r f) * ψ w :=
      List.map_congr_left fun r _ => by simp [setF, hne]
    rw [e, average_mul_right]
  rw [average_coDev hX]
  simp only [interaction, centred, e2, e1, e1']
  rw [average_mul_right, average_mul_left]
  simp only [overRows]
  ring

theorem interactionOva_product {X : Frame F V} (hX : X.rows ≠ []) {f : F} (φ : V → K) {w : Row F V → K} (hw : Ignores w f) (r : Row F V) :
    interactionOva (fun r => φ (r f) * w r) X f r =
      (φ (r f) - overRows X fun r => φ (r f)) * (w r - overRows X w) - average (coDeviations X (fun r => φ (r f)) w) := by
  have e1 : ∀ v, pd1 (fun r => φ (r f) * w r) X f v = φ v * overRows X w := by
    intro v
    unfold pd1 overRows
    have e : (X.rows.map fun r => φ (setF r f v f) * w (setF r f v)) = X.rows.map fun r => φ v * w r :=
      List.map_congr_left fun r _ => by rw [hw]; simp [setF]
    rw [e, average_mul_left]
  have e2 : pdNot (fun r => φ (r f) * w r) X f = fun ri => (overRows X fun r => φ (r f)) * w ri := by
    funext ri
    unfold pdNot overRows
    have e : (X.rows.map fun r => φ (setF ri f (r f) f) * w (setF ri f (r f))) = X.rows.map fun r => φ (r f) * w ri :=
      List.map_congr_left fun r _ => by rw [hw]; simp [setF]
    rw [e, average_mul_right]
  rw [average_coDev hX]
  simp only [interactionOva, centred, e1, e2]
  rw [average_mul_right, average_mul_left]
  simp only [overRows]
  ring

/-- the root of the mean square of `β` times the deviations of a list -/
theorem root_of_devs {X : Frame F V} {d : Row F V → K} {x h β : K} (hx : 0 ≤ x) (hh : IsPopStd (X.rows.map d) h)
    {i : Row F V → K} (hi : ∀ r, i r = β * (d r - average (X.rows.map d)))
    (e : x * x = (X.rows.map fun r => i r * i r).sum / X.rows.length) : x = |β| * h := by
  refine nonneg_root_unique hx (mul_nonneg (abs_nonneg _) hh.1) ?_
  have es : (X.rows.map fun r => i r * i r).sum = β * β * sumDev (X.rows.map d) := by
    unfold sumDev
    rw [List.map_map, ← List.sum_map_mul_left]
    congr 1
    refine List.map_congr_left fun r _ => ?_
    simp only [Function.comp]
    rw [hi]
    ring
  rw [e, es, mul_mul_mul_comm, abs_mul_abs_self, hh.2, List.length_map, mul_div_assoc]

theorem level_row {X : Frame F V} {f : F} {vs : List V} (h : Levels X f vs) {w : V → K} (hw : OneSign X fun r => w (r f)) :
    (∀ v ∈ vs, 0 ≤ w v) ∨ ∀ v ∈ vs, w v ≤ 0 := by
  rcases hw with hw | hw
  · left
    intro v hv
    obtain ⟨r, hr, rfl⟩ := (h.2 v).1 hv
    exact hw r hr
  · right
    intro v hv
    obtain ⟨r, hr, rfl⟩ := (h.2 v).1 hv
    exact hw r hr

/-- spread of conditional importances when the slope never changes sign -/
theorem condSpread_product {u y : Row F V → K} {X : Frame F V} {f g : F} {φ ψ : V → K} {β a b : K} (hX : X.rows ≠ []) (hne : f ≠ g)
    (hu : ∀ r, u r = β * (φ (r f) * ψ (r g)) + (a * φ (r f) + b * ψ (r g)) + y r) (hf : Ignores y f) (hg : Ignores y g)
    (hsign : OneSign X fun r => β * φ (r f) + b) {num : Bool} {s : K} (hs : IsCondSpread num u X f g s)
    {vs ws : List V} (hv : Levels X f vs) (hw : Levels X g ws) {σ τ : K} (hσ : IsSampleStd (vs.map φ) σ)
    (hτ : if num then IsSampleStd (ws.map ψ) τ else IsQuarterRange (ws.map ψ) τ) (hτ0 : 0 ≤ τ) : s = |β| * (σ * τ) := by
  obtain ⟨vs', ws', imp, hv', hw', hs, hi⟩ := hs
  have pv := levels_perm hv hv'
  have pw := levels_perm hw hw'
  have himp : ∀ v ∈ vs', imp v = |β * φ v + b| * τ := by
    intro v hvm
    have h1 := hi v hvm
    have e : (ws'.map fun w => pd2 u X f g v w) = (ws'.map ψ).map fun z => (β * φ v + b) * z + (a * φ v + overRows X y) := by
      rw [List.map_map]
      exact List.map_congr_left fun w _ => pd2_product hX hne hu hf hg v w
    have pm := (pw.map ψ).map fun z => (β * φ v + b) * z + (a * φ v + overRows X y)
    rw [e] at h1
    cases num
    · exact isQuarterRange_unique h1 (isQuarterRange_affine _ _ hτ) pm.symm
    · exact isSampleStd_unique h1 (isSampleStd_affine _ _ hτ) pm.symm
  have hlev := level_row hv' (w := fun v => β * φ v + b) hsign
  have key : ∀ ε : K, |ε| = 1 → (∀ v ∈ vs', |β * φ v + b| = ε * (β * φ v + b)) → s = |β| * (σ * τ) := by
    intro ε he h
    have e : vs'.map imp = (vs'.map φ).map fun z => (ε * β * τ) * z + ε * b * τ := by
      rw [List.map_map]
      refine List.map_congr_left fun v hv => ?_
      rw [himp v hv, h v hv]
      simp only [Function.comp]
      ring
    rw [e] at hs
    have := isSampleStd_unique hs (isSampleStd_affine (ε * β * τ) (ε * b * τ) hσ) ((pv.map φ).map _).symm
    rw [this, abs_mul, abs_mul, he, abs_of_nonneg hτ0]
    ring
  rcases hlev with h | h
  · exact key 1 abs_one fun v hv => by rw [abs_of_nonneg (h v hv), one_mul]
  · exact key (-1) (by simp) fun v hv => by rw [abs_of_nonpos (h v hv), neg_one_mul]

theorem quarterRange_nonneg {l : List K} {x : K} (h : IsQuarterRange l x) : 0 ≤ x := by
  obtain ⟨lo, h1, hi, h2, h3, rfl⟩ := h
  have := (h3 lo h1).2
  linarith

end helpers

section closed
variable {F V G L K : Type} [DecidableEq F] [LinearOrder V] [DecidableEq L] [Field K] [LinearOrder K] [IsStrictOrderedRing K]
  [HasSqrt K] [LawfulSqrt K]
variable {E : PdEnv G F K} {a : PdArgs L F V K} {s0 s : PdpMethod G L F V K} {Xs : LFrame L F V} {u : Row F V → K}

/-- **C172, importance.** If the model is linear in `φ` of one feature, its slope being any function of the other features, the
importance of the feature is the absolute mean slope times the spread of its distinct values (the population standard deviation,
a quarter of the range for a categorical feature). -/
theorem C172_importance_of_a_linear_term {kind : PdKind} (h : Fits kind u E a s0 Xs s) {f : F} (hf : f ∈ a.feats) {m y : Row F V → K}
    {φ : V → K} (hu : ∀ r, u r = m r * φ (r f) + y r) (hm : Ignores m f) (hy : Ignores y f) {vs : List V} {σ : K}
    (hv : Levels Xs.frame f vs) (hσ : if E.numeric f then IsPopStd (vs.map φ) σ else IsQuarterRange (vs.map φ) σ) :
    ShowsOne s.importance f (.fin (|overRows Xs.frame m| * σ)) := by
  obtain ⟨x, hx, ws, hw, hi⟩ := shows_importance h hf
  have e : ws.map (pd1 u Xs.frame f) = (ws.map φ).map fun z => overRows Xs.frame m * z + overRows Xs.frame y := by
    rw [List.map_map]
    exact List.map_congr_left fun v _ => pd1_slope h.rows hu hm hy v
  have pm := ((levels_perm hv hw).map φ).map fun z => overRows Xs.frame m * z + overRows Xs.frame y
  rw [e] at hi
  have : x = |overRows Xs.frame m| * σ := by
    split at hi
    · next hn => rw [if_pos hn] at hσ; exact isPopStd_unique hi (isPopStd_affine _ _ hσ) pm.symm
    · next hn => rw [if_neg hn] at hσ; exact isQuarterRange_unique hi (isQuarterRange_affine _ _ hσ) pm.symm
  rwa [this] at hx

/-- **C172, pairs, unnormalized H.** For a term `β φ(f) ψ(g)`, plus anything that does not combine the two features, the value is
`|β|` times the standard deviation of the product of the deviations. -/
theorem C172_H_of_a_product_term (h : Fits (.friedman false) u E a s0 Xs s) {f g : F} (hf : f ∈ a.feats) (hg : g ∈ a.feats) (hne : f ≠ g)
    {β : K} {φ ψ : V → K} {x y : Row F V → K} (hu : ∀ r, u r = β * (φ (r f) * ψ (r g)) + (x r + y r)) (hx : Ignores x f)
    (hy : Ignores y g) {d : K} (hd : IsPopStd (coDeviations Xs.frame (fun r => φ (r f)) fun r => ψ (r g)) d) :
    Shows s.ovo f g (.fin (|β| * d)) := by
  obtain ⟨k, hk, k0, e⟩ := shows_unnormalized h hf hg hne
  have hi : ∀ r, interaction u Xs.frame f g r = β * ((φ (r f) - overRows Xs.frame fun r => φ (r f)) *
      (ψ (r g) - overRows Xs.frame fun r => ψ (r g)) - average (coDeviations Xs.frame (fun r => φ (r f)) fun r => ψ (r g))) := by
    intro r
    have e : u = fun r => β * (φ (r f) * ψ (r g)) + 1 * (x r + y r) := by
      funext r; rw [hu]; ring
    rw [e, interaction_lin Xs.frame (fun r => φ (r f) * ψ (r g)) (fun r => x r + y r), interaction_split_zero h.rows hne hx hy,
      interaction_product h.rows hne]
    ring
  rwa [root_of_devs k0 hd hi e] at hk

/-- **C172, one versus all, unnormalized H.** For a term `β φ(f) w`, `w` any function of the other features, plus anything that
does not combine `f` with them, the value is `|β|` times the standard deviation of the product of the deviations. -/
theorem C172_ova_of_a_product_term (h : Fits (.friedman false) u E a s0 Xs s) (ho : a.calculateOva = true) {f : F} (hf : f ∈ a.feats)
    {β : K} {φ : V → K} {w x y : Row F V → K} (hu : ∀ r, u r = β * (φ (r f) * w r) + (x r + y r)) (hw : Ignores w f)
    (hx : OnlyUses x f) (hy : Ignores y f) {d : K} (hd : IsPopStd (coDeviations Xs.frame (fun r => φ (r f)) w) d) :
    ShowsOne s.ova f (.fin (|β| * d)) := by
  obtain ⟨k, hk, k0, e⟩ := shows_unnormalized_ova h ho hf
  have hi : ∀ r, interactionOva u Xs.frame f r = β * ((φ (r f) - overRows Xs.frame fun r => φ (r f)) *
      (w r - overRows Xs.frame w) - average (coDeviations Xs.frame (fun r => φ (r f)) w)) := by
    intro r
    have e : u = fun r => β * (φ (r f) * w r) + 1 * (x r + y r) := by
      funext r; rw [hu]; ring
    rw [e, interactionOva_lin Xs.frame (fun r => φ (r f) * w r) (fun r => x r + y r), interactionOva_split_zero h.rows hx hy,
      interactionOva_product h.rows φ hw]
    ring
  rwa [root_of_devs k0 hd hi e] at hk

/-- **C172, Greenwell.** For `β φ(f) ψ(g) + a φ(f) + b ψ(g)`, plus anything that uses neither feature: if neither effect changes
direction over the data, the value is `|β|` times the product of the two spreads of the distinct values - both sample standard
deviations if both features are numerical, and the mean of the two mixed products otherwise. -/
theorem C172_greenwell_of_a_product_term (h : Fits .greenwell u E a s0 Xs s) {f g : F} (hf : f ∈ a.feats) (hg : g ∈ a.feats) (hne : f ≠ g)
    {β p q : K} {φ ψ : V → K} {y : Row F V → K} (hu : ∀ r, u r = β * (φ (r f) * ψ (r g)) + (p * φ (r f) + q * ψ (r g)) + y r)
    (hyf : Ignores y f) (hyg : Ignores y g) (hsf : OneSign Xs.frame fun r => β * φ (r f) + q)
    (hsg : OneSign Xs.frame fun r => β * ψ (r g) + p) {vs ws : List V} (hv : Levels Xs.frame f vs) (hw : Levels Xs.frame g ws)
    {σf σg τf τg : K} (hσf : IsSampleStd (vs.map φ) σf) (hσg : IsSampleStd (ws.map ψ) σg)
    (hτf : if E.numeric f then IsSampleStd (vs.map φ) τf else IsQuarterRange (vs.map φ) τf)
    (hτg : if E.numeric g then IsSampleStd (ws.map ψ) τg else IsQuarterRange (ws.map ψ) τg) :
    Shows s.ovo f g (.fin (|β| * ((σf * τg + σg * τf) / 2))) := by
  obtain ⟨k, s1, s2, hk, h1, h2, rfl⟩ := shows_greenwell h hf hg hne
  have n1 : 0 ≤ τf := by
    split at hτf
    · exact hτf.2.1
    · exact quarterRange_nonneg hτf
  have n2 : 0 ≤ τg := by
    split at hτg
    · exact hτg.2.1
    · exact quarterRange_nonneg hτg
  have e1 := condSpread_product h.rows hne hu hyf hyg hsf h1 hv hw hσf hτg n2
  have e2 := condSpread_product (φ := ψ) (ψ := φ) (β := β) (a := q) (b := p) h.rows hne.symm
    (fun r => by rw [hu]; ring) hyg hyf hsg h2 hw hv hσg hτf n1
  have : |β| * ((σf * τg + σg * τf) / 2) = (s1 + s2) / 2 := by rw [e1, e2]; ring
  rw [this]
  exact hk

end closed

/-! ## Cases -/

section Cases
open Ex

theorem gridBothLevels (f : Fin 2) : Levels gridX.frame f [1, -1] := by
  refine ⟨by decide, fun v => ?_⟩
  have h : ∀ f : Fin 2, gridX.frame.rows.map (fun r => r f) = [1, 1, -1, -1] ∨ gridX.frame.rows.map (fun r => r f) = [1, -1, 1, -1] := by
    decide
  have e : (∃ r ∈ gridX.frame.rows, r f = v) ↔ v ∈ gridX.frame.rows.map (fun r => r f) := by simp [List.mem_map]
  rw [e]
  rcases h f with h | h <;> rw [h] <;> simp <;> tauto

theorem gridCo : coDeviations gridX.frame (fun r => ((r 0 : ℤ) : ℝ)) (fun r => ((r 1 : ℤ) : ℝ)) = [1, -1, -1, 1] := by
  have h0 : (overRows gridX.frame fun r => ((r 0 : ℤ) : ℝ)) = 0 := by
    simp [overRows, average, gridX]
  have h1 : (overRows gridX.frame fun r => ((r 1 : ℤ) : ℝ)) = 0 := by
    simp [overRows, average, gridX]
  unfold coDeviations
  rw [h0, h1]
  simp [gridX]

/-- C172 for `4 x y + 3 y` on the grid: the pair shows 4, the feature `y` has importance 3 -/
example : ∃ s : PdpMethod Nat Nat (Fin 2) ℤ ℝ, Fits (.friedman false) (gridU 4 3) gridEnv (gridArgs 4 3) (PdpMethod.new 0) gridX s ∧
    Shows s.ovo 0 1 (.fin 4) ∧ ShowsOne s.ova 0 (.fin 4) ∧ ShowsOne s.importance 1 (.fin 3) := by
  obtain ⟨s, h⟩ := gridFit (K := ℝ) false 4 3
  have hd : IsPopStd (coDeviations gridX.frame (fun r => ((r 0 : ℤ) : ℝ)) fun r => ((r 1 : ℤ) : ℝ)) 1 := by
    rw [gridCo]
    norm_num [IsPopStd, sumDev, average]
  refine ⟨s, h, ?_, ?_, ?_⟩
  · have := C172_H_of_a_product_term h (f := 0) (g := 1) (by show (0 : Fin 2) ∈ [0, 1]; decide) (by show (1 : Fin 2) ∈ [0, 1]; decide)
      (by decide) (β := 4) (φ := fun v => (v : ℝ)) (ψ := fun v => (v : ℝ)) (x := fun r => 3 * (r 1 : ℝ)) (y := fun _ => 0)
      (fun r => by simp [gridU]) (fun r v => by simp [setF]) (fun r v => rfl) hd
    simpa using this
  · have := C172_ova_of_a_product_term h rfl (f := 0) (by show (0 : Fin 2) ∈ [0, 1]; decide) (β := 4) (φ := fun v => (v : ℝ))
      (w := fun r => (r 1 : ℝ)) (x := fun _ => 0) (y := fun r => 3 * (r 1 : ℝ)) (fun r => by simp [gridU])
      (fun r v => by simp [setF]) (fun r r' _ => rfl) (fun r v => by simp [setF]) hd
    simpa using this
  · have := C172_importance_of_a_linear_term h (f := 1) (by show (1 : Fin 2) ∈ [0, 1]; decide) (m := fun r => 4 * (r 0 : ℝ) + 3)
      (y := fun _ => 0) (φ := fun v => (v : ℝ)) (fun r => by simp [gridU]; ring) (fun r v => by simp [setF]) (fun r v => rfl)
      (gridBothLevels 1) (σ := 1) (by
        show IsPopStd _ _
        norm_num [IsPopStd, sumDev, average])
    have e : overRows gridX.frame (fun r => 4 * (r 0 : ℝ) + 3) = 3 := by
      norm_num [overRows, average, gridX]
    rw [e] at this
    simpa using this

/-- `(x + 2) (y + 2)`: neither effect changes direction on the grid -/
noncomputable def gridTilted (r : Row (Fin 2) ℤ) : ℝ := ((r 0 : ℝ) + 2) * ((r 1 : ℝ) + 2)

/-- C172 for Greenwell's method: the value is 1 times √2 times √2 (while `x y`, whose effects change direction, shows 0:
`C114_fails_greenwell`) -/
example : ∃ s : PdpMethod Nat Nat (Fin 2) ℤ ℝ, Fits .greenwell gridTilted (invEnv (fun _ => true)) (invArgs gridTilted gridX none)
      (PdpMethod.new 0) gridX s ∧ Shows s.ovo 0 1 (.fin 2) := by
  obtain ⟨s, h⟩ := invFits .greenwell (fun _ => true) gridTilted gridX none
    (by intro r r' e; simp only [finM, gridTilted, e 0 (by decide), e 1 (by decide)]) (by decide)
    (by show [(0 : Fin 2), 1].Nodup; decide) (fun f hf => hf) (by simp [gridX]) (by
      intro f _
      by_contra hc
      simp only [not_exists, not_and, not_not] at hc
      have : ∀ f : Fin 2, (∀ r ∈ gridX.frame.rows, ∀ r' ∈ gridX.frame.rows, r f = r' f) → False := by decide
      exact this f hc)
  have hσ : IsSampleStd (([1, -1] : List ℤ).map fun v : ℤ => (v : ℝ)) (Real.sqrt 2) := by
    refine ⟨by simp, Real.sqrt_nonneg _, ?_⟩
    rw [Real.mul_self_sqrt (by norm_num)]
    norm_num [sumDev, average]
  have hsign : ∀ f : Fin 2, OneSign gridX.frame fun r => 1 * ((r f : ℤ) : ℝ) + 2 := by
    intro f
    left
    have : ∀ f : Fin 2, ∀ r ∈ gridX.frame.rows, 0 ≤ r f + 2 := by decide
    intro r hr
    have := this f r hr
    show (0 : ℝ) ≤ 1 * ((r f : ℤ) : ℝ) + 2
    rw [one_mul]
    exact_mod_cast this
  refine ⟨s, h, ?_⟩
  have := C172_greenwell_of_a_product_term h (f := 0) (g := 1) (by show (0 : Fin 2) ∈ [0, 1]; decide)
    (by show (1 : Fin 2) ∈ [0, 1]; decide) (by decide) (β := 1) (p := 2) (q := 2) (φ := fun v => (v : ℝ)) (ψ := fun v => (v : ℝ))
    (y := fun _ => 4) (fun r => by simp only [gridTilted]; ring) (fun r v => rfl) (fun r v => rfl) (hsign 0) (hsign 1)
    (gridBothLevels 0) (gridBothLevels 1) hσ hσ hσ hσ
  have e : |(1 : ℝ)| * ((Real.sqrt 2 * Real.sqrt 2 + Real.sqrt 2 * Real.sqrt 2) / 2) = 2 := by
    rw [Real.mul_self_sqrt (by norm_num)]
    norm_num
  rwa [e] at this

end Cases
end Artemis
