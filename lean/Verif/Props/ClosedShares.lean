import Verif.Props.ClosedForms
import Verif.Props.UnusedCols
import Verif.Props.Additivity
import Verif.Proofs.IndepLemmas

/-!
# Property C174: normalized strengths and additivity index of a product term

The normalized H values and the additivity index of models whose formula is known, in terms of standard deviations of the data.
-/

set_option linter.unusedSectionVars false
set_option linter.unusedVariables false
set_option linter.unusedSimpArgs false

namespace Artemis
open Spec

section helpers
variable {F V K : Type} [DecidableEq F] [LinearOrder V] [Field K] [LinearOrder K] [IsStrictOrderedRing K] [HasSqrt K]

theorem length_ne_zero' {X : Frame F V} (hX : X.rows ≠ []) : (X.rows.length : K) ≠ 0 := by simpa using hX

/-- sum of squares of a quantity proportional to deviations -/
theorem sumSq_of_devs {X : Frame F V} (hX : X.rows ≠ []) {d : Row F V → K} {h β : K} (hh : IsPopStd (X.rows.map d) h)
    {i : Row F V → K} (hi : ∀ r ∈ X.rows, i r = β * (d r - average (X.rows.map d))) :
    sumSq X i = X.rows.length * (β * β * (h * h)) := by
  have es : sumSq X i = β * β * sumDev (X.rows.map d) := by
    unfold sumSq sumDev
    rw [List.map_map, ← List.sum_map_mul_left]
    congr 1
    refine List.map_congr_left fun r hr => ?_
    simp only [Function.comp]
    rw [hi r hr]
    ring
  have hn := length_ne_zero' (K := K) hX
  rw [es, hh.2, List.length_map]
  field_simp

theorem sumSq_centred_std {X : Frame F V} (hX : X.rows ≠ []) {w : Row F V → K} {e : K} (he : IsPopStd (X.rows.map w) e) :
    sumSq X (centred X w) = X.rows.length * (e * e) := by
  rw [sumSq_of_devs hX he (i := centred X w) (β := 1) (fun r _ => by rw [one_mul]; rfl)]
  ring

/-- the joint partial dependence of two features of a model that does not mix them with others -/
theorem pd2_own {u y : Row F V → K} {z : V → V → K} {X : Frame F V} (hX : X.rows ≠ []) {f g : F} (hne : f ≠ g)
    (hu : ∀ r, u r = z (r f) (r g) + y r) (hf : Ignores y f) (hg : Ignores y g) (v w : V) :
    pd2 u X f g v w = z v w + overRows X y := by
  unfold pd2 overRows
  have e : (X.rows.map fun r => u (setF (setF r g w) f v)) = X.rows.map fun r => z v w + y r :=
    List.map_congr_left fun r _ => by
      rw [hu, hf, hg]
      have e1 : setF (setF r g w) f v f = v := by simp [setF]
      have e2 : setF (setF r g w) f v g = w := by simp [setF, hne.symm]
      rw [e1, e2]
  rw [e, average_add _ (fun _ => z v w), average_const hX]

theorem centred_shift {X : Frame F V} (hX : X.rows ≠ []) (w : Row F V → K) (c : K) (r : Row F V) :
    centred X (fun r => w r + c) r = centred X w r := by
  unfold centred
  rw [average_add _ w (fun _ => c), average_const hX]
  ring

theorem firstOrder_lin (X : Frame F V) (u w : Row F V → K) (p q : K) (r : Row F V) :
    firstOrder (fun r => p * u r + q * w r) X r = p * firstOrder u X r + q * firstOrder w X r := by
  have ea : average (X.rows.map fun r => p * u r + q * w r) = p * average (X.rows.map u) + q * average (X.rows.map w) := by
    rw [average_add _ (fun r => p * u r), average_mul_left, average_mul_left]
  unfold firstOrder
  rw [ea]
  have es : (X.cols.map fun f => pd1 (fun r => p * u r + q * w r) X f (r f) - (p * average (X.rows.map u) + q * average (X.rows.map w))).sum =
      p * (X.cols.map fun f => pd1 u X f (r f) - average (X.rows.map u)).sum +
        q * (X.cols.map fun f => pd1 w X f (r f) - average (X.rows.map w)).sum := by
    rw [← List.sum_map_mul_left, ← List.sum_map_mul_left, ← List.sum_map_add]
    congr 1
    refine List.map_congr_left fun f _ => ?_
    rw [pd1_lin]
    ring
  rw [es]
  ring

/-- what the first-order reconstruction misses of a product -/
theorem firstOrder_product {X : Frame F V} (hX : X.rows ≠ []) (nd : X.cols.Nodup) {f g : F} (hne : f ≠ g) (hf : f ∈ X.cols)
    (hg : g ∈ X.cols) (φ ψ : V → K) (r : Row F V) :
    φ (r f) * ψ (r g) - firstOrder (fun r => φ (r f) * ψ (r g)) X r =
      (φ (r f) - overRows X fun r => φ (r f)) * (ψ (r g) - overRows X fun r => ψ (r g)) +
        average (coDeviations X (fun r => φ (r f)) fun r => ψ (r g)) := by
  have e1 : ∀ v, pd1 (fun r => φ (r f) * ψ (r g)) X f v = φ v * overRows X fun r => ψ (r g) := by
    intro v
    unfold pd1 overRows
    have e : (X.rows.map fun r => φ (setF r f v f) * ψ (setF r f v g)) = X.rows.map fun r => φ v * ψ (r g) :=
      List.map_congr_left fun r _ => by simp [setF, hne.symm]
    rw [e, average_mul_left]
  have e2 : ∀ w, pd1 (fun r => φ (r f) * ψ (r g)) X g w = (overRows X fun r => φ (r f)) * ψ w := by
    intro w
    unfold pd1 overRows
    have e : (X.rows.map fun r => φ (setF r g w f) * ψ (setF r g w g)) = X.rows.map fun r => φ (r f) * ψ w :=
      List.map_congr_left fun r _ => by simp [setF, hne]
    rw [e, average_mul_right]
  have e3 : ∀ h, h ≠ f → h ≠ g → ∀ v, pd1 (fun r => φ (r f) * ψ (r g)) X h v = average (X.rows.map fun r => φ (r f) * ψ (r g)) := by
    intro h h1 h2 v
    unfold pd1
    congr 1
    exact List.map_congr_left fun r _ => by simp [setF, h1.symm, h2.symm]
  have hc := average_coDev hX (fun r => φ (r f)) fun r => ψ (r g)
  set m := average (X.rows.map fun r => φ (r f) * ψ (r g)) with hm
  set mf := overRows X fun r => φ (r f) with hmf
  set mg := overRows X fun r => ψ (r g) with hmg
  have es : (X.cols.map fun h => pd1 (fun r => φ (r f) * ψ (r g)) X h (r h) - m) =
      X.cols.map fun h => (if h = f then φ (r f) * mg - m else 0) + if h = g then mf * ψ (r g) - m else 0 := by
    refine List.map_congr_left fun h _ => ?_
    by_cases h1 : h = f
    · subst h1
      rw [if_pos rfl, if_neg hne, e1, add_zero]
    · by_cases h2 : h = g
      · subst h2
        rw [if_neg h1, if_pos rfl, e2, zero_add]
      · rw [if_neg h1, if_neg h2, e3 h h1 h2, sub_self, add_zero]
  have single : ∀ (k : F) (_ : k ∈ X.cols) (c : K), (X.cols.map fun h => if h = k then c else 0).sum = c := by
    intro k hk c
    rw [List.sum_map_ite_eq, List.count_eq_one_of_mem nd hk]
    simp
  unfold firstOrder
  rw [es, List.sum_map_add, single f hf, single g hg, hc]
  ring

/-- sum of squares of deviations shifted by twice the mean -/
theorem sumSq_shifted {X : Frame F V} (hX : X.rows ≠ []) {w : Row F V → K} {d β : K} (hd : IsPopStd (X.rows.map w) d)
    {i : Row F V → K} (hi : ∀ r, i r = β * (w r + average (X.rows.map w))) :
    sumSq X i = X.rows.length * (β * β * (d * d + 4 * (average (X.rows.map w) * average (X.rows.map w)))) := by
  set c := average (X.rows.map w) with hc
  have h1 := sumSq_of_devs hX hd (β := 1) (i := fun r => w r - c) (fun r _ => by rw [one_mul])
  have hn := length_ne_zero' (K := K) hX
  have hsum : (X.rows.map w).sum = X.rows.length * c := by
    rw [hc, average, List.length_map]
    field_simp
  have e : sumSq X i = β * β * (sumSq X (fun r => w r - c) + (4 * c) * (X.rows.map w).sum) := by
    unfold sumSq
    rw [← List.sum_map_mul_left, ← List.sum_map_add, ← List.sum_map_mul_left]
    congr 1
    refine List.map_congr_left fun r _ => ?_
    rw [hi]
    ring
  rw [e, h1, hsum]
  ring

/-- an independent feature is uncorrelated with everything that ignores it -/
theorem mu_product_indep {X : Frame F V} (hX : X.rows ≠ []) {f : F} (hi : Independent X f) (p : V → K) {w : Row F V → K}
    (hw : Ignores w f) : average (X.rows.map fun r => p (r f) * w r) = overRows X (fun r => p (r f)) * overRows X w := by
  have h := mu_indep hX hi (fun r => p (r f) * w r)
  simp only [setF_same] at h
  have e : ∀ r s : Row F V, w (setF r f (s f)) = w r := fun r s => hw r (s f)
  simp only [e] at h
  have e2 : ∀ r, mu X (fun s => p (s f) * w r) = overRows X (fun r => p (r f)) * w r := fun r => average_mul_right _ _ _
  simp only [e2] at h
  rw [mu_mul] at h
  exact h.symm

end helpers

section closed
variable {F V G L K : Type} [DecidableEq F] [LinearOrder V] [DecidableEq L] [Field K] [LinearOrder K] [IsStrictOrderedRing K]
  [HasSqrt K] [LawfulSqrt K]
variable {E : PdEnv G F K} {a : PdArgs L F V K} {s0 s : PdpMethod G L F V K} {Xs : LFrame L F V} {u : Row F V → K}

theorem pair_interaction {f g : F} (hX : Xs.frame.rows ≠ []) (hne : f ≠ g) {β : K} {φ ψ : V → K} {x y : Row F V → K}
    (hu : ∀ r, u r = β * (φ (r f) * ψ (r g)) + (x r + y r)) (hx : Ignores x f) (hy : Ignores y g) (r : Row F V) :
    interaction u Xs.frame f g r = β * ((φ (r f) - overRows Xs.frame fun r => φ (r f)) *
      (ψ (r g) - overRows Xs.frame fun r => ψ (r g)) - average (coDeviations Xs.frame (fun r => φ (r f)) fun r => ψ (r g))) := by
  have e : u = fun r => β * (φ (r f) * ψ (r g)) + 1 * (x r + y r) := by
    funext r; rw [hu]; ring
  rw [e, interaction_lin Xs.frame (fun r => φ (r f) * ψ (r g)) (fun r => x r + y r), interaction_split_zero hX hne hx hy,
    interaction_product hX hne]
  ring

/-- **C174, pairs.** For `β φ(f) ψ(g) + ξ(f) + ω(g)`, plus anything that uses neither feature, the normalized value is `β² d² / e²`:
`d` the standard deviation of the product of the deviations of `φ` and `ψ`, `e` that of the part of the formula with the two features.
If that part is constant over the data the value is infinite or 0, depending on `β d`. The features may be related in any way. -/
theorem C174_normalized_H_of_a_product_term (h : Fits (.friedman true) u E a s0 Xs s) {f g : F} (hf : f ∈ a.feats) (hg : g ∈ a.feats)
    (hne : f ≠ g) {β : K} {φ ψ ξ ω : V → K} {y : Row F V → K}
    (hu : ∀ r, u r = β * (φ (r f) * ψ (r g)) + (ξ (r f) + ω (r g)) + y r) (hyf : Ignores y f) (hyg : Ignores y g) {d e : K}
    (hd : IsPopStd (coDeviations Xs.frame (fun r => φ (r f)) fun r => ψ (r g)) d)
    (he : IsPopStd (Xs.frame.rows.map fun r => β * (φ (r f) * ψ (r g)) + (ξ (r f) + ω (r g))) e) :
    (e ≠ 0 → Shows s.ovo f g (.fin (β * β * (d * d) / (e * e)))) ∧
    (e = 0 → Shows s.ovo f g (if β * d = 0 then .fin 0 else .pinf)) := by
  obtain ⟨x, hx, hv⟩ := shows_H h hf hg hne
  have hn := length_ne_zero' (K := K) h.rows
  have hi := pair_interaction (u := u) (x := fun r => ω (r g) + y r) (y := fun r => ξ (r f)) h.rows hne (fun r => by rw [hu]; ring)
    (fun r v => by
      have := hyf r v
      simp only [this]
      simp [setF, hne.symm]) (fun r v => by simp [setF, hne])
  have enum := sumSq_of_devs h.rows hd (i := interaction u Xs.frame f g) (β := β) (fun r _ => hi r)
  have eden : sumSq Xs.frame (centred Xs.frame fun r => pd2 u Xs.frame f g (r f) (r g)) = Xs.frame.rows.length * (e * e) := by
    rw [← sumSq_centred_std h.rows he]
    congr 1
    funext r
    rw [show (fun r : Row F V => pd2 u Xs.frame f g (r f) (r g)) =
        fun r => (β * (φ (r f) * ψ (r g)) + (ξ (r f) + ω (r g))) + overRows Xs.frame y from
      funext fun r => pd2_own (z := fun v w => β * (φ v * ψ w) + (ξ v + ω w)) h.rows hne hu hyf hyg _ _, centred_shift h.rows]
  simp only [HValue, if_true] at hv
  rw [enum, eden] at hv
  refine ⟨fun h0 => ?_, fun h0 => ?_⟩
  · have := hv.1 (mul_ne_zero hn (mul_ne_zero h0 h0))
    rw [mul_div_mul_left _ _ hn] at this
    rwa [this] at hx
  · subst h0
    have z : (Xs.frame.rows.length : K) * (0 * 0) = 0 := by ring
    by_cases hb : β * d = 0
    · rw [if_pos hb]
      have := hv.2.2 z (by rw [show β * β * (d * d) = (β * d) * (β * d) by ring, hb]; ring)
      rwa [this] at hx
    · rw [if_neg hb]
      have := hv.2.1 z (mul_ne_zero hn (by rw [show β * β * (d * d) = (β * d) * (β * d) by ring]; exact mul_ne_zero hb hb))
      rwa [this] at hx

/-- **C174, one versus all.** For `β φ(f) w`, `w` any function of the other features, plus anything that does not combine `f` with
them, the normalized value is `β² d² / e²`: `d` as before for `φ` and `w`, `e` the standard deviation of the predictions. -/
theorem C174_normalized_ova_of_a_product_term (h : Fits (.friedman true) u E a s0 Xs s) (ho : a.calculateOva = true) {f : F}
    (hf : f ∈ a.feats) {β : K} {φ : V → K} {w x y : Row F V → K} (hu : ∀ r, u r = β * (φ (r f) * w r) + (x r + y r)) (hw : Ignores w f)
    (hx : OnlyUses x f) (hy : Ignores y f) {d e : K} (hd : IsPopStd (coDeviations Xs.frame (fun r => φ (r f)) w) d)
    (he : IsPopStd (Xs.frame.rows.map u) e) :
    (e ≠ 0 → ShowsOne s.ova f (.fin (β * β * (d * d) / (e * e)))) ∧
    (e = 0 → ShowsOne s.ova f (if β * d = 0 then .fin 0 else .pinf)) := by
  obtain ⟨k, hk, hv⟩ := shows_Hova h ho hf
  have hn := length_ne_zero' (K := K) h.rows
  have hi : ∀ r, interactionOva u Xs.frame f r = β * ((φ (r f) - overRows Xs.frame fun r => φ (r f)) *
      (w r - overRows Xs.frame w) - average (coDeviations Xs.frame (fun r => φ (r f)) w)) := by
    intro r
    have e : u = fun r => β * (φ (r f) * w r) + 1 * (x r + y r) := by
      funext r; rw [hu]; ring
    rw [e, interactionOva_lin Xs.frame (fun r => φ (r f) * w r) (fun r => x r + y r), interactionOva_split_zero h.rows hx hy,
      interactionOva_product h.rows φ hw]
    ring
  have enum := sumSq_of_devs h.rows hd (i := interactionOva u Xs.frame f) (β := β) (fun r _ => hi r)
  have eden := sumSq_centred_std h.rows he
  simp only [HValue, if_true] at hv
  rw [enum, eden] at hv
  refine ⟨fun h0 => ?_, fun h0 => ?_⟩
  · have := hv.1 (mul_ne_zero hn (mul_ne_zero h0 h0))
    rw [mul_div_mul_left _ _ hn] at this
    rwa [this] at hk
  · subst h0
    have z : (Xs.frame.rows.length : K) * (0 * 0) = 0 := by ring
    by_cases hb : β * d = 0
    · rw [if_pos hb]
      have := hv.2.2 z (by rw [show β * β * (d * d) = (β * d) * (β * d) by ring, hb]; ring)
      rwa [this] at hk
    · rw [if_neg hb]
      have := hv.2.1 z (mul_ne_zero hn (by rw [show β * β * (d * d) = (β * d) * (β * d) by ring]; exact mul_ne_zero hb hb))
      rwa [this] at hk

/-- **C174, independent features.** If both features vary independently of all others, the normalized value of
`β φ(f) ψ(g) + p φ(f) + q ψ(g)`, plus anything that uses neither, is the share of the product:
`β²σ²τ² / (β²σ²τ² + (p + β ψ̄)²σ² + (q + β φ̄)²τ²)` with the means and standard deviations of `φ(f)` and `ψ(g)` over the data. -/
theorem C174_share_of_a_product_term (h : Fits (.friedman true) u E a s0 Xs s) {f g : F} (hf : f ∈ a.feats) (hg : g ∈ a.feats)
    (hne : f ≠ g) (jf : Independent Xs.frame f) (jg : Independent Xs.frame g) {β p q : K} {φ ψ : V → K} {y : Row F V → K}
    (hu : ∀ r, u r = β * (φ (r f) * ψ (r g)) + (p * φ (r f) + q * ψ (r g)) + y r) (hyf : Ignores y f) (hyg : Ignores y g) {σ τ : K}
    (hσ : IsPopStd (Xs.frame.rows.map fun r => φ (r f)) σ) (hτ : IsPopStd (Xs.frame.rows.map fun r => ψ (r g)) τ)
    {mf mg : K} (hmf : mf = overRows Xs.frame fun r => φ (r f)) (hmg : mg = overRows Xs.frame fun r => ψ (r g))
    (h0 : β * β * (σ * σ * (τ * τ)) + (p + β * mg) * (p + β * mg) * (σ * σ) + (q + β * mf) * (q + β * mf) * (τ * τ) ≠ 0) :
    Shows s.ovo f g (.fin (β * β * (σ * σ * (τ * τ)) / (β * β * (σ * σ * (τ * τ)) +
      (p + β * mg) * (p + β * mg) * (σ * σ) + (q + β * mf) * (q + β * mf) * (τ * τ)))) := by
  obtain ⟨x, hx, hv⟩ := shows_H h hf hg hne
  have hn := length_ne_zero' (K := K) h.rows
  have ψf : Ignores (fun r : Row F V => ψ (r g)) f := fun r v => by simp [setF, hne.symm]
  have φg : Ignores (fun r : Row F V => φ (r f)) g := fun r v => by simp [setF, hne]
  -- the numerator
  have hi := pair_interaction (u := u) (x := fun r => q * ψ (r g) + y r) (y := fun r => p * φ (r f)) h.rows hne (fun r => by rw [hu]; ring)
    (fun r v => by
      have := hyf r v
      simp only [this]
      simp [setF, hne.symm]) (fun r v => by simp [setF, hne])
  have cov : average (coDeviations Xs.frame (fun r => φ (r f)) fun r => ψ (r g)) = 0 := by
    rw [average_coDev h.rows, mu_product_indep h.rows jf φ ψf, sub_self]
  have enum : sumSq Xs.frame (interaction u Xs.frame f g) = Xs.frame.rows.length * (β * β * (σ * σ * (τ * τ))) := by
    have e1 : (Xs.frame.rows.map fun r => interaction u Xs.frame f g r * interaction u Xs.frame f g r) =
        Xs.frame.rows.map fun r => β * β * (((φ (r f) - mf) * (φ (r f) - mf)) * ((ψ (r g) - mg) * (ψ (r g) - mg))) :=
      List.map_congr_left fun r _ => by rw [hi r, cov, ← hmf, ← hmg]; ring
    have e2 := mu_product_indep h.rows jf (fun v => (φ v - mf) * (φ v - mf)) (w := fun r => (ψ (r g) - mg) * (ψ (r g) - mg))
      (fun r v => by simp [setF, hne.symm])
    have e3 : overRows Xs.frame (fun r => (φ (r f) - mf) * (φ (r f) - mf)) = σ * σ := by
      rw [hσ.2, hmf]
      simp only [overRows, sumDev, average, List.length_map, List.map_map]
      rfl
    have e4 : overRows Xs.frame (fun r => (ψ (r g) - mg) * (ψ (r g) - mg)) = τ * τ := by
      rw [hτ.2, hmg]
      simp only [overRows, sumDev, average, List.length_map, List.map_map]
      rfl
    rw [e3, e4, average, List.length_map, div_eq_iff hn] at e2
    rw [sumSq, e1, List.sum_map_mul_left, e2]
    ring
  -- the effects of the features by themselves
  have effect : ∀ {f g : F} {φ ψ : V → K} {p q : K} {σ : K}, f ≠ g →
      (∀ r, u r = β * (φ (r f) * ψ (r g)) + (p * φ (r f) + q * ψ (r g)) + y r) → Ignores y f →
      IsPopStd (Xs.frame.rows.map fun r => φ (r f)) σ →
      sumSq Xs.frame (centred Xs.frame fun r => pd1 u Xs.frame f (r f)) = Xs.frame.rows.length *
        ((p + β * overRows Xs.frame fun r => ψ (r g)) * (p + β * overRows Xs.frame fun r => ψ (r g)) * (σ * σ)) := by
    intro f g φ ψ p q σ hne hu hy hσ
    have e1 : ∀ v, pd1 u Xs.frame f v = (p + β * overRows Xs.frame fun r => ψ (r g)) * φ v +
        overRows Xs.frame fun r => q * ψ (r g) + y r := by
      intro v
      rw [pd1_slope (m := fun r => p + β * ψ (r g)) (y := fun r => q * ψ (r g) + y r) (φ := φ) h.rows (fun r => by rw [hu]; ring)
        (fun r v => by simp [setF, hne.symm]) (fun r v => by
          have := hy r v
          simp only [this]
          simp [setF, hne.symm])]
      congr 2
      unfold overRows
      rw [average_add _ (fun _ => p), average_const h.rows, average_mul_left]
    refine sumSq_of_devs h.rows hσ fun r _ => ?_
    rw [show (fun r : Row F V => pd1 u Xs.frame f (r f)) = fun r => (p + β * overRows Xs.frame fun r => ψ (r g)) * φ (r f) +
        overRows Xs.frame fun r => q * ψ (r g) + y r from funext fun r => e1 _, centred_shift h.rows]
    unfold centred
    rw [average_mul_left]
    ring
  have ef := effect hne hu hyf hσ
  have eg := effect (φ := ψ) (ψ := φ) (p := q) (q := p) hne.symm (fun r => by rw [hu]; ring) hyg hτ
  rw [← hmg] at ef
  rw [← hmf] at eg
  simp only [HValue, if_true] at hv
  rw [sumSq_joint h.rows jf jg hne, enum, ef, eg, ← mul_add, ← mul_add] at hv
  have := hv.1 (mul_ne_zero hn h0)
  rw [mul_div_mul_left _ _ hn] at this
  rwa [this] at hx

end closed

section meter
variable {F V G L K : Type} [DecidableEq F] [LinearOrder V] [DecidableEq L] [Field K] [LinearOrder K] [IsStrictOrderedRing K]
  [HasSqrt K] {E : PdEnv G F K} {a : AddArgs L F V K} {s0 s : AddMeter G L F V K} {Xs : LFrame L F V} {cp : F} {v : Num K}
  {u : Row F V → K}

/-- **C174, additivity index.** For one product term `β φ(f) ψ(g)` on top of a sum of functions of single columns the index is
`1 - β² (d² + 4 c²) / e²`: `d` as before, `c` the covariance of `φ(f)` and `ψ(g)` over the data, `e` the standard deviation of the
predictions. -/
theorem C174_additivity_index_of_a_product_term {hh : F → V → K} {c0 β : K} {φ ψ : V → K} {f g : F} (hne : f ≠ g)
    (hf : f ∈ Xs.frame.cols) (hg : g ∈ Xs.frame.cols)
    (hu : ∀ r, u r = β * (φ (r f) * ψ (r g)) + (c0 + (Xs.frame.cols.map (fun h => hh h (r h))).sum))
    (hs : AddSetup (finM u) E a s0 Xs) (hcp : cp ∉ Xs.frame.cols)
    (hnc : ∃ r ∈ Xs.frame.rows, ∃ r' ∈ Xs.frame.rows, u r ≠ u r') (hret : AddMeter.fit E.R cp a s0 = (.ok v, s)) {d e : K}
    (hd : IsPopStd (coDeviations Xs.frame (fun r => φ (r f)) fun r => ψ (r g)) d) (he : IsPopStd (Xs.frame.rows.map u) e)
    {c : K} (hc : c = average (coDeviations Xs.frame (fun r => φ (r f)) fun r => ψ (r g))) :
    v = .fin (1 - β * β * (d * d + 4 * (c * c)) / (e * e)) := by
  subst hc
  obtain ⟨k, h1, _, hk, _⟩ := C21_index_at_most_one_iff_first_order hs hcp hnc hret
  have hX : Xs.frame.rows ≠ [] := by obtain ⟨r, hr, _⟩ := hnc; exact List.ne_nil_of_mem hr
  have hn := length_ne_zero' (K := K) hX
  set w : Row F V → K := fun r => c0 + (Xs.frame.cols.map (fun h => hh h (r h))).sum with hw
  have ew : ∀ r, w r - firstOrder w Xs.frame r = 0 := by
    intro r
    have := sum_map_pd1 hX hs.cols_nodup (u := w) (hh := hh) (c := c0) (fun r => rfl) r
    rw [firstOrder, this]
    ring
  have eu : u = fun r => β * (φ (r f) * ψ (r g)) + 1 * w r := by
    funext r; rw [hu, one_mul]
  have er : ∀ r, u r - firstOrder u Xs.frame r = β * ((φ (r f) - overRows Xs.frame fun r => φ (r f)) *
      (ψ (r g) - overRows Xs.frame fun r => ψ (r g)) +
        average (coDeviations Xs.frame (fun r => φ (r f)) fun r => ψ (r g))) := by
    intro r
    rw [eu, firstOrder_lin Xs.frame (fun r => φ (r f) * ψ (r g)) w, ← firstOrder_product hX hs.cols_nodup hne hf hg φ ψ r]
    have := ew r
    linear_combination this
  have e1 := sumSq_shifted hX hd (β := β) (i := fun r => u r - firstOrder u Xs.frame r) er
  rw [h1, hk, additivity, e1, sumSq_centred_std hX he, mul_div_mul_left _ _ hn]
  rfl

end meter

/-! ## Cases -/

section Cases
open Ex

/-- C174 for `4 x y + 3 y` on the grid: the pair and the one-versus-all value of `x` show 16/25, by the general formula -/
example : ∃ s : PdpMethod Nat Nat (Fin 2) ℤ ℝ, Fits (.friedman true) (gridU 4 3) gridEnv (gridArgs 4 3) (PdpMethod.new 0) gridX s ∧
    Shows s.ovo 0 1 (.fin (16 / 25)) ∧ ShowsOne s.ova 0 (.fin (16 / 25)) := by
  obtain ⟨s, h⟩ := gridFit (K := ℝ) true 4 3
  have hd : IsPopStd (coDeviations gridX.frame (fun r => ((r 0 : ℤ) : ℝ)) fun r => ((r 1 : ℤ) : ℝ)) 1 := by
    rw [gridCo]
    norm_num [IsPopStd, sumDev, average]
  refine ⟨s, h, ?_, ?_⟩
  · have := (C174_normalized_H_of_a_product_term h (f := 0) (g := 1) (by show (0 : Fin 2) ∈ [0, 1]; decide)
      (by show (1 : Fin 2) ∈ [0, 1]; decide) (by decide) (β := 4) (φ := fun v => (v : ℝ)) (ψ := fun v => (v : ℝ)) (ξ := fun _ => 0)
      (ω := fun v => 3 * (v : ℝ)) (y := fun _ => 0) (fun r => by simp [gridU]) (fun r v => rfl) (fun r v => rfl) (e := 5) hd
      (by norm_num [IsPopStd, sumDev, average, gridX])).1 (by norm_num)
    norm_num at this
    exact this
  · have := (C174_normalized_ova_of_a_product_term h rfl (f := 0) (by show (0 : Fin 2) ∈ [0, 1]; decide) (β := 4)
      (φ := fun v => (v : ℝ)) (w := fun r => (r 1 : ℝ)) (x := fun _ => 0) (y := fun r => 3 * (r 1 : ℝ)) (fun r => by simp [gridU])
      (fun r v => by simp [setF]) (fun r r' _ => rfl) (fun r v => by simp [setF]) (e := 5) hd
      (by norm_num [IsPopStd, sumDev, average, gridX, gridU])).1 (by norm_num)
    norm_num at this
    exact this

/-- … and by the formula for independent features -/
example : ∃ s : PdpMethod Nat Nat (Fin 2) ℤ ℝ, Fits (.friedman true) (gridU 4 3) gridEnv (gridArgs 4 3) (PdpMethod.new 0) gridX s ∧
    Shows s.ovo 0 1 (.fin (16 / 25)) := by
  obtain ⟨s, h⟩ := gridFit (K := ℝ) true 4 3
  have hσ : ∀ f : Fin 2, IsPopStd (gridX.frame.rows.map fun r => ((r f : ℤ) : ℝ)) 1 := by
    refine Fin.forall_fin_two.2 ⟨?_, ?_⟩ <;> norm_num [IsPopStd, sumDev, average, gridX]
  have hm : ∀ f : Fin 2, (0 : ℝ) = overRows gridX.frame fun r => ((r f : ℤ) : ℝ) := by
    refine Fin.forall_fin_two.2 ⟨?_, ?_⟩ <;> norm_num [overRows, average, gridX]
  refine ⟨s, h, ?_⟩
  have := C174_share_of_a_product_term h (f := 0) (g := 1) (by show (0 : Fin 2) ∈ [0, 1]; decide)
    (by show (1 : Fin 2) ∈ [0, 1]; decide) (by decide) (by decide +kernel) (by decide +kernel) (β := 4) (p := 0) (q := 3)
    (φ := fun v => (v : ℝ)) (ψ := fun v => (v : ℝ)) (y := fun _ => 0) (fun r => by simp [gridU]) (fun r v => rfl) (fun r v => rfl)
    (hσ 0) (hσ 1) (hm 0) (hm 1) (by norm_num)
  norm_num at this
  exact this

/-- two equal columns with three values -/
def exDiag : LFrame Nat (Fin 2) ℤ := ⟨[0, 1, 2], ⟨[0, 1], [![0, 0], ![1, 1], ![2, 2]]⟩⟩

/-- `(x - y)²` -/
noncomputable def exDiagU (r : Row (Fin 2) ℤ) : ℝ := ((r 0 : ℝ) - r 1) * ((r 0 : ℝ) - r 1)

/-- C174 for `(x - y)²` with `x = y` in the data: infinite -/
example : ∃ s : PdpMethod Nat Nat (Fin 2) ℤ ℝ, Fits (.friedman true) exDiagU (invEnv (fun _ => true)) (invArgs exDiagU exDiag none)
      (PdpMethod.new 0) exDiag s ∧ Shows s.ovo 0 1 .pinf := by
  obtain ⟨s, h⟩ := invFits (.friedman true) (fun _ => true) exDiagU exDiag none
    (by intro r r' e; simp only [finM, exDiagU, e 0 (by decide), e 1 (by decide)]) (by decide)
    (by show [(0 : Fin 2), 1].Nodup; decide) (fun f hf => hf) (by simp [exDiag]) (by
      intro f _
      by_contra hc
      simp only [not_exists, not_and, not_not] at hc
      have : ∀ f : Fin 2, (∀ r ∈ exDiag.frame.rows, ∀ r' ∈ exDiag.frame.rows, r f = r' f) → False := by decide
      exact this f hc)
  have hco : coDeviations exDiag.frame (fun r => ((r 0 : ℤ) : ℝ)) (fun r => ((r 1 : ℤ) : ℝ)) = [1, 0, 1] := by
    norm_num [coDeviations, overRows, average, exDiag]
  have hd : IsPopStd (coDeviations exDiag.frame (fun r => ((r 0 : ℤ) : ℝ)) fun r => ((r 1 : ℤ) : ℝ)) (Real.sqrt (2 / 9)) := by
    refine ⟨Real.sqrt_nonneg _, ?_⟩
    rw [hco, Real.mul_self_sqrt (by norm_num)]
    norm_num [sumDev, average]
  refine ⟨s, h, ?_⟩
  have := (C174_normalized_H_of_a_product_term h (f := 0) (g := 1) (by show (0 : Fin 2) ∈ [0, 1]; decide)
    (by show (1 : Fin 2) ∈ [0, 1]; decide) (by decide) (β := -2) (φ := fun v => (v : ℝ)) (ψ := fun v => (v : ℝ))
    (ξ := fun v => (v : ℝ) * v) (ω := fun v => (v : ℝ) * v) (y := fun _ => 0) (fun r => by simp only [exDiagU]; ring) (fun r v => rfl)
    (fun r v => rfl) (e := 0) hd (by norm_num [IsPopStd, sumDev, average, exDiag])).2 rfl
  rwa [if_neg (mul_ne_zero (by norm_num) (Real.sqrt_ne_zero'.2 (by norm_num)))] at this

/-- two equal columns -/
def exTwins : List (Row (Fin 4) ℤ) := [![1, 1, 0, 0], ![-1, -1, 0, 0]]
def exTwinsU (r : Row (Fin 4) ℤ) : ℚ := ((r 0 * r 1 + 2 * r 0 : ℤ) : ℚ)

/-- all combinations of two signs -/
def exSigns : List (Row (Fin 4) ℤ) := [![1, 1, 0, 0], ![1, -1, 0, 0], ![-1, 1, 0, 0], ![-1, -1, 0, 0]]
def exSignsU (r : Row (Fin 4) ℤ) : ℚ := ((4 * (r 0 * r 1) + 3 * r 1 : ℤ) : ℚ)

theorem exTwinsSetup (E : PdEnv Nat (Fin 4) ℚ) : AddSetup (finM exTwinsU) E (exAdd exTwins exTwinsU [0, 1]) (AddMeter.new 0)
    ⟨[0, 1], ⟨[0, 1], exTwins⟩⟩ where
  sampled := rfl
  rowWise := by intro n rows ys h; cases h; rfl
  reads := by intro r r' h; simp only [finM, exTwinsU, h 0 (by decide), h 1 (by decide)]
  cols_nodup := by decide
  history := by intro co h; cases h

theorem exSignsSetup (E : PdEnv Nat (Fin 4) ℚ) : AddSetup (finM exSignsU) E (exAdd exSigns exSignsU [0, 1]) (AddMeter.new 0)
    ⟨[0, 1, 2, 3], ⟨[0, 1], exSigns⟩⟩ where
  sampled := rfl
  rowWise := by intro n rows ys h; cases h; rfl
  reads := by intro r r' h; simp only [finM, exSignsU, h 0 (by decide), h 1 (by decide)]
  cols_nodup := by decide
  history := by intro co h; cases h

/-- C174 for the additivity index of `4 x y + 3 y`, uncorrelated features: `1 - 16/25`, also when computed -/
example (E : PdEnv Nat (Fin 4) ℚ) (hE : E.R = exRng) :
    (AddMeter.fit exRng 3 (exAdd exSigns exSignsU [0, 1]) (AddMeter.new (G := Nat) (L := Nat) 0)).1 = .ok (.fin (9 / 25)) ∧
    (.fin (9 / 25) : Num ℚ) = .fin (1 - 4 * 4 * (1 * 1 + 4 * (0 * 0)) / (5 * 5)) := by
  have hr : (AddMeter.fit exRng 3 (exAdd exSigns exSignsU [0, 1]) (AddMeter.new (G := Nat) (L := Nat) 0)).1 = .ok (.fin (9 / 25)) := by
    decide +kernel
  refine ⟨hr, ?_⟩
  obtain ⟨s, hret⟩ := ret_of_fst hr
  rw [← hE] at hret
  have := C174_additivity_index_of_a_product_term (Xs := ⟨[0, 1, 2, 3], ⟨[0, 1], exSigns⟩⟩) (u := exSignsU) (cp := 3) (f := 0) (g := 1) (c0 := 0) (β := 4)
    (φ := fun v : ℤ => (v : ℚ)) (ψ := fun v : ℤ => (v : ℚ))
    (hh := fun (f : Fin 4) (v : ℤ) => if f = 1 then 3 * (v : ℚ) else 0) (by decide) (by decide) (by decide) (fun r => by simp [exSignsU])
    (exSignsSetup E) (by decide) (by decide +kernel) hret (d := 1) (e := 5) (c := 0) (by unfold IsPopStd; decide +kernel)
    (by unfold IsPopStd; decide +kernel) (by decide +kernel)
  exact this

/-- C174 for the additivity index of `x y + 2 x` with `x = y`: `1 - (0 + 4)/4` -/
example (E : PdEnv Nat (Fin 4) ℚ) (hE : E.R = exRng) :
    (AddMeter.fit exRng 3 (exAdd exTwins exTwinsU [0, 1]) (AddMeter.new (G := Nat) (L := Nat) 0)).1 = .ok (.fin 0) ∧
    (.fin 0 : Num ℚ) = .fin (1 - 1 * 1 * (0 * 0 + 4 * (1 * 1)) / (2 * 2)) := by
  have hr : (AddMeter.fit exRng 3 (exAdd exTwins exTwinsU [0, 1]) (AddMeter.new (G := Nat) (L := Nat) 0)).1 = .ok (.fin 0) := by
    decide +kernel
  refine ⟨hr, ?_⟩
  obtain ⟨s, hret⟩ := ret_of_fst hr
  rw [← hE] at hret
  have := C174_additivity_index_of_a_product_term (Xs := ⟨[0, 1], ⟨[0, 1], exTwins⟩⟩) (u := exTwinsU) (cp := 3) (f := 0) (g := 1) (c0 := 0) (β := 1)
    (φ := fun v : ℤ => (v : ℚ)) (ψ := fun v : ℤ => (v : ℚ))
    (hh := fun (f : Fin 4) (v : ℤ) => if f = 0 then 2 * (v : ℚ) else 0) (by decide) (by decide) (by decide) (fun r => by simp [exTwinsU])
    (exTwinsSetup E) (by decide) (by decide +kernel) hret (d := 0) (e := 2) (c := 1) (by unfold IsPopStd; decide +kernel)
    (by unfold IsPopStd; decide +kernel) (by decide +kernel)
  exact this

end Cases
end Artemis
