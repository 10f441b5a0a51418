import Verif.Props.Shares
import Verif.Props.UnusedCols

/-!
# Property C138: pairwise strength, one-versus-all strength and additivity index agree

Setting of `Verif/Props/Invariance.lean` (`Fits`: a returning `fit` on non-empty data with finite predictions; `Shows`,
`ShowsOne`: the value a table shows for a pair, for a feature) and of `Verif/Props/Additivity.lean`.
-/

set_option linter.unusedSectionVars false
set_option linter.unusedVariables false
set_option linter.unusedSimpArgs false

namespace Artemis
open Spec

/-- the model uses no features but `f` and `g` -/
def Spec.OnlyUses2 {F V α : Type} (u : Row F V → α) (f g : F) : Prop := ∀ r r' : Row F V, r f = r' f → r g = r' g → u r = u r'

/-- `f` interacts with `g` at most: the model is a part that depends on `f` and `g` only plus a part without `f` -/
def Spec.OnlyPartner {F V K : Type} [DecidableEq F] [Field K] (u : Row F V → K) (f g : F) : Prop :=
  ∃ (A : V → V → K) (B : Row F V → K), Ignores B f ∧ ∀ r, u r = A (r f) (r g) + B r

section helpers
variable {F V K : Type} [DecidableEq F] [Field K] [LinearOrder K] [IsStrictOrderedRing K]
variable {X : Frame F V} {u : Row F V → K} {f g : F}

theorem interaction_centred (u : Row F V → K) (X : Frame F V) (f g : F) (r : Row F V) : interaction u X f g r =
    centred X (fun r => pd2 u X f g (r f) (r g) - pd1 u X f (r f) - pd1 u X g (r g)) r := by
  simp only [interaction, centred_mu, mu_sub]
  ring

theorem interactionOva_centred (u : Row F V → K) (X : Frame F V) (f : F) (r : Row F V) : interactionOva u X f r =
    centred X (fun r => u r - pd1 u X f (r f) - pdNot u X f r) r := by
  simp only [interactionOva, centred_mu, mu_sub]
  ring

theorem partner_interaction (hX : X.rows ≠ []) (hfg : f ≠ g) (h : OnlyPartner u f g) :
    sumSq X (interactionOva u X f) = sumSq X (interaction u X f g) := by
  obtain ⟨A, B, hB, hu⟩ := h
  have e : ∀ r, u r - pd1 u X f (r f) - pdNot u X f r = pd2 u X f g (r f) (r g) - pd1 u X f (r f) - pd1 u X g (r g) := by
    intro r
    have e2 : pd2 u X f g (r f) (r g) = A (r f) (r g) + mu X (fun q => B (setF q g (r g))) := by
      rw [pd2_mu, mu_congr X (w := fun q => A (r f) (r g) + B (setF q g (r g))), mu_add, mu_const hX]
      intro q
      rw [hu, hB, setF_same, setF_other _ _ hfg.symm, setF_same]
    have e1 : pd1 u X g (r g) = mu X (fun q => A (q f) (r g)) + mu X (fun q => B (setF q g (r g))) := by
      rw [pd1_mu, ← mu_add]
      apply mu_congr
      intro q
      rw [hu, setF_same, setF_other _ _ hfg]
    have e0 : pdNot u X f r = mu X (fun q => A (q f) (r g)) + B r := by
      rw [pdNot_mu, mu_congr X (w := fun q => A (q f) (r g) + B r), mu_add, mu_const hX]
      intro q
      rw [hu, hB, setF_same, setF_other _ _ hfg.symm]
    rw [e2, e1, e0, hu r]
    ring
  have e' : interactionOva u X f = interaction u X f g := by
    funext r
    rw [interactionOva_centred, interaction_centred]
    simp only [e]
  rw [e']

theorem pd2_only (hX : X.rows ≠ []) (hfg : f ≠ g) (h : OnlyUses2 u f g) (r : Row F V) : pd2 u X f g (r f) (r g) = u r := by
  rw [pd2_mu, mu_congr X (w := fun _ => u r), mu_const hX]
  intro q
  apply h
  · rw [setF_same]
  · rw [setF_other _ _ hfg.symm, setF_same]

theorem onlyUses2_partner (hX : X.rows ≠ []) (h : OnlyUses2 u f g) : OnlyPartner u f g := by
  obtain ⟨r0, _⟩ := List.exists_mem_of_ne_nil _ hX
  refine ⟨fun v w => u (setF (setF r0 g w) f v), fun _ => 0, fun _ _ => rfl, fun r => ?_⟩
  rw [add_zero]
  by_cases hfg : f = g
  · subst hfg
    exact h _ _ (by rw [setF_same]) (by rw [setF_same])
  · exact h _ _ (by rw [setF_same]) (by rw [setF_other _ _ (Ne.symm hfg), setF_same])

theorem onlyUses2_comm (h : OnlyUses2 u f g) : OnlyUses2 u g f := fun r r' a b => h r r' b a

theorem pd1_unused (h : OnlyUses2 u f g) {c : F} (hf : c ≠ f) (hg : c ≠ g) (v : V) : pd1 u X c v = average (X.rows.map u) := by
  rw [pd1_mu]
  exact mu_congr X (fun q => h _ _ (setF_other _ _ hf.symm) (setF_other _ _ hg.symm))

theorem firstOrder_two (hnd : X.cols.Nodup) (hf : f ∈ X.cols) (hg : g ∈ X.cols) (hfg : f ≠ g) (h : OnlyUses2 u f g) (r : Row F V) :
    firstOrder u X r = pd1 u X f (r f) + pd1 u X g (r g) - average (X.rows.map u) := by
  have e : (X.cols.map (fun c => pd1 u X c (r c) - average (X.rows.map u))).sum =
      (pd1 u X f (r f) - average (X.rows.map u)) + (pd1 u X g (r g) - average (X.rows.map u)) := by
    rw [← List.sum_toFinset _ hnd, ← Finset.sum_pair (f := fun c => pd1 u X c (r c) - average (X.rows.map u)) hfg]
    symm
    apply Finset.sum_subset
    · intro x hx
      rcases Finset.mem_insert.1 hx with rfl | hx
      · exact List.mem_toFinset.2 hf
      · rw [Finset.mem_singleton.1 hx]; exact List.mem_toFinset.2 hg
    · intro c _ hc
      rw [pd1_unused h (fun e => hc (by simp [e])) (fun e => hc (by simp [e])), sub_self]
  rw [firstOrder, e]
  ring

theorem sumSq_eq_centred (hX : X.rows ≠ []) (w : Row F V → K) :
    sumSq X w = sumSq X (centred X w) + X.rows.length * (mu X w * mu X w) := by
  have h1 := sum_of_mu X hX (fun r => w r * w r)
  have h2 := sum_of_mu X hX (fun r => centred X w r * centred X w r)
  have e : mu X (fun r => centred X w r * centred X w r) = mu X (fun r => w r * w r) - mu X w * mu X w := by
    have : ∀ r, centred X w r * centred X w r = w r * w r - (2 * mu X w * w r - mu X w * mu X w) := by
      intro r; rw [centred_mu]; ring
    rw [mu_congr X this, mu_sub, mu_sub, mu_mul, mu_const hX]
    ring
  unfold sumSq
  rw [h1, h2, e]
  ring

/-- the residual of the first-order reconstruction, up to its mean, is the interaction of the pair -/
theorem residual_two (hX : X.rows ≠ []) (hnd : X.cols.Nodup) (hf : f ∈ X.cols) (hg : g ∈ X.cols) (hfg : f ≠ g)
    (h : OnlyUses2 u f g) : sumSq X (fun r => u r - firstOrder u X r) = sumSq X (interaction u X f g) +
      X.rows.length * (mu X (fun r => u r - firstOrder u X r) * mu X (fun r => u r - firstOrder u X r)) := by
  rw [sumSq_eq_centred hX]
  congr 1
  apply congrArg
  funext r
  rw [interaction_centred]
  simp only [centred_mu, pd2_only hX hfg h, firstOrder_two hnd hf hg hfg h, mu_sub, mu_add, mu_const hX]
  ring

end helpers

section C138
variable {F V K G L : Type} [DecidableEq F] [LinearOrder V] [Field K] [LinearOrder K] [IsStrictOrderedRing K] [HasSqrt K]
  [LawfulSqrt K] [DecidableEq L]
variable {E : PdEnv G F K} {a : PdArgs L F V K} {s0 s : PdpMethod G L F V K} {Xs : LFrame L F V} {u : Row F V → K} {f g : F}

/-- **C138**, one partner: if a feature interacts with at most one other, its unnormalized one-versus-all strength is its
unnormalized strength with that one. -/
theorem C138_one_partner (h : Fits (.friedman false) u E a s0 Xs s) (ho : a.calculateOva = true) (hf : f ∈ a.feats)
    (hg : g ∈ a.feats) (hfg : f ≠ g) (hu : OnlyPartner u f g) : ∃ x, ShowsOne s.ova f x ∧ Shows s.ovo f g x := by
  obtain ⟨x, hx, vx⟩ := shows_Hova h ho hf
  obtain ⟨y, hy, vy⟩ := shows_H h hf hg hfg
  rw [partner_interaction h.rows hfg hu] at vx
  have e : x = y := hValue_unique (n := false) (den := 0) vx vy
  exact ⟨y, e ▸ hx, hy⟩

/-- **C138**, two features: if the model uses two features only, both have the one-versus-all strength that they have as a
pair, normalized or not. -/
theorem C138_two_features {n : Bool} (h : Fits (.friedman n) u E a s0 Xs s) (ho : a.calculateOva = true) (hf : f ∈ a.feats)
    (hg : g ∈ a.feats) (hfg : f ≠ g) (hu : OnlyUses2 u f g) :
    ∃ x, Shows s.ovo f g x ∧ ShowsOne s.ova f x ∧ ShowsOne s.ova g x := by
  obtain ⟨x, hx, vx⟩ := shows_Hova h ho hf
  obtain ⟨z, hz, vz⟩ := shows_Hova h ho hg
  obtain ⟨y, hy, vy⟩ := shows_H h hf hg hfg
  obtain ⟨w, hw, vw⟩ := shows_H h hg hf hfg.symm
  rw [partner_interaction h.rows hfg (onlyUses2_partner h.rows hu)] at vx
  rw [partner_interaction h.rows hfg.symm (onlyUses2_partner h.rows (onlyUses2_comm hu))] at vz
  simp only [pd2_only h.rows hfg hu] at vy
  simp only [pd2_only h.rows hfg.symm (onlyUses2_comm hu)] at vw
  have e1 : x = y := hValue_unique vx vy
  have e2 : z = w := hValue_unique vz vw
  have e3 : w = y := by
    obtain ⟨t, a1, ⟨r, b1, b2⟩, a2⟩ := hw
    obtain ⟨t', a1', _, a2'⟩ := hy
    rw [a1] at a1'
    cases a1'
    rw [← a2 r b1 b2, a2' r b1 (isPair_comm b2)]
  exact ⟨y, hy, e1 ▸ hx, e3 ▸ e2 ▸ hz⟩

/-- **C138**, additivity: if the model uses two features only and is not constant on the data, the additivity index and
the normalized strength of the pair add up to at most 1, … -/
theorem C138_additivity (h : Fits (.friedman true) u E a s0 Xs s) {E' : PdEnv G F K} {A : AddArgs L F V K}
    {m0 m : AddMeter G L F V K} {cp : F} {v : Num K} (hs : AddSetup (finM u) E' A m0 Xs) (hcp : cp ∉ Xs.frame.cols)
    (hnc : ∃ r ∈ Xs.frame.rows, ∃ r' ∈ Xs.frame.rows, u r ≠ u r') (hret : AddMeter.fit E'.R cp A m0 = (.ok v, m))
    (hf : f ∈ a.feats) (hg : g ∈ a.feats) (hfc : f ∈ Xs.frame.cols) (hgc : g ∈ Xs.frame.cols) (hfg : f ≠ g)
    (hu : OnlyUses2 u f g) : ∃ x k : K, Shows s.ovo f g (.fin x) ∧ v = .fin k ∧ x + k ≤ 1 ∧
      (Independent Xs.frame f → Independent Xs.frame g → x + k = 1) := by
  obtain ⟨k, hv, _, hk, _⟩ := C21_index_at_most_one_iff_first_order hs hcp hnc hret
  obtain ⟨r, hr, r', hr', hne⟩ := hnc
  have hpos := sumSq_centred_pos hr hr' hne
  obtain ⟨y, hy, vy⟩ := shows_H h hf hg hfg
  simp only [pd2_only h.rows hfg hu, HValue, if_true] at vy
  have vy := vy.1 hpos.ne'
  have hres := residual_two h.rows h.setup.cols_nodup hfc hgc hfg hu
  refine ⟨_, k, vy ▸ hy, hv, ?_, ?_⟩
  · rw [hk, additivity, hres, add_div]
    have : 0 ≤ Xs.frame.rows.length * (mu Xs.frame (fun r => u r - firstOrder u Xs.frame r) * mu Xs.frame (fun r => u r - firstOrder u Xs.frame r)) /
        sumSq Xs.frame (centred Xs.frame u) :=
      div_nonneg (mul_nonneg (Nat.cast_nonneg _) (mul_self_nonneg _)) hpos.le
    linarith
  · intro i1 i2
    have z : mu Xs.frame (fun r => u r - firstOrder u Xs.frame r) = 0 := by
      simp only [firstOrder_two h.setup.cols_nodup hfc hgc hfg hu, mu_sub, mu_add, mu_pd1 h.rows i1, mu_pd1 h.rows i2, mu_const h.rows]
      rw [show average (Xs.frame.rows.map u) = mu Xs.frame u from rfl]
      ring
    rw [hk, additivity, hres, z]
    ring

end C138

section Cases
open Ex

theorem thirdTwo : OnlyUses2 thirdU 0 1 := by
  intro r r' a b
  simp only [thirdU, a, b]

/-- C138: `x y + y` on the grid with a third column -/
example (n : Bool) : ∃ s : PdpMethod Nat Nat (Fin 3) ℤ ℝ,
    Fits (.friedman n) thirdU thirdEnv (thirdArgs ![0, 1, 2, 3]) (PdpMethod.new 0) (thirdX ![0, 1, 2, 3]) s ∧
    ∃ x, Shows s.ovo 0 1 x ∧ ShowsOne s.ova 0 x ∧ ShowsOne s.ova 1 x := by
  obtain ⟨s, h⟩ := thirdFit n ![0, 1, 2, 3]
  have m : ∀ c, ∀ f : Fin 3, f ∈ (thirdArgs c).feats := fun c f => by show f ∈ [0, 1, 2]; revert f; decide
  exact ⟨s, h, C138_two_features h rfl (m _ _) (m _ _) (by decide) thirdTwo⟩

/-- feature 0 of `x y + z` interacts with feature 1 only -/
example : OnlyPartner (fun r : Row (Fin 3) ℤ => ((r 0 * r 1 : ℤ) : ℚ) + (r 2 : ℚ)) 0 1 :=
  ⟨fun v w => ((v * w : ℤ) : ℚ), fun r => (r 2 : ℚ), fun r v => by simp [setF], fun r => rfl⟩

noncomputable def agreeU (r : Row (Fin 4) ℤ) : ℝ := ((r 0 * r 1 : ℤ) : ℝ)

noncomputable def agreeEnv : PdEnv Nat (Fin 4) ℝ where
  R := exRng
  sortOvo := stableSort OvoRow.val false
  sortFeat := stableSort FeatRow.val false
  numeric := fun _ => true

/-- the hypotheses of the claim on the additivity index hold for `x y` on data in which both columns are equal -/
example : ∃ (s : PdpMethod Nat Nat (Fin 4) ℤ ℝ) (x k : ℝ), Shows s.ovo 0 1 (.fin x) ∧
    (∃ m, AddMeter.fit exRng 3 (exAdd exSame agreeU [0, 1, 2]) (AddMeter.new (G := Nat) (L := Nat) 0) = (.ok (.fin k), m)) ∧ x + k ≤ 1 := by
  have hs := exAddSetup agreeEnv agreeU (by
    intro r r' h; simp only [finM, agreeU, h 0 (by decide), h 1 (by decide)])
  have hp : NeverFails (exAdd exSame agreeU [0, 1, 2]).toPd.pf := fun n rows => ⟨_, rfl⟩
  have hc : PdpMethod.chooseCalc (exAdd exSame agreeU [0, 1, 2]).toPd
      ⟨[0, 1], ⟨[0, 1, 2], exSame⟩⟩ (exAdd exSame agreeU [0, 1, 2]).toPd.pf = .ok
      ⟨1, [0, 1], Calc.new (exAdd exSame agreeU [0, 1, 2]).toPd.pf ⟨[0, 1, 2], exSame⟩ 3⟩ := by
    simp only [PdpMethod.chooseCalc, AddArgs.toPd, exAdd]
  obtain ⟨v, m, hm⟩ := C22_fit_returns (cp := 3) hs hc hp hp
  have hX : (⟨[0, 1, 2], exSame⟩ : Frame (Fin 4) ℤ).rows ≠ [] := by simp [exSame]
  have hr := (fit_returns (e := .keyError) (kind := .friedman true) hs hc hp hp
    (validFeatures_of_nodup (fun _ h => h) (by show [(0 : Fin 4), 1, 2].Nodup; decide))).1.2
    ⟨⟨_, ovoRows.eq_1 _ _ _ _ _⟩, impRows_ok _ _ hX _⟩
  obtain ⟨s, hr⟩ := ret_of_fst hr
  have hF : Fits (.friedman true) agreeU agreeEnv (exAdd exSame agreeU [0, 1, 2]).toPd (PdpMethod.new 0) ⟨[0, 1], ⟨[0, 1, 2], exSame⟩⟩ s :=
    ⟨hs, sortsBy_stableSort _ _, sortsBy_stableSort _ _, hX, by show [(0 : Fin 4), 1, 2].Nodup; decide, hr⟩
  obtain ⟨x, k, h1, h2, h3, _⟩ := C138_additivity (f := 0) (g := 1) hF hs (by decide)
    ⟨fun _ => 0, by simp [exSame], fun _ => 1, by simp [exSame], by norm_num [agreeU]⟩ hm
    (by show (0 : Fin 4) ∈ [0, 1, 2]; decide) (by show (1 : Fin 4) ∈ [0, 1, 2]; decide)
    (by show (0 : Fin 4) ∈ [0, 1, 2]; decide) (by show (1 : Fin 4) ∈ [0, 1, 2]; decide) (by decide)
    (fun r r' a b => by simp only [agreeU, a, b])
  exact ⟨s, x, k, h1, ⟨m, h2 ▸ hm⟩, h3⟩

/-- the model of the first example as the additivity meter sees it -/
def agreeAdd (X : List (Row (Fin 4) ℤ)) := AddMeter.fit exRng 3 (exAdd (K := ℚ) X (fun r => (r 0 : ℚ) * r 1 + r 1) [0, 1, 2])
  (AddMeter.new (G := Nat) (L := Nat) 0)

/-- `x y + y` on the grid: index 1/2, and so is the normalized strength of the pair -/
example : (agreeAdd [![1, 1, 0, 0], ![1, -1, 1, 0], ![-1, 1, 2, 0], ![-1, -1, 3, 0]]).1 = .ok (.fin (1 / 2)) := by decide +kernel

end Cases
end Artemis
