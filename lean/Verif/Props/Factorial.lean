import Verif.Props.Shares
import Verif.Props.Ensemble
import Verif.Props.Agreement
import Verif.Props.FitCost
import Mathlib.Data.Multiset.Bind

/-!
# Property C140: on complete designs strengths are shares that add up to at most the whole

Setting of `Verif/Props/Invariance.lean` (`Fits`: a returning `fit` on non-empty data with finite predictions; `ShowsOne`:
the value a table shows for a feature) and of `Verif/Props/Additivity.lean`.
-/

set_option linter.unusedSectionVars false
set_option linter.unusedVariables false
set_option linter.unusedSimpArgs false

namespace Artemis
open Spec

/-- the rows with, in each of the listed columns, each of the levels of the column, in every combination -/
def Spec.factorial {F V : Type} [DecidableEq F] (base : Row F V) (levels : F → List V) : List F → List (Row F V)
  | [] => [base]
  | c :: cs => (factorial base levels cs).flatMap fun r => (levels c).map (setF r c)

/-- the data are a complete design: every combination of some levels of the columns, in any order of the rows (a level
that is listed twice is repeated) -/
def Spec.FullFactorial {F V : Type} [DecidableEq F] (X : Frame F V) : Prop :=
  ∃ (base : Row F V) (levels : F → List V), X.rows.Perm (factorial base levels X.cols)

section design
variable {F V : Type} [DecidableEq F]

theorem factorial_front (base : Row F V) (lv : F → List V) {f : F} : ∀ {cs : List F}, cs.Nodup → f ∈ cs →
    ∃ B : List (Row F V), (factorial base lv cs).Perm (B.flatMap fun b => (lv f).map (setF b f)) := by
  intro cs
  induction cs with
  | nil => intro _ h; cases h
  | cons c cs ih =>
    intro nd hf
    obtain ⟨hc, nd⟩ := List.nodup_cons.1 nd
    by_cases e : f = c
    · subst e; exact ⟨_, List.Perm.refl _⟩
    · obtain ⟨B, hB⟩ := ih nd ((List.mem_cons.1 hf).resolve_left e)
      refine ⟨B.flatMap fun b => (lv c).map (setF b c), ?_⟩
      refine (hB.flatMap_right (fun r => (lv c).map (setF r c))).trans ?_
      rw [List.flatMap_assoc, List.flatMap_assoc]
      apply List.Perm.flatMap_left
      intro b _
      rw [List.flatMap_map, List.flatMap_map, ← Multiset.coe_eq_coe]
      rw [← Multiset.coe_bind, ← Multiset.coe_bind]
      simp only [← Multiset.map_coe]
      rw [Multiset.bind_map_comm]
      simp only [setF_swap _ (Ne.symm e)]

theorem independent_of_front {X : Frame F V} {B : List (Row F V)} {vs : List V} {f : F}
    (h : X.rows.Perm (B.flatMap fun b => vs.map (setF b f))) : Independent X f := by
  unfold Independent
  set M : Multiset (Row F V) := ↑X.rows with hM
  have hb : M = (B : Multiset (Row F V)).bind fun b => (vs : Multiset V).map (setF b f) := by
    rw [hM, Multiset.coe_eq_coe.2 h, ← Multiset.coe_bind]
    simp only [Multiset.map_coe]
  have hmap : M.map (fun s => s f) = B.length • (vs : Multiset V) := by
    rw [hb, Multiset.map_bind]
    simp only [Multiset.map_map, Function.comp_def, setF_same, Multiset.map_id']
    clear hb h
    induction B with
    | nil => simp
    | cons b B ih =>
      rw [← Multiset.cons_coe, Multiset.cons_bind, ih, List.length_cons, succ_nsmul, add_comm]
  have hcard : X.rows.length = B.length * vs.length := by
    have : M.card = B.length * vs.length := by
      rw [← Multiset.card_map (fun s => s f), hmap, Multiset.card_nsmul, Multiset.coe_card]
    exact this
  have hinner : ∀ r, M.map (fun s => setF r f (s f)) = B.length • (vs : Multiset V).map (setF r f) := by
    intro r
    rw [show (fun s : Row F V => setF r f (s f)) = (setF r f) ∘ (fun s => s f) from rfl, ← Multiset.map_map, hmap,
      Multiset.map_nsmul]
  have hflat : ∀ n, (((List.replicate n X.rows).flatten : List (Row F V)) : Multiset (Row F V)) = n • M := by
    intro n
    induction n with
    | zero => simp
    | succ n ih =>
      rw [List.replicate_succ, List.flatten_cons, ← Multiset.coe_add, ih, succ_nsmul, add_comm]
  rw [← Multiset.coe_eq_coe, hflat, ← Multiset.coe_bind]
  simp only [← Multiset.map_coe]
  change M.bind (fun r => M.map (fun s => setF r f (s f))) = _
  simp only [hinner]
  have hsm : ∀ (n : ℕ) (T : Multiset (Row F V)) (φ : Row F V → Multiset (Row F V)), T.bind (fun r => n • φ r) = n • T.bind φ := by
    intro n T φ
    induction T using Multiset.induction_on with
    | empty => simp
    | cons a T ih => rw [Multiset.cons_bind, Multiset.cons_bind, ih, nsmul_add]
  rw [hsm]
  have hvs : M.bind (fun r => (vs : Multiset V).map (setF r f)) = vs.length • M := by
    conv_lhs => rw [hb]
    rw [Multiset.bind_assoc]
    simp only [Multiset.bind_map, setF_setF]
    have hc : ∀ (T : Multiset V) (S : Multiset (Row F V)), T.bind (fun _ => S) = T.card • S := by
      intro T S
      induction T using Multiset.induction_on with
      | empty => simp
      | cons a T ih => rw [Multiset.cons_bind, ih, Multiset.card_cons, succ_nsmul, add_comm]
    simp only [hc, Multiset.coe_card]
    rw [hsm, ← hb]
  rw [hvs, hcard, mul_nsmul']

/-- in a complete design every column varies independently of the others -/
theorem fullFactorial_independent {X : Frame F V} (hnd : X.cols.Nodup) (h : FullFactorial X) : ∀ f ∈ X.cols, Independent X f := by
  intro f hf
  obtain ⟨base, lv, h⟩ := h
  obtain ⟨B, hB⟩ := factorial_front base lv hnd hf
  exact independent_of_front (h.trans hB)

end design

section bessel
variable {F V K : Type} [DecidableEq F] [LinearOrder V] [Field K] [LinearOrder K] [IsStrictOrderedRing K] [HasSqrt K]
variable {X : Frame F V} {u : Row F V → K} {f g : F}

/-- Bessel's inequality -/
theorem bessel {α : Type} (hX : X.rows ≠ []) (φ : α → Row F V → K) (W : Row F V → K) (l : List α)
    (hp : l.Pairwise fun a b => mu X (fun r => φ a r * φ b r) = 0)
    (hW : ∀ a ∈ l, mu X (fun r => φ a r * W r) = mu X (fun r => φ a r * φ a r)) :
    (l.map fun a => sumSq X (φ a)).sum ≤ sumSq X W := by
  have key : sumSq X W = sumSq X (fun r => W r - (l.map (fun a => φ a r)).sum) + (l.map fun a => sumSq X (φ a)).sum := by
    induction l with
    | nil => simp
    | cons f l ih =>
      obtain ⟨hf, hp⟩ := List.pairwise_cons.1 hp
      rw [ih hp (fun a ha => hW a (List.mem_cons_of_mem _ ha))]
      have hperp : mu X (fun r => φ f r * (W r - ((f :: l).map (fun a => φ a r)).sum)) = 0 := by
        have e : ∀ r, φ f r * (W r - ((f :: l).map (fun a => φ a r)).sum) =
            φ f r * W r - φ f r * φ f r - (l.map (fun g => φ f r * φ g r)).sum := by
          intro r
          rw [List.map_cons, List.sum_cons, list_sum_const_mul]; ring
        rw [mu_congr X e, mu_sub, mu_sub, mu_list_sum X hX, hW f List.mem_cons_self]
        have : l.map (fun a => mu X (fun r => φ f r * φ a r)) = l.map (fun _ => (0 : K)) :=
          List.map_congr_left hf
        rw [this]
        simp
      have := sumSq_three (X := X) hX (p := fun r => W r - (l.map (fun a => φ a r)).sum)
        (i := fun r => W r - ((f :: l).map (fun a => φ a r)).sum) (a := φ f) (b := fun _ => 0)
        (fun r => by simp only [List.map_cons, List.sum_cons]; ring) hperp (by simp [mu_const hX]) (by simp [mu_const hX])
      rw [this, List.map_cons, List.sum_cons]
      simp only [sumSq, mul_zero, List.map_const', List.sum_replicate, smul_zero]
      ring
  have : 0 ≤ sumSq X (fun r => W r - (l.map (fun a => φ a r)).sum) := sum_sq_nonneg _ _
  linarith

theorem inter_perp_left (hX : X.rows ≠ []) (hf : Independent X f) (hg : Independent X g) (hfg : f ≠ g) {w : Row F V → K}
    (hw : Ignores w f) : mu X (fun r => interaction u X f g r * w r) = 0 := by
  rw [← mu_indep hX hf]
  have e : ∀ r, mu X (fun s => interaction u X f g (setF r f (s f)) * w (setF r f (s f))) = 0 := by
    intro r
    rw [mu_congr X (w := fun s => w r * interaction u X f g (setF r f (s f))) (fun s => by rw [hw, mul_comm]), mu_mul]
    simp only [interaction_eq hX hf hg hfg, setF_same, setF_other _ _ hfg.symm, mu_add, mu_sub, mu_const hX,
      mu_pd2_left hX hf hfg, mu_pd1 hX hf]
    ring
  simp only [e, mu_const hX]

theorem inter_perp_right (hX : X.rows ≠ []) (hf : Independent X f) (hg : Independent X g) (hfg : f ≠ g) {w : Row F V → K}
    (hw : Ignores w g) : mu X (fun r => interaction u X f g r * w r) = 0 := by
  have := inter_perp_left (u := u) hX hg hf hfg.symm hw
  rwa [← interaction_swap u X hfg] at this

theorem inter_pred (hX : X.rows ≠ []) (hf : Independent X f) (hg : Independent X g) (hfg : f ≠ g) (u : Row F V → K) :
    mu X (fun r => interaction u X f g r * u r) = mu X (fun r => interaction u X f g r * interaction u X f g r) := by
  -- the interaction as a function of the two values
  set J : V → V → K := fun v w => pd2 u X f g v w - pd1 u X f v - pd1 u X g w + mu X u with hJ
  have hI : ∀ r, interaction u X f g r = J (r f) (r g) := fun r => interaction_eq hX hf hg hfg u r
  have h1 : mu X (fun r => interaction u X f g r * u r) = mu X (fun r => interaction u X f g r * pd2 u X f g (r f) (r g)) := by
    rw [← mu_indep hX hf, mu_swap]
    have e : ∀ s : Row F V, mu X (fun r => interaction u X f g (setF r f (s f)) * u (setF r f (s f))) =
        mu X (fun t => J (s f) (t g) * pd2 u X f g (s f) (t g)) := by
      intro s
      rw [← mu_indep hX hg, mu_swap]
      apply mu_congr
      intro t
      simp only [hI]
      rw [mu_congr X (w := fun r => J (s f) (t g) * u (setF (setF r g (t g)) f (s f))) (fun r => by
        rw [setF_same, setF_other _ _ hfg.symm, setF_same]), mu_mul, pd2_mu]
    simp only [e]
    rw [mu_swap, ← mu_indep hX hf (fun r => interaction u X f g r * pd2 u X f g (r f) (r g))]
    apply mu_congr
    intro r
    apply mu_congr
    intro s
    rw [hI, setF_same, setF_other _ _ hfg.symm]
  rw [h1]
  have e : ∀ r, interaction u X f g r * pd2 u X f g (r f) (r g) = interaction u X f g r * interaction u X f g r +
      interaction u X f g r * (pd1 u X f (r f) - mu X u) + interaction u X f g r * pd1 u X g (r g) := by
    intro r
    rw [interaction_eq hX hf hg hfg]; ring
  rw [mu_congr X e, mu_add, mu_add, inter_perp_right hX hf hg hfg (w := fun r => pd1 u X f (r f) - mu X u)
    (fun r v => by simp only [setF_other _ _ hfg]), inter_perp_left hX hf hg hfg (w := fun r => pd1 u X g (r g))
    (fun r v => by simp only [setF_other _ _ hfg.symm])]
  ring

theorem inter_uses (u : Row F V → K) (X : Frame F V) (f g : F) : OnlyUses2 (interaction u X f g) f g := by
  intro r r' h1 h2
  simp only [interaction, centred, h1, h2]

theorem inter_ignores (u : Row F V → K) (X : Frame F V) {f g c : F} (h1 : c ≠ f) (h2 : c ≠ g) : Ignores (interaction u X f g) c :=
  fun r v => inter_uses u X f g _ _ (setF_other _ _ h1.symm) (setF_other _ _ h2.symm)

/-- the interactions of two different pairs are orthogonal -/
theorem inter_inter {f' g' : F} (hX : X.rows ≠ []) (hf : Independent X f) (hg : Independent X g) (hfg : f ≠ g)
    (hfg' : f' ≠ g') (h1 : (f, g) ≠ (f', g')) (h2 : (f, g) ≠ (g', f')) :
    mu X (fun r => interaction u X f g r * interaction u X f' g' r) = 0 := by
  by_cases e : f ≠ f' ∧ f ≠ g'
  · exact inter_perp_left hX hf hg hfg (inter_ignores u X e.1 e.2)
  by_cases e' : g ≠ f' ∧ g ≠ g'
  · exact inter_perp_right hX hf hg hfg (inter_ignores u X e'.1 e'.2)
  · exfalso
    by_cases a : f = f'
    · subst a
      by_cases b : g = f
      · exact hfg b.symm
      · have : g = g' := by by_contra c; exact e' ⟨b, c⟩
        exact h1 (by rw [this])
    · have a' : f = g' := by by_contra c; exact e ⟨a, c⟩
      subst a'
      have : g = f' := by by_contra c; exact e' ⟨c, hfg.symm⟩
      exact h2 (by rw [this])

theorem inter_ova (hX : X.rows ≠ []) (hf : Independent X f) (hg : Independent X g) (hfg : f ≠ g) (u : Row F V → K) :
    mu X (fun r => interaction u X f g r * interactionOva u X f r) = mu X (fun r => interaction u X f g r * interaction u X f g r) := by
  have e : ∀ r, interaction u X f g r * interactionOva u X f r = interaction u X f g r * u r -
      interaction u X f g r * pd1 u X f (r f) - interaction u X f g r * (pdNot u X f r - mu X u) := by
    intro r
    rw [interactionOva_eq hX hf]; ring
  rw [mu_congr X e, mu_sub, mu_sub, inter_pred hX hf hg hfg, inter_perp_right hX hf hg hfg (w := fun r => pd1 u X f (r f))
    (fun r v => by simp only [setF_other _ _ hfg]), inter_perp_left hX hf hg hfg (w := fun r => pdNot u X f r - mu X u)
    (fun r v => by simp only [pdNot_set])]
  ring

theorem inter_rest (hX : X.rows ≠ []) (hf : Independent X f) (hg : Independent X g) (hfg : f ≠ g) (u : Row F V → K) :
    mu X (fun r => interaction u X f g r * (u r - firstOrder u X r)) =
      mu X (fun r => interaction u X f g r * interaction u X f g r) := by
  have e : ∀ r, interaction u X f g r * (u r - firstOrder u X r) = interaction u X f g r * u r -
      interaction u X f g r * mu X u - (X.cols.map fun c => interaction u X f g r * (pd1 u X c (r c) - mu X u)).sum := by
    intro r
    rw [list_sum_const_mul, firstOrder]
    rw [show average (X.rows.map u) = mu X u from rfl]
    ring
  have z : (X.cols.map fun c => mu X fun r => interaction u X f g r * (pd1 u X c (r c) - mu X u)) = X.cols.map fun _ => (0 : K) := by
    apply List.map_congr_left
    intro c _
    by_cases h : c = f
    · subst h
      exact inter_perp_right hX hf hg hfg (fun r v => by simp only [setF_other _ _ hfg])
    · exact inter_perp_left hX hf hg hfg (fun r v => by simp only [setF_other _ _ (Ne.symm h), setF_other _ _ h])
  rw [mu_congr X e, mu_sub, mu_sub, inter_pred hX hf hg hfg, mu_list_sum X hX, z,
    inter_perp_left hX hf hg hfg (w := fun _ => mu X u) (fun _ _ => rfl)]
  simp

end bessel

section C140
variable {F V K G L : Type} [DecidableEq F] [LinearOrder V] [Field K] [LinearOrder K] [IsStrictOrderedRing K] [HasSqrt K]
  [LawfulSqrt K] [DecidableEq L]
variable {E : PdEnv G F K} {a : PdArgs L F V K} {s0 s : PdpMethod G L F V K} {Xs : LFrame L F V} {u : Row F V → K} {f g : F}

theorem hTable_pairs (hsort : SortsBy OvoRow.val false E.sortOvo) (n : Bool) (m : Row F V → Num K) (X : Frame F V) (fs : List F) :
    ((hTable E n m X fs).map fun r => (r.f1, r.f2)).Perm (combinations2 fs) := by
  unfold hTable
  rw [List.map_map]
  have := ((hsort ((combinations2 fs).map (hRow n m X))).1).map fun r : OvoRow F K => (r.f1, r.f2)
  refine this.trans ?_
  rw [List.map_map]
  have e : ((fun r : OvoRow F K => (r.f1, r.f2)) ∘ hRow n m X) = id := by
    funext q; rfl
  rw [e, List.map_id]

/-- what the table of pairs holds in a design with independent columns -/
theorem hPair_rows (h : Fits (.friedman false) u E a s0 Xs s) (hi : ∀ f ∈ Xs.frame.cols, Independent Xs.frame f) :
    ∃ (tbl : List (OvoRow F K)) (w : OvoRow F K → K), s.ovo = some tbl ∧ (∀ row ∈ tbl, row.val = .fin (w row) ∧
        w row * w row = sumSq Xs.frame (interaction u Xs.frame row.f1 row.f2) / Xs.frame.rows.length ∧
        row.f1 ≠ row.f2 ∧ Independent Xs.frame row.f1 ∧ Independent Xs.frame row.f2) ∧
      tbl.Pairwise fun r r' => mu Xs.frame (fun x => interaction u Xs.frame r.f1 r.f2 x * interaction u Xs.frame r'.f1 r'.f2 x) = 0 := by
  obtain ⟨tbl, h1, h2⟩ := C66_H_is_textbook_formula false h.setup h.sortOvo h.rows h.returns
  obtain ⟨h1', hv⟩ := hTable_of_fit h.setup h.returns
  have ht : tbl = hTable E false (finM u) Xs.frame a.feats := Option.some.inj (h1.symm.trans h1')
  have hrow : ∀ row ∈ tbl, row.f1 ≠ row.f2 ∧ Independent Xs.frame row.f1 ∧ Independent Xs.frame row.f2 := by
    intro row hr
    rw [ht] at hr
    obtain ⟨q, hq, rfl⟩ := (mem_hTable h.sortOvo).1 hr
    have hq' := mem_combinations2 hq
    exact ⟨hv.ne q hq, hi _ (hv.cols _ hq'.1), hi _ (hv.cols _ hq'.2)⟩
  refine ⟨tbl, fun r => match r.val with | .fin k => k | _ => 0, h1, fun row hr => ?_, ?_⟩
  · obtain ⟨x, e, _, hx⟩ := h2 row hr
    simp only [e]
    exact ⟨trivial, hx, hrow row hr⟩
  · have hp := hTable_pairs h.sortOvo false (finM u) Xs.frame a.feats
    rw [← ht] at hp
    have hpw : (tbl.map fun r => (r.f1, r.f2)).Pairwise fun q q' => q ≠ q' ∧ q ≠ q'.swap := by
      refine (hp.pairwise_iff ?_).2 (pairwise_combinations2 h.feats)
      rintro ⟨a, b⟩ ⟨c, d⟩ ⟨h1, h2⟩
      refine ⟨h1.symm, ?_⟩
      intro e
      simp only [Prod.swap_prod_mk, Prod.mk.injEq] at e
      exact h2 (by rw [e.1, e.2]; rfl)
    rw [List.pairwise_map] at hpw
    refine hpw.imp_of_mem ?_
    intro r r' hr hr' ⟨n1, n2⟩
    obtain ⟨d, i1, i2⟩ := hrow r hr
    exact inter_inter h.rows i1 i2 d (hrow r' hr').1 n1 n2

/-- **C140**, unit interval: on a complete design every normalized value, of a pair or of a feature, lies between 0 and 1. -/
theorem C140_unit_interval (h : Fits (.friedman true) u E a s0 Xs s) (hd : FullFactorial Xs.frame) :
    (∃ tbl, s.ovo = some tbl ∧ ∀ row ∈ tbl, ∃ k : K, row.val = .fin k ∧ 0 ≤ k ∧ k ≤ 1) ∧
    (a.calculateOva = true → ∃ tbl, s.ova = some tbl ∧ ∀ row ∈ tbl, ∃ k : K, row.val = .fin k ∧ 0 ≤ k ∧ k ≤ 1) := by
  have hi := fullFactorial_independent h.setup.cols_nodup hd
  obtain ⟨h1', hv⟩ := hTable_of_fit h.setup h.returns
  refine ⟨?_, fun ho => ?_⟩
  · obtain ⟨tbl, h1, h2⟩ := C104_pair_share_partial h.setup h.sortOvo h.rows h.returns
    refine ⟨tbl, h1, fun row hr => ?_⟩
    have ht : tbl = hTable E true (finM u) Xs.frame a.feats := Option.some.inj (h1.symm.trans h1')
    have hr' := hr
    rw [ht] at hr'
    obtain ⟨q, hq, e⟩ := (mem_hTable h.sortOvo).1 hr'
    have hq' := mem_combinations2 hq
    obtain ⟨k, a1, a2, a3, _⟩ := h2 row hr (by rw [e]; exact hi _ (hv.cols _ hq'.1)) (by rw [e]; exact hi _ (hv.cols _ hq'.2))
    exact ⟨k, a1, a2, a3⟩
  · obtain ⟨tbl, h1, h2⟩ := C104_feature_share_partial h.setup h.sortFeat h.rows ho h.returns
    obtain ⟨tbl', h1', hp, _⟩ := C68_ova_is_textbook_formula true h.setup h.sortFeat h.rows ho h.returns
    rw [h1] at h1'
    cases h1'
    refine ⟨tbl, h1, fun row hr => ?_⟩
    obtain ⟨k, a1, a2, a3, _⟩ := h2 row hr (hi _ (hv.cols _ (hp.mem_iff.1 (List.mem_map_of_mem hr))))
    exact ⟨k, a1, a2, a3⟩

/-- **C140**, one feature: on a complete design the squared unnormalized strengths of the pairs a feature is in add up
to at most the square of its unnormalized one-versus-all strength. -/
theorem C140_pairs_within_feature (h : Fits (.friedman false) u E a s0 Xs s) (ho : a.calculateOva = true)
    (hd : FullFactorial Xs.frame) (hf : f ∈ a.feats) :
    ∃ (tbl : List (OvoRow F K)) (w : OvoRow F K → K) (x : K), s.ovo = some tbl ∧ (∀ row ∈ tbl, row.val = .fin (w row)) ∧
      ShowsOne s.ova f (.fin x) ∧ ((tbl.filter fun r => r.f1 = f ∨ r.f2 = f).map fun r => w r * w r).sum ≤ x * x := by
  have hi := fullFactorial_independent h.setup.cols_nodup hd
  obtain ⟨tbl, w, h1, h2, h3⟩ := hPair_rows h hi
  obtain ⟨x, hx, _, vx⟩ := shows_unnormalized_ova h ho hf
  refine ⟨tbl, w, x, h1, fun r hr => (h2 r hr).1, hx, ?_⟩
  have hb := bessel h.rows (fun r : OvoRow F K => interaction u Xs.frame r.f1 r.f2) (interactionOva u Xs.frame f)
    (tbl.filter fun r => r.f1 = f ∨ r.f2 = f) (h3.filter _) (by
      intro r hr
      obtain ⟨hr, hrf⟩ := List.mem_filter.1 hr
      obtain ⟨_, _, d, i1, i2⟩ := h2 r hr
      rcases of_decide_eq_true hrf with e | e
      · subst e
        exact inter_ova h.rows i1 i2 d u
      · subst e
        rw [interaction_swap u Xs.frame d]
        exact inter_ova h.rows i2 i1 d.symm u)
  have hn : (0 : K) ≤ Xs.frame.rows.length := Nat.cast_nonneg _
  have e : ((tbl.filter fun r => r.f1 = f ∨ r.f2 = f).map fun r => w r * w r).sum =
      ((tbl.filter fun r => r.f1 = f ∨ r.f2 = f).map fun r => sumSq Xs.frame (interaction u Xs.frame r.f1 r.f2)).sum / Xs.frame.rows.length := by
    rw [← sum_div]
    congr 1
    apply List.map_congr_left
    intro r hr
    exact (h2 r (List.mem_filter.1 hr).1).2.1
  rw [e, vx]
  exact div_le_div_of_nonneg_right hb hn

/-- **C140**, the whole model: on a complete design the additivity index and the shares of the variance of the predictions
that the squared unnormalized strengths of all pairs make up are at most 1 together. -/
theorem C140_pairs_within_model (h : Fits (.friedman false) u E a s0 Xs s) {E' : PdEnv G F K} {A : AddArgs L F V K}
    {m0 m : AddMeter G L F V K} {cp : F} {v : Num K} (hs : AddSetup (finM u) E' A m0 Xs) (hcp : cp ∉ Xs.frame.cols)
    (hnc : ∃ r ∈ Xs.frame.rows, ∃ r' ∈ Xs.frame.rows, u r ≠ u r') (hret : AddMeter.fit E'.R cp A m0 = (.ok v, m))
    (hd : FullFactorial Xs.frame) :
    ∃ (tbl : List (OvoRow F K)) (w : OvoRow F K → K) (k : K), s.ovo = some tbl ∧ (∀ row ∈ tbl, row.val = .fin (w row)) ∧
      v = .fin k ∧ 0 ≤ k ∧
      k + (tbl.map fun r => w r * w r / (sumSq Xs.frame (centred Xs.frame u) / Xs.frame.rows.length)).sum ≤ 1 := by
  have hi := fullFactorial_independent h.setup.cols_nodup hd
  obtain ⟨tbl, w, h1, h2, h3⟩ := hPair_rows h hi
  obtain ⟨k', hk', k0, _⟩ := C23_unit_interval_partial hs hcp hnc hi hret
  obtain ⟨k, hv, _, hk, _⟩ := C21_index_at_most_one_iff_first_order hs hcp hnc hret
  have ek : k' = k := Num.fin.inj (hk'.symm.trans hv)
  obtain ⟨r, hr, r', hr', hne⟩ := hnc
  have hpos := sumSq_centred_pos hr hr' hne
  refine ⟨tbl, w, k, h1, fun r hr => (h2 r hr).1, hv, ek ▸ k0, ?_⟩
  have hb := bessel h.rows (fun r : OvoRow F K => interaction u Xs.frame r.f1 r.f2) (fun r => u r - firstOrder u Xs.frame r)
    tbl h3 (fun r hr => by
      obtain ⟨_, _, d, i1, i2⟩ := h2 r hr
      exact inter_rest h.rows i1 i2 d u)
  have hn : (Xs.frame.rows.length : K) ≠ 0 := by simpa using h.rows
  have e : (tbl.map fun r => w r * w r / (sumSq Xs.frame (centred Xs.frame u) / Xs.frame.rows.length)).sum =
      (tbl.map fun r => sumSq Xs.frame (interaction u Xs.frame r.f1 r.f2)).sum / sumSq Xs.frame (centred Xs.frame u) := by
    rw [← sum_div]
    congr 1
    apply List.map_congr_left
    intro r hr
    rw [(h2 r hr).2.1]
    field_simp
  rw [e, hk, additivity]
  have := div_le_div_of_nonneg_right hb hpos.le
  linarith

end C140

section Cases
open Ex

/-- the grid of `Verif/Props/Shares.lean` is a complete design -/
theorem exGrid_full : FullFactorial exGrid.frame :=
  ⟨![0, 0, 0], ![[0, 1, 5], [0, 1], [0, 7]], by decide +kernel⟩

/-- dropping one of its rows leaves data that is none -/
example : ¬ FullFactorial (⟨[0, 1], [![0, 0], ![1, 0], ![0, 1]]⟩ : Frame (Fin 2) ℤ) := by
  intro h
  have := fullFactorial_independent (by decide) h 0 (by decide)
  revert this
  decide +kernel

/-- the fit on the grid, over ℝ -/
theorem exGridFits (n : Bool) : ∃ s, Fits (.friedman n) (exU (K := ℝ)) exEnv exGridArgs (PdpMethod.new 0) exGrid s := by
  have hX : exGrid.frame.rows ≠ [] := by simp [exGrid]
  have hn : (exGridArgs (K := ℝ)).feats.Nodup := by show [(0 : Fin 3), 1, 2].Nodup; decide
  have hv : ValidFeatures exGrid.frame (exGridArgs (K := ℝ)).feats := validFeatures_of_nodup (fun _ h => h) hn
  have hc : PdpMethod.chooseCalc exGridArgs exGrid (exGridArgs (K := ℝ)).pf =
      .ok ⟨1, List.range 12, Calc.new (exGridArgs (K := ℝ)).pf exGrid.frame 7⟩ := by
    simp only [PdpMethod.chooseCalc, exGridArgs, exArgs, exModel, exGrid]
  have h := (fit_returns (e := .keyError) (kind := .friedman n) (exGridSetup (K := ℝ) 0) hc exNever exNever
    hv).1.2 ⟨⟨_, ovoRows.eq_1 _ _ _ _ _⟩, impRows_ok _ _ hX _⟩
  obtain ⟨s, hs⟩ := ret_of_fst h
  exact ⟨s, exGridSetup (K := ℝ) 0, sortsBy_stableSort _ _, sortsBy_stableSort _ _, hX, hn, hs⟩

/-- C140 for one feature on the grid -/
example : ∃ (s : PdpMethod Nat Nat (Fin 3) ℤ ℝ) (tbl : _) (w : OvoRow (Fin 3) ℝ → ℝ) (x : ℝ), s.ovo = some tbl ∧
    ShowsOne s.ova 0 (.fin x) ∧ ((tbl.filter fun r => r.f1 = 0 ∨ r.f2 = 0).map fun r => w r * w r).sum ≤ x * x := by
  obtain ⟨s, h⟩ := exGridFits false
  obtain ⟨tbl, w, x, h1, _, h2, h3⟩ := C140_pairs_within_feature (f := 0) h rfl exGrid_full
    (by show (0 : Fin 3) ∈ [0, 1, 2]; decide)
  exact ⟨s, tbl, w, x, h1, h2, h3⟩

/-- C140 for the whole model: `x y` on {0,1}×{0,2}×{1} -/
example : ∃ (s : PdpMethod Nat Nat (Fin 4) ℤ ℝ) (tbl : _) (w : OvoRow (Fin 4) ℝ → ℝ) (k : ℝ), s.ovo = some tbl ∧
    (∃ m, AddMeter.fit exRng 3 (exAdd exSquare agreeU [0, 1, 2]) (AddMeter.new (G := Nat) (L := Nat) 0) = (.ok (.fin k), m)) ∧
    k + (tbl.map fun r => w r * w r / (sumSq ⟨[0, 1, 2], exSquare⟩ (centred ⟨[0, 1, 2], exSquare⟩ agreeU) / exSquare.length)).sum ≤ 1 := by
  have hs : AddSetup (finM agreeU) agreeEnv (exAdd exSquare agreeU [0, 1, 2]) (AddMeter.new 0)
      ⟨[0, 1, 2, 3], ⟨[0, 1, 2], exSquare⟩⟩ :=
    { sampled := rfl
      rowWise := by intro n rows ys h; cases h; rfl
      reads := by intro r r' h; simp only [finM, agreeU, h 0 (by decide), h 1 (by decide)]
      cols_nodup := by decide
      history := by intro co h; cases h }
  have hp : NeverFails (exAdd exSquare agreeU [0, 1, 2]).toPd.pf := fun n rows => ⟨_, rfl⟩
  have hc : PdpMethod.chooseCalc (exAdd exSquare agreeU [0, 1, 2]).toPd
      ⟨[0, 1, 2, 3], ⟨[0, 1, 2], exSquare⟩⟩ (exAdd exSquare agreeU [0, 1, 2]).toPd.pf = .ok
      ⟨1, [0, 1, 2, 3], Calc.new (exAdd exSquare agreeU [0, 1, 2]).toPd.pf ⟨[0, 1, 2], exSquare⟩ 3⟩ := by
    simp only [PdpMethod.chooseCalc, AddArgs.toPd, exAdd]
  obtain ⟨v, m, hm⟩ := C22_fit_returns (cp := 3) hs hc hp hp
  have hX : (⟨[0, 1, 2], exSquare⟩ : Frame (Fin 4) ℤ).rows ≠ [] := by simp [exSquare]
  have hn : [(0 : Fin 4), 1, 2].Nodup := by decide
  have hr := (fit_returns (e := .keyError) (kind := .friedman false) hs hc hp hp
    (validFeatures_of_nodup (fun _ h => h) hn)).1.2 ⟨⟨_, ovoRows.eq_1 _ _ _ _ _⟩, impRows_ok _ _ hX _⟩
  obtain ⟨s, hr⟩ := ret_of_fst hr
  have hF : Fits (.friedman false) agreeU agreeEnv (exAdd exSquare agreeU [0, 1, 2]).toPd (PdpMethod.new 0)
      ⟨[0, 1, 2, 3], ⟨[0, 1, 2], exSquare⟩⟩ s := ⟨hs, sortsBy_stableSort _ _, sortsBy_stableSort _ _, hX, hn, hr⟩
  obtain ⟨tbl, w, k, h1, _, h2, _, h3⟩ := C140_pairs_within_model hF hs (by decide)
    ⟨![0, 0, 1, 0], by simp [exSquare], ![1, 2, 1, 0], by simp [exSquare], by norm_num [agreeU]⟩ hm
    ⟨![0, 0, 1, 0], ![[0, 1], [0, 2], [1], []], by decide +kernel⟩
  exact ⟨s, tbl, w, k, h1, ⟨m, h2 ▸ hm⟩, h3⟩

end Cases
end Artemis
