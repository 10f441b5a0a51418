import Verif.Spec.Independent
import Verif.Proofs.HLemmas

/-!
# Averages over data in which a feature varies independently
-/

set_option linter.unusedSectionVars false
set_option linter.unusedVariables false
set_option linter.unusedSimpArgs false

namespace Artemis
open Spec
variable {F V K : Type} [DecidableEq F] [Field K] [LinearOrder K] [IsStrictOrderedRing K]

/-- the average of a quantity over the data -/
def mu (X : Frame F V) (w : Row F V → K) : K := average (X.rows.map w)

section mu
variable {X : Frame F V} {f g : F} {u : Row F V → K}

theorem mu_add (X : Frame F V) (u w : Row F V → K) : mu X (fun r => u r + w r) = mu X u + mu X w := avg_add _ _ _
theorem mu_sub (X : Frame F V) (u w : Row F V → K) : mu X (fun r => u r - w r) = mu X u - mu X w := avg_sub _ _ _
theorem mu_mul (X : Frame F V) (c : K) (w : Row F V → K) : mu X (fun r => c * w r) = c * mu X w := avg_const_mul _ _ _
theorem mu_const (h : X.rows ≠ []) (c : K) : mu X (fun _ => c) = c := avg_const _ h c
theorem mu_congr (X : Frame F V) {u w : Row F V → K} (h : ∀ r, u r = w r) : mu X u = mu X w := by
  rw [show u = w from funext h]

theorem mu_eq (X : Frame F V) (w : Row F V → K) : mu X w = (X.rows.map w).sum / X.rows.length := by
  simp [mu, average]

theorem sum_swap {α β : Type} (l : List α) (m : List β) (φ : α → β → K) :
    (l.map (fun a => (m.map (fun b => φ a b)).sum)).sum = (m.map (fun b => (l.map (fun a => φ a b)).sum)).sum := by
  induction l with
  | nil => simp
  | cons a l ih => simp only [List.map_cons, List.sum_cons, ih, list_sum_add]

theorem sum_div {α : Type} (l : List α) (w : α → K) (c : K) : (l.map (fun a => w a / c)).sum = (l.map w).sum / c := by
  induction l with
  | nil => simp
  | cons a l ih => simp only [List.map_cons, List.sum_cons, ih, add_div]

theorem mu_swap (X : Frame F V) (φ : Row F V → Row F V → K) :
    mu X (fun r => mu X (fun s => φ r s)) = mu X (fun s => mu X (fun r => φ r s)) := by
  simp only [mu_eq, sum_div, sum_swap X.rows X.rows φ]

/-- averaging over the independently recombined rows is averaging over the rows -/
theorem mu_indep (hX : X.rows ≠ []) (h : Independent X f) (w : Row F V → K) :
    mu X (fun r => mu X (fun s => w (setF r f (s f)))) = mu X w := by
  have h1 := (h.map w).sum_eq
  have hn : (X.rows.length : K) ≠ 0 := by simpa using hX
  have e1 : ((X.rows.flatMap (fun r => X.rows.map (fun s => setF r f (s f)))).map w).sum =
      (X.rows.map (fun r => (X.rows.map (fun s => w (setF r f (s f)))).sum)).sum := by
    generalize X.rows = l at *
    have : ∀ l' : List (Row F V), ((l'.flatMap (fun r => l.map (fun s => setF r f (s f)))).map w).sum =
      (l'.map (fun r => (l.map (fun s => w (setF r f (s f)))).sum)).sum := by
      intro l'
      induction l' with
      | nil => simp
      | cons a l' ih =>
        simp only [List.flatMap_cons, List.map_append, List.sum_append, ih, List.map_cons, List.sum_cons, List.map_map]
        rfl
    exact this l
  have e2 : ∀ n, (((List.replicate n X.rows).flatten).map w).sum = n * (X.rows.map w).sum := by
    intro n
    induction n with
    | zero => simp
    | succ n ih => simp only [List.replicate_succ, List.flatten_cons, List.map_append, List.sum_append, ih]; push_cast; ring
  rw [e1, e2] at h1
  simp only [mu_eq, sum_div, h1]
  field_simp

theorem setF_same (r : Row F V) (f : F) (v : V) : setF r f v f = v := by simp [setF]
theorem setF_other (r : Row F V) {f g : F} (v : V) (h : g ≠ f) : setF r f v g = r g := by simp [setF, h]
theorem setF_setF (r : Row F V) (f : F) (v w : V) : setF (setF r f v) f w = setF r f w := by
  funext h; by_cases e : h = f <;> simp [setF, e]
theorem setF_swap (r : Row F V) {f g : F} (h : f ≠ g) (v w : V) : setF (setF r g w) f v = setF (setF r f v) g w := by
  funext k
  by_cases e : k = f
  · subst e; simp [setF, h]
  · simp [setF, e]

theorem pd1_mu (u : Row F V → K) (X : Frame F V) (f : F) (v : V) : pd1 u X f v = mu X (fun q => u (setF q f v)) := rfl
theorem pd2_mu (u : Row F V → K) (X : Frame F V) (f g : F) (v w : V) :
    pd2 u X f g v w = mu X (fun q => u (setF (setF q g w) f v)) := rfl
theorem pdNot_mu (u : Row F V → K) (X : Frame F V) (f : F) (r : Row F V) :
    pdNot u X f r = mu X (fun q => u (setF r f (q f))) := rfl

theorem mu_pd1 (hX : X.rows ≠ []) (h : Independent X f) (u : Row F V → K) : mu X (fun r => pd1 u X f (r f)) = mu X u := by
  simp only [pd1_mu]
  rw [mu_swap, mu_indep hX h]

theorem mu_pdNot (hX : X.rows ≠ []) (h : Independent X f) (u : Row F V → K) : mu X (pdNot u X f) = mu X u := by
  rw [show pdNot u X f = fun r => mu X (fun q => u (setF r f (q f))) from rfl, mu_indep hX h]

theorem mu_pd2_right (hX : X.rows ≠ []) (h : Independent X g) (u : Row F V → K) (v : V) :
    mu X (fun s => pd2 u X f g v (s g)) = pd1 u X f v := by
  simp only [pd2_mu]
  rw [mu_swap, mu_indep hX h (fun q => u (setF q f v))]
  rfl

theorem mu_pd2_left (hX : X.rows ≠ []) (h : Independent X f) (hfg : f ≠ g) (u : Row F V → K) (w : V) :
    mu X (fun s => pd2 u X f g (s f) w) = pd1 u X g w := by
  simp only [pd2_mu, setF_swap _ hfg]
  rw [mu_swap, mu_indep hX h (fun q => u (setF q g w))]
  rfl

theorem mu_pd2 (hX : X.rows ≠ []) (hf : Independent X f) (hg : Independent X g) (hfg : f ≠ g) (u : Row F V → K) :
    mu X (fun r => pd2 u X f g (r f) (r g)) = mu X u := by
  rw [← mu_indep hX hf]
  simp only [setF_same, setF_other _ _ hfg.symm]
  simp only [mu_pd2_left hX hf hfg]
  exact mu_pd1 hX hg u

theorem centred_mu (X : Frame F V) (w : Row F V → K) (r : Row F V) : centred X w r = w r - mu X w := rfl

theorem interaction_eq (hX : X.rows ≠ []) (hf : Independent X f) (hg : Independent X g) (hfg : f ≠ g) (u : Row F V → K)
    (r : Row F V) : interaction u X f g r = pd2 u X f g (r f) (r g) - pd1 u X f (r f) - pd1 u X g (r g) + mu X u := by
  simp only [interaction, centred_mu, mu_pd2 hX hf hg hfg, mu_pd1 hX hf, mu_pd1 hX hg]
  ring

theorem interactionOva_eq (hX : X.rows ≠ []) (hf : Independent X f) (u : Row F V → K)
    (r : Row F V) : interactionOva u X f r = u r - pd1 u X f (r f) - pdNot u X f r + mu X u := by
  simp only [interactionOva, centred_mu, mu_pdNot hX hf, mu_pd1 hX hf]
  ring

/-- the interaction is orthogonal to the single effect of `f` -/
theorem interaction_perp_left (hX : X.rows ≠ []) (hf : Independent X f) (hg : Independent X g) (hfg : f ≠ g)
    (u : Row F V → K) : mu X (fun r => centred X (fun r => pd1 u X f (r f)) r * interaction u X f g r) = 0 := by
  rw [← mu_indep hX hg]
  simp only [interaction_eq hX hf hg hfg, centred_mu, setF_same, setF_other _ _ hfg, mu_pd1 hX hf, mu_mul, mu_add,
    mu_sub, mu_const hX, mu_pd2_right hX hg, mu_pd1 hX hg]
  rw [mu_congr X (w := fun _ => 0) (fun r => by ring), mu_const hX]

theorem interaction_perp_right (hX : X.rows ≠ []) (hf : Independent X f) (hg : Independent X g) (hfg : f ≠ g)
    (u : Row F V → K) : mu X (fun r => centred X (fun r => pd1 u X g (r g)) r * interaction u X f g r) = 0 := by
  rw [← mu_indep hX hf]
  simp only [interaction_eq hX hf hg hfg, centred_mu, setF_same, setF_other _ _ hfg.symm, mu_pd1 hX hg, mu_mul, mu_add,
    mu_sub, mu_const hX, mu_pd2_left hX hf hfg, mu_pd1 hX hf]
  rw [mu_congr X (w := fun _ => 0) (fun r => by ring), mu_const hX]

/-- the single effects of two independent features are orthogonal -/
theorem effects_perp (hX : X.rows ≠ []) (hg : Independent X g) (hfg : f ≠ g)
    (u : Row F V → K) : mu X (fun r => centred X (fun r => pd1 u X f (r f)) r * centred X (fun r => pd1 u X g (r g)) r)
      = 0 := by
  rw [← mu_indep hX hg]
  simp only [centred_mu, setF_same, setF_other _ _ hfg, mu_mul, mu_sub, mu_const hX, sub_self, mul_zero]

theorem pdNot_set (u : Row F V → K) (X : Frame F V) (f : F) (r : Row F V) (v : V) :
    pdNot u X f (setF r f v) = pdNot u X f r := by simp only [pdNot_mu, setF_setF]

theorem ova_perp_single (hX : X.rows ≠ []) (hf : Independent X f) (u : Row F V → K) :
    mu X (fun r => centred X (fun r => pd1 u X f (r f)) r * interactionOva u X f r) = 0 := by
  rw [← mu_indep hX hf, mu_swap]
  simp only [interactionOva_eq hX hf, centred_mu, setF_same, pdNot_set, mu_pd1 hX hf, mu_mul, mu_add,
    mu_sub, mu_const hX, mu_pdNot hX hf]
  simp only [← pd1_mu]
  rw [mu_congr X (w := fun _ => 0) (fun r => by ring), mu_const hX]

theorem ova_perp_rest (hX : X.rows ≠ []) (hf : Independent X f) (u : Row F V → K) :
    mu X (fun r => centred X (pdNot u X f) r * interactionOva u X f r) = 0 := by
  rw [← mu_indep hX hf]
  simp only [interactionOva_eq hX hf, centred_mu, setF_same, pdNot_set, mu_pd1 hX hf, mu_mul, mu_add,
    mu_sub, mu_const hX, mu_pdNot hX hf]
  simp only [← pdNot_mu]
  rw [mu_congr X (w := fun _ => 0) (fun r => by ring), mu_const hX]

theorem single_perp_rest (hX : X.rows ≠ []) (hf : Independent X f) (u : Row F V → K) :
    mu X (fun r => centred X (pdNot u X f) r * centred X (fun r => pd1 u X f (r f)) r) = 0 := by
  rw [← mu_indep hX hf]
  simp only [centred_mu, setF_same, pdNot_set, mu_mul, mu_sub, mu_const hX, sub_self, mul_zero]

theorem sum_of_mu (X : Frame F V) (hX : X.rows ≠ []) (w : Row F V → K) : (X.rows.map w).sum = X.rows.length * mu X w := by
  have hn : (X.rows.length : K) ≠ 0 := by simpa using hX
  rw [mu_eq]; field_simp

/-- Pythagoras: a sum of three mutually orthogonal quantities -/
theorem sumSq_three (hX : X.rows ≠ []) {p i a b : Row F V → K} (hp : ∀ r, p r = i r + a r + b r)
    (h1 : mu X (fun r => a r * i r) = 0) (h2 : mu X (fun r => b r * i r) = 0) (h3 : mu X (fun r => a r * b r) = 0) :
    sumSq X p = sumSq X i + sumSq X a + sumSq X b := by
  have s1 := sum_of_mu X hX (fun r => a r * i r)
  have s2 := sum_of_mu X hX (fun r => b r * i r)
  have s3 := sum_of_mu X hX (fun r => a r * b r)
  rw [h1, mul_zero] at s1
  rw [h2, mul_zero] at s2
  rw [h3, mul_zero] at s3
  have e : ∀ l : List (Row F V), (l.map (fun r => p r * p r)).sum = (l.map (fun r => i r * i r)).sum +
      (l.map (fun r => a r * a r)).sum + (l.map (fun r => b r * b r)).sum + 2 * (l.map (fun r => a r * i r)).sum +
      2 * (l.map (fun r => b r * i r)).sum + 2 * (l.map (fun r => a r * b r)).sum := by
    intro l
    induction l with
    | nil => simp
    | cons q l ih => simp only [List.map_cons, List.sum_cons, ih, hp q]; ring
  simp only [sumSq, e, s1, s2, s3]
  ring

theorem sumSq_joint (hX : X.rows ≠ []) (hf : Independent X f) (hg : Independent X g) (hfg : f ≠ g) (u : Row F V → K) :
    sumSq X (centred X (fun r => pd2 u X f g (r f) (r g))) = sumSq X (interaction u X f g) +
      sumSq X (centred X (fun r => pd1 u X f (r f))) + sumSq X (centred X (fun r => pd1 u X g (r g))) := by
  refine sumSq_three hX (fun r => ?_) (interaction_perp_left hX hf hg hfg u) (interaction_perp_right hX hf hg hfg u)
    (effects_perp hX hg hfg u)
  simp only [interaction]; ring

theorem sumSq_ova (hX : X.rows ≠ []) (hf : Independent X f) (u : Row F V → K) :
    sumSq X (centred X u) = sumSq X (interactionOva u X f) +
      sumSq X (centred X (pdNot u X f)) + sumSq X (centred X (fun r => pd1 u X f (r f))) := by
  refine sumSq_three hX (fun r => ?_) (ova_perp_rest hX hf u) (ova_perp_single hX hf u) (single_perp_rest hX hf u)
  simp only [interactionOva]; ring

/-- the prediction correlates with the single effect of an independent feature as that effect with itself -/
theorem pred_effect (hX : X.rows ≠ []) (hf : Independent X f) (u : Row F V → K) :
    mu X (fun r => centred X (fun r => pd1 u X f (r f)) r * centred X u r) =
      mu X (fun r => centred X (fun r => pd1 u X f (r f)) r * centred X (fun r => pd1 u X f (r f)) r) := by
  rw [← mu_indep hX hf, mu_swap]
  simp only [centred_mu, setF_same, mu_mul, mu_sub, mu_const hX, mu_pd1 hX hf]
  simp only [← pd1_mu]

theorem mu_list_sum {α : Type} (X : Frame F V) (hX : X.rows ≠ []) (l : List α) (φ : α → Row F V → K) :
    mu X (fun r => (l.map (fun a => φ a r)).sum) = (l.map (fun a => mu X (φ a))).sum := by
  induction l with
  | nil => simp [mu_const hX]
  | cons a l ih => simp only [List.map_cons, List.sum_cons, mu_add, ih]

/-- the sum of the single effects of distinct independent features is orthogonal to what they leave unexplained -/
theorem firstOrder_sumSq (hX : X.rows ≠ []) (hnd : X.cols.Nodup) (hi : ∀ f ∈ X.cols, Independent X f)
    (u : Row F V → K) :
    sumSq X (centred X u) = sumSq X (fun r => u r - firstOrder u X r) +
      (X.cols.map (fun f => sumSq X (centred X (fun r => pd1 u X f (r f))))).sum := by
  -- general list of features
  set A : F → Row F V → K := fun f r => centred X (fun r => pd1 u X f (r f)) r with hA
  have hfo : ∀ r, firstOrder u X r = mu X u + (X.cols.map (fun f => A f r)).sum := by
    intro r
    simp only [firstOrder]
    congr 2
    apply List.map_congr_left
    intro f hf
    simp only [hA, centred_mu, mu_pd1 hX (hi f hf)]
    rfl
  have key : ∀ l : List F, l.Nodup → (∀ f ∈ l, f ∈ X.cols) →
      sumSq X (centred X u) = sumSq X (fun r => centred X u r - (l.map (fun f => A f r)).sum) +
        (l.map (fun f => sumSq X (A f))).sum := by
    intro l
    induction l with
    | nil => intro _ _; simp
    | cons f l ih =>
      intro hnd hsub
      obtain ⟨hfl, hnd'⟩ := List.nodup_cons.1 hnd
      rw [ih hnd' (fun f hf => hsub f (List.mem_cons_of_mem _ hf))]
      have hif := hi f (hsub f List.mem_cons_self)
      -- W = R_l = (R_l - A f) + A f
      have hperp : mu X (fun r => A f r * (centred X u r - ((f :: l).map (fun f => A f r)).sum)) = 0 := by
        have e : ∀ r, A f r * (centred X u r - ((f :: l).map (fun f => A f r)).sum) =
            A f r * centred X u r - A f r * A f r - (l.map (fun g => A f r * A g r)).sum := by
          intro r
          rw [List.map_cons, List.sum_cons, list_sum_const_mul]; ring
        rw [mu_congr X e, mu_sub, mu_sub, mu_list_sum X hX, pred_effect hX hif]
        have : l.map (fun a => mu X (fun r => A f r * A a r)) = l.map (fun _ => (0 : K)) := by
          apply List.map_congr_left
          intro a ha
          exact effects_perp hX (hi a (hsub a (List.mem_cons_of_mem _ ha))) (by rintro rfl; exact hfl ha) u
        rw [this]
        simp [hA]
      have := sumSq_three (X := X) hX (p := fun r => centred X u r - (l.map (fun f => A f r)).sum)
        (i := fun r => centred X u r - ((f :: l).map (fun f => A f r)).sum) (a := A f) (b := fun _ => 0)
        (fun r => by simp only [List.map_cons, List.sum_cons]; ring) hperp (by simp [mu_const hX]) (by simp [mu_const hX])
      rw [this, List.map_cons, List.sum_cons]
      simp only [sumSq, mul_zero, List.map_const', List.sum_replicate, smul_zero]
      ring
  rw [key X.cols hnd (fun _ h => h)]
  congr 2
  funext r
  rw [hfo, centred_mu]; ring

end mu
end Artemis
