import Verif.Props.Factorial
import Mathlib.Algebra.BigOperators.Fin

/-!
# C140, further: one-versus-all strengths cover what is not additive

For data with independent columns, the averages over the columns (`avgOver`) commute and are orthogonal projections.
-/

set_option linter.unusedSectionVars false
set_option linter.unusedVariables false
set_option linter.unusedSimpArgs false

namespace Artemis
open Spec

section proj
variable {F V K : Type} [DecidableEq F] [LinearOrder V] [Field K] [LinearOrder K] [IsStrictOrderedRing K] [HasSqrt K]
variable {X : Frame F V} {u v w : Row F V → K} {f g : F}

/-- the quantity averaged over the values of one column -/
def avgOver (X : Frame F V) (f : F) (w : Row F V → K) (r : Row F V) : K := mu X (fun s => w (setF r f (s f)))

/-- … over several columns, one after the other -/
def avgs (X : Frame F V) : List F → (Row F V → K) → Row F V → K
  | [], w => w
  | f :: l, w => avgs X l (avgOver X f w)

theorem avgOver_sub (X : Frame F V) (f : F) (v w : Row F V → K) :
    avgOver X f (fun r => v r - w r) = fun r => avgOver X f v r - avgOver X f w r := by
  funext r; exact mu_sub X _ _

theorem avgOver_comm (X : Frame F V) (w : Row F V → K) (h : f ≠ g) : avgOver X f (avgOver X g w) = avgOver X g (avgOver X f w) := by
  funext r
  simp only [avgOver]
  rw [mu_swap]
  simp only [setF_swap _ h]

theorem avgOver_ignores (X : Frame F V) (f : F) (w : Row F V → K) : Ignores (avgOver X f w) f := by
  intro r v; simp only [avgOver, setF_setF]

theorem avgOver_idem (hX : X.rows ≠ []) (f : F) (w : Row F V → K) : avgOver X f (avgOver X f w) = avgOver X f w := by
  funext r
  conv_lhs => rw [avgOver]
  simp only [avgOver_ignores X f w r, mu_const hX]

theorem avgOver_adj (hX : X.rows ≠ []) (h : Independent X f) (v w : Row F V → K) :
    mu X (fun r => avgOver X f v r * w r) = mu X (fun r => avgOver X f v r * avgOver X f w r) := by
  rw [← mu_indep hX h]
  apply mu_congr
  intro r
  simp only [avgOver_ignores X f v r, mu_mul]
  rfl

theorem avgs_append (X : Frame F V) (l m : List F) (w : Row F V → K) : avgs X (l ++ m) w = avgs X m (avgs X l w) := by
  induction l generalizing w with
  | nil => rfl
  | cons f l ih => exact ih _

theorem avgs_sub (X : Frame F V) (l : List F) (v w : Row F V → K) :
    avgs X l (fun r => v r - w r) = fun r => avgs X l v r - avgs X l w r := by
  induction l generalizing v w with
  | nil => rfl
  | cons f l ih => rw [avgs, avgOver_sub, ih]; rfl

theorem avgs_comm (X : Frame F V) {l : List F} (h : f ∉ l) (w : Row F V → K) : avgs X l (avgOver X f w) = avgOver X f (avgs X l w) := by
  induction l generalizing w with
  | nil => rfl
  | cons g l ih =>
    rw [avgs, avgs, avgOver_comm X w (fun e => h (by rw [e]; exact List.mem_cons_self)), ih (fun e => h (List.mem_cons_of_mem _ e))]

theorem avgOver_self (hX : X.rows ≠ []) (h : Independent X f) (v w : Row F V → K) :
    mu X (fun r => avgOver X f v r * w r) = mu X (fun r => v r * avgOver X f w r) := by
  have e : mu X (fun r => v r * avgOver X f w r) = mu X (fun r => avgOver X f w r * v r) := mu_congr X (fun r => mul_comm _ _)
  rw [e, avgOver_adj hX h, avgOver_adj hX h w v]
  exact mu_congr X (fun r => mul_comm _ _)

theorem avgs_self (hX : X.rows ≠ []) {l : List F} (hnd : l.Nodup) (hi : ∀ f ∈ l, Independent X f) (v w : Row F V → K) :
    mu X (fun r => avgs X l v r * w r) = mu X (fun r => v r * avgs X l w r) := by
  induction l generalizing v w with
  | nil => rfl
  | cons f l ih =>
    obtain ⟨hf, hnd⟩ := List.nodup_cons.1 hnd
    rw [avgs, avgs, ih hnd (fun g hg => hi g (List.mem_cons_of_mem _ hg)), avgOver_self hX (hi f List.mem_cons_self), avgs_comm X hf]

theorem avgs_idem (hX : X.rows ≠ []) {l : List F} (hnd : l.Nodup) (w : Row F V → K) : avgs X l (avgs X l w) = avgs X l w := by
  induction l generalizing w with
  | nil => rfl
  | cons f l ih =>
    obtain ⟨hf, hnd⟩ := List.nodup_cons.1 hnd
    simp only [avgs]
    rw [← avgs_comm X hf, avgOver_idem hX, ih hnd]

theorem mu_avgs (hX : X.rows ≠ []) {l : List F} (hi : ∀ f ∈ l, Independent X f) (w : Row F V → K) : mu X (avgs X l w) = mu X w := by
  induction l generalizing w with
  | nil => rfl
  | cons f l ih =>
    rw [avgs, ih (fun g hg => hi g (List.mem_cons_of_mem _ hg))]
    exact mu_indep hX (hi f List.mem_cons_self) w

/-- averaging over further columns only loses variation, namely that of what is averaged out -/
theorem sumSq_step (hX : X.rows ≠ []) {l : List F} (hf : f ∉ l) (h : Independent X f) (w : Row F V → K) :
    sumSq X (avgs X l w) = sumSq X (avgs X l (fun r => w r - avgOver X f w r)) + sumSq X (avgOver X f (avgs X l w)) := by
  rw [avgs_sub, avgs_comm X hf]
  set v := avgs X l w
  have hp : mu X (fun r => avgOver X f v r * (v r - avgOver X f v r)) = 0 := by
    rw [mu_congr X (fun r => mul_sub _ _ _), mu_sub, avgOver_adj hX h, sub_self]
  have := sumSq_three (X := X) hX (p := v) (i := fun r => v r - avgOver X f v r) (a := avgOver X f v) (b := fun _ => 0)
    (fun r => by ring) hp (by simp [mu_const hX]) (by simp [mu_const hX])
  rw [this]
  simp only [sumSq, mul_zero, List.map_const', List.sum_replicate, smul_zero, add_zero]

theorem avgs_reads {l cols : List F} (h : ReadsOnly w cols) : ReadsOnly (avgs X l w) cols := by
  induction l generalizing w with
  | nil => exact h
  | cons f l ih =>
    apply ih
    intro r r' e
    apply mu_congr
    intro s
    apply h
    intro c hc
    by_cases ec : c = f
    · subst ec; rw [setF_same, setF_same]
    · rw [setF_other _ _ ec, setF_other _ _ ec, e c hc]

theorem avgs_ignores {l : List F} (h : f ∈ l) (w : Row F V → K) : Ignores (avgs X l w) f := by
  have keep : ∀ (l : List F) (w : Row F V → K), Ignores w f → Ignores (avgs X l w) f := by
    intro l
    induction l with
    | nil => intro w h; exact h
    | cons g l ih =>
      intro w h
      apply ih
      by_cases e : f = g
      · subst e; exact avgOver_ignores X f w
      · intro r v
        apply mu_congr
        intro s
        rw [← setF_swap _ e, h]
  induction l generalizing w with
  | nil => cases h
  | cons g l ih =>
    by_cases e : f = g
    · subst e
      exact keep l _ (avgOver_ignores X f w)
    · exact ih ((List.mem_cons.1 h).resolve_left e) _

/-- a quantity that reads the columns `cols` only and ignores those in `l` reads the others -/
theorem reads_rest {cols : List F} : ∀ (l : List F) {w : Row F V → K}, ReadsOnly w cols → (∀ f ∈ l, Ignores w f) →
    ∀ r r' : Row F V, (∀ f ∈ cols, f ∉ l → r f = r' f) → w r = w r' := by
  intro l
  induction l with
  | nil => intro w h _ r r' e; exact h r r' (fun f hf => e f hf (by simp))
  | cons g l ih =>
    intro w h hig r r' e
    rw [← hig g List.mem_cons_self r (r' g)]
    apply ih h (fun f hf => hig f (List.mem_cons_of_mem _ hf))
    intro f hf hl
    by_cases ef : f = g
    · subst ef; rw [setF_same]
    · rw [setF_other _ _ ef]
      exact e f hf (fun hm => (List.mem_cons.1 hm).elim ef hl)

theorem avgs_setF (X : Frame F V) {l : List F} (h : f ∉ l) (w : Row F V → K) (x : V) (r : Row F V) :
    avgs X l w (setF r f x) = avgs X l (fun q => w (setF q f x)) r := by
  induction l generalizing w with
  | nil => rfl
  | cons g l ih =>
    rw [avgs, avgs, ih (fun e => h (List.mem_cons_of_mem _ e))]
    congr 1
    funext q
    apply mu_congr
    intro s
    have : g ≠ f := fun e => h (by rw [e]; exact List.mem_cons_self)
    rw [setF_swap _ this]

/-- averaged over all columns but one, a quantity is its partial dependence on that one -/
theorem avgs_all_but {cols l : List F} (hX : X.rows ≠ []) (hw : ReadsOnly w cols) (hi : ∀ f ∈ l, Independent X f) (hf : f ∉ l)
    (hl : ∀ c ∈ cols, c ≠ f → c ∈ l) (r : Row F V) : avgs X l w r = pd1 w X f (r f) := by
  have e : ∀ q, avgs X l w r = avgs X l w (setF q f (r f)) := by
    intro q
    apply reads_rest l (avgs_reads hw) (fun g hg => avgs_ignores hg w)
    intro c hc hcl
    by_cases ec : c = f
    · subst ec; rw [setF_same]
    · exact absurd (hl c hc ec) hcl
  rw [pd1_mu, ← mu_avgs hX hi, ← mu_const hX (avgs X l w r)]
  apply mu_congr
  intro q
  rw [← avgs_setF X hf]
  exact e q

theorem avgs_all {cols : List F} (hX : X.rows ≠ []) (hw : ReadsOnly w cols) (hi : ∀ f ∈ cols, Independent X f) (r : Row F V) :
    avgs X cols w r = mu X w := by
  rw [← mu_avgs hX hi, ← mu_const hX (avgs X cols w r)]
  apply mu_congr
  intro q
  apply reads_rest cols (avgs_reads hw) (fun g hg => avgs_ignores hg w)
  intro c hc hcl
  exact absurd hc hcl

/-- the sum of the single effects, averaged over one column -/
theorem avg_firstOrder (hX : X.rows ≠ []) (hnd : X.cols.Nodup) (hi : ∀ f ∈ X.cols, Independent X f) (hf : f ∈ X.cols) (u : Row F V → K) (r : Row F V) :
    firstOrder u X r - avgOver X f (firstOrder u X) r = pd1 u X f (r f) - mu X u := by
  have e : ∀ l : List F, l.Nodup → (∀ c ∈ l, c ∈ X.cols) →
      (l.map fun c => pd1 u X c (r c) - mu X u).sum - mu X (fun s => (l.map fun c => pd1 u X c (setF r f (s f) c) - mu X u).sum) =
        if f ∈ l then pd1 u X f (r f) - mu X u else 0 := by
    intro l
    induction l with
    | nil => intro _ _; simp [mu_const hX]
    | cons c l ih =>
      intro nd hs
      obtain ⟨hc, nd⟩ := List.nodup_cons.1 nd
      have ih := ih nd (fun c hc => hs c (List.mem_cons_of_mem _ hc))
      simp only [List.map_cons, List.sum_cons, mu_add, mu_sub, mu_const hX]
      by_cases ec : f = c
      · subst ec
        rw [if_neg hc] at ih
        rw [if_pos List.mem_cons_self]
        simp only [setF_same, mu_pd1 hX (hi f hf)]
        linarith
      · simp only [setF_other _ _ (Ne.symm ec), mu_const hX, List.mem_cons, ec, false_or]
        rw [← ih]
        ring
  have := e X.cols hnd (fun _ h => h)
  rw [if_pos hf] at this
  rw [← this]
  simp only [firstOrder, avgOver, mu_add, mu_const hX]
  rw [show average (X.rows.map u) = mu X u from rfl]
  ring

theorem ova_is_rest (hX : X.rows ≠ []) (hnd : X.cols.Nodup) (hi : ∀ f ∈ X.cols, Independent X f) (hf : f ∈ X.cols) (u : Row F V → K) :
    interactionOva u X f = fun r => (u r - firstOrder u X r) - avgOver X f (fun r => u r - firstOrder u X r) r := by
  funext r
  have := avg_firstOrder hX hnd hi hf u r
  rw [interactionOva_eq hX (hi f hf), avgOver_sub]
  change u r - pd1 u X f (r f) - avgOver X f u r + mu X u = _
  linarith

theorem firstOrder_reads (u : Row F V → K) (X : Frame F V) : ReadsOnly (firstOrder u X) X.cols := by
  intro r r' h
  rw [firstOrder, firstOrder]
  congr 2
  apply List.map_congr_left
  intro c hc
  rw [h c hc]

theorem pd1_rest (hX : X.rows ≠ []) (hnd : X.cols.Nodup) (hi : ∀ f ∈ X.cols, Independent X f) (hf : f ∈ X.cols) (u : Row F V → K) (v : V) :
    pd1 (fun r => u r - firstOrder u X r) X f v = 0 := by
  have e : ∀ l : List F, l.Nodup → (∀ c ∈ l, c ∈ X.cols) →
      mu X (fun s => (l.map fun c => pd1 u X c (setF s f v c) - mu X u).sum) = if f ∈ l then pd1 u X f v - mu X u else 0 := by
    intro l
    induction l with
    | nil => intro _ _; simp [mu_const hX]
    | cons c l ih =>
      intro nd hs
      obtain ⟨hc, nd⟩ := List.nodup_cons.1 nd
      have ih := ih nd (fun c hc => hs c (List.mem_cons_of_mem _ hc))
      simp only [List.map_cons, List.sum_cons, mu_add, mu_sub, mu_const hX]
      by_cases ec : f = c
      · subst ec
        rw [if_neg hc] at ih
        rw [if_pos List.mem_cons_self, ih]
        simp only [setF_same, mu_const hX]
        ring
      · simp only [setF_other _ _ (Ne.symm ec), mu_pd1 hX (hi c (hs c List.mem_cons_self)), List.mem_cons, ec, false_or]
        rw [ih]
        ring
  have := e X.cols hnd (fun _ h => h)
  rw [if_pos hf] at this
  rw [pd1_mu]
  simp only [mu_sub, firstOrder, mu_add, mu_const hX]
  rw [show average (X.rows.map u) = mu X u from rfl, this, pd1_mu]
  ring

theorem mu_rest (hX : X.rows ≠ []) (hi : ∀ f ∈ X.cols, Independent X f) (u : Row F V → K) : mu X (fun r => u r - firstOrder u X r) = 0 := by
  have z : (X.cols.map fun c => mu X fun r => pd1 u X c (r c) - mu X u) = X.cols.map fun _ => (0 : K) := by
    apply List.map_congr_left
    intro c hc
    rw [mu_sub, mu_pd1 hX (hi c hc), mu_const hX, sub_self]
  simp only [mu_sub, firstOrder, mu_add, mu_const hX]
  rw [show average (X.rows.map u) = mu X u from rfl, mu_list_sum X hX (φ := fun c r => pd1 u X c (r c) - mu X u), z]
  simp

/-- twice the variation that the single effects leave over is at most what the features have in their interactions -/
theorem rest_covered (hX : X.rows ≠ []) (hnd : X.cols.Nodup) (hi : ∀ f ∈ X.cols, Independent X f) (hu : ReadsOnly u X.cols) :
    2 * sumSq X (fun r => u r - firstOrder u X r) ≤ (X.cols.map fun f => sumSq X (interactionOva u X f)).sum := by
  set R : Row F V → K := fun r => u r - firstOrder u X r with hR
  have hRr : ReadsOnly R X.cols := by
    intro r r' h
    simp only [hR, hu r r' h, firstOrder_reads u X r r' h]
  set l := X.cols with hl
  have zero : ∀ r, avgs X l R r = 0 := fun r => by rw [avgs_all hX hRr hi, hR, mu_rest hX hi]
  -- one column
  have one : ∀ i (hi' : i < l.length),
      (sumSq X (avgs X (l.take i) R) - sumSq X (avgs X (l.take (i + 1)) R)) +
        (sumSq X (avgs X (l.drop (i + 1)) R) - sumSq X (avgs X (l.drop i) R)) ≤ sumSq X (interactionOva u X l[i]) := by
    intro i hil
    set k := l[i] with hk
    have hkl : k ∈ l := List.getElem_mem hil
    set A : Row F V → K := interactionOva u X k with hA
    have hAe : A = fun r => R r - avgOver X k R r := ova_is_rest hX hnd hi hkl u
    have hsplit : l = l.take i ++ k :: l.drop (i + 1) := by
      rw [hk, ← List.drop_eq_getElem_cons hil, List.take_append_drop]
    have hnd2 := hnd
    rw [hsplit, List.nodup_append, List.nodup_cons] at hnd2
    obtain ⟨n1, ⟨k2, n2⟩, dj⟩ := hnd2
    have k1 : k ∉ l.take i := fun h => dj k h k List.mem_cons_self rfl
    have i1 : ∀ f ∈ l.take i, Independent X f := fun f h => hi f (List.mem_of_mem_take h)
    have i2 : ∀ f ∈ l.drop (i + 1), Independent X f := fun f h => hi f (List.mem_of_mem_drop h)
    have e1 : sumSq X (avgs X (l.take i) R) - sumSq X (avgs X (l.take (i + 1)) R) = sumSq X (avgs X (l.take i) A) := by
      have := sumSq_step hX k1 (hi k hkl) R
      rw [← List.take_concat_get' l i hil, avgs_append, this, ← hAe]
      simp only [avgs]
      ring
    have e2 : sumSq X (avgs X (l.drop (i + 1)) R) - sumSq X (avgs X (l.drop i) R) = sumSq X (avgs X (l.drop (i + 1)) A) := by
      have := sumSq_step hX k2 (hi k hkl) R
      rw [List.drop_eq_getElem_cons hil, this, ← hAe]
      simp only [avgs]
      rw [← hk, avgs_comm X k2]
      ring
    rw [e1, e2]
    -- the two parts are orthogonal
    have nd12 : (l.take i ++ l.drop (i + 1)).Nodup := by
      rw [List.nodup_append]
      exact ⟨n1, n2, fun a ha b hb => dj a ha b (List.mem_cons_of_mem _ hb)⟩
    have k12 : k ∉ l.take i ++ l.drop (i + 1) := by
      rw [List.mem_append]; rintro (h | h)
      · exact k1 h
      · exact k2 h
    have z : ∀ r, avgs X (l.take i ++ l.drop (i + 1)) A r = 0 := by
      intro r
      have zR : ∀ r, avgs X (l.take i ++ l.drop (i + 1)) R r = 0 := by
        intro r
        rw [avgs_all_but (f := k) hX hRr (fun f h => (List.mem_append.1 h).elim (i1 f) (i2 f)) k12 ?_ r, pd1_rest hX hnd hi hkl]
        intro c hc hck
        rw [hsplit, List.mem_append, List.mem_cons] at hc
        rcases hc with h | h | h
        · exact List.mem_append_left _ h
        · exact absurd h hck
        · exact List.mem_append_right _ h
      rw [hAe, avgs_sub, avgs_comm X k12]
      simp only [zR, avgOver, mu_const hX, sub_self]
    have hperp : mu X (fun r => avgs X (l.take i) A r * avgs X (l.drop (i + 1)) A r) = 0 := by
      rw [mu_congr X (fun r => mul_comm _ _), avgs_self hX n2 i2, ← mu_const hX (0 : K)]
      apply mu_congr
      intro r
      rw [← avgs_append, z r, mul_zero]
    have hb := bessel hX (fun m : List F => avgs X m A) A [l.take i, l.drop (i + 1)] (by simpa using hperp) (by
      intro m hm
      have hm' : m.Nodup ∧ ∀ f ∈ m, Independent X f := by
        simp only [List.mem_cons, List.not_mem_nil, or_false] at hm
        rcases hm with rfl | rfl
        · exact ⟨n1, i1⟩
        · exact ⟨n2, i2⟩
      conv_lhs => rw [← avgs_idem hX hm'.1]
      rw [avgs_self hX hm'.1 hm'.2])
    simpa using hb
  have tot := Finset.sum_le_sum (s := Finset.range l.length) (f := fun i =>
      (sumSq X (avgs X (l.take i) R) - sumSq X (avgs X (l.take (i + 1)) R)) +
        (sumSq X (avgs X (l.drop (i + 1)) R) - sumSq X (avgs X (l.drop i) R)))
    (g := fun i => if h : i < l.length then sumSq X (interactionOva u X l[i]) else 0) (by
      intro i hm
      have h := Finset.mem_range.1 hm
      simp only [dif_pos h]
      exact one i h)
  rw [Finset.sum_add_distrib, Finset.sum_range_sub' (fun i => sumSq X (avgs X (l.take i) R)),
    Finset.sum_range_sub (fun i => sumSq X (avgs X (l.drop i) R))] at tot
  have hz : sumSq X (avgs X l R) = 0 := by
    simp only [sumSq, zero, mul_zero, List.map_const', List.sum_replicate, smul_zero]
  simp only [List.take_zero, List.take_length, List.drop_zero, List.drop_length, hz, avgs, sub_zero] at tot
  have hs : (l.map fun f => sumSq X (interactionOva u X f)).sum =
      ∑ i ∈ Finset.range l.length, if h : i < l.length then sumSq X (interactionOva u X l[i]) else 0 := by
    clear tot one zero hz
    rw [Finset.sum_range]
    simp only [Fin.is_lt, dif_pos]
    rw [← List.sum_ofFn]
    congr 1
    apply List.ext_getElem <;> simp
  rw [hs]
  linarith

end proj

section C140
variable {F V K G L : Type} [DecidableEq F] [LinearOrder V] [Field K] [LinearOrder K] [IsStrictOrderedRing K] [HasSqrt K]
  [LawfulSqrt K] [DecidableEq L]
variable {E : PdEnv G F K} {a : PdArgs L F V K} {s0 s : PdpMethod G L F V K} {Xs : LFrame L F V} {u : Row F V → K}

/-- **C140**, from the other side: on a complete design, twice what the additivity index leaves over is at most the sum of the squared
unnormalized one-versus-all strengths of all columns, each divided by the variance of the predictions. -/
theorem C140_one_versus_all_covers (h : Fits (.friedman false) u E a s0 Xs s) (ho : a.calculateOva = true) {E' : PdEnv G F K}
    {A : AddArgs L F V K} {m0 m : AddMeter G L F V K} {cp : F} {v : Num K} (hs : AddSetup (finM u) E' A m0 Xs)
    (hcp : cp ∉ Xs.frame.cols) (hnc : ∃ r ∈ Xs.frame.rows, ∃ r' ∈ Xs.frame.rows, u r ≠ u r')
    (hret : AddMeter.fit E'.R cp A m0 = (.ok v, m)) (hd : FullFactorial Xs.frame) (hall : ∀ f ∈ Xs.frame.cols, f ∈ a.feats) :
    ∃ (tbl : List (FeatRow F K)) (w : FeatRow F K → K) (k : K), s.ova = some tbl ∧ (∀ row ∈ tbl, row.val = .fin (w row)) ∧
      v = .fin k ∧
      2 * (1 - k) ≤ (tbl.map fun r => w r * w r / (sumSq Xs.frame (centred Xs.frame u) / Xs.frame.rows.length)).sum := by
  have hi := fullFactorial_independent h.setup.cols_nodup hd
  obtain ⟨_, hv⟩ := hTable_of_fit h.setup h.returns
  obtain ⟨k, hk1, _, hk, _⟩ := C21_index_at_most_one_iff_first_order hs hcp hnc hret
  obtain ⟨r, hr, r', hr', hne⟩ := hnc
  have hpos := sumSq_centred_pos hr hr' hne
  obtain ⟨tbl, h1, hp, h2⟩ := C68_ova_is_textbook_formula false h.setup h.sortFeat h.rows ho h.returns
  have hperm : (tbl.map (·.f)).Perm Xs.frame.cols :=
    hp.trans ((List.perm_ext_iff_of_nodup h.feats h.setup.cols_nodup).2 fun f => ⟨hv.cols f, hall f⟩)
  have hval : ∀ row ∈ tbl, row.val = .fin (match row.val with | .fin x => x | _ => 0) ∧
      (match row.val with | .fin x => x | _ => 0) * (match row.val with | .fin x => x | _ => 0) =
        sumSq Xs.frame (interactionOva u Xs.frame row.f) / Xs.frame.rows.length := by
    intro row hrow
    obtain ⟨x, e, _, hx⟩ := h2 row hrow
    simp only [e]
    exact ⟨trivial, hx⟩
  refine ⟨tbl, fun r => match r.val with | .fin x => x | _ => 0, k, h1, fun row hrow => (hval row hrow).1, hk1, ?_⟩
  have hn : (Xs.frame.rows.length : K) ≠ 0 := by simpa using h.rows
  have hu : ReadsOnly u Xs.frame.cols := fun r r' e => Num.fin.inj (h.setup.reads r r' e)
  have hc := rest_covered h.rows h.setup.cols_nodup hi hu
  rw [← (hperm.map fun f => sumSq Xs.frame (interactionOva u Xs.frame f)).sum_eq, List.map_map] at hc
  have e : (tbl.map fun r => (match r.val with | .fin x => x | _ => 0) * (match r.val with | .fin x => x | _ => 0) /
        (sumSq Xs.frame (centred Xs.frame u) / Xs.frame.rows.length)).sum =
      (tbl.map ((fun f => sumSq Xs.frame (interactionOva u Xs.frame f)) ∘ fun r => r.f)).sum / sumSq Xs.frame (centred Xs.frame u) := by
    rw [← sum_div]
    congr 1
    apply List.map_congr_left
    intro r hr
    rw [(hval r hr).2, Function.comp]
    field_simp
  rw [e, hk, additivity]
  have := div_le_div_of_nonneg_right hc hpos.le
  rw [mul_div_assoc] at this
  linarith

end C140

section Cases
open Ex

/-- `x y` on {0,1}×{0,2}×{1}: the hypotheses can be met -/
noncomputable def coverArgs : PdArgs Nat (Fin 4) ℤ ℝ := { (exAdd exSquare agreeU [0, 1, 2]).toPd with calculateOva := true }

example : ∃ (s : PdpMethod Nat Nat (Fin 4) ℤ ℝ) (tbl : _) (w : FeatRow (Fin 4) ℝ → ℝ) (k : ℝ), s.ova = some tbl ∧
    (∃ m, AddMeter.fit exRng 3 (exAdd exSquare agreeU [0, 1, 2]) (AddMeter.new (G := Nat) (L := Nat) 0) = (.ok (.fin k), m)) ∧
    2 * (1 - k) ≤ (tbl.map fun r => w r * w r / (sumSq ⟨[0, 1, 2], exSquare⟩ (centred ⟨[0, 1, 2], exSquare⟩ agreeU) / exSquare.length)).sum := by
  have hr : ReadsOnly (finM agreeU) [0, 1, 2] := by
    intro r r' h; simp only [finM, agreeU, h 0 (by decide), h 1 (by decide)]
  have hs : AddSetup (finM agreeU) agreeEnv (exAdd exSquare agreeU [0, 1, 2]) (AddMeter.new 0)
      ⟨[0, 1, 2, 3], ⟨[0, 1, 2], exSquare⟩⟩ :=
    { sampled := rfl
      rowWise := by intro n rows ys h; cases h; rfl
      reads := hr
      cols_nodup := by decide
      history := by intro co h; cases h }
  have hs' : FitSetup (finM agreeU) agreeEnv coverArgs (PdpMethod.new 0) ⟨[0, 1, 2, 3], ⟨[0, 1, 2], exSquare⟩⟩ :=
    { sampled := rfl
      rowWise := by intro n rows ys h; cases h; rfl
      reads := hr
      cols_nodup := by decide
      history := by intro co h; cases h }
  have hp : NeverFails (exAdd exSquare agreeU [0, 1, 2]).toPd.pf := fun n rows => ⟨_, rfl⟩
  have hp' : NeverFails coverArgs.pf := fun n rows => ⟨_, rfl⟩
  have hc : PdpMethod.chooseCalc (exAdd exSquare agreeU [0, 1, 2]).toPd
      ⟨[0, 1, 2, 3], ⟨[0, 1, 2], exSquare⟩⟩ (exAdd exSquare agreeU [0, 1, 2]).toPd.pf = .ok
      ⟨1, [0, 1, 2, 3], Calc.new (exAdd exSquare agreeU [0, 1, 2]).toPd.pf ⟨[0, 1, 2], exSquare⟩ 3⟩ := by
    simp only [PdpMethod.chooseCalc, AddArgs.toPd, exAdd]
  have hc' : PdpMethod.chooseCalc coverArgs ⟨[0, 1, 2, 3], ⟨[0, 1, 2], exSquare⟩⟩ coverArgs.pf = .ok
      ⟨1, [0, 1, 2, 3], Calc.new coverArgs.pf ⟨[0, 1, 2], exSquare⟩ 3⟩ := by
    simp only [PdpMethod.chooseCalc, coverArgs, AddArgs.toPd, exAdd]
  obtain ⟨v, m, hm⟩ := C22_fit_returns (cp := 3) hs hc hp hp
  have hX : (⟨[0, 1, 2], exSquare⟩ : Frame (Fin 4) ℤ).rows ≠ [] := by simp [exSquare]
  have hn : [(0 : Fin 4), 1, 2].Nodup := by decide
  have hr := (fit_returns (e := .keyError) (kind := .friedman false) hs' hc' hp' hp'
    (validFeatures_of_nodup (fun _ h => h) hn)).1.2 ⟨⟨_, ovoRows.eq_1 _ _ _ _ _⟩, impRows_ok _ _ hX _⟩
  obtain ⟨s, hr⟩ := ret_of_fst hr
  have hF : Fits (.friedman false) agreeU agreeEnv coverArgs (PdpMethod.new 0)
      ⟨[0, 1, 2, 3], ⟨[0, 1, 2], exSquare⟩⟩ s := ⟨hs', sortsBy_stableSort _ _, sortsBy_stableSort _ _, hX, hn, hr⟩
  obtain ⟨tbl, w, k, h1, _, h2, h3⟩ := C140_one_versus_all_covers hF rfl hs (by decide)
    ⟨![0, 0, 1, 0], by simp [exSquare], ![1, 2, 1, 0], by simp [exSquare], by norm_num [agreeU]⟩ hm
    ⟨![0, 0, 1, 0], ![[0, 1], [0, 2], [1], []], by decide +kernel⟩ (fun _ h => h)
  exact ⟨s, tbl, w, k, h1, ⟨m, h2 ▸ hm⟩, h3⟩

end Cases
end Artemis
