import Verif.Props.Comparator
import Verif.Props.Invariance
import Verif.Props.PlotFit
import Verif.Props.Ensemble
import Mathlib.Tactic.FinCases
import Mathlib.Tactic.NormNum

/-!
# Property C141: comparisons depend on the rankings only

Setting of `Verif/Props/Comparator.lean` (`View.cmp`: the table that is compared) and `Verif/Props/Invariance.lean`
(`Fits`: a returning `fit` on non-empty data with finite predictions).
-/

set_option linter.unusedSectionVars false
set_option linter.unusedVariables false
set_option linter.unusedSimpArgs false

namespace Artemis
open Spec

section C141
variable {F I J K : Type} [LinearOrder F] [LinearOrder J] [Field K] [LinearOrder K] [IsStrictOrderedRing K] [HasSqrt K]

/-- the table lists no two pairs as equally strong -/
def NoTies (t : List (OvoRow F K)) : Prop :=
  ∀ r ∈ t, ∀ q ∈ t, Num.keyLE false r.val q.val = true → Num.keyLE false q.val r.val = true → SamePair r q

/-- **C141** Two methods that list the same pairs in the same order have the same correlations with methods that list the same pairs in
the same order, whatever the values. -/
theorem C141_rankings_only (join : F → F → J) {m1 m2 m1' m2' : View F I K} {t1 t2 t1' t2' : List (OvoRow F K)} (h1 : m1.cmp = .ok t1)
    (h2 : m2.cmp = .ok t2) (h1' : m1'.cmp = .ok t1') (h2' : m2'.cmp = .ok t2') (e1 : List.Forall₂ SamePair t1 t1')
    (e2 : List.Forall₂ SamePair t2 t2') (k : CorrKind) : correlation join k m1 m2 = correlation join k m1' m2' := by
  have keys : ∀ {t t' : List (OvoRow F K)}, List.Forall₂ SamePair t t' →
      t.map (fun r => pairId join r.f1 r.f2) = t'.map (fun r => pairId join r.f1 r.f2) := by
    intro t t' h
    induction h with
    | nil => rfl
    | cons h _ ih => rw [List.map_cons, List.map_cons, ih, pairId_of_same join h]
  have emp : ∀ {t t' : List (OvoRow F K)}, List.Forall₂ SamePair t t' → t.isEmpty = t'.isEmpty := by
    intro t t' h
    cases h <;> rfl
  unfold correlation rankBoth rankEncoded
  rw [h1, h2, h1', h2']
  simp only [keys e1, keys e2, emp e1, emp e2]

theorem samePair_symm {r q : OvoRow F K} (h : SamePair r q) : SamePair q r := by
  rcases h with ⟨a, b⟩ | ⟨a, b⟩
  · exact Or.inl ⟨a.symm, b.symm⟩
  · exact Or.inr ⟨b.symm, a.symm⟩

theorem samePair_trans {r q p : OvoRow F K} (h : SamePair r q) (h' : SamePair q p) : SamePair r p := by
  rcases h with ⟨a, b⟩ | ⟨a, b⟩ <;> rcases h' with ⟨c, d⟩ | ⟨c, d⟩
  · exact Or.inl ⟨a.trans c, b.trans d⟩
  · exact Or.inr ⟨a.trans c, b.trans d⟩
  · exact Or.inr ⟨a.trans d, b.trans c⟩
  · exact Or.inl ⟨a.trans d, b.trans c⟩

/-- two sorted tables without ties that order the same pairs alike list them in the same order -/
theorem same_order {t t' : List (OvoRow F K)} (o : OncePerPair t) (o' : OncePerPair t')
    (p : ∀ r ∈ t, ∃ q ∈ t', SamePair r q) (p' : ∀ q ∈ t', ∃ r ∈ t, SamePair q r)
    (s : t.Pairwise fun a b => Num.keyLE false a.val b.val = true) (s' : t'.Pairwise fun a b => Num.keyLE false a.val b.val = true)
    (nt : NoTies t) (hm : ∀ r ∈ t, ∀ r2 ∈ t, ∀ q ∈ t', ∀ q2 ∈ t', SamePair r q → SamePair r2 q2 →
      Num.keyLE false q.val q2.val = true → Num.keyLE false r.val r2.val = true) : List.Forall₂ SamePair t t' := by
  induction t generalizing t' with
  | nil =>
    cases t' with
    | nil => exact .nil
    | cons q _ => obtain ⟨r, h, _⟩ := p' q List.mem_cons_self; cases h
  | cons r t ih =>
    cases t' with
    | nil => obtain ⟨r, h, _⟩ := p r List.mem_cons_self; cases h
    | cons q t' =>
      obtain ⟨or, o⟩ := List.pairwise_cons.1 o
      obtain ⟨oq, o'⟩ := List.pairwise_cons.1 o'
      obtain ⟨sr, s⟩ := List.pairwise_cons.1 s
      obtain ⟨sq, s'⟩ := List.pairwise_cons.1 s'
      have hrq : SamePair r q := by
        obtain ⟨r', hr', e1⟩ := p r List.mem_cons_self
        obtain ⟨q0, hq0, e2⟩ := p' q List.mem_cons_self
        rcases List.mem_cons.1 hr' with rfl | hr'
        · exact e1
        rcases List.mem_cons.1 hq0 with rfl | hq0
        · exact samePair_symm e2
        have a := hm q0 (List.mem_cons_of_mem _ hq0) r List.mem_cons_self q List.mem_cons_self r' (List.mem_cons_of_mem _ hr')
          (samePair_symm e2) e1 (sq r' hr')
        have b := nt r List.mem_cons_self q0 (List.mem_cons_of_mem _ hq0) (sr q0 hq0) a
        exact samePair_trans b (samePair_symm e2)
      refine .cons hrq (ih o o' ?_ ?_ s s' ?_ ?_)
      · intro a ha
        obtain ⟨b, hb, e⟩ := p a (List.mem_cons_of_mem _ ha)
        rcases List.mem_cons.1 hb with rfl | hb
        · exact absurd (samePair_trans hrq (samePair_symm e)) (or a ha)
        · exact ⟨b, hb, e⟩
      · intro b hb
        obtain ⟨a, ha, e⟩ := p' b (List.mem_cons_of_mem _ hb)
        rcases List.mem_cons.1 ha with rfl | ha
        · exact absurd (samePair_trans (samePair_symm hrq) (samePair_symm e)) (oq b hb)
        · exact ⟨a, ha, e⟩
      · exact fun a ha b hb => nt a (List.mem_cons_of_mem _ ha) b (List.mem_cons_of_mem _ hb)
      · exact fun a ha b hb c hc d hd => hm a (List.mem_cons_of_mem _ ha) b (List.mem_cons_of_mem _ hb) c (List.mem_cons_of_mem _ hc)
          d (List.mem_cons_of_mem _ hd)

variable {V G L : Type} [LinearOrder V] [DecidableEq L] [LawfulSqrt K]
variable {E E' : PdEnv G F K} {a a' : PdArgs L F V K} {s0 s s0' s' : PdpMethod G L F V K} {Xs Xs' : LFrame L F V} {u : Row F V → K}

theorem keyLE_scale {x y c : K} (hc : c ≠ 0) (h : Num.keyLE false (.fin (|c| * x)) (.fin (|c| * y)) = true) :
    Num.keyLE false (.fin x) (.fin y) = true := by
  have := keyLE_fin_false h
  have := le_of_mul_le_mul_left this (abs_pos.2 hc)
  simpa [Num.keyLE, Num.isNaN, Num.le] using this

/-- the tables of two fits that differ in the scale of the predictions list the pairs in the same order -/
theorem rescaled_ranking {kind : PdKind} {c d : K} (hc : c ≠ 0) (h : Fits kind u E a s0 Xs s)
    (h' : Fits kind (fun r => c * u r + d) E' a' s0' Xs' s') (hrows : Xs'.frame.rows = Xs.frame.rows)
    (hnum : ∀ f, E'.numeric f = E.numeric f) (hfs : a'.feats.Perm a.feats) {sort : PairSort F K}
    (hsort : SortsBy OvoRow.val false (sort false)) {t : List (OvoRow F K)} (ht : s.ovo = some t) (hnt : NoTies t) :
    ∃ t1 t1', (PdpMethod.view (I := I) sort kind s).cmp = .ok t1 ∧ (PdpMethod.view (I := I) sort kind s').cmp = .ok t1' ∧
      List.Forall₂ SamePair t1 t1' := by
  obtain ⟨t0, e0, _, c0, m0⟩ := C13_one_row_per_pair kind h.setup h.sortOvo h.feats h.returns
  obtain ⟨t', e0', _, c0', m0'⟩ := C13_one_row_per_pair kind h'.setup h'.sortOvo h'.feats h'.returns
  rw [ht] at e0
  cases e0
  change ∀ f ∈ a.feats, ∀ f' ∈ a.feats, _ at c0
  change ∀ row ∈ t, row.f1 ∈ a.feats ∧ row.f2 ∈ a.feats ∧ _ at m0
  change ∀ f ∈ a'.feats, ∀ f' ∈ a'.feats, _ at c0'
  change ∀ row ∈ t', row.f1 ∈ a'.feats ∧ row.f2 ∈ a'.feats ∧ _ at m0'
  have hf : ∀ f, f ∈ a'.feats ↔ f ∈ a.feats := fun f => hfs.mem_iff
  have p1 := (hsort t).1
  have p1' := (hsort t').1
  refine ⟨sort false t, sort false t', by simp only [PdpMethod.view, compareBase, ht], by simp only [PdpMethod.view, compareBase, e0'], ?_⟩
  have once := once_of_count c0 m0
  have once' := once_of_count c0' m0'
  have sym : ∀ {r q : OvoRow F K}, ¬ SamePair r q → ¬ SamePair q r := fun h e => h (samePair_symm e)
  have hval : ∀ r ∈ t, ∀ q ∈ t', SamePair r q → (kind = .friedman true → q.val = r.val) ∧
      (kind ≠ .friedman true → ∃ x : K, r.val = .fin x ∧ q.val = .fin (|c| * x)) := by
    intro r hr q hq e
    obtain ⟨f1, f2, f3⟩ := m0 r hr
    obtain ⟨g1, g2, _⟩ := C90_rescaled_predictions hc h h' hrows hnum hfs
    have rp : r.isPair r.f1 r.f2 := Or.inl ⟨rfl, rfl⟩
    have qp : q.isPair r.f1 r.f2 := samePair_symm e
    refine ⟨fun hk => ?_, fun hk => ?_⟩
    · obtain ⟨x, ⟨T, k1, _, k2⟩, ⟨T', k1', _, k2'⟩⟩ := g1 hk _ f1 _ f2 f3
      rw [ht] at k1
      rw [e0'] at k1'
      cases k1
      cases k1'
      rw [k2 r hr rp, k2' q hq qp]
    · obtain ⟨x, ⟨T, k1, _, k2⟩, ⟨T', k1', _, k2'⟩⟩ := g2 hk _ f1 _ f2 f3
      rw [ht] at k1
      rw [e0'] at k1'
      cases k1
      cases k1'
      exact ⟨x, k2 r hr rp, k2' q hq qp⟩
  refine same_order ((p1.pairwise_iff sym).2 once) ((p1'.pairwise_iff sym).2 once') ?_ ?_ (hsort t).2 (hsort t').2 ?_ ?_
  · intro r hr
    obtain ⟨f1, f2, f3⟩ := m0 r (p1.mem_iff.1 hr)
    have := c0' _ ((hf _).2 f1) _ ((hf _).2 f2) f3
    obtain ⟨q, hq, e⟩ := List.countP_pos_iff.1 (by rw [this]; exact Nat.one_pos)
    exact ⟨q, p1'.mem_iff.2 hq, samePair_symm (show SamePair q r from (of_decide_eq_true e : q.isPair r.f1 r.f2))⟩
  · intro r hr
    obtain ⟨f1, f2, f3⟩ := m0' r (p1'.mem_iff.1 hr)
    have := c0 _ ((hf _).1 f1) _ ((hf _).1 f2) f3
    obtain ⟨q, hq, e⟩ := List.countP_pos_iff.1 (by rw [this]; exact Nat.one_pos)
    exact ⟨q, p1.mem_iff.2 hq, samePair_symm (show SamePair q r from (of_decide_eq_true e : q.isPair r.f1 r.f2))⟩
  · exact fun r hr q hq => hnt r (p1.mem_iff.1 hr) q (p1.mem_iff.1 hq)
  · intro r hr r2 hr2 q hq q2 hq2 e e2 hle
    have v1 := hval r (p1.mem_iff.1 hr) q (p1'.mem_iff.1 hq) e
    have v2 := hval r2 (p1.mem_iff.1 hr2) q2 (p1'.mem_iff.1 hq2) e2
    by_cases hk : kind = .friedman true
    · rw [← v1.1 hk, ← v2.1 hk]; exact hle
    · obtain ⟨x, x1, x2⟩ := v1.2 hk
      obtain ⟨y, y1, y2⟩ := v2.2 hk
      rw [x2, y2] at hle
      rw [x1, y1]
      exact keyLE_scale hc hle

/-- **C141** Two of the methods based on partial dependence, each fitted for a model and for the model with its predictions `p` replaced by
`c * p + d`: if neither lists ties, all correlations are the same. -/
theorem C141_rescaled {kind kind2 : PdKind} {c d : K} (hc : c ≠ 0) {b b' : PdArgs L F V K} {z0 z z0' z' : PdpMethod G L F V K}
    (h : Fits kind u E a s0 Xs s) (h' : Fits kind (fun r => c * u r + d) E' a' s0' Xs' s')
    (h2 : Fits kind2 u E b z0 Xs z) (h2' : Fits kind2 (fun r => c * u r + d) E' b' z0' Xs' z')
    (hrows : Xs'.frame.rows = Xs.frame.rows) (hnum : ∀ f, E'.numeric f = E.numeric f) (hfs : a'.feats.Perm a.feats)
    (hfs2 : b'.feats.Perm b.feats) {sort : PairSort F K} (hsort : SortsBy OvoRow.val false (sort false)) {t t2 : List (OvoRow F K)}
    (ht : s.ovo = some t) (hnt : NoTies t) (ht2 : z.ovo = some t2) (hnt2 : NoTies t2) (join : F → F → J) (k : CorrKind) :
    correlation join k (PdpMethod.view (I := I) sort kind s) (PdpMethod.view sort kind2 z) =
      correlation join k (PdpMethod.view (I := I) sort kind s') (PdpMethod.view sort kind2 z') := by
  obtain ⟨t1, t1', e1, e1', m1⟩ := rescaled_ranking (I := I) hc h h' hrows hnum hfs hsort ht hnt
  obtain ⟨t3, t3', e3, e3', m3⟩ := rescaled_ranking (I := I) hc h2 h2' hrows hnum hfs2 hsort ht2 hnt2
  exact C141_rankings_only join e1 e3 e1' e3' m1 m3 k

end C141

section Cases
open Ex

/-- the corners of a cube -/
def cubeX : LFrame Nat (Fin 3) ℤ := ⟨List.range 8, ⟨[0, 1, 2], [![1, 1, 1], ![1, 1, -1], ![1, -1, 1], ![1, -1, -1], ![-1, 1, 1], ![-1, 1, -1],
  ![-1, -1, 1], ![-1, -1, -1]]⟩⟩

/-- `x y + 2 x z + 3 y z` -/
noncomputable def cubeU (r : Row (Fin 3) ℤ) : ℝ := r 0 * r 1 + 2 * (r 0 * r 2) + 3 * (r 1 * r 2)

noncomputable def cubeEnv : PdEnv Nat (Fin 3) ℝ where
  R := exRng
  sortOvo := stableSort OvoRow.val false
  sortFeat := stableSort FeatRow.val false
  numeric := fun _ => true

noncomputable def cubeArgs (u : Row (Fin 3) ℤ → ℝ) : PdArgs Nat (Fin 3) ℤ ℝ where
  model := { ident := 1, predict := some (fun _ rows => .ok (rows.map (fun r => .fin (u r)))), predictProba := none }
  X := cubeX
  n := none
  predictFunction := none
  features := none
  batchsize := 7
  pdCalculator := none
  calculateOva := true

theorem cubeSetup (u : Row (Fin 3) ℤ → ℝ) : FitSetup (finM u) cubeEnv (cubeArgs u) (PdpMethod.new 0) cubeX where
  sampled := rfl
  rowWise := by
    intro n rows ys h; cases h; rfl
  reads := by
    intro r r' h
    have : r = r' := by
      funext f
      exact h f (by revert f; decide)
    rw [this]
  cols_nodup := by decide
  history := by intro co h; cases h

theorem cubeChoose (u : Row (Fin 3) ℤ → ℝ) : PdpMethod.chooseCalc (cubeArgs u) cubeX (cubeArgs u).pf =
    .ok ⟨1, List.range 8, Calc.new (cubeArgs u).pf cubeX.frame 7⟩ := by
  simp only [PdpMethod.chooseCalc, cubeArgs, cubeX]

theorem cubeFit (n : Bool) (u : Row (Fin 3) ℤ → ℝ) :
    ∃ s, Fits (L := Nat) (.friedman n) u cubeEnv (cubeArgs u) (PdpMethod.new 0) cubeX s := by
  have hX : cubeX.frame.rows ≠ [] := by simp [cubeX]
  have hp : NeverFails (cubeArgs u).pf := fun n rows => ⟨_, rfl⟩
  have h := (fit_returns (e := .keyError) (kind := .friedman n) (cubeSetup u) (cubeChoose u) hp hp
    (validFeatures_of_nodup (fun _ h => h) (by show [(0 : Fin 3), 1, 2].Nodup; decide))).1.2 ⟨⟨_, ovoRows.eq_1 _ _ _ _ _⟩, impRows_ok _ _ hX _⟩
  obtain ⟨s, hs⟩ := ret_of_fst h
  exact ⟨s, cubeSetup u, sortsBy_stableSort _ _, sortsBy_stableSort _ _, hX, by show [(0 : Fin 3), 1, 2].Nodup; decide, hs⟩

theorem cube_values (f f' : Fin 3) (h : f < f') :
    (cubeX.frame.rows.map fun r => interaction cubeU cubeX.frame f f' r * interaction cubeU cubeX.frame f f' r).sum /
      cubeX.frame.rows.length = if f = 1 then 9 else if f' = 1 then 1 else 4 := by
  have e : ∀ (i j : Fin 3) (v w : ℤ), i < j → pd2 cubeU cubeX.frame i j v w = if i = 1 then 3 * (v * w) else if j = 1 then v * w else 2 * (v * w) := by
    intro i j v w hij
    fin_cases i <;> fin_cases j <;> simp at hij <;>
    · simp [pd2, average, cubeX, cubeU, setF]
      ring
  have e1 : ∀ (i : Fin 3) (v : ℤ), pd1 cubeU cubeX.frame i v = 0 := by
    intro i v
    fin_cases i <;>
    · simp [pd1, average, cubeX, cubeU, setF]
      ring
  simp only [interaction, e f f' _ _ h, e1]
  fin_cases f <;> fin_cases f' <;> simp at h <;>
  · norm_num [centred, average, cubeX]

/-- the unnormalized strengths are 1, 2 and 3: no ties -/
theorem cube_noTies {s : PdpMethod Nat Nat (Fin 3) ℤ ℝ} (h : Fits (.friedman false) cubeU cubeEnv (cubeArgs cubeU) (PdpMethod.new 0) cubeX s)
    {t : List (OvoRow (Fin 3) ℝ)} (ht : s.ovo = some t) : NoTies t := by
  have hall : ∀ f : Fin 3, f ∈ (cubeArgs cubeU).feats := fun f => by show f ∈ [0, 1, 2]; revert f; decide
  have hv : ∀ r ∈ t, r.f1 ≠ r.f2 ∧ r.val = .fin ((r.f1.val + r.f2.val : ℕ) : ℝ) := by
    intro r hr
    obtain ⟨t0, e0, _, _, m0⟩ := C13_one_row_per_pair (.friedman false) h.setup h.sortOvo h.feats h.returns
    rw [ht] at e0
    cases e0
    have hne := (m0 r hr).2.2
    obtain ⟨x, ⟨t1, e1, _, e2⟩, x0, hx⟩ := shows_unnormalized h (hall r.f1) (hall r.f2) hne
    rw [ht] at e1
    cases e1
    refine ⟨hne, ?_⟩
    rw [e2 r hr (Or.inl ⟨rfl, rfl⟩)]
    have : x * x = ((r.f1.val + r.f2.val : ℕ) : ℝ) * ((r.f1.val + r.f2.val : ℕ) : ℝ) := by
      rw [hx]
      generalize r.f1 = i at *
      generalize r.f2 = j at *
      rcases lt_or_gt_of_ne hne with hl | hl
      · rw [cube_values i j hl]
        clear hx
        revert hl
        fin_cases i <;> fin_cases j <;> norm_num
      · simp only [interaction_swap _ _ hne]
        rw [cube_values j i hl]
        clear hx
        revert hl
        fin_cases i <;> fin_cases j <;> norm_num
    rw [(mul_self_inj x0 (Nat.cast_nonneg _)).1 this]
  intro r hr q hq h1 h2
  obtain ⟨n1, v1⟩ := hv r hr
  obtain ⟨n2, v2⟩ := hv q hq
  rw [v1, v2] at h1 h2
  have e := le_antisymm (keyLE_fin_false h1) (keyLE_fin_false h2)
  have e' : q.f1.val + q.f2.val = r.f1.val + r.f2.val := Nat.cast_injective e
  have key : ∀ a b c d : Fin 3, a ≠ b → c ≠ d → c.val + d.val = a.val + b.val → (a = c ∧ b = d) ∨ (a = d ∧ b = c) := by decide
  exact key _ _ _ _ n1 n2 e'

/-- C141: `x y + 2 x z + 3 y z` and the same with its predictions multiplied by -2 and shifted by 5 -/
example : ∃ s s' : PdpMethod Nat Nat (Fin 3) ℤ ℝ, Fits (.friedman false) cubeU cubeEnv (cubeArgs cubeU) (PdpMethod.new 0) cubeX s ∧
    Fits (.friedman false) (fun r => -2 * cubeU r + 5) cubeEnv (cubeArgs fun r => -2 * cubeU r + 5) (PdpMethod.new 0) cubeX s' ∧
    ∀ k, correlation (fun a b : Fin 3 => a.val + 3 * b.val) k (PdpMethod.view (I := Nat) (stableSort OvoRow.val) (.friedman false) s)
        (PdpMethod.view (stableSort OvoRow.val) (.friedman false) s) =
      correlation (fun a b : Fin 3 => a.val + 3 * b.val) k (PdpMethod.view (I := Nat) (stableSort OvoRow.val) (.friedman false) s')
        (PdpMethod.view (stableSort OvoRow.val) (.friedman false) s') := by
  obtain ⟨s, h⟩ := cubeFit false cubeU
  obtain ⟨s', h'⟩ := cubeFit false fun r => -2 * cubeU r + 5
  obtain ⟨t, ht, _⟩ := C13_one_row_per_pair (.friedman false) h.setup h.sortOvo h.feats h.returns
  exact ⟨s, s', h, h', fun k => C141_rescaled (by norm_num) h h' h h' rfl (fun _ => rfl) (List.Perm.refl _) (List.Perm.refl _)
    (sortsBy_stableSort _ _) ht (cube_noTies h ht) ht (cube_noTies h ht) _ k⟩

/-- C141: other values in the same order, one pair written the other way round -/
example (k : CorrKind) (m : View (Fin 3) Nat ℚ) (ht : m.cmp = .ok [⟨0, 1, .fin 1⟩, ⟨1, 2, .fin (1/2)⟩, ⟨0, 2, .fin 0⟩]) :
    correlation (fun a b : Fin 3 => a.val + 3 * b.val) k m { m with cmp := .ok [⟨1, 2, .fin 9⟩, ⟨0, 1, .fin 7⟩, ⟨0, 2, .fin 5⟩] } =
      correlation (fun a b : Fin 3 => a.val + 3 * b.val) k { m with cmp := .ok [⟨0, 1, .fin 100⟩, ⟨2, 1, .fin 3⟩, ⟨0, 2, .fin (-7)⟩] }
        { m with cmp := .ok [⟨1, 2, .fin 1⟩, ⟨1, 0, .fin 1⟩, ⟨2, 0, .nan⟩] } :=
  C141_rankings_only _ ht rfl rfl rfl (by simp [SamePair, OvoRow.isPair]) (by simp [SamePair, OvoRow.isPair]) k

end Cases
end Artemis
