import Verif.Model.RoundedCompare
import Verif.Proofs.CompareGroups
import Verif.Props.RoundedTrees
import Verif.Props.RoundedCmdGraph

/-!
# C170: comparison view of conditional minimal depth in floating-point arithmetic
-/

set_option linter.unusedSectionVars false
set_option linter.unusedVariables false
set_option linter.unusedSimpArgs false

namespace Artemis
open Spec

section Pair
variable {K : Type} [Field K] [LinearOrder K] [IsStrictOrderedRing K] [FloorRing K]

/-- the compensated sum of two floats is their rounded sum -/
theorem kahan_two {x y : K} (hx : (binary64 : Arith K).rnd x = .fin x) (hy : (binary64 : Arith K).rnd y = .fin y) :
    kahanSum (binary64 : Arith K) [.fin x, .fin y] = (binary64 : Arith K).rnd (x + y) := by
  have h0 : (binary64 : Arith K).rnd (0 : K) = .fin 0 := by
    have := (binary64_whole (K := K)).exact 0 (Nat.zero_le _)
    simpa using this
  have s1 : kahanStep (binary64 : Arith K) (.fin 0, .fin 0) (.fin x) = (.fin x, .fin 0) := by
    simp [kahanStep, Arith.sub, Arith.add, Arith.r, Num.sub, Num.add, Num.neg, hx, h0, Num.isNaN]
  unfold kahanSum
  rw [List.foldl_cons, s1, List.foldl_cons, List.foldl_nil]
  simp [kahanStep, Arith.sub, Arith.add, Arith.r, Num.sub, Num.add, Num.neg, hy, h0]

/-- the mean of the floats next to two numbers between 0 and `D` -/
theorem mean_two_near {D : Nat} (hD : D + 1 ≤ 2 ^ 51) {a b : K} (a0 : 0 ≤ a) (b0 : 0 ≤ b) (aD : a ≤ D) (bD : b ≤ D) :
    ∃ x y v, (binary64 : Arith K).rnd a = .fin x ∧ (binary64 : Arith K).rnd b = .fin y ∧
      nanMeanR (binary64 : Arith K) [.fin x, .fin y] = .fin v ∧ nanMeanR (binary64 : Arith K) [.fin y, .fin x] = .fin v ∧
      |v - (a + b) / 2| ≤ 6 * (D + 1) / 2 ^ 53 := by
  have hacc := binary64_accurate (K := K)
  have hη : (1 : K) / 2 ^ 1075 ≤ 1 / 2 ^ 53 := one_div_le_one_div_of_le (pow_pos two_pos _) (pow_le_pow_right₀ one_le_two (by omega))
  have hDK : (D : K) + 1 ≤ 2 ^ 51 := by exact_mod_cast hD
  have hd0 : (0 : K) ≤ D := Nat.cast_nonneg D
  have hB : (2 : K) ^ 53 ≤ 2 ^ 1023 := pow_le_pow_right₀ one_le_two (by omega)
  generalize hu : (1 : K) / 2 ^ 53 = u at *
  generalize (1 : K) / 2 ^ 1075 = η at *
  generalize (2 : K) ^ 1023 = B at *
  have u0 : 0 ≤ u := hacc.u_nonneg
  have hu1 : u * (D + 1) ≤ 1 / 4 := by
    rw [← hu, one_div, inv_mul_le_iff₀ (by positivity)]
    calc (D : K) + 1 ≤ 2 ^ 51 := hDK
      _ = 2 ^ 53 * (1 / 4) := by norm_num
  have h6 : 6 * ((D : K) + 1) / 2 ^ 53 = 6 * (u * (D + 1)) := by rw [← hu]; ring
  rw [h6]
  have big : 4 * ((D : K) + 1) ≤ B := by
    refine le_trans ?_ hB
    calc 4 * ((D : K) + 1) ≤ 4 * 2 ^ 51 := by linarith
      _ = 2 ^ 53 := by norm_num
  have hu' : η ≤ u := hη
  have hub : u ≤ u * (D + 1) := by nlinarith
  obtain ⟨x, ex, hx⟩ := hacc.rnd_near a (by rw [abs_of_nonneg a0]; linarith)
  obtain ⟨y, ey, hy⟩ := hacc.rnd_near b (by rw [abs_of_nonneg b0]; linarith)
  rw [abs_of_nonneg a0] at hx
  rw [abs_of_nonneg b0] at hy
  have ha' := mul_le_mul_of_nonneg_left aD u0
  have hb' := mul_le_mul_of_nonneg_left bD u0
  have hx1 : |x - a| ≤ u * (D + 1) := by rw [mul_add, mul_one]; linarith
  have hy1 : |y - b| ≤ u * (D + 1) := by rw [mul_add, mul_one]; linarith
  obtain ⟨x1, x2⟩ := abs_le.1 hx1
  obtain ⟨y1, y2⟩ := abs_le.1 hy1
  have hs1 : |x + y| ≤ 2 * (D + 1) := abs_le.2 ⟨by linarith, by linarith⟩
  obtain ⟨s, es, hs⟩ := hacc.rnd_near (x + y) (by linarith)
  have hs2 : |s - (x + y)| ≤ 3 * (u * (D + 1)) := by
    have := mul_le_mul_of_nonneg_left hs1 u0
    linarith
  obtain ⟨s1, s2⟩ := abs_le.1 hs2
  obtain ⟨t1, t2⟩ := abs_le.1 hs1
  have hh : |s / 2| ≤ 2 * (D + 1) := abs_le.2 ⟨by linarith, by linarith⟩
  obtain ⟨v, ev, hv⟩ := hacc.rnd_near (s / 2) (by linarith)
  have hv2 : |v - s / 2| ≤ 3 * (u * (D + 1)) := by
    have := mul_le_mul_of_nonneg_left hh u0
    linarith
  obtain ⟨v1, v2⟩ := abs_le.1 hv2
  have hx' : (binary64 : Arith K).rnd x = .fin x := round64_idem ex
  have hy' : (binary64 : Arith K).rnd y = .fin y := round64_idem ey
  have two : ∀ p q : K, (binary64 : Arith K).rnd p = .fin p → (binary64 : Arith K).rnd q = .fin q → p + q = x + y →
      nanMeanR (binary64 : Arith K) [.fin p, .fin q] = .fin v := by
    intro p q hp hq e
    simp only [nanMeanR, List.filter_cons, Num.isNaN, Bool.not_false, if_true, List.filter_nil, List.isEmpty_cons, Bool.false_eq_true, if_false,
      kahan_two hp hq, e, es, List.length_cons, List.length_nil, Num.ofNat]
    have h2 : ((0 + 1 + 1 : Nat) : K) ≠ 0 := by norm_num
    simp only [Arith.div, Num.div, if_neg h2, Arith.r]
    rw [← ev]
    congr 2
  refine ⟨x, y, v, ex, ey, two x y hx' hy' rfl, two y x hy' hx' (add_comm _ _), ?_⟩
  exact abs_le.2 ⟨by linarith, by linarith⟩

end Pair

section Compare
variable {F I K : Type} [LinearOrder F] [LinearOrder I] [Field K] [LinearOrder K] [IsStrictOrderedRing K]

/-- `v` is the mean of the two directed conditional minimal depths of two columns (NaN if no tree uses both) -/
def IsPairDepth (ts : List LTree) (i j : Nat) (v : Num K) : Prop :=
  ∃ v1 v2, IsMeanCondDepth ts i j v1 ∧ IsMeanCondDepth ts j i v2 ∧ v = mean2 v1 v2

theorem pairDepth_unique {ts : List LTree} {i j : Nat} {v w : Num K} (hv : IsPairDepth ts i j v) (hw : IsPairDepth ts i j w) : v = w := by
  obtain ⟨v1, v2, a, b, rfl⟩ := hv
  obtain ⟨w1, w2, c, d, rfl⟩ := hw
  rw [meanCondDepth_unique a c, meanCondDepth_unique b d]

open Classical in
theorem pairDepth_mean {ts : List LTree} {D : Nat} (hD : ∀ t ∈ ts, t.ids.length ≤ D) {i j : Nat} {v : Num K} (h : IsPairDepth ts i j v) :
    ∃ zs : List Nat, v = meanNat zs ∧ zs.length ≤ 2 * ts.length ∧ ∀ z ∈ zs, z ≤ D := by
  obtain ⟨v1, v2, ⟨xs, hx, rfl⟩, ⟨ys, hy, rfl⟩, rfl⟩ := h
  obtain ⟨b1, b2⟩ := forall₂_bounds hx List.filter_sublist (fun t x hx => condDepth_le hx) hD
  obtain ⟨c1, c2⟩ := forall₂_bounds hy List.filter_sublist (fun t x hx => condDepth_le hx) hD
  have hl : xs.length = ys.length := by
    rw [← hx.length_eq, ← hy.length_eq]
    congr 1
    apply List.filter_congr
    intro t _
    simp [and_comm]
  refine ⟨xs ++ ys, ?_, by rw [List.length_append]; omega, ?_⟩
  · unfold meanNat
    by_cases h0 : xs = []
    · have : ys = [] := by cases ys <;> simp_all
      subst h0 this
      simp [mean2]
    · have h1 : ys ≠ [] := by rintro rfl; simp at hl; exact h0 hl
      rw [if_neg h0, if_neg h1, if_neg (by simp [h0])]
      have hq : (xs.length : K) ≠ 0 := by
        have := List.length_pos_of_ne_nil h0
        exact_mod_cast this.ne'
      simp only [mean2, List.map_append, List.sum_append, List.length_append, Nat.cast_add, ← hl]
      congr 1
      field_simp
      ring
  · intro z hz
    rcases List.mem_append.1 hz with h | h
    · exact b2 z h
    · exact c2 z h

/-- `r` is the float near `w`: missing exactly if `w` is, and otherwise within `δ` -/
def NearNum (δ : K) (w r : Num K) : Prop := (w = .nan ∧ r = .nan) ∨ ∃ e v, w = .fin e ∧ r = .fin v ∧ |v - e| ≤ δ

theorem near_order {T D : Nat} {δ : K} (hsep : 2 * ((2 * T : Nat) : K) ^ 2 * δ < 1) {xs ys : List Nat} (hlx : xs.length ≤ 2 * T)
    (hly : ys.length ≤ 2 * T) {r s : Num K} (hr : NearNum δ (meanNat xs) r) (hs : NearNum δ (meanNat ys) s)
    (h : Num.keyLE true r s = true) : Num.keyLE true (meanNat xs : Num K) (meanNat ys) = true := by
  rcases hs with ⟨e, rfl⟩ | ⟨w, b, e2, rfl, hb⟩
  · rw [e]
    cases (meanNat xs : Num K) <;> rfl
  rcases hr with ⟨e, rfl⟩ | ⟨v, a, e1, rfl, ha⟩
  · simp [Num.keyLE, Num.isNaN] at h
  have hab : a ≤ b := by simpa [Num.keyLE, Num.isNaN, Num.le] using h
  have hx : xs ≠ [] := by rintro rfl; simp [meanNat] at e1
  have hy : ys ≠ [] := by rintro rfl; simp [meanNat] at e2
  have sepn := mean_separated (K := K) hy hx hly hlx
  unfold meanNat at e1 e2
  rw [if_neg hx] at e1
  rw [if_neg hy] at e2
  rw [Num.fin.inj e1, Num.fin.inj e2] at sepn
  unfold meanNat
  rw [if_neg hx, if_neg hy, e1, e2]
  have hvw : v ≤ w := by
    by_contra hn
    have h1 := sepn (not_le.1 hn)
    have h2 : v - w ≤ 2 * δ := by
      have := (abs_le.1 ha).1
      have := (abs_le.1 hb).2
      linarith
    have h3 := mul_le_mul_of_nonneg_left h2 (sq_nonneg (((2 * T : Nat) : K)))
    linarith
  simpa [Num.keyLE, Num.isNaN, Num.le] using hvw

/-- **C170** Conditional minimal depth fitted and prepared for comparison in binary64, for a forest of `T` trees of at most `D` nodes with
`T² (D + 1) ≤ 2^47`, and columns whose joined pairs do not collide: the comparison table has one row per pair of columns; its value is NaN
exactly if no tree uses both columns, and otherwise within `6 (D + 1) / 2^53` of the exact mean of the two exact directed means, although it
is a mean of rounded means; and the table is in the order of the exact values, so that rounding never reverses two pairs. -/
theorem C170_compare [FloorRing K] {D : Nat} (E : CmdEnv F I K) (hE : SortsCmd E.sortOvo) (hI : SortsBy ImpRow.val true E.sortImp)
    (hC : SortsBy CmdRow.val true E.sortCmp) {m : Forest F} {ts : List LTree} (h : ForestOf m ts) (hts : ts ≠ []) (hc : m.columns ≠ [])
    (hD : ∀ t ∈ m.trees, t.length ≤ D) (hT : ts.length ^ 2 * (D + 1) ≤ 2 ^ 47) (s0 : CmdMethod F K)
    (hinj : ∀ a ∈ m.columns, ∀ b ∈ m.columns, ∀ c ∈ m.columns, ∀ e ∈ m.columns, pairId E.join a b = pairId E.join c e →
      (a = c ∧ b = e) ∨ (a = e ∧ b = c)) :
    ∃ out, CmdMethod.compareOvoR binary64 E (CmdMethod.fitR binary64 (kahanSum binary64) E m s0).2 = .ok out ∧
      (∀ r ∈ out, r.root ∈ m.columns ∧ r.var ∈ m.columns ∧ r.root ≠ r.var) ∧
      (∀ i j f g, m.columns[i]? = some f → m.columns[j]? = some g → i ≠ j → ∃ r w, out.filter (CmdRow.isPair f g) = [r] ∧
        IsPairDepth ts i j w ∧ NearNum (6 * ((D : K) + 1) / 2 ^ 53) w r.val) ∧
      out.Pairwise (fun r s => ∀ (i j i' j' : Nat) (v w : Num K), m.columns[i]? = some r.root → m.columns[j]? = some r.var → m.columns[i']? = some s.root →
        m.columns[j']? = some s.var → IsPairDepth ts i j v → IsPairDepth ts i' j' w → Num.keyLE true v w = true) := by
  classical
  have hp0 : 0 < ts.length := List.length_pos_iff.2 hts
  have hT1 : ts.length * (D + 1) ≤ 2 ^ 47 := by nlinarith
  have hD1 : D + 1 ≤ 2 ^ 47 := by nlinarith
  have hTD : ts.length * D ≤ 2 ^ 53 - 1 := (Nat.mul_le_mul_left _ (Nat.le_succ D)).trans (hT1.trans (by norm_num))
  obtain ⟨⟨rows, ho, _, hfeat, hrow, _⟩, _⟩ := C157_correctly_rounded (A := binary64) (K := K) binary64_lawful binary64_whole
    (kahan_addsWhole binary64_whole) E hE hI h hts hc hD hTD s0
  have small := forest_small h hD
  have inj : ∀ {i j : Nat} {f : F}, m.columns[i]? = some f → m.columns[j]? = some f → i = j := by
    intro i j f h1 h2
    obtain ⟨l1, e1⟩ := List.getElem?_eq_some_iff.1 h1
    obtain ⟨l2, e2⟩ := List.getElem?_eq_some_iff.1 h2
    exact (List.Nodup.getElem_inj_iff h.names).1 (e1.trans e2.symm)
  have hfil : ∀ f g, (rows.map (CmdRow.round binary64)).filter (fun r => decide (r.root = f ∧ r.var = g)) =
      (rows.filter (fun r => decide (r.root = f ∧ r.var = g))).map (CmdRow.round binary64) := by
    intro f g
    rw [List.filter_map]
    rfl
  obtain ⟨o1, o2, o3⟩ := compareRows_spec (nanMeanR binary64) E.join hC (cols := m.columns) (rows := rows.map (CmdRow.round binary64))
    (by
      intro r hr
      obtain ⟨q, hq, rfl⟩ := List.mem_map.1 hr
      exact hfeat q hq)
    (by
      intro f hf g hg hne
      obtain ⟨i, hi⟩ := List.getElem?_of_mem hf
      obtain ⟨j, hj⟩ := List.getElem?_of_mem hg
      obtain ⟨r, hr, _⟩ := hrow i j f g hi hj hne
      exact ⟨r.round binary64, by rw [hfil, hr]; rfl⟩) hinj
  have hout : CmdMethod.compareOvoR binary64 E (CmdMethod.fitR binary64 (kahanSum binary64) E m s0).2 =
      .ok (compareRows (nanMeanR binary64) E.join E.sortCmp (rows.map (CmdRow.round binary64))) := by
    unfold CmdMethod.compareOvoR
    rw [ho]
    rfl
  generalize compareRows (nanMeanR binary64) E.join E.sortCmp (rows.map (CmdRow.round binary64)) = out at *
  have hval : ∀ i j f g, m.columns[i]? = some f → m.columns[j]? = some g → i ≠ j → ∃ r w, out.filter (CmdRow.isPair f g) = [r] ∧
        IsPairDepth ts i j w ∧ NearNum (6 * ((D : K) + 1) / 2 ^ 53) w r.val := by
    intro i j f g hi hj hne
    have hfg : f ≠ g := fun e => hne (inj hi (by rw [e]; exact hj))
    obtain ⟨r1, r2, r, l, q1, q2, q3, q4, q5⟩ := o2 f (List.mem_of_getElem? hi) g (List.mem_of_getElem? hj) hfg
    obtain ⟨p1, g1, m1, _⟩ := hrow i j f g hi hj hfg
    obtain ⟨p2, g2, m2, _⟩ := hrow j i g f hj hi hfg.symm
    rw [hfil, g1] at q1
    rw [hfil, g2] at q2
    have e1 : r1.val = (binary64 : Arith K).r p1.val := by
      have := List.cons.inj q1
      rw [← this.1]; rfl
    have e2 : r2.val = (binary64 : Arith K).r p2.val := by
      have := List.cons.inj q2
      rw [← this.1]; rfl
    refine ⟨r, _, q3, ⟨p1.val, p2.val, m1, m2, rfl⟩, ?_⟩
    rw [e1, e2] at q4
    rcases meanCondDepth_kinds m1 m2 with ⟨a, b, ea, eb⟩ | ⟨ea, eb⟩
    · rw [ea, eb] at q4 ⊢
      right
      have bound : ∀ {i j : Nat} {x : K}, IsMeanCondDepth ts i j (.fin x) → 0 ≤ x ∧ x ≤ D := by
        intro i j x hx
        obtain ⟨xs, h1, h2⟩ := hx
        obtain ⟨b1, b2⟩ := forall₂_bounds h1 List.filter_sublist (fun t x hx => condDepth_le hx) small
        unfold meanNat at h2
        split at h2
        · cases h2
        · next hne =>
          have e := Num.fin.inj h2
          have := mean_bound (K := K) hne b2
          rw [← e] at this
          refine ⟨?_, (le_abs_self x).trans this⟩
          rw [e, ← castSum]
          positivity
      rw [ea] at m1
      rw [eb] at m2
      obtain ⟨a0, aD⟩ := bound m1
      obtain ⟨b0, bD⟩ := bound m2
      obtain ⟨x, y, v, hx, hy, k1, k2, k3⟩ := mean_two_near (K := K) (D := D) (hD1.trans (by norm_num)) a0 b0 aD bD
      simp only [Arith.r, hx, hy] at q4
      have hl : l = [.fin x, .fin y] ∨ l = [.fin y, .fin x] := by
        match l, q4 with
        | [c, d], hp =>
          have hc : c ∈ [Num.fin x, Num.fin y] := hp.mem_iff.1 (by simp)
          rcases List.mem_cons.1 hc with rfl | hc
          · left
            have := List.perm_cons _ |>.1 hp
            rw [List.perm_singleton.1 this]
          · have hw : c = .fin y := by simpa using hc
            subst hw
            right
            have := List.perm_cons _ |>.1 (hp.trans (List.Perm.swap _ _ _))
            rw [List.perm_singleton.1 this]
        | [], hp => exact absurd hp.length_eq (by simp)
        | [_], hp => exact absurd hp.length_eq (by simp)
        | _ :: _ :: _ :: _, hp => exact absurd hp.length_eq (by simp)
      refine ⟨(a + b) / 2, v, rfl, ?_, k3⟩
      rw [q5]
      rcases hl with rfl | rfl
      · exact k1
      · exact k2
    · rw [ea, eb] at q4 ⊢
      left
      refine ⟨rfl, ?_⟩
      have hl : ∀ z ∈ l, z = Num.nan := by
        intro z hz
        have := q4.mem_iff.1 hz
        simpa [Arith.r] using this
      have : l.filter (fun x => !x.isNaN) = [] := by
        rw [List.filter_eq_nil_iff]
        intro z hz
        rw [hl z hz]
        simp [Num.isNaN]
      rw [q5]
      simp [nanMeanR, this]
  refine ⟨out, hout, o1, hval, ?_⟩
  refine o3.imp_of_mem ?_
  intro r s hr hs hle i j i' j' v w hi hj hi' hj' hv hw
  have near : ∀ r ∈ out, ∀ i j v, m.columns[i]? = some r.root → m.columns[j]? = some r.var → IsPairDepth ts i j v →
      NearNum (6 * ((D : K) + 1) / 2 ^ 53) v r.val := by
    intro r hr i j v hi hj hv
    have hne : i ≠ j := fun e => (o1 r hr).2.2 (by rw [e] at hi; exact Option.some.inj (hi.symm.trans hj))
    obtain ⟨q, w, hq, hw, hn⟩ := hval i j _ _ hi hj hne
    have : r ∈ out.filter (CmdRow.isPair r.root r.var) := by
      rw [List.mem_filter]
      exact ⟨hr, by simp [CmdRow.isPair]⟩
    rw [hq, List.mem_singleton] at this
    rw [this, pairDepth_unique hv hw]
    exact hn
  have n1 := near r hr i j v hi hj hv
  have n2 := near s hs i' j' w hi' hj' hw
  obtain ⟨xs, rfl, lx, _⟩ := pairDepth_mean small hv
  obtain ⟨ys, rfl, ly, _⟩ := pairDepth_mean small hw
  refine near_order (T := ts.length) (D := D) ?_ lx ly n1 n2 hle
  have hTK : ((ts.length : K)) ^ 2 * (D + 1) ≤ 2 ^ 47 := by exact_mod_cast hT
  push_cast
  calc 2 * (2 * (ts.length : K)) ^ 2 * (6 * (D + 1) / 2 ^ 53) = 48 * ((ts.length : K) ^ 2 * (D + 1)) / 2 ^ 53 := by ring
    _ ≤ 48 * 2 ^ 47 / 2 ^ 53 := by
      have : (0 : K) < 2 ^ 53 := by positivity
      exact div_le_div_of_nonneg_right (by linarith) this.le
    _ < 1 := by norm_num

end Compare

section Cases

/-- C170 for the tree of `exChain`: the depths 2 and 1 give 3/2 -/
example : ∃ out, CmdMethod.compareOvoR binary64 exChainEnv (CmdMethod.fitR binary64 (kahanSum binary64) exChainEnv exChainForest CmdMethod.new).2 =
      .ok out ∧ ∃ r w, out.filter (CmdRow.isPair 0 1) = [r] ∧ IsPairDepth [exChain] 0 1 w ∧ NearNum (6 * (((9 : ℕ) : ℚ) + 1) / 2 ^ 53) w r.val := by
  obtain ⟨out, h1, _, h3, _⟩ := C170_compare (D := 9) exChainEnv sortsCmd_cmdSort (sortsBy_stableSort _ _) (sortsBy_stableSort _ _)
    exChainForest_of (by simp) (by simp [exChainForest]) (by decide) (by decide) CmdMethod.new (by decide +kernel)
  exact ⟨out, h1, h3 0 1 0 1 rfl rfl (by decide)⟩

example : (CmdMethod.compareOvoR binary64 exChainEnv
    (CmdMethod.fitR binary64 (kahanSum binary64) exChainEnv exChainForest CmdMethod.new).2).toOption = some [⟨0, 1, .fin (3 / 2), 0⟩] := by
  decide +kernel

/-- means of three depths: 1 and 5/3 for the columns 0 and 1, twice 4/3 for the columns 0 and 2 -/
def exThirds : CmdMethod (Fin 4) ℚ := { (CmdMethod.new : CmdMethod (Fin 4) ℚ) with
  ovo := some ((([⟨0, 1, .fin 1, 3⟩, ⟨1, 0, .fin (5 / 3), 3⟩, ⟨0, 2, .fin (4 / 3), 3⟩, ⟨2, 0, .fin (4 / 3), 3⟩] :
    List (CmdRow (Fin 4) ℚ))).map (CmdRow.round binary64)) }

/-- Rounding can break a tie: both means are 4/3, the floats differ. (So C170 says that no two pairs are reversed, not that equal ones
stay equal.) -/
example : (CmdMethod.compareOvoR binary64 exChainEnv exThirds).toOption.map (fun out => out.map (fun r => (r.root, r.var))) =
      some [(0, 2), (0, 1)] ∧
    (CmdMethod.compareOvoR binary64 exChainEnv exThirds).toOption.map (fun out => decide ((out.map CmdRow.val).Nodup)) = some true := by
  decide +kernel

end Cases

end Artemis
