import Verif.Proofs.RoundTrees
import Verif.Props.RoundedPerf
import Verif.Props.CMD

/-!
# Properties C157 and C158: conditional minimal depth in floating-point arithmetic

`A` is the arithmetic, `gsum` pandas' routine for the sum of a group.
-/

set_option linter.unusedSectionVars false
set_option linter.unusedVariables false
set_option linter.unusedSimpArgs false

namespace Artemis
open Spec

variable {F I K : Type} [DecidableEq F] [Field K] [LinearOrder K] [IsStrictOrderedRing K] {A : Arith K} {gsum : List (Num K) → Num K}

/-- **C157.** For a forest of trees with at most `D` nodes, where the number of trees times `D` is a number up to which whole numbers are
represented exactly (`2^53 - 1` in binary64): every value in the table of pairs is the exact mean, rounded once, and likewise every
importance; the tables are complete and sorted by the rounded values. -/
theorem C157_correctly_rounded {N D : Nat} (hA : A.Lawful) (hW : A.Whole N) (hg : AddsWhole gsum N) (E : CmdEnv F I K)
    (hE : SortsCmd E.sortOvo) (hI : SortsBy ImpRow.val true E.sortImp) {m : Forest F} {ts : List LTree} (h : ForestOf m ts)
    (hts : ts ≠ []) (hc : m.columns ≠ []) (hD : ∀ t ∈ m.trees, t.length ≤ D) (hN : ts.length * D ≤ N) (s0 : CmdMethod F K) :
    (∃ rows : List (CmdRow F K), (CmdMethod.fitR A gsum E m s0).2.ovo = some (rows.map (CmdRow.round A)) ∧
      rows.length = m.columns.length * m.columns.length - m.columns.length ∧
      (∀ r ∈ rows, r.root ∈ m.columns ∧ r.var ∈ m.columns ∧ r.root ≠ r.var) ∧
      (∀ a b f g, m.columns[a]? = some f → m.columns[b]? = some g → f ≠ g → ∃ r,
        rows.filter (fun r => decide (r.root = f ∧ r.var = g)) = [r] ∧ IsMeanCondDepth ts a b r.val ∧ r.occ = occurrences ts a b) ∧
      rows.Pairwise (fun r s => s.occ < r.occ ∨ (r.occ = s.occ ∧ Num.keyLE true (A.r r.val) (A.r s.val) = true))) ∧
    ((∃ t ∈ ts, ∃ f, Uses t f) → (CmdMethod.fitR A gsum E m s0).1 = .ok () ∧ ∃ rows : List (ImpRow F K),
      (CmdMethod.fitR A gsum E m s0).2.importance = some (rows.map (ImpRow.round A)) ∧ (rows.map ImpRow.f).Nodup ∧
      (∀ f, f ∈ rows.map ImpRow.f ↔ ∃ i, m.columns[i]? = some f ∧ ∃ t ∈ ts, Uses t i) ∧
      (∀ r ∈ rows, ∀ i, m.columns[i]? = some r.f → IsMeanMinDepth ts i r.val) ∧
      rows.Pairwise (fun a b => Num.keyLE true (A.r a.val) (A.r b.val) = true)) ∧
    ((¬ ∃ t ∈ ts, ∃ f, Uses t f) → (CmdMethod.fitR A gsum E m s0).1 = .error .keyError ∧
      (CmdMethod.fitR A gsum E m s0).2.importance = s0.importance) := by
  classical
  obtain ⟨raw, dss, h1, h2, h3, h4⟩ := cmdForest_ok h.trees hts m.columns.length
  have small := forest_small h hD
  -- pairs
  obtain ⟨sort', hs'⟩ := exists_presort (CmdRow.round A) (fun l => (hE l).1)
  have hv : ∀ r ∈ raw, meanSomeR A gsum ((raw.filter fun r' => decide ((r'.f1, r'.f2) = (r.f1, r.f2))).map RawRow.value) =
      A.r (meanSome ((raw.filter fun r' => decide ((r'.f1, r'.f2) = (r.f1, r.f2))).map RawRow.value)) := by
    intro r hr
    obtain ⟨xs, hx, e⟩ := values_nat (h4 r.f1 r.f2 (h3 r hr).1 (h3 r hr).2)
    obtain ⟨b1, b2⟩ := forall₂_bounds hx List.filter_sublist (fun t x hx => condDepth_le hx) small
    exact meanSomeR_round hg e ((sum_le_mul b1 b2).trans hN)
  have e1 := summariseR_eq (columns := m.columns) hv fun l => (hs' l).2
  obtain ⟨rows, e2, p1, p2, p3, p4⟩ := summarise_gen
    (Q := fun v o w o' => o' < o ∨ (o = o' ∧ Num.keyLE true (A.r v) (A.r w) = true)) (sort := sort') (fun l => ⟨(hs' l).1, by
      have := (hE (l.map (CmdRow.round A))).2
      rw [(hs' l).2, List.pairwise_map] at this
      exact this⟩) h.names hts hc h3 h4
  rw [e2] at e1
  -- importance
  obtain ⟨sortI, hsI⟩ := exists_presort (ImpRow.round A) (fun l => (hI l).1)
  obtain ⟨d, hd, hd1, hd2, hd3⟩ := featureToDepth_ok h2
  have hw : ∀ e ∈ d, A.mean (e.2.map fun (k : Nat) => .fin (k : K)) = A.r (.fin ((e.2.map (fun (k : Nat) => (k : K))).sum / e.2.length)) := by
    rintro ⟨f, ks⟩ he
    have hget := Dict.get?_of_mem hd1 (k := f) (v := ks) he
    have hf : 0 ≤ f := by
      by_contra hn
      rw [hd2 f (by omega)] at hget
      cases hget
    obtain ⟨n, rfl⟩ := Int.eq_ofNat_of_zero_le hf
    have hu : ∃ t ∈ ts, Uses t n := by
      by_contra hn
      rw [(hd3 n).2 hn] at hget
      cases hget
    obtain ⟨ks', e', hk⟩ := (hd3 n).1 hu
    rw [e'] at hget
    cases hget
    have hne : ks ≠ [] := by
      rintro rfl
      obtain ⟨t, ht, hu⟩ := hu
      have hm : t ∈ ts.filter (fun t => decide (Uses t n)) := by rw [List.mem_filter]; exact ⟨ht, by simpa using hu⟩
      have hl := hk.length_eq
      rw [List.eq_nil_of_length_eq_zero hl] at hm
      cases hm
    obtain ⟨b1, b2⟩ := forall₂_bounds hk List.filter_sublist (fun t x hx => minDepth_le hx) small
    have := mean_round (A := A) (lawful_addsWhole hA hW) hne ((sum_le_mul b1 b2).trans hN)
    simp only [Arith.mean, List.length_map]
    exact this
  have e3 := minimalDepthR_eq (columns := m.columns) hd hw fun l => (hsI l).2
  obtain ⟨i1, i2, i3⟩ := importance_gen (Q := fun v w => Num.keyLE true (A.r v) (A.r w) = true) (sort := sortI) (fun l => ⟨(hsI l).1, by
      have := (hI (l.map (ImpRow.round A))).2
      rw [(hsI l).2, List.pairwise_map] at this
      exact this⟩) h.names h.cols h2
  have ovo : (CmdMethod.fitR A gsum E m s0).2.ovo = some (rows.map (CmdRow.round A)) := by
    simp only [CmdMethod.fitR, h1, e1, Except.map]
    cases minimalDepthImportanceR A E.sortImp m.columns (some dss) <;> rfl
  refine ⟨⟨rows, ovo, p1, p2, p3, p4⟩, fun hu => ?_, fun hu => ?_⟩
  · obtain ⟨imp, a1, a2, a3, a4⟩ := i1 hu
    rw [a1] at e3
    refine ⟨?_, imp, ?_, a3, a4, i3 imp a1, a2⟩ <;> simp only [CmdMethod.fitR, h1, e1, e3, Except.map]
  · rw [i2 hu] at e3
    refine ⟨?_, ?_⟩ <;> simp only [CmdMethod.fitR, h1, e1, e3, Except.map]

/-- **C158.** If in addition twice the square of the number of trees, times the rounding error of a number up to `D`, is below 1
(binary64: `T² · D ≤ 2^51`), then the tables are in the order of the exact means, and two rounded values are equal only if the exact
means are: rounding changes neither the ranking nor the ties. -/
theorem C158_exact_ranking {N D : Nat} {u η B : K} (hA : A.Lawful) (hW : A.Whole N) (hg : AddsWhole gsum N) (hacc : A.Accurate u η B)
    (E : CmdEnv F I K) (hE : SortsCmd E.sortOvo) (hI : SortsBy ImpRow.val true E.sortImp) {m : Forest F} {ts : List LTree}
    (h : ForestOf m ts) (hts : ts ≠ []) (hc : m.columns ≠ []) (hD : ∀ t ∈ m.trees, t.length ≤ D) (hN : ts.length * D ≤ N)
    (hB : (D : K) ≤ B) (hsep : 2 * (ts.length : K) ^ 2 * (u * D + η) < 1) (s0 : CmdMethod F K) :
    (∃ rows : List (CmdRow F K), (CmdMethod.fitR A gsum E m s0).2.ovo = some (rows.map (CmdRow.round A)) ∧
      (∀ r ∈ rows, ∃ a b, m.columns[a]? = some r.root ∧ m.columns[b]? = some r.var ∧ IsMeanCondDepth ts a b r.val ∧ r.occ = occurrences ts a b) ∧
      rows.Pairwise (fun r s => s.occ < r.occ ∨ (r.occ = s.occ ∧ Num.keyLE true r.val s.val = true)) ∧
      ∀ r ∈ rows, ∀ s ∈ rows, A.r r.val = A.r s.val → r.val = s.val) ∧
    ((∃ t ∈ ts, ∃ f, Uses t f) → ∃ rows : List (ImpRow F K), (CmdMethod.fitR A gsum E m s0).2.importance = some (rows.map (ImpRow.round A)) ∧
      (∀ r ∈ rows, ∃ i, m.columns[i]? = some r.f ∧ IsMeanMinDepth ts i r.val) ∧
      rows.Pairwise (fun r s => Num.keyLE true r.val s.val = true) ∧
      ∀ r ∈ rows, ∀ s ∈ rows, A.r r.val = A.r s.val → r.val = s.val) := by
  classical
  obtain ⟨⟨rows, o1, o2, o3, o4, o5⟩, hi, _⟩ := C157_correctly_rounded hA hW hg E hE hI h hts hc hD hN s0
  have small := forest_small h hD
  have refl : ∀ v : Num K, Num.keyLE true v v = true := by
    intro v
    cases v <;> simp [Num.keyLE, Num.isNaN, Num.le]
  have anti : ∀ xs ys : List Nat, Num.keyLE true (meanNat xs : Num K) (meanNat ys) = true → Num.keyLE true (meanNat ys : Num K) (meanNat xs) = true →
      (meanNat xs : Num K) = meanNat ys := by
    intro xs ys
    unfold meanNat
    split <;> split <;> intro h1 h2 <;> simp [Num.keyLE, Num.isNaN, Num.le] at h1 h2 ⊢
    exact le_antisymm h1 h2
  constructor
  · have hm : ∀ r ∈ rows, ∃ a b, m.columns[a]? = some r.root ∧ m.columns[b]? = some r.var ∧ IsMeanCondDepth ts a b r.val ∧
        r.occ = occurrences ts a b := by
      intro r hr
      obtain ⟨m1, m2, m3⟩ := o3 r hr
      obtain ⟨a, ha⟩ := List.mem_iff_getElem?.1 m1
      obtain ⟨b, hb⟩ := List.mem_iff_getElem?.1 m2
      obtain ⟨r', q1, q2, q3⟩ := o4 a b _ _ ha hb m3
      have : r ∈ rows.filter (fun q => decide (q.root = r.root ∧ q.var = r.var)) := by rw [List.mem_filter]; exact ⟨hr, by simp⟩
      rw [q1, List.mem_singleton] at this
      subst this
      exact ⟨a, b, ha, hb, q2, q3⟩
    have key : ∀ r ∈ rows, ∀ s ∈ rows, Num.keyLE true (A.r r.val) (A.r s.val) = true → Num.keyLE true r.val s.val = true := by
      intro r hr s hs hle
      obtain ⟨a, b, _, _, ⟨xs, hx, ex⟩, _⟩ := hm r hr
      obtain ⟨a', b', _, _, ⟨ys, hy, ey⟩, _⟩ := hm s hs
      obtain ⟨b1, b2⟩ := forall₂_bounds hx List.filter_sublist (fun t x hx => condDepth_le hx) small
      obtain ⟨c1, c2⟩ := forall₂_bounds hy List.filter_sublist (fun t x hx => condDepth_le hx) small
      rw [ex, ey] at hle ⊢
      exact rounded_order hacc hB hsep b1 c1 b2 c2 hle
    refine ⟨rows, o1, hm, ?_, ?_⟩
    · refine o5.imp_of_mem ?_
      intro r s hr hs hle
      exact hle.imp id fun ⟨e, hle⟩ => ⟨e, key r hr s hs hle⟩
    · intro r hr s hs e
      have k1 := key r hr s hs (by rw [e]; exact refl _)
      have k2 := key s hs r hr (by rw [e]; exact refl _)
      obtain ⟨a, b, _, _, ⟨xs, _, ex⟩, _⟩ := hm r hr
      obtain ⟨a', b', _, _, ⟨ys, _, ey⟩, _⟩ := hm s hs
      rw [ex, ey] at k1 k2 ⊢
      exact anti xs ys k1 k2
  · intro hu
    obtain ⟨_, imp, i1, i2, i3, i4, i5⟩ := hi hu
    have hm : ∀ r ∈ imp, ∃ i, m.columns[i]? = some r.f ∧ IsMeanMinDepth ts i r.val := by
      intro r hr
      obtain ⟨i, hi, _⟩ := (i3 r.f).1 (List.mem_map.2 ⟨r, hr, rfl⟩)
      exact ⟨i, hi, i4 r hr i hi⟩
    have key : ∀ r ∈ imp, ∀ s ∈ imp, Num.keyLE true (A.r r.val) (A.r s.val) = true → Num.keyLE true r.val s.val = true := by
      intro r hr s hs hle
      obtain ⟨a, _, xs, hx, ex⟩ := hm r hr
      obtain ⟨b, _, ys, hy, ey⟩ := hm s hs
      obtain ⟨b1, b2⟩ := forall₂_bounds hx List.filter_sublist (fun t x hx => minDepth_le hx) small
      obtain ⟨c1, c2⟩ := forall₂_bounds hy List.filter_sublist (fun t x hx => minDepth_le hx) small
      rw [ex, ey] at hle ⊢
      exact rounded_order hacc hB hsep b1 c1 b2 c2 hle
    refine ⟨imp, i1, hm, ?_, ?_⟩
    · refine i5.imp_of_mem ?_
      intro r s hr hs hle
      exact key r hr s hs hle
    · intro r hr s hs e
      have k1 := key r hr s hs (by rw [e]; exact refl _)
      have k2 := key s hs r hr (by rw [e]; exact refl _)
      obtain ⟨a, _, xs, _, ex⟩ := hm r hr
      obtain ⟨b, _, ys, _, ey⟩ := hm s hs
      rw [ex, ey] at k1 k2 ⊢
      exact anti xs ys k1 k2

/-- C158 in binary64 with pandas' compensated sums: the number of trees squared times the number of nodes of the largest tree (plus one)
is at most `2^51`, such as a thousand trees of two thousand million nodes. -/
theorem C158_binary64 [FloorRing K] {D : Nat} (E : CmdEnv F I K) (hE : SortsCmd E.sortOvo) (hI : SortsBy ImpRow.val true E.sortImp) {m : Forest F}
    {ts : List LTree} (h : ForestOf m ts) (hts : ts ≠ []) (hc : m.columns ≠ []) (hD : ∀ t ∈ m.trees, t.length ≤ D)
    (hT : ts.length ^ 2 * (D + 1) ≤ 2 ^ 51) (s0 : CmdMethod F K) :
    (∃ rows : List (CmdRow F K), (CmdMethod.fitR binary64 (kahanSum binary64) E m s0).2.ovo = some (rows.map (CmdRow.round binary64)) ∧
      (∀ r ∈ rows, ∃ a b, m.columns[a]? = some r.root ∧ m.columns[b]? = some r.var ∧ IsMeanCondDepth ts a b r.val ∧ r.occ = occurrences ts a b) ∧
      rows.Pairwise (fun r s => s.occ < r.occ ∨ (r.occ = s.occ ∧ Num.keyLE true r.val s.val = true)) ∧
      ∀ r ∈ rows, ∀ s ∈ rows, (binary64 : Arith K).r r.val = (binary64 : Arith K).r s.val → r.val = s.val) ∧
    ((∃ t ∈ ts, ∃ f, Uses t f) → ∃ rows : List (ImpRow F K),
      (CmdMethod.fitR binary64 (kahanSum binary64) E m s0).2.importance = some (rows.map (ImpRow.round binary64)) ∧
      (∀ r ∈ rows, ∃ i, m.columns[i]? = some r.f ∧ IsMeanMinDepth ts i r.val) ∧
      rows.Pairwise (fun r s => Num.keyLE true r.val s.val = true) ∧
      ∀ r ∈ rows, ∀ s ∈ rows, (binary64 : Arith K).r r.val = (binary64 : Arith K).r s.val → r.val = s.val) := by
  have hp : 0 < ts.length := List.length_pos_iff.2 hts
  have h1 : ts.length * (D + 1) ≤ 2 ^ 51 := by nlinarith
  have h2 : D + 1 ≤ 2 ^ 51 := by nlinarith
  have hTK : ((ts.length : K)) ^ 2 * (D + 1) ≤ 2 ^ 51 := by exact_mod_cast hT
  have hDK : (D : K) ≤ 2 ^ 51 := by exact_mod_cast (show D ≤ 2 ^ 51 by omega)
  have hη : (1 : K) / 2 ^ 1075 ≤ 1 / 2 ^ 53 := one_div_le_one_div_of_le (pow_pos two_pos _) (pow_le_pow_right₀ one_le_two (by omega))
  refine C158_exact_ranking binary64_lawful binary64_whole (kahan_addsWhole binary64_whole) binary64_accurate E hE hI h hts hc hD
    ((Nat.mul_le_mul_left _ (Nat.le_succ D)).trans (h1.trans (by norm_num))) (hDK.trans (pow_le_pow_right₀ one_le_two (by omega))) ?_ s0
  generalize (1 : K) / 2 ^ 1075 = η at hη ⊢
  have hs : (0 : K) ≤ 2 * (ts.length : K) ^ 2 := by positivity
  calc 2 * (ts.length : K) ^ 2 * (1 / 2 ^ 53 * D + η) ≤ 2 * (ts.length : K) ^ 2 * (1 / 2 ^ 53 * D + 1 / 2 ^ 53) :=
        mul_le_mul_of_nonneg_left (by linarith) hs
    _ = ((ts.length : K)) ^ 2 * (D + 1) * (2 / 2 ^ 53) := by ring
    _ ≤ 2 ^ 51 * (2 / 2 ^ 53) := mul_le_mul_of_nonneg_right hTK (by positivity)
    _ < 1 := by norm_num

section Cases
/-! The forest of `Verif/Props/CMD.lean`: two trees of at most seven nodes. -/

example : ∃ rows : List (CmdRow (List Nat) ℚ),
    (CmdMethod.fitR binary64 (kahanSum binary64) (exCmdEnv ℚ) exForest CmdMethod.new).2.ovo = some (rows.map (CmdRow.round binary64)) ∧
    rows.length = 6 := by
  obtain ⟨⟨rows, h1, h2, _⟩, _⟩ := C157_correctly_rounded (D := 20) binary64_lawful binary64_whole (kahan_addsWhole binary64_whole) (exCmdEnv ℚ)
    sortsCmd_cmdSort (sortsBy_stableSort _ _) exForest_of (by simp) (by simp [exForest]) (by decide) (by simp) CmdMethod.new
  exact ⟨rows, h1, h2⟩

example : ∃ rows : List (ImpRow (List Nat) ℚ),
    (CmdMethod.fitR binary64 (kahanSum binary64) (exCmdEnv ℚ) exForest CmdMethod.new).2.importance = some (rows.map (ImpRow.round binary64)) ∧
    rows.Pairwise (fun r s => Num.keyLE true r.val s.val = true) := by
  obtain ⟨rows, h1, _, h3, _⟩ := (C158_binary64 (D := 20) (exCmdEnv ℚ) sortsCmd_cmdSort (sortsBy_stableSort _ _) exForest_of (by simp)
    (by simp [exForest]) (by decide) (by simp) CmdMethod.new).2 ⟨exTree, by simp, 0, uses_exTree.2 (by omega)⟩
  exact ⟨rows, h1, h3⟩

/-- a third is not a binary fraction: the mean of 0, 0 and 1 is rounded -/
example : meanSomeR (binary64 : Arith ℚ) (kahanSum binary64) [some 0, none, some 0, some 1] = .fin (6004799503160661 / 2 ^ 54) := by
  decide +kernel

end Cases

end Artemis
