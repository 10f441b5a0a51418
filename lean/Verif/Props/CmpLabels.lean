import Mathlib.Analysis.SpecialFunctions.Trigonometric.Basic
import Verif.Spec.CmpLabels
import Verif.Proofs.Binary64
import Verif.Proofs.Round64Order
import Verif.Props.Comparator
import Verif.Proofs.VisLemmas

/-!
# C166, C167: labels, title and correlation box of a comparison plot
-/

set_option linter.unusedSectionVars false
set_option linter.unusedVariables false
set_option linter.unusedSimpArgs false

namespace Artemis
open Spec

section Strongest
variable {F I J K : Type} [LinearOrder F] [LinearOrder J] [Field K] [LinearOrder K] [IsStrictOrderedRing K] [HasSqrt K]

theorem strong_of_keyLE {asc : Bool} {x y : Num K} (h : Num.keyLE asc x y = true) : AtLeastAsStrong asc x y := by
  unfold Num.keyLE at h
  cases y with
  | nan => exact Or.inl rfl
  | _ =>
    refine Or.inr ?_
    cases x <;> cases asc <;> simp_all [Num.isNaN]

/-- The pairs labelled in a plot are the first ones of the table of the first method; if that table is sorted by strength, no other pair
is stronger. -/
theorem labels_of_sorted (join : F → F → J) {m1 m2 : View F I K} {n : Int} {addBox : Bool} {c : Comparator F K} {p : CmpPlot F K}
    (h : Comparator.comparisonPlot join m1 m2 n addBox c = .ok p) {t : List (OvoRow F K)} (ht : m1.cmp = .ok t)
    (hs : t.Pairwise (fun a b => Num.keyLE m1.asc a.val b.val = true)) :
    ∃ shown rest, t = shown ++ rest ∧ shown.length = min n.toNat t.length ∧
      p.labels.map (fun l => (l.1, l.2.1, l.2.2.1)) = shown.map (fun r => (r.f1, r.f2, r.val)) ∧
      ∀ r ∈ shown, ∀ q ∈ rest, AtLeastAsStrong m1.asc r.val q.val := by
  obtain ⟨t1, h1, _, h3, _⟩ := C51_points join h
  rw [ht] at h1
  cases h1
  refine ⟨t.take n.toNat, t.drop n.toNat, (List.take_append_drop _ _).symm, List.length_take, ?_, ?_⟩
  · have : ∀ {l : List (OvoRow F K)} {ls : List (F × F × Num K × Num K)}, List.Forall₂ (fun r l => l.1 = r.f1 ∧ l.2.1 = r.f2 ∧
        l.2.2.1 = r.val ∧ m2.interactionValue r.f1 r.f2 = .ok l.2.2.2) l ls →
        ls.map (fun l => (l.1, l.2.1, l.2.2.1)) = l.map (fun r => (r.f1, r.f2, r.val)) := by
      intro l ls hf
      induction hf with
      | nil => rfl
      | cons a _ ih => rw [List.map_cons, List.map_cons, ih, a.1, a.2.1, a.2.2.1]
    exact this h3
  · rw [← List.take_append_drop n.toNat t, List.pairwise_append] at hs
    exact fun r hr q hq => strong_of_keyLE (hs.2.2 r hr q hq)

/-- what the labels of a plot are to be: as many as asked for (or all), of rows of the table `t`, none of the others stronger -/
def LabelsStrongest (asc : Bool) (t : List (OvoRow F K)) (n : Int) (p : CmpPlot F K) : Prop :=
  ∃ shown rest : List (OvoRow F K), (shown ++ rest).Perm t ∧ shown.length = min n.toNat t.length ∧
    p.labels.map (fun l => (l.1, l.2.1, l.2.2.1)) = shown.map (fun r => (r.f1, r.f2, r.val)) ∧
    ∀ r ∈ shown, ∀ q ∈ rest, AtLeastAsStrong asc r.val q.val

theorem labels_base (join : F → F → J) {m1 m2 : View F I K} {n : Int} {addBox : Bool} {c : Comparator F K} {p : CmpPlot F K}
    (h : Comparator.comparisonPlot join m1 m2 n addBox c = .ok p) {sort : PairSort F K}
    (hsort : ∀ asc, SortsBy OvoRow.val asc (sort asc)) {ovo : Option (List (OvoRow F K))} (hcmp : m1.cmp = compareBase sort m1.asc ovo) :
    ∃ t, ovo = some t ∧ LabelsStrongest m1.asc t n p := by
  cases ovo with
  | none =>
    obtain ⟨t1, h1, _⟩ := C51_points join h
    rw [hcmp] at h1
    cases h1
  | some t =>
    obtain ⟨shown, rest, e, hl, h2, h3⟩ := labels_of_sorted join h (t := sort m1.asc t) hcmp (hsort m1.asc t).2
    refine ⟨t, rfl, shown, rest, by rw [← e]; exact (hsort _ t).1, ?_, h2, h3⟩
    rw [hl, (hsort _ t).1.length_eq]

/-- **C166** (Friedman and Greenwell as first method) A drawn comparison plot labels `n_labels` rows of the table of pairs, or all of them if
there are fewer, with the features and the value of the row, and no pair without a label is stronger than one with a label. -/
theorem C166_pdp {G L V : Type} [LinearOrder V] (join : F → F → J) (sort : PairSort F K) (hsort : ∀ asc, SortsBy OvoRow.val asc (sort asc))
    (kind : PdKind) (s : PdpMethod G L F V K) {m2 : View F I K} {n : Int} {addBox : Bool} {c : Comparator F K} {p : CmpPlot F K}
    (h : Comparator.comparisonPlot join (PdpMethod.view sort kind s) m2 n addBox c = .ok p) :
    ∃ t, s.ovo = some t ∧ LabelsStrongest false t n p :=
  labels_base join h hsort rfl

/-- **C166** (Sejong Oh's method as first method) -/
theorem C166_sejong {G L V : Type} (join : F → F → J) (sort : PairSort F K) (hsort : ∀ asc, SortsBy OvoRow.val asc (sort asc))
    (s : Sejong G L F V K) {m2 : View F I K} {n : Int} {addBox : Bool} {c : Comparator F K} {p : CmpPlot F K}
    (h : Comparator.comparisonPlot join (Sejong.view sort s) m2 n addBox c = .ok p) :
    ∃ t, s.ovo = some t ∧ LabelsStrongest false t n p :=
  labels_base join h hsort rfl

/-- **C166** (split score as first method): strongest in the direction of the metric it was fitted with -/
theorem C166_split_score (join : F → F → J) (sort : PairSort F K) (hsort : ∀ asc, SortsBy OvoRow.val asc (sort asc))
    (s : SsMethod F I K) {m2 : View F I K} {n : Int} {addBox : Bool} {c : Comparator F K} {p : CmpPlot F K}
    (h : Comparator.comparisonPlot join (SsMethod.view sort s) m2 n addBox c = .ok p) :
    ∃ t, s.ovo.map (fun t => t.map SsRow.toOvo) = some t ∧ LabelsStrongest s.ascending t n p :=
  labels_base join h hsort rfl

/-- **C166** (conditional minimal depth as first method): the labelled pairs are those of smallest depth (averaged over both directions) -/
theorem C166_cmd {J' : Type} [LinearOrder J'] (join : F → F → J) (E : CmdEnv F J' K) (hE : SortsBy CmdRow.val true E.sortCmp)
    (s : CmdMethod F K) {m2 : View F I K} {n : Int} {addBox : Bool} {c : Comparator F K} {p : CmpPlot F K}
    (h : Comparator.comparisonPlot join (CmdMethod.view E s) m2 n addBox c = .ok p) :
    ∃ t, CmdMethod.compareOvo E s = .ok t ∧ LabelsStrongest true (t.map CmdRow.toOvo) n p := by
  obtain ⟨t1, h1, _⟩ := C51_points join h
  have h1' := h1
  simp only [CmdMethod.view] at h1
  cases hc : CmdMethod.compareOvo E s with
  | error e => rw [hc] at h1; cases h1
  | ok t =>
    rw [hc] at h1
    cases h1
    have hs : t.Pairwise (fun a b => Num.keyLE true a.val b.val = true) := by
      unfold CmdMethod.compareOvo at hc
      split at hc
      · cases hc
      · cases hc; exact (hE _).2
    obtain ⟨shown, rest, e, hl, h2, h3⟩ := labels_of_sorted join h h1' (by rw [List.pairwise_map]; exact hs)
    exact ⟨t, rfl, shown, rest, by rw [← e], hl, h2, h3⟩

end Strongest

section Texts
variable {F I J K : Type} [LinearOrder F] [LinearOrder J] [Field K] [LinearOrder K] [IsStrictOrderedRing K] [HasSqrt K] [HasTrig K]

theorem texts_inv [FloorRing K] {join : F → F → J} {m1 m2 : View F I K} {n : Int} {addBox : Bool} {us : Nat → K} {c : Comparator F K}
    {p : CmpPlot F K} {x : CmpTexts F K} (h : Comparator.comparisonTexts join m1 m2 n addBox us c = .ok (p, x)) :
    Comparator.comparisonPlot join m1 m2 n addBox c = .ok p ∧ ∃ t1 t2 r, m1.cmp = .ok t1 ∧ m2.cmp = .ok t2 ∧ circleR t1 t2 = .ok r ∧
      x = { title := m1.name ++ "\nand\n" ++ m2.name ++ "\nComparison"
            arrows := p.labels.zipIdx.map (fun q =>
              ⟨q.1.1, q.1.2.1, (q.1.2.2.1, q.1.2.2.2), pointLeftSideCircle (us q.2) q.1.2.2.1 q.1.2.2.2 r⟩)
            box := p.box.map (fun l => ("Feature pairs rank correlation", l.map (fun q => (q.1.capitalized, round3 q.2)))) } := by
  unfold Comparator.comparisonTexts at h
  split at h
  · cases h
  · next p' hp =>
    split at h
    · cases h
    · next t1 h1 =>
      split at h
      · cases h
      · next t2 h2 =>
        split at h
        · cases h
        · next r hr =>
          cases h
          exact ⟨hp, t1, t2, r, h1, h2, hr, rfl⟩

/-- **C167** Whenever the plot can be drawn, its texts can be written: they raise no further exception. -/
theorem C167_no_more_exceptions [FloorRing K] (join : F → F → J) (m1 m2 : View F I K) (n : Int) (addBox : Bool) (us : Nat → K)
    (c : Comparator F K) :
    (Comparator.comparisonTexts join m1 m2 n addBox us c).map Prod.fst = Comparator.comparisonPlot join m1 m2 n addBox c := by
  unfold Comparator.comparisonTexts
  cases hp : Comparator.comparisonPlot join m1 m2 n addBox c with
  | error e => rfl
  | ok p =>
    obtain ⟨t1, t2, ps, box, h1, h2, h3, h4, _⟩ := plot_inv hp
    obtain ⟨a, ha⟩ := (pyMax_ok_iff (t1.map OvoRow.val)).2 (by simpa using h3)
    obtain ⟨b, hb⟩ := (pyMax_ok_iff (t2.map OvoRow.val)).2 (by simpa using h4)
    simp only [h1, h2, circleR, ha, hb]
    rfl

theorem greatest_unique {l : List K} {a b : K} (h : IsGreatestOf l a) (h' : IsGreatestOf l b) : a = b :=
  le_antisymm (h'.2 a h.1) (h.2 b h'.1)

theorem pyMax_greatest {t : List (OvoRow F K)} {u : OvoRow F K → K} (hv : ∀ r ∈ t, r.val = .fin (u r)) {a : K}
    (ha : IsGreatestOf (t.map u) a) : pyMax (t.map OvoRow.val) = .ok (.fin a) := by
  have hne : t ≠ [] := by rintro rfl; exact absurd ha.1 (by simp)
  obtain ⟨r, h1, h2, h3⟩ := pyMax_fin t u hne
  have e : t.map OvoRow.val = t.map (fun r => .fin (u r)) := List.map_congr_left hv
  rw [e, h2, greatest_unique (l := t.map u) (a := a) (b := u r) ha ⟨List.mem_map_of_mem h1, fun x hx => by
    obtain ⟨q, hq, rfl⟩ := List.mem_map.1 hx
    exact h3 q hq⟩]

theorem pyMin2_fin (a b : K) : pyMin2 (.fin a) (.fin b) = .fin (min a b) := by
  unfold pyMin2
  rw [lt_fin]
  by_cases h : b < a
  · rw [if_pos (by simpa using h), min_eq_right h.le]
  · rw [if_neg (by simpa using h), min_eq_left (not_lt.1 h)]

/-- **C167** Where the labels stand, if the tables of pairs hold finite numbers and `a`, `b` are the greatest values of the two methods: the
arrow of the `i`-th label points to the point of its pair, and the text stands on the circle about it whose radius is a fifth of the smaller one
of `a` and `b`, and (for `a`, `b` not negative) not to the right of the point. -/
theorem C167_label_position [FloorRing K] [LawfulTrig K] (join : F → F → J) {m1 m2 : View F I K} {n : Int} {addBox : Bool} {us : Nat → K}
    (hus : ∀ i, 0 ≤ us i ∧ us i < 1) {c : Comparator F K} {p : CmpPlot F K} {x : CmpTexts F K}
    (h : Comparator.comparisonTexts join m1 m2 n addBox us c = .ok (p, x)) {t1 t2 : List (OvoRow F K)} (h1 : m1.cmp = .ok t1)
    (h2 : m2.cmp = .ok t2) {u1 u2 : OvoRow F K → K} (v1 : ∀ r ∈ t1, r.val = .fin (u1 r)) (v2 : ∀ r ∈ t2, r.val = .fin (u2 r)) {a b : K}
    (ha : IsGreatestOf (t1.map u1) a) (hb : IsGreatestOf (t2.map u2) b) :
    x.arrows.length = min n.toNat t1.length ∧ ∀ (i : Nat) (w : Arrow F K), x.arrows[i]? = some w →
      ∃ r ∈ t1, ∃ q ∈ t2, ∃ lx ly, t1[i]? = some r ∧ w.f1 = r.f1 ∧ w.f2 = r.f2 ∧ q.isPair r.f1 r.f2 ∧
        w.at_ = (.fin (u1 r), .fin (u2 q)) ∧ w.text = (.fin lx, .fin ly) ∧
        (lx - u1 r) ^ 2 + (ly - u2 q) ^ 2 = (min a b / 5) ^ 2 ∧ (0 ≤ min a b → OnLeftOf (u1 r, u2 q) (lx, ly) (min a b / 5)) := by
  obtain ⟨hp, s1, s2, rad, g1, g2, hr, rfl⟩ := texts_inv h
  rw [h1] at g1; cases g1
  rw [h2] at g2; cases g2
  have hrad : rad = .fin (2 / 10 * min a b) := by
    unfold circleR at hr
    rw [pyMax_greatest v1 ha, pyMax_greatest v2 hb] at hr
    simp only [pyMin2_fin] at hr
    cases hr
    rfl
  obtain ⟨t, ht, _, hl, _⟩ := C51_points join hp
  rw [h1] at ht; cases ht
  refine ⟨?_, ?_⟩
  · simp only [List.length_map, List.length_zipIdx]
    rw [← hl.length_eq, List.length_take]
  · intro i w hw
    simp only [List.getElem?_map, List.getElem?_zipIdx, Option.map_map, Nat.zero_add] at hw
    cases hli : p.labels[i]? with
    | none => rw [hli] at hw; cases hw
    | some l =>
      rw [hli] at hw
      simp only [Option.map_some, Function.comp, Option.some.injEq] at hw
      subst hw
      obtain ⟨hi, e⟩ := List.getElem?_eq_some_iff.1 hli
      have hi' : i < (t1.take n.toNat).length := by rw [hl.length_eq]; exact hi
      have hrow := (List.forall₂_iff_get.1 hl).2 i hi' hi
      simp only [List.get_eq_getElem, e] at hrow
      generalize hre : (t1.take n.toNat)[i] = r at hrow
      have hr0 : t1[i]? = some r := by
        rw [← hre, List.getElem_take]
        exact List.getElem?_eq_getElem _
      have hrm : r ∈ t1 := List.mem_of_getElem? hr0
      obtain ⟨e1, e2, e3, e4⟩ := hrow
      unfold View.interactionValue at e4
      rw [h2] at e4
      simp only at e4
      split at e4
      · cases e4
      · next q tl hq =>
        have hqm : q ∈ t2.filter (fun s => (decide (s.f1 = r.f1) && decide (s.f2 = r.f2)) || (decide (s.f1 = r.f2) && decide (s.f2 = r.f1))) := by
          rw [hq]; exact List.mem_cons_self
        obtain ⟨hq1, hq2⟩ := List.mem_filter.1 hqm
        have e4 := Except.ok.inj e4
        have ex : l.2.2.1 = .fin (u1 r) := by rw [e3, v1 r hrm]
        have ey : l.2.2.2 = .fin (u2 q) := by rw [← e4, v2 q hq1]
        simp only [ex, ey, hrad]
        obtain ⟨u0, u1'⟩ := hus i
        have hpi := LawfulTrig.pi_pos (K := K)
        have hcos : (HasTrig.cos (HasTrig.pi * us i + HasTrig.pi / 2) : K) ≤ 0 := LawfulTrig.left _ (by nlinarith) (by nlinarith)
        have hcs := LawfulTrig.circle (HasTrig.pi * us i + HasTrig.pi / 2 : K)
        refine ⟨r, hrm, q, hq1, 2 / 10 * min a b * HasTrig.cos (HasTrig.pi * us i + HasTrig.pi / 2) + u1 r,
          2 / 10 * min a b * HasTrig.sin (HasTrig.pi * us i + HasTrig.pi / 2) + u2 q, hr0, e1, e2, ?_, rfl, rfl, ?_, ?_⟩
        · simpa [OvoRow.isPair] using hq2
        · generalize (HasTrig.cos (HasTrig.pi * us i + HasTrig.pi / 2) : K) = C at *
          generalize (HasTrig.sin (HasTrig.pi * us i + HasTrig.pi / 2) : K) = S at *
          generalize min a b = R
          linear_combination (R / 5) ^ 2 * hcs
        · intro h0
          generalize (HasTrig.cos (HasTrig.pi * us i + HasTrig.pi / 2) : K) = C at *
          generalize (HasTrig.sin (HasTrig.pi * us i + HasTrig.pi / 2) : K) = S at *
          generalize min a b = R at *
          refine ⟨?_, ?_⟩
          · show (2 / 10 * R * C + u1 r - u1 r) ^ 2 + (2 / 10 * R * S + u2 q - u2 q) ^ 2 = (R / 5) ^ 2
            linear_combination (R / 5) ^ 2 * hcs
          · show 2 / 10 * R * C + u1 r ≤ u1 r
            nlinarith [mul_nonneg h0 (neg_nonneg.2 hcos)]

/-- **C167** What the title and the correlation box say: the title names both methods in order; the box is there exactly if it was asked for
and lists Pearson, Kendall and Spearman in this order, each with its value (see C52 for which value) to three digits, a value in [-1, 1] shown in
[-1, 1]; a value that is NaN is shown as NaN. -/
theorem C167_title_and_box [FloorRing K] (join : F → F → J) {m1 m2 : View F I K} {n : Int} {addBox : Bool} {us : Nat → K}
    {c : Comparator F K} {p : CmpPlot F K} {x : CmpTexts F K} (h : Comparator.comparisonTexts join m1 m2 n addBox us c = .ok (p, x)) :
    x.title = m1.name ++ "\nand\n" ++ m2.name ++ "\nComparison" ∧ (x.box.isSome = addBox) ∧
    ∀ head lines, x.box = some (head, lines) → ∃ vp vk vs wp wk ws, p.box = some [(.pearson, vp), (.kendall, vk), (.spearman, vs)] ∧
      head = "Feature pairs rank correlation" ∧ lines = [("Pearson", wp), ("Kendall", wk), ("Spearman", ws)] ∧
      ∀ vw ∈ [(vp, wp), (vk, wk), (vs, ws)], (vw.1 = .nan → vw.2 = .nan) ∧
        ∀ v, vw.1 = .fin v → ∃ w, vw.2 = .fin w ∧ ThreeDigits v w ∧ (-1 ≤ v → v ≤ 1 → -1 ≤ w ∧ w ≤ 1) := by
  obtain ⟨hp, s1, s2, rad, g1, g2, hr, rfl⟩ := texts_inv h
  obtain ⟨t1, t2, ps, box, _, _, _, _, _, hbox, rfl⟩ := plot_inv hp
  have shape : ∀ d l, boxLines d = .ok l → ∃ vp vk vs : Num K, l = [(.pearson, vp), (.kendall, vk), (.spearman, vs)] := by
    intro d l hl
    unfold boxLines CorrKind.all at hl
    rw [mapM_cons_except, mapM_cons_except, mapM_cons_except, List.mapM_nil] at hl
    cases e1 : d.find? (fun q => decide (q.1 = CorrKind.pearson)) with
    | none => simp only [e1] at hl; cases hl
    | some q1 =>
      cases e2 : d.find? (fun q => decide (q.1 = CorrKind.kendall)) with
      | none => simp only [e1, e2] at hl; cases hl
      | some q2 =>
        cases e3 : d.find? (fun q => decide (q.1 = CorrKind.spearman)) with
        | none => simp only [e1, e2, e3] at hl; cases hl
        | some q3 => simp only [e1, e2, e3] at hl; cases hl; exact ⟨_, _, _, rfl⟩
  have one : ∀ v : Num K, (v = .nan → round3 v = .nan) ∧
      ∀ x, v = .fin x → ∃ w, round3 v = .fin w ∧ ThreeDigits x w ∧ (-1 ≤ x → x ≤ 1 → -1 ≤ w ∧ w ≤ 1) := by
    intro v
    refine ⟨fun e => by rw [e]; rfl, ?_⟩
    rintro x rfl
    have hnear := roundEven_near (x * 1000)
    refine ⟨_, rfl, ⟨⟨roundEven (x * 1000), by field_simp⟩, ?_⟩, ?_⟩
    · have e : (roundEven (x * 1000) : K) / 1000 - x = ((roundEven (x * 1000) : K) - x * 1000) / 1000 := by field_simp
      rw [e, abs_div, abs_of_pos (by norm_num : (0 : K) < 1000), div_le_iff₀ (by norm_num)]
      refine hnear.trans (by norm_num)
    · intro l u
      have l' : (-1000 : ℤ) ≤ roundEven (x * 1000) := le_roundEven (by push_cast; linarith)
      have u' : roundEven (x * 1000) ≤ (1000 : ℤ) := roundEven_le' (by push_cast; linarith)
      have l'' : ((-1000 : ℤ) : K) ≤ roundEven (x * 1000) := by exact_mod_cast l'
      have u'' : (roundEven (x * 1000) : K) ≤ ((1000 : ℤ) : K) := by exact_mod_cast u'
      push_cast at l'' u''
      constructor
      · rw [le_div_iff₀ (by norm_num)]; linarith
      · rw [div_le_iff₀ (by norm_num)]; linarith
  unfold cmpBox at hbox
  cases addBox with
  | false =>
    simp only [Bool.false_eq_true, if_false] at hbox
    cases hbox
    exact ⟨rfl, rfl, fun head lines e => by cases e⟩
  | true =>
    simp only [if_true] at hbox
    split at hbox
    · cases hbox
    · next d hd =>
      cases hl : boxLines d with
      | error e => rw [hl] at hbox; cases hbox
      | ok l =>
        rw [hl] at hbox
        cases hbox
        obtain ⟨vp, vk, vs, rfl⟩ := shape d l hl
        refine ⟨rfl, rfl, ?_⟩
        intro head lines e
        cases e
        refine ⟨vp, vk, vs, _, _, _, rfl, rfl, rfl, ?_⟩
        intro vw hvw
        simp only [List.mem_cons, List.not_mem_nil, or_false] at hvw
        rcases hvw with rfl | rfl | rfl
        · exact one vp
        · exact one vk
        · exact one vs

end Texts

section Real

noncomputable instance : HasTrig ℝ := ⟨Real.pi, Real.cos, Real.sin⟩

instance : LawfulTrig ℝ where
  pi_pos := Real.pi_pos
  circle := fun x => by
    show Real.cos x * Real.cos x + Real.sin x * Real.sin x = 1
    have := Real.cos_sq_add_sin_sq x
    nlinarith
  left := fun x h1 h2 => Real.cos_nonpos_of_pi_div_two_le_of_le h1 h2

end Real

section Cases

/-- both methods of the example of C51: radius 3/5, the text of the first pair (3, 2) left of it -/
example : ∃ p x, Comparator.comparisonTexts exJoin (exA ℝ) (exB ℝ) 2 false (fun _ => 1 / 2) Comparator.new = .ok (p, x) ∧
    ∃ w lx ly, x.arrows[0]? = some w ∧ w.f1 = 1 ∧ w.f2 = 2 ∧ w.text = (.fin lx, .fin ly) ∧ OnLeftOf ((3 : ℝ), (2 : ℝ)) (lx, ly) (3 / 5) := by
  have hn := C167_no_more_exceptions exJoin (exA ℝ) (exB ℝ) 2 false (fun _ => 1 / 2) Comparator.new
  obtain ⟨p, hp, _, hl⟩ : ∃ p, Comparator.comparisonPlot exJoin (exA ℝ) (exB ℝ) 2 false Comparator.new = .ok p ∧
    p.points = [(.fin 3, .fin 2), (.fin 2, .fin 3), (.fin 1, .fin 1)] ∧
    p.labels = [(1, 2, .fin 3, .fin 2), (1, 3, .fin 2, .fin 3)] := ⟨_, rfl, rfl, rfl⟩
  rw [hp] at hn
  cases ht : Comparator.comparisonTexts exJoin (exA ℝ) (exB ℝ) 2 false (fun _ => 1 / 2) Comparator.new with
  | error e => rw [ht] at hn; cases hn
  | ok px =>
    obtain ⟨p', x⟩ := px
    have g1 : IsGreatestOf (([⟨1, 2, .fin 3⟩, ⟨1, 3, .fin 2⟩, ⟨2, 3, .fin 1⟩] : List (OvoRow Nat ℝ)).map (fun r => Num.toK r.val)) 3 := by
      refine ⟨by simp [Num.toK], ?_⟩
      intro y hy
      simp only [List.map_cons, List.map_nil, Num.toK, List.mem_cons, List.not_mem_nil, or_false] at hy
      rcases hy with rfl | rfl | rfl <;> norm_num
    have g2 : IsGreatestOf (([⟨1, 3, .fin 3⟩, ⟨1, 2, .fin 2⟩, ⟨2, 3, .fin 1⟩] : List (OvoRow Nat ℝ)).map (fun r => Num.toK r.val)) 3 := by
      refine ⟨by simp [Num.toK], ?_⟩
      intro y hy
      simp only [List.map_cons, List.map_nil, Num.toK, List.mem_cons, List.not_mem_nil, or_false] at hy
      rcases hy with rfl | rfl | rfl <;> norm_num
    obtain ⟨hlen, hw⟩ := C167_label_position exJoin (us := fun _ => 1 / 2) (fun _ => by norm_num) ht (t1 := [⟨1, 2, .fin 3⟩, ⟨1, 3, .fin 2⟩, ⟨2, 3, .fin 1⟩])
      (t2 := [⟨1, 3, .fin 3⟩, ⟨1, 2, .fin 2⟩, ⟨2, 3, .fin 1⟩]) rfl rfl (u1 := fun r => Num.toK r.val) (u2 := fun r => Num.toK r.val)
      (by simp [Num.toK]) (by simp [Num.toK]) g1 g2
    have h0 : 0 < x.arrows.length := by rw [hlen]; decide
    obtain ⟨r, hr, q, hq, lx, ly, e0, e1, e2, e3, e4, e5, _, e6⟩ := hw 0 _ (List.getElem?_eq_getElem h0)
    cases e0
    have hq' : Num.toK q.val = 2 := by
      simp only [List.mem_cons, List.not_mem_nil, or_false] at hq
      rcases hq with rfl | rfl | rfl
      · rcases e3 with ⟨_, h⟩ | ⟨h, _⟩ <;> exact absurd h (by decide)
      · rfl
      · rcases e3 with ⟨h, _⟩ | ⟨_, h⟩ <;> exact absurd h (by decide)
    refine ⟨p', x, rfl, _, lx, ly, List.getElem?_eq_getElem h0, e1, e2, e5, ?_⟩
    have := e6 (by norm_num)
    rw [hq', min_self] at this
    exact this

/-- the hypotheses of `C166_pdp` hold here: the pair (1, 3) is the strongest one and gets the label -/
example : ∃ p, Comparator.comparisonPlot exJoin (PdpMethod.view (I := Nat) (fun asc => stableSort OvoRow.val asc) .greenwell
      ({ (PdpMethod.new 0 : PdpMethod Nat Nat Nat Nat ℚ) with ovo := some [⟨1, 2, .fin 1⟩, ⟨1, 3, .fin 3⟩, ⟨2, 3, .nan⟩] })) (exB ℚ) 1 false
      Comparator.new = .ok p ∧ LabelsStrongest false [⟨1, 2, .fin 1⟩, ⟨1, 3, .fin 3⟩, ⟨2, 3, .nan⟩] 1 p ∧
      p.labels = [(1, 3, .fin 3, .fin 3)] := by
  have h : ((Comparator.comparisonPlot exJoin (PdpMethod.view (I := Nat) (fun asc => stableSort OvoRow.val asc) .greenwell
      ({ (PdpMethod.new 0 : PdpMethod Nat Nat Nat Nat ℚ) with ovo := some [⟨1, 2, .fin 1⟩, ⟨1, 3, .fin 3⟩, ⟨2, 3, .nan⟩] })) (exB ℚ) 1 false
      Comparator.new).toOption.map (·.labels)) = some [(1, 3, .fin 3, .fin 3)] := by decide +kernel
  cases hp : Comparator.comparisonPlot exJoin (PdpMethod.view (I := Nat) (fun asc => stableSort OvoRow.val asc) .greenwell
      ({ (PdpMethod.new 0 : PdpMethod Nat Nat Nat Nat ℚ) with ovo := some [⟨1, 2, .fin 1⟩, ⟨1, 3, .fin 3⟩, ⟨2, 3, .nan⟩] })) (exB ℚ) 1 false
      Comparator.new with
  | error e => rw [hp] at h; cases h
  | ok p =>
    rw [hp] at h
    obtain ⟨t, ht, hl⟩ := C166_pdp exJoin _ (fun asc => sortsBy_stableSort _ _) _ _ hp
    cases ht
    exact ⟨p, rfl, hl, Option.some.inj h⟩

/-- `C167_title_and_box` on a comparator that has computed correlations before -/
example : ∃ p x, Comparator.comparisonTexts exJoin (exA ℝ) (exB ℝ) 2 true (fun _ => 1 / 2)
      ⟨none, some [(.pearson, .fin 1), (.kendall, .nan), (.spearman, .fin (1 / 3))]⟩ = .ok (p, x) ∧ x.title = "m\nand\nm\nComparison" ∧
    ∃ w, x.box = some ("Feature pairs rank correlation", [("Pearson", .fin 1), ("Kendall", .nan), ("Spearman", .fin w)]) ∧
      |w - 1 / 3| ≤ 1 / 2000 := by
  obtain ⟨p, hp, hb⟩ : ∃ p, Comparator.comparisonPlot exJoin (exA ℝ) (exB ℝ) 2 true
      ⟨none, some [(.pearson, .fin 1), (.kendall, .nan), (.spearman, .fin (1 / 3))]⟩ = .ok p ∧
      p.box = some [(.pearson, .fin 1), (.kendall, .nan), (.spearman, .fin (1 / 3))] := ⟨_, rfl, rfl⟩
  have hn := C167_no_more_exceptions exJoin (exA ℝ) (exB ℝ) 2 true (fun _ => 1 / 2)
    ⟨none, some [(.pearson, .fin 1), (.kendall, .nan), (.spearman, .fin (1 / 3))]⟩
  rw [hp] at hn
  cases ht : Comparator.comparisonTexts exJoin (exA ℝ) (exB ℝ) 2 true (fun _ => 1 / 2)
      ⟨none, some [(.pearson, .fin 1), (.kendall, .nan), (.spearman, .fin (1 / 3))]⟩ with
  | error e => rw [ht] at hn; cases hn
  | ok px =>
    obtain ⟨p', x⟩ := px
    rw [ht] at hn
    obtain rfl : p' = p := Except.ok.inj hn
    obtain ⟨h1, h2, h3⟩ := C167_title_and_box exJoin ht
    obtain ⟨⟨head, lines⟩, hx⟩ := Option.isSome_iff_exists.1 h2
    obtain ⟨vp, vk, vs, wp, wk, ws, e1, rfl, rfl, e4⟩ := h3 head lines hx
    rw [hb] at e1
    simp only [Option.some.injEq, List.cons.injEq, Prod.mk.injEq, true_and, and_true] at e1
    obtain ⟨rfl, rfl, rfl⟩ := e1
    obtain ⟨w1, g1, ⟨⟨z, hz⟩, hz2⟩, _⟩ := (e4 (.fin 1, wp) (by simp)).2 1 rfl
    obtain ⟨w3, g3, ⟨_, h3'⟩, _⟩ := (e4 (.fin (1 / 3), ws) (by simp)).2 (1 / 3) rfl
    have g2 := (e4 (.nan, wk) (by simp)).1 rfl
    have hz1 : z = 1000 := by
      rw [abs_le] at hz2
      have a : (999 : ℝ) < z := by rw [← hz]; linarith [hz2.1]
      have b : (z : ℝ) < 1001 := by rw [← hz]; linarith [hz2.2]
      have a' : (999 : ℤ) < z := by exact_mod_cast a
      have b' : z < (1001 : ℤ) := by exact_mod_cast b
      omega
    have hw : w1 = 1 := by rw [hz1] at hz; push_cast at hz; linarith
    simp only at g1 g2 g3
    refine ⟨p', x, rfl, h1, w3, ?_, h3'⟩
    rw [hx, g1, g2, g3, hw]

/-- values of a correlation box: 0.12345 is shown as 0.123, 0.0005 as 0.0 (ties to even) -/
example : round3 (.fin (12345 / 100000 : ℚ)) = .fin (123 / 1000) ∧ round3 (.fin (5 / 10000 : ℚ)) = .fin 0 ∧ round3 (.nan : Num ℚ) = .nan := by
  refine ⟨?_, ?_, ?_⟩ <;> decide +kernel

end Cases

end Artemis
