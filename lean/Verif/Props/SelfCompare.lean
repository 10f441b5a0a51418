import Mathlib.Data.Sym.Sym2
import Verif.Props.PlotFit
import Verif.Props.Comparator

/-!
# C169: a comparison plot with the methods exchanged, and of a method with itself
-/

set_option linter.unusedSectionVars false
set_option linter.unusedVariables false
set_option linter.unusedSimpArgs false

namespace Artemis
open Spec

section Mirror
variable {F I J K : Type} [LinearOrder F] [LinearOrder I] [LinearOrder J] [Field K] [LinearOrder K] [IsStrictOrderedRing K] [HasSqrt K]

/-- `v` is a method object after `fit` for the features `fs`: H-statistic, Greenwell and Sejong Oh as in `Fitted`, or conditional minimal
depth, if different pairs of columns have different joined names. -/
inductive ComparedFit (sort : PairSort F K) (fs : List F) : View F I K → Prop
  | pairs {v : View F I K} (h : Fitted sort fs v) : ComparedFit sort fs v
  | cmd {J' : Type} [LinearOrder J'] {E : CmdEnv F J' K} (hE : SortsCmd E.sortOvo) (hC : SortsBy CmdRow.val true E.sortCmp)
      {m : Forest F} {ts : List LTree} (h : ForestOf m ts) (hts : ts ≠ []) (hc : m.columns ≠ []) (s0 : CmdMethod F K)
      (hinj : ∀ a ∈ m.columns, ∀ b ∈ m.columns, ∀ c ∈ m.columns, ∀ e ∈ m.columns, pairId E.join a b = pairId E.join c e →
        (a = c ∧ b = e) ∨ (a = e ∧ b = c)) (hfs : fs = m.columns) :
      ComparedFit sort fs (CmdMethod.view E (CmdMethod.fit E m s0).2)

/-- the table used in comparisons has one row per pair of different features of `fs` -/
def OnePerPairOf (fs : List F) (v : View F I K) (t : List (OvoRow F K)) : Prop :=
  v.cmp = .ok t ∧ OncePerPair t ∧ ∀ f g, (∃ r ∈ t, r.isPair f g) ↔ f ∈ fs ∧ g ∈ fs ∧ f ≠ g

theorem isPair_self (r : OvoRow F K) : r.isPair r.f1 r.f2 := Or.inl ⟨rfl, rfl⟩

theorem samePair_flip {r q : OvoRow F K} (h : SamePair r q) : SamePair q r := by
  unfold SamePair OvoRow.isPair at *
  tauto

theorem oncePerPair_perm {t t' : List (OvoRow F K)} (hp : t.Perm t') (h : OncePerPair t) : OncePerPair t' :=
  (hp.pairwise_iff (fun h h' => h (samePair_flip h'))).1 h

theorem onePerPair_mem {fs : List F} {t : List (OvoRow F K)} (h1 : ∀ r ∈ t, r.f1 ∈ fs ∧ r.f2 ∈ fs ∧ r.f1 ≠ r.f2)
    (h2 : ∀ f ∈ fs, ∀ g ∈ fs, f ≠ g → ∃ r ∈ t, r.isPair f g) (f g : F) : (∃ r ∈ t, r.isPair f g) ↔ f ∈ fs ∧ g ∈ fs ∧ f ≠ g := by
  constructor
  · rintro ⟨r, hr, ⟨rfl, rfl⟩ | ⟨rfl, rfl⟩⟩
    · exact h1 r hr
    · obtain ⟨a, b, c⟩ := h1 r hr
      exact ⟨b, a, Ne.symm c⟩
  · rintro ⟨a, b, c⟩
    exact h2 f a g b c

theorem ComparedFit.table {sort : PairSort F K} (hs : ∀ asc, SortsBy OvoRow.val asc (sort asc)) {fs : List F} {v : View F I K}
    (h : ComparedFit sort fs v) : ∃ t, OnePerPairOf fs v t := by
  cases h with
  | pairs h =>
    obtain ⟨ovo, imp, hT⟩ := h.tables
    refine ⟨sort v.asc ovo, ?_, ?_, ?_⟩
    · rw [hT.cmp, hT.has_ovo]; rfl
    · exact oncePerPair_perm (hs v.asc ovo).1.symm hT.once
    · refine onePerPair_mem (fun r hr => hT.feats r ((hs v.asc ovo).1.mem_iff.1 hr)) ?_
      intro f hf g hg hne
      obtain ⟨r, hr, hp⟩ := hT.row hf hg hne
      exact ⟨r, (hs v.asc ovo).1.mem_iff.2 hr, hp⟩
  | @cmd J' _ E hE hC m ts h hts hc s0 hinj hfs =>
    subst hfs
    obtain ⟨rows, out, _, e2, e3, e4, _⟩ := C38_compare_merges_directions_partial E hE hC h hts hc s0 hinj
    have hone : ∀ f ∈ m.columns, ∀ g ∈ m.columns, f ≠ g → (out.map CmdRow.toOvo).countP (fun r => decide (r.isPair f g)) = 1 := by
      intro f hf g hg hne
      obtain ⟨_, _, r, _, _, e, _⟩ := e4 f hf g hg hne
      rw [List.countP_map]
      have : ((fun r : OvoRow F K => decide (r.isPair f g)) ∘ CmdRow.toOvo) = CmdRow.isPair f g := by
        funext r
        unfold CmdRow.isPair OvoRow.isPair
        exact decide_eq_decide.2 Iff.rfl
      rw [this, List.countP_eq_length_filter, e]
      rfl
    have hfe : ∀ r ∈ out.map CmdRow.toOvo, r.f1 ∈ m.columns ∧ r.f2 ∈ m.columns ∧ r.f1 ≠ r.f2 := by
      intro r hr
      obtain ⟨q, hq, rfl⟩ := List.mem_map.1 hr
      exact e3 q hq
    refine ⟨out.map CmdRow.toOvo, ?_, once_of_count hone hfe, onePerPair_mem hfe ?_⟩
    · simp only [CmdMethod.view, e2]; rfl
    · intro f hf g hg hne
      have hpos : 0 < (out.map CmdRow.toOvo).countP (fun r => decide (r.isPair f g)) := by rw [hone f hf g hg hne]; exact Nat.one_pos
      obtain ⟨r, hr, hp⟩ := List.countP_pos_iff.1 hpos
      exact ⟨r, hr, of_decide_eq_true hp⟩

/-- in a table that lists a pair once, the value of a pair is the one of its row -/
theorem value_of_once {v : View F I K} {t : List (OvoRow F K)} (hc : v.cmp = .ok t) (ho : OncePerPair t) {r : OvoRow F K} (hr : r ∈ t)
    {f g : F} (hp : r.isPair f g) : v.interactionValue f g = .ok r.val := by
  unfold View.interactionValue
  rw [hc]
  simp only
  generalize hq : t.filter (fun r => (decide (r.f1 = f) && decide (r.f2 = g)) || (decide (r.f1 = g) && decide (r.f2 = f))) = l
  have hrl : r ∈ l := by
    rw [← hq, List.mem_filter]
    refine ⟨hr, ?_⟩
    simpa [OvoRow.isPair] using hp
  have hall : ∀ q ∈ l, q.isPair f g := by
    intro q hq'
    rw [← hq, List.mem_filter] at hq'
    simpa [OvoRow.isPair] using hq'.2
  have hpw : OncePerPair l := by
    rw [← hq]
    exact List.Pairwise.filter _ ho
  have same : ∀ q ∈ l, SamePair q r := by
    intro q hq'
    have a := hall q hq'
    unfold SamePair OvoRow.isPair at *
    rcases a with ⟨a, b⟩ | ⟨a, b⟩ <;> rcases hp with ⟨c, d⟩ | ⟨c, d⟩ <;> simp [a, b, c, d]
  match l, hrl, hpw, same with
  | [], h, _, _ => cases h
  | q :: l', h, hpw, same =>
    simp only
    rcases List.mem_cons.1 h with rfl | h
    · rfl
    · exact absurd (same q List.mem_cons_self) ((List.pairwise_cons.1 hpw).1 r h)

theorem forall₂_mem_snd {α β : Type} {R : α → β → Prop} {l : List α} {l' : List β} (h : List.Forall₂ R l l') {b : β} (hb : b ∈ l') :
    ∃ a ∈ l, R a b := by
  induction h with
  | nil => cases hb
  | @cons a b' l l' hab h ih =>
    rcases List.mem_cons.1 hb with rfl | hb
    · exact ⟨a, List.mem_cons_self, hab⟩
    · obtain ⟨a', ha', hr⟩ := ih hb
      exact ⟨a', List.mem_cons_of_mem _ ha', hr⟩

/-- the numbers of two methods for two features, as a point of the plane -/
noncomputable def pointAt (m1 m2 : View F I K) (f g : F) : Num K × Num K :=
  ((m1.interactionValue f g).toOption.getD .nan, (m2.interactionValue f g).toOption.getD .nan)

theorem pointAt_comm (m1 m2 : View F I K) (f g : F) : pointAt m1 m2 f g = pointAt m1 m2 g f := by
  unfold pointAt
  rw [C47_symmetric, C47_symmetric m2]

/-- the same as a function of the unordered pair -/
noncomputable def pointOf (m1 m2 : View F I K) : Sym2 F → Num K × Num K := Sym2.lift ⟨pointAt m1 m2, pointAt_comm m1 m2⟩

theorem points_map {join : F → F → J} {m1 m2 : View F I K} {n : Int} {addBox : Bool} {c : Comparator F K} {p : CmpPlot F K}
    (h : Comparator.comparisonPlot join m1 m2 n addBox c = .ok p) {t : List (OvoRow F K)} (h1 : m1.cmp = .ok t) (ho : OncePerPair t) :
    p.points = (t.map (fun r => s(r.f1, r.f2))).map (pointOf m1 m2) := by
  obtain ⟨t', h1', hf, -⟩ := C51_points join h
  rw [h1] at h1'
  cases h1'
  rw [List.map_map]
  have hval : ∀ r ∈ t, m1.interactionValue r.f1 r.f2 = .ok r.val := fun r hr => value_of_once h1 ho hr (isPair_self r)
  generalize p.points = l at hf
  clear ho h1 h
  induction hf with
  | nil => rfl
  | @cons r xy t l hxy hf ih =>
    rw [List.map_cons, ← ih (fun r hr => hval r (List.mem_cons_of_mem _ hr))]
    congr 1
    have := hval r List.mem_cons_self
    obtain ⟨x, y⟩ := xy
    simp only at hxy
    show (x, y) = pointAt m1 m2 r.f1 r.f2
    unfold pointAt
    rw [this, hxy.2, hxy.1]
    rfl

theorem unordered_nodup {t : List (OvoRow F K)} (ho : OncePerPair t) : (t.map (fun r => s(r.f1, r.f2))).Nodup := by
  unfold List.Nodup
  rw [List.pairwise_map]
  refine List.Pairwise.imp ?_ ho
  intro r q h e
  apply h
  rw [Sym2.eq_iff] at e
  exact e

theorem pairs_mem {fs : List F} {v : View F I K} {t : List (OvoRow F K)} (h : OnePerPairOf fs v t) (f g : F) :
    s(f, g) ∈ t.map (fun r => s(r.f1, r.f2)) ↔ f ∈ fs ∧ g ∈ fs ∧ f ≠ g := by
  rw [← h.2.2 f g, List.mem_map]
  constructor
  · rintro ⟨r, hr, e⟩
    exact ⟨r, hr, Sym2.eq_iff.1 e⟩
  · rintro ⟨r, hr, e⟩
    exact ⟨r, hr, Sym2.eq_iff.2 e⟩

theorem plot_ok {join : F → F → J} {m1 m2 : View F I K} {fs : List F} {t1 t2 : List (OvoRow F K)} (h1 : OnePerPairOf fs m1 t1)
    (h2 : OnePerPairOf fs m2 t2) (hnd : ∃ f ∈ fs, ∃ g ∈ fs, f ≠ g) (n : Int) (addBox : Bool) :
    ∃ p, Comparator.comparisonPlot join m1 m2 n addBox Comparator.new = .ok p := by
  obtain ⟨f, hf, g, hg, hne⟩ := hnd
  have n1 : t1 ≠ [] := by
    obtain ⟨r, hr, _⟩ := (h1.2.2 f g).2 ⟨hf, hg, hne⟩
    exact List.ne_nil_of_mem hr
  have n2 : t2 ≠ [] := by
    obtain ⟨r, hr, _⟩ := (h2.2.2 f g).2 ⟨hf, hg, hne⟩
    exact List.ne_nil_of_mem hr
  obtain ⟨ps, hps⟩ := mapM_cmpPoint_ok (m2 := m2) (t := t1) (fun r hr => by
    obtain ⟨q, hq, hp⟩ := (h2.2.2 r.f1 r.f2).2 ((h1.2.2 r.f1 r.f2).1 ⟨r, hr, isPair_self r⟩)
    exact ⟨_, value_of_once h2.1 h2.2.1 hq hp⟩)
  obtain ⟨x1, hx1⟩ := (pyMax_ok_iff (t1.map OvoRow.val)).2 (by simpa using n1)
  obtain ⟨x2, hx2⟩ := (pyMax_ok_iff (t2.map OvoRow.val)).2 (by simpa using n2)
  have hbox : ∃ b, cmpBox join (Comparator.new : Comparator F K) m1 m2 addBox = .ok b := by
    unfold cmpBox Comparator.new
    cases addBox with
    | false => exact ⟨none, rfl⟩
    | true =>
      obtain ⟨d, hd⟩ := correlations_ok (join := join) h1.1 h2.1 n1 n2
      obtain ⟨x, y, z, e, _⟩ := correlations_shape hd
      refine ⟨some d, ?_⟩
      simp only [if_true, hd, find_boxLines e]
      rfl
  obtain ⟨b, hb⟩ := hbox
  refine ⟨{ xlabel := m1.name, ylabel := m2.name, points := ps.map (fun p => (p.1.val, p.2)),
            labels := (ps.take n.toNat).map (fun p => (p.1.f1, p.1.f2, p.1.val, p.2)), invertX := m1.asc, invertY := m2.asc,
            box := b }, ?_⟩
  unfold Comparator.comparisonPlot
  rw [h1.1]
  simp only [hx1, h2.1, hx2, hps, hb]

theorem box_symm {join : F → F → J} {m1 m2 : View F I K} {t1 t2 : List (OvoRow F K)} (h1 : m1.cmp = .ok t1) (h2 : m2.cmp = .ok t2)
    (n1 : t1 ≠ []) (n2 : t2 ≠ []) (addBox : Bool) :
    cmpBox join (Comparator.new : Comparator F K) m1 m2 addBox = cmpBox join (Comparator.new : Comparator F K) m2 m1 addBox := by
  have : correlations join m1 m2 = correlations join m2 m1 := by
    obtain ⟨d, hd⟩ := correlations_ok (join := join) h1 h2 n1 n2
    obtain ⟨d', hd'⟩ := correlations_ok (join := join) h2 h1 n2 n1
    obtain ⟨x, y, z, rfl, a, b, c⟩ := correlations_shape hd
    obtain ⟨x', y', z', rfl, a', b', c'⟩ := correlations_shape hd'
    rw [C49_symmetric] at a b c
    rw [a] at a'; rw [b] at b'; rw [c] at c'
    cases a'; cases b'; cases c'
    rw [hd, hd']
  unfold cmpBox
  rw [this]

/-- **C169** Two objects fitted for the same features, at least two different ones, by any of the methods other than split score: both
`comparison_plot(m1, m2)` and `comparison_plot(m2, m1)` on a new comparator are drawn, and the second is the first one mirrored: the axes
with their labels and directions are exchanged, the points are those of the first plot with the coordinates exchanged, and the correlation
box is the same. There is one point per pair of features. -/
theorem C169_mirrored_partial {sort : PairSort F K} (hs : ∀ asc, SortsBy OvoRow.val asc (sort asc)) (join : F → F → J) {fs : List F}
    {m1 m2 : View F I K} (h1 : ComparedFit sort fs m1) (h2 : ComparedFit sort fs m2) (hne : ∃ f ∈ fs, ∃ g ∈ fs, f ≠ g) (n : Int)
    (addBox : Bool) :
    ∃ p q, Comparator.comparisonPlot join m1 m2 n addBox Comparator.new = .ok p ∧
      Comparator.comparisonPlot join m2 m1 n addBox Comparator.new = .ok q ∧
      (q.points.map Prod.swap).Perm p.points ∧ q.xlabel = p.ylabel ∧ q.ylabel = p.xlabel ∧ q.invertX = p.invertY ∧ q.invertY = p.invertX ∧
      q.box = p.box ∧
      ∃ pairs : List (Sym2 F), pairs.Nodup ∧ (∀ f g, s(f, g) ∈ pairs ↔ f ∈ fs ∧ g ∈ fs ∧ f ≠ g) ∧
        List.Forall₂ (fun e xy => ∀ f g, e = s(f, g) → m1.interactionValue f g = .ok xy.1 ∧ m2.interactionValue f g = .ok xy.2) pairs p.points := by
  obtain ⟨t1, k1⟩ := h1.table hs
  obtain ⟨t2, k2⟩ := h2.table hs
  obtain ⟨p, hp⟩ := plot_ok (join := join) k1 k2 hne n addBox
  obtain ⟨q, hq⟩ := plot_ok (join := join) k2 k1 hne n addBox
  have ep := points_map hp k1.1 k1.2.1
  have eq := points_map hq k2.1 k2.2.1
  have hperm : (t2.map (fun r => s(r.f1, r.f2))).Perm (t1.map (fun r => s(r.f1, r.f2))) := by
    rw [List.perm_ext_iff_of_nodup (unordered_nodup k2.2.1) (unordered_nodup k1.2.1)]
    intro e
    induction e with
    | _ f g => rw [pairs_mem k1, pairs_mem k2]
  have hvalue : ∀ {v : View F I K} {t : List (OvoRow F K)}, OnePerPairOf fs v t → ∀ f g, f ∈ fs ∧ g ∈ fs ∧ f ≠ g →
      v.interactionValue f g = .ok ((v.interactionValue f g).toOption.getD .nan) := by
    intro v t k f g h
    obtain ⟨r, hr, hrp⟩ := (k.2.2 f g).2 h
    rw [value_of_once k.1 k.2.1 hr hrp]
    rfl
  refine ⟨p, q, hp, hq, ?_, ?_⟩
  · rw [ep, eq, List.map_map]
    have : Prod.swap ∘ pointOf m2 m1 = pointOf m1 m2 := by
      funext e
      induction e with
      | _ f g => rfl
    rw [this]
    exact hperm.map _
  · obtain ⟨_, _, _, _, a1, a2, a3, a4⟩ := C51_points join hp
    obtain ⟨_, _, _, _, b1, b2, b3, b4⟩ := C51_points join hq
    obtain ⟨u1, u2, _, box, c1, c2, g1, g2, _, hb, e⟩ := plot_inv hp
    obtain ⟨w1, w2, _, box', d1, d2, _, _, _, hb', e'⟩ := plot_inv hq
    rw [box_symm d1 d2 (by rw [c2] at d1; cases d1; exact g2) (by rw [c1] at d2; cases d2; exact g1), hb] at hb'
    refine ⟨by rw [b1, a2], by rw [b2, a1], by rw [b3, a4], by rw [b4, a3], ?_, _, unordered_nodup k1.2.1, pairs_mem k1, ?_⟩
    · rw [e, e']
      exact (Except.ok.inj hb').symm
    · rw [ep, List.forall₂_map_right_iff, List.forall₂_same]
      intro e he f g hfg
      subst hfg
      have hm := (pairs_mem k1 f g).1 he
      exact ⟨hvalue k1 f g hm, hvalue k2 f g hm⟩

/-- **C169** In the comparison plot of such an object with itself, every point is on the diagonal. -/
theorem C169_diagonal_partial {sort : PairSort F K} (hs : ∀ asc, SortsBy OvoRow.val asc (sort asc)) (join : F → F → J) {fs : List F}
    {m : View F I K} (h : ComparedFit sort fs m) (n : Int) (addBox : Bool) (c : Comparator F K) {p : CmpPlot F K}
    (hp : Comparator.comparisonPlot join m m n addBox c = .ok p) :
    (∀ xy ∈ p.points, xy.1 = xy.2) ∧ ∀ l ∈ p.labels, l.2.2.1 = l.2.2.2 := by
  obtain ⟨t, k⟩ := h.table hs
  obtain ⟨t', h1', hf, hl, _⟩ := C51_points join hp
  rw [k.1] at h1'
  cases h1'
  have hval : ∀ r ∈ t, m.interactionValue r.f1 r.f2 = .ok r.val := fun r hr => value_of_once k.1 k.2.1 hr (isPair_self r)
  constructor
  · intro xy hxy
    obtain ⟨r, hr, e1, e2⟩ := forall₂_mem_snd hf hxy
    rw [hval r hr] at e2
    rw [e1]; exact Except.ok.inj e2
  · intro l hll
    obtain ⟨r, hr, _, _, e1, e2⟩ := forall₂_mem_snd hl hll
    rw [hval r (List.mem_of_mem_take hr)] at e2
    rw [e1]; exact Except.ok.inj e2

end Mirror

section Cases

/-- **C169** fails for split score: its table lists a pair once per direction, and a point takes the number of its own row as one
coordinate and the greater of the two as the other one. Here the object is compared with itself, and the pair of the features 0 and 1 is
drawn twice, once off the diagonal. -/
theorem C169_split_score_fails : ∃ p, Comparator.comparisonPlot (J := Nat) exJoin (exTwoWayFit.view exPairSort) (exTwoWayFit.view exPairSort)
      3 false Comparator.new = .ok p ∧ p.points = [(.fin 10, .fin 10), (.fin 5, .fin 5), (.fin 2, .fin 10)] ∧
    ¬ (p.points.map Prod.swap).Perm p.points := by
  obtain ⟨p, hp, e⟩ : ∃ p, Comparator.comparisonPlot (J := Nat) exJoin (exTwoWayFit.view exPairSort) (exTwoWayFit.view exPairSort)
      3 false Comparator.new = .ok p ∧ p.points = [(.fin 10, .fin 10), (.fin 5, .fin 5), (.fin 2, .fin 10)] := by
    have h : (Comparator.comparisonPlot (J := Nat) exJoin (exTwoWayFit.view exPairSort) (exTwoWayFit.view exPairSort)
      3 false Comparator.new).toOption.map (·.points) = some [(.fin 10, .fin 10), (.fin 5, .fin 5), (.fin 2, .fin 10)] := by decide +kernel
    cases hp : Comparator.comparisonPlot (J := Nat) exJoin (exTwoWayFit.view exPairSort) (exTwoWayFit.view exPairSort)
      3 false Comparator.new with
    | error e => rw [hp] at h; cases h
    | ok p => rw [hp] at h; exact ⟨p, rfl, Option.some.inj h⟩
  refine ⟨p, hp, e, ?_⟩
  rw [e]
  decide +kernel

/-- the example of Sejong Oh's method, compared with itself -/
example : ∃ p, Comparator.comparisonPlot (J := Fin 3 ×ₗ Fin 3) (fun f g => toLex (f, g)) (Sejong.view (I := Nat) exSortQ exSejongQ)
      (Sejong.view exSortQ exSejongQ) 3 true Comparator.new = .ok p ∧ ∀ xy ∈ p.points, xy.1 = xy.2 := by
  obtain ⟨p, q, hp, _⟩ := C169_mirrored_partial (fun _ => sortsBy_stableSort _ _) (fun f g => toLex (f, g)) (.pairs exSejong_fitted)
    (.pairs exSejong_fitted) ⟨0, by decide, 1, by decide, by decide⟩ 3 true
  exact ⟨p, hp, (C169_diagonal_partial (fun _ => sortsBy_stableSort _ _) _ (.pairs exSejong_fitted) 3 true _ hp).1⟩

/-- conditional minimal depth of the example forest, with an instance of equality of names of its order -/
theorem exCmd_compared : ∃ s, ComparedFit (I := Nat) (fun asc => stableSort OvoRow.val asc) [[97], [97, 98], [98]]
    (CmdMethod.view (exCmdEnv ℚ) s) ∧ s = (CmdMethod.fit (exCmdEnv ℚ) exForest CmdMethod.new).2 :=
  ⟨_, .cmd (E := exCmdEnv ℚ) sortsCmd_cmdSort (sortsBy_stableSort _ _) exForest_of (by simp) (by simp [exForest]) CmdMethod.new
    (by decide +kernel) rfl, by congr 2; funext a b; exact Subsingleton.elim _ _⟩

/-- the example forest compared with itself: points on the diagonal -/
example : ∃ p, Comparator.comparisonPlot (J := List Nat) (· ++ ·) (CmdMethod.view (I := Nat) (exCmdEnv ℚ)
      (CmdMethod.fit (exCmdEnv ℚ) exForest CmdMethod.new).2) (CmdMethod.view (exCmdEnv ℚ) (CmdMethod.fit (exCmdEnv ℚ) exForest CmdMethod.new).2)
      3 true Comparator.new = .ok p ∧ ∀ xy ∈ p.points, xy.1 = xy.2 := by
  obtain ⟨s, hs, rfl⟩ := exCmd_compared
  obtain ⟨p, q, hp, _⟩ := C169_mirrored_partial (fun _ => sortsBy_stableSort _ _) (· ++ ·) hs hs
    ⟨[97], by decide, [98], by decide, by decide⟩ 3 true
  exact ⟨p, hp, (C169_diagonal_partial (fun _ => sortsBy_stableSort _ _) _ hs 3 true _ hp).1⟩

end Cases

end Artemis
