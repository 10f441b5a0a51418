import Verif.Props.Drawable
import Verif.Props.Zenplot

/-!
# Plots after `fit`

The theorems about plots of tables (C54, C56, C57, C76, C77, C86) put together with the theorems about the tables of a
returning `fit`.
-/

set_option linter.unusedSectionVars false
set_option linter.unusedVariables false
set_option linter.unusedSimpArgs false

namespace Artemis
open Spec

section Pairs
variable {F I K : Type} [LinearOrder F] [LinearOrder I] [Field K] [LinearOrder K] [IsStrictOrderedRing K] [HasSqrt K]

/-- `v` is a method object of H-statistic (with its one-vs-all part), Greenwell or Sejong Oh after `fit` returned, on
non-empty data, for the different features `fs`, and with a model with finite predictions. -/
inductive Fitted (sort : PairSort F K) (fs : List F) : View F I K → Prop
  | pd {V G L : Type} [LawfulSqrt K] [LinearOrder V] [DecidableEq L] {u : Row F V → K} {E : PdEnv G F K} {a : PdArgs L F V K}
      {s0 s : PdpMethod G L F V K} {Xs : LFrame L F V} (kind : PdKind) (hs : FitSetup (finM u) E a s0 Xs)
      (hsort : SortsBy OvoRow.val false E.sortOvo) (hsortF : SortsBy FeatRow.val false E.sortFeat) (hX : Xs.frame.rows ≠ [])
      (hfs : fs = a.features.getD a.X.frame.cols) (hnd : fs.Nodup) (hova : kind ≠ .greenwell → a.calculateOva = true)
      (hret : PdpMethod.fit kind E a s0 = (.ok (), s)) : Fitted sort fs (PdpMethod.view sort kind s)
  | sejong {V G L : Type} [LinearOrder V] [DecidableEq L] {E : PerfEnv G L F K} {a : SejongArgs L F V K} {s0 : Sejong G L F V K}
      {Xs : LFrame L F V} {ys : Target L K} {g : G} {sc : List (Row F V) → K} (hs : PerfSetup E a s0 Xs ys g sc)
      (hsort : SortsBy (fun r : OvoRow F K => r.val.abs) false E.sortOvo) (hsortF : SortsBy FeatRow.val false E.sortFeat)
      (hfs : fs = a.features.getD a.X.frame.cols) (entropy : G) :
      Fitted sort fs (Sejong.view sort (Sejong.fit E a entropy s0).2)

/-- What the tables look like. -/
structure PairTables (sort : PairSort F K) (v : View F I K) (fs : List F) (ovo : List (OvoRow F K)) (imp : List (FeatRow F K)) :
    Prop where
  ready : Ready v
  name : v.name = hStatName ∨ v.name = greenwellName ∨ v.name = sejongName
  ova : v.name = hStatName → v.ova.isSome = true
  asc : v.asc = false
  directed : v.directed = false
  cmp : v.cmp = compareBase sort v.asc v.ovo
  has_ovo : v.ovo = some ovo
  has_imp : v.imp = some imp
  nodup : fs.Nodup
  len : ovo.length = fs.length * (fs.length - 1) / 2
  one : ∀ f ∈ fs, ∀ g ∈ fs, f ≠ g → ovo.countP (fun r => decide (r.isPair f g)) = 1
  feats : ∀ r ∈ ovo, r.f1 ∈ fs ∧ r.f2 ∈ fs ∧ r.f1 ≠ r.f2
  num : ∀ r ∈ ovo, r.val ≠ .nan
  nonneg : ∀ r ∈ ovo, Num.le (.fin 0) r.val = true
  sorted : ovo.Pairwise (fun r q => Num.le q.val r.val = true)
  imp_mem : ∀ f, (∃ q ∈ imp, q.f = f) ↔ f ∈ fs
  imp_num : ∀ q ∈ imp, q.val ≠ .nan
  imp_once : ∀ q ∈ imp, ∀ q' ∈ imp, q.f = q'.f → q.val = q'.val
  fin : v.name ≠ hStatName → ∀ r ∈ ovo, ∃ x, r.val = .fin x ∧ 0 ≤ x

theorem once_of_count {ovo : List (OvoRow F K)} {fs : List F}
    (one : ∀ f ∈ fs, ∀ g ∈ fs, f ≠ g → ovo.countP (fun r => decide (r.isPair f g)) = 1)
    (feats : ∀ r ∈ ovo, r.f1 ∈ fs ∧ r.f2 ∈ fs ∧ r.f1 ≠ r.f2) : OncePerPair ovo := by
  unfold OncePerPair
  rw [List.pairwise_iff_getElem]
  intro i j hi hj hij hsame
  obtain ⟨h1, h2, h3⟩ := feats _ (List.getElem_mem hj)
  have hc := one _ h1 _ h2 h3
  have hj' : (ovo[j]).isPair ovo[j].f1 ovo[j].f2 := Or.inl ⟨rfl, rfl⟩
  have : 2 ≤ ovo.countP (fun r => decide (r.isPair ovo[j].f1 ovo[j].f2)) := by
    generalize hp : (fun r : OvoRow F K => decide (r.isPair ovo[j].f1 ovo[j].f2)) = p at *
    have p1 : p ovo[i] = true := by rw [← hp]; exact decide_eq_true hsame
    have p2 : p ovo[j] = true := by rw [← hp]; exact decide_eq_true hj'
    have hsp : ovo = ovo.take (i + 1) ++ ovo.drop (i + 1) := (List.take_append_drop _ _).symm
    rw [hsp, List.countP_append]
    have c1 : 0 < (ovo.take (i + 1)).countP p := List.countP_pos_iff.2
      ⟨ovo[i], by rw [List.mem_take_iff_getElem]; exact ⟨i, by omega, rfl⟩, p1⟩
    have c2 : 0 < (ovo.drop (i + 1)).countP p := List.countP_pos_iff.2
      ⟨ovo[j], by rw [List.mem_drop_iff_getElem]; exact ⟨j - (i + 1), by omega, by congr 1; omega⟩, p2⟩
    omega
  omega

theorem Fitted.tables {sort : PairSort F K} {fs : List F} {v : View F I K} (h : Fitted sort fs v) :
    ∃ ovo imp, PairTables sort v fs ovo imp := by
  cases h with
  | @pd V G L _ _ _ u E a s0 s Xs kind hs hsort hsortF hX hfs hnd hova hret =>
    subst hfs
    obtain ⟨t, ht, hlen, hone, hfeat⟩ := C13_one_row_per_pair kind hs hsort hnd hret
    obtain ⟨imp, hi, hperm, hnum⟩ := pd_imp_features hs hsortF hret
    obtain ⟨t', ht', hval, hsorted⟩ := zen_sorted hs hsort hX hret
    rw [ht] at ht'
    cases ht'
    have hready := pd_ready (I := I) sort kind hova hret
    refine ⟨t, imp, hready, ?_, ?_, rfl, rfl, rfl, ht, hi, hnd, hlen, hone, hfeat, hval, ?_, hsorted, ?_, hnum, ?_, ?_⟩
    · cases kind
      · exact Or.inl rfl
      · exact Or.inr (Or.inl rfl)
    · cases kind with
      | friedman n => exact fun _ => hready.2.2 rfl
      | greenwell =>
        intro e
        exact absurd e (by show greenwellName ≠ hStatName; decide)
    · intro r hr
      cases kind with
      | friedman n =>
        obtain ⟨t'', h1, h2, _⟩ := C12_ovo_nonneg_sorted n hs hsort hret
        rw [ht] at h1
        cases h1
        exact (h2 r hr).2
      | greenwell =>
        obtain ⟨t'', h1, h2, _⟩ := C19_greenwell_finite_nonneg_sorted hs hX hsort hret
        rw [ht] at h1
        cases h1
        obtain ⟨x, hx, h0⟩ := h2 r hr
        rw [hx]
        simpa using h0
    · intro f
      rw [← List.mem_map, hperm.mem_iff]
      rfl
    · have hn : (imp.map FeatRow.f).Nodup := hperm.nodup_iff.2 hnd
      intro q hq q' hq' e
      rw [List.inj_on_of_nodup_map hn hq hq' e]
    · cases kind with
      | friedman n => exact fun e => absurd rfl e
      | greenwell =>
        intro _
        obtain ⟨t'', h1, h2, _⟩ := C19_greenwell_finite_nonneg_sorted hs hX hsort hret
        rw [ht] at h1
        cases h1
        exact h2
  | @sejong V G L _ _ E a s0 Xs ys g sc hs hsort hsortF hfs entropy =>
    subst hfs
    obtain ⟨s, t, hfit, ht, hlen, hone, hfeat⟩ := C13_sejong_one_row_per_pair hs hsort entropy
    obtain ⟨s', t', hfit', ht', _, hval, hsorted⟩ := C24_mean_absolute_nonadditive_change hs hsort entropy
    rw [hfit] at hfit'
    cases hfit'
    rw [ht] at ht'
    cases ht'
    obtain ⟨imp, hi, hmem, hnum, honce⟩ := sejong_fit_imp hs entropy hsortF
    rw [hfit] at hi ⊢
    have hd := (sejongFit_progress E a entropy s0).done (returned_iff.2 (by rw [hfit]))
    rw [hfit] at hd
    simp only at hd hi ⊢
    refine ⟨t, imp, ⟨hd.1, by simp only [Sejong.view, hd.2.2]; rfl, fun e => by cases e⟩, Or.inr (Or.inr rfl),
      fun e => absurd e (by show sejongName ≠ hStatName; decide), rfl, rfl, rfl,
      ht, hi, hs.feats_nodup, hlen, hone, hfeat, ?_, ?_, hsorted, ?_, hnum, honce, fun _ => hval⟩
    · intro r hr
      obtain ⟨x, hx, _⟩ := hval r hr
      rw [hx]
      simp
    · intro r hr
      obtain ⟨x, hx, h0⟩ := hval r hr
      rw [hx]
      simpa using h0
    · intro f
      rw [← List.mem_map, hmem]
      rfl

theorem PairTables.once {sort : PairSort F K} {v : View F I K} {fs : List F} {ovo : List (OvoRow F K)} {imp : List (FeatRow F K)}
    (h : PairTables sort v fs ovo imp) : OncePerPair ovo := once_of_count h.one h.feats

theorem PairTables.clean {sort : PairSort F K} {v : View F I K} {fs : List F} {ovo : List (OvoRow F K)} {imp : List (FeatRow F K)}
    (h : PairTables sort v fs ovo imp) : CleanTables v ovo :=
  ⟨fun r hr => (h.feats r hr).2.2, fun t ht => by rw [h.has_imp] at ht; cases ht; exact h.imp_once⟩

theorem PairTables.row {sort : PairSort F K} {v : View F I K} {fs : List F} {ovo : List (OvoRow F K)} {imp : List (FeatRow F K)}
    (h : PairTables sort v fs ovo imp) {f g : F} (hf : f ∈ fs) (hg : g ∈ fs) (hne : f ≠ g) : ∃ r ∈ ovo, r.isPair f g := by
  have := h.one f hf g hg hne
  have hpos : 0 < ovo.countP (fun r => decide (r.isPair f g)) := by omega
  obtain ⟨r, hr, hp⟩ := List.countP_pos_iff.1 hpos
  exact ⟨r, hr, of_decide_eq_true hp⟩

theorem PairTables.value {sort : PairSort F K} (hs : ∀ asc, SortsBy OvoRow.val asc (sort asc)) {v : View F I K} {fs : List F}
    {ovo : List (OvoRow F K)} {imp : List (FeatRow F K)}
    (h : PairTables sort v fs ovo imp) {r : OvoRow F K} (hr : r ∈ ovo) {f g : F} (hp : r.isPair f g) :
    v.interactionValue f g = .ok r.val :=
  (C47_lookup hs h.cmp h.has_ovo f g).2.2 r hr hp (count_of_once h.once hr hp)

theorem exists_other {fs : List F} (hfs : fs.Nodup) (htwo : 2 ≤ fs.length) {f : F} (hf : f ∈ fs) : ∃ g ∈ fs, f ≠ g := by
  by_contra hn
  push Not at hn
  match fs, htwo with
  | x :: y :: l, _ =>
    have h1 := hn x (by simp)
    have h2 := hn y (by simp)
    rw [List.nodup_cons] at hfs
    exact hfs.1 (by rw [← h1, h2]; simp)

theorem PairTables.draws {sort : PairSort F K} {v : View F I K} {fs : List F} {ovo : List (OvoRow F K)} {imp : List (FeatRow F K)}
    (h : PairTables sort v fs ovo imp) (htwo : 2 ≤ fs.length) (E' : VisEnv F K) {visType : String} (hp : HasPlot v.name visType)
    (hl : visType ≠ "lollipop") (title : String) (o : Opts K) (sub : SubOpts K) : ∃ ps, v.plot E' visType title o sub = .ok ps := by
  have hpair : ∀ f ∈ fs, ∃ r ∈ ovo, r.f1 ≠ r.f2 ∧ (r.f1 = f ∨ r.f2 = f) := by
    intro f hf
    obtain ⟨g, hg, hne⟩ := exists_other h.nodup htwo hf
    obtain ⟨r, hr, hp⟩ := h.row hf hg hne
    exact ⟨r, hr, (h.feats r hr).2.2, by rcases hp with ⟨e, _⟩ | ⟨_, e⟩ <;> simp [e]⟩
  refine C59_drawable_partial h.ready ?_ ⟨h.has_ovo, h.has_imp, ?_, ?_, ?_, ?_⟩ ?_ ?_ E' hp title ?_ sub
  · rcases h.name with e | e | e <;> rw [e] <;> simp [methodNames]
  · exact fun r hr => ⟨(h.imp_mem _).2 (h.feats r hr).1, (h.imp_mem _).2 (h.feats r hr).2.1⟩
  · intro q hq
    obtain ⟨r, hr, _, he⟩ := hpair q.f ((h.imp_mem _).1 ⟨q, hq, rfl⟩)
    exact ⟨r, hr, he⟩
  · obtain ⟨f, hf⟩ : ∃ f, f ∈ fs := by
      match fs, htwo with
      | x :: l, _ => exact ⟨x, by simp⟩
    obtain ⟨r, hr, hne, _⟩ := hpair f hf
    exact ⟨r, hr, hne, fun _ => h.num r hr⟩
  · rw [h.directed]; intro e; cases e
  · exact h.ova
  · intro e
    rcases h.name with e' | e' | e' <;> rw [e'] at e <;> exact absurd e (by decide)
  · intro e; exact absurd e hl

/-- **C57** after `fit` of H-statistic, Greenwell or Sejong Oh for at least two features: the heatmap can be drawn, its rows
and columns are the included features; off the diagonal there is a number, the value of the row of the pair, the same on both
sides; on the diagonal the importance of the feature. -/
theorem C57_after_fit {sort : PairSort F K} {fs : List F} {v : View F I K} (h : Fitted sort fs v) (htwo : 2 ≤ fs.length)
    {E : VisEnv F K} (hE : ∀ key asc, SortsBy key asc (E.sortIdx key asc)) (title : String) (o : Opts K) (sub : SubOpts K) :
    ∃ ti a b m ovo imp, v.plot E "heatmap" title o sub = .ok [.heatmap ti a b m] ∧ v.ovo = some ovo ∧ v.imp = some imp ∧
      m.cols = m.rows ∧ m.rows.Perm fs ∧
      (∀ f ∈ fs, ∀ g ∈ fs, f ≠ g → m.cell f g ≠ .nan ∧ m.cell f g = m.cell g f ∧ ∃ r ∈ ovo, r.isPair f g ∧ r.val = m.cell f g) ∧
      (∀ f ∈ fs, ∃ q ∈ imp, q.f = f ∧ m.cell f f = q.val) := by
  obtain ⟨ovo, imp, ht⟩ := h.tables
  obtain ⟨ps, hps⟩ := ht.draws htwo E (visType := "heatmap") (Or.inl rfl) (by decide) title o sub
  obtain ⟨ti, a, b, m, rfl, hc, hn, h1, h2, h3, _, h5⟩ := C57_undirected ht.directed hE hps ht.has_ovo ht.once ht.clean
  have hcell : ∀ f ∈ fs, ∀ g ∈ fs, f ≠ g → ∃ r ∈ ovo, r.isPair f g ∧ m.cell f g = r.val ∧ m.cell g f = r.val := by
    intro f hf g hg hne
    obtain ⟨r, hr, hp⟩ := ht.row hf hg hne
    refine ⟨r, hr, hp, ?_⟩
    rcases hp with ⟨rfl, rfl⟩ | ⟨rfl, rfl⟩
    · exact h1 r hr
    · exact (h1 r hr).symm
  refine ⟨ti, a, b, m, ovo, imp, hps, ht.has_ovo, ht.has_imp, hc, ?_, ?_, ?_⟩
  · rw [List.perm_ext_iff_of_nodup hn ht.nodup]
    intro f
    constructor
    · intro hf
      obtain ⟨r, hr, rfl | rfl⟩ := h5 f hf
      · exact (ht.feats r hr).1
      · exact (ht.feats r hr).2.1
    · intro hf
      obtain ⟨g, hg, hne⟩ := exists_other ht.nodup htwo hf
      obtain ⟨r, hr, hp⟩ := ht.row hf hg hne
      rcases hp with ⟨rfl, rfl⟩ | ⟨rfl, rfl⟩
      · exact (h2 r hr (ht.num r hr)).1
      · exact (h2 r hr (ht.num r hr)).2
  · intro f hf g hg hne
    obtain ⟨r, hr, hp, e1, e2⟩ := hcell f hf g hg hne
    exact ⟨by rw [e1]; exact ht.num r hr, by rw [e1, e2], r, hr, hp, e1.symm⟩
  · intro f hf
    obtain ⟨g, hg, hne⟩ := exists_other ht.nodup htwo hf
    obtain ⟨r, hr, hp⟩ := ht.row hf hg hne
    obtain ⟨q, hq, e1, e2, _⟩ := h3 imp ht.has_imp r hr f (by rcases hp with ⟨e, _⟩ | ⟨_, e⟩ <;> simp [e])
    exact ⟨q, hq, e1, e2⟩

/-- **C77** after `fit` of H-statistic, Greenwell or Sejong Oh: for any two different included features the heatmap shows what
`interaction_value` returns. -/
theorem C77_after_fit {sort : PairSort F K} (hs : ∀ asc, SortsBy OvoRow.val asc (sort asc)) {fs : List F} {v : View F I K}
    (h : Fitted sort fs v) (htwo : 2 ≤ fs.length) {E : VisEnv F K} (hE : ∀ key asc, SortsBy key asc (E.sortIdx key asc))
    (title : String) (o : Opts K) (sub : SubOpts K) :
    ∃ ti a b m, v.plot E "heatmap" title o sub = .ok [.heatmap ti a b m] ∧ m.rows.Perm fs ∧ m.cols = m.rows ∧
      ∀ f ∈ fs, ∀ g ∈ fs, f ≠ g → v.interactionValue f g = .ok (m.cell f g) := by
  obtain ⟨ti, a, b, m, ovo, imp, h1, ho, hi, h2, h3, h4, _⟩ := C57_after_fit h htwo hE title o sub
  obtain ⟨ovo', imp', ht⟩ := h.tables
  have e := ht.has_ovo
  rw [ho] at e
  cases e
  refine ⟨ti, a, b, m, h1, h3, h2, fun f hf g hg hne => ?_⟩
  obtain ⟨_, _, r, hr, hp, e⟩ := h4 f hf g hg hne
  rw [ht.value hs hr hp, e]

theorem keyLE_of_le {a b : Num K} (ha : a ≠ .nan) (hb : b ≠ .nan) : Num.keyLE false a b = Num.le b a := by
  cases a <;> cases b <;> simp_all [Num.keyLE, Num.le]

/-- **C76** after `fit` of H-statistic, Greenwell or Sejong Oh: the bar chart has a bar for `top_k` (10) pairs of different
included features, or for all of them if there are fewer; each pair has one bar, its length is what `interaction_value`
returns, the bars are in the order of strength and no pair without bar is stronger than one with a bar. -/
theorem C76_after_fit {sort : PairSort F K} (hs : ∀ asc, SortsBy OvoRow.val asc (sort asc)) {fs : List F} {v : View F I K}
    (h : Fitted sort fs v) (htwo : 2 ≤ fs.length) (E : VisEnv F K) (title : String) (o : Opts K) (sub : SubOpts K) {k : Nat}
    (hk : (k : Int) = o.topK.getD 10) :
    ∃ ti shown, v.plot E "bar_chart" title o sub = .ok [.bars ti shown] ∧ shown.length = min k (fs.length * (fs.length - 1) / 2) ∧
      OncePerPair shown ∧
      (∀ r ∈ shown, r.f1 ∈ fs ∧ r.f2 ∈ fs ∧ r.f1 ≠ r.f2 ∧ v.interactionValue r.f1 r.f2 = .ok r.val) ∧
      shown.Pairwise (fun r q => Num.le q.val r.val = true) ∧
      (∀ f ∈ fs, ∀ g ∈ fs, f ≠ g → (∀ r ∈ shown, ¬ r.isPair f g) →
        ∃ x, v.interactionValue f g = .ok x ∧ ∀ r ∈ shown, Num.le x r.val = true) := by
  obtain ⟨ovo, imp, ht⟩ := h.tables
  obtain ⟨ps, hps⟩ := ht.draws htwo E (visType := "bar_chart") (Or.inr (Or.inl rfl)) (by decide) title o sub
  have hpw : ovo.Pairwise (fun r q => Num.keyLE v.asc r.val q.val = true) := by
    rw [ht.asc]
    exact ht.sorted.imp_of_mem fun hr hq e => by rw [keyLE_of_le (ht.num _ hr) (ht.num _ hq)]; exact e
  obtain ⟨ti, shown, rest, rfl, hsplit, hlen, h1, h2, h3⟩ := C76_strongest_partial hps ht.has_ovo hpw hk
  have hmem : ∀ r ∈ shown, r ∈ ovo := fun r hr => by rw [hsplit]; exact List.mem_append_left _ hr
  have hmem' : ∀ r ∈ rest, r ∈ ovo := fun r hr => by rw [hsplit]; exact List.mem_append_right _ hr
  rw [ht.asc] at h1 h2
  refine ⟨ti, shown, hps, by rw [hlen, ht.len], h3 ht.once, ?_, ?_, ?_⟩
  · intro r hr
    obtain ⟨a, b, c⟩ := ht.feats r (hmem r hr)
    exact ⟨a, b, c, ht.value hs (hmem r hr) (Or.inl ⟨rfl, rfl⟩)⟩
  · exact h1.imp_of_mem fun hr hq e => by rwa [keyLE_of_le (ht.num _ (hmem _ hr)) (ht.num _ (hmem _ hq))] at e
  · intro f hf g hg hne hno
    obtain ⟨r, hr, hp⟩ := ht.row hf hg hne
    refine ⟨r.val, ht.value hs hr hp, fun q hq => ?_⟩
    have : r ∈ rest := by
      rw [hsplit] at hr
      rcases List.mem_append.1 hr with hr | hr
      · exact absurd hp (hno r hr)
      · exact hr
    have := h2 q hq r this
    rwa [keyLE_of_le (ht.num _ (hmem q hq)) (ht.num _ hr)] at this

/-- **C54** after `fit` of H-statistic, Greenwell or Sejong Oh, if the values of the H-statistic are finite (those of the others
are) and the values left by the threshold `t` are not all equal: there is an edge for each pair of different included features
and no other edge, the width is between 0 and the maximal width `W`, 0 for pairs below the threshold, `W` for a strongest pair, and a
pair that is stronger and not below the threshold has a wider edge. -/
theorem C54_after_fit {sort : PairSort F K} (hs : ∀ asc, SortsBy OvoRow.val asc (sort asc)) {fs : List F} {v : View F I K}
    (h : Fitted sort fs v) (htwo : 2 ≤ fs.length) (E : VisEnv F K) (title : String) (o : Opts K) (sub : SubOpts K)
    {cfg : VisConfig K} (hc : configGet v.name = .ok cfg) {t W : K} (ht : t = o.threshold.getD cfg.graph.threshold)
    (hW : W = o.maxEdgeWidth.getD cfg.graph.maxEdgeWidth) (hW0 : 0 < W) {x : F → F → K}
    (hx : ∀ f ∈ fs, ∀ g ∈ fs, f ≠ g → v.interactionValue f g = .ok (.fin (x f g)))
    (hdiff : ∃ f ∈ fs, ∃ g ∈ fs, f ≠ g ∧ ∃ f' ∈ fs, ∃ g' ∈ fs, f' ≠ g' ∧ keptValue false t (x f g) ≠ keptValue false t (x f' g')) :
    ∃ ti edges nodes labels, ∃ w : F → F → K, v.plot E "graph" title o sub = .ok [.graph ti false edges nodes labels] ∧
      (Dict.keys edges).Nodup ∧ (∀ k ∈ Dict.keys edges, k.1 ∈ fs ∧ k.2 ∈ fs ∧ k.1 ≠ k.2) ∧
      (∀ f ∈ fs, ∀ g ∈ fs, f ≠ g →
        ((Dict.get? edges (f, g) = some (.fin (w f g)) ∧ (g, f) ∉ Dict.keys edges) ∨
          (Dict.get? edges (g, f) = some (.fin (w f g)) ∧ (f, g) ∉ Dict.keys edges)) ∧
        0 ≤ w f g ∧ w f g ≤ W ∧ (x f g < t → w f g = 0) ∧
        ((∀ f' ∈ fs, ∀ g' ∈ fs, f' ≠ g' → x f' g' ≤ x f g) → w f g = W) ∧
        (∀ f' ∈ fs, ∀ g' ∈ fs, f' ≠ g' → (x f g ≤ x f' g' → w f g ≤ w f' g') ∧ (t ≤ x f g → x f g < x f' g' → w f g < w f' g'))) := by
  obtain ⟨ovo, imp, hT⟩ := h.tables
  obtain ⟨ps, hps⟩ := hT.draws htwo E (visType := "graph") (Or.inr (Or.inr (Or.inl rfl))) (by decide) title o sub
  have hu : ∀ r ∈ ovo, r.val = .fin (x r.f1 r.f2) := by
    intro r hr
    obtain ⟨h1, h2, h3⟩ := hT.feats r hr
    have := hx _ h1 _ h2 h3
    rw [hT.value hs hr (Or.inl ⟨rfl, rfl⟩)] at this
    exact Except.ok.inj this
  -- the row of a pair
  have hrow : ∀ f ∈ fs, ∀ g ∈ fs, f ≠ g → ∃ r ∈ ovo, r.isPair f g ∧ x r.f1 r.f2 = x f g := by
    intro f hf g hg hne
    obtain ⟨r, hr, hp⟩ := hT.row hf hg hne
    refine ⟨r, hr, hp, ?_⟩
    have h1 := hT.value hs hr hp
    rw [hx f hf g hg hne, hu r hr] at h1
    exact (Num.fin.inj (Except.ok.inj h1)).symm
  have hsame : ∀ f g, ∀ r ∈ ovo, ∀ q ∈ ovo, r.isPair f g → q.isPair f g → q = r := by
    intro f g r hr q hq hp hp'
    refine same_of_once (R := SamePair) (fun {r q} h => by
      rcases h with ⟨a, b⟩ | ⟨a, b⟩
      · exact Or.inl ⟨a.symm, b.symm⟩
      · exact Or.inr ⟨b.symm, a.symm⟩) hT.once hq hr ?_
    rcases hp with ⟨rfl, rfl⟩ | ⟨rfl, rfl⟩
    · exact hp'
    · exact hp'.symm
  have hdiff' : ∃ r ∈ ovo, ∃ q ∈ ovo, keptValue false t (x r.f1 r.f2) ≠ keptValue false t (x q.f1 q.f2) := by
    obtain ⟨f, hf, g, hg, hne, f', hf', g', hg', hne', hk⟩ := hdiff
    obtain ⟨r, hr, _, e⟩ := hrow f hf g hg hne
    obtain ⟨q, hq, _, e'⟩ := hrow f' hf' g' hg' hne'
    exact ⟨r, hr, q, hq, by rw [e, e']; exact hk⟩
  have hnn : ∀ r ∈ ovo, 0 ≤ x r.f1 r.f2 := by
    intro r hr
    have := hT.nonneg r hr
    rw [hu r hr] at this
    simpa using this
  have hde : DistinctEdges v.directed ovo := by rw [hT.directed]; exact distinctEdges_of_once hT.once
  obtain ⟨w, ⟨ti, edges, nodes, labels, rfl, s1, s2, s3⟩, w1, w2, w3, w4, w5⟩ :=
    C54_widths_partial hT.asc hps hT.has_ovo hde hu hc ht hW hW0.le (Or.inr hnn) hdiff'
  classical
  have hpick : ∀ f g, ∃ r : OvoRow F K, f ∈ fs → g ∈ fs → f ≠ g → r ∈ ovo ∧ r.isPair f g ∧ x r.f1 r.f2 = x f g := by
    intro f g
    by_cases hc : f ∈ fs ∧ g ∈ fs ∧ f ≠ g
    · obtain ⟨r, a, b, c⟩ := hrow f hc.1 g hc.2.1 hc.2.2
      exact ⟨r, fun _ _ _ => ⟨a, b, c⟩⟩
    · exact ⟨⟨f, g, .nan⟩, fun a b c => absurd ⟨a, b, c⟩ hc⟩
  choose R hR using hpick
  rw [hT.directed] at hps
  refine ⟨ti, edges, nodes, labels, fun f g => w (R f g), hps, s3, ?_, ?_⟩
  · intro k hk
    obtain ⟨r, hr, rfl⟩ := s2 k hk
    exact hT.feats r hr
  · intro f hf g hg hne
    obtain ⟨hr, hp, e⟩ := hR f g hf hg hne
    refine ⟨?_, (w1 _ hr).1, (w1 _ hr).2, fun hlt => w4 _ hr (by rw [e]; exact hlt), ?_, ?_⟩
    · have hother : ∀ a b, (R f g).f1 = a → (R f g).f2 = b → (b, a) ∉ Dict.keys edges := by
        rintro a b rfl rfl hk
        obtain ⟨q, hq, e'⟩ := s2 _ hk
        have := hsame (R f g).f1 (R f g).f2 (R f g) hr q hq (Or.inl ⟨rfl, rfl⟩)
          (Or.inr ⟨(congrArg Prod.fst e').symm, (congrArg Prod.snd e').symm⟩)
        subst this
        exact (hT.feats _ hr).2.2 (congrArg Prod.snd e')
      rcases hp with ⟨e1, e2⟩ | ⟨e1, e2⟩
      · exact Or.inl ⟨by have := s1 _ hr; rwa [e1, e2] at this, hother f g e1 e2⟩
      · exact Or.inr ⟨by have := s1 _ hr; rwa [e1, e2] at this, hother g f e1 e2⟩
    · intro hmax
      refine w3 _ hr fun q hq => ?_
      rw [e]
      obtain ⟨a, b, c⟩ := hT.feats q hq
      exact hmax _ a _ b c
    · intro f' hf' g' hg' hne'
      obtain ⟨hr', _, e'⟩ := hR f' g' hf' hg' hne'
      exact ⟨fun hle => w2 _ hr _ hr' (by rw [e, e']; exact hle),
        fun h1 h2 => w5 hW0 _ hr _ hr' (by rw [e]; exact h1) (by rw [e, e']; exact h2)⟩

end Pairs

/-! ## Conditional minimal depth -/

section Cmd
variable {F I J K : Type} [LinearOrder F] [LinearOrder J] [Field K] [LinearOrder K]

theorem cmd_distinct {m : Forest F} {ts : List LTree} {rows : List (CmdRow F K)}
    (hfeat : ∀ r ∈ rows, r.root ∈ m.columns ∧ r.var ∈ m.columns ∧ r.root ≠ r.var)
    (hrow : ∀ a b f g, m.columns[a]? = some f → m.columns[b]? = some g → f ≠ g → ∃ r,
        rows.filter (fun r => decide (r.root = f ∧ r.var = g)) = [r] ∧ IsMeanCondDepth ts a b r.val ∧
          r.occ = occurrences ts a b) : rows.Pairwise (fun r r' => ¬ (r.root = r'.root ∧ r.var = r'.var)) := by
  rw [List.pairwise_iff_getElem]
  intro a b la lb hab he
  obtain ⟨ha, hb, hne⟩ := hfeat rows[a] (List.getElem_mem la)
  obtain ⟨i, hi'⟩ := List.getElem?_of_mem ha
  obtain ⟨j, hj⟩ := List.getElem?_of_mem hb
  obtain ⟨q, hq, _⟩ := hrow i j _ _ hi' hj hne
  have hsub : [rows[a], rows[b]].Sublist rows := by
    have s1 : [rows[a]].Sublist (rows.take b) := List.singleton_sublist.2 (by
      rw [List.mem_take_iff_getElem]; exact ⟨a, by omega, rfl⟩)
    have s2 : [rows[b]].Sublist (rows.drop b) := List.singleton_sublist.2 (by
      rw [List.mem_drop_iff_getElem]; exact ⟨0, by omega, by simp⟩)
    have s3 := s1.append s2
    rwa [List.take_append_drop] at s3
  have := hsub.filter (fun r0 => decide (r0.root = rows[a].root ∧ r0.var = rows[a].var))
  rw [hq] at this
  have hl := this.length_le
  simp [he.1, he.2] at hl

/-- **C86** after `fit` of conditional minimal depth on a forest with a split: if the conditional bar chart is drawn, it shows
`top_k` (15) ordered pairs of different columns, or all of them if there are fewer; each bar is the mean conditional minimal depth of
the pair, its marker the mean minimal depth of the second feature, or nothing if no tree uses that feature; pairs left out do
not occur in more trees than those shown. -/
theorem C86_after_fit (E : CmdEnv F J K) (hE : SortsCmd E.sortOvo) (hI : SortsBy ImpRow.val true E.sortImp) {m : Forest F}
    {ts : List LTree} (h : ForestOf m ts) (hused : ∃ t ∈ ts, ∃ f, Uses t f) (s0 : CmdMethod F K) (E' : VisEnv F K)
    (title : String) {o : Opts K} {sub : SubOpts K} {k : Nat} (hk : (k : Int) = o.topK.getD 15) :
    ∃ ti shown, (CmdMethod.view (I := I) E (CmdMethod.fit E m s0).2).plot E' "bar_chart_conditional" title o sub =
        .ok [.conditional ti shown] ∧
      shown.length = min k (m.columns.length * m.columns.length - m.columns.length) ∧
      (shown.map (fun x => (x.1.f1, x.1.f2))).Nodup ∧
      (∀ x ∈ shown, ∃ i j, m.columns[i]? = some x.1.f1 ∧ m.columns[j]? = some x.1.f2 ∧ i ≠ j ∧
        IsMeanCondDepth ts i j x.1.val ∧ ((∃ t ∈ ts, Uses t j) → IsMeanMinDepth ts j x.2) ∧ ((¬ ∃ t ∈ ts, Uses t j) → x.2 = .nan)) ∧
      (∀ i j f g, m.columns[i]? = some f → m.columns[j]? = some g → f ≠ g → (∀ x ∈ shown, ¬ (x.1.f1 = f ∧ x.1.f2 = g)) →
        ∀ x ∈ shown, ∀ i' j', m.columns[i']? = some x.1.f1 → m.columns[j']? = some x.1.f2 → occurrences ts i j ≤ occurrences ts i' j') := by
  obtain ⟨t0, ht0, f0, hu0⟩ := id hused
  have hts : ts ≠ [] := List.ne_nil_of_mem ht0
  have hc : m.columns ≠ [] := by
    intro e
    have := h.cols t0 ht0 f0 hu0
    rw [e] at this
    simp at this
  obtain ⟨rows, ho, hlen, hfeat, hrow, hsorted⟩ := C36_table E hE h hts hc s0
  obtain ⟨hok, imp, hi, hnd, hmem, hmean, _⟩ := (C37_minimal_depth_importance E hE hI h hts hc s0).1 hused
  have hov : (CmdMethod.view (I := I) E (CmdMethod.fit E m s0).2).ovo = some (rows.map CmdRow.toOvo) := by
    simp only [CmdMethod.view, ho, Option.map_some]
  have him : (CmdMethod.view (I := I) E (CmdMethod.fit E m s0).2).imp = some (imp.map ImpRow.toFeat) := by
    simp only [CmdMethod.view, hi, Option.map_some]
  obtain ⟨ps, hps⟩ : ∃ ps, (CmdMethod.view (I := I) E (CmdMethod.fit E m s0).2).plot E' "bar_chart_conditional" title o sub = .ok ps := by
    obtain ⟨cfg, hcfg, hacc⟩ := (C53_unknown_method (K := K) (CmdMethod.view (I := I) E (CmdMethod.fit E m s0).2).name).2
      (by simp [CmdMethod.view, methodNames])
    obtain ⟨ovo', ia, ho', _, hplot⟩ := plot_of_ready (cmd_ready (I := I) E hok) hcfg
    rw [hplot]
    have hm := (hacc "bar_chart_conditional").2 (Or.inr (Or.inr (Or.inr (Or.inr (Or.inr (Or.inl ⟨rfl, rfl⟩))))))
    unfold visPlot
    rw [if_neg (not_not.2 hm), if_neg (by decide), if_neg (by decide), if_neg (by decide), if_neg (by decide), if_neg (by decide),
      if_neg (by decide), if_pos rfl, him]
    exact ⟨_, rfl⟩
  obtain ⟨ovo, imp', ti, shown, rest, e1, e2, rfl, hsplit, hsl, hmark⟩ := C86_conditional hps hk
  rw [hov] at e1
  rw [him] at e2
  cases e1
  cases e2
  have hnodup : ∀ i j : Nat, ∀ f : F, m.columns[i]? = some f → m.columns[j]? = some f → i = j := by
    intro i j f h1 h2
    obtain ⟨l1, e1⟩ := List.getElem?_eq_some_iff.1 h1
    obtain ⟨l2, e2⟩ := List.getElem?_eq_some_iff.1 h2
    exact (List.Nodup.getElem_inj_iff h.names).1 (e1.trans e2.symm)
  have hdist := cmd_distinct hfeat hrow
  have hrows : ∃ n, shown.map Prod.fst = (rows.take n).map CmdRow.toOvo := by
    refine ⟨shown.length, ?_⟩
    have := congrArg (List.take shown.length) hsplit
    rw [List.take_append_of_le_length (by simp), ← List.map_take, ← List.map_take, List.take_length] at this
    exact this.symm
  obtain ⟨n, hn⟩ := hrows
  have hx : ∀ x ∈ shown, ∃ r ∈ rows.take n, x.1 = r.toOvo := by
    intro x hx
    have : x.1 ∈ (rows.take n).map CmdRow.toOvo := by rw [← hn]; exact List.mem_map.2 ⟨x, hx, rfl⟩
    obtain ⟨r, hr, e⟩ := List.mem_map.1 this
    exact ⟨r, hr, e.symm⟩
  have hval : ∀ r ∈ rows, ∀ i j, m.columns[i]? = some r.root → m.columns[j]? = some r.var →
      IsMeanCondDepth ts i j r.val ∧ r.occ = occurrences ts i j := by
    intro r hr i j hi' hj
    obtain ⟨q, hq, h1, h2⟩ := hrow i j _ _ hi' hj (hfeat r hr).2.2
    have m1 : r ∈ rows.filter (fun r0 => decide (r0.root = r.root ∧ r0.var = r.var)) := List.mem_filter.2 ⟨hr, by simp⟩
    rw [hq, List.mem_singleton] at m1
    subst m1
    exact ⟨h1, h2⟩
  refine ⟨ti, shown, hps, by rw [hsl, List.length_map, hlen], ?_, ?_, ?_⟩
  · have e : shown.map (fun x => (x.1.f1, x.1.f2)) = (rows.take n).map (fun r => (r.root, r.var)) := by
      have := congrArg (List.map (fun r : OvoRow F K => (r.f1, r.f2))) hn
      simpa [List.map_map, Function.comp_def, CmdRow.toOvo] using this
    rw [e]
    unfold List.Nodup
    rw [List.pairwise_map]
    refine (hdist.sublist (List.take_sublist n rows)).imp fun hne e => hne ?_
    exact ⟨congrArg Prod.fst e, congrArg Prod.snd e⟩
  · intro x hx'
    obtain ⟨r, hr, e⟩ := hx x hx'
    have hr' := List.mem_of_mem_take hr
    obtain ⟨ha, hb, hne⟩ := hfeat r hr'
    obtain ⟨i, hi'⟩ := List.getElem?_of_mem ha
    obtain ⟨j, hj⟩ := List.getElem?_of_mem hb
    obtain ⟨hm1, hm2⟩ := hmark x hx'
    have hcd := (hval r hr' i j hi' hj).1
    rw [e]
    refine ⟨i, j, hi', hj, ?_, hcd, ?_, ?_⟩
    · rintro rfl
      exact hne (Option.some.inj (hi'.symm.trans hj))
    · intro hu
      have hin := (hmem r.var).2 ⟨j, hj, hu⟩
      obtain ⟨q, hq, hqf⟩ := List.mem_map.1 hin
      have := hm2 (by rw [List.map_map]; exact hnd) q.toFeat (List.mem_map.2 ⟨q, hq, rfl⟩) (by rw [e]; exact hqf)
      rw [this]
      exact hmean q hq j (by rw [hqf]; exact hj)
    · intro hu
      refine hm1 fun q hq hqf => hu ?_
      obtain ⟨q', hq', rfl⟩ := List.mem_map.1 hq
      have hqf' : q'.f = r.var := by rw [e] at hqf; exact hqf
      obtain ⟨j', hj', hu'⟩ := (hmem r.var).1 (List.mem_map.2 ⟨q', hq', hqf'⟩)
      rw [hnodup j j' _ hj hj']
      exact hu'
  · intro i j f g hi' hj hne hno x hx' i' j' hi2 hj2
    obtain ⟨r, hr, e⟩ := hx x hx'
    rw [e] at hi2 hj2
    obtain ⟨q, hq, _, hocc⟩ := hrow i j f g hi' hj hne
    have hqm : q ∈ rows.filter (fun r => decide (r.root = f ∧ r.var = g)) := by rw [hq]; simp
    obtain ⟨hq1, hq2⟩ := List.mem_filter.1 hqm
    have hq2 := of_decide_eq_true hq2
    have hr' := List.mem_of_mem_take hr
    have hsp : rows = rows.take n ++ rows.drop n := (List.take_append_drop n rows).symm
    have hqd : q ∈ rows.drop n := by
      rw [hsp] at hq1
      rcases List.mem_append.1 hq1 with h1 | h1
      · exfalso
        have : q.toOvo ∈ shown.map Prod.fst := by rw [hn]; exact List.mem_map.2 ⟨q, h1, rfl⟩
        obtain ⟨y, hy, ey⟩ := List.mem_map.1 this
        exact hno y hy (by rw [ey]; exact hq2)
      · exact h1
    rw [hsp] at hsorted
    have hle := (List.pairwise_append.1 hsorted).2.2 r hr q hqd
    rw [← hocc, ← (hval r hr' i' j' hi2 hj2).2]
    rcases hle with hlt | ⟨he, _⟩
    · exact hlt.le
    · exact he.ge

/-- **C57** after `fit` of conditional minimal depth, if every one of the at least two columns is used by some tree: the heatmap
can be drawn, rows and columns are the columns of the data, the cell `(f, g)` is the mean conditional minimal depth of `g` under
`f`, the cell `(f, f)` the mean minimal depth of `f`. -/
theorem C57_cmd_after_fit (E : CmdEnv F J K) (hE : SortsCmd E.sortOvo) (hI : SortsBy ImpRow.val true E.sortImp) {m : Forest F}
    {ts : List LTree} (h : ForestOf m ts) (htwo : 2 ≤ m.columns.length) (hused : ∀ i < m.columns.length, ∃ t ∈ ts, Uses t i)
    (s0 : CmdMethod F K) {E' : VisEnv F K} (hE' : ∀ key asc, SortsBy key asc (E'.sortIdx key asc)) (title : String) (o : Opts K)
    (sub : SubOpts K) :
    ∃ ti a b M, (CmdMethod.view (I := I) E (CmdMethod.fit E m s0).2).plot E' "heatmap" title o sub = .ok [.heatmap ti a b M] ∧
      M.cols = M.rows ∧ M.rows.Perm m.columns ∧
      (∀ (i j : Nat) (f g : F), m.columns[i]? = some f → m.columns[j]? = some g → i ≠ j → IsMeanCondDepth ts i j (M.cell f g)) ∧
      (∀ (i : Nat) (f : F), m.columns[i]? = some f → IsMeanMinDepth ts i (M.cell f f)) := by
  obtain ⟨t0, ht0, hu0⟩ := hused 0 (by omega)
  have hts : ts ≠ [] := List.ne_nil_of_mem ht0
  have hc : m.columns ≠ [] := by intro e; rw [e] at htwo; simp at htwo
  obtain ⟨rows, ho, _, hfeat, hrow, _⟩ := C36_table E hE h hts hc s0
  obtain ⟨hok, imp, hi, hnd, hmem, hmean, _⟩ := (C37_minimal_depth_importance E hE hI h hts hc s0).1 ⟨t0, ht0, _, hu0⟩
  obtain ⟨_, ps, hps⟩ := C59_cmd_all_used (I := I) E hE hI h htwo hused s0 E' (visType := "heatmap") (Or.inl rfl) title o sub
  have hov : (CmdMethod.view (I := I) E (CmdMethod.fit E m s0).2).ovo = some (rows.map CmdRow.toOvo) := by
    simp only [CmdMethod.view, ho, Option.map_some]
  have him : (CmdMethod.view (I := I) E (CmdMethod.fit E m s0).2).imp = some (imp.map ImpRow.toFeat) := by
    simp only [CmdMethod.view, hi, Option.map_some]
  have hinj : ∀ i j : Nat, ∀ f : F, m.columns[i]? = some f → m.columns[j]? = some f → i = j := by
    intro i j f h1 h2
    obtain ⟨l1, e1⟩ := List.getElem?_eq_some_iff.1 h1
    obtain ⟨l2, e2⟩ := List.getElem?_eq_some_iff.1 h2
    exact (List.Nodup.getElem_inj_iff h.names).1 (e1.trans e2.symm)
  have hdist : DistinctEdges true (rows.map CmdRow.toOvo) := by
    unfold DistinctEdges
    rw [List.pairwise_map]
    refine (cmd_distinct hfeat hrow).imp fun hne => ⟨hne, fun e => by cases e⟩
  have hcl : CleanTables (CmdMethod.view (I := I) E (CmdMethod.fit E m s0).2) (rows.map CmdRow.toOvo) := by
    refine ⟨?_, ?_⟩
    · intro r hr
      obtain ⟨x, hx, rfl⟩ := List.mem_map.1 hr
      exact (hfeat x hx).2.2
    · intro t ht q hq q' hq' e
      rw [him] at ht
      cases ht
      obtain ⟨x, hx, rfl⟩ := List.mem_map.1 hq
      obtain ⟨y, hy, rfl⟩ := List.mem_map.1 hq'
      rw [List.inj_on_of_nodup_map hnd hx hy e]
  obtain ⟨ti, a, b, M, rfl, k1, k2, k3, k4, _, k6⟩ := C57_directed rfl hE' hps hov hdist hcl
  have hpair : ∀ (i : Nat) (f : F), m.columns[i]? = some f → ∃ r ∈ rows, r.root = f := by
    intro i f hi'
    obtain ⟨hlt, _⟩ := List.getElem?_eq_some_iff.1 hi'
    obtain ⟨j, hj, hne⟩ : ∃ j, j < m.columns.length ∧ i ≠ j := by
      by_cases h0 : i = 0
      · exact ⟨1, by omega, by omega⟩
      · exact ⟨0, by omega, h0⟩
    have hj' : m.columns[j]? = some m.columns[j] := List.getElem?_eq_getElem hj
    obtain ⟨r, hr, _⟩ := hrow i j f _ hi' hj' (fun e => hne (hinj i j f hi' (by rw [hj', e])))
    have hr' : r ∈ rows.filter (fun r => decide (r.root = f ∧ r.var = m.columns[j])) := by rw [hr]; simp
    obtain ⟨h1, h2⟩ := List.mem_filter.1 hr'
    exact ⟨r, h1, (of_decide_eq_true h2).1⟩
  have hdiag : ∀ (i : Nat) (f : F), m.columns[i]? = some f → IsMeanMinDepth ts i (M.cell f f) ∧ f ∈ M.rows := by
    intro i f hi'
    obtain ⟨r, hr, e⟩ := hpair i f hi'
    obtain ⟨q, hq, e1, e2, e3⟩ := k4 _ him r.toOvo (List.mem_map.2 ⟨r, hr, rfl⟩) f (Or.inl e)
    obtain ⟨x, hx, rfl⟩ := List.mem_map.1 hq
    have hm := hmean x hx i (by rw [show x.f = f from e1]; exact hi')
    rw [e2]
    refine ⟨hm, e3 ?_⟩
    obtain ⟨ks, h1, h2⟩ := hm
    obtain ⟨hlt, _⟩ := List.getElem?_eq_some_iff.1 hi'
    obtain ⟨t, ht, hu⟩ := hused i hlt
    have hks : ks ≠ [] := by
      rintro rfl
      have := List.forall₂_nil_right_iff.1 h1
      exact List.not_mem_nil (this ▸ List.mem_filter.2 ⟨ht, by simpa using hu⟩)
    show x.val ≠ .nan
    rw [h2, meanNat, if_neg hks]
    simp
  refine ⟨ti, a, b, M, hps, k1, ?_, ?_, fun i f hi' => (hdiag i f hi').1⟩
  · rw [List.perm_ext_iff_of_nodup k2 h.names]
    intro f
    constructor
    · intro hf
      obtain ⟨r, hr, e⟩ := k6 f hf
      obtain ⟨x, hx, rfl⟩ := List.mem_map.1 hr
      rcases e with rfl | rfl
      · exact (hfeat x hx).1
      · exact (hfeat x hx).2.1
    · intro hf
      obtain ⟨i, hi'⟩ := List.getElem?_of_mem hf
      exact (hdiag i f hi').2
  · intro i j f g hi' hj hne
    obtain ⟨r, hr, hv, _⟩ := hrow i j f g hi' hj (fun e => hne (hinj i j f hi' (by rw [hj, e])))
    have hr' : r ∈ rows.filter (fun r => decide (r.root = f ∧ r.var = g)) := by rw [hr]; simp
    obtain ⟨h1, h2⟩ := List.mem_filter.1 hr'
    obtain ⟨e1, e2⟩ := of_decide_eq_true h2
    have := k3 r.toOvo (List.mem_map.2 ⟨r, h1, rfl⟩)
    simp only [CmdRow.toOvo, e1, e2] at this
    rw [this]
    exact hv

end Cmd

/-! ## Split score -/

section Ss
variable {F I K : Type} [LinearOrder F] [LinearOrder I] [Field K] [LinearOrder K] [IsStrictOrderedRing K]
variable {E : SsEnv F K} {ts : List (GTree F I K)} {p : Package} {m : GbModel F I K}

/-- **C76** after `fit` of split score: the bars are ordered pairs (parent, child) for which a split counts, each once, with
the selected aggregate of exactly these splits; they are in the order of strength (ascending for the mean depth), and no pair left
out is stronger than one shown. -/
theorem C76_split_score_after_fit (hE : E.Lawful) (H : GbForest E.leafName ts p m) {inter imp : SsMetric} (hi : inter.isInteraction)
    (h1 : inter.availableFor p) (h2 : imp.availableFor p) (hex : ∃ s ∈ forestSplits ts, s.parent.isSome = true) (onlyDef : Bool)
    (s0 : SsMethod F I K) (sort : PairSort F K) {E' : VisEnv F K} {title : String} {o : Opts K} {sub : SubOpts K}
    {ps : List (Panel F I K)}
    (h : (SsMethod.view sort (SsMethod.fit E (.model m) inter imp onlyDef s0).2).plot E' "bar_chart" title o sub = .ok ps) {k : Nat}
    (hk : (k : Int) = o.topK.getD 10) :
    ∃ ti shown, ∃ agg : F → F → SumRow F K, ps = [.bars ti shown] ∧
      (∀ a b, pairSplits onlyDef ts a b ≠ [] → SumRowOk p onlyDef ts (agg a b) ∧ (agg a b).parent = a ∧ (agg a b).child = b) ∧
      (shown.map (fun r => (r.f1, r.f2))).Nodup ∧
      (∀ r ∈ shown, pairSplits onlyDef ts r.f1 r.f2 ≠ [] ∧ (agg r.f1 r.f2).metric inter = some r.val) ∧
      shown.Pairwise (fun r q => ∃ x y, r.val = .fin x ∧ q.val = .fin y ∧ if inter = .meanDepth then x ≤ y else y ≤ x) ∧
      (∀ a b, pairSplits onlyDef ts a b ≠ [] → (∀ r ∈ shown, ¬ (r.f1 = a ∧ r.f2 = b)) → shown.length = k ∧
        ∀ r ∈ shown, ∃ x y, r.val = .fin x ∧ (agg a b).metric inter = some (.fin y) ∧
          if inter = .meanDepth then x ≤ y else y ≤ x) := by
  obtain ⟨summary, ovo, _, ho, a1, a2, a3, _, a5, a6, _⟩ := C41_summary hE H hi h1 h2 hex onlyDef s0
  obtain ⟨ovo', ho', hsorted, _⟩ := C42_ovo_order hE H hi h1 h2 hex onlyDef s0
  rw [ho] at ho'
  cases ho'
  have hov : (SsMethod.view sort (SsMethod.fit E (.model m) inter imp onlyDef s0).2).ovo = some (ovo.map SsRow.toOvo) := by
    simp only [SsMethod.view, ho, Option.map_some]
  have hps : ∃ ti, ps = [.bars ti ((ovo.take k).map SsRow.toOvo)] := by
    obtain ⟨ovo', ia, cfg, ho', _, hc, hacc, hp⟩ := view_plot_inv h
    rw [hov] at ho'
    cases ho'
    unfold visPlot at hp
    rw [if_neg (not_not.2 hacc), if_neg (by decide), if_neg (by decide), if_neg (by decide), if_neg (by decide), if_pos rfl] at hp
    cases hp
    simp only [plotBars]
    rw [← hk]
    have : pyHead (k : Int) (ovo.map SsRow.toOvo) = (ovo.take k).map SsRow.toOvo := by
      unfold pyHead
      rw [if_pos (by omega), ← List.map_take]
      rfl
    rw [this]
    exact ⟨_, rfl⟩
  obtain ⟨ti, rfl⟩ := hps
  classical
  have hpick : ∀ a b, ∃ r : SumRow F K, pairSplits onlyDef ts a b ≠ [] → r ∈ summary ∧ r.parent = a ∧ r.child = b := by
    intro a b
    by_cases hc : pairSplits onlyDef ts a b ≠ []
    · obtain ⟨r, x, y, z⟩ := a3 a b hc
      exact ⟨r, fun _ => ⟨x, y, z⟩⟩
    · obtain ⟨s, hs, _⟩ := hex
      cases summary with
      | nil => exact ⟨⟨a, b, .nan, .nan, .nan, .nan, .nan, 0⟩, fun h => absurd h hc⟩
      | cons r l => exact ⟨r, fun h => absurd h hc⟩
  choose agg hagg using hpick
  -- a row of the table is the row of its pair
  have hrow : ∀ r ∈ ovo, pairSplits onlyDef ts r.f1 r.f2 ≠ [] ∧ (agg r.f1 r.f2).metric inter = some r.val := by
    intro r hr
    obtain ⟨q, hq, rfl⟩ := List.mem_map.1 (a5.mem_iff.1 hr)
    have hne : pairSplits onlyDef ts q.parent q.child ≠ [] := (a1 q hq).occurs
    refine ⟨hne, ?_⟩
    obtain ⟨b1, b2, b3⟩ := hagg _ _ hne
    have : agg q.parent q.child = q := List.inj_on_of_nodup_map a2 b1 hq (by simp [b2, b3])
    simp only [this]
    have := a6 q hq
    cases hq' : q.metric inter with
    | none => rw [hq'] at this; cases this
    | some x => rfl
  have hnd : (ovo.map (fun r => (r.f1, r.f2))).Nodup := by
    rw [(a5.map (fun r : SsRow F K => (r.f1, r.f2))).nodup_iff, List.map_map]
    exact a2
  refine ⟨ti, _, agg, rfl, ?_, ?_, ?_, ?_, ?_⟩
  · intro a b hab
    obtain ⟨b1, b2, b3⟩ := hagg a b hab
    exact ⟨a1 _ b1, b2, b3⟩
  · rw [List.map_map]
    exact hnd.sublist ((List.take_sublist k ovo).map _)
  · intro r hr
    obtain ⟨x, hx, rfl⟩ := List.mem_map.1 hr
    exact hrow x (List.mem_of_mem_take hx)
  · rw [List.pairwise_map]
    exact hsorted.sublist (List.take_sublist k ovo)
  · intro a b hab hno
    obtain ⟨b1, b2, b3⟩ := hagg a b hab
    obtain ⟨q, hq, e1, e2⟩ : ∃ q ∈ ovo, q.f1 = a ∧ q.f2 = b :=
      ⟨_, a5.mem_iff.2 (List.mem_map.2 ⟨_, b1, rfl⟩), b2, b3⟩
    have hsp : ovo = ovo.take k ++ ovo.drop k := (List.take_append_drop k ovo).symm
    have hqd : q ∈ ovo.drop k := by
      rw [hsp] at hq
      rcases List.mem_append.1 hq with h' | h'
      · exact absurd ⟨e1, e2⟩ (hno _ (List.mem_map.2 ⟨q, h', rfl⟩))
      · exact h'
    have hlen : k < ovo.length := by
      by_contra hlt
      rw [List.drop_eq_nil_of_le (by omega)] at hqd
      cases hqd
    refine ⟨by simp; omega, ?_⟩
    intro r hr
    obtain ⟨x, hx, rfl⟩ := List.mem_map.1 hr
    rw [hsp] at hsorted
    obtain ⟨u, w, hu, hw, hle⟩ := (List.pairwise_append.1 hsorted).2.2 x hx q hqd
    have := (hrow q (List.mem_of_mem_drop hqd)).2
    rw [e1, e2, hw] at this
    exact ⟨u, w, hu, this, hle⟩

/-- **C64** after `fit` of split score on a model whose last tree has a split: of the roots, exactly those of the trees whose number
is less than `max_trees` (0.2) times the greatest number are shown, and at each depth up to `max_depth` exactly the splits of the
trees with a number less than that fraction of the greatest number of a tree with a split to be shown. (Of the roots, only the
splits are described here: a tree without any split is shown with its leaf.) -/
theorem C64_after_fit (H : GbForest E.leafName ts p m) {inter imp : SsMetric}
    (h1 : inter.availableFor p) (h2 : imp.availableFor p) (hex : ∃ s ∈ forestSplits ts, s.parent.isSome = true)
    (hlast : ∃ s ∈ forestSplits ts, s.depth = 0 ∧ s.tree + 1 = ts.length) (onlyDef : Bool)
    (s0 : SsMethod F I K) (sort : PairSort F K) {E' : VisEnv F K} {title : String} {o : Opts K} {sub : SubOpts K}
    {ps : List (Panel F I K)}
    (h : (SsMethod.view sort (SsMethod.fit E (.model m) inter imp onlyDef s0).2).plot E' "lollipop" title o sub = .ok ps) :
    ∃ ti roots nodes nl rl, ps = [.lollipop ti roots nodes nl rl] ∧
      (∀ x, (∃ r ∈ roots, r.row.leaf = false ∧ r.view = x) ↔
        ∃ s ∈ forestSplits ts, s.depth = 0 ∧ s.view p = x ∧ (s.tree : K) < o.maxTrees.getD (20 / 100) * ((ts.length : K) - 1)) ∧
      (nodes.length : Int) = max 0 (o.maxDepth.getD 1) ∧
      (∀ (i : Nat) (l : List (StatRow F I K)), nodes[i]? = some l → ∀ x, (∃ r ∈ l, r.view = x) ↔
        ∃ s ∈ forestSplits ts, s.depth = i + 1 ∧ s.view p = x ∧
          ∃ M, (∃ s' ∈ forestSplits ts, 0 < s'.depth ∧ (s'.depth : Int) ≤ o.maxDepth.getD 1 ∧ s'.tree = M) ∧
            (∀ s' ∈ forestSplits ts, 0 < s'.depth → (s'.depth : Int) ≤ o.maxDepth.getD 1 → s'.tree ≤ M) ∧
            (s.tree : K) < o.maxTrees.getD (20 / 100) * (M : K)) := by
  obtain ⟨frame, A, hF, _, hst, _⟩ := fit_state H h1 h2 onlyDef s0
  have hfull := (hst hex).1
  obtain ⟨full, ti, roots, nodes, nl, rl, hf, rfl, k1, k2, k3⟩ := C64_roots_partial h
  have hf' : (SsMethod.fit E (.model m) inter imp onlyDef s0).2.fullResult = some full := hf
  rw [hfull] at hf'
  cases hf'
  have hv := finalRows_view hF
  -- inner rows and splits
  have hto : ∀ r ∈ finalRows ts.length A, r.row.leaf = false → ∃ s ∈ forestSplits ts, s.view p = r.view := by
    intro r hr hl
    have : r.view ∈ (forestSplits ts).map (Split.view p) :=
      hv.mem_iff.1 (List.mem_map.2 ⟨r, List.mem_filter.2 ⟨hr, by simp [hl]⟩, rfl⟩)
    exact List.mem_map.1 this
  have hof : ∀ s ∈ forestSplits ts, ∃ r ∈ finalRows ts.length A, r.row.leaf = false ∧ r.view = s.view p := by
    intro s hs
    obtain ⟨r, hr, e⟩ := List.mem_map.1 (hv.mem_iff.2 (List.mem_map.2 ⟨s, hs, rfl⟩))
    obtain ⟨r1, r2⟩ := List.mem_filter.1 hr
    exact ⟨r, r1, by simpa using r2, e⟩
  have htree : ∀ (r : StatRow F I K) (s : Split F I K), r.view = s.view p → r.row.tree = s.tree := fun r s e => congrArg StatView.tree e
  have hdepth : ∀ (r : StatRow F I K) (s : Split F I K), r.view = s.view p → r.row.depth = some (s.depth : Int) :=
    fun r s e => congrArg StatView.depth e
  have hbound : ∀ r ∈ finalRows ts.length A, r.row.tree < ts.length := by
    intro r hr
    unfold finalRows at hr
    obtain ⟨l, hl', hr'⟩ := List.mem_flatten.1 hr
    obtain ⟨t, ht, rfl⟩ := List.mem_map.1 hl'
    obtain ⟨a, ha, rfl⟩ := List.mem_map.1 hr'
    obtain ⟨d, e⟩ := a.fin_row
    have : a.row ∈ frame.filter (fun r => decide (r.tree = t)) := by
      rw [hF.rows t (List.mem_range.1 ht)]
      exact List.mem_map.2 ⟨a, ha, rfl⟩
    have htr := of_decide_eq_true (List.mem_filter.1 this).2
    rw [e]
    show a.row.tree < ts.length
    rw [htr]
    exact List.mem_range.1 ht
  obtain ⟨sl, hsl, hsl0, hslt⟩ := hlast
  obtain ⟨rl0, hrl0, _, erl0⟩ := hof sl hsl
  have hM : ∀ M, (∃ s ∈ finalRows ts.length A, s.row.depth = some 0 ∧ s.row.tree = M) →
      (∀ s ∈ finalRows ts.length A, s.row.depth = some 0 → s.row.tree ≤ M) → (M : K) = (ts.length : K) - 1 := by
    rintro M ⟨s, hs, _, rfl⟩ hle
    have b1 := hbound s hs
    have b2 := hle rl0 hrl0 (by rw [hdepth _ _ erl0, hsl0]; rfl)
    rw [htree _ _ erl0] at b2
    have : s.row.tree + 1 = ts.length := by omega
    rw [← this]
    push_cast
    ring
  refine ⟨ti, roots, nodes, nl, rl, rfl, ?_, k3, ?_⟩
  · intro x
    constructor
    · rintro ⟨r, hr, hl, rfl⟩
      obtain ⟨⟨r1, r2⟩, M, hex', hle, hlt⟩ := (k1 r).1 hr
      obtain ⟨s, hs, e⟩ := hto r r1 hl
      refine ⟨s, hs, ?_, e, ?_⟩
      · have := hdepth r s e.symm
        rw [r2] at this
        have := Option.some.inj this
        omega
      · rw [← hM M hex' hle, ← htree r s e.symm]
        exact hlt
    · rintro ⟨s, hs, hd, rfl, hlt⟩
      obtain ⟨r, hr, hl, e⟩ := hof s hs
      refine ⟨r, (k1 r).2 ⟨⟨hr, by rw [hdepth r s e, hd]; rfl⟩, ts.length - 1, ⟨rl0, hrl0, ?_, ?_⟩, ?_, ?_⟩, hl, e⟩
      · rw [hdepth _ _ erl0, hsl0]; rfl
      · rw [htree _ _ erl0]; omega
      · intro s' hs' _
        have := hbound s' hs'
        omega
      · rw [htree r s e, Nat.cast_sub (by omega)]
        simpa using hlt
  · intro i l hl x
    have hin : ∀ t, (∃ s, InnerNode (finalRows ts.length A) (o.maxDepth.getD 1) s ∧ s.row.tree = t) ↔
        ∃ s' ∈ forestSplits ts, 0 < s'.depth ∧ (s'.depth : Int) ≤ o.maxDepth.getD 1 ∧ s'.tree = t := by
      intro t
      constructor
      · rintro ⟨r, ⟨r1, r2, d, r3, r4, r5⟩, rfl⟩
        obtain ⟨s, hs, e⟩ := hto r r1 r2
        have := hdepth r s e.symm
        rw [r3] at this
        have := Option.some.inj this
        exact ⟨s, hs, by omega, by omega, (htree r s e.symm).symm⟩
      · rintro ⟨s, hs, h1, h2, rfl⟩
        obtain ⟨r, r1, r2, e⟩ := hof s hs
        exact ⟨r, ⟨r1, r2, _, hdepth r s e, by omega, h2⟩, htree r s e⟩
    constructor
    · rintro ⟨r, hr, rfl⟩
      obtain ⟨⟨r1, r2, r3⟩, M, m1, m2, m3⟩ := (k2 i l hl r).1 hr
      obtain ⟨s, hs, e⟩ := hto r r1 r2
      have := hdepth r s e.symm
      rw [r3] at this
      have := Option.some.inj this
      refine ⟨s, hs, by omega, e, M, (hin M).1 m1, ?_, by rw [← htree r s e.symm]; exact m3⟩
      intro s' hs' d1 d2
      obtain ⟨r', hr', e'⟩ := (hin s'.tree).2 ⟨s', hs', d1, d2, rfl⟩
      rw [← e']
      exact m2 r' hr'
    · rintro ⟨s, hs, hd, rfl, M, m1, m2, m3⟩
      obtain ⟨r, r1, r2, e⟩ := hof s hs
      refine ⟨r, (k2 i l hl r).2 ⟨⟨r1, r2, by rw [hdepth r s e, hd]; push_cast; rfl⟩, M, (hin M).2 m1, ?_, by rw [htree r s e]; exact m3⟩, e⟩
      intro r' hr'
      obtain ⟨s', hs', d1, d2, e'⟩ := (hin r'.row.tree).1 ⟨r', hr', rfl⟩
      rw [← e']
      exact m2 s' hs' d1 d2

end Ss

section Cases
open Ex

/-- Sejong Oh's method with MSE over the rationals: the hypotheses of `PerfSetup` -/
theorem exPerfSetupQ (g0 : Nat) : ∃ sc, PerfSetup (K := ℚ) exPerfEnv exSArgs (Sejong.new g0 mseM) exPerfX exPerfY g0 sc := by
  obtain ⟨p, hp, h⟩ := exPredicts (K := ℚ)
  refine ⟨fun rows => mseOf [2, 0, 12] (rows.map (fun r : Row (Fin 3) ℤ => ((r 0 * r 1 : ℤ) : ℚ))), ⟨exRng2_lawful, rfl,
    ⟨p, hp, fun k rows hl => ⟨_, (h k rows).1, mse_fin (ts := ([2, 0, 12] : List ℚ)) (by rw [(h k rows).2, hl]; rfl) (by simp)⟩⟩, fun f h => h, ?_, ?_,
    by simp [exSArgs]⟩⟩
  · show [(0 : Fin 3), 1, 2].Nodup
    decide
  · show [(0 : Fin 3), 1, 2] ≠ []
    simp

/-- the example object of Sejong Oh's method after `fit` -/
def exSejongQ : Sejong Nat Nat (Fin 3) ℤ ℚ := (Sejong.fit exPerfEnv exSArgs 5 (Sejong.new 1 mseM)).2

/-- a sort for the view -/
def exSortQ : PairSort (Fin 3) ℚ := fun asc => stableSort OvoRow.val asc

/-- a visualizer for three features -/
def exVis3 {K : Type} [Field K] [LinearOrder K] : VisEnv (Fin 3) K where
  lower := id
  sortIdx := stableSort
  sortDesc := stableSort OvoRow.val false

theorem exSejong_fitted : Fitted (I := Nat) exSortQ [0, 1, 2] (Sejong.view exSortQ exSejongQ) := by
  obtain ⟨sc, h⟩ := exPerfSetupQ 1
  exact .sejong h (sortsBy_stableSort _ _) (sortsBy_stableSort _ _) rfl 5

/-- C57 and C77 for it -/
example : ∃ ti a b m, (Sejong.view (I := Nat) exSortQ exSejongQ).plot exVis3 "heatmap" "default" {} [] = .ok [.heatmap ti a b m] ∧
    m.rows.Perm [0, 1, 2] ∧ m.cols = m.rows ∧
    ∀ f ∈ [(0 : Fin 3), 1, 2], ∀ g ∈ [(0 : Fin 3), 1, 2], f ≠ g →
      (Sejong.view (I := Nat) exSortQ exSejongQ).interactionValue f g = .ok (m.cell f g) :=
  C77_after_fit (fun _ => sortsBy_stableSort _ _) exSejong_fitted (by decide) (fun _ _ => sortsBy_stableSort _ _) _ _ _

example : heatOf ((Sejong.view (I := Nat) exSortQ exSejongQ).plot exVis3 "heatmap" "default" {} []) =
    some ([0, 1, 2], [[.fin (80 / 3), .fin (80 / 3), .fin 0], [.fin (80 / 3), .fin (40 / 3), .fin 0], [.fin 0, .fin 0, .fin 0]]) := by
  decide +kernel

/-- C76 for it: the two strongest pairs -/
example : ∃ ti shown, (Sejong.view (I := Nat) exSortQ exSejongQ).plot exVis3 "bar_chart" "default" { topK := some 2 } [] =
    .ok [.bars ti shown] ∧ shown.length = 2 := by
  obtain ⟨ti, shown, h1, h2, _⟩ := C76_after_fit (fun _ => sortsBy_stableSort _ _) exSejong_fitted (by decide) exVis3 "default"
    { topK := some 2 } [] (k := 2) rfl
  exact ⟨ti, shown, h1, h2⟩

/-- C54 for it: the pair 0, 1 is drawn with the largest width, the two others are not visible -/
example : ∃ ti edges nodes labels, ∃ w : Fin 3 → Fin 3 → ℚ,
    (Sejong.view (I := Nat) exSortQ exSejongQ).plot exVis3 "graph" "default" {} [] = .ok [.graph ti false edges nodes labels] ∧
    w 0 2 = 0 ∧ 0 < w 0 1 := by
  have hx : ∀ f ∈ [(0 : Fin 3), 1, 2], ∀ g ∈ [(0 : Fin 3), 1, 2], f ≠ g →
      (Sejong.view (I := Nat) exSortQ exSejongQ).interactionValue f g = .ok (.fin (if f = 2 ∨ g = 2 then 0 else 80 / 3)) := by
    decide +kernel
  obtain ⟨ti, e, n, l, w, h, _, _, hw⟩ := C54_after_fit (fun _ => sortsBy_stableSort _ _) exSejong_fitted (by decide) exVis3 "default" {} []
    (cfg := _) rfl (t := 10 / 100) (W := 20) (by decide +kernel) (by decide +kernel) (by norm_num) hx
    ⟨0, by simp, 1, by simp, by decide, 0, by simp, 2, by simp, by decide, by decide +kernel⟩
  obtain ⟨_, _, _, h0, _⟩ := hw 0 (by simp) 2 (by simp) (by decide)
  obtain ⟨_, _, _, _, h1, _⟩ := hw 0 (by simp) 1 (by simp) (by decide)
  refine ⟨ti, e, n, l, w, h, h0 (by decide +kernel), ?_⟩
  rw [h1 (by decide +kernel)]
  norm_num

/-- the H-statistic and Greenwell's method after `fit` over the reals -/
example : ∃ s : PdpMethod Nat Nat (Fin 3) ℤ ℝ, Fitted (I := Nat) (fun _ => stableSort OvoRow.val false) [0, 1, 2]
    (PdpMethod.view (fun _ => stableSort OvoRow.val false) (.friedman true) s) := by
  obtain ⟨s, h⟩ := exFitR true
  exact ⟨s, .pd _ (exSetup 0) (sortsBy_stableSort _ _) (sortsBy_stableSort _ _) (by decide) rfl (by decide) (fun _ => rfl) h⟩

/-- C86 for the example forest: the four most frequent pairs -/
example : ∃ ti shown, (CmdMethod.view (I := Nat) (exCmdEnv ℚ) (CmdMethod.fit (exCmdEnv ℚ) exForest CmdMethod.new).2).plot exVisList
    "bar_chart_conditional" "default" { topK := some 4 } [] = .ok [.conditional ti shown] ∧ shown.length = 4 := by
  obtain ⟨ti, shown, h1, h2, _⟩ := C86_after_fit (exCmdEnv ℚ) sortsCmd_cmdSort (sortsBy_stableSort _ _) exForest_of
    ⟨exTree, by simp, 0, uses_exTree.2 (by omega)⟩ CmdMethod.new exVisList "default" (o := { topK := some 4 }) (sub := []) (k := 4) rfl
  exact ⟨ti, shown, by convert h1, h2⟩

/-- C57 for it -/
example : ∃ ti a b M, (CmdMethod.view (I := Nat) (exCmdEnv ℚ) (CmdMethod.fit (exCmdEnv ℚ) exForest CmdMethod.new).2).plot exVisList
    "heatmap" "default" {} [] = .ok [.heatmap ti a b M] ∧ IsMeanCondDepth [exTree, exTree2] 0 1 (M.cell [97] [97, 98]) := by
  obtain ⟨ti, a, b, M, h1, _, _, h2, _⟩ := C57_cmd_after_fit (I := Nat) (exCmdEnv ℚ) sortsCmd_cmdSort (sortsBy_stableSort _ _) exForest_of
    (by decide) (fun i hi => ⟨exTree, by simp, uses_exTree.2 (by simpa [exForest] using hi)⟩) CmdMethod.new (E' := exVisList)
    (fun _ _ => sortsBy_stableSort _ _) "default" {} []
  exact ⟨ti, a, b, M, by convert h1, h2 0 1 _ _ rfl rfl (by decide)⟩

theorem exTwoWay_pair : ∃ s ∈ forestSplits exTwoWayTrees, s.parent.isSome = true :=
  ⟨⟨0, 1, 1, 1, 10, 6, some (0, 1, 10)⟩, by simp [forestSplits, exTwoWayTrees, GTree.splits], rfl⟩

/-- C76 for the split score of the example model -/
example : ∃ ti shown, (exTwoWayFit.view exPairSort).plot exVisNat "bar_chart" "default" { topK := some 2 } [] = .ok [.bars ti shown] ∧
    shown.Pairwise (fun r q => ∃ x y, r.val = .fin x ∧ q.val = .fin y ∧ y ≤ x) := by
  have hok : ∃ ps, (exTwoWayFit.view exPairSort).plot exVisNat "bar_chart" "default" { topK := some 2 } [] = .ok ps := by
    have : ((exTwoWayFit.view exPairSort).plot exVisNat "bar_chart" "default" { topK := some 2 } []).isOk = true := by decide +kernel
    cases h : (exTwoWayFit.view exPairSort).plot exVisNat "bar_chart" "default" { topK := some 2 } [] with
    | ok ps => exact ⟨ps, rfl⟩
    | error e => rw [h] at this; cases this
  obtain ⟨ps, h⟩ := hok
  obtain ⟨ti, shown, _, h1, _, _, _, h2, _⟩ := C76_split_score_after_fit exSsEnv_lawful exTwoWay_fit.1
    (by simp [SsMetric.isInteraction]) (avail_gain _) (avail_gain _) exTwoWay_pair true SsMethod.new exPairSort h (k := 2) rfl
  exact ⟨ti, shown, by rw [h, h1], h2⟩

/-- C64 for it: the second tree is the last one, with a split at its root -/
example : ∃ ti roots nodes nl rl, (exTwoWayFit.view exPairSort).plot exVisNat "lollipop" "default" { maxTrees := some 1, maxDepth := some 1 } [] =
    .ok [.lollipop ti roots nodes nl rl] ∧ (nodes.length : Int) = 1 := by
  have hok : ∃ ps, (exTwoWayFit.view exPairSort).plot exVisNat "lollipop" "default" { maxTrees := some 1, maxDepth := some 1 } [] = .ok ps := by
    have : ((exTwoWayFit.view exPairSort).plot exVisNat "lollipop" "default" { maxTrees := some 1, maxDepth := some 1 } []).isOk = true := by
      decide +kernel
    cases h : (exTwoWayFit.view exPairSort).plot exVisNat "lollipop" "default" { maxTrees := some 1, maxDepth := some 1 } [] with
    | ok ps => exact ⟨ps, rfl⟩
    | error e => rw [h] at this; cases this
  obtain ⟨ps, h⟩ := hok
  obtain ⟨ti, roots, nodes, nl, rl, h1, _, h2, _⟩ := C64_after_fit exTwoWay_fit.1 (avail_gain _) (avail_gain _) exTwoWay_pair
    ⟨⟨1, 0, 0, 1, 1 / 2, 10, none⟩, by simp [forestSplits, exTwoWayTrees, GTree.splits], rfl, rfl⟩ true SsMethod.new exPairSort h
  exact ⟨ti, roots, nodes, nl, rl, by rw [h, h1], by simpa using h2⟩

end Cases

end Artemis
