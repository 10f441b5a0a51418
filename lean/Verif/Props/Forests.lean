import Verif.Props.CMD
import Verif.Proofs.SameForest
import Verif.Proofs.AnyNumbering

/-!
# C92–C96: what conditional minimal depth depends on
-/

set_option linter.unusedSectionVars false
set_option linter.unusedVariables false
set_option linter.unusedSimpArgs false

namespace Artemis
open Spec

section Forests
variable {F F' I I' K : Type} [DecidableEq F] [DecidableEq F'] [Field K] [LinearOrder K] [IsStrictOrderedRing K]

/-- one row per key -/
theorem keys_nodup {α κ : Type} [DecidableEq κ] {key : α → κ} {l : List α}
    (h : ∀ r ∈ l, ∃ r', l.filter (fun x => decide (key x = key r)) = [r']) : (l.map key).Nodup := by
  rw [List.nodup_iff_count_le_one]
  intro k
  by_cases hk : k ∈ l.map key
  · obtain ⟨r, hr, rfl⟩ := List.mem_map.1 hk
    obtain ⟨r', e⟩ := h r hr
    have : List.count (key r) (l.map key) = (l.filter (fun x => decide (key x = key r))).length := by
      rw [List.count, List.countP_map, List.countP_eq_length_filter]
      congr 1
    rw [this, e]; simp
  · rw [List.count_eq_zero.2 hk]; omega

/-- the shape of the table after `fit` (C36) -/
structure CmdTable (columns : List F) (ts : List LTree) (rows : List (CmdRow F K)) : Prop where
  names : ∀ r ∈ rows, r.root ∈ columns ∧ r.var ∈ columns ∧ r.root ≠ r.var
  row : ∀ a b f g, columns[a]? = some f → columns[b]? = some g → f ≠ g → ∃ r,
    rows.filter (fun r => decide (r.root = f ∧ r.var = g)) = [r] ∧ IsMeanCondDepth ts a b r.val ∧ r.occ = occurrences ts a b

theorem CmdTable.nodup {columns : List F} {ts : List LTree} {rows : List (CmdRow F K)} (h : CmdTable columns ts rows) :
    (rows.map (fun r => (r.root, r.var))).Nodup := by
  apply keys_nodup
  intro r hr
  obtain ⟨h1, h2, h3⟩ := h.names r hr
  obtain ⟨a, ha⟩ := List.getElem?_of_mem h1
  obtain ⟨b, hb⟩ := List.getElem?_of_mem h2
  obtain ⟨r', e, _⟩ := h.row a b _ _ ha hb h3
  refine ⟨r', ?_⟩
  rw [← e]
  apply List.filter_congr
  intro x _
  simp only [Prod.mk.injEq]

theorem CmdTable.of_mem {columns : List F} (hc : columns.Nodup) {ts : List LTree} {rows : List (CmdRow F K)} (h : CmdTable columns ts rows)
    {r : CmdRow F K} (hr : r ∈ rows) : ∃ a b, columns[a]? = some r.root ∧ columns[b]? = some r.var ∧ IsMeanCondDepth ts a b r.val ∧
      r.occ = occurrences ts a b := by
  obtain ⟨h1, h2, h3⟩ := h.names r hr
  obtain ⟨a, ha⟩ := List.getElem?_of_mem h1
  obtain ⟨b, hb⟩ := List.getElem?_of_mem h2
  obtain ⟨r', e, e1, e2⟩ := h.row a b _ _ ha hb h3
  have : r ∈ rows.filter (fun x => decide (x.root = r.root ∧ x.var = r.var)) := List.mem_filter.2 ⟨hr, by simp⟩
  rw [e, List.mem_singleton] at this
  subst this
  exact ⟨a, b, ha, hb, e1, e2⟩

theorem CmdTable.exists_row {columns : List F} {ts : List LTree} {rows : List (CmdRow F K)} (h : CmdTable columns ts rows)
    {a b : Nat} {f g : F} (ha : columns[a]? = some f) (hb : columns[b]? = some g) (hfg : f ≠ g) :
    ∃ r ∈ rows, r.root = f ∧ r.var = g ∧ IsMeanCondDepth ts a b r.val ∧ r.occ = occurrences ts a b := by
  obtain ⟨r, e, e1, e2⟩ := h.row a b f g ha hb hfg
  have : r ∈ rows.filter (fun x => decide (x.root = f ∧ x.var = g)) := by rw [e]; simp
  obtain ⟨m1, m2⟩ := List.mem_filter.1 this
  exact ⟨r, m1, (of_decide_eq_true m2).1, (of_decide_eq_true m2).2, e1, e2⟩

theorem cmdTable_of_fit (E : CmdEnv F I K) (hE : SortsCmd E.sortOvo) {m : Forest F} {ts : List LTree} (h : ForestOf m ts)
    (hts : ts ≠ []) (hc : m.columns ≠ []) (s0 : CmdMethod F K) :
    ∃ rows, (CmdMethod.fit E m s0).2.ovo = some rows ∧ CmdTable m.columns ts rows := by
  obtain ⟨rows, e1, _, e3, e4, _⟩ := C36_table E hE h hts hc s0
  exact ⟨rows, e1, e3, e4⟩

theorem sameTrees_ne {swap : Bool} {σ : Nat → Nat} {n : Nat} (hn : 0 < n) {ts ts' : List LTree} (h : SameTrees swap σ n ts ts') (hts : ts ≠ []) :
    ts' ≠ [] := by
  obtain ⟨us, h1, h2⟩ := h
  rintro rfl
  have := List.nil_perm.1 h2
  rw [List.flatten_eq_nil_iff] at this
  have hu := this us (List.mem_replicate.2 ⟨hn.ne', rfl⟩)
  subst hu
  cases h1
  exact hts rfl

theorem sameTrees_mem {swap : Bool} {σ : Nat → Nat} {n : Nat} (hn : 0 < n) {ts ts' : List LTree} (h : SameTrees swap σ n ts ts') :
    (∀ t ∈ ts, ∃ t' ∈ ts', SameTree swap σ t t') ∧ ∀ t' ∈ ts', ∃ t ∈ ts, SameTree swap σ t t' := by
  obtain ⟨us, h1, h2⟩ := h
  have hmem : ∀ u, u ∈ ts' ↔ u ∈ us := by
    intro u
    rw [h2.mem_iff, List.mem_flatten]
    constructor
    · rintro ⟨l, hl, hu⟩
      rw [(List.mem_replicate.1 hl).2] at hu
      exact hu
    · intro hu
      exact ⟨us, List.mem_replicate.2 ⟨hn.ne', rfl⟩, hu⟩
  constructor
  · intro t ht
    obtain ⟨i, hi⟩ := List.get_of_mem ht
    rw [List.forall₂_iff_get] at h1
    have hl : i.1 < us.length := by rw [← h1.1]; exact i.2
    exact ⟨_, (hmem _).2 (List.get_mem us ⟨i.1, hl⟩), by rw [← hi]; exact h1.2 i.1 i.2 hl⟩
  · intro u hu
    obtain ⟨i, hi⟩ := List.get_of_mem ((hmem u).1 hu)
    rw [List.forall₂_iff_get] at h1
    have hl : i.1 < ts.length := by rw [h1.1]; exact i.2
    exact ⟨_, List.get_mem ts ⟨i.1, hl⟩, by rw [← hi]; exact h1.2 i.1 hl i.2⟩

/-- names are hit by names -/
theorem Spec.SameColumns.surj {σ : Nat → Nat} {ρ : F → F'} {cols : List F} {cols' : List F'} (h : SameColumns σ ρ cols cols')
    (hnd' : cols'.Nodup) {b : Nat} {f' : F'} (hb : cols'[b]? = some f') : ∃ a f, cols[a]? = some f ∧ ρ f = f' ∧ σ a = b := by
  have : f' ∈ cols.map ρ := h.perm.mem_iff.1 (List.mem_of_getElem? hb)
  obtain ⟨f, hf, rfl⟩ := List.mem_map.1 this
  obtain ⟨a, ha⟩ := List.getElem?_of_mem hf
  refine ⟨a, f, ha, rfl, ?_⟩
  have e := h.get a f ha
  obtain ⟨i1, i2⟩ := List.getElem?_eq_some_iff.1 e
  obtain ⟨j1, j2⟩ := List.getElem?_eq_some_iff.1 hb
  exact (List.Nodup.getElem_inj_iff hnd').1 (i2.trans j2.symm)

/-- the tables of two forests, if the values of all pairs agree -/
theorem cmdTables_perm {σ : Nat → Nat} {ρ : F → F'} {cols : List F} {cols' : List F'} (hcol : SameColumns σ ρ cols cols')
    (hnd : cols.Nodup) (hnd' : cols'.Nodup) {ts ts' : List LTree} {rows : List (CmdRow F K)} {rows' : List (CmdRow F' K)}
    (h : CmdTable cols ts rows) (h' : CmdTable cols' ts' rows') {n : Nat}
    (hv : ∀ a b v v', IsMeanCondDepth (K := K) ts a b v → IsMeanCondDepth ts' (σ a) (σ b) v' → v' = v)
    (ho : ∀ a b, occurrences ts' (σ a) (σ b) = n * occurrences ts a b) :
    rows'.Perm (rows.map (fun r => ⟨ρ r.root, ρ r.var, r.val, n * r.occ⟩)) := by
  have hρ : ∀ f ∈ cols, ∀ g ∈ cols, ρ f = ρ g → f = g := by
    have hm : (cols.map ρ).Nodup := hcol.perm.nodup_iff.1 hnd'
    exact fun f hf g hg e => List.inj_on_of_nodup_map hm hf hg e
  have hn1 : rows'.Nodup := List.Nodup.of_map _ h'.nodup
  have hn2 : (rows.map (fun r => (⟨ρ r.root, ρ r.var, r.val, n * r.occ⟩ : CmdRow F' K))).Nodup := by
    refine (List.Nodup.of_map _ h.nodup).map_on ?_
    intro x hx y hy e
    obtain ⟨x1, x2, _⟩ := h.names x hx
    obtain ⟨y1, y2, _⟩ := h.names y hy
    have e1 : ρ x.root = ρ y.root := congrArg CmdRow.root e
    have e2 : ρ x.var = ρ y.var := congrArg CmdRow.var e
    exact List.inj_on_of_nodup_map h.nodup hx hy (by simp only [hρ _ x1 _ y1 e1, hρ _ x2 _ y2 e2])
  rw [List.perm_ext_iff_of_nodup hn1 hn2]
  have key : ∀ r ∈ rows, ∀ r' ∈ rows', r'.root = ρ r.root → r'.var = ρ r.var → r' = ⟨ρ r.root, ρ r.var, r.val, n * r.occ⟩ := by
    intro r hr r' hr' e1 e2
    obtain ⟨a, b, ha, hb, hv1, ho1⟩ := h.of_mem hnd hr
    obtain ⟨a', b', ha', hb', hv2, ho2⟩ := h'.of_mem hnd' hr'
    have ha2 := hcol.get a _ ha
    have hb2 := hcol.get b _ hb
    rw [e1] at ha'
    rw [e2] at hb'
    have inj : ∀ {i j : Nat} {f : F'}, cols'[i]? = some f → cols'[j]? = some f → i = j := by
      intro i j f hi hj
      obtain ⟨i1, i2⟩ := List.getElem?_eq_some_iff.1 hi
      obtain ⟨j1, j2⟩ := List.getElem?_eq_some_iff.1 hj
      exact (List.Nodup.getElem_inj_iff hnd').1 (i2.trans j2.symm)
    rw [inj ha' ha2, inj hb' hb2] at hv2 ho2
    have e3 := hv a b _ _ hv1 hv2
    rw [ho, ← ho1] at ho2
    cases r'
    simp only at e1 e2 e3 ho2
    rw [e1, e2, e3, ho2]
  intro r'
  constructor
  · intro hr'
    obtain ⟨a', b', ha', hb', _⟩ := h'.of_mem hnd' hr'
    obtain ⟨a, f, ha, hf, _⟩ := hcol.surj hnd' ha'
    obtain ⟨b, g, hb, hg, _⟩ := hcol.surj hnd' hb'
    have hfg : f ≠ g := by
      rintro rfl
      exact (h'.names r' hr').2.2 (hf.symm.trans hg)
    obtain ⟨r, hr, e1, e2, _⟩ := h.exists_row ha hb hfg
    refine List.mem_map.2 ⟨r, hr, (key r hr r' hr' ?_ ?_).symm⟩
    · rw [e1, hf]
    · rw [e2, hg]
  · intro hr'
    obtain ⟨r, hr, rfl⟩ := List.mem_map.1 hr'
    obtain ⟨a, b, ha, hb, _⟩ := h.of_mem hnd hr
    obtain ⟨n1, n2, n3⟩ := h.names r hr
    have hne : ρ r.root ≠ ρ r.var := fun e => n3 (hρ _ n1 _ n2 e)
    obtain ⟨r', hr'', e1, e2, _⟩ := h'.exists_row (hcol.get a _ ha) (hcol.get b _ hb) hne
    rw [← key r hr r' hr'' e1 e2]
    exact hr''

/-- what `fit` leaves for the importance, whatever the numbering of the nodes -/
structure CmdImportance (columns : List F) (ts : List LTree) (E : CmdEnv F I K) (m : Forest F) (s0 : CmdMethod F K) : Prop where
  used : (∃ t ∈ ts, ∃ f, Uses t f) → (CmdMethod.fit E m s0).1 = .ok () ∧ ∃ rows,
      (CmdMethod.fit E m s0).2.importance = some rows ∧ (rows.map ImpRow.f).Nodup ∧
      (∀ f, f ∈ rows.map ImpRow.f ↔ ∃ i, columns[i]? = some f ∧ ∃ t ∈ ts, Uses t i) ∧
      (∀ r ∈ rows, ∀ i, columns[i]? = some r.f → IsMeanMinDepth ts i r.val) ∧
      rows.Pairwise (fun a b => Num.keyLE true a.val b.val = true)
  unused : (¬ ∃ t ∈ ts, ∃ f, Uses t f) → (CmdMethod.fit E m s0).1 = .error .keyError ∧
      (CmdMethod.fit E m s0).2.importance = s0.importance

theorem cmdImportance_any (E : CmdEnv F I K) (hE : SortsCmd E.sortOvo) (hI : SortsBy ImpRow.val true E.sortImp)
    {m : Forest F} {ts : List LTree} (h : NumberedForest m ts) (hts : ts ≠ []) (hc : m.columns ≠ []) (s0 : CmdMethod F K) :
    CmdImportance m.columns ts E m s0 := by
  obtain ⟨raw, dss, h1, h2, h3, h4⟩ := cmdForest_returns h.trees hts (p := m.columns.length) (List.length_pos_of_ne_nil hc)
  obtain ⟨ovo, h5⟩ := summarise_returns hE h2 h4
  obtain ⟨i1, i2, i3⟩ := importance_ok hI h.names h.cols h3
  constructor
  · intro hu
    obtain ⟨imp, a1, a2, a3, a4⟩ := i1 hu
    have hf : CmdMethod.fit E m s0 = (.ok (), { s0 with features := some m.columns, pairs := some (combinations2 m.columns), raw := some raw, ovo := some ovo, impObj := true, importance := some imp }) := by
      simp only [CmdMethod.fit, h1, h5, a1]
    rw [hf]
    exact ⟨rfl, imp, rfl, a3, a4, i3 imp a1, a2⟩
  · intro hu
    have := i2 hu
    have hf : CmdMethod.fit E m s0 = (.error .keyError, { s0 with features := some m.columns, pairs := some (combinations2 m.columns), raw := some raw, ovo := some ovo, impObj := true }) := by
      simp only [CmdMethod.fit, h1, h5, this]
    rw [hf]
    exact ⟨rfl, rfl⟩

theorem ForestOf.numbered {m : Forest F} {ts : List LTree} (h : ForestOf m ts) : NumberedForest m ts :=
  ⟨h.names, h.trees.imp (fun _ _ h => h.1), h.cols⟩

/-- the importance of two forests of the same trees -/
theorem cmdImportance_same {swap : Bool} {σ : Nat → Nat} (hσ : Function.Injective σ) {n : Nat} (hn : 0 < n) {ρ : F → F'}
    (E : CmdEnv F I K) (hE : SortsCmd E.sortOvo) (hI : SortsBy ImpRow.val true E.sortImp)
    (E' : CmdEnv F' I' K) (hE' : SortsCmd E'.sortOvo) (hI' : SortsBy ImpRow.val true E'.sortImp)
    {m : Forest F} {ts : List LTree} (h : NumberedForest m ts) {m' : Forest F'} {ts' : List LTree} (h' : NumberedForest m' ts')
    (hts : ts ≠ []) (hc : m.columns ≠ []) (hs : SameTrees swap σ n ts ts') (hcol : SameColumns σ ρ m.columns m'.columns)
    (s0 : CmdMethod F K) (s0' : CmdMethod F' K) :
    (CmdMethod.fit E' m' s0').1 = (CmdMethod.fit E m s0).1 ∧
    ∀ imp, (CmdMethod.fit E m s0).1 = .ok () → (CmdMethod.fit E m s0).2.importance = some imp →
      ∃ imp', (CmdMethod.fit E' m' s0').2.importance = some imp' ∧ imp'.Perm (imp.map (fun r => ⟨ρ r.f, r.val⟩)) := by
  have hc' : m'.columns ≠ [] := by
    intro e
    have := hcol.perm
    rw [e] at this
    have := List.nil_perm.1 this
    rw [List.map_eq_nil_iff] at this
    exact hc this
  have c := cmdImportance_any E hE hI h hts hc s0
  have c' := cmdImportance_any E' hE' hI' h' (sameTrees_ne hn hs hts) hc' s0'
  obtain ⟨m1, m2⟩ := sameTrees_mem hn hs
  have huse : ∀ f, (∃ t ∈ ts', Uses t (σ f)) ↔ ∃ t ∈ ts, Uses t f := by
    intro f
    constructor
    · rintro ⟨t', ht', hu⟩
      obtain ⟨t, ht, hst⟩ := m2 t' ht'
      exact ⟨t, ht, (hst.uses hσ f).1 hu⟩
    · rintro ⟨t, ht, hu⟩
      obtain ⟨t', ht', hst⟩ := m1 t ht
      exact ⟨t', ht', (hst.uses hσ f).2 hu⟩
  have hany : (∃ t ∈ ts', ∃ f, Uses t f) ↔ ∃ t ∈ ts, ∃ f, Uses t f := by
    constructor
    · rintro ⟨t', ht', f', hu⟩
      have hlt := h'.cols t' ht' f' hu
      obtain ⟨a, f, _, _, rfl⟩ := hcol.surj h'.names (List.getElem?_eq_getElem hlt)
      obtain ⟨t, ht, hu⟩ := (huse a).1 ⟨t', ht', hu⟩
      exact ⟨t, ht, a, hu⟩
    · rintro ⟨t, ht, f, hu⟩
      obtain ⟨t', ht', hu'⟩ := (huse f).2 ⟨t, ht, hu⟩
      exact ⟨t', ht', _, hu'⟩
  by_cases hu : ∃ t ∈ ts, ∃ f, Uses t f
  · obtain ⟨r1, imp, r2, r3, r4, r5, _⟩ := c.used hu
    obtain ⟨r1', imp', r2', r3', r4', r5', _⟩ := c'.used (hany.2 hu)
    refine ⟨r1'.trans r1.symm, ?_⟩
    intro imp0 _ e
    rw [r2] at e
    obtain rfl := Option.some.inj e
    refine ⟨imp', r2', ?_⟩
    have hρ : ∀ f ∈ m.columns, ∀ g ∈ m.columns, ρ f = ρ g → f = g := by
      have hm : (m.columns.map ρ).Nodup := hcol.perm.nodup_iff.1 h'.names
      exact fun f hf g hg e => List.inj_on_of_nodup_map hm hf hg e
    have hmem : ∀ r ∈ imp, r.f ∈ m.columns := by
      intro r hr
      obtain ⟨i, hi, _⟩ := (r4 r.f).1 (List.mem_map_of_mem hr)
      exact List.mem_of_getElem? hi
    have key : ∀ r ∈ imp, ∀ r' ∈ imp', r'.f = ρ r.f → r' = ⟨ρ r.f, r.val⟩ := by
      intro r hr r' hr' e
      obtain ⟨i, hi, _⟩ := (r4 r.f).1 (List.mem_map_of_mem hr)
      have hi' := hcol.get i _ hi
      have := meanMinDepth_same hσ hn hs (r5 r hr i hi) (r5' r' hr' (σ i) (by rw [e]; exact hi'))
      cases r'
      simp only at e this
      rw [e, this]
    rw [List.perm_ext_iff_of_nodup (List.Nodup.of_map _ r3') ((List.Nodup.of_map _ r3).map_on ?_)]
    · intro r'
      constructor
      · intro hr'
        obtain ⟨i', hi', hu'⟩ := (r4' r'.f).1 (List.mem_map_of_mem hr')
        obtain ⟨i, f, hi, hf, rfl⟩ := hcol.surj h'.names hi'
        have : f ∈ imp.map ImpRow.f := (r4 f).2 ⟨i, hi, (huse i).1 hu'⟩
        obtain ⟨r, hr, rfl⟩ := List.mem_map.1 this
        exact List.mem_map.2 ⟨r, hr, (key r hr r' hr' hf.symm).symm⟩
      · intro hr'
        obtain ⟨r, hr, rfl⟩ := List.mem_map.1 hr'
        obtain ⟨i, hi, hui⟩ := (r4 r.f).1 (List.mem_map_of_mem hr)
        have : ρ r.f ∈ imp'.map ImpRow.f := (r4' _).2 ⟨σ i, hcol.get i _ hi, (huse i).2 hui⟩
        obtain ⟨r', hr'', e⟩ := List.mem_map.1 this
        rw [← key r hr r' hr'' e]
        exact hr''
    · intro x hx y hy e
      have e1 : ρ x.f = ρ y.f := congrArg ImpRow.f e
      exact List.inj_on_of_nodup_map r3 hx hy (hρ _ (hmem x hx) _ (hmem y hy) e1)
  · obtain ⟨r1, _⟩ := c.unused hu
    obtain ⟨r1', _⟩ := c'.unused (fun hh => hu (hany.1 hh))
    refine ⟨r1'.trans r1.symm, ?_⟩
    intro imp e
    rw [r1] at e
    cases e

/-! ### C92 -/

/-- **C92.** Two forests that consist of the same trees — in another order, all repeated `n` times, columns in another order
and with other names — give the same results: `fit` returns or raises alike, the tables have the same values row by row
(`n_occurences` times `n`), the importance tables the same values. -/
theorem C92_order_of_trees_and_columns {σ : Nat → Nat} (hσ : Function.Injective σ) {n : Nat} (hn : 0 < n) {ρ : F → F'}
    (E : CmdEnv F I K) (hE : SortsCmd E.sortOvo) (hI : SortsBy ImpRow.val true E.sortImp)
    (E' : CmdEnv F' I' K) (hE' : SortsCmd E'.sortOvo) (hI' : SortsBy ImpRow.val true E'.sortImp)
    {m : Forest F} {ts : List LTree} (h : ForestOf m ts) {m' : Forest F'} {ts' : List LTree} (h' : ForestOf m' ts')
    (hts : ts ≠ []) (hc : m.columns ≠ []) (hs : SameTrees false σ n ts ts') (hcol : SameColumns σ ρ m.columns m'.columns)
    (s0 : CmdMethod F K) (s0' : CmdMethod F' K) :
    (CmdMethod.fit E' m' s0').1 = (CmdMethod.fit E m s0).1 ∧
    (∃ rows rows', (CmdMethod.fit E m s0).2.ovo = some rows ∧ (CmdMethod.fit E' m' s0').2.ovo = some rows' ∧
      rows'.Perm (rows.map (fun r => ⟨ρ r.root, ρ r.var, r.val, n * r.occ⟩))) ∧
    ∀ imp, (CmdMethod.fit E m s0).1 = .ok () → (CmdMethod.fit E m s0).2.importance = some imp →
      ∃ imp', (CmdMethod.fit E' m' s0').2.importance = some imp' ∧ imp'.Perm (imp.map (fun r => ⟨ρ r.f, r.val⟩)) := by
  have hc' : m'.columns ≠ [] := by
    intro e
    have := hcol.perm
    rw [e] at this
    have := List.nil_perm.1 this
    rw [List.map_eq_nil_iff] at this
    exact hc this
  obtain ⟨a, b⟩ := cmdImportance_same hσ hn E hE hI E' hE' hI' (ForestOf.numbered h) (ForestOf.numbered h') hts hc hs hcol s0 s0'
  obtain ⟨rows, e1, e2⟩ := cmdTable_of_fit E hE h hts hc s0
  obtain ⟨rows', e1', e2'⟩ := cmdTable_of_fit E' hE' h' (sameTrees_ne hn hs hts) hc' s0'
  refine ⟨a, ⟨rows, rows', e1, e1', ?_⟩, b⟩
  exact cmdTables_perm hcol h.names h'.names e2 e2' (fun a b v v' h1 h2 => meanCondDepth_same hσ hn hs (.inl rfl) h1 h2)
    (fun a b => occurrences_same hσ hs a b)

/-! ### C93 -/

theorem shallowest_exists {t : LTree} {f : Nat} (h : Uses t f) : ∃ k s, Shallowest t f k s := by
  classical
  have hex : ∃ k, ∃ s, At t k s ∧ s.Splits f := h
  obtain ⟨s, h1, h2⟩ := Nat.find_spec hex
  exact ⟨Nat.find hex, s, h1, h2, fun k' s' a b => Nat.find_min' hex ⟨s', a, b⟩⟩

theorem condDepth_le_between {t : LTree} {f g x y : Nat} (h : CondDepth t f g x) (h' : NodesBetween t f g y) : x ≤ y := by
  obtain ⟨⟨k, s, a, b⟩, _⟩ := h'
  exact h.2 k s y a (.inl b)

theorem condDepth_iff_between {t : LTree} {f g x : Nat} (hb : AlwaysBelow t f g) : CondDepth t f g x ↔ NodesBetween t f g x := by
  constructor
  · rintro ⟨⟨k, s, a, b⟩, c⟩
    have hn : NearestBelow s g (x + 1) := by
      rcases b with b | ⟨b, _⟩
      · exact b
      · exact absurd (hb k s a) b
    refine ⟨⟨k, s, a, hn⟩, ?_⟩
    intro k' s' m' hs hm
    have hm0 := hm.1
    have := c k' s' (m' - 1) hs (.inl (by rw [show m' - 1 + 1 = m' by omega]; exact hm))
    omega
  · rintro ⟨⟨k, s, a, b⟩, c⟩
    refine ⟨⟨k, s, a, .inl b⟩, ?_⟩
    intro k' s' y hs hy
    obtain ⟨m', hm⟩ := hb k' s' hs
    rcases hy with hy | ⟨hy, _⟩
    · have := c k' s' _ hs hy; omega
    · exact absurd ⟨m', hm⟩ hy

theorem natSum_le {xs ys : List Nat} (h : List.Forall₂ (· ≤ ·) xs ys) : (xs.map (fun (x : Nat) => (x : K))).sum ≤ (ys.map (fun (x : Nat) => (x : K))).sum := by
  induction h with
  | nil => exact le_refl _
  | cons h _ ih =>
    rw [List.map_cons, List.map_cons, List.sum_cons, List.sum_cons]
    exact add_le_add (Nat.cast_le.2 h) ih

/-- **C93**, when every shallowest split on the first column has a split on the second one below it, in all trees that use
both: the value is the mean, over these trees, of the smallest number of nodes between a shallowest split on the first column
and the nearest split on the second one below it. When in each of these trees some shallowest split has one, the value is at
most that mean. Missing: equality in the second case (see `C93_last_node_counts`). -/
theorem C93_distance_to_nearest_split_partial (E : CmdEnv F I K) (hE : SortsCmd E.sortOvo) {m : Forest F} {ts : List LTree}
    (h : ForestOf m ts) (hts : ts ≠ []) (hc : m.columns ≠ []) (s0 : CmdMethod F K) {a b : Nat} {f g : F}
    (ha : m.columns[a]? = some f) (hb : m.columns[b]? = some g) (hfg : f ≠ g) :
    ∃ rows r, (CmdMethod.fit E m s0).2.ovo = some rows ∧ rows.filter (fun r => decide (r.root = f ∧ r.var = g)) = [r] ∧
      ((∀ t ∈ ts, Uses t a → Uses t b → AlwaysBelow t a b) → IsMeanBetween ts a b r.val) ∧
      ((∃ t ∈ ts, Uses t a ∧ Uses t b) → ∀ y, IsMeanBetween ts a b y → ∃ x z, r.val = .fin x ∧ y = .fin z ∧ x ≤ z) := by
  classical
  obtain ⟨rows, e1, e2⟩ := cmdTable_of_fit E hE h hts hc s0
  obtain ⟨r, e3, ⟨xs, e4, e5⟩, _⟩ := e2.row a b f g ha hb hfg
  refine ⟨rows, r, e1, e3, ?_, ?_⟩
  · intro hall
    refine ⟨xs, ?_, e5⟩
    rw [List.forall₂_iff_get] at e4 ⊢
    refine ⟨e4.1, fun i h1 h2 => ?_⟩
    have hm := List.mem_filter.1 (List.get_mem (ts.filter (fun t => decide (Uses t a ∧ Uses t b))) ⟨i, h1⟩)
    have hu := of_decide_eq_true hm.2
    exact (condDepth_iff_between (hall _ hm.1 hu.1 hu.2)).1 (e4.2 i h1 h2)
  · rintro ⟨t, ht, hu⟩ y ⟨ys, hy, rfl⟩
    have hne : ts.filter (fun t => decide (Uses t a ∧ Uses t b)) ≠ [] := List.ne_nil_of_mem (List.mem_filter.2 ⟨ht, by simpa using hu⟩)
    have hx0 : xs ≠ [] := by rintro rfl; rw [List.forall₂_nil_right_iff] at e4; exact hne e4
    have hy0 : ys ≠ [] := by rintro rfl; rw [List.forall₂_nil_right_iff] at hy; exact hne hy
    have hl : xs.length = ys.length := by rw [← e4.length_eq, ← hy.length_eq]
    have hle : List.Forall₂ (· ≤ ·) xs ys := by
      rw [List.forall₂_iff_get] at e4 hy ⊢
      refine ⟨hl, fun i h1 h2 => ?_⟩
      have hi : i < (ts.filter (fun t => decide (Uses t a ∧ Uses t b))).length := by rw [e4.1]; exact h1
      exact condDepth_le_between (e4.2 i hi h1) (hy.2 i hi h2)
    refine ⟨_, _, by rw [e5, meanNat, if_neg hx0], by rw [meanNat, if_neg hy0], ?_⟩
    rw [hl]
    exact div_le_div_of_nonneg_right (natSum_le hle) (by exact_mod_cast Nat.zero_le _)

/-! ### C94 -/

/-- **C94**, without the values in general. Exchanging left and right at any nodes of any trees (and reordering, repeating,
renaming as in C92) changes neither outcome nor importance nor, up to the factor, `n_occurences`; it does not change the
value of a pair whose second column is split on below every shallowest split on the first in every tree. Missing: the value
of the other pairs (see `C94_mirrored_value_differs`). -/
theorem C94_mirrored_trees_partial {σ : Nat → Nat} (hσ : Function.Injective σ) {n : Nat} (hn : 0 < n) {ρ : F → F'}
    (E : CmdEnv F I K) (hE : SortsCmd E.sortOvo) (hI : SortsBy ImpRow.val true E.sortImp)
    (E' : CmdEnv F' I' K) (hE' : SortsCmd E'.sortOvo) (hI' : SortsBy ImpRow.val true E'.sortImp)
    {m : Forest F} {ts : List LTree} (h : ForestOf m ts) {m' : Forest F'} {ts' : List LTree} (h' : ForestOf m' ts')
    (hts : ts ≠ []) (hc : m.columns ≠ []) (hs : SameTrees true σ n ts ts') (hcol : SameColumns σ ρ m.columns m'.columns)
    (s0 : CmdMethod F K) (s0' : CmdMethod F' K) :
    (CmdMethod.fit E' m' s0').1 = (CmdMethod.fit E m s0).1 ∧
    (∃ rows rows', (CmdMethod.fit E m s0).2.ovo = some rows ∧ (CmdMethod.fit E' m' s0').2.ovo = some rows' ∧
      ∀ a b f g, m.columns[a]? = some f → m.columns[b]? = some g → f ≠ g → ∃ r r',
        rows.filter (fun r => decide (r.root = f ∧ r.var = g)) = [r] ∧
        rows'.filter (fun r => decide (r.root = ρ f ∧ r.var = ρ g)) = [r'] ∧ r'.occ = n * r.occ ∧
        ((∀ t ∈ ts, AlwaysBelow t a b) → r'.val = r.val)) ∧
    ∀ imp, (CmdMethod.fit E m s0).1 = .ok () → (CmdMethod.fit E m s0).2.importance = some imp →
      ∃ imp', (CmdMethod.fit E' m' s0').2.importance = some imp' ∧ imp'.Perm (imp.map (fun r => ⟨ρ r.f, r.val⟩)) := by
  have hc' : m'.columns ≠ [] := by
    intro e
    have := hcol.perm
    rw [e] at this
    have := List.nil_perm.1 this
    rw [List.map_eq_nil_iff] at this
    exact hc this
  obtain ⟨a, b⟩ := cmdImportance_same hσ hn E hE hI E' hE' hI' (ForestOf.numbered h) (ForestOf.numbered h') hts hc hs hcol s0 s0'
  obtain ⟨rows, e1, e2⟩ := cmdTable_of_fit E hE h hts hc s0
  obtain ⟨rows', e1', e2'⟩ := cmdTable_of_fit E' hE' h' (sameTrees_ne hn hs hts) hc' s0'
  refine ⟨a, ⟨rows, rows', e1, e1', ?_⟩, b⟩
  intro a b f g ha hb hfg
  have hne : ρ f ≠ ρ g := by
    intro e
    have hm : (m.columns.map ρ).Nodup := hcol.perm.nodup_iff.1 h'.names
    exact hfg (List.inj_on_of_nodup_map hm (List.mem_of_getElem? ha) (List.mem_of_getElem? hb) e)
  obtain ⟨r, q1, q2, q3⟩ := e2.row a b f g ha hb hfg
  obtain ⟨r', q1', q2', q3'⟩ := e2'.row (σ a) (σ b) (ρ f) (ρ g) (hcol.get a _ ha) (hcol.get b _ hb) hne
  refine ⟨r, r', q1, q1', ?_, ?_⟩
  · rw [q3', q3, occurrences_same hσ hs]
  · intro hall
    exact meanCondDepth_same hσ hn hs (.inr hall) q2 q2'

/-! ### C95 -/

/-- **C95**, the importance. Nodes may be numbered in any way (root 0): if some tree has a split, `fit` returns and the
importance table lists exactly the features used, each with its mean minimal depth, in non-decreasing order; if no tree has
one, `fit` raises. Missing: values and `n_occurences` of pairs, which are right for depth-first numbering only (C36,
`C95_best_first_forest_misread`). -/
theorem C95_importance_for_any_numbering_partial (E : CmdEnv F I K) (hE : SortsCmd E.sortOvo) (hI : SortsBy ImpRow.val true E.sortImp)
    {m : Forest F} {ts : List LTree} (h : NumberedForest m ts) (hts : ts ≠ []) (hc : m.columns ≠ []) (s0 : CmdMethod F K) :
    ((∃ t ∈ ts, ∃ f, Uses t f) → (CmdMethod.fit E m s0).1 = .ok () ∧ ∃ rows,
      (CmdMethod.fit E m s0).2.importance = some rows ∧ (rows.map ImpRow.f).Nodup ∧
      (∀ f, f ∈ rows.map ImpRow.f ↔ ∃ i, m.columns[i]? = some f ∧ ∃ t ∈ ts, Uses t i) ∧
      (∀ r ∈ rows, ∀ i, m.columns[i]? = some r.f → IsMeanMinDepth ts i r.val) ∧
      rows.Pairwise (fun a b => Num.keyLE true a.val b.val = true)) ∧
    ((¬ ∃ t ∈ ts, ∃ f, Uses t f) → (CmdMethod.fit E m s0).1 = .error .keyError ∧
      (CmdMethod.fit E m s0).2.importance = s0.importance) := by
  have c := cmdImportance_any E hE hI h hts hc s0
  exact ⟨c.used, c.unused⟩

/-- **C95**, the same trees numbered in two ways (and reordered, repeated, renamed, mirrored): the same importance. -/
theorem C95_same_importance {swap : Bool} {σ : Nat → Nat} (hσ : Function.Injective σ) {n : Nat} (hn : 0 < n) {ρ : F → F'}
    (E : CmdEnv F I K) (hE : SortsCmd E.sortOvo) (hI : SortsBy ImpRow.val true E.sortImp)
    (E' : CmdEnv F' I' K) (hE' : SortsCmd E'.sortOvo) (hI' : SortsBy ImpRow.val true E'.sortImp)
    {m : Forest F} {ts : List LTree} (h : NumberedForest m ts) {m' : Forest F'} {ts' : List LTree} (h' : NumberedForest m' ts')
    (hts : ts ≠ []) (hc : m.columns ≠ []) (hs : SameTrees swap σ n ts ts') (hcol : SameColumns σ ρ m.columns m'.columns)
    (s0 : CmdMethod F K) (s0' : CmdMethod F' K) :
    (CmdMethod.fit E' m' s0').1 = (CmdMethod.fit E m s0).1 ∧
    ∀ imp, (CmdMethod.fit E m s0).1 = .ok () → (CmdMethod.fit E m s0).2.importance = some imp →
      ∃ imp', (CmdMethod.fit E' m' s0').2.importance = some imp' ∧ imp'.Perm (imp.map (fun r => ⟨ρ r.f, r.val⟩)) :=
  cmdImportance_same hσ hn E hE hI E' hE' hI' h h' hts hc hs hcol s0 s0'

/-! ### C96 -/

theorem at_height {t s : LTree} {k : Nat} (h : At t k s) : k + s.height ≤ t.height := by
  induction h with
  | here t => omega
  | left _ ih => simp only [LTree.height]; omega
  | right _ ih => simp only [LTree.height]; omega

theorem splits_height {s : LTree} {f : Nat} (h : s.Splits f) : 1 ≤ s.height := by
  cases s with
  | leaf => cases h
  | node => simp [LTree.height]

theorem lastDepth_le (t : LTree) : t.lastDepth ≤ t.height := by
  induction t with
  | leaf => simp [LTree.lastDepth]
  | node i f l r _ ih => simp only [LTree.lastDepth, LTree.height]; omega

theorem lastDepth_pos {s : LTree} {f : Nat} (h : s.Splits f) : 0 < s.lastDepth := by
  cases s with
  | leaf => cases h
  | node => simp [LTree.lastDepth]

theorem condDepth_le_height {t : LTree} {f g x : Nat} (h : CondDepth t f g x) : x ≤ t.height := by
  obtain ⟨⟨k, s, a, b⟩, _⟩ := h
  have h1 := at_height a.1
  rcases b with ⟨_, ⟨w, hw, hg⟩, _⟩ | ⟨_, rfl⟩
  · have := at_height hw; omega
  · have := lastDepth_le s; omega

theorem condDepth_zero {t : LTree} {f g : Nat} : CondDepth t f g 0 ↔ DirectlyBelow t f g := by
  constructor
  · rintro ⟨⟨k, s, a, b⟩, _⟩
    rcases b with ⟨_, ⟨w, hw, hg⟩, _⟩ | ⟨_, e⟩
    · exact ⟨k, s, w, a, hw, hg⟩
    · have := lastDepth_pos a.2.1; omega
  · rintro ⟨k, s, w, a, hw, hg⟩
    refine ⟨⟨k, s, a, .inl ⟨by omega, ⟨w, hw, hg⟩, fun m' _ h _ _ => by omega⟩⟩, fun _ _ _ _ _ => Nat.zero_le _⟩

theorem natSum_eq_zero {xs : List Nat} : (xs.map (fun (x : Nat) => (x : K))).sum = 0 ↔ ∀ x ∈ xs, x = 0 := by
  have : (xs.map (fun (x : Nat) => (x : K))).sum = ((xs.sum : Nat) : K) := by
    induction xs with
    | nil => simp
    | cons a l ih => simp [ih]
  rw [this, Nat.cast_eq_zero, List.sum_eq_zero_iff]

theorem mean_bounds {xs : List Nat} {H : Nat} (h : ∀ x ∈ xs, x ≤ H) (hne : xs ≠ []) :
    ∃ x : K, meanNat xs = .fin x ∧ 0 ≤ x ∧ x ≤ H := by
  have hl : (0 : K) < xs.length := by exact_mod_cast List.length_pos_of_ne_nil hne
  refine ⟨_, by rw [meanNat, if_neg hne], ?_, ?_⟩
  · apply div_nonneg _ hl.le
    apply List.sum_nonneg
    intro y hy
    obtain ⟨x, _, rfl⟩ := List.mem_map.1 hy
    exact Nat.cast_nonneg _
  · rw [div_le_iff₀ hl]
    have : (xs.map (fun (x : Nat) => (x : K))).sum ≤ ((List.replicate xs.length H).map (fun (x : Nat) => (x : K))).sum := by
      apply natSum_le
      rw [List.forall₂_iff_get]
      refine ⟨by simp, fun i h1 h2 => ?_⟩
      simp only [List.get_eq_getElem, List.getElem_replicate]
      exact h _ (List.getElem_mem _)
    refine this.trans (le_of_eq ?_)
    rw [List.map_replicate, List.sum_replicate, nsmul_eq_mul, mul_comm]

/-- **C96.** After `fit`, for every ordered pair of distinct features: the value is missing exactly if no tree uses both;
otherwise it is a number between 0 and the height of the highest tree, and it is 0 exactly if in every tree that uses both some
child of a shallowest split on the first feature is a split on the second. `n_occurences` is at most the number of trees that
use both. -/
theorem C96_range_of_values (E : CmdEnv F I K) (hE : SortsCmd E.sortOvo) {m : Forest F} {ts : List LTree} (h : ForestOf m ts)
    (hts : ts ≠ []) (hc : m.columns ≠ []) (s0 : CmdMethod F K) {a b : Nat} {f g : F}
    (ha : m.columns[a]? = some f) (hb : m.columns[b]? = some g) (hfg : f ≠ g) :
    ∃ rows r, (CmdMethod.fit E m s0).2.ovo = some rows ∧ rows.filter (fun r => decide (r.root = f ∧ r.var = g)) = [r] ∧
      (r.val = .nan ↔ ¬ ∃ t ∈ ts, Uses t a ∧ Uses t b) ∧
      (∀ H : Nat, (∀ t ∈ ts, t.height ≤ H) → (∃ t ∈ ts, Uses t a ∧ Uses t b) → ∃ x, r.val = .fin x ∧ 0 ≤ x ∧ x ≤ H) ∧
      ((∃ t ∈ ts, Uses t a ∧ Uses t b) → (r.val = .fin 0 ↔ ∀ t ∈ ts, Uses t a → Uses t b → DirectlyBelow t a b)) ∧
      (open Classical in r.occ ≤ (ts.filter (fun t => decide (Uses t a ∧ Uses t b))).length) ∧ r.occ ≤ m.trees.length := by
  classical
  obtain ⟨rows, e1, e2⟩ := cmdTable_of_fit E hE h hts hc s0
  obtain ⟨r, e3, ⟨xs, e4, e5⟩, e6⟩ := e2.row a b f g ha hb hfg
  have hxs : xs = [] ↔ ¬ ∃ t ∈ ts, Uses t a ∧ Uses t b := by
    constructor
    · rintro rfl ⟨t, ht, hu⟩
      rw [List.forall₂_nil_right_iff] at e4
      have : t ∈ ts.filter (fun t => decide (Uses t a ∧ Uses t b)) := List.mem_filter.2 ⟨ht, by simpa using hu⟩
      rw [e4] at this
      cases this
    · intro hn
      have : ts.filter (fun t => decide (Uses t a ∧ Uses t b)) = [] := by
        rw [List.filter_eq_nil_iff]
        intro t ht hu
        exact hn ⟨t, ht, of_decide_eq_true hu⟩
      rw [this] at e4
      cases e4
      rfl
  have hmem : ∀ x ∈ xs, ∃ t ∈ ts, Uses t a ∧ Uses t b ∧ CondDepth t a b x := by
    intro x hx
    obtain ⟨i, hi⟩ := List.get_of_mem hx
    rw [List.forall₂_iff_get] at e4
    have hl : i.1 < (ts.filter (fun t => decide (Uses t a ∧ Uses t b))).length := by rw [e4.1]; exact i.2
    have hm := List.mem_filter.1 (List.get_mem (ts.filter (fun t => decide (Uses t a ∧ Uses t b))) ⟨i.1, hl⟩)
    have hu := of_decide_eq_true hm.2
    exact ⟨_, hm.1, hu.1, hu.2, by rw [← hi]; exact e4.2 i.1 hl i.2⟩
  have hocc : r.occ ≤ (ts.filter (fun t => decide (Uses t a ∧ Uses t b))).length := by
    rw [e6, occurrences, List.countP_eq_length_filter, ← List.countP_eq_length_filter, ← List.countP_eq_length_filter]
    apply List.countP_mono_left
    intro t _ ho
    simpa using occurs_uses (of_decide_eq_true ho)
  refine ⟨rows, r, e1, e3, ?_, ?_, ?_, by convert hocc, ?_⟩
  · rw [e5, ← hxs, meanNat]
    constructor
    · intro e
      by_contra hx
      rw [if_neg hx] at e
      cases e
    · intro hx
      rw [if_pos hx]
  · intro H hH hex
    have hne : xs ≠ [] := fun e => (hxs.1 e) hex
    rw [e5]
    refine mean_bounds ?_ hne
    intro x hx
    obtain ⟨t, ht, _, _, hcd⟩ := hmem x hx
    exact le_trans (condDepth_le_height hcd) (hH t ht)
  · intro hex
    have hne : xs ≠ [] := fun e => (hxs.1 e) hex
    rw [e5, meanNat, if_neg hne]
    have hl : (xs.length : K) ≠ 0 := Nat.cast_ne_zero.2 (fun e => hne (List.length_eq_zero_iff.1 e))
    rw [Num.fin.injEq, div_eq_zero_iff, or_iff_left hl, natSum_eq_zero]
    constructor
    · intro h0 t ht hua hub
      have hm : t ∈ ts.filter (fun t => decide (Uses t a ∧ Uses t b)) := List.mem_filter.2 ⟨ht, by simp [hua, hub]⟩
      obtain ⟨i, hi⟩ := List.get_of_mem hm
      rw [List.forall₂_iff_get] at e4
      have hl : i.1 < xs.length := by rw [← e4.1]; exact i.2
      have := e4.2 i.1 i.2 hl
      rw [h0 _ (List.get_mem xs ⟨i.1, hl⟩)] at this
      rw [← hi]
      exact condDepth_zero.1 this
    · intro hall x hx
      obtain ⟨t, ht, hua, hub, hcd⟩ := hmem x hx
      exact condDepth_unique hcd (condDepth_zero.2 (hall t ht hua hub))
  · refine le_trans hocc (le_trans (List.length_filter_le _ _) ?_)
    rw [h.trees.length_eq]

/-- **C96**, importance: every value is between 0 and the height of the highest tree minus 1; it is 0 exactly if every tree that
uses the feature splits on it at the root. -/
theorem C96_range_of_importance (E : CmdEnv F I K) (hE : SortsCmd E.sortOvo) (hI : SortsBy ImpRow.val true E.sortImp)
    {m : Forest F} {ts : List LTree} (h : NumberedForest m ts) (hts : ts ≠ []) (hc : m.columns ≠ []) (s0 : CmdMethod F K)
    (hu : ∃ t ∈ ts, ∃ f, Uses t f) : ∃ imp, (CmdMethod.fit E m s0).2.importance = some imp ∧
      ∀ r ∈ imp, ∀ a, m.columns[a]? = some r.f → ∃ x, r.val = .fin x ∧ 0 ≤ x ∧
        (∀ H : Nat, (∀ t ∈ ts, t.height ≤ H + 1) → x ≤ H) ∧ (x = 0 ↔ ∀ t ∈ ts, Uses t a → t.Splits a) := by
  classical
  obtain ⟨_, imp, c1, c2, c3, c4, _⟩ := (cmdImportance_any E hE hI h hts hc s0).used hu
  refine ⟨imp, c1, ?_⟩
  intro r hr a ha
  obtain ⟨ks, k1, k2⟩ := c4 r hr a ha
  have hmem : ∀ x ∈ ks, ∃ t ∈ ts, Uses t a ∧ MinDepth t a x := by
    intro x hx
    obtain ⟨i, hi⟩ := List.get_of_mem hx
    rw [List.forall₂_iff_get] at k1
    have hl : i.1 < (ts.filter (fun t => decide (Uses t a))).length := by rw [k1.1]; exact i.2
    have hm := List.mem_filter.1 (List.get_mem (ts.filter (fun t => decide (Uses t a))) ⟨i.1, hl⟩)
    exact ⟨_, hm.1, of_decide_eq_true hm.2, by rw [← hi]; exact k1.2 i.1 hl i.2⟩
  have hne : ks ≠ [] := by
    obtain ⟨i, hi, t, ht, hut⟩ := (c3 r.f).1 (List.mem_map_of_mem hr)
    have : i = a := by
      obtain ⟨i1, i2⟩ := List.getElem?_eq_some_iff.1 hi
      obtain ⟨j1, j2⟩ := List.getElem?_eq_some_iff.1 ha
      exact (List.Nodup.getElem_inj_iff h.names).1 (i2.trans j2.symm)
    subst this
    rintro rfl
    rw [List.forall₂_nil_right_iff] at k1
    have hm : t ∈ ts.filter (fun t => decide (Uses t i)) := List.mem_filter.2 ⟨ht, by simpa using hut⟩
    rw [k1] at hm
    cases hm
  have hbd : ∀ H : Nat, (∀ t ∈ ts, t.height ≤ H + 1) → ∀ x ∈ ks, x ≤ H := by
    intro H hH x hx
    obtain ⟨t, ht, _, s, hs, hsp, _⟩ := hmem x hx
    have h1 := at_height hs
    have h2 := splits_height hsp
    have := hH t ht
    omega
  obtain ⟨x, hx, hx0, _⟩ := mean_bounds (K := K) (xs := ks) (H := ks.sum) (fun x hx => List.le_sum_of_mem hx) hne
  refine ⟨x, k2.trans hx, hx0, ?_, ?_⟩
  · intro H hH
    obtain ⟨x', hx', _, h3⟩ := mean_bounds (K := K) (hbd H hH) hne
    rw [hx] at hx'
    rw [Num.fin.inj hx']; exact h3
  · rw [meanNat, if_neg hne] at hx
    rw [← Num.fin.inj hx]
    have hl : (ks.length : K) ≠ 0 := Nat.cast_ne_zero.2 (fun e => hne (List.length_eq_zero_iff.1 e))
    rw [div_eq_zero_iff, or_iff_left hl, natSum_eq_zero]
    constructor
    · intro h0 t ht hut
      have hm : t ∈ ts.filter (fun t => decide (Uses t a)) := List.mem_filter.2 ⟨ht, by simpa using hut⟩
      obtain ⟨i, hi⟩ := List.get_of_mem hm
      rw [List.forall₂_iff_get] at k1
      have hl : i.1 < ks.length := by rw [← k1.1]; exact i.2
      have := k1.2 i.1 i.2 hl
      rw [h0 _ (List.get_mem ks ⟨i.1, hl⟩)] at this
      obtain ⟨s, hs, hsp, _⟩ := this
      rw [at_zero hs, hi] at hsp
      exact hsp
    · intro hall x hx
      obtain ⟨t, ht, hut, s, hs, hsp, hmin⟩ := hmem x hx
      have := hmin 0 t (.here t) (hall t ht hut)
      omega

end Forests

/-! ### Concrete cases -/
section Cases

/-- all subtrees with their depths -/
def LTree.subs : LTree → List (Nat × LTree)
  | .leaf i => [(0, .leaf i)]
  | .node i f l r => (0, .node i f l r) :: ((LTree.subs l).map (fun e => (e.1 + 1, e.2)) ++ (LTree.subs r).map (fun e => (e.1 + 1, e.2)))

theorem at_iff_subs {t s : LTree} {k : Nat} : At t k s ↔ (k, s) ∈ LTree.subs t := by
  constructor
  · intro h
    induction h with
    | here t => cases t <;> simp [LTree.subs]
    | left _ ih => simp only [LTree.subs, List.mem_cons, List.mem_append, List.mem_map]; exact .inr (.inl ⟨_, ih, rfl⟩)
    | right _ ih => simp only [LTree.subs, List.mem_cons, List.mem_append, List.mem_map]; exact .inr (.inr ⟨_, ih, rfl⟩)
  · intro h
    induction t generalizing k with
    | leaf i =>
      simp only [LTree.subs, List.mem_singleton, Prod.mk.injEq] at h
      obtain ⟨rfl, rfl⟩ := h
      exact .here _
    | node i f l r ihl ihr =>
      simp only [LTree.subs, List.mem_cons, List.mem_append, List.mem_map] at h
      rcases h with h | ⟨⟨k', s'⟩, h, e⟩ | ⟨⟨k', s'⟩, h, e⟩
      · obtain ⟨rfl, rfl⟩ := Prod.mk.inj h
        exact .here _
      · obtain ⟨rfl, rfl⟩ := Prod.mk.inj e
        exact .left (ihl h)
      · obtain ⟨rfl, rfl⟩ := Prod.mk.inj e
        exact .right (ihr h)

/-- computed minimal depth -/
def minDepthB (t : LTree) (f : Nat) : Option Nat := (((LTree.subs t).filter (fun e => decide (e.2.Splits f))).map Prod.fst).min?

/-- computed depth of the nearest split below -/
def nearestB (s : LTree) (g : Nat) : Option Nat := (((LTree.subs s).filter (fun e => decide (0 < e.1) && decide (e.2.Splits g))).map Prod.fst).min?

/-- the shallowest splits -/
def shallowestB (t : LTree) (f : Nat) : List LTree :=
  ((LTree.subs t).filter (fun e => decide (e.2.Splits f) && decide (minDepthB t f = some e.1))).map Prod.snd

theorem nearest_iff_B {s : LTree} {g m : Nat} : NearestBelow s g m ↔ nearestB s g = some m := by
  unfold nearestB
  rw [List.min?_eq_some_iff]
  simp only [List.mem_map, List.mem_filter, Bool.and_eq_true, decide_eq_true_eq, Prod.exists, ← at_iff_subs]
  constructor
  · rintro ⟨a, ⟨w, b, c⟩, d⟩
    exact ⟨⟨m, w, ⟨b, a, c⟩, rfl⟩, by rintro x ⟨k, v, ⟨h1, h2, h3⟩, rfl⟩; exact d k v h2 h1 h3⟩
  · rintro ⟨⟨k, w, ⟨h1, h2, h3⟩, rfl⟩, d⟩
    exact ⟨h2, ⟨w, h1, h3⟩, fun m' v a b c => d m' ⟨m', v, ⟨b, a, c⟩, rfl⟩⟩

theorem shallowest_iff_B {t s : LTree} {f : Nat} : (∃ k, Shallowest t f k s) ↔ s ∈ shallowestB t f := by
  have hmin : ∀ k, minDepthB t f = some k ↔ (∃ s, At t k s ∧ s.Splits f) ∧ ∀ k' s', At t k' s' → s'.Splits f → k ≤ k' := by
    intro k
    unfold minDepthB
    rw [List.min?_eq_some_iff]
    simp only [List.mem_map, List.mem_filter, decide_eq_true_eq, Prod.exists, ← at_iff_subs]
    constructor
    · rintro ⟨⟨k, s, ⟨a, b⟩, rfl⟩, c⟩
      exact ⟨⟨s, a, b⟩, fun k' s' a b => c k' ⟨k', s', ⟨a, b⟩, rfl⟩⟩
    · rintro ⟨⟨s, a, b⟩, c⟩
      exact ⟨⟨k, s, ⟨a, b⟩, rfl⟩, by rintro x ⟨k, v, ⟨h1, h2⟩, rfl⟩; exact c k v h1 h2⟩
  unfold shallowestB
  simp only [List.mem_map, List.mem_filter, Bool.and_eq_true, decide_eq_true_eq, Prod.exists, ← at_iff_subs, hmin]
  constructor
  · rintro ⟨k, a, b, c⟩
    exact ⟨k, s, ⟨a, b, ⟨s, a, b⟩, c⟩, rfl⟩
  · rintro ⟨k, s', ⟨a, b, _, c⟩, rfl⟩
    exact ⟨k, a, b, c⟩

theorem occurs_iff_B {t : LTree} {f g : Nat} : OccursBelow t f g ↔ (shallowestB t f).any (fun s => (nearestB s g).isSome) = true := by
  rw [List.any_eq_true]
  constructor
  · rintro ⟨k, s, m, h1, h2⟩
    exact ⟨s, shallowest_iff_B.1 ⟨k, h1⟩, by rw [nearest_iff_B.1 h2]; rfl⟩
  · rintro ⟨s, h1, h2⟩
    obtain ⟨k, hk⟩ := shallowest_iff_B.2 h1
    obtain ⟨m, hm⟩ := Option.isSome_iff_exists.1 h2
    exact ⟨k, s, m, hk, nearest_iff_B.2 hm⟩

theorem between_iff_B {t : LTree} {f g x : Nat} :
    NodesBetween t f g x ↔ ((shallowestB t f).filterMap (fun s => nearestB s g)).min? = some (x + 1) := by
  rw [List.min?_eq_some_iff]
  simp only [List.mem_filterMap]
  constructor
  · rintro ⟨⟨k, s, a, b⟩, c⟩
    refine ⟨⟨s, shallowest_iff_B.1 ⟨k, a⟩, nearest_iff_B.1 b⟩, ?_⟩
    rintro m ⟨s', h1, h2⟩
    obtain ⟨k', hk⟩ := shallowest_iff_B.2 h1
    exact c k' s' m hk (nearest_iff_B.2 h2)
  · rintro ⟨⟨s, a, b⟩, c⟩
    obtain ⟨k, hk⟩ := shallowest_iff_B.2 a
    exact ⟨⟨k, s, hk, nearest_iff_B.2 b⟩, fun k' s' m h1 h2 => c m ⟨s', shallowest_iff_B.1 ⟨k', h1⟩, nearest_iff_B.1 h2⟩⟩

theorem always_iff_B {t : LTree} {f g : Nat} : AlwaysBelow t f g ↔ (shallowestB t f).all (fun s => (nearestB s g).isSome) = true := by
  rw [List.all_eq_true]
  constructor
  · intro h s hs
    obtain ⟨k, hk⟩ := shallowest_iff_B.2 hs
    obtain ⟨m, hm⟩ := h k s hk
    rw [nearest_iff_B.1 hm]; rfl
  · intro h k s hs
    obtain ⟨m, hm⟩ := Option.isSome_iff_exists.1 (h s (shallowest_iff_B.1 ⟨k, hs⟩))
    exact ⟨m, nearest_iff_B.2 hm⟩

theorem uses_iff_B {t : LTree} {f : Nat} : Uses t f ↔ (LTree.subs t).any (fun e => decide (e.2.Splits f)) = true := by
  simp only [Uses, List.any_eq_true, decide_eq_true_eq, Prod.exists, at_iff_subs]

/-- the columns a tree splits on -/
def splitCols : LTree → List Nat
  | .leaf _ => []
  | .node _ f l r => f :: (splitCols l ++ splitCols r)

theorem uses_splitCols {t : LTree} {f : Nat} (h : Uses t f) : f ∈ splitCols t := by
  obtain ⟨k, s, h1, h2⟩ := h
  induction h1 with
  | here t => cases t with
    | leaf => cases h2
    | node i g l r => simp only [LTree.Splits] at h2; subst h2; simp [splitCols]
  | left _ ih => simp [splitCols, ih h2]
  | right _ ih => simp [splitCols, ih h2]

theorem forestOf_one {F : Type} {cols : List F} {A : SkTree} {t : LTree} (hc : cols.Nodup) (h : TreeArray A t) (hd : DepthFirst t)
    (hu : ∀ f ∈ splitCols t, f < cols.length) : ForestOf ⟨cols, [A]⟩ [t] := by
  refine ⟨hc, .cons ⟨h, hd⟩ .nil, ?_⟩
  intro t' ht f hf
  rw [List.mem_singleton.1 ht] at hf
  exact hu f (uses_splitCols hf)

/-! #### C92 -/

/-- the forest of `exForest` with its two trees exchanged, each taken twice, and its columns in another order under other names -/
def exMixed : Forest (List Nat) := ⟨[[120], [121], [122]],
  [[⟨1, 2, 0⟩, ⟨-1, -1, -2⟩, ⟨-1, -1, -2⟩], exMixedA, exMixedA, [⟨1, 2, 0⟩, ⟨-1, -1, -2⟩, ⟨-1, -1, -2⟩]]⟩
where exMixedA : SkTree := [⟨1, 4, 1⟩, ⟨2, 3, 0⟩, ⟨-1, -1, -2⟩, ⟨-1, -1, -2⟩, ⟨5, 8, 0⟩, ⟨6, 7, 2⟩, ⟨-1, -1, -2⟩,
  ⟨-1, -1, -2⟩, ⟨-1, -1, -2⟩]

/-- columns 0 and 1 exchanged -/
def exSigma (n : Nat) : Nat := if n = 0 then 1 else if n = 1 then 0 else n

/-- other names -/
def exRho (f : List Nat) : List Nat := if f = [97] then [121] else if f = [97, 98] then [120] else [122]

/-- the trees of `exMixed` -/
def exMixedT : LTree := .node 0 1 (.node 1 0 (.leaf 2) (.leaf 3)) (.node 4 0 (.node 5 2 (.leaf 6) (.leaf 7)) (.leaf 8))
/-- the trees of `exMixed` -/
def exMixedT2 : LTree := .node 0 0 (.leaf 1) (.leaf 2)

theorem exMixed_of : ForestOf exMixed [exMixedT2, exMixedT, exMixedT, exMixedT2] := by
  have a : TreeArray exMixed.exMixedA exMixedT ∧ DepthFirst exMixedT := by
    refine ⟨⟨rfl, ?_, List.Perm.refl _⟩, rfl⟩
    simp [exMixedT, exMixed.exMixedA, LTree.Stores, LTree.id]
  have b : TreeArray [⟨1, 2, 0⟩, ⟨-1, -1, -2⟩, ⟨-1, -1, -2⟩] exMixedT2 ∧ DepthFirst exMixedT2 := by
    refine ⟨⟨rfl, ?_, List.Perm.refl _⟩, rfl⟩
    simp [exMixedT2, LTree.Stores, LTree.id]
  refine ⟨by decide, .cons b (.cons a (.cons a (.cons b .nil))), ?_⟩
  intro t ht f hf
  have h1 : ∀ f ∈ splitCols exMixedT, f < 3 := by decide
  have h2 : ∀ f ∈ splitCols exMixedT2, f < 3 := by decide
  simp only [List.mem_cons, List.not_mem_nil, or_false] at ht
  rcases ht with rfl | rfl | rfl | rfl
  · exact h2 f (uses_splitCols hf)
  · exact h1 f (uses_splitCols hf)
  · exact h1 f (uses_splitCols hf)
  · exact h2 f (uses_splitCols hf)

example : ∃ rows rows', (CmdMethod.fit (exCmdEnv ℚ) exForest CmdMethod.new).2.ovo = some rows ∧
    (CmdMethod.fit (exCmdEnv ℚ) exMixed CmdMethod.new).2.ovo = some rows' ∧
    rows'.Perm (rows.map (fun r => ⟨exRho r.root, exRho r.var, r.val, 2 * r.occ⟩)) := by
  refine (C92_order_of_trees_and_columns (σ := exSigma) ?_ (n := 2) (by omega) (exCmdEnv ℚ) sortsCmd_cmdSort (sortsBy_stableSort _ _)
    (exCmdEnv ℚ) sortsCmd_cmdSort (sortsBy_stableSort _ _) exForest_of exMixed_of (by simp) (by simp [exForest]) ?_ ?_
    CmdMethod.new CmdMethod.new).2.1
  · intro a b h
    unfold exSigma at h
    split_ifs at h <;> omega
  · refine ⟨[exMixedT, exMixedT2], .cons ?_ (.cons ?_ .nil), ?_⟩
    · exact .node _ _ 0 (.node _ _ 1 (.leaf _ _) (.leaf _ _)) (.node _ _ 1 (.node _ _ 2 (.leaf _ _) (.leaf _ _)) (.leaf _ _))
    · exact .node _ _ 1 (.leaf _ _) (.leaf _ _)
    · exact (List.Perm.swap exMixedT exMixedT2 [exMixedT, exMixedT2])
  · refine ⟨?_, ?_⟩
    · exact List.Perm.swap _ _ _
    · intro a f h
      match a with
      | 0 => cases h; rfl
      | 1 => cases h; rfl
      | 2 => cases h; rfl
      | a + 3 => cases h

/-! #### C93 -/

/-- root splits on 2; left a split on 0 with two leaves, right a split on 0, below it two splits on 2, then one on 1 -/
def exDeep : LTree := .node 0 2 (.node 1 0 (.leaf 2) (.leaf 3))
  (.node 4 0 (.node 5 2 (.node 6 2 (.node 7 1 (.leaf 8) (.leaf 9)) (.leaf 10)) (.leaf 11)) (.leaf 12))

/-- as stored -/
def exDeepA : SkTree := [⟨1, 4, 2⟩, ⟨2, 3, 0⟩, ⟨-1, -1, -2⟩, ⟨-1, -1, -2⟩, ⟨5, 12, 0⟩, ⟨6, 11, 2⟩, ⟨7, 10, 2⟩, ⟨8, 9, 1⟩,
  ⟨-1, -1, -2⟩, ⟨-1, -1, -2⟩, ⟨-1, -1, -2⟩, ⟨-1, -1, -2⟩, ⟨-1, -1, -2⟩]

theorem exDeep_of : ForestOf (⟨[[97], [98], [99]], [exDeepA]⟩ : Forest (List Nat)) [exDeep] := by
  refine forestOf_one (by decide) ⟨rfl, ?_, List.Perm.refl _⟩ rfl (by decide)
  simp [exDeep, exDeepA, LTree.Stores, LTree.id]

/-- **C93** disagrees. In a forest of one tree there are two nodes between the only shallowest split on "a" that has a split on
"b" below it and that split; the table says 1, the depth of the last leaf below the other shallowest split on "a". -/
theorem C93_last_node_counts : ∃ (m : Forest (List Nat)) (t : LTree) (rows : List (CmdRow (List Nat) ℚ)), ForestOf m [t] ∧
    m.columns = [[97], [98], [99]] ∧ OccursBelow t 0 1 ∧ NodesBetween t 0 1 2 ∧
    (CmdMethod.fit (exCmdEnv ℚ) m CmdMethod.new).2.ovo = some rows ∧
    rows.filter (fun r => decide (r.root = [97] ∧ r.var = [98])) = [⟨[97], [98], .fin 1, 1⟩] := by
  obtain ⟨rows, e1, e2⟩ := cmdTable_of_fit (exCmdEnv ℚ) sortsCmd_cmdSort exDeep_of (by simp) (by simp) CmdMethod.new
  refine ⟨_, exDeep, rows, exDeep_of, rfl, occurs_iff_B.2 (by decide +kernel), between_iff_B.2 (by decide +kernel), e1, ?_⟩
  obtain ⟨r, q1, _, _⟩ := e2.row 0 1 [97] [98] rfl rfl (by decide)
  have h : ((CmdMethod.fit (exCmdEnv ℚ) ⟨[[97], [98], [99]], [exDeepA]⟩ CmdMethod.new).2.ovo.map
      (fun rows => (rows.filter (fun r => decide (r.root = [97] ∧ r.var = [98]))).map (fun r => (r.root, r.var, r.val, r.occ)))) =
      some [([97], [98], .fin 1, 1)] := by decide +kernel
  rw [e1] at h
  simp only [Option.map_some, q1, List.map_cons, List.map_nil] at h
  rw [q1]
  cases r
  simp only [Option.some.injEq, List.cons.injEq, Prod.mk.injEq, and_true] at h
  obtain ⟨rfl, rfl, rfl, rfl⟩ := h
  rfl

/-- the first hypothesis of C93 holds for the pair ("a", "ab") of `exForest` -/
example : ∀ t ∈ [exTree, exTree2], Uses t 0 → Uses t 1 → AlwaysBelow t 0 1 := by
  intro t ht _ _
  simp only [List.mem_cons, List.not_mem_nil, or_false] at ht
  rcases ht with rfl | rfl
  · exact always_iff_B.2 (by decide +kernel)
  · exact always_iff_B.2 (by decide +kernel)

/-! #### C94 -/

/-- root splits on 1, its left child on 0, its left child on 2 -/
def exLeft : LTree := .node 0 1 (.node 1 0 (.node 2 2 (.leaf 3) (.leaf 4)) (.leaf 5)) (.leaf 6)
/-- as stored -/
def exLeftA : SkTree := [⟨1, 6, 1⟩, ⟨2, 5, 0⟩, ⟨3, 4, 2⟩, ⟨-1, -1, -2⟩, ⟨-1, -1, -2⟩, ⟨-1, -1, -2⟩, ⟨-1, -1, -2⟩]
/-- the same with left and right exchanged at the split on 0 -/
def exRight : LTree := .node 0 1 (.node 1 0 (.leaf 2) (.node 3 2 (.leaf 4) (.leaf 5))) (.leaf 6)
/-- as stored -/
def exRightA : SkTree := [⟨1, 6, 1⟩, ⟨2, 3, 0⟩, ⟨-1, -1, -2⟩, ⟨4, 5, 2⟩, ⟨-1, -1, -2⟩, ⟨-1, -1, -2⟩, ⟨-1, -1, -2⟩]

theorem exLeft_of : ForestOf (⟨[[97], [98], [99]], [exLeftA]⟩ : Forest (List Nat)) [exLeft] := by
  refine forestOf_one (by decide) ⟨rfl, ?_, List.Perm.refl _⟩ rfl (by decide)
  simp [exLeft, exLeftA, LTree.Stores, LTree.id]

theorem exRight_of : ForestOf (⟨[[97], [98], [99]], [exRightA]⟩ : Forest (List Nat)) [exRight] := by
  refine forestOf_one (by decide) ⟨rfl, ?_, List.Perm.refl _⟩ rfl (by decide)
  simp [exRight, exRightA, LTree.Stores, LTree.id]

theorem exLeft_right : SameTrees true id 1 [exLeft] [exRight] := by
  refine ⟨[exRight], .cons ?_ .nil, List.Perm.refl _⟩
  exact .node _ _ 1 (.swapped _ _ 0 rfl (.node _ _ 2 (.leaf _ _) (.leaf _ _)) (.leaf _ _)) (.leaf _ _)

/-- **C94** disagrees: two forests of one tree each, mirror images of each other at one node; the value of ("a", "b") is 1 in
one and 2 in the other. -/
theorem C94_mirrored_value_differs : ∃ (m m' : Forest (List Nat)) (t t' : LTree), ForestOf m [t] ∧ ForestOf m' [t'] ∧
    m'.columns = m.columns ∧ SameTrees true id 1 [t] [t'] ∧
    ((CmdMethod.fit (exCmdEnv ℚ) m CmdMethod.new).2.ovo.map (fun rows =>
      (rows.filter (fun r => decide (r.root = [97] ∧ r.var = [98]))).map CmdRow.val)) = some [.fin 1] ∧
    ((CmdMethod.fit (exCmdEnv ℚ) m' CmdMethod.new).2.ovo.map (fun rows =>
      (rows.filter (fun r => decide (r.root = [97] ∧ r.var = [98]))).map CmdRow.val)) = some [.fin 2] :=
  ⟨_, _, exLeft, exRight, exLeft_of, exRight_of, rfl, exLeft_right, by decide +kernel, by decide +kernel⟩

theorem sameColumns_id {F : Type} (cols : List F) : SameColumns id id cols cols :=
  ⟨by rw [List.map_id], fun a f h => h⟩

example : (CmdMethod.fit (exCmdEnv ℚ) ⟨[[97], [98], [99]], [exRightA]⟩ CmdMethod.new).1 =
    (CmdMethod.fit (exCmdEnv ℚ) ⟨[[97], [98], [99]], [exLeftA]⟩ CmdMethod.new).1 :=
  (C94_mirrored_trees_partial (σ := id) Function.injective_id (n := 1) (by omega) (ρ := id) (exCmdEnv ℚ) sortsCmd_cmdSort (sortsBy_stableSort _ _)
    (exCmdEnv ℚ) sortsCmd_cmdSort (sortsBy_stableSort _ _) exLeft_of exRight_of (by simp) (by simp) exLeft_right (sameColumns_id _)
    CmdMethod.new CmdMethod.new).1

/-! #### C95 -/

/-- a tree grown best-first: the root is split, then node 1, then node 3, then node 2 -/
def exBest : LTree := .node 0 0 (.node 1 1 (.node 3 3 (.leaf 5) (.leaf 6)) (.leaf 4)) (.node 2 2 (.leaf 7) (.leaf 8))
/-- as stored -/
def exBestA : SkTree := [⟨1, 2, 0⟩, ⟨3, 4, 1⟩, ⟨7, 8, 2⟩, ⟨5, 6, 3⟩, ⟨-1, -1, -2⟩, ⟨-1, -1, -2⟩, ⟨-1, -1, -2⟩, ⟨-1, -1, -2⟩, ⟨-1, -1, -2⟩]

theorem exBest_of : NumberedForest (⟨[[97], [98], [99], [100]], [exBestA]⟩ : Forest (List Nat)) [exBest] := by
  refine ⟨by decide, .cons ⟨rfl, ?_, by decide⟩ .nil, ?_⟩
  · simp [exBest, exBestA, LTree.Stores, LTree.id]
  · intro t ht f hf
    rw [List.mem_singleton.1 ht] at hf
    have : ∀ f ∈ splitCols exBest, f < 4 := by decide
    exact this f (uses_splitCols hf)

/-- **C95** disagrees for pairs. In a forest of one tree numbered best-first, "d" is split on directly below the only split on
"b" and not below the only split on "c"; the table counts no occurrence for ("b", "d") and one, with value 0, for ("c", "d"). -/
theorem C95_best_first_forest_misread : ∃ (m : Forest (List Nat)) (t : LTree), NumberedForest m [t] ∧ BestFirst t ∧
    m.columns = [[97], [98], [99], [100]] ∧ OccursBelow t 1 3 ∧ ¬ OccursBelow t 2 3 ∧
    ((CmdMethod.fit (exCmdEnv ℚ) m CmdMethod.new).2.ovo.map (fun rows =>
      (rows.filter (fun r => decide (r.root = [98] ∧ r.var = [100]))).map (fun r => r.occ))) = some [0] ∧
    ((CmdMethod.fit (exCmdEnv ℚ) m CmdMethod.new).2.ovo.map (fun rows =>
      (rows.filter (fun r => decide (r.root = [99] ∧ r.var = [100]))).map (fun r => (r.val, r.occ)))) = some [(.fin 0, 1)] := by
  refine ⟨_, exBest, exBest_of, ?_, rfl, occurs_iff_B.2 (by decide +kernel), ?_, by decide +kernel, by decide +kernel⟩
  · simp [BestFirst, exBest, LTree.id]
  · rw [occurs_iff_B]; decide +kernel

example : (CmdMethod.fit (exCmdEnv ℚ) ⟨[[97], [98], [99], [100]], [exBestA]⟩ CmdMethod.new).1 = .ok () :=
  ((C95_importance_for_any_numbering_partial (exCmdEnv ℚ) sortsCmd_cmdSort (sortsBy_stableSort _ _) exBest_of (by simp) (by simp)
    CmdMethod.new).1 ⟨exBest, by simp, 0, 0, _, .here _, rfl⟩).1

/-! #### C96 -/

example : ∃ rows r, (CmdMethod.fit (exCmdEnv ℚ) exForest CmdMethod.new).2.ovo = some rows ∧
    rows.filter (fun r => decide (r.root = [97] ∧ r.var = [97, 98])) = [r] ∧ r.val = .fin 0 := by
  obtain ⟨rows, r, h1, h2, _, _, h5, _⟩ := C96_range_of_values (exCmdEnv ℚ) sortsCmd_cmdSort exForest_of (by simp) (by simp [exForest])
    CmdMethod.new (a := 0) (b := 1) (f := [97]) (g := [97, 98]) rfl rfl (by decide)
  refine ⟨rows, r, h1, h2, (h5 ⟨exTree, by simp, uses_exTree.2 (by omega), uses_exTree.2 (by omega)⟩).2 ?_⟩
  intro t ht h0 _
  simp only [List.mem_cons, List.not_mem_nil, or_false] at ht
  rcases ht with rfl | rfl
  · exact ⟨0, _, _, ⟨.here _, rfl, fun _ _ _ _ => Nat.zero_le _⟩, .left (.here _), rfl⟩
  · exact absurd (uses_exTree2 h0) (by decide)

end Cases
end Artemis
