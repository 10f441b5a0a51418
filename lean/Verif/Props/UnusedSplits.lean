import Verif.Props.Forests

/-!
# C176: columns that no tree uses do not matter for conditional minimal depth
-/

set_option linter.unusedSectionVars false
set_option linter.unusedVariables false
set_option linter.unusedSimpArgs false

namespace Artemis
open Spec

/-- the columns of a renamed tree -/
theorem splitCols_same {σ : Nat → Nat} {t t' : LTree} (h : SameTree false σ t t') : splitCols t' = (splitCols t).map σ := by
  induction h with
  | leaf => rfl
  | node i j f _ _ h1 h2 => simp [splitCols, h1, h2]
  | swapped _ _ _ h => cases h

theorem SameTree.uses_inv {σ : Nat → Nat} (hσ : Function.Injective σ) {t t' : LTree} (h : SameTree false σ t t') {c : Nat} (hu : Uses t' c) :
    ∃ a, σ a = c ∧ Uses t a := by
  have := uses_splitCols hu
  rw [splitCols_same h] at this
  obtain ⟨a, _, rfl⟩ := List.mem_map.1 this
  exact ⟨a, rfl, (h.uses hσ a).1 hu⟩

section
variable {F I K : Type} [DecidableEq F] [Field K] [LinearOrder K] [IsStrictOrderedRing K]

open Classical in
theorem meanCondDepth_unused {ts : List LTree} {a b : Nat} {v : Num K} (h : IsMeanCondDepth ts a b v)
    (hno : ∀ t ∈ ts, ¬ (Uses t a ∧ Uses t b)) : v = .nan := by
  obtain ⟨xs, h1, rfl⟩ := h
  rw [List.filter_eq_nil_iff.2 (fun t ht => by simpa using hno t ht)] at h1
  cases h1
  rfl

/-- **C176.** A forest on more columns, with the same trees: the columns may be anywhere among the old ones (`σ` says where the old ones
are), no tree splits on a new one. `fit` returns or raises alike; the rows about old columns are the same rows; a row about a new column has
no value and no occurrences; the importance table is the same. -/
theorem C176_columns_no_tree_uses {σ : Nat → Nat} (hσ : Function.Injective σ) (E : CmdEnv F I K) (hE : SortsCmd E.sortOvo)
    (hI : SortsBy ImpRow.val true E.sortImp) {m m' : Forest F} {ts ts' : List LTree} (h : ForestOf m ts) (h' : ForestOf m' ts')
    (hts : ts ≠ []) (hc : m.columns ≠ []) (hs : SameTrees false σ 1 ts ts')
    (hcol : ∀ a f, m.columns[a]? = some f → m'.columns[σ a]? = some f) (s0 s0' : CmdMethod F K) :
    (CmdMethod.fit E m' s0').1 = (CmdMethod.fit E m s0).1 ∧
    (∃ rows rows', (CmdMethod.fit E m s0).2.ovo = some rows ∧ (CmdMethod.fit E m' s0').2.ovo = some rows' ∧
      (rows'.filter (fun r => decide (r.root ∈ m.columns ∧ r.var ∈ m.columns))).Perm rows ∧
      ∀ r ∈ rows', (r.root ∉ m.columns ∨ r.var ∉ m.columns) → r.val = .nan ∧ r.occ = 0) ∧
    ∀ imp, (CmdMethod.fit E m s0).1 = .ok () → (CmdMethod.fit E m s0).2.importance = some imp →
      ∃ imp', (CmdMethod.fit E m' s0').2.importance = some imp' ∧ imp'.Perm imp := by
  have hc' : m'.columns ≠ [] := by
    intro e
    obtain ⟨f, hf⟩ := List.exists_mem_of_ne_nil _ hc
    obtain ⟨a, ha⟩ := List.getElem?_of_mem hf
    have := hcol a f ha
    rw [e] at this; simp at this
  have hts' := sameTrees_ne Nat.one_pos hs hts
  obtain ⟨m1, m2⟩ := sameTrees_mem Nat.one_pos hs
  -- where an old name is among the new columns
  have hpos : ∀ {c f}, m'.columns[c]? = some f → f ∈ m.columns → ∃ a, σ a = c ∧ m.columns[a]? = some f := by
    intro c f hcf hf
    obtain ⟨a, ha⟩ := List.getElem?_of_mem hf
    have h1 := hcol a f ha
    have hlt := (List.getElem?_eq_some_iff.1 hcf).1
    have := (List.getElem?_inj hlt h'.names).1 (hcf.trans h1.symm)
    exact ⟨a, this.symm, ha⟩
  -- a column in use is an old one
  have hold : ∀ {c f}, m'.columns[c]? = some f → (∃ t ∈ ts', Uses t c) → f ∈ m.columns := by
    rintro c f hcf ⟨t', ht', hu⟩
    obtain ⟨t, ht, hst⟩ := m2 t' ht'
    obtain ⟨a, rfl, hu'⟩ := SameTree.uses_inv hσ hst hu
    have hlt := h.cols t ht a hu'
    have := hcol a _ (List.getElem?_eq_getElem hlt)
    rw [hcf] at this
    rw [Option.some.inj this]
    exact List.getElem_mem hlt
  have huse : ∀ f, (∃ t ∈ ts', Uses t (σ f)) ↔ ∃ t ∈ ts, Uses t f := by
    intro f
    constructor
    · rintro ⟨t', ht', hu⟩
      obtain ⟨t, ht, hst⟩ := m2 t' ht'
      exact ⟨t, ht, (hst.uses hσ f).1 hu⟩
    · rintro ⟨t, ht, hu⟩
      obtain ⟨t', ht', hst⟩ := m1 t ht
      exact ⟨t', ht', (hst.uses hσ f).2 hu⟩
  have hany : (∃ t ∈ ts', ∃ f, Uses t f) ↔ ∃ t ∈ ts, ∃ f, Uses t f := by
    constructor
    · rintro ⟨t', ht', f', hu⟩
      obtain ⟨t, ht, hst⟩ := m2 t' ht'
      obtain ⟨a, _, hu'⟩ := SameTree.uses_inv hσ hst hu
      exact ⟨t, ht, a, hu'⟩
    · rintro ⟨t, ht, f, hu⟩
      obtain ⟨t', ht', hu'⟩ := (huse f).2 ⟨t, ht, hu⟩
      exact ⟨t', ht', _, hu'⟩
  have c := cmdImportance_any E hE hI (ForestOf.numbered h) hts hc s0
  have c' := cmdImportance_any E hE hI (ForestOf.numbered h') hts' hc' s0'
  obtain ⟨rows, e1, e2⟩ := cmdTable_of_fit E hE h hts hc s0
  obtain ⟨rows', e1', e2'⟩ := cmdTable_of_fit E hE h' hts' hc' s0'
  have htab : ∃ rows rows', (CmdMethod.fit E m s0).2.ovo = some rows ∧ (CmdMethod.fit E m' s0').2.ovo = some rows' ∧
      (rows'.filter (fun r => decide (r.root ∈ m.columns ∧ r.var ∈ m.columns))).Perm rows ∧
      ∀ r ∈ rows', (r.root ∉ m.columns ∨ r.var ∉ m.columns) → r.val = .nan ∧ r.occ = 0 := by
    refine ⟨rows, rows', e1, e1', ?_, ?_⟩
    · rw [List.perm_ext_iff_of_nodup ((List.Nodup.of_map _ e2'.nodup).filter _) (List.Nodup.of_map _ e2.nodup)]
      -- a row about old columns agrees with the row of the other table
      have agree : ∀ r ∈ rows, ∀ r' ∈ rows', r'.root = r.root → r'.var = r.var → r' = r := by
        intro r hr r' hr' h1 h2
        obtain ⟨a, b, ha, hb, hv, ho⟩ := e2.of_mem h.names hr
        obtain ⟨p, q, hp, hq, hv', ho'⟩ := e2'.of_mem h'.names hr'
        rw [h1] at hp
        rw [h2] at hq
        have ep := (List.getElem?_inj (List.getElem?_eq_some_iff.1 hp).1 h'.names).1 (hp.trans (hcol a _ ha).symm)
        have eq := (List.getElem?_inj (List.getElem?_eq_some_iff.1 hq).1 h'.names).1 (hq.trans (hcol b _ hb).symm)
        subst ep eq
        have w := meanCondDepth_same hσ Nat.one_pos hs (.inl rfl) hv hv'
        have o := occurrences_same hσ hs a b
        rw [Nat.one_mul, ← ho', ← ho] at o
        cases r; cases r'
        simp only at h1 h2 w o
        subst h1 h2 w o
        rfl
      intro r
      constructor
      · intro hr
        obtain ⟨hr', hm⟩ := List.mem_filter.1 hr
        obtain ⟨hm1, hm2⟩ := of_decide_eq_true hm
        obtain ⟨a, ha⟩ := List.getElem?_of_mem hm1
        obtain ⟨b, hb⟩ := List.getElem?_of_mem hm2
        obtain ⟨r0, hr0, q1, q2, _⟩ := e2.exists_row ha hb (e2'.names r hr').2.2
        rw [agree r0 hr0 r hr' q1.symm q2.symm]
        exact hr0
      · intro hr
        obtain ⟨n1, n2, n3⟩ := e2.names r hr
        obtain ⟨a, ha⟩ := List.getElem?_of_mem n1
        obtain ⟨b, hb⟩ := List.getElem?_of_mem n2
        obtain ⟨r', hr', q1, q2, _⟩ := e2'.exists_row (hcol a _ ha) (hcol b _ hb) n3
        rw [← agree r hr r' hr' q1 q2]
        exact List.mem_filter.2 ⟨hr', by rw [q1, q2]; exact decide_eq_true ⟨n1, n2⟩⟩
    · intro r hr hnew
      obtain ⟨p, q, hp, hq, hv, ho⟩ := e2'.of_mem h'.names hr
      have hno : ∀ t ∈ ts', ¬ (Uses t p ∧ Uses t q) := by
        rintro t ht ⟨u1, u2⟩
        rcases hnew with hn | hn
        · exact hn (hold hp ⟨t, ht, u1⟩)
        · exact hn (hold hq ⟨t, ht, u2⟩)
      refine ⟨meanCondDepth_unused hv hno, ?_⟩
      rw [ho]
      classical
      unfold occurrences
      rw [List.countP_eq_zero]
      intro t ht hb
      obtain ⟨k, s, n, ⟨h1, h2, _⟩, h3⟩ := of_decide_eq_true hb
      obtain ⟨_, ⟨w, h4, h5⟩, _⟩ := h3
      exact hno t ht ⟨⟨k, s, h1, h2⟩, ⟨_, w, at_trans h1 h4, h5⟩⟩
  by_cases hu : ∃ t ∈ ts, ∃ f, Uses t f
  · obtain ⟨r1, imp, r2, r3, r4, r5, _⟩ := c.used hu
    obtain ⟨r1', imp', r2', r3', r4', r5', _⟩ := c'.used (hany.2 hu)
    refine ⟨r1'.trans r1.symm, htab, ?_⟩
    intro imp0 _ e
    rw [r2] at e
    obtain rfl := Option.some.inj e
    refine ⟨imp', r2', ?_⟩
    have key : ∀ r ∈ imp, ∀ r' ∈ imp', r'.f = r.f → r' = r := by
      intro r hr r' hr' e
      obtain ⟨i, hi, _⟩ := (r4 r.f).1 (List.mem_map_of_mem hr)
      have := meanMinDepth_same hσ Nat.one_pos hs (r5 r hr i hi) (r5' r' hr' (σ i) (by rw [e]; exact hcol i _ hi))
      cases r; cases r'
      simp only at e this
      rw [e, this]
    rw [List.perm_ext_iff_of_nodup (List.Nodup.of_map _ r3') (List.Nodup.of_map _ r3)]
    intro r'
    constructor
    · intro hr'
      obtain ⟨i', hi', hu'⟩ := (r4' r'.f).1 (List.mem_map_of_mem hr')
      obtain ⟨i, rfl, hi⟩ := hpos hi' (hold hi' hu')
      obtain ⟨r, hr, e⟩ := List.mem_map.1 ((r4 r'.f).2 ⟨i, hi, (huse i).1 hu'⟩)
      rw [key r hr r' hr' e.symm]
      exact hr
    · intro hr
      obtain ⟨i, hi, hui⟩ := (r4 r'.f).1 (List.mem_map_of_mem hr)
      obtain ⟨r, hr', e⟩ := List.mem_map.1 ((r4' r'.f).2 ⟨σ i, hcol i _ hi, (huse i).2 hui⟩)
      rw [← key r' hr r hr' e]
      exact hr'
  · obtain ⟨r1, _⟩ := c.unused hu
    obtain ⟨r1', _⟩ := c'.unused (fun hh => hu (hany.1 hh))
    refine ⟨r1'.trans r1.symm, htab, ?_⟩
    intro imp e
    rw [r1] at e
    cases e

end

section Cases

/-- `exForest` with a new first column "x" that no tree uses -/
def exWider : Forest (List Nat) := ⟨[[120], [97], [97, 98], [98]],
  [[⟨1, 4, 1⟩, ⟨2, 3, 2⟩, ⟨-1, -1, -2⟩, ⟨-1, -1, -2⟩, ⟨5, 8, 2⟩, ⟨6, 7, 3⟩, ⟨-1, -1, -2⟩, ⟨-1, -1, -2⟩, ⟨-1, -1, -2⟩],
   [⟨1, 2, 2⟩, ⟨-1, -1, -2⟩, ⟨-1, -1, -2⟩]]⟩

/-- its trees -/
def exWiderT : LTree := .node 0 1 (.node 1 2 (.leaf 2) (.leaf 3)) (.node 4 2 (.node 5 3 (.leaf 6) (.leaf 7)) (.leaf 8))
/-- its trees -/
def exWiderT2 : LTree := .node 0 2 (.leaf 1) (.leaf 2)

theorem exWider_of : ForestOf exWider [exWiderT, exWiderT2] := by
  refine ⟨by decide, .cons ⟨⟨rfl, ?_, List.Perm.refl _⟩, rfl⟩ (.cons ⟨⟨rfl, ?_, List.Perm.refl _⟩, rfl⟩ .nil), ?_⟩
  · simp [exWiderT, LTree.Stores, LTree.id]
  · simp [exWiderT2, LTree.Stores, LTree.id]
  · have h1 : ∀ f ∈ splitCols exWiderT, f < 4 := by decide
    have h2 : ∀ f ∈ splitCols exWiderT2, f < 4 := by decide
    intro t ht f hf
    simp only [List.mem_cons, List.not_mem_nil, or_false] at ht
    rcases ht with rfl | rfl
    · exact h1 f (uses_splitCols hf)
    · exact h2 f (uses_splitCols hf)

theorem exWider_same : SameTrees false Nat.succ 1 [exTree, exTree2] [exWiderT, exWiderT2] :=
  ⟨[exWiderT, exWiderT2], .cons
    (.node _ _ 0 (.node _ _ 1 (.leaf _ _) (.leaf _ _)) (.node _ _ 1 (.node _ _ 2 (.leaf _ _) (.leaf _ _)) (.leaf _ _)))
    (.cons (.node _ _ 1 (.leaf _ _) (.leaf _ _)) .nil), List.Perm.refl _⟩

example : ∃ rows rows', (CmdMethod.fit (exCmdEnv ℚ) exForest CmdMethod.new).2.ovo = some rows ∧
    (CmdMethod.fit (exCmdEnv ℚ) exWider CmdMethod.new).2.ovo = some rows' ∧ (∀ r ∈ rows, r ∈ rows') ∧
    ∀ r ∈ rows', (r.root ∉ exForest.columns ∨ r.var ∉ exForest.columns) → r.val = .nan ∧ r.occ = 0 := by
  obtain ⟨rows, rows', h1, h2, h3, h4⟩ := (C176_columns_no_tree_uses (σ := Nat.succ) Nat.succ_injective (exCmdEnv ℚ) sortsCmd_cmdSort
    (sortsBy_stableSort _ _) exForest_of exWider_of (by simp) (by simp [exForest]) exWider_same (fun a f h => h) CmdMethod.new CmdMethod.new).2.1
  exact ⟨rows, rows', h1, h2, fun r hr => (List.mem_filter.1 (h3.mem_iff.2 hr)).1, h4⟩

end Cases
end Artemis
