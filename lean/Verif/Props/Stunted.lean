import Verif.Props.Forests

/-!
# C177: trees without a split do not matter for conditional minimal depth
-/

set_option linter.unusedSectionVars false
set_option linter.unusedVariables false
set_option linter.unusedSimpArgs false

namespace Artemis
open Spec

namespace Spec

/-- The tree is not just a leaf. -/
def LTree.grew : LTree → Bool
  | .leaf _ => false
  | .node _ _ _ _ => true

end Spec

theorem uses_grew {t : LTree} {f : Nat} (h : Uses t f) : t.grew = true := by
  cases t with
  | leaf i =>
    obtain ⟨k, s, h1, h2⟩ := h
    cases h1
    cases h2
  | node => rfl

theorem filter_grew {ts : List LTree} {p : LTree → Bool} (h : ∀ t, p t = true → t.grew = true) :
    (ts.filter LTree.grew).filter p = ts.filter p := by
  rw [List.filter_filter]
  apply List.filter_congr
  intro t _
  cases hp : p t with
  | false => rfl
  | true => rw [h t hp]; rfl

theorem exists_grown {ts : List LTree} {p : LTree → Prop} (h : ∀ t, p t → t.grew = true) :
    (∃ t ∈ ts.filter LTree.grew, p t) ↔ ∃ t ∈ ts, p t := by
  constructor
  · rintro ⟨t, ht, hp⟩
    exact ⟨t, (List.mem_filter.1 ht).1, hp⟩
  · rintro ⟨t, ht, hp⟩
    exact ⟨t, List.mem_filter.2 ⟨ht, h t hp⟩, hp⟩

section
variable {F F' I I' K : Type} [DecidableEq F] [DecidableEq F'] [Field K] [LinearOrder K] [IsStrictOrderedRing K]

open Classical in
theorem condDepth_grown {ts : List LTree} {a b : Nat} {v : Num K} (h : IsMeanCondDepth ts a b v) :
    IsMeanCondDepth (ts.filter LTree.grew) a b v := by
  obtain ⟨xs, h1, h2⟩ := h
  refine ⟨xs, ?_, h2⟩
  rw [filter_grew]
  · exact h1
  · intro t ht
    exact uses_grew (of_decide_eq_true ht).1

open Classical in
theorem minDepth_grown {ts : List LTree} {a : Nat} {v : Num K} (h : IsMeanMinDepth ts a v) :
    IsMeanMinDepth (ts.filter LTree.grew) a v := by
  obtain ⟨xs, h1, h2⟩ := h
  refine ⟨xs, ?_, h2⟩
  rw [filter_grew]
  · exact h1
  · intro t ht
    exact uses_grew (of_decide_eq_true ht)

theorem occurrences_grown (ts : List LTree) (a b : Nat) : occurrences (ts.filter LTree.grew) a b = occurrences ts a b := by
  classical
  unfold occurrences
  rw [List.countP_eq_length_filter, List.countP_eq_length_filter, filter_grew]
  intro t ht
  obtain ⟨k, s, n, ⟨h1, h2, _⟩, h3⟩ := of_decide_eq_true ht
  exact uses_grew ⟨k, s, h1, h2⟩

/-- **C177.** Two forests that consist of the same trees (C92) apart from trees that are just a leaf, of which either may have any number
anywhere, give the same results: `fit` returns or raises alike, the tables have the same values row by row (`n_occurences` times `n`), the
importance tables the same values. -/
theorem C177_trees_without_splits {σ : Nat → Nat} (hσ : Function.Injective σ) {n : Nat} (hn : 0 < n) {ρ : F → F'}
    (E : CmdEnv F I K) (hE : SortsCmd E.sortOvo) (hI : SortsBy ImpRow.val true E.sortImp)
    (E' : CmdEnv F' I' K) (hE' : SortsCmd E'.sortOvo) (hI' : SortsBy ImpRow.val true E'.sortImp)
    {m : Forest F} {ts : List LTree} (h : ForestOf m ts) {m' : Forest F'} {ts' : List LTree} (h' : ForestOf m' ts')
    (hts : ts ≠ []) (hts' : ts' ≠ []) (hc : m.columns ≠ [])
    (hs : SameTrees false σ n (ts.filter LTree.grew) (ts'.filter LTree.grew)) (hcol : SameColumns σ ρ m.columns m'.columns)
    (s0 : CmdMethod F K) (s0' : CmdMethod F' K) :
    (CmdMethod.fit E' m' s0').1 = (CmdMethod.fit E m s0).1 ∧
    (∃ rows rows', (CmdMethod.fit E m s0).2.ovo = some rows ∧ (CmdMethod.fit E' m' s0').2.ovo = some rows' ∧
      rows'.Perm (rows.map (fun r => ⟨ρ r.root, ρ r.var, r.val, n * r.occ⟩))) ∧
    ∀ imp, (CmdMethod.fit E m s0).1 = .ok () → (CmdMethod.fit E m s0).2.importance = some imp →
      ∃ imp', (CmdMethod.fit E' m' s0').2.importance = some imp' ∧ imp'.Perm (imp.map (fun r => ⟨ρ r.f, r.val⟩)) := by
  have hc' : m'.columns ≠ [] := by
    intro e
    have := hcol.perm
    rw [e] at this
    have := List.nil_perm.1 this
    rw [List.map_eq_nil_iff] at this
    exact hc this
  have c := cmdImportance_any E hE hI (ForestOf.numbered h) hts hc s0
  have c' := cmdImportance_any E' hE' hI' (ForestOf.numbered h') hts' hc' s0'
  obtain ⟨m1, m2⟩ := sameTrees_mem hn hs
  have huse : ∀ f, (∃ t ∈ ts', Uses t (σ f)) ↔ ∃ t ∈ ts, Uses t f := by
    intro f
    rw [← exists_grown (ts := ts') (fun t => uses_grew), ← exists_grown (ts := ts) (fun t => uses_grew)]
    constructor
    · rintro ⟨t', ht', hu⟩
      obtain ⟨t, ht, hst⟩ := m2 t' ht'
      exact ⟨t, ht, (hst.uses hσ f).1 hu⟩
    · rintro ⟨t, ht, hu⟩
      obtain ⟨t', ht', hst⟩ := m1 t ht
      exact ⟨t', ht', (hst.uses hσ f).2 hu⟩
  have htab : ∃ rows rows', (CmdMethod.fit E m s0).2.ovo = some rows ∧ (CmdMethod.fit E' m' s0').2.ovo = some rows' ∧
      rows'.Perm (rows.map (fun r => ⟨ρ r.root, ρ r.var, r.val, n * r.occ⟩)) := by
    obtain ⟨rows, e1, e2⟩ := cmdTable_of_fit E hE h hts hc s0
    obtain ⟨rows', e1', e2'⟩ := cmdTable_of_fit E' hE' h' hts' hc' s0'
    refine ⟨rows, rows', e1, e1', cmdTables_perm hcol h.names h'.names e2 e2' ?_ ?_⟩
    · intro a b v v' hv hv'
      exact meanCondDepth_same hσ hn hs (.inl rfl) (condDepth_grown hv) (condDepth_grown hv')
    · intro a b
      rw [← occurrences_grown ts', ← occurrences_grown ts]
      exact occurrences_same hσ hs a b
  have hany : (∃ t ∈ ts', ∃ f, Uses t f) ↔ ∃ t ∈ ts, ∃ f, Uses t f := by
    constructor
    · rintro ⟨t', ht', f', hu⟩
      have hlt := h'.cols t' ht' f' hu
      obtain ⟨a, f, _, _, rfl⟩ := hcol.surj h'.names (List.getElem?_eq_getElem hlt)
      obtain ⟨t, ht, hu⟩ := (huse a).1 ⟨t', ht', hu⟩
      exact ⟨t, ht, a, hu⟩
    · rintro ⟨t, ht, f, hu⟩
      obtain ⟨t', ht', hu'⟩ := (huse f).2 ⟨t, ht, hu⟩
      exact ⟨t', ht', _, hu'⟩
  by_cases hu : ∃ t ∈ ts, ∃ f, Uses t f
  · obtain ⟨r1, imp, r2, r3, r4, r5, _⟩ := c.used hu
    obtain ⟨r1', imp', r2', r3', r4', r5', _⟩ := c'.used (hany.2 hu)
    refine ⟨r1'.trans r1.symm, htab, ?_⟩
    intro imp0 _ e
    rw [r2] at e
    obtain rfl := Option.some.inj e
    refine ⟨imp', r2', ?_⟩
    have hρ : ∀ f ∈ m.columns, ∀ g ∈ m.columns, ρ f = ρ g → f = g := by
      have hm : (m.columns.map ρ).Nodup := hcol.perm.nodup_iff.1 h'.names
      exact fun f hf g hg e => List.inj_on_of_nodup_map hm hf hg e
    have hmem : ∀ r ∈ imp, r.f ∈ m.columns := by
      intro r hr
      obtain ⟨i, hi, _⟩ := (r4 r.f).1 (List.mem_map_of_mem hr)
      exact List.mem_of_getElem? hi
    have key : ∀ r ∈ imp, ∀ r' ∈ imp', r'.f = ρ r.f → r' = ⟨ρ r.f, r.val⟩ := by
      intro r hr r' hr' e
      obtain ⟨i, hi, _⟩ := (r4 r.f).1 (List.mem_map_of_mem hr)
      have hi' := hcol.get i _ hi
      have := meanMinDepth_same hσ hn hs (minDepth_grown (r5 r hr i hi)) (minDepth_grown (r5' r' hr' (σ i) (by rw [e]; exact hi')))
      cases r'
      simp only at e this
      rw [e, this]
    rw [List.perm_ext_iff_of_nodup (List.Nodup.of_map _ r3') ((List.Nodup.of_map _ r3).map_on ?_)]
    · intro r'
      constructor
      · intro hr'
        obtain ⟨i', hi', hu'⟩ := (r4' r'.f).1 (List.mem_map_of_mem hr')
        obtain ⟨i, f, hi, hf, rfl⟩ := hcol.surj h'.names hi'
        have : f ∈ imp.map ImpRow.f := (r4 f).2 ⟨i, hi, (huse i).1 hu'⟩
        obtain ⟨r, hr, rfl⟩ := List.mem_map.1 this
        exact List.mem_map.2 ⟨r, hr, (key r hr r' hr' hf.symm).symm⟩
      · intro hr'
        obtain ⟨r, hr, rfl⟩ := List.mem_map.1 hr'
        obtain ⟨i, hi, hui⟩ := (r4 r.f).1 (List.mem_map_of_mem hr)
        have : ρ r.f ∈ imp'.map ImpRow.f := (r4' _).2 ⟨σ i, hcol.get i _ hi, (huse i).2 hui⟩
        obtain ⟨r', hr'', e⟩ := List.mem_map.1 this
        rw [← key r hr r' hr'' e]
        exact hr''
    · intro x hx y hy e
      have e1 : ρ x.f = ρ y.f := congrArg ImpRow.f e
      exact List.inj_on_of_nodup_map r3 hx hy (hρ _ (hmem x hx) _ (hmem y hy) e1)
  · obtain ⟨r1, _⟩ := c.unused hu
    obtain ⟨r1', _⟩ := c'.unused (fun hh => hu (hany.1 hh))
    refine ⟨r1'.trans r1.symm, htab, ?_⟩
    intro imp e
    rw [r1] at e
    cases e

end

section Cases

/-- `exForest` with a tree that is just a leaf between its trees -/
def exStunted : Forest (List Nat) := ⟨[[97], [97, 98], [98]],
  [[⟨1, 4, 0⟩, ⟨2, 3, 1⟩, ⟨-1, -1, -2⟩, ⟨-1, -1, -2⟩, ⟨5, 8, 1⟩, ⟨6, 7, 2⟩, ⟨-1, -1, -2⟩, ⟨-1, -1, -2⟩, ⟨-1, -1, -2⟩],
   [⟨-1, -1, -2⟩], [⟨1, 2, 1⟩, ⟨-1, -1, -2⟩, ⟨-1, -1, -2⟩]]⟩

theorem exStunted_of : ForestOf exStunted [exTree, .leaf 0, exTree2] := by
  refine ⟨by decide, .cons ⟨⟨rfl, ?_, List.Perm.refl _⟩, rfl⟩ (.cons ⟨⟨rfl, ?_, List.Perm.refl _⟩, rfl⟩
    (.cons ⟨⟨rfl, ?_, List.Perm.refl _⟩, rfl⟩ .nil)), ?_⟩
  · simp [exTree, LTree.Stores, LTree.id]
  · simp [LTree.Stores, LTree.id]
  · simp [exTree2, LTree.Stores, LTree.id]
  · have h1 : ∀ f ∈ splitCols exTree, f < 3 := by decide
    have h2 : ∀ f ∈ splitCols exTree2, f < 3 := by decide
    intro t ht f hf
    simp only [List.mem_cons, List.not_mem_nil, or_false] at ht
    rcases ht with rfl | rfl | rfl
    · exact h1 f (uses_splitCols hf)
    · cases uses_grew hf
    · exact h2 f (uses_splitCols hf)

theorem sameTree_refl (t : LTree) : SameTree false id t t := by
  induction t with
  | leaf i => exact .leaf i i
  | node i f l r h1 h2 => exact .node i i f h1 h2

example : ∃ rows rows', (CmdMethod.fit (exCmdEnv ℚ) exForest CmdMethod.new).2.ovo = some rows ∧
    (CmdMethod.fit (exCmdEnv ℚ) exStunted CmdMethod.new).2.ovo = some rows' ∧
    rows'.Perm (rows.map (fun r => ⟨id r.root, id r.var, r.val, 1 * r.occ⟩)) :=
  (C177_trees_without_splits (σ := id) (ρ := id) Function.injective_id Nat.one_pos (exCmdEnv ℚ) sortsCmd_cmdSort (sortsBy_stableSort _ _)
    (exCmdEnv ℚ) sortsCmd_cmdSort (sortsBy_stableSort _ _) exForest_of exStunted_of (by simp) (by simp) (by simp [exForest])
    ⟨[exTree, exTree2], .cons (sameTree_refl _) (.cons (sameTree_refl _) .nil), List.Perm.refl _⟩
    ⟨by rw [List.map_id]; exact List.Perm.refl _, fun a f hh => hh⟩ CmdMethod.new CmdMethod.new).2.1

end Cases
end Artemis
