import Verif.Props.Visual

/-!
# C57, C58, C77: the heatmap
-/

set_option linter.unusedSectionVars false
set_option linter.unusedVariables false
set_option linter.unusedSimpArgs false

namespace Artemis
open Spec

section Cells
variable {F I K : Type} [LinearOrder F] [Field K] [LinearOrder K]

/-! ## C58 -/

/-- **C58** `order_heatmap` only permutes: whatever it returns has the rows of the matrix in some order, the columns in the
same order, and the same labelled cells; for a square matrix nothing is lost. -/
theorem C58_permutes {E : VisEnv F K} (hE : ∀ key asc, SortsBy key asc (E.sortIdx key asc)) {m m' : Mat F K} {asc : Bool}
    (h : orderHeatmap E m asc = .ok m') :
    m'.rows.Perm m.rows ∧ m'.cols = m'.rows ∧ (m.cols = m.rows → m'.cols.Perm m.cols) ∧ ∀ f g, m'.cell f g = m.cell f g := by
  unfold orderHeatmap at h
  split at h
  · cases h
  · cases h
    exact ⟨(hE _ _ _).1, rfl, fun e => by rw [e]; exact (hE _ _ _).1, fun _ _ => rfl⟩

/-- what the heatmap of a method object shows -/
theorem heat_inv {v : View F I K} {E : VisEnv F K} {title : String} {o : Opts K} {sub : SubOpts K} {ps : List (Panel F I K)}
    (h : v.plot E "heatmap" title o sub = .ok ps) :
    ∃ ovo ia rows m, v.ovo = some ovo ∧ v.impAsc = some ia ∧ heatmapRows v.directed ovo v.imp = .ok rows ∧
      orderHeatmap E (pivotFirst rows) v.asc = .ok m ∧ ps = [.heatmap (pickTitle title "Interaction matrix") ia v.asc m] := by
  obtain ⟨ovo, ia, cfg, ho, hi, hc, hacc, hp⟩ := view_plot_inv h
  unfold visPlot at hp
  rw [if_neg (not_not.2 hacc), if_neg (by decide), if_neg (by decide), if_neg (by decide), if_pos rfl] at hp
  simp only [] at hp
  unfold plotHeatmap at hp
  cases hr : heatmapRows v.directed ovo v.imp with
  | error e => rw [hr] at hp; cases hp
  | ok rows =>
    rw [hr] at hp
    simp only [] at hp
    cases hm : orderHeatmap E (pivotFirst rows) v.asc with
    | error e => rw [hm] at hp; cases hp
    | ok m =>
      rw [hm] at hp
      cases hp
      exact ⟨ovo, ia, rows, m, ho, hi, hr, hm, rfl⟩

/-- the rows the heatmap is made of -/
theorem heatmapRows_mem {directed : Bool} {ovo : List (OvoRow F K)} {imp : Option (List (FeatRow F K))} {rows : List (OvoRow F K)}
    (h : heatmapRows directed ovo imp = .ok rows) :
    (∀ r ∈ rows, r ∈ ovo ∨ (directed = false ∧ (⟨r.f2, r.f1, r.val⟩ : OvoRow F K) ∈ ovo) ∨
      (r.f1 = r.f2 ∧ ∃ t, imp = some t ∧ (∃ q ∈ t, q.f = r.f1 ∧ q.val = r.val) ∧ ∃ o ∈ ovo, o.f1 = r.f1 ∨ o.f2 = r.f1)) ∧
    (∀ r ∈ ovo, r ∈ rows ∧ (directed = false → (⟨r.f2, r.f1, r.val⟩ : OvoRow F K) ∈ rows)) ∧
    (∀ t, imp = some t → ∀ o ∈ ovo, ∀ f, o.f1 = f ∨ o.f2 = f → ∃ q ∈ t, q.f = f ∧ (⟨f, f, q.val⟩ : OvoRow F K) ∈ rows) := by
  generalize hp : (if directed = true then ovo else ovo ++ ovo.map (fun r => (⟨r.f2, r.f1, r.val⟩ : OvoRow F K))) = pairs
  have hmem : ∀ r, r ∈ pairs ↔ r ∈ ovo ∨ (directed = false ∧ (⟨r.f2, r.f1, r.val⟩ : OvoRow F K) ∈ ovo) := by
    intro r
    rw [← hp]
    cases directed with
    | true => simp
    | false =>
      simp only [Bool.false_eq_true, if_false, List.mem_append, List.mem_map, true_and]
      refine or_congr_right ?_
      constructor
      · rintro ⟨q, hq, rfl⟩; exact hq
      · intro hq; exact ⟨_, hq, rfl⟩
  unfold heatmapRows at h
  simp only [hp] at h
  cases imp with
  | none =>
    cases h
    refine ⟨fun r hr => ?_, fun r hr => ⟨(hmem r).2 (Or.inl hr), fun hd => (hmem _).2 (Or.inr ⟨hd, hr⟩)⟩, fun t ht => by cases ht⟩
    rcases (hmem r).1 hr with h1 | h1
    · exact Or.inl h1
    · exact Or.inr (Or.inl h1)
  | some t =>
    simp only [] at h
    cases hd : importanceDiag ovo t with
    | error e => rw [hd] at h; cases h
    | ok diag =>
      rw [hd] at h
      cases h
      obtain ⟨h1, h2⟩ := importanceDiag_ok hd
      refine ⟨?_, ?_, ?_⟩
      · intro r hr
        rcases List.mem_append.1 hr with hr | hr
        · rcases (hmem r).1 hr with h1 | h1
          · exact Or.inl h1
          · exact Or.inr (Or.inl h1)
        · obtain ⟨a, b, c⟩ := h1 r hr
          exact Or.inr (Or.inr ⟨a, t, rfl, b, c⟩)
      · intro r hr
        exact ⟨List.mem_append_left _ ((hmem r).2 (Or.inl hr)), fun hd => List.mem_append_left _ ((hmem _).2 (Or.inr ⟨hd, hr⟩))⟩
      · intro t' ht' o ho f hf
        cases ht'
        obtain ⟨r, hr, e1, e2⟩ := h2 o ho f hf
        obtain ⟨_, ⟨q, hq, e3, e4⟩, _⟩ := h1 r hr
        refine ⟨q, hq, e3.trans e1, List.mem_append_right _ ?_⟩
        rw [e4]
        obtain ⟨a, b, c⟩ := r
        simp only at e1 e2
        subst e1 e2
        exact hr

/-- no row about a feature with itself, and each feature of the importance table once -/
structure CleanTables (v : View F I K) (ovo : List (OvoRow F K)) : Prop where
  noLoop : ∀ r ∈ ovo, r.f1 ≠ r.f2
  impOnce : ∀ t, v.imp = some t → ∀ q ∈ t, ∀ q' ∈ t, q.f = q'.f → q.val = q'.val

theorem same_of_once {R : OvoRow F K → OvoRow F K → Prop} (hsym : ∀ {r q}, R r q → R q r) {t : List (OvoRow F K)}
    (h : t.Pairwise (fun r q => ¬ R r q)) {r q : OvoRow F K} (hr : r ∈ t) (hq : q ∈ t) (hrq : R r q) : r = q := by
  by_contra hne
  haveI : Std.Symm (fun r q : OvoRow F K => ¬ R r q) := ⟨fun _ _ hn h' => hn (hsym h')⟩
  exact (h.forall hr hq hne) hrq

/-! ## C57 -/

/-- **C57**, undirected: for a table with one row per pair, the cells `(f, g)` and `(g, f)` both show the value of `{f, g}`,
the cell `(f, f)` the importance of `f`, all other cells are empty, rows and columns are the same, and every value that is a
number is drawn. -/
theorem C57_undirected {v : View F I K} (hdir : v.directed = false) {E : VisEnv F K}
    (hE : ∀ key asc, SortsBy key asc (E.sortIdx key asc)) {title : String} {o : Opts K} {sub : SubOpts K}
    {ps : List (Panel F I K)} (h : v.plot E "heatmap" title o sub = .ok ps) {ovo : List (OvoRow F K)} (ho : v.ovo = some ovo)
    (honce : OncePerPair ovo) (hcl : CleanTables v ovo) :
    ∃ ti a b m, ps = [.heatmap ti a b m] ∧ m.cols = m.rows ∧ m.rows.Nodup ∧
      (∀ r ∈ ovo, m.cell r.f1 r.f2 = r.val ∧ m.cell r.f2 r.f1 = r.val) ∧
      (∀ r ∈ ovo, r.val ≠ .nan → r.f1 ∈ m.rows ∧ r.f2 ∈ m.rows) ∧
      (∀ t, v.imp = some t → ∀ r ∈ ovo, ∀ f, r.f1 = f ∨ r.f2 = f → ∃ q ∈ t, q.f = f ∧ m.cell f f = q.val ∧ (q.val ≠ .nan → f ∈ m.rows)) ∧
      (∀ f g, f ≠ g → (∀ r ∈ ovo, ¬ r.isPair f g) → m.cell f g = .nan) ∧
      (∀ f, f ∈ m.rows → ∃ r ∈ ovo, r.f1 = f ∨ r.f2 = f) := by
  obtain ⟨ovo', ia, rows, m, ho', _, hr, hm, rfl⟩ := heat_inv h
  rw [ho] at ho'; cases ho'
  obtain ⟨p1, p2, _, p4⟩ := C58_permutes hE hm
  obtain ⟨k1, k2, k3⟩ := heatmapRows_mem hr
  have hrows : ∀ f, f ∈ m.rows ↔ ∃ r ∈ rows, r.val ≠ .nan ∧ r.f1 = f := fun f => by rw [p1.mem_iff, mem_pivot_rows]
  have hsame : ∀ r ∈ ovo, ∀ q ∈ ovo, q.isPair r.f1 r.f2 → q = r := fun r hr q hq hp =>
    same_of_once (R := SamePair) (fun {r q} h => by
      rcases h with ⟨a, b⟩ | ⟨a, b⟩
      · exact Or.inl ⟨a.symm, b.symm⟩
      · exact Or.inr ⟨b.symm, a.symm⟩) honce hq hr hp
  -- every row about a pair shows the one value of that pair
  have hval : ∀ r ∈ ovo, ∀ p ∈ rows, p.isPair r.f1 r.f2 → p.val = r.val := by
    intro r hr p hp hpr
    rcases k1 p hp with h1 | ⟨_, h1⟩ | ⟨h1, _⟩
    · rw [hsame r hr p h1 hpr]
    · have := hsame r hr _ h1 (by
        rcases hpr with ⟨a, b⟩ | ⟨a, b⟩
        · exact Or.inr ⟨b, a⟩
        · exact Or.inl ⟨b, a⟩)
      rw [← this]
    · exfalso
      rcases hpr with ⟨a, b⟩ | ⟨a, b⟩
      · exact hcl.noLoop r hr (by rw [← a, ← b, h1])
      · exact hcl.noLoop r hr (by rw [← a, ← b, h1])
  refine ⟨_, _, _, m, rfl, p2, ?_, ?_, ?_, ?_, ?_, ?_⟩
  · exact p1.nodup_iff.2 (nodup_npUnique _)
  · intro r hr
    constructor
    · rw [p4]
      exact pivot_cell_of rows (k2 r hr).1 rfl rfl fun p hp e1 e2 => hval r hr p hp (Or.inl ⟨e1, e2⟩)
    · rw [p4]
      exact pivot_cell_of rows ((k2 r hr).2 hdir) rfl rfl fun p hp e1 e2 => hval r hr p hp (Or.inr ⟨e1, e2⟩)
  · intro r hr hn
    exact ⟨(hrows _).2 ⟨r, (k2 r hr).1, hn, rfl⟩, (hrows _).2 ⟨_, (k2 r hr).2 hdir, hn, rfl⟩⟩
  · intro t ht r hr f hf
    obtain ⟨q, hq, e, hqr⟩ := k3 t ht r hr f hf
    refine ⟨q, hq, e, ?_, fun hn => (hrows _).2 ⟨_, hqr, hn, rfl⟩⟩
    rw [p4]
    refine pivot_cell_of rows hqr rfl rfl ?_
    intro p hp e1 e2
    rcases k1 p hp with h1 | ⟨_, h1⟩ | ⟨h1, t', ht', ⟨q', hq', e3, e4⟩, _⟩
    · exact absurd (e1.trans e2.symm) (hcl.noLoop p h1)
    · exact absurd (e2.trans e1.symm) (hcl.noLoop _ h1)
    · rw [ht] at ht'; cases ht'
      rw [← e4]
      exact hcl.impOnce t ht q' hq' q hq (by rw [e3, e1, e])
  · intro f g hne hno
    rw [p4]
    rcases pivot_cell rows f g with ⟨e, _⟩ | ⟨p, hp, e1, e2, _⟩
    · exact e
    · exfalso
      rcases k1 p hp with h1 | ⟨_, h1⟩ | ⟨h1, _⟩
      · exact hno p h1 (Or.inl ⟨e1, e2⟩)
      · exact hno _ h1 (Or.inr ⟨e2, e1⟩)
      · exact hne (by rw [← e1, ← e2, h1])
  · intro f hf
    obtain ⟨p, hp, _, e⟩ := (hrows f).1 hf
    rcases k1 p hp with h1 | ⟨_, h1⟩ | ⟨_, _, _, _, h1⟩
    · exact ⟨p, h1, Or.inl e⟩
    · exact ⟨_, h1, Or.inr e⟩
    · obtain ⟨o, ho, h1⟩ := h1
      exact ⟨o, ho, by rw [← e]; exact h1⟩

/-- **C57**, directed: for a table with one row per ordered pair, the cell `(f, g)` shows the value of the row `(f, g)` and
the cell `(f, f)` the importance of `f`; all other cells are empty. -/
theorem C57_directed {v : View F I K} (hdir : v.directed = true) {E : VisEnv F K}
    (hE : ∀ key asc, SortsBy key asc (E.sortIdx key asc)) {title : String} {o : Opts K} {sub : SubOpts K}
    {ps : List (Panel F I K)} (h : v.plot E "heatmap" title o sub = .ok ps) {ovo : List (OvoRow F K)} (ho : v.ovo = some ovo)
    (honce : DistinctEdges true ovo) (hcl : CleanTables v ovo) :
    ∃ ti a b m, ps = [.heatmap ti a b m] ∧ m.cols = m.rows ∧ m.rows.Nodup ∧
      (∀ r ∈ ovo, m.cell r.f1 r.f2 = r.val) ∧
      (∀ t, v.imp = some t → ∀ r ∈ ovo, ∀ f, r.f1 = f ∨ r.f2 = f → ∃ q ∈ t, q.f = f ∧ m.cell f f = q.val ∧ (q.val ≠ .nan → f ∈ m.rows)) ∧
      (∀ f g, f ≠ g → (∀ r ∈ ovo, ¬ (r.f1 = f ∧ r.f2 = g)) → m.cell f g = .nan) ∧
      (∀ f, f ∈ m.rows → ∃ r ∈ ovo, r.f1 = f ∨ r.f2 = f) := by
  obtain ⟨ovo', ia, rows, m, ho', _, hr, hm, rfl⟩ := heat_inv h
  rw [ho] at ho'; cases ho'
  obtain ⟨p1, p2, _, p4⟩ := C58_permutes hE hm
  obtain ⟨k1, k2, k3⟩ := heatmapRows_mem hr
  have hrows : ∀ f, f ∈ m.rows ↔ ∃ r ∈ rows, r.val ≠ .nan ∧ r.f1 = f := fun f => by rw [p1.mem_iff, mem_pivot_rows]
  have hsame : ∀ r ∈ ovo, ∀ q ∈ ovo, q.f1 = r.f1 ∧ q.f2 = r.f2 → q = r := fun r hr q hq hp =>
    same_of_once (R := fun r q => r.f1 = q.f1 ∧ r.f2 = q.f2) (fun {r q} h => ⟨h.1.symm, h.2.symm⟩) (honce.imp fun h => h.1) hq hr hp
  refine ⟨_, _, _, m, rfl, p2, ?_, ?_, ?_, ?_, ?_⟩
  · exact p1.nodup_iff.2 (nodup_npUnique _)
  · intro r hr
    rw [p4]
    refine pivot_cell_of rows (k2 r hr).1 rfl rfl fun p hp e1 e2 => ?_
    rcases k1 p hp with h1 | ⟨h1, _⟩ | ⟨h1, _⟩
    · rw [hsame r hr p h1 ⟨e1, e2⟩]
    · rw [hdir] at h1; cases h1
    · exact absurd (by rw [← e1, ← e2, h1]) (hcl.noLoop r hr)
  · intro t ht r hr f hf
    obtain ⟨q, hq, e, hqr⟩ := k3 t ht r hr f hf
    refine ⟨q, hq, e, ?_, fun hn => (hrows _).2 ⟨_, hqr, hn, rfl⟩⟩
    rw [p4]
    refine pivot_cell_of rows hqr rfl rfl ?_
    intro p hp e1 e2
    rcases k1 p hp with h1 | ⟨h1, _⟩ | ⟨h1, t', ht', ⟨q', hq', e3, e4⟩, _⟩
    · exact absurd (e1.trans e2.symm) (hcl.noLoop p h1)
    · rw [hdir] at h1; cases h1
    · rw [ht] at ht'; cases ht'
      rw [← e4]
      exact hcl.impOnce t ht q' hq' q hq (by rw [e3, e1, e])
  · intro f g hne hno
    rw [p4]
    rcases pivot_cell rows f g with ⟨e, _⟩ | ⟨p, hp, e1, e2, _⟩
    · exact e
    · exfalso
      rcases k1 p hp with h1 | ⟨h1, _⟩ | ⟨h1, _⟩
      · exact hno p h1 ⟨e1, e2⟩
      · rw [hdir] at h1; cases h1
      · exact hne (by rw [← e1, ← e2, h1])
  · intro f hf
    obtain ⟨p, hp, _, e⟩ := (hrows f).1 hf
    rcases k1 p hp with h1 | ⟨h1, _⟩ | ⟨_, _, _, _, h1⟩
    · exact ⟨p, h1, Or.inl e⟩
    · rw [hdir] at h1; cases h1
    · obtain ⟨o, ho, h1⟩ := h1
      exact ⟨o, ho, by rw [← e]; exact h1⟩

/-- in a table with one row per pair a pair is counted once -/
theorem count_of_once {t : List (OvoRow F K)} (h : OncePerPair t) {r : OvoRow F K} (hr : r ∈ t) {f g : F} (hp : r.isPair f g) :
    t.countP (fun r => decide (r.isPair f g)) = 1 := by
  have hle : ∀ t : List (OvoRow F K), OncePerPair t → t.countP (fun r => decide (r.isPair f g)) ≤ 1 := by
    intro t
    induction t with
    | nil => intro _; simp
    | cons a t ih =>
      intro h
      have h' := List.pairwise_cons.1 h
      rw [List.countP_cons]
      by_cases ha : a.isPair f g
      · have h0 : t.countP (fun r => decide (r.isPair f g)) = 0 := by
          rw [List.countP_eq_zero]
          intro b hb hbp
          have hbp := of_decide_eq_true hbp
          refine h'.1 b hb ?_
          unfold SamePair OvoRow.isPair
          rcases ha with ⟨rfl, rfl⟩ | ⟨rfl, rfl⟩ <;> rcases hbp with ⟨e1, e2⟩ | ⟨e1, e2⟩ <;> simp [e1, e2]
        rw [h0]; simp [ha]
      · simp only [ha, decide_false, Bool.false_eq_true, if_false]
        exact ih h'.2
  refine le_antisymm (hle t h) ?_
  exact List.countP_pos_iff.2 ⟨r, hr, by simpa using hp⟩

/-! ## C77 -/

/-- **C77, partial** For undirected methods whose table lists each pair once (H-statistic, Greenwell, Sejong Oh), the heatmap
cell of two different features shows what `interaction_value` returns for them.
Missing: split score lists a pair once per direction, see `C77_fails`; conditional minimal depth is directed, and
`interaction_value` merges the two directions. -/
theorem C77_agrees_partial [LinearOrder I] {sort : PairSort F K} (hs : ∀ asc, SortsBy OvoRow.val asc (sort asc)) {v : View F I K}
    (hv : v.cmp = compareBase sort v.asc v.ovo) (hdir : v.directed = false) {E : VisEnv F K}
    (hE : ∀ key asc, SortsBy key asc (E.sortIdx key asc)) {title : String} {o : Opts K} {sub : SubOpts K}
    {ps : List (Panel F I K)} (h : v.plot E "heatmap" title o sub = .ok ps) {ovo : List (OvoRow F K)} (ho : v.ovo = some ovo)
    (honce : OncePerPair ovo) (hcl : CleanTables v ovo) :
    ∃ ti a b m, ps = [.heatmap ti a b m] ∧ ∀ f g, f ≠ g →
      (∀ x, v.interactionValue f g = .ok x → m.cell f g = x) ∧
      (v.interactionValue f g = .error .indexError → m.cell f g = .nan) := by
  obtain ⟨ti, a, b, m, hps, _, _, h1, _, _, h2, _⟩ := C57_undirected hdir hE h ho honce hcl
  refine ⟨ti, a, b, m, hps, fun f g hne => ?_⟩
  have hl := C47_lookup hs hv ho f g
  by_cases hex : ∃ r ∈ ovo, r.isPair f g
  · obtain ⟨r, hr, hp⟩ := hex
    have hx := hl.2.2 r hr hp (count_of_once honce hr hp)
    rw [hx]
    refine ⟨fun x e => ?_, fun e => by cases e⟩
    cases e
    rcases hp with ⟨rfl, rfl⟩ | ⟨rfl, rfl⟩
    · exact (h1 r hr).1
    · exact (h1 r hr).2
  · push Not at hex
    refine ⟨fun x e => ?_, fun _ => h2 f g hne hex⟩
    rw [hl.1.2 hex] at e
    cases e

end Cells

section Sorted
variable {F I K : Type} [LinearOrder F] [Field K] [LinearOrder K] [IsStrictOrderedRing K]

/-- **C58, partial** Sorting: for a square matrix of finite numbers with at least two features, all with different
lower-case names, `order_heatmap` returns, and the features are in the order of the score `diagonal / greatest diagonal +
greatest other entry of the column / greatest entry`, ascending or descending as asked.
Missing: names that differ only in case share one score (`C58_fails`); matrices with empty cells. -/
theorem C58_sorted_partial {E : VisEnv F K} (hE : ∀ key asc, SortsBy key asc (E.sortIdx key asc)) {m : Mat F K}
    (hsq : m.cols = m.rows) (hnd : m.rows.Nodup) (hlen : 2 ≤ m.rows.length)
    (hlow : ∀ f ∈ m.rows, ∀ g ∈ m.rows, E.lower f = E.lower g → f = g) {u : F → F → K}
    (hu : ∀ f ∈ m.rows, ∀ g ∈ m.rows, m.cell f g = .fin (u f g)) {D X : K} (hD : (∃ f ∈ m.rows, D = u f f) ∧ ∀ f ∈ m.rows, u f f ≤ D)
    (hX : (∃ f ∈ m.rows, ∃ g ∈ m.rows, X = u f g) ∧ ∀ f ∈ m.rows, ∀ g ∈ m.rows, u f g ≤ X) (hD0 : D ≠ 0) (hX0 : X ≠ 0) (asc : Bool) :
    ∃ m', ∃ score : F → K, orderHeatmap E m asc = .ok m' ∧
      (∀ f ∈ m.rows, ∃ c, score f = u f f / D + c / X ∧ (∃ g ∈ m.rows, g ≠ f ∧ c = u g f) ∧ ∀ g ∈ m.rows, g ≠ f → u g f ≤ c) ∧
      m'.rows.Pairwise (fun f g => if asc then score f ≤ score g else score g ≤ score f) := by
  have hne : m.rows ≠ [] := by intro e; rw [e] at hlen; simp at hlen
  obtain ⟨s, hs⟩ := heatScores_returns E.lower m hsq.symm hnd (by omega)
  have hs' := hs
  unfold heatScores diagSeries at hs'
  rw [if_pos (by rw [hsq])] at hs'
  simp only [] at hs'
  have hzip : (m.rows.zip m.cols).map (fun q => (q.1, m.cell q.1 q.2)) = m.rows.map (fun f => (f, (.fin (u f f) : Num K))) := by
    rw [hsq]
    have : ∀ l : List F, (l.zip l) = l.map (fun f => (f, f)) := by
      intro l; induction l with
      | nil => rfl
      | cons a l ih => simp [ih]
    rw [this, List.map_map]
    refine List.map_congr_left fun f hf => ?_
    simp only [Function.comp, hu f hf f hf]
  rw [hzip] at hs'
  have hl1 : maxSkip ((m.rows.map (fun f => (f, (.fin (u f f) : Num K)))).map Prod.snd) = .fin D := by
    rw [List.map_map]
    have : (Prod.snd ∘ fun f => (f, (.fin (u f f) : Num K))) = fun f => .fin (u f f) := rfl
    rw [this]
    obtain ⟨a, ha, e, hle⟩ := maxSkip_fin m.rows (fun f => u f f) hne
    rw [e]
    obtain ⟨⟨f, hf, rfl⟩, hb⟩ := hD
    rw [le_antisymm (hb a ha) (hle f hf)]
  have hl2 : maxSkip (m.cols.map (fun g => maxSkip (m.rows.map (fun f => m.cell f g)))) = .fin X := by
    have hcol : ∀ g ∈ m.rows, ∃ c, maxSkip (m.rows.map (fun f => m.cell f g)) = .fin c ∧ (∃ f ∈ m.rows, c = u f g) ∧
        ∀ f ∈ m.rows, u f g ≤ c := by
      intro g hg
      have he : m.rows.map (fun f => m.cell f g) = m.rows.map (fun f => .fin (u f g)) :=
        List.map_congr_left fun f hf => hu f hf g hg
      rw [he]
      obtain ⟨a, ha, e, hle⟩ := maxSkip_fin m.rows (fun f => u f g) hne
      exact ⟨u a g, e, ⟨a, ha, rfl⟩, hle⟩
    have hcm : m.cols.map (fun g => maxSkip (m.rows.map (fun f => m.cell f g))) =
        m.rows.map (fun g => .fin (Num.toK (maxSkip (m.rows.map (fun f => m.cell f g))))) := by
      rw [hsq]
      refine List.map_congr_left fun g hg => ?_
      obtain ⟨c, hc, _⟩ := hcol g hg
      rw [hc]; rfl
    rw [hcm]
    obtain ⟨a, ha, e, hle⟩ := maxSkip_fin m.rows (fun g => Num.toK (maxSkip (m.rows.map (fun f => m.cell f g)))) hne
    rw [e]
    obtain ⟨⟨f, hf, g, hg, rfl⟩, hb⟩ := hX
    obtain ⟨c, hc, ⟨f', hf', hcf⟩, hcle⟩ := hcol a ha
    obtain ⟨c', hc', _, hcle'⟩ := hcol g hg
    have h1 := hle g hg
    rw [hc, hc'] at h1
    rw [hc]
    congr 1
    exact le_antisymm (by rw [show Num.toK (.fin c : Num K) = c from rfl, hcf]; exact hb f' hf' a ha) ((hcle' f hf).trans h1)
  rw [hl1, hl2] at hs'
  obtain ⟨k1, _⟩ := foldl_scores E.lower (fun f => heatScore m (m.rows.map (fun f => (f, (.fin (u f f) : Num K)))) (.fin D) (.fin X) f)
    m.rows [] s hlow hs'
  have hscore : ∀ f ∈ m.rows, ∃ x c, Dict.get? s (E.lower f) = some (.fin x) ∧ x = u f f / D + c / X ∧
      (∃ g ∈ m.rows, g ≠ f ∧ c = u g f) ∧ ∀ g ∈ m.rows, g ≠ f → u g f ≤ c := by
    intro f hf
    obtain ⟨x, hx, hg⟩ := k1 f hf
    unfold heatScore at hx
    have hget : Dict.get? (m.rows.map (fun f => (f, (.fin (u f f) : Num K)))) f = some (.fin (u f f)) := by
      refine Dict.get?_of_mem ?_ (List.mem_map.2 ⟨f, hf, rfl⟩)
      simp only [Dict.keys, List.map_map]
      have : (Prod.fst ∘ fun f => (f, (.fin (u f f) : Num K))) = id := rfl
      rw [this, List.map_id]
      exact hnd
    rw [hget] at hx
    simp only [] at hx
    rw [if_pos (by rw [hsq]; exact hf)] at hx
    have hmem : ∀ g, g ∈ m.rows.erase f ↔ g ∈ m.rows ∧ g ≠ f := fun g => by rw [hnd.mem_erase_iff]; exact And.comm
    have he : (m.rows.erase f).map (fun g => m.cell g f) = (m.rows.erase f).map (fun g => .fin (u g f)) :=
      List.map_congr_left fun g hg => hu g ((hmem g).1 hg).1 f hf
    have hern : m.rows.erase f ≠ [] := by
      intro e
      have := List.length_erase_of_mem hf
      rw [e] at this
      simp at this
      omega
    obtain ⟨a, ha, hpm, hle⟩ := pyMax_fin (m.rows.erase f) (fun g => u g f) hern
    rw [he, hpm] at hx
    simp only [] at hx
    have : x = .fin (u f f / D + u a f / X) := by
      cases hx
      simp [Num.div, Num.add, hD0, hX0]
    subst this
    exact ⟨_, u a f, hg, rfl, ⟨a, ((hmem a).1 ha).1, ((hmem a).1 ha).2, rfl⟩, fun g hg hgf => hle g ((hmem g).2 ⟨hg, hgf⟩)⟩
  refine ⟨_, fun f => Num.toK ((Dict.get? s (E.lower f)).getD .nan), by unfold orderHeatmap; rw [hs], ?_, ?_⟩
  · intro f hf
    obtain ⟨x, c, h1, h2, h3, h4⟩ := hscore f hf
    refine ⟨c, ?_, h3, h4⟩
    simp only [h1]; rw [← h2]; rfl
  · obtain ⟨hp, hpw⟩ := hE (fun f => (Dict.get? s (E.lower f)).getD .nan) asc m.rows
    have hmem : ∀ f ∈ E.sortIdx (fun f => (Dict.get? s (E.lower f)).getD .nan) asc m.rows, f ∈ m.rows := fun f hf => hp.mem_iff.1 hf
    refine hpw.imp_of_mem ?_
    intro f g hf hg hk
    obtain ⟨x, _, h1, _⟩ := hscore f (hmem f hf)
    obtain ⟨y, _, h2, _⟩ := hscore g (hmem g hg)
    simp only [h1, h2] at hk ⊢
    simp only [Option.getD_some, Num.keyLE, Num.isNaN, Bool.false_eq_true, if_false, Num.le] at hk ⊢
    cases asc <;> simpa [Num.toK] using hk

end Sorted

/-! ## Cases -/

section Cases

/-- what a single heatmap shows: features in order, entries -/
def heatOf {F I : Type} (r : Except Err (List (Panel F I ℚ))) : Option (List F × List (List (Num ℚ))) :=
  match r with
  | .ok [.heatmap _ _ _ m] => some (m.rows, m.table)
  | _ => none

theorem heatOf_some {F I : Type} {r : Except Err (List (Panel F I ℚ))} (h : (heatOf r).isSome = true) : ∃ ps, r = .ok ps := by
  cases r with
  | ok ps => exact ⟨ps, rfl⟩
  | error e => cases h

/-- C57 on three features: features in the order of their scores, importance on the diagonal -/
example : heatOf ((exShow greenwellName exRowsH (some exImpH) false false).plot exVis "heatmap" "default" {} []) =
    some ([0, 1, 2], [[.fin 4, .fin (8 / 10), .fin (5 / 10)], [.fin (8 / 10), .fin 2, .fin (1 / 100)],
      [.fin (5 / 10), .fin (1 / 100), .fin 1]]) := by decide +kernel

/-- the hypotheses of `C57_undirected` hold here -/
example : ∃ m : Mat (Fin 4) ℚ, m.cell 2 0 = .fin (5 / 10) ∧ m.cell 0 2 = .fin (5 / 10) ∧ ∃ q ∈ exImpH, q.f = 1 ∧ m.cell 1 1 = q.val := by
  obtain ⟨ps, h⟩ := heatOf_some (r := (exShow greenwellName exRowsH (some exImpH) false false).plot exVis "heatmap" "default" {} [])
    (by decide +kernel)
  obtain ⟨ti, a, b, m, _, _, _, h1, _, h2, _⟩ := C57_undirected (v := exShow greenwellName exRowsH (some exImpH) false false) rfl
    exVis_lawful.1 h (ovo := exRowsH) rfl (by unfold OncePerPair SamePair OvoRow.isPair; decide +kernel)
    ⟨by decide +kernel, by intro t ht; cases ht; decide +kernel⟩
  have h3 := h1 ⟨0, 2, .fin (5 / 10)⟩ (by decide +kernel)
  obtain ⟨q, hq, e, e2, _⟩ := h2 exImpH rfl ⟨0, 1, .fin (8 / 10)⟩ (by decide +kernel) 1 (Or.inr rfl)
  exact ⟨m, h3.2, h3.1, q, hq, e, e2⟩

/-- C57, directed: rows of both directions and an empty cell -/
example : heatOf ((exShow cmdName [⟨0, 1, .fin (1 / 10)⟩, ⟨1, 0, .fin 3⟩, ⟨2, 0, .nan⟩] (some exImpH) true true).plot exVis "heatmap"
    "default" {} []) =
    some ([1, 0, 2], [[.fin 2, .fin 3, .nan], [.fin (1 / 10), .fin 4, .nan], [.nan, .nan, .fin 1]]) := by decide +kernel

/-- a matrix of three features -/
def exMat (x y z : ℚ) : Mat (Fin 4) ℚ :=
  ⟨[0, 1, 2], [0, 1, 2], fun f g => .fin (if f = g then (if f = 0 then x else if f = 1 then y else z) else 1)⟩

/-- the hypotheses of `C58_sorted_partial` hold here -/
example : ∃ m', ∃ score : Fin 4 → ℚ, orderHeatmap exVis (exMat 2 4 3) false = .ok m' ∧ (∃ c, score 1 = 4 / 4 + c / 4) ∧
    m'.rows.Pairwise (fun f g => score g ≤ score f) := by
  obtain ⟨m', score, h1, h2, h3⟩ := C58_sorted_partial exVis_lawful.1 (m := exMat 2 4 3) rfl (by decide) (by decide) (by decide)
    (u := fun f g => if f = g then (if f = 0 then 2 else if f = 1 then 4 else 3) else 1) (by intro f _ g _; rfl) (D := 4) (X := 4)
    (by decide +kernel) (by decide +kernel) (by norm_num) (by norm_num) false
  refine ⟨m', score, h1, ?_, by simpa using h3⟩
  obtain ⟨c, hc, _⟩ := h2 1 (by decide)
  exact ⟨c, by simpa using hc⟩

example : (orderHeatmap exVis (exMat 2 4 3) false).map Mat.rows = .ok [1, 2, 0] := by decide +kernel

/-- **C58 fails** for names that differ only in case (0 and 1 have the same lower-case name): both get the score of the one
listed last, so feature 0, which has the lowest score, is put before feature 2. -/
theorem C58_fails : (orderHeatmap { exVis with lower := fun f => if f = 0 then 1 else f } (exMat 2 4 3) false).map Mat.rows = .ok [0, 1, 2] ∧
    (orderHeatmap exVis (exMat 2 4 3) false).map Mat.rows = .ok [1, 2, 0] := by decide +kernel

/-- an XGBoost model with splits on 1 and 2 below 0 and a split on 0 below 1 -/
def exTwoWayTrees : List (GTree Nat Nat ℚ) :=
  [.split 0 0 1 10 (.split 1 1 10 6 (.leaf 3 0 3) (.leaf 4 0 3)) (.split 2 2 5 4 (.leaf 5 0 2) (.leaf 6 0 2)),
   .split 0 1 (1 / 2) 10 (.split 1 0 2 6 (.leaf 3 0 3) (.leaf 4 0 3)) (.leaf 2 0 4)]

/-- see `exTwoWayTrees` -/
def exTwoWay : GbModel Nat Nat ℚ :=
  ⟨"xgboost.sklearn.XGBRegressor".toList, .xgb ((exTwoWayTrees.getD 0 (.leaf 0 0 0)).xgbRows 99 0 id ++
    (exTwoWayTrees.getD 1 (.leaf 0 0 0)).xgbRows 99 1 id)⟩

/-- a visualizer for the names of the tree examples -/
def exVisNat : VisEnv Nat ℚ where
  lower := id
  sortIdx := stableSort
  sortDesc := stableSort OvoRow.val false

/-- the object after fitting on `exTwoWay` -/
def exTwoWayFit : SsMethod Nat Nat ℚ := (SsMethod.fit exSsEnv (.model exTwoWay) .meanGain .meanGain true SsMethod.new).2

/-- it is a model of the trees, and `fit` returns -/
theorem exTwoWay_fit : GbForest 99 exTwoWayTrees .xgboost exTwoWay ∧
    (SsMethod.fit exSsEnv (.model exTwoWay) .meanGain .meanGain true SsMethod.new).1 = .ok () := by
  constructor
  · refine GbForest.xgboost _ _ (by decide) ⟨by decide, by decide, ?_, by decide, by unfold NoLeafName; decide⟩
    intro t T hT
    match t, hT with
    | 0, hT =>
      cases hT
      exact ⟨id, by decide, List.Perm.of_eq rfl⟩
    | 1, hT =>
      cases hT
      exact ⟨id, by decide, List.Perm.of_eq rfl⟩
  · decide +kernel

/-- **C77 fails** for split score: the table has a row per direction, the heatmap shows the two rows in the two cells, while
`interaction_value` returns the stronger one for both. -/
theorem C77_fails : exTwoWayFit.ovo.map (fun t => t.map (fun r => (r.f1, r.f2, r.val))) =
      some [(0, 1, .fin 10), (0, 2, .fin 5), (1, 0, .fin 2)] ∧
    heatOf ((exTwoWayFit.view exPairSort).plot exVisNat "heatmap" "default" {} []) =
      some ([1, 2, 0], [[.fin (21 / 4), .nan, .fin 2], [.nan, .fin 5, .fin 5], [.fin 10, .fin 5, .fin (3 / 2)]]) ∧
    (exTwoWayFit.view exPairSort).interactionValue 1 0 = .ok (.fin 10) := by
  refine ⟨?_, ?_, ?_⟩ <;> decide +kernel

/-- edges of a graph -/
def edgesOf {F I : Type} (r : Except Err (List (Panel F I ℚ))) : Option (Dict (F × F) (Num ℚ)) :=
  match r with
  | .ok [.graph _ _ edges _ _] => some edges
  | _ => none

/-- **C54 fails** for split score: of the two rows of a pair the graph shows the weaker one, here the strongest pair gets
width 0. -/
theorem C54_two_directions_fails :
    edgesOf ((exTwoWayFit.view exPairSort).plot exVisNat "graph" "default" {} []) =
      some [((0, 1), .fin 0), ((0, 2), .fin (15 / 2))] := by decide +kernel

end Cases

end Artemis
