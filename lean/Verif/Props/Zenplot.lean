import Verif.Proofs.ZenPd
import Verif.Props.HStat
import Verif.Props.Greenwell

/-!
# C60-C63, C80-C85: zenplots and partial dependence profiles
-/

set_option linter.unusedSectionVars false
set_option linter.unusedVariables false
set_option linter.unusedSimpArgs false

namespace Artemis

section General
variable {F V K : Type} [DecidableEq F] [LinearOrder V] [Field K] [LinearOrder K] [IsStrictOrderedRing K]

/-! ### the candidates -/

theorem mem_withLabels {l : List (OvoRow F K)} {q : Nat × OvoRow F K} : q ∈ withLabels l ↔ l[q.1]? = some q.2 := by
  unfold withLabels
  rw [List.mem_iff_getElem?]
  constructor
  · rintro ⟨k, h⟩
    rw [List.getElem?_zip_eq_some] at h
    obtain ⟨h1, h2⟩ := h
    obtain ⟨hk, h1⟩ := List.getElem?_eq_some_iff.1 h1
    rw [List.getElem_range] at h1
    rw [← h1]; exact h2
  · intro h
    refine ⟨q.1, ?_⟩
    rw [List.getElem?_zip_eq_some]
    have hl := (List.getElem?_eq_some_iff.1 h).1
    exact ⟨by rw [List.getElem?_range hl], h⟩

theorem ordered_withLabels (l : List (OvoRow F K)) : Ordered (withLabels l) := by
  unfold Ordered withLabels
  rw [← List.pairwise_map (f := Prod.fst) (R := (· < ·)), List.map_fst_zip (by simp)]
  exact List.pairwise_lt_range

/-- what a returned zenplot was made from -/
structure ZenInv (rows : List (OvoRow F K)) (c : Calc F V (Num K)) (n : Nat) (z : ZenPlot F V K) (q : Nat × OvoRow F K)
    (left : LRows F K) : Prop where
  pos : 0 < n
  cands : withLabels (rows.take (n + 1)) = q :: left
  label : q.1 = 0
  first : rows[0]? = some q.2
  scale : (rows.take (n + 1)).foldlM (pdDictStep c) (.fin 1, .fin 0) = .ok (z.vmin, z.vmax)
  nrows : z.nrows = (n + 1) / 2
  ncols : z.ncols = n / 2 + 1
  loop : zenLoop c z.nrows z.ncols n ⟨(q.2.f1, q.2.f2), left, 0, 0⟩ = .ok z.panels

theorem getPdDict_some (c : Calc F V (Num K)) (rows : List (OvoRow F K)) :
    getPdDict (some c) rows = rows.foldlM (pdDictStep c) (.fin 1, .fin 0) := by
  cases rows <;> rfl

theorem zen_inv {pdc : Option (Calc F V (Num K))} {ovo : Option (List (OvoRow F K))} {len : Int} {kind : String}
    {z : ZenPlot F V K} (h : plotZenplot pdc ovo len kind = .ok z) :
    ∃ rows c q left, ovo = some rows ∧ pdc = some c ∧ len = (len.toNat : Int) ∧ (kind = "colormesh" ∨ kind = "contour") ∧
      ZenInv rows c len.toNat z q left := by
  unfold plotZenplot at h
  cases ovo with
  | none => cases h
  | some rows =>
    simp only at h
    cases e1 : getPdDict pdc (pyHead (len + 1) rows) with
    | error e => rw [e1] at h; cases h
    | ok mm =>
      obtain ⟨lo, hi⟩ := mm
      rw [e1] at h
      simp only at h
      cases e2 : withLabels (pyHead (len + 1) rows) with
      | nil => rw [e2] at h; cases h
      | cons q left =>
        rw [e2] at h
        cases pdc with
        | none => cases h
        | some c =>
          simp only at h
          cases e3 : zenLoop c ((len + 1) / 2).toNat (len / 2 + 1).toNat len.toNat ⟨(q.2.f1, q.2.f2), left, 0, 0⟩ with
          | error e => rw [e3] at h; cases h
          | ok ps =>
            rw [e3] at h
            simp only at h
            split at h
            · cases h
            · next hk =>
              have hk1 : 0 < len := by
                by_contra hn; exact hk (Or.inl (by omega))
              have hk2 : kind = "colormesh" ∨ kind = "contour" := by
                by_contra hn
                rw [not_or] at hn
                exact hk (Or.inr hn)
              cases h
              have hlen : len = (len.toNat : Int) := by omega
              have hhead : pyHead (len + 1) rows = rows.take (len.toNat + 1) := by
                unfold pyHead
                rw [if_pos (by omega)]
                congr 1
                omega
              rw [hhead] at e1 e2
              rw [getPdDict_some] at e1
              have hq : q ∈ withLabels (rows.take (len.toNat + 1)) := by rw [e2]; exact List.mem_cons_self
              have hlab : q.1 = 0 := by
                have ho := ordered_withLabels (rows.take (len.toNat + 1))
                have hne : rows.take (len.toNat + 1) ≠ [] := by
                  intro e; rw [e] at e2; simp [withLabels] at e2
                obtain ⟨r, hr⟩ : ∃ r, (rows.take (len.toNat + 1))[0]? = some r :=
                  ⟨_, List.getElem?_eq_getElem (List.length_pos_iff.2 hne)⟩
                have h0 : (0, r) ∈ withLabels (rows.take (len.toNat + 1)) := mem_withLabels.2 hr
                rw [e2] at h0 ho
                rcases List.mem_cons.1 h0 with h0 | h0
                · rw [← h0]
                · have := (List.pairwise_cons.1 ho).1 _ h0
                  simp at this
              refine ⟨rows, c, q, left, rfl, rfl, hlen, hk2, ?_⟩
              refine ⟨by omega, e2, hlab, ?_, e1, ?_, ?_, e3⟩
              · have := mem_withLabels.1 hq
                rw [hlab, List.getElem?_take] at this
                simpa using this
              · simp only; omega
              · simp only; omega

theorem ZenInv.mem {rows : List (OvoRow F K)} {c : Calc F V (Num K)} {n : Nat} {z : ZenPlot F V K} {q : Nat × OvoRow F K}
    {left : LRows F K} (h : ZenInv rows c n z q left) (y : Nat × OvoRow F K) :
    y ∈ q :: left ↔ y.1 ≤ n ∧ rows[y.1]? = some y.2 := by
  rw [← h.cands, mem_withLabels, List.getElem?_take]
  by_cases hy : y.1 < n + 1
  · rw [if_pos hy]
    simp only [show y.1 ≤ n by omega, true_and]
  · rw [if_neg hy]
    simp only [reduceCtorEq, false_iff]
    intro hh; omega

theorem ZenInv.ordered {rows : List (OvoRow F K)} {c : Calc F V (Num K)} {n : Nat} {z : ZenPlot F V K} {q : Nat × OvoRow F K}
    {left : LRows F K} (h : ZenInv rows c n z q left) : Ordered left ∧ ∀ y ∈ left, y.1 ≠ q.1 := by
  have := ordered_withLabels (rows.take (n + 1))
  rw [h.cands] at this
  obtain ⟨h1, h2⟩ := List.pairwise_cons.1 this
  exact ⟨h2, fun y hy => ne_of_gt (h1 y hy)⟩

/-- the loop needs as many further candidates as there are panels -/
theorem zenLoop_len {c : Calc F V (Num K)} {nrows ncols : Nat} : ∀ {n : Nat} {s : ZenState F K} {ps : List (ZenPanel F V K)},
    Ordered s.left → zenLoop c nrows ncols n s = .ok ps → n ≤ s.left.length := by
  intro n
  induction n with
  | zero => intro s ps _ _; omega
  | succ n ih =>
    intro s ps ho h
    obtain ⟨p, s', p0, q, b, ps', hst, hloop, rfl⟩ := zenLoop_inv ho h
    have := ih (hst.ordered ho) hloop
    have hlt : s'.left.length < s.left.length := by
      rw [hst.left]
      exact List.length_filter_lt_length_iff_exists.2 ⟨q, hst.next.mem, by simp⟩
    omega

/-! ## C60 -/

/-- **Specification of the path.** `ix` are the numbers of the rows of the table drawn in the panels `ps`; candidates are the
first `n + 1` rows. -/
structure ZenPath (rows : List (OvoRow F K)) (n : Nat) (ps : List (ZenPanel F V K)) (ix : List Nat) : Prop where
  count : ps.length = n
  indices : ix.length = n
  distinct : ix.Nodup
  top : ∀ i ∈ ix, i ≤ n
  drawn : ∀ (k i : Nat) (p : ZenPanel F V K), ix[k]? = some i → ps[k]? = some p → ∃ r : OvoRow F K, rows[i]? = some r ∧ r.Is p.pair
  first : ∀ p : ZenPanel F V K, ps[0]? = some p → ix[0]? = some 0 ∧ ∃ r : OvoRow F K, rows[0]? = some r ∧ p.pair = (r.f1, r.f2)
  joined : ∀ (k : Nat) (p p' : ZenPanel F V K), ps[k]? = some p → ps[k + 1]? = some p' →
    (∃ (i : Nat) (r : OvoRow F K), i ≤ n ∧ rows[i]? = some r ∧ i ∉ ix.take (k + 1) ∧ r.Has p.pair.2) → p'.pair.1 = p.pair.2
  strongest : ∀ (k : Nat) (p p' : ZenPanel F V K) (j : Nat) (r' : OvoRow F K), ps[k]? = some p → ps[k + 1]? = some p' → ix[k + 1]? = some j → rows[j]? = some r' →
    ∀ (i : Nat) (r : OvoRow F K), i ≤ n → rows[i]? = some r → i ∉ ix.take (k + 1) → r.Has p.pair.2 → r.val ≠ .nan →
      Num.le r.val r'.val = true ∨ (r.val = .ninf ∧ r'.val = .nan)
  restart : ∀ (k : Nat) (p p' : ZenPanel F V K) (j : Nat), ps[k]? = some p → ps[k + 1]? = some p' → ix[k + 1]? = some j →
    (∀ (i : Nat) (r : OvoRow F K), i ≤ n → rows[i]? = some r → i ∉ ix.take (k + 1) → ¬ r.Has p.pair.2) →
    (∃ r' : OvoRow F K, rows[j]? = some r' ∧ p'.pair = (r'.f1, r'.f2)) ∧
      ∀ (i : Nat) (r : OvoRow F K), i ≤ n → rows[i]? = some r → i ∉ ix.take (k + 1) → j ≤ i

theorem not_mem_take_fst {l : LRows F K} {cand : LRows F K} (hsub : ∀ q ∈ l, q ∈ cand)
    (hinj : ∀ a ∈ cand, ∀ b ∈ cand, a.1 = b.1 → a = b) {q : Nat × OvoRow F K} (hq : q ∈ cand) (k : Nat) :
    q ∉ l.take k ↔ q.1 ∉ (l.map Prod.fst).take k := by
  rw [← List.map_take, not_iff_not]
  constructor
  · intro h; exact List.mem_map.2 ⟨q, h, rfl⟩
  · intro h
    obtain ⟨y, hy, e⟩ := List.mem_map.1 h
    rw [← hinj y (hsub y (List.mem_of_mem_take hy)) q hq e]
    exact hy

theorem zen_path {pdc : Option (Calc F V (Num K))} {rows : List (OvoRow F K)} {len : Int} {kind : String} {z : ZenPlot F V K}
    (h : plotZenplot pdc (some rows) len kind = .ok z) :
    1 ≤ len ∧ len < rows.length ∧ ∃ qs cand : LRows F K, ZenPath rows len.toNat z.panels (qs.map Prod.fst) ∧
      (∀ (k i : Nat) (r : OvoRow F K), (i ≤ len.toNat ∧ rows[i]? = some r ∧ i ∉ (qs.map Prod.fst).take (k + 1)) ↔
        ((i, r) ∈ cand ∧ (i, r) ∉ qs.take (k + 1))) ∧ LabelRule cand qs z.panels := by
  obtain ⟨rows', c, q, left, e1, rfl, hlen, _, hz⟩ := zen_inv h
  cases e1
  obtain ⟨ho, hne⟩ := hz.ordered
  have hcount := zenLoop_len (s := ⟨(q.2.f1, q.2.f2), left, 0, 0⟩) ho hz.loop
  have hl : left.length + 1 = min (len.toNat + 1) rows.length := by
    have := congrArg List.length hz.cands
    simp only [withLabels, List.length_zip, List.length_range, List.length_take, List.length_cons] at this
    omega
  simp only at hcount
  have hpos := hz.pos
  refine ⟨by omega, by omega, ?_⟩
  obtain ⟨qs, hF, hn, hnd, hmem, hfirst, hrule, hlab⟩ :=
    zenLoop_path (q0 := q) (s := ⟨(q.2.f1, q.2.f2), left, 0, 0⟩) (Or.inl rfl) ho hne (Or.inl ⟨rfl, rfl⟩) hz.loop
  have hsub : ∀ y ∈ qs, y ∈ q :: left := fun y hy => by
    rcases hmem y hy with rfl | hy
    · exact List.mem_cons_self
    · exact List.mem_cons_of_mem _ hy
  have hinj : ∀ a ∈ q :: left, ∀ b ∈ q :: left, a.1 = b.1 → a = b := by
    intro a ha b hb e
    have h1 := ((hz.mem a).1 ha).2
    have h2 := ((hz.mem b).1 hb).2
    rw [e, h2] at h1
    exact Prod.ext e (Option.some.inj h1).symm
  have hlenq : qs.length = len.toNat := by rw [hF.length_eq, hn]
  have free : ∀ k i r, (i ≤ len.toNat ∧ rows[i]? = some r ∧ i ∉ (qs.map Prod.fst).take (k + 1)) ↔
      ((i, r) ∈ q :: left ∧ (i, r) ∉ qs.take (k + 1)) := by
    intro k i r
    constructor
    · rintro ⟨h1, h2, h3⟩
      have hm : (i, r) ∈ q :: left := (hz.mem _).2 ⟨h1, h2⟩
      exact ⟨hm, (not_mem_take_fst hsub hinj hm _).2 h3⟩
    · rintro ⟨hm, h3⟩
      exact ⟨((hz.mem _).1 hm).1, ((hz.mem _).1 hm).2, (not_mem_take_fst hsub hinj hm _).1 h3⟩
  refine ⟨qs, q :: left, ?_, free, hlab⟩
  refine ⟨hn, by simp [hlenq], hnd, ?_, ?_, ?_, ?_, ?_, ?_⟩
  · intro i hi
    obtain ⟨y, hy, rfl⟩ := List.mem_map.1 hi
    exact ((hz.mem y).1 (hsub y hy)).1
  · intro k i p hi hp
    rw [List.getElem?_map] at hi
    cases e : qs[k]? with
    | none => rw [e] at hi; cases hi
    | some y =>
      rw [e] at hi
      simp only [Option.map_some, Option.some.injEq] at hi
      subst hi
      have hy := hsub y (List.mem_of_getElem? e)
      refine ⟨y.2, ((hz.mem y).1 hy).2, ?_⟩
      obtain ⟨hk, e'⟩ := List.getElem?_eq_some_iff.1 e
      obtain ⟨hk', e''⟩ := List.getElem?_eq_some_iff.1 hp
      have := (List.forall₂_iff_get.1 hF).2 k hk hk'
      simp only [List.get_eq_getElem, e', e''] at this
      exact this
  · intro p hp
    obtain ⟨h1, h2⟩ := hfirst p hp
    refine ⟨by rw [List.getElem?_map, h2]; simp [hz.label], q.2, hz.first, h1⟩
  · intro k p p' hp hp' ⟨i, r, h1, h2, h3, h4⟩
    obtain ⟨m1, m2⟩ := (free k i r).1 ⟨h1, h2, h3⟩
    have hk : k + 1 < qs.length := by
      rw [hlenq, ← hn]; exact (List.getElem?_eq_some_iff.1 hp').1
    exact ((hrule k p p' _ hp hp' (List.getElem?_eq_getElem hk)).1 ⟨(i, r), m1, m2, h4⟩).1
  · intro k p p' j r' hp hp' hj hr' i r h1 h2 h3 h4 n1
    obtain ⟨m1, m2⟩ := (free k i r).1 ⟨h1, h2, h3⟩
    have hk : k + 1 < qs.length := by
      rw [hlenq, ← hn]; exact (List.getElem?_eq_some_iff.1 hp').1
    have := ((hrule k p p' _ hp hp' (List.getElem?_eq_getElem hk)).1 ⟨(i, r), m1, m2, h4⟩).2 (i, r) m1 m2 h4
    rw [List.getElem?_map, List.getElem?_eq_getElem hk] at hj
    simp only [Option.map_some, Option.some.injEq] at hj
    have hq' := ((hz.mem _).1 (hsub _ (List.getElem_mem hk))).2
    rw [hj, hr'] at hq'
    rw [← Option.some.inj hq'] at this
    have e1 : ∀ {a : Num K}, a ≠ .nan → a.isNaN = false := by
      intro a ha
      cases e : a.isNaN with
      | false => rfl
      | true => exact absurd ((Num.isNaN_iff a).1 e) ha
    rw [fillNinf_of_not (e1 n1)] at this
    by_cases n2 : r'.val = .nan
    · rw [n2] at this
      refine Or.inr ⟨?_, n2⟩
      clear * - this n1
      revert this n1
      cases r.val <;> simp [Num.fillNinf, Num.isNaN, Num.le]
    · rw [fillNinf_of_not (e1 n2)] at this
      exact Or.inl this
  · intro k p p' j hp hp' hj hno
    have hk : k + 1 < qs.length := by
      rw [hlenq, ← hn]; exact (List.getElem?_eq_some_iff.1 hp').1
    rw [List.getElem?_map, List.getElem?_eq_getElem hk] at hj
    simp only [Option.map_some, Option.some.injEq] at hj
    have := (hrule k p p' _ hp hp' (List.getElem?_eq_getElem hk)).2 (fun y hy hyn => by
      obtain ⟨m1, m2, m3⟩ := (free k y.1 y.2).2 ⟨hy, hyn⟩
      exact hno y.1 y.2 m1 m2 m3)
    have hq' := ((hz.mem _).1 (hsub _ (List.getElem_mem hk))).2
    rw [hj] at hq'
    refine ⟨⟨_, hq', this.1⟩, ?_⟩
    intro i r h1 h2 h3
    obtain ⟨m1, m2⟩ := (free k i r).1 ⟨h1, h2, h3⟩
    have := this.2 _ m1 m2
    rwa [hj] at this

/-- **C60 (path).** A returned zenplot of length `len` has `len` panels, drawn from different rows among the first `len + 1` of
the table; the first panel is the first row; as long as an unused candidate contains the last feature, the next panel starts
with that feature and is the strongest of these candidates; otherwise it is the first unused candidate. -/
theorem C60_path {pdc : Option (Calc F V (Num K))} {rows : List (OvoRow F K)} {len : Int} {kind : String} {z : ZenPlot F V K}
    (h : plotZenplot pdc (some rows) len kind = .ok z) :
    1 ≤ len ∧ len < rows.length ∧ ∃ ix, ZenPath rows len.toNat z.panels ix := by
  obtain ⟨h1, h2, qs, cand, h3, _⟩ := zen_path h
  exact ⟨h1, h2, _, h3⟩

/-- two rows are about the same two features -/
def OvoRow.Alike (r r' : OvoRow F K) : Prop := r.Is (r'.f1, r'.f2)

theorem is_unique {r r' : OvoRow F K} {p p' : F × F} (h : r.Is p) (h' : r'.Is p') (e : p' = p ∨ p' = p.swap) : r.Alike r' := by
  unfold OvoRow.Alike OvoRow.Is at *
  rcases e with rfl | rfl <;> rcases h with ⟨a, b⟩ | ⟨a, b⟩ <;> rcases h' with ⟨x, y⟩ | ⟨x, y⟩ <;>
    simp_all

/-- **C60 (distinct pairs).** If no two rows of the table are about the same two features, no two panels are. -/
theorem C60_distinct_pairs {pdc : Option (Calc F V (Num K))} {rows : List (OvoRow F K)} {len : Int} {kind : String}
    {z : ZenPlot F V K} (h : plotZenplot pdc (some rows) len kind = .ok z)
    (hd : ∀ (i j : Nat) (r r' : OvoRow F K), rows[i]? = some r → rows[j]? = some r' → i ≠ j → ¬ r.Alike r') :
    ∀ (i j : Nat) (p p' : ZenPanel F V K), z.panels[i]? = some p → z.panels[j]? = some p' → i ≠ j → p'.pair ≠ p.pair ∧ p'.pair ≠ p.pair.swap := by
  obtain ⟨_, _, ix, hp⟩ := C60_path h
  intro i j p p' hi hj hij
  have li : i < ix.length := by rw [hp.indices, ← hp.count]; exact (List.getElem?_eq_some_iff.1 hi).1
  have lj : j < ix.length := by rw [hp.indices, ← hp.count]; exact (List.getElem?_eq_some_iff.1 hj).1
  obtain ⟨r, hr, his⟩ := hp.drawn i _ p (List.getElem?_eq_getElem li) hi
  obtain ⟨r', hr', his'⟩ := hp.drawn j _ p' (List.getElem?_eq_getElem lj) hj
  have hne : ix[i] ≠ ix[j] := fun e => hij ((List.Nodup.getElem_inj_iff hp.distinct).1 e)
  have := hd _ _ r r' hr hr' hne
  exact ⟨fun e => this (is_unique his his' (Or.inl e)), fun e => this (is_unique his his' (Or.inr e))⟩

/-- **C60 (strongest).** If the table is sorted from strong to weak, the first panel shows a strongest pair and every panel shows a
pair with at most `len` strictly stronger ones. -/
theorem C60_among_strongest {pdc : Option (Calc F V (Num K))} {rows : List (OvoRow F K)} {len : Int} {kind : String}
    {z : ZenPlot F V K} (h : plotZenplot pdc (some rows) len kind = .ok z)
    (hs : rows.Pairwise (fun r r' => Num.le r'.val r.val = true)) (hn : ∀ r ∈ rows, r.val ≠ .nan) :
    (∀ p : ZenPanel F V K, z.panels[0]? = some p → ∃ r ∈ rows, r.Is p.pair ∧ ∀ r' ∈ rows, Num.le r'.val r.val = true) ∧
    ∀ p ∈ z.panels, ∃ r ∈ rows, r.Is p.pair ∧ ((rows.filter (fun r' => Num.lt r.val r'.val)).length : Int) ≤ len := by
  obtain ⟨h1, _, ix, hp⟩ := C60_path h
  constructor
  · intro p hp0
    obtain ⟨_, r, hr, e⟩ := hp.first p hp0
    refine ⟨r, List.mem_of_getElem? hr, Or.inl ⟨by rw [e], by rw [e]⟩, ?_⟩
    cases rows with
    | nil => cases hr
    | cons x xs =>
      simp only [List.getElem?_cons_zero, Option.some.injEq] at hr
      subst hr
      intro r' hr'
      rcases List.mem_cons.1 hr' with rfl | hr'
      · exact Num.le_refl' (hn _ List.mem_cons_self)
      · exact (List.pairwise_cons.1 hs).1 r' hr'
  · intro p hpm
    obtain ⟨k, hk⟩ := List.mem_iff_getElem?.1 hpm
    have lk : k < ix.length := by rw [hp.indices, ← hp.count]; exact (List.getElem?_eq_some_iff.1 hk).1
    obtain ⟨r, hr, his⟩ := hp.drawn k _ p (List.getElem?_eq_getElem lk) hk
    refine ⟨r, List.mem_of_getElem? hr, his, ?_⟩
    have htop := hp.top _ (List.getElem_mem lk)
    obtain ⟨hi, e⟩ := List.getElem?_eq_some_iff.1 hr
    have hsplit := List.take_append_drop ix[k] rows
    have hdrop : (rows.drop ix[k]).filter (fun r' => Num.lt r.val r'.val) = [] := by
      rw [List.filter_eq_nil_iff]
      intro r' hr'
      have hle : Num.le r'.val r.val = true := by
        rw [List.drop_eq_getElem_cons hi, e] at hr'
        have hs' := hs.drop (i := ix[k])
        rw [List.drop_eq_getElem_cons hi, e] at hs'
        rcases List.mem_cons.1 hr' with rfl | hr'
        · exact Num.le_refl' (hn _ (List.mem_of_getElem? hr))
        · exact (List.pairwise_cons.1 hs').1 r' hr'
      simp [Num.lt, hle]
    have : (rows.filter (fun r' => Num.lt r.val r'.val)).length ≤ ix[k] := by
      conv_lhs => rw [← hsplit]
      rw [List.filter_append, hdrop, List.append_nil]
      calc _ ≤ (rows.take ix[k]).length := List.length_filter_le _ _
        _ ≤ ix[k] := by rw [List.length_take]; omega
    omega

variable {g : Row F V → Num K} {c : Calc F V (Num K)}

theorem pairVals_ne (hp : PublicCalc g c) (nd : c.X.cols.Nodup) (hX : c.X.rows ≠ []) {f f' : F} (h : f ∈ c.X.cols)
    (h' : f' ∈ c.X.cols) (hne : f ≠ f') : pairVals c (f, f') ≠ [] := by
  obtain ⟨r, hr⟩ := List.exists_mem_of_ne_nil _ hX
  obtain ⟨p, X, b, ops, hw, e⟩ := id hp
  obtain ⟨ys, h1, h2⟩ := (C09_lookup_pairs p X (by rw [e, ops_X hw] at nd; exact nd) b ops f f' [(r f, r f')]).2.2
    (by rw [e, ops_X hw] at h h'; exact ⟨h, h', hne⟩) (by
      intro v hv
      simp only [List.mem_singleton] at hv
      subst hv
      rw [e, ops_X hw] at hr
      exact ⟨List.mem_map.2 ⟨r, hr, rfl⟩, List.mem_map.2 ⟨r, hr, rfl⟩⟩)
  rw [← e] at h1
  match ys, h2 with
  | [y], _ =>
    intro e
    have := (pairVals_mem hp nd (f := f) (f' := f') (v := y)).2 ⟨_, _, h1⟩
    rw [e] at this
    cases this

/-- every row of the table is about two different columns of the data of the calculator -/
def ValidRows (c : Calc F V (Num K)) (rows : List (OvoRow F K)) : Prop :=
  ∀ r ∈ rows, r.f1 ∈ c.X.cols ∧ r.f2 ∈ c.X.cols ∧ r.f1 ≠ r.f2

theorem ValidRows.tables (hp : PublicCalc g c) (nd : c.X.cols.Nodup) {rows : List (OvoRow F K)} (hv : ValidRows c rows) :
    ∀ r ∈ rows, ∀ p : F × F, r.Is p → ∃ t, getPdPairsValues c p = .ok t := by
  intro r hr p hp'
  obtain ⟨h1, h2, h3⟩ := hv r hr
  refine (pairsValues_ok hp nd (f := p.1) (f' := p.2)).2 ?_
  rcases hp' with ⟨a, b⟩ | ⟨a, b⟩
  · rw [← a, ← b]; exact ⟨h1, h2, h3⟩
  · rw [← a, ← b]; exact ⟨h2, h1, h3.symm⟩

/-- the first steps of `plot_zenplot` succeed -/
theorem zen_start (hp : PublicCalc g c) (nd : c.X.cols.Nodup) (hX : c.X.rows ≠ []) {rows : List (OvoRow F K)}
    (hv : ValidRows c rows) (hne : rows ≠ []) {n : Nat} :
    ∃ mm q left, getPdDict (some c) (rows.take (n + 1)) = .ok mm ∧ withLabels (rows.take (n + 1)) = q :: left ∧
      q.2 ∈ rows ∧ (∀ y ∈ left, y.2 ∈ rows) ∧ Ordered left ∧ left.length + 1 = min (n + 1) rows.length := by
  obtain ⟨mm, hmm⟩ := pdDict_ok (c := c) (rows := rows.take (n + 1)) (.fin 1, .fin 0) (fun r hr => by
    obtain ⟨h1, h2, h3⟩ := hv r (List.mem_of_mem_take hr)
    exact pairVals_ne hp nd hX h1 h2 h3)
  have hl : (withLabels (rows.take (n + 1))).length = min (n + 1) rows.length := by
    simp only [withLabels, List.length_zip, List.length_range, List.length_take]
    omega
  have hpos : 0 < rows.length := List.length_pos_iff.2 hne
  cases e : withLabels (rows.take (n + 1)) with
  | nil => rw [e] at hl; simp at hl; omega
  | cons q left =>
    have hm : ∀ y ∈ q :: left, y.2 ∈ rows := by
      intro y hy
      rw [← e, mem_withLabels] at hy
      exact List.mem_of_mem_take (List.mem_of_getElem? hy)
    have ho := ordered_withLabels (rows.take (n + 1))
    rw [e] at ho hl
    exact ⟨mm, q, left, by rw [getPdDict_some]; exact hmm, rfl, hm q List.mem_cons_self,
      fun y hy => hm y (List.mem_cons_of_mem _ hy), (List.pairwise_cons.1 ho).2, by simpa using hl⟩

theorem pyHead_nat (n : Nat) (rows : List (OvoRow F K)) : pyHead ((n : Int) + 1) rows = rows.take (n + 1) := by
  unfold pyHead
  rw [if_pos (by omega)]
  congr 1

theorem not_nan_of_ne {a : Num K} (h : a ≠ .nan) : a.isNaN = false := by
  cases e : a.isNaN with
  | false => rfl
  | true => exact absurd ((Num.isNaN_iff a).1 e) h

/-- **C60 (returns).** With more than `n ≥ 1` pairs of different columns, all of known strength, and a calculator over non-empty
data, `plot_zenplot(n)` returns for both kinds of panels. -/
theorem C60_returns (hp : PublicCalc g c) (nd : c.X.cols.Nodup) (hX : c.X.rows ≠ []) {rows : List (OvoRow F K)}
    (hv : ValidRows c rows) (hn : ∀ r ∈ rows, r.val ≠ .nan) {n : Nat} (h1 : 1 ≤ n) (h2 : n < rows.length) {kind : String}
    (hk : kind = "colormesh" ∨ kind = "contour") : ∃ z, plotZenplot (some c) (some rows) n kind = .ok z := by
  obtain ⟨mm, q, left, e1, e2, m1, m2, ho, hl⟩ := zen_start hp nd hX hv (n := n) (by intro e; rw [e] at h2; simp at h2)
  obtain ⟨lo, hi⟩ := mm
  have htab := hv.tables hp nd
  obtain ⟨ps, hps⟩ := zenLoop_returns (c := c) (nrows := (((n : Int) + 1) / 2).toNat) (ncols := ((n : Int) / 2 + 1).toNat) (n := n) (k := 0)
    (s := ⟨(q.2.f1, q.2.f2), left, 0, 0⟩) rfl rfl ho (by simp only; omega) (by omega) (by omega)
    (fun y hy => not_nan_of_ne (hn _ (m2 y hy))) (htab q.2 m1 _ (Or.inl ⟨rfl, rfl⟩)) (fun y hy p => htab y.2 (m2 y hy) p)
  refine ⟨⟨lo, hi, (((n : Int) + 1) / 2).toNat, ((n : Int) / 2 + 1).toNat, ps⟩, ?_⟩
  unfold plotZenplot
  simp only [pyHead_nat, e1, e2, Int.toNat_natCast, hps]
  rw [if_neg]
  rintro (h | ⟨h, h'⟩)
  · omega
  · rcases hk with hk | hk
    · exact h hk
    · exact h' hk

/-- **C60 (too few pairs).** With at most `n` pairs `plot_zenplot(n)` raises IndexError instead of drawing fewer panels. -/
theorem C60_too_few (hp : PublicCalc g c) (nd : c.X.cols.Nodup) (hX : c.X.rows ≠ []) {rows : List (OvoRow F K)}
    (hv : ValidRows c rows) (hn : ∀ r ∈ rows, r.val ≠ .nan) {n : Nat} (h1 : 1 ≤ n) (h2 : rows.length ≤ n) (kind : String) :
    plotZenplot (some c) (some rows) n kind = .error .indexError := by
  cases hrows : rows with
  | nil => simp [plotZenplot, pyHead, getPdDict, withLabels]
  | cons r0 rs =>
    rw [← hrows]
    obtain ⟨mm, q, left, e1, e2, m1, m2, ho, hl⟩ := zen_start hp nd hX hv (n := n) (by rw [hrows]; simp)
    obtain ⟨lo, hi⟩ := mm
    have htab := hv.tables hp nd
    have hps := zenLoop_short (c := c) (nrows := (((n : Int) + 1) / 2).toNat) (ncols := ((n : Int) / 2 + 1).toNat) (n := n) (k := 0)
      (s := ⟨(q.2.f1, q.2.f2), left, 0, 0⟩) rfl rfl ho (by simp only; omega) (by omega) (by omega)
      (fun y hy => not_nan_of_ne (hn _ (m2 y hy))) (htab q.2 m1 _ (Or.inl ⟨rfl, rfl⟩)) (fun y hy p => htab y.2 (m2 y hy) p)
    unfold plotZenplot
    simp only [pyHead_nat, e1, e2, Int.toNat_natCast, hps]

/-! ## C61 -/

/-- **C61.** The panels of a returned zenplot are inside the grid and at different places. -/
theorem C61_positions {pdc : Option (Calc F V (Num K))} {ovo : Option (List (OvoRow F K))} {len : Int} {kind : String}
    {z : ZenPlot F V K} (h : plotZenplot pdc ovo len kind = .ok z) :
    (∀ p ∈ z.panels, p.pos.1 < z.nrows ∧ p.pos.2 < z.ncols) ∧
    ∀ (i j : Nat) (p p' : ZenPanel F V K), z.panels[i]? = some p → z.panels[j]? = some p' → i ≠ j → p.pos ≠ p'.pos := by
  obtain ⟨rows, c, q, left, rfl, rfl, hlen, _, hz⟩ := zen_inv h
  obtain ⟨ho, _⟩ := hz.ordered
  have hpos := zenLoop_pos (k := 0) (s := ⟨(q.2.f1, q.2.f2), left, 0, 0⟩) rfl rfl ho hz.loop
  constructor
  · intro p hp
    obtain ⟨k, hk⟩ := List.mem_iff_getElem?.1 hp
    exact (hpos k p hk).2
  · intro i j p p' hi hj hij e
    rw [(hpos i p hi).1, (hpos j p' hj).1, Prod.mk.injEq] at e
    omega

/-- **C61 (grid).** The grid of a zenplot of length `n` is the one of a staircase: no row and no column of it stays empty. -/
theorem C61_no_empty_row {pdc : Option (Calc F V (Num K))} {ovo : Option (List (OvoRow F K))} {len : Int} {kind : String}
    {z : ZenPlot F V K} (h : plotZenplot pdc ovo len kind = .ok z) :
    (∀ i < z.nrows, ∃ p ∈ z.panels, p.pos.1 = i) ∧ (∀ j < z.ncols, ∃ p ∈ z.panels, p.pos.2 = j) := by
  obtain ⟨rows, c, q, left, rfl, rfl, hlen, _, hz⟩ := zen_inv h
  obtain ⟨ho, hne⟩ := hz.ordered
  have hpos := zenLoop_pos (k := 0) (s := ⟨(q.2.f1, q.2.f2), left, 0, 0⟩) rfl rfl ho hz.loop
  obtain ⟨qs, _, hn, _⟩ := zenLoop_path (q0 := q) (s := ⟨(q.2.f1, q.2.f2), left, 0, 0⟩) (Or.inl rfl) ho hne (Or.inl ⟨rfl, rfl⟩) hz.loop
  have hp := hz.pos
  rw [hz.nrows, hz.ncols]
  constructor
  · intro i hi
    have hk : 2 * i < z.panels.length := by rw [hn]; omega
    refine ⟨_, List.getElem_mem hk, ?_⟩
    rw [(hpos _ _ (List.getElem?_eq_getElem hk)).1]
    simp only; omega
  · intro j hj
    have hk : 2 * j - 1 < z.panels.length := by rw [hn]; omega
    refine ⟨_, List.getElem_mem hk, ?_⟩
    rw [(hpos _ _ (List.getElem?_eq_getElem hk)).1]
    simp only; omega

/-! ## C62 -/

/-- **C62 (`get_pd_pairs_values`).** For two different columns, in either order, the matrix has the values of the first feature
along its rows and of the second one along its columns, and its entries are the values the calculator returns; any other pair
raises KeyError. -/
theorem C62_pairs_values (hp : PublicCalc g c) (nd : c.X.cols.Nodup) (f f' : F) :
    (f ∈ c.X.cols ∧ f' ∈ c.X.cols ∧ f ≠ f' →
      ∃ t, getPdPairsValues c (f, f') = .ok t ∧ ShowsPd c f' f t.f2Values t.f1Values t.pdValues) ∧
    (¬ (f ∈ c.X.cols ∧ f' ∈ c.X.cols ∧ f ≠ f') → getPdPairsValues c (f, f') = .error .keyError) := by
  refine ⟨fun h => ?_, pairsValues_error hp nd⟩
  obtain ⟨t, ht⟩ := (pairsValues_ok hp nd).2 h
  exact ⟨t, ht, pairsValues_shows hp nd ht⟩

/-- the feature on the horizontal axis -/
def ZenPanel.xFeature (p : ZenPanel F V K) : F := if p.pos.1 < p.pos.2 then p.pair.2 else p.pair.1
/-- the feature on the vertical axis -/
def ZenPanel.yFeature (p : ZenPanel F V K) : F := if p.pos.1 < p.pos.2 then p.pair.1 else p.pair.2

/-- **C62 (panels).** Every panel of a returned zenplot shows the stored partial dependence of its two features, with one of
them on each axis. -/
theorem C62_panels (hp : PublicCalc g c) (nd : c.X.cols.Nodup) {ovo : Option (List (OvoRow F K))} {len : Int} {kind : String}
    {z : ZenPlot F V K} (h : plotZenplot (some c) ovo len kind = .ok z) :
    ∀ p ∈ z.panels, ShowsPd c p.xFeature p.yFeature p.xs p.ys p.mesh := by
  obtain ⟨rows, c', q, left, rfl, e, hlen, _, hz⟩ := zen_inv h
  cases e
  obtain ⟨ho, _⟩ := hz.ordered
  intro p hpp
  obtain ⟨t, ht, hd⟩ := zenLoop_data (s := ⟨(q.2.f1, q.2.f2), left, 0, 0⟩) ho hz.loop p hpp
  have hs := pairsValues_shows hp nd (f := p.pair.1) (f' := p.pair.2) ht
  unfold ZenPanel.xFeature ZenPanel.yFeature
  rcases hd with ⟨h1, h2, h3, h4⟩ | ⟨h1, h2, h3, h4⟩
  · rw [if_pos h1, if_pos h1, h2, h3, h4]
    exact hs
  · rw [if_neg h1, if_neg h1, h2, h3, h4]
    exact hs.transpose

/-! ## C63 and C82: the colour scale -/

/-- `v` is a stored value of a candidate of the zenplot of length `n` -/
def CandidateValue (c : Calc F V (Num K)) (rows : List (OvoRow F K)) (n : Nat) (v : Num K) : Prop :=
  ∃ r ∈ rows.take (n + 1), ∃ x y, c.getPairs r.f1 r.f2 [(x, y)] = .ok [v]

theorem candidateValue_iff (hp : PublicCalc g c) (nd : c.X.cols.Nodup) {rows : List (OvoRow F K)} {n : Nat} {v : Num K} :
    CandidateValue c rows n v ↔ ∃ r ∈ rows.take (n + 1), v ∈ pairVals c (r.f1, r.f2) := by
  unfold CandidateValue
  simp only [pairVals_mem hp nd]

/-- **C63 (bounds).** If no stored value of a candidate is NaN, the limits of the colour scale are numbers and bound all of them. -/
theorem C63_bounds (hp : PublicCalc g c) (nd : c.X.cols.Nodup) {rows : List (OvoRow F K)} {len : Int} {kind : String}
    {z : ZenPlot F V K} (h : plotZenplot (some c) (some rows) len kind = .ok z)
    (hn : ¬ CandidateValue c rows len.toNat .nan) :
    z.vmin ≠ .nan ∧ z.vmax ≠ .nan ∧
      ∀ v, CandidateValue c rows len.toNat v → Num.le z.vmin v = true ∧ Num.le v z.vmax = true := by
  obtain ⟨rows', c', q, left, e, e', hlen, _, hz⟩ := zen_inv h
  cases e; cases e'
  have hn' : ∀ r ∈ rows.take (len.toNat + 1), .nan ∉ pairVals c (r.f1, r.f2) := fun r hr hv =>
    hn ((candidateValue_iff hp nd).2 ⟨r, hr, hv⟩)
  obtain ⟨h1, h2, h3, h4, h5⟩ := pdDict_num (by simp) (by simp) hn' hz.scale
  refine ⟨?_, ?_, ?_⟩
  · rcases h1 with h1 | ⟨r, hr, h1⟩
    · simp only at h1; rw [h1]; simp
    · intro e; simp only [e] at h1; exact hn' r hr h1
  · rcases h2 with h1 | ⟨r, hr, h1⟩
    · simp only at h1; rw [h1]; simp
    · intro e; simp only [e] at h1; exact hn' r hr h1
  · intro v hv
    obtain ⟨r, hr, hv⟩ := (candidateValue_iff hp nd).1 hv
    exact h5 r hr v hv

/-- what is drawn are values of candidates -/
theorem panel_candidate (hp : PublicCalc g c) (nd : c.X.cols.Nodup) {rows : List (OvoRow F K)} {len : Int} {kind : String}
    {z : ZenPlot F V K} (h : plotZenplot (some c) (some rows) len kind = .ok z) :
    ∀ p ∈ z.panels, ∀ v ∈ p.mesh.flatten, CandidateValue c rows len.toNat v := by
  intro p hpp v hv
  have hs := C62_panels hp nd h p hpp
  obtain ⟨_, _, ix, hpath⟩ := C60_path h
  obtain ⟨k, hk⟩ := List.mem_iff_getElem?.1 hpp
  have lk : k < ix.length := by rw [hpath.indices, ← hpath.count]; exact (List.getElem?_eq_some_iff.1 hk).1
  obtain ⟨r, hr, his⟩ := hpath.drawn k _ p (List.getElem?_eq_getElem lk) hk
  have htop := hpath.top _ (List.getElem_mem lk)
  have hrt : r ∈ rows.take (len.toNat + 1) := by
    apply List.mem_of_getElem? (i := ix[k])
    rw [List.getElem?_take, if_pos (by omega)]
    exact hr
  obtain ⟨x, hx, y, hy, hv⟩ := hs.mem_iff.1 hv
  have hne : p.xFeature ≠ p.yFeature := by
    obtain ⟨rows', c', q, left, e, e', hlen, _, hz⟩ := zen_inv h
    cases e; cases e'
    obtain ⟨ho, _⟩ := hz.ordered
    obtain ⟨t, ht, _⟩ := zenLoop_data (s := ⟨(q.2.f1, q.2.f2), left, 0, 0⟩) ho hz.loop p hpp
    have := ((pairsValues_ok hp nd (f := p.pair.1) (f' := p.pair.2)).1 ⟨t, ht⟩).2.2
    unfold ZenPanel.xFeature ZenPanel.yFeature
    split
    · exact this.symm
    · exact this
  have hxy : (r.f1 = p.xFeature ∧ r.f2 = p.yFeature) ∨ (r.f1 = p.yFeature ∧ r.f2 = p.xFeature) := by
    unfold ZenPanel.xFeature ZenPanel.yFeature
    split
    · exact his.symm
    · exact his
  refine ⟨r, hrt, ?_⟩
  rcases hxy with ⟨a, b⟩ | ⟨a, b⟩
  · exact ⟨x, y, by rw [a, b]; exact hv⟩
  · refine ⟨y, x, ?_⟩
    rw [a, b, hp.symm nd hne.symm]
    exact hv

/-- **C63 (drawn values).** In particular the scale covers every value drawn, if no candidate has a NaN. -/
theorem C63_covers_drawn (hp : PublicCalc g c) (nd : c.X.cols.Nodup) {rows : List (OvoRow F K)} {len : Int} {kind : String}
    {z : ZenPlot F V K} (h : plotZenplot (some c) (some rows) len kind = .ok z)
    (hn : ¬ CandidateValue c rows len.toNat .nan) :
    ∀ p ∈ z.panels, ∀ v ∈ p.mesh.flatten, Num.le z.vmin v = true ∧ Num.le v z.vmax = true :=
  fun p hpp v hv => (C63_bounds hp nd h hn).2.2 v (panel_candidate hp nd h p hpp v hv)

/-- **C63 (NaN).** If a stored value of the last candidate is NaN, both limits are NaN. -/
theorem C63_nan_last (hp : PublicCalc g c) (nd : c.X.cols.Nodup) {rows init : List (OvoRow F K)} {r : OvoRow F K} {len : Int}
    {kind : String} {z : ZenPlot F V K} (h : plotZenplot (some c) (some rows) len kind = .ok z)
    (hr : rows.take (len.toNat + 1) = init ++ [r]) {x y : V} (hn : c.getPairs r.f1 r.f2 [(x, y)] = .ok [.nan]) :
    z.vmin = .nan ∧ z.vmax = .nan := by
  obtain ⟨rows', c', q, left, e, e', hlen, _, hz⟩ := zen_inv h
  cases e; cases e'
  have hs := hz.scale
  rw [hr, List.foldlM_append] at hs
  cases e : init.foldlM (pdDictStep c) (.fin 1, .fin 0) with
  | error x => rw [e] at hs; cases hs
  | ok mm =>
    rw [e] at hs
    have hs : [r].foldlM (pdDictStep c) mm = .ok (z.vmin, z.vmax) := hs
    rw [List.foldlM_cons] at hs
    cases e2 : pdDictStep c mm r with
    | error x => rw [e2] at hs; cases hs
    | ok m2 =>
      rw [e2] at hs
      have := pdDictStep_nan ((pairVals_mem hp nd).2 ⟨x, y, hn⟩) e2
      rw [this] at hs
      have hs : (Except.ok (.nan, .nan) : Except Err (Num K × Num K)) = .ok (z.vmin, z.vmax) := hs
      have := Prod.mk.inj (Except.ok.inj hs)
      exact ⟨this.1.symm, this.2.symm⟩

/-- **C63 (NaN, forgotten values).** If a candidate has a NaN and the ones after it have none, the limits are the smallest and
the largest value of the later candidates: all candidates up to it are ignored. -/
theorem C63_nan_forgets (hp : PublicCalc g c) (nd : c.X.cols.Nodup) {rows init post : List (OvoRow F K)} {r : OvoRow F K} {len : Int}
    {kind : String} {z : ZenPlot F V K} (h : plotZenplot (some c) (some rows) len kind = .ok z)
    (hr : rows.take (len.toNat + 1) = init ++ r :: post) (hpost : post ≠ []) {x y : V}
    (hn : c.getPairs r.f1 r.f2 [(x, y)] = .ok [.nan])
    (hn' : ∀ r' ∈ post, ∀ x y, c.getPairs r'.f1 r'.f2 [(x, y)] ≠ .ok [.nan]) :
    (∃ r' ∈ post, ∃ x y, c.getPairs r'.f1 r'.f2 [(x, y)] = .ok [z.vmin]) ∧
    (∃ r' ∈ post, ∃ x y, c.getPairs r'.f1 r'.f2 [(x, y)] = .ok [z.vmax]) ∧
    ∀ r' ∈ post, ∀ x y v, c.getPairs r'.f1 r'.f2 [(x, y)] = .ok [v] → Num.le z.vmin v = true ∧ Num.le v z.vmax = true := by
  obtain ⟨rows', c', q, left, e, e', hlen, _, hz⟩ := zen_inv h
  cases e; cases e'
  have hs := hz.scale
  have hn2 : ∀ r' ∈ post, ∀ v ∈ pairVals c (r'.f1, r'.f2), v ≠ .nan := by
    intro r' hr' v hv e
    rw [e] at hv
    obtain ⟨x, y, hv⟩ := (pairVals_mem hp nd).1 hv
    exact hn' r' hr' x y hv
  rw [hr, List.foldlM_append] at hs
  cases e : init.foldlM (pdDictStep c) (.fin 1, .fin 0) with
  | error x => rw [e] at hs; cases hs
  | ok mm =>
    rw [e] at hs
    have hs : (r :: post).foldlM (pdDictStep c) mm = .ok (z.vmin, z.vmax) := hs
    rw [List.foldlM_cons] at hs
    cases e2 : pdDictStep c mm r with
    | error x => rw [e2] at hs; cases hs
    | ok m2 =>
      rw [e2] at hs
      have := pdDictStep_nan ((pairVals_mem hp nd).2 ⟨x, y, hn⟩) e2
      rw [this] at hs
      have hs : post.foldlM (pdDictStep c) (.nan, .nan) = .ok (z.vmin, z.vmax) := hs
      cases post with
      | nil => exact absurd rfl hpost
      | cons r1 post =>
        rw [List.foldlM_cons] at hs
        cases e3 : pdDictStep c (.nan, .nan) r1 with
        | error x => rw [e3] at hs; cases hs
        | ok m3 =>
          rw [e3] at hs
          have hs : post.foldlM (pdDictStep c) m3 = .ok (z.vmin, z.vmax) := hs
          obtain ⟨M, m, a1, a2, rfl⟩ := pdDictStep_inv e3
          rw [pyMin2_nan', pyMax2_nan'] at hs
          have hr1 := hn2 r1 List.mem_cons_self
          obtain ⟨M', b1, b2, b3⟩ := max?_num (max?_ne a1) hr1
          obtain ⟨m', d1, d2, d3⟩ := min?_num (max?_ne a1) hr1
          rw [a1] at b1; cases b1
          rw [a2] at d1; cases d1
          obtain ⟨q1, q2, q3, q4, q5⟩ := pdDict_num (hr1 _ d2) (hr1 _ b2)
            (fun r' hr' hv => hn2 r' (List.mem_cons_of_mem _ hr') _ hv rfl) hs
          simp only at q1 q2 q3 q4
          refine ⟨?_, ?_, ?_⟩
          · rcases q1 with q | ⟨r', hr', hv⟩
            · exact ⟨r1, List.mem_cons_self, (pairVals_mem hp nd).1 (by rw [q]; exact d2)⟩
            · exact ⟨r', List.mem_cons_of_mem _ hr', (pairVals_mem hp nd).1 hv⟩
          · rcases q2 with q | ⟨r', hr', hv⟩
            · exact ⟨r1, List.mem_cons_self, (pairVals_mem hp nd).1 (by rw [q]; exact b2)⟩
            · exact ⟨r', List.mem_cons_of_mem _ hr', (pairVals_mem hp nd).1 hv⟩
          · intro r' hr' x y v hv
            rcases List.mem_cons.1 hr' with rfl | hr'
            · have hv := (pairVals_mem hp nd).2 ⟨x, y, hv⟩
              exact ⟨Num.le_trans' q3 (d3 v hv), Num.le_trans' (b3 v hv) q4⟩
            · exact q5 r' hr' v ((pairVals_mem hp nd).2 ⟨x, y, hv⟩)

/-- **C82 (partial).** Without NaN the lower limit is 1 or the smallest value of a candidate, whichever is smaller; the upper
limit is 0 or the largest value of a candidate, whichever is larger. Missing: the limits are attained by a *drawn* value, which
fails if all values are above 1 or below 0, and because the candidate left over is counted as well. -/
theorem C82_limits_partial (hp : PublicCalc g c) (nd : c.X.cols.Nodup) {rows : List (OvoRow F K)} {len : Int} {kind : String}
    {z : ZenPlot F V K} (h : plotZenplot (some c) (some rows) len kind = .ok z)
    (hn : ¬ CandidateValue c rows len.toNat .nan) :
    (z.vmin = .fin 1 ∨ CandidateValue c rows len.toNat z.vmin) ∧ Num.le z.vmin (.fin 1) = true ∧
    (z.vmax = .fin 0 ∨ CandidateValue c rows len.toNat z.vmax) ∧ Num.le (.fin 0) z.vmax = true ∧
    ∀ v, CandidateValue c rows len.toNat v → Num.le z.vmin v = true ∧ Num.le v z.vmax = true := by
  have hb := (C63_bounds hp nd h hn).2.2
  obtain ⟨rows', c', q, left, e, e', hlen, _, hz⟩ := zen_inv h
  cases e; cases e'
  have hn' : ∀ r ∈ rows.take (len.toNat + 1), .nan ∉ pairVals c (r.f1, r.f2) := fun r hr hv =>
    hn ((candidateValue_iff hp nd).2 ⟨r, hr, hv⟩)
  obtain ⟨h1, h2, h3, h4, h5⟩ := pdDict_num (by simp) (by simp) hn' hz.scale
  simp only at h1 h2 h3 h4
  refine ⟨?_, h3, ?_, h4, hb⟩
  · rcases h1 with h1 | h1
    · exact Or.inl h1
    · exact Or.inr ((candidateValue_iff hp nd).2 h1)
  · rcases h2 with h1 | h1
    · exact Or.inl h1
    · exact Or.inr ((candidateValue_iff hp nd).2 h1)

/-! ## C80 -/

theorem sorted_eq {l l' : List V} (h : l.Pairwise (· < ·)) (h' : l'.Pairwise (· < ·)) (hm : ∀ v, v ∈ l ↔ v ∈ l') : l = l' := by
  have hp : l.Perm l' := (List.perm_ext_iff_of_nodup (h.imp (fun a => ne_of_lt a)) (h'.imp (fun a => ne_of_lt a))).2 hm
  exact hp.eq_of_pairwise (fun a b _ _ h1 h2 => absurd h1 (not_lt_of_gt h2)) h h'

/-- **C80.** Two consecutive panels joined by a feature are next to each other: either in the same row, and then they have the
same feature and the same values on the vertical axis, or in the same column, with the same horizontal axis. -/
theorem C80_shared_axis (hp : PublicCalc g c) (nd : c.X.cols.Nodup) {ovo : Option (List (OvoRow F K))} {len : Int} {kind : String}
    {z : ZenPlot F V K} (h : plotZenplot (some c) ovo len kind = .ok z) {k : Nat} {p p' : ZenPanel F V K}
    (hk : z.panels[k]? = some p) (hk' : z.panels[k + 1]? = some p') (hj : p'.pair.1 = p.pair.2) :
    (p'.pos = (p.pos.1, p.pos.2 + 1) ∧ p'.yFeature = p.yFeature ∧ p'.ys = p.ys) ∨
    (p'.pos = (p.pos.1 + 1, p.pos.2) ∧ p'.xFeature = p.xFeature ∧ p'.xs = p.xs) := by
  have s1 := C62_panels hp nd h p (List.mem_of_getElem? hk)
  have s2 := C62_panels hp nd h p' (List.mem_of_getElem? hk')
  obtain ⟨rows, c', q, left, rfl, e', hlen, _, hz⟩ := zen_inv h
  cases e'
  obtain ⟨ho, _⟩ := hz.ordered
  have hpos := zenLoop_pos (k := 0) (s := ⟨(q.2.f1, q.2.f2), left, 0, 0⟩) rfl rfl ho hz.loop
  have e1 := (hpos k p hk).1
  have e2 := (hpos (k + 1) p' hk').1
  simp only [Nat.zero_add] at e1 e2
  by_cases hodd : k % 2 = 0
  · left
    have hy : p'.yFeature = p.yFeature := by
      unfold ZenPanel.yFeature
      rw [e1, e2, if_pos (by simp only; omega), if_neg (by simp only; omega), hj]
    refine ⟨?_, hy, ?_⟩
    · rw [e1, e2]
      simp only [Prod.mk.injEq]
      omega
    · refine sorted_eq s2.ys_sorted s1.ys_sorted (fun v => ?_)
      rw [s1.ys_mem, s2.ys_mem, hy]
  · right
    have hx : p'.xFeature = p.xFeature := by
      unfold ZenPanel.xFeature
      rw [e1, e2, if_neg (by simp only; omega), if_pos (by simp only; omega), hj]
    refine ⟨?_, hx, ?_⟩
    · rw [e1, e2]
      simp only [Prod.mk.injEq]
      omega
    · refine sorted_eq s2.xs_sorted s1.xs_sorted (fun v => ?_)
      rw [s1.xs_mem, s2.xs_mem, hx]

/-! ## C81 -/

/-- **C81 (partial).** On every panel but the last one, titles name the feature on the horizontal axis and vertical labels the
feature on the vertical axis; the axis shared with the panel before is always labelled, the other one unless the next panel
continues with its feature. On the last panel this holds if no unused candidate contains the panel's second feature. Missing:
the last panel otherwise (`C81_fails`). -/
theorem C81_labels_partial {pdc : Option (Calc F V (Num K))} {rows : List (OvoRow F K)} {len : Int} {kind : String}
    {z : ZenPlot F V K} (h : plotZenplot pdc (some rows) len kind = .ok z) :
    ∃ ix, ZenPath rows len.toNat z.panels ix ∧ ∀ (k : Nat) (p : ZenPanel F V K), z.panels[k]? = some p →
      (k + 1 < z.panels.length ∨ ∀ (i : Nat) (r : OvoRow F K), i ≤ len.toNat → rows[i]? = some r → i ∉ ix.take (k + 1) → ¬ r.Has p.pair.2) →
      (∀ f, p.title = some f → f = p.xFeature) ∧ (∀ f, p.ylabel = some f → f = p.yFeature) ∧
      (if p.pos.1 < p.pos.2 then p.ylabel ≠ none else p.title ≠ none) ∧
      ((∀ p' : ZenPanel F V K, z.panels[k + 1]? = some p' → p'.pair.1 ≠ p.pair.2) → p.title = some p.xFeature ∧ p.ylabel = some p.yFeature) := by
  obtain ⟨_, _, qs, cand, hpath, free, hlab⟩ := zen_path h
  refine ⟨_, hpath, ?_⟩
  intro k p hk hlast
  obtain ⟨l1, l2, l3⟩ := hlab k p hk
  have hno_iff : (∀ q ∈ cand, q ∉ qs.take (k + 1) → ¬ q.2.Has p.pair.2) ↔
      ∀ (i : Nat) (r : OvoRow F K), i ≤ len.toNat → rows[i]? = some r → i ∉ (qs.map Prod.fst).take (k + 1) → ¬ r.Has p.pair.2 := by
    constructor
    · intro hh i r h1 h2 h3
      obtain ⟨m1, m2⟩ := (free k i r).1 ⟨h1, h2, h3⟩
      exact hh _ m1 m2
    · intro hh q hq hqn
      obtain ⟨m1, m2, m3⟩ := (free k q.1 q.2).2 ⟨hq, hqn⟩
      exact hh _ _ m1 m2 m3
  have hsecond : (p.secondLabel = some p.pair.2 ∨ p.secondLabel = none) ∧
      ((∀ p' : ZenPanel F V K, z.panels[k + 1]? = some p' → p'.pair.1 ≠ p.pair.2) → p.secondLabel = some p.pair.2) := by
    by_cases hno : ∀ q ∈ cand, q ∉ qs.take (k + 1) → ¬ q.2.Has p.pair.2
    · exact ⟨Or.inl (l2 hno), fun _ => l2 hno⟩
    · have hlt : k + 1 < z.panels.length := by
        rcases hlast with hlast | hlast
        · exact hlast
        · exact absurd (hno_iff.2 hlast) hno
      have hex : ∃ q ∈ cand, q ∉ qs.take (k + 1) ∧ q.2.Has p.pair.2 := by
        push Not at hno
        exact hno
      refine ⟨Or.inr ((l3 hex).1 hlt), fun hh => ?_⟩
      obtain ⟨q, hq, hqn, hqh⟩ := hex
      obtain ⟨m1, m2, m3⟩ := (free k q.1 q.2).2 ⟨hq, hqn⟩
      exact absurd (hpath.joined k p _ hk (List.getElem?_eq_getElem hlt) ⟨q.1, q.2, m1, m2, m3, hqh⟩)
        (hh _ (List.getElem?_eq_getElem hlt))
  unfold ZenPanel.firstLabel at l1
  unfold ZenPanel.secondLabel at hsecond
  unfold ZenPanel.xFeature ZenPanel.yFeature
  obtain ⟨s1, s2⟩ := hsecond
  by_cases hpos : p.pos.1 < p.pos.2
  · simp only [hpos, if_true] at l1 s1 s2 ⊢
    refine ⟨?_, ?_, by rw [l1]; simp, fun hh => ⟨s2 hh, l1⟩⟩
    · intro f hf
      rcases s1 with s1 | s1
      · rw [hf] at s1; exact Option.some.inj s1
      · rw [hf] at s1; cases s1
    · intro f hf
      rw [hf] at l1; exact Option.some.inj l1
  · simp only [hpos, if_false] at l1 s1 s2 ⊢
    refine ⟨?_, ?_, by rw [l1]; simp, fun hh => ⟨l1, s2 hh⟩⟩
    · intro f hf
      rw [hf] at l1; exact Option.some.inj l1
    · intro f hf
      rcases s1 with s1 | s1
      · rw [hf] at s1; exact Option.some.inj s1
      · rw [hf] at s1; cases s1

/-! ## C83 -/

/-- **C83 (pair).** `plot_profile(f, f')` for two different columns shows the stored partial dependence, the labels of the axes
name the features on them, and the order of the arguments does not matter. -/
theorem C83_pair (hp : PublicCalc g c) (nd : c.X.cols.Nodup) {f f' : F} (hf : f ∈ c.X.cols) (hf' : f' ∈ c.X.cols) (hne : f ≠ f')
    {kind : String} (hk : kind = "colormesh" ∨ kind = "contour") :
    (∃ xl yl xs ys mesh, plotProfile (some c) f (some f') kind = .ok (.mesh xl yl xs ys mesh) ∧
      ShowsPd c xl yl xs ys mesh ∧ ((xl = f ∧ yl = f') ∨ (xl = f' ∧ yl = f))) ∧
    plotProfile (some c) f (some f') kind = plotProfile (some c) f' (some f) kind := by
  have hs := hp.good.shape
  have hm : canonPair c.X (f, f') ∈ combinations2 c.X.cols := (canonPair_mem_iff nd).2 ⟨hf, hf', hne⟩
  have hkey : c.pairKey (f, f') = c.pairKey (f', f) := by
    rw [pairKey_eq hs, pairKey_eq hs]
    unfold canonPair at hm ⊢
    by_cases h1 : (f, f') ∈ combinations2 c.X.cols
    · rw [if_pos h1, if_neg (not_mem_combinations2_swap nd h1)]
    · rw [if_neg h1] at hm ⊢
      rw [if_pos hm]
  constructor
  · unfold plotProfile
    simp only
    rw [← pairKey_eq hs, ← hs.pair_keys, ← Dict.get?_isSome_iff] at hm
    obtain ⟨t, ht⟩ := Option.isSome_iff_exists.1 hm
    rw [ht]
    simp only
    rw [if_pos hk.symm]
    refine ⟨_, _, _, _, _, rfl, table_shows hp nd ht, ?_⟩
    rw [pairKey_eq hs]
    unfold canonPair
    split
    · exact Or.inr ⟨rfl, rfl⟩
    · exact Or.inl ⟨rfl, rfl⟩
  · unfold plotProfile
    simp only
    rw [hkey]

/-- **C83 (single).** `plot_profile(f)` for a column draws its values in increasing order against the stored partial dependence;
`kind` is not looked at. -/
theorem C83_single (hp : PublicCalc g c) {f : F} (hf : f ∈ c.X.cols) (kind : String) :
    ∃ xs ys, plotProfile (some c) f none kind = .ok (.line f xs ys) ∧ xs.Pairwise (· < ·) ∧ (∀ v, v ∈ xs ↔ v ∈ c.X.col f) ∧
      ys.length = xs.length ∧ ∀ (i : Nat) (x : V), xs[i]? = some x → ∃ v, ys[i]? = some v ∧ c.getSingle f [x] = .ok [v] := by
  have hs := hp.good.shape
  rw [← hs.single_keys, ← Dict.get?_isSome_iff] at hf
  obtain ⟨t, ht⟩ := Option.isSome_iff_exists.1 hf
  obtain ⟨h1, h2⟩ := hs.single _ _ ht
  refine ⟨t.fValues, t.pdValues, by simp only [plotProfile, ht], by rw [h1]; exact sorted_npUnique _,
    fun v => by rw [h1, mem_npUnique], h2, ?_⟩
  intro i x hx
  obtain ⟨hi, e⟩ := List.getElem?_eq_some_iff.1 hx
  refine ⟨_, List.getElem?_eq_getElem (by rw [h2]; exact hi), ?_⟩
  rw [getSingle_one]
  unfold cellS
  rw [ht]
  simp only [Option.bind_some]
  rw [if_pos (List.mem_of_getElem? hx)]
  have hix : t.fValues.idxOf x = i := by
    rw [← e]
    exact List.Nodup.idxOf_getElem (by rw [h1]; exact nodup_npUnique _) _ _
  rw [hix]
  exact List.getElem?_eq_getElem _

/-- **C83 (errors).** Before a fit: AttributeError. Anything but one column or two different ones: KeyError. An unknown kind for a
pair: UnboundLocalError. -/
theorem C83_errors (hp : PublicCalc g c) (nd : c.X.cols.Nodup) (f : F) (kind : String) :
    (∀ f2, plotProfile (none : Option (Calc F V (Num K))) f f2 kind = .error .attributeError) ∧
    (f ∉ c.X.cols → plotProfile (some c) f none kind = .error .keyError) ∧
    (∀ f', ¬ (f ∈ c.X.cols ∧ f' ∈ c.X.cols ∧ f ≠ f') → plotProfile (some c) f (some f') kind = .error .keyError) ∧
    (∀ f', f ∈ c.X.cols ∧ f' ∈ c.X.cols ∧ f ≠ f' → kind ≠ "colormesh" → kind ≠ "contour" →
      plotProfile (some c) f (some f') kind = .error .unboundLocalError) := by
  have hs := hp.good.shape
  refine ⟨fun _ => rfl, ?_, ?_, ?_⟩
  · intro hf
    rw [← hs.single_keys, ← Dict.get?_isSome_iff] at hf
    cases e : c.pdSingle.get? f with
    | none => simp only [plotProfile, e]
    | some t => rw [e] at hf; exact absurd rfl hf
  · intro f' hf
    have hm : canonPair c.X (f, f') ∉ combinations2 c.X.cols := fun h => hf ((canonPair_mem_iff nd).1 h)
    rw [← pairKey_eq hs, ← hs.pair_keys, ← Dict.get?_isSome_iff] at hm
    cases e : c.pdPairs.get? (c.pairKey (f, f')) with
    | none => simp only [plotProfile, e]
    | some t => rw [e] at hm; exact absurd rfl hm
  · intro f' hf h1 h2
    have hm : canonPair c.X (f, f') ∈ combinations2 c.X.cols := (canonPair_mem_iff nd).2 hf
    rw [← pairKey_eq hs, ← hs.pair_keys, ← Dict.get?_isSome_iff] at hm
    obtain ⟨t, ht⟩ := Option.isSome_iff_exists.1 hm
    simp only [plotProfile, ht]
    rw [if_neg]
    rintro (h | h)
    · exact h2 h
    · exact h1 h

end General

/-! ## After fit -/

section Fit
variable {F V K G L : Type} [DecidableEq F] [LinearOrder V] [Field K] [LinearOrder K] [IsStrictOrderedRing K] [HasSqrt K]
  [DecidableEq L] {g : Row F V → Num K} {E : PdEnv G F K} {a : PdArgs L F V K} {s0 s : PdpMethod G L F V K} {Xs : LFrame L F V}

theorem countP_one {α : Type*} {p : α → Bool} : ∀ {l : List α} {i j : Nat} {x y : α}, l.countP p = 1 → l[i]? = some x →
    l[j]? = some y → p x = true → p y = true → i = j
  | [], i, j, x, y, _, h, _, _, _ => by simp at h
  | a :: l, i, j, x, y, hc, hi, hj, hx, hy => by
    by_cases ha : p a = true
    · rw [List.countP_cons_of_pos ha] at hc
      have h0 : l.countP p = 0 := by omega
      rw [List.countP_eq_zero] at h0
      cases i with
      | zero =>
        cases j with
        | zero => rfl
        | succ j =>
          simp only [List.getElem?_cons_succ] at hj
          exact absurd hy (h0 y (List.mem_of_getElem? hj))
      | succ i =>
        simp only [List.getElem?_cons_succ] at hi
        exact absurd hx (h0 x (List.mem_of_getElem? hi))
    · rw [List.countP_cons_of_neg ha] at hc
      cases i with
      | zero =>
        simp only [List.getElem?_cons_zero, Option.some.injEq] at hi
        rw [hi] at ha; exact absurd hx ha
      | succ i =>
        cases j with
        | zero =>
          simp only [List.getElem?_cons_zero, Option.some.injEq] at hj
          rw [hj] at ha; exact absurd hy ha
        | succ j =>
          simp only [List.getElem?_cons_succ] at hi hj
          rw [countP_one hc hi hj hx hy]

/-- what zenplots need from a fitted method -/
structure ZenReady (g : Row F V → Num K) (kind : PdKind) (a : PdArgs L F V K) (Xs : LFrame L F V) (s : PdpMethod G L F V K)
    (c : Calc F V (Num K)) (tbl : List (OvoRow F K)) : Prop where
  holds : s.pdc.map CalcObj.obj = some c
  pub : PublicCalc g c
  same : SameData c.X Xs.frame
  nodup : c.X.cols.Nodup
  done : ∀ q ∈ combinations2 a.feats, DoneP g c kind.allVals q
  ovo : s.ovo = some tbl
  len : tbl.length = a.feats.length * (a.feats.length - 1) / 2
  rows : ∀ r ∈ tbl, r.f1 ∈ a.feats ∧ r.f2 ∈ a.feats ∧ r.f1 ≠ r.f2
  distinct : ∀ (i j : Nat) (r r' : OvoRow F K), tbl[i]? = some r → tbl[j]? = some r' → i ≠ j → ¬ r.Alike r'
  cols : ∀ f ∈ a.feats, f ∈ c.X.cols

theorem zen_ready {kind : PdKind} (hs : FitSetup g E a s0 Xs) (hsort : SortsBy OvoRow.val false E.sortOvo) (hfs : a.feats.Nodup)
    (h : PdpMethod.fit kind E a s0 = (.ok (), s)) : ∃ c tbl, ZenReady g kind a Xs s c tbl := by
  obtain ⟨co, h1, h2, h3, h4⟩ := fit_calc hs h
  obtain ⟨tbl, t1, t2, t3, t4⟩ := C13_one_row_per_pair kind hs hsort hfs h
  refine ⟨co.obj, tbl, by rw [h1]; rfl, h2, h3, by rw [h3.cols]; exact hs.cols_nodup, h4, t1, t2, t4, ?_, ?_⟩
  · intro i j r r' hi hj hij hal
    obtain ⟨m1, m2, m3⟩ := t4 r' (List.mem_of_getElem? hj)
    have hc := t3 r'.f1 m1 r'.f2 m2 m3
    refine hij (countP_one hc hi hj ?_ ?_)
    · rw [decide_eq_true_iff]; exact hal
    · simp [OvoRow.isPair]
  · intro f hf
    rw [h3.cols]
    exact (fit_ok hs h).valid.cols f hf

theorem ZenReady.valid {kind : PdKind} {c : Calc F V (Num K)} {tbl : List (OvoRow F K)} (h : ZenReady g kind a Xs s c tbl) :
    ValidRows c tbl := fun r hr => ⟨h.cols _ (h.rows r hr).1, h.cols _ (h.rows r hr).2.1, (h.rows r hr).2.2⟩

theorem ZenReady.nonempty {kind : PdKind} {c : Calc F V (Num K)} {tbl : List (OvoRow F K)} (h : ZenReady g kind a Xs s c tbl)
    (hX : Xs.frame.rows ≠ []) : c.X.rows ≠ [] := by
  intro e
  have := h.same.len
  simp only [Frame.len, e, List.length_nil] at this
  exact hX (List.length_eq_zero_iff.1 this.symm)

/-- **Specification of a mesh by brute force.** The matrix over `xs` and `ys` shows the partial dependence of the model itself: where
the method computes it, the entry is the average prediction with the two features replaced; elsewhere it is that or NaN. -/
structure ShowsBrute (g : Row F V → Num K) (kind : PdKind) (X : Frame F V) (fx fy : F) (xs ys : List V)
    (mesh : List (List (Num K))) : Prop where
  xs_sorted : xs.Pairwise (· < ·)
  ys_sorted : ys.Pairwise (· < ·)
  xs_mem : ∀ v, v ∈ xs ↔ ∃ r ∈ X.rows, r fx = v
  ys_mem : ∀ v, v ∈ ys ↔ ∃ r ∈ X.rows, r fy = v
  height : mesh.length = ys.length
  width : ∀ row ∈ mesh, row.length = xs.length
  entry : ∀ (i j : Nat) (x y : V), xs[j]? = some x → ys[i]? = some y →
    ∃ v, cell2 mesh i j = some v ∧ (v = .nan ∨ v = Spec.pdPair g X fx fy x y) ∧
      (kind = .greenwell ∨ (∃ r ∈ X.rows, r fx = x ∧ r fy = y) → v = Spec.pdPair g X fx fy x y)

theorem ZenReady.brute {kind : PdKind} (hs : FitSetup g E a s0 Xs) {c : Calc F V (Num K)} {tbl : List (OvoRow F K)}
    (h : ZenReady g kind a Xs s c tbl) {fx fy : F} (hx : fx ∈ a.feats) (hy : fy ∈ a.feats) (hne : fx ≠ fy) {xs ys : List V}
    {mesh : List (List (Num K))} (hsh : ShowsPd c fx fy xs ys mesh) : ShowsBrute g kind Xs.frame fx fy xs ys mesh := by
  have hcol : ∀ f ∈ a.feats, c.X.col f = Xs.frame.col f := fun f hf => h.same.col (h.cols f hf)
  have hreads : ReadsOnly g c.X.cols := by rw [h.same.cols]; exact hs.reads
  have hpd : ∀ x y, Spec.pdPair g c.X fx fy x y = Spec.pdPair g Xs.frame fx fy x y := fun x y => h.same.pdPair hreads fx fy x y
  refine ⟨hsh.xs_sorted, hsh.ys_sorted, ?_, ?_, hsh.height, hsh.width, ?_⟩
  · intro v; rw [hsh.xs_mem, hcol fx hx]; simp [Frame.col]
  · intro v; rw [hsh.ys_mem, hcol fy hy]; simp [Frame.col]
  · intro i j x y hxj hyi
    obtain ⟨v, h1, h2, _⟩ := hsh.entry i j x y hxj hyi
    have hgs := h.pub.good
    refine ⟨v, h1, ?_, ?_⟩
    · have := hgs.soundP _ v ((getPairs_one hgs.shape).1 h2)
      rw [truthP_canon g c.X fx fy (x, y) hne, hpd] at this
      exact this
    · intro hcov
      have hcov' : Spec.covered kind.allVals c.X fx fy (x, y) := by
        unfold Spec.covered
        have e1 := (hsh.xs_mem x).1 (List.mem_of_getElem? hxj)
        have e2 := (hsh.ys_mem y).1 (List.mem_of_getElem? hyi)
        cases kind with
        | greenwell => exact ⟨e1, e2⟩
        | friedman n =>
          rcases hcov with hcov | ⟨r, hr, r1, r2⟩
          · cases hcov
          · have hz : (x, y) ∈ (Xs.frame.col fx).zip (Xs.frame.col fy) := (mem_zip_map _ _ _ _).2 ⟨r, hr, r1, r2⟩
            rw [← hcol fx hx, ← hcol fy hy] at hz
            exact (mem_zip_map _ _ _ _).1 hz
      rcases mem_combinations2_or hx hy hne with hq | hq
      · have := (h.done _ hq).lookup hgs.shape hne (Or.inl rfl) h.nodup hcov'
        rw [this] at h2
        cases h2
        exact hpd x y
      · have := (h.done _ hq).lookup hgs.shape hne (Or.inr rfl) h.nodup hcov'
        rw [this] at h2
        cases h2
        exact hpd x y

/-- **C62 (after fit).** After a returning `fit`, every panel of a returned zenplot shows the partial dependence of the model on
the (sampled) data for the two features of the panel. -/
theorem C62_after_fit {kind : PdKind} (hs : FitSetup g E a s0 Xs) (hsort : SortsBy OvoRow.val false E.sortOvo)
    (hfs : a.feats.Nodup) (h : PdpMethod.fit kind E a s0 = (.ok (), s)) {len : Int} {k : String} {z : ZenPlot F V K}
    (hz : s.zenplot len k = .ok z) :
    ∀ p ∈ z.panels, p.xFeature ∈ a.feats ∧ p.yFeature ∈ a.feats ∧ p.xFeature ≠ p.yFeature ∧
      ShowsBrute g kind Xs.frame p.xFeature p.yFeature p.xs p.ys p.mesh := by
  obtain ⟨c, tbl, hr⟩ := zen_ready hs hsort hfs h
  unfold PdpMethod.zenplot at hz
  rw [hr.holds, hr.ovo] at hz
  intro p hp
  obtain ⟨_, _, ix, hpath⟩ := C60_path hz
  obtain ⟨i, hi⟩ := List.mem_iff_getElem?.1 hp
  have lk : i < ix.length := by rw [hpath.indices, ← hpath.count]; exact (List.getElem?_eq_some_iff.1 hi).1
  obtain ⟨r, hrow, his⟩ := hpath.drawn i _ p (List.getElem?_eq_getElem lk) hi
  obtain ⟨m1, m2, m3⟩ := hr.rows r (List.mem_of_getElem? hrow)
  have hpair : p.pair.1 ∈ a.feats ∧ p.pair.2 ∈ a.feats ∧ p.pair.1 ≠ p.pair.2 := by
    rcases his with ⟨e1, e2⟩ | ⟨e1, e2⟩
    · rw [← e1, ← e2]; exact ⟨m1, m2, m3⟩
    · rw [← e1, ← e2]; exact ⟨m2, m1, m3.symm⟩
  have hxy : p.xFeature ∈ a.feats ∧ p.yFeature ∈ a.feats ∧ p.xFeature ≠ p.yFeature := by
    unfold ZenPanel.xFeature ZenPanel.yFeature
    split
    · exact ⟨hpair.2.1, hpair.1, hpair.2.2.symm⟩
    · exact hpair
  exact ⟨hxy.1, hxy.2.1, hxy.2.2, hr.brute hs hxy.1 hxy.2.1 hxy.2.2 (C62_panels hr.pub hr.nodup hz p hp)⟩

/-- **C83 (after fit).** `plot_profile(f, f')` for two of the included features shows the partial dependence of the model, with the
labels on the right axes. -/
theorem C83_after_fit {kind : PdKind} (hs : FitSetup g E a s0 Xs) (hsort : SortsBy OvoRow.val false E.sortOvo)
    (hfs : a.feats.Nodup) (h : PdpMethod.fit kind E a s0 = (.ok (), s)) {f f' : F} (hf : f ∈ a.feats) (hf' : f' ∈ a.feats)
    (hne : f ≠ f') {k : String} (hk : k = "colormesh" ∨ k = "contour") :
    ∃ xl yl xs ys mesh, s.profile f (some f') k = .ok (.mesh xl yl xs ys mesh) ∧
      ShowsBrute g kind Xs.frame xl yl xs ys mesh ∧ ((xl = f ∧ yl = f') ∨ (xl = f' ∧ yl = f)) := by
  obtain ⟨c, tbl, hr⟩ := zen_ready hs hsort hfs h
  obtain ⟨⟨xl, yl, xs, ys, mesh, h1, h2, h3⟩, _⟩ := C83_pair hr.pub hr.nodup (hr.cols f hf) (hr.cols f' hf') hne hk
  refine ⟨xl, yl, xs, ys, mesh, ?_, ?_, h3⟩
  · unfold PdpMethod.profile; rw [hr.holds]; exact h1
  · rcases h3 with ⟨rfl, rfl⟩ | ⟨rfl, rfl⟩
    · exact hr.brute hs hf hf' hne h2
    · exact hr.brute hs hf' hf hne.symm h2

/-- the table of a returning fit of a model with finite predictions is sorted and without NaN -/
theorem zen_sorted [LawfulSqrt K] {u : Row F V → K} {kind : PdKind} (hs : FitSetup (finM u) E a s0 Xs)
    (hsort : SortsBy OvoRow.val false E.sortOvo) (hX : Xs.frame.rows ≠ []) (h : PdpMethod.fit kind E a s0 = (.ok (), s)) :
    ∃ tbl, s.ovo = some tbl ∧ (∀ r ∈ tbl, r.val ≠ .nan) ∧ tbl.Pairwise (fun r r' => Num.le r'.val r.val = true) := by
  cases kind with
  | friedman n =>
    obtain ⟨tbl, h1, h2, h3⟩ := C12_ovo_nonneg_sorted n hs hsort h
    exact ⟨tbl, h1, fun r hr => (h2 r hr).1, h3⟩
  | greenwell =>
    obtain ⟨tbl, h1, h2, h3⟩ := C19_greenwell_finite_nonneg_sorted hs hX hsort h
    refine ⟨tbl, h1, fun r hr => ?_, h3⟩
    obtain ⟨k, hk, _⟩ := h2 r hr
    rw [hk]; simp

/-- **C60 (after fit).** After a returning `fit` of a model with finite predictions on non-empty data, with more than `n ≥ 1` pairs:
`plot_zenplot(n)` returns, draws `n` different pairs, the first is a strongest one, and each has at most `n` stronger ones. -/
theorem C60_after_fit [LawfulSqrt K] {u : Row F V → K} {kind : PdKind} (hs : FitSetup (finM u) E a s0 Xs)
    (hsort : SortsBy OvoRow.val false E.sortOvo) (hfs : a.feats.Nodup) (hX : Xs.frame.rows ≠ [])
    (h : PdpMethod.fit kind E a s0 = (.ok (), s)) {n : Nat} (h1 : 1 ≤ n) (h2 : n < a.feats.length * (a.feats.length - 1) / 2)
    {k : String} (hk : k = "colormesh" ∨ k = "contour") :
    ∃ z tbl, s.zenplot n k = .ok z ∧ s.ovo = some tbl ∧ z.panels.length = n ∧
      (∀ (i j : Nat) (p p' : ZenPanel F V K), z.panels[i]? = some p → z.panels[j]? = some p' → i ≠ j →
        p'.pair ≠ p.pair ∧ p'.pair ≠ p.pair.swap) ∧
      (∀ p : ZenPanel F V K, z.panels[0]? = some p → ∃ r ∈ tbl, r.Is p.pair ∧ ∀ r' ∈ tbl, Num.le r'.val r.val = true) ∧
      ∀ p ∈ z.panels, ∃ r ∈ tbl, r.Is p.pair ∧ ((tbl.filter (fun r' => Num.lt r.val r'.val)).length : Int) ≤ n := by
  obtain ⟨c, tbl, hr⟩ := zen_ready hs hsort hfs h
  obtain ⟨tbl', t1, t2, t3⟩ := zen_sorted hs hsort hX h
  rw [hr.ovo] at t1
  cases t1
  obtain ⟨z, hz⟩ := C60_returns hr.pub hr.nodup (hr.nonempty hX) hr.valid t2 h1 (by rw [hr.len]; exact h2) hk
  have hst := C60_among_strongest hz t3 t2
  obtain ⟨_, _, ix, hpath⟩ := C60_path hz
  refine ⟨z, tbl, ?_, hr.ovo, by simpa using hpath.count, C60_distinct_pairs hz hr.distinct, hst.1, hst.2⟩
  unfold PdpMethod.zenplot
  rw [hr.holds, hr.ovo]
  exact hz

/-- **C84.** After a returning `fit` of a model with finite predictions on non-empty data, `plot_zenplot()` with its default arguments
raises IndexError for at most four included features and returns for five and more. -/
theorem C84_default_length [LawfulSqrt K] {u : Row F V → K} {kind : PdKind} (hs : FitSetup (finM u) E a s0 Xs)
    (hsort : SortsBy OvoRow.val false E.sortOvo) (hfs : a.feats.Nodup) (hX : Xs.frame.rows ≠ [])
    (h : PdpMethod.fit kind E a s0 = (.ok (), s)) :
    (a.feats.length ≤ 4 → s.zenplot 7 "colormesh" = .error .indexError) ∧
    (5 ≤ a.feats.length → ∃ z, s.zenplot 7 "colormesh" = .ok z ∧ z.panels.length = 7) := by
  constructor
  · intro hm
    obtain ⟨c, tbl, hr⟩ := zen_ready hs hsort hfs h
    obtain ⟨tbl', t1, t2, t3⟩ := zen_sorted hs hsort hX h
    rw [hr.ovo] at t1
    cases t1
    have hl : tbl.length ≤ 7 := by
      rw [hr.len]
      have h1 : a.feats.length * (a.feats.length - 1) ≤ 4 * 3 := Nat.mul_le_mul hm (by omega)
      omega
    have := C60_too_few hr.pub hr.nodup (hr.nonempty hX) hr.valid t2 (n := 7) (by omega) hl "colormesh"
    unfold PdpMethod.zenplot
    rw [hr.holds, hr.ovo]
    exact this
  · intro hm
    have h1 : 5 * 4 ≤ a.feats.length * (a.feats.length - 1) := Nat.mul_le_mul hm (by omega)
    obtain ⟨z, tbl, z1, z2, z3, _⟩ := C60_after_fit hs hsort hfs hX h (n := 7) (by omega) (by omega) (Or.inl rfl)
    exact ⟨z, z1, z3⟩

/-- **C84 (before fit).** Before any fit both plots raise AttributeError. -/
theorem C84_before_fit (rng : G) (len : Int) (k : String) (f : F) (f2 : Option F) :
    (PdpMethod.new rng : PdpMethod G L F V K).zenplot len k = .error .attributeError ∧
    (PdpMethod.new rng : PdpMethod G L F V K).profile f f2 k = .error .attributeError := ⟨rfl, rfl⟩

/-- **C85 (partial).** A refit that fails while sampling, or because the supplied calculator is rejected, leaves zenplots and
profiles as they were. Missing: failures while the model is evaluated (`C85_fails`). -/
theorem C85_failed_refit_partial (kind : PdKind)
    (hearly : (∃ e', (sampleIfNotNone E.R a.X a.n s.rng).1 = .error e') ∨
      ∃ X e', (sampleIfNotNone E.R a.X a.n s.rng).1 = .ok X ∧ PdpMethod.chooseCalc a X a.pf = .error e') :
    (∃ e, (PdpMethod.fit kind E a s).1 = .error e) ∧
    (∀ len k, (PdpMethod.fit kind E a s).2.zenplot len k = s.zenplot len k) ∧
    ∀ f f2 k, (PdpMethod.fit kind E a s).2.profile f f2 k = s.profile f f2 k := by
  have hb : ∃ e s1, PdpMethod.fitBase kind E a s = (.error e, s1) ∧ s1.ovo = s.ovo ∧ s1.pdc = s.pdc := by
    unfold PdpMethod.fitBase
    simp only
    cases eX : sampleIfNotNone E.R a.X a.n s.rng with
    | mk r rng =>
      rw [eX] at hearly
      cases r with
      | error e => exact ⟨e, _, rfl, rfl, rfl⟩
      | ok X =>
        simp only at hearly
        rcases hearly with ⟨e', h⟩ | ⟨X', e', h1, h2⟩
        · cases h
        · cases h1
          simp only
          unfold PdArgs.pf at h2
          rw [h2]
          exact ⟨e', _, rfl, rfl, rfl⟩
  obtain ⟨e, s1, h1, h2, h3⟩ := hb
  have hf : PdpMethod.fit kind E a s = (.error e, s1) := by
    unfold PdpMethod.fit
    rw [h1]
  rw [hf]
  refine ⟨⟨e, rfl⟩, fun len k => ?_, fun f f2 k => ?_⟩
  · simp only [PdpMethod.zenplot, h2, h3]
  · simp only [PdpMethod.profile, h3]

/-- **C63 (after a Greenwell fit).** After a returning fit of Greenwell's method on non-empty data and a model with finite
predictions, the limits of the colour scale of a returned zenplot are numbers and cover every drawn value. -/
theorem C63_greenwell_after_fit {u : Row F V → K} (hs : FitSetup (finM u) E a s0 Xs)
    (hsort : SortsBy OvoRow.val false E.sortOvo) (hfs : a.feats.Nodup) (hX : Xs.frame.rows ≠ [])
    (h : PdpMethod.fit .greenwell E a s0 = (.ok (), s)) {len : Int} {k : String} {z : ZenPlot F V K}
    (hz : s.zenplot len k = .ok z) :
    z.vmin ≠ .nan ∧ z.vmax ≠ .nan ∧
      ∀ p ∈ z.panels, ∀ v ∈ p.mesh.flatten, Num.le z.vmin v = true ∧ Num.le v z.vmax = true := by
  obtain ⟨c, tbl, hr⟩ := zen_ready hs hsort hfs h
  unfold PdpMethod.zenplot at hz
  rw [hr.holds, hr.ovo] at hz
  have hn : ¬ CandidateValue c tbl len.toNat .nan := by
    rintro ⟨r, hm, x, y, e⟩
    obtain ⟨m1, m2, m3⟩ := hr.rows r (List.mem_of_mem_take hm)
    obtain ⟨t, ht, hsh⟩ := (C62_pairs_values hr.pub hr.nodup r.f2 r.f1).1 ⟨hr.cols _ m2, hr.cols _ m1, m3.symm⟩
    have hb := hr.brute hs m1 m2 m3 hsh
    have hin : .nan ∈ pairVals c (r.f1, r.f2) := (pairVals_mem hr.pub hr.nodup).2 ⟨x, y, e⟩
    obtain ⟨hx, hy⟩ := getPairs_cols hr.pub hr.nodup e
    obtain ⟨j, hj⟩ := List.mem_iff_getElem?.1 ((hsh.xs_mem x).2 hx)
    obtain ⟨i, hi⟩ := List.mem_iff_getElem?.1 ((hsh.ys_mem y).2 hy)
    obtain ⟨v, v1, v2, _⟩ := hsh.entry i j x y hj hi
    obtain ⟨w, w1, _, w2⟩ := hb.entry i j x y hj hi
    rw [v1] at w1
    cases w1
    rw [e] at v2
    cases v2
    have hfin := w2 (Or.inl rfl)
    rw [pdPair_fin u hX] at hfin
    cases hfin
  exact ⟨(C63_bounds hr.pub hr.nodup hz hn).1, (C63_bounds hr.pub hr.nodup hz hn).2.1, C63_covers_drawn hr.pub hr.nodup hz hn⟩

end Fit

/-! ## Concrete cases -/

section Cases
open Ex

deriving instance DecidableEq for ZenPanel
deriving instance DecidableEq for ZenPlot

/-- the picture, if there is one -/
def zenOf {F V K : Type} : Except Err (ZenPlot F V K) → Option (ZenPlot F V K)
  | .ok z => some z
  | .error _ => none

/-- the error of a plot -/
def zenErr {α : Type} : Except Err α → Option Err
  | .ok _ => none
  | .error e => some e

/-- a picture of two panels -/
def exZen : ZenPlot (Fin 3) ℤ ℚ := ⟨.fin 1, .fin (11 / 2), 1, 2,
    [⟨(0, 1), (0, 0), [0, 1], [0, 1], [[.fin 3, .fin 3], [.fin 3, .fin 4]], some 0, none⟩,
     ⟨(1, 2), (0, 1), [1, 5], [0, 1], [[.fin 1, .fin 5], [.fin (3 / 2), .fin (11 / 2)]], some 0, some 1⟩]⟩

/-- C60–C62, C80: two panels after a fit of Greenwell's method on three features; the panels share the axis of feature 1 -/
example : zenOf (exGwQ.2.zenplot 2 "contour") = some exZen := by decide +kernel

/-- **C63 fails** after a fit of the H-statistic: a combination of values not observed together leaves no colour scale,
although the first panel has no missing value. -/
theorem C63_fails : (exFitQ true).1 = .ok () ∧ zenOf ((exFitQ true).2.zenplot 2 "colormesh") = some ⟨.nan, .nan, 1, 2,
    [⟨(0, 1), (0, 0), [0, 1], [0, 1], [[.fin 3, .fin 3], [.fin 3, .fin 4]], some 0, none⟩,
     ⟨(1, 2), (0, 1), [1, 5], [0, 1], [[.fin 1, .nan], [.nan, .fin (11 / 2)]], some 0, some 1⟩]⟩ := by
  constructor <;> decide +kernel

/-- **C81 fails**: the last panel shows features 2 (across) and 1 (up), its title is 0. -/
theorem C81_fails : zenOf (exGwQ.2.zenplot 2 "colormesh") = some exZen ∧
    (exZen.panels[1]?.map (fun p => (p.xFeature, p.yFeature, p.title))) = some (2, 1, some 0) := by
  constructor <;> decide +kernel

/-- **C82 fails**: the values drawn are 3 and 4, the colour scale runs from 1 to 11/2. -/
theorem C82_fails : zenOf (exGwQ.2.zenplot 1 "colormesh") = some ⟨.fin 1, .fin (11 / 2), 1, 1,
    [⟨(0, 1), (0, 0), [0, 1], [0, 1], [[.fin 3, .fin 3], [.fin 3, .fin 4]], some 0, some 1⟩]⟩ := by decide +kernel

/-- a model whose predictions fail -/
def exArgsBad : PdArgs Nat (Fin 3) ℤ ℚ := { exArgs with model := ⟨2, some (fun _ _ => .error .valueError), none⟩ }

/-- **C85 fails**: after a refit on a model that raises, the zenplot returns: the pairs and labels of the former fit, but no value. -/
theorem C85_fails : (exFitQ true).1 = .ok () ∧
    zenErr (PdpMethod.fit (.friedman true) exEnv exArgsBad (exFitQ true).2).1 = some .valueError ∧
    zenOf ((exFitQ true).2.zenplot 1 "colormesh") = some ⟨.fin 1, .fin (11 / 2), 1, 1,
      [⟨(0, 1), (0, 0), [0, 1], [0, 1], [[.fin 3, .fin 3], [.fin 3, .fin 4]], some 0, some 1⟩]⟩ ∧
    zenOf ((PdpMethod.fit (.friedman true) exEnv exArgsBad (exFitQ true).2).2.zenplot 1 "colormesh") = some ⟨.nan, .nan, 1, 1,
      [⟨(0, 1), (0, 0), [0, 1], [0, 1], [[.nan, .nan], [.nan, .nan]], some 0, some 1⟩]⟩ := by
  refine ⟨?_, ?_, ?_, ?_⟩ <;> decide +kernel

/-- C85, the early failures: a supplied calculator for another model, in any state of the method -/
example (s : PdpMethod Nat Nat (Fin 3) ℤ ℚ) : (∃ e, (PdpMethod.fit (.friedman true) exEnv
      { exArgs with pdCalculator := some (exCo [10, 11, 12, 13] 2) } s).1 = .error e) ∧
    ∀ len k, (PdpMethod.fit (.friedman true) exEnv { exArgs with pdCalculator := some (exCo [10, 11, 12, 13] 2) } s).2.zenplot
      len k = s.zenplot len k := by
  have h := C85_failed_refit_partial (.friedman true) (E := exEnv) (s := s)
    (a := { exArgs with pdCalculator := some (exCo [10, 11, 12, 13] 2) }) (Or.inr ⟨exLX, .valueError, rfl, by
      unfold PdpMethod.chooseCalc
      simp [exCo, exArgs, exModel]⟩)
  exact ⟨h.1, h.2.1⟩

/-- C84: the default length is too long for three features -/
example (kind : PdKind) {s : PdpMethod Nat Nat (Fin 3) ℤ ℝ} (h : PdpMethod.fit kind exEnv exArgs (PdpMethod.new 0) = (.ok (), s)) :
    s.zenplot 7 "colormesh" = .error .indexError :=
  (C84_default_length (u := exU) (exSetup 0) (sortsBy_stableSort _ _) (by show [(0 : Fin 3), 1, 2].Nodup; decide) exRows h).1 (by decide)

/-- C60 and C62 after a fit over ℝ: two of the three pairs -/
example : ∃ s z, PdpMethod.fit (G := Nat) (L := Nat) (K := ℝ) .greenwell exEnv exArgs (PdpMethod.new 0) = (.ok (), s) ∧
    s.zenplot 2 "colormesh" = .ok z ∧ z.panels.length = 2 ∧
    (∀ p ∈ z.panels, ShowsBrute (finM exU) .greenwell exLX.frame p.xFeature p.yFeature p.xs p.ys p.mesh) ∧ z.vmin ≠ .nan := by
  obtain ⟨s, hs⟩ := exGwR
  have nd : (exArgs (K := ℝ)).feats.Nodup := by show [(0 : Fin 3), 1, 2].Nodup; decide
  obtain ⟨z, tbl, h1, h2, h3, _⟩ := C60_after_fit (u := exU) (exSetup 0) (sortsBy_stableSort _ _) nd exRows hs (n := 2) (by decide) (by decide)
    (k := "colormesh") (Or.inl rfl)
  exact ⟨s, z, hs, h1, h3, fun p hp => (C62_after_fit (exSetup 0) (sortsBy_stableSort _ _) nd hs h1 p hp).2.2.2,
    (C63_greenwell_after_fit (u := exU) (exSetup 0) (sortsBy_stableSort _ _) nd exRows hs h1).1⟩

deriving instance DecidableEq for Profile

/-- the profile, if there is one -/
def profOf {F V K : Type} : Except Err (Profile F V K) → Option (Profile F V K)
  | .ok p => some p
  | .error _ => none

/-- C83: the profile of features 2 and 0 of the example is drawn with feature 2 across whatever the order -/
example : profOf (exGwQ.2.profile 2 (some 0) "contour") =
      some (.mesh 2 0 [1, 5] [0, 1] [[.fin 1, .fin 5], [.fin (3 / 2), .fin (11 / 2)]]) ∧
    profOf (exGwQ.2.profile 0 (some 2) "colormesh") = profOf (exGwQ.2.profile 2 (some 0) "contour") ∧
    profOf (exGwQ.2.profile 2 none "anything") = some (.line 2 [1, 5] [.fin (5 / 4), .fin (21 / 4)]) ∧
    zenErr (exGwQ.2.profile 2 (some 2) "contour") = some .keyError ∧
    zenErr (exGwQ.2.profile 2 (some 1) "mesh") = some .unboundLocalError := by
  refine ⟨?_, ?_, ?_, ?_, ?_⟩ <;> decide +kernel

end Cases

end Artemis
