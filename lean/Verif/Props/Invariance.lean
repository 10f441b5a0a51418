import Verif.Proofs.RecodeLemmas
import Verif.Props.Additivity
import Verif.Props.PdImportance
import Verif.Props.Formulas
import Verif.Props.Zenplot

/-!
# Properties C88–C91: what the partial dependence based results do not depend on

Two fits of the same method on the same task written down differently: rows in another order or repeated (C88), other features
requested, columns in another order (C89), predictions rescaled (C90), features renamed and values recoded (C91).
All follow from one comparison (`recode_*`) of the formulas C66, C68–C70 and C21 under `SameTask`.
-/

set_option linter.unusedSectionVars false
set_option linter.unusedVariables false
set_option linter.unusedSimpArgs false

namespace Artemis
open Spec

/-! ## The comparison -/

section helpers
variable {F V K : Type} [DecidableEq F] [LinearOrder V] [Field K] [LinearOrder K] [IsStrictOrderedRing K]
  [HasSqrt K]

/-- the value of an H table, given the two sums of squares and the number of rows -/
def IsH (n : Bool) (num den len : K) (v : Num K) : Prop :=
  if n then (den ≠ 0 → v = .fin (num / den)) ∧ (den = 0 → num ≠ 0 → v = .pinf) ∧ (den = 0 → num = 0 → v = .fin 0)
  else ∃ h : K, v = .fin h ∧ 0 ≤ h ∧ h * h = num / len

theorem isH_scale {n : Bool} {num den len q c : K} {v v' : Num K} (hq : 0 < q) (hc : c ≠ 0) (h : IsH n num den len v)
    (h' : IsH n (q * (c * c) * num) (q * (c * c) * den) (q * len) v') : v' = if n then v else Num.mul (.fin |c|) v := by
  have hcc : q * (c * c) ≠ 0 := mul_ne_zero hq.ne' (mul_ne_zero hc hc)
  cases n
  · simp only [IsH, Bool.false_eq_true, if_false] at h h' ⊢
    obtain ⟨x, rfl, hx, e⟩ := h
    obtain ⟨x', rfl, hx', e'⟩ := h'
    simp only [Num.mul]
    congr 1
    refine nonneg_root_unique hx' (mul_nonneg (abs_nonneg _) hx) ?_
    rw [e', mul_mul_mul_comm, abs_mul_abs_self, e, mul_assoc, mul_div_mul_left _ _ hq.ne', mul_div_assoc]
  · simp only [IsH, if_true] at h h' ⊢
    by_cases hd : den = 0
    · by_cases hn : num = 0
      · rw [h.2.2 hd hn, h'.2.2 (by rw [hd, mul_zero]) (by rw [hn, mul_zero])]
      · rw [h.2.1 hd hn, h'.2.1 (by rw [hd, mul_zero]) (mul_ne_zero hcc hn)]
    · rw [h.1 hd, h'.1 (mul_ne_zero hcc hd), mul_div_mul_left _ _ hcc]

theorem interaction_swap (u : Row F V → K) (X : Frame F V) {f g : F} (h : f ≠ g) : interaction u X f g = interaction u X g f := by
  funext r
  unfold interaction
  simp only [pd2_swap u X h]
  ring

end helpers

section compare
variable {F V G L F' V' G' L' K : Type} [DecidableEq F] [LinearOrder V] [DecidableEq L] [DecidableEq F'] [LinearOrder V']
  [DecidableEq L'] [Field K] [LinearOrder K] [IsStrictOrderedRing K] [HasSqrt K] [LawfulSqrt K]
variable {E : PdEnv G F K} {a : PdArgs L F V K} {s0 s : PdpMethod G L F V K} {Xs : LFrame L F V}
variable {E' : PdEnv G' F' K} {a' : PdArgs L' F' V' K} {s0' s' : PdpMethod G' L' F' V' K} {Xs' : LFrame L' F' V'}
variable {u : Row F V → K} {u' : Row F' V' → K} {ρ : Recoding F V F' V'} {c d : K}

theorem recode_H {n : Bool} (hs : FitSetup (finM u) E a s0 Xs) (hs' : FitSetup (finM u') E' a' s0' Xs')
    (hsort : SortsBy OvoRow.val false E.sortOvo) (hsort' : SortsBy OvoRow.val false E'.sortOvo) (hX : Xs.frame.rows ≠ [])
    (hc : c ≠ 0) (ht : SameTask ρ c d u Xs.frame.rows u' Xs'.frame.rows)
    (hret : PdpMethod.fit (.friedman n) E a s0 = (.ok (), s)) (hret' : PdpMethod.fit (.friedman n) E' a' s0' = (.ok (), s')) :
    ∃ tbl tbl', s.ovo = some tbl ∧ s'.ovo = some tbl' ∧ ∀ row ∈ tbl, ∀ row' ∈ tbl', row'.isPair (ρ.name row.f1) (ρ.name row.f2) →
      row'.val = if n then row.val else Num.mul (.fin |c|) row.val := by
  obtain ⟨tbl, h1, h2⟩ := C66_H_is_textbook_formula n hs hsort hX hret
  obtain ⟨tbl', h1', h2'⟩ := C66_H_is_textbook_formula n hs' hsort' (ht.ne hX) hret'
  refine ⟨tbl, tbl', h1, h1', ?_⟩
  intro row hr row' hr' hp
  have hne : row.f1 ≠ row.f2 := by
    obtain ⟨e, hv⟩ := hTable_of_fit hs hret
    rw [h1] at e
    obtain ⟨q, hq, rfl⟩ := (mem_hTable hsort).1 (Option.some.inj e ▸ hr)
    exact hv.ne q hq
  have hne' : ρ.name row.f1 ≠ ρ.name row.f2 := fun e => hne (ρ.name.injective e)
  have e := h2 row hr
  have e' := h2' row' hr'
  obtain ⟨q, hq, hl, hss⟩ := ht.sumSq
  have num := hss _ _ (ht.interaction hX row.f1 row.f2)
  have den := hss (centred Xs.frame (fun r => pd2 u Xs.frame row.f1 row.f2 (r row.f1) (r row.f2)))
    (centred Xs'.frame (fun r => pd2 u' Xs'.frame (ρ.name row.f1) (ρ.name row.f2) (r (ρ.name row.f1)) (r (ρ.name row.f2))))
    (ht.centred hX (fun r => by simp only [Recoding.row_name]; exact ht.pd2 hX _ _ _ _))
  refine isH_scale (num := sumSq Xs.frame (interaction u Xs.frame row.f1 row.f2))
    (den := sumSq Xs.frame (centred Xs.frame (fun r => pd2 u Xs.frame row.f1 row.f2 (r row.f1) (r row.f2))))
    (len := Xs.frame.rows.length) hq hc e ?_
  rw [← num, ← den, ← hl]
  rcases hp with ⟨p1, p2⟩ | ⟨p1, p2⟩
  · rw [← p1, ← p2]; exact e'
  · rw [interaction_swap u' Xs'.frame hne']
    simp only [pd2_swap u' Xs'.frame hne']
    rw [← p1, ← p2]; exact e'

theorem recode_ova {n : Bool} (hs : FitSetup (finM u) E a s0 Xs) (hs' : FitSetup (finM u') E' a' s0' Xs')
    (hsort : SortsBy FeatRow.val false E.sortFeat) (hsort' : SortsBy FeatRow.val false E'.sortFeat) (hX : Xs.frame.rows ≠ [])
    (hc : c ≠ 0) (ht : SameTask ρ c d u Xs.frame.rows u' Xs'.frame.rows) (ho : a.calculateOva = true) (ho' : a'.calculateOva = true)
    (hret : PdpMethod.fit (.friedman n) E a s0 = (.ok (), s)) (hret' : PdpMethod.fit (.friedman n) E' a' s0' = (.ok (), s')) :
    ∃ tbl tbl', s.ova = some tbl ∧ s'.ova = some tbl' ∧ ∀ row ∈ tbl, ∀ row' ∈ tbl', row'.f = ρ.name row.f →
      row'.val = if n then row.val else Num.mul (.fin |c|) row.val := by
  obtain ⟨tbl, h1, _, h2⟩ := C68_ova_is_textbook_formula n hs hsort hX ho hret
  obtain ⟨tbl', h1', _, h2'⟩ := C68_ova_is_textbook_formula n hs' hsort' (ht.ne hX) ho' hret'
  refine ⟨tbl, tbl', h1, h1', ?_⟩
  intro row hr row' hr' hp
  have e := h2 row hr
  have e' := h2' row' hr'
  obtain ⟨q, hq, hl, hss⟩ := ht.sumSq
  have num := hss _ _ (ht.interactionOva hX row.f)
  have den := hss _ _ (ht.centred hX ht.model)
  refine isH_scale (num := sumSq Xs.frame (interactionOva u Xs.frame row.f)) (den := sumSq Xs.frame (centred Xs.frame u))
    (len := Xs.frame.rows.length) hq hc e ?_
  rw [← num, ← den, ← hl, ← hp]
  exact e'

theorem recode_greenwell (hs : FitSetup (finM u) E a s0 Xs) (hs' : FitSetup (finM u') E' a' s0' Xs')
    (hsort : SortsBy OvoRow.val false E.sortOvo) (hsort' : SortsBy OvoRow.val false E'.sortOvo) (hX : Xs.frame.rows ≠ [])
    (ht : SameTask ρ c d u Xs.frame.rows u' Xs'.frame.rows) (hnum : ∀ f, E'.numeric (ρ.name f) = E.numeric f)
    (hret : PdpMethod.fit .greenwell E a s0 = (.ok (), s)) (hret' : PdpMethod.fit .greenwell E' a' s0' = (.ok (), s')) :
    ∃ tbl tbl', s.ovo = some tbl ∧ s'.ovo = some tbl' ∧ ∀ row ∈ tbl, ∀ row' ∈ tbl', row'.isPair (ρ.name row.f1) (ρ.name row.f2) →
      row'.val = Num.mul (.fin |c|) row.val := by
  obtain ⟨tbl, h1, h2⟩ := C69_greenwell_is_textbook_formula hs hX hsort hret
  obtain ⟨tbl', h1', h2'⟩ := C69_greenwell_is_textbook_formula hs' (ht.ne hX) hsort' hret'
  refine ⟨tbl, tbl', h1, h1', ?_⟩
  intro row hr row' hr' hp
  obtain ⟨k, e, hk⟩ := h2 row hr
  obtain ⟨k', e', hk'⟩ := h2' row' hr'
  rw [e, e']
  simp only [Num.mul]
  congr 1
  rcases hp with ⟨p1, p2⟩ | ⟨p1, p2⟩
  · rw [p1, p2] at hk'
    exact ht.greenwell hX (hnum _) (hnum _) hk hk'
  · rw [p1, p2] at hk'
    exact ht.greenwell hX (hnum _) (hnum _) hk (isGreenwell_swap hk')

theorem recode_importance {kind kind' : PdKind} (hs : FitSetup (finM u) E a s0 Xs) (hs' : FitSetup (finM u') E' a' s0' Xs')
    (hsort : SortsBy FeatRow.val false E.sortFeat) (hsort' : SortsBy FeatRow.val false E'.sortFeat) (hX : Xs.frame.rows ≠ [])
    (ht : SameTask ρ c d u Xs.frame.rows u' Xs'.frame.rows) (hnum : ∀ f, E'.numeric (ρ.name f) = E.numeric f)
    (hret : PdpMethod.fit kind E a s0 = (.ok (), s)) (hret' : PdpMethod.fit kind' E' a' s0' = (.ok (), s')) :
    ∃ tbl tbl', s.importance = some tbl ∧ s'.importance = some tbl' ∧ ∀ row ∈ tbl, ∀ row' ∈ tbl', row'.f = ρ.name row.f →
      row'.val = Num.mul (.fin |c|) row.val := by
  obtain ⟨tbl, h1, h2⟩ := C70_pd_importance_is_textbook_formula kind hs hX hsort hret
  obtain ⟨tbl', h1', h2'⟩ := C70_pd_importance_is_textbook_formula kind' hs' (ht.ne hX) hsort' hret'
  refine ⟨tbl, tbl', h1, h1', ?_⟩
  intro row hr row' hr' hp
  obtain ⟨k, e, hk⟩ := h2 row hr
  obtain ⟨k', e', hk'⟩ := h2' row' hr'
  rw [hp, hnum] at hk'
  rw [e, e', ht.importance hX hk hk']
  rfl

/-- the table of pairs has a row for `f, g`, and its value is `x` -/
def Shows {F : Type} (t : Option (List (OvoRow F K))) (f g : F) (x : Num K) : Prop :=
  ∃ tbl, t = some tbl ∧ (∃ row ∈ tbl, row.isPair f g) ∧ ∀ row ∈ tbl, row.isPair f g → row.val = x

/-- the table of features has a row for `f`, and its value is `x` -/
def ShowsOne {F : Type} (t : Option (List (FeatRow F K))) (f : F) (x : Num K) : Prop :=
  ∃ tbl, t = some tbl ∧ (∃ row ∈ tbl, row.f = f) ∧ ∀ row ∈ tbl, row.f = f → row.val = x

theorem isPair_comm {F K : Type} {r : OvoRow F K} {f g : F} (h : r.isPair f g) : r.isPair g f := by
  rcases h with ⟨a, b⟩ | ⟨a, b⟩
  · exact Or.inr ⟨a, b⟩
  · exact Or.inl ⟨a, b⟩

/-- from a comparison of rows to a comparison of what the tables show -/
theorem shows_of_rows {kind kind' : PdKind} {g : Row F V → Num K} {g' : Row F' V' → Num K} (hs : FitSetup g E a s0 Xs)
    (hs' : FitSetup g' E' a' s0' Xs') (hsort : SortsBy OvoRow.val false E.sortOvo) (hsort' : SortsBy OvoRow.val false E'.sortOvo)
    (hret : PdpMethod.fit kind E a s0 = (.ok (), s)) (hret' : PdpMethod.fit kind' E' a' s0' = (.ok (), s'))
    (hfs : a.feats.Nodup) (hfs' : a'.feats.Nodup) {φ : Num K → Num K}
    (h : ∃ tbl tbl', s.ovo = some tbl ∧ s'.ovo = some tbl' ∧ ∀ row ∈ tbl, ∀ row' ∈ tbl',
      row'.isPair (ρ.name row.f1) (ρ.name row.f2) → row'.val = φ row.val) {f f2 : F} (hf : f ∈ a.feats) (hf2 : f2 ∈ a.feats)
    (hne : f ≠ f2) (hf' : ρ.name f ∈ a'.feats) (hf2' : ρ.name f2 ∈ a'.feats) :
    ∃ x, Shows s.ovo f f2 x ∧ Shows s'.ovo (ρ.name f) (ρ.name f2) (φ x) := by
  obtain ⟨tbl, tbl', h1, h1', h⟩ := h
  obtain ⟨t, t1, _, t2, _⟩ := C13_one_row_per_pair kind hs hsort hfs hret
  obtain ⟨t', t1', _, t2', _⟩ := C13_one_row_per_pair kind' hs' hsort' hfs' hret'
  rw [h1] at t1
  cases t1
  rw [h1'] at t1'
  cases t1'
  have c1 := t2 f hf f2 hf2 hne
  have c1' := t2' _ hf' _ hf2' (fun e => hne (ρ.name.injective e))
  obtain ⟨row, hr, hp⟩ := List.countP_pos_iff.1 (by rw [c1]; exact Nat.one_pos)
  obtain ⟨row', hr', hp'⟩ := List.countP_pos_iff.1 (by rw [c1']; exact Nat.one_pos)
  simp only [decide_eq_true_eq] at hp hp'
  have tr : ∀ r : OvoRow F K, ∀ r' : OvoRow F' K, r.isPair f f2 → r'.isPair (ρ.name f) (ρ.name f2) → r'.isPair (ρ.name r.f1) (ρ.name r.f2) := by
    intro r r' h h'
    rcases h with ⟨e1, e2⟩ | ⟨e1, e2⟩
    · rw [e1, e2]; exact h'
    · rw [e1, e2]; exact isPair_comm h'
  refine ⟨row.val, ⟨tbl, h1, ⟨row, hr, hp⟩, ?_⟩, ⟨tbl', h1', ⟨row', hr', hp'⟩, ?_⟩⟩
  · intro r2 h2 p2
    obtain ⟨i, hi⟩ := List.mem_iff_getElem?.1 hr
    obtain ⟨j, hj⟩ := List.mem_iff_getElem?.1 h2
    have := countP_one c1 hi hj (by simpa using hp) (by simpa using p2)
    rw [this, hj] at hi
    rw [Option.some.inj hi]
  · intro r2 h2 p2
    exact h row hr r2 h2 (tr _ _ hp p2)

theorem showsOne_of_rows {t : Option (List (FeatRow F K))} {t' : Option (List (FeatRow F' K))} {φ : Num K → Num K}
    (h : ∃ tbl tbl', t = some tbl ∧ t' = some tbl' ∧ ∀ row ∈ tbl, ∀ row' ∈ tbl', row'.f = ρ.name row.f → row'.val = φ row.val)
    {fs : List F} {fs' : List F'} (hfs : fs.Nodup) (hp : ∀ tbl, t = some tbl → (tbl.map (·.f)).Perm fs)
    (hp' : ∀ tbl, t' = some tbl → (tbl.map (·.f)).Perm fs') {f : F} (hf : f ∈ fs) (hf' : ρ.name f ∈ fs') :
    ∃ x, ShowsOne t f x ∧ ShowsOne t' (ρ.name f) (φ x) := by
  obtain ⟨tbl, tbl', h1, h1', h⟩ := h
  obtain ⟨row, hr, rfl⟩ := List.mem_map.1 ((hp _ h1).mem_iff.2 hf)
  obtain ⟨row', hr', he⟩ := List.mem_map.1 ((hp' _ h1').mem_iff.2 hf')
  refine ⟨row.val, ⟨tbl, h1, ⟨row, hr, rfl⟩, ?_⟩, ⟨tbl', h1', ⟨row', hr', he⟩, ?_⟩⟩
  · intro r2 h2 p2
    have nd : (tbl.map (·.f)).Nodup := (hp _ h1).nodup_iff.2 hfs
    rw [List.inj_on_of_nodup_map nd h2 hr p2]
  · intro r2 h2 p2
    exact h row hr r2 h2 p2

/-- the new value of a table entry after rescaling predictions by `c`: normalized H-statistics stay, all else scales by `|c|` -/
def rescaled (kind : PdKind) (c : K) (x : Num K) : Num K :=
  match kind with
  | .friedman true => x
  | _ => Num.mul (.fin |c|) x

/-- a returning fit of one of the two methods on a finite model, with features listed once and at least one row -/
structure Fits {F V G L : Type} [DecidableEq F] [LinearOrder V] [DecidableEq L] (kind : PdKind) (u : Row F V → K) (E : PdEnv G F K)
    (a : PdArgs L F V K) (s0 : PdpMethod G L F V K) (Xs : LFrame L F V) (s : PdpMethod G L F V K) : Prop where
  setup : FitSetup (finM u) E a s0 Xs
  sortOvo : SortsBy OvoRow.val false E.sortOvo
  sortFeat : SortsBy FeatRow.val false E.sortFeat
  rows : Xs.frame.rows ≠ []
  feats : a.feats.Nodup
  returns : PdpMethod.fit kind E a s0 = (.ok (), s)

theorem recode_ovo {kind : PdKind} (h : Fits kind u E a s0 Xs s) (h' : Fits kind u' E' a' s0' Xs' s') (hc : c ≠ 0)
    (ht : SameTask ρ c d u Xs.frame.rows u' Xs'.frame.rows) (hnum : ∀ f, E'.numeric (ρ.name f) = E.numeric f)
    {f f2 : F} (hf : f ∈ a.feats) (hf2 : f2 ∈ a.feats)
    (hne : f ≠ f2) (hf' : ρ.name f ∈ a'.feats) (hf2' : ρ.name f2 ∈ a'.feats) :
    ∃ x, Shows s.ovo f f2 x ∧ Shows s'.ovo (ρ.name f) (ρ.name f2) (rescaled kind c x) := by
  refine shows_of_rows h.setup h'.setup h.sortOvo h'.sortOvo h.returns h'.returns h.feats h'.feats ?_ hf hf2 hne hf' hf2'
  match kind, h, h' with
  | .friedman true, h, h' => simpa [rescaled] using recode_H h.setup h'.setup h.sortOvo h'.sortOvo h.rows hc ht h.returns h'.returns
  | .friedman false, h, h' => simpa [rescaled] using recode_H h.setup h'.setup h.sortOvo h'.sortOvo h.rows hc ht h.returns h'.returns
  | .greenwell, h, h' => exact recode_greenwell h.setup h'.setup h.sortOvo h'.sortOvo h.rows ht hnum h.returns h'.returns

theorem imp_features {kind : PdKind} {g : Row F V → Num K} (hs : FitSetup g E a s0 Xs) (hsortF : SortsBy FeatRow.val false E.sortFeat)
    (hret : PdpMethod.fit kind E a s0 = (.ok (), s)) : ∃ t, s.importance = some t ∧ (t.map (·.f)).Perm a.feats := by
  obtain ⟨rows, h1, h2⟩ := (fit_ok hs hret).imp
  have hF := mapM_eq_ok h1
  have hnames : rows.map FeatRow.f = a.feats := by
    have : List.Forall₂ (fun f (row : FeatRow F K) => row.f = f) a.feats rows := hF.imp (fun f row h => by
      unfold impRow at h
      cases e : impNum (numIn E a.feats f) g Xs.frame f with
      | error e' => rw [e] at h; cases h
      | ok v => rw [e] at h; cases h; rfl)
    clear hF h1 h2
    generalize a.feats = fs at this
    induction this with
    | nil => rfl
    | cons h1 _ ih => simp [h1, ih]
  refine ⟨_, h2, ?_⟩
  have e : ((E.sortFeat rows).map FeatRow.fillna).map FeatRow.f = (E.sortFeat rows).map FeatRow.f := by
    rw [List.map_map]; rfl
  rw [e, ← hnames]
  exact (hsortF rows).1.map _

theorem recode_imp {kind kind' : PdKind} (h : Fits kind u E a s0 Xs s) (h' : Fits kind' u' E' a' s0' Xs' s')
    (ht : SameTask ρ c d u Xs.frame.rows u' Xs'.frame.rows) (hnum : ∀ f, E'.numeric (ρ.name f) = E.numeric f)
    {f : F} (hf : f ∈ a.feats) (hf' : ρ.name f ∈ a'.feats) :
    ∃ x, ShowsOne s.importance f x ∧ ShowsOne s'.importance (ρ.name f) (Num.mul (.fin |c|) x) := by
  have := recode_importance h.setup h'.setup h.sortFeat h'.sortFeat h.rows ht hnum h.returns h'.returns
  refine showsOne_of_rows (φ := Num.mul (.fin |c|)) (fs := a.feats) (fs' := a'.feats) this h.feats ?_ ?_ hf hf'
  · intro tbl e
    obtain ⟨t, e', p⟩ := imp_features h.setup h.sortFeat h.returns
    rw [e] at e'
    cases e'
    exact p
  · intro tbl e
    obtain ⟨t, e', p⟩ := imp_features h'.setup h'.sortFeat h'.returns
    rw [e] at e'
    cases e'
    exact p

theorem recode_all {n : Bool} (h : Fits (.friedman n) u E a s0 Xs s) (h' : Fits (.friedman n) u' E' a' s0' Xs' s') (hc : c ≠ 0)
    (ht : SameTask ρ c d u Xs.frame.rows u' Xs'.frame.rows) (ho : a.calculateOva = true) (ho' : a'.calculateOva = true)
    {f : F} (hf : f ∈ a.feats) (hf' : ρ.name f ∈ a'.feats) :
    ∃ x, ShowsOne s.ova f x ∧ ShowsOne s'.ova (ρ.name f) (rescaled (.friedman n) c x) := by
  refine showsOne_of_rows (fs := a.feats) (fs' := a'.feats) ?_ h.feats ?_ ?_ hf hf'
  · have := recode_ova h.setup h'.setup h.sortFeat h'.sortFeat h.rows hc ht ho ho' h.returns h'.returns
    cases n
    · simpa [rescaled] using this
    · simpa [rescaled] using this
  · intro tbl e
    obtain ⟨t, e', p, _⟩ := C68_ova_is_textbook_formula n h.setup h.sortFeat h.rows ho h.returns
    rw [e] at e'
    cases e'
    exact p
  · intro tbl e
    obtain ⟨t, e', p, _⟩ := C68_ova_is_textbook_formula n h'.setup h'.sortFeat h'.rows ho' h'.returns
    rw [e] at e'
    cases e'
    exact p

theorem Num.one_mul_abs (x : Num K) : Num.mul (.fin |(1 : K)|) x = x := by
  cases x <;> simp [Num.mul, Num.infSign]

theorem rescaled_one (kind : PdKind) (x : Num K) : rescaled kind (1 : K) x = x := by
  match kind with
  | .friedman true => rfl
  | .friedman false => exact Num.one_mul_abs x
  | .greenwell => exact Num.one_mul_abs x

theorem Num.div_common {k : K} (hk : 0 < k) (x y : K) : Num.div (.fin (k * x)) (.fin (k * y)) = Num.div (.fin x) (.fin y) := by
  by_cases hy : y = 0
  · subst hy
    rw [mul_zero]
    rcases lt_trichotomy x 0 with hx | hx | hx
    · have := mul_neg_of_pos_of_neg hk hx
      simp [Num.div, Num.infSign, hx, this, hx.ne, this.ne, hx.not_gt, this.not_gt]
    · simp [Num.div, Num.infSign, hx]
    · have := mul_pos hk hx
      simp [Num.div, Num.infSign, hx, this, hx.ne', this.ne', hx.not_gt, this.not_gt]
  · rw [Num.div_fin _ _ (mul_ne_zero hk.ne' hy), Num.div_fin _ _ hy, mul_div_mul_left _ _ hk.ne']

theorem recode_additivity {A : AddArgs L F V K} {A' : AddArgs L' F' V' K} {m0 m : AddMeter G L F V K} {m0' m' : AddMeter G' L' F' V' K}
    {cp : F} {cp' : F'} {v v' : Num K} (hs : AddSetup (finM u) E A m0 Xs) (hs' : AddSetup (finM u') E' A' m0' Xs') (hc : c ≠ 0)
    (hcp : cp ∉ Xs.frame.cols) (hcp' : cp' ∉ Xs'.frame.cols)
    (ht : SameTask ρ c d u Xs.frame.rows u' Xs'.frame.rows) (hcols : (Xs.frame.cols.map ρ.name).Perm Xs'.frame.cols)
    (hret : AddMeter.fit E.R cp A m0 = (.ok v, m)) (hret' : AddMeter.fit E'.R cp' A' m0' = (.ok v', m')) : v' = v := by
  have hv : v = _ := addFit_value hs hcp (by rw [hret])
  have hv' : v' = _ := addFit_value hs' hcp' (by rw [hret'])
  rw [hv, hv']
  by_cases hX : Xs.frame.rows = []
  · have hX' : Xs'.frame.rows = [] := by
      rw [List.eq_nil_iff_forall_not_mem]
      intro x hx
      have := (proportional_mem ht.data x).2 hx
      rw [hX] at this
      cases this
    simp [addNum, hX, hX', Num.center, Num.subV, Num.sum, Num.div, Num.infSign]
  · have hX' : Xs'.frame.rows ≠ [] := by
      obtain ⟨r, hr⟩ := List.exists_mem_of_ne_nil _ hX
      exact List.ne_nil_of_mem ((proportional_mem ht.data _).1 (List.mem_map.2 ⟨r, hr, rfl⟩))
    obtain ⟨k, hk, e1, e2⟩ := ht.addSums hc hX hcols
    rw [addNum_fin u hX, addNum_fin u' hX', e1, e2,
      Num.div_common hk]

end compare

/-! ## C88–C90: the same features -/

section same
variable {F V G L G' L' K : Type} [DecidableEq F] [LinearOrder V] [DecidableEq L] [DecidableEq L'] [Field K] [LinearOrder K]
  [IsStrictOrderedRing K] [HasSqrt K] [LawfulSqrt K]
variable {E : PdEnv G F K} {a : PdArgs L F V K} {s0 s : PdpMethod G L F V K} {Xs : LFrame L F V}
variable {E' : PdEnv G' F K} {a' : PdArgs L' F V K} {s0' s' : PdpMethod G' L' F V K} {Xs' : LFrame L' F V}
variable {u : Row F V → K} {A : AddArgs L F V K} {A' : AddArgs L' F V K} {m0 m : AddMeter G L F V K} {m0' m' : AddMeter G' L' F V K}
  {cp : F} {v v' : Num K}

theorem Spec.Recoding.same_row (r : Row F V) : (Recoding.same F V).row r = r := rfl

theorem sameTask_same {c d : K} {rows rows' : List (Row F V)} (h : Proportional rows rows') :
    SameTask (Recoding.same F V) c d u rows (fun r => c * u r + d) rows' where
  model := fun r => by rw [Recoding.same_row]
  data := by
    have : rows.map (Recoding.same F V).row = rows := List.map_id _
    rw [this]; exact h

theorem sameTask_data {rows rows' : List (Row F V)} (h : Proportional rows rows') :
    SameTask (Recoding.same F V) (1 : K) 0 u rows u rows' where
  model := fun r => by rw [Recoding.same_row]; ring
  data := (sameTask_same (u := u) (c := 1) (d := 0) h).data

/-- **C88.** Fit the same method with the same model on the same rows in another order, or on data in which every row is repeated
equally often: the values of all pairs and features are the same. -/
theorem C88_row_order_and_repetition {kind : PdKind} (h : Fits kind u E a s0 Xs s) (h' : Fits kind u E' a' s0' Xs' s')
    (hd : Proportional Xs.frame.rows Xs'.frame.rows) (hnum : ∀ f, E'.numeric f = E.numeric f) (hfs : a'.feats.Perm a.feats) :
    (∀ f ∈ a.feats, ∀ g ∈ a.feats, f ≠ g → ∃ x, Shows s.ovo f g x ∧ Shows s'.ovo f g x) ∧
    (∀ f ∈ a.feats, ∃ x, ShowsOne s.importance f x ∧ ShowsOne s'.importance f x) ∧
    ∀ n, kind = .friedman n → a.calculateOva = true → a'.calculateOva = true → ∀ f ∈ a.feats, ∃ x,
      ShowsOne s.ova f x ∧ ShowsOne s'.ova f x := by
  have ht := sameTask_data (K := K) (u := u) hd
  refine ⟨?_, ?_, ?_⟩
  · intro f hf g hg hne
    obtain ⟨x, h1, h2⟩ := recode_ovo h h' one_ne_zero ht hnum hf hg hne (hfs.mem_iff.2 hf) (hfs.mem_iff.2 hg)
    exact ⟨x, h1, by rw [rescaled_one] at h2; exact h2⟩
  · intro f hf
    obtain ⟨x, h1, h2⟩ := recode_imp h h' ht hnum hf (hfs.mem_iff.2 hf)
    exact ⟨x, h1, by rw [Num.one_mul_abs] at h2; exact h2⟩
  · rintro n rfl ho ho' f hf
    obtain ⟨x, h1, h2⟩ := recode_all h h' one_ne_zero ht ho ho' hf (hfs.mem_iff.2 hf)
    exact ⟨x, h1, by rw [rescaled_one] at h2; exact h2⟩

/-- **C88** for the additivity index -/
theorem C88_additivity (hs : AddSetup (finM u) E A m0 Xs) (hs' : AddSetup (finM u) E' A' m0' Xs')
    (hcp : cp ∉ Xs.frame.cols)
    (hd : Proportional Xs.frame.rows Xs'.frame.rows) (hcols : Xs'.frame.cols = Xs.frame.cols)
    (hret : AddMeter.fit E.R cp A m0 = (.ok v, m)) (hret' : AddMeter.fit E'.R cp A' m0' = (.ok v', m')) : v' = v :=
  recode_additivity hs hs' one_ne_zero hcp (by rw [hcols]; exact hcp) (sameTask_data hd)
    (by rw [hcols]; exact (List.map_id _) ▸ List.Perm.refl _) hret hret'

/-- **C89.** Fit the same model on the same rows, with the columns in any order, requesting different features: every pair requested
both times has the same value, every feature requested both times the same importance and the same overall interaction strength.
The importance does not even depend on which of the two methods was fitted. -/
theorem C89_other_features_do_not_matter {kind kind' : PdKind} (h : Fits kind u E a s0 Xs s) (h' : Fits kind' u E' a' s0' Xs' s')
    (hrows : Xs'.frame.rows = Xs.frame.rows) (hnum : ∀ f, E'.numeric f = E.numeric f) :
    (kind' = kind → ∀ f ∈ a.feats, f ∈ a'.feats → ∀ g ∈ a.feats, g ∈ a'.feats → f ≠ g → ∃ x, Shows s.ovo f g x ∧ Shows s'.ovo f g x) ∧
    (∀ f ∈ a.feats, f ∈ a'.feats → ∃ x, ShowsOne s.importance f x ∧ ShowsOne s'.importance f x) ∧
    ∀ n, kind = .friedman n → kind' = .friedman n → a.calculateOva = true → a'.calculateOva = true → ∀ f ∈ a.feats, f ∈ a'.feats →
      ∃ x, ShowsOne s.ova f x ∧ ShowsOne s'.ova f x := by
  have hd : Proportional Xs.frame.rows Xs'.frame.rows := proportional_of_perm (by rw [hrows])
  have ht := sameTask_data (K := K) (u := u) hd
  refine ⟨?_, ?_, ?_⟩
  · rintro rfl f hf hf' g hg hg' hne
    obtain ⟨x, h1, h2⟩ := recode_ovo h h' one_ne_zero ht hnum hf hg hne hf' hg'
    exact ⟨x, h1, by rw [rescaled_one] at h2; exact h2⟩
  · intro f hf hf'
    obtain ⟨x, h1, h2⟩ := recode_imp h h' ht hnum hf hf'
    exact ⟨x, h1, by rw [Num.one_mul_abs] at h2; exact h2⟩
  · rintro n rfl rfl ho ho' f hf hf'
    obtain ⟨x, h1, h2⟩ := recode_all h h' one_ne_zero ht ho ho' hf hf'
    exact ⟨x, h1, by rw [rescaled_one] at h2; exact h2⟩

/-- **C89** for the additivity index: the order of the columns does not matter -/
theorem C89_additivity (hs : AddSetup (finM u) E A m0 Xs) (hs' : AddSetup (finM u) E' A' m0' Xs')
    (hcp : cp ∉ Xs.frame.cols)
    (hrows : Xs'.frame.rows = Xs.frame.rows) (hcols : Xs'.frame.cols.Perm Xs.frame.cols)
    (hret : AddMeter.fit E.R cp A m0 = (.ok v, m)) (hret' : AddMeter.fit E'.R cp A' m0' = (.ok v', m')) : v' = v :=
  recode_additivity hs hs' one_ne_zero hcp (fun hm => hcp (hcols.mem_iff.1 hm))
    (sameTask_data (proportional_of_perm (by rw [hrows]))) ((List.map_id _) ▸ hcols.symm) hret hret'

/-- **C90.** Fit the same method on the same rows with the predictions `c * p + d` (`c ≠ 0`): normalized H-statistics stay the same;
unnormalized H-statistics, Greenwell's values and the partial dependence importance are multiplied by `|c|`. -/
theorem C90_rescaled_predictions {kind : PdKind} {c d : K} (hc : c ≠ 0) (h : Fits kind u E a s0 Xs s)
    (h' : Fits kind (fun r => c * u r + d) E' a' s0' Xs' s') (hrows : Xs'.frame.rows = Xs.frame.rows)
    (hnum : ∀ f, E'.numeric f = E.numeric f) (hfs : a'.feats.Perm a.feats) :
    (kind = .friedman true → ∀ f ∈ a.feats, ∀ g ∈ a.feats, f ≠ g → ∃ x, Shows s.ovo f g x ∧ Shows s'.ovo f g x) ∧
    (kind ≠ .friedman true → ∀ f ∈ a.feats, ∀ g ∈ a.feats, f ≠ g → ∃ x, Shows s.ovo f g (.fin x) ∧ Shows s'.ovo f g (.fin (|c| * x))) ∧
    (∀ f ∈ a.feats, ∃ x, ShowsOne s.importance f (.fin x) ∧ ShowsOne s'.importance f (.fin (|c| * x))) ∧
    (kind = .friedman true → a.calculateOva = true → a'.calculateOva = true → ∀ f ∈ a.feats, ∃ x,
      ShowsOne s.ova f x ∧ ShowsOne s'.ova f x) ∧
    (kind = .friedman false → a.calculateOva = true → a'.calculateOva = true → ∀ f ∈ a.feats, ∃ x,
      ShowsOne s.ova f (.fin x) ∧ ShowsOne s'.ova f (.fin (|c| * x))) := by
  have ht := sameTask_same (u := u) (c := c) (d := d) (proportional_of_perm (l := Xs.frame.rows) (l' := Xs'.frame.rows) (by rw [hrows]))
  refine ⟨?_, ?_, ?_, ?_, ?_⟩
  · rintro rfl f hf g hg hne
    exact recode_ovo h h' hc ht hnum hf hg hne (hfs.mem_iff.2 hf) (hfs.mem_iff.2 hg)
  · intro hk f hf g hg hne
    obtain ⟨x, h1, h2⟩ := recode_ovo h h' hc ht hnum hf hg hne (hfs.mem_iff.2 hf) (hfs.mem_iff.2 hg)
    have hfin : ∃ y : K, x = .fin y := by
      obtain ⟨tbl, e, ⟨row, hr, hp⟩, hall⟩ := h1
      rw [← hall row hr hp]
      match kind, h, hk with
      | .friedman false, h, _ =>
        obtain ⟨t, e', hf⟩ := C66_H_is_textbook_formula false h.setup h.sortOvo h.rows h.returns
        rw [e] at e'
        cases e'
        obtain ⟨y, hy, _⟩ := (by simpa using hf row hr : ∃ h : K, row.val = .fin h ∧ _)
        exact ⟨y, hy⟩
      | .greenwell, h, _ =>
        obtain ⟨t, e', hf⟩ := C69_greenwell_is_textbook_formula h.setup h.rows h.sortOvo h.returns
        rw [e] at e'
        cases e'
        obtain ⟨y, hy, _⟩ := hf row hr
        exact ⟨y, hy⟩
    obtain ⟨y, rfl⟩ := hfin
    refine ⟨y, h1, ?_⟩
    match kind, hk, h2 with
    | .friedman false, _, h2 => exact h2
    | .greenwell, _, h2 => exact h2
  · intro f hf
    obtain ⟨x, h1, h2⟩ := recode_imp h h' ht hnum hf (hfs.mem_iff.2 hf)
    have hfin : ∃ y : K, x = .fin y := by
      obtain ⟨tbl, e, ⟨row, hr, hp⟩, hall⟩ := h1
      rw [← hall row hr hp]
      obtain ⟨t, e', hf⟩ := C70_pd_importance_is_textbook_formula kind h.setup h.rows h.sortFeat h.returns
      rw [e] at e'
      cases e'
      obtain ⟨y, hy, _⟩ := hf row hr
      exact ⟨y, hy⟩
    obtain ⟨y, rfl⟩ := hfin
    exact ⟨y, h1, h2⟩
  · rintro rfl ho ho' f hf
    exact recode_all h h' hc ht ho ho' hf (hfs.mem_iff.2 hf)
  · rintro rfl ho ho' f hf
    obtain ⟨x, h1, h2⟩ := recode_all h h' hc ht ho ho' hf (hfs.mem_iff.2 hf)
    have hfin : ∃ y : K, x = .fin y := by
      obtain ⟨tbl, e, ⟨row, hr, hp⟩, hall⟩ := h1
      rw [← hall row hr hp]
      obtain ⟨t, e', _, hf⟩ := C68_ova_is_textbook_formula false h.setup h.sortFeat h.rows ho h.returns
      rw [e] at e'
      cases e'
      obtain ⟨y, hy, _⟩ := (by simpa using hf row hr : ∃ h : K, row.val = .fin h ∧ _)
      exact ⟨y, hy⟩
    obtain ⟨y, rfl⟩ := hfin
    exact ⟨y, h1, h2⟩

/-- **C90** for the additivity index: it stays the same -/
theorem C90_additivity {c d : K} (hc : c ≠ 0) (hs : AddSetup (finM u) E A m0 Xs)
    (hs' : AddSetup (finM (fun r => c * u r + d)) E' A' m0' Xs') (hcp : cp ∉ Xs.frame.cols)
   
    (hrows : Xs'.frame.rows = Xs.frame.rows) (hcols : Xs'.frame.cols = Xs.frame.cols)
    (hret : AddMeter.fit E.R cp A m0 = (.ok v, m)) (hret' : AddMeter.fit E'.R cp A' m0' = (.ok v', m')) : v' = v :=
  recode_additivity hs hs' hc hcp (by rw [hcols]; exact hcp)
    (sameTask_same (c := c) (d := d) (proportional_of_perm (by rw [hrows])))
    (by rw [hcols]; exact (List.map_id _) ▸ List.Perm.refl _) hret hret'

end same

/-! ## C91: other names and codes -/

section recode
variable {F V G L F' V' G' L' K : Type} [DecidableEq F] [LinearOrder V] [DecidableEq L] [DecidableEq F'] [LinearOrder V']
  [DecidableEq L'] [Field K] [LinearOrder K] [IsStrictOrderedRing K] [HasSqrt K] [LawfulSqrt K]
variable {E : PdEnv G F K} {a : PdArgs L F V K} {s0 s : PdpMethod G L F V K} {Xs : LFrame L F V}
variable {E' : PdEnv G' F' K} {a' : PdArgs L' F' V' K} {s0' s' : PdpMethod G' L' F' V' K} {Xs' : LFrame L' F' V'}
variable {u : Row F V → K} {u' : Row F' V' → K} {ρ : Recoding F V F' V'}

theorem sameTask_recode (hu : ∀ r, u' (ρ.row r) = u r) (hrows : Xs'.frame.rows = Xs.frame.rows.map ρ.row) :
    SameTask ρ (1 : K) 0 u Xs.frame.rows u' Xs'.frame.rows where
  model := fun r => by rw [hu]; ring
  data := proportional_of_perm (by rw [hrows])

/-- **C91.** Rename the features and, within each feature, replace its values by other values (equal ones by equal ones, different
ones by different ones); let the model predict the same. Then every pair and every feature has the same values as before. Only the
choice between the two spread measures must agree: whether a feature counts as numerical. -/
theorem C91_names_and_codes_do_not_matter {kind : PdKind} (h : Fits kind u E a s0 Xs s) (h' : Fits kind u' E' a' s0' Xs' s')
    (hu : ∀ r, u' (ρ.row r) = u r) (hrows : Xs'.frame.rows = Xs.frame.rows.map ρ.row)
    (hnum : ∀ f, E'.numeric (ρ.name f) = E.numeric f) (hfs : a'.feats = a.feats.map ρ.name) :
    (∀ f ∈ a.feats, ∀ g ∈ a.feats, f ≠ g → ∃ x, Shows s.ovo f g x ∧ Shows s'.ovo (ρ.name f) (ρ.name g) x) ∧
    (∀ f ∈ a.feats, ∃ x, ShowsOne s.importance f x ∧ ShowsOne s'.importance (ρ.name f) x) ∧
    ∀ n, kind = .friedman n → a.calculateOva = true → a'.calculateOva = true → ∀ f ∈ a.feats, ∃ x,
      ShowsOne s.ova f x ∧ ShowsOne s'.ova (ρ.name f) x := by
  have ht := sameTask_recode (K := K) hu hrows
  have hm : ∀ f ∈ a.feats, ρ.name f ∈ a'.feats := fun f hf => by rw [hfs]; exact List.mem_map.2 ⟨f, hf, rfl⟩
  refine ⟨?_, ?_, ?_⟩
  · intro f hf g hg hne
    obtain ⟨x, h1, h2⟩ := recode_ovo h h' one_ne_zero ht hnum hf hg hne (hm f hf) (hm g hg)
    exact ⟨x, h1, by rw [rescaled_one] at h2; exact h2⟩
  · intro f hf
    obtain ⟨x, h1, h2⟩ := recode_imp h h' ht hnum hf (hm f hf)
    exact ⟨x, h1, by rw [Num.one_mul_abs] at h2; exact h2⟩
  · rintro n rfl ho ho' f hf
    obtain ⟨x, h1, h2⟩ := recode_all h h' one_ne_zero ht ho ho' hf (hm f hf)
    exact ⟨x, h1, by rw [rescaled_one] at h2; exact h2⟩

/-- **C91** for the additivity index -/
theorem C91_additivity {A : AddArgs L F V K} {A' : AddArgs L' F' V' K} {m0 m : AddMeter G L F V K} {m0' m' : AddMeter G' L' F' V' K}
    {cp : F} {cp' : F'} {v v' : Num K} (hs : AddSetup (finM u) E A m0 Xs) (hs' : AddSetup (finM u') E' A' m0' Xs')
    (hcp : cp ∉ Xs.frame.cols) (hcp' : cp' ∉ Xs'.frame.cols)
    (hu : ∀ r, u' (ρ.row r) = u r) (hrows : Xs'.frame.rows = Xs.frame.rows.map ρ.row) (hcols : Xs'.frame.cols = Xs.frame.cols.map ρ.name)
    (hret : AddMeter.fit E.R cp A m0 = (.ok v, m)) (hret' : AddMeter.fit E'.R cp' A' m0' = (.ok v', m')) : v' = v :=
  recode_additivity hs hs' one_ne_zero hcp hcp' (sameTask_recode hu hrows) (by rw [hcols]) hret hret'

end recode

/-! ## Cases -/

section Cases
open Ex

/-- a fit of a regressor with predictions `u` on all rows of `X` -/
noncomputable def invArgs {F V : Type} (u : Row F V → ℝ) (X : LFrame Nat F V) (features : Option (List F)) : PdArgs Nat F V ℝ where
  model := ⟨1, some (fun _ rows => .ok (rows.map (fun r => .fin (u r)))), none⟩
  X := X
  n := none
  predictFunction := none
  features := features
  batchsize := 7
  pdCalculator := none
  calculateOva := true

noncomputable def invEnv {F : Type} (numeric : F → Bool) : PdEnv Nat F ℝ where
  R := exRng
  sortOvo := stableSort OvoRow.val false
  sortFeat := stableSort FeatRow.val false
  numeric := numeric

/-- such a fit returns if no requested feature is constant -/
theorem invFits {F V : Type} [DecidableEq F] [LinearOrder V] (kind : PdKind) (numeric : F → Bool) (u : Row F V → ℝ) (X : LFrame Nat F V)
    (features : Option (List F)) (hu : ReadsOnly (finM u) X.frame.cols) (hcols : X.frame.cols.Nodup)
    (hfs : (features.getD X.frame.cols).Nodup) (hsub : ∀ f ∈ features.getD X.frame.cols, f ∈ X.frame.cols) (hX : X.frame.rows ≠ [])
    (hv : ∀ f ∈ features.getD X.frame.cols, ∃ r ∈ X.frame.rows, ∃ r' ∈ X.frame.rows, r f ≠ r' f) :
    ∃ s, Fits kind u (invEnv numeric) (invArgs u X features) (PdpMethod.new 0) X s := by
  have hs : FitSetup (finM u) (invEnv numeric) (invArgs u X features) (PdpMethod.new 0) X :=
    ⟨rfl, by intro n rows ys h; cases h; rfl, hu, hcols, by intro co h; cases h⟩
  have hc : PdpMethod.chooseCalc (invArgs u X features) X (invArgs u X features).pf =
      .ok ⟨1, X.labels, Calc.new (invArgs u X features).pf X.frame 7⟩ := by
    simp only [PdpMethod.chooseCalc, invArgs]
  have hp : NeverFails (invArgs u X features).pf := fun n rows => ⟨_, rfl⟩
  have hok : (PdpMethod.fit kind (invEnv numeric) (invArgs u X features) (PdpMethod.new 0)).1 = .ok () := by
    match kind with
    | .friedman n =>
      exact (fit_returns (e := .keyError) (kind := .friedman n) hs hc hp hp (validFeatures_of_nodup hsub hfs)).1.2
        ⟨⟨_, ovoRows.eq_1 _ _ _ _ _⟩, impRows_ok _ _ hX _⟩
    | .greenwell =>
      have h := C18_greenwell_fails_iff_constant_feature hs hc hp hp hfs hsub hX
      refine h.2 ?_
      rw [Ne, h.1]
      rintro ⟨_, f, hf, hcst⟩
      obtain ⟨r, hr, r', hr', hne⟩ := hv f hf
      exact hne (hcst r hr r' hr')
  obtain ⟨s, h⟩ := ret_of_fst hok
  exact ⟨s, hs, sortsBy_stableSort _ _, sortsBy_stableSort _ _, hX, hfs, h⟩

/-- the example data, last row first and every row twice -/
def exTwice : LFrame Nat (Fin 3) ℤ := ⟨[1, 2, 3, 4, 5, 6, 7, 8], ⟨[0, 1, 2], exX.rows.reverse ++ exX.rows.reverse⟩⟩

theorem exTwice_prop : Proportional exX.rows exTwice.frame.rows :=
  ⟨2, 1, by decide, by decide, by
    show (exX.rows ++ (exX.rows ++ [])).Perm ((exX.rows.reverse ++ exX.rows.reverse) ++ [])
    rw [List.append_nil, List.append_nil]
    exact (List.reverse_perm _).symm.append (List.reverse_perm _).symm⟩

theorem exReads {cols : List (Fin 3)} (h : ∀ f, f ∈ cols) : ReadsOnly (finM (exU (K := ℝ))) cols := by
  intro r r' e
  simp only [finM, exU, e 0 (h 0), e 1 (h 1), e 2 (h 2)]

theorem exVaries : ∀ f : Fin 3, ∃ r ∈ exX.rows, ∃ r' ∈ exX.rows, r f ≠ r' f := by
  by_contra h
  simp only [not_forall, not_exists, not_and, not_not] at h
  obtain ⟨f, hf⟩ := h
  have : ∀ f : Fin 3, (∀ r ∈ exX.rows, ∀ r' ∈ exX.rows, r f = r' f) → False := by decide
  exact this f hf

theorem exTwice_varies : ∀ f : Fin 3, ∃ r ∈ exTwice.frame.rows, ∃ r' ∈ exTwice.frame.rows, r f ≠ r' f := by
  intro f
  obtain ⟨r, hr, r', hr', h⟩ := exVaries f
  exact ⟨r, (proportional_mem exTwice_prop r).1 hr, r', (proportional_mem exTwice_prop r').1 hr', h⟩

/-- C88 on the example: all values agree between the data and the doubled, reversed data, for all methods -/
example (kind : PdKind) : ∃ s s', Fits kind exU (invEnv (fun f => decide (f ≠ 2))) (invArgs exU exLX none) (PdpMethod.new 0) exLX s ∧
    Fits kind exU (invEnv (fun f => decide (f ≠ 2))) (invArgs exU exTwice none) (PdpMethod.new 0) exTwice s' ∧
    ∃ x, Shows s.ovo 0 1 x ∧ Shows s'.ovo 0 1 x := by
  obtain ⟨s, h⟩ := invFits kind (fun f => decide (f ≠ 2)) exU exLX none (exReads (by decide)) (by decide)
    (by show [(0 : Fin 3), 1, 2].Nodup; decide) (fun f hf => hf) exRows (fun f _ => exVaries f)
  obtain ⟨s', h'⟩ := invFits kind (fun f => decide (f ≠ 2)) exU exTwice none (exReads (by decide)) (by decide)
    (by show [(0 : Fin 3), 1, 2].Nodup; decide) (fun f hf => hf) (by simp [exTwice, exX]) (fun f _ => exTwice_varies f)
  refine ⟨s, s', h, h', ?_⟩
  exact (C88_row_order_and_repetition h h' exTwice_prop (fun _ => rfl) (List.Perm.refl _)).1 0 (by decide) 1 (by decide) (by decide)

/-- C89 on the example: request two features instead of three, columns in another order -/
example (kind : PdKind) : ∃ s s', Fits kind exU (invEnv (fun f => decide (f ≠ 2))) (invArgs exU exLX none) (PdpMethod.new 0) exLX s ∧
    Fits kind exU (invEnv (fun f => decide (f ≠ 2))) (invArgs exU ⟨[10, 11, 12, 13], ⟨[2, 1, 0], exX.rows⟩⟩ (some [1, 0]))
      (PdpMethod.new 0) ⟨[10, 11, 12, 13], ⟨[2, 1, 0], exX.rows⟩⟩ s' ∧ ∃ x, Shows s.ovo 0 1 x ∧ Shows s'.ovo 0 1 x := by
  obtain ⟨s, h⟩ := invFits kind (fun f => decide (f ≠ 2)) exU exLX none (exReads (by decide)) (by decide)
    (by show [(0 : Fin 3), 1, 2].Nodup; decide) (fun f hf => hf) exRows (fun f _ => exVaries f)
  obtain ⟨s', h'⟩ := invFits kind (fun f => decide (f ≠ 2)) exU ⟨[10, 11, 12, 13], ⟨[2, 1, 0], exX.rows⟩⟩ (some [1, 0])
    (exReads (by decide)) (by decide) (by show [(1 : Fin 3), 0].Nodup; decide)
    (by show ∀ f ∈ [(1 : Fin 3), 0], f ∈ [(2 : Fin 3), 1, 0]; decide) exRows (fun f _ => exVaries f)
  refine ⟨s, s', h, h', ?_⟩
  exact (C89_other_features_do_not_matter h h' rfl (fun _ => rfl)).1 rfl 0 (by decide) (by decide) 1 (by decide) (by decide) (by decide)

/-- C90 on the example: predictions times -3 plus 5 -/
example : ∃ s s', Fits .greenwell exU (invEnv (fun f => decide (f ≠ 2))) (invArgs exU exLX none) (PdpMethod.new 0) exLX s ∧
    Fits .greenwell (fun r => -3 * exU r + 5) (invEnv (fun f => decide (f ≠ 2))) (invArgs (fun r => -3 * exU r + 5) exLX none)
      (PdpMethod.new 0) exLX s' ∧ ∃ x : ℝ, Shows s.ovo 0 1 (.fin x) ∧ Shows s'.ovo 0 1 (.fin (3 * x)) := by
  obtain ⟨s, h⟩ := invFits .greenwell (fun f => decide (f ≠ 2)) exU exLX none (exReads (by decide)) (by decide)
    (by show [(0 : Fin 3), 1, 2].Nodup; decide) (fun f hf => hf) exRows (fun f _ => exVaries f)
  obtain ⟨s', h'⟩ := invFits .greenwell (fun f => decide (f ≠ 2)) (fun r => -3 * exU r + 5) exLX none
    (by intro r r' e; simp only [finM, exU, e 0 (by decide), e 1 (by decide), e 2 (by decide)]) (by decide)
    (by show [(0 : Fin 3), 1, 2].Nodup; decide) (fun f hf => hf) exRows (fun f _ => exVaries f)
  refine ⟨s, s', h, h', ?_⟩
  have := (C90_rescaled_predictions (by norm_num) h h' rfl (fun _ => rfl) (List.Perm.refl _)).2.1 (by simp) 0 (by decide) 1 (by decide)
    (by decide)
  simpa using this

/-- features 0, 1, 2 become 2, 1, 0, and the value `v` becomes `1 - v` -/
def exRecode : Recoding (Fin 3) ℤ (Fin 3) ℤ := ⟨Fin.revPerm, fun _ v => 1 - v, fun _ _ _ h => by simpa using h⟩

/-- the example model for the recoded data -/
noncomputable def exURecoded (r : Row (Fin 3) ℤ) : ℝ := exU (fun f => 1 - r f.rev)

def exRecoded : LFrame Nat (Fin 3) ℤ := ⟨[10, 11, 12, 13], ⟨[2, 1, 0], exX.rows.map exRecode.row⟩⟩

/-- C91 on the example -/
example (kind : PdKind) : ∃ s s', Fits kind exU (invEnv (fun f => decide (f ≠ 2))) (invArgs exU exLX none) (PdpMethod.new 0) exLX s ∧
    Fits kind exURecoded (invEnv (fun f => decide (f ≠ 0))) (invArgs exURecoded exRecoded none) (PdpMethod.new 0) exRecoded s' ∧
    ∃ x, Shows s.ovo 0 1 x ∧ Shows s'.ovo 2 1 x := by
  obtain ⟨s, h⟩ := invFits kind (fun f => decide (f ≠ 2)) exU exLX none (exReads (by decide)) (by decide)
    (by show [(0 : Fin 3), 1, 2].Nodup; decide) (fun f hf => hf) exRows (fun f _ => exVaries f)
  obtain ⟨s', h'⟩ := invFits kind (fun f => decide (f ≠ 0)) exURecoded exRecoded none
    (by intro r r' e
        have e' : ∀ f : Fin 3, r f = r' f := fun f => e f (by revert f; decide)
        simp only [finM, exURecoded, e']) (by decide)
    (by show [(2 : Fin 3), 1, 0].Nodup; decide) (fun f hf => hf) (by simp [exRecoded, exX])
    (by
      intro f _
      obtain ⟨r, hr, r', hr', hne⟩ := exVaries f.rev
      refine ⟨exRecode.row r, List.mem_map.2 ⟨r, hr, rfl⟩, exRecode.row r', List.mem_map.2 ⟨r', hr', rfl⟩, ?_⟩
      intro e
      have : (1 : ℤ) - r f.rev = 1 - r' f.rev := e
      exact hne (by simpa using this))
  refine ⟨s, s', h, h', ?_⟩
  exact (C91_names_and_codes_do_not_matter (ρ := exRecode) h h'
    (by
      intro r
      have : (fun f : Fin 3 => 1 - exRecode.row r f.rev) = r := by
        funext f
        show 1 - (1 - r (Fin.revPerm.symm f.rev)) = r f
        simp
      simp only [exURecoded, this]) rfl
    (by intro f; revert f; decide) (by decide)).1 0 (by decide) 1 (by decide) (by decide)

/-- C90 is sharp: Greenwell's values are not invariant when the predictions are scaled (computed over ℚ) -/
example : ((PdpMethod.fit (G := Nat) .greenwell exEnv exArgsScaled (PdpMethod.new 0)).2.ovo.getD []).map (·.val)
    ≠ ((PdpMethod.fit (G := Nat) (K := ℚ) .greenwell exEnv exArgs (PdpMethod.new 0)).2.ovo.getD []).map (·.val) := by decide +kernel

/-- C88 needs equal proportions: with only the first row repeated the values change (computed over ℚ) -/
example : ((PdpMethod.fit (G := Nat) (.friedman true) exEnv { exArgs with X := ⟨[1, 2, 3, 4, 5], ⟨[0, 1, 2], exX.rows ++ exX.rows.take 1⟩⟩ }
      (PdpMethod.new 0)).2.ovo.getD []).map (·.val) ≠ ((exFitQ true).2.ovo.getD []).map (·.val) := by decide +kernel

/-- C90 for the additivity index: a model with an interaction, and the same model times -3 plus 5 -/
example : ∃ v m m', AddMeter.fit (L := Nat) exRng 3 (exAdd exSame (fun r => (r 0 : ℝ) * r 1 + r 2) [0, 1, 2]) (AddMeter.new (G := Nat) 0) =
      (.ok v, m) ∧
    AddMeter.fit (L := Nat) exRng 3 (exAdd exSame (fun r => -3 * ((r 0 : ℝ) * r 1 + r 2) + 5) [0, 1, 2]) (AddMeter.new (G := Nat) 0) =
      (.ok v, m') := by
  have hs := exAddSetup (invEnv (fun _ : Fin 4 => true)) (fun r => (r 0 : ℝ) * r 1 + r 2) (by
    intro r r' h; simp only [finM, h 0 (by decide), h 1 (by decide), h 2 (by decide)])
  have hs' := exAddSetup (invEnv (fun _ : Fin 4 => true)) (fun r => -3 * ((r 0 : ℝ) * r 1 + r 2) + 5) (by
    intro r r' h; simp only [finM, h 0 (by decide), h 1 (by decide), h 2 (by decide)])
  have hc : ∀ u : Row (Fin 4) ℤ → ℝ, PdpMethod.chooseCalc (exAdd exSame u [0, 1, 2]).toPd
      ⟨[0, 1], ⟨[0, 1, 2], exSame⟩⟩ (exAdd exSame u [0, 1, 2]).toPd.pf = .ok
      ⟨1, [0, 1], Calc.new (exAdd exSame u [0, 1, 2]).toPd.pf ⟨[0, 1, 2], exSame⟩ 3⟩ := by
    intro u
    simp only [PdpMethod.chooseCalc, AddArgs.toPd, exAdd]
  have hp : ∀ u : Row (Fin 4) ℤ → ℝ, NeverFails (exAdd exSame u [0, 1, 2]).toPd.pf := fun u n rows => ⟨_, rfl⟩
  obtain ⟨v, m, h⟩ := C22_fit_returns (cp := 3) hs (hc _) (hp _) (hp _)
  obtain ⟨v', m', h'⟩ := C22_fit_returns (cp := 3) hs' (hc _) (hp _) (hp _)
  have := C90_additivity (by norm_num) hs hs' (by decide) rfl rfl h h'
  rw [this] at h'
  exact ⟨v, m, m', h, h'⟩

end Cases
end Artemis
