import Verif.Proofs.PDCalcHist

/-! Observational lemmas: getters, repeated requests, extensionality. -/

set_option linter.unusedSectionVars false
set_option linter.unusedVariables false
set_option linter.unusedSimpArgs false

namespace Artemis

variable {F V N : Type*} [DecidableEq F] [LinearOrder V] [Flt N]

/-! ### `mapM` in `Except` -/
section mapM
variable {α β : Type*}

theorem mapM_cons_except (f : α → Except Err β) (a : α) (l : List α) :
    (a :: l).mapM f = match f a with
      | .error e => .error e
      | .ok b => match l.mapM f with
        | .error e => .error e
        | .ok bs => .ok (b :: bs) := by
  rw [List.mapM_cons]
  cases f a with
  | error e => rfl
  | ok b => cases l.mapM f <;> rfl

theorem mapM_ok {f : α → Except Err β} {l : List α} {h : α → β} (hf : ∀ a ∈ l, f a = .ok (h a)) :
    l.mapM f = .ok (l.map h) := by
  induction l with
  | nil => rfl
  | cons a l ih =>
    rw [mapM_cons_except, hf a (by simp), ih (fun b hb => hf b (List.mem_cons_of_mem _ hb))]
    rfl

theorem mapM_error {f : α → Except Err β} {l : List α} {e : Err}
    (hf : ∀ a ∈ l, f a = .error e ∨ ∃ b, f a = .ok b) (hex : ∃ a ∈ l, f a = .error e) :
    l.mapM f = .error e := by
  induction l with
  | nil => simp at hex
  | cons a l ih =>
    rw [mapM_cons_except]
    rcases hf a (by simp) with h | ⟨b, h⟩
    · rw [h]
    · rw [h]
      obtain ⟨a', ha', he⟩ := hex
      rcases List.mem_cons.1 ha' with rfl | ha'
      · rw [h] at he; cases he
      · rw [ih (fun b hb => hf b (List.mem_cons_of_mem _ hb)) ⟨a', ha', he⟩]

theorem mapM_exists_ok {f : α → Except Err β} {l : List α} (hf : ∀ a ∈ l, ∃ b, f a = .ok b) :
    ∃ bs, l.mapM f = .ok bs ∧ bs.length = l.length := by
  induction l with
  | nil => exact ⟨[], rfl, rfl⟩
  | cons a l ih =>
    obtain ⟨b, hb⟩ := hf a (by simp)
    obtain ⟨bs, hbs, hl⟩ := ih (fun a ha => hf a (List.mem_cons_of_mem _ ha))
    exact ⟨b :: bs, by rw [mapM_cons_except, hb, hbs], by simp [hl]⟩

theorem mapM_congr {f g : α → Except Err β} {l : List α} (h : ∀ a ∈ l, f a = g a) :
    l.mapM f = l.mapM g := by
  induction l with
  | nil => rfl
  | cons a l ih =>
    rw [mapM_cons_except, mapM_cons_except, h a (by simp),
      ih (fun b hb => h b (List.mem_cons_of_mem _ hb))]
end mapM

/-! ### combinations -/

theorem mem_combinations2_or {α : Type*} {l : List α} {a b : α} (ha : a ∈ l) (hb : b ∈ l) (hab : a ≠ b) :
    (a, b) ∈ combinations2 l ∨ (b, a) ∈ combinations2 l := by
  induction l with
  | nil => simp at ha
  | cons x xs ih =>
    simp only [combinations2, List.mem_append, List.mem_map, Prod.mk.injEq]
    rcases List.mem_cons.1 ha with rfl | ha'
    · rcases List.mem_cons.1 hb with rfl | hb'
      · exact absurd rfl hab
      · exact Or.inl (Or.inl ⟨b, hb', rfl, rfl⟩)
    · rcases List.mem_cons.1 hb with rfl | hb'
      · exact Or.inr (Or.inl ⟨a, ha', rfl, rfl⟩)
      · exact (ih ha' hb').imp Or.inr Or.inr

theorem ne_of_mem_combinations2 {α : Type*} {l : List α} (nd : l.Nodup) {a b : α}
    (h : (a, b) ∈ combinations2 l) : a ≠ b := by
  induction l with
  | nil => simp [combinations2] at h
  | cons x xs ih =>
    rw [List.nodup_cons] at nd
    simp only [combinations2, List.mem_append, List.mem_map, Prod.mk.injEq] at h
    rcases h with ⟨y, hy, rfl, rfl⟩ | h
    · rintro rfl; exact nd.1 hy
    · exact ih nd.2 h

theorem not_mem_combinations2_swap {α : Type*} {l : List α} (nd : l.Nodup) {a b : α}
    (h : (a, b) ∈ combinations2 l) : (b, a) ∉ combinations2 l := by
  induction l with
  | nil => simp [combinations2] at h
  | cons x xs ih =>
    have nd' := List.nodup_cons.1 nd
    simp only [combinations2, List.mem_append, List.mem_map, Prod.mk.injEq] at h ⊢
    rcases h with ⟨y, hy, rfl, rfl⟩ | h
    · rintro (⟨z, hz, rfl, rfl⟩ | h')
      · exact nd'.1 hy
      · exact nd'.1 (mem_combinations2 h').2
    · rintro (⟨z, hz, rfl, rfl⟩ | h')
      · exact nd'.1 (mem_combinations2 h).2
      · exact ih nd'.2 h h'

theorem nodup_combinations2 {α : Type*} {l : List α} (nd : l.Nodup) : (combinations2 l).Nodup := by
  induction l with
  | nil => simp [combinations2]
  | cons x xs ih =>
    have nd' := List.nodup_cons.1 nd
    simp only [combinations2]
    refine List.Nodup.append ?_ (ih nd'.2) ?_
    · exact nd'.2.map (fun a b h => by simpa using h)
    · intro p hp hp'
      obtain ⟨y, hy, rfl⟩ := List.mem_map.1 hp
      exact nd'.1 (mem_combinations2 hp').1

theorem canonPair_mem {X : Frame F V} {p : F × F} (h1 : p.1 ∈ X.cols) (h2 : p.2 ∈ X.cols)
    (hne : p.1 ≠ p.2) : canonPair X p ∈ combinations2 X.cols := by
  unfold canonPair
  rcases mem_combinations2_or h1 h2 hne with h | h
  · rw [if_pos h]; exact h
  · split
    · assumption
    · exact h

theorem canonPair_mem_iff {X : Frame F V} (nd : X.cols.Nodup) {p : F × F} :
    canonPair X p ∈ combinations2 X.cols ↔ p.1 ∈ X.cols ∧ p.2 ∈ X.cols ∧ p.1 ≠ p.2 := by
  constructor
  · intro h
    unfold canonPair at h
    split at h
    · next hp => exact ⟨(mem_combinations2 hp).1, (mem_combinations2 hp).2, ne_of_mem_combinations2 nd hp⟩
    · exact ⟨(mem_combinations2 h).2, (mem_combinations2 h).1, (ne_of_mem_combinations2 nd h).symm⟩
  · rintro ⟨h1, h2, h3⟩; exact canonPair_mem h1 h2 h3

/-! ### Brute-force values -/

open Fam

theorem truthS (g : Row F V → N) (X : Frame F V) (f : F) (v : V) :
    famS.truth g X (f, v) = Spec.pdSingle g X f v := by
  simp only [Fam.truth, Spec.pdSingle, famS, blockSingle, Frame.assign, List.map_map]
  congr 1
  apply List.map_congr_left
  intro r _
  simp only [Function.comp]
  congr 1
  funext h
  simp [Function.update_apply]

theorem truthP (g : Row F V → N) (X : Frame F V) (f f' : F) (v v' : V) (hne : f ≠ f') :
    famP.truth g X ((f, f'), (v, v')) = Spec.pdPair g X f f' v v' := by
  simp only [Fam.truth, Spec.pdPair, famP, blockPair, Frame.assign, List.map_map]
  congr 1
  apply List.map_congr_left
  intro r _
  simp only [Function.comp]
  congr 1
  funext h
  simp only [Function.update_apply]
  by_cases h1 : h = f
  · subst h1; simp [hne]
  · simp [h1]

theorem pdPair_swap (g : Row F V → N) (X : Frame F V) (f f' : F) (v v' : V) (hne : f ≠ f') :
    Spec.pdPair g X f f' v v' = Spec.pdPair g X f' f v' v := by
  simp only [Spec.pdPair]
  congr 1
  apply List.map_congr_left
  intro r _
  congr 1
  funext h
  by_cases h1 : h = f
  · subst h1; simp [hne]
  · simp [h1]

theorem truthM (g : Row F V → N) (X : Frame F V) (hg : ReadsOnly g X.cols) (f : F) (i : Nat)
    (hi : i < X.len) : famM.truth g X (f, i) = Spec.pdMinus g X f (X.rows[i]'hi) := by
  have hi' : i < X.rows.length := hi
  simp only [Fam.truth, Spec.pdMinus, famM, blockMinus, List.getElem?_eq_getElem hi', List.map_map]
  congr 1
  apply List.map_congr_left
  intro r _
  simp only [Function.comp]
  apply hg
  intro h hh
  by_cases h1 : h = f
  · subst h1; simp
  · simp [h1, hh]; rfl

/-! ### Repeated requests -/

theorem forEach_noop {σ α : Type*} {as : List α} {body : α → PyM σ Unit} {s : σ}
    (h : ∀ a ∈ as, body a s = (.ok (), s)) : PyM.forEach as body s = (.ok (), s) := by
  induction as with
  | nil => rfl
  | cons a as ih =>
    simp only [PyM.forEach, PyM.seq, h a (by simp)]
    exact ih (fun b hb => h b (List.mem_cons_of_mem _ hb))

theorem withLoc_noop {κ : Type*} {body : PyM (Run κ F V N) Unit} {fill} {c : Calc F V N}
    (h : body (c, Loc.empty) = (.ok (), (c, Loc.empty))) :
    withLoc (PyM.seq body (fun _ => flushRest fill)) c = (.ok (), c) := by
  simp only [withLoc, PyM.seq, h]
  simp [flushRest, Loc.empty]

theorem calculateSingle_noop {c : Calc F V N} (hs : Shape c) {features : Option (List F)}
    (hf : ∀ f ∈ features.getD c.X.cols, f ∈ c.X.cols)
    (hn : ∀ f ∈ features.getD c.X.cols, ∀ v ∈ c.X.col f, ∃ x, cellS c (f, v) = some x ∧ Flt.isNaN x = false) :
    Calc.calculateSingle features c = (.ok (), c) := by
  unfold Calc.calculateSingle
  apply withLoc_noop
  apply forEach_noop
  intro f hfm
  have hkey : f ∈ c.pdSingle.keys := by rw [hs.single_keys]; exact hf f hfm
  obtain ⟨t, ht⟩ := Option.isSome_iff_exists.1 ((Dict.get?_isSome_iff _ _).2 hkey)
  obtain ⟨h1, h2⟩ := hs.single _ _ ht
  simp only [Calc.singleBody, ht]
  rw [if_neg]
  simp only [List.any_eq_true, not_exists, not_and]
  intro x hx
  obtain ⟨i, hi, hxi⟩ := List.mem_iff_getElem.1 hx
  have hi' : i < t.fValues.length := by rw [← h2]; exact hi
  have hmem : t.fValues[i] ∈ c.X.col f := by
    rw [← mem_npUnique, ← h1]; exact List.getElem_mem hi'
  obtain ⟨x', hc, hnn⟩ := hn f hfm _ hmem
  simp only [cellS, ht, Option.bind_some] at hc
  rw [if_pos (List.getElem_mem hi'), List.Nodup.idxOf_getElem (by rw [h1]; exact nodup_npUnique _),
    List.getElem?_eq_getElem hi, hxi] at hc
  cases hc
  simp [hnn]

theorem calculateMinus_noop {c : Calc F V N} (hs : Shape c) {features : Option (List F)}
    (hf : ∀ f ∈ features.getD c.X.cols, f ∈ c.X.cols)
    (hn : ∀ f ∈ features.getD c.X.cols, ∀ i < c.X.len, ∃ x, cellM c (f, i) = some x ∧ Flt.isNaN x = false) :
    Calc.calculateMinus features c = (.ok (), c) := by
  unfold Calc.calculateMinus
  apply withLoc_noop
  apply forEach_noop
  intro f hfm
  have hkey : f ∈ c.pdMinus.keys := by rw [hs.minus_keys]; exact hf f hfm
  obtain ⟨t, ht⟩ := Option.isSome_iff_exists.1 ((Dict.get?_isSome_iff _ _).2 hkey)
  have h1 := hs.minus _ _ ht
  simp only [Calc.minusBody, ht]
  rw [if_neg]
  simp only [List.any_eq_true, not_exists, not_and]
  intro x hx
  obtain ⟨i, hi, hxi⟩ := List.mem_iff_getElem.1 hx
  obtain ⟨x', hc, hnn⟩ := hn f hfm i (h1 ▸ hi)
  simp only [cellM, ht, Option.bind_some, List.getElem?_eq_getElem hi, hxi] at hc
  cases hc
  simp [hnn]

theorem calculatePairs_noop {c : Calc F V N} (hs : Shape c) {pairs : Option (List (F × F))} {all : Bool}
    (hf : ∀ p ∈ pairs.getD (combinations2 c.X.cols), canonPair c.X p ∈ combinations2 c.X.cols)
    (hn : ∀ k ∈ reqP c.X pairs all, ∃ x, cellP c k = some x ∧ Flt.isNaN x = false) :
    Calc.calculatePairs pairs all c = (.ok (), c) := by
  unfold Calc.calculatePairs
  rw [hs.pair_keys]
  apply withLoc_noop
  apply forEach_noop
  intro p hp
  have hcp := hf p hp
  have hkey : canonPair c.X p ∈ c.pdPairs.keys := by rw [hs.pair_keys]; exact hcp
  obtain ⟨t, ht⟩ := Option.isSome_iff_exists.1 ((Dict.get?_isSome_iff _ _).2 hkey)
  obtain ⟨t1, t2, t3, t4⟩ := hs.pair _ _ ht
  have hvals : c.pairValues all (canonPair c.X p) = .ok (valsP all c.X (canonPair c.X p)) := by
    cases all with
    | true => simp [Calc.pairValues, ht, valsP, t1, t2]
    | false =>
      have := mem_combinations2 hcp
      simp [Calc.pairValues, valsP, this.1, this.2]
  simp only [Calc.pairBody, pairKey_eq hs, hvals]
  apply forEach_noop
  intro v hv
  have hvm := mem_valsP hv
  have m1 : v.1 ∈ t.f1Values := by rw [t1, mem_npUnique]; exact hvm.1
  have m2 : v.2 ∈ t.f2Values := by rw [t2, mem_npUnique]; exact hvm.2
  obtain ⟨x, hx, hnn⟩ := hn (canonPair c.X p, v) (by
    simp only [reqP, List.mem_flatMap]
    exact ⟨p, hp, List.mem_map.2 ⟨v, hv, rfl⟩⟩)
  simp only [cellP, ht, Option.bind_some, m1, m2, and_self, if_true] at hx
  simp only [Calc.pairValueBody, ht, getIndex_of_mem m1, getIndex_of_mem m2, hx, hnn]
  rfl

/-! ### Extensionality -/

theorem single_ext {c c' : Calc F V N} (hs : Shape c) (hs' : Shape c') (hX : c.X = c'.X)
    (h : ∀ k, cellS c k = cellS c' k) (f : F) : c.pdSingle.get? f = c'.pdSingle.get? f := by
  by_cases hf : f ∈ c.X.cols
  · have hkey : f ∈ c.pdSingle.keys := by rw [hs.single_keys]; exact hf
    have hkey' : f ∈ c'.pdSingle.keys := by rw [hs'.single_keys, ← hX]; exact hf
    obtain ⟨t, ht⟩ := Option.isSome_iff_exists.1 ((Dict.get?_isSome_iff _ _).2 hkey)
    obtain ⟨t', ht'⟩ := Option.isSome_iff_exists.1 ((Dict.get?_isSome_iff _ _).2 hkey')
    obtain ⟨h1, h2⟩ := hs.single _ _ ht
    obtain ⟨h1', h2'⟩ := hs'.single _ _ ht'
    have hfv : t.fValues = t'.fValues := by rw [h1, h1', hX]
    have hpv : t.pdValues = t'.pdValues := by
      apply List.ext_getElem?
      intro i
      by_cases hi : i < t.fValues.length
      · have := h (f, t.fValues[i])
        simp only [cellS, ht, ht', Option.bind_some] at this
        rw [if_pos (List.getElem_mem hi), if_pos (by rw [← hfv]; exact List.getElem_mem hi), ← hfv,
          List.Nodup.idxOf_getElem (by rw [h1]; exact nodup_npUnique _)] at this
        exact this
      · rw [List.getElem?_eq_none (by omega), List.getElem?_eq_none (by rw [h2', ← hfv]; omega)]
    rw [ht, ht']
    cases t; cases t'; simp_all
  · rw [(Dict.get?_eq_none_iff _ _).2 (by rw [hs.single_keys]; exact hf),
      (Dict.get?_eq_none_iff _ _).2 (by rw [hs'.single_keys, ← hX]; exact hf)]

theorem minus_ext {c c' : Calc F V N} (hs : Shape c) (hs' : Shape c') (hX : c.X = c'.X)
    (h : ∀ k, cellM c k = cellM c' k) (f : F) : c.pdMinus.get? f = c'.pdMinus.get? f := by
  by_cases hf : f ∈ c.X.cols
  · have hkey : f ∈ c.pdMinus.keys := by rw [hs.minus_keys]; exact hf
    have hkey' : f ∈ c'.pdMinus.keys := by rw [hs'.minus_keys, ← hX]; exact hf
    obtain ⟨t, ht⟩ := Option.isSome_iff_exists.1 ((Dict.get?_isSome_iff _ _).2 hkey)
    obtain ⟨t', ht'⟩ := Option.isSome_iff_exists.1 ((Dict.get?_isSome_iff _ _).2 hkey')
    rw [ht, ht']
    congr 1
    apply List.ext_getElem?
    intro i
    have := h (f, i)
    simpa [cellM, ht, ht'] using this
  · rw [(Dict.get?_eq_none_iff _ _).2 (by rw [hs.minus_keys]; exact hf),
      (Dict.get?_eq_none_iff _ _).2 (by rw [hs'.minus_keys, ← hX]; exact hf)]

theorem pair_ext {c c' : Calc F V N} (hs : Shape c) (hs' : Shape c') (hX : c.X = c'.X)
    (h : ∀ k, cellP c k = cellP c' k) (p : F × F) : c.pdPairs.get? p = c'.pdPairs.get? p := by
  by_cases hf : p ∈ combinations2 c.X.cols
  · have hkey : p ∈ c.pdPairs.keys := by rw [hs.pair_keys]; exact hf
    have hkey' : p ∈ c'.pdPairs.keys := by rw [hs'.pair_keys, ← hX]; exact hf
    obtain ⟨t, ht⟩ := Option.isSome_iff_exists.1 ((Dict.get?_isSome_iff _ _).2 hkey)
    obtain ⟨t', ht'⟩ := Option.isSome_iff_exists.1 ((Dict.get?_isSome_iff _ _).2 hkey')
    obtain ⟨h1, h2, h3, h4⟩ := hs.pair _ _ ht
    obtain ⟨h1', h2', h3', h4'⟩ := hs'.pair _ _ ht'
    have hfv1 : t.f1Values = t'.f1Values := by rw [h1, h1', hX]
    have hfv2 : t.f2Values = t'.f2Values := by rw [h2, h2', hX]
    have hpv : t.pdValues = t'.pdValues := by
      apply List.ext_getElem
      · rw [h3, h3', hfv1]
      · intro i hi hi'
        have hi1 : i < t.f1Values.length := by rw [← h3]; exact hi
        have hi1' : i < t'.f1Values.length := by rw [← h3']; exact hi'
        apply List.ext_getElem?
        intro j
        have l1 := h4 _ (List.getElem_mem hi)
        have l1' := h4' _ (List.getElem_mem hi')
        by_cases hj : j < t.f2Values.length
        · have hj' : j < t'.f2Values.length := by rw [← hfv2]; exact hj
          have := h (p, (t.f1Values[i], t.f2Values[j]))
          simp only [cellP, ht, ht', Option.bind_some] at this
          have m1 := List.getElem_mem hi1
          have m2 := List.getElem_mem hj
          rw [if_pos ⟨m1, m2⟩, if_pos ⟨hfv1 ▸ m1, hfv2 ▸ m2⟩, ← hfv1, ← hfv2,
            List.Nodup.idxOf_getElem (by rw [h1]; exact nodup_npUnique _),
            List.Nodup.idxOf_getElem (by rw [h2]; exact nodup_npUnique _),
            List.getElem?_eq_getElem hi, List.getElem?_eq_getElem hi'] at this
          simpa using this
        · rw [List.getElem?_eq_none (by omega), List.getElem?_eq_none (by rw [l1', ← hfv2]; omega)]
    rw [ht, ht']
    cases t; cases t'; simp_all
  · rw [(Dict.get?_eq_none_iff _ _).2 (by rw [hs.pair_keys]; exact hf),
      (Dict.get?_eq_none_iff _ _).2 (by rw [hs'.pair_keys, ← hX]; exact hf)]

end Artemis
