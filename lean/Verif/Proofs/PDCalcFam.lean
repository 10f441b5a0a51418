import Verif.Proofs.PDCalcEngine

/-! The three families of cells and the specification of the three `calculate_*` methods. -/

set_option linter.unusedSectionVars false
set_option linter.unusedVariables false
set_option linter.unusedSimpArgs false

namespace Artemis

variable {F V N : Type*} [DecidableEq F] [LinearOrder V] [Flt N]

/-- cell of the single table -/
def cellS (c : Calc F V N) (k : F × V) : Option N :=
  (c.pdSingle.get? k.1).bind fun t =>
    if k.2 ∈ t.fValues then t.pdValues[t.fValues.idxOf k.2]? else none

/-- cell of the pair table -/
def cellP (c : Calc F V N) (k : (F × F) × (V × V)) : Option N :=
  (c.pdPairs.get? k.1).bind fun t =>
    if k.2.1 ∈ t.f1Values ∧ k.2.2 ∈ t.f2Values then
      (t.pdValues[t.f1Values.idxOf k.2.1]?).bind (fun row => row[t.f2Values.idxOf k.2.2]?) else none

/-- cell of the all-but-one table -/
def cellM (c : Calc F V N) (k : F × Nat) : Option N := (c.pdMinus.get? k.1).bind (fun t => t[k.2]?)

theorem lookupSingle_eq (c : Calc F V N) (f : F) (v : V) (x : N) :
    c.lookupSingle f v = .ok x ↔ cellS c (f, v) = some x := by
  unfold Calc.lookupSingle cellS
  cases c.pdSingle.get? f with
  | none => simp
  | some t =>
    by_cases hv : v ∈ t.fValues
    · simp only [getIndex_of_mem hv, Option.bind_some, if_pos hv]
      cases t.pdValues[t.fValues.idxOf v]? <;> simp
    · simp [getIndex_of_not_mem hv, hv]

theorem isSome_cellS {c : Calc F V N} (hs : Shape c) (k : F × V) :
    (cellS c k).isSome ↔ k.1 ∈ c.X.cols ∧ k.2 ∈ c.X.col k.1 := by
  unfold cellS
  rw [← hs.single_keys, ← Dict.get?_isSome_iff]
  cases h : c.pdSingle.get? k.1 with
  | none => simp
  | some t =>
    obtain ⟨h1, h2⟩ := hs.single _ _ h
    simp only [Option.bind_some, Option.isSome_some, true_and]
    by_cases hv : k.2 ∈ t.fValues
    · have hlt : t.fValues.idxOf k.2 < t.pdValues.length := by
        rw [h2]; exact List.idxOf_lt_length_iff.2 hv
      simp only [if_pos hv, List.getElem?_eq_getElem hlt, Option.isSome_some, true_iff]
      rw [h1, mem_npUnique] at hv; exact hv
    · have hv' := hv
      rw [h1, mem_npUnique] at hv'
      simp [hv, hv']

theorem len_pos_of_mem_col {X : Frame F V} {f : F} {v : V} (h : v ∈ X.col f) : 0 < X.len := by
  unfold Frame.col at h
  obtain ⟨r, hr, _⟩ := List.mem_map.1 h
  exact List.length_pos_of_mem hr

theorem blockSingle_length (X : Frame F V) (k : F × V) : (blockSingle X k).length = X.len := by
  simp [blockSingle, Frame.assign, Frame.len]

theorem blockPair_length (X : Frame F V) (k : (F × F) × (V × V)) : (blockPair X k).length = X.len := by
  simp [blockPair, Frame.assign, Frame.len]

theorem storeSingle_spec (c : Calc F V N) (y : List N) (k : F × V) (r : Nat × Nat) (hs : Shape c)
    (hk : (cellS c k).isSome) :
    ∃ c', Calc.storeSingle y (k, r) c = (.ok (), c') ∧ Shape c' ∧
      (c'.X = c.X ∧ c'.predict = c.predict ∧ c'.batchsize = c.batchsize ∧ c'.pdPairs = c.pdPairs ∧
        c'.pdMinus = c.pdMinus) ∧ c'.calls = c.calls ∧
      ∀ k', cellS c' k' = if k' = k then some (Flt.mean (slice y r.1 r.2)) else cellS c k' := by
  have hm := (isSome_cellS hs k).1 hk
  obtain ⟨f, v⟩ := k
  have hkey : f ∈ c.pdSingle.keys := by rw [hs.single_keys]; exact hm.1
  obtain ⟨t, ht⟩ := Option.isSome_iff_exists.1 ((Dict.get?_isSome_iff _ _).2 hkey)
  obtain ⟨h1, h2⟩ := hs.single _ _ ht
  have hv : v ∈ t.fValues := by rw [h1, mem_npUnique]; exact hm.2
  have hlt : t.fValues.idxOf v < t.pdValues.length := by
    rw [h2]; exact List.idxOf_lt_length_iff.2 hv
  have hst : Calc.storeSingle y ((f, v), r) c = (.ok (), { c with
      pdSingle := (c.pdSingle.set f
        { t with pdValues := t.pdValues.set (t.fValues.idxOf v) (Flt.mean (slice y r.1 r.2)) }) }) := by
    simp only [Calc.storeSingle, ht, getIndex_of_mem hv]
  refine ⟨_, hst, ?_, ?_, rfl, ?_⟩
  · refine ⟨?_, ?_, hs.pair_keys, hs.pair, hs.minus_keys, hs.minus⟩
    · simp only [Dict.keys_set_of_mem hkey]; exact hs.single_keys
    · intro f' t' ht'
      simp only [Dict.get?_set] at ht'
      split at ht'
      · next hf => cases ht'; subst hf; exact ⟨h1, by simp [h2]⟩
      · exact hs.single _ _ ht'
  · exact ⟨rfl, rfl, rfl, rfl, rfl⟩
  · rintro ⟨f', v'⟩
    simp only [cellS, Dict.get?_set, Prod.mk.injEq]
    by_cases hf : f' = f
    · subst hf
      simp only [if_true, Option.bind_some, true_and, ht]
      by_cases hv' : v' = v
      · subst hv'; simp [hv, hlt]
      · simp only [hv', if_false]
        by_cases hvm : v' ∈ t.fValues
        · rw [if_pos hvm, if_pos hvm, List.getElem?_set_ne]
          intro h; exact hv' (idxOf_inj hvm h.symm)
        · simp [hvm]
    · simp [hf]

/-- family of single cells -/
def famS : Fam (F × V) F V N where
  cell := cellS
  block := blockSingle
  same k k' := k.1 = k'.1
  store := Calc.storeSingle
  frm c c' := c'.X = c.X ∧ c'.predict = c.predict ∧ c'.batchsize = c.batchsize ∧
    c'.pdPairs = c.pdPairs ∧ c'.pdMinus = c.pdMinus
  frm_refl _ := ⟨rfl, rfl, rfl, rfl, rfl⟩
  frm_trans a b c h h' := ⟨h'.1.trans h.1, h'.2.1.trans h.2.1, h'.2.2.1.trans h.2.2.1,
    h'.2.2.2.1.trans h.2.2.2.1, h'.2.2.2.2.trans h.2.2.2.2⟩
  frm_cfg a b h := ⟨h.1, h.2.1, h.2.2.1⟩
  frm_call _ _ := ⟨rfl, rfl, rfl, rfl, rfl⟩
  cell_call _ _ _ := rfl
  block_len c k _ _ := blockSingle_length _ _
  pos c k hs hk := len_pos_of_mem_col ((isSome_cellS hs k).1 hk).2
  store_spec := storeSingle_spec

theorem isSome_cellP {c : Calc F V N} (hs : Shape c) (k : (F × F) × (V × V)) :
    (cellP c k).isSome ↔
      k.1 ∈ combinations2 c.X.cols ∧ k.2.1 ∈ c.X.col k.1.1 ∧ k.2.2 ∈ c.X.col k.1.2 := by
  unfold cellP
  rw [← hs.pair_keys, ← Dict.get?_isSome_iff]
  cases h : c.pdPairs.get? k.1 with
  | none => simp
  | some t =>
    obtain ⟨h1, h2, h3, h4⟩ := hs.pair _ _ h
    simp only [Option.bind_some, Option.isSome_some, true_and]
    by_cases hv : k.2.1 ∈ t.f1Values ∧ k.2.2 ∈ t.f2Values
    · have hlt : t.f1Values.idxOf k.2.1 < t.pdValues.length := by
        rw [h3]; exact List.idxOf_lt_length_iff.2 hv.1
      have hlt2 : t.f2Values.idxOf k.2.2 < (t.pdValues[t.f1Values.idxOf k.2.1]).length := by
        rw [h4 _ (List.getElem_mem hlt)]; exact List.idxOf_lt_length_iff.2 hv.2
      simp only [if_pos hv, List.getElem?_eq_getElem hlt, Option.bind_some,
        List.getElem?_eq_getElem hlt2, Option.isSome_some, true_iff]
      rw [h1, h2, mem_npUnique, mem_npUnique] at hv; exact hv
    · have hv' := hv
      rw [h1, h2, mem_npUnique, mem_npUnique] at hv'
      simp [hv, hv']

theorem storePair_spec (c : Calc F V N) (y : List N) (k : (F × F) × (V × V)) (r : Nat × Nat)
    (hs : Shape c) (hk : (cellP c k).isSome) :
    ∃ c', Calc.storePair y (k, r) c = (.ok (), c') ∧ Shape c' ∧
      (c'.X = c.X ∧ c'.predict = c.predict ∧ c'.batchsize = c.batchsize ∧ c'.pdSingle = c.pdSingle ∧
        c'.pdMinus = c.pdMinus) ∧ c'.calls = c.calls ∧
      ∀ k', cellP c' k' = if k' = k then some (Flt.mean (slice y r.1 r.2)) else cellP c k' := by
  have hm := (isSome_cellP hs k).1 hk
  obtain ⟨p, v⟩ := k
  have hkey : p ∈ c.pdPairs.keys := by rw [hs.pair_keys]; exact hm.1
  obtain ⟨t, ht⟩ := Option.isSome_iff_exists.1 ((Dict.get?_isSome_iff _ _).2 hkey)
  obtain ⟨h1, h2, h3, h4⟩ := hs.pair _ _ ht
  have hv1 : v.1 ∈ t.f1Values := by rw [h1, mem_npUnique]; exact hm.2.1
  have hv2 : v.2 ∈ t.f2Values := by rw [h2, mem_npUnique]; exact hm.2.2
  have hlt : t.f1Values.idxOf v.1 < t.pdValues.length := by
    rw [h3]; exact List.idxOf_lt_length_iff.2 hv1
  have hlt2 : t.f2Values.idxOf v.2 < (t.pdValues[t.f1Values.idxOf v.1]).length := by
    rw [h4 _ (List.getElem_mem hlt)]; exact List.idxOf_lt_length_iff.2 hv2
  have hst : Calc.storePair y ((p, v), r) c = (.ok (), { c with
      pdPairs := (c.pdPairs.set p
        { t with pdValues := (t.pdValues.modify (t.f1Values.idxOf v.1) (fun row =>
            row.set (t.f2Values.idxOf v.2) (Flt.mean (slice y r.1 r.2)))) }) }) := by
    simp only [Calc.storePair, ht, getIndex_of_mem hv1, getIndex_of_mem hv2]
  refine ⟨_, hst, ?_, ?_, rfl, ?_⟩
  · refine ⟨hs.single_keys, hs.single, ?_, ?_, hs.minus_keys, hs.minus⟩
    · simp only [Dict.keys_set_of_mem hkey]; exact hs.pair_keys
    · intro f' t' ht'
      simp only [Dict.get?_set] at ht'
      split at ht'
      · next hf =>
        cases ht'; subst hf
        refine ⟨h1, h2, by simp [h3], ?_⟩
        intro row hrow
        obtain ⟨i, hi, hrow⟩ := List.mem_iff_getElem.1 hrow
        rw [List.getElem_modify] at hrow
        rw [← hrow]
        simp only [List.length_modify] at hi
        split
        · rw [List.length_set]; exact h4 _ (List.getElem_mem _)
        · exact h4 _ (List.getElem_mem _)
      · exact hs.pair _ _ ht'
  · exact ⟨rfl, rfl, rfl, rfl, rfl⟩
  · rintro ⟨p', v'⟩
    simp only [cellP, Dict.get?_set, Prod.mk.injEq]
    by_cases hf : p' = p
    · subst hf
      simp only [if_true, Option.bind_some, true_and, ht]
      by_cases hvm : v'.1 ∈ t.f1Values ∧ v'.2 ∈ t.f2Values
      · rw [if_pos hvm, if_pos hvm]
        by_cases e1 : v'.1 = v.1
        · rw [e1, List.getElem?_modify_eq, List.getElem?_eq_getElem hlt]
          simp only [Option.map_eq_map, Option.map_some, Option.bind_some]
          by_cases e2 : v'.2 = v.2
          · rw [e2, if_pos (Prod.ext e1 e2), List.getElem?_set_self hlt2]
          · rw [List.getElem?_set_ne, if_neg]
            · rintro rfl; exact e2 rfl
            · intro h; exact e2 (idxOf_inj hvm.2 h.symm)
        · rw [List.getElem?_modify_ne, if_neg]
          · rintro rfl; exact e1 rfl
          · intro h; exact e1 (idxOf_inj hvm.1 h.symm)
      · rw [if_neg hvm, if_neg hvm, if_neg]
        rintro rfl; exact hvm ⟨hv1, hv2⟩
    · simp [hf]

/-- family of pair cells -/
def famP : Fam ((F × F) × (V × V)) F V N where
  cell := cellP
  block := blockPair
  same k k' := k = k'
  store := Calc.storePair
  frm c c' := c'.X = c.X ∧ c'.predict = c.predict ∧ c'.batchsize = c.batchsize ∧
    c'.pdSingle = c.pdSingle ∧ c'.pdMinus = c.pdMinus
  frm_refl _ := ⟨rfl, rfl, rfl, rfl, rfl⟩
  frm_trans a b c h h' := ⟨h'.1.trans h.1, h'.2.1.trans h.2.1, h'.2.2.1.trans h.2.2.1,
    h'.2.2.2.1.trans h.2.2.2.1, h'.2.2.2.2.trans h.2.2.2.2⟩
  frm_cfg a b h := ⟨h.1, h.2.1, h.2.2.1⟩
  frm_call _ _ := ⟨rfl, rfl, rfl, rfl, rfl⟩
  cell_call _ _ _ := rfl
  block_len c k _ _ := blockPair_length _ _
  pos c k hs hk := len_pos_of_mem_col ((isSome_cellP hs k).1 hk).2.1
  store_spec := storePair_spec

theorem isSome_cellM {c : Calc F V N} (hs : Shape c) (k : F × Nat) :
    (cellM c k).isSome ↔ k.1 ∈ c.X.cols ∧ k.2 < c.X.len := by
  unfold cellM
  rw [← hs.minus_keys, ← Dict.get?_isSome_iff]
  cases h : c.pdMinus.get? k.1 with
  | none => simp
  | some t =>
    have := hs.minus _ _ h
    simp [← this]

theorem blockMinus_length {X : Frame F V} {k : F × Nat} (h : k.2 < X.len) :
    (blockMinus X k).length = X.len := by
  have : k.2 < X.rows.length := h
  simp [blockMinus, List.getElem?_eq_getElem this, Frame.len]

theorem storeMinus_spec (c : Calc F V N) (y : List N) (k : F × Nat) (r : Nat × Nat) (hs : Shape c)
    (hk : (cellM c k).isSome) :
    ∃ c', Calc.storeMinus y (k, r) c = (.ok (), c') ∧ Shape c' ∧
      (c'.X = c.X ∧ c'.predict = c.predict ∧ c'.batchsize = c.batchsize ∧ c'.pdSingle = c.pdSingle ∧
        c'.pdPairs = c.pdPairs) ∧ c'.calls = c.calls ∧
      ∀ k', cellM c' k' = if k' = k then some (Flt.mean (slice y r.1 r.2)) else cellM c k' := by
  have hm := (isSome_cellM hs k).1 hk
  obtain ⟨f, i⟩ := k
  have hkey : f ∈ c.pdMinus.keys := by rw [hs.minus_keys]; exact hm.1
  obtain ⟨t, ht⟩ := Option.isSome_iff_exists.1 ((Dict.get?_isSome_iff _ _).2 hkey)
  have h1 := hs.minus _ _ ht
  have hlt : i < t.length := by rw [h1]; exact hm.2
  have hst : Calc.storeMinus y ((f, i), r) c = (.ok (), { c with
      pdMinus := (c.pdMinus.set f (t.set i (Flt.mean (slice y r.1 r.2)))) }) := by
    simp only [Calc.storeMinus, ht]
  refine ⟨_, hst, ?_, ?_, rfl, ?_⟩
  · refine ⟨hs.single_keys, hs.single, hs.pair_keys, hs.pair, ?_, ?_⟩
    · simp only [Dict.keys_set_of_mem hkey]; exact hs.minus_keys
    · intro f' t' ht'
      simp only [Dict.get?_set] at ht'
      split at ht'
      · next hf => cases ht'; subst hf; simp [h1]
      · exact hs.minus _ _ ht'
  · exact ⟨rfl, rfl, rfl, rfl, rfl⟩
  · rintro ⟨f', i'⟩
    simp only [cellM, Dict.get?_set, Prod.mk.injEq]
    by_cases hf : f' = f
    · subst hf
      simp only [if_true, Option.bind_some, true_and, ht]
      by_cases hv' : i' = i
      · subst hv'; simp [hlt]
      · simp only [hv', if_false]
        rw [List.getElem?_set_ne (fun h => hv' h.symm)]
    · simp [hf]

/-- family of all-but-one cells -/
def famM : Fam (F × Nat) F V N where
  cell := cellM
  block := blockMinus
  same k k' := k.1 = k'.1
  store := Calc.storeMinus
  frm c c' := c'.X = c.X ∧ c'.predict = c.predict ∧ c'.batchsize = c.batchsize ∧
    c'.pdSingle = c.pdSingle ∧ c'.pdPairs = c.pdPairs
  frm_refl _ := ⟨rfl, rfl, rfl, rfl, rfl⟩
  frm_trans a b c h h' := ⟨h'.1.trans h.1, h'.2.1.trans h.2.1, h'.2.2.1.trans h.2.2.1,
    h'.2.2.2.1.trans h.2.2.2.1, h'.2.2.2.2.trans h.2.2.2.2⟩
  frm_cfg a b h := ⟨h.1, h.2.1, h.2.2.1⟩
  frm_call _ _ := ⟨rfl, rfl, rfl, rfl, rfl⟩
  cell_call _ _ _ := rfl
  block_len c k hs hk := blockMinus_length ((isSome_cellM hs k).1 hk).2
  pos c k hs hk := Nat.lt_of_le_of_lt (Nat.zero_le _) ((isSome_cellM hs k).1 hk).2
  store_spec := storeMinus_spec

/-! ### Initial state -/

theorem keys_map {α β : Type*} [DecidableEq α] (l : List α) (g : α → β) :
    Dict.keys (l.map (fun a => (a, g a))) = l := by
  simp [Dict.keys, Function.comp_def]

theorem shape_new (p : Nat → List (Row F V) → Except Err (List N)) (X : Frame F V) (b : Int) :
    Shape (Calc.new p X b) := by
  refine ⟨keys_map _ _, ?_, keys_map _ _, ?_, keys_map _ _, ?_⟩
  · intro f t h
    simp only [Calc.new, Dict.get?_map] at h
    split at h
    · cases h; simp [Calc.new]
    · cases h
  · intro f t h
    simp only [Calc.new, Dict.get?_map] at h
    split at h
    · cases h; refine ⟨rfl, rfl, by simp, ?_⟩
      intro row hrow
      rw [(List.mem_replicate.1 hrow).2]; simp
    · cases h
  · intro f t h
    simp only [Calc.new, Dict.get?_map] at h
    split at h
    · cases h; simp [Calc.new]
    · cases h

theorem new_nan_S (p : Nat → List (Row F V) → Except Err (List N)) (X : Frame F V) (b : Int) (k x) :
    cellS (Calc.new p X b) k = some x → x = Flt.nan := by
  unfold cellS
  simp only [Calc.new, Dict.get?_map]
  split
  · simp only [Option.bind_some]
    split
    · intro h; exact (List.mem_replicate.1 (List.mem_of_getElem? h)).2
    · simp
  · simp

theorem new_nan_P (p : Nat → List (Row F V) → Except Err (List N)) (X : Frame F V) (b : Int) (k x) :
    cellP (Calc.new p X b) k = some x → x = Flt.nan := by
  unfold cellP
  simp only [Calc.new, Dict.get?_map]
  split
  · simp only [Option.bind_some]
    split
    · intro h
      rw [Option.bind_eq_some_iff] at h
      obtain ⟨row, hr, h⟩ := h
      rw [(List.mem_replicate.1 (List.mem_of_getElem? hr)).2] at h
      exact (List.mem_replicate.1 (List.mem_of_getElem? h)).2
    · simp
  · simp

theorem new_nan_M (p : Nat → List (Row F V) → Except Err (List N)) (X : Frame F V) (b : Int) (k x) :
    cellM (Calc.new p X b) k = some x → x = Flt.nan := by
  unfold cellM
  simp only [Calc.new, Dict.get?_map]
  split
  · simp only [Option.bind_some]
    intro h; exact (List.mem_replicate.1 (List.mem_of_getElem? h)).2
  · simp

/-! ### Loop bodies as steps -/

open Fam

/-- keys requested by `calculate_pd_single` for one feature -/
def keysS (X : Frame F V) (f : F) : List (F × V) := (npUnique (X.col f)).map (fun v => (f, v))

/-- keys requested by `calculate_pd_minus_single` for one feature -/
def keysM (X : Frame F V) (f : F) : List (F × Nat) := (List.range X.len).map (fun i => (f, i))

theorem steps_single (g : Row F V → N) (X : Frame F V) (B : Nat) (f : F)
    (hB : (npUnique (X.col f)).length * X.len ≤ B) :
    Steps famS g B X (f ∉ X.cols) (Calc.singleBody f) (keysS X f) := by
  by_cases hf : f ∈ X.cols
  · refine Steps.congr_bad (steps_group ?_ ?_ ?_) (by simp [hf])
    · simpa [keysS] using hB
    · intro k hk k' hk'
      obtain ⟨v, _, rfl⟩ := List.mem_map.1 hk
      obtain ⟨v', _, rfl⟩ := List.mem_map.1 hk'
      rfl
    · intro c l hs hX
      subst hX
      have hex : ∀ k ∈ keysS c.X f, (cellS c k).isSome := by
        intro k hk
        obtain ⟨v, hv, rfl⟩ := List.mem_map.1 hk
        exact (isSome_cellS hs _).2 ⟨hf, mem_npUnique.1 hv⟩
      refine ⟨hex, ?_⟩
      have hkey : f ∈ c.pdSingle.keys := by rw [hs.single_keys]; exact hf
      obtain ⟨t, ht⟩ := Option.isSome_iff_exists.1 ((Dict.get?_isSome_iff _ _).2 hkey)
      obtain ⟨h1, h2⟩ := hs.single _ _ ht
      simp only [Calc.singleBody, ht]
      by_cases hn : t.pdValues.any Flt.isNaN = true
      · right
        constructor
        · obtain ⟨x, hx, hxn⟩ := List.any_eq_true.1 hn
          obtain ⟨i, hi, rfl⟩ := List.mem_iff_getElem.1 hx
          have hi' : i < t.fValues.length := by rw [← h2]; exact hi
          have hnd : t.fValues.Nodup := by rw [h1]; exact nodup_npUnique _
          refine ⟨(f, t.fValues[i]), ?_, _, ?_, hxn⟩
          · rw [keysS, ← h1]
            exact List.mem_map.2 ⟨_, List.getElem_mem hi', rfl⟩
          · change cellS c (f, t.fValues[i]) = _
            simp only [cellS, ht, Option.bind_some, List.getElem_mem, if_true]
            rw [hnd.idxOf_getElem i hi', List.getElem?_eq_getElem hi]
        · simp only [hn, if_true]
          simp only [addAll, keysS, List.foldl_map, h1]
          rfl
      · left
        simp only [hn]
        refine ⟨rfl, ?_⟩
        intro k hk x hx
        obtain ⟨v, hv, rfl⟩ := List.mem_map.1 hk
        change cellS c (f, v) = some x at hx
        simp only [cellS, ht, Option.bind_some, h1, if_pos hv] at hx
        have := List.mem_of_getElem? hx
        simp only [List.any_eq_true, not_exists, not_and] at hn
        simpa using hn x this
  · refine Steps.congr_bad (steps_raise ?_) (by simp [hf])
    intro c l hs hX
    subst hX
    have : c.pdSingle.get? f = none := by
      rw [Dict.get?_eq_none_iff, hs.single_keys]; exact hf
    simp only [Calc.singleBody, this]

theorem steps_minus (g : Row F V → N) (X : Frame F V) (f : F) :
    Steps famM g (X.len * X.len) X (f ∉ X.cols) (Calc.minusBody f) (keysM X f) := by
  by_cases hf : f ∈ X.cols
  · refine Steps.congr_bad (steps_group ?_ ?_ ?_) (by simp [hf])
    · simp [keysM]
    · intro k hk k' hk'
      obtain ⟨v, _, rfl⟩ := List.mem_map.1 hk
      obtain ⟨v', _, rfl⟩ := List.mem_map.1 hk'
      rfl
    · intro c l hs hX
      subst hX
      have hex : ∀ k ∈ keysM c.X f, (cellM c k).isSome := by
        intro k hk
        obtain ⟨v, hv, rfl⟩ := List.mem_map.1 hk
        exact (isSome_cellM hs _).2 ⟨hf, List.mem_range.1 hv⟩
      refine ⟨hex, ?_⟩
      have hkey : f ∈ c.pdMinus.keys := by rw [hs.minus_keys]; exact hf
      obtain ⟨t, ht⟩ := Option.isSome_iff_exists.1 ((Dict.get?_isSome_iff _ _).2 hkey)
      have h1 := hs.minus _ _ ht
      simp only [Calc.minusBody, ht]
      by_cases hn : t.any Flt.isNaN = true
      · right
        constructor
        · obtain ⟨x, hx, hxn⟩ := List.any_eq_true.1 hn
          obtain ⟨i, hi, rfl⟩ := List.mem_iff_getElem.1 hx
          refine ⟨(f, i), ?_, _, ?_, hxn⟩
          · exact List.mem_map.2 ⟨i, List.mem_range.2 (by rw [← h1]; exact hi), rfl⟩
          · change cellM c (f, i) = _
            simp only [cellM, ht, Option.bind_some]
            exact List.getElem?_eq_getElem hi
        · simp only [hn, if_true]
          simp only [addAll, keysM, List.foldl_map]
          rfl
      · left
        simp only [hn]
        refine ⟨rfl, ?_⟩
        intro k hk x hx
        obtain ⟨v, hv, rfl⟩ := List.mem_map.1 hk
        change cellM c (f, v) = some x at hx
        simp only [cellM, ht, Option.bind_some] at hx
        have := List.mem_of_getElem? hx
        simp only [List.any_eq_true, not_exists, not_and] at hn
        simpa using hn x this
  · refine Steps.congr_bad (steps_raise ?_) (by simp [hf])
    intro c l hs hX
    subst hX
    have : c.pdMinus.get? f = none := by
      rw [Dict.get?_eq_none_iff, hs.minus_keys]; exact hf
    simp only [Calc.minusBody, this]

theorem steps_pairValue (g : Row F V → N) (X : Frame F V) (p : F × F) (v : V × V)
    (hp : p ∈ combinations2 X.cols) (h1 : v.1 ∈ X.col p.1) (h2 : v.2 ∈ X.col p.2) :
    Steps famP g X.len X False (Calc.pairValueBody p v) [(p, v)] := by
  refine steps_group (by simp) (by simp [famP]) ?_
  intro c l hs hX
  subst hX
  have hex : (cellP c (p, v)).isSome := (isSome_cellP hs _).2 ⟨hp, h1, h2⟩
  refine ⟨by intro k hk; rw [List.mem_singleton] at hk; subst hk; exact hex, ?_⟩
  have hkey : p ∈ c.pdPairs.keys := by rw [hs.pair_keys]; exact hp
  obtain ⟨t, ht⟩ := Option.isSome_iff_exists.1 ((Dict.get?_isSome_iff _ _).2 hkey)
  obtain ⟨t1, t2, t3, t4⟩ := hs.pair _ _ ht
  have m1 : v.1 ∈ t.f1Values := by rw [t1, mem_npUnique]; exact h1
  have m2 : v.2 ∈ t.f2Values := by rw [t2, mem_npUnique]; exact h2
  obtain ⟨x, hx⟩ := Option.isSome_iff_exists.1 hex
  have hx' := hx
  simp only [cellP, ht, Option.bind_some, m1, m2, and_self, if_true] at hx'
  simp only [Calc.pairValueBody, ht, getIndex_of_mem m1, getIndex_of_mem m2, hx']
  by_cases hn : Flt.isNaN x = true
  · right
    simp only [hn, if_true]
    exact ⟨⟨(p, v), by simp, x, hx, hn⟩, rfl⟩
  · left
    simp only [hn]
    refine ⟨rfl, ?_⟩
    intro k hk x' hxx
    rw [List.mem_singleton] at hk
    subst hk
    change cellP c (p, v) = some x' at hxx
    rw [hx] at hxx; cases hxx
    simpa using hn

/-- the key under which a pair is stored, given the column list -/
def canonPair (X : Frame F V) (p : F × F) : F × F :=
  if p ∈ combinations2 X.cols then p else (p.2, p.1)

/-- value pairs visited for one stored pair -/
def valsP (all : Bool) (X : Frame F V) (k : F × F) : List (V × V) :=
  if all then (npUnique (X.col k.1)).flatMap (fun a => (npUnique (X.col k.2)).map (fun b => (a, b)))
  else (X.col k.1).zip (X.col k.2)

/-- keys requested by `calculate_pd_pairs` for one pair -/
def keysP (all : Bool) (X : Frame F V) (p : F × F) : List ((F × F) × (V × V)) :=
  (valsP all X (canonPair X p)).map (fun v => (canonPair X p, v))

omit [DecidableEq F] in
theorem mem_valsP {all : Bool} {X : Frame F V} {k : F × F} {v : V × V} (h : v ∈ valsP all X k) :
    v.1 ∈ X.col k.1 ∧ v.2 ∈ X.col k.2 := by
  unfold valsP at h
  split at h
  · simp only [List.mem_flatMap, List.mem_map, mem_npUnique] at h
    obtain ⟨a, ha, b, hb, rfl⟩ := h
    exact ⟨ha, hb⟩
  · obtain ⟨a, b⟩ := v
    exact List.of_mem_zip h

/-- An unknown pair raises, unless there is no value to visit. -/
def badPair (all : Bool) (X : Frame F V) (p : F × F) : Prop :=
  canonPair X p ∉ combinations2 X.cols ∧
    (all = true ∨ (canonPair X p).1 ∉ X.cols ∨ (canonPair X p).2 ∉ X.cols ∨ X.rows ≠ [])

theorem pairKey_eq {c : Calc F V N} (hs : Shape c) (p : F × F) : c.pairKey p = canonPair c.X p := by
  simp only [Calc.pairKey, canonPair, hs.pair_keys]

theorem forEach_flatMap_single {α κ : Type*} (as : List α) (f : α → κ) :
    as.flatMap (fun a => [f a]) = as.map f := by
  induction as <;> simp_all

theorem steps_pair (g : Row F V → N) (X : Frame F V) (all : Bool) (p : F × F) :
    Steps famP g X.len X (badPair all X p) (Calc.pairBody all p) (keysP all X p) := by
  by_cases hp : canonPair X p ∈ combinations2 X.cols
  · have key : Steps famP g X.len X (∃ v ∈ valsP all X (canonPair X p), False)
        (PyM.forEach (valsP all X (canonPair X p)) (Calc.pairValueBody (canonPair X p)))
        ((valsP all X (canonPair X p)).flatMap (fun v => [(canonPair X p, v)])) :=
      steps_forEach _ _ _ _ (fun v hv =>
        steps_pairValue g X _ v hp (mem_valsP hv).1 (mem_valsP hv).2)
    rw [forEach_flatMap_single] at key
    intro c0 P c l hsd hw hX hr
    have hcX : c.X = X := (famP.frm_cfg _ _ hr.frm).1.trans hX
    have := key c0 P c l hsd hw hX hr
    have hbad : badPair all X p ↔ ∃ v ∈ valsP all X (canonPair X p), False := by
      simp [badPair, hp]
    rw [hbad]
    have hkey : canonPair X p ∈ c.pdPairs.keys := by rw [hr.shape.pair_keys, hcX]; exact hp
    obtain ⟨t, ht⟩ := Option.isSome_iff_exists.1 ((Dict.get?_isSome_iff _ _).2 hkey)
    obtain ⟨t1, t2, t3, t4⟩ := hr.shape.pair _ _ ht
    have hbody : Calc.pairBody all p (c, l) =
        PyM.forEach (valsP all X (canonPair X p)) (Calc.pairValueBody (canonPair X p)) (c, l) := by
      simp only [Calc.pairBody, pairKey_eq hr.shape, hcX]
      have hvals : c.pairValues all (canonPair X p) = .ok (valsP all X (canonPair X p)) := by
        cases all with
        | true => simp [Calc.pairValues, ht, valsP, t1, t2, hcX]
        | false =>
          have := mem_combinations2 hp
          simp [Calc.pairValues, valsP, hcX, this.1, this.2]
      rw [hvals]
    rw [hbody]
    exact this
  · intro c0 P c l hsd hw hX hr
    have hcX : c.X = X := (famP.frm_cfg _ _ hr.frm).1.trans hX
    have hnone : c.pdPairs.get? (canonPair X p) = none := by
      rw [Dict.get?_eq_none_iff, hr.shape.pair_keys, hcX]; exact hp
    simp only [Calc.pairBody, pairKey_eq hr.shape, hcX]
    cases all with
    | true =>
      simp only [Calc.pairValues, hnone, if_true]
      exact ⟨hr.toE.mono (fun k hk => List.mem_append_left _ hk), Or.inl ⟨⟨hp, Or.inl rfl⟩, trivial⟩⟩
    | false =>
      simp only [Calc.pairValues, hcX]
      by_cases hc : (canonPair X p).1 ∈ X.cols ∧ (canonPair X p).2 ∈ X.cols
      · cases hrows : X.rows with
        | nil =>
          have e1 : X.col (canonPair X p).1 = [] := by simp [Frame.col, hrows]
          simp only [hc, and_self, if_true, e1, List.zip_nil_left, PyM.forEach, PyM.ret, keysP, valsP]
          have : ¬ badPair false X p := by simp [badPair, hc, hrows]
          exact ⟨this, by simpa using hr⟩
        | cons r rs =>
          simp only [hc, and_self, if_true, Frame.col, hrows, List.map_cons, List.zip_cons_cons,
            PyM.forEach, PyM.seq, Calc.pairValueBody, hnone, Bool.false_eq_true, if_false]
          exact ⟨hr.toE.mono (fun k hk => List.mem_append_left _ hk), Or.inl ⟨⟨hp, by simp [hrows]⟩, trivial⟩⟩
      · simp only [hc, if_false]
        refine ⟨hr.toE.mono (fun k hk => List.mem_append_left _ hk), Or.inl ⟨⟨hp, ?_⟩, rfl⟩⟩
        tauto

/-! ### The three methods -/

omit [DecidableEq F] in
theorem length_npUnique_le (X : Frame F V) (f : F) : (npUnique (X.col f)).length ≤ X.len := by
  simp only [npUnique, List.length_insertionSort]
  refine (List.dedup_sublist _).length_le.trans ?_
  simp [Frame.col, Frame.len]


/-- all keys requested by `calculate_pd_single` -/
def reqS (X : Frame F V) (features : Option (List F)) : List (F × V) :=
  (features.getD X.cols).flatMap (keysS X)
/-- all keys requested by `calculate_pd_pairs` -/
def reqP (X : Frame F V) (pairs : Option (List (F × F))) (all : Bool) : List ((F × F) × (V × V)) :=
  (pairs.getD (combinations2 X.cols)).flatMap (keysP all X)
/-- all keys requested by `calculate_pd_minus_single` -/
def reqM (X : Frame F V) (features : Option (List F)) : List (F × Nat) :=
  (features.getD X.cols).flatMap (keysM X)

variable {g : Row F V → N} {c0 : Calc F V N}

theorem calculateSingle_spec (hshape : Shape c0) (hs : famS.Sound g c0)
    (hw : RowWise g c0.predict) (features : Option (List F)) (B : Nat)
    (hB : ∀ f ∈ features.getD c0.X.cols, (npUnique (c0.X.col f)).length * c0.X.len ≤ B) :
    match Calc.calculateSingle features c0 with
    | (.ok _, c) => (¬ ∃ f ∈ features.getD c0.X.cols, f ∉ c0.X.cols) ∧
        Post famS g B (reqS c0.X features) c0 c
    | (.error e, c) => EInv famS g (reqS c0.X features) c0 c ∧
        (((∃ f ∈ features.getD c0.X.cols, f ∉ c0.X.cols) ∧ e = .keyError) ∨ ∃ n rows, c0.predict n rows = .error e) :=
  run_spec (steps_forEach _ _ _ _ (fun f hf => steps_single g c0.X B f (hB f hf))) hshape hs hw rfl

theorem calculateMinus_spec (hshape : Shape c0) (hs : famM.Sound g c0)
    (hw : RowWise g c0.predict) (features : Option (List F)) :
    match Calc.calculateMinus features c0 with
    | (.ok _, c) => (¬ ∃ f ∈ features.getD c0.X.cols, f ∉ c0.X.cols) ∧
        Post famM g (c0.X.len * c0.X.len) (reqM c0.X features) c0 c
    | (.error e, c) => EInv famM g (reqM c0.X features) c0 c ∧
        (((∃ f ∈ features.getD c0.X.cols, f ∉ c0.X.cols) ∧ e = .keyError) ∨ ∃ n rows, c0.predict n rows = .error e) :=
  run_spec (steps_forEach _ _ _ _ (fun f _ => steps_minus g c0.X f)) hshape hs hw rfl

theorem calculatePairs_spec (hshape : Shape c0) (hs : famP.Sound g c0)
    (hw : RowWise g c0.predict) (pairs : Option (List (F × F))) (all : Bool) :
    match Calc.calculatePairs pairs all c0 with
    | (.ok _, c) => (¬ ∃ p ∈ pairs.getD (combinations2 c0.X.cols), badPair all c0.X p) ∧
        Post famP g c0.X.len (reqP c0.X pairs all) c0 c
    | (.error e, c) => EInv famP g (reqP c0.X pairs all) c0 c ∧
        (((∃ p ∈ pairs.getD (combinations2 c0.X.cols), badPair all c0.X p) ∧ e = .keyError) ∨
          ∃ n rows, c0.predict n rows = .error e) := by
  have := run_spec (steps_forEach (pairs.getD c0.pdPairs.keys) _ _ _
    (fun p _ => steps_pair g c0.X all p)) hshape hs hw rfl
  rw [hshape.pair_keys] at this
  unfold Calc.calculatePairs
  rw [hshape.pair_keys]
  exact this

end Artemis
