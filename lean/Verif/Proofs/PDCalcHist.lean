import Verif.Proofs.PDCalcFam

/-! Histories of calculator calls and the global invariant. -/

set_option linter.unusedSectionVars false
set_option linter.unusedVariables false
set_option linter.unusedSimpArgs false

namespace Artemis

variable {F V N : Type*} [DecidableEq F] [LinearOrder V] [Flt N]

/-- One call of a public `calculate_*` method. -/
inductive PDOp (F : Type*)
  | single (features : Option (List F))
  | pairs (pairs : Option (List (F × F))) (all : Bool)
  | minus (features : Option (List F))

/-- run one call -/
def PDOp.run : PDOp F → PyM (Calc F V N) Unit
  | .single fs => Calc.calculateSingle fs
  | .pairs ps all => Calc.calculatePairs ps all
  | .minus fs => Calc.calculateMinus fs

/-- The calculator after a history of calls; exceptions are caught by the caller, who goes on using the
calculator. -/
def runOps (c : Calc F V N) : List (PDOp F) → Calc F V N
  | [] => c
  | op :: ops => runOps (op.run c).2 ops

open Fam

/-- Global invariant. -/
structure Good (g : Row F V → N) (c : Calc F V N) : Prop where
  shape : Shape c
  soundS : famS.Sound g c
  soundP : famP.Sound g c
  soundM : famM.Sound g c
  rowWise : RowWise g c.predict

theorem good_new {g : Row F V → N} {p : Nat → List (Row F V) → Except Err (List N)}
    (hw : RowWise g p) (X : Frame F V) (b : Int) : Good g (Calc.new p X b) :=
  ⟨shape_new p X b, fun k x h => Or.inl (new_nan_S p X b k x h),
    fun k x h => Or.inl (new_nan_P p X b k x h), fun k x h => Or.inl (new_nan_M p X b k x h), hw⟩

theorem sound_of_E {κ : Type*} [DecidableEq κ] {fam : Fam κ F V N} {g : Row F V → N} {c0 c : Calc F V N}
    {P : _} (h : EInv fam g P c0 c) (hs : fam.Sound g c0) : fam.Sound g c := by
  intro k x hx
  rcases h.cells k with hk | hk
  · rw [hk] at hx
    rw [(fam.frm_cfg _ _ h.frm).1]; exact hs k x hx
  · rw [hk.2] at hx; cases hx; exact Or.inr rfl

theorem Fam.Post.toE {κ : Type*} [DecidableEq κ] {fam : Fam κ F V N} {g : Row F V → N} {c0 c : Calc F V N}
    {B : Nat} {keys : List κ} (h : Post fam g B keys c0 c) : EInv fam g keys c0 c := by
  refine ⟨h.shape, h.frm, h.keep, ?_, h.trace.imp fun _ hn => hn.1⟩
  intro k
  by_cases hk : k ∈ keys
  · exact Or.inr ⟨h.valid k hk, h.done k hk⟩
  · exact Or.inl (h.keep k hk)

theorem goodE_S {g : Row F V → N} {c0 c : Calc F V N} (hg : Good g c0) {P : _} (h : EInv famS g P c0 c) :
    Good g c := by
  have hf : c.X = c0.X ∧ c.predict = c0.predict ∧ c.batchsize = c0.batchsize ∧
    c.pdPairs = c0.pdPairs ∧ c.pdMinus = c0.pdMinus := h.frm
  refine ⟨h.shape, sound_of_E h hg.soundS, ?_, ?_, hf.2.1 ▸ hg.rowWise⟩
  · intro k x hx
    change cellP c k = some x at hx
    simp only [cellP, hf.2.2.2.1] at hx
    rw [hf.1]; exact hg.soundP k x hx
  · intro k x hx
    change cellM c k = some x at hx
    simp only [cellM, hf.2.2.2.2] at hx
    rw [hf.1]; exact hg.soundM k x hx

theorem goodE_P {g : Row F V → N} {c0 c : Calc F V N} (hg : Good g c0) {P : _} (h : EInv famP g P c0 c) :
    Good g c := by
  have hf : c.X = c0.X ∧ c.predict = c0.predict ∧ c.batchsize = c0.batchsize ∧
    c.pdSingle = c0.pdSingle ∧ c.pdMinus = c0.pdMinus := h.frm
  refine ⟨h.shape, ?_, sound_of_E h hg.soundP, ?_, hf.2.1 ▸ hg.rowWise⟩
  · intro k x hx
    change cellS c k = some x at hx
    simp only [cellS, hf.2.2.2.1] at hx
    rw [hf.1]; exact hg.soundS k x hx
  · intro k x hx
    change cellM c k = some x at hx
    simp only [cellM, hf.2.2.2.2] at hx
    rw [hf.1]; exact hg.soundM k x hx

theorem goodE_M {g : Row F V → N} {c0 c : Calc F V N} (hg : Good g c0) {P : _} (h : EInv famM g P c0 c) :
    Good g c := by
  have hf : c.X = c0.X ∧ c.predict = c0.predict ∧ c.batchsize = c0.batchsize ∧
    c.pdSingle = c0.pdSingle ∧ c.pdPairs = c0.pdPairs := h.frm
  refine ⟨h.shape, ?_, ?_, sound_of_E h hg.soundM, hf.2.1 ▸ hg.rowWise⟩
  · intro k x hx
    change cellS c k = some x at hx
    simp only [cellS, hf.2.2.2.1] at hx
    rw [hf.1]; exact hg.soundS k x hx
  · intro k x hx
    change cellP c k = some x at hx
    simp only [cellP, hf.2.2.2.2] at hx
    rw [hf.1]; exact hg.soundP k x hx

/-- the relation between a state and a later state -/
structure Later (c c' : Calc F V N) : Prop where
  X : c'.X = c.X
  predict : c'.predict = c.predict
  batchsize : c'.batchsize = c.batchsize
  trace : ∃ new, c'.calls = c.calls ++ new

theorem Later.refl (c : Calc F V N) : Later c c := ⟨rfl, rfl, rfl, [], by simp⟩
theorem Later.trans {a b c : Calc F V N} (h : Later a b) (h' : Later b c) : Later a c := by
  refine ⟨h'.X.trans h.X, h'.predict.trans h.predict, h'.batchsize.trans h.batchsize, ?_⟩
  obtain ⟨n1, e1⟩ := h.trace
  obtain ⟨n2, e2⟩ := h'.trace
  exact ⟨n1 ++ n2, by rw [e2, e1, List.append_assoc]⟩

/-- The cell relation: a cell is unchanged or was (re)computed to the right value. -/
def CellStep {κ : Type*} [DecidableEq κ] (fam : Fam κ F V N) (g : Row F V → N) (c c' : Calc F V N) : Prop :=
  ∀ k, fam.cell c' k = fam.cell c k ∨
    ((fam.cell c k).isSome ∧ fam.cell c' k = some (fam.truth g c.X k))

/-- What one call does, whatever its outcome. -/
structure OpStep (g : Row F V → N) (c c' : Calc F V N) : Prop where
  good : Good g c'
  later : Later c c'
  S : CellStep famS g c c'
  P : CellStep famP g c c'
  M : CellStep famM g c c'

theorem later_of_E {κ : Type*} [DecidableEq κ] {fam : Fam κ F V N} {g : Row F V → N} {c0 c : Calc F V N}
    {P : _} (h : EInv fam g P c0 c) : Later c0 c :=
  let hc := fam.frm_cfg _ _ h.frm
  ⟨hc.1, hc.2.1, hc.2.2, h.trace⟩

theorem cellStep_of_E {κ : Type*} [DecidableEq κ] {fam : Fam κ F V N} {g : Row F V → N} {c0 c : Calc F V N}
    {P : _} (h : EInv fam g P c0 c) : CellStep fam g c0 c := by
  intro k
  have := h.cells k
  rwa [(fam.frm_cfg _ _ h.frm).1] at this

theorem opStep_S {g : Row F V → N} {c0 c : Calc F V N} (hg : Good g c0) {P : _} (h : EInv famS g P c0 c) :
    OpStep g c0 c := by
  have hf : c.X = c0.X ∧ c.predict = c0.predict ∧ c.batchsize = c0.batchsize ∧
    c.pdPairs = c0.pdPairs ∧ c.pdMinus = c0.pdMinus := h.frm
  refine ⟨goodE_S hg h, later_of_E h, cellStep_of_E h, fun k => Or.inl ?_, fun k => Or.inl ?_⟩
  · change cellP c k = cellP c0 k; simp only [cellP, hf.2.2.2.1]
  · change cellM c k = cellM c0 k; simp only [cellM, hf.2.2.2.2]

theorem opStep_P {g : Row F V → N} {c0 c : Calc F V N} (hg : Good g c0) {P : _} (h : EInv famP g P c0 c) :
    OpStep g c0 c := by
  have hf : c.X = c0.X ∧ c.predict = c0.predict ∧ c.batchsize = c0.batchsize ∧
    c.pdSingle = c0.pdSingle ∧ c.pdMinus = c0.pdMinus := h.frm
  refine ⟨goodE_P hg h, later_of_E h, fun k => Or.inl ?_, cellStep_of_E h, fun k => Or.inl ?_⟩
  · change cellS c k = cellS c0 k; simp only [cellS, hf.2.2.2.1]
  · change cellM c k = cellM c0 k; simp only [cellM, hf.2.2.2.2]

theorem opStep_M {g : Row F V → N} {c0 c : Calc F V N} (hg : Good g c0) {P : _} (h : EInv famM g P c0 c) :
    OpStep g c0 c := by
  have hf : c.X = c0.X ∧ c.predict = c0.predict ∧ c.batchsize = c0.batchsize ∧
    c.pdSingle = c0.pdSingle ∧ c.pdPairs = c0.pdPairs := h.frm
  refine ⟨goodE_M hg h, later_of_E h, fun k => Or.inl ?_, fun k => Or.inl ?_, cellStep_of_E h⟩
  · change cellS c k = cellS c0 k; simp only [cellS, hf.2.2.2.1]
  · change cellP c k = cellP c0 k; simp only [cellP, hf.2.2.2.2]

theorem opStep_run {g : Row F V → N} {c : Calc F V N} (hg : Good g c) (op : PDOp F) :
    OpStep g c (op.run c).2 := by
  cases op with
  | single fs =>
    have h := calculateSingle_spec hg.shape hg.soundS hg.rowWise fs (c.X.len * c.X.len)
      (fun f _ => Nat.mul_le_mul_right _ (length_npUnique_le _ _))
    simp only [PDOp.run]
    cases e : Calc.calculateSingle fs c with
    | mk r c' =>
      rw [e] at h
      cases r with
      | ok u => exact opStep_S hg h.2.toE
      | error err => exact opStep_S hg h.1
  | pairs ps all =>
    have h := calculatePairs_spec hg.shape hg.soundP hg.rowWise ps all
    simp only [PDOp.run]
    cases e : Calc.calculatePairs ps all c with
    | mk r c' =>
      rw [e] at h
      cases r with
      | ok u => exact opStep_P hg h.2.toE
      | error err => exact opStep_P hg h.1
  | minus fs =>
    have h := calculateMinus_spec hg.shape hg.soundM hg.rowWise fs
    simp only [PDOp.run]
    cases e : Calc.calculateMinus fs c with
    | mk r c' =>
      rw [e] at h
      cases r with
      | ok u => exact opStep_M hg h.2.toE
      | error err => exact opStep_M hg h.1

theorem CellStep.trans {κ : Type*} [DecidableEq κ] {fam : Fam κ F V N} {g : Row F V → N}
    {a b c : Calc F V N} (hX : b.X = a.X) (h : CellStep fam g a b) (h' : CellStep fam g b c) :
    CellStep fam g a c := by
  intro k
  rcases h' k with h2 | h2
  · rw [h2]; exact h k
  · refine Or.inr ⟨?_, by rw [h2.2, hX]⟩
    rcases h k with h1 | h1
    · rw [← h1]; exact h2.1
    · exact h1.1

theorem OpStep.refl {g : Row F V → N} {c : Calc F V N} (hg : Good g c) : OpStep g c c :=
  ⟨hg, Later.refl c, fun _ => Or.inl rfl, fun _ => Or.inl rfl, fun _ => Or.inl rfl⟩

theorem OpStep.trans {g : Row F V → N} {a b c : Calc F V N} (h : OpStep g a b) (h' : OpStep g b c) :
    OpStep g a c :=
  ⟨h'.good, h.later.trans h'.later, h.S.trans h.later.X h'.S, h.P.trans h.later.X h'.P,
    h.M.trans h.later.X h'.M⟩

theorem opStep_runOps {g : Row F V → N} {c : Calc F V N} (hg : Good g c) (ops : List (PDOp F)) :
    OpStep g c (runOps c ops) := by
  induction ops generalizing c with
  | nil => exact OpStep.refl hg
  | cons op ops ih =>
    have h1 := opStep_run hg op
    exact h1.trans (ih h1.good)

theorem good_runOps {g : Row F V → N} {c : Calc F V N} (hg : Good g c) (ops : List (PDOp F)) :
    Good g (runOps c ops) := (opStep_runOps hg ops).good

theorem runOps_append (c : Calc F V N) (a b : List (PDOp F)) :
    runOps c (a ++ b) = runOps (runOps c a) b := by
  induction a generalizing c with
  | nil => rfl
  | cons op ops ih => exact ih _

/-! ### Lookups in terms of cells -/

theorem lookupSingle_char {c : Calc F V N} (hs : Shape c) (f : F) (v : V) :
    c.lookupSingle f v = if f ∉ c.X.cols then .error .keyError
      else if v ∉ c.X.col f then .error .indexError
      else match cellS c (f, v) with | some x => .ok x | none => .error .indexError := by
  by_cases hf : f ∈ c.X.cols
  · have hkey : f ∈ c.pdSingle.keys := by rw [hs.single_keys]; exact hf
    obtain ⟨t, ht⟩ := Option.isSome_iff_exists.1 ((Dict.get?_isSome_iff _ _).2 hkey)
    obtain ⟨h1, h2⟩ := hs.single _ _ ht
    simp only [hf, not_true, if_false]
    by_cases hv : v ∈ c.X.col f
    · have hv' : v ∈ t.fValues := by rw [h1, mem_npUnique]; exact hv
      simp only [hv, not_true, if_false, Calc.lookupSingle, ht, getIndex_of_mem hv', cellS,
        Option.bind_some, if_pos hv']
      cases t.pdValues[List.idxOf v t.fValues]? <;> rfl
    · have hv' : v ∉ t.fValues := by rw [h1, mem_npUnique]; exact hv
      simp only [hv, Calc.lookupSingle, ht, getIndex_of_not_mem hv']; rfl
  · have : c.pdSingle.get? f = none := by rw [Dict.get?_eq_none_iff, hs.single_keys]; exact hf
    simp [hf, Calc.lookupSingle, this]

theorem getSingleAll_char {c : Calc F V N} (hs : Shape c) (f : F) (hf : f ∈ c.X.cols) :
    ∃ ys, c.getSingleAll f = .ok ys ∧ ys.length = (npUnique (c.X.col f)).length ∧
      ∀ i (h : i < (npUnique (c.X.col f)).length), ys[i]? = cellS c (f, (npUnique (c.X.col f))[i]) := by
  have hkey : f ∈ c.pdSingle.keys := by rw [hs.single_keys]; exact hf
  obtain ⟨t, ht⟩ := Option.isSome_iff_exists.1 ((Dict.get?_isSome_iff _ _).2 hkey)
  obtain ⟨h1, h2⟩ := hs.single _ _ ht
  refine ⟨t.pdValues, by simp [Calc.getSingleAll, ht], by rw [h2, h1], ?_⟩
  intro i h
  simp only [cellS, ht, Option.bind_some, h1]
  rw [if_pos (List.getElem_mem h), List.Nodup.idxOf_getElem (nodup_npUnique _)]

theorem getMinus_char {c : Calc F V N} (hs : Shape c) (f : F) (hf : f ∈ c.X.cols) :
    ∃ ys, c.getMinus f = .ok ys ∧ ys.length = c.X.len ∧ ∀ i, ys[i]? = cellM c (f, i) := by
  have hkey : f ∈ c.pdMinus.keys := by rw [hs.minus_keys]; exact hf
  obtain ⟨t, ht⟩ := Option.isSome_iff_exists.1 ((Dict.get?_isSome_iff _ _).2 hkey)
  exact ⟨t, by simp [Calc.getMinus, ht], hs.minus _ _ ht, fun i => by simp [cellM, ht]⟩

theorem getMinus_none {c : Calc F V N} (hs : Shape c) (f : F) (hf : f ∉ c.X.cols) :
    c.getMinus f = .error .keyError := by
  have : c.pdMinus.get? f = none := by rw [Dict.get?_eq_none_iff, hs.minus_keys]; exact hf
  simp [Calc.getMinus, this]

theorem getSingleAll_none {c : Calc F V N} (hs : Shape c) (f : F) (hf : f ∉ c.X.cols) :
    c.getSingleAll f = .error .keyError := by
  have : c.pdSingle.get? f = none := by rw [Dict.get?_eq_none_iff, hs.single_keys]; exact hf
  simp [Calc.getSingleAll, this]

/-- lookup of one value pair of a stored pair -/
def lookupPairCell (c : Calc F V N) (k : F × F) (v : V × V) : Except Err N :=
  if v.1 ∉ c.X.col k.1 ∨ v.2 ∉ c.X.col k.2 then .error .indexError
  else match cellP c (k, v) with | some x => .ok x | none => .error .indexError

theorem getPairs_char {c : Calc F V N} (hs : Shape c) (f1 f2 : F) (vs : List (V × V)) :
    c.getPairs f1 f2 vs =
      if canonPair c.X (f1, f2) ∉ combinations2 c.X.cols then .error .keyError
      else (if canonPair c.X (f1, f2) ≠ (f1, f2) then vs.map Prod.swap else vs).mapM
        (lookupPairCell c (canonPair c.X (f1, f2))) := by
  simp only [Calc.getPairs, pairKey_eq hs]
  by_cases hp : canonPair c.X (f1, f2) ∈ combinations2 c.X.cols
  · have hkey : canonPair c.X (f1, f2) ∈ c.pdPairs.keys := by rw [hs.pair_keys]; exact hp
    obtain ⟨t, ht⟩ := Option.isSome_iff_exists.1 ((Dict.get?_isSome_iff _ _).2 hkey)
    obtain ⟨t1, t2, t3, t4⟩ := hs.pair _ _ ht
    simp only [ht, hp, not_true, if_false]
    have hfun : t.lookup = lookupPairCell c (canonPair c.X (f1, f2)) := by
      funext v
      simp only [PairTab.lookup, lookupPairCell]
      by_cases h1 : v.1 ∈ c.X.col (canonPair c.X (f1, f2)).1
      · have m1 : v.1 ∈ t.f1Values := by rw [t1, mem_npUnique]; exact h1
        by_cases h2 : v.2 ∈ c.X.col (canonPair c.X (f1, f2)).2
        · have m2 : v.2 ∈ t.f2Values := by rw [t2, mem_npUnique]; exact h2
          simp only [h1, h2, not_true, or_self, if_false, getIndex_of_mem m1, getIndex_of_mem m2, cellP,
            ht, Option.bind_some, m1, m2, and_self, if_true]
          cases (t.pdValues[List.idxOf v.1 t.f1Values]?).bind
            (fun row => row[List.idxOf v.2 t.f2Values]?) <;> rfl
        · have m2 : v.2 ∉ t.f2Values := by rw [t2, mem_npUnique]; exact h2
          simp [getIndex_of_mem m1, getIndex_of_not_mem m2, h2]
      · have m1 : v.1 ∉ t.f1Values := by rw [t1, mem_npUnique]; exact h1
        simp [getIndex_of_not_mem m1, h1]
    rw [hfun]
  · have : c.pdPairs.get? (canonPair c.X (f1, f2)) = none := by
      rw [Dict.get?_eq_none_iff, hs.pair_keys]; exact hp
    simp [hp, this]

end Artemis
