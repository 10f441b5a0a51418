import Verif.Model.Sharing
import Verif.Props.FitCost

/-!
# Property C113: a reused calculator and later changes of the data

C16 says that a calculator is rejected when its data differ from the data of the `fit`. Both are compared as they are at
the time of the `fit`; a calculator built without sampling holds the caller's own frame, so after an in-place change of
that frame the comparison is of the frame with itself.
-/

set_option linter.unusedSectionVars false
set_option linter.unusedVariables false
set_option linter.unusedSimpArgs false

namespace Artemis
open Spec

variable {F V K G L : Type} [DecidableEq F] [LinearOrder V] [DecidableEq L] [Field K] [LinearOrder K]
  [IsStrictOrderedRing K] [HasSqrt K]
variable {p : PF F V (Num K)} {E : PdEnv G F K} {a : PdArgs L F V K} {s0 s : PdpMethod G L F V K} {Xs : LFrame L F V}

section helpers

/-- a calculator that knows every single value does nothing, whatever frame it holds now -/
theorem single_noop_any_frame {c : Calc F V (Num K)} (hs : Shape c) (X' : Frame F V) (hc : X'.cols = c.X.cols)
    (hn : ∀ f ∈ c.X.cols, ∀ v ∈ c.X.col f, ∃ x, cellS c (f, v) = some x ∧ Flt.isNaN x = false) :
    Calc.calculateSingle none { c with X := X' } = (.ok (), { c with X := X' }) := by
  unfold Calc.calculateSingle
  apply withLoc_noop
  apply forEach_noop
  intro f hfm
  simp only [Option.getD_none, hc] at hfm
  have hkey : f ∈ c.pdSingle.keys := by rw [hs.single_keys]; exact hfm
  obtain ⟨t, ht⟩ := Option.isSome_iff_exists.1 ((Dict.get?_isSome_iff _ _).2 hkey)
  obtain ⟨h1, h2⟩ := hs.single _ _ ht
  simp only [Calc.singleBody, ht]
  rw [if_neg]
  simp only [List.any_eq_true, not_exists, not_and]
  intro x hx
  obtain ⟨i, hi, hxi⟩ := List.mem_iff_getElem.1 hx
  have hi' : i < t.fValues.length := by rw [← h2]; exact hi
  have hmem : t.fValues[i] ∈ c.X.col f := by
    rw [← mem_npUnique, ← h1]; exact List.getElem_mem hi'
  obtain ⟨x', hcell, hnn⟩ := hn f hfm _ hmem
  simp only [cellS, ht, Option.bind_some] at hcell
  rw [if_pos (List.getElem_mem hi'), List.Nodup.idxOf_getElem (by rw [h1]; exact nodup_npUnique _),
    List.getElem?_eq_getElem hi, hxi] at hcell
  cases hcell
  simp [hnn]

/-- the same for all pairs of values -/
theorem pairs_noop_any_frame {c : Calc F V (Num K)} (hs : Shape c) (X' : Frame F V) {ps : List (F × F)}
    (hf : ∀ q ∈ ps, canonPair c.X q ∈ combinations2 c.X.cols)
    (hn : ∀ q ∈ ps, ∀ v ∈ valsP true c.X (canonPair c.X q), ∃ x, cellP c (canonPair c.X q, v) = some x ∧
      Flt.isNaN x = false) :
    Calc.calculatePairs (some ps) true { c with X := X' } = (.ok (), { c with X := X' }) := by
  unfold Calc.calculatePairs
  apply withLoc_noop
  apply forEach_noop
  intro q hq
  have hq' : q ∈ ps := hq
  have hcp := hf q hq'
  have hkey : canonPair c.X q ∈ c.pdPairs.keys := by rw [hs.pair_keys]; exact hcp
  obtain ⟨t, ht⟩ := Option.isSome_iff_exists.1 ((Dict.get?_isSome_iff _ _).2 hkey)
  obtain ⟨t1, t2, t3, t4⟩ := hs.pair _ _ ht
  have hk : ({ c with X := X' } : Calc F V (Num K)).pairKey q = canonPair c.X q := pairKey_eq hs q
  have hvals : ({ c with X := X' } : Calc F V (Num K)).pairValues true (canonPair c.X q) =
      .ok (valsP true c.X (canonPair c.X q)) := by
    simp [Calc.pairValues, ht, valsP, t1, t2]
  simp only [Calc.pairBody, hk, hvals]
  apply forEach_noop
  intro v hv
  have hvm := mem_valsP hv
  have m1 : v.1 ∈ t.f1Values := by rw [t1, mem_npUnique]; exact hvm.1
  have m2 : v.2 ∈ t.f2Values := by rw [t2, mem_npUnique]; exact hvm.2
  obtain ⟨x, hx, hnn⟩ := hn q hq' v hv
  simp only [cellP, ht, Option.bind_some, m1, m2, and_self, if_true] at hx
  simp only [Calc.pairValueBody, ht, getIndex_of_mem m1, getIndex_of_mem m2, hx, hnn]
  rfl

theorem greenwellPair_congr {numeric : F → Bool} {c c' : Calc F V (Num K)} (h : c'.pdPairs = c.pdPairs) :
    greenwellPair numeric c' = greenwellPair numeric c := by
  obtain ⟨_, _, _, _, ps, _, _⟩ := c
  obtain ⟨_, _, _, _, ps', _, _⟩ := c'
  simp only at h
  subst h
  rfl

theorem calcImportance_congr {numeric : F → Bool} {c c' : Calc F V (Num K)} (h : c'.pdSingle = c.pdSingle) :
    calcImportance numeric c' = calcImportance numeric c := by
  funext f
  simp only [calcImportance, Calc.getSingleAll, h]

theorem equals_self (X : LFrame L F V) : LFrame.equals X X = true := by
  simp [LFrame.equals]

end helpers

/-! ## C113 -/

/-- **C113 (the check is passed).** After any in-place change of the frame a calculator built without sampling is accepted
by the next `fit` on that frame with that model. -/
theorem C113_edited_data_pass_the_check {co : CalcObj L F V K} {a' : PdArgs L F V K} (hn : a.n = none)
    (hco : a'.pdCalculator = some (co.afterEdit a a'.X)) (hm : co.modelId = a'.model.ident) (pf : PF F V (Num K)) :
    PdpMethod.chooseCalc a' a'.X pf = .ok (co.withFrame a'.X) := by
  have e : co.afterEdit a a'.X = co.withFrame a'.X := by simp [CalcObj.afterEdit, hn]
  have e' : LFrame.equals ⟨(co.withFrame a'.X).labels, (co.withFrame a'.X).obj.X⟩ a'.X = true := equals_self a'.X
  have em : (co.withFrame a'.X).modelId = a'.model.ident := hm
  simp only [PdpMethod.chooseCalc, hco, e, em, e', ne_eq, not_true_eq_false, if_false, Bool.not_true, Bool.false_eq_true]

/-- **C113 (stale results).** Fit Greenwell's method without sampling on non-empty data with finite predictions, change
the frame in place in any way that keeps the columns, and fit again on the changed frame with the calculator of the first
fit (same features, same model object; any prediction function, any state of the second method object): the second fit
returns and reports the tables of the *old* data. -/
theorem C113_reused_calculator_reports_old_data {u : Row F V → K} {a' : PdArgs L F V K} {s1 : PdpMethod G L F V K}
    {co : CalcObj L F V K} (hs : FitSetup (finM u) E a s0 Xs) (hn : a.n = none) (hnone : a.pdCalculator = none)
    (hret : PdpMethod.fit .greenwell E a s0 = (.ok (), s)) (hpdc : s.pdc = some co)
    (hcols : a'.X.frame.cols = a.X.frame.cols) (hn' : a'.n = none) (hm : a'.model.ident = a.model.ident)
    (hf : a'.features = a.features) (hco : a'.pdCalculator = some (co.afterEdit a a'.X)) :
    ∃ s', PdpMethod.fit .greenwell E a' s1 = (.ok (), s') ∧ s'.ovo = s.ovo ∧ s'.importance = s.importance := by
  have hXs : Xs = a.X := by
    have := hs.sampled
    simp only [hn, sampleIfNotNone, Except.ok.injEq] at this
    exact this.symm
  subst hXs
  have hfeats : a'.feats = a.feats := by simp [PdArgs.feats, allIfNone, hf, hcols]
  have hv := (fit_ok hs hret).valid
  have eX : sampleIfNotNone E.R a.X a.n s0.rng = (.ok a.X, s0.rng) := by simp [hn, sampleIfNotNone]
  have ec : PdpMethod.chooseCalc a a.X a.pf = .ok ⟨a.model.ident, a.X.labels, Calc.new a.pf a.X.frame a.batchsize⟩ := by
    simp [PdpMethod.chooseCalc, hnone]
  rw [fit_eq .greenwell E a s0 eX ec] at hret
  cases e1 : PdKind.greenwell.ovo E a.X.frame a.feats (combinations2 a.feats) (Calc.new a.pf a.X.frame a.batchsize) with
  | mk r1 c1 =>
  cases r1 with
  | error e => rw [e1] at hret; cases hret
  | ok ovo =>
  rw [e1] at hret
  simp only at hret
  cases e2 : pdpImportance E.sortFeat (numIn E a.feats) a.feats c1 with
  | mk r2 c2 =>
  cases r2 with
  | error e => rw [e2] at hret; cases hret
  | ok imp =>
  rw [e2] at hret
  simp only at hret
  have hstate := (Prod.mk.inj hret).2
  subst hstate
  simp only [Option.some.injEq] at hpdc
  subst hpdc
  -- the two calculations of the first fit
  have i1 := greenwell_op e1
  have i2 := importance_op e2
  obtain ⟨o1, q1⟩ := ok_parts i1
  obtain ⟨o2, q2⟩ := ok_parts i2
  have g0 := good_new hs.rowWise a.X.frame a.batchsize
  have st1 := opStep_pairs g0 (some (combinations2 a.feats)) true
  have dP := doneP_of_ok g0 o1
  have hX1 : c1.X = a.X.frame := by rw [← q1]; exact st1.later.X
  rw [q1] at st1 dP
  have st2 := opStep_single st1.good none
  have dS := doneS_of_ok st1.good o2
  have frm2 := (single_post st1.good o2 _ (fun f _ => Nat.mul_le_mul_right _ (length_npUnique_le _ f))).2.frm
  rw [q2] at st2 dS frm2
  have hX2 : c2.X = a.X.frame := st2.later.X.trans hX1
  have hpairs : c2.pdPairs = c1.pdPairs := frm2.2.2.2.1
  have hne : ∀ f, ∀ v ∈ a.X.frame.col f, a.X.frame.rows ≠ [] := by
    intro f v hv h0
    simp [Frame.col, h0] at hv
  -- the second fit
  have eX' : sampleIfNotNone E.R a'.X a'.n s1.rng = (.ok a'.X, s1.rng) := by simp [hn', sampleIfNotNone]
  have ec' := C113_edited_data_pass_the_check (a := a) hn hco (by exact hm.symm) a'.pf
  have n1 : Calc.calculatePairs (some (combinations2 a.feats)) true { c2 with X := a'.X.frame } =
      (.ok (), { c2 with X := a'.X.frame }) := by
    have hcan : ∀ q ∈ combinations2 a.feats, canonPair c2.X q ∈ combinations2 c2.X.cols := by
      intro q hq
      have hq' := mem_combinations2 (p := q) hq
      rw [hX2]
      exact canonPair_mem (hv.cols _ hq'.1) (hv.cols _ hq'.2) (hv.ne q hq)
    refine pairs_noop_any_frame st2.good.shape a'.X.frame hcan ?_
    intro q hq v hv'
    have d := (dP q hq).1 (by have := hcan q hq; rwa [hX2] at this)
    rw [hX2] at hv' ⊢
    have d2 := d.2 v (by rw [hX1]; exact hv')
    rw [hX1] at d2
    refine ⟨_, by simpa only [cellP, hpairs] using d2, ?_⟩
    have hr := hne _ _ (mem_valsP hv').1
    have ht := truthP (finM u) a.X.frame (canonPair a.X.frame q).1 (canonPair a.X.frame q).2 v.1 v.2
      (canonPair_ne (hv.ne q hq))
    simp only [Prod.mk.eta] at ht
    rw [ht, pdPair_fin u hr]
    rfl
  have n2 : Calc.calculateSingle none { c2 with X := a'.X.frame } = (.ok (), { c2 with X := a'.X.frame }) := by
    refine single_noop_any_frame st2.good.shape a'.X.frame (by rw [hX2]; exact hcols) ?_
    intro f hf' v hv'
    have d := (dS f (by rw [hX1]; rw [hX2] at hf'; exact hf')).2 v hv'
    refine ⟨_, d, ?_⟩
    rw [hX2] at hv' ⊢
    exact finM_pd_number (hne f v hv') f v
  have r1 : PdKind.greenwell.ovo E a'.X.frame a.feats (combinations2 a.feats) { c2 with X := a'.X.frame } =
      (.ok ovo, { c2 with X := a'.X.frame }) := by
    simp only [PdKind.ovo, greenwellOvo, PyM.seq, n1, i1] at e1 ⊢
    rw [greenwellPair_congr (c' := { c2 with X := a'.X.frame }) (c := c1) hpairs]
    exact Prod.ext (Prod.mk.inj e1).1 rfl
  have r2 : pdpImportance E.sortFeat (numIn E a.feats) a.feats { c2 with X := a'.X.frame } =
      (.ok imp, { c2 with X := a'.X.frame }) := by
    simp only [pdpImportance, PyM.seq, n2, i2] at e2 ⊢
    rw [calcImportance_congr (c' := { c2 with X := a'.X.frame }) (c := c2) rfl]
    exact Prod.ext (Prod.mk.inj e2).1 rfl
  rw [fit_eq .greenwell E a' s1 eX' ec', hfeats]
  simp only [CalcObj.withFrame, r1, r2]
  exact ⟨_, rfl, rfl, rfl⟩

/-- **C113, partial.** If the first `fit` sampled, or the frame was not changed since, a second `fit` (of either method, on
any data) that accepts the calculator of the first one reports what it reports with a calculator of its own. Missing: the
case of a `fit` without sampling followed by a change of the frame, for which the claim is false. -/
theorem C113_reused_calculator_is_right_partial {g : Row F V → Num K} {a' : PdArgs L F V K}
    {s0' s' sh : PdpMethod G L F V K} {co : CalcObj L F V K} {Xs' X' : LFrame L F V} (kind kind' : PdKind)
    (hs : FitSetup g E a s0 Xs) (hnone : a.pdCalculator = none) (hret : PdpMethod.fit kind E a s0 = (.ok (), s))
    (hpdc : s.pdc = some co) (hok : a.n ≠ none ∨ X' = a.X)
    (hs' : FitSetup g E { a' with pdCalculator := none } s0' Xs')
    (hret' : PdpMethod.fit kind' E { a' with pdCalculator := none } s0' = (.ok (), s'))
    (hretsh : PdpMethod.fit kind' E { a' with pdCalculator := some (co.afterEdit a X') } s0' = (.ok (), sh)) :
    sh.ovo = s'.ovo ∧ sh.importance = s'.importance ∧
      (∀ n, kind' = .friedman n → a'.calculateOva = true → sh.ova = s'.ova) := by
  have r := fit_ok hs hret
  obtain ⟨co0, c', h1, h2, ⟨ops, h3⟩⟩ := r.pdc
  simp only [PdpMethod.chooseCalc, hnone, Except.ok.injEq] at h1
  rw [h2] at hpdc
  cases hpdc
  subst h1
  have hg := good_runs (good_new hs.rowWise Xs.frame a.batchsize) ⟨ops, h3⟩
  have hX : c'.X = Xs.frame := hg.2.X
  have he : CalcObj.afterEdit ⟨a.model.ident, Xs.labels, c'⟩ a X' = ⟨a.model.ident, Xs.labels, c'⟩ := by
    cases hn : a.n with
    | some k => simp [CalcObj.afterEdit, hn]
    | none =>
      rcases hok with h | h
      · exact absurd hn h
      · have hXs : Xs = a.X := by
          have := hs.sampled
          simp only [hn, sampleIfNotNone, Except.ok.injEq] at this
          exact this.symm
        subst h
        rw [hXs] at hX
        simp only [CalcObj.afterEdit, hn, CalcObj.withFrame, ← hX, hXs]
  rw [he] at hretsh
  have hssh : FitSetup g E { a' with pdCalculator := some ⟨a.model.ident, Xs.labels, c'⟩ } s0' Xs' := by
    refine ⟨hs'.sampled, hs'.rowWise, hs'.reads, hs'.cols_nodup, ?_⟩
    intro co hco
    cases hco
    exact ⟨a.pf, a.batchsize, ops, Xs.frame, hs.rowWise, h3⟩
  have := C15_reused_calculator_same_tables kind' hs' hssh rfl hret' hretsh
  exact ⟨this.1, this.2.1, fun n hk ho => this.2.2 n hk ho ho⟩

section Cases
open Ex

/-- the example data with the first value of feature 1 changed from 0 to 1 -/
def exEdited : LFrame Nat (Fin 3) ℤ := ⟨[10, 11, 12, 13], ⟨[0, 1, 2], [![0, 1, 1], ![0, 1, 5], ![1, 1, 5], ![1, 0, 1]]⟩⟩

/-- Greenwell's method on the example data, then on the edited data with the calculator of the first fit, then on the
edited data with a calculator of its own -/
def exFirst := PdpMethod.fit (G := Nat) (L := Nat) (K := ℚ) .greenwell exEnv exArgs (PdpMethod.new 0)
def exSecond := PdpMethod.fit (G := Nat) (L := Nat) (K := ℚ) .greenwell exEnv
  { exArgs with X := exEdited, pdCalculator := exFirst.2.pdc.map (·.afterEdit exArgs exEdited) } (PdpMethod.new 0)
def exThird := PdpMethod.fit (G := Nat) (L := Nat) (K := ℚ) .greenwell exEnv { exArgs with X := exEdited }
  (PdpMethod.new 0)

/-- **C113 is false as stated**: the second fit returns and reports the numbers of the first one; a fit without the
calculator reports other numbers. -/
theorem C113_fails : exFirst.1 = .ok () ∧ exSecond.1 = .ok () ∧ exThird.1 = .ok () ∧
    exSecond.2.importance = exFirst.2.importance ∧ exSecond.2.importance ≠ exThird.2.importance := by
  decide +kernel

/-- with sampling the calculator is that of the sampled rows: after the edit of a row that was not drawn (exRng draws the
first rows) it is still accepted and right, after the edit of a drawn row it is rejected -/
def exSampledArgs (X : LFrame Nat (Fin 3) ℤ) : PdArgs Nat (Fin 3) ℤ ℚ := { exArgs with X := X, n := some 3 }
def exFirstSampled := PdpMethod.fit (G := Nat) (L := Nat) .greenwell exEnv (exSampledArgs exLX) (PdpMethod.new 0)
def exEditedLast : LFrame Nat (Fin 3) ℤ :=
  ⟨[10, 11, 12, 13], ⟨[0, 1, 2], [![0, 0, 1], ![0, 1, 5], ![1, 1, 5], ![7, 7, 7]]⟩⟩
def exReuse (X : LFrame Nat (Fin 3) ℤ) := PdpMethod.fit (G := Nat) (L := Nat) (.friedman true) exEnv
  { exSampledArgs X with pdCalculator := exFirstSampled.2.pdc.map (·.afterEdit (exSampledArgs exLX) X) } (PdpMethod.new 0)

example : exFirstSampled.1 = .ok () ∧ (exReuse exEditedLast).1 = .ok () ∧ (exReuse exEdited).1 = .error .valueError ∧
    (exReuse exEditedLast).2.ovo = (PdpMethod.fit (G := Nat) (L := Nat) (.friedman true) exEnv
      (exSampledArgs exEditedLast) (PdpMethod.new 0)).2.ovo := by
  decide +kernel

end Cases

end Artemis
