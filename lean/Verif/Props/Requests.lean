import Verif.Proofs.KeyedLemmas
import Verif.Props.Missing
import Verif.Props.SplitScore
import Verif.Examples.FitData

/-!
# C129: unknown and repeated feature names in a request
-/

set_option linter.unusedSectionVars false
set_option linter.unusedVariables false
set_option linter.unusedSimpArgs false

namespace Artemis
open Spec

namespace Spec
/-- a request for an explanation that makes sense for a table with these columns: known names, each once -/
def Sensible {F : Type} (cols request : List F) : Prop := (∀ f ∈ request, f ∈ cols) ∧ request.Nodup
end Spec

section pd
variable {F V K G L : Type} [DecidableEq F] [LinearOrder V] [Field K] [LinearOrder K] [HasSqrt K] [DecidableEq L]
  {E : PdEnv G F K} {a : PdArgs L F V K} {s0 : PdpMethod G L F V K} {Xs : LFrame L F V}

/-- the calculator passed to `fit`, if any, went through public calls only -/
def UsedPublicly (a : PdArgs L F V K) : Prop := ∀ co, a.pdCalculator = some co →
  ∃ (p : PF F V (Num K)) (b : Int) (ops : List (PDOp F)) (X : Frame F V), co.obj = runOps (Calc.new p X b) ops

theorem keyed_chosen {co : CalcObj L F V K} {pf : PF F V (Num K)} (hu : UsedPublicly a) (h : PdpMethod.chooseCalc a Xs pf = .ok co) :
    ∃ X, Keyed X co.obj ∧ X.cols = Xs.frame.cols := by
  unfold PdpMethod.chooseCalc at h
  cases e : a.pdCalculator with
  | none => rw [e] at h; cases h; exact ⟨_, keyed_new _ _ _, rfl⟩
  | some co0 =>
    rw [e] at h
    simp only at h
    split at h
    · cases h
    · split at h
      · cases h
      · next h2 =>
        cases h
        obtain ⟨p, b, ops, X, hobj⟩ := hu co e
        have hk : Keyed X co.obj := hobj ▸ keyed_runOps ops _ (keyed_new p X b)
        refine ⟨X, hk, ?_⟩
        have hd := (sameData_of_equals (A := ⟨co.labels, co.obj.X⟩) (B := Xs) (by simpa using h2)).2
        rw [← hk.data]
        exact hd.cols

theorem sampled_cols {X Xs : LFrame L F V} {R : Rng G} {n : Option Nat} {g g' : G} (h : sampleIfNotNone R X n g = (.ok Xs, g')) :
    Xs.frame.cols = X.frame.cols := by
  unfold sampleIfNotNone at h
  cases n with
  | none => simp only [Prod.mk.injEq, Except.ok.injEq] at h; rw [← h.1]
  | some k =>
    simp only at h
    split at h
    · cases h
    · simp only [Prod.mk.injEq, Except.ok.injEq] at h
      rw [← h.1]
      rfl

variable {X : Frame F V} {c c' : Calc F V (Num K)}

theorem ovo_pairs_known (hk : Keyed X c) (nd : X.cols.Nodup) (kind : PdKind) {Y : Frame F V} {fs : List F} {ps : List (F × F)} {t : List (OvoRow F K)}
    (h : kind.ovo E Y fs ps c = (.ok t, c')) : Keyed X c' ∧ ∀ q ∈ ps, q.1 ∈ X.cols ∧ q.2 ∈ X.cols ∧ q.1 ≠ q.2 := by
  cases kind with
  | friedman b =>
    simp only [PdKind.ovo, hstatOvo, PyM.seq] at h
    have k1 := keyed_pairs (X := X) (some ps) false c hk
    cases e1 : Calc.calculatePairs (some ps) false c with
    | mk r1 c1 =>
      rw [e1] at h k1
      cases r1 with
      | error _ => cases h
      | ok _ =>
        simp only at h
        have k2 := keyed_single (X := X) (some fs) c1 k1
        cases e2 : Calc.calculateSingle (some fs) c1 with
        | mk r2 c2 =>
          rw [e2] at h k2
          cases r2 with
          | error _ => cases h
          | ok _ =>
            simp only [Prod.mk.injEq] at h
            obtain ⟨h1, rfl⟩ := h
            refine ⟨k2, fun q hq => ?_⟩
            cases e3 : ps.mapM (hstatPair b Y c2) with
            | error _ => rw [e3] at h1; cases h1
            | ok rows =>
              obtain ⟨r, hr⟩ := mapM_ok_all e3 q hq
              exact hstatPair_inv k2 nd hr
  | greenwell =>
    simp only [PdKind.ovo, greenwellOvo, PyM.seq] at h
    have k1 := keyed_pairs (X := X) (some ps) true c hk
    cases e1 : Calc.calculatePairs (some ps) true c with
    | mk r1 c1 =>
      rw [e1] at h k1
      cases r1 with
      | error _ => cases h
      | ok _ =>
        simp only [Prod.mk.injEq] at h
        obtain ⟨h1, rfl⟩ := h
        refine ⟨k1, fun q hq => ?_⟩
        cases e3 : ps.mapM (greenwellPair (numIn E fs) c1) with
        | error _ => rw [e3] at h1; cases h1
        | ok rows =>
          obtain ⟨r, hr⟩ := mapM_ok_all e3 q hq
          exact greenwellPair_inv k1 nd hr

theorem importance_known (hk : Keyed X c) {sort : List (FeatRow F K) → List (FeatRow F K)} {num : F → Bool} {fs : List F} {t : List (FeatRow F K)}
    (h : (pdpImportance sort num fs c).1 = .ok t) : ∀ f ∈ fs, f ∈ X.cols := by
  simp only [pdpImportance, PyM.seq] at h
  have k1 := keyed_single (X := X) none c hk
  cases e1 : Calc.calculateSingle none c with
  | mk r1 c1 =>
    rw [e1] at h k1
    cases r1 with
    | error _ => cases h
    | ok _ =>
      simp only at h
      intro f hf
      cases e3 : fs.mapM (calcImportance num c1) with
      | error _ => rw [e3] at h; cases h
      | ok rows =>
        obtain ⟨r, hr⟩ := mapM_ok_all e3 f hf
        rw [← k1.single, ← Dict.get?_isSome_iff]
        cases e : c1.pdSingle.get? f with
        | some t => rfl
        | none =>
          simp only [calcImportance, Calc.getSingleAll, e, bind, Except.bind] at hr
          cases hr

/-- **C129, H-statistic and Greenwell.** When `fit` returns, the request was sensible. (Column names are distinct. Nothing is asked of
the model, the prediction function, or the values; a supplied calculator went through public calls.) -/
theorem C129_pd_fit_partial [IsStrictOrderedRing K] (kind : PdKind) (nd : a.X.frame.cols.Nodup) (hu : UsedPublicly a)
    (h : (PdpMethod.fit kind E a s0).1 = .ok ()) : Sensible a.X.frame.cols (a.features.getD a.X.frame.cols) := by
  cases eX : sampleIfNotNone E.R a.X a.n s0.rng with
  | mk rX rng =>
    cases rX with
    | error e => simp only [PdpMethod.fit, PdpMethod.fitBase, eX] at h; cases h
    | ok Xs =>
      have hcols := sampled_cols eX
      cases ec : PdpMethod.chooseCalc a Xs a.pf with
      | error e =>
        simp only [PdArgs.pf] at ec
        simp only [PdpMethod.fit, PdpMethod.fitBase, eX, ec] at h
        cases h
      | ok co =>
        rw [fit_eq kind E a s0 eX ec] at h
        obtain ⟨X, hk, hX⟩ := keyed_chosen hu ec
        have nd' : X.cols.Nodup := by rw [hX, hcols]; exact nd
        cases e1 : kind.ovo E Xs.frame a.feats (combinations2 a.feats) co.obj with
        | mk r1 c1 =>
          rw [e1] at h
          cases r1 with
          | error _ => cases h
          | ok ovo =>
            simp only at h
            obtain ⟨k1, hp⟩ := ovo_pairs_known hk nd' kind e1
            cases e2 : pdpImportance E.sortFeat (numIn E a.feats) a.feats c1 with
            | mk r2 c2 =>
              rw [e2] at h
              cases r2 with
              | error _ => cases h
              | ok imp =>
                have h2 := importance_known k1 (congrArg Prod.fst e2)
                have hf : a.feats = a.features.getD a.X.frame.cols := by
                  unfold PdArgs.feats allIfNone
                  cases a.features <;> rfl
                rw [hX, hcols, hf] at h2
                rw [hf] at hp
                exact ⟨h2, nodup_of_combinations2 fun q hq => (hp q hq).2.2⟩

/-- The refusal comes before anything is reported: with a repeated feature, or an unknown one and at least one other, the table
of interactions is left as it was. -/
theorem C129_pd_leaves_table_partial [IsStrictOrderedRing K] (kind : PdKind) (nd : a.X.frame.cols.Nodup) (hu : UsedPublicly a)
    (hbad : ¬ Sensible a.X.frame.cols (a.features.getD a.X.frame.cols)) (h2 : 2 ≤ (a.features.getD a.X.frame.cols).length) :
    (∃ e, (PdpMethod.fit kind E a s0).1 = .error e) ∧ (PdpMethod.fit kind E a s0).2.ovo = s0.ovo ∧
      (PdpMethod.fit kind E a s0).2.importance = s0.importance ∧ (PdpMethod.fit kind E a s0).2.ova = s0.ova := by
  have hf : a.feats = a.features.getD a.X.frame.cols := by
    unfold PdArgs.feats allIfNone
    cases a.features <;> rfl
  rw [← hf] at hbad h2
  cases eX : sampleIfNotNone E.R a.X a.n s0.rng with
  | mk rX rng =>
    cases rX with
    | error e =>
      have : PdpMethod.fit kind E a s0 = 
          (.error e, { s0 with predictFn := getPredictFunction a.model a.predictFunction, model := some a.model, rng := rng }) := by
        simp only [PdpMethod.fit, PdpMethod.fitBase, eX]
      rw [this]
      exact ⟨⟨e, rfl⟩, rfl, rfl, rfl⟩
    | ok Xs =>
      have hcols := sampled_cols eX
      cases ec : PdpMethod.chooseCalc a Xs a.pf with
      | error e =>
        simp only [PdArgs.pf] at ec
        have : PdpMethod.fit kind E a s0 = (.error e, s0.prepared a rng Xs) := by
          simp only [PdpMethod.fit, PdpMethod.fitBase, eX, ec]
          rfl
        rw [this]
        exact ⟨⟨e, rfl⟩, rfl, rfl, rfl⟩
      | ok co =>
        obtain ⟨X, hk, hX⟩ := keyed_chosen hu ec
        have nd' : X.cols.Nodup := by rw [hX, hcols]; exact nd
        rw [fit_eq kind E a s0 eX ec]
        cases e1 : kind.ovo E Xs.frame a.feats (combinations2 a.feats) co.obj with
        | mk r1 c1 =>
          cases r1 with
          | error er => exact ⟨⟨er, rfl⟩, rfl, rfl, rfl⟩
          | ok ovo =>
            exfalso
            obtain ⟨k1, hp⟩ := ovo_pairs_known hk nd' kind e1
            refine hbad ⟨?_, nodup_of_combinations2 fun q hq => (hp q hq).2.2⟩
            intro f hff
            obtain ⟨g, hg, hne⟩ : ∃ g ∈ a.feats, g ≠ f := by
              have hnd : a.feats.Nodup := nodup_of_combinations2 fun q hq => (hp q hq).2.2
              by_contra hno
              push Not at hno
              have : a.feats ⊆ [f] := fun g hg => by rw [hno g hg]; exact List.mem_singleton_self f
              have := (hnd.subperm this).length_le
              simp at this
              omega
            rw [← hcols, ← hX]
            rcases mem_combinations2_or hff hg (Ne.symm hne) with h | h
            · exact (hp _ h).1
            · exact (hp _ h).2.1

/-- **C129, stand-alone importance based on partial dependence**: unknown names are refused. -/
theorem C129_importance_unknown_partial {t0 : PdImpObj G L F V K} {t : List (FeatRow F K)} (hu : UsedPublicly a)
    (h : (PdImpObj.run E a t0).1 = .ok t) : ∀ f ∈ a.features.getD a.X.frame.cols, f ∈ a.X.frame.cols := by
  cases eX : sampleIfNotNone E.R a.X a.n t0.rng with
  | mk rX rng =>
    cases rX with
    | error e => simp only [PdImpObj.run, eX] at h; cases h
    | ok Xs =>
      have hcols := sampled_cols eX
      simp only [PdImpObj.run, eX] at h
      cases ec : PdpMethod.chooseCalc a Xs (callable (getPredictFunction a.model a.predictFunction)) with
      | error e => rw [ec] at h; cases h
      | ok co =>
        rw [ec] at h
        simp only at h
        obtain ⟨X, hk, hX⟩ := keyed_chosen hu ec
        cases e2 : pdpImportance E.sortFeat (numIn E (allIfNone a.X.frame.cols a.features)) (allIfNone a.X.frame.cols a.features) co.obj with
        | mk r2 c2 =>
          rw [e2] at h
          cases r2 with
          | error _ => cases h
          | ok imp =>
            have h2 := importance_known hk (congrArg Prod.fst e2)
            rw [hX, hcols] at h2
            exact h2

end pd

section calculator
open Fam
variable {F V N : Type} [DecidableEq F] [LinearOrder V] [Flt N] {g : Row F V → N} {p : PF F V N}

/-- the names in a call of the calculator: columns of its data, and two different ones in every pair -/
def Spec.KnownRequest (cols : List F) : PDOp F → Prop
  | .single fs => ∀ l, fs = some l → ∀ f ∈ l, f ∈ cols
  | .pairs ps _ => ∀ l, ps = some l → ∀ q ∈ l, q.1 ∈ cols ∧ q.2 ∈ cols ∧ q.1 ≠ q.2
  | .minus fs => ∀ l, fs = some l → ∀ f ∈ l, f ∈ cols

/-- **C129, the calculator.** After any calls before it, a call with known names returns, and one with a name that is not a column,
or with a pair of a column and itself, raises a `KeyError`: whatever was computed before, and whatever good names come first in
the list. (The prediction function is row-wise and does not raise; the data have at least one row and distinct columns.) -/
theorem C129_calculator_partial (hw : RowWise g p) (hp : NeverFails p) (X : Frame F V) (b : Int) (nd : X.cols.Nodup) (hne : X.rows ≠ [])
    (ops : List (PDOp F)) (op : PDOp F) :
    (KnownRequest X.cols op → (op.run (runOps (Calc.new p X b) ops)).1 = .ok ()) ∧
    (¬ KnownRequest X.cols op → (op.run (runOps (Calc.new p X b) ops)).1 = .error .keyError) := by
  have hX := ops_X hw X b ops
  have hP := ops_predict hw X b ops
  have hg := good_runOps (good_new hw X b) ops
  have hne' : ∀ {n rows e}, (runOps (Calc.new p X b) ops).predict n rows = .error e → False := by
    intro n rows e he
    rw [hP] at he
    obtain ⟨ys, hy⟩ := hp n rows
    rw [hy] at he; cases he
  cases op with
  | single fs =>
    have := calculateSingle_spec hg.shape hg.soundS hg.rowWise fs _ (fun f _ => Nat.mul_le_mul_right _ (length_npUnique_le _ f))
    have hk : KnownRequest X.cols (.single fs) ↔ ¬ ∃ f ∈ fs.getD X.cols, f ∉ X.cols := by
      cases fs with
      | none => simp [KnownRequest]
      | some l => simp [KnownRequest]
    rw [hk]
    simp only [PDOp.run]
    cases e : Calc.calculateSingle fs (runOps (Calc.new p X b) ops) with
    | mk r c' =>
      rw [e] at this
      simp only [hX] at this
      cases r with
      | ok u => exact ⟨fun _ => rfl, fun h => absurd this.1 h⟩
      | error er =>
        rcases this.2 with ⟨h1, rfl⟩ | ⟨n, rows, he⟩
        · exact ⟨fun h => absurd h1 h, fun _ => rfl⟩
        · exact (hne' he).elim
  | pairs ps all =>
    have := calculatePairs_spec hg.shape hg.soundP hg.rowWise ps all
    have hbad : ∀ q, badPair all X q ↔ ¬ (q.1 ∈ X.cols ∧ q.2 ∈ X.cols ∧ q.1 ≠ q.2) := by
      intro q
      unfold badPair
      rw [canonPair_mem_iff nd]
      exact ⟨fun h => h.1, fun h => ⟨h, Or.inr (Or.inr (Or.inr hne))⟩⟩
    have hk : KnownRequest X.cols (.pairs ps all) ↔ ¬ ∃ q ∈ ps.getD (combinations2 X.cols), badPair all X q := by
      simp only [hbad]
      push Not
      cases ps with
      | none =>
        refine ⟨fun _ q hq => ?_, fun _ l hl => by cases hl⟩
        exact ⟨(mem_combinations2 hq).1, (mem_combinations2 hq).2, ne_of_mem_combinations2 nd hq⟩
      | some l => exact ⟨fun h q hq => h l rfl q hq, fun h l' hl q hq => by cases hl; exact h q hq⟩
    rw [hk]
    simp only [PDOp.run]
    cases e : Calc.calculatePairs ps all (runOps (Calc.new p X b) ops) with
    | mk r c' =>
      rw [e] at this
      simp only [hX] at this
      cases r with
      | ok u => exact ⟨fun _ => rfl, fun h => absurd this.1 h⟩
      | error er =>
        rcases this.2 with ⟨h1, rfl⟩ | ⟨n, rows, he⟩
        · exact ⟨fun h => absurd h1 h, fun _ => rfl⟩
        · exact (hne' he).elim
  | minus fs =>
    have := calculateMinus_spec hg.shape hg.soundM hg.rowWise fs
    have hk : KnownRequest X.cols (.minus fs) ↔ ¬ ∃ f ∈ fs.getD X.cols, f ∉ X.cols := by
      cases fs with
      | none => simp [KnownRequest]
      | some l => simp [KnownRequest]
    rw [hk]
    simp only [PDOp.run]
    cases e : Calc.calculateMinus fs (runOps (Calc.new p X b) ops) with
    | mk r c' =>
      rw [e] at this
      simp only [hX] at this
      cases r with
      | ok u => exact ⟨fun _ => rfl, fun h => absurd this.1 h⟩
      | error er =>
        rcases this.2 with ⟨h1, rfl⟩ | ⟨n, rows, he⟩
        · exact ⟨fun h => absurd h1 h, fun _ => rfl⟩
        · exact (hne' he).elim

/-- a bad pair in the list -/
theorem pairs_key_error {c : Calc F V N} (hg : Good g c) (hp : NeverFails c.predict) (nd : c.X.cols.Nodup) (hne : c.X.rows ≠ []) {ps : List (F × F)}
    (all : Bool) (hbad : ∃ q ∈ ps, ¬ (q.1 ∈ c.X.cols ∧ q.2 ∈ c.X.cols ∧ q.1 ≠ q.2)) :
    (Calc.calculatePairs (some ps) all c).1 = .error .keyError := by
  have := calculatePairs_spec hg.shape hg.soundP hg.rowWise (some ps) all
  cases e : Calc.calculatePairs (some ps) all c with
  | mk r c' =>
    rw [e] at this
    cases r with
    | ok u =>
      refine absurd ?_ this.1
      obtain ⟨q, hq, hb⟩ := hbad
      exact ⟨q, hq, by rw [canonPair_mem_iff nd]; exact hb, Or.inr (Or.inr (Or.inr hne))⟩
    | error er =>
      rcases this.2 with ⟨h1, rfl⟩ | ⟨n, rows, he⟩
      · rfl
      · obtain ⟨ys, hy⟩ := hp n rows
        rw [hy] at he; cases he

end calculator

section fitError
variable {F V K G L : Type} [DecidableEq F] [LinearOrder V] [Field K] [LinearOrder K] [IsStrictOrderedRing K] [HasSqrt K] [DecidableEq L]
  {E : PdEnv G F K} {a : PdArgs L F V K} {s0 : PdpMethod G L F V K} {Xs : LFrame L F V} {g : Row F V → Num K}

/-- **C129, H-statistic and Greenwell, the error.** A request of at least two names that is not sensible makes `fit` raise a `KeyError`.
(Usual setting of `fit`: row-wise predictions that do not raise; the sample has a row; a supplied calculator is accepted.) -/
theorem C129_pd_key_error_partial (kind : PdKind) (hs : FitSetup g E a s0 Xs) {co : CalcObj L F V K} (hc : PdpMethod.chooseCalc a Xs a.pf = .ok co)
    (hpc : NeverFails co.obj.predict) (hne : Xs.frame.rows ≠ [])
    (hbad : ¬ Sensible a.X.frame.cols (a.features.getD a.X.frame.cols)) (h2 : 2 ≤ (a.features.getD a.X.frame.cols).length) :
    (PdpMethod.fit kind E a s0).1 = .error .keyError := by
  have hf : a.feats = a.features.getD a.X.frame.cols := by
    unfold PdArgs.feats allIfNone
    cases a.features <;> rfl
  rw [← hf] at hbad h2
  cases eX : sampleIfNotNone E.R a.X a.n s0.rng with
  | mk rX rng =>
    have hXs := hs.sampled
    rw [eX] at hXs
    simp only at hXs
    subst hXs
    have hcols := sampled_cols eX
    have ch := chosen_of_ok hs hc
    have hcc : co.obj.X.cols = a.X.frame.cols := ch.same.cols.trans hcols
    have nd : co.obj.X.cols.Nodup := by rw [ch.same.cols]; exact hs.cols_nodup
    have hrows : co.obj.X.rows ≠ [] := by
      intro h0
      have := ch.same.len
      simp only [Frame.len, h0, List.length_nil] at this
      exact hne (List.length_eq_zero_iff.1 this.symm)
    have hpair : ∃ q ∈ combinations2 a.feats, ¬ (q.1 ∈ co.obj.X.cols ∧ q.2 ∈ co.obj.X.cols ∧ q.1 ≠ q.2) := by
      by_contra hno
      push Not at hno
      have hnd : a.feats.Nodup := nodup_of_combinations2 fun q hq => (hno q hq).2.2
      refine hbad ⟨fun f hff => ?_, hnd⟩
      obtain ⟨g', hg', hne'⟩ : ∃ g' ∈ a.feats, g' ≠ f := by
        by_contra hno'
        push Not at hno'
        have : a.feats ⊆ [f] := fun g hg => by rw [hno' g hg]; exact List.mem_singleton_self f
        have := (hnd.subperm this).length_le
        simp at this
        omega
      rw [← hcc]
      rcases mem_combinations2_or hff hg' (Ne.symm hne') with h | h
      · exact (hno _ h).1
      · exact (hno _ h).2.1
    rw [fit_eq kind E a s0 eX hc]
    have hko : (kind.ovo E Xs.frame a.feats (combinations2 a.feats) co.obj).1 = .error .keyError := by
      cases kind with
      | friedman b =>
        have := pairs_key_error ch.good hpc nd hrows false hpair
        cases e1 : Calc.calculatePairs (some (combinations2 a.feats)) false co.obj with
        | mk r1 c1 =>
          rw [e1] at this
          simp only at this
          subst this
          simp only [PdKind.ovo, hstatOvo, PyM.seq, e1]
      | greenwell =>
        have := pairs_key_error ch.good hpc nd hrows true hpair
        cases e1 : Calc.calculatePairs (some (combinations2 a.feats)) true co.obj with
        | mk r1 c1 =>
          rw [e1] at this
          simp only at this
          subst this
          simp only [PdKind.ovo, greenwellOvo, PyM.seq, e1]
    cases e1 : kind.ovo E Xs.frame a.feats (combinations2 a.feats) co.obj with
    | mk r1 c1 =>
      rw [e1] at hko
      simp only at hko
      subst hko
      rfl

end fitError

section perf
variable {F V K G L σ α β : Type} [DecidableEq F] [Field K] [LinearOrder K] [DecidableEq L]

theorem mapList_ok_keys {b : β → PyM σ α} {key : α → β} (h : ∀ x s y s', b x s = (.ok y, s') → key y = x) :
    ∀ (l : List β) (s : σ) (as : List α) (s' : σ), PyM.mapList l b s = (.ok as, s') → as.map key = l
  | [], s, as, s', e => by cases e; rfl
  | x :: l, s, as, s', e => by
    simp only [PyM.mapList, PyM.seq] at e
    cases e1 : b x s with
    | mk r s1 =>
      rw [e1] at e
      cases r with
      | error _ => cases e
      | ok y =>
        simp only at e
        cases e2 : PyM.mapList l b s1 with
        | mk r2 s2 =>
          rw [e2] at e
          cases r2 with
          | error _ => cases e
          | ok ys =>
            cases e
            rw [List.map_cons, h x s y s1 e1, mapList_ok_keys h l s1 ys s' e2]

theorem perfOvo_pairs {sort : List (OvoRow F K) → List (OvoRow F K)} {R : Rng G} {model : ModelObj F V (Num K)} {M : Metric K} {y0 : List (Num K)}
    {X : Frame F V} {pairs : List (F × F)} {n : Nat} {s s' : Scored G F V} {t : List (OvoRow F K)}
    (h : perfOvo sort R model M y0 X pairs n s = (.ok t, s')) : ∃ rows, t = sort rows ∧ rows.map (fun r => (r.f1, r.f2)) = pairs := by
  simp only [perfOvo, PyM.seq] at h
  cases e1 : scoreOn model M y0 X s with
  | mk r1 s1 =>
    rw [e1] at h
    cases r1 with
    | error _ => cases h
    | ok ref =>
      simp only at h
      generalize hb : (fun pr : F × F => (fun s : Scored G F V => _)) = body at h
      cases e2 : PyM.mapList pairs body s1 with
      | mk r2 s2 =>
        rw [e2] at h
        cases r2 with
        | error _ => cases h
        | ok rows =>
          cases h
          refine ⟨rows, rfl, mapList_ok_keys (fun q s y s' e => ?_) pairs s1 rows _ e2⟩
          rw [← hb] at e
          simp only at e
          cases e3 : PyM.times n (PyM.seq (interScore R model M y0 X q.1 q.2 ref) fun v => PyM.ret (Num.abs v)) s with
          | mk r3 s3 =>
            simp only [PyM.seq, e3] at e
            cases r3 with
            | error _ => cases e
            | ok l => cases e; rfl

/-- **C129, Sejong Oh's method**: unknown names are refused, if anything is computed at all. -/
theorem C129_sejong_unknown_partial [IsStrictOrderedRing K] [HasSqrt K] {E : PerfEnv G L F K} {a : SejongArgs L F V K} {entropy : G}
    {s0 : Sejong G L F V K} {Xs : LFrame L F V} {ys : Target L K} (hR : Rng.Lawful E.R)
    (hs : (sampleBoth E.R E.toInt a.X a.y a.n s0.rng).1 = .ok (Xs, ys)) (ha : Answers a.model s0.metric ys.values Xs.frame.len)
    (hn : 0 < a.nRepeat) (h : (Sejong.fit E a entropy s0).1 = .ok ()) : ∀ f ∈ a.features.getD a.X.frame.cols, f ∈ a.X.frame.cols := by
  intro f hf
  by_contra hno
  have := (C121_sejong_returns_partial (entropy := entropy) hR hs ha).2 (Or.inr ⟨⟨f, hf, hno⟩, hn⟩)
  rw [this] at h
  cases h

/-- **C129 fails** for Sejong Oh's method and repeated names, always: when `fit` returns, the table lists exactly the pairs of
the list given, so a feature named twice interacts with itself. -/
theorem C129_sejong_repeated_listed {E : PerfEnv G L F K} {a : SejongArgs L F V K} {entropy : G} {s0 : Sejong G L F V K}
    (hsort : ∀ l, (E.sortOvo l).Perm l) (h : (Sejong.fit E a entropy s0).1 = .ok ()) :
    ∃ t, (Sejong.fit E a entropy s0).2.ovo = some t ∧
      (t.map (fun r => (r.f1, r.f2))).Perm (combinations2 (a.features.getD a.X.frame.cols)) ∧
      (¬ (a.features.getD a.X.frame.cols).Nodup → ∃ r ∈ t, r.f1 = r.f2) := by
  have key : ∃ t, (Sejong.fit E a entropy s0).2.ovo = some t ∧
      (t.map (fun r => (r.f1, r.f2))).Perm (combinations2 (a.features.getD a.X.frame.cols)) := by
    have hfe : allIfNone a.X.frame.cols a.features = a.features.getD a.X.frame.cols := by
      unfold allIfNone
      cases a.features <;> rfl
    revert h
    unfold Sejong.fit
    simp only [hfe]
    generalize sampleBoth E.R E.toInt a.X a.y a.n s0.rng = z
    obtain ⟨r, g⟩ := z
    cases r with
    | error e => intro h; cases h
    | ok v =>
      obtain ⟨Xs, ys⟩ := v
      simp only
      cases e1 : perfOvo E.sortOvo E.R a.model s0.metric ys.values Xs.frame (combinations2 (a.features.getD a.X.frame.cols)) a.nRepeat
          ⟨g, s0.calls⟩ with
      | mk r1 w =>
        cases r1 with
        | error e => intro h; cases h
        | ok ovo =>
          obtain ⟨rows, rfl, hrows⟩ := perfOvo_pairs e1
          simp only
          generalize PermObj.run E.sortFeat E.R a.model Xs ys a.nRepeat (some (a.features.getD a.X.frame.cols)) ⟨entropy, s0.metric, none⟩ w.calls = z2
          obtain ⟨r2, o2, c2⟩ := z2
          cases r2 with
          | error e => intro h; cases h
          | ok imp =>
            intro _
            refine ⟨_, rfl, ?_⟩
            rw [← hrows]
            exact (hsort rows).map _
  obtain ⟨t, h1, h2⟩ := key
  refine ⟨t, h1, h2, fun hnd => ?_⟩
  have : ∃ q ∈ combinations2 (a.features.getD a.X.frame.cols), q.1 = q.2 := by
    by_contra hno
    push Not at hno
    exact hnd (nodup_of_combinations2 hno)
  obtain ⟨q, hq, e⟩ := this
  obtain ⟨r, hr, rfl⟩ := List.mem_map.1 (h2.mem_iff.2 hq)
  exact ⟨r, hr, e⟩

theorem fold_ok_inv {b : α → β → PyM σ α} {I : α → Prop} (h : ∀ a x s a' s', I a → b a x s = (.ok a', s') → I a') :
    ∀ (l : List β) (a : α) (s : σ) (a' : α) (s' : σ), I a → PyM.fold l b a s = (.ok a', s') → I a'
  | [], a, s, a', s', ha, e => by cases e; exact ha
  | x :: l, a, s, a', s', ha, e => by
    simp only [PyM.fold, PyM.seq] at e
    cases e1 : b a x s with
    | mk r s1 =>
      rw [e1] at e
      cases r with
      | error _ => cases e
      | ok a1 => exact fold_ok_inv h l a1 s1 a' s' (h a x s a1 s1 ha e1) e

theorem corruptStep_keys {R : Rng G} {model : ModelObj F V (Num K)} {M : Metric K} {y0 : List (Num K)} {X : Frame F V}
    {acc acc' : Frame F V × Dict F (List (Num K))} {f : F} {s s' : Scored G F V}
    (h : corruptStep R model M y0 X acc f s = (.ok acc', s')) : acc'.2.keys = acc.2.keys := by
  revert h
  unfold corruptStep
  cases eg : acc.2.get? f with
  | none =>
    intro h
    simp only [PyM.seq, PyM.lift, PyM.raise] at h
    repeat' split at h
    all_goals first | cases h | skip
  | some l =>
    intro h
    have hm : f ∈ acc.2.keys := by rw [← Dict.get?_isSome_iff, eg]; rfl
    simp only [PyM.seq, PyM.lift, PyM.ret] at h
    repeat' split at h
    all_goals first | (cases h; exact Dict.keys_set_of_mem hm _) | cases h

/-- **C129, permutation importance**: a name given several times is listed once (its score averages all the repetitions). -/
theorem C129_permutation_listed_once {sort : List (FeatRow F K) → List (FeatRow F K)} {R : Rng G} {model : ModelObj F V (Num K)}
    {X : LFrame L F V} {y : Target L K} {n : Nat} {fs : List F} {o : PermObj G F K} {calls : List (List (Row F V))} {t : List (FeatRow F K)}
    (hsort : ∀ l, (sort l).Perm l) (h : (PermObj.run sort R model X y n (some fs) o calls).1 = .ok t) :
    (t.map (·.f)).Nodup ∧ ∀ f, f ∈ t.map (·.f) ↔ f ∈ fs := by
  have key : ∃ d : Dict F (List (Num K)), (t.map (·.f)).Perm d.keys ∧ d.keys = Dict.keys (fs.foldl (fun (d : Dict F (List (Num K))) f => d.set f []) []) := by
    revert h
    unfold PermObj.run permImportance
    simp only [PyM.seq]
    cases e1 : scoreOn model o.metric y.values X.frame ⟨o.rng, calls⟩ with
    | mk r1 s1 =>
      cases r1 with
      | error _ => intro h; cases h
      | ok base =>
        simp only
        cases e2 : corruptedScores R model o.metric y.values X.frame fs n s1 with
        | mk r2 s2 =>
          cases r2 with
          | error _ => intro h; cases h
          | ok d =>
            simp only
            by_cases hd : d.isEmpty = true
            · rw [if_pos hd]
              intro h; cases h
            · rw [if_neg hd]
              intro h
              cases h
              refine ⟨d, ?_, ?_⟩
              · refine ((hsort _).map _).trans (List.Perm.of_eq ?_)
                rw [List.map_map]
                rfl
              · simp only [corruptedScores, PyM.seq] at e2
                generalize hf : PyM.fold (List.range n) (fun acc (_ : Nat) => PyM.fold fs (corruptStep R model o.metric y.values X.frame) acc)
                  (X.frame, fs.foldl (fun d f => d.set f []) []) s1 = z at e2
                obtain ⟨r3, s3⟩ := z
                cases r3 with
                | error _ => cases e2
                | ok acc =>
                  cases e2
                  exact fold_ok_inv (I := fun acc : Frame F V × Dict F (List (Num K)) => acc.2.keys = _)
                    (fun a _ s a' s' ha e => fold_ok_inv (I := fun acc : Frame F V × Dict F (List (Num K)) => acc.2.keys = _)
                      (fun a x s a' s' ha e => (corruptStep_keys e).trans ha) fs a s a' s' ha e) _ _ _ _ _ rfl hf
  obtain ⟨d, h1, h2⟩ := key
  have h3 : ∀ (l : List F) (d : Dict F (List (Num K))), d.keys.Nodup → (Dict.keys (l.foldl (fun d f => Dict.set d f []) d)).Nodup ∧
      ∀ f, f ∈ Dict.keys (l.foldl (fun d f => Dict.set d f []) d) ↔ f ∈ l ∨ f ∈ d.keys := by
    intro l
    induction l with
    | nil => intro d hd; exact ⟨hd, fun f => by simp⟩
    | cons x l ih =>
      intro d hd
      obtain ⟨i1, i2⟩ := ih (d.set x []) (Dict.nodup_keys_set hd x _)
      refine ⟨i1, fun f => ?_⟩
      rw [List.foldl_cons, i2, Dict.mem_keys_set]
      simp only [List.mem_cons]
      tauto
  obtain ⟨i1, i2⟩ := h3 fs [] List.nodup_nil
  refine ⟨h1.nodup_iff.2 (h2 ▸ i1), fun f => ?_⟩
  rw [h1.mem_iff, h2, i2]
  simp [Dict.keys]

end perf

section splits
variable {F I K : Type} [LinearOrder F] [DecidableEq I] [Field K] [LinearOrder K] [IsStrictOrderedRing K]
  {E : SsEnv F K} {ts : List (GTree F I K)} {p : Package} {m : GbModel F I K}

/-- **C129 fails** for the split score importance: names that no split uses are ignored, however often they are listed, and so is how
often a name is listed. -/
theorem C129_split_score_ignores (H : GbForest E.leafName ts p m) {fs fs' : List F} (hl : E.leafName ∈ fs ↔ E.leafName ∈ fs')
    (h : ∀ s ∈ forestSplits ts, s.feat ∈ fs ↔ s.feat ∈ fs') (imp : SsMetric) :
    importanceOf E (some fs) imp m = importanceOf E (some fs') imp m := by
  obtain ⟨frame, A, hu, hF⟩ := framed_of_forest H
  obtain ⟨frame', e, hp⟩ := depths_ok hF
  have hsel : selectRows E.leafName (some fs) frame' = selectRows E.leafName (some fs') frame' := by
    unfold selectRows
    apply List.filter_congr
    intro r hr
    cases hf : r.feat with
    | none => rfl
    | some f =>
      have : f ∈ fs ↔ f ∈ fs' := by
        obtain ⟨x, hx, rfl⟩ := List.mem_map.1 (hp.mem_iff.1 hr)
        cases hlf : x.row.leaf with
        | true =>
          rcases (finalRows_leaf hF x hx hlf).2.2.2.2 with h1 | h1
          · rw [h1] at hf; cases hf
          · rw [h1] at hf; rw [← Option.some.inj hf]; exact hl
        | false =>
          have : x.view ∈ (forestSplits ts).map (Split.view p) :=
            (finalRows_view hF).mem_iff.1 (List.mem_map.2 ⟨x, List.mem_filter.2 ⟨hx, by simp [hlf]⟩, rfl⟩)
          obtain ⟨s, hs, es⟩ := List.mem_map.1 this
          have h1 : x.row.feat = some s.feat := (congrArg StatView.feat es).symm
          rw [h1] at hf
          rw [← Option.some.inj hf]
          exact h s hs
      simp [this]
  simp only [importanceOf, hu, ssImportance, e, allImportance, hsel]

end splits

section Cases
open Ex

/-- an unknown feature (4 is no column) and a repeated one, refused by both methods -/
def exReq (fs : List (Fin 5)) : PdArgs Nat (Fin 5) ℤ ℚ where
  model := ⟨1, some (fun _ rows => .ok (rows.map (fun r => .fin (r 0 * r 1)))), none⟩
  X := ⟨[0, 1, 2], ⟨[0, 1, 2], [![0, 1, 1, 0, 0], ![1, 0, 2, 0, 0], ![2, 1, 0, 0, 0]]⟩⟩
  n := none
  predictFunction := none
  features := some fs
  batchsize := 7
  pdCalculator := none
  calculateOva := true

def exReqEnv : PdEnv Nat (Fin 5) ℚ := ⟨exRng, stableSort OvoRow.val false, stableSort FeatRow.val false, fun _ => true⟩

example : (PdpMethod.fit (.friedman true) exReqEnv (exReq [0, 1]) (PdpMethod.new 0)).1 = .ok () ∧
    (PdpMethod.fit .greenwell exReqEnv (exReq [0, 1]) (PdpMethod.new 0)).1 = .ok () ∧
    Sensible [0, 1, 2] ([0, 1] : List (Fin 5)) := by
  refine ⟨by decide +kernel, by decide +kernel, ?_⟩
  unfold Sensible
  decide

example : (PdpMethod.fit (.friedman true) exReqEnv (exReq [0, 4]) (PdpMethod.new 0)).1 = .error .keyError ∧
    (PdpMethod.fit (.friedman true) exReqEnv (exReq [0, 1, 0]) (PdpMethod.new 0)).1 = .error .keyError ∧
    (PdpMethod.fit .greenwell exReqEnv (exReq [0, 4]) (PdpMethod.new 0)).1 = .error .keyError ∧
    (PdpMethod.fit .greenwell exReqEnv (exReq [0, 1, 0]) (PdpMethod.new 0)).1 = .error .keyError := by
  refine ⟨?_, ?_, ?_, ?_⟩ <;> decide +kernel

example : ¬ Sensible [0, 1, 2] ([0, 1, 0] : List (Fin 5)) := by
  unfold Sensible
  decide

def exReqP : PF (Fin 5) ℤ (Num ℚ) := fun _ rows => .ok (rows.map (fun r => .fin (r 0 * r 1)))

/-- after other calls, good names first: a `KeyError` all the same -/
example : (PDOp.run (.single (some [0, 4])) (runOps (Calc.new exReqP (exReq []).X.frame 7) [.single none, .pairs none false])).1 = .error .keyError := by
  have hw : RowWise (fun r => .fin (r 0 * r 1)) exReqP := fun _ _ _ h => (Except.ok.inj h).symm
  refine (C129_calculator_partial hw (fun _ _ => ⟨_, rfl⟩) _ _ (by decide) (by simp [exReq]) _ _).2 fun h => ?_
  have := h _ rfl 4 (by simp)
  revert this
  decide

example : (PDOp.run (.pairs (some [(0, 1), (1, 1)]) true) (runOps (Calc.new exReqP (exReq []).X.frame 7) [.single none])).1 = .error .keyError := by
  have hw : RowWise (fun r => .fin (r 0 * r 1)) exReqP := fun _ _ _ h => (Except.ok.inj h).symm
  refine (C129_calculator_partial hw (fun _ _ => ⟨_, rfl⟩) _ _ (by decide) (by simp [exReq]) _ _).2 fun h => ?_
  exact (h _ rfl (1, 1) (by simp)).2.2 rfl

/-- **C129 fails** for the stand-alone importance: a repeated name gives a repeated row. -/
theorem C129_importance_repeated_fails :
    (PdImpObj.run exReqEnv (exReq [0, 0]) (PdImpObj.new 0)).1.map (fun t => t.map (·.f)) = .ok [0, 0] := by decide +kernel

/-- **C129 fails** for Sejong Oh's method: feature 0 named twice interacts with itself; without repetitions, even a name that is no column is accepted. -/
theorem C129_sejong_fails :
    (Sejong.fit (K := ℚ) exPerfEnv { exSArgs with features := some [0, 0] } 5 (Sejong.new 0 mseM)).1 = .ok () ∧
    ((Sejong.fit (K := ℚ) exPerfEnv { exSArgs with features := some [0, 0] } 5 (Sejong.new 0 mseM)).2.ovo.map (fun t => t.map (fun r => (r.f1, r.f2)))) =
      some [((0 : Fin 3), (0 : Fin 3))] ∧
    (Sejong.fit (K := ℚ) exPerfEnv { exSArgs with X := ⟨exPerfX.labels, { exPerfX.frame with cols := [0, 1] }⟩, features := some [0, 2], nRepeat := 0 } 5
      (Sejong.new 0 mseM)).1 = .ok () :=
  ⟨by decide +kernel, by decide +kernel, by decide +kernel⟩

/-- feature 0 named twice: one row -/
example : (PermObj.run (K := ℚ) (exPerfEnv (K := ℚ)).sortFeat exRng2 exPerfModel exPerfX exPerfY 2 (some [0, 1, 0]) ⟨0, mseM, none⟩ []).1.map (fun t => t.map (·.f)) =
    .ok [0, 1] := by decide +kernel

/-- the split score importance of feature 0, with an unknown and repeated names added -/
example : importanceOf exSsEnv (some [0]) .sumGain exXgb = importanceOf exSsEnv (some [0, 7, 0, 8]) .sumGain exXgb :=
  C129_split_score_ignores exXgb_forest (by decide) (by decide +kernel) .sumGain

end Cases

end Artemis
