import Verif.Proofs.PdHeapLemmas
import Verif.Props.DataHeap
import Verif.Examples.FitData

set_option linter.unusedSectionVars false
set_option linter.unusedVariables false
set_option linter.unusedSimpArgs false

/-!
# C133: the partial dependence based methods and the caller's data
-/

namespace Artemis

variable {G L F V K : Type} [DecidableEq F] [DecidableEq L] [LinearOrder V] [Field K] [LinearOrder K] [HasSqrt K]

/-- The arguments of a fit as values: what `Model/PdpMethod` is given. -/
def PdArgsH.onValues (a : PdArgsH L F V K) (mem : List (LFrame L F V)) (X : LFrame L F V) : PdArgs L F V K :=
  ⟨a.model, X, a.n, a.predictFunction, a.features, a.batchsize,
    a.pdCalculator.map fun co => ⟨co.modelId, ((mem[co.xr]?).map (·.labels)).getD [], co.obj⟩, a.calculateOva⟩

/-- Specification: the two methods show the same tables and have drawn the same random numbers. -/
def Spec.SameTables (s : PdFitH G L F V K) (t : PdpMethod G L F V K) : Prop :=
  s.rng = t.rng ∧ s.ovo = t.ovo ∧ s.ova = t.ova ∧ s.importance = t.importance

/-- Specification: a supplied calculator's frame has not been changed since the calculator was constructed. -/
def Spec.SuppliedHeld (a : PdArgsH L F V K) (mem : List (LFrame L F V)) : Prop :=
  ∀ co, a.pdCalculator = some co → (mem[co.xr]?).map (·.frame) = some co.obj.X

open Spec

theorem pdSample_ok {R : Rng G} {r : Nat} {n : Option Nat} {X Xs : LFrame L F V} {g0 g : G} (s : PdFitH G L F V K) (hX : s.mem[r]? = some X)
    (hs : sampleIfNotNone R X n g0 = (.ok Xs, g)) :
    ∃ x ext, (s.mem ++ ext)[x]? = some Xs ∧ PdFitH.setSample r n Xs s = (x, { s with xs := some x, mem := s.mem ++ ext }) ∧
      (n = none → x = r) ∧ (n ≠ none → x = s.mem.length) := by
  cases n with
  | none =>
    simp only [sampleIfNotNone, Prod.mk.injEq, Except.ok.injEq] at hs
    exact ⟨r, [], by simp [hX, hs.1], by simp [PdFitH.setSample], by simp, by simp⟩
  | some k => exact ⟨s.mem.length, [Xs], by simp, by simp [PdFitH.setSample], by simp, by simp⟩

variable {kind : PdKind} {E : PdEnv G F K} {a : PdArgsH L F V K} {X : LFrame L F V}

/-- The choice of the calculator on objects and on values. -/
theorem chooseCalc_same (s : PdFitH G L F V K) {mem0 : List (LFrame L F V)} {Xs : LFrame L F V} {xs : Nat} (pf : PF F V (Num K))
    (hsup : SuppliedHeld a mem0) (hg : ∃ ext, s.mem = mem0 ++ ext) (hx : s.mem[xs]? = some Xs) :
    (∃ e, PdFitH.chooseCalc a xs Xs pf s = (.error e, s) ∧ PdpMethod.chooseCalc (a.onValues mem0 X) Xs pf = .error e) ∨
    (∃ i xr co, PdFitH.chooseCalc a xs Xs pf s = (.ok (), { s with pdc := some (i, xr, co.obj) }) ∧
      PdpMethod.chooseCalc (a.onValues mem0 X) Xs pf = .ok co ∧ (⟨s.mem, co.obj, xr⟩ : PdMem L F V K).Held) := by
  unfold PdFitH.chooseCalc PdpMethod.chooseCalc PdArgsH.onValues
  cases hc : a.pdCalculator with
  | none =>
    refine .inr ⟨a.model.ident, xs, ⟨a.model.ident, Xs.labels, Calc.new pf Xs.frame a.batchsize⟩, rfl, rfl, ?_⟩
    simp only [PdMem.Held, hx]; rfl
  | some co =>
    have hm := hsup co hc
    cases hco : mem0[co.xr]? with
    | none => rw [hco] at hm; cases hm
    | some Y =>
      rw [hco] at hm
      simp only [Option.map_some, Option.some.injEq] at hm
      have hs : s.mem[co.xr]? = some Y := getElem?_grown hg hco
      have hY : (⟨Y.labels, co.obj.X⟩ : LFrame L F V) = Y := by rw [← hm]
      simp only [Option.map_some, Option.getD_some, hs, hco, hY]
      by_cases h1 : co.modelId ≠ a.model.ident
      · rw [if_pos h1, if_pos h1]; exact .inl ⟨_, rfl, rfl⟩
      · rw [if_neg h1, if_neg h1]
        by_cases h2 : (!(LFrame.equals Y Xs)) = true
        · rw [if_pos h2, if_pos h2]; exact .inl ⟨_, rfl, rfl⟩
        · rw [if_neg h2, if_neg h2]
          refine .inr ⟨co.modelId, co.xr, _, rfl, rfl, ?_⟩
          simp only [PdMem.Held, hs, Option.map_some, hm]

/-- The methods on frame objects compute what `Model/PdpMethod` computes on values, and no object is changed. -/
theorem pd_heap_refines (s0 : PdFitH G L F V K) (t0 : PdpMethod G L F V K) (hX : s0.mem[a.r]? = some X) (hsup : SuppliedHeld a s0.mem)
    (hq : kind = .greenwell ∨ a.calculateOva = false ∨ ∀ Y, a.touch Y = Y) (h0 : SameTables s0 t0) :
    (PdFitH.fit kind E a s0).1 = (PdpMethod.fit kind E (a.onValues s0.mem X) t0).1 ∧
    SameTables (PdFitH.fit kind E a s0).2 (PdpMethod.fit kind E (a.onValues s0.mem X) t0).2 ∧
    ∃ ext, (PdFitH.fit kind E a s0).2.mem = s0.mem ++ ext := by
  obtain ⟨h01, h02, h03, h04⟩ := h0
  unfold PdFitH.fit PdpMethod.fit PdpMethod.fitBase
  simp only [hX]
  have hav : ∀ {β : Type} (f : Option Nat → β), f (a.onValues s0.mem X).n = f a.n := fun f => rfl
  rcases hs : sampleIfNotNone E.R X a.n s0.rng with ⟨res, g⟩
  have hs' : sampleIfNotNone E.R (a.onValues s0.mem X).X (a.onValues s0.mem X).n t0.rng = (res, g) := by rw [← h01]; exact hs
  simp only [hs']
  cases res with
  | error e => exact ⟨rfl, ⟨rfl, h02, h03, h04⟩, [], by simp⟩
  | ok Xs =>
    obtain ⟨x, ext, hx, hset, -, -⟩ := pdSample_ok (X := X) { s0 with rng := g } hX hs
    simp only at hx
    simp only [hset]
    rcases chooseCalc_same (X := X) { s0 with rng := g, xs := some x, mem := s0.mem ++ ext } (callable (getPredictFunction a.model a.predictFunction))
      hsup ⟨ext, rfl⟩ hx with ⟨e, e1, e2⟩ | ⟨i, xr, co, e1, e2, hh⟩
    · have e2' : PdpMethod.chooseCalc (a.onValues s0.mem X) Xs
        (callable (getPredictFunction (a.onValues s0.mem X).model (a.onValues s0.mem X).predictFunction)) = .error e := e2
      simp only [e2', PyM.seq, e1]
      exact ⟨trivial, ⟨rfl, h02, h03, h04⟩, ext, rfl⟩
    · have e2' : PdpMethod.chooseCalc (a.onValues s0.mem X) Xs
        (callable (getPredictFunction (a.onValues s0.mem X).model (a.onValues s0.mem X).predictFunction)) = .ok co := e2
      simp only [e2']
      rw [PyM.seq]
      simp only [e1, PdFitH.compute]
      have hfs : allIfNone (a.onValues s0.mem X).X.frame.cols (a.onValues s0.mem X).features = allIfNone X.frame.cols a.features := rfl
      simp only [hfs]
      generalize allIfNone X.frame.cols a.features = fs
      generalize hpf : getPredictFunction a.model a.predictFunction = pf
      have hpf' : getPredictFunction (a.onValues s0.mem X).model (a.onValues s0.mem X).predictFunction = pf := hpf
      simp only [hpf']
      obtain ⟨r1, c1, x1, f1, f2, hh1, hx1⟩ := onCalc_lifts (liftsAt_ovo (touch := a.touch) (Xs := Xs) (xs := x) kind E fs (combinations2 fs))
        (s := { s0 with rng := g, xs := some x, mem := s0.mem ++ ext, pdc := some (i, xr, co.obj) })
        (t := { t0 with predictFn := pf, model := some (a.onValues s0.mem X).model, rng := g, xSampled := some Xs, features := some fs,
                        pairs := some (combinations2 fs), pdc := some co }) rfl rfl hh hx
      simp only [f2]
      rw [PyM.seq]
      simp only [f1]
      cases r1 with
      | error e => exact ⟨rfl, ⟨rfl, h02, h03, h04⟩, ext ++ x1, by simp [List.append_assoc]⟩
      | ok ovo =>
        simp only [PyM.seq]
        obtain ⟨r2, c2, x2, f3, f4, hh2, hx2⟩ := onCalc_lifts (liftsAt_importance (touch := a.touch) (Xs := Xs) (xs := x) E.sortFeat (numIn E fs) fs)
          (s := { s0 with rng := g, xs := some x, mem := s0.mem ++ ext ++ x1, pdc := some (i, xr, c1), ovo := some ovo })
          (t := { t0 with predictFn := pf, model := some (a.onValues s0.mem X).model, rng := g, xSampled := some Xs, features := some fs,
                          pairs := some (combinations2 fs), pdc := some { co with obj := c1 }, ovo := some ovo, impObj := true }) rfl rfl hh1 hx1
        simp only [f3, f4]
        cases r2 with
        | error e => exact ⟨rfl, ⟨rfl, rfl, h03, h04⟩, ext ++ x1 ++ x2, by simp [List.append_assoc]⟩
        | ok imp =>
          simp only
          cases kind with
          | greenwell => exact ⟨rfl, ⟨rfl, rfl, h03, rfl⟩, ext ++ x1 ++ x2, by simp [List.append_assoc, PyM.ret]⟩
          | friedman nrm =>
            simp only
            by_cases ho : a.calculateOva = true
            · have hov : (a.onValues s0.mem X).calculateOva = true := ho
              have ht : ∀ Y, a.touch Y = Y := by
                rcases hq with h | h | h
                · cases h
                · rw [h] at ho; cases ho
                · exact h
              simp only [ho, hov, if_true, PyM.seq]
              obtain ⟨r3, c3, x3, f5, f6, -, -⟩ := onCalc_lifts (liftsAt_ova (Xs := Xs) (xs := x) ht E.sortFeat (callable pf) nrm fs)
                (s := { s0 with rng := g, xs := some x, mem := s0.mem ++ ext ++ x1 ++ x2, pdc := some (i, xr, c2), ovo := some ovo, importance := some imp })
                (t := { t0 with predictFn := pf, model := some (a.onValues s0.mem X).model, rng := g, xSampled := some Xs, features := some fs,
                                pairs := some (combinations2 fs), pdc := some { co with obj := c2 }, ovo := some ovo, impObj := true,
                                importance := some imp }) rfl rfl hh2 hx2
              simp only [f5, f6]
              cases r3 with
              | error e => exact ⟨rfl, ⟨rfl, rfl, h03, rfl⟩, ext ++ x1 ++ x2 ++ x3, by simp [List.append_assoc]⟩
              | ok ova => exact ⟨rfl, ⟨rfl, rfl, rfl, rfl⟩, ext ++ x1 ++ x2 ++ x3, by simp [List.append_assoc]⟩
            · have hov : ¬ (a.onValues s0.mem X).calculateOva = true := ho
              rw [if_neg ho, if_neg hov]
              exact ⟨rfl, ⟨rfl, rfl, h03, rfl⟩, ext ++ x1 ++ x2, by simp [List.append_assoc, PyM.ret]⟩

/-! ### What happens to the objects -/

/-- code that leaves object `o` with contents `Y` -/
def KeepsFrame (o : Nat) (Y : LFrame L F V) {α : Type} (m : PyM (PdFitH G L F V K) α) : Prop := ∀ s, s.mem[o]? = some Y → (m s).2.mem[o]? = some Y

section keeps
variable {o : Nat} {Y : LFrame L F V} {α β : Type}

theorem KeepsFrame.seq {m : PyM (PdFitH G L F V K) α} {k : α → PyM (PdFitH G L F V K) β} (h : KeepsFrame o Y m) (hk : ∀ x, KeepsFrame o Y (k x)) :
    KeepsFrame o Y (PyM.seq m k) := by
  intro s hs
  have := h s hs
  unfold PyM.seq
  cases e : m s with
  | mk r s' =>
    rw [e] at this
    cases r with
    | error _ => exact this
    | ok x => exact hk x s' this

theorem KeepsFrame.onCalc {m : PyM (PdMem L F V K) α} (h : ∀ s : PdMem L F V K, s.mem[o]? = some Y → (m s).2.mem[o]? = some Y) :
    KeepsFrame (G := G) o Y (PdFitH.onCalc m) := by
  intro s hs
  unfold PdFitH.onCalc
  cases s.pdc with
  | none => exact hs
  | some p => exact h ⟨s.mem, p.2.2, p.2.1⟩ hs

theorem keep_of_grows {m : PyM (PdMem L F V K) α} (h : GrowsC m) (s : PdMem L F V K) (hs : s.mem[o]? = some Y) : (m s).2.mem[o]? = some Y :=
  getElem?_grown (h s) hs

/-- asking about `X_sampled` changes at most that object, and not even that one if the prediction function changes nothing -/
theorem keep_ova {touch : Frame F V → Frame F V} {xs : Nat} (hor : o ≠ xs ∨ ∀ Z, touch Z = Z) (sort : List (FeatRow F K) → List (FeatRow F K))
    (predict : PF F V (Num K)) (nrm : Bool) (fs : List F) (s : PdMem L F V K) (hs : s.mem[o]? = some Y) :
    (PdMem.hstatOva touch xs sort predict nrm fs s).2.mem[o]? = some Y := by
  unfold PdMem.hstatOva
  rw [PyM.seq]
  have h1 := keep_of_grows (grows_minus (touch := touch) (some fs)) s hs
  cases e : PdMem.calculateMinus touch (some fs) s with
  | mk r s1 =>
    rw [e] at h1
    cases r with
    | error _ => exact h1
    | ok _ =>
      simp only at h1 ⊢
      have h2 : (PdMem.askAbout touch xs predict s1).2.mem[o]? = some Y := by
        unfold PdMem.askAbout
        cases hx : s1.mem[xs]? with
        | none => exact h1
        | some Z =>
          simp only
          rcases hor with h | h
          · rw [List.getElem?_set_ne (fun e => h e.symm)]; exact h1
          · rw [h, list_set_same hx]; exact h1
      rw [PyM.seq]
      cases e2 : PdMem.askAbout touch xs predict s1 with
      | mk r2 s2 =>
        rw [e2] at h2
        cases r2 with
        | error _ => exact h2
        | ok preds => exact keep_of_grows (grows_frameOf fun X => .same fun _ => rfl) s2 h2

theorem fit_keeps (s0 : PdFitH G L F V K) (hor : (kind = .greenwell ∨ a.calculateOva = false ∨ ∀ Z, a.touch Z = Z) ∨ o ≠ a.r ∨ a.n ≠ none)
    (ho : s0.mem[o]? = some Y) : (PdFitH.fit kind E a s0).2.mem[o]? = some Y := by
  have hlo : o < s0.mem.length := (List.getElem?_eq_some_iff.1 ho).1
  unfold PdFitH.fit
  cases hX : s0.mem[a.r]? with
  | none => exact ho
  | some X =>
    simp only
    rcases hs : sampleIfNotNone E.R X a.n s0.rng with ⟨res, g⟩
    cases res with
    | error e => exact ho
    | ok Xs =>
      obtain ⟨x, ext, hx, hset, hn1, hn2⟩ := pdSample_ok (X := X) { s0 with rng := g } hX hs
      simp only at hx hn1 hn2
      simp only [hset]
      have hne : (kind = .greenwell ∨ a.calculateOva = false ∨ ∀ Z, a.touch Z = Z) ∨ o ≠ x := by
        rcases hor with h | h | h
        · exact .inl h
        · by_cases hn : a.n = none
          · rw [hn1 hn]; exact .inr h
          · rw [hn2 hn]; exact .inr (by omega)
        · rw [hn2 h]; exact .inr (by omega)
      refine KeepsFrame.seq ?_ (fun _ => ?_) _ (getElem?_grown ⟨ext, rfl⟩ ho)
      · intro s h
        unfold PdFitH.chooseCalc
        cases a.pdCalculator with
        | none => exact h
        | some co =>
          simp only
          by_cases h1 : co.modelId ≠ a.model.ident
          · rw [if_pos h1]; exact h
          · rw [if_neg h1]
            cases s.mem[co.xr]? with
            | none => exact h
            | some Z =>
              simp only
              by_cases h2 : (!(LFrame.equals Z Xs)) = true
              · rw [if_pos h2]; exact h
              · rw [if_neg h2]; exact h
      · refine KeepsFrame.seq (KeepsFrame.onCalc (keep_of_grows (grows_ovo kind E _ _))) fun ovo => ?_
        refine KeepsFrame.seq (fun _ h => h) fun _ => ?_
        refine KeepsFrame.seq (KeepsFrame.onCalc (keep_of_grows (grows_importance _ _ _))) fun imp => ?_
        refine KeepsFrame.seq (fun _ h => h) fun _ => ?_
        cases kind with
        | greenwell => exact fun _ h => h
        | friedman nrm =>
          simp only
          by_cases hov : a.calculateOva = true
          · rw [if_pos hov]
            refine KeepsFrame.seq (KeepsFrame.onCalc (keep_ova ?_ _ _ _ _)) fun ova => fun _ h => h
            rcases hne with (h | h | h) | h
            · cases h
            · rw [h] at hov; cases hov
            · exact .inr h
            · exact .inl h
          · rw [if_neg hov]; exact fun _ h => h

end keeps

/-- C133: fitting the Greenwell method, or the H-statistic without its one-vs-all part, changes no data frame that existed before — whatever the
prediction function does to the frames it is given, whatever calculator is supplied and however the fit ends. The H-statistic with its
one-vs-all part does not either, if the prediction function changes nothing. (Full statement: without that condition; false, `C133_fails`.) -/
theorem C133_untouched_partial (s0 : PdFitH G L F V K) (hq : kind = .greenwell ∨ a.calculateOva = false ∨ ∀ Y, a.touch Y = Y) :
    Untouched s0.mem (PdFitH.fit kind E a s0).2.mem := fun o x ho => fit_keeps s0 (.inl hq) ho

/-- C133: with any prediction function, at most the caller's frame is changed, and with `n` not even that one. -/
theorem C133_any_prediction_function (s0 : PdFitH G L F V K) :
    UntouchedBut a.r s0.mem (PdFitH.fit kind E a s0).2.mem ∧ (a.n ≠ none → Untouched s0.mem (PdFitH.fit kind E a s0).2.mem) :=
  ⟨fun o x hne ho => fit_keeps s0 (.inr (.inl hne)) ho, fun hn o x ho => fit_keeps s0 (.inr (.inr hn)) ho⟩

/-- C133: in the same cases the outcome and the tables are those of the computation on values, so what the prediction function does to the frames
it is given does not show. -/
theorem C133_same_results_partial (rng : G) (mem : List (LFrame L F V)) (hX : mem[a.r]? = some X) (hsup : SuppliedHeld a mem)
    (hq : kind = .greenwell ∨ a.calculateOva = false ∨ ∀ Y, a.touch Y = Y) :
    (PdFitH.fit kind E a ⟨mem, rng, none, none, none, none, none⟩).1 = (PdpMethod.fit kind E (a.onValues mem X) (PdpMethod.new rng)).1 ∧
    SameTables (PdFitH.fit kind E a ⟨mem, rng, none, none, none, none, none⟩).2 (PdpMethod.fit kind E (a.onValues mem X) (PdpMethod.new rng)).2 :=
  have h := pd_heap_refines (kind := kind) (E := E) ⟨mem, rng, none, none, none, none, none⟩ (PdpMethod.new rng) hX hsup hq ⟨rfl, rfl, rfl, rfl⟩
  ⟨h.1, h.2.1⟩

section Cases
open Ex

/-- a prediction function that clips column 0 in place: `d["a"] = d["a"].clip(upper=0)` -/
def clip0 (Y : Frame (Fin 3) ℤ) : Frame (Fin 3) ℤ := { Y with rows := Y.rows.map fun r f => if f = 0 then min (r 0) 0 else r f }

/-- one that drops column 2 in place -/
def drop2 (Y : Frame (Fin 3) ℤ) : Frame (Fin 3) ℤ := { Y with cols := Y.cols.filter (· ≠ 2) }

/-- the caller's frame is object 0 -/
def exArgsH (touch : Frame (Fin 3) ℤ → Frame (Fin 3) ℤ) (ova : Bool) (n : Option Nat) : PdArgsH Nat (Fin 3) ℤ ℚ :=
  ⟨exModel, touch, 0, n, none, none, 7, none, ova⟩

/-- a fit of the H-statistic on the example data -/
def exFitH (touch : Frame (Fin 3) ℤ → Frame (Fin 3) ℤ) (ova : Bool) (n : Option Nat) : Except Err Unit × PdFitH Nat Nat (Fin 3) ℤ ℚ :=
  PdFitH.fit (.friedman true) exEnv (exArgsH touch ova n) ⟨[exLX], 0, none, none, none, none, none⟩

/-- C133: the full statement is false. The one-vs-all part of the H-statistic hands `X_sampled` itself to the prediction function
(`_friedman_h_statistic.py:194`) and without `n` that is the caller's frame. A prediction function that clips a column in place changes the
caller's data — column 0 was 0, 0, 1, 1 and is 0, 0, 0, 0 afterwards — and since the column is read again after the call (`:197`), the one-vs-all
table is not that of the data the caller passed, and nothing is reported. With one that drops a column in place `fit` raises. The one-vs-one table
and the importances do not show it, and with `n` the caller's frame is safe but the table is still wrong. -/
theorem C133_fails :
    (exFitH clip0 true none).1 = .ok () ∧
    ((exFitH clip0 true none).2.mem[0]?.map (·.frame.col 0)) = some [0, 0, 0, 0] ∧ exLX.frame.col 0 = [0, 0, 1, 1] ∧
    (exFitH clip0 true none).2.ova ≠ (exFitH id true none).2.ova ∧
    (exFitH clip0 true none).2.ovo = (exFitH id true none).2.ovo ∧
    (exFitH clip0 true none).2.importance = (exFitH id true none).2.importance ∧
    (exFitH drop2 true none).1 = .error .keyError ∧
    ((exFitH clip0 true (some 4)).2.mem[0]?.map (·.frame.col 0)) = some [0, 0, 1, 1] ∧
    (exFitH clip0 true (some 4)).2.ova ≠ (exFitH id true (some 4)).2.ova := by decide +kernel

/-- without the one-vs-all part the same prediction functions do no harm -/
example : (exFitH clip0 false none).1 = .ok () ∧ ((exFitH clip0 false none).2.mem[0]?.map (·.frame.col 0)) = some [0, 0, 1, 1] ∧
    (exFitH drop2 false none).1 = .ok () ∧ (exFitH clip0 false none).2.ovo = (exFitH id true none).2.ovo := by decide +kernel

/-- the prediction function was given frames of its own, and did change them: the fit left eight more objects -/
example : (exFitH clip0 false none).2.mem.length = 9 := by decide +kernel

/-- a calculator whose frame is object 0 can be supplied -/
example : SuppliedHeld { exArgsH clip0 false none with pdCalculator := some ⟨1, 0, Calc.new (callable (getPredictFunction exModel none)) exX 7⟩ } [exLX] := by
  intro co h; cases h; rfl

example : ((PdFitH.fit (.friedman true) exEnv { exArgsH clip0 false none with
      pdCalculator := some ⟨1, 0, Calc.new (callable (getPredictFunction exModel none)) exX 7⟩ }
    (⟨[exLX], 0, none, none, none, none, none⟩ : PdFitH Nat Nat (Fin 3) ℤ ℚ)).2.ovo.getD []).length = 3 := by decide +kernel

/-- the Greenwell method with the same prediction function -/
example : (PdFitH.fit .greenwell exEnv (exArgsH clip0 true none) (⟨[exLX], 0, none, none, none, none, none⟩ : PdFitH Nat Nat (Fin 3) ℤ ℚ)).1 = .ok () := by
  decide +kernel

end Cases

end Artemis
