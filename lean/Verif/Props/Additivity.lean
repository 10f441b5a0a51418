import Verif.Proofs.AddLemmas
import Verif.Props.HStat

/-!
# Properties C21–C23 (and C15, C16 for the additivity meter)

`cp` is the column name `"centered_prediction"`; the setting is that of `Verif/Props/HStat.lean`, with the arguments
of `AdditivityMeter.fit` read as those of a PD-based method on all columns.
-/

set_option linter.unusedSectionVars false
set_option linter.unusedVariables false
set_option linter.unusedSimpArgs false

namespace Artemis
open Spec

variable {F V K G L : Type} [DecidableEq F] [LinearOrder V] [DecidableEq L] [Field K] [LinearOrder K]
  [IsStrictOrderedRing K] [HasSqrt K]
variable {g : Row F V → Num K} {E : PdEnv G F K} {a : AddArgs L F V K} {s0 s : AddMeter G L F V K} {Xs : LFrame L F V}
  {cp : F} {v : Num K}

/-- `AdditivityMeter.fit` in the setting of `FitSetup`. -/
abbrev AddSetup (g : Row F V → Num K) (E : PdEnv G F K) (a : AddArgs L F V K) (s0 : AddMeter G L F V K)
    (Xs : LFrame L F V) : Prop := FitSetup g E a.toPd (PdpMethod.new s0.rng) Xs

section helpers

theorem addFit_value (hs : AddSetup g E a s0 Xs) (hcp : cp ∉ Xs.frame.cols)
    (h : (AddMeter.fit E.R cp a s0).1 = .ok v) : v = addNum g Xs.frame := by
  cases eX : sampleIfNotNone E.R a.X a.n s0.rng with
  | mk rX rng =>
    have hXs : rX = .ok Xs := by have := hs.sampled; simp only [AddArgs.toPd, PdpMethod.new, eX] at this; exact this
    subst hXs
    cases ec : PdpMethod.chooseCalc a.toPd Xs a.toPd.pf with
    | error e =>
      have hcc : callable (getPredictFunction a.model a.predictFunction) = a.toPd.pf := rfl
      unfold AddMeter.fit at h
      simp only [eX, hcc, ec] at h
      cases h
    | ok co =>
      have ch := chosen_of_ok hs ec
      rw [addMeter_fit_eq eX ec] at h
      cases eo : calcAdditivity cp a.toPd.pf Xs.frame co.obj with
      | mk r c' =>
        rw [eo] at h
        cases r with
        | error e => cases h
        | ok out =>
          have := calcAdditivity_ok ch.good ch.same hs.reads hs.cols_nodup hs.rowWise eo
          simp only [Except.map, Except.ok.injEq] at h
          rw [← h, this, addFinish_index hs.cols_nodup hcp]

theorem addFit_stores (h : AddMeter.fit E.R cp a s0 = (.ok v, s)) : s.index = some v := by
  unfold AddMeter.fit at h
  simp only at h
  split at h
  · cases h
  · split at h
    · cases h
    · split at h
      · cases h
      · cases h; rfl

theorem sum_map_pd1 {hh : F → V → K} {c : K} {u : Row F V → K} {X : Frame F V} (hX : X.rows ≠ []) {l : List F}
    (nd : l.Nodup) (hu : ∀ r, u r = c + (l.map (fun f => hh f (r f))).sum) (r : Row F V) :
    (l.map (fun f => pd1 u X f (r f) - average (X.rows.map u))).sum = u r - average (X.rows.map u) := by
  have key : ∀ f ∈ l, pd1 u X f (r f) - average (X.rows.map u) =
      hh f (r f) - average (X.rows.map (fun r => hh f (r f))) := by
    intro f hf
    have e : ∀ q : Row F V, u (setF q f (r f)) = u q + (hh f (r f) - hh f (q f)) := by
      intro q
      rw [hu, hu]
      have : ∀ m : List F, m.Nodup → (f ∈ m → (m.map (fun k => hh k (setF q f (r f) k))).sum =
            (m.map (fun k => hh k (q k))).sum + (hh f (r f) - hh f (q f))) ∧
          (f ∉ m → (m.map (fun k => hh k (setF q f (r f) k))).sum = (m.map (fun k => hh k (q k))).sum) := by
        intro m hm
        induction m with
        | nil => simp
        | cons b m ih =>
          obtain ⟨hb, hm⟩ := List.nodup_cons.1 hm
          have ih := ih hm
          constructor
          · intro hmem
            simp only [List.map_cons, List.sum_cons]
            by_cases hfb : b = f
            · subst hfb
              rw [ih.2 hb]
              simp only [setF, if_true]
              ring
            · rw [ih.1 (by rcases List.mem_cons.1 hmem with h | h; exact absurd h.symm hfb; exact h)]
              simp only [setF, if_neg hfb]
              ring
          · intro hmem
            simp only [List.mem_cons, not_or] at hmem
            simp only [List.map_cons, List.sum_cons]
            rw [ih.2 hmem.2]
            simp only [setF, if_neg (Ne.symm hmem.1)]
      rw [(this l nd).1 hf]
      ring
    unfold pd1
    simp only [e]
    rw [average_eq, avg_add X.rows u, avg_sub X.rows (fun _ => hh f (r f)), avg_const X.rows hX]
    simp only [average_eq]
    ring
  have h1 : (l.map (fun f => pd1 u X f (r f) - average (X.rows.map u))).sum =
      (l.map (fun f => hh f (r f) - average (X.rows.map (fun r => hh f (r f))))).sum := by
    congr 1
    exact List.map_congr_left key
  rw [h1, list_sum_sub]
  have h2 : average (X.rows.map u) = c + (l.map (fun f => average (X.rows.map (fun r => hh f (r f))))).sum := by
    have : X.rows.map u = X.rows.map (fun r => c + (l.map (fun f => hh f (r f))).sum) :=
      List.map_congr_left (fun r _ => hu r)
    rw [this, average_eq, avg_add X.rows (fun _ => c), avg_const X.rows hX]
    congr 1
    clear hu h1 key nd this
    induction l with
    | nil => simp [avg]
    | cons f l ih =>
      simp only [List.map_cons, List.sum_cons]
      rw [avg_add X.rows (fun r => hh f (r f)), ih]
      rfl
  rw [h2, hu r]
  ring

end helpers

/-! ## C21 -/

/-- **C21.** With finite predictions that are not all equal on the data (and no column called "centered_prediction"),
a returning `fit` gives the explained share of the variance; it is at most 1, and it is 1 exactly if every prediction
is the mean plus the sum of the centred single effects. -/
theorem C21_index_at_most_one_iff_first_order {u : Row F V → K} (hs : AddSetup (finM u) E a s0 Xs)
    (hcp : cp ∉ Xs.frame.cols) (hnc : ∃ r ∈ Xs.frame.rows, ∃ r' ∈ Xs.frame.rows, u r ≠ u r')
    (hret : AddMeter.fit E.R cp a s0 = (.ok v, s)) :
    ∃ k : K, v = .fin k ∧ s.index = some (.fin k) ∧ k = additivity u Xs.frame ∧ k ≤ 1 ∧
      (k = 1 ↔ ∀ r ∈ Xs.frame.rows, u r = average (Xs.frame.rows.map u) +
        (Xs.frame.cols.map (fun f => pd1 u Xs.frame f (r f) - average (Xs.frame.rows.map u))).sum) := by
  obtain ⟨r, hr, r', hr', hne⟩ := hnc
  have hX : Xs.frame.rows ≠ [] := List.ne_nil_of_mem hr
  have hpos := sumSq_centred_pos hr hr' hne
  have hv := addFit_value hs hcp (by rw [hret])
  rw [addNum_fin u hX, Num.div_fin _ _ hpos.ne', Num.sub_fin] at hv
  have hst := addFit_stores hret
  refine ⟨_, hv, by rw [hst, hv], rfl, ?_, ?_⟩
  · have : 0 ≤ sumSq Xs.frame (fun r => u r - firstOrder u Xs.frame r) / sumSq Xs.frame (centred Xs.frame u) :=
      div_nonneg (sum_sq_nonneg _ _) hpos.le
    linarith
  · constructor
    · intro h r hr
      have h0 : sumSq Xs.frame (fun r => u r - firstOrder u Xs.frame r) = 0 := by
        have : sumSq Xs.frame (fun r => u r - firstOrder u Xs.frame r) / sumSq Xs.frame (centred Xs.frame u) = 0 := by
          linarith
        rcases div_eq_zero_iff.1 this with h | h
        · exact h
        · exact absurd h hpos.ne'
      exact sub_eq_zero.1 (sum_sq_eq_zero Xs.frame.rows (fun r => u r - firstOrder u Xs.frame r) h0 r hr)
    · intro h
      have h0 : sumSq Xs.frame (fun r => u r - firstOrder u Xs.frame r) = 0 := by
        unfold sumSq
        have : Xs.frame.rows.map (fun r => (u r - firstOrder u Xs.frame r) * (u r - firstOrder u Xs.frame r)) =
            Xs.frame.rows.map (fun _ => (0 : K)) := by
          apply List.map_congr_left
          intro r hr
          have e : u r - firstOrder u Xs.frame r = 0 := sub_eq_zero.2 (h r hr)
          rw [e, mul_zero]
        rw [this]
        simp
      rw [h0]
      simp

/-! ## C22 -/

/-- **C22.** A model that is a constant plus a sum of functions of single columns has index exactly 1 (if its
predictions are not all equal on the data). -/
theorem C22_additive_model_has_index_one {u : Row F V → K} {hh : F → V → K} {c : K}
    (hu : ∀ r, u r = c + (Xs.frame.cols.map (fun f => hh f (r f))).sum) (hs : AddSetup (finM u) E a s0 Xs)
    (hcp : cp ∉ Xs.frame.cols) (hnc : ∃ r ∈ Xs.frame.rows, ∃ r' ∈ Xs.frame.rows, u r ≠ u r')
    (hret : AddMeter.fit E.R cp a s0 = (.ok v, s)) : v = .fin 1 ∧ s.index = some (.fin 1) := by
  obtain ⟨k, h1, h2, _, _, h3⟩ := C21_index_at_most_one_iff_first_order hs hcp hnc hret
  have hX : Xs.frame.rows ≠ [] := by obtain ⟨r, hr, _⟩ := hnc; exact List.ne_nil_of_mem hr
  have : k = 1 := h3.2 (fun r hr => by rw [sum_map_pd1 hX hs.cols_nodup hu r]; ring)
  rw [h1, h2, this]
  exact ⟨rfl, rfl⟩

/-- `fit` does return when scoring does not fail and a supplied calculator matches. -/
theorem C22_fit_returns (hs : AddSetup g E a s0 Xs) {co : CalcObj L F V K}
    (hc : PdpMethod.chooseCalc a.toPd Xs a.toPd.pf = .ok co) (hp : NeverFails a.toPd.pf)
    (hpc : NeverFails co.obj.predict) : ∃ v s, AddMeter.fit E.R cp a s0 = (.ok v, s) := by
  have ch := chosen_of_ok hs hc
  cases eX : sampleIfNotNone E.R a.X a.n s0.rng with
  | mk rX rng =>
    have hXs : rX = .ok Xs := by have := hs.sampled; simp only [AddArgs.toPd, PdpMethod.new, eX] at this; exact this
    subst hXs
    obtain ⟨out, c', ho⟩ := calcAdditivity_ret (cp := cp) ch.good hpc ch.same hs.rowWise hp
    have := addMeter_fit_eq (cp := cp) eX hc
    rw [ho] at this
    exact ⟨out.index, _, Prod.ext this rfl⟩

/-! ## C15 and C16 for the additivity meter -/

/-- **C15.** A supplied calculator does not change the index. -/
theorem C15_additivity_same_with_reused_calculator {a' : AddArgs L F V K} {s0' : AddMeter G L F V K} {v' : Num K}
    (hs : AddSetup g E a s0 Xs) (hs' : AddSetup g E a' s0' Xs) (hcp : cp ∉ Xs.frame.cols)
    (hret : (AddMeter.fit E.R cp a s0).1 = .ok v) (hret' : (AddMeter.fit E.R cp a' s0').1 = .ok v') : v' = v := by
  rw [addFit_value hs hcp hret, addFit_value hs' hcp hret']

/-- **C16.** A calculator for another model object or other data is rejected and the index is left alone. -/
theorem C16_additivity_rejects_mismatched_calculator {co : CalcObj L F V K} (hco : a.pdCalculator = some co)
    (hsm : (sampleIfNotNone E.R a.X a.n s0.rng).1 = .ok Xs)
    (hbad : co.modelId ≠ a.model.ident ∨ co.labels ≠ Xs.labels ∨ ¬ SameData co.obj.X Xs.frame) :
    (AddMeter.fit E.R cp a s0).1 = .error .valueError ∧ (AddMeter.fit E.R cp a s0).2.index = s0.index := by
  have hc : ∀ pf, PdpMethod.chooseCalc a.toPd Xs pf = .error .valueError := by
    intro pf
    simp only [PdpMethod.chooseCalc, AddArgs.toPd, hco]
    by_cases hm : co.modelId = a.model.ident
    · have e : LFrame.equals ⟨co.labels, co.obj.X⟩ Xs = false := by
        rcases hbad with h | h
        · exact absurd hm h
        · by_contra h'
          have := sameData_of_equals (A := ⟨co.labels, co.obj.X⟩) (B := Xs) (by simpa using h')
          rcases h with h | h
          · exact h this.1
          · exact h this.2
      simp [hm, e]
    · simp [hm]
  cases e : sampleIfNotNone E.R a.X a.n s0.rng with
  | mk r rng =>
    rw [e] at hsm
    simp only at hsm
    subst hsm
    simp [AddMeter.fit, e, hc]

/-! ## C23 -/

/-- **C23**, what holds: never above 1 (finite, not all equal predictions). Missing: the lower bound 0 and the case of
constant predictions, both refuted below. -/
theorem C23_range_partial {u : Row F V → K} (hs : AddSetup (finM u) E a s0 Xs) (hcp : cp ∉ Xs.frame.cols)
    (hnc : ∃ r ∈ Xs.frame.rows, ∃ r' ∈ Xs.frame.rows, u r ≠ u r')
    (hret : AddMeter.fit E.R cp a s0 = (.ok v, s)) : Num.le v (.fin 1) = true := by
  obtain ⟨k, h1, _, _, h2, _⟩ := C21_index_at_most_one_iff_first_order hs hcp hnc hret
  rw [h1]
  simpa [Num.le] using h2

/-- **C23**, constant predictions: if all predictions on the (non-empty) data are equal, the index is NaN when the single effects
vanish in sum on every row, and minus infinity otherwise. -/
theorem C23_constant_predictions {u : Row F V → K} (hs : AddSetup (finM u) E a s0 Xs) (hcp : cp ∉ Xs.frame.cols) (hX : Xs.frame.rows ≠ [])
    {k : K} (hk : ∀ r ∈ Xs.frame.rows, u r = k) (hret : AddMeter.fit E.R cp a s0 = (.ok v, s)) :
    ((∀ r ∈ Xs.frame.rows, (Xs.frame.cols.map (fun f => pd1 u Xs.frame f (r f) - k)).sum = 0) → v = .nan) ∧
    ((∃ r ∈ Xs.frame.rows, (Xs.frame.cols.map (fun f => pd1 u Xs.frame f (r f) - k)).sum ≠ 0) → v = .ninf) := by
  have hv : v = _ := addFit_value hs hcp (by rw [hret])
  have hav : average (Xs.frame.rows.map u) = k := by
    have e : Xs.frame.rows.map u = List.replicate Xs.frame.rows.length k := by
      rw [List.eq_replicate_iff]
      refine ⟨by simp, ?_⟩
      intro b hb
      obtain ⟨r, hr, rfl⟩ := List.mem_map.1 hb
      exact hk r hr
    have hl : (Xs.frame.rows.length : K) ≠ 0 := by
      exact_mod_cast (List.length_pos_iff.2 hX).ne'
    rw [e, average]
    simp only [List.sum_replicate, nsmul_eq_mul, List.length_replicate]
    field_simp
  have hden : sumSq Xs.frame (centred Xs.frame u) = 0 := by
    unfold sumSq
    apply List.sum_eq_zero
    intro x hx
    obtain ⟨r, hr, rfl⟩ := List.mem_map.1 hx
    simp [centred, hav, hk r hr]
  have hfo : ∀ r ∈ Xs.frame.rows, u r - firstOrder u Xs.frame r = -(Xs.frame.cols.map (fun f => pd1 u Xs.frame f (r f) - k)).sum := by
    intro r hr
    rw [firstOrder, hav, hk r hr]
    ring
  rw [addNum_fin u hX, hden] at hv
  constructor
  · intro h0
    have : sumSq Xs.frame (fun r => u r - firstOrder u Xs.frame r) = 0 := by
      unfold sumSq
      apply List.sum_eq_zero
      intro x hx
      obtain ⟨r, hr, rfl⟩ := List.mem_map.1 hx
      simp [hfo r hr, h0 r hr]
    rw [hv, this]
    simp [Num.div, Num.infSign, Num.sub, Num.neg, Num.add]
  · rintro ⟨r, hr, hne⟩
    have hpos : 0 < sumSq Xs.frame (fun r => u r - firstOrder u Xs.frame r) := by
      refine lt_of_le_of_ne (sum_sq_nonneg _ _) (fun h => hne ?_)
      have := sum_sq_eq_zero Xs.frame.rows (fun r => u r - firstOrder u Xs.frame r) h.symm r hr
      rw [hfo r hr] at this
      exact neg_eq_zero.1 this
    rw [hv]
    simp [Num.div, Num.infSign, Num.sub, Num.neg, Num.add, hpos, hpos.ne', hpos.not_gt]

section Cases
open Ex

/-- the arguments of the examples: no column is called like `cp = 3` -/
def exAdd {K : Type} [Field K] (rows : List (Row (Fin 4) ℤ)) (u : Row (Fin 4) ℤ → K) (cols : List (Fin 4)) :
    AddArgs Nat (Fin 4) ℤ K where
  model := ⟨1, some (fun _ rs => .ok (rs.map (fun r => .fin (u r)))), none⟩
  X := ⟨List.range rows.length, ⟨cols, rows⟩⟩
  n := none
  predictFunction := none
  batchsize := 3
  pdCalculator := none

/-- three identical 0/1 columns -/
def exSame : List (Row (Fin 4) ℤ) := [fun _ => 0, fun _ => 1]

/-- additive model, index 1 -/
example : (AddMeter.fit exRng 3 (exAdd (K := ℚ) exSame (fun r => (r 0 : ℚ) ^ 2 + 3 * r 1) [0, 1, 2])
    (AddMeter.new 0)).1 = .ok (.fin 1) := by decide +kernel

/-- **C23 is false**: a finite model with a negative index … -/
theorem C23_index_can_be_negative :
    (AddMeter.fit exRng 3 (exAdd (K := ℚ) exSame (fun r => (r 0 : ℚ) * r 1 * r 2) [0, 1, 2])
      (AddMeter.new (G := Nat) (L := Nat) 0)).1 = .ok (.fin (-3/2)) := by decide +kernel

/-- … and a constant model whose index is NaN. -/
theorem C23_index_can_be_nan :
    (AddMeter.fit exRng 3 (exAdd (K := ℚ) exSame (fun _ => 5) [0, 1, 2])
      (AddMeter.new (G := Nat) (L := Nat) 0)).1 = .ok .nan := by decide +kernel

/-- … and a model that predicts the same on all rows of the data, but not on mixtures of them, whose index is minus infinity. -/
theorem C23_index_can_be_infinite :
    (AddMeter.fit exRng 3 (exAdd (K := ℚ) exSame (fun r => ((r 0 : ℚ) - r 1) ^ 2) [0, 1, 2])
      (AddMeter.new (G := Nat) (L := Nat) 0)).1 = .ok .ninf := by decide +kernel

/-- The hypothesis on the column name in C22 is needed: with a column called "centered_prediction" (here: 2) an additive
model does not get 1. -/
theorem C22_needs_free_column_name :
    (AddMeter.fit exRng 2 (exAdd (K := ℚ) exSame (fun r => (r 0 : ℚ) ^ 2 + 3 * r 2) [0, 1, 2])
      (AddMeter.new (G := Nat) (L := Nat) 0)).1 ≠ .ok (.fin 1) := by decide +kernel

theorem exAddSetup {K : Type} [Field K] [LinearOrder K] [IsStrictOrderedRing K] [HasSqrt K]
    (E : PdEnv Nat (Fin 4) K) (u : Row (Fin 4) ℤ → K) (hu : ReadsOnly (finM u) [0, 1, 2]) :
    AddSetup (finM u) E (exAdd exSame u [0, 1, 2]) (AddMeter.new 0) ⟨[0, 1], ⟨[0, 1, 2], exSame⟩⟩ where
  sampled := rfl
  rowWise := by intro n rows ys h; cases h; rfl
  reads := hu
  cols_nodup := by decide
  history := by intro co h; cases h

/-- an additive model -/
noncomputable def exAddU (r : Row (Fin 4) ℤ) : ℝ := (r 0 : ℝ) ^ 2 + 3 * r 1

/-- C21/C22: the hypotheses hold for an additive model in any ordered field with a square root, e.g. ℝ -/
example (E : PdEnv Nat (Fin 4) ℝ) :
    ∃ s, AddMeter.fit E.R 3 (exAdd exSame exAddU [0, 1, 2])
      (AddMeter.new (G := Nat) (L := Nat) 0) = (.ok (.fin 1), s) := by
  have hs := exAddSetup E exAddU (by
    intro r r' h; simp only [finM, exAddU, h 0 (by decide), h 1 (by decide)])
  have hp : NeverFails (exAdd exSame exAddU [0, 1, 2]).toPd.pf := fun n rows => ⟨_, rfl⟩
  have hc : PdpMethod.chooseCalc (exAdd exSame exAddU [0, 1, 2]).toPd
      ⟨[0, 1], ⟨[0, 1, 2], exSame⟩⟩ (exAdd exSame exAddU [0, 1, 2]).toPd.pf = .ok
      ⟨1, [0, 1], Calc.new (exAdd exSame exAddU [0, 1, 2]).toPd.pf ⟨[0, 1, 2], exSame⟩ 3⟩ := by
    simp only [PdpMethod.chooseCalc, AddArgs.toPd, exAdd]
  obtain ⟨v, s, h⟩ := C22_fit_returns (cp := 3) hs hc hp hp
  have hu : ∀ r : Row (Fin 4) ℤ, exAddU r = 0 + (([0, 1, 2] : List (Fin 4)).map (fun f =>
      (fun (f : Fin 4) (x : ℤ) => if f = 0 then (x : ℝ) ^ 2 else if f = 1 then 3 * x else 0) f (r f))).sum := by
    intro r; simp [exAddU]
  have hnc : ∃ r ∈ exSame, ∃ r' ∈ exSame, exAddU r ≠ exAddU r' :=
    ⟨fun _ => 0, by simp [exSame], fun _ => 1, by simp [exSame], by norm_num [exAddU]⟩
  have := (C22_additive_model_has_index_one (u := exAddU) (c := 0)
    (hh := fun (f : Fin 4) (x : ℤ) => if f = 0 then (x : ℝ) ^ 2 else if f = 1 then 3 * x else 0) hu hs (by decide) hnc h).1
  rw [this] at h
  exact ⟨s, h⟩

end Cases
end Artemis
