import Verif.Model.Additivity
import Verif.Proofs.HLemmas

/-! # Helper lemmas about the additivity meter -/

set_option linter.unusedSectionVars false
set_option linter.unusedVariables false
set_option linter.unusedSimpArgs false

namespace Artemis
open Spec

section dict
variable {α β : Type} [DecidableEq α]

theorem Dict.set_append_not_mem (pre d : Dict α β) (k : α) (v : β) (h : k ∉ pre.keys) :
    Dict.set (pre ++ d) k v = pre ++ Dict.set d k v := by
  induction pre with
  | nil => rfl
  | cons p pre ih =>
    obtain ⟨a, b⟩ := p
    simp only [Dict.keys, List.map_cons, List.mem_cons, not_or] at h
    simp only [List.cons_append, Dict.set, if_neg (Ne.symm h.1)]
    rw [ih h.2]

theorem Dict.set_not_mem (d : Dict α β) (k : α) (v : β) (h : k ∉ d.keys) : Dict.set d k v = d ++ [(k, v)] := by
  have := Dict.set_append_not_mem d [] k v h
  simpa [Dict.set] using this

theorem Dict.get?_append_not_mem (pre d : Dict α β) (k : α) (h : k ∉ pre.keys) :
    Dict.get? (pre ++ d) k = Dict.get? d k := by
  induction pre with
  | nil => rfl
  | cons p pre ih =>
    obtain ⟨a, b⟩ := p
    simp only [Dict.keys, List.map_cons, List.mem_cons, not_or] at h
    simp only [List.cons_append, Dict.get?, if_neg (Ne.symm h.1)]
    rw [ih h.2]

theorem foldl_set_keys (l : List α) (nd : l.Nodup) (w w0 : α → β) (pre : Dict α β) (hp : ∀ a ∈ l, a ∉ pre.keys) :
    (l.map (fun a => (a, w a))).foldl (fun d e => Dict.set d e.1 e.2) (pre ++ l.map (fun a => (a, w0 a))) =
      pre ++ l.map (fun a => (a, w a)) := by
  induction l generalizing pre with
  | nil => simp
  | cons a l ih =>
    simp only [List.map_cons, List.foldl_cons]
    rw [Dict.set_append_not_mem _ _ _ _ (hp a List.mem_cons_self)]
    simp only [Dict.set, if_true]
    have := ih (List.nodup_cons.1 nd).2 (pre ++ [(a, w a)]) (by
      intro b hb
      simp only [Dict.keys, List.map_append, List.map_cons, List.map_nil, List.mem_append, List.mem_singleton, not_or]
      refine ⟨hp b (List.mem_cons_of_mem _ hb), ?_⟩
      rintro rfl
      exact (List.nodup_cons.1 nd).1 hb)
    simpa using this
end dict

variable {F V K G L : Type} [DecidableEq F] [LinearOrder V] [DecidableEq L] [Field K] [LinearOrder K]
  [IsStrictOrderedRing K]

theorem rowSums_map {ρ α : Type} (rows : List ρ) (l : List α) (w : α → ρ → Num K) :
    rowSums rows.length (l.map (fun a => rows.map (w a))) = rows.map (fun r => Num.sum (l.map (fun a => w a r))) := by
  apply List.ext_getElem
  · simp [rowSums]
  intro i h1 h2
  have hi : i < rows.length := by simpa using h2
  simp only [rowSums, List.getElem_map, List.getElem_range, List.filterMap_map]
  congr 1
  rw [← List.filterMap_eq_map]
  apply List.filterMap_congr
  intro a _
  simp [hi]

variable {g : Row F V → Num K} [HasSqrt K]

/-- first-order part in `Num` -/
def addCol (g : Row F V → Num K) (X : Frame F V) (f : F) (r : Row F V) : Num K :=
  Num.sub (Spec.pdSingle g X f (r f)) (Num.mean (X.rows.map g))

/-- the index in terms of brute-force partial dependences -/
def addNum (g : Row F V → Num K) (X : Frame F V) : Num K :=
  Num.sub (.fin 1) (Num.div
    (Num.sum ((Num.subV (X.rows.map g)
      (X.rows.map (fun r => Num.add (Num.sum (X.cols.map (fun f => addCol g X f r))) (Num.mean (X.rows.map g))))).map Num.sq))
    (Num.sum ((Num.center (X.rows.map g)).map Num.sq)))

theorem addFinish_index {cp : F} {X : Frame F V} (nd : X.cols.Nodup) (hcp : cp ∉ X.cols) :
    (addFinish cp X (X.rows.map g) (X.cols.map (fun f => (f, X.rows.map (addCol g X f))))).index = addNum g X := by
  have h1 := foldl_set_keys X.cols nd (fun f => X.rows.map (addCol g X f)) (fun _ => []) [] (by simp [Dict.keys])
  simp only [List.nil_append] at h1
  have hk : cp ∉ Dict.keys (X.cols.map (fun f => (f, X.rows.map (addCol g X f)))) := by
    simpa [Dict.keys, List.map_map, Function.comp_def] using hcp
  unfold addFinish
  simp only [h1]
  rw [Dict.set_not_mem _ _ _ hk]
  simp only [List.dropLast_concat]
  rw [Dict.get?_append_not_mem _ _ _ hk, List.map_map]
  have := rowSums_map X.rows X.cols (addCol g X)
  simp only [Function.comp_def, Frame.len, this, Dict.get?, if_true, Option.getD_some, List.map_map]
  rfl

theorem calcAdditivity_ok {cp : F} {predict : PF F V (Num K)} {X : Frame F V} {c c' : Calc F V (Num K)} {out}
    (hg : Good g c) (hsame : SameData c.X X) (hr : ReadsOnly g X.cols) (nd : X.cols.Nodup) (hw : RowWise g predict)
    (h : calcAdditivity cp predict X c = (.ok out, c')) :
    out = addFinish cp X (X.rows.map g) (X.cols.map (fun f => (f, X.rows.map (addCol g X f)))) := by
  have hr' : ReadsOnly g c.X.cols := by rw [hsame.cols]; exact hr
  unfold calcAdditivity at h
  obtain ⟨_, c1, e1, h⟩ := seq_ok h
  have s1 := opStep_single hg none
  have ds := doneS_of_ok hg (features := none) (by rw [e1])
  rw [e1] at s1 ds
  have hX : c1.X = c.X := s1.later.X
  cases ep : predict c1.calls.length X.rows with
  | error e => simp only [ep] at h; cases h
  | ok preds =>
    have hpr := hw _ _ _ ep
    subst hpr
    have hm : X.cols.mapM (addColumn X (X.rows.map g) c1) =
        .ok (X.cols.map (fun f => (f, X.rows.map (addCol g X f)))) := by
      refine mapM_ok (fun f hf => ?_)
      have d := getSingle_done (ds f (by simpa [hsame.cols] using hf))
      unfold addColumn
      have hcol : c1.X.col f = X.col f := by rw [hX]; exact hsame.col (by rw [hsame.cols]; exact hf)
      simp only [Frame.colE, if_pos hf, bind, Except.bind]
      rw [← hcol, d]
      simp only [List.map_map, hX]
      congr 2
      have hpd : Spec.pdSingle g c.X f = Spec.pdSingle g X f := by
        funext v; exact hsame.pdSingle hr' f v
      rw [hpd]
      have : (c.X.rows.map (fun r => r f)) = X.rows.map (fun r => r f) := hsame.col (by rw [hsame.cols]; exact hf)
      have e2 := congrArg (List.map (fun v => Num.sub (Spec.pdSingle g X f v) (Num.mean (X.rows.map g)))) this
      rw [List.map_map, List.map_map] at e2
      exact e2
    simp only [ep, hm, List.length_map, Frame.len, if_true] at h
    cases h
    rfl

theorem calcAdditivity_ret {cp : F} {predict : PF F V (Num K)} {X : Frame F V} {c : Calc F V (Num K)}
    (hg : Good g c) (hp : NeverFails c.predict) (hsame : SameData c.X X) (hw : RowWise g predict)
    (hp' : NeverFails predict) : ∃ out c', calcAdditivity cp predict X c = (.ok out, c') := by
  have o1 : (Calc.calculateSingle none c).1 = .ok () := run_ok hg hp (.single none) (fun f hf => by simpa using hf)
  have s1 := opStep_single hg none
  have ds := doneS_of_ok hg (features := none) o1
  unfold calcAdditivity
  cases e1 : Calc.calculateSingle none c with
  | mk r c1 =>
    rw [e1] at o1 s1 ds
    simp only at o1
    subst o1
    have hX : c1.X = c.X := s1.later.X
    obtain ⟨preds, ep⟩ := hp' c1.calls.length X.rows
    have hpr := hw _ _ _ ep
    subst hpr
    have : ∀ f ∈ X.cols, ∃ b, addColumn X (X.rows.map g) c1 f = .ok b := by
      intro f hf
      have d := getSingle_done (ds f (by simpa [hsame.cols] using hf))
      unfold addColumn
      have hcol : c1.X.col f = X.col f := by rw [hX]; exact hsame.col (by rw [hsame.cols]; exact hf)
      simp only [Frame.colE, if_pos hf, bind, Except.bind]
      rw [← hcol, d]
      exact ⟨_, rfl⟩
    obtain ⟨bs, hb, _⟩ := mapM_exists_ok this
    refine ⟨addFinish cp X (X.rows.map g) bs, c1, ?_⟩
    simp only [PyM.seq, e1, ep, hb, List.length_map, Frame.len, if_true]

theorem addMeter_fit_eq {R : Rng G} {cp : F} {a : AddArgs L F V K} {s0 : AddMeter G L F V K} {Xs : LFrame L F V}
    {rng : G} (h1 : sampleIfNotNone R a.X a.n s0.rng = (.ok Xs, rng)) {co : CalcObj L F V K}
    (h2 : PdpMethod.chooseCalc a.toPd Xs a.toPd.pf = .ok co) :
    (AddMeter.fit R cp a s0).1 = ((calcAdditivity cp a.toPd.pf Xs.frame co.obj).1).map AddOut.index := by
  unfold AddMeter.fit
  have : callable (getPredictFunction a.model a.predictFunction) = a.toPd.pf := rfl
  simp only [h1, this, h2]
  cases calcAdditivity cp a.toPd.pf Xs.frame co.obj with
  | mk r c' => cases r <;> rfl

/-! finite models -/

theorem addNum_fin (u : Row F V → K) {X : Frame F V} (hX : X.rows ≠ []) :
    addNum (finM u) X = Num.sub (.fin 1) (Num.div (.fin (sumSq X (fun r => u r - firstOrder u X r)))
      (.fin (sumSq X (centred X u)))) := by
  unfold addNum
  have hm : Num.mean (X.rows.map (finM u)) = .fin (average (X.rows.map u)) := Num.mean_fin X.rows u hX
  have hc : ∀ f r, addCol (finM u) X f r = .fin (pd1 u X f (r f) - average (X.rows.map u)) := by
    intro f r
    simp only [addCol, hm, pdSingle_fin u hX, Num.sub_fin]
  have hs : ∀ r, Num.add (Num.sum (X.cols.map (fun f => addCol (finM u) X f r))) (Num.mean (X.rows.map (finM u))) =
      .fin (firstOrder u X r) := by
    intro r
    simp only [hc]
    rw [Num.sum_fin, hm, Num.add_fin, add_comm]
    rfl
  simp only [hs]
  have e0 : X.rows.map (finM u) = X.rows.map (fun r => .fin (u r)) := rfl
  have e1 : Num.subV (X.rows.map (finM u)) (X.rows.map (fun r => .fin (firstOrder u X r))) =
      X.rows.map (fun r => .fin (u r - firstOrder u X r)) := Num.subV_fin X.rows u (firstOrder u X)
  have e2 : Num.center (X.rows.map (finM u)) = X.rows.map (fun r => .fin (u r - avg (X.rows.map u))) :=
    Num.center_fin X.rows u
  rw [e1, e2, List.map_map, List.map_map]
  have e3 : (Num.sq ∘ fun r => (.fin (u r - firstOrder u X r) : Num K)) =
      fun r => .fin ((u r - firstOrder u X r) * (u r - firstOrder u X r)) := by
    funext r; simp [Num.sq, Num.mul]
  have e4 : (Num.sq ∘ fun r => (.fin (u r - avg (X.rows.map u)) : Num K)) =
      fun r => .fin ((u r - avg (X.rows.map u)) * (u r - avg (X.rows.map u))) := by
    funext r; simp [Num.sq, Num.mul]
  rw [e3, e4, Num.sum_fin, Num.sum_fin]
  rfl

theorem sumSq_centred_pos {u : Row F V → K} {X : Frame F V} {r r' : Row F V} (hr : r ∈ X.rows) (hr' : r' ∈ X.rows)
    (hne : u r ≠ u r') : 0 < sumSq X (centred X u) := by
  have h0 : 0 ≤ sumSq X (centred X u) := sum_sq_nonneg _ _
  refine lt_of_le_of_ne h0 (fun h => hne ?_)
  have := sum_sq_eq_zero X.rows (centred X u) h.symm
  have h1 := this r hr
  have h2 := this r' hr'
  unfold centred at h1 h2
  rw [sub_eq_zero] at h1 h2
  rw [h1, h2]

end Artemis
