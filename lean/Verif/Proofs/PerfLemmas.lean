import Verif.Spec.Perf
import Verif.Proofs.NumLemmas
import Verif.Proofs.PDFit
import Verif.Proofs.FitSpec
import Mathlib.Tactic.Ring
import Mathlib.Tactic.Linarith

/-! # Helper lemmas about permuting and scoring -/

set_option linter.unusedSectionVars false
set_option linter.unusedVariables false
set_option linter.unusedSimpArgs false

namespace Artemis
open Spec

section PyMLemmas
variable {σ α β : Type*}

theorem seq_of_ok {m : PyM σ α} {k : α → PyM σ β} {s s' : σ} {a : α} (h : m s = (.ok a, s')) :
    PyM.seq m k s = k a s' := by simp [PyM.seq, h]

theorem mapList_eq {l : List β} {body : β → PyM σ α} {σs : Nat → σ} {out : Nat → β → α}
    (h : ∀ i (hi : i < l.length), body l[i] (σs i) = (.ok (out i l[i]), σs (i + 1))) :
    PyM.mapList l body (σs 0) = (.ok (l.mapIdx out), σs l.length) := by
  induction l generalizing σs out with
  | nil => rfl
  | cons b l ih =>
    have h0 := h 0 (by simp)
    simp only [List.getElem_cons_zero] at h0
    have ih' := ih (σs := fun i => σs (i + 1)) (out := fun i => out (i + 1)) (fun i hi => by
      have := h (i + 1) (by simpa using hi)
      simpa using this)
    simp only [PyM.mapList]
    rw [seq_of_ok h0, seq_of_ok ih']
    simp [PyM.ret, List.mapIdx_cons]

theorem times_eq {n : Nat} {body : PyM σ α} {σs : Nat → σ} {out : Nat → α}
    (h : ∀ i, i < n → body (σs i) = (.ok (out i), σs (i + 1))) :
    PyM.times n body (σs 0) = (.ok ((List.range n).map out), σs n) := by
  have := mapList_eq (l := List.range n) (body := fun _ => body) (σs := σs) (out := fun i _ => out i)
    (fun i hi => h i (by simpa using hi))
  rw [PyM.times, this]
  have e : (List.range n).mapIdx (fun i _ => out i) = (List.range n).map out := by
    apply List.ext_getElem <;> simp
  rw [e]; simp

theorem fold_eq {l : List β} {body : α → β → PyM σ α} {σs : Nat → σ} {acc : Nat → α}
    (h : ∀ i (hi : i < l.length), body (acc i) l[i] (σs i) = (.ok (acc (i + 1)), σs (i + 1))) :
    PyM.fold l body (acc 0) (σs 0) = (.ok (acc l.length), σs l.length) := by
  induction l generalizing σs acc with
  | nil => rfl
  | cons b l ih =>
    have h0 := h 0 (by simp)
    simp only [List.getElem_cons_zero] at h0
    have ih' := ih (σs := fun i => σs (i + 1)) (acc := fun i => acc (i + 1)) (fun i hi => by
      have := h (i + 1) (by simpa using hi)
      simpa using this)
    simp only [PyM.fold]
    rw [seq_of_ok h0, ih']
    simp

end PyMLemmas

section Permuting
variable {F V : Type} [DecidableEq F]

theorem length_permuted (X : Frame F V) (fs : List F) (p : List Nat) : (permuted X fs p).length = X.rows.length := by
  simp [permuted]

theorem permuted_nil (X : Frame F V) (p : List Nat) : permuted X [] p = X.rows := by
  apply List.ext_getElem <;> simp [permuted]

/-- positions valid for `X` -/
def ValidPos (X : Frame F V) (p : List Nat) : Prop := p.length = X.rows.length ∧ ∀ i ∈ p, i < X.rows.length

theorem validPos_of_perm {X : Frame F V} {p : List Nat} (h : p.Perm (List.range X.rows.length)) : ValidPos X p :=
  ⟨by simpa using h.length_eq, fun i hi => by simpa using h.mem_iff.1 hi⟩

theorem permuted_get? (X : Frame F V) (fs : List F) (p : List Nat) (i : Nat) :
    (permuted X fs p)[i]? =
      (X.rows[i]?).map (fun r f => if f ∈ fs then ((p[i]?.bind (X.rows[·]?)).getD r) f else r f) := by
  simp [permuted, List.getElem?_mapIdx]

theorem npTake_ok {α : Type*} {v : List α} {p : List Nat} (h : ∀ i ∈ p, i < v.length) :
    ∃ vs, npTake v p = .ok vs ∧ vs.length = p.length ∧ ∀ i : Nat, vs[i]? = p[i]?.bind (fun j => v[j]?) := by
  induction p with
  | nil => exact ⟨[], rfl, rfl, fun i => by simp⟩
  | cons a p ih =>
    obtain ⟨vs, h1, hl, h2⟩ := ih (fun i hi => h i (List.mem_cons_of_mem _ hi))
    have ha : a < v.length := h a (by simp)
    refine ⟨v[a] :: vs, ?_, by simp [hl], ?_⟩
    · unfold npTake at h1 ⊢
      rw [mapM_cons_except, h1]
      simp [ha]
    · intro i
      cases i with
      | zero => simp [ha]
      | succ i => simpa using h2 i

theorem setCol_permuted {X Y : Frame F V} {done : List F} {p : List Nat} (h : ValidPos X p)
    (hY : Y.rows = permuted X done p) (hc : Y.cols = X.cols) {f : F} (hf : f ∈ X.cols) (hd : f ∉ done) :
    ∃ v v', Y.colE f = .ok v ∧ v.length = X.rows.length ∧ npTake v p = .ok v' ∧
      Y.setCol f v' = .ok ⟨X.cols, permuted X (done ++ [f]) p⟩ := by
  have hlen : Y.rows.length = X.rows.length := by rw [hY, length_permuted]
  refine ⟨Y.col f, ?_⟩
  obtain ⟨v', h1, hl, h2⟩ := npTake_ok (v := Y.col f) (p := p) (by
    intro i hi; simp only [Frame.col, List.length_map, hlen]; exact h.2 i hi)
  refine ⟨v', by simp [Frame.colE, hc, hf], by simp [Frame.col, hlen], h1, ?_⟩
  have hl' : v'.length = Y.len := by rw [hl, h.1, Frame.len, hlen]
  simp only [Frame.setCol, hl', if_true]
  have : List.zipWith (fun r v => Function.update r f v) Y.rows v' = permuted X (done ++ [f]) p := by
    apply List.ext_getElem?
    intro i
    rw [List.getElem?_zipWith, h2, permuted_get?, hY, permuted_get?]
    by_cases hi : i < X.rows.length
    · have hip : i < p.length := by rw [h.1]; exact hi
      have hpi : p[i] < X.rows.length := h.2 _ (List.getElem_mem hip)
      have hc' : (Y.col f)[p[i]]? = some (X.rows[p[i]] f) := by
        simp only [Frame.col, List.getElem?_map, hY, permuted_get?, List.getElem?_eq_getElem hpi, Option.map_some]
        simp [hd]
      simp only [List.getElem?_eq_getElem hi, List.getElem?_eq_getElem hip, Option.bind_some, hc', Option.map_some,
        List.getElem?_eq_getElem hpi, Option.getD_some]
      congr 1
      funext x
      by_cases hx : x = f
      · subst hx
        simp [Function.update_self]
      · rw [Function.update_of_ne hx]
        simp [hx]
    · simp [List.getElem?_eq_none (Nat.le_of_not_lt hi)]
  rw [this, hc]

theorem permuteCols_aux {X : Frame F V} {p : List Nat} (h : ValidPos X p) (fs done : List F) (Y : Frame F V)
    (hY : Y.rows = permuted X done p) (hc : Y.cols = X.cols) (hfs : ∀ f ∈ fs, f ∈ X.cols) (nd : (done ++ fs).Nodup) :
    permuteCols p fs Y = .ok ⟨X.cols, permuted X (done ++ fs) p⟩ := by
  induction fs generalizing done Y with
  | nil => simp only [permuteCols, List.append_nil]; rw [← hY, ← hc]
  | cons f fs ih =>
    have hd : f ∉ done := by
      intro hm
      rw [List.nodup_append] at nd
      exact nd.2.2 f hm f (by simp) rfl
    obtain ⟨v, v', h1, _, h2, h3⟩ := setCol_permuted h hY hc (hfs f (by simp)) hd
    simp only [permuteCols, h1, h2, h3, bind, Except.bind]
    have := ih (done ++ [f]) ⟨X.cols, permuted X (done ++ [f]) p⟩ rfl rfl
      (fun f hf => hfs f (List.mem_cons_of_mem _ hf)) (by simpa using nd)
    rw [this]
    simp

theorem permuteCols_eq {X : Frame F V} {p : List Nat} (h : ValidPos X p) {fs : List F} (hfs : ∀ f ∈ fs, f ∈ X.cols)
    (nd : fs.Nodup) : permuteCols p fs X = .ok ⟨X.cols, permuted X fs p⟩ := by
  have := permuteCols_aux h fs [] X (permuted_nil X p).symm rfl hfs (by simpa using nd)
  simpa using this

/-- putting the original column back -/
theorem setCol_restore {X : Frame F V} {f : F} {p : List Nat} (hf : f ∈ X.cols) :
    Frame.setCol ⟨X.cols, permuted X [f] p⟩ f (X.col f) = .ok X := by
  have hl : (X.col f).length = (⟨X.cols, permuted X [f] p⟩ : Frame F V).len := by
    simp [Frame.col, Frame.len, length_permuted]
  simp only [Frame.setCol, hl, if_true]
  have : List.zipWith (fun r v => Function.update r f v) (permuted X [f] p) (X.col f) = X.rows := by
    apply List.ext_getElem?
    intro i
    rw [List.getElem?_zipWith, permuted_get?]
    by_cases hi : i < X.rows.length
    · simp only [List.getElem?_eq_getElem hi, Option.map_some, Frame.col, List.getElem?_map]
      congr 1
      funext x
      by_cases hx : x = f
      · subst hx; simp
      · rw [Function.update_of_ne hx]
        simp [hx]
    · simp [List.getElem?_eq_none (Nat.le_of_not_lt hi)]
  rw [this]

theorem filterMap_pos {α β : Type*} (l : List α) (v : α → β) :
    (List.range l.length).filterMap (fun i => (l[i]?).map v) = l.map v := by
  induction l using List.reverseRecOn with
  | nil => simp
  | append_singleton l a ih =>
    rw [List.length_append, List.length_singleton, List.range_succ, List.filterMap_append, List.map_append]
    congr 1
    · rw [← ih]
      apply List.filterMap_congr
      intro i hi
      rw [List.getElem?_append_left (by simpa using hi)]
    · simp

/-- The columns listed are moved together. -/
theorem permuted_moves {X : Frame F V} {fs : List F} {p : List Nat} (h : p.Perm (List.range X.rows.length))
    {α : Type*} (v : Row F V → α) (hv : ∀ r r' : Row F V, (∀ f ∈ fs, r f = r' f) → v r = v r') :
    ((permuted X fs p).map v).Perm (X.rows.map v) := by
  have hp := validPos_of_perm h
  have e1 : (permuted X fs p).map v = p.filterMap (fun i => (X.rows[i]?).map v) := by
    have h3 : p.filterMap (fun i => (X.rows[i]?).map v) = (p.filterMap (fun i => X.rows[i]?)).map v := by
      rw [List.map_filterMap]
    have h4 : ∀ q : List Nat, (∀ i ∈ q, i < X.rows.length) → ∀ j : Nat,
        (q.filterMap (fun i => X.rows[i]?))[j]? = q[j]?.bind (fun k => X.rows[k]?) := by
      intro q hq
      induction q with
      | nil => simp
      | cons a q ih =>
        intro j
        have ha : a < X.rows.length := hq a (by simp)
        rw [List.filterMap_cons]
        simp only [List.getElem?_eq_getElem ha]
        cases j with
        | zero => simp [ha]
        | succ j => simpa using ih (fun i hi => hq i (List.mem_cons_of_mem _ hi)) j
    rw [h3]
    apply List.ext_getElem?
    intro i
    rw [List.getElem?_map, List.getElem?_map, permuted_get?, h4 p hp.2]
    by_cases hi : i < X.rows.length
    · have hip : i < p.length := by rw [hp.1]; exact hi
      have hpi : p[i] < X.rows.length := hp.2 _ (List.getElem_mem hip)
      simp only [List.getElem?_eq_getElem hi, List.getElem?_eq_getElem hip, Option.bind_some, Option.map_some,
        List.getElem?_eq_getElem hpi, Option.getD_some]
      congr 1
      apply hv
      intro f hf
      simp [hf]
    · have hip : p.length ≤ i := by rw [hp.1]; omega
      simp [List.getElem?_eq_none (Nat.le_of_not_lt hi), List.getElem?_eq_none hip]
  rw [e1, ← filterMap_pos X.rows v]
  exact h.filterMap _

/-- the other columns are untouched -/
theorem permuted_keeps {X : Frame F V} {fs : List F} {p : List Nat} :
    List.Forall₂ (fun r r' : Row F V => ∀ h, h ∉ fs → r h = r' h) (permuted X fs p) X.rows := by
  rw [List.forall₂_iff_get]
  refine ⟨length_permuted X fs p, ?_⟩
  intro i h1 h2 f hf
  simp [permuted, hf]

end Permuting

section Scoring
variable {F V K G : Type} [DecidableEq F] [Field K] [LinearOrder K] [IsStrictOrderedRing K]
variable {R : Rng G} {model : ModelObj F V (Num K)} {M : Metric K} {y : List (Num K)} {X : Frame F V}
  {sc : List (Row F V) → K}

theorem scoreOn_eq (hsc : Scores model M y X.rows.length sc) {Y : Frame F V} (hY : Y.rows.length = X.rows.length)
    (s : Scored G F V) :
    scoreOn model M y Y s = (.ok (.fin (sc Y.rows)), ⟨s.rng, s.calls ++ [Y.rows]⟩) := by
  obtain ⟨p, hp, h⟩ := hsc
  obtain ⟨yh, h1, h2⟩ := h s.calls.length Y.rows hY
  simp [scoreOn, PyM.seq, predictOn, hp, h1, h2, PyM.lift]

/-- sign of a metric -/
def sgn (M : Metric K) : K := if M.isClass then -1 else 1

theorem negIfClass_fin (x : K) : negIfClass M (.fin x) = .fin (sgn M * x) := by
  unfold negIfClass sgn; split <;> simp

theorem sgn_mul_sgn : sgn M * sgn M = 1 := by unfold sgn; split <;> simp

theorem abs_sgn : |sgn M| = 1 := by unfold sgn; split <;> simp

theorem perm_nth (hR : R.Lawful) (len : Nat) (g : G) (k : Nat) :
    (nthPerm R len g k).Perm (List.range len) := hR.perm_perm _ _

theorem permuteScore_eq (hR : R.Lawful) (hsc : Scores model M y X.rows.length sc) {fs : List F}
    (hfs : ∀ f ∈ fs, f ∈ X.cols) (nd : fs.Nodup) (ref : K) (g : G) (k : Nat) (c : List (List (Row F V))) :
    permuteScore R model M y X fs (.fin ref) ⟨permAfter R X.rows.length g k, c⟩ =
      (.ok (.fin (sgn M * (sc (permuted X fs (nthPerm R X.rows.length g k)) - ref))),
        ⟨permAfter R X.rows.length g (k + 1), c ++ [permuted X fs (nthPerm R X.rows.length g k)]⟩) := by
  have hp : ValidPos X (nthPerm R X.rows.length g k) := validPos_of_perm (perm_nth hR _ _ _)
  have e1 : drawPerm R X.len (⟨permAfter R X.rows.length g k, c⟩ : Scored G F V) =
      (.ok (nthPerm R X.rows.length g k), ⟨permAfter R X.rows.length g (k + 1), c⟩) := rfl
  unfold permuteScore
  rw [seq_of_ok e1]
  have e2 : (PyM.lift (permuteCols (nthPerm R X.rows.length g k) fs X) :
      PyM (Scored G F V) (Frame F V)) ⟨permAfter R X.rows.length g (k + 1), c⟩ =
      (.ok ⟨X.cols, permuted X fs (nthPerm R X.rows.length g k)⟩, ⟨permAfter R X.rows.length g (k + 1), c⟩) := by
    simp only [PyM.lift, permuteCols_eq hp hfs nd]
  rw [seq_of_ok e2, seq_of_ok (scoreOn_eq hsc (length_permuted X fs _) _)]
  simp [PyM.ret, negIfClass_fin]

theorem interScore_eq (hR : R.Lawful) (hsc : Scores model M y X.rows.length sc) {f1 f2 : F}
    (h1 : f1 ∈ X.cols) (h2 : f2 ∈ X.cols) (hne : f1 ≠ f2) (g : G) (k : Nat) (c : List (List (Row F V))) :
    (PyM.seq (interScore R model M y X f1 f2 (.fin (sc X.rows))) fun v => PyM.ret (Num.abs v))
        ⟨permAfter R X.rows.length g k, c⟩ =
      (.ok (.fin (nonAdditive sc X f1 f2 (nthPerm R X.rows.length g k) (nthPerm R X.rows.length g (k + 1))
        (nthPerm R X.rows.length g (k + 2)))),
        ⟨permAfter R X.rows.length g (k + 3), c ++ [permuted X [f1] (nthPerm R X.rows.length g k),
          permuted X [f2] (nthPerm R X.rows.length g (k + 1)),
          permuted X [f1, f2] (nthPerm R X.rows.length g (k + 2))]⟩) := by
  have e1 := permuteScore_eq hR hsc (fs := [f1]) (by simpa using h1) (by simp) (sc X.rows) g k c
  have e2 := permuteScore_eq hR hsc (fs := [f2]) (by simpa using h2) (by simp) (sc X.rows) g (k + 1)
    (c ++ [permuted X [f1] (nthPerm R X.rows.length g k)])
  have e3 := permuteScore_eq hR hsc (fs := [f1, f2]) (by simp [h1, h2]) (by simp [hne]) (sc X.rows) g (k + 2)
    ((c ++ [permuted X [f1] (nthPerm R X.rows.length g k)]) ++ [permuted X [f2] (nthPerm R X.rows.length g (k + 1))])
  have e : interScore R model M y X f1 f2 (.fin (sc X.rows)) ⟨permAfter R X.rows.length g k, c⟩ = _ :=
    (seq_of_ok e1).trans ((seq_of_ok e2).trans (seq_of_ok e3))
  rw [seq_of_ok e]
  simp only [PyM.ret, Num.sub_fin, negIfClass_fin, Num.abs_fin, List.append_assoc, List.cons_append, List.nil_append]
  congr 3
  unfold nonAdditive
  have : sgn M * (sgn M * (sc (permuted X [f1, f2] (nthPerm R X.rows.length g (k + 2))) - sc X.rows) -
      sgn M * (sc (permuted X [f1] (nthPerm R X.rows.length g k)) - sc X.rows) -
      sgn M * (sc (permuted X [f2] (nthPerm R X.rows.length g (k + 1))) - sc X.rows)) =
      (sgn M * sgn M) * (sc (permuted X [f1, f2] (nthPerm R X.rows.length g (k + 2))) -
      sc (permuted X [f1] (nthPerm R X.rows.length g k)) - sc (permuted X [f2] (nthPerm R X.rows.length g (k + 1))) +
      sc X.rows) := by ring
  rw [this, sgn_mul_sgn, one_mul]

theorem mean_fin_range (n : Nat) (h : 0 < n) (u : Nat → K) :
    Num.mean ((List.range n).map fun j => (.fin (u j) : Num K)) = .fin (average ((List.range n).map u)) := by
  have hne : List.range n ≠ [] := by
    intro he; have := congrArg List.length he; simp at this; omega
  rw [Num.mean_fin (List.range n) u hne]
  rfl

theorem mean_fin_list (l : List K) (h : l ≠ []) : Num.mean (l.map Num.fin) = .fin (average l) := by
  have := Num.mean_fin l (fun x : K => x) h
  simpa [average, avg] using this

theorem pairRow_eq (hR : R.Lawful) (hsc : Scores model M y X.rows.length sc) {pr : F × F}
    (h1 : pr.1 ∈ X.cols) (h2 : pr.2 ∈ X.cols) (hne : pr.1 ≠ pr.2) {n : Nat} (hn : 0 < n) (g : G) (i : Nat)
    (c : List (List (Row F V))) :
    (PyM.seq (PyM.times n
      (PyM.seq (interScore R model M y X pr.1 pr.2 (.fin (sc X.rows))) fun v => PyM.ret (Num.abs v))) fun inter =>
    PyM.ret (⟨pr.1, pr.2, Num.mean inter⟩ : OvoRow F K)) ⟨permAfter R X.rows.length g (3 * (n * i)), c⟩ =
      (.ok ⟨pr.1, pr.2, .fin (pairValue sc X (nthPerm R X.rows.length g) n i pr)⟩,
        ⟨permAfter R X.rows.length g (3 * (n * (i + 1))), c ++ (List.range n).flatMap fun j =>
          tripleFrames X (nthPerm R X.rows.length g) pr.1 pr.2 (3 * (n * i + j))⟩) := by
  have ht := times_eq (n := n)
    (body := PyM.seq (interScore R model M y X pr.1 pr.2 (.fin (sc X.rows))) fun v => PyM.ret (Num.abs v))
    (σs := fun j => ⟨permAfter R X.rows.length g (3 * (n * i + j)), c ++ (List.range j).flatMap fun j =>
          tripleFrames X (nthPerm R X.rows.length g) pr.1 pr.2 (3 * (n * i + j))⟩)
    (out := fun j => .fin (nonAdditive sc X pr.1 pr.2 (nthPerm R X.rows.length g (3 * (n * i + j)))
      (nthPerm R X.rows.length g (3 * (n * i + j) + 1)) (nthPerm R X.rows.length g (3 * (n * i + j) + 2))))
    (fun j _ => by
      rw [interScore_eq hR hsc h1 h2 hne]
      have e : 3 * (n * i + (j + 1)) = 3 * (n * i + j) + 3 := by ring
      rw [e, List.range_succ, List.flatMap_append]
      simp [tripleFrames])
  simp only [Nat.add_zero, List.range_zero, List.flatMap_nil, List.append_nil] at ht
  rw [seq_of_ok ht, mean_fin_range n hn]
  have e : 3 * (n * (i + 1)) = 3 * (n * i + n) := by ring
  rw [e]
  rfl

theorem perfOvo_eq (hR : R.Lawful) (hsc : Scores model M y X.rows.length sc) {pairs : List (F × F)}
    (hp : ∀ pr ∈ pairs, pr.1 ∈ X.cols ∧ pr.2 ∈ X.cols ∧ pr.1 ≠ pr.2) {n : Nat} (hn : 0 < n) (g : G)
    (c : List (List (Row F V))) (sort : List (OvoRow F K) → List (OvoRow F K)) :
    perfOvo sort R model M y X pairs n ⟨g, c⟩ =
      (.ok (sort (pairs.mapIdx fun i pr =>
        ⟨pr.1, pr.2, .fin (pairValue sc X (nthPerm R X.rows.length g) n i pr)⟩)),
        ⟨permAfter R X.rows.length g (3 * (n * pairs.length)),
          c ++ [X.rows] ++ pairFrames X (nthPerm R X.rows.length g) n pairs⟩) := by
  unfold perfOvo
  rw [seq_of_ok (scoreOn_eq hsc rfl _)]
  have hm := mapList_eq (l := pairs)
    (body := fun pr => PyM.seq (PyM.times n
      (PyM.seq (interScore R model M y X pr.1 pr.2 (.fin (sc X.rows))) fun v => PyM.ret (Num.abs v))) fun inter =>
      PyM.ret (⟨pr.1, pr.2, Num.mean inter⟩ : OvoRow F K))
    (σs := fun i => ⟨permAfter R X.rows.length g (3 * (n * i)),
      c ++ [X.rows] ++ pairFrames X (nthPerm R X.rows.length g) n (pairs.take i)⟩)
    (out := fun i pr => ⟨pr.1, pr.2, .fin (pairValue sc X (nthPerm R X.rows.length g) n i pr)⟩)
    (fun i hi => by
      have hpr := hp pairs[i] (List.getElem_mem hi)
      rw [pairRow_eq hR hsc hpr.1 hpr.2.1 hpr.2.2 hn]
      congr 2
      rw [List.take_succ_eq_append_getElem hi]
      unfold pairFrames
      rw [List.mapIdx_append]
      simp [Nat.min_eq_left (Nat.le_of_lt hi)])
  simp only [Nat.mul_zero, List.take_zero, List.take_length] at hm
  have h0 : pairFrames X (nthPerm R X.rows.length g) n [] = [] := rfl
  rw [h0, List.append_nil] at hm
  exact seq_of_ok hm

/-! ### Permutation importance -/

theorem fold_append {σ α β : Type*} (l1 l2 : List β) (body : α → β → PyM σ α) (acc : α) (s : σ) :
    PyM.fold (l1 ++ l2) body acc s = PyM.seq (PyM.fold l1 body acc) (PyM.fold l2 body) s := by
  induction l1 generalizing acc s with
  | nil => rfl
  | cons b l1 ih =>
    simp only [List.cons_append, PyM.fold, PyM.seq]
    cases h : body acc b s with
    | mk r s1 =>
      cases r with
      | error e => rfl
      | ok a => simp only [ih, PyM.seq]

theorem fold_rounds_aux {σ α β γ : Type*} (l : List γ) (fs : List β) (body : α → β → PyM σ α) (acc : α) (s : σ) :
    PyM.fold l (fun acc _ => PyM.fold fs body acc) acc s =
      PyM.fold (List.replicate l.length fs).flatten body acc s := by
  induction l generalizing acc s with
  | nil => rfl
  | cons b l ih =>
    simp only [List.length_cons, List.replicate_succ, List.flatten_cons]
    rw [fold_append]
    simp only [PyM.fold, PyM.seq]
    cases h : PyM.fold fs body acc s with
    | mk r s1 =>
      cases r with
      | error e => rfl
      | ok a => simp only [ih]

theorem fold_rounds {σ α : Type*} (n : Nat) (fs : List F) (body : α → F → PyM σ α) (acc : α) (s : σ) :
    PyM.fold (List.range n) (fun acc _ => PyM.fold fs body acc) acc s = PyM.fold (turns fs n) body acc s := by
  rw [fold_rounds_aux, List.length_range]; rfl

/-- a dictionary with given keys -/
def dictOf {α β : Type} (ks : List α) (h : α → β) : Dict α β := ks.map fun k => (k, h k)

theorem dictOf_set {α β : Type} [DecidableEq α] {ks : List α} (nd : ks.Nodup) (h : α → β) {k : α} (hk : k ∈ ks) (v : β) :
    (dictOf ks h).set k v = dictOf ks (fun k' => if k' = k then v else h k') := by
  induction ks with
  | nil => cases hk
  | cons a ks ih =>
    obtain ⟨ha, nd⟩ := List.nodup_cons.1 nd
    simp only [dictOf, List.map_cons, Dict.set]
    by_cases e : a = k
    · subst e
      simp only [if_true, List.cons.injEq, true_and]
      apply List.map_congr_left
      intro x hx
      have : x ≠ a := by rintro rfl; exact ha hx
      simp [this]
    · simp only [e, if_false, List.cons.injEq, true_and]
      exact ih nd (by rcases List.mem_cons.1 hk with h | h; exact absurd h.symm e; exact h)

theorem dictOf_get? {α β : Type} [DecidableEq α] {ks : List α} (h : α → β) {k : α} (hk : k ∈ ks) :
    (dictOf ks h).get? k = some (h k) := by
  have := Dict.get?_map ks h k
  rw [if_pos hk] at this
  exact this

/-- the initial dictionary `{f: [] for f in features}` -/
theorem initDict_eq {β : Type} (fs : List F) (ks : List F) (nd : ks.Nodup) :
    ∃ ks' : List F, ks'.Nodup ∧ (∀ f, f ∈ ks' ↔ f ∈ ks ∨ f ∈ fs) ∧
      fs.foldl (fun d f => d.set f ([] : List β)) (dictOf ks fun _ => []) = dictOf ks' fun _ => [] := by
  induction fs generalizing ks with
  | nil => exact ⟨ks, nd, by simp, rfl⟩
  | cons f fs ih =>
    simp only [List.foldl_cons]
    by_cases hf : f ∈ ks
    · rw [dictOf_set nd _ hf]
      have e : (fun k' => if k' = f then ([] : List β) else []) = fun _ => [] := by funext; simp
      rw [e]
      obtain ⟨ks', h1, h2, h3⟩ := ih ks nd
      refine ⟨ks', h1, fun x => ?_, h3⟩
      rw [h2]
      simp only [List.mem_cons]
      constructor
      · rintro (h | h) <;> simp [h]
      · rintro (h | rfl | h)
        · exact Or.inl h
        · exact Or.inl hf
        · exact Or.inr h
    · have e : (dictOf ks fun _ => ([] : List β)).set f [] = dictOf (ks ++ [f]) fun _ => [] := by
        clear ih nd
        induction ks with
        | nil => rfl
        | cons a ks ih =>
          simp only [List.mem_cons, not_or] at hf
          simp only [dictOf, List.map_cons, Dict.set, List.cons_append, if_neg (Ne.symm hf.1)]
          congr 1
          exact ih hf.2
      rw [e]
      obtain ⟨ks', h1, h2, h3⟩ := ih (ks ++ [f]) (by
        rw [List.nodup_append]
        exact ⟨nd, by simp, by intro a ha b hb; simp only [List.mem_singleton] at hb; subst hb; rintro rfl; exact hf ha⟩)
      refine ⟨ks', h1, fun x => ?_, h3⟩
      rw [h2]
      simp [or_assoc]

theorem corruptStep_eq (hR : R.Lawful) (hsc : Scores model M y X.rows.length sc) {f : F} (hf : f ∈ X.cols)
    {ks : List F} (nd : ks.Nodup) (hk : f ∈ ks) (h : F → List (Num K)) (g : G) (k : Nat) (c : List (List (Row F V))) :
    corruptStep R model M y X (X, dictOf ks h) f ⟨permAfter R X.rows.length g k, c⟩ =
      (.ok (X, dictOf ks (fun f' => if f' = f then h f ++ [.fin (sc (permuted X [f] (nthPerm R X.rows.length g k)))]
        else h f')),
        ⟨permAfter R X.rows.length g (k + 1), c ++ [permuted X [f] (nthPerm R X.rows.length g k)]⟩) := by
  have hp : ValidPos X (nthPerm R X.rows.length g k) := validPos_of_perm (perm_nth hR _ _ _)
  obtain ⟨v, v', h1, hl, h2, h3⟩ := setCol_permuted (done := []) hp (permuted_nil X _).symm rfl hf (by simp)
  unfold corruptStep
  have e0 : ∀ (s : Scored G F V), (PyM.lift (X.colE f) : PyM (Scored G F V) _) s = (.ok v, s) := by
    intro s; simp only [PyM.lift, h1]
  rw [seq_of_ok (e0 _)]
  have e1 : drawPerm R v.length (⟨permAfter R X.rows.length g k, c⟩ : Scored G F V) =
      (.ok (nthPerm R X.rows.length g k), ⟨permAfter R X.rows.length g (k + 1), c⟩) := by rw [hl]; rfl
  rw [seq_of_ok e1]
  have e2 : ∀ (s : Scored G F V), (PyM.lift (npTake v (nthPerm R X.rows.length g k)) : PyM (Scored G F V) _) s =
      (.ok v', s) := by intro s; simp only [PyM.lift, h2]
  rw [seq_of_ok (e2 _)]
  have e3 : ∀ (s : Scored G F V), (PyM.lift (X.setCol f v') : PyM (Scored G F V) _) s =
      (.ok ⟨X.cols, permuted X [f] (nthPerm R X.rows.length g k)⟩, s) := by
    intro s; simp only [PyM.lift, h3, List.nil_append]
  rw [seq_of_ok (e3 _), seq_of_ok (scoreOn_eq hsc (length_permuted X _ _) _)]
  simp only [dictOf_get? h hk]
  rw [seq_of_ok (e0 _)]
  have hv : v = X.col f := by
    simp only [Frame.colE, if_pos hf, Except.ok.injEq] at h1; exact h1.symm
  have e4 : ∀ (s : Scored G F V), (PyM.lift (Frame.setCol ⟨X.cols, permuted X [f] (nthPerm R X.rows.length g k)⟩ f v) :
      PyM (Scored G F V) _) s = (.ok X, s) := by
    intro s; simp only [PyM.lift]; rw [hv, setCol_restore hf]
  rw [seq_of_ok (e4 _)]
  simp only [PyM.ret, dictOf_set nd h hk]

/-- scores of the turns before turn `k` -/
def scoresBefore (sc : List (Row F V) → K) (X : Frame F V) (perm : Nat → List Nat) (l : List F) (k : Nat) (f : F) :
    List (Num K) :=
  ((((l.take k).mapIdx fun k h => (h, sc (permuted X [h] (perm k)))).filter (fun e => e.1 = f)).map (·.2)).map Num.fin

theorem corruptedScores_eq (hR : R.Lawful) (hsc : Scores model M y X.rows.length sc) {fs : List F}
    (hfs : ∀ f ∈ fs, f ∈ X.cols) (n : Nat) (g : G) (c : List (List (Row F V))) :
    ∃ ks : List F, ks.Nodup ∧ (∀ f, f ∈ ks ↔ f ∈ fs) ∧
      corruptedScores R model M y X fs n ⟨g, c⟩ =
        (.ok (dictOf ks fun f => (turnScores sc X (nthPerm R X.rows.length g) fs n f).map Num.fin),
          ⟨permAfter R X.rows.length g (turns fs n).length,
            c ++ turnFrames X (nthPerm R X.rows.length g) fs n⟩) := by
  obtain ⟨ks, nd, hks, hd⟩ := initDict_eq (β := Num K) fs [] List.nodup_nil
  simp only [List.not_mem_nil, false_or] at hks
  refine ⟨ks, nd, hks, ?_⟩
  have ht : ∀ f ∈ turns fs n, f ∈ fs := by
    intro f hf
    simp only [turns, List.mem_flatten, List.mem_replicate] at hf
    obtain ⟨l, ⟨_, rfl⟩, h⟩ := hf
    exact h
  have hm := fold_eq (l := turns fs n) (body := corruptStep R model M y X)
    (acc := fun k => (X, dictOf ks (scoresBefore sc X (nthPerm R X.rows.length g) (turns fs n) k)))
    (σs := fun k => ⟨permAfter R X.rows.length g k,
      c ++ ((turns fs n).take k).mapIdx fun k f => permuted X [f] (nthPerm R X.rows.length g k)⟩)
    (fun k hk => by
      have hmem := ht _ (List.getElem_mem hk)
      rw [corruptStep_eq hR hsc (hfs _ hmem) nd ((hks _).2 hmem)]
      congr 2
      · congr 2
        funext f'
        unfold scoresBefore
        rw [List.take_succ_eq_append_getElem hk, List.mapIdx_append, List.filter_append, List.map_append,
          List.map_append]
        by_cases e : f' = (turns fs n)[k]
        · subst e
          simp [Nat.min_eq_left (Nat.le_of_lt hk)]
        · simp [e, Ne.symm e]
      · rw [List.take_succ_eq_append_getElem hk, List.mapIdx_append, ← List.append_assoc]
        simp [Nat.min_eq_left (Nat.le_of_lt hk)])
  have e0 : scoresBefore sc X (nthPerm R X.rows.length g) (turns fs n) 0 = fun _ => [] := by
    funext f; simp [scoresBefore]
  simp only [List.take_zero, List.mapIdx_nil, List.append_nil] at hm
  rw [e0] at hm
  unfold corruptedScores
  have hd' : fs.foldl (fun d f => Dict.set d f ([] : List (Num K))) [] = dictOf ks fun _ => [] := hd
  rw [hd']
  have hm' : PyM.fold (List.range n) (fun acc _ => PyM.fold fs (corruptStep R model M y X) acc)
      (X, dictOf ks fun _ => []) (⟨g, c⟩ : Scored G F V) = _ := (fold_rounds n fs _ _ _).trans hm
  rw [seq_of_ok hm']
  have e9 : scoresBefore sc X (nthPerm R X.rows.length g) (turns fs n) (turns fs n).length =
      fun f => (turnScores sc X (nthPerm R X.rows.length g) fs n f).map Num.fin := by
    funext f; simp only [scoresBefore, List.take_length]; rfl
  simp only [PyM.ret, List.take_length, e9]
  rfl

theorem turnScores_ne_nil {fs : List F} {n : Nat} (hn : 0 < n) {f : F} (hf : f ∈ fs) (perm : Nat → List Nat) :
    turnScores sc X perm fs n f ≠ [] := by
  have hmem : f ∈ turns fs n := by
    simp only [turns, List.mem_flatten, List.mem_replicate]
    exact ⟨fs, ⟨by omega, rfl⟩, hf⟩
  obtain ⟨k, hk, he⟩ := List.getElem_of_mem hmem
  intro h
  simp only [turnScores, List.map_eq_nil_iff, List.filter_eq_nil_iff] at h
  have := h (f, sc (permuted X [f] (perm k))) (by
    rw [List.mem_mapIdx]
    exact ⟨k, hk, by rw [he]⟩)
  simp at this

theorem permImportance_eq (hR : R.Lawful) (hsc : Scores model M y X.rows.length sc) {fs : List F}
    (hfs : ∀ f ∈ fs, f ∈ X.cols) (hne : fs ≠ []) {n : Nat} (hn : 0 < n) (g : G) (c : List (List (Row F V)))
    (sort : List (FeatRow F K) → List (FeatRow F K)) :
    ∃ ks : List F, ks.Nodup ∧ (∀ f, f ∈ ks ↔ f ∈ fs) ∧
      permImportance sort R model M y X (some fs) n ⟨g, c⟩ =
        (.ok (sort (ks.map fun f =>
          ⟨f, .fin (sgn M * (average (turnScores sc X (nthPerm R X.rows.length g) fs n f) - sc X.rows))⟩)),
          ⟨permAfter R X.rows.length g (turns fs n).length,
            c ++ [X.rows] ++ turnFrames X (nthPerm R X.rows.length g) fs n⟩) := by
  obtain ⟨ks, nd, hks, h⟩ := corruptedScores_eq hR hsc hfs n g (c ++ [X.rows])
  refine ⟨ks, nd, hks, ?_⟩
  unfold permImportance
  rw [seq_of_ok (scoreOn_eq hsc rfl _)]
  simp only
  rw [seq_of_ok h]
  have hks' : ks ≠ [] := by
    obtain ⟨f, hf⟩ := List.exists_mem_of_ne_nil _ hne
    exact List.ne_nil_of_mem ((hks f).2 hf)
  have : (dictOf ks fun f => (turnScores sc X (nthPerm R X.rows.length g) fs n f).map Num.fin).isEmpty = false := by
    cases ks with
    | nil => exact absurd rfl hks'
    | cons => rfl
  rw [this]
  simp only [Bool.false_eq_true, if_false, PyM.ret, dictOf, List.map_map]
  congr 3
  apply List.map_congr_left
  intro f hf
  simp only [Function.comp]
  rw [mean_fin_list _ (turnScores_ne_nil hn ((hks f).1 hf) _), Num.sub_fin, negIfClass_fin]

end Scoring
end Artemis
