import Verif.Model.Zenplot
import Verif.Proofs.NumLemmas
import Verif.Proofs.GwLemmas
import Verif.Props.PDCache

/-! Lemmas about zenplots. -/

set_option linter.unusedSectionVars false
set_option linter.unusedVariables false
set_option linter.unusedSimpArgs false

namespace Artemis

variable {F V K : Type} [DecidableEq F] [LinearOrder V] [Field K] [LinearOrder K] [IsStrictOrderedRing K]

/-- the row is about the two features, in either order -/
def OvoRow.Is (r : OvoRow F K) (p : F × F) : Prop := (r.f1 = p.1 ∧ r.f2 = p.2) ∨ (r.f1 = p.2 ∧ r.f2 = p.1)

/-- the row is about the feature (and another one) -/
def OvoRow.Has (r : OvoRow F K) (f : F) : Prop := r.f1 = f ∨ r.f2 = f

theorem fillNinf_ne (a : Num K) : a.fillNinf ≠ .nan := by
  cases a <;> simp [Num.fillNinf, Num.isNaN]

theorem fillNinf_of_not {a : Num K} (h : a.isNaN = false) : a.fillNinf = a := by
  simp [Num.fillNinf, h]

theorem le_of_not_lt {a b : Num K} (ha : a ≠ .nan) (hb : b ≠ .nan) (h : Num.lt a b = false) : Num.le b a = true := by
  rcases Num.le_total' ha hb with h1 | h1
  · simpa [Num.lt, h1] using h
  · exact h1

theorem foldl_idx (xs : LRows F K) (x : Nat × OvoRow F K) :
    let m := xs.foldl (fun m y => if Num.lt m.2.val.fillNinf y.2.val.fillNinf then y else m) x
    m ∈ x :: xs ∧ ∀ y ∈ x :: xs, Num.le y.2.val.fillNinf m.2.val.fillNinf = true := by
  induction xs generalizing x with
  | nil => simpa using Num.le_refl' (fillNinf_ne _)
  | cons y ys ih =>
    simp only [List.foldl_cons]
    by_cases h : Num.lt x.2.val.fillNinf y.2.val.fillNinf = true
    · rw [if_pos h]
      obtain ⟨h1, h2⟩ := ih y
      refine ⟨List.mem_cons_of_mem _ h1, ?_⟩
      intro z hz
      rcases List.mem_cons.1 hz with rfl | hz
      · have h3 := h2 y (List.mem_cons_self)
        have : Num.le z.2.val.fillNinf y.2.val.fillNinf = true := by
          simp only [Num.lt, Bool.and_eq_true] at h; exact h.1
        exact Num.le_trans' this h3
      · exact h2 z hz
    · rw [if_neg h]
      obtain ⟨h1, h2⟩ := ih x
      refine ⟨?_, ?_⟩
      · rcases List.mem_cons.1 h1 with h1 | h1
        · rw [h1]; exact List.mem_cons_self
        · exact List.mem_cons_of_mem _ (List.mem_cons_of_mem _ h1)
      · intro z hz
        rcases List.mem_cons.1 hz with rfl | hz
        · exact h2 z List.mem_cons_self
        · rcases List.mem_cons.1 hz with rfl | hz
          · exact Num.le_trans' (le_of_not_lt (fillNinf_ne _) (fillNinf_ne _) (by simpa using h)) (h2 x List.mem_cons_self)
          · exact h2 z (List.mem_cons_of_mem _ hz)

theorem idxmax_some {l : LRows F K} {i : Nat} (h : idxmax l = some i) :
    ∃ q ∈ l, q.1 = i ∧ ∀ y ∈ l, Num.le y.2.val.fillNinf q.2.val.fillNinf = true := by
  cases l with
  | nil => simp [idxmax] at h
  | cons x xs =>
    simp only [idxmax] at h
    split at h
    · cases h
    · obtain ⟨h1, h2⟩ := foldl_idx xs x
      exact ⟨_, h1, by simpa using h, h2⟩

theorem idxmax_isSome {l : LRows F K} (hne : l ≠ []) (h : ∃ q ∈ l, q.2.val.isNaN = false) : ∃ i, idxmax l = some i := by
  cases l with
  | nil => exact absurd rfl hne
  | cons x xs =>
    obtain ⟨q, hq, hv⟩ := h
    simp only [idxmax]
    rw [if_neg]
    · exact ⟨_, rfl⟩
    · intro hall
      rw [List.all_eq_true] at hall
      have := hall q hq
      rw [hv] at this; cases this

/-- labels strictly increase -/
def Ordered (left : LRows F K) : Prop := left.Pairwise (fun a b => a.1 < b.1)

theorem Ordered.filter {left : LRows F K} (h : Ordered left) (p) : Ordered (left.filter p) := List.Pairwise.filter _ h

theorem Ordered.inj {left : LRows F K} (h : Ordered left) {a b : Nat × OvoRow F K} (ha : a ∈ left) (hb : b ∈ left)
    (e : a.1 = b.1) : a = b := by
  induction left with
  | nil => cases ha
  | cons x xs ih =>
    obtain ⟨h1, h2⟩ := List.pairwise_cons.1 h
    rcases List.mem_cons.1 ha with ea | ha' <;> rcases List.mem_cons.1 hb with eb | hb'
    · rw [ea, eb]
    · have := h1 b hb'; rw [ea] at e; omega
    · have := h1 a ha'; rw [eb] at e; omega
    · exact ih h2 ha' hb'

theorem locRow_mem {left : LRows F K} (h : Ordered left) {q : Nat × OvoRow F K} (hq : q ∈ left) :
    locRow left (some q.1) = .ok q := by
  unfold locRow
  cases e : left.find? (fun q' => decide (some q'.1 = some q.1)) with
  | none =>
    have := List.find?_eq_none.1 e q hq
    simp at this
  | some q' =>
    have h1 := List.mem_of_find?_eq_some e
    have h2 := List.find?_some e
    simp only [Option.some.injEq, decide_eq_true_eq] at h2
    rw [h.inj h1 hq h2]

/-- how the next candidate is chosen -/
structure Next (left : LRows F K) (f : F) (q : Nat × OvoRow F K) (continued : Bool) : Prop where
  mem : q ∈ left
  yes : continued = true → q.2.Has f ∧
    ∀ y ∈ left, y.2.Has f → Num.le y.2.val.fillNinf q.2.val.fillNinf = true
  no : continued = false → (∀ y ∈ left, ¬ y.2.Has f) ∧ ∃ t, left = q :: t

theorem next_spec {left : LRows F K} (ho : Ordered left) {f : F} {idx : Option Nat} {b : Bool} {q : Nat × OvoRow F K}
    (h : findNextPairIndex left f = .ok (idx, b)) (hl : locRow left idx = .ok q) : Next left f q b := by
  unfold findNextPairIndex at h
  have mem_iff : ∀ y, y ∈ left.filter (fun q => decide (q.2.f1 = f) || decide (q.2.f2 = f)) ↔ y ∈ left ∧ y.2.Has f := by
    intro y; simp [List.mem_filter, OvoRow.Has]
  cases e : left.filter (fun q => decide (q.2.f1 = f) || decide (q.2.f2 = f)) with
  | nil =>
    rw [e] at h mem_iff
    have hno : ∀ y ∈ left, ¬ y.2.Has f := by
      intro y hy hh
      exact absurd ((mem_iff y).2 ⟨hy, hh⟩) (by simp)
    cases left with
    | nil => cases h
    | cons x xs =>
      simp only [Except.ok.injEq, Prod.mk.injEq] at h
      obtain ⟨rfl, rfl⟩ := h
      rw [locRow_mem ho (List.mem_cons_self)] at hl
      cases hl
      exact ⟨List.mem_cons_self, by simp, fun _ => ⟨hno, xs, rfl⟩⟩
  | cons x xs =>
    rw [e] at h mem_iff
    simp only [Except.ok.injEq, Prod.mk.injEq] at h
    obtain ⟨rfl, rfl⟩ := h
    cases ei : idxmax (x :: xs) with
    | none =>
      rw [ei] at hl
      unfold locRow at hl
      cases e' : left.find? (fun q => decide (some q.1 = none)) with
      | none => rw [e'] at hl; cases hl
      | some q' => have := List.find?_some e'; simp at this
    | some i =>
      obtain ⟨m, hm, hmi, hmax⟩ := idxmax_some ei
      rw [ei, ← hmi, locRow_mem ho ((mem_iff m).1 hm).1] at hl
      cases hl
      exact ⟨((mem_iff _).1 hm).1, fun _ => ⟨((mem_iff _).1 hm).2, fun y hy hh => hmax y ((mem_iff y).2 ⟨hy, hh⟩)⟩, by simp⟩

/-- the next candidate exists if there is one left and there is no NaN -/
theorem next_exists {left : LRows F K} (ho : Ordered left) (f : F) (hne : left ≠ [])
    (hn : ∀ q ∈ left, q.2.val.isNaN = false) :
    ∃ idx b q, findNextPairIndex left f = .ok (idx, b) ∧ locRow left idx = .ok q := by
  unfold findNextPairIndex
  cases e : left.filter (fun q => decide (q.2.f1 = f) || decide (q.2.f2 = f)) with
  | nil =>
    cases left with
    | nil => exact absurd rfl hne
    | cons x xs => exact ⟨_, _, x, rfl, locRow_mem ho List.mem_cons_self⟩
  | cons x xs =>
    have hsub : ∀ y ∈ x :: xs, y ∈ left := by
      intro y hy; rw [← e] at hy; exact (List.mem_filter.1 hy).1
    obtain ⟨i, hi⟩ := idxmax_isSome (l := x :: xs) (by simp) ⟨x, List.mem_cons_self, hn x (hsub x List.mem_cons_self)⟩
    obtain ⟨m, hm, hmi, _⟩ := idxmax_some hi
    refine ⟨_, _, m, rfl, ?_⟩
    rw [hi, ← hmi]
    exact locRow_mem ho (hsub m hm)

theorem second_is {r : OvoRow F K} {f : F} (h : r.Has f) : r.Is (f, getSecondFeature f r) := by
  unfold OvoRow.Is getSecondFeature
  rcases h with h | h
  · exact Or.inl ⟨h, by simp [h]⟩
  · by_cases h1 : r.f1 = f
    · exact Or.inl ⟨h1, by simp [h1]⟩
    · exact Or.inr ⟨by simp [h1], h⟩

/-- What one iteration does. -/
structure Stepped (c : Calc F V (Num K)) (nrows ncols : Nat) (last : Bool) (s : ZenState F K) (p : ZenPanel F V K)
    (s' : ZenState F K) (p0 : ZenPanel F V K) (q : Nat × OvoRow F K) (b : Bool) : Prop where
  panel : zenPanel c nrows ncols s = .ok p0
  next : Next s.left s.pair.2 q b
  left : s'.left = s.left.filter (fun q' => decide (q'.1 ≠ q.1))
  row : s'.row = if s.col > s.row then s.row + 1 else s.row
  col : s'.col = if s.col > s.row then s.col else s.col + 1
  pair : s'.pair = if b then (s.pair.2, getSecondFeature s.pair.2 q.2) else (q.2.f1, q.2.f2)
  drawn : p = if b then (if last then setLabel s'.row s'.col (getSecondFeature s.pair.2 q.2) p0 else p0)
    else setLabel s'.row s'.col s.pair.2 p0

theorem zenStep_inv {c : Calc F V (Num K)} {nrows ncols : Nat} {last : Bool} {s s' : ZenState F K} {p : ZenPanel F V K}
    (ho : Ordered s.left) (h : zenStep c nrows ncols last s = .ok (p, s')) :
    ∃ p0 q b, Stepped c nrows ncols last s p s' p0 q b := by
  unfold zenStep at h
  cases e1 : zenPanel c nrows ncols s with
  | error e => rw [e1] at h; cases h
  | ok p0 =>
    rw [e1] at h
    simp only at h
    cases e2 : findNextPairIndex s.left s.pair.2 with
    | error e => rw [e2] at h; cases h
    | ok ib =>
      obtain ⟨idx, b⟩ := ib
      rw [e2] at h
      simp only at h
      cases e3 : locRow s.left idx with
      | error e => rw [e3] at h; cases h
      | ok q =>
        rw [e3] at h
        simp only at h
        refine ⟨p0, q, b, ?_⟩
        have hn := next_spec ho e2 e3
        cases b with
        | true =>
          simp only [if_true, Except.ok.injEq, Prod.mk.injEq] at h
          obtain ⟨rfl, rfl⟩ := h
          exact ⟨e1, hn, rfl, rfl, rfl, rfl, rfl⟩
        | false =>
          simp only [Bool.false_eq_true, if_false, Except.ok.injEq, Prod.mk.injEq] at h
          obtain ⟨rfl, rfl⟩ := h
          exact ⟨e1, hn, rfl, rfl, rfl, rfl, rfl⟩

theorem setLabel_pair (row col : Nat) (f : F) (p : ZenPanel F V K) : (setLabel row col f p).pair = p.pair := by
  unfold setLabel; split <;> rfl
theorem setLabel_pos (row col : Nat) (f : F) (p : ZenPanel F V K) : (setLabel row col f p).pos = p.pos := by
  unfold setLabel; split <;> rfl
theorem setLabel_mesh (row col : Nat) (f : F) (p : ZenPanel F V K) :
    (setLabel row col f p).xs = p.xs ∧ (setLabel row col f p).ys = p.ys ∧ (setLabel row col f p).mesh = p.mesh := by
  unfold setLabel; split <;> exact ⟨rfl, rfl, rfl⟩

theorem zenPanel_inv {c : Calc F V (Num K)} {nrows ncols : Nat} {s : ZenState F K} {p : ZenPanel F V K}
    (h : zenPanel c nrows ncols s = .ok p) :
    ∃ t, getPdPairsValues c s.pair = .ok t ∧ s.row < nrows ∧ s.col < ncols ∧
      p = if s.col > s.row then ⟨s.pair, (s.row, s.col), t.f2Values, t.f1Values, t.pdValues, none, some s.pair.1⟩
        else ⟨s.pair, (s.row, s.col), t.f1Values, t.f2Values, columns t.f2Values.length t.pdValues, some s.pair.1, none⟩ := by
  unfold zenPanel at h
  cases e : getPdPairsValues c s.pair with
  | error e' => rw [e] at h; cases h
  | ok t =>
    rw [e] at h
    simp only at h
    split at h
    · next hb =>
      refine ⟨t, rfl, hb.1, hb.2, ?_⟩
      split at h <;> rename_i hc <;> cases h
      · rw [if_pos hc]
      · rw [if_neg hc]
    · cases h

theorem Stepped.same {c : Calc F V (Num K)} {nrows ncols : Nat} {last : Bool} {s s' : ZenState F K} {p p0 : ZenPanel F V K}
    {q : Nat × OvoRow F K} {b : Bool} (h : Stepped c nrows ncols last s p s' p0 q b) :
    p.pair = p0.pair ∧ p.pos = p0.pos ∧ p.xs = p0.xs ∧ p.ys = p0.ys ∧ p.mesh = p0.mesh := by
  rw [h.drawn]
  cases b with
  | true =>
    cases last with
    | true => exact ⟨setLabel_pair .., setLabel_pos .., setLabel_mesh ..⟩
    | false => exact ⟨rfl, rfl, rfl, rfl, rfl⟩
  | false => exact ⟨setLabel_pair .., setLabel_pos .., setLabel_mesh ..⟩

theorem Stepped.pair_pos {c : Calc F V (Num K)} {nrows ncols : Nat} {last : Bool} {s s' : ZenState F K} {p p0 : ZenPanel F V K}
    {q : Nat × OvoRow F K} {b : Bool} (h : Stepped c nrows ncols last s p s' p0 q b) :
    p.pair = s.pair ∧ p.pos = (s.row, s.col) ∧ s.row < nrows ∧ s.col < ncols := by
  obtain ⟨t, _, h1, h2, h3⟩ := zenPanel_inv h.panel
  rw [h.same.1, h.same.2.1, h3]
  split <;> exact ⟨rfl, rfl, h1, h2⟩

theorem Stepped.is {c : Calc F V (Num K)} {nrows ncols : Nat} {last : Bool} {s s' : ZenState F K} {p p0 : ZenPanel F V K}
    {q : Nat × OvoRow F K} {b : Bool} (h : Stepped c nrows ncols last s p s' p0 q b) : q.2.Is s'.pair := by
  rw [h.pair]
  cases b with
  | true => exact second_is (h.next.yes rfl).1
  | false => exact Or.inl ⟨rfl, rfl⟩

theorem Stepped.ordered {c : Calc F V (Num K)} {nrows ncols : Nat} {last : Bool} {s s' : ZenState F K} {p p0 : ZenPanel F V K}
    {q : Nat × OvoRow F K} {b : Bool} (h : Stepped c nrows ncols last s p s' p0 q b) (ho : Ordered s.left) :
    Ordered s'.left := by
  rw [h.left]; exact ho.filter _

theorem zenLoop_inv {c : Calc F V (Num K)} {nrows ncols n : Nat} {s : ZenState F K} {ps : List (ZenPanel F V K)}
    (ho : Ordered s.left) (h : zenLoop c nrows ncols (n + 1) s = .ok ps) :
    ∃ p s' p0 q b ps', Stepped c nrows ncols (n == 0) s p s' p0 q b ∧ zenLoop c nrows ncols n s' = .ok ps' ∧ ps = p :: ps' := by
  simp only [zenLoop] at h
  cases e1 : zenStep c nrows ncols (n == 0) s with
  | error e => rw [e1] at h; cases h
  | ok r =>
    obtain ⟨p, s'⟩ := r
    rw [e1] at h
    simp only at h
    cases e2 : zenLoop c nrows ncols n s' with
    | error e => rw [e2] at h; cases h
    | ok ps' =>
      rw [e2] at h
      cases h
      obtain ⟨p0, q, b, hst⟩ := zenStep_inv ho e1
      exact ⟨p, s', p0, q, b, ps', hst, e2, rfl⟩

theorem zenLoop_zero {c : Calc F V (Num K)} {nrows ncols : Nat} {s : ZenState F K} {ps : List (ZenPanel F V K)}
    (h : zenLoop c nrows ncols 0 s = .ok ps) : ps = [] := by
  simp only [zenLoop, Except.ok.injEq] at h; exact h.symm

/-! ### The path -/

/-- The rule for the next panel: `cand` are all candidates, `qs` the rows drawn so far and later. -/
def NextRule (cand : LRows F K) (qs : LRows F K) (ps : List (ZenPanel F V K)) : Prop :=
  ∀ i p p' q', ps[i]? = some p → ps[i + 1]? = some p' → qs[i + 1]? = some q' →
    ((∃ q ∈ cand, q ∉ qs.take (i + 1) ∧ q.2.Has p.pair.2) →
      p'.pair.1 = p.pair.2 ∧ ∀ q ∈ cand, q ∉ qs.take (i + 1) → q.2.Has p.pair.2 →
        Num.le q.2.val.fillNinf q'.2.val.fillNinf = true) ∧
    ((∀ q ∈ cand, q ∉ qs.take (i + 1) → ¬ q.2.Has p.pair.2) →
      p'.pair = (q'.2.f1, q'.2.f2) ∧ ∀ q ∈ cand, q ∉ qs.take (i + 1) → q'.1 ≤ q.1)

/-- the label of the axis showing the first feature of the pair -/
def ZenPanel.firstLabel (p : ZenPanel F V K) : Option F := if p.pos.1 < p.pos.2 then p.ylabel else p.title
/-- the label of the axis showing the second feature of the pair -/
def ZenPanel.secondLabel (p : ZenPanel F V K) : Option F := if p.pos.1 < p.pos.2 then p.title else p.ylabel

/-- The rule for the labels. -/
def LabelRule (cand : LRows F K) (qs : LRows F K) (ps : List (ZenPanel F V K)) : Prop :=
  ∀ i p, ps[i]? = some p → p.firstLabel = some p.pair.1 ∧
    ((∀ q ∈ cand, q ∉ qs.take (i + 1) → ¬ q.2.Has p.pair.2) → p.secondLabel = some p.pair.2) ∧
    ((∃ q ∈ cand, q ∉ qs.take (i + 1) ∧ q.2.Has p.pair.2) →
      (i + 1 < ps.length → p.secondLabel = none) ∧
      (i + 1 = ps.length → ∃ q ∈ cand, q ∉ qs.take (i + 1) ∧ ∃ g, q.2.Is (p.pair.2, g) ∧ p.secondLabel = some g))

/-- the cursor is on the diagonal or right of it -/
def Geo (s : ZenState F K) : Prop := s.col = s.row ∨ s.col = s.row + 1

theorem Stepped.geo {c : Calc F V (Num K)} {nrows ncols : Nat} {last : Bool} {s s' : ZenState F K} {p p0 : ZenPanel F V K}
    {q : Nat × OvoRow F K} {b : Bool} (h : Stepped c nrows ncols last s p s' p0 q b) (hg : Geo s) : Geo s' := by
  unfold Geo at *
  rw [h.row, h.col]
  split <;> omega

/-- the labels of the panel of one iteration -/
theorem Stepped.labels {c : Calc F V (Num K)} {nrows ncols : Nat} {last : Bool} {s s' : ZenState F K} {p p0 : ZenPanel F V K}
    {q : Nat × OvoRow F K} {b : Bool} (h : Stepped c nrows ncols last s p s' p0 q b) (hg : Geo s) :
    p.firstLabel = some s.pair.1 ∧ p.secondLabel = if b then
      (if last then some (getSecondFeature s.pair.2 q.2) else none) else some s.pair.2 := by
  obtain ⟨t, _, _, _, h3⟩ := zenPanel_inv h.panel
  have hd := h.drawn
  rw [h.row, h.col] at hd
  unfold Geo at hg
  subst hd
  rw [h3]
  by_cases hc : s.col > s.row
  · have h4 : ¬ (s.row + 1 < s.col) := by omega
    cases b <;> cases last <;> simp [ZenPanel.firstLabel, ZenPanel.secondLabel, setLabel, hc, h4]
  · have h4 : ¬ (s.row < s.col) := by omega
    have h5 : s.row < s.col + 1 := by omega
    cases b <;> cases last <;> simp [ZenPanel.firstLabel, ZenPanel.secondLabel, setLabel, hc, h4, h5]

theorem zenLoop_path {c : Calc F V (Num K)} {nrows ncols : Nat} : ∀ {n : Nat} {s : ZenState F K} {ps : List (ZenPanel F V K)}
    {q0 : Nat × OvoRow F K}, Geo s → Ordered s.left → (∀ q ∈ s.left, q.1 ≠ q0.1) → q0.2.Is s.pair →
    zenLoop c nrows ncols n s = .ok ps →
    ∃ qs : LRows F K, List.Forall₂ (fun q p => q.2.Is p.pair) qs ps ∧ ps.length = n ∧ (qs.map Prod.fst).Nodup ∧
      (∀ q ∈ qs, q = q0 ∨ q ∈ s.left) ∧ (∀ p, ps[0]? = some p → p.pair = s.pair ∧ qs[0]? = some q0) ∧
      NextRule (q0 :: s.left) qs ps ∧ LabelRule (q0 :: s.left) qs ps := by
  intro n
  induction n with
  | zero =>
    intro s ps q0 hgeo ho hne his h
    rw [zenLoop_zero h]
    exact ⟨[], List.Forall₂.nil, rfl, by simp, by simp, by simp, by intro i p p' q' h1; simp at h1,
      by intro i p h1; simp at h1⟩
  | succ n ih =>
    intro s ps q0 hgeo ho hne his h
    obtain ⟨p, s', p0, q, b, ps', hst, hloop, rfl⟩ := zenLoop_inv ho h
    have ho' := hst.ordered ho
    have hne' : ∀ y ∈ s'.left, y.1 ≠ q.1 := by
      intro y hy; rw [hst.left, List.mem_filter] at hy; simpa using hy.2
    obtain ⟨qs, hf, hlen, hnd, hmem, hfirst, hrule, hlab⟩ := ih (hst.geo hgeo) ho' hne' hst.is hloop
    have hsub : ∀ y ∈ qs, y ∈ s.left := by
      intro y hy
      rcases hmem y hy with rfl | hy
      · exact hst.next.mem
      · rw [hst.left] at hy; exact (List.mem_filter.1 hy).1
    have hq0 : ∀ y ∈ qs, y.1 ≠ q0.1 := fun y hy => hne y (hsub y hy)
    have hleft : ∀ y, y ∈ s.left ↔ y = q ∨ y ∈ s'.left := by
      intro y
      rw [hst.left, List.mem_filter]
      constructor
      · intro hy
        by_cases e : y.1 = q.1
        · exact Or.inl (ho.inj hy hst.next.mem e)
        · exact Or.inr ⟨hy, by simpa using e⟩
      · rintro (rfl | hy)
        · exact hst.next.mem
        · exact hy.1
    have hpp := hst.pair_pos.1
    have hcand : ∀ y, y ∈ q0 :: s.left → y ∉ List.take (0 + 1) (q0 :: qs) → y ∈ s.left := by
      intro y hy hn
      simp only [Nat.zero_add, List.take_succ_cons, List.take_zero, List.mem_singleton] at hn
      exact (List.mem_cons.1 hy).resolve_left hn
    have hback : ∀ y ∈ s.left, y ∈ q0 :: s.left ∧ y ∉ List.take (0 + 1) (q0 :: qs) := by
      intro y hy
      refine ⟨List.mem_cons_of_mem _ hy, ?_⟩
      simp only [Nat.zero_add, List.take_succ_cons, List.take_zero, List.mem_singleton]
      rintro rfl
      exact hne _ hy rfl
    have conv : ∀ i y, (y ∈ q0 :: s.left ∧ y ∉ List.take (i + 1 + 1) (q0 :: qs)) ↔
        (y ∈ q :: s'.left ∧ y ∉ List.take (i + 1) qs) := by
      intro i y
      rw [List.take_succ_cons, List.mem_cons, List.mem_cons, List.mem_cons, hleft, not_or]
      constructor
      · rintro ⟨rfl | hy, hn1, hn2⟩
        · exact absurd rfl hn1
        · exact ⟨hy, hn2⟩
      · rintro ⟨hy, hn⟩
        refine ⟨Or.inr hy, ?_, hn⟩
        rintro rfl
        exact hne y ((hleft y).2 hy) rfl
    refine ⟨q0 :: qs, List.Forall₂.cons (by rw [hpp]; exact his) hf, by simp [hlen], ?_, ?_, ?_, ?_, ?_⟩
    · simp only [List.map_cons, List.nodup_cons]
      refine ⟨?_, hnd⟩
      intro hm
      obtain ⟨y, hy, e⟩ := List.mem_map.1 hm
      exact hq0 y hy e
    · intro y hy
      rcases List.mem_cons.1 hy with rfl | hy
      · exact Or.inl rfl
      · exact Or.inr (hsub y hy)
    · intro p' hp'
      simp only [List.length_cons, Nat.zero_lt_succ, List.getElem?_cons_zero, Option.some.injEq] at hp'
      subst hp'
      exact ⟨hpp, rfl⟩
    · intro i a a' q' ha ha' hq'
      cases i with
      | zero =>
        simp only [List.getElem?_cons_zero, Option.some.injEq] at ha
        subst ha
        simp only [Nat.zero_add, List.getElem?_cons_succ] at ha' hq'
        obtain ⟨e1, e2⟩ := hfirst a' ha'
        rw [e2] at hq'
        cases hq'
        rw [hpp]
        constructor
        · rintro ⟨y, hy, hyn, hyh⟩
          cases hb : b with
          | false => exact absurd hyh ((hst.next.no hb).1 y (hcand y hy hyn))
          | true =>
            refine ⟨?_, fun z hz hzn hzh => (hst.next.yes hb).2 z (hcand z hz hzn) hzh⟩
            rw [e1, hst.pair, hb]; rfl
        · intro hno
          cases hb : b with
          | true =>
            have := (hst.next.yes hb).1
            obtain ⟨h1, h2⟩ := hback q hst.next.mem
            exact absurd this (hno q h1 h2)
          | false =>
            refine ⟨?_, ?_⟩
            · rw [e1, hst.pair, hb]; rfl
            · intro z hz hzn
              have hz' := hcand z hz hzn
              obtain ⟨t, ht⟩ := (hst.next.no hb).2
              rw [ht] at hz' ho
              rcases List.mem_cons.1 hz' with rfl | hz'
              · exact le_refl _
              · exact le_of_lt ((List.pairwise_cons.1 ho).1 z hz')
      | succ i =>
        simp only [List.getElem?_cons_succ] at ha ha' hq'
        have := hrule i a a' q' ha ha' hq'
        constructor
        · rintro ⟨y, hy, hyn, hyh⟩
          obtain ⟨h1, h2⟩ := (conv i y).1 ⟨hy, hyn⟩
          obtain ⟨r1, r2⟩ := this.1 ⟨y, h1, h2, hyh⟩
          exact ⟨r1, fun z hz hzn hzh => by
            obtain ⟨h3, h4⟩ := (conv i z).1 ⟨hz, hzn⟩
            exact r2 z h3 h4 hzh⟩
        · intro hno
          obtain ⟨r1, r2⟩ := this.2 (fun y hy hyn => by
            obtain ⟨h3, h4⟩ := (conv i y).2 ⟨hy, hyn⟩
            exact hno y h3 h4)
          exact ⟨r1, fun z hz hzn => by
            obtain ⟨h3, h4⟩ := (conv i z).1 ⟨hz, hzn⟩
            exact r2 z h3 h4⟩
    · intro i a ha
      cases i with
      | zero =>
        simp only [List.getElem?_cons_zero, Option.some.injEq] at ha
        subst ha
        obtain ⟨l1, l2⟩ := hst.labels hgeo
        rw [l1, l2, hpp]
        refine ⟨rfl, ?_, ?_⟩
        · intro hno
          cases hb : b with
          | true =>
            obtain ⟨h1, h2⟩ := hback q hst.next.mem
            exact absurd (hst.next.yes hb).1 (hno q h1 h2)
          | false => rfl
        · rintro ⟨y, hy, hyn, hyh⟩
          cases hb : b with
          | false => exact absurd hyh ((hst.next.no hb).1 y (hcand y hy hyn))
          | true =>
            simp only [List.length_cons, hlen]
            constructor
            · intro hlt
              rw [if_pos trivial, if_neg]
              simp only [beq_iff_eq]; omega
            · intro heq
              obtain ⟨h1, h2⟩ := hback q hst.next.mem
              refine ⟨q, h1, h2, _, second_is (hst.next.yes hb).1, ?_⟩
              rw [if_pos trivial, if_pos]
              simp only [beq_iff_eq]; omega
      | succ i =>
        simp only [List.getElem?_cons_succ] at ha
        obtain ⟨r1, r2, r3⟩ := hlab i a ha
        refine ⟨r1, ?_, ?_⟩
        · intro hno
          exact r2 (fun y hy hyn => by
            obtain ⟨h3, h4⟩ := (conv i y).2 ⟨hy, hyn⟩
            exact hno y h3 h4)
        · rintro ⟨y, hy, hyn, hyh⟩
          obtain ⟨h1, h2⟩ := (conv i y).1 ⟨hy, hyn⟩
          obtain ⟨t1, t2⟩ := r3 ⟨y, h1, h2, hyh⟩
          simp only [List.length_cons]
          refine ⟨fun hlt => t1 (by omega), fun heq => ?_⟩
          obtain ⟨z, hz, hzn, w⟩ := t2 (by omega)
          obtain ⟨h3, h4⟩ := (conv i z).2 ⟨hz, hzn⟩
          exact ⟨z, h3, h4, w⟩

/-! ### Places and contents of the panels -/

theorem zenLoop_pos {c : Calc F V (Num K)} {nrows ncols : Nat} : ∀ {n k : Nat} {s : ZenState F K}
    {ps : List (ZenPanel F V K)}, s.row = k / 2 → s.col = (k + 1) / 2 → Ordered s.left → zenLoop c nrows ncols n s = .ok ps →
    ∀ i p, ps[i]? = some p → p.pos = ((k + i) / 2, (k + i + 1) / 2) ∧ p.pos.1 < nrows ∧ p.pos.2 < ncols := by
  intro n
  induction n with
  | zero => intro k s ps _ _ _ h i p hp; rw [zenLoop_zero h] at hp; simp at hp
  | succ n ih =>
    intro k s ps hr hc ho h i p hp
    obtain ⟨p1, s', p0, q, b, ps', hst, hloop, rfl⟩ := zenLoop_inv ho h
    cases i with
    | zero =>
      simp only [List.getElem?_cons_zero, Option.some.injEq] at hp
      subst hp
      obtain ⟨_, h2, h3, h4⟩ := hst.pair_pos
      rw [h2, hr, hc]
      rw [hr] at h3
      rw [hc] at h4
      exact ⟨rfl, h3, h4⟩
    | succ i =>
      simp only [List.getElem?_cons_succ] at hp
      have h1 : s'.row = (k + 1) / 2 := by rw [hst.row, hr, hc]; split <;> omega
      have h2 : s'.col = (k + 1 + 1) / 2 := by rw [hst.col, hr, hc]; split <;> omega
      obtain ⟨e1, e2⟩ := ih h1 h2 (hst.ordered ho) hloop i p hp
      refine ⟨?_, e2⟩
      rw [e1]
      congr 2 <;> omega

/-- the values drawn in a panel -/
theorem zenLoop_data {c : Calc F V (Num K)} {nrows ncols : Nat} : ∀ {n : Nat} {s : ZenState F K}
    {ps : List (ZenPanel F V K)}, Ordered s.left → zenLoop c nrows ncols n s = .ok ps →
    ∀ p ∈ ps, ∃ t, getPdPairsValues c p.pair = .ok t ∧
      ((p.pos.1 < p.pos.2 ∧ p.xs = t.f2Values ∧ p.ys = t.f1Values ∧ p.mesh = t.pdValues) ∨
       (¬ p.pos.1 < p.pos.2 ∧ p.xs = t.f1Values ∧ p.ys = t.f2Values ∧ p.mesh = columns t.f2Values.length t.pdValues)) := by
  intro n
  induction n with
  | zero => intro s ps _ h p hp; rw [zenLoop_zero h] at hp; cases hp
  | succ n ih =>
    intro s ps ho h p hp
    obtain ⟨p1, s', p0, q, b, ps', hst, hloop, rfl⟩ := zenLoop_inv ho h
    rcases List.mem_cons.1 hp with rfl | hp
    · obtain ⟨t, ht, _, _, h3⟩ := zenPanel_inv hst.panel
      obtain ⟨e1, e2, e3, e4, e5⟩ := hst.same
      refine ⟨t, by rw [hst.pair_pos.1]; exact ht, ?_⟩
      rw [e2, e3, e4, e5, h3]
      by_cases hc : s.col > s.row
      · rw [if_pos hc]; exact Or.inl ⟨hc, rfl, rfl, rfl⟩
      · rw [if_neg hc]; exact Or.inr ⟨hc, rfl, rfl, rfl⟩
    · exact ih (hst.ordered ho) hloop p hp

/-! ### The loop returns -/

theorem length_le_one_of_eq {α : Type*} {l : List α} {a : α} (nd : l.Nodup) (h : ∀ y ∈ l, y = a) : l.length ≤ 1 := by
  cases l with
  | nil => simp
  | cons x l =>
    cases l with
    | nil => simp
    | cons y l =>
      have hx := h x (by simp)
      have hy := h y (by simp)
      rw [hx, hy] at nd
      simp at nd

theorem zenLoop_returns {c : Calc F V (Num K)} {nrows ncols : Nat} : ∀ {n k : Nat} {s : ZenState F K},
    s.row = k / 2 → s.col = (k + 1) / 2 → Ordered s.left → n ≤ s.left.length →
    (k + n + 1) / 2 ≤ nrows → (k + n) / 2 + 1 ≤ ncols →
    (∀ q ∈ s.left, q.2.val.isNaN = false) → (∃ t, getPdPairsValues c s.pair = .ok t) →
    (∀ q ∈ s.left, ∀ p, q.2.Is p → ∃ t, getPdPairsValues c p = .ok t) →
    ∃ ps, zenLoop c nrows ncols n s = .ok ps := by
  intro n
  induction n with
  | zero => intro k s _ _ _ _ _ _ _ _ _; exact ⟨[], rfl⟩
  | succ n ih =>
    intro k s hr hc ho hlen hn1 hn2 hnan ht htab
    have hne : s.left ≠ [] := by intro e; rw [e] at hlen; simp at hlen
    obtain ⟨t, ht⟩ := ht
    have hin : s.row < nrows ∧ s.col < ncols := by rw [hr, hc]; omega
    obtain ⟨idx, b, q, e2, e3⟩ := next_exists ho s.pair.2 hne hnan
    have hp : ∃ p0, zenPanel c nrows ncols s = .ok p0 := by
      unfold zenPanel
      rw [ht]
      simp only
      rw [if_pos hin]
      split <;> exact ⟨_, rfl⟩
    obtain ⟨p0, e1⟩ := hp
    have hstep : ∃ p s', zenStep c nrows ncols (n == 0) s = .ok (p, s') := by
      unfold zenStep
      rw [e1]
      simp only
      rw [e2]
      simp only
      rw [e3]
      simp only
      cases b <;> exact ⟨_, _, rfl⟩
    obtain ⟨p, s', hstep⟩ := hstep
    obtain ⟨p0, q, b, hst⟩ := zenStep_inv ho hstep
    have hsub : ∀ y ∈ s'.left, y ∈ s.left := by
      intro y hy; rw [hst.left] at hy; exact (List.mem_filter.1 hy).1
    have hlen' : n ≤ s'.left.length := by
      have hnd : (s.left.map Prod.fst).Nodup := by
        have : (s.left.map Prod.fst).Pairwise (· < ·) := List.pairwise_map.2 ho
        exact this.imp (fun h => ne_of_lt h)
      have : s.left.length ≤ s'.left.length + 1 := by
        rw [hst.left]
        have hcount := List.length_eq_length_filter_add (l := s.left) (fun q' => decide (q'.1 ≠ q.1))
        have hone : (s.left.filter (fun q' => !decide (q'.1 ≠ q.1))).length ≤ 1 := by
          have hsubl : ∀ y ∈ s.left.filter (fun q' => !decide (q'.1 ≠ q.1)), y = q := by
            intro y hy
            rw [List.mem_filter] at hy
            exact ho.inj hy.1 hst.next.mem (by simpa using hy.2)
          have hnd' : (s.left.filter (fun q' => !decide (q'.1 ≠ q.1))).Nodup := (List.Nodup.of_map _ hnd).filter _
          exact length_le_one_of_eq hnd' hsubl
        omega
      omega
    have h1 : s'.row = (k + 1) / 2 := by rw [hst.row, hr, hc]; split <;> omega
    have h2 : s'.col = (k + 1 + 1) / 2 := by rw [hst.col, hr, hc]; split <;> omega
    obtain ⟨ps, hps⟩ := ih h1 h2 (hst.ordered ho) hlen' (by omega) (by omega) (fun q hq => hnan q (hsub q hq))
      (htab q hst.next.mem _ hst.is) (fun q hq => htab q (hsub q hq))
    refine ⟨p :: ps, ?_⟩
    simp only [zenLoop, hstep, hps]

/-- too few candidates: the loop runs out of them -/
theorem zenLoop_short {c : Calc F V (Num K)} {nrows ncols : Nat} : ∀ {n k : Nat} {s : ZenState F K},
    s.row = k / 2 → s.col = (k + 1) / 2 → Ordered s.left → s.left.length < n →
    (k + n + 1) / 2 ≤ nrows → (k + n) / 2 + 1 ≤ ncols →
    (∀ q ∈ s.left, q.2.val.isNaN = false) → (∃ t, getPdPairsValues c s.pair = .ok t) →
    (∀ q ∈ s.left, ∀ p, q.2.Is p → ∃ t, getPdPairsValues c p = .ok t) →
    zenLoop c nrows ncols n s = .error .indexError := by
  intro n
  induction n with
  | zero => intro k s _ _ _ h; omega
  | succ n ih =>
    intro k s hr hc ho hlen hn1 hn2 hnan ht htab
    obtain ⟨t, ht⟩ := ht
    have hin : s.row < nrows ∧ s.col < ncols := by rw [hr, hc]; omega
    have hp : ∃ p0, zenPanel c nrows ncols s = .ok p0 := by
      unfold zenPanel
      rw [ht]
      simp only
      rw [if_pos hin]
      split <;> exact ⟨_, rfl⟩
    obtain ⟨p0, e1⟩ := hp
    by_cases hne : s.left = []
    · simp only [zenLoop, zenStep, e1, hne, findNextPairIndex, List.filter_nil]
    · obtain ⟨idx, b, q, e2, e3⟩ := next_exists ho s.pair.2 hne hnan
      have hstep : ∃ p s', zenStep c nrows ncols (n == 0) s = .ok (p, s') := by
        unfold zenStep
        rw [e1]
        simp only
        rw [e2]
        simp only
        rw [e3]
        simp only
        cases b <;> exact ⟨_, _, rfl⟩
      obtain ⟨p, s', hstep⟩ := hstep
      obtain ⟨p0, q, b, hst⟩ := zenStep_inv ho hstep
      have hsub : ∀ y ∈ s'.left, y ∈ s.left := by
        intro y hy; rw [hst.left] at hy; exact (List.mem_filter.1 hy).1
      have hlen' : s'.left.length < n := by
        have : s'.left.length < s.left.length := by
          rw [hst.left]
          exact List.length_filter_lt_length_iff_exists.2 ⟨q, hst.next.mem, by simp⟩
        omega
      have h1 : s'.row = (k + 1) / 2 := by rw [hst.row, hr, hc]; split <;> omega
      have h2 : s'.col = (k + 1 + 1) / 2 := by rw [hst.col, hr, hc]; split <;> omega
      have := ih h1 h2 (hst.ordered ho) hlen' (by omega) (by omega) (fun q hq => hnan q (hsub q hq))
        (htab q hst.next.mem _ hst.is) (fun q hq => htab q (hsub q hq))
      simp only [zenLoop, hstep, this]

end Artemis
