import Verif.Proofs.Basics
import Verif.Spec.PD

/-!
Generic proof of the batching engine shared by `calculate_pd_single`, `calculate_pd_pairs` and
`calculate_pd_minus_single`: each of them queues requests ("keys"), and flushes the queue through the
prediction function. The proof is done once for an abstract family of cells.
-/

namespace Artemis

variable {F V N : Type*} [DecidableEq F] [LinearOrder V] [Flt N]

/-- Shape of the tables relative to the stored data. -/
structure Shape (c : Calc F V N) : Prop where
  single_keys : c.pdSingle.keys = c.X.cols
  single : ∀ f t, c.pdSingle.get? f = some t →
    t.fValues = npUnique (c.X.col f) ∧ t.pdValues.length = t.fValues.length
  pair_keys : c.pdPairs.keys = combinations2 c.X.cols
  pair : ∀ p t, c.pdPairs.get? p = some t →
    t.f1Values = npUnique (c.X.col p.1) ∧ t.f2Values = npUnique (c.X.col p.2) ∧
    t.pdValues.length = t.f1Values.length ∧ ∀ row ∈ t.pdValues, row.length = t.f2Values.length
  minus_keys : c.pdMinus.keys = c.X.cols
  minus : ∀ f t, c.pdMinus.get? f = some t → t.length = c.X.len

/-- An abstract family of cache cells. -/
structure Fam (κ F V N : Type*) [DecidableEq κ] [DecidableEq F] [LinearOrder V] [Flt N] where
  cell : Calc F V N → κ → Option N
  block : Frame F V → κ → List (Row F V)
  same : κ → κ → Prop
  store : List N → κ × (Nat × Nat) → PyM (Calc F V N) Unit
  frm : Calc F V N → Calc F V N → Prop
  frm_refl : ∀ c, frm c c
  frm_trans : ∀ a b c, frm a b → frm b c → frm a c
  frm_cfg : ∀ a b, frm a b → b.X = a.X ∧ b.predict = a.predict ∧ b.batchsize = a.batchsize
  frm_call : ∀ c t, frm c { c with calls := t }
  cell_call : ∀ (c : Calc F V N) t k, cell { c with calls := t } k = cell c k
  block_len : ∀ c k, Shape c → (cell c k).isSome → (block c.X k).length = c.X.len
  pos : ∀ c k, Shape c → (cell c k).isSome → 0 < c.X.len
  store_spec : ∀ c y k r, Shape c → (cell c k).isSome →
    ∃ c', store y (k, r) c = (.ok (), c') ∧ Shape c' ∧ frm c c' ∧ c'.calls = c.calls ∧
      ∀ k', cell c' k' = if k' = k then some (Flt.mean (slice y r.1 r.2)) else cell c k'

namespace Fam
variable {κ : Type*} [DecidableEq κ] (fam : Fam κ F V N)

/-- generic `fill_*` -/
def fill (l : Loc κ F V) : PyM (Calc F V N) Unit :=
  PyM.seq (Calc.callPredict l.xFull) (fun y => PyM.forEach l.ranges (fam.store y))

/-- the mathematically right content of a cell -/
def truth (g : Row F V → N) (X : Frame F V) (k : κ) : N := Flt.mean ((fam.block X k).map g)

theorem forEach_store (y : List N) (rs : Dict κ (Nat × Nat)) (nd : rs.keys.Nodup) (c : Calc F V N)
    (hs : Shape c) (hk : ∀ k ∈ rs.keys, (fam.cell c k).isSome) :
    ∃ c', PyM.forEach rs (fam.store y) c = (.ok (), c') ∧ Shape c' ∧ fam.frm c c' ∧
      c'.calls = c.calls ∧
      ∀ k', fam.cell c' k' = match rs.get? k' with
        | some r => some (Flt.mean (slice y r.1 r.2))
        | none => fam.cell c k' := by
  induction rs generalizing c with
  | nil => exact ⟨c, rfl, hs, fam.frm_refl c, rfl, fun k' => rfl⟩
  | cons hd tl ih =>
    obtain ⟨k, r⟩ := hd
    simp only [Dict.keys, List.map_cons, List.nodup_cons] at nd
    obtain ⟨c1, h1, s1, f1, t1, e1⟩ := fam.store_spec c y k r hs (hk k (by simp [Dict.keys]))
    obtain ⟨c2, h2, s2, f2, t2, e2⟩ := ih nd.2 c1 s1 (by
      intro k' hk'
      rw [e1]; split
      · rfl
      · exact hk k' (by simp only [Dict.keys, List.map_cons]; exact List.mem_cons_of_mem _ hk'))
    refine ⟨c2, ?_, s2, fam.frm_trans _ _ _ f1 f2, t2.trans t1, ?_⟩
    · simp only [PyM.forEach, PyM.seq, h1, h2]
    · intro k'
      rw [e2]
      simp only [Dict.get?]
      by_cases hkk : k = k'
      · subst hkk
        have : Dict.get? tl k = none := (Dict.get?_eq_none_iff tl k).2 nd.1
        simp [this, e1]
      · simp only [hkk, if_false]
        cases hq : Dict.get? tl k' with
        | some r => rfl
        | none => simp only; rw [e1, if_neg (Ne.symm hkk)]

omit [DecidableEq F] [LinearOrder V] [Flt N] in
theorem shape_call [DecidableEq F] [LinearOrder V] [Flt N] {c : Calc F V N} (hs : Shape c) (t) :
    Shape { c with calls := t } :=
  ⟨hs.single_keys, hs.single, hs.pair_keys, hs.pair, hs.minus_keys, hs.minus⟩

/-- is the cell (still) NaN? -/
def unknown (c : Calc F V N) (k : κ) : Bool :=
  match fam.cell c k with
  | some x => Flt.isNaN x
  | none => false

/-- cells that are requested together are known together -/
def Uniform (c : Calc F V N) (P : List κ) : Prop :=
  ∀ k ∈ P, ∀ k' ∈ P, fam.same k k' → fam.unknown c k = fam.unknown c k'

/-- Invariant of the local variables. -/
structure LocOK (X : Frame F V) (l : Loc κ F V) : Prop where
  len : l.curLen = l.xFull.length
  nodup : l.ranges.keys.Nodup
  bound : ∀ k s e, l.ranges.get? k = some (s, e) → e ≤ l.xFull.length
  blocks : ∀ k s e, l.ranges.get? k = some (s, e) → slice l.xFull s e = fam.block X k

theorem locOK_empty (X : Frame F V) : LocOK fam X (Loc.empty : Loc κ F V) :=
  ⟨rfl, by simp [Loc.empty, Dict.keys], by simp [Loc.empty, Dict.get?], by simp [Loc.empty, Dict.get?]⟩

theorem LocOK.add {X : Frame F V} {l : Loc κ F V} (h : LocOK fam X l) (k : κ)
    (hb : (fam.block X k).length = X.len) : LocOK fam X (l.add X.len k (fam.block X k)) := by
  constructor
  · simp [Loc.add, h.len, hb]
  · exact Dict.nodup_keys_set h.nodup _ _
  · intro k' s e hg
    simp only [Loc.add, Dict.get?_set] at hg ⊢
    split at hg
    · simp only [Option.some.injEq, Prod.mk.injEq] at hg
      simp [← hg.2, h.len, hb]
    · have := h.bound _ _ _ hg
      simp; omega
  · intro k' s e hg
    simp only [Loc.add, Dict.get?_set] at hg ⊢
    split at hg
    · next hk =>
      simp only [Option.some.injEq, Prod.mk.injEq] at hg
      subst hk
      rw [← hg.1, ← hg.2, h.len, ← hb]
      exact slice_append_right _ _
    · rw [slice_append_left (h.bound _ _ _ hg)]
      exact h.blocks _ _ _ hg

/-- Invariant of a running `calculate_*` call started in `c0`, after the keys `P` were requested.
`B` bounds the number of rows one step of the loop may queue. -/
structure RInv (g : Row F V → N) (B : Nat) (c0 : Calc F V N) (P : List κ)
    (c : Calc F V N) (l : Loc κ F V) : Prop where
  shape : Shape c
  frm : fam.frm c0 c
  loc : LocOK fam c.X l
  pend : ∀ k ∈ l.ranges.keys, (fam.cell c k).isSome ∧ k ∈ P
  valid : ∀ k ∈ P, (fam.cell c0 k).isSome
  keep : ∀ k, k ∉ P → fam.cell c k = fam.cell c0 k
  dom : ∀ k, (fam.cell c k).isSome = (fam.cell c0 k).isSome
  done : ∀ k ∈ P, fam.cell c k = some (fam.truth g c.X k) ∨
    (k ∈ l.ranges.keys ∧ fam.cell c k = fam.cell c0 k)
  queue : ∃ ks : List κ, l.xFull = ks.flatMap (fam.block c.X) ∧ ∀ k ∈ ks, k ∈ P
  small : (l.curLen : Int) ≤ max c.batchsize 0
  ranges_pos : l.ranges.keys ≠ [] → 0 < l.curLen
  trace : ∃ new, c.calls = c0.calls ++ new ∧ ∀ r ∈ new,
    (∃ ks : List κ, r = ks.flatMap (fam.block c.X) ∧ ∀ k ∈ ks, k ∈ P) ∧
    0 < r.length ∧ c.batchsize < r.length ∧ (r.length : Int) ≤ max c.batchsize 0 + B
  once : P.Nodup → fam.Uniform c0 P →
    c.calls.flatten ++ l.xFull = c0.calls.flatten ++ (P.filter (fam.unknown c0)).flatMap (fam.block c.X)
  atMost : ∃ q, c.calls.flatten ++ l.xFull = c0.calls.flatten ++ q ∧
    q.Sublist (P.flatMap (fam.block c.X))

/-- What remains true when a call fails half-way. -/
structure EInv (g : Row F V → N) (P : List κ) (c0 c : Calc F V N) : Prop where
  shape : Shape c
  frm : fam.frm c0 c
  keep : ∀ k, k ∉ P → fam.cell c k = fam.cell c0 k
  cells : ∀ k, fam.cell c k = fam.cell c0 k ∨
    ((fam.cell c0 k).isSome ∧ fam.cell c k = some (fam.truth g c.X k))
  trace : ∃ new, c.calls = c0.calls ++ new

/-- Every non-NaN cell is right. -/
def Sound (g : Row F V → N) (c : Calc F V N) : Prop :=
  ∀ k x, fam.cell c k = some x → x = Flt.nan ∨ x = fam.truth g c.X k

variable {fam}

theorem RInv.toE {g : Row F V → N} {B : Nat} {c0 c : Calc F V N} {P : List κ} {l : Loc κ F V}
    (h : RInv fam g B c0 P c l) : EInv fam g P c0 c := by
  refine ⟨h.shape, h.frm, h.keep, ?_, h.trace.imp (fun _ hn => hn.1)⟩
  intro k
  by_cases hk : k ∈ P
  · rcases h.done k hk with hd | hd
    · exact Or.inr ⟨h.valid k hk, hd⟩
    · exact Or.inl hd.2
  · exact Or.inl (h.keep k hk)

theorem EInv.mono {g : Row F V → N} {P P' : List κ} {c0 c : Calc F V N} (h : EInv fam g P c0 c)
    (hP : ∀ k ∈ P, k ∈ P') : EInv fam g P' c0 c :=
  ⟨h.shape, h.frm, fun k hk => h.keep k (fun hc => hk (hP k hc)), h.cells, h.trace⟩

/-- `body` serves exactly the keys `keys`; `bad` is the only cause of failure besides the prediction
function. -/
def Steps (fam : Fam κ F V N) (g : Row F V → N) (B : Nat) (X : Frame F V) (bad : Prop)
    (body : PyM (Run κ F V N) Unit) (keys : List κ) : Prop :=
  ∀ c0 P c l, fam.Sound g c0 → RowWise g c0.predict → c0.X = X → RInv fam g B c0 P c l →
    match body (c, l) with
    | (.ok _, s) => ¬ bad ∧ RInv fam g B c0 (P ++ keys) s.1 s.2
    | (.error e, s) => EInv fam g (P ++ keys) c0 s.1 ∧ ((bad ∧ e = .keyError) ∨ ∃ n rows, c0.predict n rows = .error e)

/-- The core lemma: flushing the queue. The sizes of the queue are passed as hypotheses. -/
theorem flush_core {g : Row F V → N} {c0 c : Calc F V N} {P : List κ}
    {l : Loc κ F V} (hw : RowWise g c0.predict)
    (shape : Shape c) (frm : fam.frm c0 c) (loc : LocOK fam c.X l)
    (pend : ∀ k ∈ l.ranges.keys, (fam.cell c k).isSome ∧ k ∈ P)
    (valid : ∀ k ∈ P, (fam.cell c0 k).isSome)
    (keep : ∀ k, k ∉ P → fam.cell c k = fam.cell c0 k)
    (dom : ∀ k, (fam.cell c k).isSome = (fam.cell c0 k).isSome)
    (done : ∀ k ∈ P, fam.cell c k = some (fam.truth g c.X k) ∨
      (k ∈ l.ranges.keys ∧ fam.cell c k = fam.cell c0 k))
    (trace : ∃ new, c.calls = c0.calls ++ new) :
    match flush fam.fill (c, l) with
    | (.ok _, s) => Shape s.1 ∧ fam.frm c0 s.1 ∧ s.2 = Loc.empty ∧
        (∀ k, k ∉ P → fam.cell s.1 k = fam.cell c0 k) ∧
        (∀ k, (fam.cell s.1 k).isSome = (fam.cell c0 k).isSome) ∧
        (∀ k ∈ P, fam.cell s.1 k = some (fam.truth g s.1.X k)) ∧
        s.1.calls = c.calls ++ [l.xFull]
    | (.error e, s) => EInv fam g P c0 s.1 ∧ (∃ n rows, c0.predict n rows = .error e) := by
  have hcfg := fam.frm_cfg _ _ frm
  set c1 : Calc F V N := { c with calls := c.calls ++ [l.xFull] } with hc1
  have s1 : Shape c1 := shape_call shape _
  have f1 : fam.frm c0 c1 := fam.frm_trans _ _ _ frm (fam.frm_call c _)
  have e1 : ∀ k, fam.cell c1 k = fam.cell c k := fam.cell_call c _
  unfold flush fill
  simp only [PyM.seq, Calc.callPredict]
  cases hp : c.predict c.calls.length l.xFull with
  | error e =>
    simp only
    rw [← hc1]
    refine ⟨⟨s1, f1, fun k hk => (e1 k).trans (keep k hk), ?_, ?_⟩, c.calls.length, l.xFull, by rw [← hcfg.2.1]; exact hp⟩
    · intro k
      rw [e1]
      by_cases hk : k ∈ P
      · rcases done k hk with hd | hd
        · exact Or.inr ⟨valid k hk, hd⟩
        · exact Or.inl hd.2
      · exact Or.inl (keep k hk)
    · obtain ⟨new, hn⟩ := trace
      exact ⟨new ++ [l.xFull], by simp [hc1, hn]⟩
  | ok y =>
    simp only
    rw [← hc1]
    have hy : y = l.xFull.map g := hw _ _ _ (by rw [← hcfg.2.1]; exact hp)
    obtain ⟨c2, h2, s2, f2, t2, e2⟩ := fam.forEach_store y l.ranges loc.nodup c1 s1
      (fun k hk => by rw [e1]; exact (pend k hk).1)
    rw [h2]
    simp only
    have hX : c2.X = c.X := (fam.frm_cfg _ _ f2).1
    have tr : ∀ k r, l.ranges.get? k = some r →
        some (Flt.mean (slice y r.1 r.2)) = some (fam.truth g c2.X k) := by
      intro k r hr
      rw [hy, slice_map, loc.blocks k r.1 r.2 hr, hX]; rfl
    refine ⟨s2, fam.frm_trans _ _ _ f1 f2, ?_, ?_, ?_, ?_, ?_⟩
    · first | rfl | trivial
    · intro k hk
      rw [e2]
      have : l.ranges.get? k = none := by
        rw [Dict.get?_eq_none_iff]; exact fun hc => hk (pend k hc).2
      rw [this]; simp only; rw [e1]; exact keep k hk
    · intro k
      rw [e2]
      cases hr : l.ranges.get? k with
      | none => simp only; rw [e1]; exact dom k
      | some r =>
        simp only
        have hk : k ∈ l.ranges.keys := by rw [← Dict.get?_isSome_iff, hr]; rfl
        rw [← dom k, (pend k hk).1]; rfl
    · intro k hk
      rw [e2]
      cases hr : l.ranges.get? k with
      | some r => simp only; exact tr k r hr
      | none =>
        simp only; rw [e1, hX]
        rcases done k hk with hd | hd
        · exact hd
        · exact absurd hd.1 ((Dict.get?_eq_none_iff _ _).1 hr)
    · rw [t2]

/-- queue several requests -/
def addAll (fam : Fam κ F V N) (X : Frame F V) (l : Loc κ F V) (ks : List κ) : Loc κ F V :=
  ks.foldl (fun l k => l.add X.len k (fam.block X k)) l

theorem addAll_spec {X : Frame F V} {l : Loc κ F V} (h : LocOK fam X l) (ks : List κ)
    (hb : ∀ k ∈ ks, (fam.block X k).length = X.len) :
    LocOK fam X (addAll fam X l ks) ∧
    (∀ k, k ∈ (addAll fam X l ks).ranges.keys ↔ k ∈ ks ∨ k ∈ l.ranges.keys) ∧
    (addAll fam X l ks).curLen = l.curLen + ks.length * X.len ∧
    (addAll fam X l ks).xFull = l.xFull ++ ks.flatMap (fam.block X) := by
  induction ks generalizing l with
  | nil => simp [addAll, h]
  | cons k ks ih =>
    have h1 := h.add fam k (hb k (by simp))
    obtain ⟨a, b, c, d⟩ := ih h1 (fun k' hk' => hb k' (List.mem_cons_of_mem _ hk'))
    refine ⟨a, ?_, ?_, ?_⟩
    · intro k'
      have := b k'
      simp only [addAll, List.foldl_cons] at this ⊢
      rw [this]
      simp only [Loc.add, Dict.mem_keys_set, List.mem_cons]
      tauto
    · simp only [addAll, List.foldl_cons] at c ⊢
      rw [c]; simp only [Loc.add, List.length_cons]; rw [Nat.add_mul]; omega
    · simp only [addAll, List.foldl_cons] at d ⊢
      rw [d]; simp [Loc.add]

theorem steps_group {g : Row F V → N} {B : Nat} {X : Frame F V} {body : PyM (Run κ F V N) Unit}
    {keys : List κ} (hB : keys.length * X.len ≤ B) (hsame : ∀ k ∈ keys, ∀ k' ∈ keys, fam.same k k')
    (hbody : ∀ (c : Calc F V N) l, Shape c → c.X = X → (∀ k ∈ keys, (fam.cell c k).isSome) ∧
      ((body (c, l) = (.ok (), (c, l)) ∧
          ∀ k ∈ keys, ∀ x, fam.cell c k = some x → Flt.isNaN x = false) ∨
       ((∃ k ∈ keys, ∃ x, fam.cell c k = some x ∧ Flt.isNaN x = true) ∧ body (c, l) = flushIfFull fam.fill (c, addAll fam X l keys)))) :
    Steps fam g B X False body keys := by
  intro c0 P c l hsound hw hX0 h
  have hcfg := fam.frm_cfg _ _ h.frm
  have hX : c.X = X := hcfg.1.trans hX0
  obtain ⟨hex, hb⟩ := hbody c l h.shape hX
  have hvalid : ∀ k ∈ P ++ keys, (fam.cell c0 k).isSome := by
    intro k hk
    rcases List.mem_append.1 hk with hk | hk
    · exact h.valid k hk
    · rw [← h.dom]; exact hex k hk
  rcases hb with ⟨hb, hnn⟩ | ⟨⟨ku, hku, xu, hxu, hnu⟩, hb⟩
  · rw [hb]
    refine ⟨fun h => h, h.shape, h.frm, h.loc, ?_, hvalid, ?_, h.dom, ?_, ?_, h.small, h.ranges_pos, ?_,
      ?_, ?_⟩
    · intro k hk; exact ⟨(h.pend k hk).1, List.mem_append_left _ (h.pend k hk).2⟩
    · intro k hk; exact h.keep k (fun hc => hk (List.mem_append_left _ hc))
    · intro k hk
      by_cases hP : k ∈ P
      · exact h.done k hP
      · have hk' : k ∈ keys := (List.mem_append.1 hk).resolve_left hP
        obtain ⟨x, hx⟩ := Option.isSome_iff_exists.1 (hex k hk')
        left
        have hx0 := hx
        rw [h.keep k hP] at hx0
        rcases hsound k x hx0 with hn | hn
        · have := hnn k hk' x hx
          rw [hn, Flt.isNaN_nan] at this; exact absurd this (by simp)
        · simp only; rw [hx, hn, hcfg.1]
    · obtain ⟨ks, e, hks⟩ := h.queue
      exact ⟨ks, e, fun k hk => List.mem_append_left _ (hks k hk)⟩
    · obtain ⟨new, e, hnew⟩ := h.trace
      refine ⟨new, e, fun r hr => ?_⟩
      obtain ⟨⟨ks, e', hks⟩, rest⟩ := hnew r hr
      exact ⟨⟨ks, e', fun k hk => List.mem_append_left _ (hks k hk)⟩, rest⟩
    · intro hnd hun
      have hk0 : keys.filter (fam.unknown c0) = [] := by
        rw [List.filter_eq_nil_iff]
        intro k hk
        have hkP : k ∉ P := fun hc => (List.nodup_append.1 hnd).2.2 k hc k hk rfl
        obtain ⟨x, hx⟩ := Option.isSome_iff_exists.1 (hex k hk)
        have h1 := hnn k hk x hx
        rw [h.keep k hkP] at hx
        simp [unknown, hx, h1]
      rw [List.filter_append, hk0, List.append_nil]
      exact h.once (List.nodup_append.1 hnd).1
        (fun k hk k' hk' => hun k (List.mem_append_left _ hk) k' (List.mem_append_left _ hk'))
    · obtain ⟨q, e, hq⟩ := h.atMost
      refine ⟨q, e, hq.trans ?_⟩
      rw [List.flatMap_append]
      exact List.sublist_append_left _ _
  · rw [hb]
    have hne : keys ≠ [] := List.ne_nil_of_mem hku
    have hblk : ∀ k ∈ keys, (fam.block X k).length = X.len := by
      intro k hk; rw [← hX]; exact fam.block_len c k h.shape (hex k hk)
    have hpos : 0 < X.len := by
      obtain ⟨k, hk⟩ := List.exists_mem_of_ne_nil keys hne
      rw [← hX]; exact fam.pos c k h.shape (hex k hk)
    have hkl : 0 < keys.length * X.len :=
      Nat.mul_pos (List.length_pos_of_ne_nil hne) hpos
    obtain ⟨lok, lk, ll, lx⟩ := addAll_spec (fam := fam) (hX ▸ h.loc) keys hblk
    set l' := addAll fam X l keys with hl'
    have lok' : LocOK fam c.X l' := hX ▸ lok
    have pend' : ∀ k ∈ l'.ranges.keys, (fam.cell c k).isSome ∧ k ∈ P ++ keys := by
      intro k hk
      rcases (lk k).1 hk with hk | hk
      · exact ⟨hex k hk, List.mem_append_right _ hk⟩
      · exact ⟨(h.pend k hk).1, List.mem_append_left _ (h.pend k hk).2⟩
    have keep' : ∀ k, k ∉ P ++ keys → fam.cell c k = fam.cell c0 k :=
      fun k hk => h.keep k (fun hc => hk (List.mem_append_left _ hc))
    have done' : ∀ k ∈ P ++ keys, fam.cell c k = some (fam.truth g c.X k) ∨
        (k ∈ l'.ranges.keys ∧ fam.cell c k = fam.cell c0 k) := by
      intro k hk
      by_cases hP : k ∈ P
      · rcases h.done k hP with hd | hd
        · exact Or.inl hd
        · exact Or.inr ⟨(lk k).2 (Or.inr hd.1), hd.2⟩
      · exact Or.inr ⟨(lk k).2 (Or.inl ((List.mem_append.1 hk).resolve_left hP)), h.keep k hP⟩
    have queue' : ∃ ks : List κ, l'.xFull = ks.flatMap (fam.block c.X) ∧ ∀ k ∈ ks, k ∈ P ++ keys := by
      obtain ⟨ks, e, hks⟩ := h.queue
      refine ⟨ks ++ keys, by rw [lx, e, List.flatMap_append, hX], ?_⟩
      intro k hk
      rcases List.mem_append.1 hk with hk | hk
      · exact List.mem_append_left _ (hks k hk)
      · exact List.mem_append_right _ hk
    have trace' : ∃ new, c.calls = c0.calls ++ new ∧ ∀ r ∈ new,
        (∃ ks : List κ, r = ks.flatMap (fam.block c.X) ∧ ∀ k ∈ ks, k ∈ P ++ keys) ∧
        0 < r.length ∧ c.batchsize < r.length ∧ (r.length : Int) ≤ max c.batchsize 0 + B := by
      obtain ⟨new, e, hnew⟩ := h.trace
      refine ⟨new, e, fun r hr => ?_⟩
      obtain ⟨⟨ks, e', hks⟩, rest⟩ := hnew r hr
      exact ⟨⟨ks, e', fun k hk => List.mem_append_left _ (hks k hk)⟩, rest⟩
    have once' : (P ++ keys).Nodup → fam.Uniform c0 (P ++ keys) →
        c.calls.flatten ++ l'.xFull =
          c0.calls.flatten ++ ((P ++ keys).filter (fam.unknown c0)).flatMap (fam.block c.X) := by
      intro hnd hun
      have hku0 : fam.unknown c0 ku = true := by
        have hkP : ku ∉ P := fun hc => (List.nodup_append.1 hnd).2.2 ku hc ku hku rfl
        rw [h.keep ku hkP] at hxu
        simp [unknown, hxu, hnu]
      have hk0 : keys.filter (fam.unknown c0) = keys := by
        rw [List.filter_eq_self]
        intro k hk
        rw [← hku0]
        exact hun k (List.mem_append_right _ hk) ku (List.mem_append_right _ hku) (hsame k hk ku hku)
      rw [lx, ← List.append_assoc, h.once (List.nodup_append.1 hnd).1
        (fun k hk k' hk' => hun k (List.mem_append_left _ hk) k' (List.mem_append_left _ hk')),
        List.filter_append, hk0, List.flatMap_append, hX, List.append_assoc]
    have atMost' : ∃ q, c.calls.flatten ++ l'.xFull = c0.calls.flatten ++ q ∧
        q.Sublist ((P ++ keys).flatMap (fam.block c.X)) := by
      obtain ⟨q, e, hq⟩ := h.atMost
      refine ⟨q ++ keys.flatMap (fam.block X), ?_, ?_⟩
      · rw [lx, ← List.append_assoc, e, List.append_assoc]
      · rw [List.flatMap_append, ← hX]
        exact hq.append (List.Sublist.refl _)
    unfold flushIfFull
    by_cases hfull : (l'.curLen : Int) > c.batchsize
    · simp only [hfull, if_true]
      have core := flush_core (fam := fam) hw h.shape h.frm lok' pend' hvalid keep' h.dom done'
        (trace'.imp (fun _ hn => hn.1))
      cases hf : flush fam.fill (c, l') with
      | mk r s =>
        rw [hf] at core
        cases r with
        | error e => exact ⟨core.1, Or.inr core.2⟩
        | ok u =>
          obtain ⟨c1, c2, c3, c4, c5, c6, c7⟩ := core
          have hcfg' := fam.frm_cfg _ _ c2
          refine ⟨fun h => h, c1, c2, ?_, ?_, hvalid, c4, c5, ?_, ?_, ?_, ?_, ?_, ?_, ?_⟩
          · rw [c3]; exact locOK_empty fam _
          · rw [c3]; simp [Loc.empty, Dict.keys]
          · intro k hk; exact Or.inl (c6 k hk)
          · rw [c3]; exact ⟨[], by simp [Loc.empty], by simp⟩
          · rw [c3]; simp [Loc.empty]
          · rw [c3]; simp [Loc.empty, Dict.keys]
          · obtain ⟨new, e, hnew⟩ := trace'
            refine ⟨new ++ [l'.xFull], by rw [c7, e, List.append_assoc], ?_⟩
            have hXX : s.1.X = c.X := hcfg'.1.trans hcfg.1.symm
            have hBB : s.1.batchsize = c.batchsize := hcfg'.2.2.trans hcfg.2.2.symm
            rw [hXX, hBB]
            intro r hr
            rcases List.mem_append.1 hr with hr | hr
            · exact hnew r hr
            · rw [List.mem_singleton] at hr
              subst hr
              have hlen := lok.len
              have hsm := h.small
              refine ⟨queue', ?_, ?_, ?_⟩
              · omega
              · omega
              · rw [← hlen, ll]; push_cast at *; omega
          · have hXX : s.1.X = c.X := hcfg'.1.trans hcfg.1.symm
            intro hnd hnan
            rw [c7, c3, hXX, ← once' hnd hnan]
            simp [Loc.empty]
          · have hXX : s.1.X = c.X := hcfg'.1.trans hcfg.1.symm
            obtain ⟨q, e, hq⟩ := atMost'
            refine ⟨q, ?_, by rw [hXX]; exact hq⟩
            rw [c7, c3, ← e]
            simp [Loc.empty]
    · simp only [hfull, if_false]
      refine ⟨fun h => h, h.shape, h.frm, lok', pend', hvalid, keep', h.dom, done', queue', ?_, ?_, trace',
        once', atMost'⟩
      · omega
      · intro _; omega

theorem steps_raise {g : Row F V → N} {B : Nat} {X : Frame F V} {body : PyM (Run κ F V N) Unit}
    {keys : List κ} (h : ∀ (c : Calc F V N) l, Shape c → c.X = X → body (c, l) = (.error .keyError, (c, l))) :
    Steps fam g B X True body keys := by
  intro c0 P c l hsound hw hX0 hr
  rw [h c l hr.shape ((fam.frm_cfg _ _ hr.frm).1.trans hX0)]
  exact ⟨hr.toE.mono (fun k hk => List.mem_append_left _ hk), Or.inl ⟨trivial, rfl⟩⟩

theorem steps_ret {g : Row F V → N} {B : Nat} {X : Frame F V} :
    Steps fam g B X False (PyM.ret ()) [] := by
  intro c0 P c l _ _ _ hr
  simpa [PyM.ret] using hr

theorem steps_seq {g : Row F V → N} {B : Nat} {X : Frame F V} {b1 b2 : PyM (Run κ F V N) Unit}
    {k1 k2 : List κ} {bad1 bad2 : Prop} (h1 : Steps fam g B X bad1 b1 k1)
    (h2 : Steps fam g B X bad2 b2 k2) :
    Steps fam g B X (bad1 ∨ bad2) (PyM.seq b1 (fun _ => b2)) (k1 ++ k2) := by
  intro c0 P c l hs hw hX hr
  have a1 := h1 c0 P c l hs hw hX hr
  unfold PyM.seq
  cases e1 : b1 (c, l) with
  | mk r s =>
    rw [e1] at a1
    cases r with
    | error e =>
      exact ⟨a1.1.mono (fun k hk => by rw [← List.append_assoc]; exact List.mem_append_left _ hk),
        a1.2.imp (And.imp_left Or.inl) id⟩
    | ok u =>
      obtain ⟨n1, r1⟩ := a1
      have a2 := h2 c0 (P ++ k1) s.1 s.2 hs hw hX r1
      simp only
      cases e2 : b2 (s.1, s.2) with
      | mk r' s' =>
        rw [e2] at a2
        cases r' with
        | error e => exact ⟨by rw [← List.append_assoc]; exact a2.1, a2.2.imp (And.imp_left Or.inr) id⟩
        | ok u => exact ⟨fun h => h.elim n1 a2.1, by rw [← List.append_assoc]; exact a2.2⟩

theorem Steps.congr_bad {g : Row F V → N} {B : Nat} {X : Frame F V} {b : PyM (Run κ F V N) Unit}
    {k : List κ} {bad bad' : Prop} (h : Steps fam g B X bad b k) (hb : bad ↔ bad') :
    Steps fam g B X bad' b k := by
  rwa [propext hb] at h

theorem steps_forEach {α : Type*} {g : Row F V → N} {B : Nat} {X : Frame F V}
    (as : List α) (body : α → PyM (Run κ F V N) Unit) (keys : α → List κ) (bad : α → Prop)
    (h : ∀ a ∈ as, Steps fam g B X (bad a) (body a) (keys a)) :
    Steps fam g B X (∃ a ∈ as, bad a) (PyM.forEach as body) (as.flatMap keys) := by
  induction as with
  | nil => exact steps_ret.congr_bad (by simp)
  | cons a as ih =>
    have := steps_seq (h a (by simp)) (ih (fun a' ha' => h a' (List.mem_cons_of_mem _ ha')))
    simp only [PyM.forEach, List.flatMap_cons]
    exact this.congr_bad (by simp)

/-- Postcondition of a successful `calculate_*` call that requested `keys`. -/
structure Post (fam : Fam κ F V N) (g : Row F V → N) (B : Nat) (keys : List κ)
    (c0 c : Calc F V N) : Prop where
  shape : Shape c
  frm : fam.frm c0 c
  valid : ∀ k ∈ keys, (fam.cell c0 k).isSome
  keep : ∀ k, k ∉ keys → fam.cell c k = fam.cell c0 k
  done : ∀ k ∈ keys, fam.cell c k = some (fam.truth g c.X k)
  trace : ∃ new, c.calls = c0.calls ++ new ∧
    (∀ r ∈ new, (∃ ks : List κ, r = ks.flatMap (fam.block c.X) ∧ ∀ k ∈ ks, k ∈ keys) ∧
      0 < r.length ∧ (r.length : Int) ≤ max c.batchsize 0 + B) ∧
    ∀ r ∈ new.dropLast, c.batchsize < r.length
  once : keys.Nodup → fam.Uniform c0 keys →
    c.calls.flatten = c0.calls.flatten ++ (keys.filter (fam.unknown c0)).flatMap (fam.block c.X)
  atMost : ∃ q, c.calls.flatten = c0.calls.flatten ++ q ∧ q.Sublist (keys.flatMap (fam.block c.X))

theorem run_spec {g : Row F V → N} {B : Nat} {X : Frame F V} {bad : Prop}
    {body : PyM (Run κ F V N) Unit} {keys : List κ} (hb : Steps fam g B X bad body keys)
    {c0 : Calc F V N} (hshape : Shape c0) (hs : fam.Sound g c0) (hw : RowWise g c0.predict)
    (hX : c0.X = X) :
    match withLoc (PyM.seq body (fun _ => flushRest fam.fill)) c0 with
    | (.ok _, c) => ¬ bad ∧ Post fam g B keys c0 c
    | (.error e, c) => EInv fam g keys c0 c ∧ ((bad ∧ e = .keyError) ∨ ∃ n rows, c0.predict n rows = .error e) := by
  have init : RInv fam g B c0 [] c0 Loc.empty := by
    refine ⟨hshape, fam.frm_refl _, locOK_empty fam _, ?_, by simp, fun _ _ => rfl, fun _ => rfl,
      by simp, ⟨[], by simp [Loc.empty], by simp⟩, ?_, ?_, ⟨[], by simp⟩,
      fun _ _ => by simp [Loc.empty], ⟨[], by simp [Loc.empty], by simp⟩⟩
    · simp [Loc.empty, Dict.keys]
    · simp [Loc.empty]
    · simp [Loc.empty, Dict.keys]
  have a := hb c0 [] c0 Loc.empty hs hw hX init
  unfold withLoc PyM.seq
  cases e1 : body (c0, Loc.empty) with
  | mk r s =>
    rw [e1] at a
    cases r with
    | error e => rw [List.nil_append] at a; exact a
    | ok u =>
      obtain ⟨nb, h⟩ := a
      rw [List.nil_append] at h
      simp only
      unfold flushRest
      by_cases hpos : s.2.curLen > 0
      · simp only [hpos, if_true]
        have core := flush_core (fam := fam) hw h.shape h.frm h.loc h.pend h.valid h.keep h.dom h.done
          (h.trace.imp (fun _ hn => hn.1))
        have hcfg := fam.frm_cfg _ _ h.frm
        cases hf : flush fam.fill (s.1, s.2) with
        | mk r' s' =>
          rw [hf] at core
          cases r' with
          | error e => exact ⟨core.1, Or.inr core.2⟩
          | ok u =>
            obtain ⟨c1, c2, c3, c4, c5, c6, c7⟩ := core
            have hcfg' := fam.frm_cfg _ _ c2
            have hXX : s'.1.X = s.1.X := hcfg'.1.trans hcfg.1.symm
            have hBB : s'.1.batchsize = s.1.batchsize := hcfg'.2.2.trans hcfg.2.2.symm
            refine ⟨nb, c1, c2, h.valid, c4, c6, ?_, ?_, ?_⟩
            · obtain ⟨new, e, hnew⟩ := h.trace
              refine ⟨new ++ [s.2.xFull], by rw [c7, e, List.append_assoc], ?_, ?_⟩
              · simp only [hXX, hBB]
                intro r hr
                rcases List.mem_append.1 hr with hr | hr
                · exact ⟨(hnew r hr).1, (hnew r hr).2.1, (hnew r hr).2.2.2⟩
                · rw [List.mem_singleton] at hr
                  subst hr
                  have := h.loc.len
                  have := h.small
                  exact ⟨h.queue, by omega, by omega⟩
              · simp only [List.dropLast_concat, hBB]
                intro r hr; exact (hnew r hr).2.2.1
            · intro hnd hnan
              rw [c7, hXX, ← h.once hnd hnan]
              simp
            · obtain ⟨q, e, hq⟩ := h.atMost
              exact ⟨q, by rw [c7, ← e]; simp, by rw [hXX]; exact hq⟩
      · simp only [hpos, if_false]
        have hx0 : s.2.xFull = [] := by
          have := h.loc.len
          exact List.length_eq_zero_iff.1 (by omega)
        refine ⟨nb, h.shape, h.frm, h.valid, h.keep, ?_, ?_, ?_, ?_⟩
        · intro k hk
          rcases h.done k hk with hd | hd
          · exact hd
          · exact absurd (h.ranges_pos (List.ne_nil_of_mem hd.1)) hpos
        · obtain ⟨new, e, hnew⟩ := h.trace
          refine ⟨new, e, ?_, ?_⟩
          · intro r hr
            exact ⟨(hnew r hr).1, (hnew r hr).2.1, (hnew r hr).2.2.2⟩
          · intro r hr
            exact (hnew r (List.dropLast_subset _ hr)).2.2.1
        · intro hnd hnan
          rw [← h.once hnd hnan, hx0, List.append_nil]
        · obtain ⟨q, e, hq⟩ := h.atMost
          exact ⟨q, by rw [← e, hx0, List.append_nil], hq⟩

end Fam
end Artemis
