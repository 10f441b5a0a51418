import Verif.Proofs.HandleLemmas
import Verif.Props.PD

/-!
# Property C132: arrays returned by the partial dependence calculator

A caller keeps the arrays the lookups return and may write into them. Statements about sessions: any calls of `calculate_*`, lookups and
writes in any order, the exceptions caught.
-/

set_option linter.unusedSectionVars false
set_option linter.unusedVariables false
set_option linter.unusedSimpArgs false

namespace Artemis
open Spec

variable {F V N : Type} [DecidableEq F] [LinearOrder V] [Flt N]

namespace Spec
/-- the calculations among the steps of a caller -/
def calculations : List (CallerOp F V N) → List (PDOp F)
  | [] => []
  | .compute op :: ops => op :: calculations ops
  | _ :: ops => calculations ops

/-- a lookup that returns an array of the calculator -/
def ReturnsInner : CallerOp F V N → Prop
  | .getSingle _ none => True
  | .getPairs _ _ none => True
  | .getMinus _ => True
  | _ => False

def IsWrite : CallerOp F V N → Prop
  | .write _ _ _ _ => True
  | _ => False

/-- no write to the `h`-th array -/
def NotInto (h : Nat) : CallerOp F V N → Prop
  | .write h' _ _ _ => h' ≠ h
  | _ => True

/-- every write of the session goes to an array that is the caller's own -/
def WritesOwn : Session F V N → List (CallerOp F V N) → Prop
  | _, [] => True
  | s, op :: ops => (∀ h i j x, op = .write h i j x → ∀ a, s.got[h]? ≠ some (.ofCalc a)) ∧ WritesOwn (op.run s).2 ops

/-- every write of the session goes to an array that is the caller's own or writes NaN -/
def WritesOwnOrNaN : Session F V N → List (CallerOp F V N) → Prop
  | _, [] => True
  | s, op :: ops => (∀ h i j x, op = .write h i j x → x = Flt.nan ∨ ∀ a, s.got[h]? ≠ some (.ofCalc a)) ∧ WritesOwnOrNaN (op.run s).2 ops
end Spec

/-! ### Sessions -/

theorem keep_cal (s : Session F V N) (r : Except Err (Handle F N)) : (s.keep r).2.cal = s.cal := by
  cases r <;> rfl

theorem keep_got (s : Session F V N) (r : Except Err (Handle F N)) : ∃ l, (s.keep r).2.got = s.got ++ l := by
  cases r with
  | error _ => exact ⟨[], by simp [Session.keep]⟩
  | ok h => exact ⟨[h], rfl⟩

theorem step_cal (s : Session F V N) (op : CallerOp F V N) (h : ∀ h i j x, op = .write h i j x → ∀ a, s.got[h]? ≠ some (.ofCalc a)) :
    (op.run s).2.cal = runOps s.cal (calculations [op]) := by
  cases op with
  | compute op => rfl
  | getSingle f vs => cases vs <;> exact keep_cal _ _
  | getPairs f1 f2 vs => cases vs <;> exact keep_cal _ _
  | getMinus f => exact keep_cal _ _
  | write n i j x =>
    have hn := h n i j x rfl
    simp only [CallerOp.run]
    cases e : s.got[n]? with
    | none => rfl
    | some hd =>
      cases hd with
      | own xs => simp only; split <;> rfl
      | ofCalc a => exact (hn a e).elim

theorem calculations_cons (op : CallerOp F V N) (ops : List (CallerOp F V N)) :
    calculations (op :: ops) = calculations [op] ++ calculations ops := by
  cases op <;> rfl

/-- **C132**, the caller's own arrays: as long as every write goes to an array that a lookup with values returned, the calculator is the one
that the calculations alone would have given. -/
theorem C132_own_arrays_partial (s : Session F V N) (ops : List (CallerOp F V N)) (h : WritesOwn s ops) :
    (runSession s ops).cal = runOps s.cal (calculations ops) := by
  induction ops generalizing s with
  | nil => rfl
  | cons op ops ih =>
    rw [calculations_cons, runOps_append, ← step_cal s op h.1]
    exact ih _ h.2

theorem own_step (s : Session F V N) (hs : ∀ hd ∈ s.got, ∃ xs, hd = .own xs) (op : CallerOp F V N) (h : ¬ ReturnsInner op) :
    ∀ hd ∈ (op.run s).2.got, ∃ xs, hd = .own xs := by
  have hk : ∀ r : Except Err (List N), ∀ hd ∈ (s.keep (r.map .own)).2.got, ∃ xs, hd = .own xs := by
    intro r hd hhd
    cases r with
    | error _ => exact hs hd hhd
    | ok xs =>
      rcases List.mem_append.1 hhd with h | h
      · exact hs hd h
      · exact ⟨xs, List.mem_singleton.1 h⟩
  cases op with
  | compute op => exact hs
  | getSingle f vs =>
    cases vs with
    | none => exact (h trivial).elim
    | some vs => exact hk _
  | getPairs f1 f2 vs =>
    cases vs with
    | none => exact (h trivial).elim
    | some vs => exact hk _
  | getMinus f => exact (h trivial).elim
  | write n i j x =>
    simp only [CallerOp.run]
    cases e : s.got[n]? with
    | none => exact hs
    | some hd =>
      cases hd with
      | own xs =>
        simp only
        split
        · intro hd hhd
          rcases List.mem_or_eq_of_mem_set hhd with h | h
          · exact hs hd h
          · exact ⟨_, h⟩
        · exact hs
      | ofCalc a => obtain ⟨xs, hx⟩ := hs _ (List.mem_of_getElem? e); cases hx

/-- **C132**, lookups with values: a caller who looks everything up with values may write what they like into what they got; the calculator, hence
every later answer, is the one that the calculations alone would have given. -/
theorem C132_lookups_with_values_partial (c : Calc F V N) (ops : List (CallerOp F V N)) (h : ∀ op ∈ ops, ¬ ReturnsInner op) :
    (runSession ⟨c, []⟩ ops).cal = runOps c (calculations ops) := by
  refine C132_own_arrays_partial _ _ ?_
  suffices H : ∀ (ops : List (CallerOp F V N)) (s : Session F V N), (∀ op ∈ ops, ¬ ReturnsInner op) →
      (∀ hd ∈ s.got, ∃ xs, hd = .own xs) → WritesOwn s ops from H ops _ h (by simp)
  intro ops
  induction ops with
  | nil => exact fun _ _ _ => trivial
  | cons op ops ih =>
    intro s ho hs
    refine ⟨?_, ih _ (fun o h => ho o (List.mem_cons_of_mem _ h)) (own_step s hs op (ho op List.mem_cons_self))⟩
    intro n i j x _ a ha
    obtain ⟨xs, hx⟩ := hs _ (List.mem_of_getElem? ha)
    cases hx

/-! ### What the arrays in the caller's hands contain -/

theorem got_step (s : Session F V N) (op : CallerOp F V N) {h : Nat} {a : ArrRef F} (hs : s.got[h]? = some (.ofCalc a)) :
    (op.run s).2.got[h]? = some (.ofCalc a) := by
  have hk : ∀ r : Except Err (Handle F N), (s.keep r).2.got[h]? = some (.ofCalc a) := by
    intro r
    obtain ⟨l, hl⟩ := keep_got s r
    rw [hl, List.getElem?_append_left (List.getElem?_eq_some_iff.1 hs).1, hs]
  cases op with
  | compute op => exact hs
  | getSingle f vs => cases vs <;> exact hk _
  | getPairs f1 f2 vs => cases vs <;> exact hk _
  | getMinus f => exact hk _
  | write n i j x =>
    simp only [CallerOp.run]
    cases e : s.got[n]? with
    | none => exact hs
    | some hd =>
      cases hd with
      | own xs =>
        simp only
        split
        · have : n ≠ h := by rintro rfl; rw [hs] at e; cases e
          simp only [List.getElem?_set_ne this]; exact hs
        · exact hs
      | ofCalc b => exact hs

theorem got_run (ops : List (CallerOp F V N)) (s : Session F V N) {h : Nat} {a : ArrRef F} (hs : s.got[h]? = some (.ofCalc a)) :
    (runSession s ops).got[h]? = some (.ofCalc a) := by
  induction ops generalizing s with
  | nil => exact hs
  | cons op ops ih => exact ih _ (got_step s op hs)

theorem keep_new (s : Session F V N) (hd : Handle F N) : (s.keep (.ok hd)).2.got[s.got.length]? = some hd := by
  simp [Session.keep]

variable {X : Frame F V}

theorem shaped_step (s : Session F V N) (op : CallerOp F V N) (hs : ShapedOn X s.cal) : ShapedOn X (op.run s).2.cal := by
  cases op with
  | compute op => exact shaped_op op _ hs
  | getSingle f vs => cases vs <;> (simp only [CallerOp.run, keep_cal]; exact hs)
  | getPairs f1 f2 vs => cases vs <;> (simp only [CallerOp.run, keep_cal]; exact hs)
  | getMinus f => simp only [CallerOp.run, keep_cal]; exact hs
  | write n i j x =>
    simp only [CallerOp.run]
    cases s.got[n]? with
    | none => exact hs
    | some hd =>
      cases hd with
      | own xs => simp only; split <;> exact hs
      | ofCalc a => exact shaped_writeArr a i j x _ hs

theorem shaped_session (ops : List (CallerOp F V N)) (s : Session F V N) (hs : ShapedOn X s.cal) : ShapedOn X (runSession s ops).cal := by
  induction ops generalizing s with
  | nil => exact hs
  | cons op ops ih => exact ih _ (shaped_step s op hs)

theorem pairKey_fixed {c c' : Calc F V N} (h : ShapedOn X c) (h' : ShapedOn X c') (q : F × F) : c'.pairKey q = c.pairKey q := by
  rw [pairKey_eq h.1, pairKey_eq h'.1, h.2, h'.2]

theorem single_known {c : Calc F V N} (h : ShapedOn X c) {f : F} (hf : f ∈ X.cols) : ∃ t, c.pdSingle.get? f = some t := by
  rw [← Option.isSome_iff_exists, Dict.get?_isSome_iff, h.1.single_keys, h.2]; exact hf

theorem minus_known {c : Calc F V N} (h : ShapedOn X c) {f : F} (hf : f ∈ X.cols) : ∃ t, c.pdMinus.get? f = some t := by
  rw [← Option.isSome_iff_exists, Dict.get?_isSome_iff, h.1.minus_keys, h.2]; exact hf

theorem pair_known {c : Calc F V N} (h : ShapedOn X c) {f f' : F} (hf : f ∈ X.cols) (hf' : f' ∈ X.cols) (hne : f ≠ f') :
    ∃ t, c.pdPairs.get? (c.pairKey (f, f')) = some t := by
  rw [← Option.isSome_iff_exists, Dict.get?_isSome_iff, h.1.pair_keys, pairKey_eq h.1, h.2]
  exact canonPair_mem hf hf' hne

variable (p : Nat → List (Row F V) → Except Err (List N)) (b : Int)

/-- **C132**, arrays returned without values are views: whatever the caller and the calculator do before and afterwards, what the caller sees in
such an array is what the same lookup would return now. -/
theorem C132_views (before ops : List (CallerOp F V N)) (s : Session F V N) (hs : s = runSession ⟨Calc.new p X b, []⟩ before) :
    (∀ f ∈ X.cols, ∃ ys, (runSession s (.getSingle f none :: ops)).cal.getSingleAll f = .ok ys ∧
      (runSession s (.getSingle f none :: ops)).read s.got.length = some [ys]) ∧
    (∀ f ∈ X.cols, ∀ f' ∈ X.cols, f ≠ f' → ∃ ys, (runSession s (.getPairs f f' none :: ops)).cal.getPairsAll f f' = .ok ys ∧
      (runSession s (.getPairs f f' none :: ops)).read s.got.length = some ys) ∧
    (∀ f ∈ X.cols, ∃ ys, (runSession s (.getMinus f :: ops)).cal.getMinus f = .ok ys ∧
      (runSession s (.getMinus f :: ops)).read s.got.length = some [ys]) := by
  have h0 : ShapedOn X s.cal := by rw [hs]; exact shaped_session _ _ ⟨shape_new p X b, rfl⟩
  refine ⟨?_, ?_, ?_⟩
  · intro f hf
    obtain ⟨t0, ht0⟩ := single_known h0 hf
    have hgot : (runSession s (.getSingle f none :: ops)).got[s.got.length]? = some (.ofCalc (.single f)) := by
      refine got_run ops _ ?_
      simp only [CallerOp.run, Calc.getSingleAll, ht0, Except.map]
      exact keep_new _ _
    obtain ⟨t, ht⟩ := single_known (shaped_session (.getSingle f none :: ops) s h0) hf
    refine ⟨t.pdValues, ?_, ?_⟩
    · simp only [Calc.getSingleAll, ht]
    · simp only [Session.read, hgot, ht, Option.map_some]
  · intro f hf f' hf' hne
    obtain ⟨t0, ht0⟩ := pair_known h0 hf hf' hne
    have hgot : (runSession s (.getPairs f f' none :: ops)).got[s.got.length]? = some (.ofCalc (.pair (s.cal.pairKey (f, f')))) := by
      refine got_run ops _ ?_
      simp only [CallerOp.run, Calc.getPairsAll, ht0, Except.map]
      exact keep_new _ _
    have h1 := shaped_session (.getPairs f f' none :: ops) s h0
    obtain ⟨t, ht⟩ := pair_known h1 hf hf' hne
    refine ⟨t.pdValues, ?_, ?_⟩
    · simp only [Calc.getPairsAll, ht]
    · rw [pairKey_fixed h0 h1] at ht
      simp only [Session.read, hgot, ht, Option.map_some]
  · intro f hf
    obtain ⟨t0, ht0⟩ := minus_known h0 hf
    have hgot : (runSession s (.getMinus f :: ops)).got[s.got.length]? = some (.ofCalc (.minus f)) := by
      refine got_run ops _ ?_
      simp only [CallerOp.run, Calc.getMinus, ht0, Except.map]
      exact keep_new _ _
    obtain ⟨t, ht⟩ := minus_known (shaped_session (.getMinus f :: ops) s h0) hf
    refine ⟨t, ?_, ?_⟩
    · simp only [Calc.getMinus, ht]
    · simp only [Session.read, hgot, ht, Option.map_some]

theorem own_step_read (s : Session F V N) (op : CallerOp F V N) {h : Nat} {xs : List N} (hs : s.got[h]? = some (.own xs)) (hn : NotInto h op) :
    (op.run s).2.got[h]? = some (.own xs) := by
  have hk : ∀ r : Except Err (Handle F N), (s.keep r).2.got[h]? = some (.own xs) := by
    intro r
    obtain ⟨l, hl⟩ := keep_got s r
    rw [hl, List.getElem?_append_left (List.getElem?_eq_some_iff.1 hs).1, hs]
  cases op with
  | compute op => exact hs
  | getSingle f vs => cases vs <;> exact hk _
  | getPairs f1 f2 vs => cases vs <;> exact hk _
  | getMinus f => exact hk _
  | write n i j x =>
    have hne : n ≠ h := hn
    simp only [CallerOp.run]
    cases e : s.got[n]? with
    | none => exact hs
    | some hd =>
      cases hd with
      | own xs' =>
        simp only
        split
        · simp only [List.getElem?_set_ne hne]; exact hs
        · exact hs
      | ofCalc b => exact hs

/-- **C132**, arrays returned by lookups with values are the caller's: they keep the answers of the time of the lookup, whatever else happens, until
the caller writes into them. -/
theorem C132_snapshots (s : Session F V N) (ops : List (CallerOp F V N)) (hn : ∀ op ∈ ops, NotInto s.got.length op) :
    (∀ f vs xs, s.cal.getSingle f vs = .ok xs → (runSession s (.getSingle f (some vs) :: ops)).read s.got.length = some [xs]) ∧
    (∀ f f' vs xs, s.cal.getPairs f f' vs = .ok xs → (runSession s (.getPairs f f' (some vs) :: ops)).read s.got.length = some [xs]) := by
  have key : ∀ (ops : List (CallerOp F V N)) (s' : Session F V N) (h : Nat) (xs : List N), s'.got[h]? = some (.own xs) →
      (∀ op ∈ ops, NotInto h op) → (runSession s' ops).got[h]? = some (.own xs) := by
    intro ops
    induction ops with
    | nil => exact fun _ _ _ h _ => h
    | cons op ops ih =>
      exact fun s' h xs h1 h2 => ih _ h xs (own_step_read s' op h1 (h2 op List.mem_cons_self)) fun o ho => h2 o (List.mem_cons_of_mem _ ho)
  refine ⟨fun f vs xs hx => ?_, fun f f' vs xs hx => ?_⟩
  · have : (runSession s (.getSingle f (some vs) :: ops)).got[s.got.length]? = some (.own xs) := by
      refine key ops _ _ xs ?_ hn
      simp only [CallerOp.run, hx, Except.map]
      exact keep_new _ _
    simp only [Session.read, this]
  · have : (runSession s (.getPairs f f' (some vs) :: ops)).got[s.got.length]? = some (.own xs) := by
      refine key ops _ _ xs ?_ hn
      simp only [CallerOp.run, hx, Except.map]
      exact keep_new _ _
    simp only [Session.read, this]

/-! ### NaN -/

variable {g : Row F V → N} {p}

theorem good_session (ops : List (CallerOp F V N)) (s : Session F V N) (hg : Good g s.cal) (hw : WritesOwnOrNaN s ops) :
    Good g (runSession s ops).cal ∧ (runSession s ops).cal.X = s.cal.X := by
  induction ops generalizing s with
  | nil => exact ⟨hg, rfl⟩
  | cons op ops ih =>
    have h1 : Good g (op.run s).2.cal ∧ (op.run s).2.cal.X = s.cal.X := by
      by_cases hcase : ∀ h i j x, op = .write h i j x → ∀ a, s.got[h]? ≠ some (.ofCalc a)
      · rw [step_cal s op hcase]
        exact ⟨good_runOps hg _, (opStep_runOps hg _).later.X⟩
      · push Not at hcase
        obtain ⟨n, i, j, x, rfl, a, ha⟩ := hcase
        rcases hw.1 n i j x rfl with rfl | h
        · simp only [CallerOp.run, ha]
          exact ⟨good_writeNaN hg a i j, (writeArr_cfg _ a i j _).1⟩
        · exact (h a ha).elim
    obtain ⟨h2, h3⟩ := ih _ h1.1 hw.2
    exact ⟨h2, h3.trans h1.2⟩

/-- **C132**, NaN is harmless: if whatever is written into the calculator's arrays is NaN, the next calculation that returns puts the brute-force
means where it was asked to. Writing NaN into an array is a way of having it computed again. -/
theorem C132_nan_is_harmless (hw : RowWise g p) (ops : List (CallerOp F V N)) (h : WritesOwnOrNaN ⟨Calc.new p X b, []⟩ ops) :
    (∀ features, (Calc.calculateSingle features (runSession ⟨Calc.new p X b, []⟩ ops).cal).1 = .ok () →
      ∀ f ∈ features.getD X.cols, ∀ vs : List V, (∀ v ∈ vs, v ∈ X.col f) →
        (Calc.calculateSingle features (runSession ⟨Calc.new p X b, []⟩ ops).cal).2.getSingle f vs = .ok (vs.map (Spec.pdSingle g X f))) ∧
    (∀ pairs all, (Calc.calculatePairs pairs all (runSession ⟨Calc.new p X b, []⟩ ops).cal).1 = .ok () →
      ∀ f f', f ∈ X.cols → f' ∈ X.cols → f ≠ f' →
        ((f, f') ∈ pairs.getD (combinations2 X.cols) ∨ (f', f) ∈ pairs.getD (combinations2 X.cols)) → X.cols.Nodup →
        ∀ vs : List (V × V), (∀ v ∈ vs, Spec.covered all X f f' v) →
        (Calc.calculatePairs pairs all (runSession ⟨Calc.new p X b, []⟩ ops).cal).2.getPairs f f' vs =
          .ok (vs.map (fun v => Spec.pdPair g X f f' v.1 v.2))) ∧
    (ReadsOnly g X.cols → ∀ features, (Calc.calculateMinus features (runSession ⟨Calc.new p X b, []⟩ ops).cal).1 = .ok () →
      ∀ f ∈ features.getD X.cols, (Calc.calculateMinus features (runSession ⟨Calc.new p X b, []⟩ ops).cal).2.getMinus f =
        .ok (X.rows.map (Spec.pdMinus g X f))) := by
  obtain ⟨hg, hX⟩ := good_session ops ⟨Calc.new p X b, []⟩ (good_new hw X b) h
  exact ⟨fun features hret => single_of_good hg hX features hret, fun pairs all hret => pair_of_good hg hX pairs all hret,
    fun hr features hret => minus_of_good hg hX hr features hret⟩

/-! ### Other numbers stay -/

theorem no_nan_set {xs : List N} (h : xs.any Flt.isNaN = false) {x : N} (hx : Flt.isNaN x = false) (i : Nat) : (xs.set i x).any Flt.isNaN = false := by
  rw [List.any_eq_false] at h ⊢
  intro y hy
  rcases List.mem_or_eq_of_mem_set hy with h' | h'
  · exact h y h'
  · rw [h', hx]; simp

theorem stick_run {J : Calc F V N → Prop} (hJ : ∀ op c, J c → J (PDOp.run op c).2) (ops : List (CallerOp F V N)) (s : Session F V N)
    (hw : ∀ op ∈ ops, ¬ IsWrite op) (hs : J s.cal) : J (runSession s ops).cal := by
  induction ops generalizing s with
  | nil => exact hs
  | cons op ops ih =>
    refine ih _ (fun o h => hw o (List.mem_cons_of_mem _ h)) ?_
    cases op with
    | compute op => exact hJ op _ hs
    | getSingle f vs => cases vs <;> (simp only [CallerOp.run, keep_cal]; exact hs)
    | getPairs f1 f2 vs => cases vs <;> (simp only [CallerOp.run, keep_cal]; exact hs)
    | getMinus f => simp only [CallerOp.run, keep_cal]; exact hs
    | write n i j x => exact (hw _ List.mem_cons_self trivial).elim

variable (p)

/-- **C132**, other numbers stay: a number that is not NaN, written into a finished array that a lookup without values returned, is what every
later lookup returns; no later calculation of any kind repairs it. -/
theorem C132_written_numbers_stay (before later : List (CallerOp F V N)) (s : Session F V N) (hs : s = runSession ⟨Calc.new p X b, []⟩ before)
    (hl : ∀ op ∈ later, ¬ IsWrite op) (i j : Nat) (x : N) (hx : Flt.isNaN x = false) :
    (∀ f xs, s.cal.getSingleAll f = .ok xs → xs.any Flt.isNaN = false → i < xs.length →
      (runSession s (.getSingle f none :: .write s.got.length i j x :: later)).cal.getSingleAll f = .ok (xs.set i x)) ∧
    (∀ f f' m row, s.cal.getPairsAll f f' = .ok m → (∀ r ∈ m, r.any Flt.isNaN = false) → m[i]? = some row → j < row.length →
      (runSession s (.getPairs f f' none :: .write s.got.length i j x :: later)).cal.getPairsAll f f' = .ok (m.set i (row.set j x))) ∧
    (∀ f xs, s.cal.getMinus f = .ok xs → xs.any Flt.isNaN = false → i < xs.length →
      (runSession s (.getMinus f :: .write s.got.length i j x :: later)).cal.getMinus f = .ok (xs.set i x)) := by
  have h0 : ShapedOn X s.cal := by rw [hs]; exact shaped_session _ _ ⟨shape_new p X b, rfl⟩
  refine ⟨?_, ?_, ?_⟩
  · intro f xs hxs hn hi
    cases ht : s.cal.pdSingle.get? f with
    | none => simp [Calc.getSingleAll, ht] at hxs
    | some t =>
      have htx : t.pdValues = xs := by simpa [Calc.getSingleAll, ht] using hxs
      subst htx
      have h1 : ((CallerOp.write s.got.length i j x).run ((CallerOp.getSingle f none).run s).2).2.cal.pdSingle.get? f =
          some { t with pdValues := t.pdValues.set i x } := by
        simp [CallerOp.run, Calc.getSingleAll, ht, Except.map, Session.keep, Calc.writeArr, hi, Dict.get?_set]
      have h2 := stick_run (J := fun c => c.pdSingle.get? f = some { t with pdValues := t.pdValues.set i x })
        (fun op c h => single_sticks (no_nan_set hn hx i) op c h) later _ hl h1
      change (runSession _ later).cal.getSingleAll f = _
      simp only [Calc.getSingleAll, h2]
  · intro f f' m row hm hn hrow hj
    cases ht : s.cal.pdPairs.get? (s.cal.pairKey (f, f')) with
    | none => simp [Calc.getPairsAll, ht] at hm
    | some t =>
      have htx : t.pdValues = m := by simpa [Calc.getPairsAll, ht] using hm
      subst htx
      have h1 : ((CallerOp.write s.got.length i j x).run ((CallerOp.getPairs f f' none).run s).2).2.cal.pdPairs.get? (s.cal.pairKey (f, f')) =
          some { t with pdValues := t.pdValues.set i (row.set j x) } := by
        simp [CallerOp.run, Calc.getPairsAll, ht, Except.map, Session.keep, Calc.writeArr, hrow, hj, Dict.get?_set]
      have h2 := stick_run (J := fun c => c.pdPairs.get? (s.cal.pairKey (f, f')) = some { t with pdValues := t.pdValues.set i (row.set j x) })
        (fun op c h => pair_sticks (by
          intro r hr
          rcases List.mem_or_eq_of_mem_set hr with h' | h'
          · exact hn r h'
          · rw [h']; exact no_nan_set (hn row (List.mem_of_getElem? hrow)) hx j) op c h) later _ hl h1
      have h3 := shaped_session (.getPairs f f' none :: .write s.got.length i j x :: later) s h0
      simp only [Calc.getPairsAll, pairKey_fixed h0 h3]
      have h4 : (runSession s (.getPairs f f' none :: .write s.got.length i j x :: later)).cal.pdPairs.get? (s.cal.pairKey (f, f')) = _ := h2
      rw [h4]
  · intro f xs hxs hn hi
    cases ht : s.cal.pdMinus.get? f with
    | none => simp [Calc.getMinus, ht] at hxs
    | some t =>
      have htx : t = xs := by simpa [Calc.getMinus, ht] using hxs
      subst htx
      have h1 : ((CallerOp.write s.got.length i j x).run ((CallerOp.getMinus f).run s).2).2.cal.pdMinus.get? f =
          some (t.set i x) := by
        simp [CallerOp.run, Calc.getMinus, ht, Except.map, Session.keep, Calc.writeArr, hi, Dict.get?_set]
      have h2 := stick_run (J := fun c => c.pdMinus.get? f = some (t.set i x))
        (fun op c h => minus_sticks (no_nan_set hn hx i) op c h) later _ hl h1
      change (runSession _ later).cal.getMinus f = _
      simp only [Calc.getMinus, h2]

/-! ### Cases -/
section Cases
open Ex

/-- compute, look up without values, write a wrong number, compute again -/
def exSpoil : List (CallerOp (Fin 3) ℤ (Num ℚ)) :=
  [.compute (.single none), .getSingle 0 none, .write 0 1 0 (.fin 9), .compute (.single none), .compute (.pairs none true)]

/-- the same with NaN -/
def exRenew : List (CallerOp (Fin 3) ℤ (Num ℚ)) :=
  [.compute (.single none), .getSingle 0 none, .write 0 1 0 .nan, .getSingle 0 (some [0, 1])]

/-- **C132 fails in general**: a caller who writes into an array that `get_pd_single` returned without values changes what the calculator answers,
and computing again does not bring the brute-force mean back. -/
theorem C132_fails : ∃ ops : List (CallerOp (Fin 3) ℤ (Num ℚ)),
    ok (Calc.calculateSingle none (runSession ⟨Calc.new exP exX 5, []⟩ ops).cal).1 = true ∧
    isOk ((Calc.calculateSingle none (runSession ⟨Calc.new exP exX 5, []⟩ ops).cal).2.getSingle 0 [1]) [.fin 9] = true ∧
    isOk ((Calc.calculateSingle none (runOps (Calc.new exP exX 5) (calculations ops))).2.getSingle 0 [1]) [.fin (7/2)] = true ∧
    Spec.pdSingle exG exX 0 1 = .fin (7/2) :=
  ⟨exSpoil, by decide +kernel⟩

/-- the NaN session meets the hypothesis of `C132_nan_is_harmless`; the array the caller holds shows the NaN, the lookup with values made before the
new calculation too, and the new calculation restores the mean -/
example : WritesOwnOrNaN ⟨Calc.new exP exX 5, []⟩ exRenew ∧
    (runSession ⟨Calc.new exP exX 5, []⟩ exRenew).read 0 = some [[.fin 3, .nan]] ∧
    (runSession ⟨Calc.new exP exX 5, []⟩ exRenew).read 1 = some [[.fin 3, .nan]] ∧
    (runSession ⟨Calc.new exP exX 5, []⟩ (exRenew ++ [.compute (.single (some [0]))])).read 0 = some [[.fin 3, .fin (7/2)]] ∧
    (runSession ⟨Calc.new exP exX 5, []⟩ (exRenew ++ [.compute (.single (some [0]))])).read 1 = some [[.fin 3, .nan]] := by
  refine ⟨⟨?_, ?_, ?_, ?_, trivial⟩, by decide +kernel⟩
  · intro _ _ _ _ h; cases h
  · intro _ _ _ _ h; cases h
  · intro _ _ _ _ h; cases h; exact Or.inl rfl
  · intro _ _ _ _ h; cases h

/-- lookups with values only: writes do nothing to the calculator -/
example : (runSession ⟨Calc.new exP exX 5, []⟩ [.compute (.single none), .getSingle 0 (some [1, 0]), .write 0 0 0 (.fin 9)]).read 0 =
      some [[.fin 9, .fin 3]] ∧
    isOk ((runSession ⟨Calc.new exP exX 5, []⟩ [.compute (.single none), .getSingle 0 (some [1, 0]), .write 0 0 0 (.fin 9)]).cal.getSingle 0 [1])
      [.fin (7/2)] = true := by decide +kernel

/-- matrices: the pair in the other order is the same array -/
example : (runSession ⟨Calc.new exP exX 5, []⟩ [.compute (.pairs none true), .getPairs 1 0 none, .write 0 1 0 (.fin 9), .compute (.pairs none true),
      .getPairs 0 1 none]).read 1 = some [[.fin 3, .fin 3], [.fin 9, .fin 4]] := by decide +kernel

end Cases
end Artemis
