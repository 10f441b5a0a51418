import Verif.Props.Formulas

/-!
# Property C112: what a reported zero means

Setting as in `Verif/Props/HStat.lean`. Stated with the brute-force partial dependences of `Verif/Spec/Decomp.lean` and
the spreads of `Verif/Spec/Spread.lean`.
-/

set_option linter.unusedSectionVars false
set_option linter.unusedVariables false
set_option linter.unusedSimpArgs false

namespace Artemis
open Spec

variable {F V K G L : Type} [DecidableEq F] [LinearOrder V] [DecidableEq L] [Field K] [LinearOrder K]
  [IsStrictOrderedRing K] [HasSqrt K]
variable {g : Row F V → Num K} {E : PdEnv G F K} {a : PdArgs L F V K} {s0 s : PdpMethod G L F V K} {Xs : LFrame L F V}

section helpers

theorem sumSq_zero_iff {α : Type} (l : List α) (w : α → K) :
    (l.map (fun x => w x * w x)).sum = 0 ↔ ∀ x ∈ l, w x = 0 := by
  induction l with
  | nil => simp
  | cons x l ih =>
    have h1 : 0 ≤ w x * w x := mul_self_nonneg _
    have h2 : 0 ≤ (l.map (fun x => w x * w x)).sum := sum_sq_nonneg l w
    simp only [List.map_cons, List.sum_cons, List.forall_mem_cons, ← ih]
    constructor
    · intro h
      have h3 : w x * w x = 0 := by linarith
      exact ⟨mul_self_eq_zero.1 h3, by linarith⟩
    · rintro ⟨h3, h4⟩
      rw [h3, h4]; ring

theorem average_add {α : Type} (l : List α) (w w' : α → K) :
    average (l.map fun x => w x + w' x) = average (l.map w) + average (l.map w') := by
  simp only [average, List.length_map, List.sum_map_add, add_div]

theorem average_const {α : Type} {l : List α} (hl : l ≠ []) (c : K) : average (l.map fun _ => c) = c := by
  have h : (l.length : K) ≠ 0 := by
    simpa using hl
  simp only [average, List.length_map, List.map_const', List.sum_replicate, nsmul_eq_mul, List.length_replicate]
  field_simp

/-- a centred quantity is the sum of two centred ones iff the quantity is the sum of the two up to a constant -/
theorem centred_sum_iff {X : Frame F V} (hX : X.rows ≠ []) (w p q : Row F V → K) :
    (∀ r ∈ X.rows, centred X w r - centred X p r - centred X q r = 0) ↔ ∃ c, ∀ r ∈ X.rows, w r = p r + q r + c := by
  constructor
  · intro h
    refine ⟨average (X.rows.map w) - average (X.rows.map p) - average (X.rows.map q), fun r hr => ?_⟩
    have := h r hr
    simp only [centred] at this
    linear_combination this
  · rintro ⟨c, h⟩ r hr
    have e : average (X.rows.map w) = average (X.rows.map p) + average (X.rows.map q) + c := by
      have e1 : X.rows.map w = X.rows.map (fun r => (p r + q r) + c) := List.map_congr_left fun r hr => by rw [h r hr]
      rw [e1, average_add X.rows (fun r => p r + q r) (fun _ => c), average_add, average_const hX]
    simp only [centred, e, h r hr]
    ring

/-- the three cases of the formulas of C66 and C68 put together -/
theorem h_zero_iff {n : Bool} {val : Num K} {num den len : K} (hl : len ≠ 0)
    (h : if n then
        (den ≠ 0 → val = .fin (num / den)) ∧ (den = 0 → num ≠ 0 → val = .pinf) ∧ (den = 0 → num = 0 → val = .fin 0)
      else ∃ h : K, val = .fin h ∧ 0 ≤ h ∧ h * h = num / len) :
    val = .fin 0 ↔ num = 0 := by
  cases n
  · simp only [Bool.false_eq_true, if_false] at h
    obtain ⟨x, rfl, hx, e⟩ := h
    constructor
    · intro h0
      cases h0
      have : num / len = 0 := by rw [← e]; ring
      exact (div_eq_zero_iff.1 this).resolve_right hl
    · rintro rfl
      rw [zero_div] at e
      rw [mul_self_eq_zero.1 e]
  · simp only [if_true] at h
    obtain ⟨h1, h2, h3⟩ := h
    by_cases hd : den = 0
    · by_cases hn : num = 0
      · simp [h3 hd hn, hn]
      · simp [h2 hd hn, hn]
    · rw [h1 hd]
      simp [div_eq_zero_iff, hd]

theorem sumDev_zero_iff (l : List K) : sumDev l = 0 ↔ ∀ x ∈ l, ∀ y ∈ l, x = y := by
  unfold sumDev
  rw [sumSq_zero_iff l (fun x => x - average l)]
  constructor
  · intro h x hx y hy
    have h1 := h x hx
    have h2 := h y hy
    linear_combination h1 - h2
  · intro h x hx
    have hl : l ≠ [] := List.ne_nil_of_mem hx
    have e : l = l.map (fun _ => x) := by
      conv_lhs => rw [← List.map_id l]
      exact List.map_congr_left fun y hy => h y hy x hx
    have : average l = x := by
      rw [e]; exact average_const hl x
    rw [this, sub_self]

theorem popStd_zero_iff {l : List K} {x : K} (hl : l ≠ []) (h : IsPopStd l x) :
    x = 0 ↔ ∀ y ∈ l, ∀ z ∈ l, y = z := by
  have hl' : (l.length : K) ≠ 0 := by simpa using hl
  rw [← sumDev_zero_iff]
  constructor
  · rintro rfl
    have : sumDev l / l.length = 0 := by rw [← h.2]; ring
    exact (div_eq_zero_iff.1 this).resolve_right hl'
  · intro h0
    have := h.2
    rw [h0, zero_div] at this
    exact mul_self_eq_zero.1 this

theorem sampleStd_zero_iff {l : List K} {x : K} (h : IsSampleStd l x) :
    x = 0 ↔ ∀ y ∈ l, ∀ z ∈ l, y = z := by
  have hl' : (l.length : K) - 1 ≠ 0 := by
    have : (2 : K) ≤ (l.length : K) := by exact_mod_cast h.1
    intro h0
    linarith
  rw [← sumDev_zero_iff]
  constructor
  · rintro rfl
    have : sumDev l / (l.length - 1) = 0 := by rw [← h.2.2]; ring
    exact (div_eq_zero_iff.1 this).resolve_right hl'
  · intro h0
    have := h.2.2
    rw [h0, zero_div] at this
    exact mul_self_eq_zero.1 this

theorem quarterRange_zero_iff {l : List K} {x : K} (h : IsQuarterRange l x) :
    x = 0 ↔ ∀ y ∈ l, ∀ z ∈ l, y = z := by
  obtain ⟨lo, hlo, hi, hhi, hb, rfl⟩ := h
  constructor
  · intro h0 y hy z hz
    have : hi = lo := by linarith
    have h1 := hb y hy
    have h2 := hb z hz
    apply le_antisymm <;> linarith
  · intro h0
    rw [h0 hi hhi lo hlo]; ring

theorem zero_average_perm {l l' : List K} (h : l.Perm l') : average l = average l' := by
  simp only [average, h.sum_eq, h.length_eq]

theorem zero_sumDev_perm {l l' : List K} (h : l.Perm l') : sumDev l = sumDev l' := by
  simp only [sumDev, zero_average_perm h]
  exact (h.map _).sum_eq

theorem sampleStd_unique {l l' : List K} (h : l.Perm l') {x y : K} (hx : IsSampleStd l x) (hy : IsSampleStd l' y) :
    x = y := by
  have e : x * x = y * y := by rw [hx.2.2, hy.2.2, zero_sumDev_perm h, h.length_eq]
  exact (mul_self_inj hx.2.1 hy.2.1).1 e

theorem quarterRange_unique {l l' : List K} (h : l.Perm l') {x y : K} (hx : IsQuarterRange l x)
    (hy : IsQuarterRange l' y) : x = y := by
  obtain ⟨lo, hlo, hi, hhi, hb, rfl⟩ := hx
  obtain ⟨lo', hlo', hi', hhi', hb', rfl⟩ := hy
  have e1 : lo = lo' := le_antisymm (hb _ (h.mem_iff.2 hlo')).1 (hb' _ (h.mem_iff.1 hlo)).1
  have e2 : hi = hi' := le_antisymm (hb' _ (h.mem_iff.1 hhi)).2 (hb _ (h.mem_iff.2 hhi')).2
  rw [e1, e2]

theorem levels_perm {X : Frame F V} {f : F} {vs ws : List V} (h : Levels X f vs) (h' : Levels X f ws) : vs.Perm ws :=
  (List.perm_ext_iff_of_nodup h.1 h'.1).2 fun v => by rw [h.2, h'.2]

end helpers

/-! ## C112 -/

namespace Spec

/-- the spread of `f'`'s effect (of the joint partial dependence over the levels of `f'`) is the same number `c` at
every level of `f` -/
def SameCondSpread (numeric' : Bool) (u : Row F V → K) (X : Frame F V) (f f' : F) : Prop :=
  ∃ (c : K) (vs' : List V), Levels X f' vs' ∧ ∀ r ∈ X.rows,
    if numeric' then IsSampleStd (vs'.map fun v' => pd2 u X f f' (r f) v') c
      else IsQuarterRange (vs'.map fun v' => pd2 u X f f' (r f) v') c

end Spec

section helpers

theorem condSpread_zero_iff {b : Bool} {u : Row F V → K} {X : Frame F V} {f f' : F} {x : K}
    (h : IsCondSpread b u X f f' x) : x = 0 ↔ SameCondSpread b u X f f' := by
  obtain ⟨vs, vs', imp, hv, hv', hstd, himp⟩ := h
  rw [sampleStd_zero_iff hstd]
  have hne : vs ≠ [] := by
    rintro rfl
    have := hstd.1
    simp at this
  constructor
  · intro h
    obtain ⟨v0, hv0⟩ := List.exists_mem_of_ne_nil _ hne
    refine ⟨imp v0, vs', hv', fun r hr => ?_⟩
    have hm := (hv.2 (r f)).2 ⟨r, hr, rfl⟩
    have := himp _ hm
    rw [h _ (List.mem_map_of_mem hm) _ (List.mem_map_of_mem hv0)] at this
    exact this
  · rintro ⟨c, ws, hw, h⟩ y hy z hz
    have key : ∀ v ∈ vs, imp v = c := by
      intro v hm
      obtain ⟨r, hr, rfl⟩ := (hv.2 v).1 hm
      have h1 := himp _ hm
      have h2 := h r hr
      have hp := (levels_perm hv' hw).map fun v' => pd2 u X f f' (r f) v'
      cases b with
      | true => exact sampleStd_unique hp (by simpa using h1) (by simpa using h2)
      | false => exact quarterRange_unique hp (by simpa using h1) (by simpa using h2)
    obtain ⟨v, hv1, rfl⟩ := List.mem_map.1 hy
    obtain ⟨v', hv2, rfl⟩ := List.mem_map.1 hz
    rw [key v hv1, key v' hv2]

theorem condSpread_nonneg {b : Bool} {u : Row F V → K} {X : Frame F V} {f f' : F} {x : K}
    (h : IsCondSpread b u X f f' x) : 0 ≤ x := by
  obtain ⟨vs, vs', imp, hv, hv', hstd, himp⟩ := h
  exact hstd.2.1

end helpers


/-- **C112 (pairs, Friedman).** After a returning `fit` on non-empty data with finite predictions, normalized or not, a
reported pair value is 0 exactly when on every row of the data the joint partial dependence is, up to one constant, the
sum of the two single ones. -/
theorem C112_friedman_pair_zero [LawfulSqrt K] {u : Row F V → K} (n : Bool) (hs : FitSetup (finM u) E a s0 Xs)
    (hsort : SortsBy OvoRow.val false E.sortOvo) (hX : Xs.frame.rows ≠ [])
    (hret : PdpMethod.fit (.friedman n) E a s0 = (.ok (), s)) :
    ∃ tbl, s.ovo = some tbl ∧ ∀ row ∈ tbl, (row.val = .fin 0 ↔ ∃ c : K, ∀ r ∈ Xs.frame.rows,
      pd2 u Xs.frame row.f1 row.f2 (r row.f1) (r row.f2) =
        pd1 u Xs.frame row.f1 (r row.f1) + pd1 u Xs.frame row.f2 (r row.f2) + c) := by
  obtain ⟨tbl, h1, h2⟩ := C66_H_is_textbook_formula n hs hsort hX hret
  refine ⟨tbl, h1, fun row hrow => ?_⟩
  have hl : (Xs.frame.rows.length : K) ≠ 0 := by simpa using hX
  rw [h_zero_iff hl (h2 row hrow)]
  unfold sumSq
  rw [sumSq_zero_iff]
  exact centred_sum_iff hX (fun r => pd2 u Xs.frame row.f1 row.f2 (r row.f1) (r row.f2))
    (fun r => pd1 u Xs.frame row.f1 (r row.f1)) (fun r => pd1 u Xs.frame row.f2 (r row.f2))

/-- **C112 (one versus all, Friedman).** Likewise a one-versus-all value is 0 exactly when on every row of the data the
prediction is, up to one constant, the sum of the partial dependence on the feature and of the one on all the others. -/
theorem C112_friedman_ova_zero [LawfulSqrt K] {u : Row F V → K} (n : Bool) (hs : FitSetup (finM u) E a s0 Xs)
    (hsort : SortsBy FeatRow.val false E.sortFeat) (hX : Xs.frame.rows ≠ []) (hova : a.calculateOva = true)
    (hret : PdpMethod.fit (.friedman n) E a s0 = (.ok (), s)) :
    ∃ tbl, s.ova = some tbl ∧ ∀ row ∈ tbl, (row.val = .fin 0 ↔ ∃ c : K, ∀ r ∈ Xs.frame.rows,
      u r = pd1 u Xs.frame row.f (r row.f) + pdNot u Xs.frame row.f r + c) := by
  obtain ⟨tbl, h1, _, h2⟩ := C68_ova_is_textbook_formula n hs hsort hX hova hret
  refine ⟨tbl, h1, fun row hrow => ?_⟩
  have hl : (Xs.frame.rows.length : K) ≠ 0 := by simpa using hX
  rw [h_zero_iff hl (h2 row hrow)]
  unfold sumSq
  rw [sumSq_zero_iff]
  exact centred_sum_iff hX u (fun r => pd1 u Xs.frame row.f (r row.f)) (pdNot u Xs.frame row.f)

/-- **C112 (importance).** After a returning `fit` of either method the importance of a feature is 0 exactly when its
partial dependence is the same at every value the feature takes in the data. -/
theorem C112_importance_zero [LawfulSqrt K] {u : Row F V → K} (kind : PdKind) (hs : FitSetup (finM u) E a s0 Xs)
    (hX : Xs.frame.rows ≠ []) (hsort : SortsBy FeatRow.val false E.sortFeat)
    (hret : PdpMethod.fit kind E a s0 = (.ok (), s)) :
    ∃ tbl, s.importance = some tbl ∧ ∀ row ∈ tbl, (row.val = .fin 0 ↔
      ∀ r ∈ Xs.frame.rows, ∀ r' ∈ Xs.frame.rows, pd1 u Xs.frame row.f (r row.f) = pd1 u Xs.frame row.f (r' row.f)) := by
  obtain ⟨tbl, h1, h2⟩ := C70_pd_importance_is_textbook_formula kind hs hX hsort hret
  refine ⟨tbl, h1, fun row hrow => ?_⟩
  obtain ⟨k, hk, vs, hlev, hi⟩ := h2 row hrow
  have hne : vs.map (pd1 u Xs.frame row.f) ≠ [] := by
    obtain ⟨r, hr⟩ := List.exists_mem_of_ne_nil _ hX
    have := (hlev.2 (r row.f)).2 ⟨r, hr, rfl⟩
    simpa using List.ne_nil_of_mem this
  have hz : k = 0 ↔ ∀ y ∈ vs.map (pd1 u Xs.frame row.f), ∀ z ∈ vs.map (pd1 u Xs.frame row.f), y = z := by
    cases hb : E.numeric row.f with
    | true => rw [hb] at hi; exact popStd_zero_iff hne (by simpa using hi)
    | false => rw [hb] at hi; exact quarterRange_zero_iff (by simpa using hi)
  rw [hk, Num.fin.injEq, hz]
  constructor
  · intro h r hr r' hr'
    exact h _ (List.mem_map_of_mem ((hlev.2 _).2 ⟨r, hr, rfl⟩)) _ (List.mem_map_of_mem ((hlev.2 _).2 ⟨r', hr', rfl⟩))
  · intro h y hy z hz
    obtain ⟨v, hv, rfl⟩ := List.mem_map.1 hy
    obtain ⟨v', hv', rfl⟩ := List.mem_map.1 hz
    obtain ⟨r, hr, rfl⟩ := (hlev.2 v).1 hv
    obtain ⟨r', hr', rfl⟩ := (hlev.2 v').1 hv'
    exact h r hr r' hr'

/-- **C112 (pairs, Greenwell).** After a returning Greenwell `fit` a pair value is 0 exactly when the spread of the effect
of each of the two features is the same at every value the other one takes in the data. -/
theorem C112_greenwell_zero [LawfulSqrt K] {u : Row F V → K} (hs : FitSetup (finM u) E a s0 Xs)
    (hX : Xs.frame.rows ≠ []) (hsort : SortsBy OvoRow.val false E.sortOvo)
    (hret : PdpMethod.fit .greenwell E a s0 = (.ok (), s)) :
    ∃ tbl, s.ovo = some tbl ∧ ∀ row ∈ tbl, (row.val = .fin 0 ↔
      SameCondSpread (E.numeric row.f2) u Xs.frame row.f1 row.f2 ∧
      SameCondSpread (E.numeric row.f1) u Xs.frame row.f2 row.f1) := by
  obtain ⟨tbl, h1, h2⟩ := C69_greenwell_is_textbook_formula hs hX hsort hret
  refine ⟨tbl, h1, fun row hrow => ?_⟩
  obtain ⟨k, hk, x, x', hx, hx', rfl⟩ := h2 row hrow
  rw [hk, Num.fin.injEq, ← condSpread_zero_iff hx, ← condSpread_zero_iff hx']
  have p := condSpread_nonneg hx
  have p' := condSpread_nonneg hx'
  constructor
  · intro h
    constructor <;> linarith
  · rintro ⟨rfl, rfl⟩
    ring

section Cases
open Ex

/-- both sides of the equivalence occur: in the example features 0 and 2 satisfy the condition, features 0 and 1 do not,
and the two values are reported accordingly -/
example (n : Bool) : ∃ s tbl, PdpMethod.fit (G := Nat) (L := Nat) (K := ℝ) (.friedman n) exEnv exArgs
    (PdpMethod.new 0) = (.ok (), s) ∧ s.ovo = some tbl ∧
      (∀ row ∈ tbl, row.f1 = 0 → row.f2 = 2 → row.val = .fin 0) ∧
      ∀ row ∈ tbl, row.f1 = 0 → row.f2 = 1 → row.val ≠ .fin 0 := by
  obtain ⟨s, hs⟩ := exFitR n
  obtain ⟨tbl, h1, h2⟩ := C112_friedman_pair_zero n (exSetup 0) (sortsBy_stableSort _ _) exRows hs
  refine ⟨s, tbl, hs, h1, ?_, ?_⟩
  · intro row hr e1 e2
    rw [h2 row hr, e1, e2]
    refine ⟨-13 / 4, fun r hr => ?_⟩
    simp [exLX, exX] at hr
    rcases hr with rfl | rfl | rfl | rfl <;> (simp [pd1, pd2, average, exLX, exX, exU, setF]; try norm_num)
  · intro row hr e1 e2
    rw [Ne, h2 row hr, e1, e2]
    rintro ⟨c, hc⟩
    have q1 := hc ![0, 0, 1] (by simp [exLX, exX])
    have q2 := hc ![0, 1, 5] (by simp [exLX, exX])
    simp [pd1, pd2, average, exLX, exX, exU, setF] at q1 q2
    norm_num at q1 q2
    linarith

example : ∃ s tbl, PdpMethod.fit (G := Nat) (L := Nat) (K := ℝ) .greenwell exEnv exArgs (PdpMethod.new 0) =
    (.ok (), s) ∧ s.ovo = some tbl ∧ tbl.length = 3 ∧ ∀ row ∈ tbl, (row.val = .fin 0 ↔
      SameCondSpread ((exEnv (K := ℝ)).numeric row.f2) (exU (K := ℝ)) exX row.f1 row.f2 ∧
      SameCondSpread ((exEnv (K := ℝ)).numeric row.f1) (exU (K := ℝ)) exX row.f2 row.f1) := by
  obtain ⟨s, hs⟩ := exGwR
  obtain ⟨tbl, h1, h2⟩ := C112_greenwell_zero (exSetup 0) exRows (sortsBy_stableSort _ _) hs
  obtain ⟨tbl', h1', h3⟩ := C13_one_row_per_pair .greenwell (exSetup 0) (sortsBy_stableSort _ _)
    (by show [(0 : Fin 3), 1, 2].Nodup; decide) hs
  rw [h1] at h1'
  cases h1'
  exact ⟨s, tbl, hs, h1, h3.1, h2⟩

end Cases
end Artemis
