import Verif.Model.RoundedGreenwell
import Verif.Props.Rounding
import Verif.Proofs.SizeLemmas
import Verif.Props.Stability

/-!
# Properties C145–C147: Greenwell's measure and features the model ignores, in floating-point arithmetic
-/

set_option linter.unusedSectionVars false
set_option linter.unusedVariables false
set_option linter.unusedSimpArgs false

namespace Artemis
open Spec

section RoundedGreenwell
variable {F V K : Type} [DecidableEq F] [LinearOrder V] [Field K] [LinearOrder K] [IsStrictOrderedRing K]
  [HasSqrt K] [LawfulSqrt K] {A : Arith K} {std : List (Num K) → Num K} {sortOvo : List (OvoRow F K) → List (OvoRow F K)}
  {sortFeat : List (FeatRow F K) → List (FeatRow F K)} {numeric : F → Bool} {predict : PF F V (Rounded A)}
  {X : Frame F V} {features : List F} {batchsize : Int} {ovo : List (OvoRow F K)} {imp : List (FeatRow F K)}
  {u η B M κ : K} {w : Row F V → K}

/-! ### The table in terms of brute-force partial dependence -/

/-- the two averaged conditional importances of a pair, rounded -/
def gwNumR (A : Arith K) (std : List (Num K) → Num K) (n1 n2 : Bool) (g : Row F V → Rounded A) (X : Frame F V) (f f' : F) :
    Except Err (Num K) := do
  let resJ ← stdevOfImpR A std n2 ((npUnique (X.col f)).map fun v => (npUnique (X.col f')).map fun v' => (pdPair g X f f' v v').val)
  let resI ← stdevOfImpR A std n1 ((npUnique (X.col f')).map fun v' => (npUnique (X.col f)).map fun v => (pdPair g X f f' v v').val)
  .ok (A.div (A.add resJ resI) (.fin 2))

/-- the raw row of a pair -/
def gwRowR (A : Arith K) (std : List (Num K) → Num K) (numeric : F → Bool) (g : Row F V → Rounded A) (X : Frame F V) (q : F × F) :
    Except Err (OvoRow F K) :=
  (gwNumR A std (numeric (canonPair X q).1) (numeric (canonPair X q).2) g X (canonPair X q).1 (canonPair X q).2).map
    fun v => ⟨(canonPair X q).1, (canonPair X q).2, v⟩

theorem greenwellPairR_done {g : Row F V → Rounded A} {c : Calc F V (Rounded A)} (hs : Shape c) {q : F × F}
    (hq : canonPair c.X q ∈ combinations2 c.X.cols) (hne : (canonPair c.X q).1 ≠ (canonPair c.X q).2)
    (d : DoneP g c true q) (numeric : F → Bool) :
    greenwellPairR A std numeric c q = gwRowR A std numeric g c.X q := by
  have hcc : canonPair c.X (canonPair c.X q) = canonPair c.X q := if_pos hq
  have d' : DoneP g c true (canonPair c.X q) := by
    unfold DoneP at d ⊢
    rw [hcc]; exact d
  unfold greenwellPairR gwRowR gwNumR
  have hnil : npUnique (c.X.col (canonPair c.X q).1) = [] → npUnique (c.X.col (canonPair c.X q).2) = [] := by
    rw [npUnique_eq_nil_iff, npUnique_eq_nil_iff]
    simp [Frame.col]
  simp only [pairKey_eq hs, bind, Except.bind, getPairsAll_done hs hq hne d', List.map_map, Function.comp_def]
  rw [columns_head _ _ _ hnil]
  cases stdevOfImpR A std (numeric (canonPair c.X q).2) ((npUnique (c.X.col (canonPair c.X q).1)).map fun v =>
    (npUnique (c.X.col (canonPair c.X q).2)).map fun v' => (pdPair g c.X (canonPair c.X q).1 (canonPair c.X q).2 v v').val) with
  | error e => rfl
  | ok x =>
    simp only
    cases stdevOfImpR A std (numeric (canonPair c.X q).1) ((npUnique (c.X.col (canonPair c.X q).2)).map fun v' =>
      (npUnique (c.X.col (canonPair c.X q).1)).map fun v => (pdPair g c.X (canonPair c.X q).1 (canonPair c.X q).2 v v').val) <;> rfl

/-- What the rounded Greenwell method returns. -/
theorem greenwellR_ret {g : Row F V → Rounded A} (hw : RowWise g predict) (hp : NeverFails predict) (hX : X.rows ≠ [])
    (hv : ValidFeatures X features) :
    greenwellR A std sortOvo sortFeat numeric predict X features batchsize =
      ((combinations2 features).mapM (gwRowR A std numeric g X)).map fun rows => ((sortOvo rows).map OvoRow.fillna,
        (sortFeat (features.map fun f => ⟨f, impNumR (numeric f) g X f⟩)).map FeatRow.fillna) := by
  have hg := good_new hw X batchsize
  have o1 : (Calc.calculatePairs (some (combinations2 features)) true (Calc.new predict X batchsize)).1 = .ok () :=
    run_ok hg hp (.pairs (some (combinations2 features)) true) (fun q hq => by
      have hq' := mem_combinations2 (p := q) hq
      exact ⟨hv.cols _ hq'.1, hv.cols _ hq'.2, hv.ne q hq⟩)
  have dp := doneP_of_ok hg o1
  cases e1 : Calc.calculatePairs (some (combinations2 features)) true (Calc.new predict X batchsize) with
  | mk r1 c1 =>
    have s1 := opStep_of_run hg (op := .pairs (some (combinations2 features)) true) e1
    rw [e1] at o1 dp
    simp only at o1 dp
    subst o1
    have hX1 : c1.X = X := s1.later.X
    have hp1 : c1.predict = predict := s1.later.predict
    have hm : (combinations2 features).mapM (greenwellPairR A std (fun f => numeric f && decide (f ∈ features)) c1) =
        (combinations2 features).mapM (gwRowR A std numeric g X) := by
      apply mapM_congr
      intro q hq
      have hq' := mem_combinations2 (p := q) hq
      have hne := hv.ne q hq
      have hcm := canonPair_mem (hv.cols _ hq'.1) (hv.cols _ hq'.2) hne
      have := greenwellPairR_done (std := std) (g := g) (c := c1) s1.good.shape (q := q) (by rw [hX1]; exact hcm) (canonPair_ne hne)
        ((dp q hq).1 hcm) (fun f => numeric f && decide (f ∈ features))
      rw [hX1] at this
      rw [this]
      have m1 : (canonPair X q).1 ∈ features ∧ (canonPair X q).2 ∈ features := by
        unfold canonPair
        split
        · exact hq'
        · exact hq'.symm
      simp only [gwRowR, m1.1, m1.2, decide_true, Bool.and_true]
    obtain ⟨c2, e2, s2⟩ := pdpImportanceR_ret (A := A) s1.good (by rw [hp1]; exact hp) (by rw [hX1]; exact hX) sortFeat
      (fun f => numeric f && decide (f ∈ features)) (fs := features) (by rw [hX1]; exact hv.cols)
    have hi : (features.map fun f => (⟨f, impNumR (numeric f && decide (f ∈ features)) g X f⟩ : FeatRow F K)) =
        features.map fun f => ⟨f, impNumR (numeric f) g X f⟩ := List.map_congr_left fun f hf => by simp [hf]
    rw [hX1, hi] at e2
    unfold greenwellR greenwellOvoR
    simp only [PyM.seq, e1, hm]
    cases (combinations2 features).mapM (gwRowR A std numeric g X) with
    | error e => rfl
    | ok rows =>
      simp only [e2]
      rfl

/-! ### Errors -/

theorem exists_sampleStd {l : List K} (h : 2 ≤ l.length) : ∃ s, IsSampleStd l s := by
  have h2 : (2 : K) ≤ l.length := by exact_mod_cast h
  have : 0 ≤ sumDev l / ((l.length : K) - 1) := by
    apply div_nonneg _ (by linarith)
    apply List.sum_nonneg
    intro z hz
    obtain ⟨i, _, rfl⟩ := List.mem_map.1 hz
    exact mul_self_nonneg _
  exact ⟨_, h, LawfulSqrt.nonneg _, LawfulSqrt.mul_self _ this⟩

theorem sampleStd_small {l : List K} {lo hi s : K} (h : ∀ x ∈ l, lo ≤ x ∧ x ≤ hi) (hs : IsSampleStd l s) (hle : lo ≤ hi) :
    s ≤ 3 / 4 * (hi - lo) := by
  have := sampleStd_bound h hs
  refine le_of_sq_le' ?_ (by linarith)
  nlinarith [mul_self_nonneg (hi - lo)]

/-- the computed standard deviation of perturbed numbers -/
theorem std_close (hstd : StdSuits std κ (4 * M)) {α : Type} {l : List α} (h2 : 2 ≤ l.length) {p : α → Num K} {x : α → K} {δ s : K}
    (hp : ∀ i ∈ l, CloseTo (p i) (x i) δ) (hb : ∀ i ∈ l, |x i| + δ ≤ 4 * M) (hs : IsSampleStd (l.map x) s) :
    CloseTo (std (l.map p)) s (κ + 3 / 2 * δ) := by
  have hf : ∀ i ∈ l, p i = .fin (p i).realPart ∧ |(p i).realPart - x i| ≤ δ := by
    intro v hv
    obtain ⟨y, e, hy⟩ := hp v hv
    rw [e]
    exact ⟨rfl, hy⟩
  have ep : l.map p = (l.map fun i => (p i).realPart).map .fin := by
    rw [List.map_map]
    exact List.map_congr_left fun v hv => (hf v hv).1
  have δ0 : 0 ≤ δ := by
    obtain ⟨i, hi⟩ := List.exists_mem_of_length_pos (show 0 < l.length by omega)
    exact (abs_nonneg _).trans (hf i hi).2
  obtain ⟨t, ht⟩ := exists_sampleStd (l := l.map fun i => (p i).realPart) (by simpa using h2)
  have hc := hstd.close _ t (by
    intro y hy
    obtain ⟨i, hi, rfl⟩ := List.mem_map.1 hy
    have a := abs_le.1 (hf i hi).2
    have b := hb i hi
    have c := abs_le.1 (le_refl |x i|)
    rw [abs_le]; constructor <;> linarith) ht
  rw [← ep] at hc
  have e0 : (0 : K) ≤ 2 * (δ * δ) := by positivity
  have c0 : 0 ≤ HasSqrt.sqrt (2 * (δ * δ)) := LawfulSqrt.nonneg _
  have c2 : HasSqrt.sqrt (2 * (δ * δ)) * HasSqrt.sqrt (2 * (δ * δ)) = 2 * (δ * δ) := LawfulSqrt.mul_self _ e0
  have n := sampleStd_near c0 c2 (fun i hi => (hf i hi).2) hs ht
  have c3 : HasSqrt.sqrt (2 * (δ * δ)) ≤ 3 / 2 * δ := le_of_sq_le' (by rw [c2]; nlinarith) (by linarith)
  exact hc.trans (n.trans c3)

theorem condImp_close (h : A.Suits u η B X.rows.length M) (hstd : StdSuits std κ (4 * M)) (b : Bool) {l : List V} (h2 : 2 ≤ l.length)
    {p : V → Num K} {x : V → K} (hp : ∀ v ∈ l, CloseTo (p v) (x v) (7 * (X.rows.length * (u * M))) ∧ |x v| ≤ M) :
    ∃ k, (if b then IsSampleStd (l.map x) k else IsQuarterRange (l.map x) k) ∧ 0 ≤ k ∧ k ≤ 3 / 2 * M ∧
      ∃ a, condImpR A std b (l.map p) = .ok a ∧ CloseTo a k (53 * (X.rows.length * (u * M)) + κ) := by
  obtain ⟨hu, η0, w0, w1, w2, m1, hB, u1⟩ := h.facts
  have M0 := h.size_nonneg
  have κ0 := hstd.err_nonneg
  have hb : ∀ y ∈ l.map x, -M ≤ y ∧ y ≤ M := by
    intro y hy; obtain ⟨v, hv, rfl⟩ := List.mem_map.1 hy; exact abs_le.1 (hp v hv).2
  cases b with
  | true =>
    obtain ⟨s, hs⟩ := exists_sampleStd (l := l.map x) (by simpa using h2)
    refine ⟨s, by simpa using hs, hs.2.1, by have := sampleStd_small hb hs (by linarith); linarith, std (l.map p), ?_, ?_⟩
    · simp only [condImpR, if_true, stdevR, List.length_map, if_neg (by omega : ¬ l.length < 2)]
    · exact (std_close hstd h2 (fun v hv => (hp v hv).1) (fun v hv => by have := (hp v hv).2; linarith) hs).mono (by linarith)
  | false =>
    obtain ⟨k, hk, a, ea, ha⟩ := range_close h (by rintro rfl; simp at h2) hp
    have q := quarterRange_bound hb hk
    exact ⟨k, by simpa using hk, q.1, by linarith [q.2], a, by simpa [condImpR] using ea, ha.mono (by linarith)⟩

theorem spread_close (h : A.Suits u η B X.rows.length M) (hstd : StdSuits std κ (4 * M)) (hκ : κ ≤ M) (b : Bool) {l l' : List V}
    (h1 : 2 ≤ l.length) (h2 : 2 ≤ l'.length) {p : V → V → Num K} {x : V → V → K}
    (hp : ∀ v ∈ l, ∀ v' ∈ l', CloseTo (p v v') (x v v') (7 * (X.rows.length * (u * M))) ∧ |x v v'| ≤ M) :
    ∃ (s : K) (imp : V → K), IsSampleStd (l.map imp) s ∧ (∀ v ∈ l, if b then IsSampleStd (l'.map (x v)) (imp v)
      else IsQuarterRange (l'.map (x v)) (imp v)) ∧ s ≤ 3 / 2 * M ∧
      ∃ a, stdevOfImpR A std b (l.map fun v => l'.map (p v)) = .ok a ∧ CloseTo a s (80 * (X.rows.length * (u * M)) + 5 / 2 * κ) := by
  obtain ⟨hu, η0, w0, w1, w2, m1, hB, u1⟩ := h.facts
  have M0 := h.size_nonneg
  have κ0 := hstd.err_nonneg
  have hc := fun v hv => condImp_close h hstd b h2 (hp v hv)
  haveI : Nonempty (Num K) := ⟨.nan⟩
  choose! imp i1 i2 i3 a ea ca using hc
  obtain ⟨s, hs⟩ := exists_sampleStd (l := l.map imp) (by simpa using h1)
  have hb : ∀ y ∈ l.map imp, 0 ≤ y ∧ y ≤ 3 / 2 * M := by
    intro y hy; obtain ⟨v, hv, rfl⟩ := List.mem_map.1 hy; exact ⟨i2 v hv, i3 v hv⟩
  refine ⟨s, imp, hs, i1, by have := sampleStd_small hb hs (by linarith); linarith, std (l.map a), ?_, ?_⟩
  · have hm : (l.map fun v => l'.map (p v)).mapM (condImpR A std b) = .ok (l.map a) := by
      rw [List.mapM_map]
      exact mapM_ok ea
    have hne : (l.map fun v => l'.map (p v)).isEmpty = false := by
      cases l with
      | nil => simp at h1
      | cons => rfl
    simp only [stdevOfImpR, hne, Bool.false_eq_true, if_false, hm, bind, Except.bind, stdevR, List.length_map,
      if_neg (by omega : ¬ l.length < 2)]
  · refine (std_close hstd h1 (fun v hv => ca v hv) (fun v hv => ?_) hs).mono (by linarith)
    have q1 := i2 v hv
    have q2 := i3 v hv
    rw [abs_of_nonneg q1]
    linarith

theorem two_levels {f : F} (h : ∃ r ∈ X.rows, ∃ r' ∈ X.rows, r f ≠ r' f) : 2 ≤ (npUnique (X.col f)).length := by
  obtain ⟨r, hr, r', hr', hne⟩ := h
  exact two_le_npUnique.2 ⟨r f, List.mem_map_of_mem hr, r' f, List.mem_map_of_mem hr', hne⟩

theorem gwNumR_close (h : A.Suits u η B X.rows.length M) (hstd : StdSuits std κ (4 * M)) (hκ : κ ≤ M) (hw : ∀ r, Mixes X r → |w r| ≤ M)
    {f f' : F} (hne : f ≠ f') (h1 : 2 ≤ (npUnique (X.col f)).length) (h2 : 2 ≤ (npUnique (X.col f')).length) :
    ∃ k, IsGreenwell numeric w X f f' k ∧ ∃ a, gwNumR A std (numeric f) (numeric f') (fltM A w) X f f' = .ok a ∧
      CloseTo a k (96 * (X.rows.length * (u * M)) + 3 * κ) := by
  obtain ⟨hu, η0, w0, w1, w2, m1, hB, u1⟩ := h.facts
  have M0 := h.size_nonneg
  have κ0 := hstd.err_nonneg
  have hη := h.small
  have nn : 0 ≤ (X.rows.length : K) * (M * M) := mul_nonneg (by linarith [h.one_le]) (mul_self_nonneg M)
  have hp := fun v (hv : v ∈ npUnique (X.col f)) v' (hv' : v' ∈ npUnique (X.col f')) =>
    pdPair_close (f := f) (f' := f') h hw (levels_observed (levels_npUnique X f) hv) (levels_observed (levels_npUnique X f') hv')
  obtain ⟨s, imp, hs, hi, sM, a, ea, ca⟩ := spread_close h hstd hκ (numeric f') h1 h2 hp
  obtain ⟨t, imp', ht, hi', tM, b, eb, cb⟩ := spread_close h hstd hκ (numeric f) h2 h1
    (p := fun v' v => (pdPair (fltM A w) X f f' v v').val) (x := fun v' v => pd2 w X f' f v' v) (fun v' hv' v hv => by
      rw [← pd2_swap w X hne]
      exact hp v hv v' hv')
  refine ⟨(s + t) / 2, ⟨s, t, ⟨_, _, imp, levels_npUnique X f, levels_npUnique X f', hs, hi⟩,
    ⟨_, _, imp', levels_npUnique X f', levels_npUnique X f, ht, hi'⟩, rfl⟩, A.div (A.add a b) (.fin 2), ?_, ?_⟩
  · unfold gwNumR
    simp only [ea, eb, bind, Except.bind]
  · obtain ⟨y, rfl, hy⟩ := ca
    obtain ⟨z, rfl, hz⟩ := cb
    have s0 := hs.2.1
    have t0 := ht.2.1
    obtain ⟨y1, y2⟩ := abs_le.1 hy
    obtain ⟨z1, z2⟩ := abs_le.1 hz
    have hyz : |y + z| ≤ 11 * M := by rw [abs_le]; constructor <;> linarith
    obtain ⟨c, ec, hc⟩ := r_close (A := A) h.accurate hyz (by linarith)
    have ec' : A.add (.fin y) (.fin z) = .fin c := ec
    have e11 : u * (11 * M) = 11 * (u * M) := by ring
    rw [e11] at hc
    obtain ⟨c1, c2⟩ := abs_le.1 hc
    have hc2 : |c / 2| ≤ 6 * M := by
      obtain ⟨q1, q2⟩ := abs_le.1 hyz
      rw [abs_le]; constructor <;> linarith
    have e2 : Num.div (.fin c) (.fin 2) = (.fin (c / 2) : Num K) := by simp [Num.div]
    rw [ec', Arith.div, e2]
    have e6 : u * (6 * M) = 6 * (u * M) := by ring
    refine ((r_close h.accurate hc2 (by linarith)).trans (y := (s + t) / 2)
      (δ := 80 * (X.rows.length * (u * M)) + 5 / 2 * κ + 6 * (u * M)) ?_).mono ?_
    · rw [abs_le]; constructor <;> linarith
    · rw [e6]; linarith

theorem greenwell_unique {X : Frame F V} (hX : X.rows ≠ []) {f f' : F} {k k' : K} (h : IsGreenwell numeric w X f f' k)
    (h' : IsGreenwell numeric w X f f' k') : k = k' := by
  obtain ⟨s, t, hs, ht, rfl⟩ := h
  obtain ⟨s', t', hs', ht', rfl⟩ := h'
  have z : ∀ {b : Bool} {f g : F} {k k' : K}, IsCondSpread b w X f g k → IsCondSpread b w X f g k' → k = k' := by
    intro b f g k k' h1 h2
    have := abs_le.1 (condSpread_near (ε := 0) (u := w) (u' := w) (fun r _ => by simp) hX h1 h2)
    linarith
  rw [z hs hs', z ht ht']

theorem gwRowR_close (h : A.Suits u η B X.rows.length M) (hstd : StdSuits std κ (4 * M)) (hκ : κ ≤ M) (hw : ∀ r, Mixes X r → |w r| ≤ M)
    (hl : ∀ f ∈ features, ∃ r ∈ X.rows, ∃ r' ∈ X.rows, r f ≠ r' f) (hnd : features.Nodup) {q : F × F} (hq : q ∈ combinations2 features) :
    ∃ row, gwRowR A std numeric (fltM A w) X q = .ok row ∧ row.isPair q.1 q.2 ∧ ∃ k, IsGreenwell numeric w X row.f1 row.f2 k ∧
      CloseTo row.val k (96 * (X.rows.length * (u * M)) + 3 * κ) := by
  have hq' := mem_combinations2 (p := q) hq
  have hne := ne_of_mem_combinations2 hnd hq
  have m1 : (canonPair X q).1 ∈ features ∧ (canonPair X q).2 ∈ features := by
    unfold canonPair
    split
    · exact hq'
    · exact hq'.symm
  obtain ⟨k, hk, a, ea, ca⟩ := gwNumR_close (numeric := numeric) h hstd hκ hw (canonPair_ne (X := X) hne) (two_levels (hl _ m1.1))
    (two_levels (hl _ m1.2))
  refine ⟨⟨(canonPair X q).1, (canonPair X q).2, a⟩, by simp only [gwRowR, ea, Except.map], ?_, k, hk, ca⟩
  unfold canonPair OvoRow.isPair
  split <;> simp

/-- **C145.** Greenwell's measure for a finite-valued model whose predictions are of size at most `M` on mixtures of observed values, when
each included feature takes two values or more: the fit returns; there is a row for every pair; each value is a finite number within
`96 · rows · u · M + 3 κ` of the measure in exact arithmetic, where `κ` is the error of `statistics.stdev`; and a row stands above
another one only if its exact measure is larger or the two differ by at most twice that. -/
theorem C145_greenwell_close_to_exact (h : A.Suits u η B X.rows.length M) (hstd : StdSuits std κ (4 * M)) (hκ : κ ≤ M)
    (hw : ∀ r, Mixes X r → |w r| ≤ M) (hso : SortsBy OvoRow.val false sortOvo) (hp : RowWise (fltM A w) predict) (hnf : NeverFails predict)
    (hfs : ∀ f ∈ features, f ∈ X.cols) (hnd : features.Nodup) (hl : ∀ f ∈ features, ∃ r ∈ X.rows, ∃ r' ∈ X.rows, r f ≠ r' f) :
    ∃ ovo imp, greenwellR A std sortOvo sortFeat numeric predict X features batchsize = .ok (ovo, imp) ∧
      ovo.length = (combinations2 features).length ∧ (∀ f ∈ features, ∀ f' ∈ features, f ≠ f' → ∃ r ∈ ovo, r.isPair f f') ∧
      (∀ r ∈ ovo, r.f1 ∈ features ∧ r.f2 ∈ features ∧ r.f1 ≠ r.f2 ∧ ∃ k, IsGreenwell numeric w X r.f1 r.f2 k ∧
        CloseTo r.val k (96 * (X.rows.length * (u * M)) + 3 * κ)) ∧
      ovo.Pairwise fun r r' => ∀ k k', IsGreenwell numeric w X r.f1 r.f2 k → IsGreenwell numeric w X r'.f1 r'.f2 k' →
        k' ≤ k + 2 * (96 * (X.rows.length * (u * M)) + 3 * κ) := by
  have hX := rows_of_suits h
  have hv := validFeatures_of_nodup hfs hnd
  obtain ⟨row, hrow⟩ : ∃ row : F × F → OvoRow F K, row = fun q => (gwRowR A std numeric (fltM A w) X q).toOption.getD ⟨q.1, q.2, .nan⟩ :=
    ⟨_, rfl⟩
  have hr : ∀ q ∈ combinations2 features, gwRowR A std numeric (fltM A w) X q = .ok (row q) ∧ (row q).isPair q.1 q.2 ∧
      ∃ k, IsGreenwell numeric w X (row q).f1 (row q).f2 k ∧ CloseTo (row q).val k (96 * (X.rows.length * (u * M)) + 3 * κ) := by
    intro q hq
    obtain ⟨r, e, h1, h2⟩ := gwRowR_close (numeric := numeric) h hstd hκ hw hl hnd hq
    have : row q = r := by rw [hrow]; simp only [e, Except.toOption, Option.getD_some]
    rw [this]
    exact ⟨e, h1, h2⟩
  have hm : (combinations2 features).mapM (gwRowR A std numeric (fltM A w) X) = .ok ((combinations2 features).map row) :=
    mapM_ok fun q hq => (hr q hq).1
  have hret := greenwellR_ret (std := std) (sortOvo := sortOvo) (sortFeat := sortFeat) (numeric := numeric) (batchsize := batchsize)
    hp hnf hX hv
  rw [hm] at hret
  have val : ∀ q ∈ combinations2 features, (row q).fillna = row q := by
    intro q hq
    obtain ⟨_, _, k, _, y, e, _⟩ := hr q hq
    have : (row q).val.fillna0 = (row q).val := by rw [e]; rfl
    unfold OvoRow.fillna
    rw [this]
  have hmem : ∀ r ∈ sortOvo ((combinations2 features).map row), ∃ q ∈ combinations2 features, row q = r := fun r hr =>
    List.mem_map.1 ((hso _).1.mem_iff.1 hr)
  have heq : (sortOvo ((combinations2 features).map row)).map OvoRow.fillna = sortOvo ((combinations2 features).map row) := by
    conv_rhs => rw [← List.map_id (sortOvo _)]
    refine List.map_congr_left fun r hr => ?_
    obtain ⟨q, hq, rfl⟩ := hmem r hr
    exact val q hq
  refine ⟨_, _, hret, ?_, ?_, ?_, ?_⟩
  · simp [(hso _).1.length_eq]
  · intro f hf f' hf' hne
    simp only [heq]
    rcases mem_combinations2_or hf hf' hne with m | m
    · exact ⟨row (f, f'), (hso _).1.mem_iff.2 (List.mem_map_of_mem m), (hr _ m).2.1⟩
    · exact ⟨row (f', f), (hso _).1.mem_iff.2 (List.mem_map_of_mem m), (hr _ m).2.1.symm⟩
  · simp only [heq]
    intro r hr'
    obtain ⟨q, hq, rfl⟩ := hmem r hr'
    obtain ⟨_, hpair, hk⟩ := hr q hq
    have hq' := mem_combinations2 (p := q) hq
    have hne := hv.ne q hq
    refine ⟨?_, ?_, ?_, hk⟩ <;> rcases hpair with ⟨e1, e2⟩ | ⟨e1, e2⟩
    · rw [e1]; exact hq'.1
    · rw [e1]; exact hq'.2
    · rw [e2]; exact hq'.2
    · rw [e2]; exact hq'.1
    · rw [e1, e2]; exact hne
    · rw [e1, e2]; exact hne.symm
  · simp only [heq]
    refine List.Pairwise.imp_of_mem ?_ (hso _).2
    intro r r' m m' hle k k' hk hk'
    obtain ⟨q, hq, rfl⟩ := hmem r m
    obtain ⟨q', hq', rfl⟩ := hmem r' m'
    obtain ⟨_, _, x, hx, y, ey, hy⟩ := hr q hq
    obtain ⟨_, _, x', hx', y', ey', hy'⟩ := hr q' hq'
    rw [greenwell_unique hX hk hx, greenwell_unique hX hk' hx']
    rw [ey, ey'] at hle
    have t1 := abs_le.1 hy
    have t2 := abs_le.1 hy'
    have : y' ≤ y := by simpa [Num.keyLE, Num.isNaN, Num.le] using hle
    linarith

/-! ### Features the model ignores -/

theorem rangeImpR_same (hz : A.rnd 0 = .fin 0) {l : List V} (hl : l ≠ []) (y : K) :
    rangeImpR A (l.map fun _ => (.fin y : Num K)) = .ok (.fin 0) := by
  obtain ⟨a, e1, ⟨_, _, h1⟩, _⟩ := max?_fin l (fun _ => y) hl
  obtain ⟨b, e2, ⟨_, _, h2⟩, _⟩ := min?_fin l (fun _ => y) hl
  rw [h1] at e1
  rw [h2] at e2
  have e3 : Num.sub (.fin y) (.fin y) = (.fin 0 : Num K) := by simp [Num.sub, Num.neg, Num.add]
  have e4 : Num.div (.fin 0) (.fin 4) = (.fin 0 : Num K) := by simp [Num.div]
  simp only [rangeImpR, e1, e2, Arith.sub, Arith.div, e3, Arith.r, hz, e4]

theorem condImpR_same (hz : A.rnd 0 = .fin 0) (hstd : StdSuits std κ (4 * M)) (b : Bool) {l : List V} (h2 : 2 ≤ l.length) (y : K) :
    condImpR A std b (l.map fun _ => (.fin y : Num K)) = .ok (.fin 0) := by
  cases b with
  | true =>
    simp only [condImpR, if_true, stdevR, List.length_map, if_neg (by omega : ¬ l.length < 2)]
    rw [hstd.same _ y (by simpa using h2) (by simp)]
  | false => exact rangeImpR_same hz (by rintro rfl; simp at h2) y

theorem spread_same (hstd : StdSuits std κ (4 * M)) (b : Bool) {l : List V} (h1 : 2 ≤ l.length) {q : V → List (Num K)} {y : K}
    (h : ∀ v ∈ l, condImpR A std b (q v) = .ok (.fin y)) : stdevOfImpR A std b (l.map q) = .ok (.fin 0) := by
  have hm : (l.map q).mapM (condImpR A std b) = .ok (l.map fun _ => .fin y) := by
    rw [List.mapM_map]
    exact mapM_ok h
  have hne : (l.map q).isEmpty = false := by
    cases l with
    | nil => simp at h1
    | cons => rfl
  simp only [stdevOfImpR, hne, Bool.false_eq_true, if_false, hm, bind, Except.bind, stdevR, List.length_map,
    if_neg (by omega : ¬ l.length < 2)]
  rw [hstd.same _ y (by simpa using h1) (by simp)]

/-- both spreads vanish if the joint partial dependence does not depend on the second feature -/
theorem spreads_zero (h : A.Suits u η B X.rows.length M) (hz : A.rnd 0 = .fin 0) (hstd : StdSuits std κ (4 * M)) (b b' : Bool) {l l' : List V}
    (h1 : 2 ≤ l.length) (h2 : 2 ≤ l'.length) {p : V → Num K} {x : V → K}
    (hp : ∀ v ∈ l, CloseTo (p v) (x v) (7 * (X.rows.length * (u * M))) ∧ |x v| ≤ M) :
    stdevOfImpR A std b' (l.map fun v => l'.map fun _ => p v) = .ok (.fin 0) ∧
      stdevOfImpR A std b (l'.map fun _ => l.map p) = .ok (.fin 0) := by
  constructor
  · refine spread_same hstd b' h1 (y := 0) fun v hv => ?_
    obtain ⟨y, e, _⟩ := (hp v hv).1
    rw [e]
    exact condImpR_same hz hstd b' h2 y
  · obtain ⟨k, _, _, _, a, ea, y, ey, _⟩ := condImp_close h hstd b h1 hp
    subst ey
    exact spread_same hstd b h2 (y := y) fun v _ => ea

theorem gwNumR_zero (h : A.Suits u η B X.rows.length M) (hz : A.rnd 0 = .fin 0) (hstd : StdSuits std κ (4 * M))
    (hw : ∀ r, Mixes X r → |w r| ≤ M) {f f' : F} (hne : f ≠ f') (hi : Ignores w f ∨ Ignores w f') {n1 n2 : Bool} {a : Num K}
    (e : gwNumR A std n1 n2 (fltM A w) X f f' = .ok a) : a = .fin 0 := by
  have hX := rows_of_suits h
  unfold gwNumR at e
  simp only [bind, Except.bind] at e
  have len : ∀ {b : Bool} {l : List V} {q : V → List (Num K)} {a : Num K}, stdevOfImpR A std b (l.map q) = .ok a → 2 ≤ l.length := by
    intro b l q a e
    unfold stdevOfImpR at e
    simp only [bind, Except.bind] at e
    split at e
    · cases e
    · cases him : (l.map q).mapM (condImpR A std b) with
      | error er => rw [him] at e; cases e
      | ok imps =>
        rw [him] at e
        have := (mapM_eq_ok him).length_eq
        simp only [stdevR] at e
        split at e
        · cases e
        · simp only [List.length_map] at this
          omega
  have flt : ∀ v v', (pdPair (fltM A w) X f f' v v').val = A.mean (X.rows.map fun r => .fin (w (setF (setF r f' v') f v))) := by
    intro v v'
    show A.mean ((X.rows.map _).map Rounded.val) = _
    rw [List.map_map]
    rfl
  split at e
  · cases e
  · rename_i j hj
    split at e
    · cases e
    · rename_i i hi'
      have l1 := len hj
      have l2 := len hi'
      have fin : j = .fin 0 ∧ i = .fin 0 := by
        rcases hi with hi | hi
        · have s : ∀ v v', (pdPair (fltM A w) X f f' v v').val = (pdSingle (fltM A w) X f' v').val := by
            intro v v'
            rw [flt]
            simp only [hi _ v]
            show _ = A.mean ((X.rows.map _).map Rounded.val)
            rw [List.map_map]
            rfl
          simp only [s] at hj hi'
          obtain ⟨z1, z2⟩ := spreads_zero h hz hstd n2 n1 l2 l1 (p := fun v => (pdSingle (fltM A w) X f' v).val)
            (fun v hv => pdSingle_close h hw (levels_observed (levels_npUnique X f') hv))
          rw [z2] at hj
          rw [z1] at hi'
          cases hj
          cases hi'
          exact ⟨rfl, rfl⟩
        · have s : ∀ v v', (pdPair (fltM A w) X f f' v v').val = (pdSingle (fltM A w) X f v).val := by
            intro v v'
            rw [flt]
            simp only [setF_comm _ hne, hi _ v']
            show _ = A.mean ((X.rows.map _).map Rounded.val)
            rw [List.map_map]
            rfl
          simp only [s] at hj hi'
          obtain ⟨z1, z2⟩ := spreads_zero h hz hstd n1 n2 l1 l2 (p := fun v => (pdSingle (fltM A w) X f v).val)
            (fun v hv => pdSingle_close h hw (levels_observed (levels_npUnique X f) hv))
          rw [z1] at hj
          rw [z2] at hi'
          cases hj
          cases hi'
          exact ⟨rfl, rfl⟩
      obtain ⟨rfl, rfl⟩ := fin
      simp only [Except.ok.injEq] at e
      rw [← e]
      have e3 : Num.add (.fin 0) (.fin 0) = (.fin 0 : Num K) := by simp [Num.add]
      have e4 : Num.div (.fin 0) (.fin 2) = (.fin 0 : Num K) := by simp [Num.div]
      simp only [Arith.add, Arith.div, e3, Arith.r, hz, e4]

/-- **C146.** If the model ignores one of two included features, Greenwell's table shows exactly zero for the pair, rounding
errors notwithstanding. -/
theorem C146_ignored_exactly_zero (h : A.Suits u η B X.rows.length M) (hz : A.rnd 0 = .fin 0) (hstd : StdSuits std κ (4 * M))
    (hw : ∀ r, Mixes X r → |w r| ≤ M) (hso : SortsBy OvoRow.val false sortOvo) (hp : RowWise (fltM A w) predict) (hnf : NeverFails predict)
    (hfs : ∀ f ∈ features, f ∈ X.cols) (hnd : features.Nodup) {f f' : F} (hf : f ∈ features) (hf' : f' ∈ features) (hne : f ≠ f')
    (hi : Ignores w f') (hret : greenwellR A std sortOvo sortFeat numeric predict X features batchsize = .ok (ovo, imp)) :
    (∃ r ∈ ovo, r.isPair f f') ∧ ∀ r ∈ ovo, r.isPair f f' → r.val = .fin 0 := by
  have hX := rows_of_suits h
  have hv := validFeatures_of_nodup hfs hnd
  rw [greenwellR_ret (std := std) (sortOvo := sortOvo) (sortFeat := sortFeat) (numeric := numeric) (batchsize := batchsize)
    hp hnf hX hv] at hret
  cases hm : (combinations2 features).mapM (gwRowR A std numeric (fltM A w) X) with
  | error e => rw [hm] at hret; cases hret
  | ok rows =>
    rw [hm] at hret
    simp only [Except.map, Except.ok.injEq, Prod.mk.injEq] at hret
    obtain ⟨rfl, _⟩ := hret
    have hF := mapM_eq_ok hm
    have key : ∀ q row, gwRowR A std numeric (fltM A w) X q = .ok row → row.isPair q.1 q.2 ∧
        gwNumR A std (numeric row.f1) (numeric row.f2) (fltM A w) X row.f1 row.f2 = .ok row.val := by
      intro q row hrow
      unfold gwRowR at hrow
      cases e : gwNumR A std (numeric (canonPair X q).1) (numeric (canonPair X q).2) (fltM A w) X (canonPair X q).1 (canonPair X q).2 with
      | error e' => rw [e] at hrow; cases hrow
      | ok v =>
        rw [e] at hrow
        simp only [Except.map, Except.ok.injEq] at hrow
        subst hrow
        refine ⟨?_, e⟩
        unfold canonPair OvoRow.isPair
        split <;> simp
    constructor
    · have ex : ∀ q ∈ combinations2 features, ∃ row ∈ rows, row.isPair q.1 q.2 := by
        intro q hq
        obtain ⟨row, h3, h4⟩ := exists_of_forall₂ hF hq
        exact ⟨row, h3, (key q row h4).1⟩
      rcases mem_combinations2_or hf hf' hne with m | m
      · obtain ⟨row, h3, h4⟩ := ex _ m
        exact ⟨row.fillna, List.mem_map_of_mem ((hso _).1.mem_iff.2 h3), h4⟩
      · obtain ⟨row, h3, h4⟩ := ex _ m
        exact ⟨row.fillna, List.mem_map_of_mem ((hso _).1.mem_iff.2 h3), h4.symm⟩
    · intro r hr hpair
      obtain ⟨row, hrow, rfl⟩ := List.mem_map.1 hr
      have hval := forall₂_right hF (fun q row hq => (key q row hq).2) row ((hso _).1.mem_iff.1 hrow)
      have e0 : row.val = .fin 0 := by
        rcases hpair with ⟨e1, e2⟩ | ⟨e1, e2⟩
        · have e1 : row.f1 = f := e1
          have e2 : row.f2 = f' := e2
          rw [e1, e2] at hval
          exact gwNumR_zero h hz hstd hw hne (Or.inr hi) hval
        · have e1 : row.f1 = f' := e1
          have e2 : row.f2 = f := e2
          rw [e1, e2] at hval
          exact gwNumR_zero h hz hstd hw hne.symm (Or.inl hi) hval
      simp [OvoRow.fillna, e0]

/-! ### Importance of a feature the model ignores -/

theorem impNumR_ignored (h : A.Suits u η B X.rows.length M) (hz : A.rnd 0 = .fin 0) (hw : ∀ r, Mixes X r → |w r| ≤ M) {f : F}
    (hi : Ignores w f) : impNumR false (fltM A w) X f = .fin 0 ∧
      CloseTo (impNumR true (fltM A w) X f) 0 (53 * (X.rows.length * (u * M))) := by
  have hX := rows_of_suits h
  have hne := col_ne_nil hX f
  obtain ⟨v0, hv0⟩ := List.exists_mem_of_ne_nil _ hne
  have same : ∀ v, (pdSingle (fltM A w) X f v).val = (pdSingle (fltM A w) X f v0).val := by
    intro v
    have : ∀ v, (pdSingle (fltM A w) X f v).val = A.mean (X.rows.map fun r => .fin (w (setF r f v))) := by
      intro v
      show A.mean ((X.rows.map _).map Rounded.val) = _
      rw [List.map_map]
      rfl
    simp only [this, hi _ _]
  obtain ⟨y, ey, _⟩ := (pdSingle_close h hw (levels_observed (levels_npUnique X f) hv0)).1
  constructor
  · have e : rangeImpR A ((npUnique (X.col f)).map fun v => (pdSingle (fltM A w) X f v).val) = .ok (.fin 0) := by
      simp only [same, ey]
      exact rangeImpR_same hz hne y
    simp only [impNumR, Bool.false_eq_true, if_false, e, Except.toOption, Option.getD_some]
  · obtain ⟨k, hk, c⟩ := impNumR_close h hw true f
    have k0 : k = 0 := by
      have hk' := importance_on hk (levels_npUnique X f)
      simp only [if_true] at hk'
      have hs : sumDev ((npUnique (X.col f)).map (pd1 w X f)) = 0 := (sumDev_zero_iff _).2 fun x hx y hy => by
        obtain ⟨v, _, rfl⟩ := List.mem_map.1 hx
        obtain ⟨v', _, rfl⟩ := List.mem_map.1 hy
        rw [pd1_ignores hi, pd1_ignores hi]
      have := hk'.2
      rw [hs, zero_div] at this
      exact mul_self_eq_zero.1 this
    rw [k0] at c
    exact c

/-- **C147, the part that holds.** The importance of a feature the model ignores: exactly zero if it is categorical, and at most
`53 · rows · u · M` if it is numerical. What is missing: it is not always zero for a numerical feature
(`C147_numerical_not_zero`). -/
theorem C147_ignored_importance_partial (h : A.Suits u η B X.rows.length M) (hz : A.rnd 0 = .fin 0) (hw : ∀ r, Mixes X r → |w r| ≤ M)
    (hsf : SortsBy FeatRow.val false sortFeat) (hp : RowWise (fltM A w) predict) (hnf : NeverFails predict)
    (hfs : ∀ f ∈ features, f ∈ X.cols) (hnd : features.Nodup) {f : F} (hf : f ∈ features) (hi : Ignores w f)
    (hret : greenwellR A std sortOvo sortFeat numeric predict X features batchsize = .ok (ovo, imp)) :
    (∃ r ∈ imp, r.f = f) ∧ ∀ r ∈ imp, r.f = f → if numeric f then CloseTo r.val 0 (53 * (X.rows.length * (u * M))) else r.val = .fin 0 := by
  have hX := rows_of_suits h
  have hv := validFeatures_of_nodup hfs hnd
  rw [greenwellR_ret (std := std) (sortOvo := sortOvo) (sortFeat := sortFeat) (numeric := numeric) (batchsize := batchsize)
    hp hnf hX hv] at hret
  cases hm : (combinations2 features).mapM (gwRowR A std numeric (fltM A w) X) with
  | error e => rw [hm] at hret; cases hret
  | ok rows =>
    rw [hm] at hret
    simp only [Except.map, Except.ok.injEq, Prod.mk.injEq] at hret
    obtain ⟨_, rfl⟩ := hret
    obtain ⟨z1, z2⟩ := impNumR_ignored h hz hw hi
    constructor
    · exact ⟨_, List.mem_map_of_mem ((hsf _).1.mem_iff.2 (List.mem_map_of_mem hf)), rfl⟩
    · intro r hr e
      obtain ⟨row, hrow, rfl⟩ := List.mem_map.1 hr
      obtain ⟨g, hg, rfl⟩ := List.mem_map.1 ((hsf _).1.mem_iff.1 hrow)
      have e : g = f := e
      subst e
      cases hn : numeric g with
      | true => rw [if_pos rfl]; exact fillna_close z2
      | false => simp [FeatRow.fillna, z1]

/-! ### The correctly rounded standard deviation -/

theorem exactStd_fin {l : List K} {s : K} (hs : IsSampleStd l s) : exactStd A (l.map .fin) = A.rnd s := by
  obtain ⟨h2, h0, h1⟩ := hs
  have e := stdev_fin l id h2
  have h' : ¬ (l.map fun a => (.fin (id a) : Num K)).length < 2 := by rw [List.length_map]; omega
  unfold stdev at e
  rw [if_neg h'] at e
  simp only [Except.ok.injEq] at e
  unfold exactStd
  simp only [id] at e
  rw [e]
  show A.rnd _ = _
  congr 1
  have hn : ((l.length - 1 : ℕ) : K) = l.length - 1 := by
    rw [Nat.cast_sub (by omega)]; simp
  have hd := sumDev_map l id
  rw [List.map_id] at hd
  rw [hn, List.map_id]
  have e4 : (l.map fun a => (a - avg l) * (a - avg l)).sum = sumDev l := hd.symm
  rw [e4, ← h1]
  have a := LawfulSqrt.nonneg (s * s)
  have b := LawfulSqrt.mul_self (s * s) (mul_self_nonneg s)
  exact (mul_self_inj a h0).1 b

/-- `exactStd` is as accurate as the arithmetic. -/
theorem C145_exactStd_suits (h : A.Suits u η B X.rows.length M) (hz : A.rnd 0 = .fin 0) : StdSuits (exactStd A) (9 * (u * M)) (4 * M) := by
  obtain ⟨hu, η0, w0, w1, w2, m1, hB, u1⟩ := h.facts
  have M0 := h.size_nonneg
  have hη := h.small
  have nn : 0 ≤ (X.rows.length : K) * (M * M) := mul_nonneg (by linarith [h.one_le]) (mul_self_nonneg M)
  refine ⟨by linarith, fun l x h2 hx => ?_, fun l s hb hs => ?_⟩
  · have e : l = (l.map fun _ => x).map .fin := by
      rw [List.map_map]
      conv_lhs => rw [← List.map_id l]
      exact List.map_congr_left fun a ha => by rw [hx a ha]; rfl
    rw [e, exactStd_fin (s := 0) ⟨by simpa using h2, le_rfl, ?_⟩, hz]
    rw [(sumDev_zero_iff _).2 (fun a ha b hb => by
      obtain ⟨_, _, rfl⟩ := List.mem_map.1 ha
      obtain ⟨_, _, rfl⟩ := List.mem_map.1 hb
      rfl)]
    simp
  · rw [exactStd_fin hs]
    have s6 : s ≤ 3 / 4 * (4 * M - -(4 * M)) := sampleStd_small (fun x hx => abs_le.1 (hb x hx)) hs (by linarith)
    have := r_close (A := A) h.accurate (x := s) (m := 6 * M) (by rw [abs_of_nonneg hs.2.1]; linarith) (by linarith)
    refine CloseTo.mono (by exact this) ?_
    have : u * (6 * M) = 6 * (u * M) := by ring
    rw [this]; linarith

theorem round64_zero {K : Type} [Field K] [LinearOrder K] [IsStrictOrderedRing K] [FloorRing K] : round64 (0 : K) = .fin 0 := by
  have h : roundEven (0 / (2 : K) ^ lastPlace (0 : K)) = 0 := by simp [roundEven]
  unfold round64
  simp only [h, Int.cast_zero, zero_mul]
  rw [if_neg (not_le.2 (pow_pos two_pos _)), if_neg (not_le.2 (neg_lt_zero.2 (pow_pos two_pos _)))]

end RoundedGreenwell

/-! ## Cases -/

section Cases
open Ex

set_option maxRecDepth 100000 in
/-- **C147 fails for numerical features.** A constant model, binary64: the importance of both features is `2^-53`. The pair shows
exactly zero (C146). -/
theorem C147_numerical_not_zero :
    RowWise (fun _ => ⟨round64 (9 / 10)⟩) constP ∧
    greenwellR binary64 (exactStd binary64) (stableSort OvoRow.val false) (stableSort FeatRow.val false) (fun _ => true) constP sevenX [0, 1] 5 =
      .ok ([⟨0, 1, .fin 0⟩], [⟨0, .fin (1 / 2 ^ 53)⟩, ⟨1, .fin (1 / 2 ^ 53)⟩]) := by
  refine ⟨fun n rows ys h => ?_, by decide +kernel⟩
  cases h
  rfl

theorem sevenX_two : ∀ f ∈ ([0, 1] : List (Fin 2)), ∃ r ∈ sevenX.rows, ∃ r' ∈ sevenX.rows, r f ≠ r' f := by decide +kernel

theorem exactStd_seven : StdSuits (exactStd (binary64 : Arith ℝ)) (9 * (1 / 2 ^ 53 * 8)) (4 * 8) := C145_exactStd_suits (X := sevenX) sevenX_suits round64_zero

/-- C145: the measure of `addP` is zero; binary64 with a correctly rounded standard deviation shows at most `2^-40` -/
example : ∃ ovo imp, greenwellR binary64 (exactStd binary64) (stableSort OvoRow.val false) (stableSort FeatRow.val false) (fun _ => true) addP sevenX [0, 1] 5 =
      .ok (ovo, imp) ∧ ovo.length = 1 ∧ ∀ r ∈ ovo, ∃ k, IsGreenwell (fun _ => true) (fun r => ((r 0 : ℤ) : ℝ) + (r 1 : ℤ)) sevenX r.f1 r.f2 k ∧
        CloseTo r.val k (1 / 2 ^ 40) := by
  obtain ⟨ovo, imp, e, hlen, _, h, _⟩ := C145_greenwell_close_to_exact (numeric := fun _ => true) (batchsize := 5) (features := [0, 1])
    (sortFeat := stableSort FeatRow.val false) (w := fun r : Row (Fin 2) ℤ => ((r 0 : ℤ) : ℝ) + (r 1 : ℤ)) (predict := addP)
    sevenX_suits exactStd_seven (by norm_num) addP_small (sortsBy_stableSort _ _) (fun n rows ys h => by cases h; rfl)
    (fun n rows => ⟨_, rfl⟩) (by decide) (by decide) sevenX_two
  refine ⟨ovo, imp, e, hlen, fun r hr => ?_⟩
  obtain ⟨_, _, _, k, hk, hc⟩ := h r hr
  refine ⟨k, hk, hc.mono ?_⟩
  rw [rows7]
  norm_num

/-- a model that reads column 0 only, in binary64 -/
noncomputable def oneP : PF (Fin 2) ℤ (Rounded (binary64 (K := ℝ))) := fun _ rows => .ok (rows.map (fltM binary64 fun r => ((r 0 : ℤ) : ℝ)))

theorem oneP_small (r : Row (Fin 2) ℤ) (hm : Mixes sevenX r) : |((r 0 : ℤ) : ℝ)| ≤ 8 := by
  obtain ⟨r0, h0, e0⟩ := hm 0
  have a := (sevenX_small r0 h0).1
  rw [← e0] at a
  have : |r 0| ≤ 8 := by omega
  exact_mod_cast this

/-- C146 and C147: `oneP` ignores column 1 -/
example (numeric : Fin 2 → Bool) : ∃ ovo imp, greenwellR binary64 (exactStd binary64) (stableSort OvoRow.val false) (stableSort FeatRow.val false) numeric oneP sevenX [0, 1] 5 =
      .ok (ovo, imp) ∧ (∃ r ∈ ovo, r.isPair 0 1) ∧ (∀ r ∈ ovo, r.isPair 0 1 → r.val = .fin 0) ∧ (∃ r ∈ imp, r.f = 1) ∧
      ∀ r ∈ imp, r.f = 1 → if numeric 1 then CloseTo r.val 0 (53 * (sevenX.rows.length * (1 / 2 ^ 53 * 8))) else r.val = .fin 0 := by
  obtain ⟨ovo, imp, e, _⟩ := C145_greenwell_close_to_exact (numeric := numeric) (batchsize := 5) (features := [0, 1])
    (sortFeat := stableSort FeatRow.val false) (w := fun r : Row (Fin 2) ℤ => ((r 0 : ℤ) : ℝ)) (predict := oneP)
    sevenX_suits exactStd_seven (by norm_num) oneP_small (sortsBy_stableSort _ _) (fun n rows ys h => by cases h; rfl)
    (fun n rows => ⟨_, rfl⟩) (by decide) (by decide) sevenX_two
  obtain ⟨a, b⟩ := C146_ignored_exactly_zero (w := fun r : Row (Fin 2) ℤ => ((r 0 : ℤ) : ℝ)) (f := 0) (f' := 1) sevenX_suits round64_zero exactStd_seven
    oneP_small (sortsBy_stableSort _ _) (fun n rows ys h => by cases h; rfl) (fun n rows => ⟨_, rfl⟩) (by decide) (by decide)
    (by decide) (by decide) (by decide) (fun r v => by simp [setF]) e
  obtain ⟨c, d⟩ := C147_ignored_importance_partial (w := fun r : Row (Fin 2) ℤ => ((r 0 : ℤ) : ℝ)) (f := 1) sevenX_suits round64_zero
    oneP_small (sortsBy_stableSort _ _) (fun n rows ys h => by cases h; rfl) (fun n rows => ⟨_, rfl⟩) (by decide) (by decide)
    (by decide) (fun r v => by simp [setF]) e
  exact ⟨ovo, imp, e, a, b, c, d⟩

end Cases
end Artemis
