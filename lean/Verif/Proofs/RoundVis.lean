import Verif.Props.Visual
import Verif.Model.RoundedVis
import Verif.Spec.RoundedVis

/-!
# Lemmas: the interaction graph in floating-point arithmetic
-/

set_option linter.unusedSectionVars false
set_option linter.unusedVariables false
set_option linter.unusedSimpArgs false

namespace Artemis

section Order
variable {K : Type} [Field K] [LinearOrder K] [IsStrictOrderedRing K] {A : Arith K}

/-- between two numbers whose roundings are finite, roundings are finite and between them -/
theorem Arith.Ordered.between (hA : A.Ordered) {x y z a b : K} (h1 : x ≤ y) (h2 : y ≤ z) (ha : A.rnd x = .fin a) (hb : A.rnd z = .fin b) :
    ∃ c, A.rnd y = .fin c ∧ a ≤ c ∧ c ≤ b := by
  have l1 := hA.mono x y h1
  have l2 := hA.mono y z h2
  rw [ha] at l1
  rw [hb] at l2
  cases hy : A.rnd y with
  | fin c =>
    rw [hy] at l1 l2
    exact ⟨c, rfl, of_decide_eq_true l1, of_decide_eq_true l2⟩
  | nan => rw [hy] at l1; cases l1
  | pinf => rw [hy] at l2; cases l2
  | ninf => rw [hy] at l1; cases l1

theorem Arith.Ordered.le (hA : A.Ordered) {x y a b : K} (h : x ≤ y) (ha : A.rnd x = .fin a) (hb : A.rnd y = .fin b) : a ≤ b := by
  have := hA.mono x y h
  rw [ha, hb] at this
  exact of_decide_eq_true this

theorem rnd_sub (A : Arith K) (x y : K) : A.sub (.fin x) (.fin y) = A.rnd (x - y) := by
  simp only [Arith.sub, Num.sub, Num.neg, Num.add, Arith.r, ← sub_eq_add_neg]

theorem rnd_div (A : Arith K) {x y : K} (hy : y ≠ 0) : A.div (.fin x) (.fin y) = A.rnd (x / y) := by
  simp only [Arith.div, Num.div, if_neg hy, Arith.r]

theorem rnd_mul (A : Arith K) (x y : K) : A.r (Num.mul (.fin x) (.fin y)) = A.rnd (x * y) := rfl

/-- the computed length of the range of the values -/
theorem Arith.Ordered.range (hA : A.Ordered) {m M : K} (hm : A.rnd m = .fin m) (hM : A.rnd M = .fin M) (h0 : 0 ≤ m) (hlt : m < M) :
    ∃ D, A.rnd (M - m) = .fin D ∧ 0 < D ∧ D ≤ M := by
  obtain ⟨D, hD, h1, h2⟩ := hA.between (sub_nonneg.2 hlt.le) (sub_le_self M h0) hA.zero hM
  exact ⟨D, hD, h1.lt_of_ne (fun e => hA.differ m M hm hM hlt (by rw [hD, ← e])), h2⟩

/-- a value scaled to the unit interval -/
theorem Arith.Ordered.unit (hA : A.Ordered) {m M D x : K} (hD : A.rnd (M - m) = .fin D) (hD0 : 0 < D) (h1 : m ≤ x) (h2 : x ≤ M) :
    ∃ d s, A.rnd (x - m) = .fin d ∧ 0 ≤ d ∧ d ≤ D ∧ A.rnd (d / D) = .fin s ∧ 0 ≤ s ∧ s ≤ 1 ∧
      A.div (A.sub (.fin x) (.fin m)) (A.sub (.fin M) (.fin m)) = .fin s := by
  obtain ⟨d, hd, d1, d2⟩ := hA.between (sub_nonneg.2 h1) (sub_le_sub_right h2 m) hA.zero hD
  obtain ⟨s, hs, s1, s2⟩ := hA.between (div_nonneg d1 hD0.le) ((div_le_one hD0).2 d2) hA.zero hA.one
  refine ⟨d, s, hd, d1, d2, hs, s1, s2, ?_⟩
  rw [rnd_sub, rnd_sub, hd, hD, rnd_div A hD0.ne', hs]

end Order

section Graph
variable {F I K : Type} [LinearOrder F] [Field K] [LinearOrder K] [IsStrictOrderedRing K] {A : Arith K}

/-- one computed width -/
def widthR (A : Arith K) (asc : Bool) (w m M x : K) : Num K :=
  let s := A.div (A.sub (.fin x) (.fin m)) (A.sub (.fin M) (.fin m))
  A.r (Num.mul (if asc = true ∧ Num.lt (.fin 0) s = true then A.sub (.fin 1) s else s) (.fin w))

theorem edgeWidthsR_fin (asc : Bool) (w : K) (ovo : List (OvoRow F K)) (u : OvoRow F K → K)
    (hu : ∀ r ∈ ovo, r.val = .fin (u r)) {m M : K} (hm : minSkip (ovo.map OvoRow.val) = .fin m)
    (hM : maxSkip (ovo.map OvoRow.val) = .fin M) :
    edgeWidthsR A asc w ovo = ovo.map (fun r => ⟨r.f1, r.f2, widthR A asc w m M (u r)⟩) := by
  unfold edgeWidthsR mapToWidthR reverseScaleR scaleToUnitR
  simp only [hm, hM]
  cases asc with
  | false =>
    simp only [Bool.false_eq_true, if_false, List.map_map]
    refine List.map_congr_left fun r hr => ?_
    simp only [Function.comp, widthR, Bool.false_eq_true, false_and, if_false, hu r hr]
  | true =>
    simp only [if_true, List.map_map]
    refine List.map_congr_left fun r hr => ?_
    simp only [Function.comp, widthR, true_and, hu r hr]

/-- what the graph of a method object shows -/
theorem graphR_inv {v : View F I K} {E : VisEnv F K} {title : String} {o : Opts K} {size : K} {ps : List (Panel F I K)}
    (h : v.plotGraphR A E title o size = .ok ps) :
    ∃ (ovo : List (OvoRow F K)) (cfg : VisConfig K) (nodes : Option (List (F × Num K))), v.ovo = some ovo ∧ configGet v.name = .ok cfg ∧
      graphNodesR A size ovo v.imp = .ok nodes ∧
      ps = [.graph (pickTitle title "Interaction graph") v.directed
        (edgeDict v.directed (edgeWidthsR A v.asc (o.maxEdgeWidth.getD cfg.graph.maxEdgeWidth)
          (filterInsignificant v.asc (o.threshold.getD (cfg.graph.floats A).threshold) ovo))) nodes
        (if v.asc then [] else edgeLabels E (o.nHighest.getD cfg.graph.nHighest)
          (filterInsignificant v.asc (o.threshold.getD (cfg.graph.floats A).threshold) ovo))] := by
  unfold View.plotGraphR at h
  generalize (if v.needsOva = true then v.ova.isNone else v.ovo.isNone) = b at h
  cases b with
  | true => rw [if_pos rfl] at h; cases h
  | false =>
    rw [if_neg (by simp)] at h
    split at h
    · cases h
    · split at h
      · cases h
      · next cfg hc =>
        split at h
        · cases h
        · split at h
          · cases h
          · next ovo ho =>
            unfold plotGraphR at h
            simp only [] at h
            cases hn : graphNodesR A size ovo v.imp with
            | error e => rw [hn] at h; cases h
            | ok nodes =>
              rw [hn] at h
              cases h
              exact ⟨ovo, cfg, nodes, ho, hc, hn, rfl⟩

/-- the computed widths, for finite values of which at least two remain different -/
theorem graphR_widths {v : View F I K} {E : VisEnv F K} {title : String} {o : Opts K} {size : K} {ps : List (Panel F I K)}
    (h : v.plotGraphR A E title o size = .ok ps) {ovo : List (OvoRow F K)} (ho : v.ovo = some ovo)
    (hd : DistinctEdges v.directed ovo) {u : OvoRow F K → K} (hu : ∀ r ∈ ovo, r.val = .fin (u r)) {cfg : VisConfig K}
    (hc : configGet v.name = .ok cfg) {t W : K} (ht : t = o.threshold.getD (cfg.graph.floats A).threshold)
    (hW : W = o.maxEdgeWidth.getD cfg.graph.maxEdgeWidth)
    (hdiff : ∃ r ∈ ovo, ∃ q ∈ ovo, keptValue v.asc t (u r) ≠ keptValue v.asc t (u q)) :
    ∃ m M, (∃ a ∈ ovo, m = keptValue v.asc t (u a)) ∧ (∃ b ∈ ovo, M = keptValue v.asc t (u b)) ∧ m < M ∧
      (∀ r ∈ ovo, m ≤ keptValue v.asc t (u r) ∧ keptValue v.asc t (u r) ≤ M) ∧
      ∀ w : OvoRow F K → K, (∀ r ∈ ovo, widthR A v.asc W m M (keptValue v.asc t (u r)) = .fin (w r)) →
        ShowsWidths v.directed ovo ps w := by
  obtain ⟨ovo', cfg', nodes, ho', hc', _, rfl⟩ := graphR_inv h
  rw [ho] at ho'; cases ho'
  rw [hc] at hc'; cases hc'
  rw [← ht, ← hW, filter_vals hu]
  generalize hkk : ovo.map (fun r => (⟨r.f1, r.f2, .fin (keptValue v.asc t (u r))⟩ : OvoRow F K)) = kept
  have hku : ∀ r ∈ kept, r.val = .fin (Num.toK r.val) := by
    intro r hr
    rw [← hkk] at hr
    obtain ⟨q, _, rfl⟩ := List.mem_map.1 hr
    rfl
  obtain ⟨r0, hr0, q0, hq0, hne⟩ := hdiff
  have hnil : kept ≠ [] := by
    rw [← hkk]
    intro e
    rw [List.map_eq_nil_iff] at e
    rw [e] at hr0
    cases hr0
  obtain ⟨a, ha, b, hb, h1, h2, h3⟩ := minmax_of_fin kept (fun r => Num.toK r.val) hku hnil
  have hmem : ∀ r ∈ ovo, (⟨r.f1, r.f2, .fin (keptValue v.asc t (u r))⟩ : OvoRow F K) ∈ kept := by
    intro r hr; rw [← hkk]; exact List.mem_map.2 ⟨r, hr, rfl⟩
  have hbounds : ∀ r ∈ ovo, Num.toK a.val ≤ keptValue v.asc t (u r) ∧ keptValue v.asc t (u r) ≤ Num.toK b.val :=
    fun r hr => h3 _ (hmem r hr)
  have hlt : Num.toK a.val < Num.toK b.val := by
    rcases ((hbounds r0 hr0).1.trans (hbounds r0 hr0).2).lt_or_eq with hl | he
    · exact hl
    · exfalso
      apply hne
      have b1 := hbounds r0 hr0
      have b2 := hbounds q0 hq0
      rw [← he] at b1 b2
      exact le_antisymm (b1.2.trans b2.1) (b2.2.trans b1.1)
  have hew := edgeWidthsR_fin (A := A) v.asc W kept (fun r => Num.toK r.val) hku h1 h2
  refine ⟨Num.toK a.val, Num.toK b.val, ?_, ?_, hlt, hbounds, fun w hw => ⟨_, _, nodes, _, rfl, ?_, ?_, ?_⟩⟩
  · rw [← hkk] at ha
    obtain ⟨q, hq, rfl⟩ := List.mem_map.1 ha
    exact ⟨q, hq, rfl⟩
  · rw [← hkk] at hb
    obtain ⟨q, hq, rfl⟩ := List.mem_map.1 hb
    exact ⟨q, hq, rfl⟩
  all_goals
    rw [hew, ← hkk, List.map_map]
    have he : ((fun r : OvoRow F K => (⟨r.f1, r.f2, widthR A v.asc W (Num.toK a.val) (Num.toK b.val) (Num.toK r.val)⟩ : OvoRow F K)) ∘
        fun r => (⟨r.f1, r.f2, .fin (keptValue v.asc t (u r))⟩ : OvoRow F K)) =
        fun r => ⟨r.f1, r.f2, widthR A v.asc W (Num.toK a.val) (Num.toK b.val) (keptValue v.asc t (u r))⟩ := rfl
    rw [he]
  · intro r hr
    rw [get?_edges _ hd hr, hw r hr]
  · intro k hk
    rw [keys_edges _ hd] at hk
    obtain ⟨r, hr, rfl⟩ := List.mem_map.1 hk
    exact ⟨r, hr, rfl⟩
  · rw [keys_edges _ hd, List.Nodup, List.pairwise_map]
    exact hd.imp fun hn e => hn.1 (by simpa using e)

/-- one computed width of a method where larger is stronger -/
theorem widthR_desc (hA : A.Ordered) {m M W x : K} (hm : A.rnd m = .fin m) (hM : A.rnd M = .fin M) (h0 : 0 ≤ m) (hlt : m < M)
    (hW : A.rnd W = .fin W) (hW0 : 0 ≤ W) (h1 : m ≤ x) (h2 : x ≤ M) :
    ∃ D d s w, A.rnd (M - m) = .fin D ∧ 0 < D ∧ A.rnd (x - m) = .fin d ∧ 0 ≤ d ∧ d ≤ D ∧ A.rnd (d / D) = .fin s ∧ 0 ≤ s ∧ s ≤ 1 ∧
      A.rnd (s * W) = .fin w ∧ 0 ≤ w ∧ w ≤ W ∧ widthR A false W m M x = .fin w := by
  obtain ⟨D, hD, hD0, _⟩ := hA.range hm hM h0 hlt
  obtain ⟨d, s, e1, d1, d2, e2, s1, s2, e3⟩ := hA.unit hD hD0 h1 h2
  obtain ⟨w, e4, w1, w2⟩ := hA.between (mul_nonneg s1 hW0) (mul_le_of_le_one_left hW0 s2) hA.zero hW
  refine ⟨D, d, s, w, hD, hD0, e1, d1, d2, e2, s1, s2, e4, w1, w2, ?_⟩
  simp only [widthR, e3, Bool.false_eq_true, false_and, if_false, rnd_mul, e4]

/-- one computed width of a method where smaller is stronger -/
theorem widthR_asc (hA : A.Ordered) {m M W x : K} (hm : A.rnd m = .fin m) (hM : A.rnd M = .fin M) (h0 : 0 ≤ m) (hlt : m < M)
    (hW : A.rnd W = .fin W) (hW0 : 0 ≤ W) (h1 : m ≤ x) (h2 : x ≤ M) :
    ∃ D d s c w, A.rnd (M - m) = .fin D ∧ 0 < D ∧ A.rnd (x - m) = .fin d ∧ 0 ≤ d ∧ d ≤ D ∧ A.rnd (d / D) = .fin s ∧ 0 ≤ s ∧ s ≤ 1 ∧
      (if 0 < s then A.rnd (1 - s) = .fin c else c = s) ∧ 0 ≤ c ∧ c ≤ 1 ∧
      A.rnd (c * W) = .fin w ∧ 0 ≤ w ∧ w ≤ W ∧ widthR A true W m M x = .fin w := by
  obtain ⟨D, hD, hD0, _⟩ := hA.range hm hM h0 hlt
  obtain ⟨d, s, e1, d1, d2, e2, s1, s2, e3⟩ := hA.unit hD hD0 h1 h2
  obtain ⟨c', ec', c1, c2⟩ := hA.between (sub_nonneg.2 s2) (sub_le_self 1 s1) hA.zero hA.one
  by_cases hs : 0 < s
  · obtain ⟨w, e4, w1, w2⟩ := hA.between (mul_nonneg c1 hW0) (mul_le_of_le_one_left hW0 c2) hA.zero hW
    refine ⟨D, d, s, c', w, hD, hD0, e1, d1, d2, e2, s1, s2, by rw [if_pos hs]; exact ec', c1, c2, e4, w1, w2, ?_⟩
    simp only [widthR, e3, true_and, lt_fin, hs, decide_true, if_true]
    rw [rnd_sub, ec', rnd_mul, e4]
  · obtain ⟨w, e4, w1, w2⟩ := hA.between (mul_nonneg s1 hW0) (mul_le_of_le_one_left hW0 s2) hA.zero hW
    refine ⟨D, d, s, s, w, hD, hD0, e1, d1, d2, e2, s1, s2, by rw [if_neg hs], s1, s2, e4, w1, w2, ?_⟩
    simp only [widthR, e3, lt_fin, hs, decide_false, Bool.false_eq_true, and_false, if_false, rnd_mul, e4]

end Graph

section Near
variable {K : Type} [Field K] [LinearOrder K] [IsStrictOrderedRing K]

/-- error of a scaled value -/
theorem unit_near {u η Δ D d y s : K} (hu0 : 0 ≤ u) (hη0 : 0 ≤ η) (hu : 4 * u ≤ 1) (hη : η ≤ u * Δ) (hΔ : 0 < Δ) (hD0 : 0 < D)
    (hy0 : 0 ≤ y) (hy : y ≤ Δ) (hD : |D - Δ| ≤ u * |Δ| + η) (hd : |d - y| ≤ u * |y| + η) (hdD : d ≤ D) (hd0 : 0 ≤ d)
    (hs : |s - d / D| ≤ u * |d / D| + η) : |s - y / Δ| ≤ 9 * u + η := by
  rw [abs_of_pos hΔ] at hD
  rw [abs_of_nonneg hy0] at hd
  have q0 : 0 ≤ d / D := div_nonneg hd0 hD0.le
  have q1 : d / D ≤ 1 := (div_le_one hD0).2 hdD
  rw [abs_of_nonneg q0] at hs
  have uy : u * y ≤ u * Δ := mul_le_mul_of_nonneg_left hy hu0
  have uΔ : 4 * (u * Δ) ≤ Δ := by rw [← mul_assoc]; exact mul_le_of_le_one_left hΔ.le hu
  have d2 : |d - y| ≤ 2 * (u * Δ) := hd.trans (by linarith)
  have D2 : |D - Δ| ≤ 2 * (u * Δ) := hD.trans (by linarith)
  have DΔ : Δ ≤ 2 * D := by have := (abs_le.1 D2).1; linarith
  have key : |d / D - y / Δ| ≤ 8 * u := by
    have e : d / D - y / Δ = ((d - y) + y / Δ * (Δ - D)) / D := by
      field_simp
      ring
    have p0 : 0 ≤ y / Δ := div_nonneg hy0 hΔ.le
    have p1 : y / Δ ≤ 1 := (div_le_one hΔ).2 hy
    rw [e, abs_div, abs_of_pos hD0, div_le_iff₀ hD0]
    have t1 := abs_add_le (d - y) (y / Δ * (Δ - D))
    rw [abs_mul, abs_of_nonneg p0, abs_sub_comm Δ D] at t1
    have t2 : y / Δ * |D - Δ| ≤ |D - Δ| := mul_le_of_le_one_left (abs_nonneg _) p1
    have t3 : u * Δ ≤ u * (2 * D) := mul_le_mul_of_nonneg_left DΔ hu0
    calc _ ≤ 4 * (u * Δ) := by linarith
      _ ≤ 4 * (u * (2 * D)) := by linarith
      _ = 8 * u * D := by ring
  have t := abs_sub_le s (d / D) (y / Δ)
  have : u * (d / D) ≤ u := mul_le_of_le_one_right hu0 q1
  linarith

/-- error of a width -/
theorem width_near {u η W s w p ε : K} (hu0 : 0 ≤ u) (hW0 : 0 ≤ W) (hs0 : 0 ≤ s) (hs1 : s ≤ 1) (h : |s - p| ≤ ε)
    (hw : |w - s * W| ≤ u * |s * W| + η) : |w - p * W| ≤ (ε + u) * W + η := by
  rw [abs_of_nonneg (mul_nonneg hs0 hW0)] at hw
  have t := abs_sub_le w (s * W) (p * W)
  have e : |s * W - p * W| = |s - p| * W := by rw [← sub_mul, abs_mul, abs_of_nonneg hW0]
  have h1 : |s - p| * W ≤ ε * W := mul_le_mul_of_nonneg_right h hW0
  have h2 : u * (s * W) ≤ u * W := mul_le_mul_of_nonneg_left (mul_le_of_le_one_left hW0 hs1) hu0
  rw [add_mul]
  linarith

/-- error of a size -/
theorem size_near {u η S M x p n : K} (hu0 : 0 ≤ u) (hu1 : u ≤ 1) (hη0 : 0 ≤ η) (hM : 0 < M) (hS : 0 ≤ S) (hx : 0 ≤ x) (hxM : x ≤ M)
    (hp0 : 0 ≤ p) (hp : |p - S * x| ≤ u * |S * x| + η) (hn : |n - p / M| ≤ u * |p / M| + η) :
    |n - S * x / M| ≤ 3 * u * S + 2 * (η / M) + η := by
  have sx : 0 ≤ S * x := mul_nonneg hS hx
  rw [abs_of_nonneg sx] at hp
  rw [abs_of_nonneg (div_nonneg hp0 hM.le)] at hn
  have q : S * x / M ≤ S := by rw [div_le_iff₀ hM]; exact mul_le_mul_of_nonneg_left hxM hS
  have e1 : |p / M - S * x / M| ≤ u * S + η / M := by
    rw [← sub_div, abs_div, abs_of_pos hM]
    calc |p - S * x| / M ≤ (u * (S * x) + η) / M := div_le_div_of_nonneg_right hp hM.le
      _ = u * (S * x / M) + η / M := by rw [add_div, mul_div_assoc]
      _ ≤ _ := by have := mul_le_mul_of_nonneg_left q hu0; linarith
  have pm : p / M ≤ 2 * S + η / M := by
    have := (abs_le.1 e1).2
    have : u * S ≤ S := mul_le_of_le_one_left hS hu1
    linarith
  have η0 : 0 ≤ η / M := div_nonneg hη0 hM.le
  have up : u * (p / M) ≤ u * (2 * S + η / M) := mul_le_mul_of_nonneg_left pm hu0
  have ue : u * (η / M) ≤ η / M := mul_le_of_le_one_left η0 hu1
  have t := abs_sub_le n (p / M) (S * x / M)
  have : u * (2 * S + η / M) = 2 * (u * S) + u * (η / M) := by ring
  have : 3 * u * S = 3 * (u * S) := by ring
  linarith

end Near

end Artemis
