import Verif.Proofs.RoundVis
import Verif.Proofs.Round64Order

/-!
# C161, C162: the interaction graph in floating-point arithmetic
-/

set_option linter.unusedSectionVars false
set_option linter.unusedVariables false
set_option linter.unusedSimpArgs false

namespace Artemis

section Widths
variable {F I K : Type} [LinearOrder F] [Field K] [LinearOrder K] [IsStrictOrderedRing K] {A : Arith K}

theorem usedThreshold_eq {given : Option K} {cfg : GraphCfg K} {t : K} (h : UsedThreshold A given cfg.threshold t) :
    t = given.getD (cfg.floats A).threshold := by
  rcases h with rfl | ⟨rfl, h⟩
  · rfl
  · simp only [Option.getD_none, GraphCfg.floats, h]

theorem kept_nonneg {t x : K} (h : 0 ≤ t ∨ 0 ≤ x) : 0 ≤ keptValue false t x := by
  simp only [keptValue, Bool.false_eq_true, if_false]
  split
  · exact le_refl _
  · next h2 => rcases h with h | h <;> linarith [not_lt.1 h2]

theorem kept_mono {t x y : K} (h : 0 ≤ t ∨ 0 ≤ y) (hxy : x ≤ y) : keptValue false t x ≤ keptValue false t y := by
  simp only [keptValue, Bool.false_eq_true, if_false]
  split
  · split
    · exact le_refl _
    · next h2 => rcases h with h | h <;> linarith [not_lt.1 h2]
  · next h1 =>
    rw [if_neg (not_lt.2 ((not_lt.1 h1).trans hxy))]
    exact hxy

theorem kept_float {A : Arith K} (hA : A.Ordered) {asc : Bool} {t x : K} (h : A.rnd x = .fin x) :
    A.rnd (keptValue asc t x) = .fin (keptValue asc t x) := by
  unfold keptValue
  split_ifs <;> first | exact h | exact hA.zero

/-- **C161** Interaction graph of a method where larger is stronger, computed in a floating-point arithmetic, from a table of finite
floats with at least two different ones left after thresholding, with a threshold that is not negative (or values that are not):
every width is a number between 0 and the maximal width, a stronger pair never gets a thinner edge, the strongest pair gets exactly
the maximal width, a pair below the threshold gets exactly width 0, and every width is within the stated error of the exact one. -/
theorem C161_widths (hA : A.Ordered) {v : View F I K} (hasc : v.asc = false) {E : VisEnv F K} {title : String} {o : Opts K} {size : K}
    {ps : List (Panel F I K)} (h : v.plotGraphR A E title o size = .ok ps) {ovo : List (OvoRow F K)} (ho : v.ovo = some ovo)
    (hd : DistinctEdges v.directed ovo) {u : OvoRow F K → K} (hu : ∀ r ∈ ovo, r.val = .fin (u r) ∧ A.rnd (u r) = .fin (u r))
    {cfg : VisConfig K} (hc : configGet v.name = .ok cfg) {t W : K} (ht : UsedThreshold A o.threshold cfg.graph.threshold t)
    (hW : W = o.maxEdgeWidth.getD cfg.graph.maxEdgeWidth) (hW0 : 0 ≤ W) (hWf : A.rnd W = .fin W)
    (ht0 : 0 ≤ t ∨ ∀ r ∈ ovo, 0 ≤ u r)
    (hdiff : ∃ r ∈ ovo, ∃ q ∈ ovo, keptValue false t (u r) ≠ keptValue false t (u q)) :
    ∃ w, ShowsWidths v.directed ovo ps w ∧ (∀ r ∈ ovo, 0 ≤ w r ∧ w r ≤ W) ∧
      (∀ r ∈ ovo, ∀ q ∈ ovo, u r ≤ u q → w r ≤ w q) ∧
      (∀ r ∈ ovo, (∀ q ∈ ovo, u q ≤ u r) → w r = W) ∧
      (∀ r ∈ ovo, u r < t → w r = 0) ∧
      (∀ ε η B, A.Accurate ε η B → 4 * ε ≤ 1 → 1 ≤ B → W ≤ B → (∀ r ∈ ovo, u r ≤ B) →
        ∀ a ∈ ovo, ∀ b ∈ ovo, (∀ r ∈ ovo, keptValue false t (u a) ≤ keptValue false t (u r) ∧
          keptValue false t (u r) ≤ keptValue false t (u b)) → η ≤ ε * (keptValue false t (u b) - keptValue false t (u a)) →
        ∀ r ∈ ovo, |w r - (keptValue false t (u r) - keptValue false t (u a)) /
          (keptValue false t (u b) - keptValue false t (u a)) * W| ≤ (10 * ε + η) * W + η) := by
  rw [← hasc] at hdiff
  have ht := usedThreshold_eq ht
  obtain ⟨m, M, ⟨a, ha, hm⟩, ⟨b, hb, hM⟩, hlt, hbd, hshow⟩ := graphR_widths h ho hd (fun r hr => (hu r hr).1) hc ht hW hdiff
  rw [hasc] at hm hM hbd hshow
  have nn : ∀ r ∈ ovo, 0 ≤ t ∨ 0 ≤ u r := fun r hr => ht0.imp id (fun h => h r hr)
  have hm0 : 0 ≤ m := by rw [hm]; exact kept_nonneg (nn a ha)
  have hmf : A.rnd m = .fin m := by rw [hm]; exact kept_float hA (hu a ha).2
  have hMf : A.rnd M = .fin M := by rw [hM]; exact kept_float hA (hu b hb).2
  have main : ∀ r ∈ ovo, ∃ D d s w, A.rnd (M - m) = .fin D ∧ 0 < D ∧ A.rnd (keptValue false t (u r) - m) = .fin d ∧ 0 ≤ d ∧ d ≤ D ∧
      A.rnd (d / D) = .fin s ∧ 0 ≤ s ∧ s ≤ 1 ∧ A.rnd (s * W) = .fin w ∧ 0 ≤ w ∧ w ≤ W ∧
      widthR A false W m M (keptValue false t (u r)) = .fin w := fun r hr =>
    widthR_desc hA hmf hMf hm0 hlt hWf hW0 (hbd r hr).1 (hbd r hr).2
  have hw : ∀ r ∈ ovo, widthR A false W m M (keptValue false t (u r)) =
      .fin (Num.toK (widthR A false W m M (keptValue false t (u r)))) := by
    intro r hr
    obtain ⟨D, d, s, w, _, _, _, _, _, _, _, _, _, _, _, e⟩ := main r hr
    rw [e]; rfl
  have val : ∀ r ∈ ovo, ∀ w, widthR A false W m M (keptValue false t (u r)) = .fin w →
      Num.toK (widthR A false W m M (keptValue false t (u r))) = w := by
    intro r hr w e; rw [e]; rfl
  refine ⟨fun r => Num.toK (widthR A false W m M (keptValue false t (u r))), hshow _ hw, ?_, ?_, ?_, ?_, ?_⟩
  · intro r hr
    obtain ⟨D, d, s, w, _, _, _, _, _, _, _, _, _, w1, w2, e⟩ := main r hr
    simp only [val r hr w e]
    exact ⟨w1, w2⟩
  · intro r hr q hq hrq
    obtain ⟨D, d, s, w, eD, D0, ed, _, _, es, _, _, ew, _, _, e⟩ := main r hr
    obtain ⟨D', d', s', w', eD', _, ed', _, _, es', _, _, ew', _, _, e'⟩ := main q hq
    rw [eD] at eD'
    cases eD'
    simp only [val r hr w e, val q hq w' e']
    have h1 : d ≤ d' := hA.le (sub_le_sub_right (kept_mono (nn q hq) hrq) m) ed ed'
    have h2 : s ≤ s' := hA.le (div_le_div_of_nonneg_right h1 D0.le) es es'
    exact hA.le (mul_le_mul_of_nonneg_right h2 hW0) ew ew'
  · intro r hr hmax
    have hk : keptValue false t (u r) = M :=
      le_antisymm (hbd r hr).2 (by rw [hM]; exact kept_mono (nn r hr) (hmax b hb))
    obtain ⟨D, d, s, w, eD, D0, ed, _, _, es, _, _, ew, _, _, e⟩ := main r hr
    simp only [val r hr w e]
    rw [hk, eD] at ed
    cases ed
    rw [div_self D0.ne', hA.one] at es
    cases es
    rw [one_mul, hWf] at ew
    exact (Num.fin.inj ew).symm
  · intro r hr hrt
    have h0 : keptValue false t (u r) = 0 := by simp [keptValue, hrt]
    have hm' : m = 0 := le_antisymm (by rw [← h0]; exact (hbd r hr).1) hm0
    obtain ⟨D, d, s, w, eD, D0, ed, _, _, es, _, _, ew, _, _, e⟩ := main r hr
    simp only [val r hr w e]
    rw [h0, hm', sub_self, hA.zero] at ed
    cases ed
    rw [zero_div, hA.zero] at es
    cases es
    rw [zero_mul, hA.zero] at ew
    exact (Num.fin.inj ew).symm
  · intro ε η B acc hε hB hWB hub a' ha' b' hb' hext hη r hr
    have em : keptValue false t (u a') = m := le_antisymm (by rw [hm]; exact (hext a ha).1) (hbd a' ha').1
    have eM : keptValue false t (u b') = M := le_antisymm (hbd b' hb').2 (by rw [hM]; exact (hext b hb).2)
    rw [em, eM] at hη ⊢
    obtain ⟨D, d, s, w, eD, D0, ed, d0, dD, es, s0, s1, ew, _, _, e⟩ := main r hr
    simp only [val r hr w e]
    have Δ0 : 0 < M - m := sub_pos.2 hlt
    have MB : M ≤ B := by
      rw [hM]
      simp only [keptValue, Bool.false_eq_true, if_false]
      split
      · linarith
      · exact hub b hb
    have near : ∀ {x y : K}, A.rnd x = .fin y → 0 ≤ x → x ≤ B → |y - x| ≤ ε * |x| + η := by
      intro x y hx h0 h1
      obtain ⟨y', e', h'⟩ := acc.rnd_near x (by rwa [abs_of_nonneg h0])
      rw [hx] at e'
      cases e'
      exact h'
    have y0 := sub_nonneg.2 (hbd r hr).1
    have y1 := sub_le_sub_right (hbd r hr).2 m
    have q1 : d / D ≤ 1 := (div_le_one D0).2 dD
    have sW := mul_le_of_le_one_left hW0 s1
    have := width_near acc.u_nonneg hW0 s0 s1
      (unit_near acc.u_nonneg acc.η_nonneg hε hη Δ0 D0 y0 y1 (near eD Δ0.le (by linarith)) (near ed y0 (by linarith)) dD d0
        (near es (div_nonneg d0 D0.le) (q1.trans hB)))
      (near ew (mul_nonneg s0 hW0) (by linarith))
    refine this.trans (le_of_eq ?_)
    ring

/-- **C161**, methods where smaller is stronger, for tables of non-negative finite floats: every width is a number between 0 and the
maximal width. If the threshold removes at least one pair, the values are positive and no quotient of two values kept underflows to 0,
then among the pairs kept a stronger one never gets a thinner edge, and removed pairs get exactly width 0. -/
theorem C161_ascending (hA : A.Ordered) {v : View F I K} (hasc : v.asc = true) {E : VisEnv F K} {title : String} {o : Opts K} {size : K}
    {ps : List (Panel F I K)} (h : v.plotGraphR A E title o size = .ok ps) {ovo : List (OvoRow F K)} (ho : v.ovo = some ovo)
    (hd : DistinctEdges v.directed ovo) {u : OvoRow F K → K} (hu : ∀ r ∈ ovo, r.val = .fin (u r) ∧ A.rnd (u r) = .fin (u r))
    {cfg : VisConfig K} (hc : configGet v.name = .ok cfg) {t W : K} (ht : UsedThreshold A o.threshold cfg.graph.threshold t)
    (hW : W = o.maxEdgeWidth.getD cfg.graph.maxEdgeWidth) (hW0 : 0 ≤ W) (hWf : A.rnd W = .fin W) (hnn : ∀ r ∈ ovo, 0 ≤ u r)
    (hdiff : ∃ r ∈ ovo, ∃ q ∈ ovo, keptValue true t (u r) ≠ keptValue true t (u q)) :
    ∃ w, ShowsWidths v.directed ovo ps w ∧ (∀ r ∈ ovo, 0 ≤ w r ∧ w r ≤ W) ∧
      ((∃ r ∈ ovo, t < u r) → (∀ r ∈ ovo, 0 < u r) → (∀ r ∈ ovo, ∀ q ∈ ovo, u r ≤ t → u q ≤ t → A.rnd (u r / u q) ≠ .fin 0) →
        (∀ r ∈ ovo, ∀ q ∈ ovo, u r ≤ u q → u q ≤ t → w q ≤ w r) ∧ (∀ r ∈ ovo, t < u r → w r = 0)) := by
  rw [← hasc] at hdiff
  have ht := usedThreshold_eq ht
  obtain ⟨m, M, ⟨a, ha, hm⟩, ⟨b, hb, hM⟩, hlt, hbd, hshow⟩ := graphR_widths h ho hd (fun r hr => (hu r hr).1) hc ht hW hdiff
  rw [hasc] at hm hM hbd hshow
  have kn : ∀ r ∈ ovo, 0 ≤ keptValue true t (u r) := by
    intro r hr
    unfold keptValue
    rw [if_pos rfl]
    split
    · exact le_refl _
    · exact hnn r hr
  have hm0 : 0 ≤ m := by rw [hm]; exact kn a ha
  have hmf : A.rnd m = .fin m := by rw [hm]; exact kept_float hA (hu a ha).2
  have hMf : A.rnd M = .fin M := by rw [hM]; exact kept_float hA (hu b hb).2
  have main : ∀ r ∈ ovo, ∃ D d s c w, A.rnd (M - m) = .fin D ∧ 0 < D ∧ A.rnd (keptValue true t (u r) - m) = .fin d ∧ 0 ≤ d ∧ d ≤ D ∧
      A.rnd (d / D) = .fin s ∧ 0 ≤ s ∧ s ≤ 1 ∧ (if 0 < s then A.rnd (1 - s) = .fin c else c = s) ∧ 0 ≤ c ∧ c ≤ 1 ∧
      A.rnd (c * W) = .fin w ∧ 0 ≤ w ∧ w ≤ W ∧ widthR A true W m M (keptValue true t (u r)) = .fin w := fun r hr =>
    widthR_asc hA hmf hMf hm0 hlt hWf hW0 (hbd r hr).1 (hbd r hr).2
  have hw : ∀ r ∈ ovo, widthR A true W m M (keptValue true t (u r)) =
      .fin (Num.toK (widthR A true W m M (keptValue true t (u r)))) := by
    intro r hr
    obtain ⟨D, d, s, c, w, _, _, _, _, _, _, _, _, _, _, _, _, _, _, e⟩ := main r hr
    rw [e]; rfl
  have val : ∀ r ∈ ovo, ∀ w, widthR A true W m M (keptValue true t (u r)) = .fin w →
      Num.toK (widthR A true W m M (keptValue true t (u r))) = w := by
    intro r hr w e; rw [e]; rfl
  refine ⟨fun r => Num.toK (widthR A true W m M (keptValue true t (u r))), hshow _ hw, ?_, ?_⟩
  · intro r hr
    obtain ⟨D, d, s, c, w, _, _, _, _, _, _, _, _, _, _, _, _, w1, w2, e⟩ := main r hr
    simp only [val r hr w e]
    exact ⟨w1, w2⟩
  rintro ⟨r0, hr0, hr0t⟩ hpos hq0
  have k1 : ∀ r, u r ≤ t → keptValue true t (u r) = u r := by intro r h; simp [keptValue, not_lt.2 h]
  have k2 : ∀ r, t < u r → keptValue true t (u r) = 0 := by intro r h; simp [keptValue, h]
  have hm' : m = 0 := le_antisymm (by rw [← k2 r0 hr0t]; exact (hbd r0 hr0).1) hm0
  have hbt : u b ≤ t := by
    by_contra hn
    rw [k2 b (not_le.1 hn)] at hM
    rw [hm', hM] at hlt
    exact lt_irrefl _ hlt
  have hMb : M = u b := by rw [hM, k1 b hbt]
  have pos : ∀ r ∈ ovo, u r ≤ t → ∃ s c w, A.rnd (u r / M) = .fin s ∧ 0 < s ∧ s ≤ 1 ∧ A.rnd (1 - s) = .fin c ∧
      A.rnd (c * W) = .fin w ∧ Num.toK (widthR A true W m M (keptValue true t (u r))) = w := by
    intro r hr hrt
    obtain ⟨D, d, s, c, w, eD, _, ed, _, _, es, s0, s1, ec, _, _, ew, _, _, e⟩ := main r hr
    rw [k1 r hrt, hm', sub_zero, (hu r hr).2] at ed
    rw [hm', sub_zero, hMf] at eD
    cases ed
    cases eD
    have sp : 0 < s := s0.lt_of_ne (fun e0 => hq0 r hr b hb hrt hbt (by rw [← hMb, es, ← e0]))
    rw [if_pos sp] at ec
    exact ⟨s, c, w, es, sp, s1, ec, ew, val r hr w e⟩
  constructor
  · intro r hr q hq hrq hqt
    obtain ⟨s, c, w, es, _, _, ec, ew, e⟩ := pos r hr (hrq.trans hqt)
    obtain ⟨s', c', w', es', _, _, ec', ew', e'⟩ := pos q hq hqt
    simp only [e, e']
    have hM0 : 0 < M := by rw [hMb]; exact hpos b hb
    have h1 : s ≤ s' := hA.le (div_le_div_of_nonneg_right hrq hM0.le) es es'
    have h2 : c' ≤ c := hA.le (sub_le_sub_left h1 1) ec' ec
    exact hA.le (mul_le_mul_of_nonneg_right h2 hW0) ew' ew
  · intro r hr hrt
    obtain ⟨D, d, s, c, w, eD, D0, ed, _, _, es, s0, _, ec, _, _, ew, _, _, e⟩ := main r hr
    simp only [val r hr w e]
    rw [k2 r hrt, hm', sub_self, hA.zero] at ed
    cases ed
    rw [zero_div, hA.zero] at es
    cases es
    rw [if_neg (lt_irrefl _)] at ec
    subst ec
    rw [zero_mul, hA.zero] at ew
    exact (Num.fin.inj ew).symm

/-- **C162** Sizes of the nodes of the graph in floating-point arithmetic, for non-negative finite importance values that are not all 0,
if the product of the full size and the greatest importance does not overflow: the nodes are the features of the importance table, in
its order; all sizes are numbers and not negative; a greater importance never means a smaller node; importance 0 means size 0; and
every size is within the stated error of the exact one. -/
theorem C162_sizes (hA : A.Ordered) {v : View F I K} {E : VisEnv F K} {title : String} {o : Opts K} {S : K}
    {ps : List (Panel F I K)} (h : v.plotGraphR A E title o S = .ok ps) {imp : List (FeatRow F K)} (hi : v.imp = some imp)
    {u : FeatRow F K → K} (hu : ∀ r ∈ imp, r.val = .fin (u r) ∧ 0 ≤ u r) (hS : 0 ≤ S) {top : FeatRow F K} (htop : top ∈ imp)
    (hmax : ∀ r ∈ imp, u r ≤ u top) (hpos : 0 < u top) (hfin : ∃ p, A.rnd (S * u top) = .fin p ∧ A.rnd (p / u top) ≠ .pinf) :
    ∃ ti edges labels, ∃ n : FeatRow F K → K, ps = [.graph ti v.directed edges (some (imp.map (fun r => (r.f, .fin (n r))))) labels] ∧
      (∀ r ∈ imp, 0 ≤ n r) ∧ (∀ r ∈ imp, ∀ q ∈ imp, u r ≤ u q → n r ≤ n q) ∧ (∀ r ∈ imp, u r = 0 → n r = 0) ∧
      (∀ ε η B, A.Accurate ε η B → ε ≤ 1 → S * u top ≤ B → (∀ p, A.rnd (S * u top) = .fin p → p / u top ≤ B) →
        ∀ r ∈ imp, |n r - S * u r / u top| ≤ 3 * ε * S + 2 * (η / u top) + η) := by
  obtain ⟨ovo, cfg, nodes, _, _, hn, rfl⟩ := graphR_inv h
  rw [hi] at hn
  unfold graphNodesR at hn
  simp only [] at hn
  split at hn
  swap
  · cases hn
  cases hn
  have he : imp.map FeatRow.val = imp.map (fun r => .fin (u r)) := List.map_congr_left fun r hr => (hu r hr).1
  obtain ⟨a, ha, hmaxS, hle⟩ := maxSkip_fin imp u (List.ne_nil_of_mem htop)
  have hat : u a = u top := le_antisymm (hmax a ha) (hle top htop)
  rw [he, hmaxS, hat]
  obtain ⟨P, hP, hPn⟩ := hfin
  have P0 : 0 ≤ P := hA.le (mul_nonneg hS hpos.le) hA.zero hP
  obtain ⟨N, hN⟩ : ∃ N, A.rnd (P / u top) = .fin N := by
    have l := hA.mono 0 (P / u top) (div_nonneg P0 hpos.le)
    rw [hA.zero] at l
    cases hq : A.rnd (P / u top) with
    | fin c => exact ⟨c, rfl⟩
    | nan => rw [hq] at l; cases l
    | pinf => exact absurd hq hPn
    | ninf => rw [hq] at l; cases l
  have main : ∀ r ∈ imp, ∃ p n, A.rnd (S * u r) = .fin p ∧ 0 ≤ p ∧ p ≤ P ∧ A.rnd (p / u top) = .fin n ∧ 0 ≤ n ∧
      A.div (A.r (Num.mul (.fin S) r.val)) (.fin (u top)) = .fin n := by
    intro r hr
    obtain ⟨p, ep, p0, pP⟩ := hA.between (mul_nonneg hS (hu r hr).2) (mul_le_mul_of_nonneg_left (hmax r hr) hS) hA.zero hP
    obtain ⟨n, en, n0, _⟩ := hA.between (div_nonneg p0 hpos.le) (div_le_div_of_nonneg_right pP hpos.le) hA.zero hN
    refine ⟨p, n, ep, p0, pP, en, n0, ?_⟩
    rw [(hu r hr).1, rnd_mul, ep, rnd_div A hpos.ne', en]
  have hnodes : imp.map (fun r => (r.f, A.div (A.r (Num.mul (.fin S) r.val)) (.fin (u top)))) =
      imp.map (fun r => (r.f, .fin (Num.toK (A.div (A.r (Num.mul (.fin S) r.val)) (.fin (u top)))))) := by
    refine List.map_congr_left fun r hr => ?_
    obtain ⟨p, n, _, _, _, _, _, e⟩ := main r hr
    rw [e]; rfl
  rw [hnodes]
  refine ⟨_, _, _, fun r => Num.toK (A.div (A.r (Num.mul (.fin S) r.val)) (.fin (u top))), rfl, ?_, ?_, ?_, ?_⟩
  · intro r hr
    obtain ⟨p, n, _, _, _, _, n0, e⟩ := main r hr
    simp only [e]
    exact n0
  · intro r hr q hq hrq
    obtain ⟨p, n, ep, _, _, en, _, e⟩ := main r hr
    obtain ⟨p', n', ep', _, _, en', _, e'⟩ := main q hq
    simp only [e, e']
    exact hA.le (div_le_div_of_nonneg_right (hA.le (mul_le_mul_of_nonneg_left hrq hS) ep ep') hpos.le) en en'
  · intro r hr h0
    obtain ⟨p, n, ep, _, _, en, _, e⟩ := main r hr
    simp only [e]
    rw [h0, mul_zero, hA.zero] at ep
    cases ep
    rw [zero_div, hA.zero] at en
    exact (Num.fin.inj en).symm
  · intro ε η B acc hε hB hB2 r hr
    obtain ⟨p, n, ep, p0, pP, en, _, e⟩ := main r hr
    simp only [e]
    have near : ∀ {x y : K}, A.rnd x = .fin y → 0 ≤ x → x ≤ B → |y - x| ≤ ε * |x| + η := by
      intro x y hx h0 h1
      obtain ⟨y', e', h'⟩ := acc.rnd_near x (by rwa [abs_of_nonneg h0])
      rw [hx] at e'
      cases e'
      exact h'
    exact size_near acc.u_nonneg hε acc.η_nonneg hpos hS (hu r hr).2 (hmax r hr) p0
      (near ep (mul_nonneg hS (hu r hr).2) ((mul_le_mul_of_nonneg_left (hmax r hr) hS).trans hB))
      (near en (div_nonneg p0 hpos.le) ((div_le_div_of_nonneg_right pP hpos.le).trans (hB2 P hP)))

/-- **C162** Without an importance table no sizes are computed: all nodes have the full size. -/
theorem C162_no_importance {v : View F I K} {E : VisEnv F K} {title : String} {o : Opts K} {S : K} {ps : List (Panel F I K)}
    (h : v.plotGraphR A E title o S = .ok ps) (hi : v.imp = none) : ∃ ti edges labels, ps = [.graph ti v.directed edges none labels] := by
  obtain ⟨ovo, cfg, nodes, _, _, hn, rfl⟩ := graphR_inv h
  rw [hi] at hn
  cases hn
  exact ⟨_, _, _, rfl⟩

/-- **C162** The graph fails in floating-point arithmetic exactly when it fails in exact arithmetic, with the same exception, whatever
the sizes and options. -/
theorem C162_same_failures (v : View F I K) (E : VisEnv F K) (title : String) (o : Opts K) (S : K) (sub : SubOpts K) :
    (v.plotGraphR A E title o S).map (fun _ => ()) = (v.plot E "graph" title o sub).map (fun _ => ()) := by
  have hnodes : ∀ ovo : List (OvoRow F K), (graphNodesR A S ovo v.imp).map (fun _ => ()) = (graphNodes ovo v.imp).map (fun _ => ()) := by
    intro ovo
    unfold graphNodesR graphNodes
    cases v.imp with
    | none => rfl
    | some t =>
      simp only []
      split <;> rfl
  unfold View.plotGraphR View.plot
  generalize (if v.needsOva = true then v.ova.isNone else v.ovo.isNone) = b
  cases b with
  | true => rfl
  | false =>
    rw [if_neg Bool.false_ne_true, if_neg Bool.false_ne_true]
    cases v.impAsc with
    | none => rfl
    | some ia =>
      simp only []
      cases configGet (K := K) v.name with
      | error e => rfl
      | ok cfg =>
        simp only []
        cases v.ovo with
        | none => by_cases h : "graph" ∈ cfg.accepted <;> simp [h]
        | some ovo =>
          simp only []
          unfold visPlot
          by_cases h : "graph" ∈ cfg.accepted
          · rw [if_neg (not_not.2 h), if_neg (not_not.2 h), if_neg (by decide), if_pos rfl]
            have hn := hnodes ovo
            unfold Artemis.plotGraphR plotGraph
            cases h1 : graphNodesR A S ovo v.imp <;> cases h2 : graphNodes ovo v.imp <;> rw [h1, h2] at hn <;> cases hn <;> rfl
          · rw [if_pos h, if_pos h]

end Widths

/-! ## Cases -/

section Cases

/-- the interactions 0.9, 0.3 and 0.1 as binary64 numbers -/
def exF64Rows : List (OvoRow (Fin 4) ℚ) := [⟨0, 1, .fin (8106479329266893 / 9007199254740992)⟩, ⟨0, 2, .fin (5404319552844595 / 18014398509481984)⟩,
  ⟨1, 2, .fin (3602879701896397 / 36028797018963968)⟩]

/-- the importances 0.7, 0.35 and 0 as binary64 numbers -/
def exF64Imp : List (FeatRow (Fin 4) ℚ) := [⟨0, .fin (3152519739159347 / 4503599627370496)⟩, ⟨1, .fin (3152519739159347 / 9007199254740992)⟩, ⟨2, .fin 0⟩]

/-- an important feature without pairs makes the graph fail in binary64 too; without it the graph is drawn -/
example : ((exShow greenwellName exF64Rows (some (exF64Imp ++ [⟨3, .fin 0⟩])) false false).plotGraphR binary64 exVis "default" {}).map
      (fun _ => ()) = .error .networkXError ∧
    ((exShow greenwellName exF64Rows (some exF64Imp) false false).plotGraphR binary64 exVis "default" {}).map (fun _ => ()) = .ok () := by
  rw [C162_same_failures _ _ _ _ _ [], C162_same_failures _ _ _ _ _ []]
  decide +kernel

/-- what Python shows: widths 20.0, 4.999999999999999, 0.0 with a threshold of 0.05, and 1800.0000000000002, 900.0000000000001, 0.0 as
sizes -/
example :
    let g := graphOf ((exShow greenwellName exF64Rows (some exF64Imp) false false).plotGraphR binary64 exVis "default" {})
    g.map (·.1) = some [((0, 1), .fin 20), ((0, 2), .fin (5629499534213119 / 1125899906842624)), ((1, 2), .fin 0)] ∧
    g.map (·.2.1) = some (some [(0, .fin (7916483719987201 / 4398046511104)), (1, .fin (7916483719987201 / 8796093022208)), (2, .fin 0)]) := by
  refine ⟨?_, ?_⟩ <;> decide +kernel

/-- the default threshold 0.05 as a float -/
example : ((GraphCfg.default : GraphCfg ℚ).floats binary64).threshold = (3602879701896397 / 72057594037927936) := by decide +kernel

/-- the hypotheses of `C161_widths` hold here -/
example : ∃ ps w, (exShow greenwellName exF64Rows (some exF64Imp) false false).plotGraphR binary64 exVis "default" {} = .ok ps ∧
    ShowsWidths false exF64Rows ps w ∧ (∀ r ∈ exF64Rows, 0 ≤ w r ∧ w r ≤ 20) ∧ w ⟨0, 1, .fin (8106479329266893 / 9007199254740992)⟩ = 20 := by
  have hs : (graphOf ((exShow greenwellName exF64Rows (some exF64Imp) false false).plotGraphR binary64 exVis "default" {})).isSome = true := by
    decide +kernel
  obtain ⟨x, hx⟩ := Option.isSome_iff_exists.1 hs
  obtain ⟨ti, d, h⟩ := graphOf_some hx
  obtain ⟨w, h1, h2, _, h4, _⟩ := C161_widths binary64_ordered (v := exShow greenwellName exF64Rows (some exF64Imp) false false) rfl h
    (ovo := exF64Rows) rfl (distinctEdges_of_once (by unfold OncePerPair SamePair OvoRow.isPair; decide +kernel))
    (u := fun r => Num.toK r.val) (by decide +kernel) (cfg := ⟨["summary", "graph", "bar_chart", "heatmap"], .default⟩) rfl
    (t := 3602879701896397 / 72057594037927936) (Or.inr ⟨rfl, by decide +kernel⟩) rfl (by decide +kernel) (by decide +kernel) (Or.inr (by decide +kernel))
    ⟨⟨0, 1, .fin (8106479329266893 / 9007199254740992)⟩, by decide +kernel, ⟨1, 2, .fin (3602879701896397 / 36028797018963968)⟩, by decide +kernel, by decide +kernel⟩
  exact ⟨_, w, h, h1, h2, h4 _ (by decide +kernel) (by decide +kernel)⟩

/-- the hypotheses of `C161_ascending` hold here: depths 1, 2 and 5 with a threshold of 3 -/
example : ∃ ps w, (exShow cmdName [⟨0, 1, .fin 1⟩, ⟨1, 2, .fin 2⟩, ⟨2, 0, .fin 5⟩] none true true).plotGraphR binary64 exVis "default"
      { threshold := some 3 } = .ok ps ∧
    ShowsWidths true [⟨0, 1, .fin 1⟩, ⟨1, 2, .fin 2⟩, ⟨2, 0, .fin 5⟩] ps w ∧ w ⟨2, 0, .fin 5⟩ = 0 ∧
    w ⟨1, 2, .fin 2⟩ ≤ w ⟨0, 1, .fin 1⟩ := by
  have hs : (graphOf ((exShow cmdName [⟨0, 1, .fin 1⟩, ⟨1, 2, .fin 2⟩, ⟨2, 0, .fin 5⟩] none true true).plotGraphR binary64 exVis "default"
      { threshold := some 3 })).isSome = true := by
    decide +kernel
  obtain ⟨x, hx⟩ := Option.isSome_iff_exists.1 hs
  obtain ⟨ti, d, h⟩ := graphOf_some hx
  obtain ⟨w, h1, h2, h3⟩ := C161_ascending binary64_ordered
    (v := exShow cmdName [⟨0, 1, .fin 1⟩, ⟨1, 2, .fin 2⟩, ⟨2, 0, .fin 5⟩] none true true) rfl h
    (ovo := [⟨0, 1, .fin 1⟩, ⟨1, 2, .fin 2⟩, ⟨2, 0, .fin 5⟩]) rfl (by unfold DistinctEdges; decide +kernel)
    (u := fun r => Num.toK r.val) (by decide +kernel)
    (cfg := ⟨["summary", "graph", "bar_chart", "heatmap", "bar_chart_conditional"], ⟨3, 5, 60 / 100⟩⟩) rfl
    (Or.inl rfl) rfl (by decide +kernel) (by decide +kernel) (by decide +kernel)
    ⟨⟨0, 1, .fin 1⟩, by decide +kernel, ⟨2, 0, .fin 5⟩, by decide +kernel, by decide +kernel⟩
  have h4 := h3 (by decide +kernel) (by decide +kernel) (by decide +kernel)
  exact ⟨_, w, h, h1, h4.2 _ (by decide +kernel) (by decide +kernel),
    h4.1 _ (by decide +kernel) _ (by decide +kernel) (by decide +kernel) (by decide +kernel)⟩

/-- the hypotheses of `C162_sizes` hold here -/
example : ∃ ti edges labels, ∃ n : FeatRow (Fin 4) ℚ → ℚ,
    (exShow greenwellName exF64Rows (some exF64Imp) false false).plotGraphR binary64 exVis "default" {} =
      .ok [.graph ti false edges (some (exF64Imp.map (fun r => (r.f, .fin (n r))))) labels] ∧ n ⟨2, .fin 0⟩ = 0 := by
  have hs : (graphOf ((exShow greenwellName exF64Rows (some exF64Imp) false false).plotGraphR binary64 exVis "default" {})).isSome = true := by
    decide +kernel
  obtain ⟨x, hx⟩ := Option.isSome_iff_exists.1 hs
  obtain ⟨ti, d, h⟩ := graphOf_some hx
  obtain ⟨ti', e, l, n, hps, _, _, h0, _⟩ := C162_sizes binary64_ordered
    (v := exShow greenwellName exF64Rows (some exF64Imp) false false) h (imp := exF64Imp) rfl (u := fun r => Num.toK r.val)
    (by decide +kernel) (by decide +kernel) (top := ⟨0, .fin (3152519739159347 / 4503599627370496)⟩) (by decide +kernel) (by decide +kernel) (by decide +kernel)
    ⟨1260, by decide +kernel, by decide +kernel⟩
  exact ⟨ti', e, l, n, by rw [h, hps]; rfl, h0 _ (by decide +kernel) rfl⟩

/-- **C162**, no more than this: the node of the most important feature need not have exactly the full size `node_size`. In binary64,
with the importance 0.7 and the default size 1800, it gets 1800.0000000000002. -/
theorem C162_full_size_fails : ∃ (v : View (Fin 4) Unit ℚ) (imp : List (FeatRow (Fin 4) ℚ)) (top : FeatRow (Fin 4) ℚ), v.imp = some imp ∧
    top ∈ imp ∧ (∀ r ∈ imp, Num.le r.val top.val = true) ∧ Num.lt (.fin 0) top.val = true ∧ binary64.r top.val = top.val ∧
    ∃ nodes x, (graphOf (v.plotGraphR binary64 exVis "default" {} 1800)).map (·.2.1) = some (some nodes) ∧ (top.f, .fin x) ∈ nodes ∧
      1800 < x := by
  refine ⟨exShow greenwellName exF64Rows (some exF64Imp) false false, _, ⟨0, .fin (3152519739159347 / 4503599627370496)⟩, rfl, ?_, ?_, ?_, ?_,
    [(0, .fin (7916483719987201 / 4398046511104)), (1, .fin (7916483719987201 / 8796093022208)), (2, .fin 0)], (7916483719987201 / 4398046511104), ?_, ?_, ?_⟩ <;> decide +kernel

end Cases

end Artemis
