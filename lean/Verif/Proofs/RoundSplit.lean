import Verif.Proofs.RoundSplitNum
import Verif.Proofs.GbImportance
import Verif.Proofs.VisLemmas
import Verif.Model.RoundedSplit

/-!
# The tables of the split score in floating-point arithmetic
-/

set_option linter.unusedSectionVars false
set_option linter.unusedVariables false
set_option linter.unusedSimpArgs false

namespace Artemis
open Spec

section
variable {F I K : Type} [LinearOrder F] [DecidableEq I] [Field K] [LinearOrder K] [IsStrictOrderedRing K] {A : Arith K}
variable {gsum : List (Num K) → Num K} {u η B : K} {N : Nat} {p : Package} {ts : List (GTree F I K)}

/-! ### depths are small -/

theorem GTree.depth_lt (T : GTree F I K) (t : Nat) : ∀ (q : Option (F × K × K)) (k : Nat), ∀ s ∈ T.splits t q k, s.depth < k + (T.splits t q k).length := by
  induction T with
  | leaf i v c => intro q k s hs; simp [GTree.splits] at hs
  | split i f g c l r ihl ihr =>
    intro q k s hs
    simp only [GTree.splits, List.mem_cons, List.mem_append, List.length_cons, List.length_append] at hs ⊢
    rcases hs with rfl | hs | hs
    · simp
    · have := ihl _ _ s hs; omega
    · have := ihr _ _ s hs; omega

theorem forest_depth_lt {s : Split F I K} (hs : s ∈ forestSplits ts) : s.depth < (forestSplits ts).length := by
  unfold forestSplits at hs ⊢
  obtain ⟨l, hl, hs⟩ := List.mem_flatten.1 hs
  obtain ⟨q, hq, rfl⟩ := List.mem_map.1 hl
  have h1 := GTree.depth_lt q.1 q.2 none 0 s hs
  have h2 : (q.1.splits q.2 none 0).length ≤ ((ts.zipIdx.map (fun q => q.1.splits q.2 none 0)).flatten).length :=
    (List.sublist_flatten_of_mem hl).length_le
  omega

/-! ### groups -/

theorem sub_sum {L M : List (Split F I K)} (h : L.Sublist M) {v : Split F I K → K} (h0 : ∀ s ∈ M, 0 < v s) : (L.map v).sum ≤ (M.map v).sum :=
  List.Sublist.sum_le_sum (h.map v) (by intro z hz; obtain ⟨s, hs, rfl⟩ := List.mem_map.1 hz; exact (h0 s hs).le)

theorem sumOptR_near (hS : SplitSuits A gsum u η B N p ts) {L : List (Split F I K)} (hL : L.Sublist (forestSplits ts)) {v : Split F I K → K}
    (hv : ∀ s ∈ forestSplits ts, 0 < v s ∧ η ≤ u * v s) (hr : 16 * ((forestSplits ts).map v).sum ≤ B)
    {l : List (Option K)} (h : l.Perm (L.map (fun s => some (v s)))) :
    CloseTo (sumOptR gsum l) (L.map v).sum (16 * (N * u) * (L.map v).sum) := by
  have h2 := h.filterMap id
  rw [filterMap_id_map_some] at h2
  unfold sumOptR
  have s0 : 0 ≤ (L.map v).sum := List.sum_nonneg (by intro z hz; obtain ⟨s, hs, rfl⟩ := List.mem_map.1 hz; exact (hv s (hL.subset hs)).1.le)
  have := hS.groups.2 (l.filterMap id) (by
      rw [h2.length_eq, List.length_map]; exact hL.length_le.trans hS.many) (by
      intro x hx
      obtain ⟨s, hs, rfl⟩ := List.mem_map.1 (h2.mem_iff.1 hx)
      exact hv s (hL.subset hs)) (by
      rw [h2.sum_eq]
      have := sub_sum hL fun s hs => (hv s hs).1
      linarith)
  rwa [h2.sum_eq] at this

theorem meanOptR_near (hS : SplitSuits A gsum u η B N p ts) {L : List (Split F I K)} (hL : L.Sublist (forestSplits ts)) (hne : L ≠ []) {v : Split F I K → K}
    (hv : ∀ s ∈ forestSplits ts, 0 < v s ∧ η ≤ u * v s) (hr : 16 * ((forestSplits ts).map v).sum ≤ B)
    {l : List (Option K)} (h : l.Perm (L.map (fun s => some (v s)))) :
    NearTo (40 * (N * u)) (meanOptR A gsum l) ((L.map v).sum / L.length) := by
  have hs := sumOptR_near hS hL hv hr h
  have h2 := h.filterMap id
  rw [filterMap_id_map_some] at h2
  have hu := hS.accurate.u_nonneg
  have n0 : (0 : K) < L.length := by exact_mod_cast List.length_pos_of_ne_nil hne
  have n1 : (1 : K) ≤ L.length := by exact_mod_cast List.length_pos_of_ne_nil hne
  have lN : (L.length : K) ≤ N := by exact_mod_cast hL.length_le.trans hS.many
  have uN : u ≤ N * u := by nlinarith
  have s0 : 0 ≤ (L.map v).sum := List.sum_nonneg (by intro z hz; obtain ⟨s, hs, rfl⟩ := List.mem_map.1 hz; exact (hv s (hL.subset hs)).1.le)
  have hle := sub_sum hL fun s hs => (hv s hs).1
  have q0 : 0 ≤ (L.map v).sum / L.length := div_nonneg s0 n0.le
  have qS : (L.map v).sum / L.length ≤ (L.map v).sum := div_le_self s0 n1
  have ηq : η ≤ u * ((L.map v).sum / L.length) := by
    rw [← mul_div_assoc, le_div_iff₀ n0]
    clear hs h h2 n0 n1 lN uN s0 hle q0 qS hne
    have hv' : ∀ s ∈ L, η ≤ u * v s := fun s hs => (hv s (hL.subset hs)).2
    clear hL
    induction L with
    | nil => simp
    | cons s L ih =>
      have a := ih fun s hs => hv' s (List.mem_cons_of_mem _ hs)
      have b := hv' s List.mem_cons_self
      simp only [List.map_cons, List.sum_cons, List.length_cons]
      push_cast
      linarith
  have hp := hS.precision
  have e : meanOptR A gsum l = A.div (sumOptR gsum l) (Num.ofNat L.length) := by
    unfold meanOptR sumOptR
    rw [h2.isEmpty_eq, h2.length_eq, List.length_map, if_neg (by simpa using hne)]
  rw [e]
  have := div_near (β := 0) hS.accurate hs (close_refl (L.length : K) (by simp)) s0 n0 (by nlinarith) le_rfl (by linarith) (by
    have : (1 + 2 * (16 * ((N : K) * u) + 0)) * ((L.map v).sum / L.length) ≤ 2 * (L.map v).sum :=
      mul_le_mul (by linarith) qS q0 (by norm_num)
    linarith)
  refine this.mono ?_
  generalize (L.map v).sum / L.length = q at *
  have a1 : u * q ≤ N * u * q := mul_le_mul_of_nonneg_right uN q0
  have a2 : u * q * (32 * (N * u)) ≤ u * q := by
    have : 0 ≤ u * q := mul_nonneg hu q0
    nlinarith
  nlinarith

theorem meanSomeR_split (hS : SplitSuits A gsum u η B N p ts) {L : List (Split F I K)} (hL : L.Sublist (forestSplits ts)) (hne : L ≠ [])
    {l : List (Option Int)} (h : l.Perm (L.map (fun s => some (s.depth : Int)))) :
    meanSomeR A gsum l = A.r (.fin ((L.map (fun s => (s.depth : K))).sum / L.length)) := by
  rw [← meanSome_perm (u := Split.depth) h hne]
  have h2 := h.filterMap id
  rw [filterMap_id_map_some (fun s : Split F I K => (s.depth : Int))] at h2
  have e : l.filterMap id = ((l.filterMap id).map Int.toNat).map (fun (x : Nat) => (x : Int)) := by
    rw [List.map_map]
    conv_lhs => rw [← List.map_id (l.filterMap id)]
    apply List.map_congr_left
    intro x hx
    obtain ⟨s, _, rfl⟩ := List.mem_map.1 (h2.mem_iff.1 hx)
    simp
  refine meanSomeR_round hS.groupsWhole e ?_
  refine sum_le_mul ?_ ?_
  · rw [List.length_map, h2.length_eq, List.length_map]
    exact hL.length_le.trans hS.many
  · intro x hx
    obtain ⟨z, hz, rfl⟩ := List.mem_map.1 hx
    obtain ⟨s, hs, rfl⟩ := List.mem_map.1 (h2.mem_iff.1 hz)
    have := forest_depth_lt (hL.subset hs)
    have := hS.many
    simp
    omega

theorem SplitSuits.rangeG' (hS : SplitSuits A gsum u η B N p ts) (hne : forestSplits ts ≠ []) : 16 * ((forestSplits ts).map Split.gain).sum ≤ B := by
  have N1 : (1 : K) ≤ N := by exact_mod_cast (List.length_pos_of_ne_nil hne).trans_le hS.many
  have : 0 ≤ ((forestSplits ts).map Split.gain).sum := List.sum_nonneg (by
    intro z hz; obtain ⟨s, hs, rfl⟩ := List.mem_map.1 hz; exact (hS.gains s hs).1.le)
  have h := hS.rangeG
  change 16 * ((N : K) * (((forestSplits ts).map Split.gain).sum + 1)) ≤ B at h
  nlinarith

theorem NearTo.mono {ε δ : K} {a : Num K} {x : K} (h : NearTo ε a x) (x0 : 0 ≤ x) (hd : ε ≤ δ) : NearTo δ a x :=
  CloseTo.mono h (mul_le_mul_of_nonneg_right hd x0)

theorem sumOptR_none (hS : SplitSuits A gsum u η B N p ts) {σ : Type} {l : List (Option K)} {g : List σ} (h : l.Perm (g.map (fun _ => none))) :
    sumOptR gsum l = .fin 0 := by
  have h2 := h.filterMap id
  rw [filterMap_id_map_none] at h2
  unfold sumOptR
  rw [h2.eq_nil]
  exact hS.groups.1

theorem meanOptR_none {σ : Type} {l : List (Option K)} {g : List σ} (h : l.Perm (g.map (fun _ => none))) : meanOptR A gsum l = .nan := by
  have h2 := h.filterMap id
  rw [filterMap_id_map_none] at h2
  unfold meanOptR
  rw [h2.eq_nil]
  rfl

variable {leafName : F} {frame : List (GbRow F I K)} {an : Nat → List (Ann F I K)}

theorem sumAggR_ok (hS : SplitSuits A gsum u η B N p ts) (H : Framed leafName p ts frame an) (onlyDef : Bool) (a b : F)
    (hne : pairSplits onlyDef ts a b ≠ []) :
    SumRowNear A (40 * (N * u)) p onlyDef ts (sumAggR A gsum ((finalRows ts.length an).filter (qualifies onlyDef)) (a, b)) := by
  have hp := pair_rows H onlyDef a b
  have hlen := hp.length_eq
  rw [List.length_map, List.length_map] at hlen
  have hg := hp.map StatView.gain
  have hd := hp.map StatView.depth
  have hc := hp.map StatView.cover
  rw [List.map_map, List.map_map] at hg hd hc
  have hsub : (pairSplits onlyDef ts a b).Sublist (forestSplits ts) := List.filter_sublist
  have hne' : forestSplits ts ≠ [] := by
    intro e
    rw [e] at hsub
    exact hne (List.sublist_nil.1 hsub)
  have hu := hS.accurate.u_nonneg
  have Nu : (0 : K) ≤ N * u := mul_nonneg (Nat.cast_nonneg _) hu
  have pos : ∀ {v : Split F I K → K}, (∀ s ∈ forestSplits ts, 0 < v s ∧ η ≤ u * v s) → 0 ≤ ((pairSplits onlyDef ts a b).map v).sum := by
    intro v hv
    exact List.sum_nonneg (by intro z hz; obtain ⟨s, hs, rfl⟩ := List.mem_map.1 hz; exact (hv s (hsub.subset hs)).1.le)
  refine ⟨hne, hlen, ?_, meanOptR_near hS hsub hne hS.gains (hS.rangeG' hne') hg, meanSomeR_split hS hsub hne hd, ?_, ?_⟩
  · exact NearTo.mono (ε := 16 * (N * u)) (sumOptR_near hS hsub hS.gains (hS.rangeG' hne') hg) (pos hS.gains) (by linarith)
  · intro hx
    subst hx
    exact ⟨NearTo.mono (ε := 16 * (N * u)) (sumOptR_near hS hsub (hS.covers rfl) (hS.rangeC rfl) hc) (pos (hS.covers rfl)) (by linarith),
      meanOptR_near hS hsub hne (hS.covers rfl) (hS.rangeC rfl) hc⟩
  · intro hx
    subst hx
    exact ⟨sumOptR_none hS hc, meanOptR_none hc⟩

/-- The summary in rounded arithmetic. -/
theorem getSummaryR_ok (hS : SplitSuits A gsum u η B N p ts) (H : Framed leafName p ts frame an) (onlyDef : Bool)
    {sort : List (SumRow F K) → List (SumRow F K)} (hs : ∀ l, (sort l).Perm l) :
    (∀ r ∈ getSummaryR A gsum sort onlyDef (finalRows ts.length an), SumRowNear A (40 * (N * u)) p onlyDef ts r) ∧
    ((getSummaryR A gsum sort onlyDef (finalRows ts.length an)).map (fun r => (r.parent, r.child))).Nodup ∧
    (∀ a b, pairSplits onlyDef ts a b ≠ [] →
      ∃ r ∈ getSummaryR A gsum sort onlyDef (finalRows ts.length an), r.parent = a ∧ r.child = b) ∧
    ((getSummaryR A gsum sort onlyDef (finalRows ts.length an)).map SumRow.frequency).sum = ((forestSplits ts).filter (Split.counts onlyDef)).length := by
  obtain ⟨_, g2, _, g4⟩ := getSummary_ok H onlyDef (sort := id) (fun l => List.Perm.refl l)
  have hperm := hs ((npUnique (((finalRows ts.length an).filter (qualifies onlyDef)).filterMap (fun r => r.pair.map toLex))).map
    (fun q => sumAggR A gsum ((finalRows ts.length an).filter (qualifies onlyDef)) (ofLex q)))
  change (getSummaryR A gsum sort onlyDef (finalRows ts.length an)).Perm _ at hperm
  unfold getSummary at g2 g4
  simp only [id] at g2 g4
  refine ⟨?_, ?_, ?_, ?_⟩
  · intro r hr
    obtain ⟨q, hq, rfl⟩ := List.mem_map.1 (hperm.mem_iff.1 hr)
    exact sumAggR_ok hS H onlyDef _ _ ((mem_keys H onlyDef q).1 hq)
  · rw [(hperm.map _).nodup_iff, List.map_map]
    rw [List.map_map] at g2
    exact g2
  · intro a b hab
    refine ⟨_, hperm.mem_iff.2 (List.mem_map.2 ⟨toLex (a, b), (mem_keys H onlyDef (toLex (a, b))).2 hab, rfl⟩), rfl, rfl⟩
  · rw [(hperm.map _).sum_eq, List.map_map]
    rw [List.map_map] at g4
    exact g4

/-! ### importance -/

theorem depthGain_all {g : List (GbRow F I K)} {l : List (Split F I K)} (h : (g.map GbRow.tup).Perm (l.map (Split.tup p))) :
    ∃ ps, g.mapM depthGain = .ok ps ∧ ps.Perm (l.map (fun s => ((s.depth : K), s.gain))) := by
  have hsome : ∀ r ∈ g, ∃ s : Split F I K, r.depth = some (s.depth : Int) ∧ r.gain = some s.gain := by
    intro r hr
    obtain ⟨s, _, e⟩ := List.mem_map.1 (h.mem_iff.1 (List.mem_map.2 ⟨r, hr, rfl⟩))
    exact ⟨s, (congrArg (fun x => x.1) e).symm, (congrArg (fun x => x.2.2.1) e).symm⟩
  refine ⟨g.map (fun r => (((r.depth.getD 0 : Int) : K), r.gain.getD 0)), ?_, ?_⟩
  · apply mapM_ok
    intro r hr
    obtain ⟨s, h1, h2⟩ := hsome r hr
    simp [depthGain, h1, h2]
  · have h2 := h.map (fun x : Option Int × Option F × Option K × Option K => (((x.1.getD 0 : Int) : K), x.2.2.1.getD 0))
    rw [List.map_map, List.map_map] at h2
    have e : ((fun x : Option Int × Option F × Option K × Option K => (((x.1.getD 0 : Int) : K), x.2.2.1.getD 0)) ∘ Split.tup (I := I) p)
        = fun s => ((s.depth : K), s.gain) := by
      funext s
      simp [Split.tup]
    rw [e] at h2
    exact h2

theorem weightedDepthR_near (hS : SplitSuits A gsum u η B N p ts) {L : List (Split F I K)} (hL : L.Sublist (forestSplits ts)) (hne : L ≠ [])
    {g : List (GbRow F I K)} (h : (g.map GbRow.tup).Perm (L.map (Split.tup p))) :
    ∃ v, weightedDepthR A g = .ok v ∧ CloseTo v ((L.map (fun s => (s.depth : K) * s.gain)).sum / gainSum L)
      (64 * (N * u) * ((L.map (fun s => (s.depth : K) * s.gain)).sum / gainSum L) + η) := by
  obtain ⟨ps, e, hp⟩ := depthGain_all h
  have z : A.rnd 0 = .fin 0 := by simpa using hS.whole.exact 0 (Nat.zero_le _)
  have e1 : (ps.map Prod.snd).sum = gainSum L := by rw [(hp.map _).sum_eq, List.map_map]; rfl
  have e2 : (ps.map fun q => q.1 * q.2).sum = (L.map (fun s => (s.depth : K) * s.gain)).sum := by rw [(hp.map _).sum_eq, List.map_map]; rfl
  have hle : gainSum L ≤ gainSum (forestSplits ts) := sub_sum hL fun s hs => (hS.gains s hs).1
  obtain ⟨w1, w2⟩ := wavg_near (N := N) hS.accurate hS.lawful z hS.precision (ps := ps)
    (by rintro rfl; exact hne (by simpa using hp.nil_eq))
    (by rw [hp.length_eq, List.length_map]; exact hL.length_le.trans hS.many)
    (by
      intro q hq
      obtain ⟨s, hs, rfl⟩ := List.mem_map.1 (hp.mem_iff.1 hq)
      have hd := forest_depth_lt (hL.subset hs)
      have hm := hS.many
      refine ⟨(hS.gains s (hL.subset hs)).1, (hS.gains s (hL.subset hs)).2, ?_, ?_⟩
      · rcases Nat.eq_zero_or_pos s.depth with h0 | h0
        · exact Or.inl (by simp [h0])
        · exact Or.inr (by show (1 : K) ≤ (s.depth : K); exact_mod_cast h0)
      · show (s.depth : K) ≤ (N : K)
        exact_mod_cast (by omega : s.depth ≤ N))
    (by
      rw [e1]
      have := hS.rangeG
      have : (N : K) * (gainSum L + 1) ≤ N * (gainSum (forestSplits ts) + 1) := mul_le_mul_of_nonneg_left (by linarith) (Nat.cast_nonneg _)
      linarith)
  rw [e1, e2] at w2
  refine ⟨_, ?_, w2⟩
  unfold weightedDepthR
  rw [e]
  simp only []
  rw [if_neg w1]

/-- `np.sum` of sums that are near -/
theorem sumOfSums_near (hA : A.Accurate u η B) (hL : A.Lawful) {N : Nat} (hN : 64 * ((N : K) * u) ≤ 1) {ι : Type} {l : List ι} (hne : l ≠ [])
    (hl : l.length ≤ N) {a : ι → Num K} {x : ι → K} (h : ∀ i ∈ l, 0 < x i ∧ η ≤ u * x i ∧ CloseTo (a i) (x i) (16 * (N * u) * x i))
    (hB : 16 * (l.map x).sum ≤ B) : CloseTo (A.sum (l.map a)) (l.map x).sum (22 * (N * u) * (l.map x).sum) := by
  have hu := hA.u_nonneg
  have Nu0 : 0 ≤ (N : K) * u := mul_nonneg (Nat.cast_nonneg _) hu
  have N1 : (1 : K) ≤ N := by exact_mod_cast (List.length_pos_of_ne_nil hne).trans_le hl
  have lN : (l.length : K) ≤ N := by exact_mod_cast hl
  have uN : u ≤ N * u := by nlinarith
  have key : ∀ l : List ι, (∀ i ∈ l, 0 < x i ∧ η ≤ u * x i ∧ CloseTo (a i) (x i) (16 * (N * u) * x i)) →
      |(l.map fun i => (a i).realPart).sum - (l.map x).sum| ≤ 16 * (N * u) * (l.map x).sum ∧
      (l.map fun i => |(a i).realPart|).sum ≤ (1 + 16 * (N * u)) * (l.map x).sum ∧ 0 ≤ (l.map x).sum ∧
      (l.length : K) * η ≤ u * (l.map x).sum := by
    intro l h
    induction l with
    | nil => simp
    | cons i l ih =>
      obtain ⟨i1, i2, i3, i4⟩ := ih fun j hj => h j (List.mem_cons_of_mem _ hj)
      obtain ⟨x0, xη, y, ey, hy⟩ := h i List.mem_cons_self
      have er : (a i).realPart = y := by rw [ey]; rfl
      simp only [List.map_cons, List.sum_cons, List.length_cons, er]
      push_cast
      obtain ⟨p1, p2⟩ := abs_le.1 i1
      obtain ⟨q1, q2⟩ := abs_le.1 hy
      refine ⟨abs_le.2 ⟨by linarith, by linarith⟩, ?_, by linarith, by linarith⟩
      have : |y| ≤ x i + 16 * (N * u) * x i := by
        have : 0 ≤ (N : K) * u * x i := mul_nonneg Nu0 x0.le
        exact abs_le.2 ⟨by linarith, by linarith⟩
      linarith
  obtain ⟨k1, k2, T0, k4⟩ := key l h
  have S0 : 0 ≤ (l.map fun i => |(a i).realPart|).sum := List.sum_nonneg (by
    intro z hz; obtain ⟨w, _, rfl⟩ := List.mem_map.1 hz; exact abs_nonneg _)
  have hm : ∀ i ∈ l, |(a i).realPart| ≤ (l.map fun i => |(a i).realPart|).sum := fun w hw => List.single_le_sum (by
    intro z hz; obtain ⟨w, _, rfl⟩ := List.mem_map.1 hz; exact abs_nonneg _) _ (List.mem_map.2 ⟨w, hw, rfl⟩)
  have e1 : ((l.map a).map fun b : Num K => |b.realPart|).sum = (l.map fun i => |(a i).realPart|).sum := by rw [List.map_map]; rfl
  have e2 : ((l.map a).map Num.realPart).sum = (l.map fun i => (a i).realPart).sum := by rw [List.map_map]; rfl
  have lu := mul_le_mul_of_nonneg_right lN hu
  have hs := fun hb => sum_close (A := A) (l := l.map a) (m := (l.map fun i => |(a i).realPart|).sum) hA hL (by simpa using hne) (by
    intro b hb
    obtain ⟨i, hi, rfl⟩ := List.mem_map.1 hb
    obtain ⟨_, _, y, ey, _⟩ := h i hi
    exact ⟨y, ey, by have := hm i hi; rwa [ey] at this⟩) S0 (by rw [List.length_map]; linarith) e1 hb
  rw [e2, List.length_map] at hs
  generalize (l.map fun i => |(a i).realPart|).sum = S at *
  generalize (l.map fun i => (a i).realPart).sum = V at *
  generalize (l.map x).sum = T at *
  have NT : 64 * (N * u * T) ≤ T := by nlinarith
  have uT : u * T ≤ N * u * T := mul_le_mul_of_nonneg_right uN T0
  have NT0 : 0 ≤ N * u * T := mul_nonneg Nu0 T0
  refine ((hs (by linarith)).trans k1).mono ?_
  have S2 : S ≤ 5 / 4 * T := by linarith
  have b1 := mul_le_mul lu S2 S0 Nu0
  linarith

/-- roots per feature -/
theorem gainSum_groups {L : List (Split F I K)} : gainSum L = ((npUnique (L.map Split.feat)).map (fun f => gainSum (L.filter (fun s => decide (s.feat = f))))).sum := by
  have h := perm_groups_npUnique (fun s : Split F I K => s.feat) L
  unfold gainSum
  rw [(h.map _).sum_eq, List.map_flatten, List.sum_flatten, List.map_map, List.map_map]
  rfl

/-- The metrics of one feature in rounded arithmetic. -/
theorem impStatR_ok (hS : SplitSuits A gsum u η B N p ts) {rows : List (GbRow F I K)} {features : Option (List F)}
    (h : ((rows.filter (fun r => r.feat.isSome)).map GbRow.tup).Perm
      (((forestSplits ts).filter (fun s => selected features s.feat)).map (Split.tup p)))
    {f : F} (hsel : selected features f = true) (hocc : featSplits ts f ≠ []) :
    ∃ r, impStatR A gsum rows f = .ok r ∧ r.feat = f ∧ ImpStatNear A (96 * (N * u)) η p features ts r := by
  obtain ⟨h1, h2, h3⟩ := rows_of_feature h f
  have e : ((forestSplits ts).filter (fun s => selected features s.feat)).filter (fun s => decide (s.feat = f)) = featSplits ts f := by
    unfold featSplits
    rw [List.filter_filter]
    apply List.filter_congr
    intro s _
    by_cases hs : s.feat = f
    · simp [hs, hsel]
    · simp [hs]
  rw [e] at h1 h2
  change ((ofFeature (rootRows rows) f).map GbRow.tup).Perm ((featRoots ts f).map (Split.tup p)) at h2
  have hsub : (featSplits ts f).Sublist (forestSplits ts) := List.filter_sublist
  have hne' : forestSplits ts ≠ [] := by
    intro e
    rw [e] at hsub
    exact hocc (List.sublist_nil.1 hsub)
  have hu := hS.accurate.u_nonneg
  have N1 : (1 : K) ≤ N := by exact_mod_cast (List.length_pos_of_ne_nil hne').trans_le hS.many
  have uN : u ≤ N * u := by nlinarith
  have Nu : (0 : K) ≤ N * u := mul_nonneg (Nat.cast_nonneg _) hu
  have hp64 := hS.precision
  have pos : ∀ {L : List (Split F I K)} {v : Split F I K → K}, L.Sublist (forestSplits ts) → (∀ s ∈ forestSplits ts, 0 < v s ∧ η ≤ u * v s) →
      0 ≤ (L.map v).sum := by
    intro L v hL hv
    exact List.sum_nonneg (by intro z hz; obtain ⟨s, hs, rfl⟩ := List.mem_map.1 hz; exact (hv s (hL.subset hs)).1.le)
  have pos' : ∀ {L : List (Split F I K)}, L.Sublist (forestSplits ts) → L ≠ [] → 0 < gainSum L ∧ η ≤ u * gainSum L := by
    intro L hL hne
    obtain ⟨s, hs⟩ := List.exists_mem_of_ne_nil _ hne
    have : s.gain ≤ gainSum L := List.single_le_sum (by
      intro z hz; obtain ⟨w, hw, rfl⟩ := List.mem_map.1 hz; exact (hS.gains w (hL.subset hw)).1.le) _ (List.mem_map.2 ⟨s, hs, rfl⟩)
    obtain ⟨a, b⟩ := hS.gains s (hL.subset hs)
    exact ⟨by linarith, b.trans (mul_le_mul_of_nonneg_left this hu)⟩
  obtain ⟨wd, ewd, hwd⟩ := weightedDepthR_near hS hsub hocc h1
  unfold impStatR
  simp only [ewd]
  refine ⟨_, rfl, rfl, ?_⟩
  have hg := h1.map (fun x => x.2.2.1)
  have hd := h1.map (fun x => x.1)
  have hc := h1.map (fun x => x.2.2.2)
  have hrg := h2.map (fun x => x.2.2.1)
  rw [List.map_map, List.map_map] at hg hd hc hrg
  have hempty : (ofFeature (rootRows rows) f).isEmpty = true ↔ featRoots ts f = [] := by
    have := h2.length_eq
    rw [List.length_map, List.length_map] at this
    rw [List.isEmpty_iff, ← List.length_eq_zero_iff, this, List.length_eq_zero_iff]
  have hlen : (ofFeature (rootRows rows) f).length = (featRoots ts f).length := by
    have := h2.length_eq
    rwa [List.length_map, List.length_map] at this
  have divpos : ∀ {x : K} {n : Nat}, 0 ≤ x → 0 ≤ x / (n : K) := fun h => div_nonneg h (Nat.cast_nonneg _)
  refine ⟨hocc, ?_, ?_, meanSomeR_split hS hsub hocc hd, ?_, ?_, ?_, ?_, ?_⟩
  · exact NearTo.mono (ε := 16 * (N * u)) (sumOptR_near hS hsub hS.gains (hS.rangeG' hne') hg) (pos hsub hS.gains) (by linarith)
  · exact NearTo.mono (meanOptR_near hS hsub hocc hS.gains (hS.rangeG' hne') hg) (divpos (pos hsub hS.gains)) (by linarith)
  · intro hx; subst hx
    exact ⟨NearTo.mono (ε := 16 * (N * u)) (sumOptR_near hS hsub (hS.covers rfl) (hS.rangeC rfl) hc) (pos hsub (hS.covers rfl)) (by linarith),
      NearTo.mono (meanOptR_near hS hsub hocc (hS.covers rfl) (hS.rangeC rfl) hc) (divpos (pos hsub (hS.covers rfl))) (by linarith)⟩
  · intro hx; subst hx
    exact ⟨sumOptR_none hS hc, meanOptR_none hc⟩
  · simp only [hempty, hlen]
  · simp only [hempty, hlen]
    by_cases hr : featRoots ts f = []
    · rw [if_pos hr, if_pos hr]
    · rw [if_neg hr, if_neg hr]
      refine ⟨_, rfl, ?_⟩
      -- the roots
      have rsub : ∀ g, (featRoots ts g).Sublist (forestSplits ts) := fun g => List.filter_sublist.trans List.filter_sublist
      let L0 := (forestSplits ts).filter (fun s => selected features s.feat && decide (s.depth = 0))
      have L0e : ((forestSplits ts).filter (fun s => selected features s.feat)).filter (fun s => decide (s.depth = 0)) = L0 := by
        rw [List.filter_filter]
        apply List.filter_congr
        intro s _
        exact Bool.and_comm _ _
      have L0sub : L0.Sublist (forestSplits ts) := List.filter_sublist
      rw [L0e] at h3
      have rootf : ∀ g, selected features g = true → ((ofFeature (rootRows rows) g).map GbRow.tup).Perm ((featRoots ts g).map (Split.tup p)) := by
        intro g hg
        have := (rows_of_feature h g).2.1
        have e : ((forestSplits ts).filter (fun s => selected features s.feat)).filter (fun s => decide (s.feat = g)) = featSplits ts g := by
          unfold featSplits
          rw [List.filter_filter]
          apply List.filter_congr
          intro s _
          by_cases hs : s.feat = g
          · simp [hs, hg]
          · simp [hs]
        rw [e] at this
        exact this
      have near : ∀ g, selected features g = true →
          CloseTo (rootGainR gsum rows g) (gainSum (featRoots ts g)) (16 * (N * u) * gainSum (featRoots ts g)) := by
        intro g hg
        have := (rootf g hg).map (fun x => x.2.2.1)
        rw [List.map_map, List.map_map] at this
        exact sumOptR_near hS (rsub g) hS.gains (hS.rangeG' hne') this
      have keys : npUnique ((rootRows rows).filterMap GbRow.feat) = npUnique (L0.map Split.feat) := by
        apply npUnique_ext
        intro x
        have h4 := h3.map (fun x => x.2.1)
        rw [List.map_map, List.map_map] at h4
        have : x ∈ (rootRows rows).filterMap GbRow.feat ↔ some x ∈ ((rootRows rows).filter (fun r => r.feat.isSome)).map ((fun x => x.2.1) ∘ GbRow.tup) := by
          rw [List.mem_filterMap, List.mem_map]
          constructor
          · rintro ⟨r, hr, e⟩
            exact ⟨r, List.mem_filter.2 ⟨hr, by simp [e]⟩, e⟩
          · rintro ⟨r, hr, e⟩
            exact ⟨r, (List.mem_filter.1 hr).1, e⟩
        rw [this, h4.mem_iff, List.mem_map, List.mem_map]
        simp [Split.tup]
      have ksel : ∀ g ∈ npUnique (L0.map Split.feat), selected features g = true ∧ featRoots ts g = L0.filter (fun s => decide (s.feat = g)) := by
        intro g hg
        rw [mem_npUnique, List.mem_map] at hg
        obtain ⟨s, hs, rfl⟩ := hg
        have hsel := (List.mem_filter.1 hs).2
        rw [Bool.and_eq_true] at hsel
        refine ⟨hsel.1, ?_⟩
        simp only [L0, featRoots, featSplits]
        rw [List.filter_filter, List.filter_filter]
        apply List.filter_congr
        intro w _
        by_cases hw : w.feat = s.feat
        · simp [hw, hsel.1]
        · simp [hw]
      have kocc : ∀ g ∈ npUnique (L0.map Split.feat), featRoots ts g ≠ [] := by
        intro g hg hn
        rw [(ksel g hg).2] at hn
        rw [mem_npUnique, List.mem_map] at hg
        obtain ⟨s, hs, rfl⟩ := hg
        have : s ∈ L0.filter (fun w => decide (w.feat = s.feat)) := List.mem_filter.2 ⟨hs, by simp⟩
        rw [hn] at this
        cases this
      have hfk : f ∈ npUnique (L0.map Split.feat) := by
        rw [mem_npUnique, List.mem_map]
        obtain ⟨s, hs⟩ := List.exists_mem_of_ne_nil _ hr
        have a := (List.mem_filter.1 hs)
        have b := (List.mem_filter.1 a.1)
        refine ⟨s, List.mem_filter.2 ⟨b.1, ?_⟩, of_decide_eq_true b.2⟩
        rw [Bool.and_eq_true]
        exact ⟨by rw [of_decide_eq_true b.2]; exact hsel, a.2⟩
      have L0ne : L0 ≠ [] := by
        intro e
        rw [e] at hfk
        rw [mem_npUnique] at hfk
        cases hfk
      have ksum : ((npUnique (L0.map Split.feat)).map (fun g => gainSum (featRoots ts g))).sum = gainSum L0 := by
        rw [gainSum_groups (L := L0)]
        congr 1
        apply List.map_congr_left
        intro g hg
        rw [(ksel g hg).2]
      have klen : (npUnique (L0.map Split.feat)).length ≤ N := by
        have : (npUnique (L0.map Split.feat)).length ≤ (L0.map Split.feat).length :=
          ((nodup_npUnique _).subperm fun x hx => mem_npUnique.1 hx).length_le
        rw [List.length_map] at this
        exact this.trans (L0sub.length_le.trans hS.many)
      have G16 := hS.rangeG' hne'
      have L0G : gainSum L0 ≤ ((forestSplits ts).map Split.gain).sum := sub_sum L0sub fun s hs => (hS.gains s hs).1
      have total := sumOfSums_near (N := N) hS.accurate hS.lawful hS.precision (l := npUnique (L0.map Split.feat)) (a := rootGainR gsum rows)
        (x := fun g => gainSum (featRoots ts g)) (by rintro e; rw [e] at hfk; cases hfk) klen
        (fun g hg => ⟨(pos' (rsub g) (kocc g hg)).1, (pos' (rsub g) (kocc g hg)).2, near g (ksel g hg).1⟩) (by rw [ksum]; linarith)
      rw [ksum, ← keys] at total
      change CloseTo (totalRootGainR A gsum rows) _ _ at total
      -- the product
      obtain ⟨T0, _⟩ := pos' L0sub L0ne
      obtain ⟨g0, gη⟩ := pos' (rsub f) hr
      have gT : gainSum (featRoots ts f) ≤ gainSum L0 := by
        rw [← ksum]
        exact List.single_le_sum (by
          intro z hz; obtain ⟨w, hw, rfl⟩ := List.mem_map.1 hz; exact (pos' (rsub w) (kocc w hw)).1.le) _ (List.mem_map.2 ⟨f, hfk, rfl⟩)
      have c1 : (1 : K) ≤ ((featRoots ts f).length : K) := by exact_mod_cast List.length_pos_of_ne_nil hr
      have cN : ((featRoots ts f).length : K) ≤ N := by exact_mod_cast (rsub f).length_le.trans hS.many
      have hG := hS.rangeG
      change 16 * ((N : K) * (((forestSplits ts).map Split.gain).sum + 1)) ≤ B at hG
      obtain ⟨y, ey, hy⟩ := near f hsel
      rw [ey]
      change CloseTo (A.div (A.r (.fin (((featRoots ts f).length : K) * y))) (totalRootGainR A gsum rows))
        (((featRoots ts f).length : K) * gainSum (featRoots ts f) / gainSum L0) _
      clear ewd hwd hg hd hc hrg h1 h2 h3 pos' pos near keys ksel kocc hfk ksum klen rootf
      generalize ((featRoots ts f).length : K) = c at *
      generalize gainSum (featRoots ts f) = g at *
      generalize totalRootGainR A gsum rows = tt at *
      generalize gainSum L0 = T at *
      generalize ((forestSplits ts).map Split.gain).sum = G at *
      have cg0 : 0 ≤ c * g := mul_nonneg (by linarith) g0.le
      have gcg : g ≤ c * g := by nlinarith
      have ycg : |c * y - c * g| ≤ 16 * (N * u) * (c * g) := by
        rw [← mul_sub, abs_mul, abs_of_nonneg (by linarith : (0 : K) ≤ c)]
        have := mul_le_mul_of_nonneg_left hy (by linarith : (0 : K) ≤ c)
        linarith
      have NG : 64 * (N * u * (c * g)) ≤ c * g := by nlinarith
      have NG0 : 0 ≤ N * u * (c * g) := mul_nonneg Nu cg0
      have size : |c * y| ≤ 2 * (c * g) := by
        obtain ⟨a, b⟩ := abs_le.1 ycg
        exact abs_le.2 ⟨by linarith, by linarith⟩
      have cgB : 16 * (c * g) ≤ B := by
        have : c * g ≤ N * (G + 1) := mul_le_mul cN (by linarith) g0.le (by linarith)
        linarith
      have num : CloseTo (A.r (.fin (c * y))) (c * g) (19 * (N * u) * (c * g)) := by
        refine ((r_close hS.accurate size (by linarith)).trans ycg).mono ?_
        have a1 : u * (c * g) ≤ N * u * (c * g) := mul_le_mul_of_nonneg_right uN cg0
        have a2 := mul_le_mul_of_nonneg_left gcg hu
        linarith
      have q0 : 0 ≤ c * g / T := div_nonneg cg0 T0.le
      have qN : c * g / T ≤ N := by
        rw [div_le_iff₀ T0]
        exact mul_le_mul cN gT g0.le (by linarith)
      have B16 : 16 * (N : K) ≤ B := by
        have : (N : K) ≤ N * (G + 1) := by nlinarith
        linarith
      refine (div_near hS.accurate num total cg0 T0 (by linarith) (by linarith) (by linarith) ?_).mono ?_
      · have : (1 + 2 * (19 * ((N : K) * u) + 22 * (N * u))) * (c * g / T) ≤ 3 * (N : K) := mul_le_mul (by linarith) qN q0 (by norm_num)
        linarith
      · generalize c * g / T = q at *
        have a1 : u * q ≤ N * u * q := mul_le_mul_of_nonneg_right uN q0
        have a0 : 0 ≤ u * q := mul_nonneg hu q0
        have a2 : u * q * (82 * (N * u)) ≤ 2 * (u * q) := by nlinarith
        have a3 : (2 * (19 * (N * u) + 22 * (N * u)) + u * (1 + 2 * (19 * (N * u) + 22 * (N * u)))) * q = 82 * (N * u * q) + u * q + u * q * (82 * (N * u)) := by ring
        have a4 : 0 ≤ N * u * q := mul_nonneg Nu q0
        rw [a3]
        linarith
  · refine ⟨_, rfl, hwd.mono ?_⟩
    have : 0 ≤ ((featSplits ts f).map (fun s => (s.depth : K) * s.gain)).sum / gainSum (featSplits ts f) := by
      refine div_nonneg (List.sum_nonneg ?_) (pos hsub hS.gains)
      intro z hz
      obtain ⟨s, hs, rfl⟩ := List.mem_map.1 hz
      exact mul_nonneg (Nat.cast_nonneg _) (hS.gains s (hsub.subset hs)).1.le
    have := mul_nonneg Nu this
    linarith

/-- The whole importance in rounded arithmetic. -/
theorem ssImportanceR_ok (hS : SplitSuits A gsum u η B N p ts) (E : SsEnv F K) (hE : ∀ k l, (E.sortFull k l).Perm l)
    (H : Framed E.leafName p ts frame an) (hnl : NoLeafName E.leafName ts) {features : Option (List F)}
    (hf : ∀ fs, features = some fs → E.leafName ∉ fs) {m : SsMetric} (hm : m ≠ .frequency ∧ m ≠ .other)
    (hused : ∃ s ∈ forestSplits ts, selected features s.feat = true) :
    ∃ full, ssImportanceR A gsum E features m frame = .ok (full, selectMetric E.sortImp m full) ∧
      (∀ r ∈ full, ImpStatNear A (96 * (N * u)) η p features ts r) ∧ (full.map ImpStat.feat).Nodup ∧
      (∀ f, f ∈ full.map ImpStat.feat ↔ selected features f = true ∧ featSplits ts f ≠ []) ∧
      ∃ l, full = E.sortFull (fun r => (r.metric m).getD .nan) l := by
  obtain ⟨frame', e1, hp⟩ := depths_ok H
  have htup := selectRows_tup H hnl hf hp
  have hkeys := mem_impKeys htup
  obtain ⟨l, hl, hprop⟩ : ∃ l, (npUnique ((selectRows E.leafName features frame').filterMap GbRow.feat)).mapM
      (impStatR A gsum (selectRows E.leafName features frame')) = .ok l ∧
      List.Forall₂ (fun f r => r.feat = f ∧ ImpStatNear A (96 * (N * u)) η p features ts r)
        (npUnique ((selectRows E.leafName features frame').filterMap GbRow.feat)) l := by
    have hall := fun f hfk => impStatR_ok hS htup ((hkeys f).1 hfk).1 ((hkeys f).1 hfk).2
    revert hall
    generalize npUnique ((selectRows E.leafName features frame').filterMap GbRow.feat) = ks
    intro hall
    induction ks with
    | nil => exact ⟨[], rfl, List.Forall₂.nil⟩
    | cons k ks ih =>
      obtain ⟨l, h1, h2⟩ := ih (fun f hfk => hall f (List.mem_cons_of_mem _ hfk))
      obtain ⟨r, h3, h4⟩ := hall k (List.mem_cons_self ..)
      refine ⟨r :: l, ?_, List.Forall₂.cons h4 h2⟩
      rw [List.mapM_cons, h3, h1]
      rfl
  have hfeat : l.map ImpStat.feat = npUnique ((selectRows E.leafName features frame').filterMap GbRow.feat) := by
    clear hl
    revert hprop
    generalize npUnique ((selectRows E.leafName features frame').filterMap GbRow.feat) = ks
    intro hprop
    induction hprop with
    | nil => rfl
    | cons h _ ih => simp [h.1, ih]
  have hok : ∀ r ∈ l, ImpStatNear A (96 * (N * u)) η p features ts r := by
    intro r hr
    clear hl hfeat
    revert hprop
    generalize npUnique ((selectRows E.leafName features frame').filterMap GbRow.feat) = ks
    intro hprop
    induction hprop with
    | nil => cases hr
    | cons h _ ih =>
      rcases List.mem_cons.1 hr with rfl | hr
      · exact h.2
      · exact ih hr
  have hne : l ≠ [] := by
    intro e
    obtain ⟨s, hs, hsel⟩ := hused
    have : s.feat ∈ npUnique ((selectRows E.leafName features frame').filterMap GbRow.feat) := by
      rw [hkeys]
      refine ⟨hsel, ?_⟩
      intro hn
      have : s ∈ featSplits ts s.feat := List.mem_filter.2 ⟨hs, by simp⟩
      rw [hn] at this; cases this
    rw [← hfeat, e] at this
    cases this
  have hperm := hE (fun r => (r.metric m).getD .nan) l
  refine ⟨E.sortFull (fun r => (r.metric m).getD .nan) l, ?_, ?_, ?_, ?_, l, rfl⟩
  · have hall : allImportanceR A gsum E.leafName E.sortFull features m frame' = .ok (E.sortFull (fun r => (r.metric m).getD .nan) l) := by
      unfold allImportanceR
      simp only [hl]
      cases l with
      | nil => exact absurd rfl hne
      | cons s ss =>
        cases m <;> first | rfl | exact absurd rfl hm.1 | exact absurd rfl hm.2
    unfold ssImportanceR
    rw [e1]
    simp only [hall]
  · intro r hr; exact hok r (hperm.mem_iff.1 hr)
  · rw [(hperm.map _).nodup_iff, hfeat]; exact nodup_npUnique _
  · intro f
    rw [(hperm.map _).mem_iff, hfeat]
    exact hkeys f

end

end Artemis
