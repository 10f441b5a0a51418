import Verif.Model.RoundedTrees
import Verif.Spec.Rounding
import Verif.Proofs.CmdForest
import Mathlib.Data.List.Perm.Basic
import Mathlib.Algebra.Order.BigOperators.Group.List
import Mathlib.Tactic.Linarith
import Mathlib.Tactic.Positivity
import Mathlib.Tactic.FieldSimp

/-!
# Lemmas about conditional minimal depth in floating-point arithmetic
-/

set_option linter.unusedSectionVars false
set_option linter.unusedVariables false
set_option linter.unusedSimpArgs false

namespace Artemis
open Spec

variable {F I K : Type} [DecidableEq F] [Field K] [LinearOrder K] [IsStrictOrderedRing K] {A : Arith K} {gsum : List (Num K) → Num K}

theorem sums_whole {N : Nat} (hW : A.Whole N) {l : List (Num K)} {s : Num K} (h : SumsTo A l s) :
    ∀ xs : List Nat, l = xs.map (fun (x : Nat) => .fin (x : K)) → xs.sum ≤ N → s = .fin (xs.sum : K) := by
  induction h with
  | nil =>
    intro xs e _
    have : xs = [] := List.map_eq_nil_iff.1 e.symm
    subst this
    simp
  | one a =>
    intro xs e _
    match xs, e with
    | [x], e => simp at e; simp [e]
  | @add l l1 l2 a b p h1 h2 n1 n2 ih1 ih2 =>
    intro xs e hN
    subst e
    have nat : ∀ l' : List (Num K), (∀ a ∈ l', ∃ k : Nat, a = .fin (k : K)) → ∃ ys : List Nat, l' = ys.map (fun (x : Nat) => .fin (x : K)) := by
      intro l' h
      induction l' with
      | nil => exact ⟨[], rfl⟩
      | cons a l' ih =>
        obtain ⟨k, rfl⟩ := h a List.mem_cons_self
        obtain ⟨ys, rfl⟩ := ih fun a ha => h a (List.mem_cons_of_mem _ ha)
        exact ⟨k :: ys, rfl⟩
    have mem : ∀ a ∈ l1 ++ l2, ∃ k : Nat, a = .fin (k : K) := by
      intro a ha
      obtain ⟨k, _, rfl⟩ := List.mem_map.1 (p.mem_iff.2 ha)
      exact ⟨k, rfl⟩
    obtain ⟨ys, rfl⟩ := nat l1 fun a ha => mem a (List.mem_append_left _ ha)
    obtain ⟨zs, rfl⟩ := nat l2 fun a ha => mem a (List.mem_append_right _ ha)
    rw [← List.map_append] at p
    have hs := ((List.map_perm_map_iff (fun a b e => by simpa using e)).1 p).sum_eq
    rw [List.sum_append] at hs
    rw [ih1 ys rfl (by omega), ih2 zs rfl (by omega)]
    have := hW.exact xs.sum hN
    rw [hs] at this ⊢
    push_cast at this ⊢
    exact this

theorem lawful_addsWhole {N : Nat} (hA : A.Lawful) (hW : A.Whole N) : AddsWhole A.sum N := fun xs h =>
  sums_whole hW (hA.sums _) xs rfl h

theorem kahan_addsWhole {N : Nat} (hW : A.Whole N) : AddsWhole (kahanSum A) N := by
  have step : ∀ (xs : List Nat) (s : Nat), s + xs.sum ≤ N →
      (xs.map fun (x : Nat) => (.fin (x : K) : Num K)).foldl (kahanStep A) (.fin (s : K), .fin 0) = (.fin ((s + xs.sum : Nat) : K), .fin 0) := by
    intro xs
    induction xs with
    | nil => intro s _; simp
    | cons x xs ih =>
      intro s h
      rw [List.sum_cons] at h
      have e1 : A.rnd ((x : K)) = .fin (x : K) := hW.exact x (by omega)
      have e2 : A.rnd ((s : K) + (x : K)) = .fin ((s + x : Nat) : K) := by
        have := hW.exact (s + x) (by omega)
        rwa [Nat.cast_add] at this ⊢
      have e3 : A.rnd (0 : K) = .fin 0 := by simpa using hW.exact 0 (Nat.zero_le _)
      have : kahanStep A (.fin (s : K), .fin 0) (.fin (x : K)) = (.fin ((s + x : Nat) : K), .fin 0) := by
        have y : A.sub (.fin (x : K)) (.fin 0) = .fin (x : K) := by
          unfold Arith.sub; rw [Num.sub_fin, sub_zero]; exact e1
        have t : A.add (.fin (s : K)) (.fin (x : K)) = .fin ((s + x : Nat) : K) := e2
        have c : A.sub (.fin ((s + x : Nat) : K)) (.fin (s : K)) = .fin (x : K) := by
          unfold Arith.sub; rw [Num.sub_fin, Nat.cast_add, add_sub_cancel_left]; exact e1
        have c' : A.sub (.fin (x : K)) (.fin (x : K)) = .fin 0 := by
          unfold Arith.sub; rw [Num.sub_fin, sub_self]; exact e3
        simp only [kahanStep, y, t, c, c']
        simp [Num.isNaN]
      rw [List.map_cons, List.foldl_cons, this, ih (s + x) (by omega), List.sum_cons, Nat.add_assoc]
  intro xs h
  have := step xs 0 (by omega)
  unfold kahanSum
  rw [Nat.cast_zero] at this
  rw [this, Nat.zero_add]

/-! ### depths -/

theorem at_lt {t s : LTree} {k : Nat} (h : At t k s) : k < t.ids.length := by
  induction h with
  | here t => cases t <;> simp [LTree.ids]
  | left _ ih => simp only [LTree.ids, List.length_cons, List.length_append]; omega
  | right _ ih => simp only [LTree.ids, List.length_cons, List.length_append]; omega

theorem at_add_lt {t s : LTree} {k : Nat} (h : At t k s) : s.ids.length ≤ t.ids.length := by
  induction h with
  | here t => exact le_rfl
  | left _ ih => simp only [LTree.ids, List.length_cons, List.length_append]; omega
  | right _ ih => simp only [LTree.ids, List.length_cons, List.length_append]; omega

theorem lastDepth_lt (t : LTree) : t.lastDepth < t.ids.length := by
  induction t with
  | leaf i => simp [LTree.ids, LTree.lastDepth]
  | node i f l r ihl ihr => simp only [LTree.ids, LTree.lastDepth, List.length_cons, List.length_append]; omega

theorem condDepth_le {t : LTree} {f g x : Nat} (h : CondDepth t f g x) : x ≤ t.ids.length := by
  obtain ⟨⟨k, s, hs, hc⟩, _⟩ := h
  have h1 := at_add_lt hs.1
  rcases hc with ⟨_, ⟨w, hw, _⟩, _⟩ | ⟨_, rfl⟩
  · have := at_lt hw; omega
  · have := lastDepth_lt s; omega

theorem minDepth_le {t : LTree} {f k : Nat} (h : MinDepth t f k) : k ≤ t.ids.length := by
  obtain ⟨s, hs⟩ := h
  exact (at_lt hs.1).le

theorem forest_small {F : Type} {m : Forest F} {ts : List LTree} (h : ForestOf m ts) {D : Nat} (hD : ∀ A ∈ m.trees, A.length ≤ D) :
    ∀ t ∈ ts, t.ids.length ≤ D := by
  have key : ∀ {l : List SkTree} {ts : List LTree}, List.Forall₂ (fun A t => TreeArray A t ∧ DepthFirst t) l ts →
      (∀ A ∈ l, A.length ≤ D) → ∀ t ∈ ts, t.ids.length ≤ D := by
    intro l ts h
    induction h with
    | nil => intro _ t ht; cases ht
    | @cons A t l ts h _ ih =>
      intro hD t' ht'
      rcases List.mem_cons.1 ht' with rfl | ht'
      · have := h.1.ids.length_eq
        rw [List.length_range] at this
        rw [this]
        exact hD _ List.mem_cons_self
      · exact ih (fun A hA => hD A (List.mem_cons_of_mem _ hA)) t' ht'
  exact key h.trees hD

/-- numbers that belong to trees: no more than there are trees, none larger than the trees -/
theorem forall₂_bounds {P : LTree → Nat → Prop} {ts us : List LTree} {xs : List Nat} {D : Nat} (h : List.Forall₂ P us xs)
    (hs : us.Sublist ts) (hP : ∀ t x, P t x → x ≤ t.ids.length) (hD : ∀ t ∈ ts, t.ids.length ≤ D) :
    xs.length ≤ ts.length ∧ ∀ x ∈ xs, x ≤ D := by
  refine ⟨by rw [← h.length_eq]; exact hs.length_le, fun x hx => ?_⟩
  obtain ⟨i, hi, rfl⟩ := List.getElem_of_mem hx
  rw [List.forall₂_iff_get] at h
  have hi' : i < us.length := by rw [h.1]; exact hi
  exact (hP _ _ (h.2 i hi' hi)).trans (hD _ (hs.subset (List.get_mem us ⟨i, hi'⟩)))

theorem sum_le_mul {xs : List Nat} {D T : Nat} (hl : xs.length ≤ T) (h : ∀ x ∈ xs, x ≤ D) : xs.sum ≤ T * D := by
  have : xs.sum ≤ xs.length * D := by
    have := List.sum_le_card_nsmul xs D h
    simpa using this
  exact this.trans (Nat.mul_le_mul_right _ hl)

theorem castSum (xs : List Nat) : ((xs.sum : Nat) : K) = (xs.map (fun (x : Nat) => (x : K))).sum := by
  induction xs with
  | nil => simp
  | cons x xs ih => simp only [List.sum_cons, List.map_cons, Nat.cast_add, ih]

/-! ### rounded rows -/

/-- the row with its value rounded -/
def CmdRow.round {ι : Type} (A : Arith K) (r : CmdRow ι K) : CmdRow ι K := { r with val := A.r r.val }
/-- the row with its value rounded -/
def ImpRow.round (A : Arith K) (r : ImpRow F K) : ImpRow F K := { r with val := A.r r.val }

theorem exists_presort {α : Type} (R : α → α) {sort : List α → List α} (h : ∀ l, (sort l).Perm l) :
    ∃ sort' : List α → List α, ∀ l : List α, (sort' l).Perm l ∧ sort (l.map R) = (sort' l).map R := by
  have key : ∀ l : List α, ∃ l' : List α, l'.Perm l ∧ sort (l.map R) = l'.map R := by
    intro l
    obtain ⟨w, h1, h2⟩ := List.perm_comp_forall₂ (r := fun a b => a = R b) (h (l.map R))
      (List.forall₂_map_left_iff.2 (List.forall₂_same.2 fun _ _ => rfl))
    refine ⟨w, h2, ?_⟩
    clear h2
    generalize sort (l.map R) = v at h1
    induction h1 with
    | nil => rfl
    | cons e _ ih => rw [List.map_cons, e, ih]
  choose sort' h1 using key
  exact ⟨sort', h1⟩

theorem mapM_map_map {α β γ δ : Type} {f : β → Except Err γ} {f' : α → Except Err δ} {g : α → β} {k : δ → γ} {l : List α}
    (h : ∀ a ∈ l, f (g a) = (f' a).map k) : (l.map g).mapM f = (l.mapM f').map (List.map k) := by
  induction l with
  | nil => rfl
  | cons a l ih =>
    rw [List.map_cons, List.mapM_cons, List.mapM_cons, h a List.mem_cons_self, ih fun a ha => h a (List.mem_cons_of_mem _ ha)]
    cases f' a with
    | error e => rfl
    | ok b => cases l.mapM f' <;> rfl

theorem nameRow_round (columns : List F) (r : CmdRow Nat K) :
    nameRow columns (r.round A) = (nameRow columns r).map (CmdRow.round A) := by
  unfold nameRow
  simp only [CmdRow.round]
  cases columns[r.root]? <;> cases columns[r.var]? <;> rfl

theorem mean_round {N : Nat} {sum : List (Num K) → Num K} (hs : AddsWhole sum N) {xs : List Nat} (hne : xs ≠ []) (hN : xs.sum ≤ N) :
    A.div (sum (xs.map fun (x : Nat) => .fin (x : K))) (Num.ofNat xs.length) =
      A.r (.fin ((xs.map (fun (x : Nat) => (x : K))).sum / (xs.length : K))) := by
  have hn : (xs.length : K) ≠ 0 := by exact_mod_cast (List.length_pos_of_ne_nil hne).ne'
  rw [hs xs hN]
  unfold Arith.div
  rw [show Num.div (.fin (xs.sum : K)) (Num.ofNat xs.length) = (.fin ((xs.sum : K) / xs.length) : Num K) from if_neg hn, castSum]

theorem meanSomeR_round {N : Nat} (hs : AddsWhole gsum N) {l : List (Option Int)} {xs : List Nat}
    (e : l.filterMap id = xs.map (fun (x : Nat) => (x : Int))) (hN : xs.sum ≤ N) : meanSomeR A gsum l = A.r (meanSome l) := by
  unfold meanSomeR meanSome
  simp only [e]
  by_cases hx : xs = []
  · subst hx; rfl
  · have h0 : (xs.map (fun (x : Nat) => (x : Int))).isEmpty = false := by
      cases xs with
      | nil => exact absurd rfl hx
      | cons _ _ => rfl
    simp only [h0, List.map_map, Function.comp_def, Int.cast_natCast, List.length_map]
    exact mean_round hs hx hN

theorem summariseR_eq {sort sort' : List (CmdRow Nat K) → List (CmdRow Nat K)} {columns : List F} {raw : List RawRow}
    (hv : ∀ r ∈ raw, meanSomeR A gsum ((raw.filter fun r' => decide ((r'.f1, r'.f2) = (r.f1, r.f2))).map RawRow.value) =
      A.r (meanSome ((raw.filter fun r' => decide ((r'.f1, r'.f2) = (r.f1, r.f2))).map RawRow.value)))
    (hs : ∀ l, sort (l.map (CmdRow.round A)) = (sort' l).map (CmdRow.round A)) :
    summariseR A gsum sort columns raw = (summarise sort' columns raw).map (List.map (CmdRow.round A)) := by
  unfold summariseR summarise
  by_cases h0 : raw.isEmpty
  · rw [if_pos h0, if_pos h0]; rfl
  rw [if_neg h0, if_neg h0]
  have e : (npUnique (raw.map (fun r => toLex (r.f1, r.f2)))).map (fun q => cmdAggR A gsum raw (ofLex q)) =
      ((npUnique (raw.map (fun r => toLex (r.f1, r.f2)))).map (fun q => cmdAgg raw (ofLex q))).map (CmdRow.round A) := by
    rw [List.map_map]
    apply List.map_congr_left
    intro q hq
    rw [mem_npUnique] at hq
    obtain ⟨r, hr, rfl⟩ := List.mem_map.1 hq
    have := hv r hr
    simp only [cmdAggR, cmdAgg, CmdRow.round, Function.comp, ofLex_toLex]
    congr 1
  rw [e, hs, mapM_map_map (k := CmdRow.round A) (f' := nameRow columns) fun a _ => nameRow_round columns a]
  generalize (sort' _).mapM (nameRow columns) = x
  cases x with
  | error e => rfl
  | ok rows =>
    simp only [Except.map]
    rw [List.filter_map]
    rfl

theorem minimalDepthR_eq {sort sort' : List (ImpRow F K) → List (ImpRow F K)} {columns : List F} {dss : List DepthSplit}
    {d : Dict Int (List Nat)} (hd : featureToDepth dss = .ok d)
    (hv : ∀ e ∈ d, A.mean (e.2.map fun (k : Nat) => .fin (k : K)) = A.r (.fin ((e.2.map (fun (k : Nat) => (k : K))).sum / e.2.length)))
    (hs : ∀ l, sort (l.map (ImpRow.round A)) = (sort' l).map (ImpRow.round A)) :
    minimalDepthImportanceR A sort columns (some dss) = (minimalDepthImportance sort' columns (some dss)).map (List.map (ImpRow.round A)) := by
  unfold minimalDepthImportanceR minimalDepthImportance
  simp only [hd]
  have := mapM_map_map (f := fun e => (colOf columns e.1).map (fun c =>
      (⟨c, A.mean (e.2.map fun (k : Nat) => .fin (k : K))⟩ : ImpRow F K))) (f' := fun e => (colOf columns e.1).map (fun c =>
      (⟨c, .fin ((e.2.map (fun (k : Nat) => (k : K))).sum / e.2.length)⟩ : ImpRow F K))) (g := fun e => e) (k := ImpRow.round A) (l := d)
    (fun e he => by
      beta_reduce
      rw [hv e he]
      cases colOf columns e.1 <;> rfl)
  rw [List.map_id'] at this
  rw [this]
  generalize List.mapM (m := Except Err) _ d = x
  match x with
  | .error e => rfl
  | .ok [] => rfl
  | .ok (r :: rs) =>
    simp only [Except.map, List.map_cons]
    rw [← List.map_cons, hs]

/-! ### means are separated -/

theorem mean_separated {xs ys : List Nat} {T : Nat} (hx : xs ≠ []) (hy : ys ≠ []) (hlx : xs.length ≤ T) (hly : ys.length ≤ T)
    (h : (xs.map (fun (x : Nat) => (x : K))).sum / (xs.length : K) < (ys.map (fun (x : Nat) => (x : K))).sum / (ys.length : K)) :
    1 ≤ (T : K) ^ 2 * ((ys.map (fun (x : Nat) => (x : K))).sum / (ys.length : K) - (xs.map (fun (x : Nat) => (x : K))).sum / (xs.length : K)) := by
  rw [← castSum xs, ← castSum ys] at h ⊢
  have px := List.length_pos_of_ne_nil hx
  have py := List.length_pos_of_ne_nil hy
  generalize xs.sum = p at *
  generalize ys.sum = p' at *
  generalize xs.length = q at *
  generalize ys.length = q' at *
  have hq : (0 : K) < q := by exact_mod_cast px
  have hq' : (0 : K) < q' := by exact_mod_cast py
  rw [div_lt_div_iff₀ hq hq'] at h
  have h1 : p * q' + 1 ≤ p' * q := by exact_mod_cast h
  have h2 : (p : K) * q' + 1 ≤ p' * q := by exact_mod_cast h1
  have e : (p' : K) / q' - p / q = (p' * q - p * q') / (q' * q) := by
    field_simp
  have hT : (q' : K) * q ≤ (T : K) ^ 2 := by
    have : q' * q ≤ T ^ 2 := by rw [sq]; exact Nat.mul_le_mul hly hlx
    exact_mod_cast this
  rw [e]
  have hpos : (0 : K) < q' * q := mul_pos hq' hq
  have h3 : 1 / ((q' : K) * q) ≤ (p' * q - p * q') / (q' * q) := by
    apply div_le_div_of_nonneg_right _ hpos.le
    linarith
  calc (1 : K) = (q' * q) * (1 / (q' * q)) := by rw [mul_one_div, div_self hpos.ne']
    _ ≤ (T : K) ^ 2 * (1 / (q' * q)) := mul_le_mul_of_nonneg_right hT (one_div_nonneg.2 hpos.le)
    _ ≤ _ := mul_le_mul_of_nonneg_left h3 (sq_nonneg _)

theorem mean_bound {xs : List Nat} {D : Nat} (hx : xs ≠ []) (h : ∀ x ∈ xs, x ≤ D) :
    |(xs.map (fun (x : Nat) => (x : K))).sum / (xs.length : K)| ≤ D := by
  have px := List.length_pos_of_ne_nil hx
  have hq : (0 : K) < xs.length := by exact_mod_cast px
  rw [← castSum, abs_of_nonneg (div_nonneg (Nat.cast_nonneg _) hq.le), div_le_iff₀ hq, mul_comm]
  exact_mod_cast sum_le_mul le_rfl h

/-- different means stay different, and in order, when they are rounded -/
theorem rounded_order {u η B : K} {T D : Nat} (hA : A.Accurate u η B) (hB : (D : K) ≤ B) (hsep : 2 * (T : K) ^ 2 * (u * D + η) < 1)
    {xs ys : List Nat} (hlx : xs.length ≤ T) (hly : ys.length ≤ T) (hDx : ∀ x ∈ xs, x ≤ D) (hDy : ∀ y ∈ ys, y ≤ D)
    (h : Num.keyLE true (A.r (meanNat xs)) (A.r (meanNat ys)) = true) : Num.keyLE true (meanNat xs : Num K) (meanNat ys) = true := by
  unfold meanNat at *
  by_cases hy : ys = []
  · subst hy
    by_cases hx : xs = []
    · subst hx; rfl
    · rw [if_neg hx, if_pos rfl]; rfl
  by_cases hx : xs = []
  · subst hx
    rw [if_pos rfl, if_neg hy] at h
    obtain ⟨b, e, _⟩ := hA.rnd_near ((ys.map (fun (x : Nat) => (x : K))).sum / (ys.length : K)) ((mean_bound hy hDy).trans hB)
    simp only [Arith.r, e] at h
    simp [Num.keyLE, Num.isNaN] at h
  rw [if_neg hx, if_neg hy] at *
  have bx := mean_bound (K := K) hx hDx
  have bY := mean_bound (K := K) hy hDy
  have sepn := mean_separated (K := K) hy hx hly hlx
  generalize (xs.map (fun (x : Nat) => (x : K))).sum / (xs.length : K) = v at *
  generalize (ys.map (fun (x : Nat) => (x : K))).sum / (ys.length : K) = w at *
  obtain ⟨a, ea, ha⟩ := hA.rnd_near v (bx.trans hB)
  obtain ⟨b, eb, hb⟩ := hA.rnd_near w (bY.trans hB)
  simp only [Arith.r, ea, eb] at h
  have hab : a ≤ b := by simpa [Num.keyLE, Num.isNaN, Num.le] using h
  have hvw : v ≤ w := by
    by_contra hn
    have h1 := sepn (not_le.1 hn)
    have a1 : |a - v| ≤ u * D + η := ha.trans (by linarith [mul_le_mul_of_nonneg_left bx hA.u_nonneg])
    have b1 : |b - w| ≤ u * D + η := hb.trans (by linarith [mul_le_mul_of_nonneg_left bY hA.u_nonneg])
    have h2 : v - w ≤ 2 * (u * D + η) := by
      have := (abs_le.1 a1).1
      have := (abs_le.1 b1).2
      linarith
    have h3 := mul_le_mul_of_nonneg_left h2 (sq_nonneg (T : K))
    linarith
  simpa [Num.keyLE, Num.isNaN, Num.le] using hvw

end Artemis
