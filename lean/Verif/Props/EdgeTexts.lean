import Verif.Model.EdgeTexts
import Verif.Proofs.Binary64
import Verif.Proofs.Round64Order
import Verif.Props.OneEdge

/-!
# C168: the texts on the edges of the interaction graph
-/

set_option linter.unusedSectionVars false
set_option linter.unusedVariables false
set_option linter.unusedSimpArgs false

namespace Artemis
open Spec

namespace Spec
/-- `y` is `x` written with two digits after the point: a multiple of 1/100, off by at most half of that -/
def TwoDigits {K : Type} [Field K] [LinearOrder K] (x y : K) : Prop := (∃ z : ℤ, y * 100 = z) ∧ |y - x| ≤ 1 / 200
end Spec

section EdgeTexts
variable {F I K : Type} [LinearOrder F] [Field K] [LinearOrder K] [IsStrictOrderedRing K] [FloorRing K]

theorem edgeTexts_aux (l : List (OvoRow F K)) : ∀ d : Dict (F × F) (Num K),
    (l.map (fun r => (r.f1, r.f2))).Nodup → (∀ r ∈ l, (r.f1, r.f2) ∉ Dict.keys d) →
    l.foldl (fun d r => Dict.set d (r.f1, r.f2) (round2 r.val)) d = d ++ l.map (fun r => ((r.f1, r.f2), round2 r.val)) := by
  induction l with
  | nil => intro d _ _; simp
  | cons r l ih =>
    intro d hn hk
    have hr := hk r List.mem_cons_self
    rw [List.foldl_cons, dict_set_fresh d _ _ hr]
    rw [List.map_cons, List.nodup_cons] at hn
    rw [ih _ hn.2]
    · simp
    · intro q hq hin
      simp only [Dict.keys, List.map_append, List.map_cons, List.map_nil, List.mem_append, List.mem_singleton] at hin
      rcases hin with hin | hin
      · exact hk q (List.mem_cons_of_mem _ hq) hin
      · exact hn.1 (hin ▸ List.mem_map_of_mem (f := fun r : OvoRow F K => (r.f1, r.f2)) hq)

theorem edgeTexts_eq {l : List (OvoRow F K)} (hn : (l.map (fun r => (r.f1, r.f2))).Nodup) :
    edgeTexts l = l.map (fun r => ((r.f1, r.f2), round2 r.val)) := by
  unfold edgeTexts
  rw [edgeTexts_aux l [] hn (by simp [Dict.keys])]
  rfl

theorem round2_spec (x : K) : ∃ w, round2 (.fin x) = .fin w ∧ TwoDigits x w ∧ (1 / 200 < x → 0 < w) := by
  have hnear := roundEven_near (x * 100)
  have near : |(roundEven (x * 100) : K) / 100 - x| ≤ 1 / 200 := by
    have e : (roundEven (x * 100) : K) / 100 - x = ((roundEven (x * 100) : K) - x * 100) / 100 := by field_simp
    rw [e, abs_div, abs_of_pos (by norm_num : (0 : K) < 100), div_le_iff₀ (by norm_num)]
    exact hnear.trans (by norm_num)
  refine ⟨_, rfl, ⟨⟨roundEven (x * 100), by field_simp⟩, near⟩, ?_⟩
  intro h
  rw [abs_le] at near
  linarith [near.1]

theorem round2_mono {x y w z : K} (h : x ≤ y) (hx : round2 (.fin x) = .fin w) (hy : round2 (.fin y) = .fin z) : w ≤ z := by
  cases hx
  cases hy
  have : roundEven (x * 100) ≤ roundEven (y * 100) := roundEven_mono (by linarith)
  have h' : (roundEven (x * 100) : K) ≤ roundEven (y * 100) := by exact_mod_cast this
  exact div_le_div_of_nonneg_right h' (by norm_num)

/-- **C168** The texts of a drawn interaction graph of a method that is not directed, if the table does not list two features twice in the same
order: there is one text per labelled row (see C56 for which rows these are); it stands at an edge of the graph; it is the value of the row to
two digits, and not 0 if the threshold is more than 0.005; a stronger pair does not get a smaller number. -/
theorem C168_texts_partial {v : View F I K} (hdir : v.directed = false) {E : VisEnv F K} (hE : SortsBy OvoRow.val false E.sortDesc) {title : String}
    {o : Opts K} {sub : SubOpts K} {ps : List (Panel F I K)} (h : v.plot E "graph" title o sub = .ok ps) {ovo : List (OvoRow F K)}
    (ho : v.ovo = some ovo) (hd : DistinctEdges true ovo) {u : OvoRow F K → K} (hu : ∀ r ∈ ovo, r.val = .fin (u r)) {cfg : VisConfig K}
    (hc : configGet v.name = .ok cfg) {t : K} {n : Nat} (ht : t = o.threshold.getD cfg.graph.threshold)
    (hn : (n : Int) = o.nHighest.getD cfg.graph.nHighest) :
    ∃ ti edges nodes labels, ∃ w : OvoRow F K → K, ps = [.graph ti false edges nodes labels] ∧
      Dict.keys (edgeTexts labels) = labels.map (fun r => (r.f1, r.f2)) ∧ (Dict.keys (edgeTexts labels)).Nodup ∧
      (∀ r ∈ labels, r ∈ ovo ∧ ((r.f1, r.f2) ∈ Dict.keys edges ∨ (r.f2, r.f1) ∈ Dict.keys edges) ∧
        Dict.get? (edgeTexts labels) (r.f1, r.f2) = some (.fin (w r)) ∧ TwoDigits (u r) (w r) ∧ (1 / 200 < t → 0 < w r)) ∧
      (∀ r ∈ labels, ∀ q ∈ labels, u r ≤ u q → w r ≤ w q) ∧
      (OncePerPair ovo → ∀ a b, (a, b) ∈ Dict.keys (edgeTexts labels) → (b, a) ∈ Dict.keys (edgeTexts labels) → a = b) := by
  obtain ⟨ti, edges, nodes, labels, rest, e, _, hasc, hdesc⟩ := C56_labels hE h ho hc ht hn
  obtain ⟨ti', edges', nodes', labels', m, M, e', _, _, _, _, _, hedge⟩ := C163_one_edge hdir h ho hc ht rfl
  rw [e', hdir] at e
  cases e
  -- the labelled rows are rows of the table, significant, and no two are about the same ordered pair
  have hsub : ∃ rest, (labels ++ rest).Perm (ovo.filter (Significant t)) ∨ labels = [] := by
    cases ha : v.asc with
    | true => exact ⟨[], Or.inr (hasc ha)⟩
    | false => exact ⟨rest, Or.inl (hdesc ha).1⟩
  have hmem : ∀ r ∈ labels, r ∈ ovo ∧ Significant t r = true := by
    intro r hr
    obtain ⟨rest, hp | hp⟩ := hsub
    · exact List.mem_filter.1 (hp.mem_iff.1 (List.mem_append_left _ hr))
    · rw [hp] at hr; cases hr
  have hpw : ∀ (P : OvoRow F K → OvoRow F K → Prop), (∀ a b, P a b → P b a) → ovo.Pairwise P → labels.Pairwise P := by
    intro P hs hp
    obtain ⟨rest, hq | hq⟩ := hsub
    · have h1 := hp.sublist (List.filter_sublist (p := Significant t))
      have h2 := (hq.pairwise_iff (fun {a b} => hs a b)).2 h1
      exact (List.pairwise_append.1 h2).1
    · rw [hq]; exact List.Pairwise.nil
  have hnod : (labels.map (fun r => (r.f1, r.f2))).Nodup := by
    unfold List.Nodup
    rw [List.pairwise_map]
    refine hpw _ (fun a b hab => hab.symm) (hd.imp fun {a b} hab => ?_)
    intro e
    exact hab.1 ⟨(Prod.mk.inj e).1, (Prod.mk.inj e).2⟩
  have hkeys : Dict.keys (edgeTexts labels) = labels.map (fun r => (r.f1, r.f2)) := by
    rw [edgeTexts_eq hnod]
    simp [Dict.keys, Function.comp]
  choose w hw1 hw2 hw3 using fun r : OvoRow F K => round2_spec (u r)
  refine ⟨_, edges, _, labels, w, e', hkeys, hkeys ▸ hnod, ?_, ?_, ?_⟩
  · intro r hr
    obtain ⟨hr1, hr2⟩ := hmem r hr
    refine ⟨hr1, ?_, ?_, hw2 r, ?_⟩
    · obtain ⟨k, hk, pre, q, post, _, _, _, hg⟩ := hedge r hr1
      have hk' : k ∈ Dict.keys edges := (Dict.get?_isSome_iff _ _).1 (by rw [hg]; rfl)
      rcases hk with rfl | rfl
      · exact Or.inl hk'
      · exact Or.inr hk'
    · rw [← hw1 r, ← hu r hr1, edgeTexts_eq hnod]
      exact Dict.get?_of_mem (by unfold Dict.keys; rw [List.map_map]; exact hnod) (List.mem_map.2 ⟨r, hr, rfl⟩)
    · intro ht'
      refine hw3 r (ht'.trans_le ?_)
      unfold Significant at hr2
      rw [hu r hr1, lt_fin] at hr2
      simp only [Bool.and_eq_true, Bool.not_eq_true', decide_eq_false_iff_not, not_lt] at hr2
      exact hr2.1
  · intro r hr q hq hle
    exact round2_mono hle (hw1 r) (hw1 q)
  · intro hone a b h1 h2
    rw [hkeys] at h1 h2
    obtain ⟨r, hr, e1⟩ := List.mem_map.1 h1
    obtain ⟨q, hq, e2⟩ := List.mem_map.1 h2
    cases e1
    by_contra hne
    have hp := hpw _ (fun a b hab hba => hab (by
      rcases hba with ⟨x, y⟩ | ⟨x, y⟩
      · exact Or.inl ⟨x.symm, y.symm⟩
      · exact Or.inr ⟨y.symm, x.symm⟩)) hone
    have hrq : r ≠ q := by
      rintro rfl
      exact hne (Prod.mk.inj e2).1
    have key : ∀ {l : List (OvoRow F K)}, l.Pairwise (fun r q => ¬ SamePair r q) → ∀ r ∈ l, ∀ q ∈ l, r ≠ q → ¬ SamePair r q := by
      intro l hl
      induction hl with
      | nil => intro r hr; cases hr
      | cons hx _ ih =>
        intro r hr q hq hne
        rcases List.mem_cons.1 hr with rfl | hr' <;> rcases List.mem_cons.1 hq with rfl | hq'
        · exact absurd rfl hne
        · exact hx q hq'
        · intro hba
          refine hx r hr' ?_
          rcases hba with ⟨x, y⟩ | ⟨x, y⟩
          · exact Or.inl ⟨x.symm, y.symm⟩
          · exact Or.inr ⟨y.symm, x.symm⟩
        · exact ih r hr' q hq' hne
    have := key hp r hr q hq hrq
    exact this (Or.inr ⟨(Prod.mk.inj e2).2.symm, (Prod.mk.inj e2).1.symm⟩)

end EdgeTexts

section Cases

/-- the texts of a graph -/
def textsOf {F I : Type} [LinearOrder F] (r : Except Err (List (Panel F I ℚ))) : Option (Dict (F × F) (Num ℚ) × Dict (F × F) (Num ℚ)) :=
  match r with
  | .ok [.graph _ _ edges _ labels] => some (edges, edgeTexts labels)
  | _ => none

/-- 0.876 is shown as 0.88, 0.345 as 0.34 (ties to even), 0.02 is below the threshold -/
example : textsOf ((exShow greenwellName [⟨0, 1, .fin (876 / 1000)⟩, ⟨0, 2, .fin (345 / 1000)⟩, ⟨1, 2, .fin (2 / 100)⟩] none false false).plot exVis
    "graph" "default" {} []) = some ([((0, 1), .fin 20), ((0, 2), .fin (575 / 73)), ((1, 2), .fin 0)],
      [((0, 1), .fin (88 / 100)), ((0, 2), .fin (34 / 100))]) := by decide +kernel

/-- the hypotheses of `C168_texts_partial` hold here -/
example : ∃ ti edges nodes labels, ∃ w : OvoRow (Fin 4) ℚ → ℚ,
    (exShow greenwellName [⟨0, 1, .fin (876 / 1000)⟩, ⟨0, 2, .fin (345 / 1000)⟩, ⟨1, 2, .fin (2 / 100)⟩] none false false).plot exVis
      "graph" "default" {} [] = .ok [.graph ti false edges nodes labels] ∧ ∀ r ∈ labels, 0 < w r ∧
        Dict.get? (edgeTexts labels) (r.f1, r.f2) = some (.fin (w r)) := by
  cases hp : (exShow greenwellName [⟨0, 1, .fin (876 / 1000)⟩, ⟨0, 2, .fin (345 / 1000)⟩, ⟨1, 2, .fin (2 / 100)⟩] none false false).plot exVis
      "graph" "default" {} [] with
  | error e =>
    have : (textsOf ((exShow greenwellName [⟨0, 1, .fin (876 / 1000)⟩, ⟨0, 2, .fin (345 / 1000)⟩, ⟨1, 2, .fin (2 / 100)⟩] none false false).plot
      exVis "graph" "default" {} [])).isSome = true := by decide +kernel
    rw [hp] at this
    cases this
  | ok ps =>
    obtain ⟨ti, edges, nodes, labels, w, rfl, _, _, h1, _⟩ := C168_texts_partial
      (v := exShow greenwellName [⟨0, 1, .fin (876 / 1000)⟩, ⟨0, 2, .fin (345 / 1000)⟩, ⟨1, 2, .fin (2 / 100)⟩] none false false) rfl
      exVis_lawful.2 hp rfl (by unfold DistinctEdges; decide +kernel) (u := fun r => Num.toK r.val) (by decide +kernel)
      (cfg := ⟨["summary", "graph", "bar_chart", "heatmap"], .default⟩) rfl (t := 5 / 100) (n := 5) (by decide +kernel) rfl
    exact ⟨ti, edges, nodes, labels, w, rfl, fun r hr => ⟨(h1 r hr).2.2.2.2 (by norm_num), (h1 r hr).2.2.1⟩⟩

/-- **C168**, one text per edge: not so for split score, whose table has a row per direction. Here the edge between 0 and 1 gets two texts,
10 and 2, at the same place (its middle). -/
theorem C168_one_text_per_edge_fails : textsOf ((exTwoWayFit.view exPairSort).plot exVisNat "graph" "default" {} []) =
    some ([((0, 1), .fin 0), ((0, 2), .fin (15 / 2))], [((0, 1), .fin 10), ((0, 2), .fin 5), ((1, 0), .fin 2)]) := by decide +kernel

end Cases

end Artemis
