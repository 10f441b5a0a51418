import Verif.Props.Undefined
import Verif.Props.Zenplot
import Verif.Props.Summary
import Verif.Props.PdpVis

/-!
# Further cases of C74, C99 and C116

Found by changing the model: cases that the theorems in the other files left open.
-/

set_option linter.unusedSectionVars false
set_option linter.unusedVariables false
set_option linter.unusedSimpArgs false

namespace Artemis
open Spec

/-! ## C99 -/

section Pdp
variable {M X Fs V Z : Type}

/-- **C99** Whatever the signature of the drawing function: a plot that raises leaves one new figure, without title and with nothing drawn
on it; all figures opened before are as they were. -/
theorem C99_failed_plot_leaves_empty_figure {sig : Signature} {draw : DisplayCall M X Fs V → Except Err Unit} {model : M} {data : X}
    {features : Fs} {gridResolution : Int} {title : String} {figsize : Z} {kwargs : List (String × V)} {figs figs' : List (Fig M X Fs V Z)}
    {e : Err} (h : pdpPlot sig draw model data features gridResolution title figsize kwargs figs = (.error e, figs')) :
    ∃ fig, figs' = figs ++ [fig] ∧ fig.size = figsize ∧ fig.title = none ∧ fig.drawn = [] := by
  unfold pdpPlot at h
  simp only at h
  split at h
  · split at h
    · cases h; exact ⟨_, rfl, rfl, rfl, rfl⟩
    · cases h
  · cases h; exact ⟨_, rfl, rfl, rfl, rfl⟩

/-- the hypothesis is met: a signature that takes everything, and a drawing function that raises -/
example : ∃ figs', pdpPlot (M := Nat) (X := Nat) (Fs := Nat) (V := Nat) (Z := Nat) ⟨[], [], true⟩ (fun _ => .error .valueError) 0 0 0 5 "t" 7 []
    [⟨3, none, []⟩] = (.error .valueError, figs') ∧ figs'.length = 2 := ⟨_, rfl, rfl⟩

end Pdp

/-! ## C74 -/

section Summary
variable {F I V K G L : Type} [LinearOrder F] [LinearOrder V] [Field K] [LinearOrder K] [IsStrictOrderedRing K]

/-- **C74** The summary of a Greenwell object has three panels, whatever happened to the object before; that of an H-statistic object has a
fourth panel, with its one-versus-all table, as soon as this table exists. -/
theorem C74_summary_panels {sort : PairSort F K} {kind : PdKind} {s : PdpMethod G L F V K} {E : VisEnv F K} {title : String} {o : Opts K}
    {sub : SubOpts K} {ps : List (Panel F I K)} (h : (PdpMethod.view sort kind s).plot E "summary" title o sub = .ok ps) :
    (kind = .greenwell → ∃ ph pg ti rows c, ps = [ph, pg, .bars ti rows, .caption c]) ∧
    (∀ n, kind = .friedman n → ∃ t ph pg ti rows ti' c, s.ova = some t ∧
      ps = [ph, pg, .bars ti rows, .barsOva ti' (pyHead ((SubOpts.pop sub "bar_chart_ova").topK.getD 10) t), .caption c]) := by
  obtain ⟨ovo, ia, cfg, ph, pg, ho, hi, hc, hph, hpg, rfl⟩ := summary_inv h
  refine ⟨?_, ?_⟩
  · rintro rfl
    exact ⟨ph, pg, _, _, _, rfl⟩
  · rintro n rfl
    cases hova : s.ova with
    | none =>
      unfold View.plot at h
      rw [if_pos (by simp [PdpMethod.view, hova])] at h
      cases h
    | some t => exact ⟨t, ph, pg, _, _, _, _, rfl, by simp only [PdpMethod.view, hova]; rfl⟩

end Summary

/-! ## C116 -/

section Zen
variable {G L F V K : Type} [DecidableEq L] [LinearOrder F] [LinearOrder V] [Field K] [LinearOrder K] [IsStrictOrderedRing K] [HasSqrt K]
variable {g : Row F V → Num K} {E : PdEnv G F K} {a : PdArgs L F V K} {s0 s : PdpMethod G L F V K} {Xs : LFrame L F V}

/-- **C116** After a fit that returned although there were no rows, a zenplot raises a ValueError: there is no limit of the colour scale. -/
theorem C116_zenplot_raises {kind : PdKind} (hs : FitSetup g E a s0 Xs) (hX : Xs.frame.rows = [])
    (hsort : SortsBy OvoRow.val false E.sortOvo) (hfs : a.feats.Nodup) (h2 : 2 ≤ a.feats.length)
    (h : PdpMethod.fit kind E a s0 = (.ok (), s)) {len : Int} (hl : 0 ≤ len) (zk : String) :
    s.zenplot len zk = .error .valueError := by
  obtain ⟨c, tbl, hr⟩ := zen_ready hs hsort hfs h
  have hc0 : c.X.rows = [] := by
    have := hr.same.rows
    rw [hX] at this
    cases hrw : c.X.rows with
    | nil => rfl
    | cons r l => rw [hrw] at this; cases this
  have hlen := hr.len
  cases htbl : tbl with
  | nil =>
    rw [htbl] at hlen
    have : 2 ≤ a.feats.length * (a.feats.length - 1) := by
      obtain ⟨m, hm⟩ := Nat.exists_eq_add_of_le h2
      rw [hm]
      show 2 ≤ (2 + m) * (2 + m - 1)
      rw [show 2 + m - 1 = 1 + m by omega]
      nlinarith
    simp only [List.length_nil] at hlen
    omega
  | cons r rest =>
    rw [htbl] at hr
    obtain ⟨m1, m2, m3⟩ := hr.rows r List.mem_cons_self
    have hstep : ∀ mm, pdDictStep c mm r = .error .valueError := by
      intro mm
      have hv : pairVals c (r.f1, r.f2) = [] := by
        rw [List.eq_nil_iff_forall_not_mem]
        intro v hv
        obtain ⟨x, y, hxy⟩ := (pairVals_mem hr.pub hr.nodup).1 hv
        have := (getPairs_cols hr.pub hr.nodup hxy).1
        simp [Frame.col, hc0] at this
      have hkey := (pairsValues_ok hr.pub hr.nodup).2 ⟨hr.cols _ m1, hr.cols _ m2, m3⟩
      obtain ⟨t, ht⟩ := hkey
      unfold getPdPairsValues at ht
      unfold pdDictStep
      cases e : c.pdPairs.get? (c.pairKey (r.f1, r.f2)) with
      | none => rw [e] at ht; cases ht
      | some t' =>
        unfold pairVals at hv
        rw [e] at hv
        simp only at hv ⊢
        rw [hv]
        rfl
    have htop : ∃ rest', pyHead (len + 1) (r :: rest) = r :: rest' := by
      unfold pyHead
      rw [if_pos (by omega)]
      obtain ⟨m, hm⟩ : ∃ m, (len + 1).toNat = m + 1 := ⟨len.toNat, by omega⟩
      rw [hm]
      exact ⟨_, rfl⟩
    obtain ⟨rest', htop⟩ := htop
    unfold PdpMethod.zenplot plotZenplot
    rw [hr.holds, hr.ovo]
    simp only [htop, getPdDict, List.foldlM_cons, hstep]
    rfl

/-- the hypotheses are met by the example of C116 -/
example : ((exNoRows (.friedman true) [0, 1] false).2.zenplot 1 "contour").toOption.isNone = true ∧
    (match (exNoRows (.friedman true) [0, 1] false).2.zenplot 1 "contour" with | .error .valueError => true | _ => false) = true := by
  decide +kernel

end Zen
end Artemis
