import Verif.Model.PDCalc
import Mathlib.Data.List.Basic
import Mathlib.Tactic.Common

/-! Helper lemmas about the Python vocabulary. -/

namespace Artemis

namespace Dict
variable {α β : Type*} [DecidableEq α]

theorem get?_set (d : Dict α β) (k : α) (v : β) (k' : α) :
    (d.set k v).get? k' = if k' = k then some v else d.get? k' := by
  induction d with
  | nil => simp only [set, get?, eq_comm]
  | cons hd tl ih =>
    obtain ⟨a, b⟩ := hd
    simp only [set]
    by_cases h : a = k
    · subst h
      simp only [if_true, get?]
      by_cases h' : k' = a
      · subst h'; simp
      · simp [h', Ne.symm h']
    · simp only [h, if_false, get?, ih]
      by_cases h' : a = k'
      · subst h'; simp [h]
      · simp [h']

theorem get?_isSome_iff (d : Dict α β) (k : α) : (d.get? k).isSome ↔ k ∈ d.keys := by
  induction d with
  | nil => simp [get?, keys]
  | cons hd tl ih =>
    obtain ⟨a, b⟩ := hd
    simp only [get?, keys, List.map_cons, List.mem_cons]
    by_cases h : a = k
    · simp [h]
    · simp only [h, if_false, Ne.symm h, false_or]; exact ih

theorem get?_eq_none_iff (d : Dict α β) (k : α) : d.get? k = none ↔ k ∉ d.keys := by
  rw [← get?_isSome_iff]; simp

theorem mem_of_get? {d : Dict α β} {k : α} {v : β} (h : d.get? k = some v) : (k, v) ∈ d := by
  induction d with
  | nil => simp [get?] at h
  | cons hd tl ih =>
    obtain ⟨a, b⟩ := hd
    simp only [get?] at h
    split at h
    · next hk => cases h; subst hk; exact List.mem_cons_self
    · exact List.mem_cons_of_mem _ (ih h)

theorem get?_of_mem {d : Dict α β} (nd : d.keys.Nodup) {k : α} {v : β} (h : (k, v) ∈ d) :
    d.get? k = some v := by
  induction d with
  | nil => simp at h
  | cons hd tl ih =>
    obtain ⟨a, b⟩ := hd
    simp only [keys, List.map_cons, List.nodup_cons] at nd
    rcases List.mem_cons.1 h with h | h
    · cases h; simp [get?]
    · have : a ≠ k := by
        rintro rfl
        exact nd.1 (List.mem_map.2 ⟨_, h, rfl⟩)
      simp only [get?, this, if_false]
      exact ih nd.2 h

theorem keys_set (d : Dict α β) (k : α) (v : β) :
    (d.set k v).keys = if k ∈ d.keys then d.keys else d.keys ++ [k] := by
  induction d with
  | nil => simp [set, keys]
  | cons hd tl ih =>
    obtain ⟨a, b⟩ := hd
    simp only [set]
    by_cases h : a = k
    · subst h; simp [keys]
    · simp only [h, if_false]
      simp only [keys, List.map_cons, List.mem_cons] at ih ⊢
      simp only [Ne.symm h, false_or, ih]
      by_cases hk : k ∈ List.map Prod.fst tl <;> simp [hk]

theorem keys_set_of_mem {d : Dict α β} {k : α} (h : k ∈ d.keys) (v : β) :
    (d.set k v).keys = d.keys := by rw [keys_set, if_pos h]

theorem mem_keys_set (d : Dict α β) (k : α) (v : β) (k' : α) :
    k' ∈ (d.set k v).keys ↔ k' = k ∨ k' ∈ d.keys := by
  rw [keys_set]; split
  · constructor
    · exact Or.inr
    · rintro (rfl | h) <;> assumption
  · simp [or_comm]

theorem nodup_keys_set {d : Dict α β} (nd : d.keys.Nodup) (k : α) (v : β) :
    (d.set k v).keys.Nodup := by
  rw [keys_set]; split
  · exact nd
  · next h => exact List.Nodup.append nd (by simp) (by simpa using h)

theorem get?_map {γ : Type*} (l : List α) (g : α → γ) (k : α) :
    get? (l.map (fun a => (a, g a))) k = if k ∈ l then some (g k) else none := by
  induction l with
  | nil => simp [get?]
  | cons a l ih =>
    simp only [List.map_cons, get?, ih, List.mem_cons]
    by_cases h : a = k
    · subst h; simp
    · simp [h, Ne.symm h]

end Dict

section
variable {V : Type*} [DecidableEq V]

theorem getIndex_of_mem {l : List V} {v : V} (h : v ∈ l) : getIndex l v = .ok (l.idxOf v) := by
  have hh : l.findIdx? (· = v) = some (l.idxOf v) := by
    rw [List.findIdx?_eq_some_iff_findIdx_eq]
    refine ⟨List.idxOf_lt_length_iff.2 h, ?_⟩
    simp only [List.idxOf]
    congr 1
  simp [getIndex, hh]

theorem getIndex_of_not_mem {l : List V} {v : V} (h : v ∉ l) : getIndex l v = .error .indexError := by
  have hh : l.findIdx? (· = v) = none := by
    rw [List.findIdx?_eq_none_iff]
    intro x hx
    simp only [decide_eq_false_iff_not]
    rintro rfl; exact h hx
  simp [getIndex, hh]

theorem idxOf_inj {l : List V} {v w : V} (hv : v ∈ l) (h : l.idxOf v = l.idxOf w) : v = w := by
  exact List.idxOf_inj hv |>.1 h
end

theorem mem_npUnique {V : Type*} [LinearOrder V] {a : List V} {v : V} : v ∈ npUnique a ↔ v ∈ a := by
  simp [npUnique, List.mem_insertionSort]

theorem nodup_npUnique {V : Type*} [LinearOrder V] (a : List V) : (npUnique a).Nodup := by
  rw [npUnique, (List.perm_insertionSort _ _).nodup_iff]
  exact List.nodup_dedup a

theorem sorted_npUnique {V : Type*} [LinearOrder V] (a : List V) :
    (npUnique a).Pairwise (· < ·) := by
  have h1 : (npUnique a).Pairwise (· ≤ ·) := List.pairwise_insertionSort _ _
  have h2 := nodup_npUnique a
  exact (h1.and h2).imp (fun h => lt_of_le_of_ne h.1 h.2)

theorem mem_combinations2 {α : Type*} {l : List α} {p : α × α} :
    p ∈ combinations2 l → p.1 ∈ l ∧ p.2 ∈ l := by
  induction l with
  | nil => simp [combinations2]
  | cons x xs ih =>
    simp only [combinations2, List.mem_append, List.mem_map]
    rintro (⟨y, hy, rfl⟩ | h)
    · simp [hy]
    · exact ⟨List.mem_cons_of_mem _ (ih h).1, List.mem_cons_of_mem _ (ih h).2⟩

theorem slice_append_left {N : Type*} {a b : List N} {s e : Nat} (h : e ≤ a.length) :
    slice (a ++ b) s e = slice a s e := by
  unfold slice
  by_cases hs : s ≤ a.length
  · rw [List.drop_append_of_le_length hs, List.take_append_of_le_length]
    rw [List.length_drop]; omega
  · have : e - s = 0 := by omega
    simp [this]

theorem slice_append_right {N : Type*} (a b : List N) :
    slice (a ++ b) a.length (a.length + b.length) = b := by
  simp [slice]

theorem slice_map {N M : Type*} (g : N → M) (l : List N) (s e : Nat) :
    slice (l.map g) s e = (slice l s e).map g := by
  simp [slice, List.map_drop, List.map_take]

end Artemis
