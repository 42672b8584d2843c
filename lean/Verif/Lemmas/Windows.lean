import Verif.Lemmas.Slices
import Verif.Model.Util

namespace Verif
open Spec
variable {α : Type}

@[simp] theorem windows_length (m : Nat) (l : List α) : (windows m l).length = l.length + 1 - m := by simp [windows]

theorem windows_getElem? (m : Nat) (l : List α) (i : Nat) :
    (windows m l)[i]? = if i < l.length + 1 - m then some ((l.drop i).take m) else none := by
  unfold windows
  rw [List.getElem?_map]
  split <;> rename_i h
  · rw [List.getElem?_range h]; rfl
  · rw [List.getElem?_eq_none (by simpa using h)]; rfl

theorem windows_getElem (m : Nat) (l : List α) (i : Nat) (h : i < (windows m l).length) :
    (windows m l)[i] = (l.drop i).take m := by
  simp [windows]

theorem windows_eq_nil (m : Nat) (l : List α) (h : l.length < m) : windows m l = [] := by
  rw [← List.length_eq_zero_iff]; simp; omega

theorem mem_windows_length {m : Nat} {l w : List α} (h : w ∈ windows m l) : w.length = m := by
  unfold windows at h
  obtain ⟨i, hi, rfl⟩ := List.mem_map.mp h
  simp at hi ⊢; omega

theorem mem_of_mem_windows {m : Nat} {l w : List α} (h : w ∈ windows m l) {x : α} (hx : x ∈ w) : x ∈ l := by
  unfold windows at h
  obtain ⟨i, hi, rfl⟩ := List.mem_map.mp h
  exact List.mem_of_mem_drop (List.mem_of_mem_take hx)

theorem lastN_getElem? (n : Nat) (l : List α) (i : Nat) : (lastN n l)[i]? = l[l.length - n + i]? := by
  simp [lastN]

theorem windows_lastN (m n : Nat) (l : List α) (h : m ≤ n + 1) :
    windows m (lastN n l) = lastN (n + 1 - m) (windows m l) := by
  apply List.ext_getElem?
  intro i
  rw [lastN_getElem?, windows_getElem?, windows_getElem?]
  simp only [lastN_length, windows_length]
  by_cases hi : i < min n l.length + 1 - m
  · rw [if_pos hi, if_pos (by omega)]
    congr 2
    unfold lastN
    rw [List.drop_drop]
    congr 1; omega
  · rw [if_neg hi, if_neg (by omega)]

theorem windows_append (m : Nat) (v d : List α) (hm : 0 < m) :
    windows m (v ++ d) = windows m v ++ windows m (lastN (d.length + m - 1) (v ++ d)) := by
  apply List.ext_getElem?
  intro i
  rw [List.getElem?_append, windows_getElem?, windows_getElem?, windows_getElem?]
  simp only [lastN_length, windows_length, List.length_append]
  by_cases h1 : i < v.length + 1 - m
  · rw [if_pos h1, if_pos h1, if_pos (by omega)]
    congr 1
    rw [List.drop_append_of_le_length (by omega), List.take_append_of_le_length (by simp; omega)]
  · rw [if_neg h1]
    by_cases h2 : i < v.length + d.length + 1 - m
    · rw [if_pos h2, if_pos (by omega)]
      congr 2
      unfold lastN
      rw [List.drop_drop]
      congr 1
      simp; omega
    · rw [if_neg h2, if_neg (by omega)]

/-- The buffers derived from a window by a function of each subsequence stay in step when only the subsequences of the
newest `len(data) + m - 1` points are pushed. -/
theorem windows_derived (m N : Nat) (v d : List α) (hm : 0 < m) (hN : m ≤ N) :
    lastN (N + 1 - m) (windows m v ++ windows m (lastN (d.length + m - 1) (lastN N (v ++ d)))) =
      windows m (lastN N (v ++ d)) := by
  rw [lastN_lastN, windows_lastN m N _ (by omega)]
  by_cases h : d.length + m - 1 ≤ N
  · rw [min_eq_left h, ← windows_append m v d hm]
  · rw [min_eq_right (by omega)]
    by_cases h2 : N ≤ (v ++ d).length
    · rw [lastN_append_right _ _ _ (by simp at h2 ⊢; omega), windows_lastN m N _ (by omega), lastN_lastN]
      simp
    · rw [lastN_of_le N _ (by omega)]
      rw [windows_eq_nil m v (by simp at h2; omega), List.nil_append]

theorem lastN_map {β : Type} (f : α → β) (n : Nat) (l : List α) : lastN n (l.map f) = (lastN n l).map f := by
  simp [lastN]

theorem slidingWindows_ok (l : List α) (m : Nat) (hm : 0 < m) (h : m ≤ l.length) :
    slidingWindows l m = .ok (windows m l) := by
  unfold slidingWindows windows
  rw [if_neg (by omega), if_neg (by omega), show l.length + 1 - m = l.length - m + 1 by omega]

theorem slidingWindows_err (l : List α) (m : Nat) (h : m = 0 ∨ l.length < m) :
    slidingWindows l m = .error .valueError := by
  unfold slidingWindows
  rcases h with h | h
  · rw [if_pos h]
  · split
    · rfl
    · rfl

end Verif
