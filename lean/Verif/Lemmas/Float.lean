import Verif.Py
import Mathlib.Order.MinMax

namespace Verif
namespace Fl
variable {K : Type} [LinearOrder K]

theorem le_def (a b : Fl K) : a ≤ b ↔ a.key ≤ b.key := Iff.rfl
theorem lt_def (a b : Fl K) : a < b ↔ a.key < b.key := Iff.rfl

@[simp] theorem fin_le_fin (x y : K) : (fin x ≤ fin y) ↔ x ≤ y := by
  simp [le_def, key]

@[simp] theorem fin_lt_fin (x y : K) : (fin x < fin y) ↔ x < y := by
  simp [lt_def, key]

@[simp] theorem le_nan (a : Fl K) : a ≤ nan := by simp [le_def, key]

@[simp] theorem ninf_le (a : Fl K) : ninf ≤ a := by
  cases a <;> simp [le_def, key]

theorem le_pinf_iff (a : Fl K) : a ≤ pinf ↔ a ≠ nan := by
  cases a <;> simp [le_def, key]

@[simp] theorem pinf_lt_iff (a : Fl K) : pinf < a ↔ a = nan := by
  cases a <;> simp [lt_def, key]

@[simp] theorem fin_lt_pinf (x : K) : (fin x : Fl K) < pinf := by simp [lt_def, key]
@[simp] theorem ninf_lt_pinf : (ninf : Fl K) < pinf := lt_of_le_of_ne (ninf_le _) (by simp)
@[simp] theorem ninf_lt_fin (x : K) : (ninf : Fl K) < fin x := lt_of_le_of_ne (ninf_le _) (by simp)
@[simp] theorem pinf_lt_nan : (pinf : Fl K) < nan := by simp
@[simp] theorem fin_lt_nan (x : K) : (fin x : Fl K) < nan := by simp [lt_def, key]
@[simp] theorem ninf_lt_nan : (ninf : Fl K) < nan := by simp [lt_def, key]

theorem lt_nan_iff (a : Fl K) : a < nan ↔ a ≠ nan := by
  cases a <;> simp

theorem ltF_iff (a b : Fl K) : ltF a b = true ↔ a < b ∧ b ≠ nan := by simp [ltF]
theorem leF_iff (a b : Fl K) : leF a b = true ↔ a ≤ b ∧ b ≠ nan := by simp [leF]
theorem eqF_iff (a b : Fl K) : eqF a b = true ↔ a = b ∧ a ≠ nan := by simp [eqF]

theorem ltF_false_iff (a b : Fl K) (hb : b ≠ nan) : ltF a b = false ↔ b ≤ a := by
  simp [ltF, hb]

omit [LinearOrder K] in
theorem isFinite_iff (a : Fl K) : a.isFinite = true ↔ ∃ x, a = fin x := by
  cases a <;> simp [isFinite]

theorem lt_pinf_iff (a : Fl K) : a < pinf ↔ (a = ninf ∨ ∃ x, a = fin x) := by
  cases a <;> simp

end Fl

section
variable {K : Type} [LinearOrder K]

theorem foldl_min_le_init (l : List (Fl K)) (x : Fl K) : l.foldl min x ≤ x := by
  induction l generalizing x with
  | nil => exact le_refl _
  | cons y ys ih => exact (ih _).trans (min_le_left _ _)

theorem foldl_min_le_mem (l : List (Fl K)) (x y : Fl K) (h : y ∈ l) : l.foldl min x ≤ y := by
  induction l generalizing x with
  | nil => cases h
  | cons z zs ih =>
    rcases List.mem_cons.mp h with rfl | h
    · exact (foldl_min_le_init zs _).trans (min_le_right _ _)
    · exact ih _ h

theorem foldl_min_mem (l : List (Fl K)) (x : Fl K) : l.foldl min x = x ∨ l.foldl min x ∈ l := by
  induction l generalizing x with
  | nil => exact Or.inl rfl
  | cons y ys ih =>
    simp only [List.foldl_cons, List.mem_cons]
    rcases ih (min x y) with h | h
    · rw [h]
      rcases min_choice x y with h | h
      · exact Or.inl h
      · exact Or.inr (Or.inl h)
    · exact Or.inr (Or.inr h)

/-- `np.min` of a non-empty list is one of its elements, at most every element unless there is a NaN. -/
theorem npMin_spec (l : List (Fl K)) (h : l ≠ []) :
    ∃ m, npMin l = .ok m ∧ m ∈ l ∧ (m = Fl.nan ↔ Fl.nan ∈ l) ∧ (Fl.nan ∉ l → ∀ y ∈ l, m ≤ y) := by
  cases l with
  | nil => exact absurd rfl h
  | cons x xs =>
    by_cases hn : Fl.nan ∈ x :: xs
    · exact ⟨_, rfl, by simp [hn], by simp [hn], fun h => absurd hn h⟩
    · refine ⟨_, rfl, ?_, ?_, ?_⟩
      · rw [if_neg hn]
        rcases foldl_min_mem xs x with h | h
        · rw [h]; exact List.mem_cons_self
        · exact List.mem_cons_of_mem _ h
      · rw [if_neg hn]
        constructor
        · intro he
          rcases foldl_min_mem xs x with h | h
          · rw [he] at h; rw [h]; exact List.mem_cons_self
          · rw [he] at h; exact List.mem_cons_of_mem _ h
        · exact fun h => absurd h hn
      · intro _ y hy
        rw [if_neg hn]
        rcases List.mem_cons.mp hy with rfl | hy
        · exact foldl_min_le_init _ _
        · exact foldl_min_le_mem _ _ _ hy

theorem npMin_nil : npMin ([] : List (Fl K)) = .error .valueError := rfl

/-- `np.argmin` without NaN: the first position of the smallest entry. -/
theorem npArgmin_spec (l : List (Fl K)) (h : l ≠ []) :
    ∃ i, npArgmin l = .ok i ∧ ∃ hi : i < l.length, npMin l = .ok l[i] ∧ (∀ j (hj : j < l.length), j < i → l[j] ≠ l[i]) ∧
      (Fl.nan ∉ l → (∀ j (hj : j < l.length), l[i] ≤ l[j]) ∧ ∀ j (hj : j < l.length), j < i → l[i] < l[j]) := by
  obtain ⟨m, hm, hmem, _, hle⟩ := npMin_spec l h
  have hlt : l.idxOf m < l.length := List.idxOf_lt_length_iff.mpr hmem
  have hget : l[l.idxOf m] = m := List.getElem_idxOf hlt
  have hfirst : ∀ j (hj : j < l.length), j < l.idxOf m → l[j] ≠ l[l.idxOf m] := by
    intro j hj hji he
    rw [hget] at he
    have := List.not_of_lt_findIdx (p := (· == m)) (xs := l) hji
    simp at this
    exact this he
  refine ⟨l.idxOf m, by simp [npArgmin, hm, bind, Except.bind, pure, Except.pure], hlt, by rw [hget, hm], hfirst, ?_⟩
  intro hn
  have h1 : ∀ j (hj : j < l.length), l[l.idxOf m] ≤ l[j] := fun j hj => by
    rw [hget]; exact hle hn _ (List.getElem_mem hj)
  exact ⟨h1, fun j hj hji => lt_of_le_of_ne (h1 j hj) (hfirst j hj hji).symm⟩

end

section Fill
variable {α : Type}

@[simp] theorem pyFill_length (l : List α) (a b : Int) (x : α) : (pyFill l a b x).length = l.length := by
  unfold pyFill
  have h1 : pyIdx l.length a ≤ l.length := by unfold pyIdx; split <;> omega
  have h2 : pyIdx l.length b ≤ l.length := by unfold pyIdx; split <;> omega
  simp; omega

theorem pyFill_getElem? (l : List α) (a b : Int) (x : α) (i : Nat) :
    (pyFill l a b x)[i]? = if pyIdx l.length a ≤ i ∧ i < pyIdx l.length b then some x else l[i]? := by
  have h1 : pyIdx l.length a ≤ l.length := by unfold pyIdx; split <;> omega
  have h2 : pyIdx l.length b ≤ l.length := by unfold pyIdx; split <;> omega
  unfold pyFill
  simp only [List.getElem?_append, List.getElem?_take, List.getElem?_drop, List.getElem?_replicate, List.length_append, List.length_take, List.length_replicate]
  grind

end Fill
end Verif
