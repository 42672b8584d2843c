import Verif.Py
import Verif.Spec.Stream

namespace Verif
open Spec
variable {α : Type}

@[simp] theorem pyIdx_nat (n i : Nat) : pyIdx n (i : Int) = min i n := by
  unfold pyIdx; split <;> omega

theorem pyIdx_nonneg (n : Nat) (i : Int) (h : 0 ≤ i) : pyIdx n i = min i.toNat n := by
  unfold pyIdx; split <;> omega

theorem pyIdx_neg (n k : Nat) (h : 0 < k) : pyIdx n (-(k : Int)) = n - k := by
  unfold pyIdx; split <;> omega

theorem pyIdx_le (n : Nat) (i : Int) : pyIdx n i ≤ n := by
  unfold pyIdx; split <;> omega

@[simp] theorem pyIdx_zero (n : Nat) : pyIdx n 0 = 0 := by
  unfold pyIdx; split <;> omega

@[simp] theorem pyIdx_nat_add (n i j : Nat) : pyIdx n ((i : Int) + (j : Int)) = min (i + j) n := by
  unfold pyIdx; split <;> omega

theorem pySlice_nat (l : List α) (a b : Nat) : pySlice l a b = (l.take b).drop a := by
  unfold pySlice
  rw [pyIdx_nat, pyIdx_nat]
  apply List.ext_getElem?
  intro i
  grind

theorem pySlice_nat_add (l : List α) (a b : Nat) : pySlice l a (a + b) = (l.drop a).take b := by
  have := pySlice_nat l a (a + b)
  push_cast at this
  rw [this, List.drop_take]
  congr 1; omega

theorem pyTo_nat (l : List α) (b : Nat) : pyTo l b = l.take b := by
  unfold pyTo
  rw [pyIdx_nat]
  apply List.ext_getElem?
  intro i
  grind

theorem pyFrom_nat (l : List α) (a : Nat) : pyFrom l a = l.drop a := by
  unfold pyFrom
  rw [pyIdx_nat]
  apply List.ext_getElem?
  intro i
  grind

theorem pyFrom_neg (l : List α) (k : Nat) (h : 0 < k) : pyFrom l (-(k : Int)) = lastN k l := by
  unfold pyFrom lastN
  rw [pyIdx_neg _ _ h]

theorem assignSlice_ok (l : List α) (lo hi : Nat) (vals : List α) (h : vals.length = hi - lo) (h2 : lo ≤ hi) :
    assignSlice l lo hi vals = .ok (l.take lo ++ vals ++ l.drop hi) := by
  unfold assignSlice
  rw [Nat.max_eq_right h2]
  simp [h]

theorem pyAssign_ok (l : List α) (a b : Nat) (vals : List α) (h : vals.length = b - a) (h1 : a ≤ b)
    (h2 : b ≤ l.length) :
    pyAssign l a b vals = .ok (l.take a ++ vals ++ l.drop b) := by
  unfold pyAssign
  rw [pyIdx_nat, pyIdx_nat, Nat.min_eq_left h2, Nat.min_eq_left (by omega)]
  exact assignSlice_ok l a b vals h h1

theorem pyAssign_ok_add (l : List α) (a n : Nat) (vals : List α) (h : vals.length = n)
    (h2 : a + n ≤ l.length) :
    pyAssign l a (a + n) vals = .ok (l.take a ++ vals ++ l.drop (a + n)) := by
  have := pyAssign_ok l a (a + n) vals (by omega) (by omega) h2
  push_cast at this
  exact this

theorem pyAssign_ok_zero (l : List α) (n : Nat) (vals : List α) (h : vals.length = n)
    (h2 : n ≤ l.length) :
    pyAssign l 0 n vals = .ok (vals ++ l.drop n) := by
  have := pyAssign_ok l 0 n vals (by omega) (by omega) h2
  simpa using this

/-- A successful slice assignment keeps the length. -/
theorem assignSlice_length (l : List α) (lo hi : Nat) (vals l' : List α) (hlo : lo ≤ l.length) (hhi : hi ≤ l.length)
    (h : assignSlice l lo hi vals = .ok l') : l'.length = l.length := by
  unfold assignSlice at h
  simp only at h
  split at h
  · cases h; simp; omega
  · split at h
    · cases h; simp; omega
    · cases h

theorem pyAssign_length (l : List α) (a b : Int) (vals l' : List α)
    (h : pyAssign l a b vals = .ok l') : l'.length = l.length :=
  assignSlice_length _ _ _ _ _ (pyIdx_le _ _) (pyIdx_le _ _) h

theorem pySet_length (l : List α) (i : Int) (x : α) (l' : List α) (h : pySet l i x = .ok l') :
    l'.length = l.length := by
  unfold pySet at h
  grind

theorem pySet_ok_set (l : List α) (i : Int) (x : α) (l' : List α) (h : pySet l i x = .ok l') :
    ∃ j, l' = l.set j x := by
  unfold pySet at h
  grind

/-! ### lastN -/

@[simp] theorem lastN_length (n : Nat) (l : List α) : (lastN n l).length = min n l.length := by
  simp [lastN]; omega

theorem lastN_of_le (n : Nat) (l : List α) (h : l.length ≤ n) : lastN n l = l := by
  simp [lastN, Nat.sub_eq_zero_of_le h]

theorem lastN_append (n : Nat) (a b : List α) :
    lastN n (a ++ b) = lastN (n - b.length) a ++ lastN n b := by
  unfold lastN
  apply List.ext_getElem?
  intro i
  simp only [List.length_append, List.getElem?_drop, List.getElem?_append, List.length_drop]
  grind

theorem lastN_append_right (n : Nat) (a b : List α) (h : n ≤ b.length) : lastN n (a ++ b) = lastN n b := by
  rw [lastN_append, Nat.sub_eq_zero_of_le h]
  simp [lastN]

theorem lastN_lastN (n k : Nat) (l : List α) : lastN n (lastN k l) = lastN (min n k) l := by
  unfold lastN
  rw [List.drop_drop, List.length_drop]
  congr 1; omega

theorem lastN_lastN_append (n : Nat) (a b : List α) : lastN n (lastN n a ++ b) = lastN n (a ++ b) := by
  rw [lastN_append, lastN_append, lastN_lastN]
  congr 2; omega

end Verif
