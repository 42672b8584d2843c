import Verif.PyArith
import Verif.Lemmas.Float
import Verif.Lemmas.Windows
import Mathlib.Tactic.Ring
import Mathlib.Tactic.Linarith
import Mathlib.Algebra.BigOperators.Group.Finset.Basic
import Mathlib.Algebra.BigOperators.Intervals
import Verif.Spec.Stats

/-! Float arithmetic on finite values, vector operations on finite vectors, sums over windows. -/

namespace Verif
open Spec

namespace Fl
variable {K : Type} [Field K] [LinearOrder K]

@[simp] theorem neg_fin (x : K) : neg (fin x) = fin (-x) := rfl
@[simp] theorem add_fin (x y : K) : add (fin x) (fin y) = fin (x + y) := rfl
@[simp] theorem sub_fin (x y : K) : sub (fin x) (fin y) = fin (x - y) := by rw [sub, neg_fin, add_fin, sub_eq_add_neg]
@[simp] theorem mul_fin (x y : K) : mul (fin x) (fin y) = fin (x * y) := rfl
@[simp] theorem square_fin (x : K) : square (fin x) = fin (x ^ 2) := by rw [square, mul_fin, sq]

theorem sqrtF_fin (sq : K → K) (x : K) (h : 0 ≤ x) : sqrtF sq (fin x) = fin (sq x) := by
  rw [sqrtF, if_neg (not_lt.mpr h)]

theorem foldl_add_fin (l : List K) (x : K) : (l.map fin).foldl add (fin x) = fin (x + l.sum) := by
  induction l generalizing x with
  | nil => simp
  | cons a l ih => rw [List.map_cons, List.foldl_cons, add_fin, ih, List.sum_cons, add_assoc]

@[simp] theorem sum_fin (l : List K) : sum (l.map fin) = fin l.sum := by rw [sum, foldl_add_fin, zero_add]

end Fl

section
variable {K : Type} [Field K] [LinearOrder K]
variable {α β γ : Type}

omit [Field K] [LinearOrder K] in
theorem zipWith_fin (f : Fl K → Fl K → Fl K) (f' : K → K → K) (h : ∀ x y, f (.fin x) (.fin y) = .fin (f' x y))
    (a b : List K) : List.zipWith f (a.map .fin) (b.map .fin) = (List.zipWith f' a b).map .fin := by
  induction a generalizing b with
  | nil => simp
  | cons x a ih => cases b with
    | nil => simp
    | cons y b => simp [h, ih]

theorem npZip_ok (f : α → β → γ) (a : List α) (b : List β) (h : a.length = b.length) :
    npZip f a b = .ok (List.zipWith f a b) := by unfold npZip; exact if_pos h

theorem windows_map (f : α → β) (m : Nat) (l : List α) : windows m (l.map f) = (windows m l).map (·.map f) := by
  simp [windows, List.map_take, List.map_drop]

end

section
variable {K : Type} [Field K]

/-- Sum of `F` over corresponding points of two subsequences. -/
def pairSum (F : K → K → K) (a b : List K) : K := (List.zipWith F a b).sum

theorem pairSum_comm (F : K → K → K) (hF : ∀ a b, F a b = F b a) (a b : List K) : pairSum F a b = pairSum F b a := by
  unfold pairSum
  rw [List.zipWith_comm]
  congr 2
  funext x y; exact hF _ _

theorem seqOf_drop (l : List K) (i k : Nat) : seqOf (l.drop i) k = seqOf l (i + k) := by
  simp [seqOf, List.getD]

theorem seqOf_getElem? (l : List K) (i : Nat) (h : i < l.length) : l[i]? = some (seqOf l i) := by
  simp [seqOf, List.getD, List.getElem?_eq_getElem h]

theorem pairSum_windows (F : K → K → K) (m : Nat) (s q : List K) (i j : Nat) (hj : j + m ≤ s.length) (hi : i + m ≤ q.length) :
    pairSum F ((s.drop j).take m) ((q.drop i).take m) = ∑ k ∈ Finset.range m, F (seqOf s (j + k)) (seqOf q (i + k)) := by
  unfold pairSum
  induction m with
  | zero => simp
  | succ m ih =>
    rw [Finset.sum_range_succ, ← ih (by omega) (by omega), List.take_add_one, List.take_add_one, List.getElem?_drop,
      List.getElem?_drop, seqOf_getElem? s _ (by omega), seqOf_getElem? q _ (by omega),
      List.zipWith_append (by simp; omega), List.sum_append]
    simp

/-- The recurrence along a diagonal. -/
theorem pair_step (F : K → K → K) (m : Nat) (s q : Nat → K) (i j : Nat) (hm : 0 < m) :
    ∑ k ∈ Finset.range m, F (s (j + 1 + k)) (q (i + 1 + k)) =
      (∑ k ∈ Finset.range m, F (s (j + k)) (q (i + k))) - F (s j) (q i) + F (s (j + m)) (q (i + m)) := by
  obtain ⟨n, rfl⟩ : ∃ n, m = n + 1 := ⟨m - 1, by omega⟩
  rw [Finset.sum_range_succ, Finset.sum_range_succ' (fun k => F (s (j + k)) (q (i + k)))]
  simp only [Nat.add_zero]
  simp only [show ∀ a b : Nat, a + 1 + b = a + (b + 1) from fun a b => by omega]
  ring

end

section
variable {K : Type} [Field K] [LinearOrder K]

theorem scanl_fin (l : List K) (x : K) :
    (l.map Fl.fin).scanl Fl.add (.fin x) = (List.range (l.length + 1)).map fun k => .fin (x + (l.take k).sum) := by
  induction l generalizing x with
  | nil => simp
  | cons a l ih =>
    rw [List.map_cons, List.scanl_cons, Fl.add_fin, ih, List.length_cons, List.range_succ_eq_map (n := l.length + 1), List.map_cons, List.map_map]
    congr 1
    · simp
    · apply List.map_congr_left
      intro k _
      simp [add_assoc]

/-- The vector `0, x0, x0+x1, …` as built by `cumsum = zeros(n+1); cumsum[1:] = np.cumsum(x)`. -/
theorem cumsum_fin (l : List K) :
    assignSlice (List.replicate (l.length + 1) (.fin 0)) (pyIdx (l.length + 1) 1) (l.length + 1) (npCumsum (l.map Fl.fin)) =
      .ok ((List.range (l.length + 1)).map fun k => .fin (l.take k).sum) := by
  have h1 : pyIdx (l.length + 1) 1 = 1 := by
    rw [show (1 : Int) = ((1 : Nat) : Int) by rfl, pyIdx_nat]; omega
  have h2 : npCumsum (l.map Fl.fin) = (List.range l.length).map fun k => .fin (l.take (k + 1)).sum := by
    cases l with
    | nil => rfl
    | cons a l => rw [List.map_cons, npCumsum, scanl_fin, List.length_cons]; simp
  rw [h1, assignSlice_ok _ _ _ _ (by rw [h2]; simp) (by omega), h2, List.range_succ_eq_map, List.map_cons, List.map_map]
  simp [Function.comp_def]

theorem cumsum_diff (l : List K) (m : Nat) (h : m ≤ l.length) :
    npZip Fl.sub (pyFrom ((List.range (l.length + 1)).map fun k => Fl.fin (l.take k).sum) m)
        (((List.range (l.length + 1)).map fun k => Fl.fin (l.take k).sum).take (l.length + 1 - m)) =
      .ok ((List.range (l.length + 1 - m)).map fun k => .fin ((l.drop k).take m).sum) := by
  rw [pyFrom_nat, npZip_ok _ _ _ (by simp)]
  congr 1
  apply List.ext_getElem?
  intro k
  by_cases hk : k < l.length + 1 - m
  · rw [List.getElem?_zipWith, List.getElem?_drop, List.getElem?_take, if_pos hk, List.getElem?_map, List.getElem?_map, List.getElem?_map,
      List.getElem?_range (by omega), List.getElem?_range (by omega), List.getElem?_range hk]
    simp only [Option.map_some, Fl.sub_fin]
    rw [Nat.add_comm m k, List.take_add, List.sum_append]
    simp
  · rw [List.getElem?_eq_none (by simp; omega), List.getElem?_eq_none (by simp; omega)]

omit [LinearOrder K] in
/-- Sums over the points of a stretch of a diagonal. -/
theorem diag_sums (F : K → K → K) (q s : List K) (i j n m k : Nat) (hm : k + m ≤ n) (hq : i + n ≤ q.length) (hs : j + n ≤ s.length) :
    (((List.zipWith F ((q.drop i).take n) ((s.drop j).take n)).drop k).take m).sum =
      ∑ l ∈ Finset.range m, F (seqOf q (i + k + l)) (seqOf s (j + k + l)) := by
  rw [List.drop_zipWith, List.take_zipWith, List.drop_take, List.drop_take, List.drop_drop, List.drop_drop, List.take_take, List.take_take,
    Nat.min_eq_left (by omega)]
  exact pairSum_windows F m q s (j + k) (i + k) (by omega) (by omega)

end
end Verif
