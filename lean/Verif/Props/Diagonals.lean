import Verif.Model.Util
import Verif.Lemmas.Ranges
import Mathlib.Algebra.BigOperators.Intervals
import Mathlib.Tactic.Ring
import Mathlib.Tactic.Linarith

/-!
# C06–C08: diagonals and cuts of a matrix
-/

namespace Verif

/-! ### C06 -/

theorem diagIndices_zip (h w : Nat) (d : Int) :
    (diagIndices h w d).1.zip (diagIndices h w d).2 =
      (List.range (diagLength h w d).toNat).map fun k : Nat => (max 0 (-d) + (k : Int), max 0 d + (k : Int)) := by
  unfold diagIndices
  by_cases hd : d ≥ 0
  · simp only [hd, if_true]
    have := zip_pyRange 0 d (diagLength h w d)
    simp only [zero_add] at this
    rw [this, max_eq_left (by omega : -d ≤ 0), max_eq_right (by omega : (0:Int) ≤ d)]
    simp
  · simp only [hd, if_false]
    have := zip_pyRange (-d) 0 (diagLength h w d)
    simp only [zero_add] at this
    rw [this, max_eq_right (by omega : (0:Int) ≤ -d), max_eq_left (by omega : d ≤ 0)]
    simp

/-- **C06**: the two index ranges have equal length `diag_length`. -/
theorem C06_lengths (h w : Nat) (d : Int) :
    (diagIndices h w d).1.length = (diagLength h w d).toNat ∧
    (diagIndices h w d).2.length = (diagLength h w d).toNat ∧ 0 ≤ diagLength h w d := by
  unfold diagIndices
  split <;> simp [pyRange_length] <;> unfold diagLength <;> split <;> omega

example : (diagIndices 3 4 2).1.length = 2 ∧ (diagIndices 3 4 7).1.length = 0 := ⟨(C06_lengths 3 4 2).1, (C06_lengths 3 4 7).1⟩

/-- **C06**: the enumerated cells are exactly the cells of the `h × w` matrix on diagonal `d`. -/
theorem C06_cells (h w : Nat) (d : Int) (i j : Int) :
    (i, j) ∈ (diagIndices h w d).1.zip (diagIndices h w d).2 ↔ 0 ≤ i ∧ i < h ∧ 0 ≤ j ∧ j < w ∧ j - i = d := by
  rw [diagIndices_zip]
  simp only [List.mem_map, List.mem_range, Prod.mk.injEq]
  unfold diagLength
  constructor
  · rintro ⟨k, hk, rfl, rfl⟩
    split at hk <;> omega
  · rintro ⟨h1, h2, h3, h4, h5⟩
    refine ⟨(min i j).toNat, ?_, ?_, ?_⟩
    · split <;> omega
    · omega
    · omega

example : ((1 : Int), (3 : Int)) ∈ (diagIndices 3 4 2).1.zip (diagIndices 3 4 2).2 := (C06_cells 3 4 2 1 3).mpr (by decide)

/-- **C06**: from top left to bottom right (so also: no cell twice). -/
theorem C06_order (h w : Nat) (d : Int) :
    ((diagIndices h w d).1.zip (diagIndices h w d).2).Pairwise (fun a b => a.1 < b.1 ∧ a.2 < b.2) := by
  rw [diagIndices_zip, List.pairwise_map]
  apply List.Pairwise.imp _ List.pairwise_lt_range
  intro a b hab
  simp only
  omega

example : [((0 : Int), (2 : Int)), (1, 3)].Pairwise (fun a b => a.1 < b.1 ∧ a.2 < b.2) := C06_order 3 4 2

/-- **C06**: `diag_length` is the number of cells on the diagonal, 0 outside the matrix. -/
theorem C06_diag_length_count (h w : Nat) (d : Int) :
    diagLength h w d = (((List.range h).flatMap fun i : Nat => (List.range w).map fun j : Nat => ((i : Int), (j : Int))).filter
      fun c => decide (c.2 - c.1 = d)).length := by
  have hnd : (((List.range h).flatMap fun i : Nat => (List.range w).map fun j : Nat => ((i : Int), (j : Int))).filter
      fun c => decide (c.2 - c.1 = d)).Nodup := by
    apply List.Nodup.filter
    rw [List.nodup_flatMap]
    constructor
    · intro i _
      apply List.Nodup.map _ List.nodup_range
      intro a b hab
      simpa using hab
    · apply List.Pairwise.imp _ List.pairwise_lt_range
      intro a b hab
      simp only [Function.onFun, List.disjoint_left, List.mem_map]
      rintro x ⟨_, _, rfl⟩ ⟨_, _, h⟩
      simp only [Prod.mk.injEq] at h
      omega
  have hnd2 : ((diagIndices h w d).1.zip (diagIndices h w d).2).Nodup :=
    (C06_order h w d).imp (fun {a b} hab e => by rw [e] at hab; omega)
  have hperm : List.Perm ((diagIndices h w d).1.zip (diagIndices h w d).2) (((List.range h).flatMap fun i : Nat =>
      (List.range w).map fun j : Nat => ((i : Int), (j : Int))).filter fun c => decide (c.2 - c.1 = d)) := by
    rw [List.perm_ext_iff_of_nodup hnd2 hnd]
    rintro ⟨i, j⟩
    rw [C06_cells]
    simp only [List.mem_filter, List.mem_flatMap, List.mem_map, List.mem_range, Prod.mk.injEq, decide_eq_true_eq]
    constructor
    · rintro ⟨h1, h2, h3, h4, h5⟩
      exact ⟨⟨i.toNat, by omega, j.toNat, by omega, by omega, by omega⟩, h5⟩
    · rintro ⟨⟨a, ha, b, hb, rfl, rfl⟩, h5⟩
      omega
  rw [← hperm.length_eq, diagIndices_zip]
  have := (C06_lengths h w d).2.2
  simp; omega

example : diagLength 3 4 (-2) = 1 := by rw [show diagLength 3 4 (-2) = _ from C06_diag_length_count 3 4 (-2)]; decide

example : (diagIndices 3 4 (-1)).1.zip (diagIndices 3 4 (-1)).2 = [(1, 0), (2, 1)] ∧ diagLength 3 4 4 = 0 := by decide

/-! ### C07 -/

/-- **C07**: each cell of the matrix lies on exactly one of the diagonals `-h < d < w`. -/
theorem C07_unique_diagonal (h w : Nat) (i j : Int) (hi : 0 ≤ i ∧ i < h) (hj : 0 ≤ j ∧ j < w) :
    ∃! d : Int, (-(h : Int) < d ∧ d < w) ∧ (i, j) ∈ (diagIndices h w d).1.zip (diagIndices h w d).2 := by
  refine ⟨j - i, ⟨by omega, (C06_cells h w _ i j).mpr ⟨hi.1, hi.2, hj.1, hj.2, rfl⟩⟩, ?_⟩
  rintro d ⟨_, hd⟩
  exact ((C06_cells h w d i j).mp hd).2.2.2.2.symm

example := C07_unique_diagonal 3 4 2 1 (by decide) (by decide)

/-- sum of `diag_length` over a range of diagonals -/
def diagSum (h w : Nat) (a b : Int) : Int := ((pyRange a b).map (diagLength h w)).sum

theorem pyRange_succ_right (a b : Int) (h : a ≤ b) : pyRange a (b + 1) = pyRange a b ++ [b] := by
  unfold pyRange
  have : (b + 1 - a).toNat = (b - a).toNat + 1 := by omega
  rw [this, List.range_succ, List.map_append]
  simp; omega

theorem pyRange_empty (a b : Int) (h : b ≤ a) : pyRange a b = [] := by
  unfold pyRange
  have : (b - a).toNat = 0 := by omega
  simp [this]

theorem pyRange_succ_left (a b : Int) (h : a < b) : pyRange a b = a :: pyRange (a + 1) b := by
  unfold pyRange
  have : (b - a).toNat = (b - (a + 1)).toNat + 1 := by omega
  rw [this, List.range_succ_eq_map]
  simp only [List.map_cons, List.map_map]
  congr 1
  · simp
  · apply List.map_congr_left
    intro k _
    simp only [Function.comp, Nat.succ_eq_add_one]
    push_cast; omega

/-- adding a row to a matrix adds one cell to `w` consecutive diagonals -/
theorem diagSum_succ_row (h w : Nat) :
    diagSum (h + 1) w (-(h + 1 : Nat) + 1) w = diagSum h w (-(h : Int) + 1) w + w := by
  unfold diagSum
  have key : ∀ k : Nat, k ≤ h + w →
      ((pyRange (-(h:Int)) (-(h:Int) + k)).map (diagLength ((h + 1 : Nat) : Int) w)).sum
        = ((pyRange (-(h:Int)) (-(h:Int) + k)).map (diagLength h w)).sum + min (k : Int) w := by
    intro k
    induction k with
    | zero => intro _; simp [pyRange_empty]
    | succ k ih =>
      intro hk
      have hs : (-(h:Int) + (k + 1 : Nat)) = (-(h:Int) + k) + 1 := by push_cast; ring
      rw [hs, pyRange_succ_right _ _ (by omega)]
      simp only [List.map_append, List.sum_append, ih (by omega), List.map_cons, List.map_nil, List.sum_cons, List.sum_nil]
      unfold diagLength
      push_cast
      split <;> omega
  have e1 : (-((h + 1 : Nat) : Int) + 1) = -(h : Int) := by push_cast; ring
  have k2 := key (h + w) (le_refl _)
  have e2 : (-(h : Int) + ((h + w : Nat) : Int)) = w := by push_cast; ring
  rw [e2] at k2
  rw [e1, k2]
  have e3 : min ((h + w : Nat) : Int) (w : Int) = w := by omega
  rw [e3]
  by_cases hw : -(h : Int) < w
  · rw [pyRange_succ_left _ _ hw]
    simp only [List.map_cons, List.sum_cons]
    have : diagLength h w (-(h : Int)) = 0 := by unfold diagLength; split <;> omega
    rw [this]; ring
  · have : h = 0 := by omega
    have : w = 0 := by omega
    subst_vars
    simp [pyRange_empty]

/-- **C07**: the lengths of the diagonals of an `h × w` matrix add up to `h*w`. -/
theorem C07_sum_all (h w : Nat) : diagSum h w (-(h : Int) + 1) w = h * w := by
  induction h with
  | zero =>
    unfold diagSum
    have : ∀ d ∈ pyRange (-((0:Nat):Int) + 1) w, diagLength (0:Nat) w d = 0 := by
      intro d _
      unfold diagLength; split <;> omega
    rw [List.map_congr_left this]
    simp
  | succ h ih => rw [diagSum_succ_row, ih]; push_cast; ring

example : diagSum 3 5 (-2) 5 = 15 := C07_sum_all 3 5

/-- **C07**: the diagonals above the trivial-match band `buffer` of an `n × n` self-join have `t(t+1)/2` cells, where
`t = n - buffer - 1`. -/
theorem C07_sum_self_join (n : Nat) (buffer : Int) (hb : -1 ≤ buffer) (hn : buffer ≤ n) :
    2 * diagSum n n (buffer + 1) n = (n - buffer - 1) * (n - buffer - 1 + 1) := by
  by_cases he : buffer = n
  · subst he
    simp [diagSum, pyRange_empty]
  obtain ⟨t, ht⟩ : ∃ t : Nat, (n : Int) - buffer - 1 = t := ⟨((n : Int) - buffer - 1).toNat, by omega⟩
  have key : ∀ t : Nat, (t : Int) ≤ n → 2 * ((pyRange (n - t) n).map (diagLength n n)).sum = (t : Int) * (t + 1) := by
    intro t
    induction t with
    | zero => intro _; simp [pyRange_empty]
    | succ t ih =>
      intro h
      rw [pyRange_succ_left _ _ (by omega)]
      have e : (n : Int) - (t + 1 : Nat) + 1 = n - t := by push_cast; ring
      simp only [List.map_cons, List.sum_cons, e, mul_add, ih (by omega)]
      have : diagLength n n ((n : Int) - ((t + 1 : Nat) : Int)) = t + 1 := by
        unfold diagLength; split <;> omega
      rw [this]
      push_cast; ring
  have := key t (by omega)
  unfold diagSum
  rw [ht, show buffer + 1 = (n : Int) - t by omega, this]

example : 2 * diagSum 5 5 2 5 = 3 * 4 := C07_sum_self_join 5 1 (by decide) (by decide)

example : diagSum 3 5 (-2) 5 = 15 ∧ 2 * diagSum 5 5 2 5 = 3 * 4 := by decide

/-! ### C08 -/

theorem zip_pyRangeDown (a b n : Int) :
    (pyRangeDown a (a - n)).zip (pyRange b (b + n)) = (List.range n.toNat).map fun k : Nat => (a - (k : Int), b + (k : Int)) := by
  simp only [pyRange, pyRangeDown, show a - (a - n) = n by omega, show b + n - b = n by omega]
  rw [List.zip_map, List.zip_eq_zipWith, List.zipWith_self, List.map_map]
  rfl

/-- Explicit form of the enumeration. -/
theorem cutIndices_zip (h w : Nat) (cut : Int) :
    (cutIndices h w cut).1.zip (cutIndices h w cut).2 =
      if cut < 0 ∨ cut ≥ w + h - 1 then [] else
        (List.range (cut + 1 - max 0 (cut - h + 1) - max 0 (cut - w + 1)).toNat).map fun k : Nat =>
          (min cut (h - 1) - (k : Int), max 0 (cut - h + 1) + (k : Int)) := by
  unfold cutIndices
  split
  · simp [pyRange_empty]
  · simp only
    generalize hL : cut + 1 - max 0 (cut - (h:Int) + 1) - max 0 (cut - (w:Int) + 1) = L
    split
    · have := zip_pyRangeDown cut 0 L
      simp only [zero_add] at this
      rw [this, min_eq_left (by omega), max_eq_left (by omega)]
      simp
    · have := zip_pyRangeDown ((h : Int) - 1) (cut - h + 1) L
      rw [show (h : Int) - L - 1 = h - 1 - L by omega, this, min_eq_right (by omega), max_eq_right (by omega)]

/-- **C08**: exactly the cells with `i + j = cut`. -/
theorem C08_cells (h w : Nat) (cut : Int) (i j : Int) :
    (i, j) ∈ (cutIndices h w cut).1.zip (cutIndices h w cut).2 ↔ 0 ≤ i ∧ i < h ∧ 0 ≤ j ∧ j < w ∧ i + j = cut := by
  rw [cutIndices_zip]
  split
  · simp; omega
  · simp only [List.mem_map, List.mem_range, Prod.mk.injEq]
    constructor
    · rintro ⟨k, hk, rfl, rfl⟩
      omega
    · rintro ⟨h1, h2, h3, h4, h5⟩
      exact ⟨(j - max 0 (cut - h + 1)).toNat, by omega, by omega, by omega⟩

example : ((1 : Int), (2 : Int)) ∈ (cutIndices 3 4 3).1.zip (cutIndices 3 4 3).2 := (C08_cells 3 4 3 1 2).mpr (by decide)

/-- **C08**: from bottom left to top right. -/
theorem C08_order (h w : Nat) (cut : Int) :
    ((cutIndices h w cut).1.zip (cutIndices h w cut).2).Pairwise (fun a b => b.1 < a.1 ∧ a.2 < b.2) := by
  rw [cutIndices_zip]
  split
  · simp
  · rw [List.pairwise_map]
    apply List.Pairwise.imp _ List.pairwise_lt_range
    intro a b hab
    simp only
    omega

example : [((2 : Int), (1 : Int)), (1, 2), (0, 3)].Pairwise (fun a b => b.1 < a.1 ∧ a.2 < b.2) := C08_order 3 4 3

/-- **C08**: the two ranges have equal length, and are empty exactly outside `[0, h+w-2]` or for an empty matrix. -/
theorem C08_lengths (h w : Nat) (hh : 0 < h) (hw : 0 < w) (cut : Int) :
    (cutIndices h w cut).1.length = (cutIndices h w cut).2.length ∧
    ((cutIndices h w cut).1 = [] ↔ cut < 0 ∨ cut > h + w - 2) := by
  rw [← List.length_eq_zero_iff]
  unfold cutIndices
  split
  · simp [pyRange_length]; omega
  · simp only
    split <;> simp only [pyRange_length, pyRangeDown_length] <;> omega

example : (cutIndices 3 2 4).1 = [] := (C08_lengths 3 2 (by decide) (by decide) 4).2.mpr (by decide)

example : (cutIndices 3 2 2).1.zip (cutIndices 3 2 2).2 = [(2, 0), (1, 1)] := by decide

end Verif
