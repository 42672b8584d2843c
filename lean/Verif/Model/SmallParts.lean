import Verif.Model.Util

/-!
# Model of small parts of `distancematrix/util.py` and `distancematrix/calculator.py`

The guards of the functions of 2-D arrays, the sliding minimum and maximum, and the (unused) `_find_invalid_subseq_idxs`.
-/

namespace Verif
variable {K : Type}

/-- `diag_indices_of`, util.py:37-48, for an array of the given shape. -/
def diagIndicesOf (shape : List Nat) (diagonal : Int) : Except PyErr (List Int × List Int) :=
  match shape with
  | [h, w] => .ok (diagIndices h w diagonal)
  | _ => .error .runtimeError

/-- `cut_indices_of` with its guard, util.py:51-73. -/
def cutIndicesOf (shape : List Nat) (cut : Int) : Except PyErr (List Int × List Int) :=
  match shape with
  | [h, w] => .ok (cutIndices h w cut)
  | _ => .error .runtimeError

section
variable [LinearOrder K]

/-- One value of pandas' `rolling(w).min()` (`pick = min`) or `.max()`: infinite values count as missing, and all `w` values must be there. -/
def rollOne (pick : Fl K → Fl K → Fl K) (window : List (Fl K)) : Fl K :=
  match window with
  | [] => .nan
  | x :: xs => if (x :: xs).all Fl.isFinite then xs.foldl pick x else .nan

/-- pandas' `Series(array).rolling(w).min().values`: one value per position, of the `w` values that end there, NaN at the first `w - 1`
positions. A negative `w` is rejected. Simplification: a library function, described and not derived from its source. -/
def rolling (pick : Fl K → Fl K → Fl K) (array : List (Fl K)) (w : Int) : Except PyErr (List (Fl K)) :=
  if w < 0 then .error .valueError
  else .ok ((List.range array.length).map fun i => if w.toNat ≤ i + 1 then rollOne pick ((array.drop (i + 1 - w.toNat)).take w.toNat) else .nan)

/-- `sliding_min`, util.py:136-154. -/
def slidingMin (array : List (Fl K)) (w : Int) : Except PyErr (List (Fl K)) := do
  return pyFrom (← rolling min array w) (w - 1)

/-- `sliding_max`, util.py:157-158. -/
def slidingMax (array : List (Fl K)) (w : Int) : Except PyErr (List (Fl K)) := do
  return pyFrom (← rolling max array w) (w - 1)

end

/-- The loop body of `_find_invalid_subseq_idxs`, calculator.py:435-437: `range` has a single argument. Sets are lists without repetition, in
order of insertion. -/
def addInvalid (m lo hi : Int) (sets : List (List Int)) (x : Nat × Int) : Except PyErr (List (List Int)) :=
  match sets[x.1]? with
  | none => .error .indexError
  | some s => .ok (sets.set x.1 (s ++ (pyRange 0 (max lo (max (x.2 - m + 1) (min (x.2 + m) hi)))).filter (fun i => decide (i ∉ s))))

/-- `_find_invalid_subseq_idxs`, calculator.py:422-439. `invalid`: the (dimension, position) pairs. -/
def findInvalidSubseqIdxs (invalid : List (Nat × Int)) (dims : Nat) (m lo hi : Int) : Except PyErr (List (List Int)) :=
  invalid.foldlM (addInvalid m lo hi) (List.replicate dims [])

end Verif
