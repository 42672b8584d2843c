import Verif.Model.Util

/-!
# Model of `distancematrix/consumer/distance_matrix.py`

`values` has one row per channel; `initialise` accepts one channel only (18-19), so only row 0 exists.
-/

namespace Verif
variable {K : Type}

/-- NumPy `a[rows, cols] = vals` with index arrays: the entries are written one after the other. -/
def Mat.setMany (a : Mat K) (l : List ((Nat × Nat) × K)) : Mat K := l.foldl (fun a x => Mat.set a x.1.1 x.1.2 x.2) a

/-- `np.roll(..., -amount, axis)` along an axis of length `n`: where entry `i` comes from. -/
def rollIdx (n : Nat) (amount : Int) (i : Nat) : Nat := (((i : Int) + amount) % (n : Int)).toNat

/-- `class DistanceMatrix` after `initialise`: the array `distance_matrix` and its shape, distance_matrix.py:6-21. -/
structure DM (K : Type) where
  h : Nat
  w : Nat
  m : Mat (Fl K)

namespace DM

/-- `initialise`, distance_matrix.py:17-21 (`np.full` raises `ValueError` for negative sizes). -/
def initialise (dims querySubseq seriesSubseq : Int) : Except PyErr (DM K) :=
  if dims ≠ 1 then .error .runtimeError
  else if querySubseq < 0 ∨ seriesSubseq < 0 then .error .valueError
  else .ok { h := querySubseq.toNat, w := seriesSubseq.toNat, m := fun _ _ => .nan }

/-- The values assigned to a selection of `n` entries, distance_matrix.py:27, 31: shapes must agree, one value is broadcast. -/
def broadcastTo (n : Nat) (vals : List (Fl K)) : Except PyErr (List (Fl K)) :=
  if vals.length = n then .ok vals
  else match vals with
    | [x] => .ok (List.replicate n x)
    | _ => .error .valueError

/-- `process_diagonal`, distance_matrix.py:23-27 -/
def processDiagonal (p : DM K) (diag : Int) (values : List (List (Fl K))) : Except PyErr (DM K) := do
  let vals ← pyGet values 0
  let rows := pyTo (diagIndices p.h p.w diag).1 vals.length
  let cols := pyTo (diagIndices p.h p.w diag).2 vals.length
  let vals ← broadcastTo rows.length vals
  return { p with m := p.m.setMany (((rows.map Int.toNat).zip (cols.map Int.toNat)).zip vals) }

/-- `process_column`, distance_matrix.py:29-31 -/
def processColumn (p : DM K) (c : Int) (values : List (List (Fl K))) : Except PyErr (DM K) := do
  let vals ← pyGet values 0
  let rows := pyTo (List.range p.h) vals.length
  let c ← wrapIdx p.w c
  let vals ← broadcastTo rows.length vals
  return { p with m := p.m.setMany ((rows.map fun r => (r, c)).zip vals) }

/-- `shift_series`, distance_matrix.py:33-38 -/
def shiftSeries (p : DM K) (amount : Int) : DM K :=
  if amount = 0 then p
  else { p with m := fun i j => if pyIdx p.w (-amount) ≤ j then .nan else p.m i (rollIdx p.w amount j) }

/-- `shift_query`, distance_matrix.py:40-45 -/
def shiftQuery (p : DM K) (amount : Int) : DM K :=
  if amount = 0 then p
  else { p with m := fun i j => if pyIdx p.h (-amount) ≤ i then .nan else p.m (rollIdx p.h amount i) j }

end DM
end Verif
