import Verif.Model.RingBuffer
import Verif.PyArith

/-!
# Model of `distancematrix/consumer/matrix_profile_lr.py`, `MatrixProfileLR` and `ShiftingMatrixProfileLR`

`values` has one row per channel; only row 0 is read. Indices are unbounded integers.
-/

namespace Verif
variable {K : Type} [LinearOrder K]

/-- `_update_matrix_profile`, matrix_profile_lr.py:65-69, on the contents of the two profile views: the new contents. Boolean masks of the
wrong length raise `IndexError`. -/
def updateProfile (vals : List (Fl K)) (idx : List Int) (mp : List (Fl K)) (pi : List Int) : Except PyErr (List (Fl K) × List Int) := do
  let upd ← npZip Fl.ltF vals mp
  if upd.length = mp.length ∧ upd.length = vals.length ∧ upd.length = pi.length ∧ upd.length = idx.length then
    return (List.zipWith (fun (x : Bool × Fl K) m => if x.1 then x.2 else m) (upd.zip vals) mp,
      List.zipWith (fun (x : Bool × Int) p => if x.1 then x.2 else p) (upd.zip idx) pi)
  else .error .indexError

/-- The row numbers of a diagonal, matrix_profile_lr.py:45, 51 (166, 172, 180, 186, 297, 304). -/
def diagRows (range : List Int) (diag n : Int) : List Int :=
  if diag ≥ 0 then pyTo range n else pySlice range (-diag) (-diag + n)

/-- The slice of columns of a diagonal, matrix_profile_lr.py:46-47, 52-53 (167-168, 173-174, 181-182, 187-188, 298-300, 305-307). -/
def diagCols (diag n : Int) : Int × Int := if diag ≥ 0 then (diag, diag + n) else (0, n)

/-- `class MatrixProfileLR` after `initialise`, matrix_profile_lr.py:29-36. -/
structure MP (K : Type) where
  range : List Int
  left : List (Fl K)
  leftIdx : List Int
  right : List (Fl K)
  rightIdx : List Int

namespace MP

/-- `initialise`, matrix_profile_lr.py:29-36 (`np.full` raises `ValueError` for a negative size). -/
def initialise (querySubseq seriesSubseq : Int) : Except PyErr (MP K) :=
  if seriesSubseq < 0 then .error .valueError
  else
    let n := seriesSubseq.toNat
    .ok { range := pyRange 0 (max seriesSubseq querySubseq), left := List.replicate n .pinf, leftIdx := List.replicate n (-1),
          right := List.replicate n .pinf, rightIdx := List.replicate n (-1) }

/-- `process_diagonal`, matrix_profile_lr.py:38-53 -/
def processDiagonal (p : MP K) (diag : Int) (values : List (List (Fl K))) : Except PyErr (MP K) := do
  let vals ← pyGet values 0
  let (a, b) := diagCols diag vals.length
  if diag ≥ 0 then
    let (mp, pi) ← updateProfile vals (diagRows p.range diag vals.length) (pySlice p.left a b) (pySlice p.leftIdx a b)
    let left ← pyAssign p.left a b mp
    let leftIdx ← pyAssign p.leftIdx a b pi
    return { p with left := left, leftIdx := leftIdx }
  else
    let (mp, pi) ← updateProfile vals (diagRows p.range diag vals.length) (pySlice p.right a b) (pySlice p.rightIdx a b)
    let right ← pyAssign p.right a b mp
    let rightIdx ← pyAssign p.rightIdx a b pi
    return { p with right := right, rightIdx := rightIdx }

/-- `process_column`, matrix_profile_lr.py:55-63 -/
def processColumn (p : MP K) (c : Int) (values : List (List (Fl K))) : Except PyErr (MP K) := do
  let vals ← pyGet values 0
  let mn ← npMin (pyTo vals (c + 1))
  let left ← pySet p.left c mn
  let am ← npArgmin (pyTo vals (c + 1))
  let leftIdx ← pySet p.leftIdx c am
  if (vals.length : Int) ≥ c + 2 then
    let mn ← npMin (pyFrom vals (c + 1))
    let right ← pySet p.right c mn
    let am ← npArgmin (pyFrom vals (c + 1))
    let rightIdx ← pySet p.rightIdx c (am + c + 1)
    return { p with left := left, leftIdx := leftIdx, right := right, rightIdx := rightIdx }
  else return { p with left := left, leftIdx := leftIdx }

/-- `matrix_profile`, matrix_profile_lr.py:87-98 (also 348-359) -/
def merged (left right : List (Fl K)) : List (Fl K) := List.zipWith (fun l r => if Fl.ltF l r then l else r) left right

/-- `profile_index`, matrix_profile_lr.py:100-111 -/
def mergedIdx (left right : List (Fl K)) (leftIdx rightIdx : List Int) : List Int :=
  List.zipWith (fun (x : Fl K × Fl K) (i : Int × Int) => if Fl.ltF x.1 x.2 then i.1 else i.2) (left.zip right) (leftIdx.zip rightIdx)

end MP

/-- Two of the buffers of `ShiftingMatrixProfileLR`: profile and index of one side, matrix_profile_lr.py:151-154. -/
structure MPSide (K : Type) where
  mp : RB (Fl K)
  pi : RB Int

namespace MPSide

/-- `self._update_matrix_profile(values, rows, side[a:b], index[a:b])`, matrix_profile_lr.py:164-188: writes through the views. -/
def update (s : MPSide K) (vals : List (Fl K)) (idx : List Int) (a b : Int) : Except PyErr (MPSide K) := do
  let (mp, pi) ← updateProfile vals idx (pySlice s.mp.items a b) (pySlice s.pi.items a b)
  let rm ← s.mp.setSlice a b mp
  let ri ← s.pi.setSlice a b pi
  return ⟨rm, ri⟩

/-- One side of `process_column`: matrix_profile_lr.py:196-201, 204-209. `offset` is added to the position of the minimum. -/
def column (s : MPSide K) (c : Int) (part : List (Fl K)) (offset : Int) : Except PyErr (MPSide K) := do
  let mn ← npMin part
  let old ← pyGet s.mp.items c
  if Fl.ltF mn old then
    let rm ← s.mp.setItem c mn
    let am ← npArgmin part
    let ri ← s.pi.setItem c (am + offset)
    return ⟨rm, ri⟩
  else return s

/-- `shift_series` for one side, matrix_profile_lr.py:224-230 -/
def shift (s : MPSide K) (amount : Nat) : Except PyErr (MPSide K) := do
  let (mp, _) ← s.mp.push (List.replicate amount .pinf)
  let (pi, _) ← s.pi.push (List.replicate amount (-1))
  return ⟨mp, pi⟩

end MPSide

/-- `class ShiftingMatrixProfileLR` after `initialise`, matrix_profile_lr.py:141-154. -/
structure ShiftingMP (K : Type) where
  range : RB Int
  left : MPSide K
  right : MPSide K
  seriesShift : Int
  queryShift : Int

namespace ShiftingMP

/-- The side buffers around the arrays created by `MatrixProfileLR.initialise`, matrix_profile_lr.py:151-154. -/
def initSide (memF : Nat → List (Fl K)) (memI : Nat → List Int) (scale : ℚ) (mp : List (Fl K)) (pi : List Int) : Except PyErr (MPSide K) := do
  let a ← RB.init (some ([], mp)) none false (memF (RB.capacity scale mp.length))
  let b ← RB.init (some ([], pi)) none false (memI (RB.capacity scale pi.length))
  return ⟨a, b⟩

/-- `__init__` and `initialise`, matrix_profile_lr.py:138-154. `memF`, `memI`: uninitialised memory. -/
def initialise (memF : Nat → List (Fl K)) (memI : Nat → List Int) (scale : ℚ) (querySubseq seriesSubseq : Int) : Except PyErr (ShiftingMP K) := do
  if scale < 1 then .error .valueError
  else
    let p ← MP.initialise (K := K) querySubseq seriesSubseq
    let range ← RB.init (some ([], p.range)) none false (memI (RB.capacity scale p.range.length))
    let left ← initSide memF memI scale p.left p.leftIdx
    let right ← initSide memF memI scale p.right p.rightIdx
    return { range := range, left := left, right := right, seriesShift := 0, queryShift := 0 }

/-- `process_diagonal`, matrix_profile_lr.py:156-188 -/
def processDiagonal (p : ShiftingMP K) (diag : Int) (values : List (List (Fl K))) : Except PyErr (ShiftingMP K) := do
  let vals ← pyGet values 0
  let shiftDiff := p.seriesShift - p.queryShift
  let (a, b) := diagCols diag vals.length
  if diag + shiftDiff ≥ 0 then
    let left ← p.left.update vals (diagRows p.range.items diag vals.length) a b
    return { p with left := left }
  else
    let right ← p.right.update vals (diagRows p.range.items diag vals.length) a b
    return { p with right := right }

/-- matrix_profile_lr.py:194-201 -/
def columnLeft (p : ShiftingMP K) (c : Int) (vals : List (Fl K)) (border : Int) : Except PyErr (MPSide K) :=
  if border > 0 then p.left.column c (pyTo vals border) p.queryShift else .ok p.left

/-- matrix_profile_lr.py:203-209 -/
def columnRight (p : ShiftingMP K) (c : Int) (vals : List (Fl K)) (border : Int) : Except PyErr (MPSide K) :=
  if (vals.length : Int) > border then p.right.column c (pyFrom vals border) (border + p.queryShift) else .ok p.right

/-- `process_column`, matrix_profile_lr.py:190-209 -/
def processColumn (p : ShiftingMP K) (c : Int) (values : List (List (Fl K))) : Except PyErr (ShiftingMP K) := do
  let vals ← pyGet values 0
  let shiftDiff := p.seriesShift - p.queryShift
  let border := max 0 (c + 1 + shiftDiff)
  let left ← p.columnLeft c vals border
  let right ← p.columnRight c vals border
  return { p with left := left, right := right }

/-- `shift_query`, matrix_profile_lr.py:211-216 -/
def shiftQuery (p : ShiftingMP K) (amount : Int) : Except PyErr (ShiftingMP K) :=
  if amount = 0 then .ok p
  else do
    let last ← pyGet p.range.items (-1)
    let (range, _) ← p.range.push (pyRange (last + 1) (last + 1 + amount))
    return { p with range := range, queryShift := p.queryShift + amount }

/-- `shift_series`, matrix_profile_lr.py:218-230 (`np.full` raises `ValueError` for a negative size). -/
def shiftSeries (p : ShiftingMP K) (amount : Int) : Except PyErr (ShiftingMP K) :=
  if amount = 0 then .ok p
  else if amount < 0 then .error .valueError
  else do
    let left ← p.left.shift amount.toNat
    let right ← p.right.shift amount.toNat
    return { p with left := left, right := right, seriesShift := p.seriesShift + amount }

end ShiftingMP
end Verif
