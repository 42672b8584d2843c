import Verif.Model.MatrixProfile
import Verif.Model.ContextualMP

/-!
# Model of `distancematrix/consumer/multidimensional_matrix_profile_lr.py`, `MultidimensionalMatrixProfileLR`

2-D arrays are lists of columns. `argsort` stands for `np.argsort` on one column: NumPy sorts every column of a 2-D array separately with the same routine.
-/

namespace Verif
variable {K : Type} [Field K] [LinearOrder K]

/-- Profile, index and dimensions of one side, multidimensional_matrix_profile_lr.py:66-72 (74-80). `dm[i]` has `i + 1` rows. -/
structure MDSide (K : Type) where
  mp : RB (List (Fl K))
  pi : RB (List Int)
  dm : List (RB (List Int))

namespace MDSide

/-- The buffers of one side, multidimensional_matrix_profile_lr.py:66-72 (74-80). -/
def init (memF : Nat → List (List (Fl K))) (memI : Nat → List (List Int)) (scale : ℚ) (dims w : Nat) : Except PyErr (MDSide K) := do
  let mp ← CMP.fullBuffer dims w .pinf (memF (RB.capacity scale w))
  let pi ← CMP.fullBuffer dims w (-1) (memI (RB.capacity scale w))
  let dm ← (List.range dims).mapM fun i => CMP.fullBuffer (i + 1) w (-1) (memI (RB.capacity scale w))
  return ⟨mp, pi, dm⟩

/-- `_update_matrix_profile` on row `dim` and columns `a` to `b` of one side, multidimensional_matrix_profile_lr.py:163-168. A mask that does not fit raises
`IndexError`. -/
def update (s : MDSide K) (dim : Nat) (dist : List (Fl K)) (rows : List Int) (dims : List (List Int)) (a b : Int) : Except PyErr (MDSide K) := do
  let dm ← pyGet s.dm dim
  let row ← (pySlice s.mp.items a b).mapM (pyGet · dim)
  let upd ← npZip Fl.ltF dist row
  if upd.length = dist.length ∧ upd.length = rows.length ∧ upd.length = dims.length ∧ upd.length = row.length then
    let mpNew ← ((upd.zip dist).zip (pySlice s.mp.items a b)).mapM fun x => if x.1.1 then pySet x.2 dim x.1.2 else .ok x.2
    let piNew ← ((upd.zip rows).zip (pySlice s.pi.items a b)).mapM fun x => if x.1.1 then pySet x.2 dim x.1.2 else .ok x.2
    let mp ← s.mp.setSlice a b mpNew
    let pi ← s.pi.setSlice a b piNew
    let dmRb ← dm.setSlice a b (((upd.zip dims).zip (pySlice dm.items a b)).map fun x => if x.1.1 then x.1.2 else x.2)
    let dmAll ← pySet s.dm dim dmRb
    return ⟨mp, pi, dmAll⟩
  else .error .indexError

/-- One of the loops of `process_diagonal`, multidimensional_matrix_profile_lr.py:93-102 (104-113, 117-126, 128-137, 140-149, 152-161), with the running
`values_cumsum`. -/
def loop (s : MDSide K) (sorted : List (List (Fl K))) (order : List (List Int)) (rows : List Int) (a b : Int) (cum : List (Fl K)) :
    List Nat → Except PyErr (MDSide K × List (Fl K))
  | [] => .ok (s, cum)
  | dim :: rest => do
    let row ← sorted.mapM (pyGet · dim)
    let cum := List.zipWith Fl.add cum row
    let s ← s.update dim (cum.map fun x => Fl.div x (.fin ((dim : K) + 1))) rows (order.map (·.take (dim + 1))) a b
    loop s sorted order rows a b cum rest

/-- One side of `process_column` for one `dim`, multidimensional_matrix_profile_lr.py:183-190 (194-202): `part` starts at position `lo` of the column. -/
def column (s : MDSide K) (argsort : List (Fl K) → List Nat) (dim : Nat) (c : Int) (vals : List (List (Fl K))) (cum part : List (Fl K)) (lo queryShift : Int) :
    Except PyErr (MDSide K) := do
  let am ← npArgmin part
  let pos := (am : Int) + lo
  let x ← pyGet cum pos
  let old ← s.mp.getEntry dim c
  if Fl.ltF (Fl.div x (.fin ((dim : K) + 1))) old then
    let mp ← s.mp.setEntry dim c (Fl.div x (.fin ((dim : K) + 1)))
    let pi ← s.pi.setEntry dim c (pos + queryShift)
    let dm ← pyGet s.dm dim
    let col ← pyGet vals pos
    let dmRb ← dm.setItem c (((argsort col).take (dim + 1)).map fun i : Nat => (i : Int))
    let dmAll ← pySet s.dm dim dmRb
    return ⟨mp, pi, dmAll⟩
  else return s

/-- The buffers pushed onto one by one in `shift_series`, multidimensional_matrix_profile_lr.py:225-227 -/
def shiftDims (amount : Nat) : Nat → List (RB (List Int)) → Except PyErr (List (RB (List Int)))
  | _, [] => .ok []
  | dim, rb :: rest => do
    let (rb, _) ← rb.pushArr [dim + 1] (List.replicate amount (List.replicate (dim + 1) (-1)))
    let rest ← shiftDims amount (dim + 1) rest
    return rb :: rest

/-- `shift_series` for one side, multidimensional_matrix_profile_lr.py:217-227 -/
def shift (s : MDSide K) (dims amount : Nat) : Except PyErr (MDSide K) := do
  let (mp, _) ← s.mp.pushArr [dims] (List.replicate amount (List.replicate dims .pinf))
  let (pi, _) ← s.pi.pushArr [dims] (List.replicate amount (List.replicate dims (-1)))
  let dm ← shiftDims amount 0 s.dm
  return ⟨mp, pi, dm⟩

end MDSide

/-- `class MultidimensionalMatrixProfileLR` after `initialise`, multidimensional_matrix_profile_lr.py:31-80 -/
structure MDMP (K : Type) where
  nDim : Nat
  range : RB Int
  left : MDSide K
  right : MDSide K
  seriesShift : Int
  queryShift : Int

namespace MDMP

/-- `__init__` and `initialise`, multidimensional_matrix_profile_lr.py:31-80. `mem`: uninitialised memory. -/
def initialise (memF : Nat → List (List (Fl K))) (memI : Nat → List (List Int)) (memR : Nat → List Int) (scale : ℚ) (dims : Nat) (seriesSubseq : Nat) :
    Except PyErr (MDMP K) := do
  if scale < 1 then .error .valueError
  else
    let range ← RB.init (some ([], pyRange 0 seriesSubseq)) none false (memR (RB.capacity scale seriesSubseq))
    let left ← MDSide.init memF memI scale dims seriesSubseq
    let right ← MDSide.init memF memI scale dims seriesSubseq
    return { nDim := dims, range := range, left := left, right := right, seriesShift := 0, queryShift := 0 }

/-- The last part of `process_diagonal`, multidimensional_matrix_profile_lr.py:139-161: it runs after the part above it and goes on with the same
`values_cumsum`. -/
def secondPass (p : MDMP K) (diag : Int) (n : Nat) (sorted : List (List (Fl K))) (order : List (List Int)) (cum : List (Fl K)) (dims : List Nat) :
    Except PyErr (MDMP K) := do
  let (a, b) := diagCols diag n
  if diag ≥ 0 then
    let (s, _) ← p.left.loop sorted order (diagRows p.range.items diag n) a b cum dims
    return { p with left := s }
  else
    let (s, _) ← p.right.loop sorted order (diagRows p.range.items diag n) a b cum dims
    return { p with right := s }

/-- `process_diagonal`, multidimensional_matrix_profile_lr.py:82-161. Line 122 passes the single number `self._range[num_values]` as array of row numbers (or
raises `IndexError` itself); line 167 then raises `IndexError`. -/
def processDiagonal (argsort : List (Fl K) → List Nat) (p : MDMP K) (diag : Int) (nDim : Nat) (vals : List (List (Fl K))) : Except PyErr (MDMP K) := do
  let sorted := vals.map npSort
  let order := vals.map fun v => (argsort v).map fun i : Nat => (i : Int)
  let cum := List.replicate vals.length (.fin 0)
  let (a, b) := diagCols diag vals.length
  if diag + (p.seriesShift - p.queryShift) ≥ 0 then
    let (s, cum) ← p.left.loop sorted order (diagRows p.range.items diag vals.length) a b cum (List.range nDim)
    secondPass { p with left := s } diag vals.length sorted order cum (List.range nDim)
  else if diag ≥ 0 ∧ nDim ≠ 0 then .error .indexError
  else
    let (s, cum) ← p.right.loop sorted order (diagRows p.range.items diag vals.length) a b cum (List.range nDim)
    secondPass { p with right := s } diag vals.length sorted order cum (List.range nDim)

/-- multidimensional_matrix_profile_lr.py:182-190 -/
def columnLeft (argsort : List (Fl K) → List Nat) (p : MDMP K) (dim : Nat) (c : Int) (vals : List (List (Fl K))) (cum : List (Fl K)) (border : Int) :
    Except PyErr (MDSide K) :=
  if border > 0 then p.left.column argsort dim c vals cum (pyTo cum border) 0 p.queryShift else .ok p.left

/-- multidimensional_matrix_profile_lr.py:192-202 -/
def columnRight (argsort : List (Fl K) → List Nat) (p : MDMP K) (dim : Nat) (c : Int) (vals : List (List (Fl K))) (cum : List (Fl K)) (border : Int) :
    Except PyErr (MDSide K) :=
  if (vals.length : Int) > border then p.right.column argsort dim c vals cum (pyFrom cum border) border p.queryShift else .ok p.right

/-- The loop of `process_column`, multidimensional_matrix_profile_lr.py:179-202 -/
def columnLoop (argsort : List (Fl K) → List Nat) (c : Int) (vals : List (List (Fl K))) (border : Int) (p : MDMP K) (cum : List (Fl K)) :
    List Nat → Except PyErr (MDMP K)
  | [] => .ok p
  | dim :: rest => do
    let row ← (vals.map npSort).mapM (pyGet · dim)
    let cum := List.zipWith Fl.add cum row
    let left ← p.columnLeft argsort dim c vals cum border
    let right ← p.columnRight argsort dim c vals cum border
    columnLoop argsort c vals border { p with left := left, right := right } cum rest

/-- `process_column`, multidimensional_matrix_profile_lr.py:170-202 -/
def processColumn (argsort : List (Fl K) → List Nat) (p : MDMP K) (c : Int) (nDim : Nat) (vals : List (List (Fl K))) : Except PyErr (MDMP K) :=
  columnLoop argsort c vals (max 0 (c + 1 + (p.seriesShift - p.queryShift))) p (List.replicate vals.length (.fin 0)) (List.range nDim)

/-- `shift_query`, multidimensional_matrix_profile_lr.py:204-209 -/
def shiftQuery (p : MDMP K) (amount : Int) : Except PyErr (MDMP K) :=
  if amount = 0 then .ok p
  else do
    let last ← pyGet p.range.items (-1)
    let (range, _) ← p.range.push (pyRange (last + 1) (last + 1 + amount))
    return { p with range := range, queryShift := p.queryShift + amount }

/-- `shift_series`, multidimensional_matrix_profile_lr.py:211-227 (`np.full` raises `ValueError` for a negative size). -/
def shiftSeries (p : MDMP K) (amount : Int) : Except PyErr (MDMP K) :=
  if amount = 0 then .ok p
  else if amount < 0 then .error .valueError
  else do
    let left ← p.left.shift p.nDim amount.toNat
    let right ← p.right.shift p.nDim amount.toNat
    return { p with left := left, right := right, seriesShift := p.seriesShift + amount }

/-- `md_matrix_profile`, multidimensional_matrix_profile_lr.py:229-239 -/
def merged (p : MDMP K) : List (List (Fl K)) := List.zipWith (List.zipWith fun l r => if Fl.ltF l r then l else r) p.left.mp.items p.right.mp.items

/-- `np.where(left < right, a, b)` on 2-D arrays, multidimensional_matrix_profile_lr.py:247-252 -/
def whereLess (left right : List (List (Fl K))) (a b : List (List Int)) : List (List Int) :=
  List.zipWith (fun (x : List (Fl K) × List (Fl K)) (y : List Int × List Int) =>
    List.zipWith (fun (u : Fl K × Fl K) (v : Int × Int) => if Fl.ltF u.1 u.2 then v.1 else v.2) (x.1.zip x.2) (y.1.zip y.2)) (left.zip right) (a.zip b)

/-- `md_profile_index`, multidimensional_matrix_profile_lr.py:241-252 -/
def mergedIdx (p : MDMP K) : List (List Int) := whereLess p.left.mp.items p.right.mp.items p.left.pi.items p.right.pi.items

/-- One entry of `md_profile_dimensions`, multidimensional_matrix_profile_lr.py:262-268 -/
def mergedDim (p : MDMP K) (dim : Nat) : Except PyErr (List (List Int)) := do
  let l ← p.left.mp.items.mapM (pyGet · dim)
  let r ← p.right.mp.items.mapM (pyGet · dim)
  let a ← pyGet p.left.dm dim
  let b ← pyGet p.right.dm dim
  return List.zipWith (fun (x : Fl K × Fl K) (y : List Int × List Int) => if Fl.ltF x.1 x.2 then y.1 else y.2) (l.zip r) (a.items.zip b.items)

/-- `md_profile_dimensions`, multidimensional_matrix_profile_lr.py:254-270 -/
def mergedDims (p : MDMP K) : Except PyErr (List (List (List Int))) := (List.range p.nDim).mapM p.mergedDim

end MDMP
end Verif
