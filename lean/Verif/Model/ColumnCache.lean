import Verif.Model.RingBuffer
import Verif.PyArith

/-!
# Model of the data windows and the column cache of the distance generators

`BoundStreamingEuclidean` (generator/euclidean.py:60-141) and `BoundZNormEuclidean` (generator/znorm_euclidean.py:118-307)
contain the same code for the data windows, the cached first row and the cached previous column; only the function
calculating a full row/column and the update term differ. This code is modelled once.
-/

namespace Verif

/-- The fields `m`, `series`, `query`, `self_join`, `first_row`, `first_row_backlog`, `prev_calc_column_index`,
`prev_calc_column_sq_dist`/`prev_calc_column_dot_prod`; euclidean.py:61-70, znorm_euclidean.py:130-150. -/
structure ColCache (K : Type) where
  m : Int
  series : RB (Fl K)
  /-- `none`: self-join, the query buffer is the series buffer -/
  query : Option (RB (Fl K))
  firstRow : Option (RB (Fl K))
  backlog : Nat
  prevIdx : Option Int
  /-- not read while `prevIdx` is `none` -/
  prev : List (Fl K)

namespace ColCache
variable {K : Type}

/-- `self.series.view`, euclidean.py:63, znorm_euclidean.py:132 -/
def s (g : ColCache K) : List (Fl K) := g.series.items

/-- `self.query.view` (the series buffer in a self-join, euclidean.py:39, 55, znorm_euclidean.py:61, 102) -/
def q (g : ColCache K) : List (Fl K) := (g.query.getD g.series).items

/-- `append_series`, first part: euclidean.py:76-78, znorm_euclidean.py:156-158. Also returns `data_dropped` and
`num_dropped`. -/
def pushSeries (g : ColCache K) (values : List (Fl K)) : Except PyErr (ColCache K × Nat × Int) := do
  let (series, dropped) ← g.series.push values
  return ({ g with series := series, backlog := g.backlog + values.length }, dropped,
    values.length - ((series.vmax : Int) - series.items.length))

/-- `append_series`, last part: euclidean.py:80-86, znorm_euclidean.py:167-173. -/
def finishSeries (g : ColCache K) (dropped : Nat) (numDropped : Int) : ColCache K :=
  let idx := if numDropped > 0 then g.prevIdx.map (· - numDropped) else g.prevIdx
  match g.query with
  | none => { g with firstRow := if dropped ≠ 0 then none else g.firstRow, prevIdx := none }
  | some _ => { g with prevIdx := idx }

/-- `append_query` after the guards: euclidean.py:95-97, znorm_euclidean.py:182-184. -/
def pushQuery (g : ColCache K) (query : RB (Fl K)) (values : List (Fl K)) : Except PyErr (ColCache K) := do
  let (query, dropped) ← query.push values
  return { g with query := some query, firstRow := if dropped ≠ 0 then none else g.firstRow, prevIdx := none }

variable [Field K] [LinearOrder K]

/-- The refresh of the first row, euclidean.py:122-130, znorm_euclidean.py:256-266. `full data sequence` calculates one value
per window of `data`; `mem n` is the memory `np.empty` returns for `n` elements. -/
def refreshFirstRow (mem : Nat → List (Fl K)) (full : List (Fl K) → List (Fl K) → Except PyErr (List (Fl K)))
    (g : ColCache K) : Except PyErr (ColCache K × RB (Fl K)) :=
  match g.firstRow with
  | none => do
      let row ← full g.s (pySlice g.q 0 g.m)
      let n := ((g.series.vmax : Int) - g.m + 1).toNat
      let fr ← RB.init (some ([], row)) (some ([], n)) false (mem (RB.capacity 2 n))
      return ({ g with firstRow := some fr, backlog := 0 }, fr)
  | some fr =>
      if g.backlog > 0 then do
        let row ← full (pyFrom g.s (-((g.backlog : Int) + g.m - 1))) (pySlice g.q 0 g.m)
        let (fr, _) ← fr.push row
        return ({ g with firstRow := some fr, backlog := 0 }, fr)
      else .ok (g, fr)

/-- The cached part of `calc_column`, euclidean.py:117-139, znorm_euclidean.py:251-275: squared distances / dot products of
one column. `term s q` is the contribution of one pair of points. -/
def column (mem : Nat → List (Fl K)) (full : List (Fl K) → List (Fl K) → Except PyErr (List (Fl K)))
    (term : Fl K → Fl K → Fl K) (g : ColCache K) (c : Int) : Except PyErr (ColCache K × List (Fl K)) :=
  if g.prevIdx ≠ some (c - 1) ∨ c = 0 then do
    let v ← full g.q (pySlice g.s c (c + g.m))
    return ({ g with prev := v, prevIdx := some c }, v)
  else do
    let (g, fr) ← g.refreshFirstRow mem full
    let x ← pyGet g.s (c - 1)
    let y ← pyGet g.s (c + g.m - 1)
    let a ← npZip Fl.sub (pyTo g.prev (-1)) ((pyTo g.q (g.q.length - g.m)).map (term x))
    let b ← npZip Fl.add a ((pyFrom g.q g.m).map (term y))
    let v ← assignSlice g.prev (pyIdx g.prev.length 1) g.prev.length b
    let h ← pyGet fr.items c
    let v ← pySet v 0 h
    return ({ g with prev := v, prevIdx := some c }, v)

/-- The points of a diagonal combined by `op`: euclidean.py:107, 112 (`op` is subtraction), znorm_euclidean.py:202, 209
(multiplication). -/
def diagPoints (op : Fl K → Fl K → Fl K) (g : ColCache K) (dl diag : Int) : Except PyErr (List (Fl K)) :=
  if diag ≥ 0 then npZip op (pyTo g.q dl) (pySlice g.s diag (diag + dl))
  else npZip op (pySlice g.q (-diag) (-diag + dl)) (pyTo g.s dl)

end ColCache

/-- `cumsum = np.zeros(dl + 1); cumsum[1:] = np.cumsum(x)`: euclidean.py:101-112, znorm_euclidean.py:196-209. -/
def cumsum0 {K : Type} [Field K] [LinearOrder K] (dl : Int) (x : List (Fl K)) : Except PyErr (List (Fl K)) := do
  let zeros ← npZeros (K := K) (dl + 1)
  assignSlice zeros (pyIdx zeros.length 1) zeros.length (npCumsum x)

end Verif
