import Verif.Model.ColumnCache
import Verif.Model.Util

/-!
# Model of `distancematrix/generator/euclidean.py`

Data are 1-D by type (the `ndim` guards 45-48, 153-156 are not modelled). `K` is an exact ordered field and `sq` its square
root (only applied to the final result); with `K = ℝ`, `sq = √` this is the code without rounding.
-/

namespace Verif

namespace Eucl
variable {K : Type} [Field K] [LinearOrder K]

/-- `EPSILON`, euclidean.py:9 -/
def eps : K := 1 / 10 ^ 15

/-- `_euclidean_distance_squared`, euclidean.py:144-179 -/
def sqDist (series sequence : List (Fl K)) : Except PyErr (List (Fl K)) := do
  let view ← slidingWindows series sequence.length
  return view.map fun w =>
    let d := Fl.sum (List.zipWith Fl.mul w w)
    let d := Fl.sub d (Fl.mul (.fin 2) (Fl.sum (List.zipWith Fl.mul w sequence)))
    let d := Fl.add d (Fl.sum (List.zipWith Fl.mul sequence sequence))
    if d.ltF (.fin eps) then .fin 0 else d

/-- Contribution of one pair of points, euclidean.py:134-135. -/
def term (s q : Fl K) : Fl K := Fl.square (Fl.sub s q)

/-- `Euclidean.prepare_streaming`, euclidean.py:32-42. `mem n`: uninitialised memory for `n` elements. -/
def prepareStreaming (mem : Nat → List (Fl K)) (scale : ℚ) (m : Int) (seriesWindow : Nat) (queryWindow : Option Nat) : ColCache K :=
  { m := m, series := RB.mkEmpty [] seriesWindow (mem (RB.capacity scale seriesWindow)),
    query := queryWindow.map fun w => RB.mkEmpty [] w (mem (RB.capacity scale w)),
    firstRow := none, backlog := 0, prevIdx := none, prev := [] }

/-- `Euclidean.prepare`, euclidean.py:44-57 -/
def prepare (mem : Nat → List (Fl K)) (m : Int) (series : List (Fl K)) (query : Option (List (Fl K))) :
    Except PyErr (ColCache K) := do
  let s ← RB.init (some ([], series)) none true (mem (RB.capacity 1 series.length))
  match query with
  | none => return { m := m, series := s, query := none, firstRow := none, backlog := 0, prevIdx := none, prev := [] }
  | some query =>
      let q ← RB.init (some ([], query)) none true (mem (RB.capacity 1 query.length))
      return { m := m, series := s, query := some q, firstRow := none, backlog := 0, prevIdx := none, prev := [] }

/-- `append_series`, euclidean.py:72-86 -/
def appendSeries (g : ColCache K) (values : List (Fl K)) : Except PyErr (ColCache K) :=
  if values.length = 0 then .ok g
  else do
    let (g, dropped, numDropped) ← g.pushSeries values
    return g.finishSeries dropped numDropped

/-- `append_query`, euclidean.py:88-97 -/
def appendQuery (g : ColCache K) (values : List (Fl K)) : Except PyErr (ColCache K) :=
  match g.query with
  | none => .error .runtimeError
  | some query => if values.length = 0 then .ok g else g.pushQuery query values

/-- `calc_diagonal`, euclidean.py:99-114 -/
def calcDiagonal (sq : K → K) (g : ColCache K) (diag : Int) : Except PyErr (List (Fl K)) := do
  let dl := diagLength g.q.length g.s.length diag
  let diffs ← g.diagPoints Fl.sub dl diag
  let cumsum ← cumsum0 dl (diffs.map Fl.square)
  let r ← npZip Fl.sub (pyFrom cumsum g.m) (pyTo cumsum (cumsum.length - g.m))
  return r.map (Fl.sqrtF sq)

/-- `calc_column`, euclidean.py:116-141 -/
def calcColumn (mem : Nat → List (Fl K)) (sq : K → K) (g : ColCache K) (c : Int) : Except PyErr (ColCache K × List (Fl K)) := do
  let (g, v) ← g.column mem sqDist term c
  return (g, v.map (Fl.sqrtF sq))

end Eucl
end Verif
