import Verif.Py

/-!
# Model of `distancematrix/consumer/contextmanager.py`

Context definitions are lists whose elements are `range` objects or lists of `range` objects (one-shot iterators, and elements of other types, are not
modelled). `np.argsort` may return any sorting permutation, which is a parameter; `np.searchsorted` on a sorted array is the number of smaller (not
larger) entries.
-/

namespace Verif

/-- A Python `range` object, as accepted by contextmanager.py:63-70. -/
structure PRange where
  start : Int
  stop : Int
  step : Int
  deriving DecidableEq, Repr

/-- A row `(start, stop, context id)` of the context arrays, contextmanager.py:78-81. -/
structure Ctx where
  start : Int
  stop : Int
  id : Int
  deriving DecidableEq, Repr

/-- `_verify_ranges`, contextmanager.py:117-122 -/
def verifyRanges : List PRange → Except PyErr Unit
  | [] => .ok ()
  | r :: rs => if r.step ≠ 1 then .error .runtimeError else if r.start < 0 then .error .runtimeError else verifyRanges rs

/-- `_enumerate_flattened`, contextmanager.py:125-137; `i` is the index of the first element. -/
def enumerateFlattened : List (PRange ⊕ List PRange) → Int → List (Int × PRange)
  | [], _ => []
  | .inr rs :: l, i => rs.map (fun r => (i, r)) ++ enumerateFlattened l (i + 1)
  | .inl r :: l, i => (i, r) :: enumerateFlattened l (i + 1)

/-- `_filter_empty`, contextmanager.py:140-143 -/
def filterEmpty : List (Int × PRange) → List (Int × PRange)
  | [] => []
  | (i, r) :: l => if r.start < r.stop then (i, r) :: filterEmpty l else filterEmpty l

/-- The rows of a context array, contextmanager.py:78-81 -/
def ctxArray (l : List (PRange ⊕ List PRange)) : List Ctx := (filterEmpty (enumerateFlattened l 0)).map fun x => ⟨x.2.start, x.2.stop, x.1⟩

/-- Indexing `[:, k]`: an array without rows is 1-dimensional, `IndexError`; contextmanager.py:83-84, 87-88, 93-96. -/
def needRows (l : List Ctx) : Except PyErr Unit := if l = [] then .error .indexError else .ok ()

/-- `class GeneralStaticManager`, contextmanager.py:58-84 -/
structure StaticMgr where
  series : List Ctx
  query : List Ctx
  qcStart : List Ctx
  qcStop : List Ctx

namespace StaticMgr

/-- `__init__`, contextmanager.py:63-84. `o1`, `o2`: the results of the two `np.argsort` calls. -/
def init (series : List (PRange ⊕ List PRange)) (query : Option (List (PRange ⊕ List PRange))) (o1 o2 : List Nat) : Except PyErr StaticMgr := do
  verifyRanges ((enumerateFlattened series 0).map Prod.snd)
  let q := query.getD series
  verifyRanges (if query.isNone then [] else (enumerateFlattened q 0).map Prod.snd)
  let qa := ctxArray q
  needRows qa
  let s1 ← o1.mapM fun i : Nat => pyGet qa (i : Int)
  let s2 ← o2.mapM fun i : Nat => pyGet qa (i : Int)
  return { series := ctxArray series, query := qa, qcStart := s1, qcStop := s2 }

/-- `np.max(ids)`, contextmanager.py:87-88; the array is not empty. -/
def maxId (l : List Ctx) : Int := (l.map Ctx.id).foldl max ((l.map Ctx.id).headD 0)

/-- `context_matrix_shape`, contextmanager.py:86-90 -/
def shape (m : StaticMgr) : Except PyErr (Int × Int) := do
  needRows m.query
  needRows m.series
  return (maxId m.query + 1, maxId m.series + 1)

/-- `series_contexts`, contextmanager.py:92-96 -/
def seriesContexts (m : StaticMgr) (start stop : Int) : Except PyErr (List Ctx) := do
  needRows m.series
  return m.series.filter fun c => decide (c.start < stop) && decide (c.stop > start)

/-- `query_contexts`, contextmanager.py:98-114 -/
def queryContexts (m : StaticMgr) (start stop : Int) : Except PyErr (List Ctx) := do
  let first ← pyGet m.qcStart 0
  let last ← pyGet m.qcStop (-1)
  -- 99-100
  if start ≤ first.start ∧ stop ≥ last.stop then return m.query
  -- 102-105
  else if start = 0 then
    let k := (m.qcStart.filter fun c => decide (c.start < stop)).length
    return (pyTo m.qcStart k).filter fun c => decide (c.stop > 0)
  -- 106-109
  else if stop ≥ last.stop then
    let k := (m.qcStop.filter fun c => decide (c.stop ≤ start)).length
    return (pyFrom m.qcStop k).filter fun c => decide (c.start < stop)
  -- 110-114
  else return m.query.filter fun c => decide (c.start < stop) && decide (c.stop > start)

/-- `shift_query`, `shift_series` of the base class, contextmanager.py:39-55 -/
def shift (_ : StaticMgr) (_ : Int) : Except PyErr (StaticMgr × Int) := .error .runtimeError

end StaticMgr
end Verif
