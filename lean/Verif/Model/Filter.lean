import Verif.Model.Generator
import Verif.Model.RingBuffer
import Verif.Model.Util
import Verif.PyArith

/-!
# Model of `distancematrix/generator/filter_generator.py`

The wrapped generator is abstract (`GenOps G K`), as is the function that marks invalid points. The arrays returned by the
wrapped generator are fresh (both generators of the repository return a new array from `np.sqrt`), so overwriting entries of
them does not change the wrapped generator.
-/

namespace Verif
namespace Filter
variable {G K : Type}

/-- `is_not_finite`, filter_generator.py:10-14 -/
def isNotFinite (data : List (Fl K)) (_m : Int) : List Bool := data.map fun x => !x.isFinite

/-- `_apply_data_validation`, filter_generator.py:207-220 -/
def applyValidation (data : List (Fl K)) (m : Int) (f : List (Fl K) → Int → List Bool) : Except PyErr (List Bool) :=
  let invalid := f data m
  if invalid.length ≠ data.length then .error .runtimeError else .ok invalid

/-- One iteration of the loops 264-268 and 270-275: new value of `impacted` before the decrement. -/
def impact (m impacted : Nat) (invalid : Bool) : Nat := if invalid then m else impacted

/-- The first loop, filter_generator.py:264-268: only `impacted` changes. -/
def maskWarmup (m : Nat) : Nat → List Bool → Nat
  | impacted, [] => impacted
  | impacted, b :: bs => maskWarmup m (impact m impacted b - 1) bs

/-- The second loop, filter_generator.py:270-275. The entries of `result` are written in order, one per iteration (an entry not
written stays `False`). -/
def maskLoop (m : Nat) : Nat → List Bool → List Bool
  | _, [] => []
  | impacted, b :: bs => decide (impact m impacted b ≠ 0) :: maskLoop m (impact m impacted b - 1) bs

/-- `_invalid_data_to_invalid_subseq`, filter_generator.py:251-277, for a subsequence length of at least 1. `np.zeros` raises
`ValueError` for a negative size (261). -/
def invalidSubseq (invalid : List Bool) (m : Nat) : Except PyErr (List Bool) :=
  if invalid.length + 1 < m then .error .valueError
  else .ok (maskLoop m (maskWarmup m 0 (invalid.take (m - 1))) (invalid.drop (m - 1)))

variable [Zero K]

/-- `values = values.copy(); values[invalid] = 0`, filter_generator.py:245-246, and 170-172, 187-189 (where the guard `np.any` only
avoids a copy). -/
def zeroed (data : List (Fl K)) (invalid : List Bool) : List (Fl K) :=
  List.zipWith (fun x b => if b then .fin 0 else x) data invalid

/-- `_correct_data_and_create_masks`, filter_generator.py:223-249 -/
def correctData (data : List (Fl K)) (m : Nat) (f : List (Fl K) → Int → List Bool) : Except PyErr (List (Fl K) × List Bool) := do
  let invalid ← applyValidation data m f
  let mask ← invalidSubseq invalid m
  return (zeroed data invalid, mask)

/-- `class BoundFilterGenerator`, filter_generator.py:88-94. The masks are never `None`: the only place that creates them (247)
always does. -/
structure Batch (G : Type) where
  gen : G
  numQ : Int
  sMask : List Bool
  qMask : List Bool

/-- The query of a batch generator, or none in a self-join: filter_generator.py:54-60. Also returns its mask and `num_q_subseq`. -/
def prepareQuery (m : Nat) (series : List (Fl K)) (sMask : List Bool) (f : List (Fl K) → Int → List Bool) :
    Option (List (Fl K)) → Except PyErr (Option (List (Fl K)) × List Bool × Int)
  | none => .ok (none, sMask, (series.length : Int) - m + 1)
  | some q => do
      let (q', mask) ← correctData q m f
      return (some q', mask, (q.length : Int) - m + 1)

/-- `FilterGenerator.prepare`, filter_generator.py:51-63. `prep` is `prepare` of the wrapped generator. -/
def prepare (prep : Int → List (Fl K) → Option (List (Fl K)) → Except PyErr G) (f : List (Fl K) → Int → List Bool) (m : Nat)
    (series : List (Fl K)) (query : Option (List (Fl K))) : Except PyErr (Batch G) := do
  let (s, sMask) ← correctData series m f
  let (q, qMask, numQ) ← prepareQuery m series sMask f query
  let gen ← prep m s q
  return { gen := gen, numQ := numQ, sMask := sMask, qMask := qMask }

/-- The masking of a diagonal, filter_generator.py:99-110. -/
def maskDiagonal (sMask qMask : List Bool) (diag : Int) (distances : List (Fl K)) : Except PyErr (List (Fl K)) :=
  if diag ≥ 0 then do
    let d ← npMaskFill distances (pySlice sMask diag (diag + distances.length)) .pinf
    npMaskFill d (pyTo qMask distances.length) .pinf
  else do
    let d ← npMaskFill distances (pyTo sMask distances.length) .pinf
    npMaskFill d (pySlice qMask (-diag) (-diag + distances.length)) .pinf

/-- `np.full(n, np.Inf)`, filter_generator.py:114, 199 (`ValueError` for a negative size) -/
def fullInf (n : Int) : Except PyErr (List (Fl K)) :=
  if n < 0 then .error .valueError else .ok (List.replicate n.toNat .pinf)

/-- `BoundFilterGenerator.calc_diagonal`, filter_generator.py:96-110 -/
def Batch.calcDiagonal (ops : GenOps G K) (b : Batch G) (diag : Int) : Except PyErr (Batch G × List (Fl K)) := do
  let (g, d) ← ops.calcDiagonal b.gen diag
  let d ← maskDiagonal b.sMask b.qMask diag d
  return ({ b with gen := g }, d)

/-- `BoundFilterGenerator.calc_column`, filter_generator.py:112-121 -/
def Batch.calcColumn (ops : GenOps G K) (b : Batch G) (column : Int) : Except PyErr (Batch G × List (Fl K)) := do
  if ← pyGet b.sMask column then
    let d ← fullInf b.numQ
    return (b, d)
  else
    let (g, d) ← ops.calcColumn b.gen column
    let d ← npMaskFill d b.qMask .pinf
    return ({ b with gen := g }, d)

/-- `class BoundStreamingFilterGenerator`, filter_generator.py:132-164. -/
structure Streaming (G : Type) where
  gen : G
  m : Nat
  /-- `invalid_series`: validity of the points of the series window -/
  invSeries : RB Bool
  /-- `invalid_series_subseq` -/
  sSub : RB Bool
  /-- `invalid_query`, `invalid_query_subseq`; `none`: self-join, the buffers of the series (151-155) -/
  query : Option (RB Bool × RB Bool)

/-- The two buffers for one window of `w` points, filter_generator.py:145-149, 159-162 with the sizes of 42-46; `ValueError` from
`np.empty` for a negative size. -/
def emptyMasks (mem : Nat → List Bool) (scale : ℚ) (m w : Nat) : Except PyErr (RB Bool × RB Bool) :=
  if w + 1 < m then .error .valueError
  else
    let n := w + 1 - m
    .ok (RB.mkEmpty [] (n + m - 1) (mem (RB.capacity scale (n + m - 1))), RB.mkEmpty [] n (mem (RB.capacity scale n)))

/-- The query buffers, filter_generator.py:151-162 -/
def emptyQueryMasks (mem : Nat → List Bool) (scale : ℚ) (m : Nat) : Option Nat → Except PyErr (Option (RB Bool × RB Bool))
  | none => .ok none
  | some w => (emptyMasks mem scale m w).map some

/-- `FilterGenerator.__init__` and `prepare_streaming`, filter_generator.py:32-49, 132-164. `prepS` is `prepare_streaming` of the wrapped
generator. -/
def prepareStreaming (prepS : Int → Nat → Option Nat → Except PyErr G) (mem : Nat → List Bool) (scale : ℚ) (m seriesWindow : Nat)
    (queryWindow : Option Nat) : Except PyErr (Streaming G) := do
  if scale < 1 then .error .valueError
  else
    let gen ← prepS m seriesWindow queryWindow
    let (a, b) ← emptyMasks mem scale m seriesWindow
    let q ← emptyQueryMasks mem scale m queryWindow
    return { gen := gen, m := m, invSeries := a, sSub := b, query := q }

/-- The update of the two buffers of one window, filter_generator.py:168, 174-176 (185, 191-193). -/
def pushMasks (m : Nat) (points sub : RB Bool) (invalid : List Bool) : Except PyErr (RB Bool × RB Bool) := do
  let (points, _) ← points.push invalid
  if points.items.length ≥ m then
    let w ← slidingWindows (pyFrom points.items (-((invalid.length : Int) + m - 1))) m
    let (sub, _) ← sub.push (w.map (·.any id))
    return (points, sub)
  else return (points, sub)

/-- `append_series`, filter_generator.py:166-178 -/
def Streaming.appendSeries (ops : GenOps G K) (f : List (Fl K) → Int → List Bool) (b : Streaming G) (values : List (Fl K)) :
    Except PyErr (Streaming G) := do
  let invalid ← applyValidation values b.m f
  let (points, sub) ← pushMasks b.m b.invSeries b.sSub invalid
  let g ← ops.appendSeries b.gen (zeroed values invalid)
  return { b with gen := g, invSeries := points, sSub := sub }

/-- `append_query`, filter_generator.py:180-195 -/
def Streaming.appendQuery (ops : GenOps G K) (f : List (Fl K) → Int → List Bool) (b : Streaming G) (values : List (Fl K)) :
    Except PyErr (Streaming G) :=
  match b.query with
  | none => .error .runtimeError
  | some (points, sub) => do
      let invalid ← applyValidation values b.m f
      let q ← pushMasks b.m points sub invalid
      let g ← ops.appendQuery b.gen (zeroed values invalid)
      return { b with gen := g, query := some q }

/-- Contents of `invalid_query_subseq` (the buffer of the series in a self-join, filter_generator.py:153). -/
def Streaming.qMask (b : Streaming G) : List Bool :=
  match b.query with
  | none => b.sSub.items
  | some (_, sub) => sub.items

/-- `calc_diagonal` (inherited), filter_generator.py:96-110 -/
def Streaming.calcDiagonal (ops : GenOps G K) (b : Streaming G) (diag : Int) : Except PyErr (Streaming G × List (Fl K)) := do
  let (g, d) ← ops.calcDiagonal b.gen diag
  let d ← maskDiagonal b.sSub.items b.qMask diag d
  return ({ b with gen := g }, d)

/-- `calc_column`, filter_generator.py:197-204 -/
def Streaming.calcColumn (ops : GenOps G K) (b : Streaming G) (column : Int) : Except PyErr (Streaming G × List (Fl K)) := do
  if ← pyGet b.sSub.items column then
    let d ← fullInf b.qMask.length
    return (b, d)
  else
    let (g, d) ← ops.calcColumn b.gen column
    let d ← npMaskFill d b.qMask .pinf
    return ({ b with gen := g }, d)

/-- The methods of the streaming filter, filter_generator.py:124-204. -/
def Streaming.ops (ops : GenOps G K) (f : List (Fl K) → Int → List Bool) : GenOps (Streaming G) K :=
  { calcDiagonal := Streaming.calcDiagonal ops, calcColumn := Streaming.calcColumn ops, appendSeries := Streaming.appendSeries ops f,
    appendQuery := Streaming.appendQuery ops f }

/-- The methods of the batch filter, filter_generator.py:66-121; it has no append methods. -/
def Batch.ops (ops : GenOps G K) : GenOps (Batch G) K :=
  { calcDiagonal := Batch.calcDiagonal ops, calcColumn := Batch.calcColumn ops, appendSeries := fun _ _ => .error .attributeError,
    appendQuery := fun _ _ => .error .attributeError }

end Filter
end Verif
