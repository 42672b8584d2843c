import Verif.Model.Util
import Mathlib.Data.Rat.Floor
import Mathlib.Algebra.Order.Floor.Ring

/-!
# Model of `distancematrix/calculator.py`

Generators and consumers are objects of arbitrary state types `G`, `C`, used only through `Ops`.
In other files: `_find_invalid_subseq_idxs` (422-439) in `Model/SmallParts.lean`, the printing of progress (110, 129-135, 244, 264-271) in
`Model/Progress.lean`, objects added more than once and calculators that are changed between calls in `Model/Sessions.lean`, negative and
unknown generator ids in `Model/GeneratorIds.lean`, the state left behind by an exception in `Model/Rejected.lean`.
-/

namespace Verif

/-- The methods of bound generators and consumers that the calculators call. -/
structure Ops (G C K : Type) where
  /-- `AbstractBoundGenerator.calc_column`, abstract_generator.py:50 -/
  calcColumn : G → Int → Except PyErr (G × List (Fl K))
  /-- `AbstractBoundGenerator.calc_diagonal`, abstract_generator.py:36 -/
  calcDiagonal : G → Int → Except PyErr (G × List (Fl K))
  /-- `AbstractBoundStreamingGenerator.append_series`, abstract_generator.py:62 -/
  appendSeries : G → List (Fl K) → Except PyErr G
  /-- `AbstractBoundStreamingGenerator.append_query`, abstract_generator.py:72 -/
  appendQuery : G → List (Fl K) → Except PyErr G
  /-- `AbstractConsumer.initialise`, abstract_consumer.py:6 -/
  initialise : C → Nat → Int → Int → Except PyErr C
  /-- `AbstractConsumer.process_column`, abstract_consumer.py:34 -/
  processColumn : C → Int → List (List (Fl K)) → Except PyErr C
  /-- `AbstractConsumer.process_diagonal`, abstract_consumer.py:18 -/
  processDiagonal : C → Int → List (List (Fl K)) → Except PyErr C
  /-- `AbstractStreamingConsumer.shift_series`, abstract_consumer.py:61 -/
  shiftSeries : C → Int → Except PyErr C
  /-- `AbstractStreamingConsumer.shift_query`, abstract_consumer.py:51 -/
  shiftQuery : C → Int → Except PyErr C

/-- A Python number argument: float, int or something else.  A finite float is a rational. -/
inductive PyNum
  | float (x : Fl ℚ)
  | int (i : Int)
  | other
  deriving Repr

/-- `_ratio_to_int`, calculator.py:409-419. `ceil(nan)` raises `ValueError`. The rounding of the float product is not
modelled. -/
def ratioToInt (r : PyNum) (full maxValue : Int) : Except PyErr Int :=
  match r with
  | .float x =>
      if x.ltF (.fin 0) || Fl.ltF (.fin 1) x then .error .valueError
      else match x with
        | .fin q => .ok (min (max 0 ⌈q * full⌉) maxValue)
        | _ => .error .valueError
  | .int i => .ok (min (max 0 i) maxValue)
  | .other => .error .runtimeError

/-- NumPy `row[:] = v` on a row of length `n`: the new row (or `ValueError`; length 1 broadcasts). -/
def npRow {K : Type} (n : Nat) (v : List (Fl K)) : Except PyErr (List (Fl K)) :=
  if v.length = n then .ok v
  else match v with
    | [x] => .ok (List.replicate n x)
    | _ => .error .valueError

/-- `np.full((g, n), np.nan)`: `ValueError` for a negative dimension. -/
def npFullNan (K : Type) (g : Nat) (n : Int) : Except PyErr (List (List (Fl K))) :=
  if n < 0 then .error .valueError else .ok (List.replicate g (List.replicate n.toNat .nan))

/-- `class AbstractCalculator`, calculator.py:12-153. -/
structure Calc (G C : Type) where
  selfJoin : Bool
  m : Int
  nDim : Nat
  numSeries : Int
  numQuery : Int
  /-- `trivial_match_buffer` -/
  buffer : Int
  /-- `_generators`: bound generators with their channel -/
  gens : List (G × Nat)
  /-- `_consumers`: consumers with their generator ids -/
  cons : List (C × List Nat)
  /-- `_last_column_calculated` -/
  lastCol : Int

namespace Calc
variable {G C K : Type}

/-- `AbstractCalculator.__init__`, calculator.py:22-59 -/
def init (selfJoin : Bool) (m numSeries numQuery : Int) (nDim : Nat) (buffer : Option Int) : Except PyErr (Calc G C) :=
  if selfJoin then
    let b := buffer.getD (m / 2)
    if b ∈ pyRange (-1) numSeries then
      .ok { selfJoin := true, m := m, nDim := nDim, numSeries := numSeries, numQuery := numSeries, buffer := b,
            gens := [], cons := [], lastCol := -1 }
    else .error .runtimeError
  else
    .ok { selfJoin := false, m := m, nDim := nDim, numSeries := numSeries, numQuery := numQuery, buffer := -1,
          gens := [], cons := [], lastCol := -1 }

/-- `add_consumer`, calculator.py:61-72 -/
def addConsumer (ops : Ops G C K) (st : Calc G C) (ids : List Nat) (c : C) : Except PyErr (Calc G C) := do
  let c ← ops.initialise c ids.length st.numQuery st.numSeries
  return { st with cons := st.cons ++ [(c, ids)] }

/-- The generators asked for one column / diagonal, calculator.py:114-116 and 251-253: for each id in `needed`, write the
result in row `id` of the value table (rows of length `n`). -/
def genStep (ask : G → Except PyErr (G × List (Fl K))) (n : Nat) :
    List Nat → List (G × Nat) → List (List (Fl K)) → Except PyErr (List (G × Nat) × List (List (Fl K)))
  | [], gens, rows => .ok (gens, rows)
  | id :: ids, gens, rows => do
      let g ← pyGet gens id
      let (g', v) ← ask g.1
      let row ← npRow n v
      let rows ← pySet rows id row
      genStep ask n ids (gens.set id (g', g.2)) rows

/-- The masking of trivial matches, calculator.py:118-121 -/
def mask (buffer column : Int) (rows : List (List (Fl K))) : List (List (Fl K)) :=
  if buffer ≥ 0 then rows.map fun row => pyFill row (max 0 (column - buffer)) (column + buffer + 1) .pinf
  else rows

/-- One iteration of the loop of `calculate_columns`, calculator.py:114-127. -/
def columnStep (ops : Ops G C K) (needed : List Nat) (maxRow : Nat) (column : Int)
    (s : Calc G C × List (List (Fl K))) : Except PyErr (Calc G C × List (List (Fl K))) := do
  let (st, rows) := s
  let (gens, rows) ← genStep (fun g => ops.calcColumn g column) maxRow needed st.gens rows
  let rows := mask st.buffer column rows
  let cons ← st.cons.mapM fun c => do
    let vals ← c.2.mapM fun id : Nat => pyGet rows (id : Int)
    let c' ← ops.processColumn c.1 column vals
    return (c', c.2)
  return ({ st with gens := gens, cons := cons, lastCol := max column st.lastCol }, rows)

/-- The loop of `calculate_columns`, calculator.py:113-127, `n` columns to go. `ints c`: a SIGINT has arrived when
`is_interrupted()` is looked at for column `c`. -/
def columnLoop (ops : Ops G C K) (needed : List Nat) (maxRow : Nat) (ints : Int → Bool) :
    Nat → Int → Calc G C × List (List (Fl K)) → Except PyErr (Calc G C × List (List (Fl K)))
  | 0, _, s => .ok s
  | n + 1, column, s =>
      if ints column then .ok s
      else do columnLoop ops needed maxRow ints n (column + 1) (← columnStep ops needed maxRow column s)

/-- `calculate_columns`, calculator.py:85-135. `maxCol`, `maxRow`: the results of `_max_column()`, `_max_row()`.
`needed` is `generators_needed_ids`, the ids used by some consumer in some order (line 107, a set). -/
def calculateColumns (ops : Ops G C K) (maxCol maxRow : Int) (needed : List Nat) (ints : Int → Bool)
    (start : Option PyNum) (upto : PyNum) (st : Calc G C) : Except PyErr (Calc G C) := do
  let start ← ratioToInt (start.getD (.int (st.lastCol + 1))) st.numSeries maxCol
  let upto ← ratioToInt upto st.numSeries maxCol
  let rows ← npFullNan K st.gens.length maxRow
  let (st, _) ← columnLoop ops needed maxRow.toNat ints (upto - start).toNat start (st, rows)
  return st

/-- `generators_needed_ids`, calculator.py:107 and 236: a duplicate-free list of all ids used by the consumers. -/
structure Needed (st : Calc G C) (needed : List Nat) : Prop where
  nodup : needed.Nodup
  mem : ∀ id, id ∈ needed ↔ ∃ c ∈ st.cons, id ∈ c.2

end Calc

/-- `class AnytimeCalculator`, calculator.py:156-271. -/
structure Anytime (G C K : Type) where
  base : Calc G C
  series : List (List (Fl K))
  query : List (List (Fl K))
  /-- `_diagonal_calc_order` -/
  order : List Int
  /-- `_diagonal_values_total` -/
  total : Int
  /-- `_diagonal_calc_list_next_index` -/
  next : Nat
  /-- `_diagonal_values_calculated` -/
  calculated : Int

namespace Anytime
variable {G C K : Type}

/-- `shape[1]` of a 2-D array given as its rows. -/
def npCols (a : List (List (Fl K))) : Int := ((a.head?.getD []).length : Int)

/-- The unshuffled diagonals, calculator.py:201, 204 -/
def diagonals (st : Calc G C) : List Int :=
  if st.selfJoin then pyRange (st.buffer + 1) st.numSeries else pyRange (-st.numQuery + 1) st.numSeries

/-- `AnytimeCalculator.__init__`, calculator.py:165-211. The data are 2-D arrays (a 1-D array is one row, 178-182);
`shuffle` is `random.shuffle` (208), an arbitrary rearrangement. -/
def init (shuffle : List Int → List Int) (m : Int) (series : List (List (Fl K))) (query : Option (List (List (Fl K))))
    (buffer : Option Int) : Except PyErr (Anytime G C K) := do
  let selfJoin := query.isNone
  let q := query.getD series
  if series.length ≠ q.length then .error .runtimeError
  else
    let base ← Calc.init selfJoin m (npCols series - m + 1) (npCols q - m + 1) series.length buffer
    let total :=
      if base.selfJoin then
        let temp := base.numSeries - base.buffer - 1
        temp * (temp + 1) / 2
      else base.numQuery * base.numSeries
    return { base := base, series := series, query := q, order := shuffle (diagonals base), total := total, next := 0,
             calculated := 0 }

/-- `AnytimeCalculator.add_generator`, calculator.py:213-223. `prepare` is the generator's `prepare(m, series, query)`. -/
def addGenerator (prepare : Int → List (Fl K) → Option (List (Fl K)) → Except PyErr G) (st : Anytime G C K)
    (inputDim : Int) : Except PyErr (Anytime G C K) := do
  if inputDim < 0 ∨ inputDim ≥ st.base.nDim then .error .valueError
  else
    let s ← pyGet st.series inputDim
    let g ← if st.base.selfJoin then prepare st.base.m s none
      else do prepare st.base.m s (some (← pyGet st.query inputDim))
    return { st with base := { st.base with gens := st.base.gens ++ [(g, inputDim.toNat)] } }

/-- `add_consumer` -/
def addConsumer (ops : Ops G C K) (st : Anytime G C K) (ids : List Nat) (c : C) : Except PyErr (Anytime G C K) := do
  return { st with base := ← st.base.addConsumer ops ids c }

/-- `calculate_columns` of an `AnytimeCalculator` (`_max_column`, `_max_row`: calculator.py:149-153). -/
def calculateColumns (ops : Ops G C K) (needed : List Nat) (ints : Int → Bool) (start : Option PyNum) (upto : PyNum)
    (st : Anytime G C K) : Except PyErr (Anytime G C K) := do
  return { st with base := ← st.base.calculateColumns ops st.base.numSeries st.base.numQuery needed ints start upto }

/-- The deliveries of one diagonal to one consumer, calculator.py:257-259. -/
def deliverDiagonal (ops : Ops G C K) (selfJoin : Bool) (d : Int) (c : C) (vals : List (List (Fl K))) : Except PyErr C := do
  let c' ← ops.processDiagonal c d vals
  if selfJoin then ops.processDiagonal c' (-d) vals else pure c'

/-- One iteration of the loop of `calculate_diagonals`, calculator.py:246-262, for diagonal `d`. Of the table `diag_dists`
only the first `diagonal_length` columns are used (249); `rows` are those. -/
def diagonalStep (ops : Ops G C K) (needed : List Nat) (d : Int) (st : Anytime G C K) : Except PyErr (Anytime G C K) := do
  let len := diagLength st.base.numQuery st.base.numSeries d
  let rows := List.replicate st.base.gens.length (List.replicate len.toNat Fl.nan)
  let (gens, rows) ← Calc.genStep (fun g => ops.calcDiagonal g d) len.toNat needed st.base.gens rows
  let cons ← st.base.cons.mapM fun c => do
    let vals ← c.2.mapM fun id : Nat => pyGet rows (id : Int)
    let c' ← deliverDiagonal ops st.base.selfJoin d c.1 vals
    return (c', c.2)
  return { st with base := { st.base with gens := gens, cons := cons }, calculated := st.calculated + len,
                   next := st.next + 1 }

/-- The loop of `calculate_diagonals`, calculator.py:243-262; the list is `order[next:]` (running past it raises
`IndexError`, 247). `ints k`: a SIGINT has arrived when `is_interrupted()` is looked at with `next = k`. -/
def diagonalLoop (ops : Ops G C K) (needed : List Nat) (ints : Nat → Bool) (valuesNeeded : Int) :
    List Int → Anytime G C K → Except PyErr (Anytime G C K)
  | [], st => if st.calculated < valuesNeeded ∧ ints st.next = false then .error .indexError else .ok st
  | d :: rest, st =>
      if st.calculated < valuesNeeded ∧ ints st.next = false then
        do diagonalLoop ops needed ints valuesNeeded rest (← diagonalStep ops needed d st)
      else .ok st

/-- `calculate_diagonals`, calculator.py:225-271. Entries of `diag_dists` that no generator writes are never passed to a
consumer, so the table is created per diagonal (line 238 creates it once). -/
def calculateDiagonals (ops : Ops G C K) (needed : List Nat) (ints : Nat → Bool) (partial_ : PyNum)
    (st : Anytime G C K) : Except PyErr (Anytime G C K) := do
  let _ ← npFullNan K st.base.gens.length (min st.base.numQuery st.base.numSeries)
  let valuesNeeded ← ratioToInt partial_ st.total st.total
  diagonalLoop ops needed ints valuesNeeded (st.order.drop st.next) st

end Anytime

/-- A NumPy array argument of `append_series` / `append_query`. -/
inductive NDArray (K : Type)
  | d1 (v : List (Fl K))
  /-- 2-D: rows, each of length `cols` -/
  | d2 (rows : List (List (Fl K))) (cols : Nat)
  | higher

/-- `class StreamingCalculator`, calculator.py:274-406. -/
structure Streaming (G C : Type) where
  base : Calc G C
  /-- `streamed_series_points` -/
  streamedSeries : Int
  /-- `streamed_query_points` -/
  streamedQuery : Int

namespace Streaming
variable {G C K : Type}

/-- `StreamingCalculator.__init__`, calculator.py:282-307 -/
def init (m seriesWindow : Int) (queryWindow : Option Int) (nDim : Nat) (buffer : Option Int) :
    Except PyErr (Streaming G C) := do
  let numSeries := seriesWindow - m + 1
  match queryWindow with
  | none =>
      let base ← Calc.init true m numSeries numSeries nDim buffer
      return { base := base, streamedSeries := 0, streamedQuery := -1 }
  | some q =>
      let base ← Calc.init false m numSeries (q - m + 1) nDim buffer
      return { base := base, streamedSeries := 0, streamedQuery := 0 }

/-- `StreamingCalculator.add_generator`, calculator.py:309-321. `prepare` is `prepare_streaming(m, series_window,
query_window)`. -/
def addGenerator (prepare : Int → Int → Option Int → Except PyErr G) (st : Streaming G C) (inputDim : Int) :
    Except PyErr (Streaming G C) := do
  if inputDim < 0 ∨ inputDim ≥ st.base.nDim then .error .valueError
  else
    let g ← prepare st.base.m (st.base.numSeries + st.base.m - 1)
      (if st.base.selfJoin then none else some (st.base.numQuery + st.base.m - 1))
    return { st with base := { st.base with gens := st.base.gens ++ [(g, inputDim.toNat)] } }

/-- `add_consumer` -/
def addConsumer (ops : Ops G C K) (st : Streaming G C) (ids : List Nat) (c : C) : Except PyErr (Streaming G C) := do
  return { st with base := ← st.base.addConsumer ops ids c }

/-- The shape handling of calculator.py:332-340 and 373-382: rows (one per channel) and number of points. -/
def toRows (nDim : Nat) : NDArray K → Except PyErr (List (List (Fl K)) × Nat)
  | .d1 v => if v.length = nDim then .ok (v.map fun x => [x], 1) else .error .runtimeError
  | .d2 rows cols => if rows.length ≠ nDim then .error .runtimeError else .ok (rows, cols)
  | .higher => .error .runtimeError

/-- calculator.py:346-350 and 388-392: how far the window moves when `n` points are added. -/
def shiftOf (window streamed : Int) (n : Nat) : Int :=
  if streamed < window then max 0 (n - (window - streamed)) else n

/-- One call on each consumer, calculator.py:354-355, 357-358 and 396-397. -/
def shiftCons (f : C → Except PyErr C) (cons : List (C × List Nat)) : Except PyErr (List (C × List Nat)) :=
  cons.mapM fun c => do return (← f c.1, c.2)

/-- calculator.py:354-358 -/
def shiftBoth (ops : Ops G C K) (selfJoin : Bool) (shift : Int) (cons : List (C × List Nat)) :
    Except PyErr (List (C × List Nat)) := do
  let cons ← shiftCons (fun c => ops.shiftSeries c shift) cons
  if selfJoin then shiftCons (fun c => ops.shiftQuery c shift) cons else pure cons

/-- calculator.py:342-344 and 384-386 -/
def appendGens (f : G → List (Fl K) → Except PyErr G) (rows : List (List (Fl K))) (gens : List (G × Nat)) :
    Except PyErr (List (G × Nat)) :=
  gens.mapM fun g => do
    let v ← pyGet rows (g.2 : Int)
    let g' ← f g.1 v
    return (g', g.2)

/-- `append_series`, calculator.py:323-359 -/
def appendSeries (ops : Ops G C K) (st : Streaming G C) (values : NDArray K) : Except PyErr (Streaming G C) := do
  let (rows, n) ← toRows st.base.nDim values
  let gens ← appendGens ops.appendSeries rows st.base.gens
  let shift := shiftOf (st.base.numSeries + st.base.m - 1) st.streamedSeries n
  if shift ≠ 0 then
    let cons ← shiftBoth ops st.base.selfJoin shift st.base.cons
    return { st with base := { st.base with gens := gens, cons := cons, lastCol := max (-1) (st.base.lastCol - shift) },
                     streamedSeries := st.streamedSeries + n }
  else return { st with base := { st.base with gens := gens }, streamedSeries := st.streamedSeries + n }

/-- `append_query`, calculator.py:361-397 -/
def appendQuery (ops : Ops G C K) (st : Streaming G C) (values : NDArray K) : Except PyErr (Streaming G C) := do
  if st.base.selfJoin then .error .runtimeError
  else
    let (rows, n) ← toRows st.base.nDim values
    let gens ← appendGens ops.appendQuery rows st.base.gens
    let shift := shiftOf (st.base.numQuery + st.base.m - 1) st.streamedQuery n
    if shift ≠ 0 then
      let cons ← shiftCons (fun c => ops.shiftQuery c shift) st.base.cons
      return { st with base := { st.base with gens := gens, cons := cons }, streamedQuery := st.streamedQuery + n }
    else return { st with base := { st.base with gens := gens }, streamedQuery := st.streamedQuery + n }

/-- `_max_column`, calculator.py:399-400 -/
def maxColumn (st : Streaming G C) : Int := min (max 0 (st.streamedSeries - st.base.m + 1)) st.base.numSeries

/-- `_max_row`, calculator.py:402-406 -/
def maxRow (st : Streaming G C) : Int :=
  if st.base.selfJoin then st.maxColumn else min (max 0 (st.streamedQuery - st.base.m + 1)) st.base.numQuery

/-- `calculate_columns` of a `StreamingCalculator`. -/
def calculateColumns (ops : Ops G C K) (needed : List Nat) (ints : Int → Bool) (start : Option PyNum) (upto : PyNum)
    (st : Streaming G C) : Except PyErr (Streaming G C) := do
  return { st with base := ← st.base.calculateColumns ops st.maxColumn st.maxRow needed ints start upto }

/-- A call made by the user of a `StreamingCalculator`: `append_series(values)`, `append_query(values)` or
`calculate_columns(upto=upto)`, the last one with the moments at which a SIGINT arrives. -/
inductive Op (K : Type)
  | series (values : NDArray K)
  | query (values : NDArray K)
  | columns (ints : Int → Bool) (upto : PyNum)

/-- One call. -/
def step (ops : Ops G C K) (needed : List Nat) (st : Streaming G C) : Op K → Except PyErr (Streaming G C)
  | .series v => st.appendSeries ops v
  | .query v => st.appendQuery ops v
  | .columns ints upto => st.calculateColumns ops needed ints none upto

/-- A sequence of calls, all returning normally. -/
def run (ops : Ops G C K) (needed : List Nat) : List (Op K) → Streaming G C → Except PyErr (Streaming G C)
  | [], st => .ok st
  | o :: os, st => do run ops needed os (← st.step ops needed o)

end Streaming
end Verif
