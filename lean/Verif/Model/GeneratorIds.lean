import Verif.Model.Calculator

/-!
# Generator ids that are any integers

`add_consumer` (calculator.py:61-72) takes its `generator_ids` unseen, and `calculate_columns` and `calculate_diagonals` use them as indices of a list and of rows of an array, where
negative numbers count from the end. `Verif.Model.Calculator` has ids that are natural numbers; here the consumers have lists of integers, `cons`, and those of the state of the calculator
are not used.
-/

namespace Verif
variable {G C K : Type}

/-- The generators asked for one column / diagonal, calculator.py:114-116 and 251-253: `generators[generator_id]` and the row `generator_id` of the table, for any integers. The
generator that is asked may change itself; it stays where it is. -/
def Calc.genStepI (ask : G → Except PyErr (G × List (Fl K))) (n : Nat) :
    List Int → List (G × Nat) → List (List (Fl K)) → Except PyErr (List (G × Nat) × List (List (Fl K)))
  | [], gens, rows => .ok (gens, rows)
  | id :: ids, gens, rows => do
      let g ← pyGet gens id
      let (g', v) ← ask g.1
      let row ← npRow n v
      let rows ← pySet rows id row
      let gens ← pySet gens id (g', g.2)
      genStepI ask n ids gens rows

/-- `column_dists[generator_ids, :]` (calculator.py:124) or `diagonal_values[generator_ids, :]` (256), passed to the consumers. -/
def Calc.consume (give : C → List (List (Fl K)) → Except PyErr C) (rows : List (List (Fl K))) (cons : List (C × List Int)) : Except PyErr (List (C × List Int)) :=
  cons.mapM fun c => do
    let vals ← c.2.mapM fun id : Int => pyGet rows id
    let c' ← give c.1 vals
    return (c', c.2)

/-- One iteration of the loop of `calculate_columns`, calculator.py:114-127. -/
def Calc.columnStepI (ops : Ops G C K) (needed : List Int) (maxRow : Nat) (column : Int) (st : Calc G C) (cons : List (C × List Int)) (rows : List (List (Fl K))) :
    Except PyErr (Calc G C × List (C × List Int) × List (List (Fl K))) := do
  let (gens, rows) ← genStepI (fun g => ops.calcColumn g column) maxRow needed st.gens rows
  let rows := mask st.buffer column rows
  let cons ← consume (fun c vals => ops.processColumn c column vals) rows cons
  return ({ st with gens := gens, lastCol := max column st.lastCol }, cons, rows)

/-- The loop of `calculate_columns`, calculator.py:113-127. -/
def Calc.columnLoopI (ops : Ops G C K) (needed : List Int) (maxRow : Nat) (ints : Int → Bool) :
    Nat → Int → Calc G C → List (C × List Int) → List (List (Fl K)) → Except PyErr (Calc G C × List (C × List Int))
  | 0, _, st, cons, _ => .ok (st, cons)
  | n + 1, column, st, cons, rows =>
      if ints column then .ok (st, cons)
      else do
        let s ← columnStepI ops needed maxRow column st cons rows
        columnLoopI ops needed maxRow ints n (column + 1) s.1 s.2.1 s.2.2

/-- `calculate_columns`, calculator.py:85-135. -/
def Calc.calculateColumnsI (ops : Ops G C K) (maxCol maxRow : Int) (needed : List Int) (ints : Int → Bool) (start : Option PyNum) (upto : PyNum) (st : Calc G C)
    (cons : List (C × List Int)) : Except PyErr (Calc G C × List (C × List Int)) := do
  let start ← ratioToInt (start.getD (.int (st.lastCol + 1))) st.numSeries maxCol
  let upto ← ratioToInt upto st.numSeries maxCol
  let rows ← npFullNan K st.gens.length maxRow
  columnLoopI ops needed maxRow.toNat ints (upto - start).toNat start st cons rows

/-- One iteration of the loop of `calculate_diagonals`, calculator.py:246-262. -/
def Anytime.diagonalStepI (ops : Ops G C K) (needed : List Int) (d : Int) (st : Anytime G C K) (cons : List (C × List Int)) :
    Except PyErr (Anytime G C K × List (C × List Int)) := do
  let len := diagLength st.base.numQuery st.base.numSeries d
  let rows := List.replicate st.base.gens.length (List.replicate len.toNat Fl.nan)
  let (gens, rows) ← Calc.genStepI (fun g => ops.calcDiagonal g d) len.toNat needed st.base.gens rows
  let cons ← Calc.consume (fun c vals => deliverDiagonal ops st.base.selfJoin d c vals) rows cons
  return ({ st with base := { st.base with gens := gens }, calculated := st.calculated + len, next := st.next + 1 }, cons)

/-- The loop of `calculate_diagonals`, calculator.py:243-262. -/
def Anytime.diagonalLoopI (ops : Ops G C K) (needed : List Int) (ints : Nat → Bool) (valuesNeeded : Int) :
    List Int → Anytime G C K → List (C × List Int) → Except PyErr (Anytime G C K × List (C × List Int))
  | [], st, cons => if st.calculated < valuesNeeded ∧ ints st.next = false then .error .indexError else .ok (st, cons)
  | d :: rest, st, cons =>
      if st.calculated < valuesNeeded ∧ ints st.next = false then do
        let s ← diagonalStepI ops needed d st cons
        diagonalLoopI ops needed ints valuesNeeded rest s.1 s.2
      else .ok (st, cons)

/-- `calculate_diagonals`, calculator.py:225-271. -/
def Anytime.calculateDiagonalsI (ops : Ops G C K) (needed : List Int) (ints : Nat → Bool) (partial_ : PyNum) (st : Anytime G C K) (cons : List (C × List Int)) :
    Except PyErr (Anytime G C K × List (C × List Int)) := do
  let _ ← npFullNan K st.base.gens.length (min st.base.numQuery st.base.numSeries)
  let valuesNeeded ← ratioToInt partial_ st.total st.total
  diagonalLoopI ops needed ints valuesNeeded (st.order.drop st.next) st cons

/-- `add_consumer`, calculator.py:61-72: the ids are not looked at, only counted. -/
def Calc.addConsumerI (ops : Ops G C K) (st : Calc G C) (cons : List (C × List Int)) (ids : List Int) (c : C) : Except PyErr (List (C × List Int)) := do
  let c ← ops.initialise c ids.length st.numQuery st.numSeries
  return cons ++ [(c, ids)]

end Verif
