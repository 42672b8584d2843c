import Verif.Model.Calculator

/-!
# `print_progress=True`, calculator.py:129-135 and 264-271

`calculate_columns` and `calculate_diagonals` with the lines they print. Numbers of the lines are exact (Python prints rounded floats); what the clock shows is
arbitrary. Of a call that raises only the exception is modelled, not what it has printed.
-/

namespace Verif
variable {G C K : Type}

/-- The exceptions of a call that prints its progress: those of the call, and `ZeroDivisionError` (calculator.py:133-134, 266-268). -/
inductive ProgErr
  | raised (e : PyErr)
  | zeroDivision
  deriving DecidableEq, Repr

/-- Python's `/` on numbers, calculator.py:133-134, 266-268. -/
def trueDiv (a b : ℚ) : Except ProgErr ℚ := if b = 0 then .error .zeroDivision else .ok (a / b)

/-- One printed line, calculator.py:132-135 and 270-271. -/
structure ProgLine where
  /-- `{0:5.3f}%` -/
  percent : ℚ
  /-- `{1:10.1f} sec` -/
  seconds : ℚ
  /-- `({2:5.3f}% total)`, calculator.py:271 only -/
  total : Option ℚ
  deriving DecidableEq, Repr

/-- `if print_progress:`, calculator.py:129, 265: nothing is evaluated without it. -/
def printed (printProgress : Bool) (line : Except ProgErr ProgLine) : Except ProgErr (List ProgLine) := if printProgress then line.map ([·]) else .ok []

namespace Calc

/-- What is printed after a column, calculator.py:129-135; `current` is `current_column` after line 127, `elapsed` is `time.time() - start_time`. -/
def columnProgress (start upto current : Int) (elapsed : ℚ) : Except ProgErr ProgLine := do
  let columnsCalculated := current - start
  let columnsRemaining := upto + 1 - current
  let p ← trueDiv columnsCalculated (upto + 1 - start : Int)
  let avg ← trueDiv elapsed columnsCalculated
  return ⟨p * 100, avg * columnsRemaining, none⟩

/-- The loop of `calculate_columns` with printing, calculator.py:113-135 (see `columnLoop`). `clock k`: what `time.time()` gives when `k` columns have been calculated. -/
def columnLoopP (ops : Ops G C K) (needed : List Nat) (maxRow : Nat) (ints : Int → Bool) (clock : Nat → ℚ) (printProgress : Bool) (start upto : Int) :
    Nat → Int → Calc G C × List (List (Fl K)) → Except ProgErr ((Calc G C × List (List (Fl K))) × List ProgLine)
  | 0, _, s => .ok (s, [])
  | n + 1, column, s =>
      if ints column then .ok (s, [])
      else do
        let s ← (columnStep ops needed maxRow column s).mapError .raised
        let line ← printed printProgress (columnProgress start upto (column + 1) (clock (column + 1 - start).toNat - clock 0))
        let (s, lines) ← columnLoopP ops needed maxRow ints clock printProgress start upto n (column + 1) s
        return (s, line ++ lines)

/-- `calculate_columns` with its parameter `print_progress`, calculator.py:85-135 (see `calculateColumns`). -/
def calculateColumnsP (ops : Ops G C K) (maxCol maxRow : Int) (needed : List Nat) (ints : Int → Bool) (clock : Nat → ℚ) (start : Option PyNum) (upto : PyNum)
    (printProgress : Bool) (st : Calc G C) : Except ProgErr (Calc G C × List ProgLine) := do
  let start ← (ratioToInt (start.getD (.int (st.lastCol + 1))) st.numSeries maxCol).mapError .raised
  let upto ← (ratioToInt upto st.numSeries maxCol).mapError .raised
  let rows ← (npFullNan K st.gens.length maxRow).mapError .raised
  let (s, lines) ← columnLoopP ops needed maxRow.toNat ints clock printProgress start upto (upto - start).toNat start (st, rows)
  return (s.1, lines)

end Calc

namespace Anytime

/-- What is printed after a diagonal, calculator.py:265-271; `time` is `_diagonal_calc_time`. -/
def diagonalProgress (calculated valuesNeeded total : Int) (time : ℚ) : Except ProgErr ProgLine := do
  let localProgress ← trueDiv calculated valuesNeeded
  let globalProgress ← trueDiv calculated total
  let avg ← trueDiv time calculated
  return ⟨localProgress * 100, avg * (valuesNeeded - calculated : Int), some (globalProgress * 100)⟩

/-- The loop of `calculate_diagonals` with printing, calculator.py:243-271 (see `diagonalLoop`). The state is the calculator and its `_diagonal_calc_time`; `took k` is
the time the diagonal with `next = k` took (244, 264). -/
def diagonalLoopP (ops : Ops G C K) (needed : List Nat) (ints : Nat → Bool) (took : Nat → ℚ) (printProgress : Bool) (valuesNeeded : Int) :
    List Int → Anytime G C K × ℚ → Except ProgErr ((Anytime G C K × ℚ) × List ProgLine)
  | [], s => if s.1.calculated < valuesNeeded ∧ ints s.1.next = false then .error (.raised .indexError) else .ok (s, [])
  | d :: rest, s =>
      if s.1.calculated < valuesNeeded ∧ ints s.1.next = false then do
        let st ← (diagonalStep ops needed d s.1).mapError .raised
        let time := s.2 + took s.1.next
        let line ← printed printProgress (diagonalProgress st.calculated valuesNeeded st.total time)
        let (s, lines) ← diagonalLoopP ops needed ints took printProgress valuesNeeded rest (st, time)
        return (s, line ++ lines)
      else .ok (s, [])

/-- `calculate_diagonals` with its parameter `print_progress`, calculator.py:225-271 (see `calculateDiagonals`). -/
def calculateDiagonalsP (ops : Ops G C K) (needed : List Nat) (ints : Nat → Bool) (took : Nat → ℚ) (partial_ : PyNum) (printProgress : Bool)
    (s : Anytime G C K × ℚ) : Except ProgErr ((Anytime G C K × ℚ) × List ProgLine) := do
  let _ ← (npFullNan K s.1.base.gens.length (min s.1.base.numQuery s.1.base.numSeries)).mapError .raised
  let valuesNeeded ← (ratioToInt partial_ s.1.total s.1.total).mapError .raised
  diagonalLoopP ops needed ints took printProgress valuesNeeded (s.1.order.drop s.1.next) s

end Anytime
end Verif
