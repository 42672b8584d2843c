import Verif.Model.Assembly
import Verif.Model.ThresholdCounter

/-!
# The parts put together: `AnytimeCalculator` with any number of channels, generators and consumers

The calls a user makes: construct a calculator, `add_generator` for each generator, `add_consumer` for each consumer, then any calls of
`calculate_diagonals` and `calculate_columns`.
-/

namespace Verif
variable {G C K : Type}

namespace Anytime

/-- A call made by the user: `calculate_diagonals(partial)` or `calculate_columns(start, upto)`, with the moments at which a SIGINT arrives. -/
inductive Op
  | diagonals (ints : Nat → Bool) (amount : PyNum)
  | columns (ints : Int → Bool) (start : Option PyNum) (upto : PyNum)

/-- One call, calculator.py:85-135, 225-271. -/
def step (ops : Ops G C K) (needed : List Nat) (st : Anytime G C K) : Op → Except PyErr (Anytime G C K)
  | .diagonals ints p => st.calculateDiagonals ops needed ints p
  | .columns ints start upto => st.calculateColumns ops needed ints start upto

/-- A sequence of calls, all returning normally. -/
def run (ops : Ops G C K) (needed : List Nat) : List Op → Anytime G C K → Except PyErr (Anytime G C K)
  | [], st => .ok st
  | o :: os, st => do run ops needed os (← st.step ops needed o)

/-- `add_generator(dim, gen)` for each of the generators, calculator.py:213-223 -/
def addGenerators : List ((Int → List (Fl K) → Option (List (Fl K)) → Except PyErr G) × Nat) → Anytime G C K → Except PyErr (Anytime G C K)
  | [], st => .ok st
  | g :: gs, st => do addGenerators gs (← st.addGenerator g.1 (g.2 : Int))

/-- `add_consumer(ids, c)` for each of the consumers, calculator.py:61-72 -/
def addAllConsumers (ops : Ops G C K) : List (C × List Nat) → Anytime G C K → Except PyErr (Anytime G C K)
  | [], st => .ok st
  | c :: cs, st => do addAllConsumers ops cs (← st.addConsumer ops c.2 c.1)

end Anytime

/-- An `AnytimeCalculator` with generators and consumers after a sequence of calls: the consumers with their generator ids
(calculator.py:165-223, 61-72, 85-135, 225-271). -/
def batchAll (ops : Ops G C K) (shuffle : List Int → List Int) (gens : List ((Int → List (Fl K) → Option (List (Fl K)) → Except PyErr G) × Nat))
    (consumers : List (C × List Nat)) (needed : List Nat) (m : Int) (series : List (List (Fl K))) (query : Option (List (List (Fl K))))
    (buffer : Option Int) (calls : List Anytime.Op) : Except PyErr (List (C × List Nat)) := do
  let st ← Anytime.init shuffle m series query buffer
  let st ← Anytime.addGenerators gens st
  let st ← Anytime.addAllConsumers ops consumers st
  let st ← Anytime.run ops needed calls st
  return st.base.cons

/-- `prepare`, euclidean.py:44-57, znorm_euclidean.py:82-115 -/
noncomputable def GenKind.prepare (memE : Nat → List (Fl ℝ)) (memZ : ZN.Mem) (k : GenKind) (m : Int) (series : List (Fl ℝ)) (query : Option (List (Fl ℝ))) :
    Except PyErr (ColCache ℝ ⊕ ZN) :=
  match k with
  | .euclidean _ => (Eucl.prepare memE m series query).map .inl
  | .znorm noise _ => (ZN.prepare memZ noise m series query).map .inr

/-- A `ThresholdCounter` consumer (threshold_counter.py:6-42) next to generators. The class has no `shift_series` / `shift_query`
(`AttributeError`). The state before `initialise` holds the thresholds. -/
def TC.ops [LinearOrder K] (gops : GenOps G K) : Ops G (TC K) K :=
  { calcColumn := gops.calcColumn, calcDiagonal := gops.calcDiagonal, appendSeries := gops.appendSeries, appendQuery := gops.appendQuery,
    initialise := fun c _ _ s => TC.initialise c.thresholds s, processColumn := TC.processColumn, processDiagonal := TC.processDiagonal,
    shiftSeries := fun _ _ => .error .attributeError, shiftQuery := fun _ _ => .error .attributeError }

/-- A new `ThresholdCounter(thresholds)` before `initialise`, threshold_counter.py:16-24 -/
def TC.new (thresholds : List (Fl K)) : TC K := ⟨thresholds, 0, fun _ _ => 0⟩

end Verif
