import Verif.Model.EndToEnd
import Verif.Model.GenOps
import Verif.Model.Multidimensional

/-!
# The parts put together: calculators with any number of channels, generators and consumers

The calls a user makes: construct a calculator, `add_generator` for each generator, `add_consumer` for each consumer, then any calls.
-/

namespace Verif
variable {G A B C K : Type}

/-- Generators of two classes used side by side: every call goes to the method of the object's own class (abstract_generator.py:33-79). -/
def GenOps.sum (a : GenOps A K) (b : GenOps B K) : GenOps (A ⊕ B) K :=
  { calcDiagonal := fun g d => match g with
      | .inl g => (a.calcDiagonal g d).map fun x => (.inl x.1, x.2)
      | .inr g => (b.calcDiagonal g d).map fun x => (.inr x.1, x.2)
    calcColumn := fun g c => match g with
      | .inl g => (a.calcColumn g c).map fun x => (.inl x.1, x.2)
      | .inr g => (b.calcColumn g c).map fun x => (.inr x.1, x.2)
    appendSeries := fun g v => match g with
      | .inl g => (a.appendSeries g v).map .inl
      | .inr g => (b.appendSeries g v).map .inr
    appendQuery := fun g v => match g with
      | .inl g => (a.appendQuery g v).map .inl
      | .inr g => (b.appendQuery g v).map .inr }

/-- A `Euclidean(rb_scale_factor)` or `ZNormEuclidean(noise_std, rb_scale_factor)` object (euclidean.py:19-30, znorm_euclidean.py:24-52). -/
inductive GenKind
  | euclidean (scale : ℚ)
  | znorm (noise : ℝ) (scale : ℚ)

/-- The methods of bound generators of the two classes. -/
noncomputable def GenKind.ops (memE : Nat → List (Fl ℝ)) (memZ : ZN.Mem) : GenOps (ColCache ℝ ⊕ ZN) ℝ :=
  (Eucl.genOps memE Real.sqrt).sum (ZN.genOps memZ)

/-- `prepare_streaming`, euclidean.py:32-42, znorm_euclidean.py:54-80 -/
noncomputable def GenKind.streaming (memE : Nat → List (Fl ℝ)) (memZ : ZN.Mem) (k : GenKind) (m seriesWindow : Int) (queryWindow : Option Int) :
    Except PyErr (ColCache ℝ ⊕ ZN) :=
  match k with
  | .euclidean scale => (Eucl.streaming memE scale m seriesWindow queryWindow).map .inl
  | .znorm noise scale => (ZN.streaming memZ noise scale m seriesWindow queryWindow).map .inr

/-- `add_generator(dim, gen)` for each of the generators, calculator.py:309-321 -/
def Streaming.addGenerators : List ((Int → Int → Option Int → Except PyErr G) × Nat) → Streaming G C → Except PyErr (Streaming G C)
  | [], st => .ok st
  | g :: gs, st => do Streaming.addGenerators gs (← st.addGenerator g.1 (g.2 : Int))

/-- `add_consumer(ids, c)` for each of the consumers, calculator.py:61-72 -/
def Streaming.addConsumers (ops : Ops G C K) : List (C × List Nat) → Streaming G C → Except PyErr (Streaming G C)
  | [], st => .ok st
  | c :: cs, st => do Streaming.addConsumers ops cs (← st.addConsumer ops c.2 c.1)

/-- A `StreamingCalculator` with generators and consumers after a sequence of calls: the consumers with their generator ids
(calculator.py:282-321, 61-72, 85-135, 323-397). -/
def streamAll (ops : Ops G C K) (gens : List ((Int → Int → Option Int → Except PyErr G) × Nat)) (consumers : List (C × List Nat))
    (needed : List Nat) (m seriesWindow : Int) (queryWindow : Option Int) (nDim : Nat) (buffer : Option Int) (calls : List (Streaming.Op K)) :
    Except PyErr (List (C × List Nat)) := do
  let st ← Streaming.init m seriesWindow queryWindow nDim buffer
  let st ← Streaming.addGenerators gens st
  let st ← Streaming.addConsumers ops consumers st
  let st ← Streaming.run ops needed calls st
  return st.base.cons

/-- A `ShiftingMatrixProfileLR` consumer (matrix_profile_lr.py:127-230) next to generators. `initialise` leaves `series_shift` and `query_shift` alone, they are
set to 0 in `__init__` (142-143). -/
def ShiftingMP.ops [LinearOrder K] (memF : Nat → List (Fl K)) (memI : Nat → List Int) (scale : ℚ) (gops : GenOps G K) : Ops G (ShiftingMP K) K :=
  { calcColumn := gops.calcColumn, calcDiagonal := gops.calcDiagonal, appendSeries := gops.appendSeries, appendQuery := gops.appendQuery,
    initialise := fun p _ q s => (ShiftingMP.initialise memF memI scale q s).map fun p' => { p' with seriesShift := p.seriesShift, queryShift := p.queryShift }, processColumn := ShiftingMP.processColumn,
    processDiagonal := ShiftingMP.processDiagonal, shiftSeries := ShiftingMP.shiftSeries, shiftQuery := ShiftingMP.shiftQuery }

end Verif
