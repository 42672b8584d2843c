import Verif.Model.Calculator
import Verif.Model.Generator
import Verif.Model.MatrixProfile
import Verif.Model.DistanceMatrix
import Verif.Model.Euclidean
import Verif.Model.ZNormEuclidean

/-!
# The parts put together: a calculator with one generator and its consumers

The calls a user makes (as `_calculate_mp` does, ostinato.py:201-209). The calculator is the model of calculator.py, a generator is
used through `GenOps`, and the consumers are the models of `MatrixProfileLR` and `DistanceMatrix`.
-/

namespace Verif
variable {G C K : Type}

/-- A `MatrixProfileLR` consumer (matrix_profile_lr.py:29-63) next to a generator. The class has no `shift_series` / `shift_query`
(`AttributeError`). -/
def MP.ops [LinearOrder K] (gops : GenOps G K) : Ops G (MP K) K :=
  { calcColumn := gops.calcColumn, calcDiagonal := gops.calcDiagonal, appendSeries := gops.appendSeries, appendQuery := gops.appendQuery,
    initialise := fun _ _ q s => MP.initialise q s, processColumn := MP.processColumn, processDiagonal := MP.processDiagonal,
    shiftSeries := fun _ _ => .error .attributeError, shiftQuery := fun _ _ => .error .attributeError }

/-- A `DistanceMatrix` consumer (distance_matrix.py:17-45) next to a generator. -/
def DM.ops (gops : GenOps G K) : Ops G (DM K) K :=
  { calcColumn := gops.calcColumn, calcDiagonal := gops.calcDiagonal, appendSeries := gops.appendSeries, appendQuery := gops.appendQuery,
    initialise := fun _ dims q s => DM.initialise dims q s, processColumn := DM.processColumn, processDiagonal := DM.processDiagonal,
    shiftSeries := fun p n => .ok (p.shiftSeries n), shiftQuery := fun p n => .ok (p.shiftQuery n) }

/-- `add_consumer([0], c)` for each of the consumers, calculator.py:61-72 -/
def Anytime.addConsumers (ops : Ops G C K) : List C → Anytime G C K → Except PyErr (Anytime G C K)
  | [], st => .ok st
  | c :: cs, st => do Anytime.addConsumers ops cs (← st.addConsumer ops [0] c)

/-- `calc = AnytimeCalculator(m, series, query, buffer)`, `calc.add_generator(0, gen)`, `calc.add_consumer([0], c)` for each of the
consumers: calculator.py:165-223, 61-72; the calls are those of ostinato.py:205-207 and 250-254. -/
def Anytime.assemble (ops : Ops G C K) (prepare : Int → List (Fl K) → Option (List (Fl K)) → Except PyErr G)
    (shuffle : List Int → List Int) (consumers : List C) (m : Int) (series : List (Fl K)) (query : Option (List (Fl K)))
    (buffer : Option Int) : Except PyErr (Anytime G C K) := do
  let st ← Anytime.init shuffle m [series] (query.map fun q => [q]) buffer
  let st ← st.addGenerator prepare 0
  Anytime.addConsumers ops consumers st

/-- A new `MatrixProfileLR` before `initialise`, matrix_profile_lr.py:20-27 -/
def MP.new : MP K := ⟨[], [], [], [], []⟩

/-- A calculator with one generator and a `MatrixProfileLR`, after `calculate_columns()` or `calculate_diagonals()` with their default
arguments (calculator.py:85, 225): the consumer. The calls are those of `_calculate_mp`, ostinato.py:205-208. -/
def matrixProfile [LinearOrder K] (gops : GenOps G K) (prepare : Int → List (Fl K) → Option (List (Fl K)) → Except PyErr G)
    (shuffle : List Int → List Int) (byColumns : Bool) (m : Int) (series : List (Fl K)) (query : Option (List (Fl K)))
    (buffer : Option Int) : Except PyErr (MP K) := do
  let st ← Anytime.assemble (MP.ops gops) prepare shuffle [MP.new] m series query buffer
  let st ← if byColumns then st.calculateColumns (MP.ops gops) [0] (fun _ => false) none (.float (.fin 1))
    else st.calculateDiagonals (MP.ops gops) [0] (fun _ => false) (.float (.fin 1))
  let c ← pyGet st.base.cons 0
  return c.1

/-- `calc = StreamingCalculator(m, series_window, query_window, 1, buffer)`, `calc.add_generator(0, gen)`, `calc.add_consumer([0], c)`:
calculator.py:282-321, 61-72 -/
def Streaming.assemble (ops : Ops G C K) (prepare : Int → Int → Option Int → Except PyErr G) (consumer : C) (m seriesWindow : Int)
    (queryWindow : Option Int) (buffer : Option Int) : Except PyErr (Streaming G C) := do
  let st ← Streaming.init m seriesWindow queryWindow 1 buffer
  let st ← st.addGenerator prepare 0
  st.addConsumer ops [0] consumer

/-- A new `DistanceMatrix` before `initialise`, distance_matrix.py:14-15 -/
def DM.new : DM K := ⟨0, 0, fun _ _ => .nan⟩

/-- A `StreamingCalculator` with one generator and a `DistanceMatrix`, after a sequence of calls: the consumer. -/
def streamMatrix (gops : GenOps G K) (prepare : Int → Int → Option Int → Except PyErr G) (m seriesWindow : Int) (queryWindow : Option Int)
    (buffer : Option Int) (calls : List (Streaming.Op K)) : Except PyErr (DM K) := do
  let st ← Streaming.assemble (DM.ops gops) prepare DM.new m seriesWindow queryWindow buffer
  let st ← Streaming.run (DM.ops gops) [0] calls st
  let c ← pyGet st.base.cons 0
  return c.1

/-- `Euclidean(rb_scale_factor).prepare_streaming` with the window sizes as the calculator passes them, euclidean.py:32-42 -/
def Eucl.streaming [Field K] [LinearOrder K] (mem : Nat → List (Fl K)) (scale : ℚ) (m seriesWindow : Int) (queryWindow : Option Int) :
    Except PyErr (ColCache K) := .ok (Eucl.prepareStreaming mem scale m seriesWindow.toNat (queryWindow.map Int.toNat))

/-- `ZNormEuclidean(noise_std, rb_scale_factor).prepare_streaming`, znorm_euclidean.py:54-80 -/
noncomputable def ZN.streaming (mem : ZN.Mem) (noise : ℝ) (scale : ℚ) (m seriesWindow : Int) (queryWindow : Option Int) : Except PyErr ZN :=
  ZN.prepareStreaming mem noise scale m seriesWindow.toNat (queryWindow.map Int.toNat)

end Verif
