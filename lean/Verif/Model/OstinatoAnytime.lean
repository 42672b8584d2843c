import Verif.Model.Ostinato
import Verif.Model.EndToEnd
import Verif.Model.GenOps

/-!
# Model of `distancematrix/ostinato.py`: `_MPReverse` and `OstinatoAnytime`

The lists `mps` hold references to consumers that live inside the calculators; here a reference is a pair (number of the calculator,
number of the consumer in it). Random shuffles (one per `AnytimeCalculator`) are arbitrary functions, interrupts an arbitrary oracle.
Series are 1-D by type.
-/

namespace Verif
namespace Ostinato
variable {G K : Type}

/-- A consumer of `OstinatoAnytime`: a `MatrixProfileLR`, or (`reverse`) a `_MPReverse`, ostinato.py:212-220 -/
structure Side (K : Type) where
  reverse : Bool
  mp : MP K

/-- `initialise` of `MatrixProfileLR`, or of `_MPReverse` (ostinato.py:216-217, rows and columns exchanged) -/
def Side.initialise (c : Side K) (querySubseq seriesSubseq : Int) : Except PyErr (Side K) := do
  let p ← if c.reverse then MP.initialise seriesSubseq querySubseq else MP.initialise querySubseq seriesSubseq
  return ⟨c.reverse, p⟩

/-- `process_diagonal` of `MatrixProfileLR`, or of `_MPReverse` (ostinato.py:219-220) -/
def Side.processDiagonal [LinearOrder K] (c : Side K) (diag : Int) (values : List (List (Fl K))) : Except PyErr (Side K) := do
  let p ← c.mp.processDiagonal (if c.reverse then -diag else diag) values
  return ⟨c.reverse, p⟩

/-- `process_column`, which `_MPReverse` inherits (matrix_profile_lr.py:55-63) -/
def Side.processColumn [LinearOrder K] (c : Side K) (column : Int) (values : List (List (Fl K))) : Except PyErr (Side K) := do
  let p ← c.mp.processColumn column values
  return ⟨c.reverse, p⟩

/-- These consumers next to a generator; they have no `shift_series` / `shift_query` (matrix_profile_lr.py:8-111, `AttributeError`). -/
def Side.ops [LinearOrder K] (gops : GenOps G K) : Ops G (Side K) K :=
  { calcColumn := gops.calcColumn, calcDiagonal := gops.calcDiagonal, appendSeries := gops.appendSeries, appendQuery := gops.appendQuery,
    initialise := fun c _ q s => c.initialise q s, processColumn := Side.processColumn, processDiagonal := Side.processDiagonal,
    shiftSeries := fun _ _ => .error .attributeError, shiftQuery := fun _ _ => .error .attributeError }

/-- `class OstinatoAnytime`, ostinato.py:223-289 -/
structure Any (G K : Type) where
  calcs : List (Anytime G (Side K) K)
  /-- references (calculator, consumer) -/
  mps : List (List (Nat × Nat))

/-- The pairs `(i, j)` in the order of the two loops, ostinato.py:249-250 -/
def pairs (n : Nat) : List (Nat × Nat) := (List.range n).flatMap fun i => (List.range' (i + 1) (n - (i + 1))).map fun j => (i, j)

/-- The body of the loops of `__init__`, ostinato.py:251-256. `prepare` is that of the generator; `shuffle t` the shuffle made by the
`t`-th calculator. -/
def Any.addPair [LinearOrder K] (gops : GenOps G K) (prepare : Int → List (Fl K) → Option (List (Fl K)) → Except PyErr G)
    (shuffle : Nat → List Int → List Int) (m : Int) (series : List (List (Fl K))) (o : Any G K) (ij : Nat × Nat) : Except PyErr (Any G K) := do
  let s ← pyGet series (ij.2 : Int)
  let q ← pyGet series (ij.1 : Int)
  let st ← Anytime.assemble (Side.ops gops) prepare (shuffle o.calcs.length) [⟨false, MP.new⟩, ⟨true, MP.new⟩] m s (some q) none
  return { calcs := o.calcs ++ [st]
           mps := (o.mps.modify ij.2 (· ++ [(o.calcs.length, 0)])).modify ij.1 (· ++ [(o.calcs.length, 1)]) }

/-- `__init__`, ostinato.py:237-256, with an arbitrary generator -/
def Any.initWith [LinearOrder K] (gops : GenOps G K) (prepare : Int → List (Fl K) → Option (List (Fl K)) → Except PyErr G)
    (shuffle : Nat → List Int → List Int) (series : List (List (Fl K))) (m : Int) : Except PyErr (Any G K) :=
  (pairs series.length).foldlM (Any.addPair gops prepare shuffle m series) ⟨[], List.replicate series.length []⟩

/-- `__init__`, ostinato.py:237-256 (`ZNormEuclidean()`: `noise_std=0.`, znorm_euclidean.py:36) -/
noncomputable def Any.init (mem : ZN.Mem) (shuffle : Nat → List Int → List Int) (series : List (List (Fl ℝ))) (m : Int) :
    Except PyErr (Any ZN ℝ) := Any.initWith (ZN.genOps mem) (ZN.prepare mem 0) shuffle series m

/-- `calculate`, ostinato.py:258-268. `ints t k`: a SIGINT has arrived when the `t`-th calculator looks with `k` diagonals done (the
calculator then returns early, calculator.py:243, and the loop goes on to the next one). -/
def Any.calculate [LinearOrder K] (gops : GenOps G K) (ints : Nat → Nat → Bool) (fraction : PyNum) (o : Any G K) : Except PyErr (Any G K) := do
  let calcs ← o.calcs.zipIdx.mapM fun x => x.1.calculateDiagonals (Side.ops gops) [0] (ints x.2) fraction
  return { o with calcs := calcs }

/-- `cons.matrix_profile()` of a referenced consumer, ostinato.py:282 (matrix_profile_lr.py:87-98) -/
def Any.profile [LinearOrder K] (o : Any G K) (ref : Nat × Nat) : Except PyErr (List (Fl K)) := do
  let st ← pyGet o.calcs (ref.1 : Int)
  let c ← pyGet st.base.cons (ref.2 : Int)
  return MP.merged c.1.mp.left c.1.mp.right

/-- `np.max` of a 1-D array: `ValueError` if empty, NaN if it contains NaN (NaN is the largest in the order of `Fl`). -/
def npMax [LinearOrder K] : List (Fl K) → Except PyErr (Fl K)
  | [] => .error .valueError
  | x :: xs => .ok (xs.foldl max x)

/-- Column `c` of a list of 1-D arrays (as the reductions of ostinato.py:285-287 see it) -/
def column0 (a : List (List (Fl K))) (c : Nat) : Except PyErr (List (Fl K)) := a.mapM (pyGet · (c : Int))

/-- `np.max(a, axis=0)` of a list of 1-D arrays of equal length (`ValueError` for no or ragged arrays), ostinato.py:285 -/
def npMax0 [LinearOrder K] (a : List (List (Fl K))) : Except PyErr (List (Fl K)) :=
  match a with
  | [] => .error .valueError
  | r :: _ => if a.all (fun x => x.length == r.length) then (List.range r.length).mapM fun c => column0 a c >>= npMax
      else .error .valueError

/-- `np.sort(a, axis=0)[k - 1, :]` of a list of 1-D arrays of equal length, ostinato.py:287 (of no arrays: too many indices, `IndexError`) -/
def npSorted0 [LinearOrder K] (a : List (List (Fl K))) (k : Int) : Except PyErr (List (Fl K)) :=
  match a with
  | [] => .error .indexError
  | r :: _ =>
      if a.all (fun x => x.length == r.length) then
        if k - 1 < -a.length ∨ (a.length : Int) ≤ k - 1 then .error .indexError
        else (List.range r.length).mapM fun c => column0 a c >>= fun l => pyGet (npSort l) (k - 1)
      else .error .valueError

/-- ostinato.py:284-287 -/
def combine [LinearOrder K] (kBest : Option Int) (mps : List (List (Fl K))) : Except PyErr (List (Fl K)) :=
  match kBest with
  | none => npMax0 mps
  | some k => npSorted0 mps k

/-- `get_radii`, ostinato.py:270-289 -/
def Any.getRadii [LinearOrder K] (o : Any G K) (kBest : Option Int) : Except PyErr (List (List (Fl K))) :=
  o.mps.mapM fun refs => refs.mapM o.profile >>= combine kBest

/-- A sequence of calls of `calculate` (ostinato.py:258-268) -/
def Any.run [LinearOrder K] (gops : GenOps G K) (calls : List (PyNum × (Nat → Nat → Bool))) (o : Any G K) : Except PyErr (Any G K) :=
  calls.foldlM (fun o c => o.calculate gops c.2 c.1) o

end Ostinato
end Verif
