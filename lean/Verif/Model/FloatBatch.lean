import Verif.Model.Batch
import Verif.Model.RoundedZNorm

/-!
# The generators in floating point as implementations of the generator interface

Used by the model of `AnytimeCalculator` in `Model/Calculator.lean`, which does no arithmetic on distances itself.
-/

namespace Verif

/-- The arithmetic that calculations depend on: rounding, the evaluation of `np.dot` / `np.einsum` (euclidean.py:7-16), of `np.mean` and `np.std`
(math_tricks.py:25) and of `convolve` (znorm_euclidean.py:253, 258, 265). -/
structure FloatEnv where
  rnd : ℝ → ℝ
  dots : Rounded.Dots ℝ
  stat : RoundedZ.Stat ℝ
  conv : List (Fl ℝ) → List (Fl ℝ) → Except PyErr (List (Fl ℝ))

/-- The Euclidean generator in floating point as an implementation of the interface (euclidean.py:60-141). -/
def Rounded.genOps {K : Type} [Field K] [LinearOrder K] (rnd : K → K) (dots : Rounded.Dots K) (mem : Nat → List (Fl K)) (sq : K → K) :
    GenOps (ColCache K) K :=
  { calcDiagonal := fun g d => (Rounded.calcDiagonal rnd sq g d).map fun v => (g, v), calcColumn := Rounded.calcColumn rnd dots mem sq,
    appendSeries := Eucl.appendSeries, appendQuery := Eucl.appendQuery }

/-- The z-normalised generator in floating point as an implementation of the interface (znorm_euclidean.py:118-307). -/
def RoundedZ.genOps {K : Type} [Field K] [LinearOrder K] (rnd : K → K) (stat : RoundedZ.Stat K)
    (conv : List (Fl K) → List (Fl K) → Except PyErr (List (Fl K))) (mem : Nat → List (Fl K)) (sq : K → K) : GenOps (RoundedZ.Gen K) K :=
  { calcDiagonal := fun z d => (RoundedZ.calcDiagonal rnd sq z d).map fun v => (z, v), calcColumn := RoundedZ.calcColumn rnd conv mem sq,
    appendSeries := RoundedZ.appendSeries rnd stat, appendQuery := RoundedZ.appendQuery rnd stat }

/-- Uninitialised memory of the model without rounding, for the one with rounding. -/
def ZN.Mem.rounded (mem : ZN.Mem) : RoundedZ.Mem ℝ := ⟨mem.fl, mem.real, mem.bool⟩

/-- The methods of bound generators of the two classes in floating point. -/
noncomputable def FloatEnv.ops (F : FloatEnv) (memE : Nat → List (Fl ℝ)) (memZ : ZN.Mem) : GenOps (ColCache ℝ ⊕ RoundedZ.Gen ℝ) ℝ :=
  (Rounded.genOps F.rnd F.dots memE Real.sqrt).sum (RoundedZ.genOps F.rnd F.stat F.conv memZ.fl Real.sqrt)

/-- `prepare`, euclidean.py:44-57, znorm_euclidean.py:82-115 -/
noncomputable def FloatEnv.prepare (F : FloatEnv) (memE : Nat → List (Fl ℝ)) (memZ : ZN.Mem) (k : GenKind) (m : Int) (series : List (Fl ℝ))
    (query : Option (List (Fl ℝ))) : Except PyErr (ColCache ℝ ⊕ RoundedZ.Gen ℝ) :=
  match k with
  | .euclidean _ => (Eucl.prepare memE m series query).map .inl
  | .znorm noise _ => (RoundedZ.prepare F.rnd F.stat memZ.rounded noise m series query).map .inr

/-- `prepare_streaming`, euclidean.py:32-42, znorm_euclidean.py:54-80. No arithmetic, so the same for every rounding. -/
noncomputable def FloatEnv.streaming (memE : Nat → List (Fl ℝ)) (memZ : ZN.Mem) (k : GenKind) (m seriesWindow : Int) (queryWindow : Option Int) :
    Except PyErr (ColCache ℝ ⊕ RoundedZ.Gen ℝ) :=
  match k with
  | .euclidean scale => (Eucl.streaming memE scale m seriesWindow queryWindow).map .inl
  | .znorm noise scale => (RoundedZ.prepareStreaming memZ.rounded noise scale m seriesWindow.toNat (queryWindow.map Int.toNat)).map .inr

end Verif
