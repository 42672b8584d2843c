import Verif.Model.RoundedZNorm
import Mathlib.Data.Real.Sqrt

/-!
# Model of `np.mean`, `np.std` and a direct `scipy.signal.convolve` in floating point

The parameters of `Model/RoundedZNorm.lean` as NumPy and SciPy calculate them: every operation rounded, sums in *any* order (NumPy adds
pairwise, in blocks, or from the left, depending on the memory layout). `np.std` is NumPy's two-pass algorithm. Simplified: a sum of
floats that starts with a superfluous `0` is not distinguished from one that does not, and convolution by FFT (which SciPy chooses for
long inputs) is not modelled here.
-/

namespace Verif
namespace RoundedZ
variable {K : Type} [Field K]

/-- `SumEval rnd l v`: `v` is the result of adding the values `l` in some order, every addition rounded. Used by `np.mean` and `np.std`,
math_tricks.py:25. -/
inductive SumEval (rnd : K → K) : List K → K → Prop
  | one (x : K) : SumEval rnd [x] x
  | add {l l' l'' : List K} {a b : K} (h : SumEval rnd l a) (h' : SumEval rnd l' b) (hp : l''.Perm (l ++ l')) : SumEval rnd l'' (rnd (a + b))

/-- `np.mean` of one window, math_tricks.py:25: a sum divided by the number of values. -/
def MeanEval (rnd : K → K) (w : List K) (μ : K) : Prop := ∃ S, SumEval rnd w S ∧ μ = rnd (S / (w.length : K))

/-- `np.std` of one window, math_tricks.py:25: the mean, the rounded deviations from it, the sum of their squares (as a dot product, in
some order), divided by the number of values, the root. -/
def StdEval (rnd : ℝ → ℝ) (w : List ℝ) (σ : ℝ) : Prop :=
  ∃ μ S, MeanEval rnd w μ ∧ Rounded.DotEval rnd (w.map fun x => (rnd (x - μ), rnd (x - μ))) S ∧ σ = rnd (√(rnd (S / (w.length : ℝ))))

/-- What NumPy's statistics do: math_tricks.py:25. -/
def Stat.Direct (rnd : ℝ → ℝ) (stat : Stat ℝ) : Prop := ∀ w : List ℝ, w ≠ [] → MeanEval rnd w (stat.mean w) ∧ StdEval rnd w (stat.std w)

/-- What `scipy.signal.convolve(…, method='direct')` does (znorm_euclidean.py:253, 258, 265): every value is a dot product, evaluated in
some order. -/
def ConvDirect [LinearOrder K] (rnd : K → K) (conv : List (Fl K) → List (Fl K) → Except PyErr (List (Fl K))) : Prop :=
  ∀ x w : List K, w ≠ [] → w.length ≤ x.length → ∃ vs : List K, conv (x.map .fin) (w.map .fin) = .ok (vs.map .fin) ∧
    vs.length = x.length + 1 - w.length ∧ ∀ i v, vs[i]? = some v → Rounded.DotEval rnd (((x.drop i).take w.length).zip w) v

/-- Adding from the left: one of the orders of math_tricks.py:25. -/
def sumLeft (rnd : K → K) : List K → K
  | [] => 0
  | x :: xs => xs.foldl (fun a b => rnd (a + b)) x

/-- `np.mean` and `np.std`, math_tricks.py:25, adding from the left. -/
noncomputable def Stat.left (rnd : ℝ → ℝ) : Stat ℝ where
  mean w := rnd (sumLeft rnd w / (w.length : ℝ))
  std w :=
    let μ := rnd (sumLeft rnd w / (w.length : ℝ))
    rnd (√(rnd (sumLeft rnd (w.map fun x => rnd (rnd (x - μ) * rnd (x - μ))) / (w.length : ℝ))))

end RoundedZ
end Verif
