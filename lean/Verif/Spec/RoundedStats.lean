import Verif.Spec.Rounding
import Mathlib.Data.Real.Sqrt

/-!
# Specification vocabulary: rounding errors of means and standard deviations

Nothing here refers to the model. As in `Spec/Rounding.lean`, `u` is the relative error of one operation and `η` an absolute error.
-/

namespace Verif.Spec

/-- Bound on the error of the mean of `m` values of absolute value at most `L`: about `m * u * L`. -/
def meanErr {K : Type} [Field K] (u η : K) (m : Nat) (L : K) : K := roundErr u η m m L

/-- Bound on the error of the deviation of one value from the mean. -/
def deviationErr {K : Type} [Field K] (u η : K) (m : Nat) (L : K) : K := rounded u η (2 * L) (meanErr u η m L)

/-- Bound on the error of the standard deviation of `m` values of absolute value at most `L`: about `2 * m * u * L`. -/
noncomputable def stdErr (u η : ℝ) (m : Nat) (L : ℝ) : ℝ :=
  rounded u η L (deviationErr u η m L + roundErr u 0 (m + 1) 0 (L + deviationErr u η m L) + √((1 + u) ^ (m + 1) * ((m + 1 : Nat) * η)))

end Verif.Spec
