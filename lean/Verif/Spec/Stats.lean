import Mathlib.Analysis.Real.Sqrt
import Mathlib.Algebra.BigOperators.Group.Finset.Basic

/-!
# Specification vocabulary: moving mean and deviation

Nothing here refers to the model.
-/

namespace Verif.Spec
open Finset

/-- mean of `x i, …, x (i+m-1)` -/
noncomputable def mean (m : Nat) (x : Nat → ℝ) (i : Nat) : ℝ := (∑ k ∈ range m, x (i + k)) / m

/-- population variance of `x i, …, x (i+m-1)` -/
noncomputable def var (m : Nat) (x : Nat → ℝ) (i : Nat) : ℝ := (∑ k ∈ range m, (x (i + k) - mean m x i) ^ 2) / m

/-- population standard deviation of `x i, …, x (i+m-1)` -/
noncomputable def std (m : Nat) (x : Nat → ℝ) (i : Nat) : ℝ := √(var m x i)

/-- A finite list as a sequence (0 beyond its end). -/
def seqOf {K : Type} [Zero K] (l : List K) : Nat → K := fun i => l.getD i 0

end Verif.Spec
