import Verif.Spec.Rounding
import Mathlib.Analysis.SpecialFunctions.Pow.NNReal
import Verif.Py

/-!
# Specification vocabulary: rounding errors of whole calculations

Nothing here refers to the model.
-/

namespace Verif.Spec

/-- Bound on the error of a squared Euclidean distance in a calculation with a query of `n` points: columns, diagonals. -/
noncomputable def euclidSqErr (u η eps : ℝ) (m : Nat) (L : ℝ) (n : Nat) : ℝ :=
  max (columnErr u η eps m L n) (roundErr u η (n + 4) (2 * n) (8 * n * L ^ 2))

/-- Bound on the error of a squared z-normalised distance in a calculation with a query of `n` points; `E`: error of a convolution. -/
noncomputable def znormSqErr (u η eps : ℝ) (m : Nat) (L μ σ τ noise E : ℝ) (n : Nat) : ℝ :=
  znormErr u η eps m L μ σ τ noise (max (dotColumnErr u η m L E n) (roundErr u η (n + 2) (2 * n) (2 * n * L ^ 2)))

/-- Bound on the error of the rounded square root of a quantity known with error `B`, whose root is at most `A`. -/
noncomputable def rootErr (u η B A : ℝ) : ℝ := (1 + u) * √B + u * A + η

/-- `v` stands for the distance `d`: a number at most `ε` away, not negative; or NaN if the squared distance is below `B`. -/
def Within (ε B : ℝ) (d v : Fl ℝ) : Prop :=
  ∃ x : ℝ, d = .fin x ∧ ((v = .nan ∧ x ^ 2 < B) ∨ ∃ y : ℝ, v = .fin y ∧ 0 ≤ y ∧ |y - x| ≤ ε)

/-- The value `b` received for `a`: `+inf` for `+inf`, else a number at most `ε` away, not negative. -/
def CloseVal (ε : ℝ) (a b : Fl ℝ) : Prop := (a = .pinf ∧ b = .pinf) ∨ ∃ x y : ℝ, a = .fin x ∧ b = .fin y ∧ 0 ≤ y ∧ |y - x| ≤ ε

/-- `v`, `i` are value and position of a nearest row up to errors of `ε`, or `v` is `+inf` if no row counts: the value is at most `ε` away from the
distance `d i`, and at most `ε` above any distance. -/
def IsNearestWithin (ε : ℝ) (d : Nat → ℝ) (h : Nat) (rows : Nat → Prop) (v : Fl ℝ) (i : Int) : Prop :=
  (v = .pinf ∧ ∀ r < h, ¬ rows r) ∨
    ∃ r < h, rows r ∧ i = (r : Int) ∧ ∃ y : ℝ, v = .fin y ∧ |y - d r| ≤ ε ∧ ∀ r' < h, rows r' → y ≤ d r' + ε

/-- `v`, `i` are value and position of a nearest row among those with `P` up to errors of `ε`; `+inf` and -1 if all values of these rows are `+inf`. -/
def NearestWithin (ε : ℝ) (P : Nat → Prop) (f : Nat → Fl ℝ) (v : Fl ℝ) (i : Int) : Prop :=
  (v = .pinf ∧ i = -1 ∧ ∀ r, P r → f r = .pinf) ∨
    ∃ r : Nat, i = r ∧ P r ∧ ∃ x y : ℝ, f r = .fin x ∧ v = .fin y ∧ |y - x| ≤ ε ∧ ∀ r' x', P r' → f r' = .fin x' → y ≤ x' + ε

/-- Bounds of a calculation: unit roundoff and smallest number of the arithmetic, size of the data, errors of means, deviations and convolutions,
deviations of subsequences that are not flat (at least `τ`) and of those that are (at most `φ`). -/
structure FloatBounds where
  u : ℝ
  η : ℝ
  L : ℝ
  μ : ℝ
  σ : ℝ
  E : ℝ
  τ : ℝ
  φ : ℝ

end Verif.Spec
