import Verif.Spec.Gen
import Mathlib.Algebra.Order.Field.Basic

/-!
# Specification vocabulary: rounding errors

Nothing here refers to the model. `u`: relative error of one operation, `η`: absolute error of one multiplication near zero.
-/

namespace Verif.Spec
variable {K : Type} [Field K]

/-- Bound on the error of a quantity calculated with `k` roundings on top of each other, whose summands have absolute values
adding up to `A` and which uses `n` multiplications: about `k * u * A`. -/
def roundErr (u η : K) (k n : Nat) (A : K) : K := (1 + u) ^ k * (A + n * η) - A

/-- Bound on the error of a squared distance calculated as `X² - 2XY + Y²` from values of at most `L`; squares below `eps` are
replaced by 0. -/
def fullErr (u η eps : K) (m : Nat) (L : K) : K := roundErr u η (m + 3) (4 * m + 1) (4 * m * L ^ 2) + eps

/-- Bound on the additional error of deriving a squared distance from the one diagonally before it. -/
def updateErr (u η : K) (m : Nat) (L : K) : K :=
  ((1 + u) ^ 2 + (1 + u)) * roundErr u η 3 1 (4 * L ^ 2) + (2 + u) * u * (4 * m * L ^ 2)

/-- Bound on the error of a squared distance after `n` columns: grows with the number of columns. -/
def columnErr (u η eps : K) (m : Nat) (L : K) (n : Nat) : K := (1 + u) ^ (2 * n) * (fullErr u η eps m L + n * updateErr u η m L)

/-- Bound on the error after rounding a quantity of absolute value at most `A` known with error `e`. -/
def rounded (u η A e : K) : K := (1 + u) * e + u * A + η

/-- Bound on the error of a product of factors bounded by `A` and `B` and known with errors `a` and `b`. -/
def prodErr (A a B b : K) : K := A * b + B * a + a * b

/-- Bound on the error of a dot product of values of at most `L` after `n` columns, if a full calculation has error `E`. -/
def dotColumnErr (u η : K) (m : Nat) (L E : K) (n : Nat) : K :=
  (1 + u) ^ (2 * n) * (E + n * rounded u η (m * L ^ 2) (rounded u η (m * L ^ 2) (rounded u η (L ^ 2) 0) + rounded u η (L ^ 2) 0))

/-- Bound on the error of the product of two deviations of at most `L`, known with error `σ`. -/
def devErr (u η L σ : K) : K := rounded u η (L ^ 2) (prodErr L σ L σ)

/-- Bound on the error of `2 (m - (XY - m μX μY) / (σX σY))` for values of at most `L` and deviations of at least `τ`; errors: `μ` of the
means, `σ` of the deviations, `E` of the dot product. -/
def corrErr (u η : K) (m : Nat) (L μ σ τ E : K) : K :=
  rounded u η (4 * m) (2 * rounded u η (2 * m) (rounded u η m
    ((rounded u η (m * L ^ 2) (E + rounded u η (m * L ^ 2) (prodErr (m * L) (rounded u η (m * L) (m * μ)) L μ)) + m * devErr u η L σ) /
      (τ ^ 2 - devErr u η L σ))))

/-- Bound on what noise elimination subtracts. -/
def noiseMax (m : Nat) (τ noise : K) : K := 2 * (m + 1) * noise ^ 2 / τ ^ 2

/-- Bound on the error of what noise elimination subtracts. -/
def noiseErr (u η : K) (m : Nat) (L σ τ noise : K) : K :=
  rounded u η (noiseMax m τ noise) ((rounded u η (2 * (m + 1) * noise ^ 2) (2 * (m + 1) * rounded u η (noise ^ 2) 0) +
    noiseMax m τ noise * devErr u η L σ) / (τ ^ 2 - devErr u η L σ))

/-- Bound on the error of a squared z-normalised distance; squares below 1e-12, in the calculation below `eps`, count as 0. -/
def znormErr [LinearOrder K] (u η eps : K) (m : Nat) (L μ σ τ noise E : K) : K :=
  rounded u η (4 * m + noiseMax m τ noise) (corrErr u η m L μ σ τ E + noiseErr u η m L σ τ noise) + max (1 / 10 ^ 12) eps

end Verif.Spec
