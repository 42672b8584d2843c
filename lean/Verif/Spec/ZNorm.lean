import Verif.Spec.Gen

/-!
# Specification vocabulary: z-normalised Euclidean distance

Nothing here refers to the model.
-/

namespace Verif.Spec
open Finset

/-- Squared Euclidean distance of the z-normalised (zero mean, unit deviation) subsequences starting at `q i` and `s j`. -/
noncomputable def zsq (m : Nat) (s q : Nat → ℝ) (i j : Nat) : ℝ :=
  ∑ k ∈ range m, ((s (j + k) - mean m s j) / std m s j - (q (i + k) - mean m q i) / std m q i) ^ 2

/-- A subsequence counts as flat if its deviation is at most 1e-6. -/
def Flat (m : Nat) (x : Nat → ℝ) (i : Nat) : Prop := std m x i ≤ 1 / 10 ^ 6

open Classical in
/-- Squared distance with the conventions for flat subsequences. -/
noncomputable def zflat (m : Nat) (s q : Nat → ℝ) (i j : Nat) : ℝ :=
  if Flat m q i ∧ Flat m s j then 0 else if Flat m q i ∨ Flat m s j then m else zsq m s q i j

open Classical in
/-- Squared distance after noise elimination: the expected contribution of noise with deviation `noise` is subtracted (unless
both subsequences are flat). -/
noncomputable def znoise (m : Nat) (noise : ℝ) (s q : Nat → ℝ) (i j : Nat) : ℝ :=
  zflat m s q i j - if Flat m q i ∧ Flat m s j then 0 else 2 * (m + 1) * noise ^ 2 / max (std m s j) (std m q i) ^ 2

/-- The distance reported: squared distances below 1e-12 count as 0. -/
noncomputable def zdist (m : Nat) (noise : ℝ) (s q : Nat → ℝ) (i j : Nat) : ℝ :=
  √(if znoise m noise s q i j < 1 / 10 ^ 12 then 0 else znoise m noise s q i j)

end Verif.Spec
