import Verif.Spec.ZNorm

/-!
# Specification vocabulary: motifs of variable length

Nothing here refers to the model.
-/

namespace Verif.Spec

/-- Correlation of the length-`m` subsequences starting at `q i` and `s j`. -/
noncomputable def corr (m : Nat) (s q : Nat → ℝ) (i j : Nat) : ℝ :=
  ((∑ k ∈ Finset.range m, (s (j + k) - mean m s j) * (q (i + k) - mean m q i)) / m) / (std m q i * std m s j)

/-- Subsequences `q` and `i` of length `m` of a series of length `n` are more than `b` apart. -/
def FarPair (n m b q i : Nat) : Prop := q + m ≤ n ∧ i + m ≤ n ∧ (q + b < i ∨ i + b < q)

/-- The answer for one length: the pair of subsequences more than `b` apart with the smallest z-normalised distance (corrected for noise of
this standard deviation), or `none` if no
subsequences are that far apart. -/
def IsMotif (noise : ℝ) (x : List ℝ) (m b : Nat) : Option (Nat × Nat) → Prop
  | none => ∀ q i, ¬ FarPair x.length m b q i
  | some (q, i) => FarPair x.length m b q i ∧
      ∀ q' i', FarPair x.length m b q' i' → zdist m noise (seqOf x) (seqOf x) q i ≤ zdist m noise (seqOf x) (seqOf x) q' i'

/-- Every subsequence of length `m` that counts as flat is exactly constant. -/
def NoNearlyFlat (x : List ℝ) (m : Nat) : Prop := ∀ i, i + m ≤ x.length → Flat m (seqOf x) i → std m (seqOf x) i = 0

end Verif.Spec
