import Mathlib.Order.Bounds.Basic
import Mathlib.Algebra.Group.Defs
import Mathlib.Data.List.Chain

/-!
# Specification: monotone lattice paths and their cost
-/

namespace Verif.Spec

/-- `b` is one step right, down or diagonally down-right of `a`. -/
def IsStep (a b : Nat × Nat) : Prop :=
  b = (a.1 + 1, a.2) ∨ b = (a.1, a.2 + 1) ∨ b = (a.1 + 1, a.2 + 1)

/-- `p` is a path from `(0,0)` to `e`. -/
structure IsPath (p : List (Nat × Nat)) (e : Nat × Nat) : Prop where
  head : p.head? = some (0, 0)
  last : p.getLast? = some e
  chain : p.IsChain IsStep

/-- Summed cost of the cells of a path. -/
def pathCost {K : Type} [AddMonoid K] (cost : Nat → Nat → K) (p : List (Nat × Nat)) : K :=
  (p.map fun c => cost c.1 c.2).sum

end Verif.Spec
