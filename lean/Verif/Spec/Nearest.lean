import Verif.Py
import Mathlib.Algebra.Order.Ring.Int
import Mathlib.Algebra.Order.Group.Unbundled.Abs

/-!
# Specification vocabulary: brute-force nearest neighbours

Nothing here refers to the model.
-/

namespace Verif.Spec
variable {K : Type} [LinearOrder K]

/-- `v` is the smallest of the distances `d r` over the rows `r < h` that count, and `i` a row where it is attained; `+inf` if no row
counts. -/
def IsNearest (d : Nat → K) (h : Nat) (rows : Nat → Prop) (v : Fl K) (i : Int) : Prop :=
  (v = .pinf ∧ ∀ r < h, ¬ rows r) ∨ ∃ r < h, rows r ∧ v = .fin (d r) ∧ i = r ∧ ∀ r' < h, rows r' → d r ≤ d r'

/-- Row `r` and column `c` are further apart than the trivial match buffer. -/
def Apart (buffer : Int) (r c : Nat) : Prop := buffer < |(r : Int) - c|

end Verif.Spec
