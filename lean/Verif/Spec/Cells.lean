import Mathlib.Data.List.Basic
import Mathlib.Algebra.Order.Group.Abs
import Mathlib.Algebra.Order.Ring.Int

/-!
# Specification vocabulary: cells of a distance matrix

Nothing here refers to the model.
-/

namespace Verif.Spec

/-- All cells (row, column) of an `h × w` matrix, each once. -/
def allCells (h w : Nat) : List (Int × Int) :=
  (List.range h).flatMap fun i : Nat => (List.range w).map fun j : Nat => ((i : Int), (j : Int))

/-- The cells on diagonal `d` (column − row = d). -/
def diagCells (h w : Nat) (d : Int) : List (Int × Int) := (allCells h w).filter fun c => decide (c.2 - c.1 = d)

/-- The cells of column `j`. -/
def colCells (h w : Nat) (j : Int) : List (Int × Int) := (allCells h w).filter fun c => decide (c.2 = j)

/-- The cells more than `b` away from the main diagonal. -/
def farCells (h w : Nat) (b : Int) : List (Int × Int) := (allCells h w).filter fun c => decide (b < |c.2 - c.1|)

end Verif.Spec
