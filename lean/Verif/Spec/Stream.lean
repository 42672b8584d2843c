import Mathlib.Data.List.Basic

/-!
# Specification vocabulary: windows over streams

Nothing here refers to the model.
-/

namespace Verif.Spec
variable {α : Type}

/-- The newest `n` elements of a stream (all of it if it is shorter). -/
def lastN (n : Nat) (l : List α) : List α := l.drop (l.length - n)

/-- All windows of length `m` of a list, left to right (none if the list is shorter). -/
def windows (m : Nat) (l : List α) : List (List α) :=
  (List.range (l.length + 1 - m)).map fun i => (l.drop i).take m

end Verif.Spec
