import Verif.Py
import Verif.Spec.Stream

/-!
# Specification of a sliding window with writes

The abstract window is just a list; nothing here refers to the model of `RingBuffer`.
-/

namespace Verif.Spec
variable {α : Type}

/-- Operations a client can perform on a window. -/
inductive WOp (α : Type)
  /-- append a chunk -/
  | push (data : List α)
  /-- `w[i] = x` -/
  | setItem (i : Int) (x : α)
  /-- `w[a:b] = vals` -/
  | setSlice (a b : Int) (vals : List α)

/-- One operation on an abstract window of capacity `n`: a plain Python list of which only the newest `n` elements are
kept. -/
def WOp.apply (n : Nat) (w : List α) : WOp α → Except PyErr (List α)
  | .push d => .ok (lastN n (w ++ d))
  | .setItem i x => pySet w i x
  | .setSlice a b v => pyAssign w a b v

/-- A sequence of operations; stops at the first one that raises. -/
def WOp.run (n : Nat) (w : List α) : List (WOp α) → Except PyErr (List α)
  | [] => .ok w
  | op :: ops => do WOp.run n (← op.apply n w) ops

end Verif.Spec
