import Verif.Py
import Mathlib.Algebra.Field.Defs
import Mathlib.Algebra.Order.Field.Basic

/-!
# Float arithmetic without rounding, and NumPy vector operations

This file models no file of the repository. `K` is an exact ordered field. Signed zeros are not modelled.
-/

namespace Verif
namespace Fl
variable {K : Type} [Field K] [LinearOrder K]

/-- `a + b` -/
def add : Fl K → Fl K → Fl K
  | nan, _ => nan
  | _, nan => nan
  | fin x, fin y => fin (x + y)
  | pinf, ninf => nan
  | ninf, pinf => nan
  | pinf, _ => pinf
  | _, pinf => pinf
  | ninf, _ => ninf
  | _, ninf => ninf

/-- `a - b` -/
def sub (a b : Fl K) : Fl K := add a (neg b)

/-- An infinity with the sign of `x` (NaN if `x = 0`). -/
def infSign (x : K) : Fl K := if 0 < x then pinf else if x < 0 then ninf else nan

/-- `a * b` -/
def mul : Fl K → Fl K → Fl K
  | nan, _ => nan
  | _, nan => nan
  | fin x, fin y => fin (x * y)
  | fin x, pinf => infSign x
  | fin x, ninf => infSign (-x)
  | pinf, fin y => infSign y
  | ninf, fin y => infSign (-y)
  | pinf, pinf => pinf
  | ninf, ninf => pinf
  | pinf, ninf => ninf
  | ninf, pinf => ninf

/-- `a / b` -/
def div : Fl K → Fl K → Fl K
  | nan, _ => nan
  | _, nan => nan
  | fin x, fin y => if y = 0 then infSign x else fin (x / y)
  | fin _, _ => fin 0
  | pinf, fin y => if 0 ≤ y then pinf else ninf
  | ninf, fin y => if 0 ≤ y then ninf else pinf
  | _, _ => nan

/-- `np.square` -/
def square (a : Fl K) : Fl K := mul a a

/-- `np.sqrt`, with `sq` the square root on non-negative finite numbers. -/
def sqrtF (sq : K → K) : Fl K → Fl K
  | fin x => if x < 0 then nan else fin (sq x)
  | pinf => pinf
  | _ => nan

/-- `np.sum`, `np.dot`, `np.einsum`: a sum in any order (float addition without rounding is associative). -/
def sum (l : List (Fl K)) : Fl K := l.foldl add (fin 0)

end Fl

section Vectors
variable {α β γ : Type}

/-- A binary NumPy operation on two 1-D arrays (equal lengths, or one of length 1, else `ValueError`). -/
def npZip (f : α → β → γ) (a : List α) (b : List β) : Except PyErr (List γ) :=
  if a.length = b.length then .ok (List.zipWith f a b)
  else match a, b with
    | [x], b => .ok (b.map (f x))
    | a, [y] => .ok (a.map fun x => f x y)
    | _, _ => .error .valueError

/-- `np.zeros(n)` (`ValueError` for a negative size) -/
def npZeros {K : Type} [Zero K] (n : Int) : Except PyErr (List (Fl K)) :=
  if n < 0 then .error .valueError else .ok (List.replicate n.toNat (.fin 0))

/-- `np.cumsum` -/
def npCumsum {K : Type} [Field K] [LinearOrder K] : List (Fl K) → List (Fl K)
  | [] => []
  | x :: xs => xs.scanl Fl.add x

/-- `a[mask] = x` with a Boolean mask of the length of `a` (else `IndexError`) -/
def npMaskFill (a : List α) (mask : List Bool) (x : α) : Except PyErr (List α) :=
  if a.length = mask.length then .ok (List.zipWith (fun v b => if b then x else v) a mask) else .error .indexError

end Vectors

end Verif
