import Mathlib.Order.WithBot
import Mathlib.Order.Lattice
import Mathlib.Data.List.Basic
import Mathlib.Data.List.Sort
import Mathlib.Tactic.Common

/-!
# The fragment of Python / NumPy used by the modelled code

This file models no file of the repository: it fixes the meaning of the Python and NumPy primitives
(slices, slice assignment, exceptions, floats) the repository code is written in.
-/

namespace Verif

/-- Python exceptions raised by the modelled code (or by the NumPy calls it makes). -/
inductive PyErr
  | runtimeError | valueError | indexError | typeError | attributeError | notImplemented
  deriving DecidableEq, Repr

/-! ## Indexing and slicing (Python semantics, negative indices included) -/

section Slices
variable {α : Type}

/-- Normalisation of one slice bound against a sequence of length `n` (CPython `PySlice_AdjustIndices`, step 1). -/
def pyIdx (n : Nat) (i : Int) : Nat :=
  if i < 0 then (n + i).toNat else min i.toNat n

/-- `l[a:b]` -/
def pySlice (l : List α) (a b : Int) : List α :=
  (l.take (pyIdx l.length b)).drop (pyIdx l.length a)

/-- `l[a:]` -/
def pyFrom (l : List α) (a : Int) : List α := l.drop (pyIdx l.length a)

/-- `l[:b]` -/
def pyTo (l : List α) (b : Int) : List α := l.take (pyIdx l.length b)

/-- `l[i]` -/
def pyGet (l : List α) (i : Int) : Except PyErr α :=
  let j : Int := if i < 0 then l.length + i else i
  if j < 0 then .error .indexError
  else match l[j.toNat]? with
    | some x => .ok x
    | none => .error .indexError

/-- `l[i] = x` -/
def pySet (l : List α) (i : Int) (x : α) : Except PyErr (List α) :=
  let j : Int := if i < 0 then l.length + i else i
  if j < 0 then .error .indexError
  else if j.toNat < l.length then .ok (l.set j.toNat x) else .error .indexError

/-- NumPy `l[lo:hi] = vals` on already normalised bounds: the value must have the length of the target slice, or
length 1 (broadcast); otherwise NumPy raises `ValueError`. -/
def assignSlice (l : List α) (lo hi : Nat) (vals : List α) : Except PyErr (List α) :=
  let hi := max lo hi
  if vals.length = hi - lo then .ok (l.take lo ++ vals ++ l.drop hi)
  else match vals with
    | [x] => .ok (l.take lo ++ List.replicate (hi - lo) x ++ l.drop hi)
    | _ => .error .valueError

/-- NumPy `l[a:b] = vals` -/
def pyAssign (l : List α) (a b : Int) (vals : List α) : Except PyErr (List α) :=
  assignSlice l (pyIdx l.length a) (pyIdx l.length b) vals

/-- NumPy `l[a:b] = x` with a scalar `x` (never raises). -/
def pyFill (l : List α) (a b : Int) (x : α) : List α :=
  let lo := pyIdx l.length a
  let hi := max lo (pyIdx l.length b)
  l.take lo ++ List.replicate (hi - lo) x ++ l.drop hi

end Slices

/-- `range(a, b)` -/
def pyRange (a b : Int) : List Int := (List.range (b - a).toNat).map fun k : Nat => a + (k : Int)

/-- `range(a, b, -1)` -/
def pyRangeDown (a b : Int) : List Int := (List.range (a - b).toNat).map fun k : Nat => a - (k : Int)

/-! ## Floats without rounding -/

/-- A float: NaN, the two infinities, or a finite number.  `K` is an exact ordered number type, so that this is
IEEE 754 without rounding (and without signed zeros). -/
inductive Fl (K : Type)
  | nan | ninf | fin (x : K) | pinf
  deriving Repr

namespace Fl
variable {K : Type}

/-- Position in NumPy's sort order `-inf < finite < +inf < NaN`. -/
def key : Fl K → WithTop (WithTop (WithBot K))
  | nan => ⊤
  | pinf => ((⊤ : WithTop (WithBot K)) : WithTop (WithTop (WithBot K)))
  | fin x => (((x : WithBot K) : WithTop (WithBot K)) : WithTop (WithTop (WithBot K)))
  | ninf => (((⊥ : WithBot K) : WithTop (WithBot K)) : WithTop (WithTop (WithBot K)))

theorem key_injective : Function.Injective (key : Fl K → _) := by
  intro a b h
  cases a <;> cases b <;> simp [key] at h <;> first | rfl | (subst h; rfl) | (cases h)

/-- The linear order NumPy sorts by (NaN last).  Comparison operators of the language are `ltF`/`leF` below. -/
instance [LinearOrder K] : LinearOrder (Fl K) := LinearOrder.lift' key key_injective

variable [LinearOrder K]

/-- the float comparison `a < b` (false as soon as one operand is NaN) -/
def ltF (a b : Fl K) : Bool := decide (a < b) && decide (b ≠ nan)

/-- the float comparison `a <= b` (false as soon as one operand is NaN) -/
def leF (a b : Fl K) : Bool := decide (a ≤ b) && decide (b ≠ nan)

/-- the float comparison `a == b` (false as soon as one operand is NaN) -/
def eqF (a b : Fl K) : Bool := decide (a = b) && decide (a ≠ nan)

/-- `np.isfinite` -/
def isFinite : Fl K → Bool
  | fin _ => true
  | _ => false

/-- unary minus -/
def neg {K : Type} [Neg K] : Fl K → Fl K
  | nan => nan
  | pinf => ninf
  | ninf => pinf
  | fin x => fin (-x)

end Fl

section Reductions
variable {K : Type} [LinearOrder K]

/-- `np.min` of a 1-D array: `ValueError` if empty, NaN if some entry is NaN, else the smallest entry. -/
def npMin : List (Fl K) → Except PyErr (Fl K)
  | [] => .error .valueError
  | x :: xs => .ok (if Fl.nan ∈ x :: xs then Fl.nan else xs.foldl min x)

/-- `np.argmin` of a 1-D array: `ValueError` if empty, else the first position of NaN if there is one, else the
first position of the smallest entry. -/
def npArgmin (l : List (Fl K)) : Except PyErr Nat := do
  let m ← npMin l
  return l.idxOf m

/-- `np.sort` of a 1-D array (NaN last). -/
def npSort (l : List (Fl K)) : List (Fl K) := l.insertionSort (· ≤ ·)

end Reductions

end Verif
