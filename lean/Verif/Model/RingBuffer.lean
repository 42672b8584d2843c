import Verif.Py
import Mathlib.Data.Rat.Floor
import Mathlib.Algebra.Order.Floor.Ring

/-!
# Model of `distancematrix/ringbuffer.py`

The last axis of the NumPy memory is a list; one list element stands for the data of one position of the last axis
over all leading dimensions (in the 1-D case: one number).  `lead` is the shape of the leading dimensions.
-/

namespace Verif

/-- What `self.view` refers to: a window into `_buffer` (a NumPy basic slice aliases the memory), or an array of its
own (only produced by `ContextualMatrixProfile.shift_query`, which assigns `buffer.view = np.roll(...)`). -/
inductive ViewRef (α : Type)
  | window (start len : Nat)
  | detached (data : List α)
  deriving DecidableEq, Repr

/-- `class RingBuffer`, ringbuffer.py:5-120 (line numbers of the file); fields set in `__init__` 43-50. -/
structure RB (α : Type) where
  /-- leading dimensions, `_buffer.shape[:-1]` -/
  lead : List Nat
  /-- `_buffer`, last axis -/
  buf : List α
  /-- `_view_max_length` (= `max_shape[-1]`) -/
  vmax : Nat
  /-- `_view_start` -/
  vstart : Nat
  /-- `_view_length` -/
  vlen : Nat
  /-- `view` -/
  view : ViewRef α
  deriving DecidableEq, Repr

namespace RB
variable {α : Type}

/-- Contents of `self.view` (also `__getitem__`, ringbuffer.py:117, applies to it). -/
def items (rb : RB α) : List α :=
  match rb.view with
  | .window s n => pySlice rb.buf s (s + n)
  | .detached d => d

/-- `ceil(scaling_factor * shape[-1])`, ringbuffer.py:49. The scaling factor is a rational: the rounding of the float
product is not modelled. -/
def capacity (scale : ℚ) (n : Nat) : Nat := ⌈scale * n⌉.toNat

/-- `RingBuffer(None, shape, dtype, scaling_factor)`, ringbuffer.py:17-54 with `data is None`. `junk` is the
uninitialised memory returned by `np.empty`. -/
def mkEmpty (lead : List Nat) (n : Nat) (junk : List α) : RB α :=
  { lead := lead, buf := junk, vmax := n, vstart := 0, vlen := 0, view := .window 0 0 }

/-- `push` after the shape check, ringbuffer.py:68-112, branch by branch.
Returns the new buffer and the returned count; a NumPy shape mismatch is a `ValueError`
(the half-updated state at that moment is not modelled). -/
def push (rb : RB α) (data : List α) : Except PyErr (RB α × Nat) := do
  -- 70-71
  if data.length = 0 then return (rb, 0)
  -- 74-85: the view does not have its target capacity yet, fill it first
  let (rb, data, done) ←
    if rb.vlen < rb.vmax then do
      let delta := min data.length (rb.vmax - rb.vlen)
      let buf ← pyAssign rb.buf rb.vlen (rb.vlen + delta) (pyTo data delta)
      let vlen := rb.vlen + delta
      let rb := { rb with buf := buf, vlen := vlen, view := .window 0 vlen }
      if data.length = delta then pure (rb, data, true)
      else pure (rb, pyFrom data delta, false)
    else pure (rb, data, false)
  if done then return (rb, 0)
  let n := data.length
  -- 90-93: fits in the remaining memory
  if rb.vstart + rb.vmax + n ≤ rb.buf.length then
    let vstart := rb.vstart + n
    -- `self.view[..., -data_len:] = data` writes through the window `[vstart, vstart + vmax)` of the memory
    let win := pySlice rb.buf vstart (vstart + rb.vmax)
    let win ← assignSlice win (pyIdx win.length (-(n : Int))) win.length data
    let buf ← pyAssign rb.buf vstart (vstart + rb.vmax) win
    return ({ rb with buf := buf, vstart := vstart, view := .window vstart rb.vmax }, n)
  -- 97-103: does not fit, less than the view capacity
  else if n < rb.vmax then
    let memLen := rb.vmax - n
    let old := pySlice rb.buf (rb.vstart + n) (rb.vstart + rb.vmax)
    let buf ← pyAssign rb.buf 0 memLen old
    let buf ← pyAssign buf memLen rb.vmax data
    return ({ rb with buf := buf, vstart := 0, view := .window 0 rb.vmax }, n)
  -- 107-110: the new data (over)fills the view
  else
    let buf ← pyAssign rb.buf 0 rb.vmax (pyFrom data (-(rb.vmax : Int)))
    return ({ rb with buf := buf, vstart := 0, view := .window 0 rb.vmax }, n)

/-- `push`, ringbuffer.py:56-112, including the check of the leading dimensions (65-66). -/
def pushArr (rb : RB α) (lead : List Nat) (data : List α) : Except PyErr (RB α × Nat) :=
  if lead ≠ rb.lead then .error .runtimeError else rb.push data

/-- `__init__`, ringbuffer.py:17-54. `data`: leading shape and columns, or `None`; `shape`: leading shape and length,
or `None` (line 38 `if not shape`: use the shape of the data).  `dtypeGiven` is `dtype is not None`.
`junk` is the memory returned by `np.empty`, of length `capacity scale n`. -/
def init (data : Option (List Nat × List α)) (shape : Option (List Nat × Nat)) (dtypeGiven : Bool)
    (junk : List α) : Except PyErr (RB α) :=
  match data, shape with
  | none, none => .error .runtimeError
  | none, some (lead, n) =>
      if dtypeGiven then .ok (mkEmpty lead n junk) else .error .runtimeError
  | some (dlead, d), none => do
      let (rb, _) ← (mkEmpty dlead d.length junk).pushArr dlead d
      return rb
  | some (dlead, d), some (lead, n) => do
      let (rb, _) ← (mkEmpty lead n junk).pushArr dlead d
      return rb

/-- `__setitem__` with a slice key along the last axis, ringbuffer.py:114-115: `buffer[a:b] = vals`. Writes through
`self.view`; if the view is a window this changes `_buffer`. -/
def setSlice (rb : RB α) (a b : Int) (vals : List α) : Except PyErr (RB α) := do
  let v ← pyAssign rb.items a b vals
  match rb.view with
  | .window s n =>
      let buf ← pyAssign rb.buf s (s + n) v
      return { rb with buf := buf }
  | .detached _ => return { rb with view := .detached v }

/-- `__setitem__` with an integer key along the last axis, ringbuffer.py:114-115: `buffer[i] = x`. -/
def setItem (rb : RB α) (i : Int) (x : α) : Except PyErr (RB α) := do
  let v ← pySet rb.items i x
  match rb.view with
  | .window s n =>
      let buf ← pyAssign rb.buf s (s + n) v
      return { rb with buf := buf }
  | .detached _ => return { rb with view := .detached v }

end RB
end Verif
