import Verif.Py
import Mathlib.Order.WithBot
import Mathlib.Algebra.Order.Monoid.WithTop

/-!
# Model of `distancematrix/util.py`

`sliding_min`, `sliding_max` (136-158) are in `Model/SmallParts.lean`. Not modelled: the `ndim` guards of the 2-D functions
(45, 60, 84, 109: the argument is a matrix by type), and the `subok`/`writeable` flags of `sliding_window_view` (a copy has the same contents).
-/

namespace Verif

/-- `diag_length`, util.py:5-17 -/
def diagLength (h w diagonal : Int) : Int :=
  if diagonal ≥ 0 then max (min h (w - diagonal)) 0
  else max (min w (h + diagonal)) 0

/-- `diag_indices`, util.py:20-34 (and `diag_indices_of`, 37-48, with `h, w = array.shape`) -/
def diagIndices (h w diagonal : Int) : List Int × List Int :=
  let dl := diagLength h w diagonal
  if diagonal ≥ 0 then (pyRange 0 dl, pyRange diagonal (diagonal + dl))
  else (pyRange (-diagonal) (-diagonal + dl), pyRange 0 dl)

/-- `cut_indices_of`, util.py:51-73, with `h, w = array.shape` -/
def cutIndices (h w cut : Int) : List Int × List Int :=
  if cut < 0 ∨ cut ≥ w + h - 1 then (pyRange 0 0, pyRange 0 0)
  else
    let cutLength := cut + 1 - max 0 (cut - h + 1) - max 0 (cut - w + 1)
    if cut < h then (pyRangeDown cut (cut - cutLength), pyRange 0 cutLength)
    else (pyRangeDown (h - 1) (h - cutLength - 1), pyRange (cut - h + 1) (cut - h + 1 + cutLength))

section ShortestPath

/-- A 2-D array: its shape is passed separately; entries outside the shape are never read. -/
abbrev Mat (K : Type) := Nat → Nat → K

/-- `a[i, j] = v` -/
def Mat.set {K : Type} (a : Mat K) (i j : Nat) (v : K) : Mat K :=
  fun i' j' => if i' = i ∧ j' = j then v else a i' j'

/-- `np.cumsum(v)[k]`: the sum of the first `k+1` entries, from left to right. -/
def cumsumAt {K : Type} [Add K] (v : Nat → K) : Nat → K
  | 0 => v 0
  | k + 1 => cumsumAt v k + v (k + 1)

variable {K : Type} [Add K] [LinearOrder K]

/-- `shortest_path_distances`, util.py:76-99. `junk` is the memory of `np.empty_like`. `h`, `w`: the shape. -/
def shortestPathDistances (junk : Mat K) (h w : Nat) (cost : Mat K) : Mat K :=
  -- 90
  let dist : Mat K := fun i j => if i = 0 ∧ j < w then cumsumAt (fun c => cost 0 c) j else junk i j
  -- 91
  let dist : Mat K := fun i j => if j = 0 ∧ i < h then cumsumAt (fun r => cost r 0) i else dist i j
  -- 95-97
  (List.range' 1 (h - 1)).foldl (fun dist c =>
    (List.range' 1 (w - 1)).foldl (fun dist r =>
      Mat.set dist c r (min (min (dist (c - 1) r) (dist c (r - 1))) (dist (c - 1) (r - 1)) + cost c r)) dist) dist

end ShortestPath

section ShortestPathWalk

/-- Python indexing of an axis of length `n` (negative indices count from the end). -/
def wrapIdx (n : Nat) (i : Int) : Except PyErr Nat :=
  let j := if i < 0 then n + i else i
  if 0 ≤ j ∧ j < n then .ok j.toNat else .error .indexError

/-- Reading `a[i, j]` from an `h × w` array. -/
def Mat.read {K : Type} (a : Mat K) (h w : Nat) (i j : Int) : Except PyErr K := do
  return a (← wrapIdx h i) (← wrapIdx w j)

variable {K : Type} [Add K] [LinearOrder K]

/-- One iteration of the `while` loop, util.py:119-130: the new position and the value of the local variable
`delta_step` (`none`: still unbound, reading it raises `UnboundLocalError`, here `runtimeError`).  `⊤` is `np.inf`. -/
def walkStep (h w : Nat) (dist : Mat (WithTop K)) (row col : Int) (delta : Option (Int × Int)) :
    Except PyErr (Int × Int × Option (Int × Int)) := do
  -- 119-122
  let (best, delta) ←
    if row ≠ 0 ∧ col ≠ 0 then do pure (← Mat.read dist h w (row - 1) (col - 1), some (-1, -1))
    else pure (⊤, delta)
  -- 123-125
  let (best, delta) ←
    if row ≠ 0 then do
      let v ← Mat.read dist h w (row - 1) col
      if v < best then pure (v, some (-1, 0)) else pure (best, delta)
    else pure (best, delta)
  -- 126-127
  let delta ←
    if col ≠ 0 then do
      let v ← Mat.read dist h w row (col - 1)
      if v < best then pure (some (0, -1)) else pure delta
    else pure delta
  -- 129-130
  match delta with
  | none => .error .runtimeError
  | some (dr, dc) => return (row + dr, col + dc, some (dr, dc))

/-- The `while` loop, util.py:118-131; `path` is in the order of the result (the code appends and reverses at the end,
133).  At most `fuel` iterations; `none` if the loop has not ended by then. -/
def walkLoop (h w : Nat) (dist : Mat (WithTop K)) :
    Nat → Int → Int → Option (Int × Int) → List (Int × Int) → Except PyErr (Option (List (Int × Int)))
  | fuel, row, col, delta, path =>
    if row = 0 ∧ col = 0 then .ok (some path)
    else match fuel with
      | 0 => .ok none
      | fuel + 1 => do
          let (row, col, delta) ← walkStep h w dist row col delta
          walkLoop h w dist fuel row col delta ((row, col) :: path)

/-- `shortest_path`, util.py:102-133, on an `h × w` array (`h, w ≥ 1`). -/
def shortestPath (junk : Mat (WithTop K)) (fuel : Nat) (h w : Nat) (cost : Mat (WithTop K)) :
    Except PyErr (Option (List (Int × Int))) :=
  let row : Int := h - 1
  let col : Int := w - 1
  walkLoop h w (shortestPathDistances junk h w cost) fuel row col none [(row, col)]

end ShortestPathWalk

section SlidingWindow

/-- A strided array: shape and strides (in elements) per dimension. -/
structure Strided where
  shape : List Int
  strides : List Int
  deriving DecidableEq, Repr

/-- Offset (relative to the first element) addressed by an index vector. -/
def dot : List Int → List Int → Int
  | i :: is, s :: ss => i * s + dot is ss
  | _, _ => 0

/-- `sliding_window_view`, util.py:199-243: the strided view. `step = none` is the default. -/
def slidingWindowView (x : Strided) (shape : List Int) (step : Option (List Int)) : Except PyErr Strided := do
  -- 209-212
  if x.shape.length ≠ shape.length then throw .valueError
  if shape.any (fun s => decide (s ≤ 0)) then throw .valueError
  -- 214-227
  let step ← match step with
    | none => pure (x.shape.map fun _ => 1)
    | some step => do
        if x.shape.length ≠ step.length then throw .valueError
        if step.any (fun s => decide (s ≤ 0)) then throw .valueError
        pure step
  -- 229-231
  let o := List.zipWith (fun d st => d / st + 1) (List.zipWith (· - ·) x.shape shape) step
  if o.any (fun s => decide (s ≤ 0)) then throw .valueError
  -- 233-238
  let viewStrides := List.zipWith (· * ·) x.strides step
  return { shape := o ++ shape, strides := viewStrides ++ x.strides }

/-- `sliding_window_view(x, [m])` of a 1-D array, util.py:161-243 specialised: the rows of the view. That this is what
the strides address is proved in C11. -/
def slidingWindows {α : Type} (x : List α) (m : Nat) : Except PyErr (List (List α)) :=
  if m = 0 then .error .valueError
  else if x.length < m then .error .valueError
  else .ok ((List.range (x.length - m + 1)).map fun i => (x.drop i).take m)

end SlidingWindow

end Verif
