import Verif.Model.Util
import Verif.Model.Insights

/-!
# Model of `distancematrix/consumer/radius_profile.py`

`values` has one row per channel; only row 0 is read. Track indices are a list of integers by type (the `ndim` guards 30-31, 78-79 are not modelled).
A 2-D array is a function of two indices; its shape is (number of track indices, `w`).
-/

namespace Verif
variable {K : Type} [LinearOrder K]

/-- The sorted track indices, radius_profile.py:28-37, 76-87. -/
def trackIndices (track : List Int) : Except PyErr (List Int) :=
  if track.length = 0 then .error .valueError
  else if track.any fun k => decide (k < 0) then .error .valueError
  else .ok (track.insertionSort (· ≤ ·))

/-- `class RadiusProfile0` after `initialise`, radius_profile.py:9-41. -/
structure RP0 (K : Type) where
  track : List Int
  w : Nat
  values : Mat (Fl K)

namespace RP0

/-- `__init__` and `initialise`, radius_profile.py:19-41 -/
def initialise (track : List Int) (seriesSubseq : Int) : Except PyErr (RP0 K) := do
  let track ← trackIndices track
  if seriesSubseq < 0 then .error .valueError
  else return { track := track, w := seriesSubseq.toNat, values := fun _ _ => .nan }

/-- `process_diagonal`, radius_profile.py:43-44 -/
def processDiagonal (_ : RP0 K) (_ : Int) (_ : List (List (Fl K))) : Except PyErr (RP0 K) := .error .notImplemented

/-- `np.take(a, k, mode="clip")` -/
def takeClip (a : List (Fl K)) (k : Int) : Except PyErr (Fl K) := pyGet a (max 0 (min k (a.length - 1)))

/-- `process_column`, radius_profile.py:46-53 -/
def processColumn (p : RP0 K) (c : Int) (values : List (List (Fl K))) : Except PyErr (RP0 K) := do
  let vals ← pyGet values 0
  let sorted := npSort vals ++ [.nan]
  let taken ← p.track.mapM (takeClip sorted)
  let c ← wrapIdx p.w c
  return { p with values := fun t j => if j = c then (taken[t]?).getD (p.values t j) else p.values t j }

end RP0

/-- `class RadiusProfile` after `initialise`, radius_profile.py:56-92. -/
structure RP (K : Type) where
  track : List Int
  exclusion : Int
  w : Nat
  values : Mat (Fl K)

namespace RP

/-- `__init__` and `initialise`, radius_profile.py:63-92. `exclude` is `none` if its type is not `int` (line 84). -/
def initialise (track : List Int) (exclude : Option Int) (seriesSubseq : Int) : Except PyErr (RP K) := do
  let track ← trackIndices track
  match exclude with
  | none => .error .runtimeError
  | some e =>
    if e < 0 then .error .runtimeError
    else if seriesSubseq < 0 then .error .valueError
    else return { track := track, exclusion := e, w := seriesSubseq.toNat, values := fun _ _ => .nan }

/-- `process_diagonal`, radius_profile.py:94-95 -/
def processDiagonal (_ : RP K) (_ : Int) (_ : List (List (Fl K))) : Except PyErr (RP K) := .error .notImplemented

/-- The `for` loop, radius_profile.py:104-112: `i` counts the produced indices, `k` is `tracker_idx`. -/
def loop (p : RP K) (c : Int) (vals : List (Fl K)) : List Nat → Nat → Nat → Mat (Fl K) → Except PyErr (Mat (Fl K))
  | [], _, _, values => .ok values
  | low :: rest, i, k, values => do
    let t ← pyGet p.track k
    if (i : Int) = t then
      let v ← pyGet vals low
      let c' ← wrapIdx p.w c
      if p.track.length ≤ k + 1 then .ok fun a b => if a = k ∧ b = c' then v else values a b
      else loop p c vals rest (i + 1) (k + 1) fun a b => if a = k ∧ b = c' then v else values a b
    else loop p c vals rest (i + 1) k values

/-- `process_column`, radius_profile.py:97-114. The generator is run to its end before the loop; it has no side effects, and it can raise only on its first
step, before the loop body is entered. `none`: it has not ended after `fuel` steps. -/
def processColumn (p : RP K) (fuel : Nat) (c : Int) (values : List (List (Fl K))) : Except PyErr (Option (RP K)) := do
  let vals ← pyGet values 0
  match ← lowestValueIdxs fuel vals (some p.exclusion) with
  | none => return none
  | some idxs =>
    let values ← loop p c vals idxs 0 0 p.values
    return some { p with values := values }

end RP
end Verif
