import Verif.Py

/-!
# Model of `distancematrix/insights.py`

The array is 1-D by type (the `ndim` guard, line 13, is not modelled).
-/

namespace Verif
variable {K : Type} [LinearOrder K]

/-- The `while` loop of `lowest_value_idxs`, insights.py:21-27: the list of all yielded indices.
At most `fuel` iterations; `none` if the loop has not ended by then. -/
def lowestLoop (exclude : Int) : Nat → List (Fl K) → Except PyErr (Option (List Nat))
  | fuel, array => do
    let minIdx ← npArgmin array
    let v ← pyGet array minIdx
    if v = .pinf then return some []
    match fuel with
    | 0 => return none
    | fuel + 1 =>
        let array := pyFill array (max 0 ((minIdx : Int) - exclude)) ((minIdx : Int) + exclude + 1) .pinf
        let rest ← lowestLoop exclude fuel array
        return rest.map (minIdx :: ·)

/-- `lowest_value_idxs`, insights.py:4-29. `exclude_distance` is `none` if its type is not `int` (line 15). -/
def lowestValueIdxs (fuel : Nat) (array : List (Fl K)) (exclude : Option Int) : Except PyErr (Option (List Nat)) :=
  match exclude with
  | none => .error .runtimeError
  | some e =>
    if e < 0 then .error .runtimeError
    else lowestLoop e fuel (array.map fun v => if v.isFinite then v else .pinf)

/-- `highest_value_idxs`, insights.py:32-41 -/
def highestValueIdxs [Neg K] (fuel : Nat) (array : List (Fl K)) (exclude : Option Int) :
    Except PyErr (Option (List Nat)) :=
  lowestValueIdxs fuel (array.map Fl.neg) exclude

end Verif
