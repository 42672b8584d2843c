import Verif.Model.Util
import Verif.Model.MatrixProfile

/-!
# Model of `distancematrix/consumer/threshold_counter.py`

`values` has one row per channel; only row 0 is read. Thresholds are a list by type (the `ndim` guards 23-24, 62-63 are not modelled), counts are
unbounded. A 2-D array of counts is a function of two indices; its shape is (number of thresholds, `w`).
-/

namespace Verif
variable {K : Type} [LinearOrder K]

/-- `values <= thresholds` at one position, as a number; 0 outside the arrays. -/
def leOne (v t : Option (Fl K)) : Nat :=
  match v, t with
  | some v, some t => if Fl.leF v t then 1 else 0
  | _, _ => 0

/-- `class ThresholdCounter` after `initialise`, threshold_counter.py:6-28. -/
structure TC (K : Type) where
  thresholds : List (Fl K)
  w : Nat
  counts : Mat Nat

namespace TC

/-- `__init__` and `initialise`, threshold_counter.py:16-28 (`np.full` raises `ValueError` for a negative size). -/
def initialise (thresholds : List (Fl K)) (seriesSubseq : Int) : Except PyErr (TC K) :=
  if seriesSubseq < 0 then .error .valueError
  else .ok { thresholds := thresholds, w := seriesSubseq.toNat, counts := fun _ _ => 0 }

/-- `process_diagonal`, threshold_counter.py:30-37. The slice of the counts and the values must have the same length, one value is broadcast. -/
def processDiagonal (p : TC K) (diag : Int) (values : List (List (Fl K))) : Except PyErr (TC K) := do
  let vals ← pyGet values 0
  let lo := pyIdx p.w (diagCols diag vals.length).1
  let hi := max lo (pyIdx p.w (diagCols diag vals.length).2)
  if hi - lo = vals.length ∨ vals.length = 1 then
    return { p with counts := fun t j =>
      if lo ≤ j ∧ j < hi then p.counts t j + leOne vals[if vals.length = 1 then 0 else j - lo]? p.thresholds[t]? else p.counts t j }
  else .error .valueError

/-- `process_column`, threshold_counter.py:39-42 -/
def processColumn (p : TC K) (c : Int) (values : List (List (Fl K))) : Except PyErr (TC K) := do
  let vals ← pyGet values 0
  let c ← wrapIdx p.w c
  return { p with counts := fun t j => if j = c then (vals.map fun v => leOne (some v) p.thresholds[t]?).sum else p.counts t j }

end TC

/-- `class DistancedThresholdCounter` after `initialise`, threshold_counter.py:45-69. -/
structure DTC (K : Type) where
  thresholds : List (Fl K)
  exclusion : Int
  w : Nat
  counts : Mat Nat

namespace DTC

/-- `__init__` and `initialise`, threshold_counter.py:54-69. -/
def initialise (thresholds : List (Fl K)) (exclusion seriesSubseq : Int) : Except PyErr (DTC K) :=
  if seriesSubseq < 0 then .error .valueError
  else .ok { thresholds := npSort thresholds, exclusion := exclusion, w := seriesSubseq.toNat, counts := fun _ _ => 0 }

/-- `process_diagonal`, threshold_counter.py:71-72 -/
def processDiagonal (_ : DTC K) (_ : Int) (_ : List (List (Fl K))) : Except PyErr (DTC K) := .error .notImplemented

/-- The `while` loop, threshold_counter.py:87-91, on the thresholds from `threshold_idx` = `k` on: the new `threshold_idx`, `none` if the method
returns. -/
def advance (value : Fl K) : List (Fl K) → Nat → Option Nat
  | [], _ => none
  | t :: ts, k => if Fl.ltF t value then advance value ts (k + 1) else some k

/-- The `for` loop, threshold_counter.py:85-95. `k`: `threshold_idx`. -/
def loop (p : DTC K) (c : Int) (values : List (Fl K)) : List Nat → Nat → List Bool → Mat Nat → Except PyErr (Mat Nat)
  | [], _, _, counts => .ok counts
  | i :: order, k, exclusions, counts => do
    let value ← pyGet values i
    match advance value (p.thresholds.drop k) k with
    | none => .ok counts
    | some k =>
      if ← pyGet exclusions i then loop p c values order k exclusions counts
      else
        let c' ← wrapIdx p.w c
        loop p c values order k (pyFill exclusions (max 0 ((i : Int) - p.exclusion)) ((i : Int) + p.exclusion + 1) true)
          fun t j => if k ≤ t ∧ j = c' then counts t j + 1 else counts t j

/-- `process_column`, threshold_counter.py:74-97. `order` is the result of `np.argsort(values)` (82). -/
def processColumn (p : DTC K) (order : List Nat) (c : Int) (values : List (List (Fl K))) : Except PyErr (DTC K) := do
  let vals ← pyGet values 0
  let _ ← pyGet p.thresholds 0
  let counts ← loop p c vals order 0 (List.replicate vals.length false) p.counts
  return { p with counts := counts }

end DTC
end Verif
