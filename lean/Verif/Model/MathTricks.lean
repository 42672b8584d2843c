import Verif.Model.RingBuffer
import Verif.Model.Util
import Mathlib.Analysis.Real.Sqrt

/-!
# Model of `distancematrix/math_tricks.py`

Data are floats without rounding (`Fl ℝ`).  Once `np.isfinite(series).all()` has been checked the values are reals, so
means and deviations are modelled as reals.  `m` is a Python `int` by type (the `isinstance` test of 15, 37 is not
modelled).
-/

namespace Verif

/-- The real number of a finite float (only used on finite floats). -/
def Fl.toReal : Fl ℝ → ℝ
  | .fin x => x
  | _ => 0

/-- `np.mean` of one window -/
noncomputable def npMean (l : List ℝ) : ℝ := l.sum / l.length

/-- `np.var` of one window (population variance) -/
noncomputable def npVar (l : List ℝ) : ℝ := npMean (l.map fun x => (x - npMean l) ^ 2)

/-- `np.std` of one window -/
noncomputable def npStd (l : List ℝ) : ℝ := √(npVar l)

/-- The guards shared by `sliding_mean_std` 15-24 and `sliding_mean_var` 37-46: the windows as lists of reals. -/
def slidingGuard (series : List (Fl ℝ)) (m : Int) : Except PyErr (List (List ℝ)) :=
  if m ≤ 0 then .error .runtimeError
  else if series.all Fl.isFinite = false then .error .runtimeError
  else slidingWindows (series.map Fl.toReal) m.toNat

/-- `sliding_mean_std`, math_tricks.py:6-25 -/
noncomputable def slidingMeanStd (series : List (Fl ℝ)) (m : Int) : Except PyErr (List ℝ × List ℝ) := do
  let v ← slidingGuard series m
  return (v.map npMean, v.map npStd)

/-- `sliding_mean_var`, math_tricks.py:28-47 -/
noncomputable def slidingMeanVar (series : List (Fl ℝ)) (m : Int) : Except PyErr (List ℝ × List ℝ) := do
  let v ← slidingGuard series m
  return (v.map npMean, v.map npVar)

/-- `class StreamingStats`, math_tricks.py:50-136 (1-D data). -/
structure Stats where
  m : Int
  data : RB (Fl ℝ)
  mean : RB ℝ
  std : RB ℝ

/-- `StreamingStats.__init__`, math_tricks.py:60-76. `j1`, `j2`, `j3` are the `np.empty` memories. -/
noncomputable def Stats.init (series : List (Fl ℝ)) (m : Int) (j1 : List (Fl ℝ)) (j2 j3 : List ℝ) : Except PyErr Stats :=
  if m > series.length then .error .runtimeError
  else do
    let data ← RB.init (some ([], series)) none false j1
    let (avg, std) ← slidingMeanStd series m
    let mean ← RB.init (some ([], avg)) none false j2
    let std ← RB.init (some ([], std)) none false j3
    return { m := m, data := data, mean := mean, std := std }

/-- `StreamingStats.append`, math_tricks.py:78-87: the state after the call and the exception, if any (an exception leaves
the updates made so far in place). -/
noncomputable def Stats.append (s : Stats) (data : List (Fl ℝ)) : Stats × Option PyErr :=
  if data.length = 0 then (s, none)
  else match s.data.push data with
    | .error e => (s, some e)
    | .ok (d, _) =>
      let s := { s with data := d }
      match slidingMeanStd (pyFrom d.items (max (-s.m - 1 - data.length) 0)) s.m with
      | .error e => (s, some e)
      | .ok (newMeans, newStds) =>
        match s.mean.push newMeans with
        | .error e => (s, some e)
        | .ok (mb, _) =>
          let s := { s with mean := mb }
          match s.std.push newStds with
          | .error e => (s, some e)
          | .ok (sb, _) => ({ s with std := sb }, none)

/-! ### Integer data

`RingBuffer(series)` takes over the element type of `series` (ringbuffer.py:40-41), so a `StreamingStats` that starts on an array of integers stores integers:
assigning floats to the buffer (ringbuffer.py:76, 93, 101, 108) drops the fraction. -/

/-- Conversion of a float to an integer by NumPy's assignment: towards zero; the result for NaN and infinities depends on the platform (`bad`). -/
noncomputable def toInt (bad : Fl ℝ → ℤ) : Fl ℝ → ℤ
  | .fin x => if 0 ≤ x then ⌊x⌋ else ⌈x⌉
  | x => bad x

/-- `class StreamingStats`, math_tricks.py:50-136, started on a 1-D array of integers (unbounded here). -/
structure IntStats where
  m : Int
  data : RB ℤ
  mean : RB ℝ
  std : RB ℝ

/-- An integer array as floats (`np.mean`, `np.std`, `np.isfinite` of integers). -/
def asFloats (l : List ℤ) : List (Fl ℝ) := l.map fun n : ℤ => .fin (n : ℝ)

/-- `StreamingStats.__init__`, math_tricks.py:60-76, for integers. -/
noncomputable def IntStats.init (series : List ℤ) (m : Int) (j1 : List ℤ) (j2 j3 : List ℝ) : Except PyErr IntStats :=
  if m > series.length then .error .runtimeError
  else do
    let data ← RB.init (some ([], series)) none false j1
    let (avg, std) ← slidingMeanStd (asFloats series) m
    let mean ← RB.init (some ([], avg)) none false j2
    let std ← RB.init (some ([], std)) none false j3
    return { m := m, data := data, mean := mean, std := std }

/-- `StreamingStats.append`, math_tricks.py:78-87, for a buffer of integers: the pushed floats are converted. -/
noncomputable def IntStats.append (bad : Fl ℝ → ℤ) (s : IntStats) (data : List (Fl ℝ)) : IntStats × Option PyErr :=
  if data.length = 0 then (s, none)
  else match s.data.push (data.map (toInt bad)) with
    | .error e => (s, some e)
    | .ok (d, _) =>
      let s := { s with data := d }
      match slidingMeanStd (asFloats (pyFrom d.items (max (-s.m - 1 - data.length) 0))) s.m with
      | .error e => (s, some e)
      | .ok (newMeans, newStds) =>
        match s.mean.push newMeans with
        | .error e => (s, some e)
        | .ok (mb, _) =>
          let s := { s with mean := mb }
          match s.std.push newStds with
          | .error e => (s, some e)
          | .ok (sb, _) => ({ s with std := sb }, none)

end Verif
