import Verif.Model.RoundedEuclidean
import Verif.Model.ZNormEuclidean

/-!
# Model of `distancematrix/generator/znorm_euclidean.py` in floating point

The same code as in `Model/ZNormEuclidean.lean`, with every arithmetic operation followed by the rounding function `rnd`. Not
specified, and left to parameters: the evaluation of `scipy.signal.convolve` (`conv`, direct or by FFT) and of `np.mean` and
`np.std` (`Stat`). `m` is an exact float (below 2⁵³). Overflow is not modelled. Without rounding this is the model of `Model/ZNormEuclidean.lean`
(`RoundedZ.calcColumn_id`, `RoundedZ.calcDiagonal_id` in `Lemmas/RoundedExact.lean`).
-/

namespace Verif

namespace RoundedZ

/-- `np.mean` and `np.std` of one window of floats, math_tricks.py:25. -/
structure Stat (K : Type) where
  mean : List K → K
  std : List K → K

/-- Means, deviations and flags of the subsequences of one window, znorm_euclidean.py:137-144. -/
structure Stats (K : Type) where
  mu : RB K
  std : RB K
  nz : RB Bool

/-- `class BoundZNormEuclidean`, znorm_euclidean.py:118-150. -/
structure Gen (K : Type) where
  core : ColCache K
  noise : K
  sStats : Stats K
  /-- `none`: self-join, the buffers of the series -/
  qStats : Option (Stats K)

/-- Uninitialised memory handed out by `np.empty`: `n` elements of each type. -/
structure Mem (K : Type) where
  fl : Nat → List (Fl K)
  num : Nat → List K
  bool : Nat → List Bool

variable {K : Type}

/-- The statistics used for the query, znorm_euclidean.py:142-144. -/
def Gen.qs (z : Gen K) : Stats K := z.qStats.getD z.sStats

/-- Empty statistics buffers, znorm_euclidean.py:64-73, 88-99; `ValueError` from `np.empty` for a negative length. -/
def emptyStats (memK : Nat → List K) (memB : Nat → List Bool) (scale : ℚ) (n m : Int) : Except PyErr (Stats K) :=
  if n - m + 1 < 0 then .error .valueError
  else
    let k := (n - m + 1).toNat
    .ok { mu := RB.mkEmpty [] k (memK (RB.capacity scale k)), std := RB.mkEmpty [] k (memK (RB.capacity scale k)),
          nz := RB.mkEmpty [] k (memB (RB.capacity scale k)) }

/-- The statistics of the query, or none in a self-join: znorm_euclidean.py:69-77, 94-106. -/
def emptyQStats (mem : Mem K) (scale : ℚ) (queryWindow : Option Nat) (m : Int) : Except PyErr (Option (Stats K)) :=
  match queryWindow with
  | none => .ok none
  | some w => (emptyStats mem.num mem.bool scale w m).map some

/-- `ZNormEuclidean.prepare_streaming`, znorm_euclidean.py:54-80 -/
def prepareStreaming (mem : Mem K) (noise : K) (scale : ℚ) (m : Int) (seriesWindow : Nat) (queryWindow : Option Nat) :
    Except PyErr (Gen K) := do
  let ss ← emptyStats mem.num mem.bool scale seriesWindow m
  let qs ← emptyQStats mem scale queryWindow m
  return { core := { m := m, series := RB.mkEmpty [] seriesWindow (mem.fl (RB.capacity scale seriesWindow)),
                     query := queryWindow.map fun w => RB.mkEmpty [] w (mem.fl (RB.capacity scale w)),
                     firstRow := none, backlog := 0, prevIdx := none, prev := [] },
           noise := noise, sStats := ss, qStats := qs }

variable [Field K] [LinearOrder K]

/-- `_EPS`, znorm_euclidean.py:10, before rounding to a float -/
def eps : K := 1 / 10 ^ 12

/-- `_CONSTANT_SUBSEQ_THRESHOLD`, znorm_euclidean.py:12, before rounding to a float -/
def flat : K := 1 / 10 ^ 6

/-- The value of a finite float (only used on finite floats). -/
def value : Fl K → K
  | .fin x => x
  | _ => 0

/-- `sliding_mean_std`, math_tricks.py:6-25 -/
def slidingMeanStd (stat : Stat K) (series : List (Fl K)) (m : Int) : Except PyErr (List K × List K) :=
  if m ≤ 0 then .error .runtimeError
  else if series.all Fl.isFinite = false then .error .runtimeError
  else (slidingWindows (series.map value) m.toNat).map fun v => (v.map stat.mean, v.map stat.std)

/-- The statistics update of `append_series` / `append_query`: znorm_euclidean.py:160-165, 186-191. -/
def pushStats (rnd : K → K) (stat : Stat K) (st : Stats K) (m : Int) (view : List (Fl K)) (n : Nat) : Except PyErr (Stats K) :=
  if (view.length : Int) ≥ m then do
    let (mu, std) ← slidingMeanStd stat (pyFrom view (-((n : Int) + m - 1))) m
    let (b1, _) ← st.mu.push mu
    let (b2, _) ← st.std.push std
    let (b3, _) ← st.nz.push (std.map fun x => decide (x > rnd flat))
    return { mu := b1, std := b2, nz := b3 }
  else .ok st

/-- `append_series`, znorm_euclidean.py:152-173 (the state after an exception is not modelled here). -/
def appendSeries (rnd : K → K) (stat : Stat K) (z : Gen K) (values : List (Fl K)) : Except PyErr (Gen K) :=
  if values.length = 0 then .ok z
  else do
    let (g, dropped, numDropped) ← z.core.pushSeries values
    let st ← pushStats rnd stat z.sStats g.m g.s values.length
    return { z with core := g.finishSeries dropped numDropped, sStats := st }

/-- `append_query`, znorm_euclidean.py:175-191. -/
def appendQuery (rnd : K → K) (stat : Stat K) (z : Gen K) (values : List (Fl K)) : Except PyErr (Gen K) :=
  match z.core.query with
  | none => .error .runtimeError
  | some rq =>
    if values.length = 0 then .ok z
    else do
      let g ← z.core.pushQuery rq values
      let st ← pushStats rnd stat z.qs g.m g.q values.length
      return { z with core := g, qStats := some st }

/-- `ZNormEuclidean.prepare`, znorm_euclidean.py:82-115 -/
def prepare (rnd : K → K) (stat : Stat K) (mem : Mem K) (noise : K) (m : Int) (series : List (Fl K)) (query : Option (List (Fl K))) :
    Except PyErr (Gen K) := do
  let z ← prepareStreaming mem noise 1 m series.length (query.map (·.length))
  let z ← appendSeries rnd stat z series
  match query with
  | none => return z
  | some q => appendQuery rnd stat z q

/-- `a / b`, znorm_euclidean.py:228, 234, 284, 300 -/
def div (rnd : K → K) (a b : Fl K) : Fl K := Rounded.fl rnd (Fl.div a b)

/-- `2 * (m - (dot_prod - m * mean_q * mean_s) / (std_q * std_s))`: znorm_euclidean.py:227-228, 283-284 -/
def formula (rnd : K → K) (m : K) (dot : Fl K) (muq stdq mus stds : K) : Fl K :=
  let num := Rounded.sub rnd dot (Rounded.mul rnd (Rounded.mul rnd (.fin m) (.fin muq)) (.fin mus))
  let den := Rounded.mul rnd (.fin stdq) (.fin stds)
  Rounded.mul rnd (.fin 2) (Rounded.sub rnd (.fin m) (div rnd num den))

/-- `2 * (m + 1) * np.square(noise_std) / np.square(np.maximum(std_s, std_q))`: znorm_euclidean.py:233-234, 299-300 -/
def noiseTerm (rnd : K → K) (m noise stds stdq : K) : Fl K :=
  div rnd (Rounded.mul rnd (.fin (2 * (m + 1))) (Rounded.square rnd (.fin noise))) (Rounded.square rnd (.fin (max stds stdq)))

/-- One entry of `dist_sq` in `calc_column`, znorm_euclidean.py:248-305. -/
def colEntry (rnd : K → K) (m noise : K) (nzs : Bool) (mus stds : K) (dot : Fl K) (muq stdq : K) (nzq : Bool) : Fl K :=
  let d : Fl K := if nzs then if nzq then formula rnd m dot muq stdq mus stds else .fin m
    else if nzq then .fin m else .fin 0
  let d : Fl K := if noise ≠ 0 then if nzs || nzq then Rounded.sub rnd d (noiseTerm rnd m noise stds stdq) else d else d
  if d.ltF (.fin (rnd eps)) then .fin 0 else d

/-- One entry of `dist_sq` in `calc_diagonal`, znorm_euclidean.py:220-243. -/
def diagEntry (rnd : K → K) (m noise : K) (dot : Fl K) (muq stdq : K) (nzq : Bool) (mus stds : K) (nzs : Bool) : Fl K :=
  let d : Fl K := .fin 0
  let d : Fl K := if nzq ^^ nzs then .fin m else d
  let d : Fl K := if nzq && nzs then formula rnd m dot muq stdq mus stds else d
  let d : Fl K := if noise ≠ 0 then if nzq || nzs then Rounded.sub rnd d (noiseTerm rnd m noise stds stdq) else d else d
  if d.ltF (.fin (rnd eps)) then .fin 0 else d

/-- Entry by entry evaluation of vectors of one length (`IndexError` from the mask otherwise), znorm_euclidean.py:220-236, 277-300. -/
def zipEntries {β : Type} (f : Fl K → K → K → Bool → β) (dot : List (Fl K)) (mu std : List K) (nz : List Bool) : Except PyErr (List β) :=
  if mu.length = dot.length ∧ std.length = dot.length ∧ nz.length = dot.length then
    .ok (List.zipWith (fun d (x : K × K × Bool) => f d x.1 x.2.1 x.2.2) dot (mu.zip (std.zip nz)))
  else .error .indexError

/-- `calc_column`, znorm_euclidean.py:247-307; `conv data w` is `convolve(data, w[::-1], 'valid')`. -/
def calcColumn (rnd : K → K) (conv : List (Fl K) → List (Fl K) → Except PyErr (List (Fl K))) (mem : Nat → List (Fl K)) (sq : K → K)
    (z : Gen K) (c : Int) : Except PyErr (Gen K × List (Fl K)) := do
  let zeros ← npZeros (K := K) ((z.core.q.length : Int) - z.core.m + 1)
  let (g, dot) ← Rounded.column rnd mem conv (Rounded.mul rnd) z.core c
  let nzs ← pyGet z.sStats.nz.items c
  let mus ← pyGet z.sStats.mu.items c
  let stds ← pyGet z.sStats.std.items c
  if zeros.length ≠ dot.length then throw .indexError
  let d ← zipEntries (colEntry rnd z.core.m z.noise nzs mus stds) dot z.qs.mu.items z.qs.std.items z.qs.nz.items
  return ({ z with core := g }, d.map fun v => Rounded.fl rnd (Fl.sqrtF sq v))

/-- `calc_diagonal`, znorm_euclidean.py:193-245 -/
def calcDiagonal (rnd : K → K) (sq : K → K) (z : Gen K) (diag : Int) : Except PyErr (List (Fl K)) := do
  let dl := diagLength z.core.q.length z.core.s.length diag
  let dlr := dl - z.core.m + 1
  let prods ← z.core.diagPoints (Rounded.mul rnd) dl diag
  let cumsum ← Rounded.cumsum0 rnd dl prods
  let (i, j) := ZN.diagStart diag
  let dot ← npZip (Rounded.sub rnd) (pyFrom cumsum z.core.m) (pyTo cumsum dlr)
  let zeros ← npZeros (K := K) dlr
  if zeros.length ≠ dot.length then throw .indexError
  let f ← zipEntries (fun d mu std nz => diagEntry rnd z.core.m z.noise d mu std nz) dot
    (pySlice z.qs.mu.items i (i + dlr)) (pySlice z.qs.std.items i (i + dlr)) (pySlice z.qs.nz.items i (i + dlr))
  let d ← zipEntries (fun _ mu std nz => (mu, std, nz)) dot
    (pySlice z.sStats.mu.items j (j + dlr)) (pySlice z.sStats.std.items j (j + dlr)) (pySlice z.sStats.nz.items j (j + dlr))
  return (List.zipWith (fun f (x : K × K × Bool) => f x.1 x.2.1 x.2.2) f d).map fun v => Rounded.fl rnd (Fl.sqrtF sq v)

/-- One way to evaluate `convolve(a, w[::-1], 'valid')`, znorm_euclidean.py:253, 258, 265: directly, adding the products from the left. -/
def convLeft (rnd : K → K) (a w : List (Fl K)) : Except PyErr (List (Fl K)) :=
  .ok ((List.range (a.length + 1 - w.length)).map fun i => (Rounded.Dots.left rnd).rows ((a.drop i).take w.length) w)

/-! ### Without rounding -/

/-- A generator of this model as one of the model without rounding. -/
def Gen.exact (z : Gen ℝ) : ZN :=
  { core := z.core, noise := z.noise, sStats := ⟨z.sStats.mu, z.sStats.std, z.sStats.nz⟩, qStats := z.qStats.map fun st => ⟨st.mu, st.std, st.nz⟩ }

end RoundedZ
end Verif
