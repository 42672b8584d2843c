import Verif.Model.ColumnCache
import Verif.Model.MathTricks
import Verif.Model.Util

/-!
# Model of `distancematrix/generator/znorm_euclidean.py`

Data are 1-D by type (the `ndim` guards 83-86 are not modelled); floats are reals without rounding plus NaN and infinities.
Operations on masked parts of vectors are written entry by entry. `convolve` is the exact convolution (the choice of SciPy
between direct and FFT evaluation only changes rounding, on finite data).
-/

namespace Verif

/-- Means, deviations and flags of the subsequences of one window (`mu_s`, `std_s`, `std_s_nonzero`),
znorm_euclidean.py:137-144. -/
structure ZStats where
  mu : RB ℝ
  std : RB ℝ
  nz : RB Bool

/-- `class BoundZNormEuclidean`, znorm_euclidean.py:118-150. -/
structure ZN where
  core : ColCache ℝ
  noise : ℝ
  sStats : ZStats
  /-- `none`: self-join, the buffers of the series (znorm_euclidean.py:75-77, 103-105) -/
  qStats : Option ZStats

namespace ZN

/-- `_EPS`, znorm_euclidean.py:10 -/
noncomputable def eps : ℝ := 1 / 10 ^ 12

/-- `_CONSTANT_SUBSEQ_THRESHOLD`, znorm_euclidean.py:12 -/
noncomputable def flat : ℝ := 1 / 10 ^ 6

/-- The statistics used for the query, znorm_euclidean.py:142-144. -/
def qs (z : ZN) : ZStats := z.qStats.getD z.sStats

/-- `convolve(a, w[::-1], 'valid')`, znorm_euclidean.py:253, 258, 265 (SciPy swaps the operands if the second is longer). -/
noncomputable def dots (a w : List (Fl ℝ)) : Except PyErr (List (Fl ℝ)) :=
  if a.length = 0 ∨ w.length = 0 then .ok []
  else if w.length ≤ a.length then
    .ok ((List.range (a.length - w.length + 1)).map fun i => Fl.sum (List.zipWith Fl.mul ((a.drop i).take w.length) w))
  else .ok ((List.range (w.length - a.length + 1)).map fun i =>
    Fl.sum (List.zipWith Fl.mul ((w.reverse.drop i).take a.length) a.reverse))

/-- Empty statistics buffers, znorm_euclidean.py:64-73, 88-99; `ValueError` from `np.empty` for a negative length. -/
noncomputable def emptyStats (memR : Nat → List ℝ) (memB : Nat → List Bool) (scale : ℚ) (n m : Int) : Except PyErr ZStats :=
  if n - m + 1 < 0 then .error .valueError
  else
    let k := (n - m + 1).toNat
    .ok { mu := RB.mkEmpty [] k (memR (RB.capacity scale k)), std := RB.mkEmpty [] k (memR (RB.capacity scale k)),
          nz := RB.mkEmpty [] k (memB (RB.capacity scale k)) }

/-- Uninitialised memory handed out by `np.empty`: `n` elements of each type. -/
structure Mem where
  fl : Nat → List (Fl ℝ)
  real : Nat → List ℝ
  bool : Nat → List Bool

/-- The statistics of the query, or none in a self-join: znorm_euclidean.py:69-77, 94-106. -/
noncomputable def emptyQStats (mem : Mem) (scale : ℚ) (queryWindow : Option Nat) (m : Int) : Except PyErr (Option ZStats) :=
  match queryWindow with
  | none => .ok none
  | some w => (emptyStats mem.real mem.bool scale w m).map some

/-- `ZNormEuclidean.prepare_streaming`, znorm_euclidean.py:54-80 -/
noncomputable def prepareStreaming (mem : Mem) (noise : ℝ) (scale : ℚ) (m : Int) (seriesWindow : Nat) (queryWindow : Option Nat) :
    Except PyErr ZN := do
  let ss ← emptyStats mem.real mem.bool scale seriesWindow m
  let qs ← emptyQStats mem scale queryWindow m
  return { core := { m := m, series := RB.mkEmpty [] seriesWindow (mem.fl (RB.capacity scale seriesWindow)),
                     query := queryWindow.map fun w => RB.mkEmpty [] w (mem.fl (RB.capacity scale w)),
                     firstRow := none, backlog := 0, prevIdx := none, prev := [] },
           noise := noise, sStats := ss, qStats := qs }

/-- The statistics update of `append_series` / `append_query`: znorm_euclidean.py:160-165, 186-191, given the data window after
the push. Returns the buffers and the exception, if any. -/
noncomputable def pushStats (st : ZStats) (m : Int) (view : List (Fl ℝ)) (n : Nat) : ZStats × Option PyErr :=
  if (view.length : Int) ≥ m then
    match slidingMeanStd (pyFrom view (-((n : Int) + m - 1))) m with
    | .error e => (st, some e)
    | .ok (mu, std) =>
      match st.mu.push mu with
      | .error e => (st, some e)
      | .ok (b1, _) =>
        match st.std.push std with
        | .error e => ({ st with mu := b1 }, some e)
        | .ok (b2, _) =>
          match st.nz.push (std.map fun x => decide (x > flat)) with
          | .error e => ({ st with mu := b1, std := b2 }, some e)
          | .ok (b3, _) => ({ mu := b1, std := b2, nz := b3 }, none)
  else (st, none)

/-- `append_series`, znorm_euclidean.py:152-173: the state after the call and the exception, if any (an exception leaves the
updates made so far in place). -/
noncomputable def appendSeries (z : ZN) (values : List (Fl ℝ)) : ZN × Option PyErr :=
  if values.length = 0 then (z, none)
  else match z.core.pushSeries values with
    | .error e => (z, some e)
    | .ok (g, dropped, numDropped) =>
      match pushStats z.sStats g.m g.s values.length with
      | (st, some e) => ({ z with core := g, sStats := st }, some e)
      | (st, none) => ({ z with core := g.finishSeries dropped numDropped, sStats := st }, none)

/-- `append_query`, znorm_euclidean.py:175-191. -/
noncomputable def appendQuery (z : ZN) (values : List (Fl ℝ)) : ZN × Option PyErr :=
  match z.core.query with
  | none => (z, some .runtimeError)
  | some rq =>
    if values.length = 0 then (z, none)
    else match z.core.pushQuery rq values with
      | .error e => (z, some e)
      | .ok g =>
        let r := pushStats z.qs g.m g.q values.length
        ({ z with core := g, qStats := some r.1 }, r.2)

/-- An exception ends `prepare`. -/
def ofCall (r : ZN × Option PyErr) : Except PyErr ZN :=
  match r with
  | (z, none) => .ok z
  | (_, some e) => .error e

/-- `ZNormEuclidean.prepare`, znorm_euclidean.py:82-115 -/
noncomputable def prepare (mem : Mem) (noise : ℝ) (m : Int) (series : List (Fl ℝ)) (query : Option (List (Fl ℝ))) : Except PyErr ZN := do
  let z ← prepareStreaming mem noise 1 m series.length (query.map (·.length))
  let z ← ofCall (z.appendSeries series)
  match query with
  | none => return z
  | some q => ofCall (z.appendQuery q)

/-- One entry of `dist_sq` in `calc_column`, znorm_euclidean.py:248-305. `nzs`, `mus`, `stds`: series subsequence. -/
noncomputable def colEntry (m noise : ℝ) (nzs : Bool) (mus stds : ℝ) (dot : Fl ℝ) (muq stdq : ℝ) (nzq : Bool) : Fl ℝ :=
  let d : Fl ℝ :=
    if nzs then
      if nzq then Fl.mul (.fin 2) (Fl.sub (.fin m) (Fl.div (Fl.sub dot (.fin (m * muq * mus))) (.fin (stdq * stds))))
      else .fin m
    else if nzq then .fin m else .fin 0
  let d : Fl ℝ :=
    if noise ≠ 0 then
      if nzs || nzq then Fl.sub d (Fl.div (.fin (2 * (m + 1) * noise ^ 2)) (.fin (max stds stdq ^ 2))) else d
    else d
  if d.ltF (.fin eps) then .fin 0 else d

/-- One entry of `dist_sq` in `calc_diagonal`, znorm_euclidean.py:220-243. -/
noncomputable def diagEntry (m noise : ℝ) (dot : Fl ℝ) (muq stdq : ℝ) (nzq : Bool) (mus stds : ℝ) (nzs : Bool) : Fl ℝ :=
  let d : Fl ℝ := .fin 0
  let d : Fl ℝ := if nzq ^^ nzs then .fin m else d
  let d : Fl ℝ :=
    if nzq && nzs then Fl.mul (.fin 2) (Fl.sub (.fin m) (Fl.div (Fl.sub dot (.fin (m * muq * mus))) (.fin (stdq * stds)))) else d
  let d : Fl ℝ :=
    if noise ≠ 0 then
      if nzq || nzs then Fl.sub d (Fl.div (.fin (2 * (m + 1) * noise ^ 2)) (.fin (max stds stdq ^ 2))) else d
    else d
  if d.ltF (.fin eps) then .fin 0 else d

/-- Entry by entry evaluation of vectors of one length (`IndexError` from the mask otherwise). -/
def zipEntries {β : Type} (f : Fl ℝ → ℝ → ℝ → Bool → β) (dot : List (Fl ℝ)) (mu std : List ℝ) (nz : List Bool) : Except PyErr (List β) :=
  if mu.length = dot.length ∧ std.length = dot.length ∧ nz.length = dot.length then
    .ok (List.zipWith (fun d (x : ℝ × ℝ × Bool) => f d x.1 x.2.1 x.2.2) dot (mu.zip (std.zip nz)))
  else .error .indexError

/-- `calc_column`, znorm_euclidean.py:247-307 -/
noncomputable def calcColumn (mem : Nat → List (Fl ℝ)) (z : ZN) (c : Int) : Except PyErr (ZN × List (Fl ℝ)) := do
  let zeros ← npZeros (K := ℝ) ((z.core.q.length : Int) - z.core.m + 1)
  let (g, dot) ← z.core.column mem dots Fl.mul c
  let nzs ← pyGet z.sStats.nz.items c
  let mus ← pyGet z.sStats.mu.items c
  let stds ← pyGet z.sStats.std.items c
  if zeros.length ≠ dot.length then throw .indexError
  let d ← zipEntries (colEntry z.core.m z.noise nzs mus stds) dot z.qs.mu.items z.qs.std.items z.qs.nz.items
  return ({ z with core := g }, d.map (Fl.sqrtF Real.sqrt))

/-- The slices of the statistics along a diagonal, znorm_euclidean.py:203-204, 210-211. -/
def diagStart (diag : Int) : Int × Int := if diag ≥ 0 then (0, diag) else (-diag, 0)

/-- `calc_diagonal`, znorm_euclidean.py:193-245 -/
noncomputable def calcDiagonal (z : ZN) (diag : Int) : Except PyErr (List (Fl ℝ)) := do
  let dl := diagLength z.core.q.length z.core.s.length diag
  let dlr := dl - z.core.m + 1
  let prods ← z.core.diagPoints Fl.mul dl diag
  let cumsum ← cumsum0 dl prods
  let (i, j) := diagStart diag
  let dot ← npZip Fl.sub (pyFrom cumsum z.core.m) (pyTo cumsum dlr)
  let zeros ← npZeros (K := ℝ) dlr
  if zeros.length ≠ dot.length then throw .indexError
  let f ← zipEntries (fun d mu std nz => diagEntry z.core.m z.noise d mu std nz) dot
    (pySlice z.qs.mu.items i (i + dlr)) (pySlice z.qs.std.items i (i + dlr)) (pySlice z.qs.nz.items i (i + dlr))
  let d ← zipEntries (fun _ mu std nz => (mu, std, nz)) dot
    (pySlice z.sStats.mu.items j (j + dlr)) (pySlice z.sStats.std.items j (j + dlr)) (pySlice z.sStats.nz.items j (j + dlr))
  return (List.zipWith (fun f (x : ℝ × ℝ × Bool) => f x.1 x.2.1 x.2.2) f d).map (Fl.sqrtF Real.sqrt)

/-- `calc_single`, znorm_euclidean.py:309-340. `dotProd = none`: argument not given. -/
noncomputable def calcSingle (z : ZN) (row column : Int) (dotProd : Option (Fl ℝ)) : Except PyErr (Fl ℝ) := do
  let stdq ← pyGet z.qs.std.items row
  let stds ← pyGet z.sStats.std.items column
  if stdq ≤ flat ∧ stds ≤ flat then return .fin 0
  let d ← singleSq z row column dotProd stdq stds
  let d := if z.noise ≠ 0 then Fl.sub d (Fl.div (.fin (2 * (z.core.m + 1) * z.noise ^ 2)) (.fin (max stds stdq ^ 2))) else d
  return if d.ltF (.fin eps) then .fin 0 else Fl.sqrtF Real.sqrt d
where
  /-- `dist_sq` before the noise correction, znorm_euclidean.py:324-332 -/
  singleSq (z : ZN) (row column : Int) (dotProd : Option (Fl ℝ)) (stdq stds : ℝ) : Except PyErr (Fl ℝ) :=
    if stdq ≤ flat ∨ stds ≤ flat then .ok (.fin z.core.m)
    else do
      let dot ← singleDot z row column dotProd
      let muq ← pyGet z.qs.mu.items row
      let mus ← pyGet z.sStats.mu.items column
      return Fl.mul (.fin 2) (Fl.sub (.fin z.core.m) (Fl.div (Fl.sub dot (.fin (z.core.m * muq * mus))) (.fin (stdq * stds))))
  /-- the dot product given or (if not given, or given as 0) calculated, znorm_euclidean.py:327-328 -/
  singleDot (z : ZN) (row column : Int) (dotProd : Option (Fl ℝ)) : Except PyErr (Fl ℝ) :=
    if dotProd = none ∨ dotProd = some (.fin 0) then do
      let p ← npZip Fl.mul (pySlice z.core.q row (row + z.core.m)) (pySlice z.core.s column (column + z.core.m))
      return Fl.sum p
    else .ok (dotProd.getD .nan)

end ZN
end Verif
