import Verif.Model.Euclidean
import Verif.Rounding

/-!
# Model of `distancematrix/generator/euclidean.py` in floating point

The same code as in `Model/Euclidean.lean`, with every arithmetic operation followed by the rounding function `rnd`
(`rnd = b64` is `float64`). The data windows, ring buffers, appends and cache bookkeeping contain no arithmetic on data and are
shared with `Model/ColumnCache.lean` and `Model/Euclidean.lean`. `np.einsum` and `np.dot` add in an order NumPy does not
specify: they are functions `Dots`, of which `Dots.Ok` assumes only that they evaluate the sum of the products in *some* order.
Overflow is not modelled. Without rounding this is the model of `Model/Euclidean.lean` (`Rounded.calcDiagonal_id`,
`Rounded.calcColumn_id` in `Lemmas/RoundedExact.lean`).
-/

namespace Verif

namespace Rounded
variable {K : Type} [Field K] [LinearOrder K]

/-- Rounding of a result, NaN and infinities kept: any arithmetic of euclidean.py:99-179. -/
def fl (rnd : K → K) : Fl K → Fl K
  | .fin x => .fin (rnd x)
  | v => v

/-- `a + b`, euclidean.py:135, 167 -/
def add (rnd : K → K) (a b : Fl K) : Fl K := fl rnd (Fl.add a b)

/-- `a - b`, euclidean.py:107, 112, 114, 134, 135, 166 -/
def sub (rnd : K → K) (a b : Fl K) : Fl K := fl rnd (Fl.sub a b)

/-- `a * b`, euclidean.py:166 -/
def mul (rnd : K → K) (a b : Fl K) : Fl K := fl rnd (Fl.mul a b)

/-- `np.square`, euclidean.py:107, 112, 134, 135 -/
def square (rnd : K → K) (a : Fl K) : Fl K := fl rnd (Fl.square a)

/-- `np.cumsum` (adds from the left), euclidean.py:107, 112 -/
def cumsum (rnd : K → K) : List (Fl K) → List (Fl K)
  | [] => []
  | x :: xs => xs.scanl (add rnd) x

/-- `cumsum = np.zeros(dl + 1); cumsum[1:] = np.cumsum(x)`: euclidean.py:101-112 -/
def cumsum0 (rnd : K → K) (dl : Int) (x : List (Fl K)) : Except PyErr (List (Fl K)) := do
  let zeros ← npZeros (K := K) (dl + 1)
  assignSlice zeros (pyIdx zeros.length 1) zeros.length (cumsum rnd x)

/-- `calc_diagonal`, euclidean.py:99-114 -/
def calcDiagonal (rnd : K → K) (sq : K → K) (g : ColCache K) (diag : Int) : Except PyErr (List (Fl K)) := do
  let dl := diagLength g.q.length g.s.length diag
  let diffs ← g.diagPoints (sub rnd) dl diag
  let cumsum ← cumsum0 rnd dl (diffs.map (square rnd))
  let r ← npZip (sub rnd) (pyFrom cumsum g.m) (pyTo cumsum (cumsum.length - g.m))
  return r.map fun v => fl rnd (Fl.sqrtF sq v)

/-- The dot products of euclidean.py:165 (`einsum('ij,ij->i')`, a window with itself), 166 (`einsum('ij,j->i')`, a window with
the sequence) and 167 (`np.dot`, the sequence with itself). -/
structure Dots (K : Type) where
  self : List (Fl K) → Fl K
  rows : List (Fl K) → List (Fl K) → Fl K
  seq : List (Fl K) → Fl K

/-- `_euclidean_distance_squared`, euclidean.py:144-179 (`EPSILON = 1e-15` is the nearest float, euclidean.py:9) -/
def sqDist (rnd : K → K) (dots : Dots K) (series sequence : List (Fl K)) : Except PyErr (List (Fl K)) := do
  let view ← slidingWindows series sequence.length
  return view.map fun w =>
    let d := dots.self w
    let d := sub rnd d (mul rnd (.fin 2) (dots.rows w sequence))
    let d := add rnd d (dots.seq sequence)
    if d.ltF (.fin (rnd Eucl.eps)) then .fin 0 else d

/-- Contribution of one pair of points, euclidean.py:134-135 -/
def term (rnd : K → K) (s q : Fl K) : Fl K := square rnd (sub rnd s q)

/-- The cached part of `calc_column`, euclidean.py:117-139 -/
def column (rnd : K → K) (mem : Nat → List (Fl K)) (full : List (Fl K) → List (Fl K) → Except PyErr (List (Fl K)))
    (term : Fl K → Fl K → Fl K) (g : ColCache K) (c : Int) : Except PyErr (ColCache K × List (Fl K)) :=
  if g.prevIdx ≠ some (c - 1) ∨ c = 0 then do
    let v ← full g.q (pySlice g.s c (c + g.m))
    return ({ g with prev := v, prevIdx := some c }, v)
  else do
    let (g, fr) ← g.refreshFirstRow mem full
    let x ← pyGet g.s (c - 1)
    let y ← pyGet g.s (c + g.m - 1)
    let a ← npZip (sub rnd) (pyTo g.prev (-1)) ((pyTo g.q (g.q.length - g.m)).map (term x))
    let b ← npZip (add rnd) a ((pyFrom g.q g.m).map (term y))
    let v ← assignSlice g.prev (pyIdx g.prev.length 1) g.prev.length b
    let h ← pyGet fr.items c
    let v ← pySet v 0 h
    return ({ g with prev := v, prevIdx := some c }, v)

/-- `calc_column`, euclidean.py:116-141 -/
def calcColumn (rnd : K → K) (dots : Dots K) (mem : Nat → List (Fl K)) (sq : K → K) (g : ColCache K) (c : Int) :
    Except PyErr (ColCache K × List (Fl K)) := do
  let (g, v) ← column rnd mem (sqDist rnd dots) (term rnd) g c
  return (g, v.map fun v => fl rnd (Fl.sqrtF sq v))

/-- The exact dot products. -/
def Dots.exact : Dots K :=
  ⟨fun w => Fl.sum (List.zipWith Fl.mul w w), fun w x => Fl.sum (List.zipWith Fl.mul w x), fun x => Fl.sum (List.zipWith Fl.mul x x)⟩

/-- `DotEval rnd xy v`: `v` is the result of adding the products of the pairs `xy` in some order, every operation rounded;
a product may be added without rounding it first (fused multiply-add). -/
inductive DotEval (rnd : K → K) : List (K × K) → K → Prop
  | mul (x y : K) : DotEval rnd [(x, y)] (rnd (x * y))
  | add {l l' l'' : List (K × K)} {a b : K} (h : DotEval rnd l a) (h' : DotEval rnd l' b) (hp : l''.Perm (l ++ l')) :
      DotEval rnd l'' (rnd (a + b))
  | fma {l l'' : List (K × K)} {a : K} (x y : K) (h : DotEval rnd l a) (hp : l''.Perm ((x, y) :: l)) :
      DotEval rnd l'' (rnd (a + x * y))

/-- What is assumed of `np.einsum` and `np.dot`, euclidean.py:165-167: on finite data they evaluate the sum of the products in
some order. -/
structure Dots.Ok (rnd : K → K) (dots : Dots K) : Prop where
  self : ∀ w : List K, w ≠ [] → ∃ v, dots.self (w.map .fin) = .fin v ∧ DotEval rnd (w.zip w) v
  rows : ∀ w x : List K, w ≠ [] → w.length = x.length → ∃ v, dots.rows (w.map .fin) (x.map .fin) = .fin v ∧ DotEval rnd (w.zip x) v
  seq : ∀ w : List K, w ≠ [] → ∃ v, dots.seq (w.map .fin) = .fin v ∧ DotEval rnd (w.zip w) v

/-- Adding from the left, one of the orders `np.einsum` may use: euclidean.py:165-167. -/
def Dots.left (rnd : K → K) : Dots K :=
  let dot := fun w x => match List.zipWith (mul rnd) w x with
    | [] => Fl.fin 0
    | p :: ps => ps.foldl (add rnd) p
  ⟨fun w => dot w w, dot, fun x => dot x x⟩

end Rounded
end Verif
