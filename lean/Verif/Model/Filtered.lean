import Verif.Model.Batch
import Verif.Model.Filter

/-!
# Calculators with filter generators

`Model/Assembly.lean` and `Model/Batch.lean` put calculators together from the two distance generators; here the generators may also be wrapped in
a `FilterGenerator` (filter_generator.py:17-63).
-/

namespace Verif
variable {G K : Type} [Zero K]

/-- The methods of `BoundStreamingFilterGenerator` objects, filter_generator.py:124-204. The object carries its `_invalid_data_function` (164),
here a function `p` of single points, called for every point of the data like `is_not_finite` (10-14). -/
def Filter.streamingOps (ops : GenOps G K) : GenOps ((Fl K → Bool) × Filter.Streaming G) K :=
  { calcDiagonal := fun g d => (g.2.calcDiagonal ops d).map fun x => ((g.1, x.1), x.2)
    calcColumn := fun g c => (g.2.calcColumn ops c).map fun x => ((g.1, x.1), x.2)
    appendSeries := fun g v => (g.2.appendSeries ops (fun l _ => l.map g.1) v).map fun x => (g.1, x)
    appendQuery := fun g v => (g.2.appendQuery ops (fun l _ => l.map g.1) v).map fun x => (g.1, x) }

/-- A generator object: `Euclidean`, `ZNormEuclidean`, or `FilterGenerator(generator, invalid_data_function, rb_scale_factor)` around one of them
(filter_generator.py:32-38). -/
inductive FKind
  | plain (k : GenKind)
  | filtered (p : Fl ℝ → Bool) (scale : ℚ) (k : GenKind)

/-- A bound generator. -/
abbrev FGen := (ColCache ℝ ⊕ ZN) ⊕ (Filter.Batch (ColCache ℝ ⊕ ZN) ⊕ ((Fl ℝ → Bool) × Filter.Streaming (ColCache ℝ ⊕ ZN)))

/-- The methods of bound generators of all classes: euclidean.py:72-142, znorm_euclidean.py:152-307, filter_generator.py:66-204. -/
noncomputable def FKind.ops (memE : Nat → List (Fl ℝ)) (memZ : ZN.Mem) : GenOps FGen ℝ :=
  (GenKind.ops memE memZ).sum ((Filter.Batch.ops (GenKind.ops memE memZ)).sum (Filter.streamingOps (GenKind.ops memE memZ)))

/-- `prepare`: euclidean.py:44-57, znorm_euclidean.py:82-115, filter_generator.py:51-63. -/
noncomputable def FKind.prepare (memE : Nat → List (Fl ℝ)) (memZ : ZN.Mem) (k : FKind) (m : Int) (series : List (Fl ℝ)) (query : Option (List (Fl ℝ))) :
    Except PyErr FGen :=
  match k with
  | .plain k => (k.prepare memE memZ m series query).map .inl
  | .filtered p _ k => (Filter.prepare (k.prepare memE memZ) (fun l _ => l.map p) m.toNat series query).map fun b => .inr (.inl b)

/-- `prepare_streaming`: euclidean.py:32-42, znorm_euclidean.py:54-80, filter_generator.py:40-49; `memB` is the memory of the Boolean ring buffers. -/
noncomputable def FKind.streaming (memE : Nat → List (Fl ℝ)) (memZ : ZN.Mem) (memB : Nat → List Bool) (k : FKind) (m seriesWindow : Int)
    (queryWindow : Option Int) : Except PyErr FGen :=
  match k with
  | .plain k => (k.streaming memE memZ m seriesWindow queryWindow).map .inl
  | .filtered p scale k =>
      (Filter.prepareStreaming (fun m n q => k.streaming memE memZ m n (q.map fun q : Nat => (q : Int))) memB scale m.toNat seriesWindow.toNat
        (queryWindow.map Int.toNat)).map fun b => .inr (.inr (p, b))

end Verif
