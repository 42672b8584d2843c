import Verif.Model.Assembly

/-!
# Appends that raise

`Streaming.appendSeries` and `Streaming.appendQuery` give the state after a call that returns. Here the state is followed up to the exception: what was assigned
before it stays assigned. The methods of generators and consumers return the state of the object and the exception, if any.
-/

namespace Verif
variable {A B G C K : Type}

/-- The methods that `append_series` and `append_query` call: for each the object after the call and the exception, if any
(calculator.py:342-344, 354-358, 384-386, 396-397). -/
structure AppendOps (G C K : Type) where
  appendSeries : G → List (Fl K) → G × Option PyErr
  appendQuery : G → List (Fl K) → G × Option PyErr
  shiftSeries : C → Int → C × Option PyErr
  shiftQuery : C → Int → C × Option PyErr

/-- A call whose result is used further on: the exception, if any, is passed on. -/
def caught (r : G × Option PyErr) : Except PyErr G :=
  match r with
  | (g, none) => .ok g
  | (_, some e) => .error e

/-- The methods are the same as those in `ops`. -/
structure AppendOps.Agree (s : AppendOps G C K) (ops : Ops G C K) : Prop where
  appendSeries : ∀ g v, caught (s.appendSeries g v) = ops.appendSeries g v
  appendQuery : ∀ g v, caught (s.appendQuery g v) = ops.appendQuery g v
  shiftSeries : ∀ c n, caught (s.shiftSeries c n) = ops.shiftSeries c n
  shiftQuery : ∀ c n, caught (s.shiftQuery c n) = ops.shiftQuery c n

namespace Streaming

/-- The loop over the generators, calculator.py:342-344 and 384-386. -/
def appendGensX (f : G → List (Fl K) → G × Option PyErr) (rows : List (List (Fl K))) : List (G × Nat) → List (G × Nat) × Option PyErr
  | [] => ([], none)
  | g :: gs =>
    match pyGet rows (g.2 : Int) with
    | .error e => (g :: gs, some e)
    | .ok v =>
      match f g.1 v with
      | (g', some e) => ((g', g.2) :: gs, some e)
      | (g', none) => ((g', g.2) :: (appendGensX f rows gs).1, (appendGensX f rows gs).2)

/-- The loop over the consumers, calculator.py:354-355, 357-358 and 396-397. -/
def shiftConsX (f : C → C × Option PyErr) : List (C × List Nat) → List (C × List Nat) × Option PyErr
  | [] => ([], none)
  | c :: cs =>
    match f c.1 with
    | (c', some e) => ((c', c.2) :: cs, some e)
    | (c', none) => ((c', c.2) :: (shiftConsX f cs).1, (shiftConsX f cs).2)

/-- calculator.py:354-358 -/
def shiftBothX (ops : AppendOps G C K) (selfJoin : Bool) (shift : Int) (cons : List (C × List Nat)) : List (C × List Nat) × Option PyErr :=
  match shiftConsX (fun c => ops.shiftSeries c shift) cons with
  | (cons, some e) => (cons, some e)
  | (cons, none) => if selfJoin then shiftConsX (fun c => ops.shiftQuery c shift) cons else (cons, none)

/-- `append_series`, calculator.py:323-359: the state after the call and the exception, if any. -/
def appendSeriesX (ops : AppendOps G C K) (st : Streaming G C) (values : NDArray K) : Streaming G C × Option PyErr :=
  match toRows st.base.nDim values with
  | .error e => (st, some e)
  | .ok (rows, n) =>
    match appendGensX ops.appendSeries rows st.base.gens with
    | (gens, some e) => ({ st with base := { st.base with gens := gens } }, some e)
    | (gens, none) =>
      let shift := shiftOf (st.base.numSeries + st.base.m - 1) st.streamedSeries n
      if shift ≠ 0 then
        match shiftBothX ops st.base.selfJoin shift st.base.cons with
        | (cons, some e) => ({ st with base := { st.base with gens := gens, cons := cons }, streamedSeries := st.streamedSeries + n }, some e)
        | (cons, none) => ({ st with base := { st.base with gens := gens, cons := cons, lastCol := max (-1) (st.base.lastCol - shift) },
                                     streamedSeries := st.streamedSeries + n }, none)
      else ({ st with base := { st.base with gens := gens }, streamedSeries := st.streamedSeries + n }, none)

/-- `append_query`, calculator.py:361-397: the state after the call and the exception, if any. -/
def appendQueryX (ops : AppendOps G C K) (st : Streaming G C) (values : NDArray K) : Streaming G C × Option PyErr :=
  if st.base.selfJoin then (st, some .runtimeError)
  else match toRows st.base.nDim values with
  | .error e => (st, some e)
  | .ok (rows, n) =>
    match appendGensX ops.appendQuery rows st.base.gens with
    | (gens, some e) => ({ st with base := { st.base with gens := gens } }, some e)
    | (gens, none) =>
      let shift := shiftOf (st.base.numQuery + st.base.m - 1) st.streamedQuery n
      if shift ≠ 0 then
        match shiftConsX (fun c => ops.shiftQuery c shift) st.base.cons with
        | (cons, some e) => ({ st with base := { st.base with gens := gens, cons := cons }, streamedQuery := st.streamedQuery + n }, some e)
        | (cons, none) => ({ st with base := { st.base with gens := gens, cons := cons }, streamedQuery := st.streamedQuery + n }, none)
      else ({ st with base := { st.base with gens := gens }, streamedQuery := st.streamedQuery + n }, none)

end Streaming

/-- `append_series` of generators of the two classes: `Euclidean` (euclidean.py:72-86) raises nothing (simplified: after an exception of `push`, which needs a
scale factor above 2, the buffer is taken to be unchanged); `ZNormEuclidean` may raise after it has pushed the data (znorm_euclidean.py:152-173). -/
noncomputable def GenKind.appendSeriesX (memE : Nat → List (Fl ℝ)) (g : ColCache ℝ ⊕ ZN) (v : List (Fl ℝ)) : (ColCache ℝ ⊕ ZN) × Option PyErr :=
  match g with
  | .inl x => match (Eucl.genOps memE Real.sqrt).appendSeries x v with
    | .ok x' => (.inl x', none)
    | .error e => (.inl x, some e)
  | .inr z => (.inr (z.appendSeries v).1, (z.appendSeries v).2)

/-- The same for `append_query`: euclidean.py:88-97 raises at once in a self-join, znorm_euclidean.py:175-191 also after the push. -/
noncomputable def GenKind.appendQueryX (memE : Nat → List (Fl ℝ)) (g : ColCache ℝ ⊕ ZN) (v : List (Fl ℝ)) : (ColCache ℝ ⊕ ZN) × Option PyErr :=
  match g with
  | .inl x => match (Eucl.genOps memE Real.sqrt).appendQuery x v with
    | .ok x' => (.inl x', none)
    | .error e => (.inl x, some e)
  | .inr z => (.inr (z.appendQuery v).1, (z.appendQuery v).2)

end Verif
