import Verif.Model.Calculator

/-!
# Specification vocabulary: what a calculator delivers to a consumer

Apart from the interface `Ops` of generators and consumers nothing here refers to the model of the calculators.
-/

namespace Verif.Spec
variable {G C K : Type}

/-- One call made on a consumer. -/
inductive CEvent (K : Type)
  | column (c : Int) (vals : List (List (Fl K)))
  | diagonal (d : Int) (vals : List (List (Fl K)))
  | shiftSeries (n : Int)
  | shiftQuery (n : Int)

/-- The effect of one call. -/
def CEvent.apply (ops : Ops G C K) (c : C) : CEvent K → Except PyErr C
  | .column i v => ops.processColumn c i v
  | .diagonal d v => ops.processDiagonal c d v
  | .shiftSeries n => ops.shiftSeries c n
  | .shiftQuery n => ops.shiftQuery c n

/-- The effect of a sequence of calls. -/
def feed (ops : Ops G C K) : C → List (CEvent K) → Except PyErr C
  | c, [] => .ok c
  | c, e :: es => do feed ops (← e.apply ops c) es

/-- A generator asked for the columns (diagonals) `xs` one after the other ends as `g'`, giving the rows `r x`; `n x` is the
number of values wanted. -/
def Gives (ask : G → Int → Except PyErr (G × List (Fl K))) (n : Int → Nat) (r : Int → List (Fl K)) : List Int → G → G → Prop
  | [], g, g' => g' = g
  | x :: xs, g, g' => ∃ g1 v, ask g x = .ok (g1, v) ∧ npRow (n x) v = .ok (r x) ∧ Gives ask n r xs g1 g'

/-- All consumers (with the generator ids they asked for) receive their events. -/
def AllFed (ops : Ops G C K) (evs : List Nat → List (CEvent K)) (cons cons' : List (C × List Nat)) : Prop :=
  List.Forall₂ (fun c c' => c'.2 = c.2 ∧ feed ops c.1 (evs c.2) = .ok c'.1) cons cons'

/-- All needed generators are asked, the others are untouched. -/
def AllAsked (ask : G → Int → Except PyErr (G × List (Fl K))) (n : Int → Nat) (needed : List Nat)
    (R : Nat → Int → List (Fl K)) (xs : List Int) (gens gens' : List (G × Nat)) : Prop :=
  gens'.length = gens.length ∧
  (∀ id ∈ needed, ∃ g d g', gens[id]? = some (g, d) ∧ gens'[id]? = some (g', d) ∧ Gives ask n (R id) xs g g') ∧
  (∀ id, id ∉ needed → gens'[id]? = gens[id]?)

/-- A row with the entries within `b` of position `c` replaced by `+inf`. -/
def maskRow (b c : Int) (row : List (Fl K)) : List (Fl K) :=
  row.mapIdx fun i x => if (i : Int) - c ≤ b ∧ c - i ≤ b then .pinf else x

/-- How far the series axis (second component: the query axis) has been shifted by the events. -/
def seriesShift : List (CEvent K) → Int
  | [] => 0
  | .shiftSeries n :: es => n + seriesShift es
  | _ :: es => seriesShift es

def queryShift : List (CEvent K) → Int
  | [] => 0
  | .shiftQuery n :: es => n + queryShift es
  | _ :: es => queryShift es

/-- The positions in the whole stream of the columns delivered by the events, when the window starts at `s`. -/
def streamCols (s : Int) : List (CEvent K) → List Int
  | [] => []
  | .shiftSeries n :: es => streamCols (s + n) es
  | .column c _ :: es => (s + c) :: streamCols s es
  | _ :: es => streamCols s es

end Verif.Spec
