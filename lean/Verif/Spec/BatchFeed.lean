import Verif.Spec.Events
import Verif.Spec.Gen

/-!
# Specification vocabulary: what the consumers of a batch calculation receive

Series and query consist of frames of an arbitrary type. Apart from the interface of consumers nothing here refers to the model.
-/

namespace Verif.Spec
variable {α K : Type}

/-- How far a batch calculation has come: the number of diagonals calculated, and the first column right of all calculated ones. -/
structure BSt where
  next : Nat
  col : Nat

/-- A calculation: the diagonals up to number `upto` (in the order in which they are calculated), or the columns from `start` up to `stop`. -/
inductive BOp
  | diagonals (upto : Nat)
  | columns (start stop : Nat)

def BSt.step (u : BSt) : BOp → BSt
  | .diagonals n => { u with next := max u.next n }
  | .columns a c => { u with col := if a < c then max u.col c else u.col }

/-- Nothing calculated. -/
def BSt.init : BSt := ⟨0, 0⟩

/-- The value of the pair (`r`, `c`): `+inf` in the trivial match band, else the distance `D` of the subsequences. -/
def pairValue (D : List α → List α → Fl K) (m : Nat) (b : Int) (s q : List α) (r c : Nat) : Fl K :=
  if (r : Int) - c ≤ b ∧ (c : Int) - r ≤ b then .pinf else D ((s.drop c).take m) ((q.drop r).take m)

/-- The distances on diagonal `d` from its upper left end. -/
def diagValues (D : List α → List α → Fl K) (m : Nat) (s q : List α) (d : Int) : List (Fl K) :=
  (List.range (diagEntries m q.length s.length d)).map fun k => D ((s.drop (d.toNat + k)).take m) ((q.drop ((-d).toNat + k)).take m)

/-- The calls that a consumer of the generators `ids` receives. In a self-join every diagonal is delivered a second time as the one on the other
side of the main diagonal. `D id` is the distance of generator `id`. -/
def BSt.events (m : Nat) (selfJoin : Bool) (b : Int) (order : List Int) (D : Nat → List α → List α → Fl K) (s q : List α) (ids : List Nat) (u : BSt) :
    BOp → List (CEvent K)
  | .diagonals n => ((order.take n).drop u.next).flatMap fun d =>
      .diagonal d (ids.map fun id => diagValues (D id) m s q d) ::
        if selfJoin then [.diagonal (-d) (ids.map fun id => diagValues (D id) m s q d)] else []
  | .columns a c => (List.range (c - a)).map fun i =>
      .column ((a + i : Nat) : Int) (ids.map fun id => (List.range (q.length + 1 - m)).map fun r => pairValue (D id) m b s q r (a + i))

/-- The calls received during a sequence of calculations. -/
def BSt.allEvents (m : Nat) (selfJoin : Bool) (b : Int) (order : List Int) (D : Nat → List α → List α → Fl K) (s q : List α) (ids : List Nat) :
    BSt → List BOp → List (CEvent K)
  | _, [] => []
  | u, op :: ops => u.events m selfJoin b order D s q ids op ++ BSt.allEvents m selfJoin b order D s q ids (u.step op) ops

/-- The diagonals that are calculated: those right of the trivial match band in a self-join, else all. -/
def batchDiagonals (selfJoin : Bool) (h w : Nat) (b : Int) : List Int := if selfJoin then pyRange (b + 1) w else pyRange (1 - h) w

/-- The number of distances on the first `k` diagonals. -/
def valuesUpto (m nq ns : Nat) (order : List Int) (k : Nat) : Nat := ((order.take k).map (diagEntries m nq ns)).sum

/-- The pairs (`r`, `c`) for which a calculation delivers a distance. -/
def BSt.covers (selfJoin : Bool) (b : Int) (order : List Int) (u : BSt) (op : BOp) (r c : Nat) : Prop :=
  match op with
  | .diagonals n => (c : Int) - r ∈ (order.take n).drop u.next ∨ (selfJoin = true ∧ (r : Int) - c ∈ (order.take n).drop u.next)
  | .columns a e => a ≤ c ∧ c < e ∧ ¬ ((r : Int) - c ≤ b ∧ (c : Int) - r ≤ b)

/-- The pairs for which a sequence of calculations delivers a distance. -/
def BSt.covered (selfJoin : Bool) (b : Int) (order : List Int) : BSt → List BOp → Nat → Nat → Prop
  | _, [], _, _ => False
  | u, op :: ops, r, c => u.covers selfJoin b order op r c ∨ BSt.covered selfJoin b order (u.step op) ops r c

end Verif.Spec
