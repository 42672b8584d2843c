import Verif.Spec.Events
import Verif.Spec.StreamMatrix
import Verif.Spec.Deliveries

/-!
# Specification vocabulary: what the consumers of a streaming calculation receive

Streams consist of frames of an arbitrary type; `π ch x` is channel `ch` of frame `x`. Apart from the interface of consumers nothing
here refers to the model.
-/

namespace Verif.Spec
variable {α K : Type}

/-- The value of the pair (`r`, `c`) of positions in the streams: `+inf` in the trivial match band, else the distance `D` of the
subsequences. -/
def MSt.cell (D : List α → List α → Fl K) (m : Nat) (b : Int) (u : MSt α) (r c : Nat) : Fl K :=
  if (r : Int) - c ≤ b ∧ (c : Int) - r ≤ b then .pinf else D ((u.s.drop c).take m) ((u.q.drop r).take m)

/-- How far a window of `w` places moves when `n` points are added to a stream of `a` points. -/
def moved (w a n : Nat) : Nat := (a + n - w) - (a - w)

/-- The calls that a consumer of the generators `ids` receives: the windows move, or columns of the window are delivered, one list of
distances per generator. `D id` is the distance of generator `id`. -/
def MSt.events (m N : Nat) (M : Option Nat) (b : Int) (D : Nat → List α → List α → Fl K) (u : MSt α) (ids : List Nat) :
    MOp α → List (CEvent K)
  | .series v =>
      let k := moved N u.s.length v.length
      if k = 0 then [] else .shiftSeries k :: (if M.isNone then [.shiftQuery k] else [])
  | .query v =>
      let k := moved (M.getD N) u.q.length v.length
      if k = 0 then [] else [.shiftQuery k]
  | .columns upto =>
      let first := u.next - (u.s.length - N)
      let stop := min upto.toNat ((lastN N u.s).length + 1 - m)
      (List.range (stop - first)).map fun i => .column ((first + i : Nat) : Int) (ids.map fun id =>
        (List.range ((lastN (M.getD N) u.q).length + 1 - m)).map fun r =>
          u.cell (D id) m b (r + (u.q.length - M.getD N)) (first + i + (u.s.length - N)))

/-- The calls received during a sequence of calls. -/
def MSt.allEvents (m N : Nat) (M : Option Nat) (b : Int) (D : Nat → List α → List α → Fl K) (ids : List Nat) : MSt α → List (MOp α) → List (CEvent K)
  | _, [] => []
  | u, op :: ops => u.events m N M b D ids op ++ MSt.allEvents m N M b D ids (u.step m N M op) ops

/-- The same for a consumer of one generator with distance `D`. -/
def MSt.deliveries (m N : Nat) (M : Option Nat) (b : Int) (D : List α → List α → Fl K) (u : MSt α) : MOp α → List (Delivery K)
  | .series v =>
      let k := moved N u.s.length v.length
      if k = 0 then [] else .shiftSeries k :: (if M.isNone then [.shiftQuery k] else [])
  | .query v =>
      let k := moved (M.getD N) u.q.length v.length
      if k = 0 then [] else [.shiftQuery k]
  | .columns upto =>
      let first := u.next - (u.s.length - N)
      let stop := min upto.toNat ((lastN N u.s).length + 1 - m)
      (List.range (stop - first)).map fun i => .column (first + i) ((List.range ((lastN (M.getD N) u.q).length + 1 - m)).map fun r =>
        u.cell D m b (r + (u.q.length - M.getD N)) (first + i + (u.s.length - N)))

def MSt.allDeliveries (m N : Nat) (M : Option Nat) (b : Int) (D : List α → List α → Fl K) : MSt α → List (MOp α) → List (Delivery K)
  | _, [] => []
  | u, op :: ops => u.deliveries m N M b D op ++ MSt.allDeliveries m N M b D (u.step m N M op) ops

/-- `v` is the smallest of the values `f r` over the rows with `P` and `i` the first such row with it; `+inf` and -1 if there is no value
below `+inf`. -/
def Nearest [LinearOrder K] (P : Nat → Prop) (f : Nat → Fl K) (v : Fl K) (i : Int) : Prop :=
  (v = .pinf ∧ i = -1 ∧ ∀ r, P r → f r = .pinf) ∨
  (v < .pinf ∧ ∃ r : Nat, i = r ∧ P r ∧ f r = v ∧ ∀ r', P r' → v ≤ f r' ∧ (r' < r → v < f r'))

/-- The same without telling which of several smallest values is meant. -/
def NearestSome [LinearOrder K] (P : Nat → Prop) (f : Nat → Fl K) (v : Fl K) (i : Int) : Prop :=
  (v = .pinf ∧ i = -1 ∧ ∀ r, P r → f r = .pinf) ∨
  (v < .pinf ∧ ∃ r : Nat, i = r ∧ P r ∧ f r = v ∧ ∀ r', P r' → v ≤ f r')

/-- A generator that was added when `x.1` points of the series and `x.2` points of the query had been appended has been given all that the windows hold. -/
def Filled (N M : Nat) (x : Nat × Nat) (u : MSt α) : Prop := (x.1 = 0 ∨ x.1 + N ≤ u.s.length) ∧ (x.2 = 0 ∨ x.2 + M ≤ u.q.length)

end Verif.Spec
