import Verif.Py

/-!
# Specification vocabulary: what has been delivered to a consumer of distances

Nothing here refers to the model.
-/

namespace Verif.Spec
variable {K : Type}

/-- A distance delivered to a consumer: stream row, stream column and value. -/
structure Cell (K : Type) where
  row : Int
  col : Int
  val : Fl K

/-- Calls made to a consumer of one channel. -/
inductive Delivery (K : Type)
  /-- values of diagonal `d` from its upper left end -/
  | diag (d : Int) (vals : List (Fl K))
  /-- values of column `c` from its upper end -/
  | column (c : Nat) (vals : List (Fl K))
  | shiftSeries (n : Nat)
  | shiftQuery (n : Nat)

/-- Cells delivered by a call when the window starts at stream column `ss` and stream row `qs`. -/
def Delivery.cells (ss qs : Nat) : Delivery K → List (Cell K)
  | .diag d vals => vals.zipIdx.map fun x => ⟨((-d).toNat + x.2 + qs : Nat), (d.toNat + x.2 + ss : Nat), x.1⟩
  | .column c vals => vals.zipIdx.map fun x => ⟨(x.2 + qs : Nat), (c + ss : Nat), x.1⟩
  | _ => []

/-- Calls that fit a window of `h` rows and `w` columns. -/
def Delivery.Valid (h w : Nat) : Delivery K → Prop
  | .diag d vals => (-d).toNat + vals.length ≤ h ∧ d.toNat + vals.length ≤ w
  | .column c vals => c < w ∧ vals ≠ [] ∧ vals.length ≤ h
  | _ => True

/-- Values of diagonals and whole columns of the matrix `A` with `h` rows. -/
def Delivery.Of (A : Nat → Nat → Fl K) (h : Nat) : Delivery K → Prop
  | .diag d vals => ∀ (k : Nat) (x : Fl K), vals[k]? = some x → x = A ((-d).toNat + k) (d.toNat + k)
  | .column c vals => vals = (List.range h).map fun r => A r c
  | _ => False

/-- Is the call a diagonal? -/
def Delivery.IsDiag : Delivery K → Prop
  | .diag _ _ => True
  | _ => False

/-- Columns do not contain NaN. -/
def Delivery.ColumnClean : Delivery K → Prop
  | .column _ vals => Fl.nan ∉ vals
  | _ => True

/-- Everything a consumer has seen: the current position of the window and the cells delivered so far, oldest first. -/
structure Seen (K : Type) where
  ss : Nat
  qs : Nat
  cells : List (Cell K)

/-- Effect of a call, `cellsOf` telling which cells of it count. -/
def Seen.stepWith (cellsOf : Nat → Nat → Delivery K → List (Cell K)) (t : Seen K) (d : Delivery K) : Seen K :=
  match d with
  | .shiftSeries n => { t with ss := t.ss + n }
  | .shiftQuery n => { t with qs := t.qs + n }
  | d => { t with cells := t.cells ++ cellsOf t.ss t.qs d }

/-- Effect of a sequence of calls. -/
def Seen.runWith (cellsOf : Nat → Nat → Delivery K → List (Cell K)) (t : Seen K) (ds : List (Delivery K)) : Seen K :=
  ds.foldl (Seen.stepWith cellsOf) t

/-- Effect of a sequence of calls, every cell counting. -/
def Seen.run (t : Seen K) (ds : List (Delivery K)) : Seen K := t.runWith Delivery.cells ds

/-- Is it NaN? -/
def isNaN : Fl K → Bool
  | .nan => true
  | _ => false

/-- Cells of a call that count when the part of a column on one side of the main diagonal is ignored if it contains a NaN. -/
def Delivery.effective (ss qs : Nat) (d : Delivery K) : List (Cell K) :=
  match d with
  | .column c vals =>
    let cs := Delivery.cells ss qs (.column c vals)
    cs.filter fun x => !cs.any fun y => isNaN y.val && (decide (y.row ≤ y.col) == decide (x.row ≤ x.col))
  | d => d.cells ss qs

/-- Nothing delivered yet. -/
def Seen.init : Seen K := ⟨0, 0, []⟩

/-- The (value, row) pairs delivered for stream column `c`, on or above the main diagonal (`left`) or below it, oldest first. -/
def entriesFor (cells : List (Cell K)) (c : Int) (left : Bool) : List (Fl K × Int) :=
  (cells.filter fun x => decide (x.col = c) && (decide (x.row ≤ x.col) == left)).map fun x => (x.val, x.row)

variable [LinearOrder K]

/-- `v` is the smallest value of `sel` that is not NaN and `i` its position, the first one among equals; `+inf` and -1 if there is no value
below `+inf`. -/
structure IsBest (sel : List (Fl K × Int)) (v : Fl K) (i : Int) : Prop where
  number : v ≠ .nan
  lower : ∀ x ∈ sel, x.1 = .nan ∨ v ≤ x.1
  attained : (v = .pinf ∧ i = -1) ∨ (v < .pinf ∧ ∃ pre post, sel = pre ++ (v, i) :: post ∧ ∀ y ∈ pre, y.1 = .nan ∨ v < y.1)

/-- The same without naming the position among equals, and allowing any position of a `+inf`. -/
structure IsMin (sel : List (Fl K × Int)) (v : Fl K) (i : Int) : Prop where
  number : v ≠ .nan
  lower : ∀ x ∈ sel, v ≤ x.1
  attained : (v = .pinf ∧ i = -1) ∨ (v, i) ∈ sel

end Verif.Spec
