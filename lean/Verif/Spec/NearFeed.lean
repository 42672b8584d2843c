import Verif.Spec.StreamFeed
import Verif.Spec.BatchFeed
import Mathlib.Data.Real.Basic

/-!
# Specification vocabulary: calculations whose columns come from tables

What consumers receive if the values of the columns are not given by a distance but by a table, one for each call.
-/

namespace Verif.Spec
variable {α K : Type}

/-- Values of the columns of one call: of generator `id`, row `r`, column `c`. -/
abbrev Table (K : Type) := Nat → Nat → Nat → Fl K

/-- Column `c` of `h` rows: `+inf` in the trivial match band, else as the table says. -/
def tableColumn (V : Table K) (b : Int) (h : Nat) (id c : Nat) : List (Fl K) :=
  (List.range h).map fun r : Nat => if (r : Int) - c ≤ b ∧ (c : Int) - r ≤ b then .pinf else V id r c

/-- `BSt.events` with the columns taken from the table. -/
def BSt.eventsOf (m : Nat) (selfJoin : Bool) (b : Int) (order : List Int) (D : Nat → List α → List α → Fl K) (s q : List α) (ids : List Nat) (u : BSt)
    (V : Table K) : BOp → List (CEvent K)
  | .diagonals n => u.events m selfJoin b order D s q ids (.diagonals n)
  | .columns a c => (List.range (c - a)).map fun i => .column ((a + i : Nat) : Int) (ids.map fun id => tableColumn V b (q.length + 1 - m) id (a + i))

/-- The calls received during a sequence of calculations, each with its table. -/
def BSt.allEventsOf (m : Nat) (selfJoin : Bool) (b : Int) (order : List Int) (D : Nat → List α → List α → Fl K) (s q : List α) (ids : List Nat) :
    BSt → List (BOp × Table K) → List (CEvent K)
  | _, [] => []
  | u, x :: xs => u.eventsOf m selfJoin b order D s q ids x.2 x.1 ++ BSt.allEventsOf m selfJoin b order D s q ids (u.step x.1) xs

/-- All values of the table of `n` generators are related to the distances `D` of the subsequences of `s` (columns) and `q` (rows). -/
def NearTable (m n : Nat) (Rel : Nat → Fl K → Fl K → Prop) (D : Nat → List α → List α → Fl K) (s q : List α) (V : Table K) : Prop :=
  ∀ id < n, ∀ r c, r + m ≤ q.length → c + m ≤ s.length → Rel id (D id ((s.drop c).take m) ((q.drop r).take m)) (V id r c)

/-- The entries on diagonal `d` of the table, for a query of `nq` and a series of `ns` points. -/
def tableDiag (V : Table K) (m nq ns id : Nat) (d : Int) : List (Fl K) :=
  (List.range (diagEntries m nq ns d)).map fun k => V id ((-d).toNat + k) (d.toNat + k)

/-- `BSt.events` with both the columns and the diagonals taken from the table. -/
def BSt.tableEvents (m : Nat) (selfJoin : Bool) (b : Int) (order : List Int) (nq ns : Nat) (ids : List Nat) (u : BSt) (V : Table K) : BOp → List (CEvent K)
  | .diagonals n => ((order.take n).drop u.next).flatMap fun d =>
      .diagonal d (ids.map fun id => tableDiag V m nq ns id d) ::
        if selfJoin then [.diagonal (-d) (ids.map fun id => tableDiag V m nq ns id d)] else []
  | .columns a c => (List.range (c - a)).map fun i => .column ((a + i : Nat) : Int) (ids.map fun id => tableColumn V b (nq + 1 - m) id (a + i))

/-- The calls received during a sequence of calculations, each with its table. -/
def BSt.allTableEvents (m : Nat) (selfJoin : Bool) (b : Int) (order : List Int) (nq ns : Nat) (ids : List Nat) : BSt → List (BOp × Table K) → List (CEvent K)
  | _, [] => []
  | u, x :: xs => u.tableEvents m selfJoin b order nq ns ids x.2 x.1 ++ BSt.allTableEvents m selfJoin b order nq ns ids (u.step x.1) xs

/-- All values of the table of `n` generators are related to the subsequences of `s` (columns) and `q` (rows) that they are about. -/
def TableRel (m n : Nat) (Rel : Nat → List α → List α → Fl K → Prop) (s q : List α) (V : Table K) : Prop :=
  ∀ id < n, ∀ r c, r + m ≤ q.length → c + m ≤ s.length → Rel id ((s.drop c).take m) ((q.drop r).take m) (V id r c)

/-- The table of a calculation: values of diagonals are related by `RelD`, values of columns by `RelC`. -/
def OpTable (m n : Nat) (RelD RelC : Nat → List α → List α → Fl K → Prop) (s q : List α) (x : BOp × Table K) : Prop :=
  match x.1 with
  | .diagonals _ => TableRel m n RelD s q x.2
  | .columns _ _ => TableRel m n RelC s q x.2

/-- `MSt.events` with the columns taken from the table. -/
def MSt.eventsOf (m N : Nat) (M : Option Nat) (b : Int) (D : Nat → List α → List α → Fl K) (u : MSt α) (ids : List Nat) (V : Table K) :
    MOp α → List (CEvent K)
  | .columns upto =>
      let first := u.next - (u.s.length - N)
      let stop := min upto.toNat ((lastN N u.s).length + 1 - m)
      (List.range (stop - first)).map fun i => .column ((first + i : Nat) : Int) (ids.map fun id =>
        tableColumn V b ((lastN (M.getD N) u.q).length + 1 - m) id (first + i))
  | .series v => u.events m N M b D ids (.series v)
  | .query v => u.events m N M b D ids (.query v)

/-- The calls received during a sequence of calls, each with its table. -/
def MSt.allEventsOf (m N : Nat) (M : Option Nat) (b : Int) (D : Nat → List α → List α → Fl K) (ids : List Nat) :
    MSt α → List (MOp α × Table K) → List (CEvent K)
  | _, [] => []
  | u, x :: xs => u.eventsOf m N M b D ids x.2 x.1 ++ MSt.allEventsOf m N M b D ids (u.step m N M x.1) xs

/-- The tables of all calls are related to the distances of the subsequences that are in the windows at that time. -/
def MSt.AllNear (m N : Nat) (M : Option Nat) (n : Nat) (Rel : Nat → Fl K → Fl K → Prop) (D : Nat → List α → List α → Fl K) :
    MSt α → List (MOp α × Table K) → Prop
  | _, [] => True
  | u, x :: xs => NearTable m n Rel D (lastN N u.s) (lastN (M.getD N) u.q) x.2 ∧ MSt.AllNear m N M n Rel D (u.step m N M x.1) xs

/-- `v` stands for the distance `d`: its square is at most `1e-15` too small; NaN stands for distances whose square is below `1e-15`. -/
def NearDist (d v : Fl ℝ) : Prop :=
  ∃ x : ℝ, d = .fin x ∧ ((v = .nan ∧ x ^ 2 < 1 / 10 ^ 15) ∨ ∃ y : ℝ, v = .fin y ∧ 0 ≤ y ∧ y ≤ x ∧ x ^ 2 - y ^ 2 < 1 / 10 ^ 15)

end Verif.Spec
