import Verif.Rnd
import Verif.Model.MatrixProfile

/-!
# Model of `MatrixProfileLRReservoir`, `distancematrix/consumer/matrix_profile_lr.py`

The three arrays of one side (profile, index, number of matches) are created with the same length and always indexed alike: they are modelled
as one list of entries. The draws of one `rand(count)` call are modelled as one `rand() < p` per position.
-/

namespace Verif
variable {K : Type} [LinearOrder K]

/-- One position of one side, matrix_profile_lr.py:283-288. -/
structure REntry (K : Type) where
  mp : Fl K
  idx : Int
  num : Nat

/-- One position of `_update_matrix_profile`, matrix_profile_lr.py:325-340. -/
def REntry.step (e : REntry K) (x : Fl K × Int) : Rnd (REntry K) :=
  if Fl.ltF x.1 e.mp then .pure ⟨x.1, x.2, 1⟩
  else if Fl.eqF x.1 e.mp && x.1.isFinite then
    .flip (1 / ((e.num + 1 : Nat) : ℚ)) fun b => .pure ⟨e.mp, if b then x.2 else e.idx, e.num + 1⟩
  else .pure e

/-- `class MatrixProfileLRReservoir` after `initialise`, matrix_profile_lr.py:279-288. -/
structure Reservoir (K : Type) where
  range : List Int
  left : List (REntry K)
  right : List (REntry K)

namespace Reservoir

/-- `initialise`, matrix_profile_lr.py:279-288 -/
def initialise (querySubseq seriesSubseq : Int) : Except PyErr (Reservoir K) :=
  if seriesSubseq < 0 then .error .valueError
  else
    let e := List.replicate seriesSubseq.toNat ⟨.pinf, -1, 0⟩
    .ok { range := pyRange 0 (max seriesSubseq querySubseq), left := e, right := e }

/-- `_update_matrix_profile`, matrix_profile_lr.py:325-340: the new contents of the views. Arrays of different lengths: the error of the
comparison or of the boolean index, whichever comes first. -/
def update (vals : List (Fl K)) (idx : List Int) (es : List (REntry K)) : Rnd (List (REntry K)) :=
  (Rnd.lift (npZip Fl.ltF vals (es.map REntry.mp))).bind fun upd =>
    if upd.length = es.length ∧ upd.length = vals.length ∧ upd.length = idx.length then
      Rnd.mapR (fun y : REntry K × (Fl K × Int) => y.1.step y.2) (es.zip (vals.zip idx))
    else .fail .indexError

/-- `process_diagonal`, matrix_profile_lr.py:290-307 -/
def processDiagonal (p : Reservoir K) (diag : Int) (values : List (List (Fl K))) : Rnd (Reservoir K) :=
  (Rnd.lift (pyGet values 0)).bind fun vals =>
    let (a, b) := diagCols diag vals.length
    if diag ≥ 0 then
      (update vals (diagRows p.range diag vals.length) (pySlice p.left a b)).bind fun es =>
        (Rnd.lift (pyAssign p.left a b es)).bind fun left => .pure { p with left := left }
    else
      (update vals (diagRows p.range diag vals.length) (pySlice p.right a b)).bind fun es =>
        (Rnd.lift (pyAssign p.right a b es)).bind fun right => .pure { p with right := right }

/-- `np.nonzero(l == x)[0]` -/
def positions (l : List (Fl K)) (x : Fl K) : List Int := (l.zipIdx.filter fun y => Fl.eqF y.1 x).map fun y : Fl K × Nat => (y.2 : Int)

/-- `_random_pick`, matrix_profile_lr.py:342-346 (`randint(0, 0)` raises `ValueError`). -/
def randomPick (a : List Int) : Rnd Int :=
  if a.length = 1 then Rnd.lift (pyGet a 0)
  else if a.length = 0 then .fail .valueError
  else .randint a.length fun i => Rnd.lift (pyGet a i)

/-- One side of `process_column`: the new entry, matrix_profile_lr.py:312-316, 319-323. -/
def columnEntry (part : List (Fl K)) (offset : Int) : Rnd (REntry K) :=
  (Rnd.lift (npMin part)).bind fun mn =>
    (randomPick (positions part mn)).bind fun i => .pure ⟨mn, i + offset, (positions part mn).length⟩

/-- `process_column`, matrix_profile_lr.py:309-323 -/
def processColumn (p : Reservoir K) (c : Int) (values : List (List (Fl K))) : Rnd (Reservoir K) :=
  (Rnd.lift (pyGet values 0)).bind fun vals =>
    (columnEntry (pyTo vals (c + 1)) 0).bind fun e =>
    (Rnd.lift (pySet p.left c e)).bind fun left =>
    if (vals.length : Int) ≥ c + 2 then
      (columnEntry (pyFrom vals (c + 1)) (c + 1)).bind fun e =>
      (Rnd.lift (pySet p.right c e)).bind fun right => .pure { p with left := left, right := right }
    else .pure { p with left := left }

/-- `matrix_profile`, matrix_profile_lr.py:348-359 -/
def matrixProfile (p : Reservoir K) : List (Fl K) := MP.merged (p.left.map REntry.mp) (p.right.map REntry.mp)

/-- One position of `profile_index`, matrix_profile_lr.py:367-380. -/
def mergeIdx (l r : REntry K) : Rnd Int :=
  if Fl.eqF l.mp r.mp && decide (l.num ≠ 0) then
    .flip ((l.num : ℚ) / ((l.num : ℚ) + (r.num : ℚ))) fun b => .pure (if b then l.idx else r.idx)
  else .pure (if Fl.ltF l.mp r.mp then l.idx else r.idx)

/-- `profile_index`, matrix_profile_lr.py:361-382 -/
def profileIndex (p : Reservoir K) : Rnd (List Int) := Rnd.mapR (fun y : REntry K × REntry K => mergeIdx y.1 y.2) (p.left.zip p.right)

end Reservoir
end Verif
