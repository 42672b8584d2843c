import Verif.Model.Reservoir
import Verif.Model.Consumers

/-!
# The interface of `MatrixProfileLRReservoir`

Each object draws from a random generator of its own (matrix_profile_lr.py:270). Seen by a calculator the object is the tree of its possible states with the
draws between them; the draws are taken to be independent.
-/

namespace Verif
variable {G K : Type}

/-- A new `MatrixProfileLRReservoir()` before `initialise`, matrix_profile_lr.py:261-277 -/
def Reservoir.new : Rnd (Reservoir K) := .pure ⟨[], [], []⟩

open Classical in
/-- The outcome of a call on the tree of states. Simplified: if some draws make the call raise, the call is taken to raise. -/
noncomputable def Reservoir.accept (t : Rnd (Reservoir K)) : Except PyErr (Rnd (Reservoir K)) := if t.All fun _ => True then .ok t else .error .valueError

/-- A `MatrixProfileLRReservoir` consumer (matrix_profile_lr.py:245-382) next to generators; no `shift_series` / `shift_query`. -/
noncomputable def Reservoir.ops [LinearOrder K] (gops : GenOps G K) : Ops G (Rnd (Reservoir K)) K :=
  gops.with (fun t _ q s => accept (t.bind fun _ => Rnd.lift (Reservoir.initialise q s)))
    (fun t c values => accept (t.bind fun p => p.processColumn c values))
    (fun t d values => accept (t.bind fun p => p.processDiagonal d values))
    (fun _ _ => .error .attributeError) (fun _ _ => .error .attributeError)

end Verif
