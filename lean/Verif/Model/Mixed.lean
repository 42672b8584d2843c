import Verif.Model.Assembly

/-!
# Consumers of different classes in one calculator

`_consumers` (calculator.py:57-59) is a dictionary of consumer objects of any classes; every call goes to the method of the object's own class.
-/

namespace Verif
variable {G K ι : Type} {Cs : ι → Type}

/-- Consumers of the classes `ι`, where objects of class `i` have states `Cs i` and methods `cops i`, next to generators with methods `gops`
(calculator.py:61-72; the calls are those of 71, 127, 257-259, 354-358, 396-397). -/
def Ops.mix (gops : GenOps G K) (cops : ∀ i, Ops G (Cs i) K) : Ops G (Σ i, Cs i) K :=
  { calcColumn := gops.calcColumn, calcDiagonal := gops.calcDiagonal, appendSeries := gops.appendSeries, appendQuery := gops.appendQuery,
    initialise := fun c n q s => ((cops c.1).initialise c.2 n q s).map (Sigma.mk c.1)
    processColumn := fun c x v => ((cops c.1).processColumn c.2 x v).map (Sigma.mk c.1)
    processDiagonal := fun c x v => ((cops c.1).processDiagonal c.2 x v).map (Sigma.mk c.1)
    shiftSeries := fun c n => ((cops c.1).shiftSeries c.2 n).map (Sigma.mk c.1)
    shiftQuery := fun c n => ((cops c.1).shiftQuery c.2 n).map (Sigma.mk c.1) }

end Verif
