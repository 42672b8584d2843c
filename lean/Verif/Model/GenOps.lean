import Verif.Model.Generator
import Verif.Model.Euclidean
import Verif.Model.ZNormEuclidean

/-!
# The generators of the repository as implementations of the generator interface
-/

namespace Verif

/-- The Euclidean generator as an implementation of the interface (euclidean.py:60-141). -/
def Eucl.genOps {K : Type} [Field K] [LinearOrder K] (mem : Nat → List (Fl K)) (sq : K → K) : GenOps (ColCache K) K :=
  { calcDiagonal := fun g d => (calcDiagonal sq g d).map fun v => (g, v), calcColumn := calcColumn mem sq, appendSeries := appendSeries,
    appendQuery := appendQuery }

/-- The z-normalised generator as an implementation of the interface (znorm_euclidean.py:118-307). -/
noncomputable def ZN.genOps (mem : ZN.Mem) : GenOps ZN ℝ :=
  { calcDiagonal := fun z d => (calcDiagonal z d).map fun v => (z, v), calcColumn := calcColumn mem.fl,
    appendSeries := fun z v => ofCall (z.appendSeries v), appendQuery := fun z v => ofCall (z.appendQuery v) }

end Verif
