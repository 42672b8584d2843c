import Verif.Props.SessionsStream
import Mathlib.Algebra.Order.Ring.Rat

/-!
# C90: generators that are added late to a `StreamingCalculator`
-/

namespace Verif
open Spec

/-- The calls of a session of a `StreamingCalculator` with windows of 3 and `M` points and `m = 2`: points, a generator, a consumer, more points, columns. -/
def lateActs (queryBefore queryAfter : List (Fl ℚ)) : List (Act Unit (List (CEvent ℚ)) (Streaming.Op ℚ)) :=
  [.call [] (.series (.d2 [[.fin 1, .fin 2, .fin 3]] 3)), .call [] (.query (.d2 [queryBefore] queryBefore.length)), .generator () 0, .consumer [] [0],
   .call [0] (.query (.d2 [queryAfter] queryAfter.length)), .call [0] (.series (.d2 [[.fin 0, .fin 0, .fin 9]] 3)), .call [0] (.columns (fun _ => false) (.float (.fin 1)))]

instance : DecidableEq (List (List (Int × List (List (Fl ℚ))))) :=
  haveI : DecidableEq (List (List (Fl ℚ))) := inferInstance
  inferInstance

/-- C90 does not hold for generators that are added late. The windows hold the series 0, 0, 9 and the query 6, 7, 8, of which the generator has only been given
7 and 8. Nothing raises, and both rows of each column are delivered with the distance of the second (squared distances; those of the first row are 85 and 40). -/
theorem C90_late_wrong : (streamSession (recorder (Eucl.genOps zeroMem (fun x : ℚ => x))) (fun _ : Unit => Eucl.streaming zeroMem 2) 2 3 (some 3) 1 none
      (lateActs [.fin 4, .fin 5, .fin 6] [.fin 7, .fin 8])).map (fun l => l.map fun x => x.1.map fun
        | .column c v => (c, v) | .diagonal d v => (d, v) | .shiftSeries n => (n, []) | .shiftQuery n => (n, [])) =
    .ok [[(2, []), (3, []), (0, [[.fin 113, .fin 113]]), (1, [[.fin 50, .fin 50]])]] := by
  decide +kernel

/-- Otherwise an exception: here the generator has been given three of the four points of the query. -/
theorem C90_late_raises : (streamSession (recorder (Eucl.genOps zeroMem (fun x : ℚ => x))) (fun _ : Unit => Eucl.streaming zeroMem 2) 2 3 (some 4) 1 none
      (lateActs [.fin 4, .fin 5, .fin 6] [.fin 7, .fin 8, .fin 9])).map (fun _ => ()) = .error .valueError := by
  decide +kernel

end Verif
