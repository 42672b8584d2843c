import Verif.Model.Ostinato
import Verif.Model.EndToEnd
import Verif.Model.GenOps

/-!
# Model of `distancematrix/ostinato.py`: `find_consensus_motif_subset`

As in `Verif.Model.Ostinato`, series are 1-D by type and `np.argsort` is an arbitrary sorting permutation. `cached_generators` is a
list of generator states; the search is written over an arbitrary generator. Random shuffles (one per `AnytimeCalculator`) are
arbitrary functions.
-/

namespace Verif
namespace Ostinato

/-- The guards of `find_consensus_motif_subset`, ostinato.py:130-141 -/
def subsetGuards {K : Type} (series : List (List (Fl K))) (m k : Int) : Except PyErr Unit :=
  if series.length < 2 then .error .runtimeError
  else if m < 3 then .error .runtimeError
  else if k < 2 ∨ k > series.length then .error .runtimeError
  else if series.any fun s => decide ((s.length : Int) < m) then .error .runtimeError
  else .ok ()

section Search
variable {G K : Type} [LinearOrder K]

/-- The loop over the not yet calculated series, ostinato.py:179-191, for the remaining values of `other_series_idx`; `w` is
`active_series[subseq_idx: subseq_idx + m]`. Returns the generators, `candidate_radii` and `aborted`. -/
def checkRest (gops : GenOps G K) (w : List (Fl K)) (best : Fl K) : List G → List (Fl K) → List Nat → Except PyErr (List G × List (Fl K) × Bool)
  | gens, radii, [] => .ok (gens, radii, false)
  | gens, radii, o :: os => do
      let r0 ← pyGet (npSort radii) 0
      if best.leF r0 then .ok (gens, npSort radii, true)
      else
        let g ← pyGet gens o
        let g ← gops.appendSeries g w
        let (g, d) ← gops.calcColumn g 0
        let x ← npMin d
        let radii ← pySet (npSort radii) 0 (pyMax r0 x)
        let gens ← pySet gens o g
        checkRest gops w best gens radii os

/-- ostinato.py:193-196 -/
def improveMin (best : CMResult K) (radii : List (Fl K)) (aborted : Bool) (i a : Nat) : Except PyErr (CMResult K) :=
  if aborted then .ok best
  else do
    let r ← npMin radii
    return if r.ltF best.radius then ⟨r, i, a⟩ else best

/-- The loop over the candidates, ostinato.py:170-196, for the remaining candidates; `others` are the values of `other_series_idx`. -/
def subsetCandidates (gops : GenOps G K) (others : List Nat) (i : Nat) (active : List (Fl K)) (m : Int) (mps : List (List (Fl K))) :
    List G → CMResult K → List Nat → Except PyErr (List G × CMResult K)
  | gens, best, [] => .ok (gens, best)
  | gens, best, a :: as => do
      let radii ← mps.mapM (pyGet · a)
      let (gens, radii, aborted) ← checkRest gops (pySlice active a (a + m)) best.radius gens radii others
      let best ← improveMin best radii aborted i a
      subsetCandidates gops others i active m mps gens best as

/-- `next_mps`, ostinato.py:161-165; `calcMP t active next` is `_calculate_mp(m, active, next)`. -/
def nextMps (calcMP : Nat → List (Fl K) → List (Fl K) → Except PyErr (List (Fl K))) (series : List (List (Fl K))) (ignored i : Nat)
    (active : List (Fl K)) (num : Nat) : Except PyErr (List (List (Fl K))) :=
  (List.range (ignored + 1)).mapM fun t => do
    let next ← pyGet series (((i + 1 + t) % series.length : Nat) : Int)
    let p ← calcMP t active next
    npRow num p

/-- `np.min(next_mps, axis=0)`, ostinato.py:167 -/
def columnMins (mps : List (List (Fl K))) (num : Nat) : Except PyErr (List (Fl K)) :=
  (List.range num).mapM fun c : Nat => do npMin (← mps.mapM (pyGet · c))

/-- The loop over the series, ostinato.py:155-196, for the remaining series; `others i` are the values of `other_series_idx`. -/
def subsetSeries (gops : GenOps G K) (calcMP : Nat → Nat → List (Fl K) → List (Fl K) → Except PyErr (List (Fl K)))
    (argsort : List (Fl K) → List Nat) (series : List (List (Fl K))) (m : Int) (ignored : Nat) (others : Nat → List Nat) :
    List G → CMResult K → List Nat → Except PyErr (CMResult K)
  | _, best, [] => .ok best
  | gens, best, i :: is => do
      let active ← pyGet series i
      let num := ((active.length : Int) - m + 1).toNat
      let mps ← nextMps (calcMP i) series ignored i active num
      let mins ← columnMins mps num
      let (gens, best) ← subsetCandidates gops (others i) i active m mps gens best (argsort mins)
      subsetSeries gops calcMP argsort series m ignored others gens best is

end Search

/-- `_calculate_mp`, ostinato.py:201-209 -/
noncomputable def calculateMP (mem : ZN.Mem) (shuffle : List Int → List Int) (m : Int) (series query : List (Fl ℝ)) : Except PyErr (List (Fl ℝ)) := do
  let p ← matrixProfile (ZN.genOps mem) (ZN.prepare mem 0) shuffle true m series (some query) none
  return MP.merged p.left p.right

/-- A generator of `cached_generators`, ostinato.py:151-152 (`ZNormEuclidean()` has the default arguments `noise_std=0.`,
`rb_scale_factor=2.`, znorm_euclidean.py:36) -/
noncomputable def queryGen (mem : ZN.Mem) (m : Int) (series : List (Fl ℝ)) : Except PyErr ZN := do
  let g ← ZN.streaming mem 0 2 m m (some series.length)
  (ZN.genOps mem).appendQuery g series

/-- `find_consensus_motif_subset`, ostinato.py:112-198, for given values of `other_series_idx` (`others ignored n i`). `shuffle i t` is the
shuffle made for series `i` and its `t`-th next one. -/
noncomputable def subsetSearch (others : Nat → Nat → Nat → List Nat) (mem : ZN.Mem) (shuffle : Nat → Nat → List Int → List Int)
    (argsort : List (Fl ℝ) → List Nat) (series : List (List (Fl ℝ))) (m k : Int) : Except PyErr (CMResult ℝ) := do
  subsetGuards series m k
  let gens ← series.mapM (queryGen mem m)
  subsetSeries (ZN.genOps mem) (fun i t => calculateMP mem (shuffle i t) m) argsort series m (series.length - k.toNat)
    (others (series.length - k.toNat) series.length) gens ⟨.pinf, -1, -1⟩ (List.range series.length)

/-- The values of `other_series_idx` in the order in which they are used, ostinato.py:179-180: the index does not depend on `j`. -/
def codeOthers (ignored n i : Nat) : List Nat := (List.range (n - ignored - 2)).map fun _j => (i + ignored + 2) % n

/-- `find_consensus_motif_subset`, ostinato.py:112-198 -/
noncomputable def findConsensusMotifSubset := subsetSearch codeOthers

end Ostinato
end Verif
