import Verif.Model.ZNormEuclidean

/-!
# Model of `distancematrix/ostinato.py`: `find_consensus_motif`

Series are 1-D by type (the `ndim` guards 37-38, 140-141 are not modelled). `np.argsort` is an arbitrary sorting permutation
(`argsort`). The search loops are written over generators of an arbitrary state type `G`, used through `calc_column` only; the
state of a generator is threaded through the calls, as `calc_column` updates its caches. The statistics buffers shared by the
generators (61) are never changed after their construction, so every generator carries them by value.
-/

namespace Verif

/-- `CMResult`, ostinato.py:11 -/
structure CMResult (K : Type) where
  radius : Fl K
  series : Int
  subseq : Int

namespace Ostinato

/-- Python's `max(a, b)`, ostinato.py:98, 191 -/
def pyMax {K : Type} [LinearOrder K] (a b : Fl K) : Fl K := if a.ltF b then b else a

/-- The guards of `find_consensus_motif`, ostinato.py:29-38 -/
def guards {K : Type} (series : List (List (Fl K))) (m : Int) : Except PyErr Unit :=
  if series.length < 2 then .error .runtimeError
  else if m < 3 then .error .runtimeError
  else if series.any fun s => decide ((s.length : Int) < m) then .error .runtimeError
  else .ok ()

section Search
variable {G K : Type} [LinearOrder K]

/-- `cached_generators`, ostinato.py:45, 62: the generator of a pair of series, if there is one. -/
abbrev Gens (G : Type) := Nat → Nat → Option G

/-- `cached_generators[i, j]` (a missing key raises; `KeyError` is shown as `IndexError`). -/
def Gens.get (gens : Gens G) (i j : Nat) : Except PyErr G :=
  match gens i j with
  | some g => .ok g
  | none => .error .indexError

/-- The generator object of a pair after a method call. -/
def Gens.set (gens : Gens G) (i j : Nat) (g : G) : Gens G := fun i' j' => if i' = i ∧ j' = j then some g else gens i' j'

/-- `mp[col] = np.min(dist_calc.calc_column(col))` for the given columns, ostinato.py:72-74. -/
def profile (ask : G → Int → Except PyErr (G × List (Fl K))) : G → List Nat → Except PyErr (G × List (Fl K))
  | g, [] => .ok (g, [])
  | g, c :: cs => do
      let (g, d) ← ask g c
      let x ← npMin d
      let (g, xs) ← profile ask g cs
      return (g, x :: xs)

/-- The loop over the other series, ostinato.py:89-103, for the remaining indices. Returns the generators, `candidate_radius`
and `aborted`. -/
def checkOthers (ask : G → Int → Except PyErr (G × List (Fl K))) (i next a : Nat) (best : Fl K) :
    Gens G → Fl K → List Nat → Except PyErr (Gens G × Fl K × Bool)
  | gens, r, [] => .ok (gens, r, false)
  | gens, r, j :: js =>
      if j = i ∨ j = next then checkOthers ask i next a best gens r js
      else do
        let g ← gens.get i j
        let (g, d) ← ask g a
        let x ← npMin d
        if best.leF (pyMax r x) then .ok (gens.set i j g, pyMax r x, true)
        else checkOthers ask i next a best (gens.set i j g) (pyMax r x) js

/-- ostinato.py:106-107 -/
def improve (best : CMResult K) (r : Fl K) (aborted : Bool) (i a : Nat) : CMResult K :=
  if aborted = false ∧ r.ltF best.radius = true then ⟨r, i, a⟩ else best

/-- The loop over the candidates, ostinato.py:80-107, for the remaining candidates. -/
def searchCandidates (ask : G → Int → Except PyErr (G × List (Fl K))) (n i next : Nat) (mp : List (Fl K)) :
    Gens G → CMResult K → List Nat → Except PyErr (Gens G × CMResult K)
  | gens, best, [] => .ok (gens, best)
  | gens, best, a :: as => do
      let r ← pyGet mp a
      if best.radius.leF r then .ok (gens, best)
      else
        let (gens, r, aborted) ← checkOthers ask i next a best.radius gens r (List.range n)
        searchCandidates ask n i next mp gens (improve best r aborted i a) as

/-- The loop over the series, ostinato.py:65-107, for the remaining series. -/
def searchSeries (ask : G → Int → Except PyErr (G × List (Fl K))) (argsort : List (Fl K) → List Nat) (series : List (List (Fl K)))
    (m : Int) : Gens G → CMResult K → List Nat → Except PyErr (CMResult K)
  | _, best, [] => .ok best
  | gens, best, i :: is => do
      let next := (i + 1) % series.length
      let active ← pyGet series i
      let g ← gens.get i next
      let (g, mp) ← profile ask g (List.range ((active.length : Int) - m + 1).toNat)
      let (gens, best) ← searchCandidates ask series.length i next mp (gens.set i next g) best (argsort mp)
      searchSeries ask argsort series m gens best is

end Search

/-- `mus`, `stds`, `stdsz` of one series, ostinato.py:50-53 -/
noncomputable def stats (mem : ZN.Mem) (m : Int) (series : List (Fl ℝ)) : Except PyErr ZStats := do
  let (mu, std) ← slidingMeanStd series m
  let a ← RB.init (some ([], mu)) none false (mem.real (RB.capacity 1 mu.length))
  let b ← RB.init (some ([], std)) none false (mem.real (RB.capacity 1 std.length))
  let c ← RB.init (some ([], std.map fun x => decide (x > ZN.flat))) none false (mem.bool (RB.capacity 1 std.length))
  return { mu := a, std := b, nz := c }

/-- The generator of a pair of series, ostinato.py:60-61 (the constructor: znorm_euclidean.py:118-150) -/
noncomputable def pairGen (mem : ZN.Mem) (m : Int) (s1 s2 : List (Fl ℝ)) (st1 st2 : ZStats) : Except PyErr ZN := do
  let a ← RB.init (some ([], s1)) none false (mem.fl (RB.capacity 1 s1.length))
  let b ← RB.init (some ([], s2)) none false (mem.fl (RB.capacity 1 s2.length))
  return { core := { m := m, series := a, query := some b, firstRow := none, backlog := 0, prevIdx := none, prev := [] },
           noise := 0, sStats := st1, qStats := some st2 }

/-- `cached_generators`, ostinato.py:56-62 -/
noncomputable def pairGens (mem : ZN.Mem) (m : Int) (series : List (List (Fl ℝ))) (sts : List ZStats) : Except PyErr (Gens ZN) := do
  let rows ← (List.range series.length).mapM fun i : Nat => (List.range series.length).mapM fun j : Nat =>
    if i = j then .ok none
    else do
      let s1 ← pyGet series i
      let s2 ← pyGet series j
      let st1 ← pyGet sts i
      let st2 ← pyGet sts j
      let g ← pairGen mem m s1 s2 st1 st2
      return some g
  return fun i j => (rows[i]?.bind fun r => r[j]?).join

/-- `find_consensus_motif`, ostinato.py:14-109 -/
noncomputable def findConsensusMotif (mem : ZN.Mem) (argsort : List (Fl ℝ) → List Nat) (series : List (List (Fl ℝ))) (m : Int) :
    Except PyErr (CMResult ℝ) := do
  guards series m
  let sts ← series.mapM (stats mem m)
  let gens ← pairGens mem m series sts
  searchSeries (ZN.calcColumn mem.fl) argsort series m gens ⟨.pinf, -1, -1⟩ (List.range series.length)

end Ostinato
end Verif
