import Verif.Spec.Stream
import Verif.Spec.Stats

/-!
# Specification vocabulary: distance generators over two windows of streams

Nothing here refers to the model.
-/

namespace Verif.Spec
open Finset
variable {K : Type}

/-- Squared Euclidean distance of the length-`m` subsequences starting at `q i` and `s j`. -/
def sqd [Field K] (m : Nat) (s q : Nat → K) (i j : Nat) : K := ∑ k ∈ range m, (s (j + k) - q (i + k)) ^ 2

/-- A call made to a distance generator. -/
inductive GOp (K : Type)
  | series (v : List K)
  | query (v : List K)
  | column (c : Nat)
  | diag (d : Int)

/-- What a client knows about a generator: the two data windows, and the position (in the current series window, negative
once it has scrolled out) of the column asked for last, if neither the query nor, in a self-join, the series changed since.
The flag is only used to state which columns the code gets right: it becomes `false` when the series window is extended by
`n` points while it is not full and has fewer than `2 n` places left. -/
structure GSt (K : Type) where
  s : List K
  q : List K
  last : Option (Int × Bool)

/-- Effect of a call on the windows. `N`, `M`: window lengths, `M = none` for a self-join. -/
def GSt.step (N : Nat) (M : Option Nat) (st : GSt K) : GOp K → GSt K
  | .series v =>
      if v.length = 0 then st
      else match M with
        | none => ⟨lastN N (st.s ++ v), lastN N (st.s ++ v), none⟩
        | some _ => ⟨lastN N (st.s ++ v), st.q,
            st.last.map fun l => (l.1 - ((st.s.length + v.length - N : Nat) : Int),
              l.2 && (decide (st.s.length = N) || decide (st.s.length + 2 * v.length ≤ N)))⟩
  | .query v =>
      match M with
        | none => st
        | some M => if v.length = 0 then st else ⟨st.s, lastN M (st.q ++ v), none⟩
  | .column c => { st with last := some (c, true) }
  | .diag _ => st

/-- The windows after a sequence of calls. -/
def GSt.run (N : Nat) (M : Option Nat) (st : GSt K) (ops : List (GOp K)) : GSt K := ops.foldl (GSt.step N M) st

/-- Calls that make sense: existing columns and diagonals, no query data in a self-join. -/
def GSt.Valid (m : Nat) (M : Option Nat) (st : GSt K) : GOp K → Prop
  | .series _ => True
  | .query _ => M ≠ none
  | .column c => c + m ≤ st.s.length ∧ m ≤ st.q.length
  | .diag d => d + m ≤ st.s.length ∧ -d + m ≤ st.q.length ∧ m ≤ st.s.length ∧ m ≤ st.q.length

/-- Columns the caching code gets right: after a series append that leaves the flag `false` only columns to the right of the
one calculated last. -/
def GSt.Safe (st : GSt K) : GOp K → Prop
  | .column c => ∀ t e, st.last = some (t, e) → e = true ∨ t < c
  | _ => True

end Verif.Spec

namespace Verif.Spec
variable {K : Type}

/-- `p` holds at every call of a sequence of calls, together with the windows at that moment. -/
def GSt.All (N : Nat) (M : Option Nat) (p : GSt K → GOp K → Prop) (st : GSt K) : List (GOp K) → Prop
  | [] => True
  | op :: ops => p st op ∧ GSt.All N M p (st.step N M op) ops

/-- Number of cells on diagonal `d` of the matrix of all pairs of subsequences. -/
def diagEntries (m nq ns : Nat) (d : Int) : Nat := min (nq - (-d).toNat) (ns - d.toNat) + 1 - m

end Verif.Spec
