import Verif.Spec.Stream

/-!
# Specification vocabulary: the distance matrix of two streams

Positions are positions in the whole streams, so that they do not move when the windows do. Nothing here refers to the model.
-/

namespace Verif.Spec
variable {K : Type}

/-- What a client has done so far: all points appended, the first column right of all calculated ones, and the calculated pairs
(row, column). In a self-join `q` equals `s`. -/
structure MSt (K : Type) where
  s : List K
  q : List K
  next : Nat
  done : Nat → Nat → Prop

/-- A call: `append_series`, `append_query`, `calculate_columns(upto)`, where `upto` counts columns of the window. -/
inductive MOp (K : Type)
  | series (v : List K)
  | query (v : List K)
  | columns (upto : Int)

/-- Window lengths `N` and `M` (`none`: self-join), subsequence length `m`. `calculate_columns` fills the columns of the window that are
right of the last one calculated and left of `upto`, for the rows that the query window has at that moment. -/
def MSt.step (m N : Nat) (M : Option Nat) (st : MSt K) : MOp K → MSt K
  | .series v => { st with s := st.s ++ v, q := if M.isNone then st.q ++ v else st.q }
  | .query v => { st with q := st.q ++ v }
  | .columns upto =>
      let stop := st.s.length - N + min upto.toNat ((lastN N st.s).length + 1 - m)
      { st with next := max st.next stop
                done := fun r c => st.done r c ∨ (max st.next (st.s.length - N) ≤ c ∧ c < stop ∧
                  st.q.length - M.getD N ≤ r ∧ r + m ≤ st.q.length) }

/-- Nothing appended, nothing calculated. -/
def MSt.init : MSt K := ⟨[], [], 0, fun _ _ => False⟩

def MSt.run (m N : Nat) (M : Option Nat) (st : MSt K) (ops : List (MOp K)) : MSt K := ops.foldl (MSt.step m N M) st

/-- `p` holds at every call. -/
def MSt.All (m N : Nat) (M : Option Nat) (p : MSt K → MOp K → Prop) (st : MSt K) : List (MOp K) → Prop
  | [] => True
  | op :: ops => p st op ∧ MSt.All m N M p (st.step m N M op) ops

/-- Calls that make sense: no query points in a self-join; columns are only asked for when the query has a subsequence (or the series
has none either). -/
def MSt.Valid (m : Nat) (M : Option Nat) (st : MSt K) : MOp K → Prop
  | .series _ => True
  | .query _ => M ≠ none
  | .columns _ => m ≤ st.s.length → m ≤ st.q.length

end Verif.Spec
