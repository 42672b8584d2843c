import Verif.Py
import Verif.Spec.Gen

/-!
# Specification vocabulary: invalid points and subsequences

Nothing here refers to the model of the filter generator.
-/

namespace Verif.Spec
variable {α K : Type}

/-- Subsequence `l[i:i+m]` contains an invalid point. -/
def hasInvalid (p : α → Bool) (m : Nat) (l : List α) (i : Nat) : Bool := ((l.drop i).take m).any p

/-- The number of a valid point, 0 for an invalid one. -/
def cleanPoint [Zero K] (p : Fl K → Bool) (x : Fl K) : K :=
  if p x then 0 else match x with
    | .fin y => y
    | _ => 0

/-- What the wrapped generator has to serve for one request: data with the invalid points set to 0, and no columns of invalid
subsequences. -/
def cleanOp [Zero K] (p : Fl K → Bool) (m : Nat) (st : GSt (Fl K)) : GOp (Fl K) → List (GOp K)
  | .series v => [.series (v.map (cleanPoint p))]
  | .query v => [.query (v.map (cleanPoint p))]
  | .column c => if hasInvalid p m st.s c then [] else [.column c]
  | .diag d => [.diag d]

/-- The same for a sequence of requests. -/
def cleanOps [Zero K] (p : Fl K → Bool) (m N : Nat) (M : Option Nat) : GSt (Fl K) → List (GOp (Fl K)) → List (GOp K)
  | _, [] => []
  | st, op :: ops => cleanOp p m st op ++ cleanOps p m N M (st.step N M op) ops

/-- The cleaned windows of a client. -/
def cleanSt [Zero K] (p : Fl K → Bool) (st : GSt (Fl K)) (last : Option (Int × Bool)) : GSt K :=
  ⟨st.s.map (cleanPoint p), st.q.map (cleanPoint p), last⟩

end Verif.Spec

namespace Verif.Spec
variable {K : Type}

/-- What a filter over the distance `D` has to report for the pair of subsequences `q[i:i+m]`, `s[j:j+m]` of the original data. -/
def Filtered (p : Fl K → Bool) (m : Nat) (D : List K → List K → Fl K) (s q : List (Fl K)) (i j : Nat) (x : Fl K) : Prop :=
  (hasInvalid p m s j = true ∨ hasInvalid p m q i = true → x = .pinf) ∧
  (hasInvalid p m s j = false → hasInvalid p m q i = false →
    ∃ a b : List K, (s.drop j).take m = a.map .fin ∧ (q.drop i).take m = b.map .fin ∧ x = D a b)

/-- Appends are non-empty. -/
def GOp.NonEmpty {α : Type} : GOp α → Prop
  | .series v => v ≠ []
  | .query v => v ≠ []
  | _ => True

end Verif.Spec
