import Verif.Spec.ZNorm
import Mathlib.Order.Bounds.Basic

/-!
# Specification vocabulary: consensus motifs

Nothing here refers to the model.
-/

namespace Verif.Spec

/-- Series `i` has a subsequence of length `m` at `a`. -/
def IsSub (m : Nat) (series : List (List ℝ)) (i a : Nat) : Prop := ∃ s, series[i]? = some s ∧ a + m ≤ s.length

/-- `x` is the distance of subsequence `a` of series `i` to its best match in series `j`. -/
def IsMatch (m : Nat) (series : List (List ℝ)) (i a j : Nat) (x : ℝ) : Prop :=
  ∃ s q, series[i]? = some s ∧ series[j]? = some q ∧
    IsLeast {d | ∃ b, b + m ≤ q.length ∧ d = zdist m 0 (seqOf s) (seqOf q) b a} x

/-- `r` is the radius of subsequence `a` of series `i`: its largest best-match distance to the other series. -/
def IsRadius (m : Nat) (series : List (List ℝ)) (i a : Nat) (r : ℝ) : Prop :=
  IsGreatest {x | ∃ j, j < series.length ∧ j ≠ i ∧ IsMatch m series i a j x} r

/-- `r` is the radius of subsequence `a` of series `i` when only `k - 1` of the other series need a match: the smallest `r` within which
`k - 1` other series have a match, that is, the `(k - 1)`-th smallest best-match distance. -/
def IsSubsetRadius (m : Nat) (series : List (List ℝ)) (k i a : Nat) (r : ℝ) : Prop :=
  IsLeast {r | ∃ J : Finset Nat, J.card = k - 1 ∧ ∀ j ∈ J, j < series.length ∧ j ≠ i ∧ ∃ x ≤ r, IsMatch m series i a j x} r

/-- `r` is the `p`-th largest element of a list (counted with multiplicity). -/
def IsKthLargest {K : Type} [LinearOrder K] (p : Nat) (l : List K) (r : K) : Prop :=
  p ≤ l.countP (fun x => decide (r ≤ x)) ∧ l.countP (fun x => decide (r < x)) < p

/-- `r` is the `p`-th largest of the best-match distances of subsequence `a` of series `i` to the series `js` (which may be listed more
than once). -/
def IsListRadius (m : Nat) (series : List (List ℝ)) (p : Nat) (js : List Nat) (i a : Nat) (r : ℝ) : Prop :=
  ∃ ds : List ℝ, List.Forall₂ (IsMatch m series i a) js ds ∧ IsKthLargest p ds r

/-- The radius profile entry when only the `k` best matching of the other series count (`none`: all of them). -/
def IsKRadius (m : Nat) (series : List (List ℝ)) (kBest : Option Nat) (i a : Nat) (r : ℝ) : Prop :=
  match kBest with
  | none => IsRadius m series i a r
  | some k => IsSubsetRadius m series (k + 1) i a r

end Verif.Spec
