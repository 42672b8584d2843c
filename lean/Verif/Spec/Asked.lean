import Verif.Spec.StreamFeed

/-!
# Specification vocabulary: what a streaming calculator was asked

Two clients that append the same points before each `calculate_columns`, however they cut them into `append_series` and `append_query`
calls, have asked the same. Nothing here refers to the model.
-/

namespace Verif.Spec
variable {α K : Type}

/-- For each `calculate_columns(upto)` all points of the series and of the query that were appended before it, and `upto`; at the end all points
that were appended. -/
def asked (s q : List α) : List (MOp α) → List (List α × List α × Option Int)
  | [] => [(s, q, none)]
  | .series v :: us => asked (s ++ v) q us
  | .query v :: us => asked s (q ++ v) us
  | .columns k :: us => (s, q, some k) :: asked s q us

/-- The columns that a consumer receives, with their positions in the streams: by how much the series window and the query window had moved
(`ss`, `qs` at the beginning), the position of the column in the series, the distances. -/
def located (ss qs : Int) : List (CEvent K) → List (Int × Int × Int × List (List (Fl K)))
  | [] => []
  | .column c v :: es => (ss, qs, ss + c, v) :: located ss qs es
  | .diagonal _ _ :: es => located ss qs es
  | .shiftSeries n :: es => located (ss + n) qs es
  | .shiftQuery n :: es => located ss (qs + n) es

/-- By how much the windows have moved in the end. -/
def travelled (ss qs : Int) : List (CEvent K) → Int × Int
  | [] => (ss, qs)
  | .column _ _ :: es => travelled ss qs es
  | .diagonal _ _ :: es => travelled ss qs es
  | .shiftSeries n :: es => travelled (ss + n) qs es
  | .shiftQuery n :: es => travelled ss (qs + n) es

end Verif.Spec
